import Verif.Lemmas.DepthMap
import Verif.Spec.DepthMap
import Verif.Lemmas.Geometry3
import Mathlib.Tactic.NormNum
import Mathlib.Tactic.FinCases
import Mathlib.Tactic.Positivity
import Mathlib.Tactic.FieldSimp
import Mathlib.Data.Finset.Prod
import Mathlib.Data.Fintype.Card

/-
Properties of the depth image: the organised cloud and the alignment with the colour image.
-/
set_option linter.unusedSimpArgs false

namespace RgbdSlam.DepthMap

open Geometry Spec

theorem ok_ite_some {α : Type} {c : Prop} [Decidable c] {x y : α}
    (h : (Outcome.ok (if c then some x else none) : Outcome (Option α)) = .ok (some y)) : c ∧ x = y := by
  split_ifs at h with hc
  · exact ⟨hc, Option.some.inj (Outcome.ok.inj h)⟩
  · cases Outcome.ok.inj h

/-! ## C39: the organised cloud -/

/-- C39: pixels and slots of the array are in bijection. -/
theorem C39_bijection {size width height : ℕ} (hs : 0 < size) (hw : size ∣ width) (hh : size ∣ height) :
    Set.BijOn (fun p : ℕ × ℕ => cellIndex width size p.1 p.2) {p | InImage width height p}
      {k | k < width * height} := by
  have hmap : Set.MapsTo (fun p : ℕ × ℕ => cellIndex width size p.1 p.2) {p | InImage width height p}
      {k | k < width * height} := fun p hp => cellIndex_lt hs hw hh hp.1 hp.2
  have hinj : Set.InjOn (fun p : ℕ × ℕ => cellIndex width size p.1 p.2) {p | InImage width height p} := by
    intro p hp q hq h
    obtain ⟨h1, h2⟩ := cellIndex_inj hs hw hp.2 hq.2 h
    exact Prod.ext h1 h2
  refine ⟨hmap, hinj, ?_⟩
  have := Finset.surjOn_of_injOn_of_card_le (s := Finset.range height ×ˢ Finset.range width)
    (t := Finset.range (width * height)) (fun p : ℕ × ℕ => cellIndex width size p.1 p.2)
    (fun p hp => by
      have := Finset.mem_product.1 hp
      exact Finset.mem_coe.2 (Finset.mem_range.2
        (hmap ⟨Finset.mem_range.1 this.1, Finset.mem_range.1 this.2⟩)))
    (fun p hp q hq h => by
      have h1 := Finset.mem_product.1 (Finset.mem_coe.1 hp)
      have h2 := Finset.mem_product.1 (Finset.mem_coe.1 hq)
      exact hinj ⟨Finset.mem_range.1 h1.1, Finset.mem_range.1 h1.2⟩
        ⟨Finset.mem_range.1 h2.1, Finset.mem_range.1 h2.2⟩ h)
    (by simp [Finset.card_product, Nat.mul_comm])
  intro k hk
  obtain ⟨p, hp, h⟩ := this (Finset.mem_coe.2 (Finset.mem_range.2 hk))
  have := Finset.mem_product.1 (Finset.mem_coe.1 hp)
  exact ⟨p, ⟨Finset.mem_range.1 this.1, Finset.mem_range.1 this.2⟩, h⟩

/-- C39: the patch at (`patchRow`, `patchCol`), numbered by rows, occupies exactly the slots from
`number * size²` to `(number + 1) * size² - 1`. -/
theorem C39_patch_contiguous {size width row col : ℕ} (hs : 0 < size) (hw : size ∣ width)
    (hc : col < width) {patchRow patchCol : ℕ} (hp : patchCol < width / size) :
    (patchRow * size ≤ row ∧ row < (patchRow + 1) * size ∧
      patchCol * size ≤ col ∧ col < (patchCol + 1) * size) ↔
    ((patchRow * (width / size) + patchCol) * size ^ 2 ≤ cellIndex width size row col ∧
      cellIndex width size row col < (patchRow * (width / size) + patchCol + 1) * size ^ 2) := by
  have hss : 0 < size * size := Nat.mul_pos hs hs
  have h1 : ∀ a n : ℕ, (n * size ≤ a ∧ a < (n + 1) * size) ↔ a / size = n := by
    intro a n
    rw [Nat.div_eq_iff hs]
    rw [Nat.succ_mul]
    omega
  have h2 : ∀ a n : ℕ, (n * size ^ 2 ≤ a ∧ a < (n + 1) * size ^ 2) ↔ a / (size * size) = n := by
    intro a n
    rw [Nat.div_eq_iff hss, pow_two, Nat.succ_mul]
    omega
  rw [h2, cellIndex_div hs, ← and_assoc, h1, h1]
  constructor
  · rintro ⟨rfl, rfl⟩; rfl
  · intro h
    exact pair_inj (cell_lt hs hw hc) hp h

theorem cloudPixel_eq {cam : Pinhole} (hcam : cam.Valid) {width height size : ℕ} (hs : 0 < size)
    (hw : size ∣ width) (hh : size ∣ height) {depth : Image} {p : ℕ × ℕ} (hp : InImage width height p)
    (hd : depth p.1 p.2 ≤ 0 ∨ doubleEps < depth p.1 p.2) :
    cloudPixel cam.matrix width height size depth p =
      .ok (if 0 < depth p.1 p.2 then
        some (cellIndex width size p.1 p.2, measured cam p.1 p.2 (depth p.1 p.2)) else none) := by
  unfold cloudPixel
  by_cases hz : 0 < depth p.1 p.2
  · have hlt := cellIndex_lt hs hw hh hp.1 hp.2
    have he : doubleEqual (depth p.1 p.2) 0 = false := doubleEqual_zero.2 (by
      rw [abs_of_pos hz]; rcases hd with h | h
      · exact absurd hz (not_lt.2 h)
      · exact h)
    have hsc : screenToCamera cam.matrix ![(p.2 : ℝ), (p.1 : ℝ), depth p.1 p.2] =
        .ok (measured cam p.1 p.2 (depth p.1 p.2)) := by
      unfold screenToCamera
      rw [if_neg (by simp), if_neg (by simp), if_neg (by simpa using he), Pinhole.matrix,
        screenToCamera2_eq hcam.1 hcam.2]
      congr 1
      ext i
      fin_cases i <;> simp [measured] <;> ring
    simp only [if_pos hz, if_neg (not_le.2 hlt), hsc, Outcome.bind_ok]
    rfl
  · simp only [if_neg hz]

/-- C39: for every image whose positive depths are above the double precision, and for every
scheduling of the rows, the cloud is computed; the slot of a pixel holds the point that the camera
measures there, or zero when it has no depth. -/
theorem C39_cloud {cam : Pinhole} (hcam : cam.Valid) {width height size : ℕ} (hs : 0 < size)
    (hw : size ∣ width) (hh : size ∣ height) {depth : Image}
    (hd : ∀ p, InImage width height p → depth p.1 p.2 ≤ 0 ∨ doubleEps < depth p.1 p.2)
    {order : List (ℕ × ℕ)} (ho : Interleaving (imageRows width height) order) :
    ∃ cloud, organizedCloud cam.matrix width height size depth order = .ok cloud ∧
      ∀ p, InImage width height p → cloud (cellIndex width size p.1 p.2) =
        if 0 < depth p.1 p.2 then measured cam p.1 p.2 (depth p.1 p.2) else 0 := by
  have hmem : ∀ p, p ∈ order ↔ InImage width height p := fun p => by
    rw [ho.perm.mem_iff, mem_imageRows]; rfl
  have hf := fun p (hp : InImage width height p) => cloudPixel_eq hcam hs hw hh hp (hd p hp)
  obtain ⟨cloud, h1, h2, h3⟩ := runWrites_ok (f := cloudPixel cam.matrix width height size depth) order
    (fun _ => 0) (fun p hp => ⟨_, hf p ((hmem p).1 hp)⟩)
  refine ⟨cloud, by rw [organizedCloud, h1]; rfl, fun p hp => ?_⟩
  by_cases hz : 0 < depth p.1 p.2
  · obtain ⟨q, hq, hq'⟩ := h3 (cellIndex width size p.1 p.2) ⟨p, (hmem p).2 hp, _, by
      rw [hf p hp, if_pos hz]⟩
    rw [hf q ((hmem q).1 hq)] at hq'
    by_cases hzq : 0 < depth q.1 q.2
    · rw [if_pos hzq] at hq'
      obtain ⟨e1, e2⟩ := Prod.mk.inj (Option.some.inj (Outcome.ok.inj hq'))
      obtain ⟨r1, r2⟩ := cellIndex_inj hs hw ((hmem q).1 hq).2 hp.2 e1
      rw [if_pos hz, ← e2, r1, r2]
    · rw [if_neg hzq] at hq'; simp at hq'
  · rw [if_neg hz]
    refine h2 _ fun q hq c hc => ?_
    rw [hf q ((hmem q).1 hq)] at hc
    by_cases hzq : 0 < depth q.1 q.2
    · rw [if_pos hzq] at hc
      obtain ⟨e1, e2⟩ := Prod.mk.inj (Option.some.inj (Outcome.ok.inj hc))
      obtain ⟨r1, r2⟩ := cellIndex_inj hs hw ((hmem q).1 hq).2 hp.2 e1
      rw [r1, r2] at hzq
      exact hz hzq
    · rw [if_neg hzq] at hc; simp at hc

/-- The TUM camera, 640x480 in patches of 20 pixels, all depths at one metre. -/
example : ∃ (cam : Pinhole) (depth : Image), cam.Valid ∧ 20 ∣ 640 ∧ 20 ∣ 480 ∧
    (∀ p, InImage 640 480 p → depth p.1 p.2 ≤ 0 ∨ doubleEps < depth p.1 p.2) ∧
    Interleaving (imageRows 640 480) (imageRows 640 480).flatten :=
  ⟨⟨550, 550, 320, 240⟩, fun _ _ => 1000, by constructor <;> norm_num, by norm_num, by norm_num,
    fun p _ => Or.inr (by simp [doubleEps]; norm_num), interleaving_flatten _⟩

/-! ## C92: image sizes -/

/-- C92 is false when the width is not a multiple of the patch size: two pixels share a slot. -/
theorem C92_shared_slot_false {size width height : ℕ} (hs : 0 < size) (hw : width % size ≠ 0)
    (hh : size < height) :
    ∃ p q, InImage width height p ∧ InImage width height q ∧ p ≠ q ∧
      cellIndex width size p.1 p.2 = cellIndex width size q.1 q.2 := by
  have hlt : width / size * size < width := by
    have h := Nat.div_add_mod width size
    rw [Nat.mul_comm]; omega
  refine ⟨(0, width / size * size), (size, 0), ⟨by simp; omega, by simpa using hlt⟩,
    ⟨by simpa using hh, by simp; omega⟩, by simp; omega, ?_⟩
  simp [cellIndex, Nat.div_self hs, Nat.mul_div_cancel _ hs]

theorem last_pixel_index {size k height : ℕ} (hs : 0 < size) (hk : 1 < k) (hh : height % size ≠ 0) :
    size * k * height ≤ cellIndex (size * k) size (height - 1) (size * k - 1) := by
  set r := height % size with hr
  have hrlt : r < size := Nat.mod_lt _ hs
  have hdm := Nat.div_add_mod height size
  rw [← hr] at hdm
  have e1 : height - 1 = (r - 1) + height / size * size := by rw [Nat.mul_comm]; omega
  have e2 : size * k - 1 = (size - 1) + (k - 1) * size := by
    have : (k - 1) * size + size = size * k := by
      rw [← Nat.succ_mul, Nat.succ_eq_add_one, Nat.sub_add_cancel hk.le, Nat.mul_comm]
    omega
  rw [cellIndex_eq, Nat.mul_div_cancel_left _ hs, e1, e2, Nat.add_mul_div_right _ _ hs,
    Nat.add_mul_div_right _ _ hs, Nat.add_mul_mod_self_right, Nat.add_mul_mod_self_right,
    Nat.div_eq_of_lt (by omega : r - 1 < size), Nat.div_eq_of_lt (by omega : size - 1 < size),
    Nat.mod_eq_of_lt (by omega : r - 1 < size), Nat.mod_eq_of_lt (by omega : size - 1 < size),
    Nat.zero_add, Nat.zero_add]
  set d := height / size
  obtain ⟨m, rfl⟩ : ∃ m, k = m + 2 := ⟨k - 2, by omega⟩
  obtain ⟨t, ht⟩ : ∃ t, r = t + 1 := ⟨r - 1, by omega⟩
  obtain ⟨u, hu⟩ : ∃ u, size = t + 2 + u := ⟨size - t - 2, by omega⟩
  rw [← hdm, ht, hu]
  simp only [Nat.add_sub_cancel, show m + 2 - 1 = m + 1 by omega, show t + 2 + u - 1 = t + 1 + u by omega]
  nlinarith [Nat.zero_le (m * t), Nat.zero_le (m * u), Nat.zero_le (u * t), Nat.zero_le (m * u * u),
    Nat.zero_le (m * u * t), Nat.zero_le (u * u), Nat.zero_le m, Nat.zero_le u, Nat.zero_le t]

theorem one_lt_of_lt_mul {size k : ℕ} (h : size < size * k) : 1 < k := by
  rcases k with _ | _ | k
  · simp at h
  · simp at h
  · omega

/-- C92 is false when only the height is not a multiple: a valid pixel ends the program. -/
theorem C92_out_of_range_false {size width height : ℕ} (hw : size ∣ width)
    (hwide : size < width) (hh : height % size ≠ 0) :
    ∃ p, InImage width height p ∧ ∀ (K : M3) (depth : Image), 0 < depth p.1 p.2 →
      ∀ order, Interleaving (imageRows width height) order → ∀ cloud,
        organizedCloud K width height size depth order ≠ .ok cloud := by
  rcases Nat.eq_zero_or_pos size with rfl | hs
  · obtain ⟨k, rfl⟩ := hw; simp at hwide
  obtain ⟨k, rfl⟩ := hw
  have hk : 1 < k := one_lt_of_lt_mul hwide
  have hpos : 0 < size * k := by positivity
  have hidx := last_pixel_index hs hk hh
  have hh0 : 0 < height := Nat.pos_of_ne_zero fun h => hh (by simp [h])
  refine ⟨(height - 1, size * k - 1), ⟨by simp; omega, by simp; omega⟩, ?_⟩
  intro K depth hz order ho cloud h
  rw [organizedCloud, Outcome.noexcept_eq_ok] at h
  refine runWrites_fails order _ (height - 1, size * k - 1) ?_ ?_ cloud h
  · rw [ho.perm.mem_iff, mem_imageRows]
    exact ⟨by simp; omega, by simp; omega⟩
  · intro w hw
    unfold cloudPixel at hw
    simp only [if_pos hz, if_pos hidx] at hw
    cases hw

/-- C92 (partial: only multiples): for images larger than a patch, every pixel has its own slot inside the
array exactly when both dimensions are multiples of the patch size. -/
theorem C92_multiples_partial {size width height : ℕ} (hs : 0 < size) (hw : size < width) (hh : size < height) :
    (Set.InjOn (fun p : ℕ × ℕ => cellIndex width size p.1 p.2) {p | InImage width height p} ∧
      ∀ p, InImage width height p → cellIndex width size p.1 p.2 < width * height) ↔
    size ∣ width ∧ size ∣ height := by
  constructor
  · rintro ⟨hinj, hlt⟩
    have hdvd : size ∣ width := by
      by_contra h
      obtain ⟨p, q, hp, hq, hne, he⟩ := C92_shared_slot_false (height := height) hs
        (fun h0 => h (Nat.dvd_of_mod_eq_zero h0)) hh
      exact hne (hinj hp hq he)
    refine ⟨hdvd, ?_⟩
    by_contra h
    obtain ⟨k, rfl⟩ := hdvd
    have h1 := last_pixel_index (height := height) hs (one_lt_of_lt_mul hw)
      (fun h0 => h (Nat.dvd_of_mod_eq_zero h0))
    exact absurd (hlt (height - 1, size * k - 1) ⟨Nat.sub_lt (by omega) one_pos, Nat.sub_lt (by omega) one_pos⟩) (not_lt.2 h1)
  · rintro ⟨h1, h2⟩
    exact ⟨(C39_bijection hs h1 h2).injOn, fun p hp => (C39_bijection hs h1 h2).mapsTo hp⟩

/-- A depth camera of 848x480 pixels, in patches of 20. -/
example : ∃ p q, InImage 848 480 p ∧ InImage 848 480 q ∧ p ≠ q ∧
    cellIndex 848 20 p.1 p.2 = cellIndex 848 20 q.1 q.2 :=
  C92_shared_slot_false (by norm_num) (by norm_num) (by norm_num)

/-- Images of 640x350 pixels, in patches of 20. -/
example : (20 ∣ 640) ∧ 20 < 640 ∧ 350 % 20 ≠ 0 := by norm_num

/-! ## C40, C88-C91: alignment with the colour image -/

theorem rectifyPixel_skip {K : M3} {M : M4} {width height : ℕ} {depth : Image} {p : ℕ × ℕ}
    (h : depth p.1 p.2 ≤ 0) : rectifyPixel K M width height depth p = .ok none := by
  unfold rectifyPixel
  exact if_pos h

theorem moved_eq (R : M3) (t p : V3) : transformPoint (transformation R t) p = moved R t p := by
  rw [transformPoint, pointToWorld_transformation]
  funext i
  simp [moved, Matrix.mulVec, dotProduct, Fin.sum_univ_three]

/-- What is done with a pixel. -/
theorem rectifyPixel_eq {cam : Pinhole} (hcam : cam.Valid) {R : M3} {t : V3} {width height : ℕ}
    {depth : Image} {p : ℕ × ℕ} {q : V3} (hq : q = moved R t (measured cam p.1 p.2 (depth p.1 p.2)))
    (hz : 0 < depth p.1 p.2) (hq2 : q 2 ≠ 0)
    (hc : 0 ≤ seenCol cam q ∧ seenCol cam q < 2 ^ 32) (hr : 0 ≤ seenRow cam q ∧ seenRow cam q < 2 ^ 32) :
    rectifyPixel cam.matrix (transformation R t) width height depth p =
      .ok (if 0 < seenCol cam q ∧ 0 < seenRow cam q ∧ seenCol cam q < width ∧ seenRow cam q < height then
        some (((seenRow cam q).toNat, (seenCol cam q).toNat), q 2) else none) := by
  have hpre : (![screenToCamera2 cam.matrix ![(p.2 : ℝ), (p.1 : ℝ)] 0 * depth p.1 p.2,
      screenToCamera2 cam.matrix ![(p.2 : ℝ), (p.1 : ℝ)] 1 * depth p.1 p.2, depth p.1 p.2] : V3) =
      measured cam p.1 p.2 (depth p.1 p.2) := by
    rw [Pinhole.matrix, screenToCamera2_eq hcam.1 hcam.2]
    ext i
    fin_cases i <;> simp [measured] <;> ring
  have hs : cameraToScreen cam.matrix q =
      some ![cam.fx * q 0 / q 2 + cam.cx, cam.fy * q 1 / q 2 + cam.cy, q 2] := by
    rw [cameraToScreen, if_neg hq2, Pinhole.matrix, cameraToScreen2_eq]
    congr 1
    ext i
    fin_cases i <;> simp <;> field_simp
  unfold rectifyPixel
  simp only [if_neg (not_le.2 hz), hpre, moved_eq, ← hq, hs]
  have h1 : toUint (cam.fx * q 0 / q 2 + cam.cx) = .ok (seenCol cam q).toNat := if_pos hc
  have h2 : toUint (cam.fy * q 1 / q 2 + cam.cy) = .ok (seenRow cam q).toNat := if_pos hr
  have e0 : (![cam.fx * q 0 / q 2 + cam.cx, cam.fy * q 1 / q 2 + cam.cy, q 2] : V3) 0 =
    cam.fx * q 0 / q 2 + cam.cx := rfl
  have e1 : (![cam.fx * q 0 / q 2 + cam.cx, cam.fy * q 1 / q 2 + cam.cy, q 2] : V3) 1 =
    cam.fy * q 1 / q 2 + cam.cy := rfl
  rw [e0, e1, h1, Outcome.bind_ok, h2, Outcome.bind_ok]
  split_ifs with a b b
  · rfl
  · exact absurd ⟨by omega, by omega, by omega, by omega⟩ b
  · exact absurd ⟨by omega, by omega, by omega, by omega⟩ a
  · rfl

/-- Every measured point is in front of or behind the colour camera and projects neither left of nor
above its image (nor 2^32 pixels away). -/
def Tame (cam : Pinhole) (R : M3) (t : V3) (width height : ℕ) (depth : Image) : Prop :=
  ∀ p, InImage width height p → 0 < depth p.1 p.2 →
    let q := moved R t (measured cam p.1 p.2 (depth p.1 p.2))
    q 2 ≠ 0 ∧ (0 ≤ seenCol cam q ∧ seenCol cam q < 2 ^ 32) ∧ (0 ≤ seenRow cam q ∧ seenRow cam q < 2 ^ 32)

theorem Tame.ok {cam : Pinhole} (hcam : cam.Valid) {R : M3} {t : V3} {width height : ℕ} {depth : Image}
    (h : Tame cam R t width height depth) {p : ℕ × ℕ} (hp : InImage width height p) :
    ∃ w, rectifyPixel cam.matrix (transformation R t) width height depth p = .ok w := by
  by_cases hz : 0 < depth p.1 p.2
  · obtain ⟨h1, h2, h3⟩ := h p hp hz
    exact ⟨_, rectifyPixel_eq hcam rfl hz h1 h2 h3⟩
  · exact ⟨_, rectifyPixel_skip (not_lt.1 hz)⟩

/-- C40 (partial: no two pixels may land on the same pixel of the colour image): the aligned image is
the same for every scheduling of the rows. -/
theorem C40_schedule_independent_partial {cam : Pinhole} (hcam : cam.Valid) {R : M3} {t : V3}
    {width height : ℕ} {depth : Image} (htame : Tame cam R t width height depth)
    (hsep : ∀ p q, InImage width height p → InImage width height q → 0 < depth p.1 p.2 → 0 < depth q.1 q.2 →
      p ≠ q →
      seenCol cam (moved R t (measured cam p.1 p.2 (depth p.1 p.2))) ≠
        seenCol cam (moved R t (measured cam q.1 q.2 (depth q.1 q.2))) ∨
      seenRow cam (moved R t (measured cam p.1 p.2 (depth p.1 p.2))) ≠
        seenRow cam (moved R t (measured cam q.1 q.2 (depth q.1 q.2))))
    {order order' : List (ℕ × ℕ)} (ho : Interleaving (imageRows width height) order)
    (ho' : Interleaving (imageRows width height) order') :
    rectify cam.matrix (transformation R t) width height depth order =
      rectify cam.matrix (transformation R t) width height depth order' := by
  have hmem : ∀ p, p ∈ order → InImage width height p := fun p hp => by
    rw [ho.perm.mem_iff, mem_imageRows] at hp; exact hp
  rw [rectify, rectify, runWrites_perm (ho.perm.trans ho'.perm.symm) _
    (fun p hp => htame.ok hcam (hmem p hp))]
  intro p hp q hq b c c' h1 h2
  by_cases hzp : 0 < depth p.1 p.2
  swap
  · rw [rectifyPixel_skip (not_lt.1 hzp)] at h1; simp at h1
  by_cases hzq : 0 < depth q.1 q.2
  swap
  · rw [rectifyPixel_skip (not_lt.1 hzq)] at h2; simp at h2
  obtain ⟨a1, a2, a3⟩ := htame p (hmem p hp) hzp
  obtain ⟨b1, b2, b3⟩ := htame q (hmem q hq) hzq
  by_cases hpq : p = q
  · subst hpq
    rw [h1] at h2
    exact (Prod.mk.inj (Option.some.inj (Outcome.ok.inj h2))).2
  · rw [rectifyPixel_eq hcam rfl hzp a1 a2 a3] at h1
    rw [rectifyPixel_eq hcam rfl hzq b1 b2 b3] at h2
    have e1 := (Prod.mk.inj (ok_ite_some h1).2).1
    have e2 := (Prod.mk.inj (ok_ite_some h2).2).1
    rw [← e2] at e1
    obtain ⟨r, s⟩ := Prod.mk.inj e1
    rcases hsep p q (hmem p hp) (hmem q hq) hzp hzq hpq with h | h
    · exact absurd (by omega) h
    · exact absurd (by omega) h

theorem moved_shift (t p : V3) : moved 1 t p = ![p 0 + t 0, p 1 + t 1, p 2 + t 2] := by
  have h : ∀ i, moved 1 t p i = p i + t i := by
    intro i
    rw [← moved_eq, transformPoint, pointToWorld_transformation, Matrix.one_mulVec]
    rfl
  funext i
  rw [h]
  fin_cases i <;> rfl

theorem at2 (a b c : ℝ) : (![a, b, c] : V3) 2 = c := rfl

theorem seenCol_mk (cam : Pinhole) (a b c : ℝ) : seenCol cam ![a, b, c] = ⌊cam.fx * a / c + cam.cx⌋ := rfl

theorem seenRow_mk (cam : Pinhole) (a b c : ℝ) : seenRow cam ![a, b, c] = ⌊cam.fy * b / c + cam.cy⌋ := rfl

/-! A camera 4x4 pixels whose depth sensor is two units above: the pixels at rows 1 and 2 of column 1,
at depths 1 and 2, are seen by the colour camera on the same pixel. -/

noncomputable def exampleCam : Pinhole := ⟨1, 1, 0, 0⟩

theorem exampleCam_valid : exampleCam.Valid := by constructor <;> norm_num [exampleCam]

noncomputable def exampleDepth : Image := fun row col =>
  if col = 1 ∧ row = 1 then 1 else if col = 1 ∧ row = 2 then 2 else 0

theorem exampleDepth_pos {p : ℕ × ℕ} (h : 0 < exampleDepth p.1 p.2) : p = (1, 1) ∨ p = (2, 1) := by
  obtain ⟨r, c⟩ := p
  simp only [exampleDepth] at h
  split_ifs at h with a b
  · obtain ⟨rfl, rfl⟩ := a; exact Or.inl rfl
  · obtain ⟨rfl, rfl⟩ := b; exact Or.inr rfl
  · exact absurd h (lt_irrefl _)

theorem example_near : rectifyPixel exampleCam.matrix (transformation 1 ![0, 2, 0]) 4 4 exampleDepth (1, 1) =
    .ok (some ((3, 1), 1)) := by
  have hq : moved 1 ![0, 2, 0] (measured exampleCam 1 1 (exampleDepth 1 1)) = ![1, 3, 1] := by
    rw [moved_shift]
    norm_num [measured, exampleCam, exampleDepth, at2]
  have hc : seenCol exampleCam ![1, 3, 1] = 1 := by
    rw [seenCol_mk]; norm_num [exampleCam]
  have hr : seenRow exampleCam ![1, 3, 1] = 3 := by
    rw [seenRow_mk]; norm_num [exampleCam]
  have h2 : (![1, 3, 1] : V3) 2 = 1 := rfl
  rw [rectifyPixel_eq exampleCam_valid (p := (1, 1)) (q := ![1, 3, 1]) hq.symm (by norm_num [exampleDepth]) (by rw [h2]; norm_num)
    (by rw [hc]; norm_num) (by rw [hr]; norm_num), hc, hr, h2]
  rw [if_pos (by norm_num)]
  rfl

theorem example_far : rectifyPixel exampleCam.matrix (transformation 1 ![0, 2, 0]) 4 4 exampleDepth (2, 1) =
    .ok (some ((3, 1), 2)) := by
  have hq : moved 1 ![0, 2, 0] (measured exampleCam 2 1 (exampleDepth 2 1)) = ![2, 6, 2] := by
    rw [moved_shift]
    norm_num [measured, exampleCam, exampleDepth, at2]
  have hc : seenCol exampleCam ![2, 6, 2] = 1 := by
    rw [seenCol_mk]; norm_num [exampleCam]
  have hr : seenRow exampleCam ![2, 6, 2] = 3 := by
    rw [seenRow_mk]; norm_num [exampleCam]
  have h2 : (![2, 6, 2] : V3) 2 = 2 := rfl
  rw [rectifyPixel_eq exampleCam_valid (p := (2, 1)) (q := ![2, 6, 2]) hq.symm (by norm_num [exampleDepth]) (by rw [h2]; norm_num)
    (by rw [hc]; norm_num) (by rw [hr]; norm_num), hc, hr, h2]
  rw [if_pos (by norm_num)]
  rfl

theorem runWrites_append {α β γ : Type} [DecidableEq β] (f : α → Outcome (Option (β × γ))) :
    ∀ (l l' : List α) (out : β → γ),
      runWrites f (l ++ l') out = (runWrites f l out).bind (runWrites f l')
  | [], l', out => rfl
  | a :: l, l', out => by
    rw [List.cons_append, runWrites, runWrites]
    cases f a with
    | ok w => exact runWrites_append f l l' _
    | _ => rfl

theorem runWrites_skip {α β γ : Type} [DecidableEq β] {f : α → Outcome (Option (β × γ))} :
    ∀ (l : List α) (out : β → γ), (∀ a ∈ l, f a = .ok none) → runWrites f l out = .ok out
  | [], out, _ => rfl
  | a :: l, out, h => by
    rw [runWrites, h a List.mem_cons_self]
    exact runWrites_skip l out fun x hx => h x (List.mem_cons_of_mem _ hx)

theorem example_order {before middle after : List (ℕ × ℕ)} {a b : ℕ × ℕ} {x y : ℝ}
    (ha : rectifyPixel exampleCam.matrix (transformation 1 ![0, 2, 0]) 4 4 exampleDepth a = .ok (some ((3, 1), x)))
    (hb : rectifyPixel exampleCam.matrix (transformation 1 ![0, 2, 0]) 4 4 exampleDepth b = .ok (some ((3, 1), y)))
    (h1 : (1, 1) ∉ before ++ middle ++ after) (h2 : (2, 1) ∉ before ++ middle ++ after) :
    ∃ image, rectify exampleCam.matrix (transformation 1 ![0, 2, 0]) 4 4 exampleDepth
      (before ++ a :: (middle ++ b :: after)) = .ok image ∧ image (3, 1) = y := by
  have hskip : ∀ p ∈ before ++ middle ++ after,
      rectifyPixel exampleCam.matrix (transformation 1 ![0, 2, 0]) 4 4 exampleDepth p = .ok none := by
    intro p hp
    refine rectifyPixel_skip (not_lt.1 fun h => ?_)
    rcases exampleDepth_pos h with rfl | rfl
    · exact h1 hp
    · exact h2 hp
  refine ⟨Function.update (Function.update (fun _ => 0) (3, 1) x) (3, 1) y, ?_, ?_⟩
  · rw [rectify, runWrites_append, runWrites_skip before _ fun p hp => hskip p (by simp [hp]), Outcome.bind_ok,
      runWrites, ha, Outcome.bind_ok, runWrites_append,
      runWrites_skip middle _ fun p hp => hskip p (by simp [hp]), Outcome.bind_ok, runWrites, hb, Outcome.bind_ok,
      runWrites_skip after _ fun p hp => hskip p (by simp [hp])]
    rfl
  · simp

/-- C40 is false in general: a depth image for which two schedulings give different images. -/
theorem C40_schedule_false :
    ∃ (cam : Pinhole) (R : M3) (t : V3) (depth : Image) (order order' : List (ℕ × ℕ)) (a b : ℕ × ℕ → ℝ),
      cam.Valid ∧ Interleaving (imageRows 4 4) order ∧ Interleaving (imageRows 4 4) order' ∧
      rectify cam.matrix (transformation R t) 4 4 depth order = .ok a ∧
      rectify cam.matrix (transformation R t) 4 4 depth order' = .ok b ∧ a (3, 1) = 2 ∧ b (3, 1) = 1 := by
  obtain ⟨a, ha, ha'⟩ := example_order (before := [(0, 0), (0, 1), (0, 2), (0, 3), (1, 0)])
    (middle := [(1, 2), (1, 3), (2, 0)]) (after := [(2, 2), (2, 3), (3, 0), (3, 1), (3, 2), (3, 3)])
    example_near example_far (by decide) (by decide)
  obtain ⟨b, hb, hb'⟩ := example_order (before := [(0, 0), (0, 1), (0, 2), (0, 3), (2, 0)])
    (middle := [(2, 2), (2, 3), (1, 0)]) (after := [(1, 2), (1, 3), (3, 0), (3, 1), (3, 2), (3, 3)])
    example_far example_near (by decide) (by decide)
  refine ⟨exampleCam, 1, ![0, 2, 0], exampleDepth, _, _, a, b, exampleCam_valid, ?_, ?_, ha, hb, ha', hb'⟩
  · exact interleaving_flatten (imageRows 4 4)
  · have hrows : imageRows 4 4 = [[(0, 0), (0, 1), (0, 2), (0, 3)], [(1, 0), (1, 1), (1, 2), (1, 3)],
      [(2, 0), (2, 1), (2, 2), (2, 3)], [(3, 0), (3, 1), (3, 2), (3, 3)]] := rfl
    rw [hrows]
    refine .step 0 _ _ rfl <| .step 0 _ _ rfl <| .step 0 _ _ rfl <| .step 0 _ _ rfl <|
      .step 2 _ _ rfl <| .step 2 _ _ rfl <| .step 2 _ _ rfl <| .step 2 _ _ rfl <|
      .step 1 _ _ rfl <| .step 1 _ _ rfl <| .step 1 _ _ rfl <| .step 1 _ _ rfl <|
      .step 3 _ _ rfl <| .step 3 _ _ rfl <| .step 3 _ _ rfl <| .step 3 _ _ rfl <| .done ?_
    simp

/-- C91 is false: in the sequential execution too, the surface that is kept is not the closest. -/
theorem C91_closest_false :
    ∃ (cam : Pinhole) (R : M3) (t : V3) (depth : Image) (a : ℕ × ℕ → ℝ),
      cam.Valid ∧
      rectify cam.matrix (transformation R t) 4 4 depth (imageRows 4 4).flatten = .ok a ∧
      ∃ p, InImage 4 4 p ∧ 0 < depth p.1 p.2 ∧
        seenRow cam (moved R t (measured cam p.1 p.2 (depth p.1 p.2))) = 3 ∧
        seenCol cam (moved R t (measured cam p.1 p.2 (depth p.1 p.2))) = 1 ∧
        (moved R t (measured cam p.1 p.2 (depth p.1 p.2))) 2 < a (3, 1) := by
  obtain ⟨a, ha, ha'⟩ := example_order (before := [(0, 0), (0, 1), (0, 2), (0, 3), (1, 0)])
    (middle := [(1, 2), (1, 3), (2, 0)]) (after := [(2, 2), (2, 3), (3, 0), (3, 1), (3, 2), (3, 3)])
    example_near example_far (by decide) (by decide)
  have hq : moved 1 ![0, 2, 0] (measured exampleCam 1 1 (exampleDepth 1 1)) = ![1, 3, 1] := by
    rw [moved_shift]
    norm_num [measured, exampleCam, exampleDepth, at2]
  refine ⟨exampleCam, 1, ![0, 2, 0], exampleDepth, a, exampleCam_valid, ha, (1, 1), by simp [InImage],
    by norm_num [exampleDepth], ?_, ?_, ?_⟩
  · simp only [hq]; rw [seenRow_mk]; norm_num [exampleCam]
  · simp only [hq]; rw [seenCol_mk]; norm_num [exampleCam]
  · simp only [hq, ha']; norm_num [at2]

/-- C91 (partial: only the origin of the depth): for every scheduling, the depth of a pixel of the
aligned image is zero, or the depth, in the frame of the colour camera, of a measured point that
projects on this pixel. -/
theorem C91_depth_is_measured_partial {cam : Pinhole} (hcam : cam.Valid) {R : M3} {t : V3} {width height : ℕ}
    {depth : Image} (htame : Tame cam R t width height depth)
    {order : List (ℕ × ℕ)} (ho : Interleaving (imageRows width height) order) :
    ∃ image, rectify cam.matrix (transformation R t) width height depth order = .ok image ∧
      ∀ row col, image (row, col) = 0 ∨
        ∃ p, InImage width height p ∧ 0 < depth p.1 p.2 ∧
          seenRow cam (moved R t (measured cam p.1 p.2 (depth p.1 p.2))) = row ∧
          seenCol cam (moved R t (measured cam p.1 p.2 (depth p.1 p.2))) = col ∧
          image (row, col) = moved R t (measured cam p.1 p.2 (depth p.1 p.2)) 2 := by
  have hmem : ∀ p, p ∈ order → InImage width height p := fun p hp => by
    rw [ho.perm.mem_iff, mem_imageRows] at hp; exact hp
  obtain ⟨image, h1, h2, h3⟩ := runWrites_ok (f := rectifyPixel cam.matrix (transformation R t) width height depth)
    order (fun _ => 0) (fun p hp => htame.ok hcam (hmem p hp))
  refine ⟨image, by rw [rectify, h1]; rfl, fun row col => ?_⟩
  by_cases hex : ∃ a ∈ order, ∃ c,
      rectifyPixel cam.matrix (transformation R t) width height depth a = .ok (some ((row, col), c))
  · right
    obtain ⟨p, hp, h⟩ := h3 _ hex
    by_cases hz : 0 < depth p.1 p.2
    · obtain ⟨a1, a2, a3⟩ := htame p (hmem p hp) hz
      rw [rectifyPixel_eq hcam rfl hz a1 a2 a3] at h
      obtain ⟨-, h⟩ := ok_ite_some h
      obtain ⟨e1, e2⟩ := Prod.mk.inj h
      obtain ⟨r1, r2⟩ := Prod.mk.inj e1
      exact ⟨p, hmem p hp, hz, by omega, by omega, e2.symm⟩
    · rw [rectifyPixel_skip (not_lt.1 hz)] at h; simp at h
  · left
    exact h2 _ fun a ha c hc => hex ⟨a, ha, c, hc⟩

/-! ## C88: identical cameras -/

theorem moved_id (p : V3) : moved 1 0 p = p := by
  rw [moved_shift]
  funext i
  fin_cases i <;> simp

theorem seen_measured {cam : Pinhole} (hcam : cam.Valid) (row col : ℕ) {z : ℝ} (hz : z ≠ 0) :
    seenCol cam (measured cam row col z) = col ∧ seenRow cam (measured cam row col z) = row := by
  obtain ⟨hx, hy⟩ := hcam
  have h1 : cam.fx * ((col - cam.cx) * z / cam.fx) / z + cam.cx = col := by field_simp; ring
  have h2 : cam.fy * ((row - cam.cy) * z / cam.fy) / z + cam.cy = row := by field_simp; ring
  refine ⟨?_, ?_⟩
  · rw [measured, seenCol_mk, h1]
    exact Int.floor_natCast col
  · rw [measured, seenRow_mk, h2]
    exact Int.floor_natCast row

/-- Any depth image, with both cameras at the same place, meets the hypotheses of C40. -/
example (depth : Image) :
    Tame exampleCam 1 0 640 480 depth ∧
    (∀ p q, InImage 640 480 p → InImage 640 480 q → 0 < depth p.1 p.2 → 0 < depth q.1 q.2 → p ≠ q →
      seenCol exampleCam (moved 1 0 (measured exampleCam p.1 p.2 (depth p.1 p.2))) ≠
        seenCol exampleCam (moved 1 0 (measured exampleCam q.1 q.2 (depth q.1 q.2))) ∨
      seenRow exampleCam (moved 1 0 (measured exampleCam p.1 p.2 (depth p.1 p.2))) ≠
        seenRow exampleCam (moved 1 0 (measured exampleCam q.1 q.2 (depth q.1 q.2)))) := by
  constructor
  · intro p hp hz
    obtain ⟨s1, s2⟩ := seen_measured exampleCam_valid p.1 p.2 hz.ne'
    have h1 := hp.1
    have h2 := hp.2
    simp only [moved_id, s1, s2]
    refine ⟨hz.ne', ⟨by omega, by omega⟩, by omega, by omega⟩
  · intro p q _ _ hp hq hne
    rw [moved_id, moved_id, (seen_measured exampleCam_valid p.1 p.2 hp.ne').1,
      (seen_measured exampleCam_valid p.1 p.2 hp.ne').2, (seen_measured exampleCam_valid q.1 q.2 hq.ne').1,
      (seen_measured exampleCam_valid q.1 q.2 hq.ne').2]
    by_contra h
    push Not at h
    exact hne (Prod.ext (by omega) (by omega))

/-- What alignment computes when both cameras are the same. -/
theorem identity_image {cam : Pinhole} (hcam : cam.Valid) {width height : ℕ} (hw : width ≤ 2 ^ 32)
    (hh : height ≤ 2 ^ 32) (depth : Image) {order : List (ℕ × ℕ)}
    (ho : Interleaving (imageRows width height) order) :
    ∃ image, rectify cam.matrix (transformation 1 0) width height depth order = .ok image ∧
      ∀ row col, row < height → col < width → image (row, col) =
        if 0 < row ∧ 0 < col ∧ 0 < depth row col then depth row col else 0 := by
  have hmem : ∀ p, p ∈ order ↔ InImage width height p := fun p => by
    rw [ho.perm.mem_iff, mem_imageRows]; rfl
  have hf : ∀ p, InImage width height p → 0 < depth p.1 p.2 →
      rectifyPixel cam.matrix (transformation 1 0) width height depth p =
        .ok (if 0 < p.2 ∧ 0 < p.1 then some (p, depth p.1 p.2) else none) := by
    intro p hp hz
    obtain ⟨s1, s2⟩ := seen_measured hcam p.1 p.2 hz.ne'
    have hp1 := hp.1
    have hp2 := hp.2
    have hq2 : (measured cam p.1 p.2 (depth p.1 p.2)) 2 = depth p.1 p.2 := by simp [measured]
    rw [rectifyPixel_eq hcam (q := measured cam p.1 p.2 (depth p.1 p.2)) (by rw [moved_id]) hz
      (by rw [hq2]; exact hz.ne') (by rw [s1]; constructor <;> omega) (by rw [s2]; constructor <;> omega), s1, s2, hq2]
    by_cases h : 0 < p.2 ∧ 0 < p.1
    · rw [if_pos h, if_pos ⟨by omega, by omega, by omega, by omega⟩]; rfl
    · rw [if_neg h, if_neg (by omega)]
  obtain ⟨image, h1, h2, h3⟩ := runWrites_ok (f := rectifyPixel cam.matrix (transformation 1 0) width height depth)
    order (fun _ => 0) (fun p hp => by
      by_cases hz : 0 < depth p.1 p.2
      · exact ⟨_, hf p ((hmem p).1 hp) hz⟩
      · exact ⟨_, rectifyPixel_skip (not_lt.1 hz)⟩)
  have hback : ∀ (a : ℕ × ℕ) (b : ℕ × ℕ) (c : ℝ), a ∈ order →
      rectifyPixel cam.matrix (transformation 1 0) width height depth a = .ok (some (b, c)) →
      a = b ∧ c = depth a.1 a.2 ∧ 0 < a.1 ∧ 0 < a.2 ∧ 0 < depth a.1 a.2 := by
    intro a b c ha h
    by_cases hz : 0 < depth a.1 a.2
    · rw [hf a ((hmem a).1 ha) hz] at h
      obtain ⟨hcond, h⟩ := ok_ite_some h
      obtain ⟨e1, e2⟩ := Prod.mk.inj h
      exact ⟨e1, e2.symm, hcond.2, hcond.1, hz⟩
    · rw [rectifyPixel_skip (not_lt.1 hz)] at h; simp at h
  refine ⟨image, by rw [rectify, h1]; rfl, fun row col hr hc => ?_⟩
  by_cases h : 0 < row ∧ 0 < col ∧ 0 < depth row col
  · rw [if_pos h]
    obtain ⟨a, ha, ha'⟩ := h3 (row, col) ⟨(row, col), (hmem _).2 ⟨hr, hc⟩, depth row col, by
      rw [hf _ ⟨hr, hc⟩ h.2.2, if_pos ⟨h.2.1, h.1⟩]⟩
    obtain ⟨e1, e2, -⟩ := hback a _ _ ha ha'
    rw [e2, e1]
  · rw [if_neg h]
    refine h2 _ fun a ha c hc => ?_
    obtain ⟨e1, -, p1, p2, p3⟩ := hback a _ _ ha hc
    subst e1
    exact h ⟨p1, p2, p3⟩

/-- C88 (partial: the first row and the first column are lost): with identical cameras at the same
place, the aligned image is the depth image, for every scheduling. -/
theorem C88_identity_partial {cam : Pinhole} (hcam : cam.Valid) {width height : ℕ} (hw : width ≤ 2 ^ 32)
    (hh : height ≤ 2 ^ 32) {depth : Image} (hd : ∀ row col, 0 ≤ depth row col) {order : List (ℕ × ℕ)}
    (ho : Interleaving (imageRows width height) order) :
    ∃ image, rectify cam.matrix (transformation 1 0) width height depth order = .ok image ∧
      ∀ row col, 0 < row → row < height → 0 < col → col < width → image (row, col) = depth row col := by
  obtain ⟨image, h1, h2⟩ := identity_image hcam hw hh depth ho
  refine ⟨image, h1, fun row col r1 r2 c1 c2 => ?_⟩
  rw [h2 row col r2 c2]
  by_cases hz : 0 < depth row col
  · rw [if_pos ⟨r1, c1, hz⟩]
  · rw [if_neg fun h => hz h.2.2]
    exact le_antisymm (hd row col) (not_lt.1 hz)

/-- C88 is false on the first row and the first column: their depths are always lost. -/
theorem C88_border_false {cam : Pinhole} (hcam : cam.Valid) {width height : ℕ} (hw : width ≤ 2 ^ 32)
    (hh : height ≤ 2 ^ 32) (depth : Image) {order : List (ℕ × ℕ)}
    (ho : Interleaving (imageRows width height) order) :
    ∃ image, rectify cam.matrix (transformation 1 0) width height depth order = .ok image ∧
      ∀ row col, row < height → col < width → row = 0 ∨ col = 0 → image (row, col) = 0 := by
  obtain ⟨image, h1, h2⟩ := identity_image hcam hw hh depth ho
  refine ⟨image, h1, fun row col r c h => ?_⟩
  rw [h2 row col r c, if_neg (by omega)]

example : (⟨550, 550, 320, 240⟩ : Pinhole).Valid ∧ (640 : ℕ) ≤ 2 ^ 32 := by
  constructor
  · constructor <;> norm_num
  · norm_num

/-! ## C89: two different cameras -/

/-- C89 (partial: the depth camera must have the intrinsics of the colour camera): the depth of a
pixel goes to the pixel of the colour image that sees the measured point. -/
theorem C89_registered_partial {colour depthCam : Pinhole} (hcam : colour.Valid) (hsame : depthCam = colour)
    {R : M3} {t : V3} {width height : ℕ} {depth : Image} {p : ℕ × ℕ} {q : V3}
    (hz : 0 < depth p.1 p.2)
    (hq : q = moved R t (measured depthCam p.1 p.2 (depth p.1 p.2))) (hq2 : q 2 ≠ 0)
    (hc : 0 < seenCol colour q ∧ seenCol colour q < width) (hr : 0 < seenRow colour q ∧ seenRow colour q < height)
    (hw : width ≤ 2 ^ 32) (hh : height ≤ 2 ^ 32) :
    rectifyPixel colour.matrix (transformation R t) width height depth p =
      .ok (some (((seenRow colour q).toNat, (seenCol colour q).toNat), q 2)) := by
  subst hsame
  have hc1 := hc.2
  have hr1 := hr.2
  rw [rectifyPixel_eq hcam hq hz hq2 ⟨hc.1.le, by omega⟩ ⟨hr.1.le, by omega⟩,
    if_pos ⟨hc.1, hr.1, hc.2, hr.2⟩]

/-- C89 is false for different intrinsics: those of the depth camera are not used. With the cameras at
the same place, the point measured at row 2 and column 2 of the depth image is seen by the colour camera
at row 1 and column 1, but goes to row 2 and column 2. -/
theorem C89_intrinsics_false :
    ∃ (colour depthCam : Pinhole) (depth : Image), colour.Valid ∧ depthCam.Valid ∧
      (∀ p, InImage 4 4 p → (0 < depth p.1 p.2 ↔ p = (2, 2))) ∧
      seenRow colour (moved 1 0 (measured depthCam 2 2 (depth 2 2))) = 1 ∧
      seenCol colour (moved 1 0 (measured depthCam 2 2 (depth 2 2))) = 1 ∧
      ∀ order, Interleaving (imageRows 4 4) order →
        ∃ image, rectify colour.matrix (transformation 1 0) 4 4 depth order = .ok image ∧
          image (1, 1) = 0 ∧ image (2, 2) = depth 2 2 := by
  refine ⟨exampleCam, ⟨2, 2, 0, 0⟩, fun row col => if row = 2 ∧ col = 2 then 5 else 0, exampleCam_valid,
    by constructor <;> norm_num, ?_, ?_, ?_, ?_⟩
  · rintro ⟨r, c⟩ -
    simp only
    split_ifs with h
    · obtain ⟨rfl, rfl⟩ := h; simp
    · simp; intro a b; exact h ⟨a, b⟩
  · rw [moved_id]; rw [measured, seenRow_mk]; norm_num [exampleCam]
  · rw [moved_id]; rw [measured, seenCol_mk]; norm_num [exampleCam]
  · intro order ho
    obtain ⟨image, h1, h2⟩ := identity_image exampleCam_valid (by norm_num) (by norm_num)
      (fun row col => if row = 2 ∧ col = 2 then (5 : ℝ) else 0) ho
    refine ⟨image, h1, ?_, ?_⟩
    · rw [h2 1 1 (by norm_num) (by norm_num)]; simp
    · rw [h2 2 2 (by norm_num) (by norm_num)]; simp

/-! ## C90: pixels that leave the image -/

/-- C90 (partial: not left of nor above the image): when every measured point projects at non negative
coordinates, the image is aligned without error, and depths outside of the colour image are dropped. -/
theorem C90_outside_dropped_partial {cam : Pinhole} (hcam : cam.Valid) {R : M3} {t : V3} {width height : ℕ}
    {depth : Image} (htame : Tame cam R t width height depth) {order : List (ℕ × ℕ)}
    (ho : Interleaving (imageRows width height) order) :
    ∃ image, rectify cam.matrix (transformation R t) width height depth order = .ok image ∧
      ∀ row col, width ≤ col ∨ height ≤ row → image (row, col) = 0 := by
  have hmem : ∀ p, p ∈ order → InImage width height p := fun p hp => by
    rw [ho.perm.mem_iff, mem_imageRows] at hp; exact hp
  obtain ⟨image, h1, h2, -⟩ := runWrites_ok (f := rectifyPixel cam.matrix (transformation R t) width height depth)
    order (fun _ => 0) (fun p hp => htame.ok hcam (hmem p hp))
  refine ⟨image, by rw [rectify, h1]; rfl, fun row col hout => h2 _ fun p hp c hc => ?_⟩
  by_cases hz : 0 < depth p.1 p.2
  · obtain ⟨a1, a2, a3⟩ := htame p (hmem p hp) hz
    rw [rectifyPixel_eq hcam rfl hz a1 a2 a3] at hc
    obtain ⟨hin, hc⟩ := ok_ite_some hc
    have e1 := (Prod.mk.inj hc).1
    obtain ⟨r1, r2⟩ := Prod.mk.inj e1
    omega
  · rw [rectifyPixel_skip (not_lt.1 hz)] at hc; simp at hc

/-- C90 is false for a point that projects left of the image: the conversion of its coordinate is
undefined behaviour. -/
theorem C90_left_false :
    ∃ (cam : Pinhole) (R : M3) (t : V3) (depth : Image) (p : ℕ × ℕ), cam.Valid ∧ InImage 4 4 p ∧ 0 < depth p.1 p.2 ∧
      0 < moved R t (measured cam p.1 p.2 (depth p.1 p.2)) 2 ∧
      rectifyPixel cam.matrix (transformation R t) 4 4 depth p = .ub ∧
      ∀ order, Interleaving (imageRows 4 4) order → ∀ image,
        rectify cam.matrix (transformation R t) 4 4 depth order ≠ .ok image := by
  have hub : rectifyPixel exampleCam.matrix (transformation 1 ![-2, 0, 0]) 4 4 (fun _ _ => 1) (1, 1) = .ub := by
    unfold rectifyPixel
    have hpre : screenToCamera2 exampleCam.matrix ![((1, 1) : ℕ × ℕ).2, ((1, 1) : ℕ × ℕ).1] = ![1, 1] := by
      rw [Pinhole.matrix, screenToCamera2_eq exampleCam_valid.1 exampleCam_valid.2]
      ext i; fin_cases i <;> simp [exampleCam]
    have hm : transformPoint (transformation 1 ![-2, 0, 0]) ![1, 1, 1] = ![-1, 1, 1] := by
      rw [moved_eq, moved_shift]; norm_num [at2]
    have hs : cameraToScreen exampleCam.matrix ![-1, 1, 1] = some ![-1, 1, 1] := by
      rw [cameraToScreen, if_neg (by simp), Pinhole.matrix, cameraToScreen2_eq]
      congr 1
      ext i; fin_cases i <;> simp [exampleCam]
    have ht : toUint (-1 : ℝ) = .ub := by
      unfold toUint
      rw [if_neg]
      rintro ⟨h, -⟩
      have : ⌊(-1 : ℝ)⌋ = -1 := by norm_num
      omega
    simp only [hpre, Matrix.cons_val_zero, Matrix.cons_val_one, mul_one, hm, hs, ht]
    rw [if_neg (by norm_num)]
    rfl
  refine ⟨exampleCam, 1, ![-2, 0, 0], fun _ _ => 1, (1, 1), exampleCam_valid, by simp [InImage], by norm_num,
    by simp [moved, measured], hub, fun order ho image h => ?_⟩
  rw [rectify, Outcome.noexcept_eq_ok] at h
  refine runWrites_fails order _ (1, 1) ?_ (by rw [hub]; simp) image h
  rw [ho.perm.mem_iff, mem_imageRows]
  exact ⟨by norm_num, by norm_num⟩

/-- C90 is false for a point that the colour camera has at depth zero: the program exits. -/
theorem C90_zero_depth_exit_false :
    ∃ (cam : Pinhole) (R : M3) (t : V3) (depth : Image) (p : ℕ × ℕ), cam.Valid ∧ InImage 4 4 p ∧ 0 < depth p.1 p.2 ∧
      rectifyPixel cam.matrix (transformation R t) 4 4 depth p = .exit := by
  refine ⟨exampleCam, 1, ![0, 0, -1], fun _ _ => 1, (1, 0), exampleCam_valid, by simp [InImage], by norm_num, ?_⟩
  unfold rectifyPixel
  have hpre : screenToCamera2 exampleCam.matrix ![((1, 0) : ℕ × ℕ).2, ((1, 0) : ℕ × ℕ).1] = ![0, 1] := by
    rw [Pinhole.matrix, screenToCamera2_eq exampleCam_valid.1 exampleCam_valid.2]
    ext i; fin_cases i <;> simp [exampleCam]
  have hm : transformPoint (transformation 1 ![0, 0, -1]) ![0, 1, 1] = ![0, 1, 0] := by
    rw [moved_eq, moved_shift]; norm_num [at2]
  have hs : cameraToScreen exampleCam.matrix ![0, 1, 0] = none := by
    rw [cameraToScreen, if_pos (by simp)]
  simp only [hpre, Matrix.cons_val_zero, Matrix.cons_val_one, mul_one, hm, hs]
  rw [if_neg (by norm_num), if_pos]
  left
  rw [Pinhole.matrix, cameraToScreen2_eq]
  simp [exampleCam]

/-- The image of the counterexample of C40 meets the hypothesis of C90 and C91. -/
example : Tame exampleCam 1 ![0, 2, 0] 4 4 exampleDepth := by
  intro p _ hz
  rcases exampleDepth_pos hz with rfl | rfl
  · have hq : moved 1 ![0, 2, 0] (measured exampleCam 1 1 (exampleDepth 1 1)) = ![1, 3, 1] := by
      rw [moved_shift]
      norm_num [measured, exampleCam, exampleDepth, at2]
    simp only [hq]
    rw [seenCol_mk, seenRow_mk]; norm_num [exampleCam, at2]
  · have hq : moved 1 ![0, 2, 0] (measured exampleCam 2 1 (exampleDepth 2 1)) = ![2, 6, 2] := by
      rw [moved_shift]
      norm_num [measured, exampleCam, exampleDepth, at2]
    simp only [hq]
    rw [seenCol_mk, seenRow_mk]; norm_num [exampleCam, at2]

end RgbdSlam.DepthMap
