import Verif.Model.LsdAdvanced
import Verif.Spec.LsdAdvanced
import Verif.Props.LsdRefine
import Verif.Props.LsdNfa
import Mathlib.Tactic.FinCases
/-
C168: the pixels counted for a rectangle.  C169: the improvement of a rectangle.  C170: the lines found with the advanced
refinement.
-/
namespace RgbdSlam.Lsd

/-! ### The pixels of a rectangle -/

theorem pick_mem_aux (beats : Corner → Corner → Bool) (l : List Corner) : ∀ b : Corner,
    ∃ c, l.foldl (fun best c => match best with
      | none => some c
      | some b => if beats c b then some c else some b) (some b) = some c ∧ (c = b ∨ c ∈ l) := by
  induction l with
  | nil => intro b; exact ⟨b, rfl, Or.inl rfl⟩
  | cons x l ih =>
    intro b
    rw [List.foldl_cons]
    dsimp only
    by_cases hx : beats x b
    · rw [if_pos hx]
      obtain ⟨c, h1, h2⟩ := ih x
      exact ⟨c, h1, Or.inr (by rcases h2 with rfl | h2 <;> simp [*])⟩
    · rw [if_neg hx]
      obtain ⟨c, h1, h2⟩ := ih b
      exact ⟨c, h1, by rcases h2 with h2 | h2 <;> simp [h2]⟩

theorem pick_mem (beats : Corner → Corner → Bool) (l : List Corner) (h : l ≠ []) : ∃ c ∈ l, pick beats l = some c := by
  cases l with
  | nil => exact absurd rfl h
  | cons x l =>
    obtain ⟨c, h1, h2⟩ := pick_mem_aux beats l x
    exact ⟨c, by rcases h2 with rfl | h2 <;> simp [*], h1⟩

theorem sweepOf_ok (corners : List Corner) (h : 4 ≤ corners.length) :
    ∃ s, sweepOf corners = .ok s ∧ s.top ∈ corners ∧ s.left ∈ corners ∧ s.right ∈ corners ∧ s.tail ∈ corners ∧
      ∃ c ∈ corners, s.last = c.2 := by
  have hp := List.perm_insertionSort cornerLe corners
  generalize hl : corners.insertionSort cornerLe = l at hp
  have hlen : 4 ≤ l.length := by rw [hp.length_eq]; exact h
  have ne : ∀ l' : List Corner, 0 < l'.length → l' ≠ [] := fun l' h => List.ne_nil_of_length_pos h
  obtain ⟨top, ht, et⟩ := pick_mem (fun c b => decide (c.2 < b.2)) l (ne _ (by omega))
  obtain ⟨bot, hb, eb⟩ := pick_mem (fun c b => decide (b.2 < c.2)) l (ne _ (by omega))
  have l1 : (l.erase top).length = l.length - 1 := List.length_erase_of_mem ht
  obtain ⟨left, hle, el⟩ := pick_mem (fun c b => decide (c.1 < b.1)) (l.erase top) (ne _ (by omega))
  have l2 : ((l.erase top).erase left).length = (l.erase top).length - 1 := List.length_erase_of_mem hle
  obtain ⟨right, hr, er⟩ := pick_mem (fun c b => decide (b.1 < c.1)) ((l.erase top).erase left) (ne _ (by omega))
  have l3 : (((l.erase top).erase left).erase right).length = ((l.erase top).erase left).length - 1 := List.length_erase_of_mem hr
  obtain ⟨tail, hta, eta⟩ := pick_mem (fun c b => decide (c.1 < b.1)) (((l.erase top).erase left).erase right) (ne _ (by omega))
  have m1 := List.mem_of_mem_erase hle
  have m2 := List.mem_of_mem_erase (List.mem_of_mem_erase hr)
  have m3 := List.mem_of_mem_erase (List.mem_of_mem_erase (List.mem_of_mem_erase hta))
  refine ⟨{ top := top, left := left, right := right, tail := tail, last := bot.2 }, ?_, hp.mem_iff.1 ht, hp.mem_iff.1 m1,
    hp.mem_iff.1 m2, hp.mem_iff.1 m3, bot, hp.mem_iff.1 hb, rfl⟩
  unfold sweepOf
  simp only [hl, et, eb, el, er, eta]

theorem mem_rowPixels (width : ℕ) (left right : ℤ) (y : ℕ) (p : Px) :
    p ∈ rowPixels width left right y ↔ p.2 = y ∧ p.1 < width ∧ left ≤ p.1 ∧ (p.1 : ℤ) ≤ right := by
  unfold rowPixels
  rw [List.mem_filterMap]
  constructor
  · rintro ⟨x, hx, h⟩
    obtain ⟨i, hi, rfl⟩ := List.mem_map.1 hx
    rw [List.mem_range] at hi
    split_ifs at h with h0
    rw [Option.some.injEq] at h
    subst h
    dsimp only
    omega
  · rintro ⟨rfl, h1, h2, h3⟩
    refine ⟨p.1, List.mem_map.2 ⟨(p.1 - left).toNat, List.mem_range.2 (by omega), by omega⟩, ?_⟩
    rw [if_neg (by omega)]
    simp

theorem rowPixels_nodup (width : ℕ) (left right : ℤ) (y : ℕ) : (rowPixels width left right y).Nodup := by
  unfold rowPixels
  refine List.Nodup.filterMap ?_ (List.Nodup.map (fun i j h => by simpa using h) List.nodup_range)
  intro a b c ha hb
  simp only [Option.mem_def] at ha hb
  split_ifs at ha hb with h1 h2
  rw [Option.some.injEq] at ha hb
  subst ha
  simp only [Prod.mk.injEq] at hb
  omega

theorem rows_spec (width height : ℕ) (s : Sweep) : ∀ (n : ℕ) (y left right lstep rstep : ℤ),
    (rows width height s n y left right lstep rstep).Nodup ∧
    ∀ p ∈ rows width height s n y left right lstep rstep, p.1 < width ∧ p.2 < height ∧ y ≤ p.2 ∧ (p.2 : ℤ) < y + n := by
  intro n
  induction n with
  | zero => intro y left right lstep rstep; simp [rows]
  | succ n ih =>
    intro y left right lstep rstep
    rw [rows]
    by_cases h : y < 0 ∨ (height : ℤ) ≤ y
    · rw [if_pos h]
      obtain ⟨h1, h2⟩ := ih (y + 1) left right lstep rstep
      refine ⟨h1, fun p hp => ?_⟩
      have := h2 p hp
      push_cast
      omega
    · rw [if_neg h]
      dsimp only
      generalize (if s.left.2 ≤ y then secondStep s.left s.tail else lstep) = ls
      generalize (if s.right.2 ≤ y then secondStep s.right s.tail else rstep) = rs
      obtain ⟨h1, h2⟩ := ih (y + 1) (left + ls) (right + rs) ls rs
      refine ⟨List.Nodup.append (rowPixels_nodup _ _ _ _) h1 ?_, fun p hp => ?_⟩
      · intro p hp hq
        rw [mem_rowPixels] at hp
        have := h2 p hq
        omega
      · rcases List.mem_append.1 hp with hp | hp
        · rw [mem_rowPixels] at hp
          push_cast
          omega
        · have := h2 p hp
          push_cast
          omega

/-- C168 (partial: that the pixels counted are those of the rectangle is false, see `C168_flat_false`): counting ends without a
failing assertion; the pixels counted are pixels of the image, in the rows of the rectangle, and each one is counted once. -/
theorem C168_counted_partial (width height : ℕ) (r : WideRect) :
    ∃ l, r.pixels width height = .ok l ∧ l.Nodup ∧
      ∀ p ∈ l, p.1 < width ∧ p.2 < height ∧ ∃ a ∈ r.corners, ∃ b ∈ r.corners, a.2 ≤ p.2 ∧ (p.2 : ℤ) ≤ b.2 := by
  obtain ⟨s, e, ht, -, -, -, c, hc, hl⟩ := sweepOf_ok r.corners (by simp [WideRect.corners])
  refine ⟨s.pixels width height, by unfold WideRect.pixels; rw [e]; rfl, ?_, fun p hp => ?_⟩
  · exact (rows_spec width height s _ _ _ _ _ _).1
  · obtain ⟨h1, h2, h3, h4⟩ := (rows_spec width height s _ _ _ _ _ _).2 p hp
    exact ⟨h1, h2, s.top, ht, c, hc, h3, by omega⟩

theorem rows_column (width height : ℕ) (s : Sweep) (a : ℕ) (ha : a < width)
    (hr : secondStep s.right s.tail = 0) : ∀ (n : ℕ) (y : ℤ), 0 ≤ y → y + n ≤ height → y + n ≤ s.left.2 + 1 →
    ∀ p, p ∈ rows width height s n y a a 0 0 ↔ p.1 = a ∧ y ≤ p.2 ∧ (p.2 : ℤ) < y + n := by
  intro n
  induction n with
  | zero => intro y _ _ _ p; simp [rows]
  | succ n ih =>
    intro y h0 hh hlast p
    push_cast at hh hlast
    rw [rows, if_neg (by omega)]
    simp only [hr, ite_self, add_zero]
    by_cases hy : s.left.2 ≤ y
    · have hn : n = 0 := by omega
      subst hn
      rw [rows, List.append_nil, mem_rowPixels]
      push_cast
      omega
    · simp only [if_neg hy, add_zero]
      rw [List.mem_append, ih (y + 1) (by omega) (by omega) (by omega), mem_rowPixels]
      push_cast
      omega

theorem toInt_natCast (n : ℕ) : toInt (n : ℝ) = n := by
  unfold toInt
  rw [if_pos (Nat.cast_nonneg n), Int.floor_natCast]

theorem sweepOf_box {a b c d : ℤ} (hab : a < b) (hcd : c < d) :
    sweepOf [(a, d), (b, d), (b, c), (a, c)] =
      .ok { top := (a, c), left := (a, d), right := (b, c), tail := (b, d), last := d } := by
  have hs : [(a, d), (b, d), (b, c), (a, c)].insertionSort cornerLe = [(a, c), (a, d), (b, c), (b, d)] := by
    simp [List.insertionSort, List.orderedInsert, cornerLe, hab.ne, hab.ne', hab, hcd.not_ge, hab.not_gt]
  unfold sweepOf
  simp only [hs]
  simp [pick, hcd, hab.not_gt, hcd.not_gt]

/-- C168 is false: for a flat line (its rectangle goes from the column `a` to the column `b` and from the row `m - k` to the row
`m + k` of the image) only the pixels of its first column are counted, however long it is. -/
theorem C168_flat_false (width height a b m k : ℕ) (hab : a < b) (hb : b < width) (hk : 0 < k) (hm : k ≤ m) (hh : m + k < height)
    (r : WideRect) (hr : r.x1 = a ∧ r.y1 = m ∧ r.x2 = b ∧ r.y2 = m ∧ r.dx = 1 ∧ r.dy = 0 ∧ r.width = 2 * k) :
    (∀ x y : ℕ, Spec.InRectangle (r.x1, r.y1) (r.x2, r.y2) (r.dx, r.dy) r.width (x, y) ↔ a ≤ x ∧ x ≤ b ∧ m - k ≤ y ∧ y ≤ m + k) ∧
    ∃ l, r.pixels width height = .ok l ∧ ∀ p, p ∈ l ↔ p.1 = a ∧ m - k ≤ p.2 ∧ p.2 ≤ m + k := by
  obtain ⟨h1, h2, h3, h4, h5, h6, h7⟩ := hr
  constructor
  · intro x y
    have hab' : (0 : ℝ) < b - a := by
      rw [sub_pos]
      exact_mod_cast hab
    unfold Spec.InRectangle
    rw [h1, h2, h3, h4, h5, h6, h7]
    constructor
    · rintro ⟨t, u, ht0, ht1, hu, he⟩
      simp only [Prod.mk.injEq] at he
      obtain ⟨e1, e2⟩ := he
      rw [abs_le] at hu
      have i1 : (a : ℝ) ≤ x := by rw [e1]; nlinarith
      have i2 : (x : ℝ) ≤ b := by rw [e1]; nlinarith
      have i3 : (m : ℝ) ≤ y + k := by rw [e2]; linarith
      have i4 : (y : ℝ) ≤ m + k := by rw [e2]; linarith
      norm_cast at i1 i2 i3 i4
      omega
    · rintro ⟨i1, i2, i3, i4⟩
      refine ⟨(x - a) / (b - a), y - m, div_nonneg ?_ hab'.le, ?_, ?_, ?_⟩
      · rw [sub_nonneg]; exact_mod_cast i1
      · rw [div_le_one hab']
        have : (x : ℝ) ≤ b := by exact_mod_cast i2
        linarith
      · have : (m : ℝ) ≤ y + k := by norm_cast; omega
        have : (y : ℝ) ≤ m + k := by exact_mod_cast i4
        rw [abs_le]
        constructor <;> linarith
      · rw [div_mul_cancel₀ _ hab'.ne']
        ext <;> simp
  · have hc : r.corners = [((a : ℤ), ((m + k : ℕ) : ℤ)), ((b : ℤ), ((m + k : ℕ) : ℤ)), ((b : ℤ), ((m - k : ℕ) : ℤ)), ((a : ℤ), ((m - k : ℕ) : ℤ))] := by
      have e1 : (m : ℝ) + 1 * (2 * k / 2) = ((m + k : ℕ) : ℝ) := by push_cast; ring
      have e2 : (m : ℝ) - 1 * (2 * k / 2) = ((m - k : ℕ) : ℝ) := by push_cast [Nat.cast_sub hm]; ring
      unfold WideRect.corners
      simp only [h1, h2, h3, h4, h5, h6, h7, zero_mul, sub_zero, add_zero, e1, e2, toInt_natCast]
    have hs := sweepOf_box (a := a) (b := b) (c := (m - k : ℕ)) (d := (m + k : ℕ)) (by omega) (by omega)
    refine ⟨_, by unfold WideRect.pixels; rw [hc, hs]; rfl, fun p => ?_⟩
    unfold Sweep.pixels
    have f1 : firstStep ((a : ℤ), ((m - k : ℕ) : ℤ)) ((a : ℤ), ((m + k : ℕ) : ℤ)) = 0 := by simp [firstStep]
    have f2 : firstStep ((a : ℤ), ((m - k : ℕ) : ℤ)) ((b : ℤ), ((m - k : ℕ) : ℤ)) = 0 := by simp [firstStep]
    dsimp only
    rw [f1, f2, rows_column width height _ a (by omega)]
    · omega
    · simp [secondStep]
    · omega
    · omega
    · dsimp only
      omega

/-- The rectangle of C168 in an image of 20 by 10 pixels: 36 pixels, of which 3 are counted. -/
example : ∃ r : WideRect, ∃ l, r.x1 = (4 : ℕ) ∧ r.y1 = (5 : ℕ) ∧ r.x2 = (15 : ℕ) ∧ r.y2 = (5 : ℕ) ∧ r.dx = 1 ∧ r.dy = 0 ∧
    r.width = 2 * (1 : ℕ) ∧ r.pixels 20 10 = .ok l ∧ l.length = 3 := by
  refine ⟨{ x1 := (4 : ℕ), y1 := (5 : ℕ), x2 := (15 : ℕ), y2 := (5 : ℕ), width := 2 * (1 : ℕ), x := 9, y := 5, theta := 0, dx := 1, dy := 0, prec := 1, p := 1 / 8 }, ?_⟩
  obtain ⟨-, l, h1, h2⟩ := C168_flat_false 20 10 4 15 5 1 (by norm_num) (by norm_num) (by norm_num) (by norm_num) (by norm_num)
    { x1 := (4 : ℕ), y1 := (5 : ℕ), x2 := (15 : ℕ), y2 := (5 : ℕ), width := 2 * (1 : ℕ), x := 9, y := 5, theta := 0, dx := 1, dy := 0, prec := 1, p := 1 / 8 }
    ⟨rfl, rfl, rfl, rfl, rfl, rfl, rfl⟩
  obtain ⟨l', h3, h4, -⟩ := C168_counted_partial 20 10
    { x1 := (4 : ℕ), y1 := (5 : ℕ), x2 := (15 : ℕ), y2 := (5 : ℕ), width := 2 * (1 : ℕ), x := 9, y := 5, theta := 0, dx := 1, dy := 0, prec := 1, p := 1 / 8 }
  rw [h1, Outcome.ok.injEq] at h3
  subst h3
  refine ⟨l, rfl, rfl, rfl, rfl, rfl, rfl, rfl, h1, ?_⟩
  have hp : l.Perm [(4, 4), (4, 5), (4, 6)] := by
    rw [List.perm_ext_iff_of_nodup h4 (by decide)]
    rintro ⟨x, y⟩
    rw [h2]
    simp only [List.mem_cons, Prod.mk.injEq, List.not_mem_nil, or_false]
    omega
  rw [hp.length_eq]
  rfl

/-- C168 is false of a slanted line too: of the rectangle with the corners (17, 0), (14, 2), (16, 5) and (19, 3), the pixel
(18, 2) is not counted, and the pixel (15, 5) is although it is out of the rectangle. -/
theorem C168_slanted_false (r : WideRect) (hr : r.x1 = 31 / 2 ∧ r.y1 = 1 ∧ r.x2 = 35 / 2 ∧ r.y2 = 4 ∧ r.dx = 2 / √13 ∧
    r.dy = 3 / √13 ∧ r.width = √13) :
    r.dx ^ 2 + r.dy ^ 2 = 1 ∧
    Spec.InRectangle (r.x1, r.y1) (r.x2, r.y2) (r.dx, r.dy) r.width (18, 2) ∧
    ¬ Spec.InRectangle (r.x1, r.y1) (r.x2, r.y2) (r.dx, r.dy) r.width (15, 5) ∧
    r.pixels 20 10 = .ok [(17, 0), (16, 1), (17, 1), (15, 2), (16, 2), (17, 2), (15, 3), (16, 3), (17, 3), (15, 4), (16, 4),
      (17, 4), (15, 5), (16, 5), (17, 5)] := by
  obtain ⟨h1, h2, h3, h4, h5, h6, h7⟩ := hr
  have hp : (0 : ℝ) < √13 := by positivity
  have hs : √13 * √13 = 13 := Real.mul_self_sqrt (by norm_num)
  refine ⟨?_, ?_, ?_, ?_⟩
  · rw [h5, h6]
    field_simp
    nlinarith
  · rw [h1, h2, h3, h4, h5, h6, h7]
    refine ⟨8 / 13, -11 / 26 * √13, by norm_num, by norm_num, ?_, ?_⟩
    · rw [abs_le]
      constructor <;> nlinarith
    · ext
      · simp only
        field_simp
        ring
      · simp only
        field_simp
        ring
  · rw [h1, h2, h3, h4, h5, h6, h7]
    rintro ⟨t, u, t0, t1, hu, he⟩
    simp only [Prod.mk.injEq] at he
    obtain ⟨e1, e2⟩ := he
    field_simp at e1 e2
    have ht : t = 11 / 13 := by
      have : √13 * (13 * t - 11) = 0 := by linarith
      rcases mul_eq_zero.1 this with h | h
      · exact absurd h hp.ne'
      · linarith
    rw [ht] at e2
    have := (abs_le.1 hu).2
    linarith
  · have d1 : r.dy * (r.width / 2) = 3 / 2 := by rw [h6, h7]; field_simp
    have d2 : r.dx * (r.width / 2) = 1 := by rw [h5, h7]; field_simp
    have hc : r.corners = [(14, 2), (16, 5), (19, 3), (17, 0)] := by
      have e : ∀ n : ℕ, toInt (n : ℝ) = n := toInt_natCast
      unfold WideRect.corners
      simp only [d1, d2, h1, h2, h3, h4]
      rw [show (31 / 2 - 3 / 2 : ℝ) = ((14 : ℕ) : ℝ) by norm_num, show (1 + 1 : ℝ) = ((2 : ℕ) : ℝ) by norm_num,
        show (35 / 2 - 3 / 2 : ℝ) = ((16 : ℕ) : ℝ) by norm_num, show (4 + 1 : ℝ) = ((5 : ℕ) : ℝ) by norm_num,
        show (35 / 2 + 3 / 2 : ℝ) = ((19 : ℕ) : ℝ) by norm_num, show (4 - 1 : ℝ) = ((3 : ℕ) : ℝ) by norm_num,
        show (31 / 2 + 3 / 2 : ℝ) = ((17 : ℕ) : ℝ) by norm_num, show (1 - 1 : ℝ) = ((0 : ℕ) : ℝ) by norm_num]
      simp only [e]
      rfl
    unfold WideRect.pixels
    rw [hc]
    decide +kernel

/-! ### The improvement of a rectangle -/

/-- `r` is a variation of `r0`. -/
structure Varied (r0 r : WideRect) : Prop where
  shift : ∃ o : ℝ, |o| ≤ (r0.width - r.width) / 2 ∧ r.x1 = r0.x1 - o * r0.dy ∧ r.y1 = r0.y1 + o * r0.dx ∧
    r.x2 = r0.x2 - o * r0.dy ∧ r.y2 = r0.y2 + o * r0.dx
  direction : r.theta = r0.theta ∧ r.dx = r0.dx ∧ r.dy = r0.dy
  width : r.width = r0.width ∨ 1 / 2 ≤ r.width
  prec : ∃ j : ℕ, r.p = r0.p / 2 ^ j ∧ r.prec = if j = 0 then r0.prec else r.p * Real.pi

theorem Varied.refl (r : WideRect) : Varied r r :=
  ⟨⟨0, by simp, by simp, by simp, by simp, by simp⟩, ⟨rfl, rfl, rfl⟩, Or.inl rfl, 0, by simp, by simp⟩

theorem Varied.finer {r0 r r' : WideRect} (h : Varied r0 r) (e : r.finer = some r') : Varied r0 r' := by
  unfold WideRect.finer at e
  rw [Option.some.injEq] at e
  subst e
  obtain ⟨j, h1, -⟩ := h.prec
  exact ⟨h.shift, h.direction, h.width, j + 1, by dsimp only; rw [h1, pow_succ, div_div], by simp⟩

theorem Varied.narrower {r0 r r' : WideRect} (h : Varied r0 r) (e : r.narrower = some r') : Varied r0 r' := by
  unfold WideRect.narrower at e
  split_ifs at e with hw
  rw [Option.some.injEq] at e
  subst e
  obtain ⟨o, ho, h1, h2, h3, h4⟩ := h.shift
  exact ⟨⟨o, by dsimp only; linarith, h1, h2, h3, h4⟩, h.direction, Or.inr hw, h.prec⟩

theorem Varied.trimmed {side : ℝ} (hs : |side| ≤ 1) {r0 r r' : WideRect} (h : Varied r0 r) (e : r.trimmed side = some r') :
    Varied r0 r' := by
  unfold WideRect.trimmed at e
  split_ifs at e with hw
  rw [Option.some.injEq] at e
  subst e
  obtain ⟨o, ho, h1, h2, h3, h4⟩ := h.shift
  obtain ⟨d1, d2, d3⟩ := h.direction
  rw [abs_le] at hs ho
  refine ⟨⟨o + side * (1 / 4), ?_, ?_, ?_, ?_, ?_⟩, ⟨d1, d2, d3⟩, Or.inr hw, h.prec⟩
  · dsimp only
    rw [abs_le]
    constructor <;> linarith
  all_goals dsimp only
  · rw [h1, d3]; ring
  · rw [h2, d2]; ring
  · rw [h3, d3]; ring
  · rw [h4, d2]; ring

theorem Varied.finerWide {r0 r r' : WideRect} (h : Varied r0 r) (e : r.finerWide = some r') : Varied r0 r' := by
  unfold WideRect.finerWide at e
  split_ifs at e
  exact h.finer e

/-- What a stage keeps: the value is that of the rectangle. -/
structure Kept (value : WideRect → Outcome ℝ) (r0 : WideRect) (v0 : ℝ) (best : ℝ × WideRect) : Prop where
  value : value best.2 = .ok best.1
  le : v0 ≤ best.1
  varied : Varied r0 best.2

theorem improveLoop_ok (value : WideRect → Outcome ℝ) (hv : ∀ r, ∃ v, value r = .ok v) (vary : WideRect → Option WideRect)
    (r0 : WideRect) (hvary : ∀ r r', Varied r0 r → vary r = some r' → Varied r0 r') : ∀ (n : ℕ) (r : WideRect) (v0 : ℝ)
    (best : ℝ × WideRect), Varied r0 r → Kept value r0 v0 best →
    ∃ b, improveLoop value vary n r best = .ok b ∧ Kept value r0 v0 b ∧ best.1 ≤ b.1 := by
  intro n
  induction n with
  | zero => intro r v0 best _ hb; exact ⟨best, rfl, hb, le_rfl⟩
  | succ n ih =>
    intro r v0 best hr hb
    rw [improveLoop]
    cases hw : vary r with
    | none => exact ih r v0 best hr hb
    | some r' =>
      obtain ⟨v, hv'⟩ := hv r'
      dsimp only
      rw [hv', Outcome.bind_ok]
      have hr' := hvary r r' hr hw
      split_ifs with hlt
      · obtain ⟨b, h1, h2, h3⟩ := ih r' v0 (v, r') hr' ⟨hv', hb.le.trans hlt.le, hr'⟩
        exact ⟨b, h1, h2, hlt.le.trans h3⟩
      · exact ih r' v0 best hr' hb

theorem improveStages_ok (value : WideRect → Outcome ℝ) (hv : ∀ r, ∃ v, value r = .ok v) (logEps : ℝ) (r0 : WideRect) :
    ∀ (stages : List (WideRect → Option WideRect)) (v0 : ℝ) (best : ℝ × WideRect),
    (∀ vary ∈ stages, ∀ r r', Varied r0 r → vary r = some r' → Varied r0 r') → Kept value r0 v0 best →
    ∃ b, improveStages value logEps stages best = .ok b ∧ Kept value r0 v0 b ∧ best.1 ≤ b.1 := by
  intro stages
  induction stages with
  | nil => intro v0 best _ hb; exact ⟨best, rfl, hb, le_rfl⟩
  | cons vary rest ih =>
    intro v0 best hst hb
    rw [improveStages]
    split_ifs
    · exact ⟨best, rfl, hb, le_rfl⟩
    · obtain ⟨b, h1, h2, h3⟩ := improveLoop_ok value hv vary r0 (hst vary (by simp)) 5 best.2 v0 best hb.varied hb
      rw [h1, Outcome.bind_ok]
      obtain ⟨b', h4, h5, h6⟩ := ih v0 b (fun v hv' => hst v (by simp [hv'])) h2
      exact ⟨b', h4, h5, h3.trans h6⟩

theorem stages_varied (r0 : WideRect) : ∀ vary ∈ [WideRect.finer, WideRect.narrower, WideRect.trimmed 1, WideRect.trimmed (-1), WideRect.finerWide],
    ∀ r r', Varied r0 r → vary r = some r' → Varied r0 r' := by
  intro vary hvary r r' hr e
  simp only [List.mem_cons, List.not_mem_nil, or_false] at hvary
  rcases hvary with rfl | rfl | rfl | rfl | rfl
  · exact hr.finer e
  · exact hr.narrower e
  · exact hr.trimmed (by simp) e
  · exact hr.trimmed (by simp) e
  · exact hr.finerWide e

/-- The rectangle after `k` variations. -/
def varied (vary : WideRect → Option WideRect) : ℕ → WideRect → Option WideRect
  | 0, r => some r
  | k + 1, r => (vary r).bind (varied vary k)

theorem improveLoop_best (value : WideRect → Outcome ℝ) (hv : ∀ r, ∃ v, value r = .ok v) (vary : WideRect → Option WideRect) :
    ∀ (n : ℕ) (r : WideRect) (best b : ℝ × WideRect), improveLoop value vary n r best = .ok b →
    best.1 ≤ b.1 ∧ (best.1 = b.1 → best = b) ∧
      ∀ k, 1 ≤ k → k ≤ n → ∀ r', varied vary k r = some r' → ∀ u, value r' = .ok u → u ≤ b.1 := by
  intro n
  induction n with
  | zero =>
    intro r best b h
    rw [improveLoop, Outcome.ok.injEq] at h
    subst h
    exact ⟨le_rfl, fun _ => rfl, fun k h1 h2 => by omega⟩
  | succ n ih =>
    intro r best b h
    rw [improveLoop] at h
    cases hw : vary r with
    | none =>
      rw [hw] at h
      obtain ⟨h1, h2, -⟩ := ih _ _ _ h
      refine ⟨h1, h2, fun k hk1 hk2 r' hr' => ?_⟩
      obtain ⟨j, rfl⟩ : ∃ j, k = j + 1 := ⟨k - 1, by omega⟩
      rw [varied, hw] at hr'
      cases hr'
    | some r1 =>
      obtain ⟨v, hv'⟩ := hv r1
      rw [hw] at h
      dsimp only at h
      rw [hv', Outcome.bind_ok] at h
      obtain ⟨h1, h2, h4⟩ := ih _ _ _ h
      have h3 : best.1 ≤ b.1 ∧ v ≤ b.1 ∧ (best.1 = b.1 → best = b) := by
        split_ifs at h1 h2 with hlt
        · exact ⟨hlt.le.trans h1, h1, fun e => absurd h1 (by rw [← e]; exact not_le.2 hlt)⟩
        · exact ⟨h1, (not_lt.1 hlt).trans h1, h2⟩
      refine ⟨h3.1, h3.2.2, fun k hk1 hk2 r' hr' u hu => ?_⟩
      obtain ⟨j, rfl⟩ : ∃ j, k = j + 1 := ⟨k - 1, by omega⟩
      rw [varied, hw, Option.bind_some] at hr'
      rcases Nat.eq_zero_or_pos j with rfl | hj
      · rw [varied, Option.some.injEq] at hr'
        rw [← hr', hv', Outcome.ok.injEq] at hu
        rw [← hu]
        exact h3.2.1
      · exact h4 j hj (by omega) r' hr' u hu

theorem improveStages_best (value : WideRect → Outcome ℝ) (hv : ∀ r, ∃ v, value r = .ok v) (logEps : ℝ) :
    ∀ (stages : List (WideRect → Option WideRect)) (best b : ℝ × WideRect), improveStages value logEps stages best = .ok b →
    best.1 ≤ b.1 ∧ (best.1 = b.1 → best.1 ≤ logEps → best = b ∧ ∀ vary ∈ stages,
      ∀ k, 1 ≤ k → k ≤ 5 → ∀ r', varied vary k best.2 = some r' → ∀ u, value r' = .ok u → u ≤ best.1) := by
  intro stages
  induction stages with
  | nil =>
    intro best b h
    rw [improveStages, Outcome.ok.injEq] at h
    subst h
    exact ⟨le_rfl, fun _ _ => ⟨rfl, by simp⟩⟩
  | cons vary rest ih =>
    intro best b h
    rw [improveStages] at h
    split_ifs at h with hlt
    · rw [Outcome.ok.injEq] at h
      subst h
      exact ⟨le_rfl, fun _ hle => absurd hlt (not_lt.2 hle)⟩
    · obtain ⟨b1, h1, h⟩ := Outcome.bind_eq_ok h
      obtain ⟨a1, a2, a3⟩ := improveLoop_best value hv vary 5 best.2 best b1 h1
      obtain ⟨c1, c2⟩ := ih b1 b h
      refine ⟨a1.trans c1, fun e hle => ?_⟩
      have e1 : best.1 = b1.1 := le_antisymm a1 (by rw [e]; exact c1)
      obtain rfl := a2 e1
      obtain ⟨d1, d2⟩ := c2 e hle
      refine ⟨d1, fun w hw => ?_⟩
      rcases List.mem_cons.1 hw with rfl | hw
      · exact a3
      · exact d2 w hw

theorem varied_finer (k : ℕ) : ∀ r : WideRect, 1 ≤ k →
    varied WideRect.finer k r = some { r with p := r.p / 2 ^ k, prec := r.p / 2 ^ k * Real.pi } := by
  induction k with
  | zero => intro r h; omega
  | succ k ih =>
    intro r _
    rw [varied, WideRect.finer, Option.bind_some]
    rcases Nat.eq_zero_or_pos k with rfl | h
    · simp [varied]
    · rw [ih _ h]
      dsimp only
      rw [pow_succ', div_div]

theorem varied_trimmed (side : ℝ) (k : ℕ) : ∀ r : WideRect, 1 / 2 ≤ r.width - k / 2 →
    varied (WideRect.trimmed side) k r = some { r with
      x1 := r.x1 - side * (k / 4) * r.dy, y1 := r.y1 + side * (k / 4) * r.dx
      x2 := r.x2 - side * (k / 4) * r.dy, y2 := r.y2 + side * (k / 4) * r.dx
      width := r.width - k / 2 } := by
  induction k with
  | zero => intro r _; simp [varied]
  | succ k ih =>
    intro r hw
    push_cast at hw
    have hk : (0 : ℝ) ≤ k := Nat.cast_nonneg k
    rw [varied, WideRect.trimmed, if_pos (by linarith), Option.bind_some, ih _ (by dsimp only; linarith)]
    dsimp only
    congr 3
    all_goals (push_cast; ring)

theorem narrower_eq : WideRect.narrower = WideRect.trimmed 0 := by
  funext r
  unfold WideRect.narrower WideRect.trimmed
  simp

theorem rectNfa_ok (logGamma : ℝ → ℝ) (logNt : ℝ) (angle : Px → Option ℝ) (width height : ℕ) (r : WideRect) :
    ∃ v, rectNfa logGamma logNt angle width height r = .ok v := by
  obtain ⟨l, h, -⟩ := C168_counted_partial width height r
  unfold rectNfa
  rw [h]
  exact ⟨_, rfl⟩

/-- C169: the improvement of a rectangle returns, with the value of the rectangle that it leaves. This value is not below that
of the first rectangle, which is left as it is when it is meaningful. The new rectangle is in the first one, with the same
direction; it is as wide or half a pixel wide at least; the probability was halved some times, and the tolerance on angles
follows. When the first rectangle is not meaningful, no probability halved up to five times has a better value than the one returned.
When nothing better is found for it, then no rectangle less wide by up to five half pixels, on both sides or on one, is better
either. -/
theorem C169_improve (logGamma : ℝ → ℝ) (logNt : ℝ) (angle : Px → Option ℝ) (width height : ℕ) (logEps : ℝ) (r : WideRect) :
    let value := rectNfa logGamma logNt angle width height
    ∃ v v' r', value r = .ok v ∧ rectImprove value logEps r = .ok (v', r') ∧ value r' = .ok v' ∧ v ≤ v' ∧
      (logEps < v → r' = r) ∧
      (∀ q, Spec.InRectangle (r'.x1, r'.y1) (r'.x2, r'.y2) (r'.dx, r'.dy) r'.width q →
        Spec.InRectangle (r.x1, r.y1) (r.x2, r.y2) (r.dx, r.dy) r.width q) ∧
      (r'.theta = r.theta ∧ r'.dx = r.dx ∧ r'.dy = r.dy) ∧
      (r'.width = r.width ∨ 1 / 2 ≤ r'.width) ∧
      (∃ j : ℕ, r'.p = r.p / 2 ^ j ∧ r'.prec = if j = 0 then r.prec else r'.p * Real.pi) ∧
      (v ≤ logEps → ∀ k, 1 ≤ k → k ≤ 5 → ∀ u,
        value { r with p := r.p / 2 ^ k, prec := r.p / 2 ^ k * Real.pi } = .ok u → u ≤ v') ∧
      (v ≤ logEps → v' = v → r' = r ∧ ∀ k : ℕ, 1 ≤ k → k ≤ 5 → 1 / 2 ≤ r.width - k / 2 → ∀ side ∈ ({0, 1, -1} : Set ℝ), ∀ u,
        value { r with
          x1 := r.x1 - side * (k / 4) * r.dy, y1 := r.y1 + side * (k / 4) * r.dx
          x2 := r.x2 - side * (k / 4) * r.dy, y2 := r.y2 + side * (k / 4) * r.dx
          width := r.width - k / 2 } = .ok u → u ≤ v) := by
  intro value
  have hv : ∀ r, ∃ v, value r = .ok v := rectNfa_ok logGamma logNt angle width height
  obtain ⟨v, hr⟩ := hv r
  obtain ⟨⟨v', r'⟩, h1, h2, h3⟩ := improveStages_ok value hv logEps r _ v (v, r) (stages_varied r) ⟨hr, le_rfl, Varied.refl r⟩
  have himp : rectImprove value logEps r = .ok (v', r') := by
    unfold rectImprove
    rw [hr, Outcome.bind_ok, h1]
  refine ⟨v, v', r', hr, himp, h2.value, h2.le, fun hlt => ?_, ?_, h2.varied.direction, h2.varied.width, h2.varied.prec, ?_, ?_⟩
  · rw [improveStages, if_pos hlt, Outcome.ok.injEq, Prod.mk.injEq] at h1
    exact h1.2.symm
  · rintro q ⟨t, u, ht0, ht1, hu, rfl⟩
    obtain ⟨o, ho, e1, e2, e3, e4⟩ := h2.varied.shift
    obtain ⟨-, e5, e6⟩ := h2.varied.direction
    dsimp only at ho e1 e2 e3 e4 e5 e6 hu ⊢
    refine ⟨t, u + o, ht0, ht1, ?_, ?_⟩
    · rw [abs_le] at hu ho ⊢
      constructor <;> linarith
    · rw [e1, e2, e3, e4, e5, e6]
      dsimp only
      ext
      · dsimp only; ring
      · dsimp only; ring
  · intro hle k hk1 hk5 u hu
    rw [improveStages, if_neg (not_lt.2 hle)] at h1
    obtain ⟨b, hb, hrest⟩ := Outcome.bind_eq_ok h1
    obtain ⟨-, -, hbest⟩ := improveLoop_best value hv _ 5 r (v, r) b hb
    exact (hbest k hk1 hk5 _ (varied_finer k r hk1) u hu).trans (improveStages_best value hv logEps _ b _ hrest).1
  · intro hle he
    obtain ⟨-, h4⟩ := improveStages_best value hv logEps _ _ _ h1
    obtain ⟨h5, h6⟩ := h4 he.symm hle
    refine ⟨congrArg Prod.snd h5.symm, fun k hk1 hk5 hw side hside u hu => ?_⟩
    have hmem : WideRect.trimmed side ∈ [WideRect.finer, WideRect.narrower, WideRect.trimmed 1, WideRect.trimmed (-1), WideRect.finerWide] := by
      simp only [Set.mem_insert_iff, Set.mem_singleton_iff] at hside
      rw [narrower_eq]
      rcases hside with rfl | rfl | rfl <;> simp
    exact h6 _ hmem k hk1 hk5 _ (varied_trimmed side k r hw) u hu

/-- The rectangle of C168 when the edge is along it at each pixel: it is not meaningful, and it is improved. -/
example : ∃ r : WideRect, ∃ v v' r', rectNfa Real.log 10 (fun _ => some 0) 20 10 r = .ok v ∧ v ≤ 0 ∧
    rectImprove (rectNfa Real.log 10 (fun _ => some 0) 20 10) 0 r = .ok (v', r') ∧ v < v' := by
  have hn : ∀ (p prec : ℝ), 0 ≤ prec → rectNfa Real.log 10 (fun _ => some 0) 20 10
      { x1 := (4 : ℕ), y1 := (5 : ℕ), x2 := (15 : ℕ), y2 := (5 : ℕ), width := 2 * (1 : ℕ), x := 9, y := 5, theta := 0, dx := 1, dy := 0, prec := prec, p := p }
      = .ok (-10 - 3 * Real.logb 10 p) := by
    intro p prec hprec
    obtain ⟨-, l, h1, h2⟩ := C168_flat_false 20 10 4 15 5 1 (by norm_num) (by norm_num) (by norm_num) (by norm_num) (by norm_num)
      { x1 := (4 : ℕ), y1 := (5 : ℕ), x2 := (15 : ℕ), y2 := (5 : ℕ), width := 2 * (1 : ℕ), x := 9, y := 5, theta := 0, dx := 1, dy := 0, prec := prec, p := p }
      ⟨rfl, rfl, rfl, rfl, rfl, rfl, rfl⟩
    obtain ⟨l', h3, h4, -⟩ := C168_counted_partial 20 10
      { x1 := (4 : ℕ), y1 := (5 : ℕ), x2 := (15 : ℕ), y2 := (5 : ℕ), width := 2 * (1 : ℕ), x := 9, y := 5, theta := 0, dx := 1, dy := 0, prec := prec, p := p }
    rw [h1, Outcome.ok.injEq] at h3
    subst h3
    have hp : l.Perm [(4, 4), (4, 5), (4, 6)] := by
      rw [List.perm_ext_iff_of_nodup h4 (by decide)]
      rintro ⟨x, y⟩
      rw [h2]
      simp only [List.mem_cons, Prod.mk.injEq, List.not_mem_nil, or_false]
      omega
    have hc : (l.countP fun p => isAligned (fun _ => some 0) 20 10 p 0 prec) = 3 := by
      rw [hp.countP_eq]
      have hpi := Real.pi_pos
      have : ¬ (0 > 3 * Real.pi / 2) := by rw [not_lt]; positivity
      simp [isAligned, this, hprec]
    unfold rectNfa
    rw [h1, Outcome.map, Outcome.bind_ok]
    rw [hc, hp.length_eq]
    simp [nfa]
  refine ⟨{ x1 := (4 : ℕ), y1 := (5 : ℕ), x2 := (15 : ℕ), y2 := (5 : ℕ), width := 2 * (1 : ℕ), x := 9, y := 5, theta := 0, dx := 1, dy := 0, prec := 1, p := 1 / 8 }, ?_⟩
  obtain ⟨v, v', r', h1, h2, -, -, -, -, -, -, -, h3, -⟩ := C169_improve Real.log 10 (fun _ => some 0) 20 10 0
    { x1 := (4 : ℕ), y1 := (5 : ℕ), x2 := (15 : ℕ), y2 := (5 : ℕ), width := 2 * (1 : ℕ), x := 9, y := 5, theta := 0, dx := 1, dy := 0, prec := 1, p := 1 / 8 }
  have hv := h1.symm.trans (hn (1 / 8) 1 (by norm_num))
  rw [Outcome.ok.injEq] at hv
  have l8 : Real.logb 10 (1 / 8) ≥ -1 := by
    rw [ge_iff_le, Real.le_logb_iff_rpow_le (by norm_num) (by norm_num), Real.rpow_neg_one]
    norm_num
  have hle : v ≤ 0 := by rw [hv]; linarith
  have h5 := h3 hle 1 le_rfl (by norm_num) _ (hn (1 / 8 / 2 ^ 1) (1 / 8 / 2 ^ 1 * Real.pi) (by have := Real.pi_pos; positivity))
  refine ⟨v, v', r', h1, hle, h2, lt_of_lt_of_le ?_ h5⟩
  rw [hv]
  have : Real.logb 10 (1 / 8 / 2 ^ 1) < Real.logb 10 (1 / 8) := Real.logb_lt_logb (by norm_num) (by norm_num) (by norm_num)
  linarith

/-! ### The lines -/

/-- What the advanced refinement makes of a line of the standard one. -/
noncomputable def advance (value : WideRect → Outcome ℝ) (logEps : ℝ) (x : List Px × Rect) : Option Found :=
  match rectImprove value logEps x.2.wide with
  | .ok b => if b.1 ≤ logEps then none else some { group := x.1, value := b.1, rect := b.2 }
  | _ => none

theorem searchAdvanced_eq (s : Setting) (value : WideRect → Outcome ℝ)
    (hi : ∀ logEps r, ∃ b, rectImprove value logEps r = .ok b) (fuel m : ℕ) (th logEps : ℝ) :
    ∀ (order : List Px) (used : Px → Bool) (ls : List (List Px × Rect)), s.searchRefined fuel m th order used = .ok ls →
      s.searchAdvanced value fuel m th logEps order used = .ok (ls.filterMap (advance value logEps)) := by
  intro order
  induction order with
  | nil =>
    intro used ls h
    rw [Setting.searchRefined, Outcome.ok.injEq] at h
    subst h
    rfl
  | cons p l ih =>
    intro used ls h
    rw [Setting.searchRefined] at h
    rw [Setting.searchAdvanced]
    split_ifs at h ⊢ with hp
    · obtain ⟨g, hg, h⟩ := Outcome.bind_eq_ok h
      rw [hg, Outcome.bind_ok]
      split_ifs at h ⊢ with hs
      · exact ih _ _ h
      · obtain ⟨rec, hrec, h⟩ := Outcome.bind_eq_ok h
        obtain ⟨res, hres, h⟩ := Outcome.bind_eq_ok h
        rw [hrec, Outcome.bind_ok, hres, Outcome.bind_ok]
        split_ifs at h ⊢ with hr
        · obtain ⟨rest, hrest, h⟩ := Outcome.bind_eq_ok h
          rw [Outcome.ok.injEq] at h
          subst h
          obtain ⟨b, hb⟩ := hi logEps res.2.2.wide
          have had : advance value logEps (res.2.1.points, res.2.2) =
              if b.1 ≤ logEps then none else some { group := res.2.1.points, value := b.1, rect := b.2 } := by
            unfold advance
            rw [hb]
          rw [hb, Outcome.bind_ok, List.filterMap_cons, had]
          split_ifs with hle
          · exact ih _ _ hrest
          · rw [ih _ _ hrest]
            rfl
        · exact ih _ _ h
    · exact ih _ _ h

theorem rectImprove_ok (logGamma : ℝ → ℝ) (logNt : ℝ) (angle : Px → Option ℝ) (width height : ℕ) (logEps : ℝ) (r : WideRect) :
    ∃ b, rectImprove (rectNfa logGamma logNt angle width height) logEps r = .ok b := by
  obtain ⟨v, v', r', -, h, -⟩ := C169_improve logGamma logNt angle width height logEps r
  exact ⟨_, h⟩

/-- C170: with the advanced refinement the detection returns, whatever the image, without a failing assertion. Each line has a
value above the threshold, that of its rectangle. It has a group of two pixels or more, of the image and with a clear gradient,
that fills the rectangle of its best segment densely enough; the rectangle of the line is in that one, in the same direction.
The groups have no pixel in common. -/
theorem C170_lines (s : Setting) (hat : Spec.ExactAtan s.atan) (logGamma : ℝ → ℝ) (th logEps : ℝ) (order : List Px)
    (horder : ∀ p : Px, p ∈ order ↔ p.1 + 1 < s.width ∧ p.2 + 1 < s.height) :
    ∃ n found, (∀ fuel, n ≤ fuel → s.detectAdvanced logGamma th logEps fuel order = .ok found) ∧
      (∀ x ∈ found, logEps < x.value ∧
        rectNfa logGamma (logTests s.width s.height) (s.angle threshold) s.width s.height x.rect = .ok x.value ∧
        x.group.Nodup ∧ 2 ≤ x.group.length ∧
        (∀ p ∈ x.group, p.1 < s.width ∧ p.2 < s.height ∧ (s.angle threshold p).isSome) ∧
        ∃ x1 y1 x2 y2 theta width : ℝ,
          Spec.Fits (x.group.map fun p => ((p.1 : ℝ), (p.2 : ℝ), (s.norm p).getD 0)) (x1, y1) (x2, y2) theta width ∧
          th * (√((x2 - x1) ^ 2 + (y2 - y1) ^ 2) * width) ≤ x.group.length ∧
          x.rect.theta = theta ∧ x.rect.dx = Real.cos theta ∧ x.rect.dy = Real.sin theta ∧
          ∀ q, Spec.InRectangle (x.rect.x1, x.rect.y1) (x.rect.x2, x.rect.y2) (x.rect.dx, x.rect.dy) x.rect.width q →
            Spec.InRectangle (x1, y1) (x2, y2) (Real.cos theta, Real.sin theta) width q) ∧
      found.Pairwise fun a b => ∀ p ∈ a.group, p ∉ b.group := by
  by_cases hsize : 1 < s.width ∧ 1 < s.height
  swap
  · have hnil : order = [] := by
      rw [List.eq_nil_iff_forall_not_mem]
      intro p hp
      have := (horder p).1 hp
      omega
    subst hnil
    exact ⟨0, [], fun _ _ => rfl, by simp, List.Pairwise.nil⟩
  obtain ⟨n, ls, e, hl⟩ := searchRefined_ok s (minRegionSize s.width s.height)
    (two_le_minRegionSize _ _ (by omega) (by omega)) th order (fun _ => false) (fun p hp => by
      have := (horder p).1 hp
      omega)
  set value := rectNfa logGamma (logTests s.width s.height) (s.angle threshold) s.width s.height with hvalue
  have hspec : ∀ x ∈ ls, ∀ f, advance value logEps x = some f → f.group = x.1 ∧ logEps < f.value ∧
      rectImprove value logEps x.2.wide = .ok (f.value, f.rect) := by
    intro x _ f hf
    obtain ⟨b, hb⟩ := rectImprove_ok logGamma (logTests s.width s.height) (s.angle threshold) s.width s.height logEps x.2.wide
    unfold advance at hf
    rw [hb] at hf
    dsimp only at hf
    split_ifs at hf with hle
    rw [Option.some.injEq] at hf
    subst hf
    exact ⟨rfl, not_le.1 hle, hb⟩
  refine ⟨n, ls.filterMap (advance value logEps), fun fuel hf => ?_, ?_, ?_⟩
  · unfold Setting.detectAdvanced
    exact searchAdvanced_eq s value (rectImprove_ok _ _ _ _ _) fuel _ th logEps order _ ls (e fuel hf)
  · intro f hf
    obtain ⟨x, hx, hxf⟩ := List.mem_filterMap.1 hf
    obtain ⟨h1, h2, h3⟩ := hspec x hx f hxf
    obtain ⟨a, b, -, c, d, theta, g⟩ := hl.each x hx
    obtain ⟨v, v', r', i1, i2, i3, i4, i5, i6, ⟨i7, i8, i9⟩, -⟩ :=
      C169_improve logGamma (logTests s.width s.height) (s.angle threshold) s.width s.height logEps x.2.wide
    rw [← hvalue] at i2 i3
    rw [h3, Outcome.ok.injEq, Prod.mk.injEq] at i2
    obtain ⟨rfl, rfl⟩ := i2
    rw [h1]
    refine ⟨h2, i3, a, b, fun p hp => ?_, x.2.x1, x.2.y1, x.2.x2, x.2.y2, x.2.theta, x.2.width,
      rect_fits s hat x.1 theta c a b x.2 g, dense_area _ _ _ (rectOf_width s _ _ _ g) d, i7, i8, i9, i6⟩
    obtain ⟨ang, hang⟩ := c p hp
    obtain ⟨m, hm, -⟩ := angle_some_norm s _ p ang hang
    have := norm_some_inner s p m hm
    exact ⟨by omega, by omega, by rw [hang]; rfl⟩
  · rw [List.pairwise_filterMap]
    refine hl.disjoint.imp_of_mem ?_
    intro x y hx hy hxy f hf g hg
    rw [(hspec x hx f hf).1, (hspec y hy g hg).1]
    exact hxy

/-- C170: a line of the standard refinement whose rectangle is meaningful is found, with its rectangle. -/
theorem C170_kept (s : Setting) (logGamma : ℝ → ℝ) (th logEps : ℝ) (order : List Px) (fuel : ℕ) (lines : List (List Px × Rect))
    (h : s.searchRefined fuel (minRegionSize s.width s.height) th order (fun _ => false) = .ok lines) :
    ∃ found, s.detectAdvanced logGamma th logEps fuel order = .ok found ∧
      (found.map (·.group)).Sublist (lines.map (·.1)) ∧
      ∀ x ∈ lines, ∀ v, rectNfa logGamma (logTests s.width s.height) (s.angle threshold) s.width s.height x.2.wide = .ok v →
        logEps < v → { group := x.1, value := v, rect := x.2.wide } ∈ found := by
  refine ⟨_, searchAdvanced_eq s _ (rectImprove_ok _ _ _ _ _) fuel _ th logEps order _ lines h, ?_, ?_⟩
  · clear h
    induction lines with
    | nil => simp
    | cons x l ih =>
      rw [List.filterMap_cons]
      split
      · exact ih.trans (List.sublist_cons_self _ _)
      · rename_i f hf
        have : f.group = x.1 := by
          unfold advance at hf
          split at hf
          · split_ifs at hf
            rw [Option.some.injEq] at hf
            subst hf
            rfl
          · cases hf
        rw [List.map_cons, List.map_cons, this]
        exact ih.cons_cons _
  · intro x hx v hv hlt
    refine List.mem_filterMap.2 ⟨x, hx, ?_⟩
    obtain ⟨v0, v', r', i1, i2, i3, -, i5, -⟩ :=
      C169_improve logGamma (logTests s.width s.height) (s.angle threshold) s.width s.height logEps x.2.wide
    rw [hv, Outcome.ok.injEq] at i1
    subst i1
    obtain rfl := i5 hlt
    rw [hv, Outcome.ok.injEq] at i3
    subst i3
    unfold advance
    rw [i2]
    dsimp only
    rw [if_neg (not_le.2 hlt)]

theorem ten_logTests {w h : ℕ} (hw : 0 < w) (hh : 0 < h) :
    (10 : ℝ) ^ logTests w h = 11 * ((w : ℝ) * h) ^ ((5 : ℝ) / 2) := by
  have hw' : (0 : ℝ) < w := by exact_mod_cast hw
  have hh' : (0 : ℝ) < h := by exact_mod_cast hh
  unfold logTests
  rw [Real.rpow_add (by norm_num), Real.rpow_logb (by norm_num) (by norm_num) (by norm_num),
    ← Real.logb_mul hw'.ne' hh'.ne',
    show 5 * Real.logb 10 ((w : ℝ) * h) / 2 = Real.logb 10 ((w : ℝ) * h) * ((5 : ℝ) / 2) by ring,
    Real.rpow_mul (by norm_num), Real.rpow_logb (by norm_num) (by norm_num) (by positivity), mul_comm]

/-- C160 for the lines that are found with the advanced refinement (partial: see C160).  Of a line found, the expected
number of false alarms of 11 (width * height)^(5/2) tests, each with `n` pixels counted, `k` of them aligned, is below 10^-`logEps`
when all of them are aligned; otherwise it is so for the number multiplied by exp (n + 1) / n!, up to the error of C160.  The
probability of a pixel is 1/8, halved some times, and the tolerance on angles that of the probability. -/
theorem C160_detected_partial (s : Setting) (logGamma : ℝ → ℝ)
    (hg : ∀ m : ℕ, logGamma ((m : ℝ) + 1) = Real.log (m.factorial : ℝ)) (th logEps : ℝ) (order : List Px)
    (horder : ∀ p : Px, p ∈ order ↔ p.1 + 1 < s.width ∧ p.2 + 1 < s.height) :
    ∃ m found, (∀ fuel, m ≤ fuel → s.detectAdvanced logGamma th logEps fuel order = .ok found) ∧
      ∀ x ∈ found, ∃ pixels j, x.rect.pixels s.width s.height = .ok pixels ∧ x.rect.p = 1 / 8 / 2 ^ j ∧
        x.rect.prec = Real.pi * x.rect.p ∧
        let n := pixels.length
        let k := pixels.countP fun p => isAligned (s.angle threshold) s.width s.height p x.rect.theta x.rect.prec
        let tests := 11 * ((s.width : ℝ) * s.height) ^ ((5 : ℝ) / 2)
        (k = n → tests * Spec.chance n k x.rect.p < 10 ^ (-logEps)) ∧
        (0 < k → k < n → 100 / 2 ^ 1074 < Real.exp (n + 1) / n.factorial *
            ((n.choose k : ℝ) * x.rect.p ^ k * (1 - x.rect.p) ^ (n - k)) →
          ∃ T, 0 < T ∧ T ≤ Spec.chance n k x.rect.p ∧ Spec.chance n k x.rect.p ≤ (1 + |x.value| / 10) * T ∧
            tests * (Real.exp (n + 1) / n.factorial) * T < 10 ^ (-logEps)) := by
  by_cases hsize : 1 < s.width ∧ 1 < s.height
  swap
  · have hnil : order = [] := by
      rw [List.eq_nil_iff_forall_not_mem]
      intro p hp
      have := (horder p).1 hp
      omega
    subst hnil
    exact ⟨0, [], fun _ _ => rfl, by simp⟩
  obtain ⟨m, ls, e, -⟩ := searchRefined_ok s (minRegionSize s.width s.height)
    (two_le_minRegionSize _ _ (by omega) (by omega)) th order (fun _ => false) (fun p hp => by
      have := (horder p).1 hp
      omega)
  set value := rectNfa logGamma (logTests s.width s.height) (s.angle threshold) s.width s.height with hvalue
  refine ⟨m, ls.filterMap (advance value logEps), fun fuel hf => ?_, ?_⟩
  · unfold Setting.detectAdvanced
    exact searchAdvanced_eq s value (rectImprove_ok _ _ _ _ _) fuel _ th logEps order _ ls (e fuel hf)
  · intro f hf
    obtain ⟨x, hx, hxf⟩ := List.mem_filterMap.1 hf
    obtain ⟨v, v', r', i1, i2, i3, i4, i5, i6, -, -, ⟨j, hj1, hj2⟩, -⟩ :=
      C169_improve logGamma (logTests s.width s.height) (s.angle threshold) s.width s.height logEps x.2.wide
    rw [← hvalue] at i2 i3
    unfold advance at hxf
    rw [i2] at hxf
    dsimp only at hxf
    split_ifs at hxf with hle
    rw [Option.some.injEq] at hxf
    subst hxf
    have hlt := not_le.1 hle
    dsimp only at hlt ⊢
    obtain ⟨l, hl, -⟩ := C168_counted_partial s.width s.height r'
    have hp : r'.p = 1 / 8 / 2 ^ j := hj1
    have hpos : 0 < r'.p := by rw [hp]; positivity
    have hp1 : r'.p < 1 := by
      rw [hp, div_lt_one (by positivity)]
      calc (1 / 8 : ℝ) < 1 := by norm_num
        _ ≤ 2 ^ j := one_le_pow₀ (by norm_num)
    have hten := ten_logTests (w := s.width) (h := s.height) (by omega) (by omega)
    have hneg : (10 : ℝ) ^ (-v') < 10 ^ (-logEps) := Real.rpow_lt_rpow_of_exponent_lt (by norm_num) (by linarith)
    rw [hvalue] at i3
    unfold rectNfa at i3
    rw [hl] at i3
    have hv : _ = v' := Outcome.ok.inj i3
    dsimp only at hv
    refine ⟨l, j, hl, hp, ?_, ?_, ?_⟩
    · rw [hj2]
      split_ifs with h0
      · rw [hp, h0]
        show tolerance = _
        unfold tolerance
        ring
      · ring
    · intro hk
      rw [C160_meaningful_partial _ _ _ _ _ hpos (Or.inr hk), Spec.meaningful, hten] at hv
      have hc : 0 < Spec.chance l.length (l.countP fun p => isAligned (s.angle threshold) s.width s.height p r'.theta r'.prec) r'.p := by
        rw [hk]
        simp only [Spec.chance, Finset.Icc_self, Finset.sum_singleton, Nat.choose_self, Nat.sub_self]
        positivity
      have hw : (0 : ℝ) < s.width := by exact_mod_cast (by omega : 0 < s.width)
      have hh : (0 : ℝ) < s.height := by exact_mod_cast (by omega : 0 < s.height)
      rw [← hv, neg_neg, Real.rpow_logb (by norm_num) (by norm_num) (by positivity)] at hneg
      exact hneg
    · intro hk hkn hnormal
      obtain ⟨T, T0, T1, T2, T3⟩ := C160_shifted_partial logGamma hg (logTests s.width s.height) _ _ r'.p hpos hp1 hk hkn hnormal
      rw [hv] at T2 T3
      refine ⟨T, T0, T1, T2, ?_⟩
      have : (10 : ℝ) ^ (-v') = 11 * ((s.width : ℝ) * s.height) ^ ((5 : ℝ) / 2) *
          (Real.exp ((l.length : ℕ) + 1) / (l.length).factorial) * T := by
        rw [T3, show -(-logTests s.width s.height - Real.logb 10 (Real.exp ((l.length : ℕ) + 1) / (l.length).factorial * T)) =
          logTests s.width s.height + Real.logb 10 (Real.exp ((l.length : ℕ) + 1) / (l.length).factorial * T) by ring,
          Real.rpow_add (by norm_num), hten, Real.rpow_logb (by norm_num) (by norm_num) (by positivity)]
        ring
      rw [← this]
      exact hneg

/-- The ramp of C148 is an image of C170. With a threshold of 0 on the density and some threshold on values its six pixels make
a line. -/
example : (∀ p : Px, p ∈ rampOrder ↔ p.1 + 1 < ramp.width ∧ p.2 + 1 < ramp.height) ∧ Spec.ExactAtan ramp.atan ∧
    ∃ logEps found, ramp.detectAdvanced Real.log 0 logEps 15 rampOrder = .ok found ∧ found.map (·.group) = [rampOrder] := by
  obtain ⟨g, hg, hp, -⟩ := ramp_regions
  refine ⟨ramp_sorted.1, exactAtan_exact, ?_⟩
  obtain ⟨lines, h1, h2, -⟩ := C159_dense ramp (3 / 10) 0 rampOrder ramp_sorted.1 15 (by decide) [g] hg
    (fun g' _ rec _ => by rw [zero_mul]; positivity)
  unfold Setting.detectRefined at h1
  obtain ⟨ls, h3, h4⟩ := Outcome.bind_eq_ok h1
  rw [Outcome.ok.injEq] at h4
  subst h4
  have h5 : ls.map (·.1) = [rampOrder] := by
    rw [List.map_map] at h2
    rw [← hp]
    exact h2
  obtain ⟨x, hx⟩ : ∃ x, ls = [x] := List.length_eq_one_iff.1 (by simpa using congrArg List.length h5)
  subst hx
  obtain ⟨v, hv⟩ := rectNfa_ok Real.log (logTests ramp.width ramp.height) (ramp.angle threshold) ramp.width ramp.height x.2.wide
  obtain ⟨found, h6, h7, h8⟩ := C170_kept ramp Real.log 0 (v - 1) rampOrder 15 [x] h3
  have hm := List.mem_map_of_mem (f := (·.group)) (h8 x (by simp) v hv (by linarith))
  refine ⟨v - 1, found, h6, ?_⟩
  rw [h5] at h7
  rcases List.sublist_singleton.1 h7 with h | h
  · rw [h] at hm
    cases hm
  · exact h

end RgbdSlam.Lsd
