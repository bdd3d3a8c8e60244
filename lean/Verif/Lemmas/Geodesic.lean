import Verif.Spec.Geodesic
import Mathlib.Tactic.SplitIfs
import Mathlib.Tactic.ByContra
import Mathlib.Data.List.FinRange
import Mathlib.Algebra.BigOperators.Fin
import Mathlib.Algebra.Order.BigOperators.Group.Finset
import Mathlib.Data.Fintype.Prod
/-
Dilations below a mask.
-/
namespace RgbdSlam.Geodesic

open Spec

variable {h w : Nat}

theorem shift_eq_some {p q : Pixel h w} {d : Int × Int} :
    shift p d = some q ↔ (q.1.val : Int) = p.1.val + d.1 ∧ (q.2.val : Int) = p.2.val + d.2 := by
  unfold shift
  have h1 := q.1.isLt
  have h2 := q.2.isLt
  split_ifs with hx
  · rw [Option.some.injEq, Prod.ext_iff, Fin.ext_iff, Fin.ext_iff]
    dsimp only
    omega
  · simp only [false_iff]
    rintro ⟨h3, h4⟩
    omega

theorem le_foldl_max {α : Type} (f : α → Nat) (v : Nat) (l : List α) (a : Nat) :
    v ≤ l.foldl (fun a q => max a (f q)) a ↔ v ≤ a ∨ ∃ q ∈ l, v ≤ f q := by
  induction l generalizing a with
  | nil => simp
  | cons x l ih =>
    rw [List.foldl_cons, ih, le_max_iff]
    simp [or_assoc]

theorem foldl_min_le {α : Type} (f : α → Nat) (v : Nat) (l : List α) (a : Nat) :
    l.foldl (fun a q => min a (f q)) a ≤ v ↔ a ≤ v ∨ ∃ q ∈ l, f q ≤ v := by
  induction l generalizing a with
  | nil => simp
  | cons x l ih =>
    rw [List.foldl_cons, ih, min_le_iff]
    simp [or_assoc]

theorem mem_neighbours {se : Element} {p q : Pixel h w} : q ∈ se.filterMap (shift p) ↔ Near se p q := by
  simp only [List.mem_filterMap, shift_eq_some, Near]

theorem le_dilate {se : Element} {f : Image h w} {p : Pixel h w} {v : Nat} (hv : 0 < v) :
    v ≤ dilate se f p ↔ ∃ q, Near se p q ∧ v ≤ f q := by
  rw [dilate, le_foldl_max]
  simp only [mem_neighbours]
  constructor
  · rintro (h0 | h1)
    · omega
    · exact h1
  · exact .inr

theorem le_dilateUnder {se : Element} {mask f : Image h w} {p : Pixel h w} {v : Nat} (hv : 0 < v) :
    v ≤ dilateUnder se mask f p ↔ v ≤ mask p ∧ ∃ q, Near se p q ∧ v ≤ f q := by
  rw [dilateUnder, le_min_iff, le_dilate hv, and_comm]

/-- Two images with the same levels are the same. -/
theorem image_ext {f g : Image h w} (hfg : ∀ p v, 0 < v → (v ≤ f p ↔ v ≤ g p)) : f = g := by
  funext p
  apply Nat.le_antisymm
  · by_cases h0 : 0 < f p
    · exact (hfg p _ h0).1 (Nat.le_refl _)
    · omega
  · by_cases h0 : 0 < g p
    · exact (hfg p _ h0).2 (Nat.le_refl _)
    · omega

theorem repeated_succ (next : Image h w → Image h w) (n : Nat) (f : Image h w) :
    repeated next (n + 1) f = next (repeated next n f) := by
  induction n generalizing f with
  | zero => rfl
  | succ n ih => rw [repeated, ih]; rfl

/-- After `n` dilations below the mask: what a walk of `n` steps reaches. -/
theorem le_repeated {se : Element} {mask f : Image h w} {v : Nat} (hv : 0 < v)
    (hf : ∀ q, v ≤ f q → v ≤ mask q) (n : Nat) (p : Pixel h w) :
    v ≤ repeated (dilateUnder se mask) n f p ↔ ∃ q, Walk se (fun x => v ≤ mask x) n p q ∧ v ≤ f q := by
  induction n generalizing p with
  | zero =>
    constructor
    · intro h0
      exact ⟨p, .stay (hf p h0), h0⟩
    · rintro ⟨q, hw, hq⟩
      cases hw
      exact hq
  | succ n ih =>
    rw [repeated_succ, le_dilateUnder hv]
    constructor
    · rintro ⟨h0, q, hn, hq⟩
      obtain ⟨r, hr, hfr⟩ := (ih q).1 hq
      exact ⟨r, .go h0 hn hr, hfr⟩
    · rintro ⟨r, hw, hfr⟩
      cases hw with
      | go h0 hn hr => exact ⟨h0, _, hn, (ih _).2 ⟨r, hr, hfr⟩⟩

theorem differ_iff {f g : Image h w} : differ f g = false ↔ f = g := by
  unfold differ
  rw [List.any_eq_false]
  constructor
  · intro hd
    funext ⟨i, j⟩
    have := hd i (List.mem_finRange i)
    rw [Bool.not_eq_true, List.any_eq_false] at this
    have := this j (List.mem_finRange j)
    simpa using this
  · rintro rfl i -
    simp

/-- The loop returns the first image that is a fixed point. -/
theorem untilStable_eq (next : Image h w → Image h w) (n : Nat) (f : Image h w)
    (hn : next (repeated next n f) = repeated next n f) (fuel : Nat) (hfuel : n < fuel) :
    untilStable next fuel f = .ok (repeated next n f) := by
  induction n generalizing f fuel with
  | zero =>
    cases fuel with
    | zero => omega
    | succ k =>
      unfold untilStable
      have he : next f = f := hn
      rw [he, differ_iff.2 rfl]
      rfl
  | succ n ih =>
    cases fuel with
    | zero => omega
    | succ k =>
      unfold untilStable
      cases hd : differ f (next f) with
      | true => exact ih (next f) hn k (by omega)
      | false =>
        have he := differ_iff.1 hd
        have hall : ∀ m, repeated next m f = f := by
          intro m
          induction m with
          | zero => rfl
          | succ m ihm => rw [repeated_succ, ihm, ← he]
        rw [hall]
        simp [← he]

/-- The sum of the values of an image. -/
def total (f : Image h w) : Nat := ∑ p, f p

theorem total_lt {f g : Image h w} (hle : ∀ p, f p ≤ g p) (hne : f ≠ g) : total f < total g := by
  apply Finset.sum_lt_sum (fun p _ => hle p)
  by_contra hno
  push Not at hno
  exact hne (funext fun p => Nat.le_antisymm (hle p) (hno p (Finset.mem_univ p)))

theorem total_le {f : Image h w} {b : Nat} (hb : ∀ p, f p ≤ b) : total f ≤ h * w * b := by
  have := Finset.sum_le_card_nsmul Finset.univ f b fun p _ => hb p
  simpa [total, Fintype.card_prod] using this

/-- Growing images below a bound are stable some day. -/
theorem stable_step (next : Image h w → Image h w) {b : Nat} (f : Image h w)
    (hgrow : ∀ n p, repeated next n f p ≤ repeated next (n + 1) f p)
    (hb : ∀ n p, repeated next n f p ≤ b) :
    ∃ n ≤ h * w * b, next (repeated next n f) = repeated next n f := by
  by_contra hno
  push Not at hno
  have key : ∀ n ≤ h * w * b + 1, n ≤ total (repeated next n f) := by
    intro n
    induction n with
    | zero => intro _; exact Nat.zero_le _
    | succ n ih =>
      intro hn
      have h1 := ih (by omega)
      have h2 : total (repeated next n f) < total (repeated next (n + 1) f) := by
        apply total_lt (hgrow n)
        rw [repeated_succ]
        exact Ne.symm (hno n (by omega))
      omega
  have h1 := key _ (Nat.le_refl _)
  have h2 := total_le (hb (h * w * b + 1))
  omega

theorem near_self {se : Element} (h0 : (0, 0) ∈ se) (p : Pixel h w) : Near se p p :=
  ⟨(0, 0), h0, by simp, by simp⟩

/-- With the origin in the element, the dilations below the mask grow. -/
theorem grows {se : Element} (h0 : (0, 0) ∈ se) {mask f : Image h w} (hf : ∀ p, f p ≤ mask p) (p : Pixel h w) :
    f p ≤ dilateUnder se mask f p := by
  by_cases hv : 0 < f p
  · exact (le_dilateUnder hv).2 ⟨hf p, p, near_self h0 p, Nat.le_refl _⟩
  · omega

theorem repeated_under {se : Element} {mask f : Image h w} (hf : ∀ p, f p ≤ mask p) (n : Nat) (p : Pixel h w) :
    repeated (dilateUnder se mask) n f p ≤ mask p := by
  cases n with
  | zero => exact hf p
  | succ n => rw [repeated_succ]; exact Nat.min_le_right _ _

theorem walk_ok {se : Element} {ok : Pixel h w → Prop} {n : Nat} {p q : Pixel h w} (hw : Walk se ok n p q) :
    ok p ∧ ok q := by
  induction hw with
  | stay h => exact ⟨h, h⟩
  | go h _ _ ih => exact ⟨h, ih.2⟩

/-- With the origin in the element, a walk can wait. -/
theorem walk_longer {se : Element} (h0 : (0, 0) ∈ se) {ok : Pixel h w → Prop} {n : Nat} {p q : Pixel h w}
    (hw : Walk se ok n p q) (m : Nat) (hm : n ≤ m) : Walk se ok m p q := by
  induction hm with
  | refl => exact hw
  | step _ ih => exact .go (walk_ok ih).1 (near_self h0 p) ih

/-! ## Complements -/

theorem complement_dilate {se : Element} {f : Image h w} (hf : Bytes f) :
    erode se (complement f) = complement (dilate se f) := by
  funext p
  have hb : dilate se f p ≤ 255 := by
    by_contra hno
    obtain ⟨q, -, hq⟩ := (le_dilate (by omega)).1 (show 256 ≤ dilate se f p by omega)
    have := hf q
    omega
  apply Nat.le_antisymm
  · rw [erode, foldl_min_le]
    unfold complement
    by_cases h0 : 0 < dilate se f p
    · obtain ⟨q, hn, hq⟩ := (le_dilate h0).1 (Nat.le_refl _)
      exact .inr ⟨q, mem_neighbours.2 hn, by omega⟩
    · exact .inl (by omega)
  · rcases (foldl_min_le (complement f) _ (se.filterMap (shift p)) 255).1 (Nat.le_refl _) with h1 | ⟨q, hn, hq⟩
    · change 255 ≤ erode se (complement f) p at h1
      unfold complement at h1 ⊢
      omega
    · change complement f q ≤ erode se (complement f) p at hq
      refine Nat.le_trans ?_ hq
      unfold complement
      by_cases h0 : 0 < f q
      · have := (le_dilate (se := se) (p := p) (f := f) h0).2 ⟨q, mem_neighbours.1 hn, Nat.le_refl _⟩
        omega
      · omega

theorem complement_min (f g : Image h w) : complement (fun p => min (f p) (g p)) =
    fun p => max (complement f p) (complement g p) := by
  funext p
  simp only [complement]
  omega

theorem complement_complement {f : Image h w} (hf : Bytes f) : complement (complement f) = f := by
  funext p
  have := hf p
  unfold complement
  omega

theorem bytes_complement (f : Image h w) : Bytes (complement f) := fun _ => Nat.sub_le _ _

theorem bytes_dilateUnder {se : Element} {mask f : Image h w} (hm : Bytes mask) : Bytes (dilateUnder se mask f) :=
  fun p => Nat.le_trans (Nat.min_le_right _ _) (hm p)

theorem complement_dilateUnder {se : Element} {mask f : Image h w} (hf : Bytes f) :
    erodeOver se (complement mask) (complement f) = complement (dilateUnder se mask f) := by
  unfold erodeOver
  rw [complement_dilate hf]
  exact (complement_min _ _).symm

theorem complement_repeated {se : Element} {mask : Image h w} (hm : Bytes mask) (n : Nat) (f : Image h w)
    (hf : Bytes f) : repeated (erodeOver se (complement mask)) n (complement f) =
      complement (repeated (dilateUnder se mask) n f) := by
  induction n generalizing f with
  | zero => rfl
  | succ n ih => rw [repeated, repeated, complement_dilateUnder hf, ih _ (bytes_dilateUnder hm)]

theorem complement_injective {f g : Image h w} (hf : Bytes f) (hg : Bytes g) (hc : complement f = complement g) :
    f = g := by
  rw [← complement_complement hf, hc, complement_complement hg]

theorem complement_untilStable {se : Element} {mask : Image h w} (hm : Bytes mask) (fuel : Nat) (f : Image h w)
    (hf : Bytes f) : untilStable (erodeOver se (complement mask)) fuel (complement f) =
      (untilStable (dilateUnder se mask) fuel f).map complement := by
  induction fuel generalizing f with
  | zero => rfl
  | succ n ih =>
    unfold untilStable
    rw [complement_dilateUnder hf]
    have hd : differ (complement f) (complement (dilateUnder se mask f)) = differ f (dilateUnder se mask f) := by
      rw [Bool.eq_iff_iff, ← not_iff_not, Bool.not_eq_true, Bool.not_eq_true, differ_iff, differ_iff]
      exact ⟨complement_injective hf (bytes_dilateUnder hm), fun he => by rw [← he]⟩
    rw [hd]
    split
    · exact ih _ (bytes_dilateUnder hm)
    · rfl

end RgbdSlam.Geodesic
