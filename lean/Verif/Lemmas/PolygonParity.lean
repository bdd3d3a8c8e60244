import Mathlib.Data.ZMod.Basic
import Mathlib.Algebra.BigOperators.Group.Finset.Basic
import Mathlib.Algebra.BigOperators.Intervals
import Mathlib.Tactic.LinearCombination
import Mathlib.Tactic.Ring
import Mathlib.Tactic.Linarith
import Mathlib.Tactic.FieldSimp
import Mathlib.Algebra.Order.Field.Basic
import Verif.Model.PolygonRepair
/- The number of edges of a polygon on the right of a point, along a segment. -/
namespace RgbdSlam.PolygonRepair

/-- Positive when `p` is on the left of the line from `a` to `b`. -/
def side (a b p : Pt) : ℚ := (b.1 - a.1) * (p.2 - a.2) - (b.2 - a.2) * (p.1 - a.1)

/-- The ray to the right of `p` meets the segment. -/
def rayR (p a b : Pt) : Prop :=
  (a.2 ≤ p.2 ∧ p.2 < b.2 ∧ 0 < side a b p) ∨ (b.2 ≤ p.2 ∧ p.2 < a.2 ∧ side a b p < 0)

/-- The ray to the left of `p` meets the segment. -/
def rayL (p a b : Pt) : Prop :=
  (a.2 < p.2 ∧ p.2 ≤ b.2 ∧ side a b p < 0) ∨ (b.2 < p.2 ∧ p.2 ≤ a.2 ∧ 0 < side a b p)

open Classical in
/-- 1 when it holds. -/
noncomputable def ind (P : Prop) : ZMod 2 := if P then 1 else 0

theorem ind_congr {P Q : Prop} (h : P ↔ Q) : ind P = ind Q := by
  rw [propext h]

theorem ind_true {P : Prop} (h : P) : ind P = 1 := if_pos h
theorem ind_false {P : Prop} (h : ¬ P) : ind P = 0 := if_neg h

/-- Whether the segments from `a` to `b` and from `z` to `w` cross. -/
noncomputable def chi (a b z w : Pt) : ZMod 2 := ind (rayR z a b) + ind (rayR w a b) + ind (rayL a z w) + ind (rayL b z w)

theorem side_swap (a b p : Pt) : side b a p = -side a b p := by
  unfold side
  ring

theorem rayR_swap (p a b : Pt) : rayR p b a ↔ rayR p a b := by
  unfold rayR
  rw [side_swap]
  constructor
  · rintro (⟨h1, h2, h3⟩ | ⟨h1, h2, h3⟩)
    · exact Or.inr ⟨h1, h2, by linarith⟩
    · exact Or.inl ⟨h1, h2, by linarith⟩
  · rintro (⟨h1, h2, h3⟩ | ⟨h1, h2, h3⟩)
    · exact Or.inr ⟨h1, h2, by linarith⟩
    · exact Or.inl ⟨h1, h2, by linarith⟩

theorem rayL_swap (p a b : Pt) : rayL p b a ↔ rayL p a b := by
  unfold rayL
  rw [side_swap]
  constructor
  · rintro (⟨h1, h2, h3⟩ | ⟨h1, h2, h3⟩)
    · exact Or.inr ⟨h1, h2, by linarith⟩
    · exact Or.inl ⟨h1, h2, by linarith⟩
  · rintro (⟨h1, h2, h3⟩ | ⟨h1, h2, h3⟩)
    · exact Or.inr ⟨h1, h2, by linarith⟩
    · exact Or.inl ⟨h1, h2, by linarith⟩

theorem chi_swap_left (a b z w : Pt) : chi b a z w = chi a b z w := by
  unfold chi
  rw [ind_congr (rayR_swap z a b), ind_congr (rayR_swap w a b)]
  ring

theorem chi_swap_right (a b z w : Pt) : chi a b w z = chi a b z w := by
  unfold chi
  rw [ind_congr (rayL_swap a z w), ind_congr (rayL_swap b z w)]
  ring

theorem zmod2_add_self (x : ZMod 2) : x + x = 0 := by
  revert x
  decide

theorem side_left (a b : Pt) : side a b a = 0 := by unfold side; ring
theorem side_right (a b : Pt) : side a b b = 0 := by unfold side; ring

theorem rayR_of_side {p a b : Pt} (h : side a b p = 0) : ¬ rayR p a b := by
  unfold rayR
  rw [h]
  simp

theorem rayL_of_side {p a b : Pt} (h : side a b p = 0) : ¬ rayL p a b := by
  unfold rayL
  rw [h]
  simp

/-- Segments of the same line do not cross. -/
theorem chi_collinear {a b z w : Pt} (h1 : side a b z = 0) (h2 : side a b w = 0) (h3 : side z w a = 0)
    (h4 : side z w b = 0) : chi a b z w = 0 := by
  unfold chi
  rw [ind_false (rayR_of_side h1), ind_false (rayR_of_side h2), ind_false (rayL_of_side h3), ind_false (rayL_of_side h4)]
  rfl

theorem chi_degenerate_left (a z w : Pt) : chi a a z w = 0 := by
  unfold chi
  have h : ∀ p, ¬ rayR p a a := by
    intro p
    unfold rayR
    rintro (⟨h1, h2, -⟩ | ⟨h1, h2, -⟩) <;> linarith
  rw [ind_false (h z), ind_false (h w), add_assoc, zmod2_add_self, zero_add, zmod2_add_self]

theorem chi_degenerate_right (a b z : Pt) : chi a b z z = 0 := by
  unfold chi
  have h : ∀ p, ¬ rayL p z z := by
    intro p
    unfold rayL
    rintro (⟨h1, h2, -⟩ | ⟨h1, h2, -⟩) <;> linarith
  rw [ind_false (h a), ind_false (h b), zmod2_add_self]
  rfl

/-! ## Segments that share an end -/

def cross (u v : Pt) : ℚ := u.1 * v.2 - u.2 * v.1

/-- Whether the direction `v` counts as on the left of the direction `u`, on the same side of the horizontal. -/
def LeftOf (u v : Pt) : Prop := (0 < u.2 ∧ 0 ≤ v.2 ∧ 0 < cross u v) ∨ (u.2 ≤ 0 ∧ v.2 < 0 ∧ cross u v < 0)

theorem chi_local (q u v : Pt) (h : cross u v ≠ 0) : chi q (q + u) q (q + v) = ind (LeftOf u v) := by
  have e1 : side q (q + u) (q + v) = cross u v := by simp [side, cross]
  have e2 : side q (q + v) (q + u) = -cross u v := by simp [side, cross]; ring
  unfold chi
  rw [ind_false (rayR_of_side (side_left q (q + u))), ind_false (rayL_of_side (side_left q (q + v))), zero_add, add_zero]
  unfold rayR rayL
  rw [e1, e2]
  simp only [Prod.snd_add]
  unfold LeftOf
  rcases lt_or_gt_of_ne h with hc | hc
  · have hc' : ¬ 0 < cross u v := by linarith
    simp only [hc, hc', and_false, false_or, and_true, Left.neg_neg_iff, neg_pos]
    by_cases hv : v.2 < 0
    · by_cases hu : u.2 ≤ 0
      · rw [ind_true (P := u.2 ≤ 0 ∧ v.2 < 0) ⟨hu, hv⟩]
        by_cases huv : u.2 ≤ v.2
        · rw [ind_true (by constructor <;> linarith), ind_false (by rintro ⟨h1, h2⟩; linarith)]
          rfl
        · rw [ind_false (by rintro ⟨h1, h2⟩; linarith), ind_true (by constructor <;> linarith)]
          rfl
      · rw [ind_false (P := u.2 ≤ 0 ∧ v.2 < 0) (fun h => hu h.1), ind_false (by rintro ⟨h1, h2⟩; linarith),
          ind_false (by rintro ⟨h1, h2⟩; linarith)]
        rfl
    · rw [ind_false (P := u.2 ≤ 0 ∧ v.2 < 0) (fun h => hv h.2), ind_false (by rintro ⟨h1, h2⟩; linarith),
        ind_false (by rintro ⟨h1, h2⟩; linarith)]
      rfl
  · have hc' : ¬ cross u v < 0 := by linarith
    simp only [hc, hc', and_false, or_false, and_true, Left.neg_neg_iff, neg_pos]
    by_cases hv : 0 ≤ v.2
    · by_cases hu : 0 < u.2
      · rw [ind_true (P := 0 < u.2 ∧ 0 ≤ v.2) ⟨hu, hv⟩]
        by_cases huv : u.2 ≤ v.2
        · rw [ind_false (by rintro ⟨h1, h2⟩; linarith), ind_true (by constructor <;> linarith)]
          rfl
        · rw [ind_true (by constructor <;> linarith), ind_false (by rintro ⟨h1, h2⟩; linarith)]
          rfl
      · rw [ind_false (P := 0 < u.2 ∧ 0 ≤ v.2) (fun h => hu h.1), ind_false (by rintro ⟨h1, h2⟩; linarith),
          ind_false (by rintro ⟨h1, h2⟩; linarith)]
        rfl
    · rw [ind_false (P := 0 < u.2 ∧ 0 ≤ v.2) (fun h => hv h.2), ind_false (by rintro ⟨h1, h2⟩; linarith),
        ind_false (by rintro ⟨h1, h2⟩; linarith)]
      rfl

theorem leftOf_scale {u v : Pt} {s r : ℚ} (hs : 0 < s) (hr : 0 < r) :
    LeftOf (s * u.1, s * u.2) (r * v.1, r * v.2) ↔ LeftOf u v := by
  have e : cross (s * u.1, s * u.2) (r * v.1, r * v.2) = s * r * cross u v := by simp only [cross]; ring
  have hsr : 0 < s * r := mul_pos hs hr
  unfold LeftOf
  rw [e]
  simp only [mul_pos_iff_of_pos_left hs, mul_nonneg_iff_of_pos_left hr, mul_pos_iff_of_pos_left hsr]
  have n1 : s * u.2 ≤ 0 ↔ u.2 ≤ 0 := by rw [← not_lt, ← not_lt, mul_pos_iff_of_pos_left hs]
  have n2 : r * v.2 < 0 ↔ v.2 < 0 := by rw [← not_le, ← not_le, mul_nonneg_iff_of_pos_left hr]
  have n3 : s * r * cross u v < 0 ↔ cross u v < 0 := by rw [← not_le, ← not_le, mul_nonneg_iff_of_pos_left hsr]
  rw [n1, n2, n3]

/-- Two curves that exchange their edges at a point do not cross there. -/
theorem leftOf_touch (u v : Pt) : ind (LeftOf (-u) (-v)) = ind (LeftOf v u) := by
  refine ind_congr ?_
  unfold LeftOf
  have e1 : cross (-u) (-v) = cross u v := by simp [cross]
  have e2 : cross v u = -cross u v := by simp only [cross]; ring
  rw [e1, e2]
  simp only [Prod.snd_neg]
  constructor
  · rintro (⟨h1, h2, h3⟩ | ⟨h1, h2, h3⟩)
    · exact Or.inr ⟨by linarith, by linarith, by linarith⟩
    · exact Or.inl ⟨by linarith, by linarith, by linarith⟩
  · rintro (⟨h1, h2, h3⟩ | ⟨h1, h2, h3⟩)
    · exact Or.inr ⟨by linarith, by linarith, by linarith⟩
    · exact Or.inl ⟨by linarith, by linarith, by linarith⟩

/-- Two curves that go straight on at a point cross there. -/
theorem leftOf_cross {u v : Pt} (h : cross u v ≠ 0) :
    ind (LeftOf (-u) (-v)) + ind (LeftOf (-u) v) + ind (LeftOf u (-v)) + ind (LeftOf u v) = 1 := by
  have e1 : cross (-u) (-v) = cross u v := by simp [cross]
  have e2 : cross (-u) v = -cross u v := by simp only [cross, Prod.fst_neg, Prod.snd_neg]; ring
  have e3 : cross u (-v) = -cross u v := by simp only [cross, Prod.fst_neg, Prod.snd_neg]; ring
  have h0 : u.2 = 0 → v.2 = 0 → False := by
    intro h1 h2
    apply h
    simp [cross, h1, h2]
  unfold LeftOf
  rw [e1, e2, e3]
  simp only [Prod.snd_neg]
  rcases lt_or_gt_of_ne h with hc | hc
  · have hc' : ¬ 0 < cross u v := by linarith
    simp only [hc, hc', and_false, false_or, or_false, and_true, Left.neg_neg_iff, neg_pos, Left.neg_nonpos_iff,
      Left.nonneg_neg_iff]
    rcases lt_trichotomy u.2 0 with hu | hu | hu <;> rcases lt_trichotomy v.2 0 with hv | hv | hv
    all_goals first
      | exact absurd (h0 hu hv) id
      | (unfold ind
         have a1 := hu.le
         have a2 := hv.le
         have a3 := hu.not_gt
         have a4 := hv.not_gt
         simp [hu, hv, a1, a2, a3, a4])
  · have hc' : ¬ cross u v < 0 := by linarith
    simp only [hc, hc', and_false, false_or, or_false, and_true, Left.neg_neg_iff, neg_pos, Left.neg_nonpos_iff,
      Left.nonneg_neg_iff]
    rcases lt_trichotomy u.2 0 with hu | hu | hu <;> rcases lt_trichotomy v.2 0 with hv | hv | hv
    all_goals first
      | exact absurd (h0 hu hv) id
      | (unfold ind
         have a1 := hu.le
         have a2 := hv.le
         have a3 := hu.not_gt
         have a4 := hv.not_gt
         simp [hu, hv, a1, a2, a3, a4])

/-- `chi_local` for any directions. -/
theorem chi_ends (q a w : Pt) : chi q a q w = ind (LeftOf (a - q) (w - q)) := by
  by_cases h : cross (a - q) (w - q) = 0
  · rw [ind_false]
    · have e : side q a w = 0 := by
        simp only [cross, Prod.fst_sub, Prod.snd_sub] at h
        unfold side
        linarith
      have e' : side q w a = 0 := by
        simp only [cross, Prod.fst_sub, Prod.snd_sub] at h
        unfold side
        linarith
      exact chi_collinear (side_left q a) e (side_left q w) e'
    · unfold LeftOf
      rw [h]
      simp
  · have := chi_local q (a - q) (w - q) h
    rwa [add_sub_cancel, add_sub_cancel] at this

/-! ## Segments -/

/-- The point of a segment. -/
def lerp (a b : Pt) (s : ℚ) : Pt := (a.1 + s * (b.1 - a.1), a.2 + s * (b.2 - a.2))

/-- `p` is on the segment from `a` to `b`, ends included. -/
def On (a b p : Pt) : Prop := ∃ s : ℚ, 0 ≤ s ∧ s ≤ 1 ∧ p = lerp a b s

theorem on_left (a b : Pt) : On a b a := ⟨0, le_rfl, zero_le_one, by simp [lerp]⟩

theorem on_right (a b : Pt) : On a b b := ⟨1, zero_le_one, le_rfl, by simp [lerp]⟩

theorem on_swap {a b p : Pt} (h : On a b p) : On b a p := by
  obtain ⟨s, h0, h1, rfl⟩ := h
  refine ⟨1 - s, by linarith, by linarith, ?_⟩
  simp only [lerp]
  ext <;> simp only <;> ring

theorem rayR_pos {z a b : Pt} (h : 0 < side a b z) : rayR z a b ↔ a.2 ≤ z.2 ∧ z.2 < b.2 := by
  unfold rayR
  simp [h, h.not_gt]

theorem rayR_neg {z a b : Pt} (h : side a b z < 0) : rayR z a b ↔ b.2 ≤ z.2 ∧ z.2 < a.2 := by
  unfold rayR
  simp [h, h.not_gt]

theorem ind_interval {x y z t : ℚ} (h1 : x ≤ y) (h2 : y ≤ z) :
    ind (x ≤ t ∧ t < z) = ind (x ≤ t ∧ t < y) + ind (y ≤ t ∧ t < z) := by
  by_cases a : x ≤ t <;> by_cases b : t < y <;> by_cases c : t < z
  · rw [ind_true ⟨a, c⟩, ind_true ⟨a, b⟩, ind_false (fun h => by linarith [h.1])]; rfl
  · linarith
  · rw [ind_true ⟨a, c⟩, ind_false (fun h => b h.2), ind_true ⟨not_lt.1 b, c⟩]; rfl
  · rw [ind_false (fun h => c h.2), ind_false (fun h => b h.2), ind_false (fun h => c h.2)]; rfl
  · rw [ind_false (fun h => a h.1), ind_false (fun h => a h.1), ind_false (fun h => by linarith [h.1])]; rfl
  · linarith
  · linarith
  · linarith

theorem rayR_split (z a b : Pt) {s : ℚ} (h0 : 0 ≤ s) (h1 : s ≤ 1) :
    ind (rayR z a b) = ind (rayR z a (lerp a b s)) + ind (rayR z (lerp a b s) b) := by
  have deg : ∀ p : Pt, ind (rayR z p p) = 0 := by
    intro p
    refine ind_false ?_
    unfold rayR
    rintro (⟨h1, h2, -⟩ | ⟨h1, h2, -⟩) <;> linarith
  have e1 : side a (lerp a b s) z = s * side a b z := by simp only [side, lerp]; ring
  have e2 : side (lerp a b s) b z = (1 - s) * side a b z := by simp only [side, lerp]; ring
  rcases h0.eq_or_lt with rfl | h0'
  · have : lerp a b 0 = a := by simp [lerp]
    rw [this, deg, zero_add]
  rcases h1.eq_or_lt with rfl | h1'
  · have : lerp a b 1 = b := by simp [lerp]
    rw [this, deg, add_zero]
  have hs : 0 < 1 - s := by linarith
  have em : (lerp a b s).2 = a.2 + s * (b.2 - a.2) := rfl
  rcases lt_trichotomy (side a b z) 0 with h | h | h
  · have g1 : side a (lerp a b s) z < 0 := by rw [e1]; exact mul_neg_of_pos_of_neg h0' h
    have g2 : side (lerp a b s) b z < 0 := by rw [e2]; exact mul_neg_of_pos_of_neg hs h
    rw [ind_congr (rayR_neg h), ind_congr (rayR_neg g1), ind_congr (rayR_neg g2)]
    by_cases hab : b.2 ≤ a.2
    · rw [ind_interval (y := (lerp a b s).2), add_comm]
      · rw [em]; nlinarith
      · rw [em]; nlinarith
    · rw [ind_false, ind_false, ind_false, add_zero]
      · rintro ⟨k1, k2⟩; rw [em] at k2; nlinarith
      · rintro ⟨k1, k2⟩; rw [em] at k1; nlinarith
      · rintro ⟨k1, k2⟩; linarith
  · rw [ind_false (rayR_of_side h), ind_false (rayR_of_side (by rw [e1, h, mul_zero])),
      ind_false (rayR_of_side (by rw [e2, h, mul_zero])), add_zero]
  · have g1 : 0 < side a (lerp a b s) z := by rw [e1]; exact mul_pos h0' h
    have g2 : 0 < side (lerp a b s) b z := by rw [e2]; exact mul_pos hs h
    rw [ind_congr (rayR_pos h), ind_congr (rayR_pos g1), ind_congr (rayR_pos g2)]
    by_cases hab : a.2 ≤ b.2
    · rw [ind_interval (y := (lerp a b s).2)]
      · rw [em]; nlinarith
      · rw [em]; nlinarith
    · rw [ind_false, ind_false, ind_false, add_zero]
      · rintro ⟨k1, k2⟩; rw [em] at k1; nlinarith
      · rintro ⟨k1, k2⟩; rw [em] at k2; nlinarith
      · rintro ⟨k1, k2⟩; linarith

/-- A segment may be cut. -/
theorem chi_split {a b m : Pt} (h : On a b m) (z w : Pt) : chi a b z w = chi m a z w + chi m b z w := by
  obtain ⟨s, h0, h1, rfl⟩ := h
  rw [← chi_swap_left (lerp a b s) a]
  unfold chi
  rw [rayR_split z a b h0 h1, rayR_split w a b h0 h1]
  have := zmod2_add_self (ind (rayL (lerp a b s) z w))
  linear_combination -this

/-! ## Segments without a common point -/

theorem cross_point {f g y1 y2 : ℚ} {F : ℚ → ℚ} (hF : ∀ y, F y = f + g * y) (h12 : y1 ≤ y2)
    (h : ¬ (0 < F y1 ∧ 0 < F y2)) (h' : ¬ (F y1 < 0 ∧ F y2 < 0)) : ∃ y, y1 ≤ y ∧ y ≤ y2 ∧ F y = 0 := by
  by_cases a : F y1 = 0
  · exact ⟨y1, le_rfl, h12, a⟩
  by_cases b : F y2 = 0
  · exact ⟨y2, h12, le_rfl, b⟩
  rcases lt_or_gt_of_ne a with a | a <;> rcases lt_or_gt_of_ne b with b | b
  · exact absurd ⟨a, b⟩ h'
  · have hd : 0 < F y2 - F y1 := by linarith
    refine ⟨y1 + (-F y1) / (F y2 - F y1) * (y2 - y1), ?_, ?_, ?_⟩
    · have : 0 ≤ -F y1 / (F y2 - F y1) := div_nonneg (by linarith) hd.le
      nlinarith
    · have : -F y1 / (F y2 - F y1) ≤ 1 := by rw [div_le_one hd]; linarith
      nlinarith
    · have e : F y2 - F y1 = g * (y2 - y1) := by rw [hF, hF]; ring
      have : (-F y1) / (F y2 - F y1) * (F y2 - F y1) = -F y1 := div_mul_cancel₀ _ hd.ne'
      rw [hF]
      have k := hF y1
      rw [e] at this ⊢
      linear_combination this - k
  · have hd : 0 < F y1 - F y2 := by linarith
    refine ⟨y1 + F y1 / (F y1 - F y2) * (y2 - y1), ?_, ?_, ?_⟩
    · have : 0 ≤ F y1 / (F y1 - F y2) := div_nonneg (by linarith) hd.le
      nlinarith
    · have : F y1 / (F y1 - F y2) ≤ 1 := by rw [div_le_one hd]; linarith
      nlinarith
    · have e : F y1 - F y2 = -(g * (y2 - y1)) := by rw [hF, hF]; ring
      have : F y1 / (F y1 - F y2) * (F y1 - F y2) = F y1 := div_mul_cancel₀ _ hd.ne'
      rw [hF]
      have k := hF y1
      rw [e] at this ⊢
      linear_combination -this - k
  · exact absurd ⟨a, b⟩ h

/-- The abscissa of a line at a height. -/
def xAt (a b : Pt) (y : ℚ) : ℚ := a.1 + (y - a.2) / (b.2 - a.2) * (b.1 - a.1)

theorem side_xAt {a b : Pt} (h : a.2 < b.2) (p : Pt) : side a b p = (b.2 - a.2) * (xAt a b p.2 - p.1) := by
  have hd : b.2 - a.2 ≠ 0 := by intro h'; linarith
  unfold side xAt
  field_simp
  ring

theorem on_xAt {a b : Pt} (h : a.2 < b.2) {y : ℚ} (h1 : a.2 ≤ y) (h2 : y ≤ b.2) : On a b (xAt a b y, y) := by
  have hd : 0 < b.2 - a.2 := by linarith
  refine ⟨(y - a.2) / (b.2 - a.2), div_nonneg (by linarith) hd.le, by rw [div_le_one hd]; linarith, ?_⟩
  simp only [lerp, xAt]
  ext
  · rfl
  · simp only
    rw [div_mul_cancel₀ _ hd.ne']
    ring

theorem xAt_left (a b : Pt) : xAt a b a.2 = a.1 := by simp [xAt]

theorem xAt_right {a b : Pt} (h : a.2 < b.2) : xAt a b b.2 = b.1 := by
  have hd : b.2 - a.2 ≠ 0 := by intro h'; linarith
  unfold xAt
  rw [div_self hd]
  ring

theorem rayR_xAt {a b : Pt} (h : a.2 < b.2) (p : Pt) : rayR p a b ↔ a.2 ≤ p.2 ∧ p.2 < b.2 ∧ p.1 < xAt a b p.2 := by
  have hd : 0 < b.2 - a.2 := by linarith
  unfold rayR
  rw [side_xAt h, mul_pos_iff_of_pos_left hd, sub_pos]
  constructor
  · rintro (h | ⟨h1, h2, -⟩)
    · exact h
    · linarith
  · exact Or.inl

theorem rayL_xAt {a b : Pt} (h : a.2 < b.2) (p : Pt) : rayL p a b ↔ a.2 < p.2 ∧ p.2 ≤ b.2 ∧ xAt a b p.2 < p.1 := by
  have hd : 0 < b.2 - a.2 := by linarith
  unfold rayL
  rw [side_xAt h, ← not_le, ← not_le, mul_nonneg_iff_of_pos_left hd, not_le, not_le, sub_neg]
  constructor
  · rintro (h | ⟨h1, h2, -⟩)
    · exact h
    · linarith
  · exact Or.inl

theorem chi_disjoint_up {a b z w : Pt} (hab : a.2 < b.2) (hzw : z.2 < w.2) (h : ∀ p, On a b p → ¬ On z w p) :
    chi a b z w = 0 := by
  unfold chi
  rw [ind_congr (rayR_xAt hab z), ind_congr (rayR_xAt hab w), ind_congr (rayL_xAt hzw a), ind_congr (rayL_xAt hzw b)]
  by_cases hy : max a.2 z.2 ≤ min b.2 w.2
  · have hFF : ∀ y, xAt a b y - xAt z w y = (xAt a b 0 - xAt z w 0) +
        ((b.1 - a.1) / (b.2 - a.2) - (w.1 - z.1) / (w.2 - z.2)) * y := by
      intro y
      unfold xAt
      ring
    have key : (0 < xAt a b (max a.2 z.2) - xAt z w (max a.2 z.2) ∧ 0 < xAt a b (min b.2 w.2) - xAt z w (min b.2 w.2)) ∨
        (xAt a b (max a.2 z.2) - xAt z w (max a.2 z.2) < 0 ∧ xAt a b (min b.2 w.2) - xAt z w (min b.2 w.2) < 0) := by
      by_contra hcon
      push Not at hcon
      obtain ⟨y, h1, h2, h3⟩ := cross_point (F := fun y => xAt a b y - xAt z w y) hFF hy
        (fun hh => absurd hh.2 (not_lt.2 (hcon.1 hh.1))) (fun hh => absurd hh.2 (not_lt.2 (hcon.2 hh.1)))
      have e : xAt a b y = xAt z w y := by linarith
      refine h (xAt a b y, y) (on_xAt hab ((le_max_left _ _).trans h1) (h2.trans (min_le_left _ _))) ?_
      rw [e]
      exact on_xAt hzw ((le_max_right _ _).trans h1) (h2.trans (min_le_right _ _))
    have l1 : a.2 ≤ min b.2 w.2 := (le_max_left _ _).trans hy
    have l2 : z.2 ≤ min b.2 w.2 := (le_max_right _ _).trans hy
    have aw : a.2 ≤ w.2 := l1.trans (min_le_right _ _)
    have zb : z.2 ≤ b.2 := l2.trans (min_le_left _ _)
    have low : ∀ c : ℚ, max a.2 z.2 = c → (0 < xAt a b c - xAt z w c) →
        ind (a.2 ≤ z.2 ∧ z.2 < b.2 ∧ z.1 < xAt a b z.2) + ind (z.2 < a.2 ∧ a.2 ≤ w.2 ∧ xAt z w a.2 < a.1) =
          ind (z.2 < b.2) := by
      intro c hc hp
      by_cases haz : a.2 ≤ z.2
      · rw [max_eq_right haz] at hc
        subst hc
        rw [xAt_left] at hp
        rw [ind_false (P := z.2 < a.2 ∧ _) (fun h => by linarith [h.1]), add_zero]
        exact ind_congr ⟨fun h => h.2.1, fun h => ⟨haz, h, by linarith⟩⟩
      · rw [max_eq_left (not_le.1 haz).le] at hc
        subst hc
        rw [xAt_left] at hp
        rw [ind_false (fun h => haz h.1), zero_add, ind_true ⟨not_le.1 haz, aw, by linarith⟩,
          ind_true (by linarith [not_le.1 haz])]
    have high : ∀ c : ℚ, min b.2 w.2 = c → (0 < xAt a b c - xAt z w c) →
        ind (a.2 ≤ w.2 ∧ w.2 < b.2 ∧ w.1 < xAt a b w.2) + ind (z.2 < b.2 ∧ b.2 ≤ w.2 ∧ xAt z w b.2 < b.1) =
          ind (z.2 < b.2) := by
      intro c hc hp
      by_cases hbw : b.2 ≤ w.2
      · rw [min_eq_left hbw] at hc
        subst hc
        rw [xAt_right hab] at hp
        rw [ind_false (P := a.2 ≤ w.2 ∧ _) (fun h => by linarith [h.2.1]), zero_add]
        exact ind_congr ⟨fun h => h.1, fun h => ⟨h, hbw, by linarith⟩⟩
      · rw [min_eq_right (not_le.1 hbw).le] at hc
        subst hc
        rw [xAt_right hzw] at hp
        rw [ind_false (P := z.2 < b.2 ∧ _) (fun h => hbw h.2.1), add_zero, ind_true ⟨aw, not_le.1 hbw, by linarith⟩,
          ind_true (by linarith [not_le.1 hbw])]
    rcases key with ⟨k1, k2⟩ | ⟨k1, k2⟩
    · have a1 := low _ rfl k1
      have a2 := high _ rfl k2
      have := zmod2_add_self (ind (z.2 < b.2))
      linear_combination a1 + a2 + this
    · have n1 : ¬ (a.2 ≤ z.2 ∧ z.2 < b.2 ∧ z.1 < xAt a b z.2) := by
        rintro ⟨h1, h2, h3⟩
        rw [max_eq_right h1, xAt_left] at k1
        linarith
      have n2 : ¬ (a.2 ≤ w.2 ∧ w.2 < b.2 ∧ w.1 < xAt a b w.2) := by
        rintro ⟨h1, h2, h3⟩
        rw [min_eq_right h2.le, xAt_right hzw] at k2
        linarith
      have n3 : ¬ (z.2 < a.2 ∧ a.2 ≤ w.2 ∧ xAt z w a.2 < a.1) := by
        rintro ⟨h1, h2, h3⟩
        rw [max_eq_left h1.le, xAt_left] at k1
        linarith
      have n4 : ¬ (z.2 < b.2 ∧ b.2 ≤ w.2 ∧ xAt z w b.2 < b.1) := by
        rintro ⟨h1, h2, h3⟩
        rw [min_eq_left h2, xAt_right hab] at k2
        linarith
      rw [ind_false n1, ind_false n2, ind_false n3, ind_false n4]
      rfl
  · have hy' : b.2 < z.2 ∨ w.2 < a.2 := by
      by_contra hcon
      push Not at hcon
      exact hy (max_le (le_min hab.le hcon.2) (le_min hcon.1 hzw.le))
    rw [ind_false, ind_false, ind_false, ind_false]
    · rfl
    all_goals
      rintro ⟨h1, h2, -⟩
      rcases hy' with h' | h' <;> linarith

theorem chi_disjoint_flat {a b z w : Pt} (hab : a.2 = b.2) (hzw : z.2 < w.2) (h : ∀ p, On a b p → ¬ On z w p) :
    chi a b z w = 0 := by
  have nr : ∀ p, ¬ rayR p a b := by
    intro p
    unfold rayR
    rintro (⟨h1, h2, -⟩ | ⟨h1, h2, -⟩) <;> linarith
  unfold chi
  rw [ind_false (nr z), ind_false (nr w), ind_congr (rayL_xAt hzw a), ind_congr (rayL_xAt hzw b), zero_add, zero_add,
    ← hab]
  by_cases hy : z.2 < a.2 ∧ a.2 ≤ w.2
  · have hon := on_xAt hzw hy.1.le hy.2
    have : xAt z w a.2 < a.1 ↔ xAt z w a.2 < b.1 := by
      by_contra hcon
      have hne : b.1 - a.1 ≠ 0 := by
        intro h'
        have : b.1 = a.1 := by linarith
        rw [this] at hcon
        exact hcon Iff.rfl
      refine h _ ⟨(xAt z w a.2 - a.1) / (b.1 - a.1), ?_, ?_, ?_⟩ hon
      · by_cases h1 : xAt z w a.2 < a.1
        · have h2 : ¬ xAt z w a.2 < b.1 := fun h2 => hcon ⟨fun _ => h2, fun _ => h1⟩
          exact div_nonneg_of_nonpos (by linarith) (by linarith)
        · have h2 : xAt z w a.2 < b.1 := by
            by_contra h2
            exact hcon ⟨fun h => absurd h h1, fun h => absurd h h2⟩
          exact div_nonneg (by linarith) (by linarith)
      · by_cases h1 : xAt z w a.2 < a.1
        · have h2 : ¬ xAt z w a.2 < b.1 := fun h2 => hcon ⟨fun _ => h2, fun _ => h1⟩
          rw [div_le_one_of_neg (by linarith)]
          linarith
        · have h2 : xAt z w a.2 < b.1 := by
            by_contra h2
            exact hcon ⟨fun h => absurd h h1, fun h => absurd h h2⟩
          rw [div_le_one (by linarith)]
          linarith
      · simp only [lerp]
        rw [div_mul_cancel₀ _ hne, ← hab]
        ext <;> simp only <;> ring
    rw [ind_congr (P := _ ∧ _ ∧ xAt z w a.2 < a.1) (Q := z.2 < a.2 ∧ a.2 ≤ w.2 ∧ xAt z w a.2 < b.1) (by rw [this])]
    exact zmod2_add_self _
  · rw [ind_false (fun h => hy ⟨h.1, h.2.1⟩), ind_false (fun h => hy ⟨h.1, h.2.1⟩)]
    rfl

theorem on_neg {a b p : Pt} (h : On a b p) : On (-a) (-b) (-p) := by
  obtain ⟨s, h0, h1, rfl⟩ := h
  refine ⟨s, h0, h1, ?_⟩
  simp only [lerp]
  ext <;> simp <;> ring

theorem rayR_minus (p a b : Pt) : rayR (-p) (-a) (-b) ↔ rayL p a b := by
  have e : side (-a) (-b) (-p) = side a b p := by simp only [side, Prod.fst_neg, Prod.snd_neg]; ring
  unfold rayR rayL
  rw [e]
  simp only [Prod.snd_neg, neg_le_neg_iff, neg_lt_neg_iff]
  tauto

theorem rayL_minus (p a b : Pt) : rayL (-p) (-a) (-b) ↔ rayR p a b := by
  have := rayR_minus (-p) (-a) (-b)
  rw [neg_neg, neg_neg, neg_neg] at this
  exact this.symm

theorem chi_minus (a b z w : Pt) : chi (-z) (-w) (-a) (-b) = chi a b z w := by
  unfold chi
  rw [ind_congr (rayR_minus a z w), ind_congr (rayR_minus b z w), ind_congr (rayL_minus z a b), ind_congr (rayL_minus w a b)]
  ring

/-- Segments without a common point do not cross. -/
theorem chi_disjoint {a b z w : Pt} (h : ∀ p, On a b p → ¬ On z w p) : chi a b z w = 0 := by
  have main : ∀ {a b z w : Pt}, a.2 ≤ b.2 → z.2 ≤ w.2 → (∀ p, On a b p → ¬ On z w p) → chi a b z w = 0 := by
    intro a b z w hab hzw h
    rcases hab.lt_or_eq with hab | hab <;> rcases hzw.lt_or_eq with hzw | hzw
    · exact chi_disjoint_up hab hzw h
    · rw [← chi_minus, chi_swap_right]
      refine chi_disjoint_flat (by simp [hzw]) (by simpa using hab) ?_
      intro p h1 h2
      refine h (-p) ?_ ?_
      · have := on_neg (on_swap h2)
        rwa [neg_neg, neg_neg] at this
      · have := on_neg h1
        rwa [neg_neg, neg_neg] at this
    · exact chi_disjoint_flat hab hzw h
    · unfold chi
      rw [ind_false, ind_false, ind_false, ind_false]
      · rfl
      all_goals
        first | unfold rayR | unfold rayL
        rintro (⟨h1, h2, -⟩ | ⟨h1, h2, -⟩) <;> linarith
  rcases le_total a.2 b.2 with hab | hab <;> rcases le_total z.2 w.2 with hzw | hzw
  · exact main hab hzw h
  · rw [← chi_swap_right]
    exact main hab hzw fun p h1 h2 => h p h1 (on_swap h2)
  · rw [← chi_swap_left]
    exact main hab hzw fun p h1 h2 => h p (on_swap h1) h2
  · rw [← chi_swap_right, ← chi_swap_left]
    exact main hab hzw fun p h1 h2 => h p (on_swap h1) (on_swap h2)

end RgbdSlam.PolygonRepair
