import Verif.Spec.CylinderFit
import Verif.Lemmas.Geometry
import Mathlib.Tactic.Linarith
import Mathlib.Tactic.FieldSimp
import Mathlib.Tactic.Ring
import Mathlib.Tactic.LinearCombination
import Mathlib.Tactic.Positivity

/-
Lemmas about the cylinder fit.
-/
namespace RgbdSlam.CylinderFit

open Matrix Geometry

/-- The residual of a patch. -/
noncomputable def residual (radius : ℝ) (center : V3) (p : Patch) : V3 :=
  p.centroid - radius • p.normal - center

theorem cost_eq (l : List Patch) (r : ℝ) (c : V3) :
    cost l r c = (l.map fun p => residual r c p ⬝ᵥ residual r c p).sum := rfl

theorem cost_shift (r d : ℝ) (c g : V3) : ∀ l : List Patch,
    cost l (r + d) (c + g) = cost l r c - 2 * d * (l.map fun p => p.normal ⬝ᵥ residual r c p).sum -
      2 * (g ⬝ᵥ (l.map fun p => residual r c p).sum) +
      (l.map fun p => (d • p.normal + g) ⬝ᵥ (d • p.normal + g)).sum
  | [] => by simp [cost]
  | p :: l => by
    have ih := cost_shift r d c g l
    simp only [cost, List.map_cons, List.sum_cons, dotProduct_add] at ih ⊢
    rw [ih]
    simp only [residual, dot3, Pi.sub_apply, Pi.add_apply, Pi.smul_apply, smul_eq_mul]
    ring

theorem sum_residual (r : ℝ) (c : V3) : ∀ l : List Patch,
    (l.map fun p => residual r c p).sum =
      (l.map Patch.centroid).sum - r • (l.map Patch.normal).sum - (l.length : ℝ) • c
  | [] => by simp
  | p :: l => by
    rw [List.map_cons, List.sum_cons, sum_residual r c l]
    simp only [List.map_cons, List.sum_cons, List.length_cons, residual]
    ext i
    simp only [Pi.sub_apply, Pi.add_apply, Pi.smul_apply, smul_eq_mul]
    push_cast
    ring

theorem sum_dot_residual (r : ℝ) (c : V3) : ∀ l : List Patch, (∀ p ∈ l, p.normal ⬝ᵥ p.normal = 1) →
    (l.map fun p => p.normal ⬝ᵥ residual r c p).sum =
      (l.map fun p => p.normal ⬝ᵥ p.centroid).sum - r * l.length - (l.map Patch.normal).sum ⬝ᵥ c
  | [], _ => by simp
  | p :: l, h => by
    have ih := sum_dot_residual r c l fun q hq => h q (by simp [hq])
    have hp := h p (by simp)
    rw [List.map_cons, List.sum_cons, ih]
    simp only [List.map_cons, List.sum_cons, List.length_cons, residual, dotProduct_sub, dotProduct_smul,
      add_dotProduct, hp, smul_eq_mul]
    push_cast
    ring

theorem sum_sq_nonneg (f : Patch → V3) : ∀ l : List Patch, 0 ≤ (l.map fun p => f p ⬝ᵥ f p).sum
  | [] => by simp
  | p :: l => by
    simp only [List.map_cons, List.sum_cons]
    exact add_nonneg (dot_self_nonneg _) (sum_sq_nonneg f l)

theorem eq_zero_of_sum_sq (f : Patch → V3) : ∀ l : List Patch, (l.map fun p => f p ⬝ᵥ f p).sum = 0 →
    ∀ p ∈ l, f p = 0
  | [], _, p, hp => by cases hp
  | q :: l, h, p, hp => by
    simp only [List.map_cons, List.sum_cons] at h
    have h1 := dot_self_nonneg (f q)
    have h2 := sum_sq_nonneg f l
    rcases List.mem_cons.mp hp with rfl | hp
    · exact dot_self_eq_zero (by linarith)
    · exact eq_zero_of_sum_sq f l (by linarith) p hp

/-- Spread of the normals around their mean. -/
theorem sum_spread (m : V3) : ∀ l : List Patch, (∀ p ∈ l, p.normal ⬝ᵥ p.normal = 1) →
    (l.map fun p => (p.normal - m) ⬝ᵥ (p.normal - m)).sum =
      l.length - 2 * (m ⬝ᵥ (l.map Patch.normal).sum) + l.length * (m ⬝ᵥ m)
  | [], _ => by simp
  | p :: l, h => by
    have ih := sum_spread m l fun q hq => h q (by simp [hq])
    have hp := h p (by simp)
    rw [List.map_cons, List.sum_cons, ih]
    simp only [List.map_cons, List.sum_cons, List.length_cons, dotProduct_add, sub_dotProduct,
      dotProduct_sub, hp, dotProduct_comm p.normal m]
    push_cast
    ring

/-- Divisor of the least squares solution. -/
noncomputable def divisor (l : List Patch) : ℝ :=
  1 - ((l.map Patch.normal).sum ⬝ᵥ (l.map Patch.normal).sum) * (1 / ((l.length : ℝ) * l.length))

theorem length_pos_of_mem {l : List Patch} {p : Patch} (h : p ∈ l) : (0 : ℝ) < l.length := by
  have := List.length_pos_of_mem h
  exact_mod_cast this

/-- The divisor is not null when two normals differ. -/
theorem divisor_pos {l : List Patch} (hu : ∀ p ∈ l, p.normal ⬝ᵥ p.normal = 1) {p q : Patch} (hp : p ∈ l)
    (hq : q ∈ l) (hne : p.normal ≠ q.normal) : 0 < divisor l := by
  have hn := length_pos_of_mem hp
  have hs := sum_spread ((1 / (l.length : ℝ)) • (l.map Patch.normal).sum) l hu
  have hnn := sum_sq_nonneg (fun x => x.normal - (1 / (l.length : ℝ)) • (l.map Patch.normal).sum) l
  have heq : (l.map fun x => (x.normal - (1 / (l.length : ℝ)) • (l.map Patch.normal).sum) ⬝ᵥ
      (x.normal - (1 / (l.length : ℝ)) • (l.map Patch.normal).sum)).sum = l.length * divisor l := by
    rw [hs, divisor]
    simp only [smul_dotProduct, dotProduct_smul, smul_eq_mul]
    field_simp
    ring
  rw [heq] at hnn
  rcases lt_or_eq_of_le (nonneg_of_mul_nonneg_right hnn hn) with h | h
  · exact h
  · exfalso
    rw [← h, mul_zero] at heq
    have hz := eq_zero_of_sum_sq _ l heq
    exact hne ((sub_eq_zero.mp (hz p hp)).trans (sub_eq_zero.mp (hz q hq)).symm)

theorem leastSquares_spec {l : List Patch} (hn : (0 : ℝ) < l.length) (hd : divisor l ≠ 0)
    (hu : ∀ p ∈ l, p.normal ⬝ᵥ p.normal = 1) :
    (l.map fun p => residual (leastSquares l).radius (leastSquares l).center p).sum = 0 ∧
      (l.map fun p => p.normal ⬝ᵥ residual (leastSquares l).radius (leastSquares l).center p).sum = 0 := by
  have hc : (leastSquares l).center = (1 / (l.length : ℝ)) •
      ((l.map Patch.centroid).sum - (leastSquares l).radius • (l.map Patch.normal).sum) := rfl
  have hr : (leastSquares l).radius * divisor l = (l.map fun p => p.normal ⬝ᵥ p.centroid).sum / l.length -
      ((l.map Patch.normal).sum ⬝ᵥ (l.map Patch.centroid).sum) * (1 / ((l.length : ℝ) * l.length)) := by
    have : (leastSquares l).radius = ((l.map fun p => p.normal ⬝ᵥ p.centroid).sum / l.length -
      ((l.map Patch.normal).sum ⬝ᵥ (l.map Patch.centroid).sum) * (1 / ((l.length : ℝ) * l.length))) /
        divisor l := rfl
    rw [this, div_mul_cancel₀ _ hd]
  constructor
  · rw [sum_residual, hc, smul_smul]
    rw [mul_one_div_cancel (ne_of_gt hn), one_smul, sub_self]
  · rw [sum_dot_residual _ _ l hu, hc, dotProduct_smul, dotProduct_sub, dotProduct_smul, smul_eq_mul, smul_eq_mul]
    unfold divisor at hr
    field_simp at hr ⊢
    linear_combination (-1 : ℝ) * hr

end RgbdSlam.CylinderFit
