import Verif.Lemmas.Optimizer
import Verif.Lemmas.Covariance2
import Mathlib.Analysis.Real.Pi.Bounds

/-
Properties of the variance of the optimised pose (C26, C85).
-/
set_option linter.unusedSimpArgs false

namespace RgbdSlam.Optimizer

open Matrix Geometry Covariance
open Geometry.Spec (UnitQuat)
open Covariance.Spec (IsCovariance variance)
open Optimizer.Spec

/-! ## Sums over the samples -/

theorem foldl_add {α : Type} [AddCommMonoid α] {β : Type} (f : β → α) (l : List β) (a : α) :
    l.foldl (fun acc p => acc + f p) a = a + (l.map f).sum := by
  induction l generalizing a with
  | nil => simp
  | cons b l ih => rw [List.foldl_cons, ih, List.map_cons, List.sum_cons, add_assoc]

theorem list_sum_apply (l : List (Fin 6 → ℝ)) (i : Fin 6) : l.sum i = (l.map fun s => s i).sum := by
  induction l with
  | nil => simp
  | cons a l ih => simp [ih]

theorem list_sum_matrix (l : List (Sq 6)) (i j : Fin 6) : l.sum i j = (l.map fun s => s i j).sum := by
  induction l with
  | nil => simp
  | cons a l ih => simp [Matrix.add_apply, ih]

theorem meanVector_apply (poses : List (Fin 6 → ℝ)) (i : Fin 6) : meanVector poses i = mean poses i := by
  have := foldl_add (fun p : Fin 6 → ℝ => p) poses 0
  unfold meanVector mean
  rw [this]
  simp [list_sum_apply, div_eq_inv_mul]

theorem samplesCovariance_apply (poses : List (Fin 6 → ℝ)) (i j : Fin 6) :
    samplesCovariance poses i j =
      (poses.map fun s => (s i - mean poses i) * (s j - mean poses j)).sum /
        varianceDivisor poses.length + if i = j then 1 / 1000 else 0 := by
  unfold samplesCovariance
  have := foldl_add (fun p : Fin 6 → ℝ => vecMulVec (p - meanVector poses) (p - meanVector poses)) poses 0
  rw [this]
  simp only [zero_add, Matrix.add_apply, Matrix.smul_apply, smul_eq_mul, list_sum_matrix, List.map_map,
    Matrix.one_apply]
  congr 1
  · rw [one_div, div_eq_inv_mul]
    congr 2
    refine List.map_congr_left fun s _ => ?_
    simp [vecMulVec_apply, meanVector_apply]
  · by_cases h : i = j <;> simp [h]

theorem isCovariance_outer (v : Fin 6 → ℝ) : IsCovariance (vecMulVec v v) where
  symm i j := by simp [vecMulVec_apply, mul_comm]
  nonneg x := by
    have : variance (vecMulVec v v) x = (∑ i, x i * v i) ^ 2 := by
      unfold variance
      rw [sq, Finset.sum_mul_sum]
      refine Finset.sum_congr rfl fun i _ => Finset.sum_congr rfl fun j _ => ?_
      rw [vecMulVec_apply]; ring
    rw [this]
    positivity

theorem isCovariance_zero6 : IsCovariance (0 : Sq 6) where
  symm _ _ := rfl
  nonneg x := by simp [variance]

theorem isCovariance_smul {C : Sq 6} (h : IsCovariance C) {a : ℝ} (ha : 0 ≤ a) : IsCovariance (a • C) where
  symm i j := by simp [h.symm i j]
  nonneg x := by
    have : variance (a • C) x = a * variance C x := by
      unfold variance
      simp only [Matrix.smul_apply, smul_eq_mul, Finset.mul_sum]
      refine Finset.sum_congr rfl fun i _ => Finset.sum_congr rfl fun j _ => ?_
      ring
    rw [this]
    exact mul_nonneg ha (h.nonneg x)

theorem isCovariance_sum : ∀ l : List (Sq 6), (∀ C ∈ l, IsCovariance C) → IsCovariance l.sum
  | [], _ => isCovariance_zero6
  | C :: l, h => by
    rw [List.sum_cons]
    exact Covariance.Spec.IsCovariance.add (h C List.mem_cons_self)
      (isCovariance_sum l fun D hD => h D (List.mem_cons_of_mem _ hD))

theorem varianceDivisor_nonneg (n : ℕ) : 0 ≤ varianceDivisor n := by
  unfold varianceDivisor
  split
  · norm_num
  · have : (1 : ℝ) ≤ n := by exact_mod_cast Nat.one_le_iff_ne_zero.2 (by assumption)
    linarith

theorem samplesCovariance_isCovariance (poses : List (Fin 6 → ℝ)) : IsCovariance (samplesCovariance poses) := by
  unfold samplesCovariance
  refine Covariance.Spec.IsCovariance.add
    (isCovariance_smul ?_ (by have := varianceDivisor_nonneg poses.length; positivity))
    (isCovariance_smul_one (by norm_num))
  have := foldl_add (fun p : Fin 6 → ℝ => vecMulVec (p - meanVector poses) (p - meanVector poses)) poses 0
  rw [this, zero_add]
  refine isCovariance_sum _ fun C hC => ?_
  obtain ⟨p, -, rfl⟩ := List.mem_map.1 hC
  exact isCovariance_outer _

theorem poseVariance_some {iterations : ℕ} {poses : List (Fin 6 → ℝ)} {C : Sq 6}
    (h : poseVariance iterations poses = some C) :
    iterations ≠ 0 ∧ iterations / 2 ≤ poses.length ∧ poses.length ≠ 1 ∧ C = samplesCovariance poses := by
  unfold poseVariance at h
  split at h
  · simp at h
  split at h
  · simp at h
  split at h
  · simp at h
  split at h
  · exact ⟨by assumption, by omega, by assumption, (Option.some.inj h).symm⟩
  · simp at h

/-! ## C26: the covariance comes from at least two samples -/

/-- C26 (partial: two iterations or more are requested): a reported covariance comes from at least two
sampled poses, is symmetric and positive semi-definite, and is the sample covariance of their vectors
plus 0.001 on the diagonal. -/
theorem C26_accepted_partial {iterations : ℕ} (hi : 2 ≤ iterations) {poses : List (Fin 6 → ℝ)} {C : Sq 6}
    (h : poseVariance iterations poses = some C) :
    2 ≤ poses.length ∧ IsCovariance C ∧
      ∀ i j, C i j = sampleCovariance poses i j + if i = j then 1 / 1000 else 0 := by
  obtain ⟨-, h1, h2, rfl⟩ := poseVariance_some h
  have h3 : 2 ≤ poses.length := by omega
  refine ⟨h3, samplesCovariance_isCovariance poses, fun i j => ?_⟩
  rw [samplesCovariance_apply, sampleCovariance, varianceDivisor, if_neg (by omega)]

/-- C26: with at least two samples, and at least half of the requested iterations, the covariance is
always reported. -/
theorem C26_reported {iterations : ℕ} (hi : 1 ≤ iterations) {poses : List (Fin 6 → ℝ)}
    (h : iterations / 2 ≤ poses.length) (h2 : 2 ≤ poses.length) :
    (poseVariance iterations poses).isSome = true := by
  unfold poseVariance
  rw [if_neg (by omega), if_neg (by omega), if_neg (by omega),
    if_pos (samplesCovariance_isCovariance poses).valid]
  rfl

/-- C26: when more than half of the samples fail, nothing is reported. -/
theorem C26_too_many_failures {iterations : ℕ} {poses : List (Fin 6 → ℝ)}
    (h : poses.length < iterations / 2) : poseVariance iterations poses = none := by
  unfold poseVariance
  rw [if_neg (by omega), if_pos h]

/-- C26: the order in which the parallel iterations store their poses does not matter. -/
theorem C26_any_order (iterations : ℕ) {poses poses' : List (Fin 6 → ℝ)} (h : poses.Perm poses') :
    poseVariance iterations poses = poseVariance iterations poses' := by
  have hl := h.length_eq
  have hm : ∀ i, mean poses i = mean poses' i := by
    intro i
    unfold mean
    rw [(h.map fun s => s i).sum_eq, hl]
  have hc : samplesCovariance poses = samplesCovariance poses' := by
    ext i j
    rw [samplesCovariance_apply, samplesCovariance_apply, hl, hm i, hm j,
      (h.map fun s => (s i - mean poses' i) * (s j - mean poses' j)).sum_eq]
  unfold poseVariance
  rw [hl, hc]

/-- Three samples out of four iterations are enough. -/
example : ∃ C, poseVariance 4 [fun _ => 0, fun _ => 1, fun i => i.val] = some C :=
  Option.isSome_iff_exists.1 (C26_reported (by norm_num) (by simp) (by simp))

/-- C26 is false with one requested iteration: if it fails, a covariance computed from no pose at all is
reported. -/
theorem C26_no_sample_false : ¬ ∀ (iterations : ℕ) (poses : List (Fin 6 → ℝ)) (C : Sq 6),
    poseVariance iterations poses = some C → 2 ≤ poses.length := by
  intro h
  have : poseVariance 1 [] = some (samplesCovariance []) := by
    unfold poseVariance
    rw [if_neg (by norm_num), if_neg (by simp), if_neg (by simp),
      if_pos (samplesCovariance_isCovariance []).valid]
  simpa using h 1 [] _ this

/-! ## C85: the angular variance -/

/-- The rotation by an angle around the first axis. -/
noncomputable def turn (angle : ℝ) : Quat := Quat.ofAngleAxis angle ![1, 0, 0]

theorem turn_matrix (a : ℝ) : (turn a).toRotationMatrix 1 2 = -Real.sin a ∧
    (turn a).toRotationMatrix 2 2 = Real.cos a := by
  have h1 := Real.sin_two_mul (a / 2)
  have h2 := Real.cos_sq_add_sin_sq (a / 2)
  have h3 := Real.cos_two_mul (a / 2)
  rw [show 2 * (a / 2) = a by ring] at h1 h3
  constructor
  · simp [turn, Quat.ofAngleAxis, Quat.toRotationMatrix]
    linarith
  · simp [turn, Quat.ofAngleAxis, Quat.toRotationMatrix]
    nlinarith

theorem turn_unit (a : ℝ) : UnitQuat (turn a) := by
  have := Real.cos_sq_add_sin_sq (a / 2)
  simp [UnitQuat, turn, Quat.ofAngleAxis]

theorem euler_turn {a : ℝ} (h1 : -Real.pi < a) (h2 : a < Real.pi) :
    eulerAngles (turn a).toRotationMatrix 0 = if 0 ≤ a then a else Real.pi + a := by
  have hat : atan2 ((turn a).toRotationMatrix 1 2) ((turn a).toRotationMatrix 2 2) = -a := by
    rw [(turn_matrix a).1, (turn_matrix a).2, ← Real.sin_neg, ← Real.cos_neg a]
    exact arg_cos_sin (by linarith) (by linarith)
  unfold eulerAngles
  simp only [hat, cons_val_zero]
  by_cases h : 0 ≤ a
  · rw [if_neg (by linarith), if_pos h, neg_neg]
  · rw [if_pos (by linarith), if_neg h]; ring

theorem poseVector_turn {a : ℝ} (h1 : -Real.pi < a) (h2 : a < Real.pi) (p : V3) :
    poseVector ⟨p, turn a⟩ 3 = if 0 ≤ a then a else Real.pi + a := by
  rw [← euler_turn h1 h2]
  simp [poseVector]

/-- C85 (partial: positions): the position block is the sample covariance of the positions. -/
theorem C85_positions_partial {iterations : ℕ} (hi : 2 ≤ iterations) {poses : List Pose} {C : Sq 6}
    (h : poseVariance iterations (poses.map poseVector) = some C) (i j : Fin 3) :
    C (Fin.castLE (by norm_num) i) (Fin.castLE (by norm_num) j) =
      (poses.map fun p => (p.position i - (poses.map fun p => p.position i).sum / poses.length) *
        (p.position j - (poses.map fun p => p.position j).sum / poses.length)).sum /
          (poses.length - 1) + if i = j then 1 / 1000 else 0 := by
  have hv : ∀ (p : Pose) (i : Fin 3), poseVector p (Fin.castLE (by norm_num) i) = p.position i := by
    intro p i
    fin_cases i <;> rfl
  rw [(C26_accepted_partial hi h).2.2]
  congr 1
  · unfold sampleCovariance mean
    simp only [List.map_map, List.length_map, Function.comp_def, hv]
  · simp [Fin.ext_iff]

/-- C85 (partial: rotations by angles of the same sign around one axis): the variance of the first angle
is the sample variance of the angles. -/
theorem C85_one_sided_partial {iterations : ℕ} (hi : 2 ≤ iterations) {angles : List ℝ}
    (ha : ∀ a ∈ angles, 0 ≤ a ∧ a < Real.pi) {C : Sq 6}
    (h : poseVariance iterations (angles.map fun a => poseVector ⟨0, turn a⟩) = some C) :
    C 3 3 = (angles.map fun a => (a - angles.sum / angles.length) ^ 2).sum / (angles.length - 1) +
      1 / 1000 := by
  have hpi := Real.pi_pos
  have hv : ∀ a ∈ angles, poseVector ⟨0, turn a⟩ 3 = a := by
    intro a h
    rw [poseVector_turn (by linarith [(ha a h).1]) (ha a h).2, if_pos (ha a h).1]
  rw [(C26_accepted_partial hi h).2.2, if_pos rfl]
  congr 1
  have hm : mean (angles.map fun a => poseVector ⟨0, turn a⟩) 3 = angles.sum / angles.length := by
    unfold mean
    rw [List.map_map, List.length_map]
    congr 2
    conv_rhs => rw [← List.map_id angles]
    exact List.map_congr_left fun a h => hv a h
  unfold sampleCovariance
  rw [hm, List.map_map, List.length_map]
  congr 2
  refine List.map_congr_left fun a h => ?_
  simp only [Function.comp_apply, hv a h]
  ring

/-- Small angles are covered. -/
example : ∀ a ∈ [1 / 100, (2 / 100 : ℝ)], 0 ≤ a ∧ a < Real.pi := by
  have := Real.pi_gt_three
  intro a h
  simp at h
  rcases h with rfl | rfl <;> constructor <;> norm_num <;> linarith

/-- C85: two samples that turn by a small angle around the first axis, in opposite directions, give an
angular variance of about half of pi squared: the first angle of the vector is in [0, pi]. -/
theorem C85_opposite_samples {e : ℝ} (h0 : 0 < e) (h1 : e < Real.pi) :
    ∃ C, poseVariance 2 [poseVector ⟨0, turn e⟩, poseVector ⟨0, turn (-e)⟩] = some C ∧
      C 3 3 = (Real.pi - 2 * e) ^ 2 / 2 + 1 / 1000 := by
  obtain ⟨C, hC⟩ := Option.isSome_iff_exists.1 (C26_reported (iterations := 2) (by norm_num)
    (poses := [poseVector ⟨0, turn e⟩, poseVector ⟨0, turn (-e)⟩]) (by simp) (by simp))
  refine ⟨C, hC, ?_⟩
  rw [(C26_accepted_partial (by norm_num) hC).2.2, if_pos rfl]
  have v1 : poseVector ⟨0, turn e⟩ 3 = e := by
    rw [poseVector_turn (by linarith) h1, if_pos h0.le]
  have v2 : poseVector ⟨0, turn (-e)⟩ 3 = Real.pi - e := by
    rw [poseVector_turn (by linarith) (by linarith), if_neg (by linarith)]; ring
  unfold sampleCovariance mean
  simp only [List.map_cons, List.map_nil, List.sum_cons, List.sum_nil, List.length_cons, List.length_nil,
    v1, v2]
  push_cast
  ring

/-- C85 is false: samples whose orientations all are within an angle `e` of the same one may have an
angular variance above `4 e^2 + 0.001`. -/
theorem C85_angles_false : ¬ ∀ (e : ℝ) (angles : List ℝ) (iterations : ℕ) (C : Sq 6), 0 < e → 2 ≤ iterations →
    (∀ a ∈ angles, |a| ≤ e) →
    poseVariance iterations (angles.map fun a => poseVector ⟨0, turn a⟩) = some C →
      C 3 3 ≤ 4 * e ^ 2 + 1 / 1000 := by
  intro h
  have hpi := Real.pi_gt_three
  obtain ⟨C, hC, hv⟩ := C85_opposite_samples (e := 1 / 10) (by norm_num) (by linarith)
  have := h (1 / 10) [1 / 10, -(1 / 10)] 2 C (by norm_num) (by norm_num) (by
    intro a ha
    simp at ha
    rcases ha with rfl | rfl <;> norm_num [abs_le]) hC
  rw [hv] at this
  nlinarith

end RgbdSlam.Optimizer
