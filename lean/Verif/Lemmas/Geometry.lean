import Verif.Spec.Geometry
import Mathlib.Tactic.Ring
import Mathlib.Tactic.LinearCombination
import Mathlib.Tactic.FieldSimp
import Mathlib.Tactic.Linarith
import Mathlib.Tactic.NormNum
import Mathlib.Tactic.FinCases

set_option linter.unusedSectionVars false

namespace RgbdSlam.Geometry

open Matrix Spec

/-! ## Links between the specification and Mathlib's operations -/

theorem dot3 (v w : V3) : v ⬝ᵥ w = v 0 * w 0 + v 1 * w 1 + v 2 * w 2 := by
  simp [dotProduct, Fin.sum_univ_three]

theorem dot_eq {n : ℕ} (v w : Fin n → ℝ) : v ⬝ᵥ w = ∑ i, v i * w i := rfl

theorem sqDist_eq {n : ℕ} (a b : Fin n → ℝ) : sqDist a b = (a - b) ⬝ᵥ (a - b) := by
  simp [sqDist, dotProduct, pow_two]

theorem unitVec_iff {n : ℕ} (v : Fin n → ℝ) : UnitVec v ↔ v ⬝ᵥ v = 1 := by
  simp [UnitVec, dotProduct, pow_two]

theorem orthogonal_iff {n : ℕ} (v w : Fin n → ℝ) : Orthogonal v w ↔ v ⬝ᵥ w = 0 := Iff.rfl

theorem signedDistance_eq (P : Plane) (p : V3) : signedDistance P p = P.distance p := rfl

theorem norm_of_unit {n : ℕ} {v : Fin n → ℝ} (h : v ⬝ᵥ v = 1) : norm v = 1 := by
  simp [norm, h]

theorem normalized_of_unit {n : ℕ} {v : Fin n → ℝ} (h : v ⬝ᵥ v = 1) : normalized v = v := by
  simp [normalized, norm, h]

theorem dot_self_nonneg {n : ℕ} (v : Fin n → ℝ) : 0 ≤ v ⬝ᵥ v :=
  Finset.sum_nonneg fun _ _ => mul_self_nonneg _

theorem dot_self_eq_zero {n : ℕ} {v : Fin n → ℝ} (h : v ⬝ᵥ v = 0) : v = 0 := by
  funext i
  have := (Finset.sum_eq_zero_iff_of_nonneg (s := Finset.univ) (f := fun i => v i * v i)
    fun _ _ => mul_self_nonneg _).1 h i (Finset.mem_univ i)
  simpa using this

theorem dot_self_pos {n : ℕ} {v : Fin n → ℝ} (h : v ≠ 0) : 0 < v ⬝ᵥ v :=
  lt_of_le_of_ne (dot_self_nonneg v) fun h0 => h (dot_self_eq_zero h0.symm)

theorem normalized_unit {n : ℕ} {v : Fin n → ℝ} (h : v ≠ 0) :
    normalized v ⬝ᵥ normalized v = 1 := by
  have hp := dot_self_pos h
  rw [normalized, if_pos hp]
  simp only [smul_dotProduct, dotProduct_smul, smul_eq_mul, norm]
  rw [← mul_assoc, ← mul_inv, Real.mul_self_sqrt hp.le]
  exact inv_mul_cancel₀ hp.ne'

theorem doubleEps_nonneg : 0 ≤ doubleEps := by unfold doubleEps; positivity

theorem doubleEqual_self (a : ℝ) {eps : ℝ} (h : 0 ≤ eps) : doubleEqual a a eps = true := by
  simp [doubleEqual, h]

/-! ## Rotations -/

theorem UnitQuat.normSq {q : Quat} (h : UnitQuat q) : q.normSq = 1 := by
  unfold UnitQuat at h; unfold Quat.normSq; linarith

theorem rotationMatrix_orthogonal {q : Quat} (h : UnitQuat q) :
    q.toRotationMatrixᵀ * q.toRotationMatrix = 1 := by
  unfold UnitQuat at h
  ext i j
  fin_cases i <;> fin_cases j <;>
    simp [Quat.toRotationMatrix, Matrix.mul_apply, Fin.sum_univ_three]
  · linear_combination (4 * (q.y ^ 2 + q.z ^ 2)) * h
  · linear_combination (-4 * (q.x * q.y)) * h
  · linear_combination (-4 * (q.x * q.z)) * h
  · linear_combination (-4 * (q.x * q.y)) * h
  · linear_combination (4 * (q.x ^ 2 + q.z ^ 2)) * h
  · linear_combination (-4 * (q.y * q.z)) * h
  · linear_combination (-4 * (q.x * q.z)) * h
  · linear_combination (-4 * (q.y * q.z)) * h
  · linear_combination (4 * (q.x ^ 2 + q.y ^ 2)) * h

theorem orthogonal_comm {R : M3} (h : Rᵀ * R = 1) : R * Rᵀ = 1 :=
  mul_eq_one_comm.1 h

theorem orthogonal_mul {A B : M3} (hA : Aᵀ * A = 1) (hB : Bᵀ * B = 1) : (A * B)ᵀ * (A * B) = 1 := by
  rw [Matrix.transpose_mul, Matrix.mul_assoc, ← Matrix.mul_assoc Aᵀ, hA, Matrix.one_mul, hB]

theorem orthogonal_dot {R : M3} (h : Rᵀ * R = 1) (v w : V3) : (R *ᵥ v) ⬝ᵥ (R *ᵥ w) = v ⬝ᵥ w := by
  rw [Matrix.dotProduct_mulVec, Matrix.vecMul_mulVec, ← Matrix.dotProduct_mulVec, h,
    Matrix.one_mulVec]

theorem mul_unit {a b : Quat} (ha : UnitQuat a) (hb : UnitQuat b) : UnitQuat (a.mul b) := by
  unfold UnitQuat at *
  unfold Quat.mul
  simp only
  linear_combination (b.w ^ 2 + b.x ^ 2 + b.y ^ 2 + b.z ^ 2) * ha + hb

/-- The rotation part of the static change of axes. -/
theorem cameraAxes_rotation :
    (Quat.ofEuler 0 (90 * (Real.pi / 180)) (-90 * (Real.pi / 180))).toRotationMatrix =
      !![0, 0, 1; -1, 0, 0; 0, -1, 0] := by
  have e1 : 90 * (Real.pi / 180) / 2 = Real.pi / 4 := by ring
  have e2 : -90 * (Real.pi / 180) / 2 = -(Real.pi / 4) := by ring
  have hs : Real.sqrt 2 * Real.sqrt 2 = 2 := Real.mul_self_sqrt (by norm_num)
  have h4 : Real.sqrt 2 * Real.sqrt 2 * (Real.sqrt 2 * Real.sqrt 2) = 4 := by rw [hs]; norm_num
  ext i j
  fin_cases i <;> fin_cases j <;>
    simp only [Quat.ofEuler, Quat.ofAngleAxis, Quat.mul, Quat.toRotationMatrix, e1, e2,
      Real.cos_neg, Real.sin_neg, Real.cos_pi_div_four, Real.sin_pi_div_four] <;>
    simp <;> linarith [hs, h4]

/-! ## Frames -/

theorem transformation_mul (R S : M3) (p q : V3) :
    transformation R p * transformation S q = transformation (R * S) (R *ᵥ q + p) := by
  unfold transformation
  rw [Matrix.fromBlocks_multiply]
  congr 1
  · simp
  · ext i j; simp [Matrix.mul_apply, Matrix.mulVec, dotProduct]
  · simp
  · simp

theorem transformation_one : transformation 1 0 = (1 : M4) := by
  unfold transformation
  rw [← Matrix.fromBlocks_one]
  rfl

theorem transformation_inv {R : M3} (h : Rᵀ * R = 1) (p : V3) :
    (transformation R p)⁻¹ = transformation Rᵀ (-(Rᵀ *ᵥ p)) := by
  apply Matrix.inv_eq_left_inv
  rw [transformation_mul, h]
  simp [transformation_one]

@[simp] theorem rotation_transformation (R : M3) (p : V3) : rotation (transformation R p) = R := by
  simp [rotation, transformation]

@[simp] theorem translation_transformation (R : M3) (p : V3) :
    translation (transformation R p) = p := by
  funext i; simp [translation, transformation]

theorem pointToWorld_transformation (R : M3) (p x : V3) :
    pointToWorld (transformation R p) x = R *ᵥ x + p := by
  funext i
  simp [pointToWorld, transformation, homogeneous, Matrix.mulVec,
    dotProduct]

theorem pointToCamera_transformation (R : M3) (p x : V3) :
    pointToCamera (transformation R p) x = R *ᵥ x + p := by
  funext i
  simp [pointToCamera, transformation, homogeneous, Matrix.mulVec,
    dotProduct]

/-- The rotation of camera axes into world axes. -/
def axesRotation : M3 := !![0, 0, 1; -1, 0, 0; 0, -1, 0]

theorem axesRotation_orthogonal : axesRotationᵀ * axesRotation = 1 := by
  ext i j
  fin_cases i <;> fin_cases j <;> simp [axesRotation, Matrix.mul_apply, Fin.sum_univ_three]

theorem cameraToWorld_eq (q : Quat) (p : V3) :
    cameraToWorld q p =
      transformation (axesRotation * q.toRotationMatrix) (axesRotation *ᵥ p) := by
  unfold cameraToWorld cameraAxes
  rw [cameraAxes_rotation, transformation_mul]
  simp [axesRotation]

/-- Every camera to world matrix of a unit orientation is a rotation and a translation. -/
theorem cameraToWorld_rigid {q : Quat} (h : UnitQuat q) (p : V3) :
    ∃ R t, Rᵀ * R = 1 ∧ cameraToWorld q p = transformation R t :=
  ⟨_, _, orthogonal_mul axesRotation_orthogonal (rotationMatrix_orthogonal h), cameraToWorld_eq q p⟩

end RgbdSlam.Geometry
