import Verif.Model.Optimizer
import Verif.Props.Angles
import Verif.Lemmas.Geometry2
import Mathlib.LinearAlgebra.Matrix.Adjugate
/-
C215: the six numbers of a pose.
-/
namespace RgbdSlam.Optimizer.PoseVector

open Geometry Geometry.Spec Matrix Angles Angles.Spec

/-- The cofactors of a rotation are its entries. -/
theorem cofactors {R : M3} (h : Rᵀ * R = 1) (hd : R.det = 1) : R.adjugate = Rᵀ := by
  have e : Rᵀ * (R * R.adjugate) = Rᵀ := by rw [mul_adjugate, hd, one_smul, Matrix.mul_one]
  rwa [← Matrix.mul_assoc, h, Matrix.one_mul] at e

/-- The angle of a unit vector of the plane. -/
theorem unit_atan2 {x y : ℝ} (h : x * x + y * y = 1) : Real.cos (atan2 y x) = x ∧ Real.sin (atan2 y x) = y := by
  have h1 := cos_atan2 x y
  have h2 := sin_atan2 x y
  rw [h, Real.sqrt_one, one_mul] at h1 h2
  exact ⟨h1, h2⟩

/-- The three angles before their signs are changed. -/
theorem angles_spec {R : M3} (h : Rᵀ * R = 1) :
    ∃ α β γ, eulerAngles R = ![-α, -β, -γ] ∧ -Real.pi < α ∧ α ≤ 0 ∧
      Real.cos β * Real.cos α = R 2 2 ∧ Real.cos β * Real.sin α = R 1 2 ∧ Real.sin β = -R 0 2 ∧
      Real.cos γ = Real.cos α * R 1 1 - Real.sin α * R 2 1 ∧
      Real.sin γ = Real.sin α * R 2 0 - Real.cos α * R 1 0 := by
  have h' : R * Rᵀ = 1 := mul_eq_one_comm.1 h
  have col : R 0 2 * R 0 2 + R 1 2 * R 1 2 + R 2 2 * R 2 2 = 1 := by
    have := congrFun (congrFun h 2) 2
    simpa [Matrix.mul_apply, Fin.sum_univ_three] using this
  have row0 : R 0 0 * R 0 0 + R 0 1 * R 0 1 + R 0 2 * R 0 2 = 1 := by
    have := congrFun (congrFun h' 0) 0
    simpa [Matrix.mul_apply, Fin.sum_univ_three] using this
  have row1 : R 1 0 * R 1 0 + R 1 1 * R 1 1 + R 1 2 * R 1 2 = 1 := by
    have := congrFun (congrFun h' 1) 1
    simpa [Matrix.mul_apply, Fin.sum_univ_three] using this
  have row2 : R 2 0 * R 2 0 + R 2 1 * R 2 1 + R 2 2 * R 2 2 = 1 := by
    have := congrFun (congrFun h' 2) 2
    simpa [Matrix.mul_apply, Fin.sum_univ_three] using this
  have row12 : R 1 0 * R 2 0 + R 1 1 * R 2 1 + R 1 2 * R 2 2 = 0 := by
    have := congrFun (congrFun h' 1) 2
    simpa [Matrix.mul_apply, Fin.sum_univ_three] using this
  set t := atan2 (R 1 2) (R 2 2) with ht
  set c2 := Real.sqrt (R 0 0 ^ 2 + R 0 1 ^ 2) with hc2
  have e2 : c2 = Real.sqrt (R 2 2 * R 2 2 + R 1 2 * R 1 2) := by
    rw [hc2]
    congr 1
    linarith
  have sq : c2 * c2 = R 0 0 ^ 2 + R 0 1 ^ 2 := Real.mul_self_sqrt (by positivity)
  have k1 : c2 * Real.cos t = R 2 2 := by rw [e2]; exact cos_atan2 _ _
  have k2 : c2 * Real.sin t = R 1 2 := by rw [e2]; exact sin_atan2 _ _
  have main : ∃ α β, (if 0 < t then t - Real.pi else t) = α ∧
      (if 0 < t then atan2 (-R 0 2) (-c2) else atan2 (-R 0 2) c2) = β ∧ -Real.pi < α ∧ α ≤ 0 ∧
      Real.cos β * Real.cos α = R 2 2 ∧ Real.cos β * Real.sin α = R 1 2 ∧ Real.sin β = -R 0 2 := by
    have hl := neg_pi_lt_atan2 (R 2 2) (R 1 2)
    have hu := atan2_le_pi (R 2 2) (R 1 2)
    by_cases hp : 0 < t
    · obtain ⟨a1, a2⟩ := unit_atan2 (x := -c2) (y := -R 0 2) (by nlinarith)
      refine ⟨_, _, if_pos hp, if_pos hp, by linarith, by linarith, ?_, ?_, a2⟩
      · rw [a1, Real.cos_sub_pi]
        linarith
      · rw [a1, Real.sin_sub_pi]
        linarith
    · obtain ⟨a1, a2⟩ := unit_atan2 (x := c2) (y := -R 0 2) (by nlinarith)
      refine ⟨_, _, if_neg hp, if_neg hp, hl, not_lt.1 hp, ?_, ?_, a2⟩
      · rw [a1, k1]
      · rw [a1, k2]
  obtain ⟨α, β, hα, hβ, hl, hu, m1, m2, m3⟩ := main
  have zero : Real.cos α * R 1 2 - Real.sin α * R 2 2 = 0 := by
    rw [← m1, ← m2]
    ring
  have sc := Real.sin_sq_add_cos_sq α
  obtain ⟨g1, g2⟩ := unit_atan2 (x := Real.cos α * R 1 1 - Real.sin α * R 2 1)
    (y := Real.sin α * R 2 0 - Real.cos α * R 1 0) (by
      linear_combination Real.cos α ^ 2 * row1 + Real.sin α ^ 2 * row2 - 2 * Real.sin α * Real.cos α * row12 + sc -
        (Real.cos α * R 1 2 - Real.sin α * R 2 2) * zero)
  refine ⟨α, β, _, ?_, hl, hu, m1, m2, m3, g1, g2⟩
  unfold eulerAngles
  dsimp only
  rw [← ht, ← hc2, hα, hβ]

/-- C215: the three angles of a pose as a vector are those of the system XYZ, for every rotation, including at the
singularities, and the first one is not negative and less than pi. -/
theorem C215_angles : IsXyz eulerAngles ∧
    ∀ R : M3, Rᵀ * R = 1 → R.det = 1 → 0 ≤ eulerAngles R 0 ∧ eulerAngles R 0 < Real.pi := by
  constructor
  · intro R h hd
    obtain ⟨α, β, γ, e, -, -, m1, m2, m3, g1, g2⟩ := angles_spec h
    have cof := cofactors h hd
    have c : ∀ i j, R.adjugate i j = R j i := fun i j => by rw [cof, transpose_apply]
    have c00 := c 0 0
    have c10 := c 1 0
    have c01 := c 0 1
    have c11 := c 1 1
    have c02 := c 0 2
    have c12 := c 1 2
    simp [adjugate_fin_three] at c00 c10 c01 c11 c02 c12
    have sc := Real.sin_sq_add_cos_sq α
    have zero : Real.cos α * R 1 2 - Real.sin α * R 2 2 = 0 := by
      rw [← m1, ← m2]
      ring
    have k : Real.sin α * R 1 0 + Real.cos α * R 2 0 = -R 0 2 * (Real.cos α * R 1 1 - Real.sin α * R 2 1) := by
      linear_combination -Real.sin α * c01 - Real.cos α * c02 + R 0 1 * zero
    have k' : Real.sin α * R 1 1 + Real.cos α * R 2 1 = -R 0 2 * (Real.sin α * R 2 0 - Real.cos α * R 1 0) := by
      linear_combination -Real.sin α * c11 - Real.cos α * c12 - R 0 0 * zero
    rw [e]
    ext i j
    fin_cases i <;> fin_cases j <;>
      simp [rotX, rotY, rotZ, Matrix.mul_apply, Fin.sum_univ_three, g1, g2, m3]
    · linear_combination c00 + R 1 1 * m1 - R 2 1 * m2
    · linear_combination c10 + R 2 0 * m2 - R 1 0 * m1
    · linear_combination -Real.sin α * k + R 1 0 * sc
    · linear_combination -Real.sin α * k' + R 1 1 * sc
    · linear_combination m2
    · linear_combination -Real.cos α * k + R 2 0 * sc
    · linear_combination -Real.cos α * k' + R 2 1 * sc
    · linear_combination m1
  · intro R h _
    obtain ⟨α, β, γ, e, hl, hu, -⟩ := angles_spec h
    rw [e]
    exact ⟨by simpa using hu, by simp; linarith⟩

/-- C215: the six numbers of a pose tell where the camera is: the first three are the position, the last three the angles of
a rotation that is that of the pose. -/
theorem C215_vector (p : Pose) (h : UnitQuat p.orientation) :
    (∀ i : Fin 3, poseVector p (Fin.castLE (by omega) i) = p.position i) ∧
    rotX (poseVector p 3) * rotY (poseVector p 4) * rotZ (poseVector p 5) = p.orientation.toRotationMatrix := by
  refine ⟨fun i => ?_, C215_angles.1 _ (rotationMatrix_orthogonal h) (toRotationMatrix_det h)⟩
  fin_cases i <;> rfl

/-- C215: poses with the same six numbers are the same: they move every point to the same place. -/
theorem C215_apart (p q : Pose) (hp : UnitQuat p.orientation) (hq : UnitQuat q.orientation)
    (h : poseVector p = poseVector q) :
    p.position = q.position ∧ p.orientation.toRotationMatrix = q.orientation.toRotationMatrix := by
  obtain ⟨h1, h2⟩ := C215_vector p hp
  obtain ⟨h3, h4⟩ := C215_vector q hq
  refine ⟨funext fun i => ?_, ?_⟩
  · rw [← h1, ← h3, h]
  · rw [← h2, ← h4, h]

/-- Non-vacuity, at a singularity: a quarter turn around Y. -/
example : ∃ R : M3, Rᵀ * R = 1 ∧ R.det = 1 ∧ R 0 0 = 0 ∧ R 0 1 = 0 ∧ eulerAngles R = ![0, Real.pi / 2, 0] := by
  refine ⟨!![0, 0, 1; 0, 1, 0; -1, 0, 0], ?_, by simp [det_fin_three], rfl, rfl, ?_⟩
  · ext i j
    fin_cases i <;> fin_cases j <;> simp [Matrix.mul_apply, Fin.sum_univ_three]
  · have h0 : atan2 0 0 = 0 := Complex.arg_zero
    have h1 : atan2 (-1) 0 = -(Real.pi / 2) := by
      unfold atan2
      have : (⟨0, -1⟩ : ℂ) = -Complex.I := Complex.ext (by simp) (by simp)
      rw [this, Complex.arg_neg_I]
    have h2 : atan2 0 1 = 0 := Complex.arg_one
    simp [eulerAngles, h0, h1, h2]

end RgbdSlam.Optimizer.PoseVector
