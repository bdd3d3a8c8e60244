import Verif.Lemmas.Geometry
import Mathlib.Tactic.Positivity
import Mathlib.Analysis.SpecialFunctions.Trigonometric.Angle

set_option linter.unusedSectionVars false

namespace RgbdSlam.Geometry

open Matrix Spec

/-! ## Rigid transforms -/

theorem toCamera_toWorld {R : M3} (h : Rᵀ * R = 1) (t x : V3) :
    pointToCamera (transformation R t)⁻¹ (pointToWorld (transformation R t) x) = x := by
  rw [transformation_inv h, pointToCamera_transformation, pointToWorld_transformation,
    Matrix.mulVec_add, Matrix.mulVec_mulVec, h, Matrix.one_mulVec]
  abel

theorem toWorld_toCamera {R : M3} (h : Rᵀ * R = 1) (t x : V3) :
    pointToWorld (transformation R t) (pointToCamera (transformation R t)⁻¹ x) = x := by
  rw [transformation_inv h, pointToCamera_transformation, pointToWorld_transformation,
    Matrix.mulVec_add, Matrix.mulVec_mulVec, orthogonal_comm h, Matrix.one_mulVec,
    Matrix.mulVec_neg, Matrix.mulVec_mulVec, orthogonal_comm h, Matrix.one_mulVec]
  abel

theorem sqDist_toWorld {R : M3} (h : Rᵀ * R = 1) (t x y : V3) :
    sqDist (pointToWorld (transformation R t) x) (pointToWorld (transformation R t) y) =
      sqDist x y := by
  rw [sqDist_eq, sqDist_eq, pointToWorld_transformation, pointToWorld_transformation,
    add_sub_add_right_eq_sub, ← Matrix.mulVec_sub, orthogonal_dot h]

/-! ## Planes -/

theorem planeCameraToWorld_transformation (R : M3) (t : V3) :
    planeCameraToWorld (transformation R t) =
      fromBlocks R 0 (Matrix.of fun _ j => -(t ᵥ* R) j) 1 := by
  simp [planeCameraToWorld]

theorem plane_inverse {R : M3} (h : Rᵀ * R = 1) (t : V3) :
    (fromBlocks R 0 (Matrix.of fun _ j => -(t ᵥ* R) j) 1 : M4)⁻¹ =
      fromBlocks Rᵀ 0 (Matrix.of fun _ j => t j) 1 := by
  apply Matrix.inv_eq_left_inv
  rw [Matrix.fromBlocks_multiply, ← Matrix.fromBlocks_one]
  congr 1
  · simp [h]
  · simp
  · ext i j
    simp [Matrix.mul_apply, Matrix.vecMul, dotProduct]
  · simp

theorem plane_mulVec_world (R : M3) (t : V3) (P : Plane) :
    Plane.ofV4 ((fromBlocks R 0 (Matrix.of fun _ j => -(t ᵥ* R) j) 1 : M4) *ᵥ P.parametrization) =
      Plane.make (R *ᵥ P.normal) (P.d - t ⬝ᵥ (R *ᵥ P.normal)) := by
  unfold Plane.ofV4 Plane.parametrization
  congr 1
  · funext i; simp [Matrix.mulVec, dotProduct]
  · rw [Matrix.dotProduct_mulVec]
    simp [Matrix.mulVec, dotProduct]
    ring

theorem plane_mulVec_camera (R : M3) (t : V3) (P : Plane) :
    Plane.ofV4 ((fromBlocks Rᵀ 0 (Matrix.of fun _ j => t j) 1 : M4) *ᵥ P.parametrization) =
      Plane.make (Rᵀ *ᵥ P.normal) (P.d + t ⬝ᵥ P.normal) := by
  unfold Plane.ofV4 Plane.parametrization
  congr 1
  · funext i; simp [Matrix.mulVec, dotProduct]
  · simp [Matrix.mulVec, dotProduct]
    ring

theorem make_of_unit {n : V3} (h : n ⬝ᵥ n = 1) (d : ℝ) :
    Plane.make n d = { normal := n, d := d } := by
  rw [Plane.make, normalized_of_unit h]

theorem plane_toWorld {R : M3} (h : Rᵀ * R = 1) (t : V3) {P : Plane} (hP : P.normal ⬝ᵥ P.normal = 1) :
    P.transform (planeCameraToWorld (transformation R t)) =
      { normal := R *ᵥ P.normal, d := P.d - t ⬝ᵥ (R *ᵥ P.normal) } := by
  rw [Plane.transform, planeCameraToWorld_transformation, plane_mulVec_world,
    make_of_unit (by rw [orthogonal_dot h, hP])]

theorem plane_toCamera {R : M3} (h : Rᵀ * R = 1) (t : V3) {P : Plane}
    (hP : P.normal ⬝ᵥ P.normal = 1) :
    P.transform (planeWorldToCamera (transformation R t)⁻¹) =
      { normal := Rᵀ *ᵥ P.normal, d := P.d + t ⬝ᵥ P.normal } := by
  have hdet : IsUnit (transformation R t).det := by
    apply (Matrix.isUnit_iff_isUnit_det _).1
    exact ⟨⟨transformation R t, transformation Rᵀ (-(Rᵀ *ᵥ t)), by
      rw [transformation_mul, orthogonal_comm h, Matrix.mulVec_neg, Matrix.mulVec_mulVec,
        orthogonal_comm h]; simp [transformation_one], by
      rw [transformation_mul, h]; simp [transformation_one]⟩, rfl⟩
  rw [Plane.transform, planeWorldToCamera, cameraToWorldOf, Matrix.nonsing_inv_nonsing_inv _ hdet,
    planeCameraToWorld_transformation, plane_inverse h, plane_mulVec_camera,
    make_of_unit (by
      rw [orthogonal_dot (R := Rᵀ) (by rw [Matrix.transpose_transpose]; exact orthogonal_comm h), hP])]

theorem transformation_det {R : M3} (h : Rᵀ * R = 1) (t : V3) :
    IsUnit (transformation R t).det := by
  apply (Matrix.isUnit_iff_isUnit_det _).1
  exact ⟨⟨transformation R t, transformation Rᵀ (-(Rᵀ *ᵥ t)), by
    rw [transformation_mul, orthogonal_comm h, Matrix.mulVec_neg, Matrix.mulVec_mulVec,
      orthogonal_comm h]; simp [transformation_one], by
    rw [transformation_mul, h]; simp [transformation_one]⟩, rfl⟩

/-! ## Screen -/

theorem intrinsics_inv {fx fy : ℝ} (hx : fx ≠ 0) (hy : fy ≠ 0) (cx cy : ℝ) :
    (intrinsics fx fy cx cy)⁻¹ = !![1 / fx, 0, -cx / fx; 0, 1 / fy, -cy / fy; 0, 0, 1] := by
  apply Matrix.inv_eq_left_inv
  ext i j
  fin_cases i <;> fin_cases j <;>
    simp [intrinsics, Matrix.mul_apply, Fin.sum_univ_three, hx, hy] <;> field_simp <;> simp

theorem screenToCamera2_eq {fx fy : ℝ} (hx : fx ≠ 0) (hy : fy ≠ 0) (cx cy : ℝ) (s : V2) :
    screenToCamera2 (intrinsics fx fy cx cy) s = ![(s 0 - cx) / fx, (s 1 - cy) / fy] := by
  rw [screenToCamera2, intrinsics_inv hx hy]
  ext i
  fin_cases i <;> simp [Matrix.mulVec, dotProduct, Fin.sum_univ_three] <;> ring

theorem cameraToScreen2_eq (fx fy cx cy : ℝ) (p : V3) :
    cameraToScreen2 (intrinsics fx fy cx cy) p = ![fx * p 0 + cx * p 2, fy * p 1 + cy * p 2] := by
  ext i
  fin_cases i <;> simp [cameraToScreen2, intrinsics, Matrix.mulVec, dotProduct, Fin.sum_univ_three]

theorem doubleEqual_zero {z : ℝ} : doubleEqual z 0 = false ↔ doubleEps < |z| := by
  simp [doubleEqual]

/-! ## Spherical coordinates -/

theorem norm_mul_self {n : ℕ} (v : Fin n → ℝ) : norm v * norm v = v ⬝ᵥ v :=
  Real.mul_self_sqrt (dot_self_nonneg v)

theorem norm_nonneg {n : ℕ} (v : Fin n → ℝ) : 0 ≤ norm v := Real.sqrt_nonneg _

theorem norm_pos {n : ℕ} {v : Fin n → ℝ} (h : v ≠ 0) : 0 < norm v :=
  Real.sqrt_pos.2 (dot_self_pos h)

theorem abs_mk (x y : ℝ) : ‖(⟨x, y⟩ : ℂ)‖ = Real.sqrt (x * x + y * y) := by
  rw [Complex.norm_def, Complex.normSq_mk]

theorem cos_atan2 (x y : ℝ) : Real.sqrt (x * x + y * y) * Real.cos (atan2 y x) = x := by
  have := Complex.norm_mul_cos_arg (⟨x, y⟩ : ℂ)
  rwa [abs_mk] at this

theorem sin_atan2 (x y : ℝ) : Real.sqrt (x * x + y * y) * Real.sin (atan2 y x) = y := by
  have := Complex.norm_mul_sin_arg (⟨x, y⟩ : ℂ)
  rwa [abs_mk] at this

theorem atan2_nonneg {x y : ℝ} (h : 0 ≤ y) : 0 ≤ atan2 y x := by
  rw [atan2, Complex.arg_nonneg_iff]; exact h

theorem atan2_le_pi (x y : ℝ) : atan2 y x ≤ Real.pi := Complex.arg_le_pi _

theorem neg_pi_lt_atan2 (x y : ℝ) : -Real.pi < atan2 y x := Complex.neg_pi_lt_arg _

theorem toCartesian_ofCartesian (v : V3) : (Spherical.ofCartesian v).toCartesian = v := by
  have h1 := cos_atan2 (v 2) (Real.sqrt (v 0 * v 0 + v 1 * v 1))
  have h2 := sin_atan2 (v 2) (Real.sqrt (v 0 * v 0 + v 1 * v 1))
  have h3 := cos_atan2 (v 0) (v 1)
  have h4 := sin_atan2 (v 0) (v 1)
  have hn : Real.sqrt (v 2 * v 2 + Real.sqrt (v 0 * v 0 + v 1 * v 1) *
      Real.sqrt (v 0 * v 0 + v 1 * v 1)) = norm v := by
    rw [Real.mul_self_sqrt (add_nonneg (mul_self_nonneg _) (mul_self_nonneg _)), norm, dot3]
    congr 1; ring
  rw [hn] at h1 h2
  ext i
  fin_cases i
  · simp only [Spherical.ofCartesian, Spherical.toCartesian]
    simp
    rw [h2, h3]
  · simp only [Spherical.ofCartesian, Spherical.toCartesian]
    simp
    rw [h2, h4]
  · simp only [Spherical.ofCartesian, Spherical.toCartesian]
    simp
    rw [h1]

theorem bearing_unit (theta phi : ℝ) :
    (Spherical.toCartesian { p := 1, theta := theta, phi := phi }) ⬝ᵥ
      (Spherical.toCartesian { p := 1, theta := theta, phi := phi }) = 1 := by
  rw [dot3]
  simp [Spherical.toCartesian]
  have h1 := Real.sin_sq_add_cos_sq theta
  have h2 := Real.sin_sq_add_cos_sq phi
  linear_combination (Real.sin theta) ^ 2 * h2 + h1

theorem atan2_scale {r : ℝ} (hr : 0 < r) {a : ℝ} (h1 : -Real.pi < a) (h2 : a ≤ Real.pi) :
    atan2 (r * Real.sin a) (r * Real.cos a) = a := by
  have := Complex.arg_mul_cos_add_sin_mul_I hr (θ := a) ⟨h1, h2⟩
  refine Eq.trans ?_ this
  rw [atan2]
  congr 1
  apply Complex.ext
  · simp [← Complex.ofReal_cos, ← Complex.ofReal_sin]
  · simp [← Complex.ofReal_cos, ← Complex.ofReal_sin]

theorem ofCartesian_toCartesian {s : Spherical} (hp : 0 < s.p) (h0 : 0 < s.theta)
    (h1 : s.theta < Real.pi) (h2 : -Real.pi < s.phi) (h3 : s.phi ≤ Real.pi) :
    Spherical.ofCartesian s.toCartesian = s := by
  have hsin : 0 < Real.sin s.theta := Real.sin_pos_of_pos_of_lt_pi h0 h1
  have e1 := Real.sin_sq_add_cos_sq s.theta
  have e2 := Real.sin_sq_add_cos_sq s.phi
  have hr : 0 < s.p * Real.sin s.theta := mul_pos hp hsin
  have hsq : Real.sqrt (s.toCartesian 0 * s.toCartesian 0 + s.toCartesian 1 * s.toCartesian 1) =
      s.p * Real.sin s.theta := by
    rw [show s.toCartesian 0 * s.toCartesian 0 + s.toCartesian 1 * s.toCartesian 1 =
      (s.p * Real.sin s.theta) ^ 2 by
        simp [Spherical.toCartesian]
        linear_combination (s.p * Real.sin s.theta) ^ 2 * e2]
    exact Real.sqrt_sq hr.le
  have hn : norm s.toCartesian = s.p := by
    rw [norm, dot3, show s.toCartesian 0 * s.toCartesian 0 + s.toCartesian 1 * s.toCartesian 1 +
      s.toCartesian 2 * s.toCartesian 2 = s.p ^ 2 by
        simp [Spherical.toCartesian]
        linear_combination (s.p * Real.sin s.theta) ^ 2 * e2 + s.p ^ 2 * e1]
    exact Real.sqrt_sq hp.le
  unfold Spherical.ofCartesian
  rw [hsq, hn]
  have ht : atan2 (s.p * Real.sin s.theta) (s.toCartesian 2) = s.theta := by
    have : s.toCartesian 2 = s.p * Real.cos s.theta := by simp [Spherical.toCartesian]
    rw [this]
    exact atan2_scale hp (by linarith) h1.le
  have hphi : atan2 (s.toCartesian 1) (s.toCartesian 0) = s.phi := by
    have a : s.toCartesian 1 = (s.p * Real.sin s.theta) * Real.sin s.phi := by
      simp [Spherical.toCartesian]
    have b : s.toCartesian 0 = (s.p * Real.sin s.theta) * Real.cos s.phi := by
      simp [Spherical.toCartesian]
    rw [a, b]
    exact atan2_scale hr h2 h3
  rw [ht, hphi]

end RgbdSlam.Geometry
