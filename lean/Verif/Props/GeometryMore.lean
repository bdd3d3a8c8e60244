import Verif.Props.Geometry
import Mathlib.Tactic.FinCases
/-
More on planes (C30), screen points (C31) and plane bases (C52).
-/
namespace RgbdSlam.Geometry

open Spec Matrix

/-- C30: the centre of a plane is its point closest to the origin. -/
theorem C30_center {P : Plane} (hP : UnitVec P.normal) :
    OnPlane P P.center ∧ ∀ x, OnPlane P x → sqDist P.center 0 ≤ sqDist x 0 := by
  unfold UnitVec at hP
  rw [Fin.sum_univ_three] at hP
  refine ⟨?_, fun x hx => ?_⟩
  · simp only [OnPlane, Plane.center, Fin.sum_univ_three, Pi.smul_apply, smul_eq_mul]
    linear_combination -P.d * hP
  · simp only [OnPlane, Fin.sum_univ_three] at hx
    have e : P.d = -(P.normal 0 * x 0 + P.normal 1 * x 1 + P.normal 2 * x 2) := by linarith
    have l : sqDist P.center 0 = P.d ^ 2 := by
      simp only [sqDist, Plane.center, Fin.sum_univ_three, Pi.smul_apply, smul_eq_mul, Pi.zero_apply]
      linear_combination P.d ^ 2 * hP
    rw [l, e]
    simp only [sqDist, Fin.sum_univ_three, Pi.zero_apply]
    nlinarith [sq_nonneg (P.normal 0 * x 1 - P.normal 1 * x 0), sq_nonneg (P.normal 0 * x 2 - P.normal 2 * x 0),
      sq_nonneg (P.normal 1 * x 2 - P.normal 2 * x 1)]

/-- The plane of equation z = 2. -/
example : OnPlane { normal := ![0, 0, -1], d := 2 } ![0, 0, 2] ∧
    ({ normal := ![0, 0, -1], d := 2 } : Plane).center = ![0, 0, 2] := by
  refine ⟨by simp [OnPlane, Fin.sum_univ_three], ?_⟩
  ext i
  fin_cases i <;> simp [Plane.center]

/-- C31: a camera point is reported inside the screen exactly when it is in front of the camera and the pixel it
projects to is between the borders of the image, both included. -/
theorem C31_in_screen (fx fy cx cy : ℝ) (width height : ℕ) (p : V3) (hz : p 2 ≠ 0) :
    ∃ s, cameraToScreen (intrinsics fx fy cx cy) p = some s ∧
      (inScreen width height s = true ↔ 0 < p 2 ∧ 0 ≤ fx * p 0 / p 2 + cx ∧ fx * p 0 / p 2 + cx ≤ width ∧
        0 ≤ fy * p 1 / p 2 + cy ∧ fy * p 1 / p 2 + cy ≤ height) := by
  refine ⟨_, by rw [cameraToScreen, if_neg hz], ?_⟩
  have e0 : 1 / p 2 * cameraToScreen2 (intrinsics fx fy cx cy) p 0 = fx * p 0 / p 2 + cx := by
    rw [cameraToScreen2_eq]; simp; field_simp
  have e1 : 1 / p 2 * cameraToScreen2 (intrinsics fx fy cx cy) p 1 = fy * p 1 / p 2 + cy := by
    rw [cameraToScreen2_eq]; simp; field_simp
  simp only [inScreen, e0, e1, Bool.and_eq_true, decide_eq_true_eq, Matrix.cons_val_zero, Matrix.cons_val_one,
    Matrix.cons_val]
  tauto

/-- A point seen in a corner of the image. -/
example : inScreen 640 480 ![640, 0, 1000] = true ∧ inScreen 640 480 ![480, 640, 1000] = false ∧
    inScreen 640 480 ![100, 100, 0] = false := by
  simp [inScreen]; norm_num

/-- C52: no basis is made for a normal that is not of length one (to the double precision). -/
theorem C52_refused {n : V3} (h : doubleEps < |Geometry.norm n - 1|) : planeBasis n = .throws := by
  unfold planeBasis
  rw [if_pos (by simp [doubleEqual, h])]

example : doubleEps < |Geometry.norm ![3, 0, 4] - 1| := by
  have : Geometry.norm ![3, 0, 4] = 5 := by
    rw [Geometry.norm, show (![3, 0, 4] : V3) ⬝ᵥ ![3, 0, 4] = 5 ^ 2 by simp [dotProduct, Fin.sum_univ_three]; norm_num]
    exact Real.sqrt_sq (by norm_num)
  rw [this]
  norm_num [doubleEps]

end RgbdSlam.Geometry
