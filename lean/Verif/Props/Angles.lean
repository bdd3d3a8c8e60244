import Verif.Model.Angles
import Verif.Spec.Angles
import Verif.Lemmas.Geometry
import Mathlib.Tactic.Ring
import Mathlib.Tactic.LinearCombination
import Mathlib.Tactic.FieldSimp
import Mathlib.Tactic.Linarith
import Mathlib.Tactic.NormNum
import Mathlib.Tactic.Positivity
import Mathlib.Tactic.FinCases
/-
C137: offset of the second camera; C138: Euler angles; C139: errors between poses.
-/
namespace RgbdSlam.Angles

open Geometry Matrix Spec
open Geometry.Spec (UnitQuat)

theorem double_angle (a : ℝ) : Real.cos a = 1 - 2 * Real.sin (a / 2) ^ 2 ∧
    Real.sin a = 2 * Real.sin (a / 2) * Real.cos (a / 2) := by
  have e : a = 2 * (a / 2) := by ring
  refine ⟨?_, ?_⟩
  · conv_lhs => rw [e]
    rw [Real.cos_two_mul]
    linear_combination 2 * Real.sin_sq_add_cos_sq (a / 2)
  · conv_lhs => rw [e]
    rw [Real.sin_two_mul]

theorem ofAngleAxis_x (a : ℝ) : (Quat.ofAngleAxis a ![1, 0, 0]).toRotationMatrix = rotX a := by
  obtain ⟨hc, hs⟩ := double_angle a
  ext i j
  fin_cases i <;> fin_cases j <;> simp [Quat.ofAngleAxis, Quat.toRotationMatrix, rotX, hc, hs] <;> ring

theorem ofAngleAxis_y (a : ℝ) : (Quat.ofAngleAxis a ![0, 1, 0]).toRotationMatrix = rotY a := by
  obtain ⟨hc, hs⟩ := double_angle a
  ext i j
  fin_cases i <;> fin_cases j <;> simp [Quat.ofAngleAxis, Quat.toRotationMatrix, rotY, hc, hs] <;> ring

theorem ofAngleAxis_z (a : ℝ) : (Quat.ofAngleAxis a ![0, 0, 1]).toRotationMatrix = rotZ a := by
  obtain ⟨hc, hs⟩ := double_angle a
  ext i j
  fin_cases i <;> fin_cases j <;> simp [Quat.ofAngleAxis, Quat.toRotationMatrix, rotZ, hc, hs] <;> ring

theorem ofAngleAxis_unit (a : ℝ) {v : V3} (h : v 0 ^ 2 + v 1 ^ 2 + v 2 ^ 2 = 1) : UnitQuat (Quat.ofAngleAxis a v) := by
  unfold UnitQuat Quat.ofAngleAxis
  dsimp only
  linear_combination Real.sin_sq_add_cos_sq (a / 2) + Real.sin (a / 2) ^ 2 * h

/-- The matrix of a quaternion, in the homogeneous form. -/
def homogeneous (q : Quat) : M3 :=
  !![q.w ^ 2 + q.x ^ 2 - q.y ^ 2 - q.z ^ 2, 2 * (q.x * q.y - q.w * q.z), 2 * (q.x * q.z + q.w * q.y);
    2 * (q.x * q.y + q.w * q.z), q.w ^ 2 - q.x ^ 2 + q.y ^ 2 - q.z ^ 2, 2 * (q.y * q.z - q.w * q.x);
    2 * (q.x * q.z - q.w * q.y), 2 * (q.y * q.z + q.w * q.x), q.w ^ 2 - q.x ^ 2 - q.y ^ 2 + q.z ^ 2]

theorem toRotationMatrix_eq {q : Quat} (h : UnitQuat q) : q.toRotationMatrix = homogeneous q := by
  unfold UnitQuat at h
  ext i j
  fin_cases i <;> fin_cases j <;> simp [Quat.toRotationMatrix, homogeneous] <;>
    first
    | (linear_combination -h)
    | ring

theorem homogeneous_mul (a b : Quat) : homogeneous (a.mul b) = homogeneous a * homogeneous b := by
  ext i j
  fin_cases i <;> fin_cases j <;>
    simp [Quat.mul, homogeneous, Matrix.mul_apply, Fin.sum_univ_three] <;> ring

theorem toRotationMatrix_mul {a b : Quat} (ha : UnitQuat a) (hb : UnitQuat b) :
    (a.mul b).toRotationMatrix = a.toRotationMatrix * b.toRotationMatrix := by
  rw [toRotationMatrix_eq (mul_unit ha hb), toRotationMatrix_eq ha, toRotationMatrix_eq hb, homogeneous_mul]

/-- The rotation described by Euler angles. -/
theorem C138_matrix_of_angles (e : Euler) : matrixOf e = rotX e.roll * rotY e.pitch * rotZ e.yaw := by
  unfold matrixOf quaternionOf Quat.ofEuler
  have hx := ofAngleAxis_unit e.roll (v := ![1, 0, 0]) (by simp)
  have hy := ofAngleAxis_unit e.pitch (v := ![0, 1, 0]) (by simp)
  have hz := ofAngleAxis_unit e.yaw (v := ![0, 0, 1]) (by simp)
  rw [toRotationMatrix_mul (mul_unit hx hy) hz, toRotationMatrix_mul hx hy, ofAngleAxis_x, ofAngleAxis_y, ofAngleAxis_z]

/-- Non-vacuity and orientation: a quarter turn of yaw is a rotation around the third axis. -/
example : matrixOf ⟨Real.pi / 2, 0, 0⟩ *ᵥ ![1, 0, 0] = ![0, 1, 0] := by
  rw [C138_matrix_of_angles]
  ext i
  fin_cases i <;> simp [rotX, rotY, rotZ, Matrix.mul_apply, Matrix.mulVec, dotProduct, Fin.sum_univ_three]

theorem toRotationMatrix_det {q : Quat} (h : UnitQuat q) : q.toRotationMatrix.det = 1 := by
  rw [toRotationMatrix_eq h, Matrix.det_fin_three]
  have e : (q.w ^ 2 + q.x ^ 2 + q.y ^ 2 + q.z ^ 2) ^ 3 = 1 := by
    unfold UnitQuat at h; rw [h]; norm_num
  simp [homogeneous]
  linear_combination e

theorem polar (x y : ℝ) : ∃ t r : ℝ, 0 ≤ r ∧ x = r * Real.cos t ∧ y = r * Real.sin t :=
  ⟨Complex.arg ⟨x, y⟩, ‖(⟨x, y⟩ : ℂ)‖, norm_nonneg _, (Complex.norm_mul_cos_arg ⟨x, y⟩).symm,
    (Complex.norm_mul_sin_arg ⟨x, y⟩).symm⟩

/-- Every rotation has angles of the system XYZ. -/
theorem exists_angles (R : M3) (ho : Rᵀ * R = 1) (hd : R.det = 1) :
    ∃ a b c : ℝ, rotX a * rotY b * rotZ c = R := by
  have oX : ∀ a, (rotX a)ᵀ * rotX a = 1 := fun a => by
    rw [← ofAngleAxis_x]; exact rotationMatrix_orthogonal (ofAngleAxis_unit a (by simp))
  have oY : ∀ a, (rotY a)ᵀ * rotY a = 1 := fun a => by
    rw [← ofAngleAxis_y]; exact rotationMatrix_orthogonal (ofAngleAxis_unit a (by simp))
  have dX : ∀ a, (rotX a)ᵀ.det = 1 := fun a => by
    rw [Matrix.det_transpose, ← ofAngleAxis_x]; exact toRotationMatrix_det (ofAngleAxis_unit a (by simp))
  have dY : ∀ a, (rotY a)ᵀ.det = 1 := fun a => by
    rw [Matrix.det_transpose, ← ofAngleAxis_y]; exact toRotationMatrix_det (ofAngleAxis_unit a (by simp))
  obtain ⟨a, r, -, ha1, ha2⟩ := polar (R 2 2) (-R 1 2)
  have h12 : ((rotX a)ᵀ * R) 1 2 = 0 := by
    simp [rotX, Matrix.mul_apply, Fin.sum_univ_three]
    linear_combination -Real.cos a * ha2 + Real.sin a * ha1
  have oS : ((rotX a)ᵀ * R)ᵀ * ((rotX a)ᵀ * R) = 1 :=
    orthogonal_mul (by rw [Matrix.transpose_transpose]; exact orthogonal_comm (oX a)) ho
  have dS : ((rotX a)ᵀ * R).det = 1 := by rw [Matrix.det_mul, dX, hd, one_mul]
  have back : rotX a * ((rotX a)ᵀ * R) = R := by
    rw [← Matrix.mul_assoc, orthogonal_comm (oX a), Matrix.one_mul]
  generalize (rotX a)ᵀ * R = S at *
  obtain ⟨b, r', hr', hb1, hb2⟩ := polar (S 2 2) (S 0 2)
  have s1 := Real.sin_sq_add_cos_sq b
  have g02 : ((rotY b)ᵀ * S) 0 2 = 0 := by
    simp [rotY, Matrix.mul_apply, Fin.sum_univ_three]
    linear_combination Real.cos b * hb2 - Real.sin b * hb1
  have g12 : ((rotY b)ᵀ * S) 1 2 = 0 := by
    simp [rotY, Matrix.mul_apply, Fin.sum_univ_three, h12]
  have g22 : 0 ≤ ((rotY b)ᵀ * S) 2 2 := by
    have : ((rotY b)ᵀ * S) 2 2 = r' := by
      simp [rotY, Matrix.mul_apply, Fin.sum_univ_three]
      linear_combination Real.sin b * hb2 + Real.cos b * hb1 + r' * s1
    rw [this]; exact hr'
  have oT : ((rotY b)ᵀ * S)ᵀ * ((rotY b)ᵀ * S) = 1 :=
    orthogonal_mul (by rw [Matrix.transpose_transpose]; exact orthogonal_comm (oY b)) oS
  have dT : ((rotY b)ᵀ * S).det = 1 := by rw [Matrix.det_mul, dY, dS, one_mul]
  have back' : rotY b * ((rotY b)ᵀ * S) = S := by
    rw [← Matrix.mul_assoc, orthogonal_comm (oY b), Matrix.one_mul]
  generalize (rotY b)ᵀ * S = T at *
  have c := orthogonal_comm oT
  have col : ∀ i j : Fin 3, T 0 i * T 0 j + T 1 i * T 1 j + T 2 i * T 2 j = (1 : M3) i j := by
    intro i j
    rw [← oT]; simp [Matrix.mul_apply, Fin.sum_univ_three]
  have row : ∀ i j : Fin 3, T i 0 * T j 0 + T i 1 * T j 1 + T i 2 * T j 2 = (1 : M3) i j := by
    intro i j
    rw [← c]; simp [Matrix.mul_apply, Fin.sum_univ_three]
  have c22 := col 2 2
  rw [g02, g12, Matrix.one_apply_eq] at c22
  have t22 : T 2 2 = 1 := by nlinarith
  have r22 := row 2 2
  rw [t22, Matrix.one_apply_eq] at r22
  have t20 : T 2 0 = 0 := by nlinarith [sq_nonneg (T 2 0), sq_nonneg (T 2 1)]
  have t21 : T 2 1 = 0 := by nlinarith [sq_nonneg (T 2 0), sq_nonneg (T 2 1)]
  obtain ⟨c', r'', hr'', hc1, hc2⟩ := polar (T 0 0) (T 1 0)
  have s2 := Real.sin_sq_add_cos_sq c'
  have c00 := col 0 0
  rw [t20, Matrix.one_apply_eq] at c00
  have one : r'' = 1 := by
    have : r'' ^ 2 = 1 := by rw [hc1, hc2] at c00; linear_combination c00 - r'' ^ 2 * s2
    nlinarith
  rw [one, one_mul] at hc1 hc2
  have c01 := col 0 1
  rw [t20, Matrix.one_apply_ne (by decide)] at c01
  rw [Matrix.det_fin_three, g02, g12, t22, t20, t21] at dT
  refine ⟨a, b, c', ?_⟩
  rw [← back, ← back', Matrix.mul_assoc]
  congr 2
  have t11 : T 1 1 = Real.cos c' := by
    rw [hc1, hc2] at dT c01
    linear_combination (-T 1 1) * s2 + Real.cos c' * dT + Real.sin c' * c01
  have t01 : T 0 1 = -Real.sin c' := by
    rw [hc1, hc2] at dT c01
    linear_combination (-T 0 1) * s2 - Real.sin c' * dT + Real.cos c' * c01
  ext i j
  fin_cases i <;> fin_cases j <;> simp [rotZ, *]

/-- C138: the Euler angles of an orientation describe this orientation, whatever it is. -/
theorem C138_euler_round_trip (xyz : M3 → V3) (hxyz : IsXyz xyz) (q : Quat) (h : UnitQuat q) :
    matrixOf (eulerOf xyz q) = q.toRotationMatrix := by
  rw [C138_matrix_of_angles]
  exact hxyz _ (rotationMatrix_orthogonal h) (toRotationMatrix_det h)

/-- Non-vacuity: there is a function that gives such angles for every rotation. -/
example : ∃ xyz : M3 → V3, IsXyz xyz := by
  classical
  refine ⟨fun R => if h : Rᵀ * R = 1 ∧ R.det = 1 then
    ![(exists_angles R h.1 h.2).choose, (exists_angles R h.1 h.2).choose_spec.choose,
      (exists_angles R h.1 h.2).choose_spec.choose_spec.choose] else 0, fun R h1 h2 => ?_⟩
  simp only [dif_pos (⟨h1, h2⟩ : Rᵀ * R = 1 ∧ R.det = 1)]
  exact (exists_angles R h1 h2).choose_spec.choose_spec.choose_spec

/-- C137: what the configured offset does. -/
theorem C137_offset_partial (o : Offset) :
    (∀ i : Fin 3, secondCamera o (.inl i) (.inr 0) = ![o.tx, o.ty, o.tz] i) ∧
    (∀ i j : Fin 3, secondCamera o (.inl i) (.inl j) = (rotX o.rz * rotY o.ry * rotZ o.rx) i j) ∧
    (o.rx = o.rz → ∀ i j : Fin 3,
      secondCamera o (.inl i) (.inl j) = (rotX o.rx * rotY o.ry * rotZ o.rz) i j) := by
  have key : ∀ i j : Fin 3, secondCamera o (.inl i) (.inl j) = (rotX o.rz * rotY o.ry * rotZ o.rx) i j := by
    intro i j
    rw [← C138_matrix_of_angles ⟨o.rx, o.ry, o.rz⟩]
    fin_cases i <;> fin_cases j <;> rfl
  refine ⟨?_, key, ?_⟩
  · intro i
    fin_cases i <;> rfl
  · intro e i j
    rw [key, e]

/-- C137 is false of the code: the angle given around the first axis turns the camera around the third one. -/
theorem C137_offset_false :
    (∀ (a : ℝ) (i j : Fin 3), secondCamera ⟨0, 0, 0, a, 0, 0⟩ (.inl i) (.inl j) = rotZ a i j) ∧
    ¬ ∀ (o : Offset) (i j : Fin 3), o.ry = 0 → o.rz = 0 → secondCamera o (.inl i) (.inl j) = rotX o.rx i j := by
  have key : ∀ (a : ℝ) (i j : Fin 3), secondCamera ⟨0, 0, 0, a, 0, 0⟩ (.inl i) (.inl j) = rotZ a i j := by
    intro a i j
    rw [(C137_offset_partial _).2.1]
    fin_cases i <;> fin_cases j <;> simp [rotX, rotY, rotZ, Matrix.mul_apply, Fin.sum_univ_three]
  refine ⟨key, fun h => ?_⟩
  have := h ⟨0, 0, 0, Real.pi / 2, 0, 0⟩ 0 0 rfl rfl
  rw [key] at this
  simp [rotX, rotZ] at this

theorem conjugate_unit {q : Quat} (h : UnitQuat q) : UnitQuat (conjugate q) := by
  unfold UnitQuat at *
  simp only [conjugate]
  linear_combination h

theorem conjugate_matrix (q : Quat) : (conjugate q).toRotationMatrix = q.toRotationMatrixᵀ := by
  ext i j
  fin_cases i <;> fin_cases j <;> simp [conjugate, Quat.toRotationMatrix] <;> ring

/-- The angle of a point of the right half plane. -/
theorem atan2_half {s c : ℝ} (hs : 0 ≤ s) (hc : 0 ≤ c) (h : s ^ 2 + c ^ 2 = 1) :
    0 ≤ atan2 s c ∧ 2 * atan2 s c ≤ Real.pi ∧ Real.cos (atan2 s c) = c ∧ Real.sin (atan2 s c) = s := by
  unfold atan2
  have hn : ‖(⟨c, s⟩ : ℂ)‖ = 1 := by
    rw [Complex.norm_def, Complex.normSq_mk, show c * c + s * s = 1 by linarith, Real.sqrt_one]
  have hz : (⟨c, s⟩ : ℂ) ≠ 0 := by
    intro h0; rw [h0, norm_zero] at hn; norm_num at hn
  refine ⟨Complex.arg_nonneg_iff.2 hs, ?_, ?_, ?_⟩
  · have := (abs_le.1 (Complex.abs_arg_le_pi_div_two_iff.2 (show 0 ≤ (⟨c, s⟩ : ℂ).re from hc))).2
    linarith
  · rw [Complex.cos_arg hz, hn]; simp
  · rw [Complex.sin_arg, hn]; simp

/-- The angle of a unit quaternion. -/
theorem angle_of {d : Quat} (h : UnitQuat d) :
    IsAngleBetween d.toRotationMatrix 1 (2 * atan2 (Geometry.norm ![d.x, d.y, d.z]) |d.w|) := by
  have hn : Geometry.norm ![d.x, d.y, d.z] ^ 2 = d.x ^ 2 + d.y ^ 2 + d.z ^ 2 := by
    unfold Geometry.norm
    rw [Real.sq_sqrt (by simp [dotProduct, Fin.sum_univ_three]; nlinarith [mul_self_nonneg d.x, mul_self_nonneg d.y, mul_self_nonneg d.z])]
    simp [dotProduct, Fin.sum_univ_three]; ring
  have hh := h
  unfold UnitQuat at hh
  have pos : 0 ≤ Geometry.norm ![d.x, d.y, d.z] := Real.sqrt_nonneg _
  obtain ⟨h0, h1, hc, -⟩ := atan2_half pos (abs_nonneg d.w)
    (by rw [hn, sq_abs]; linarith)
  refine ⟨by linarith, h1, ?_⟩
  rw [Real.cos_two_mul, hc, sq_abs, Matrix.transpose_one, Matrix.mul_one, Matrix.trace_fin_three]
  simp [Quat.toRotationMatrix]
  linear_combination -4 * hh

/-- C139: the rotation error is the angle between the orientations, in degrees. -/
theorem C139_rotation_error (p q : Pose) (hp : UnitQuat p.orientation) (hq : UnitQuat q.orientation) :
    IsAngleBetween p.orientation.toRotationMatrix q.orientation.toRotationMatrix
      (rotationError p q * (Real.pi / 180)) := by
  have hpi := Real.pi_pos
  have e : rotationError p q * (Real.pi / 180) = angularDistance p.orientation q.orientation := by
    unfold rotationError
    field_simp
  rw [e]
  have := angle_of (mul_unit hp (conjugate_unit hq))
  unfold IsAngleBetween at this ⊢
  rw [toRotationMatrix_mul hp (conjugate_unit hq), conjugate_matrix, Matrix.transpose_one, Matrix.mul_one] at this
  exact this

/-- The angle between two orientations is unique. -/
theorem angle_unique {R S : M3} {a b : ℝ} (ha : IsAngleBetween R S a) (hb : IsAngleBetween R S b) : a = b := by
  obtain ⟨a0, a1, ac⟩ := ha
  obtain ⟨b0, b1, bc⟩ := hb
  exact Real.injOn_cos ⟨a0, a1⟩ ⟨b0, b1⟩ (by linarith)

/-- The trace of a rotation is at most 3, and 3 for the identity only. -/
theorem trace_three {d : Quat} (t : d.toRotationMatrix.trace = 3) : d.toRotationMatrix = 1 := by
  rw [Matrix.trace_fin_three] at t
  simp [Quat.toRotationMatrix] at t
  have hx : d.x = 0 := by nlinarith [sq_nonneg d.x, sq_nonneg d.y, sq_nonneg d.z]
  have hy : d.y = 0 := by nlinarith [sq_nonneg d.x, sq_nonneg d.y, sq_nonneg d.z]
  have hz : d.z = 0 := by nlinarith [sq_nonneg d.x, sq_nonneg d.y, sq_nonneg d.z]
  ext i j
  fin_cases i <;> fin_cases j <;> simp [Quat.toRotationMatrix, hx, hy, hz]

/-- C139: the rotation error is between 0 and 180 degrees, does not depend on the order of the poses, and is zero
exactly when the orientations are the same. -/
theorem C139_rotation_error_distance (p q : Pose) (hp : UnitQuat p.orientation) (hq : UnitQuat q.orientation) :
    0 ≤ rotationError p q ∧ rotationError p q ≤ 180 ∧ rotationError p q = rotationError q p ∧
    (rotationError p q = 0 ↔ p.orientation.toRotationMatrix = q.orientation.toRotationMatrix) := by
  have hpi := Real.pi_pos
  have h := C139_rotation_error p q hp hq
  have h' := C139_rotation_error q p hq hp
  have k : (0 : ℝ) < Real.pi / 180 := by positivity
  have oq := orthogonal_comm (rotationMatrix_orthogonal hq)
  refine ⟨?_, ?_, ?_, ?_⟩
  · exact nonneg_of_mul_nonneg_left h.1 k
  · have := h.2.1
    by_contra hc
    push Not at hc
    nlinarith
  · have e : IsAngleBetween p.orientation.toRotationMatrix q.orientation.toRotationMatrix
        (rotationError q p * (Real.pi / 180)) := by
      refine ⟨h'.1, h'.2.1, ?_⟩
      rw [← h'.2.2, ← Matrix.trace_transpose, Matrix.transpose_mul, Matrix.transpose_transpose]
    exact mul_right_cancel₀ k.ne' (angle_unique h e)
  · constructor
    · intro z
      have t := h.2.2
      rw [z, zero_mul, Real.cos_zero, ← conjugate_matrix, ← toRotationMatrix_mul hp (conjugate_unit hq)] at t
      have one := trace_three (by rw [t]; norm_num)
      rw [toRotationMatrix_mul hp (conjugate_unit hq), conjugate_matrix] at one
      calc p.orientation.toRotationMatrix
          = p.orientation.toRotationMatrix *
            (q.orientation.toRotationMatrixᵀ * q.orientation.toRotationMatrix) := by
              rw [rotationMatrix_orthogonal hq, Matrix.mul_one]
        _ = q.orientation.toRotationMatrix := by rw [← Matrix.mul_assoc, one, Matrix.one_mul]
    · intro e
      have : IsAngleBetween p.orientation.toRotationMatrix q.orientation.toRotationMatrix 0 := by
        refine ⟨le_refl _, hpi.le, ?_⟩
        rw [e, oq, Real.cos_zero, Matrix.trace_one]
        norm_num
      exact (mul_eq_zero.1 (angle_unique h this)).resolve_right k.ne'

/-- Non-vacuity: a quarter turn is 90 degrees. -/
example : rotationError ⟨0, ⟨1, 0, 0, 0⟩⟩ ⟨0, Quat.ofAngleAxis (Real.pi / 2) ![0, 0, 1]⟩ = 90 := by
  have h1 : UnitQuat ⟨1, 0, 0, 0⟩ := by unfold UnitQuat; norm_num
  have h2 := ofAngleAxis_unit (Real.pi / 2) (v := ![0, 0, 1]) (by simp)
  have h := C139_rotation_error ⟨0, ⟨1, 0, 0, 0⟩⟩ ⟨0, Quat.ofAngleAxis (Real.pi / 2) ![0, 0, 1]⟩ h1 h2
  have hpi := Real.pi_pos
  have e : IsAngleBetween (Quat.toRotationMatrix ⟨1, 0, 0, 0⟩)
      (Quat.ofAngleAxis (Real.pi / 2) ![0, 0, 1]).toRotationMatrix (Real.pi / 2) := by
    refine ⟨by positivity, by linarith, ?_⟩
    rw [ofAngleAxis_z, Matrix.trace_fin_three]
    simp [Quat.toRotationMatrix, rotZ, Matrix.mul_apply, Fin.sum_univ_three]
  have := angle_unique h e
  field_simp at this
  linarith

/-- C139: the position error is the distance between the positions. -/
theorem C139_position_error (p q r : Pose) :
    positionError p q ^ 2 = (p.position 0 - q.position 0) ^ 2 + (p.position 1 - q.position 1) ^ 2
      + (p.position 2 - q.position 2) ^ 2 ∧
    0 ≤ positionError p q ∧
    positionError p q = positionError q p ∧
    (positionError p q = 0 ↔ p.position = q.position) ∧
    positionError p r ≤ positionError p q + positionError q r := by
  have sq : ∀ a b : Pose, positionError a b ^ 2 = (a.position 0 - b.position 0) ^ 2
      + (a.position 1 - b.position 1) ^ 2 + (a.position 2 - b.position 2) ^ 2 := by
    intro a b
    unfold positionError Geometry.norm
    rw [Real.sq_sqrt (by
      simp only [dotProduct, Fin.sum_univ_three]
      exact add_nonneg (add_nonneg (mul_self_nonneg _) (mul_self_nonneg _)) (mul_self_nonneg _))]
    simp only [dotProduct, Fin.sum_univ_three, Pi.sub_apply]
    ring
  have nn : ∀ a b : Pose, 0 ≤ positionError a b := fun a b => Real.sqrt_nonneg _
  refine ⟨sq p q, nn p q, ?_, ?_, ?_⟩
  · exact (pow_left_inj₀ (nn _ _) (nn _ _) two_ne_zero).1 (by rw [sq, sq]; ring)
  · constructor
    · intro z
      have := sq p q
      rw [z] at this
      ext i
      fin_cases i <;> simp only [Fin.zero_eta, Fin.mk_one, Fin.reduceFinMk] <;>
        nlinarith [sq_nonneg (p.position 0 - q.position 0), sq_nonneg (p.position 1 - q.position 1),
          sq_nonneg (p.position 2 - q.position 2)]
    · intro e
      have := sq p q
      rw [e] at this
      simpa using this
  · have e1 := sq p r
    have e2 := sq p q
    have e3 := sq q r
    have n1 := nn p q
    have n2 := nn q r
    have cauchy : (p.position 0 - q.position 0) * (q.position 0 - r.position 0) +
        (p.position 1 - q.position 1) * (q.position 1 - r.position 1) +
        (p.position 2 - q.position 2) * (q.position 2 - r.position 2) ≤ positionError p q * positionError q r := by
      refine (abs_le_of_sq_le_sq' ?_ (mul_nonneg n1 n2)).2
      rw [mul_pow, e2, e3]
      nlinarith [sq_nonneg ((p.position 0 - q.position 0) * (q.position 1 - r.position 1) -
          (p.position 1 - q.position 1) * (q.position 0 - r.position 0)),
        sq_nonneg ((p.position 0 - q.position 0) * (q.position 2 - r.position 2) -
          (p.position 2 - q.position 2) * (q.position 0 - r.position 0)),
        sq_nonneg ((p.position 1 - q.position 1) * (q.position 2 - r.position 2) -
          (p.position 2 - q.position 2) * (q.position 1 - r.position 1))]
    refine (abs_le_of_sq_le_sq' ?_ (add_nonneg n1 n2)).2
    rw [e1]
    nlinarith

end RgbdSlam.Angles
