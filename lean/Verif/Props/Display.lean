import Verif.Model.Display
import Verif.Props.Angles
import Mathlib.Tactic.FieldSimp
/-
C207: what is written about a pose and about the end of an optimisation.
-/
namespace RgbdSlam.Display

open Geometry Angles Angles.Spec Matrix
open Geometry.Spec (UnitQuat)

/-! ### What is expected -/

/-- The rotation a reader makes from three numbers in degrees read as yaw, pitch and roll: first around the third axis,
then the second, then the first. -/
noncomputable def readRotation (yaw pitch roll : ℝ) : M3 :=
  rotX (roll * (Real.pi / 180)) * rotY (pitch * (Real.pi / 180)) * rotZ (yaw * (Real.pi / 180))

/-- The name of a status, as Eigen documents it. -/
def statusName : Status → String
  | .notStarted => "not started"
  | .running => "running"
  | .improperInputParameters => "improper input parameters"
  | .relativeReductionTooSmall => "relative reduction too small"
  | .relativeErrorTooSmall => "relative error too small"
  | .relativeErrorAndReductionTooSmall => "relative error and reduction too small"
  | .cosinusTooSmall => "cosinus too small"
  | .tooManyFunctionEvaluation => "too many function evaluation"
  | .ftolTooSmall => "ftol too small"
  | .xtolTooSmall => "xtol too small"
  | .gtolTooSmall => "gtol too small"
  | .userAsked => "user asked"

/-! ### The pose -/

theorem degrees_back (a : ℝ) : a / eulerToRadian * (Real.pi / 180) = a := by
  unfold eulerToRadian
  have := Real.pi_pos
  field_simp

/-- The pose can be read back from its text: the position in millimeters, and the three angles in degrees, read as yaw,
pitch and roll. -/
theorem C207_pose_from_text (xyz : M3 → V3) (hxyz : IsXyz xyz) (p : Pose) (h : UnitQuat p.orientation) :
    let t := displayBase xyz p
    p.position = ![t.position.1, t.position.2.1, t.position.2.2] ∧
    p.orientation.toRotationMatrix = readRotation t.rotation.1 t.rotation.2.1 t.rotation.2.2 := by
  refine ⟨?_, ?_⟩
  · ext i
    fin_cases i <;> rfl
  · unfold readRotation displayBase
    dsimp only
    rw [degrees_back, degrees_back, degrees_back, ← C138_euler_round_trip xyz hxyz _ h, C138_matrix_of_angles]

/-- Poses with the same text are the same. -/
theorem C207_text_tells_poses_apart (xyz : M3 → V3) (hxyz : IsXyz xyz) (p q : Pose) (hp : UnitQuat p.orientation)
    (hq : UnitQuat q.orientation) (h : displayBase xyz p = displayBase xyz q) :
    p.position = q.position ∧ p.orientation.toRotationMatrix = q.orientation.toRotationMatrix := by
  have a := C207_pose_from_text xyz hxyz p hp
  have b := C207_pose_from_text xyz hxyz q hq
  rw [← h] at b
  exact ⟨a.1.trans b.1.symm, a.2.trans b.2.symm⟩

/-- Under each title stands the standard deviation of that coordinate: variances of the position are in square
millimeters and shown in meters, those of the angles around the three axes are in square radians and shown in
degrees. -/
theorem C207_deviations (xyz : M3 → V3) (p : Pose) (variance : Fin 6 → ℝ) (h : ∀ i, 0 ≤ variance i) :
    (display xyz p variance).1 = displayBase xyz p ∧
    ∃ sx sy sz sroll spitch syaw : ℝ,
      (display xyz p variance).2 =
        [(.x, sx), (.y, sy), (.z, sz), (.roll, sroll), (.pitch, spitch), (.yaw, syaw)] ∧
      (0 ≤ sx ∧ 0 ≤ sy ∧ 0 ≤ sz ∧ 0 ≤ sroll ∧ 0 ≤ spitch ∧ 0 ≤ syaw) ∧
      (1000 * sx) ^ 2 = variance 0 ∧ (1000 * sy) ^ 2 = variance 1 ∧ (1000 * sz) ^ 2 = variance 2 ∧
      (sroll * (Real.pi / 180)) ^ 2 = variance 3 ∧ (spitch * (Real.pi / 180)) ^ 2 = variance 4 ∧
      (syaw * (Real.pi / 180)) ^ 2 = variance 5 := by
  have hpi := Real.pi_pos
  have e1 : ∀ i, (1000 * (Real.sqrt (variance i) / 1000)) ^ 2 = variance i := fun i => by
    rw [mul_div_cancel₀ _ (by norm_num : (1000 : ℝ) ≠ 0), Real.sq_sqrt (h i)]
  have e2 : ∀ i, (Real.sqrt (variance i) * 180 / Real.pi * (Real.pi / 180)) ^ 2 = variance i := fun i => by
    have : Real.sqrt (variance i) * 180 / Real.pi * (Real.pi / 180) = Real.sqrt (variance i) := by
      field_simp
    rw [this, Real.sq_sqrt (h i)]
  refine ⟨rfl, _, _, _, _, _, _, rfl, ⟨?_, ?_, ?_, ?_, ?_, ?_⟩, e1 0, e1 1, e1 2, e2 3, e2 4, e2 5⟩ <;> positivity

/-- **The angles are written in the other order than their deviations.**  A camera turned by a quarter turn of yaw is
written `rotation: (90, 0, 0)`, and the first of the three deviations is that of the roll: a reader who takes the titles
for the rotation too gets another orientation. -/
theorem C207_angle_order_false : ∃ xyz : M3 → V3, IsXyz xyz ∧ ∃ p : Pose, UnitQuat p.orientation ∧
    (displayBase xyz p).rotation = (90, 0, 0) ∧
    (display xyz p 0).2.map (·.1) = [.x, .y, .z, .roll, .pitch, .yaw] ∧
    p.orientation.toRotationMatrix ≠ readRotation 0 0 90 := by
  classical
  obtain ⟨f, hf⟩ : ∃ xyz : M3 → V3, IsXyz xyz := by
    refine ⟨fun R => if h : Rᵀ * R = 1 ∧ R.det = 1 then
      ![(exists_angles R h.1 h.2).choose, (exists_angles R h.1 h.2).choose_spec.choose,
        (exists_angles R h.1 h.2).choose_spec.choose_spec.choose] else 0, fun R h1 h2 => ?_⟩
    simp only [dif_pos (⟨h1, h2⟩ : Rᵀ * R = 1 ∧ R.det = 1)]
    exact (exists_angles R h1 h2).choose_spec.choose_spec.choose_spec
  set q := quaternionOf ⟨Real.pi / 2, 0, 0⟩ with hq
  have hm : q.toRotationMatrix = rotX 0 * rotY 0 * rotZ (Real.pi / 2) := C138_matrix_of_angles ⟨Real.pi / 2, 0, 0⟩
  have hu : UnitQuat q := by
    rw [hq]
    unfold quaternionOf Quat.ofEuler
    exact mul_unit (mul_unit (ofAngleAxis_unit _ (by simp)) (ofAngleAxis_unit _ (by simp)))
      (ofAngleAxis_unit _ (by simp))
  refine ⟨Function.update f q.toRotationMatrix ![0, 0, Real.pi / 2], ?_, ⟨0, q⟩, hu, ?_, rfl, ?_⟩
  · intro R h1 h2
    by_cases e : R = q.toRotationMatrix
    · subst e
      rw [Function.update_self]
      simpa using hm.symm
    · rw [Function.update_of_ne e]
      exact hf R h1 h2
  · have hpi := Real.pi_pos
    simp only [displayBase, eulerOf, Function.update_self, eulerToRadian]
    simp
    field_simp
    norm_num
  · dsimp only
    rw [hm]
    intro h
    have h1 := congrFun (congrFun h 0) 0
    have e : (90 : ℝ) * (Real.pi / 180) = Real.pi / 2 := by ring
    simp [readRotation, rotX, rotY, rotZ, Matrix.mul_apply, Fin.sum_univ_three, e] at h1

/-! ### The end of an optimisation -/

/-- Different ends have different messages. -/
theorem C207_messages_differ (a b : Status) (h : endMessage a = endMessage b) : a = b := by
  cases a <;> cases b <;> first | rfl | (exact absurd h (by decide))

/-- **The messages that are written name the end of the optimisation**: it is written exactly for the ends that are not
accepted. -/
theorem C207_logged_message_partial (features : Nat) (s : Status) :
    (s.value ≤ 0 → logged features s = some (features, statusName s)) ∧
    (0 < s.value → logged features s = none) := by
  cases s <;> simp [logged, Status.value, endMessage, statusName]

/-- Two other messages are exchanged. -/
theorem C207_exchanged_messages_false (s : Status) :
    endMessage s ≠ statusName s ↔ s = .ftolTooSmall ∨ s = .xtolTooSmall := by
  cases s <;> simp [endMessage, statusName]

/-- Non-vacuity: an end that is written and one that is not. -/
example : logged 12 .improperInputParameters = some (12, "improper input parameters") ∧ logged 12 .xtolTooSmall = none := by
  decide

end RgbdSlam.Display
