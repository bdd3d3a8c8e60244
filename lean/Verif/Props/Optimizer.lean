import Verif.Lemmas.Optimizer
import Mathlib.Analysis.Calculus.Deriv.Inv
import Mathlib.Analysis.Calculus.Deriv.Pow
import Mathlib.Analysis.Calculus.Deriv.Add
import Mathlib.Analysis.Calculus.Deriv.Mul
import Mathlib.Analysis.Real.Pi.Bounds
import Verif.Props.Geometry

/-
Properties of the optimisation of the pose: parametrisation, residuals, conditions of success and
inliers (C33, C34, C56, C84, C86, C87).
-/
set_option linter.unusedSimpArgs false

namespace RgbdSlam.Optimizer

open Matrix Geometry Covariance
open Geometry.Spec (UnitQuat UnitVec)
open Covariance.Spec (IsJacobian)
open Optimizer.Spec

/-! ## C33: the three optimisation parameters always encode a rotation -/

/-- C33: every triple of coefficients gives a quaternion of norm one. -/
theorem C33_always_a_rotation (c : V3) : UnitQuat (quatOfCoefficients c) := quatOfCoefficients_unit c

/-- C33: the encoding is the inverse stereographic projection. -/
theorem C33_stereographic (c : V3) : coeffs (quatOfCoefficients c) = stereographic c := by
  unfold coeffs quatOfCoefficients stereographic
  ext i
  fin_cases i <;> simp [div_eq_mul_inv, add_comm]

/-- C33: the optimised pose always has a unit orientation, and keeps the position. -/
theorem C33_pose (c : Fin 6 → ℝ) : UnitQuat (poseOfCoefficients c).orientation ∧
    (poseOfCoefficients c).position = ![c 0, c 1, c 2] :=
  ⟨poseOfCoefficients_unit c, rfl⟩

/-- C33: a unit quaternion away from the pole is recovered from its coefficients. -/
theorem C33_round_trip {q : Quat} (h : UnitQuat q) (hz : -(999 / 1000) ≤ q.z) :
    quatOfCoefficients (coefficientsOfQuat q) = q := by
  have hm : max (1 + q.z) (1 / 1000) = 1 + q.z := max_eq_left (by linarith)
  have hp : 0 < 1 + q.z := by linarith
  obtain ⟨w, x, y, z⟩ := q
  unfold UnitQuat at h
  simp only at h hm hp
  have hn : w ^ 2 + x ^ 2 + y ^ 2 = (1 + z) * (1 - z) := by linear_combination h
  have ha : (w * (1 / (1 + z))) ^ 2 + (x * (1 / (1 + z))) ^ 2 + (y * (1 / (1 + z))) ^ 2 + 1 =
      2 / (1 + z) := by
    field_simp
    linear_combination hn
  have ha' : (w * (1 / (1 + z))) ^ 2 + (x * (1 / (1 + z))) ^ 2 + (y * (1 / (1 + z))) ^ 2 =
      2 / (1 + z) - 1 := by linarith
  simp only [quatOfCoefficients, coefficientsOfQuat, hm, cons_val_zero, cons_val_one, cons_val,
    ha, Quat.mk.injEq, ha']
  refine ⟨?_, ?_, ?_, ?_⟩ <;> field_simp <;> ring

/-- The hypotheses of `C33_round_trip` are met by a half turn around the third axis. -/
example : ∃ q : Quat, UnitQuat q ∧ -(999 / 1000) ≤ q.z ∧ q.w ≠ 1 ∧ q.w ≠ 0 :=
  ⟨⟨3 / 5, 0, 4 / 5, 0⟩, by unfold UnitQuat; norm_num, by norm_num, by norm_num, by norm_num⟩

/-- C33: a whole pose is recovered from its coefficients. -/
theorem C33_pose_round_trip {p : Pose} (h : UnitQuat p.orientation)
    (hz : -(999 / 1000) ≤ p.orientation.z) : poseOfCoefficients (coefficientsOfPose p) = p := by
  obtain ⟨pos, q⟩ := p
  have hq := C33_round_trip h hz
  unfold poseOfCoefficients coefficientsOfPose Pose.ofParameters
  simp only [cons_val_zero, cons_val_one, cons_val]
  have h3 : ![coefficientsOfQuat q 0, coefficientsOfQuat q 1, coefficientsOfQuat q 2] =
      coefficientsOfQuat q := by ext i; fin_cases i <;> rfl
  have h3' : ![pos 0, pos 1, pos 2] = pos := by ext i; fin_cases i <;> rfl
  rw [h3, h3', hq, normalized_of_unitQuat h]

theorem coefficients_of_stereographic (c : V3) :
    ![(quatOfCoefficients c).w, (quatOfCoefficients c).x, (quatOfCoefficients c).y] =
      (1 + (quatOfCoefficients c).z) • c := by
  have h : c 0 ^ 2 + c 1 ^ 2 + c 2 ^ 2 + 1 ≠ 0 := by positivity
  ext i
  fin_cases i <;> simp [quatOfCoefficients] <;> field_simp <;> ring

/-- C33: coefficients of bounded size are recovered from their quaternion. -/
theorem C33_back {c : V3} (h : c 0 ^ 2 + c 1 ^ 2 + c 2 ^ 2 ≤ 1999) :
    coefficientsOfQuat (quatOfCoefficients c) = c := by
  have hs := coefficients_of_stereographic c
  have hpos : 0 < c 0 ^ 2 + c 1 ^ 2 + c 2 ^ 2 + 1 := by positivity
  have hz : 1 + (quatOfCoefficients c).z = 2 / (c 0 ^ 2 + c 1 ^ 2 + c 2 ^ 2 + 1) := by
    simp only [quatOfCoefficients]; field_simp; ring
  have hge : 1 / 1000 ≤ 1 + (quatOfCoefficients c).z := by
    rw [hz, div_le_div_iff₀ (by norm_num) hpos]; linarith
  have hm : max (1 + (quatOfCoefficients c).z) (1 / 1000) = 1 + (quatOfCoefficients c).z := max_eq_left hge
  have hne : 1 + (quatOfCoefficients c).z ≠ 0 := by linarith
  have h0 := congrFun hs 0
  have h1 := congrFun hs 1
  have h2 := congrFun hs 2
  simp only [cons_val_zero, cons_val_one, cons_val, Pi.smul_apply, smul_eq_mul] at h0 h1 h2
  unfold coefficientsOfQuat
  simp only [hm, h0, h1, h2]
  ext i
  fin_cases i <;> simp <;> field_simp

/-- `C33_back` applies to large coefficients. -/
example : (![20, 30, 20] : V3) 0 ^ 2 + (![20, 30, 20] : V3) 1 ^ 2 + (![20, 30, 20] : V3) 2 ^ 2 ≤ 1999 := by
  simp; norm_num

/-- C33: the exception near the pole is real: there the round trip never returns the quaternion. -/
theorem C33_not_recovered_near_pole {q : Quat} (h : UnitQuat q) (h1 : -1 < q.z)
    (h2 : q.z < -(999 / 1000)) : quatOfCoefficients (coefficientsOfQuat q) ≠ q := by
  intro he
  have hs := coefficients_of_stereographic (coefficientsOfQuat q)
  rw [he] at hs
  have hm : max (1 + q.z) (1 / 1000) = 1 / 1000 := max_eq_right (by linarith)
  have e0 := congrFun hs 0
  have e1 := congrFun hs 1
  have e2 := congrFun hs 2
  simp only [cons_val_zero, cons_val_one, cons_val, Pi.smul_apply, smul_eq_mul, coefficientsOfQuat,
    hm] at e0 e1 e2
  have hlt : (1 + q.z) * 1000 < 1 := by linarith
  have key : ∀ a : ℝ, a = (1 + q.z) * (a * (1 / (1 / 1000))) → a = 0 := by
    intro a ha
    have : a * (1 - (1 + q.z) * 1000) = 0 := by linear_combination ha
    rcases mul_eq_zero.1 this with h | h
    · exact h
    · linarith
  have w0 := key _ e0
  have x0 := key _ e1
  have y0 := key _ e2
  unfold UnitQuat at h
  rw [w0, x0, y0] at h
  nlinarith

/-- Such quaternions exist. -/
example : ∃ q : Quat, UnitQuat q ∧ -1 < q.z ∧ q.z < -(999 / 1000) :=
  ⟨⟨200 / 10001, 0, 0, -(9999 / 10001)⟩, by unfold UnitQuat; norm_num, by norm_num, by norm_num⟩

/-! ## C34: the quaternion jacobian -/

theorem stereographic_entry (c : V3) (j : Fin 3) (t : ℝ) (i : Fin 4) :
    stereographic (Function.update c j t) i =
      (if h : i.val < 3 then 2 * Function.update c j t ⟨i, h⟩ else
        1 - (Function.update c j t 0 ^ 2 + Function.update c j t 1 ^ 2 + Function.update c j t 2 ^ 2)) /
      (1 + (Function.update c j t 0 ^ 2 + Function.update c j t 1 ^ 2 + Function.update c j t 2 ^ 2)) := by
  fin_cases i <;> simp [stereographic]

theorem normSq_deriv (c : V3) (j : Fin 3) :
    HasDerivAt (fun t => Function.update c j t 0 ^ 2 + Function.update c j t 1 ^ 2 +
      Function.update c j t 2 ^ 2) (2 * c j) (c j) := by
  have hsq : HasDerivAt (fun t : ℝ => t ^ 2) (2 * c j) (c j) := by
    simpa using hasDerivAt_pow 2 (c j)
  fin_cases j
  · simp only [Fin.zero_eta, Function.update_self]
    have : ∀ t : ℝ, Function.update c 0 t 1 = c 1 ∧ Function.update c 0 t 2 = c 2 := fun t => ⟨by simp, by simp⟩
    simp only [fun t => (this t).1, fun t => (this t).2]
    simpa using (hsq.add_const (c 1 ^ 2)).add_const (c 2 ^ 2)
  · simp only [Fin.mk_one, Function.update_self]
    have : ∀ t : ℝ, Function.update c 1 t 0 = c 0 ∧ Function.update c 1 t 2 = c 2 := fun t => ⟨by simp, by simp⟩
    simp only [fun t => (this t).1, fun t => (this t).2]
    simpa using (hsq.const_add (c 0 ^ 2)).add_const (c 2 ^ 2)
  · simp only [Fin.reduceFinMk, Function.update_self]
    have : ∀ t : ℝ, Function.update c 2 t 0 = c 0 ∧ Function.update c 2 t 1 = c 1 := fun t => ⟨by simp, by simp⟩
    simp only [fun t => (this t).1, fun t => (this t).2]
    simpa using hsq.const_add (c 0 ^ 2 + c 1 ^ 2)

/-- The partial derivatives of the encoding. -/
theorem stereographic_deriv (c : V3) (i : Fin 4) (j : Fin 3) :
    HasDerivAt (fun t => stereographic (Function.update c j t) i)
      (((if i.val = j.val then 2 else if i.val < 3 then 0 else -(2 * c j)) *
          (1 + (c 0 ^ 2 + c 1 ^ 2 + c 2 ^ 2)) -
        (if h : i.val < 3 then 2 * c ⟨i, h⟩ else 1 - (c 0 ^ 2 + c 1 ^ 2 + c 2 ^ 2)) * (2 * c j)) /
        (1 + (c 0 ^ 2 + c 1 ^ 2 + c 2 ^ 2)) ^ 2) (c j) := by
  have hn := normSq_deriv c j
  have hden := hn.const_add 1
  have hself : Function.update c j (c j) = c := Function.update_eq_self j c
  have hne : 1 + (Function.update c j (c j) 0 ^ 2 + Function.update c j (c j) 1 ^ 2 +
      Function.update c j (c j) 2 ^ 2) ≠ 0 := by positivity
  have hnum : HasDerivAt (fun t => if h : i.val < 3 then 2 * Function.update c j t ⟨i, h⟩ else
      1 - (Function.update c j t 0 ^ 2 + Function.update c j t 1 ^ 2 + Function.update c j t 2 ^ 2))
      (if i.val = j.val then 2 else if i.val < 3 then 0 else -(2 * c j)) (c j) := by
    by_cases hi : i.val < 3
    · simp only [dif_pos hi, if_pos hi]
      by_cases hij : i.val = j.val
      · have : (⟨i, hi⟩ : Fin 3) = j := Fin.ext hij
        rw [if_pos hij, this]
        simp only [Function.update_self]
        simpa using (hasDerivAt_id (c j)).const_mul 2
      · have : (⟨i, hi⟩ : Fin 3) ≠ j := fun h => hij (by rw [← h])
        rw [if_neg hij]
        simp only [Function.update_of_ne this]
        exact hasDerivAt_const _ _
    · have : i.val ≠ j.val := by omega
      simp only [dif_neg hi, if_neg hi, if_neg this]
      exact hn.const_sub 1
  have := hnum.fun_div hden hne
  rw [hself] at this
  refine this.congr_of_eventuallyEq (Filter.Eventually.of_forall fun t => ?_)
  exact stereographic_entry c j t i

/-- C34 (partial: all entries but the three of the diagonal): the matrix contains the partial
derivatives of the encoding. -/
theorem C34_off_diagonal_partial (c : V3) (i : Fin 4) (j : Fin 3) (h : i.val ≠ j.val) :
    HasDerivAt (fun t => stereographic (Function.update c j t) i) (coefficientsJacobian c i j) (c j) := by
  convert stereographic_deriv c i j using 1
  have hne : c 0 ^ 2 + c 1 ^ 2 + c 2 ^ 2 + 1 ≠ 0 := by positivity
  have hne' : 1 + (c 0 ^ 2 + c 1 ^ 2 + c 2 ^ 2) ≠ 0 := by positivity
  fin_cases i <;> fin_cases j <;> first
    | exact absurd rfl h
    | (simp [coefficientsJacobian]; field_simp; ring)

/-- C34 (partial: what the diagonal contains): each diagonal entry is too large by
`8 c_i^2 / (1 + |c|^2)^2`. -/
theorem C34_diagonal_error_partial (c : V3) (i : Fin 3) :
    HasDerivAt (fun t => stereographic (Function.update c i t) i.castSucc)
      (coefficientsJacobian c i.castSucc i - 8 * c i ^ 2 / (1 + (c 0 ^ 2 + c 1 ^ 2 + c 2 ^ 2)) ^ 2)
      (c i) := by
  convert stereographic_deriv c i.castSucc i using 1
  have hne : c 0 ^ 2 + c 1 ^ 2 + c 2 ^ 2 + 1 ≠ 0 := by positivity
  have hne' : 1 + (c 0 ^ 2 + c 1 ^ 2 + c 2 ^ 2) ≠ 0 := by positivity
  fin_cases i <;> (simp [coefficientsJacobian]; field_simp; ring)

/-- C34 (partial): the matrix is the jacobian exactly at the coefficients of a rotation by zero or a
half turn around the third axis, that is at zero. -/
theorem C34_only_at_zero_partial (c : V3) :
    IsJacobian stereographic c (coefficientsJacobian c) ↔ c = 0 := by
  constructor
  · intro h
    have hpos : 0 < 1 + (c 0 ^ 2 + c 1 ^ 2 + c 2 ^ 2) := by positivity
    ext i
    have := (h i.castSucc i).unique (C34_diagonal_error_partial c i)
    have h0 : 8 * c i ^ 2 / (1 + (c 0 ^ 2 + c 1 ^ 2 + c 2 ^ 2)) ^ 2 = 0 := by linarith
    have h1 : 8 * c i ^ 2 = 0 := by
      rcases div_eq_zero_iff.1 h0 with h | h
      · exact h
      · exact absurd h (by positivity)
    have : c i ^ 2 = 0 := by linarith
    simpa using this
  · rintro rfl i j
    by_cases hij : i.val = j.val
    · have hi : i = j.castSucc := Fin.ext hij
      subst hi
      have := C34_diagonal_error_partial 0 j
      simpa using this
    · exact C34_off_diagonal_partial 0 i j hij

/-- C34 is false: at the coefficients (1, 0, 0), the encoding of the identity rotation, the first entry
is 2 where the derivative is 0. -/
theorem C34_jacobian_false : ¬ ∀ c, IsJacobian stereographic c (coefficientsJacobian c) := by
  intro h
  have := (C34_only_at_zero_partial ![1, 0, 0]).1 (h _)
  have := congrFun this 0
  simp at this

/-- (1, 0, 0) are the coefficients of the identity. -/
example : quatOfCoefficients ![1, 0, 0] = Pose.default.orientation := by
  simp [quatOfCoefficients, Pose.default]; norm_num

/-! ## C56: the residuals -/

/-- C56: the estimator can be built exactly with at least one feature, at least one residual, and part
counts that add up to the number of residuals; otherwise the constructor throws. -/
theorem C56_built_iff (parts : ℕ) (features : List Feature) :
    (features ≠ [] ∧ 0 < parts ∧ (features.map (·.parts)).sum = parts →
      buildEstimator parts features = .ok (parts, features)) ∧
    (¬ (features ≠ [] ∧ 0 < parts ∧ (features.map (·.parts)).sum = parts) →
      buildEstimator parts features = .throws) := by
  unfold buildEstimator
  rw [foldl_parts, Nat.zero_add]
  constructor
  · rintro ⟨h1, h2, h3⟩
    rw [if_neg (by simp [h1]; omega), if_neg (by simpa using h3)]
  · intro h
    by_cases h1 : features.isEmpty ∨ parts = 0
    · rw [if_pos h1]
    · rw [if_neg h1]
      push Not at h1
      rw [if_pos]
      intro h3
      exact h ⟨by simpa using h1.1, by omega, h3⟩

/-- C56 (partial: when no distance has a NaN): the residual vector is entirely overwritten: whatever it
contained, it ends as the weighted distances of the features, one after the other. -/
theorem C56_every_slot_written_partial {parts : ℕ} {features : List Feature} {e : ℕ × List Feature}
    (hb : buildEstimator parts features = .ok e) (c : Fin 6 → ℝ)
    (hw : WellFormed (worldToCamera (poseOfCoefficients c).orientation (poseOfCoefficients c).position)
      features) (out : List ℝ) (ho : out.length = parts) :
    residuals e c out = .ok (expectedResiduals
      (worldToCamera (poseOfCoefficients c).orientation (poseOfCoefficients c).position) features) := by
  by_cases h : features ≠ [] ∧ 0 < parts ∧ (features.map (·.parts)).sum = parts
  · rw [(C56_built_iff parts features).1 h] at hb
    obtain rfl := (Outcome.ok.inj hb).symm
    unfold residuals
    simp only
    rw [if_neg (by simpa using h.1), if_neg (by simpa using ho), residualLoop_ok hw 0 out (by omega)]
    simp
  · rw [(C56_built_iff parts features).2 h] at hb
    exact absurd hb (by simp)

/-- C56, with or without NaN: every feature has its own slots, after those of the features before it.  They
receive its weighted distance, or keep what they contained when that distance has a NaN; a NaN in one
feature never changes the slots of another. -/
theorem C56_own_slots {parts : ℕ} {features : List Feature} {e : ℕ × List Feature}
    (hb : buildEstimator parts features = .ok e) (c : Fin 6 → ℝ)
    (hw : ∀ f ∈ features, ∀ d, f.distance (worldToCamera (poseOfCoefficients c).orientation
      (poseOfCoefficients c).position) = some d → d.length = f.parts)
    (out : List ℝ) (ho : out.length = parts) :
    ∃ out', residuals e c out = .ok out' ∧ out'.length = parts ∧
      ∀ before f after, features = before ++ f :: after →
        slots out' (before.map (·.parts)).sum f.parts =
          match f.distance (worldToCamera (poseOfCoefficients c).orientation
            (poseOfCoefficients c).position) with
          | none => slots out (before.map (·.parts)).sum f.parts
          | some d => d.map fun x => x * f.alpha / f.parts := by
  by_cases h : features ≠ [] ∧ 0 < parts ∧ (features.map (·.parts)).sum = parts
  · rw [(C56_built_iff parts features).1 h] at hb
    obtain rfl := (Outcome.ok.inj hb).symm
    obtain ⟨out', h1, h2, -, h4⟩ := residualLoop_slots hw 0 out (by omega)
    refine ⟨out', ?_, h2.trans ho, fun before f after he => ?_⟩
    · unfold residuals
      simp only
      rw [if_neg (by simpa using h.1), if_neg (by simpa using ho), h1]
    · have := h4 before f after he
      rw [Nat.zero_add] at this
      rw [this]
      cases f.distance (worldToCamera (poseOfCoefficients c).orientation
        (poseOfCoefficients c).position) <;> rfl
  · rw [(C56_built_iff parts features).2 h] at hb
    exact absurd hb (by simp)

/-- C56: a feature with a NaN between two others. -/
example : residuals (3, [⟨1, 1, 1, fun _ => some [4]⟩, ⟨1, 1, 1, fun _ => none⟩,
    ⟨1, 1, 2, fun _ => some [5]⟩]) (fun _ => 0) [7, 8, 9] = .ok [4, 8, 10] := by
  norm_num [residuals, residualLoop, writeSegment]

/-- C56: for the matches that the three feature maps produce, the residual function never stops on an
assertion, and the residuals only depend on the matches and the coefficients. -/
theorem C56_matches (K : M3) (matches_ : List Match) (hne : matches_ ≠ []) (c : Fin 6 → ℝ) :
    ∃ e, buildEstimator ((matches_.map (Match.feature K)).map (·.parts)).sum
        (matches_.map (Match.feature K)) = .ok e ∧
      ∀ out : List ℝ, out.length = ((matches_.map (Match.feature K)).map (·.parts)).sum →
        residuals e c out = .ok (expectedResiduals
          (worldToCamera (poseOfCoefficients c).orientation (poseOfCoefficients c).position)
          (matches_.map (Match.feature K))) := by
  have hpos : 0 < ((matches_.map (Match.feature K)).map (·.parts)).sum := by
    obtain ⟨m, ms, rfl⟩ := List.exists_cons_of_ne_nil hne
    simp only [List.map_cons, List.sum_cons]
    cases m <;> simp only [Match.feature, pointFeature, point2dFeature, planeFeature] <;> omega
  have hb := (C56_built_iff ((matches_.map (Match.feature K)).map (·.parts)).sum
    (matches_.map (Match.feature K))).1 ⟨by simpa using hne, hpos, rfl⟩
  exact ⟨_, hb, fun out ho => C56_every_slot_written_partial hb c (match_wellFormed K _ _) out ho⟩

/-- C56 is false for a distance with a NaN: the slots of that feature keep what was in the vector. -/
theorem C56_nan_false : ¬ ∀ (parts : ℕ) (features : List Feature) (e : ℕ × List Feature),
    buildEstimator parts features = .ok e → ∀ c out out', out.length = parts → out'.length = parts →
      residuals e c out = residuals e c out' := by
  intro h
  have := h 1 [{ parts := 1, score := 1, alpha := 1, distance := fun _ => none }]
    (1, [{ parts := 1, score := 1, alpha := 1, distance := fun _ => none }])
    (by simp [buildEstimator]) (fun _ => 0) [0] [1] rfl rfl
  simp [residuals, residualLoop] at this

/-! ## C84: conditions of success of the optimisation -/

/-- C84: the optimisation never throws (its estimator can always be built); it only succeeds with a
total score of at least one and at least six residuals, and then the pose has a unit orientation;
otherwise the output pose is left as it was. -/
theorem C84_success (minimise : (Fin 6 → ℝ) → ℕ × List Feature → Option (Fin 6 → ℝ))
    (current output : Pose) (features : List Feature) :
    ∃ success p, globalPose minimise current output features = .ok (success, p) ∧
      (success = true → 1 ≤ (features.map (·.score)).sum ∧ 6 ≤ (features.map (·.parts)).sum ∧
        UnitQuat p.orientation) ∧
      (success = false → p = output) := by
  unfold globalPose
  simp only [foldl_parts, foldl_score, Nat.zero_add, zero_add]
  by_cases h1 : (features.map (·.parts)).sum ≤ 1
  · rw [if_pos h1]; exact ⟨_, _, rfl, by simp, by simp⟩
  rw [if_neg h1]
  by_cases h2 : (features.map (·.score)).sum < 1
  · rw [if_pos h2]; exact ⟨_, _, rfl, by simp, by simp⟩
  rw [if_neg h2, (C56_built_iff _ features).1
    ⟨by rintro rfl; simp at h1, by omega, rfl⟩]
  simp only [Outcome.bind]
  by_cases h3 : (features.map (·.parts)).sum < 6
  · rw [if_pos h3]; exact ⟨_, _, rfl, by simp, by simp⟩
  rw [if_neg h3]
  cases hm : minimise (coefficientsOfPose current) ((features.map (·.parts)).sum, features) with
  | none => exact ⟨_, _, rfl, by simp, by simp⟩
  | some c =>
    refine ⟨_, _, rfl, fun _ => ⟨not_lt.1 h2, not_lt.1 h3, ?_⟩, by simp⟩
    unfold Pose.ofParameters
    simp only
    rw [normalized_of_unitQuat (poseOfCoefficients_unit c)]
    exact poseOfCoefficients_unit c

/-- C84: with the matches of the three feature maps, a total score of one always gives at least six
residuals, so that the search is really started, on the coefficients of the given pose. -/
theorem C84_search_started (K : M3)
    (minimise : (Fin 6 → ℝ) → ℕ × List Feature → Option (Fin 6 → ℝ)) (current output : Pose)
    (matches_ : List Match) (h : 1 ≤ ((matches_.map (Match.feature K)).map (·.score)).sum) :
    6 ≤ ((matches_.map (Match.feature K)).map (·.parts)).sum ∧
    globalPose minimise current output (matches_.map (Match.feature K)) =
      match minimise (coefficientsOfPose current)
        (((matches_.map (Match.feature K)).map (·.parts)).sum, matches_.map (Match.feature K)) with
      | none => .ok (false, output)
      | some c => .ok (true, poseOfCoefficients c) := by
  have h6 : 6 ≤ ((matches_.map (Match.feature K)).map (·.parts)).sum := by
    have := matches_score_parts K matches_
    have : (6 : ℝ) ≤ (((matches_.map (Match.feature K)).map (·.parts)).sum : ℕ) := by linarith
    exact_mod_cast this
  refine ⟨h6, ?_⟩
  unfold globalPose
  simp only [foldl_parts, foldl_score, Nat.zero_add, zero_add]
  rw [if_neg (by omega), if_neg (not_lt.2 h), (C56_built_iff _ _).1 ⟨by
    intro h0; rw [h0] at h6; simp at h6, by omega, rfl⟩]
  simp only [Outcome.bind]
  rw [if_neg (by omega)]
  cases minimise (coefficientsOfPose current)
    (((matches_.map (Match.feature K)).map (·.parts)).sum, matches_.map (Match.feature K)) with
  | none => rfl
  | some c =>
    simp only [Outcome.noexcept, Pose.ofParameters]
    rw [normalized_of_unitQuat (poseOfCoefficients_unit c)]

/-- Three planes reach the score. -/
example (K : M3) (p : Plane) :
    1 ≤ (([Match.plane p p, .plane p p, .plane p p].map (Match.feature K)).map (·.score)).sum := by
  simp [Match.feature, planeFeature]; norm_num

/-! ## C86: inliers -/

theorem three_lt_maxDouble : (3 : ℝ) < maxDouble := by
  unfold maxDouble
  have h1 : (1 : ℝ) ≤ 2 - 1 / 2 ^ 52 := by norm_num
  have h2 : (4 : ℝ) ≤ 2 ^ 1023 := by
    calc (4 : ℝ) = 2 ^ 2 := by norm_num
      _ ≤ 2 ^ 1023 := pow_le_pow_right₀ (by norm_num) (by norm_num)
  generalize (2 : ℝ) ^ 1023 = b at *
  generalize (2 : ℝ) - 1 / 2 ^ 52 = a at *
  nlinarith

/-- C86 (partial: the depth of the point is not checked): a point match is an inlier exactly when the
point has a projection and its distance to the observed pixel (sum of the two coordinates) is at most
three pixels. -/
theorem C86_point_partial (K : M3) (screen : V2) (point : V3) (w2c : M4) :
    pointInlier K screen point w2c = true ↔
      ∃ s, cameraToScreen K (pointToCamera w2c point) = some s ∧
        |screen 0 - s 0| + |screen 1 - s 1| ≤ 3 := by
  have hmax := three_lt_maxDouble
  unfold pointInlier
  rw [decide_eq_true_eq]
  cases hs : cameraToScreen K (pointToCamera w2c point) with
  | none =>
    have hd : signedPixelDistance K screen w2c point = ![maxDouble, maxDouble] := by
      simp [signedPixelDistance, hs]
    simp [pixelDistance, hd, hmax]
  | some s =>
    have hd : signedPixelDistance K screen w2c point = ![screen 0 - s 0, screen 1 - s 1] := by
      simp [signedPixelDistance, hs]
    unfold pixelDistance
    rw [hd]
    simp only [Option.some.injEq, exists_eq_left']
    by_cases hm : maxDouble ≤ screen 0 - s 0 ∨ maxDouble ≤ screen 1 - s 1
    · rw [if_pos (by simpa using hm)]
      constructor
      · intro h; linarith
      · intro h
        have a0 := le_abs_self (screen 0 - s 0)
        have a1 := le_abs_self (screen 1 - s 1)
        have b0 := abs_nonneg (screen 0 - s 0)
        have b1 := abs_nonneg (screen 1 - s 1)
        rcases hm with hm | hm <;> linarith
    · rw [if_neg (by simpa using hm)]
      simp

/-- C86: a plane match is an inlier exactly when every coordinate of the normal of the projected map
plane is within 0.2 of the detected one, and the distances to the camera within 50 millimeters. -/
theorem C86_plane {camera world : Plane} {w2c : M4} (hc : UnitVec camera.normal)
    (hp : UnitVec (world.transform (planeWorldToCamera w2c)).normal) :
    planeInlier camera world w2c = true ↔
      (∀ i, |camera.normal i - (world.transform (planeWorldToCamera w2c)).normal i| ≤ 1 / 5) ∧
        |camera.d - (world.transform (planeWorldToCamera w2c)).d| ≤ 50 := by
  have hd : ∀ i, angleDistance (camera.normal i) ((world.transform (planeWorldToCamera w2c)).normal i) =
      camera.normal i - (world.transform (planeWorldToCamera w2c)).normal i := by
    intro i
    have h1 := abs_le.1 (unit_component hc i)
    have h2 := abs_le.1 (unit_component hp i)
    have := Real.pi_gt_three
    exact angleDistance_eq (by linarith) (by linarith)
  unfold planeInlier planeSignedDistance
  rw [decide_eq_true_eq]
  simp only [cons_val_zero, cons_val_one, cons_val, hd]
  constructor
  · rintro ⟨h0, h1, h2, h3⟩
    exact ⟨fun i => by fin_cases i <;> assumption, h3⟩
  · rintro ⟨h, h3⟩
    exact ⟨h 0, h 1, h 2, h3⟩

/-- The normal of a transformed plane has length one as soon as it is not zero. -/
theorem transform_unit {world : Plane} {M : M4} (h : (fun i => (M *ᵥ world.parametrization) (Sum.inl i)) ≠ 0) :
    UnitVec (world.transform M).normal := by
  rw [unitVec_iff]
  exact normalized_unit h

/-- The hypotheses of `C86_plane` are met by a plane seen from the default pose. -/
example : ∃ (world : Plane) (w2c : M4), UnitVec world.normal ∧
    (fun i => (planeWorldToCamera w2c *ᵥ world.parametrization) (Sum.inl i)) ≠ 0 := by
  refine ⟨⟨![1, 0, 0], 0⟩, 1, by simp [UnitVec, Fin.sum_univ_three], fun h => ?_⟩
  have h1 : planeWorldToCamera 1 = 1 := by
    have : planeCameraToWorld (cameraToWorldOf 1) = 1 := by
      unfold planeCameraToWorld cameraToWorldOf
      ext i j
      rcases i with i | i <;> rcases j with j | j <;>
        simp [rotation, translation, toBlocks₁₁, fromBlocks, Matrix.one_apply, vecMul, dotProduct]
    rw [planeWorldToCamera, this, inv_one]
  rw [h1] at h
  have := congrFun h 0
  simp [Plane.parametrization] at this

theorem default_unit : UnitQuat Pose.default.orientation := by
  unfold UnitQuat Pose.default; norm_num

/-- The intrinsics of the examples. -/
theorem camera_axis_projection {d : ℝ} (hd : d ≠ 0) :
    cameraToScreen (intrinsics 500 500 320 240) ![0, 0, d] = some ![320, 240, d] := by
  unfold cameraToScreen cameraToScreen2 intrinsics
  rw [if_neg (by simpa using hd)]
  congr 1
  ext i
  fin_cases i <;> simp [Matrix.mulVec, dotProduct, Fin.sum_univ_three] <;> field_simp

/-- C86 is false for points behind the camera: they are projected through the centre and counted as
inliers. -/
theorem C86_behind_false : ¬ ∀ (K : M3) (screen : V2) (point : V3) (pose : Pose), UnitQuat pose.orientation →
    pointInlier K screen point (worldToCamera pose.orientation pose.position) = true →
      InFront (worldToCamera pose.orientation pose.position) point := by
  intro h
  have hx := C29_camera_round_trip default_unit Pose.default.position ![0, 0, -1000]
  have := h (intrinsics 500 500 320 240) ![320, 240]
    (pointToWorld (cameraToWorld Pose.default.orientation Pose.default.position) ![0, 0, -1000])
    Pose.default default_unit ((C86_point_partial _ _ _ _).2 ⟨![320, 240, -1000], by
      rw [hx]; exact camera_axis_projection (by norm_num), by simp⟩)
  unfold InFront at this
  rw [hx] at this
  simp at this
  norm_num at this

/-! ## C87: inliers among the points without depth -/

/-- C87 (partial: the converse is false): a pixel whose two coordinates are within three pixels of the
projected segment is an inlier. -/
theorem C87_close_is_inlier_partial (K : M3) (screen : V2) (p : InverseDepth) (std : ℝ) (w2c : M4)
    (h : ∀ i, |point2dDistance K screen p std w2c i| ≤ 3) : point2dInlier K screen p std w2c = true := by
  unfold point2dInlier
  rw [decide_eq_true_eq]
  exact ⟨(le_abs_self _).trans (h 0), (le_abs_self _).trans (h 1)⟩

/-- C87 is false: the distance is signed and compared without its absolute value, so that a pixel at any
distance to the left or above the projection is an inlier. -/
theorem C87_far_inlier_false (far : ℝ) (hfar : 0 ≤ far) :
    ∃ (K : M3) (screen : V2) (p : InverseDepth) (std : ℝ) (pose : Pose),
      InverseDepth.make 0 (1 / 1000) (Real.pi / 2) 0 = .ok p ∧ UnitQuat pose.orientation ∧
      inverseScreenSegment K p std (worldToCamera pose.orientation pose.position) =
        some (![320, 240], ![320, 240]) ∧
      screen = ![320 - far, 240] ∧
      point2dInlier K screen p std (worldToCamera pose.orientation pose.position) = true := by
  have hpi := Real.pi_pos
  obtain ⟨p, hp⟩ : ∃ p, InverseDepth.make 0 (1 / 1000) (Real.pi / 2) 0 = .ok p := by
    unfold InverseDepth.make
    rw [if_neg (by norm_num), if_neg (by rintro (h | h) <;> linarith),
      if_neg (by rintro (h | h) <;> linarith)]
    exact ⟨_, rfl⟩
  have hp' := hp
  unfold InverseDepth.make at hp'
  rw [if_neg (by norm_num), if_neg (by rintro (h | h) <;> linarith),
    if_neg (by rintro (h | h) <;> linarith)] at hp'
  have hp' := (Outcome.ok.inj hp').symm
  have hpt : p.first + (1 / 10 ^ 9 : ℝ)⁻¹ • p.bearing =
      pointToWorld (cameraToWorld Pose.default.orientation Pose.default.position) ![0, 0, 10 ^ 9] := by
    rw [cameraToWorld_eq, pointToWorld_transformation, hp']
    ext i
    fin_cases i <;>
      simp [Spherical.toCartesian, axesRotation, Pose.default, Quat.toRotationMatrix, Matrix.mulVec,
        dotProduct, Fin.sum_univ_three, Matrix.mul_apply]
  have hmin : min p.inverseDepth (1 / 10 ^ 9 : ℝ) = 1 / 10 ^ 9 := by
    rw [hp']; exact min_eq_right (by norm_num)
  have hinf : p.infinite = false := by rw [hp']
  have hfu : p.furthest (Real.sqrt 0) =
      pointToWorld (cameraToWorld Pose.default.orientation Pose.default.position) ![0, 0, 10 ^ 9] := by
    rw [← hpt, InverseDepth.furthest, hinf, if_neg (by simp), Real.sqrt_zero, zero_mul, sub_zero, hmin]
  have hcl : p.closest (Real.sqrt 0) =
      pointToWorld (cameraToWorld Pose.default.orientation Pose.default.position) ![0, 0, 10 ^ 9] := by
    rw [← hpt, InverseDepth.closest, hinf, if_neg (by simp), Real.sqrt_zero, zero_mul, add_zero, hmin]
  have hseg : inverseScreenSegment (intrinsics 500 500 320 240) p 0
      (worldToCamera Pose.default.orientation Pose.default.position) =
      some (![320, 240], ![320, 240]) := by
    simp only [inverseScreenSegment, hfu, hcl, C29_camera_round_trip default_unit,
      camera_axis_projection (show ((10 : ℝ) ^ 9) ≠ 0 by norm_num)]
    simp
  refine ⟨intrinsics 500 500 320 240, ![320 - far, 240], p, 0, Pose.default, hp, default_unit, hseg, rfl, ?_⟩
  unfold point2dInlier point2dDistance inverseScreenDistance
  rw [hseg]
  simp [lineDistance, closestOnLine, segmentNormal, normalized]
  linarith

end RgbdSlam.Optimizer
