import Verif.Lemmas.Optimizer
import Verif.Lemmas.Covariance2
import Mathlib.Tactic.Abel

/-
Properties of the motion model (C38, C83).
-/
set_option linter.unusedSimpArgs false

namespace RgbdSlam.Optimizer

open Matrix Geometry Covariance
open Geometry.Spec (UnitQuat)
open Covariance.Spec (IsCovariance)
open Optimizer.Spec

/-! ## Histories -/

/-- A motion model is used through calls of `predict_next_pose` and the two `reset`. -/
inductive MotionCall where
  | predict (current : PoseVar) (shouldIncrease : Bool)
  | reset
  | resetTo (position : V3) (rotation : Quat)

/-- The state after a call. -/
noncomputable def MotionModel.call (m : MotionModel) : MotionCall → MotionModel
  | .predict current b => (m.predict current b).2
  | .reset => .fresh
  | .resetTo p q => .resetTo p q

/-- The state after a history of calls on a new model. -/
noncomputable def MotionModel.after (history : List MotionCall) : MotionModel :=
  history.foldl MotionModel.call .fresh

/-- The rotations given by the caller are unit quaternions. -/
def MotionCall.Unit : MotionCall → Prop
  | .predict current _ => UnitQuat current.pose.orientation
  | .reset => True
  | .resetTo _ q => UnitQuat q

/-! ## Quaternions -/

theorem identity_unit : UnitQuat Quat.identity := by unfold UnitQuat Quat.identity; norm_num

theorem inverse_unit {q : Quat} (h : UnitQuat q) : UnitQuat (Quat.inverse q) := by
  have hn := Geometry.UnitQuat.normSq h
  unfold UnitQuat at *
  simp only [Quat.inverse, hn, div_one]
  linarith

theorem mul_inverse {q : Quat} (h : UnitQuat q) : q.mul (Quat.inverse q) = Quat.identity := by
  have hn := Geometry.UnitQuat.normSq h
  unfold UnitQuat at h
  simp only [Quat.mul, Quat.inverse, hn, div_one, Quat.identity, Quat.mk.injEq]
  refine ⟨by linarith, by ring, by ring, by ring⟩

theorem mul_identity (q : Quat) : q.mul Quat.identity = q := by
  simp [Quat.mul, Quat.identity]

theorem dot_abs_le {a b : Quat} (ha : UnitQuat a) (hb : UnitQuat b) : |Quat.dot a b| ≤ 1 := by
  unfold UnitQuat at *
  rw [abs_le, Quat.dot]
  constructor
  · nlinarith [sq_nonneg (a.w + b.w), sq_nonneg (a.x + b.x), sq_nonneg (a.y + b.y), sq_nonneg (a.z + b.z)]
  · nlinarith [sq_nonneg (a.w - b.w), sq_nonneg (a.x - b.x), sq_nonneg (a.y - b.y), sq_nonneg (a.z - b.z)]

/-- Half way between two unit quaternions, `slerp` is a positive multiple of their sum, or of their
difference when they are more than a quarter turn apart. -/
theorem slerp_half {a b : Quat} (ha : UnitQuat a) (hb : UnitQuat b) :
    ∃ s : ℝ, 0 < s ∧ Quat.slerp a (1 / 2) b =
      Quat.combine s (if Quat.dot a b < 0 then -s else s) a b := by
  unfold Quat.slerp
  simp only
  have hd := dot_abs_le ha hb
  by_cases h : 1 - doubleEps ≤ |Quat.dot a b|
  · refine ⟨1 / 2, by norm_num, ?_⟩
    simp only [if_pos h]
    norm_num
  · simp only [if_neg h]
    rw [show (1 : ℝ) - 1 / 2 = 1 / 2 by norm_num]
    have heps : (0 : ℝ) < doubleEps := by unfold doubleEps; positivity
    have hlt : |Quat.dot a b| < 1 := by push Not at h; linarith
    have h0 : 0 < Real.arccos |Quat.dot a b| := Real.arccos_pos.2 hlt
    have hle : Real.arccos |Quat.dot a b| ≤ Real.pi / 2 := Real.arccos_le_pi_div_two.2 (abs_nonneg _)
    have hpi := Real.pi_pos
    refine ⟨Real.sin (1 / 2 * Real.arccos |Quat.dot a b|) / Real.sin (Real.arccos |Quat.dot a b|), ?_, rfl⟩
    exact div_pos (Real.sin_pos_of_pos_of_lt_pi (by positivity) (by linarith))
      (Real.sin_pos_of_pos_of_lt_pi h0 (by linarith))

theorem combine_normSq {a b : Quat} (ha : UnitQuat a) (hb : UnitQuat b) (s t : ℝ) :
    (Quat.combine s t a b).normSq = s ^ 2 + t ^ 2 + 2 * s * t * Quat.dot a b := by
  unfold UnitQuat at *
  simp only [Quat.combine, Quat.normSq, Quat.dot]
  linear_combination s ^ 2 * ha + t ^ 2 * hb

theorem slerp_half_unit {a b : Quat} (ha : UnitQuat a) (hb : UnitQuat b) :
    UnitQuat (Quat.slerp a (1 / 2) b).normalized := by
  obtain ⟨s, hs, he⟩ := slerp_half ha hb
  apply unitQuat_normalized
  rw [he, combine_normSq ha hb]
  by_cases h : Quat.dot a b < 0
  · rw [if_pos h]; nlinarith
  · rw [if_neg h]; push Not at h; nlinarith

theorem slerp_identity : (Quat.slerp Quat.identity (1 / 2) Quat.identity).normalized = Quat.identity := by
  have hd : Quat.dot Quat.identity Quat.identity = 1 := by simp [Quat.dot, Quat.identity]
  have heps : (0 : ℝ) < doubleEps := by unfold doubleEps; positivity
  have : Quat.slerp Quat.identity (1 / 2) Quat.identity = Quat.identity := by
    unfold Quat.slerp
    simp only [hd, abs_one, if_pos (show 1 - doubleEps ≤ 1 by linarith), if_neg (show ¬(1 : ℝ) < 0 by norm_num)]
    simp [Quat.combine, Quat.identity]
  rw [this, normalized_of_unitQuat identity_unit]

/-! ## Invariant -/

theorem predict_unset {m : MotionModel} (h : m.isSet = false) (c : PoseVar) (b : Bool) :
    m.predict c b = ({ pose := Pose.ofParameters c.pose.position c.pose.orientation, variance := c.variance },
      { m with lastQ := c.pose.orientation, lastPosition := c.pose.position, isSet := true }) := by
  unfold MotionModel.predict; simp [h]

/-- Both rotations of the state are unit quaternions. -/
def MotionModel.UnitState (m : MotionModel) : Prop := UnitQuat m.lastQ ∧ UnitQuat m.angularVelocity

theorem call_unit {m : MotionModel} (hm : m.UnitState) {c : MotionCall} (hc : c.Unit) : (m.call c).UnitState := by
  cases c with
  | reset => exact ⟨identity_unit, identity_unit⟩
  | resetTo p q => exact ⟨hc, identity_unit⟩
  | predict cur b =>
    unfold MotionModel.call
    simp only
    cases hs : m.isSet with
    | false => rw [predict_unset hs]; exact ⟨hc, hm.2⟩
    | true =>
      unfold MotionModel.predict
      simp only [hs]
      exact ⟨hc, slerp_half_unit (mul_unit hc (inverse_unit hm.1)) hm.2⟩

theorem after_unit {history : List MotionCall} (h : ∀ c ∈ history, c.Unit) :
    (MotionModel.after history).UnitState := by
  have key : ∀ (m : MotionModel), m.UnitState → (∀ c ∈ history, c.Unit) →
      (history.foldl MotionModel.call m).UnitState := by
    clear h
    induction history with
    | nil => intro m hm _; exact hm
    | cons c l ih =>
      intro m hm hc
      exact ih (m.call c) (call_unit hm (hc c List.mem_cons_self)) fun d hd => hc d (List.mem_cons_of_mem _ hd)
  exact key _ ⟨identity_unit, identity_unit⟩ h

/-! ## C38 -/

/-- C38: the first prediction of a model that was constructed or reset without arguments returns the
given pose and variance, whatever happened before. -/
theorem C38_first_prediction (before : List MotionCall) {current : PoseVar}
    (h : UnitQuat current.pose.orientation) (b : Bool) :
    ((MotionModel.after (before ++ [.reset])).predict current b).1 = current ∧
    ((MotionModel.after []).predict current b).1 = current := by
  have hf : ∀ m : MotionModel, m.isSet = false → (m.predict current b).1 = current := by
    intro m hm
    rw [predict_unset hm]
    simp only [Pose.ofParameters, normalized_of_unitQuat h]
  refine ⟨hf _ ?_, hf _ rfl⟩
  simp [MotionModel.after, MotionModel.call, MotionModel.fresh]

/-- C38: after any history of calls with unit orientations, the prediction has a unit orientation. -/
theorem C38_unit_prediction {history : List MotionCall} (h : ∀ c ∈ history, c.Unit) {current : PoseVar}
    (hc : UnitQuat current.pose.orientation) (b : Bool) :
    UnitQuat ((MotionModel.after history).predict current b).1.pose.orientation := by
  have hm := after_unit h
  cases hs : (MotionModel.after history).isSet with
  | false =>
    rw [predict_unset hs]
    simp only [Pose.ofParameters, normalized_of_unitQuat hc]
    exact hc
  | true =>
    unfold MotionModel.predict
    simp only [hs]
    have h1 := mul_unit hc (slerp_half_unit (mul_unit hc (inverse_unit hm.1)) hm.2)
    simp only [Bool.true_eq_false, if_false, Pose.ofParameters]
    rw [normalized_of_unitQuat h1, normalized_of_unitQuat h1]
    exact h1

/-- C38: the predicted position after the poses with these positions (the latest first) were given to a
fresh model: the last position plus the exponential average of the displacements. -/
theorem C38_position (before : List MotionCall) (current : PoseVar) (b : Bool)
    (past : List (PoseVar × Bool)) :
    ((MotionModel.after (before ++ .reset :: past.reverse.map fun c => .predict c.1 c.2)).predict
        current b).1.pose.position =
      current.pose.position +
        averageVelocity (current.pose.position :: past.map fun c => c.1.pose.position) := by
  -- the state after the past calls
  have key : ∀ past : List (PoseVar × Bool),
      let m := MotionModel.after (before ++ .reset :: past.reverse.map fun c => .predict c.1 c.2)
      match past with
      | [] => m = .fresh
      | c :: older => m.isSet = true ∧ m.lastPosition = c.1.pose.position ∧
          m.linearVelocity = averageVelocity (c.1.pose.position :: older.map fun c => c.1.pose.position) := by
    intro past
    induction past with
    | nil => simp [MotionModel.after, MotionModel.call]
    | cons c older ih =>
      have hm : MotionModel.after (before ++ .reset :: (c :: older).reverse.map fun c => .predict c.1 c.2) =
          ((MotionModel.after (before ++ .reset :: older.reverse.map fun c => .predict c.1 c.2)).predict
            c.1 c.2).2 := by
        simp [MotionModel.after, MotionModel.call, List.foldl_append]
      simp only [hm]
      cases older with
      | nil =>
        simp only at ih
        rw [ih, predict_unset rfl]
        simp [MotionModel.fresh, averageVelocity]
      | cons d older =>
        obtain ⟨h1, h2, h3⟩ := ih
        simp only [MotionModel.predict, h1, Bool.true_eq_false, if_false, true_and]
        rw [h2, h3, List.map_cons, averageVelocity]
  have := key past
  cases past with
  | nil =>
    simp only at this
    rw [this, predict_unset rfl]
    simp [averageVelocity, Pose.ofParameters]
  | cons c older =>
    obtain ⟨h1, h2, h3⟩ := this
    simp only [MotionModel.predict, h1, Bool.true_eq_false, if_false, Pose.ofParameters]
    rw [h2, h3, List.map_cons, averageVelocity]

/-- C38: the same after a reset to a pose: its position is the first of the positions. -/
theorem C38_position_from (before : List MotionCall) (p : V3) (q : Quat) (current : PoseVar) (b : Bool)
    (past : List (PoseVar × Bool)) :
    ((MotionModel.after (before ++ .resetTo p q :: past.reverse.map fun c => .predict c.1 c.2)).predict
        current b).1.pose.position =
      current.pose.position +
        averageVelocity (current.pose.position :: (past.map fun c => c.1.pose.position) ++ [p]) := by
  have key : ∀ past : List (PoseVar × Bool),
      let m := MotionModel.after (before ++ .resetTo p q :: past.reverse.map fun c => .predict c.1 c.2)
      m.isSet = true ∧ ∃ x l, (past.map fun c => c.1.pose.position) ++ [p] = x :: l ∧ m.lastPosition = x ∧
        m.linearVelocity = averageVelocity (x :: l) := by
    intro past
    induction past with
    | nil =>
      simp only [MotionModel.after, List.reverse_nil, List.map_nil, List.foldl_append, List.foldl_cons, List.foldl_nil,
        MotionModel.call, MotionModel.resetTo]
      exact ⟨trivial, p, [], rfl, rfl, by simp [averageVelocity]⟩
    | cons c older ih =>
      have hm : MotionModel.after (before ++ .resetTo p q :: (c :: older).reverse.map fun c => .predict c.1 c.2) =
          ((MotionModel.after (before ++ .resetTo p q :: older.reverse.map fun c => .predict c.1 c.2)).predict
            c.1 c.2).2 := by
        simp [MotionModel.after, MotionModel.call, List.foldl_append]
      simp only [hm]
      obtain ⟨h1, x, l, e, h2, h3⟩ := ih
      simp only [MotionModel.predict, h1, Bool.true_eq_false, if_false, true_and]
      refine ⟨c.1.pose.position, x :: l, by rw [List.map_cons, List.cons_append, e], rfl, ?_⟩
      rw [h2, h3, averageVelocity]
  obtain ⟨h1, x, l, e, h2, h3⟩ := key past
  simp only [MotionModel.predict, h1, Bool.true_eq_false, if_false, Pose.ofParameters]
  rw [h2, h3, List.cons_append, e, averageVelocity]

/-- C38: the first prediction after a reset to a pose: the camera goes on by half of the move, and by half of the rotation,
since this pose. -/
theorem C38_first_prediction_from (before : List MotionCall) (p : V3) {q : Quat} (hq : UnitQuat q) {current : PoseVar}
    (h : UnitQuat current.pose.orientation) (b : Bool) :
    let r := ((MotionModel.after (before ++ [.resetTo p q])).predict current b).1
    r.pose.position = current.pose.position + (1 / 2 : ℝ) • (current.pose.position - p) ∧
    ∃ half : Quat, UnitQuat half ∧ r.pose.orientation = current.pose.orientation.mul half ∧
      ((0 ≤ (current.pose.orientation.mul (Quat.inverse q)).w → half.mul half = current.pose.orientation.mul (Quat.inverse q))) := by
  have hm : MotionModel.after (before ++ [.resetTo p q]) = .resetTo p q := by
    simp [MotionModel.after, MotionModel.call]
  have hd : UnitQuat (current.pose.orientation.mul (Quat.inverse q)) := mul_unit h (inverse_unit hq)
  rw [hm]
  have hu := slerp_half_unit hd identity_unit
  have hu2 := mul_unit h hu
  refine ⟨by simp [MotionModel.predict, MotionModel.resetTo, Pose.ofParameters], _, hu, ?_, ?_⟩
  · simp only [MotionModel.predict, MotionModel.resetTo, Bool.true_eq_false, if_false, Pose.ofParameters]
    rw [normalized_of_unitQuat hu2, normalized_of_unitQuat hu2]
  · intro hw
    generalize current.pose.orientation.mul (Quat.inverse q) = d at hd hw ⊢
    obtain ⟨s, hs, he⟩ := slerp_half hd identity_unit
    have hdot : Quat.dot d Quat.identity = d.w := by simp [Quat.dot, Quat.identity]
    rw [hdot, if_neg (not_lt.2 hw)] at he
    have hn : (Quat.combine s s d Quat.identity).normSq = 2 * s ^ 2 * (1 + d.w) := by
      rw [combine_normSq hd identity_unit, hdot]; ring
    have hpos : 0 < (Quat.combine s s d Quat.identity).normSq := by rw [hn]; positivity
    have hsq := Real.mul_self_sqrt hpos.le
    have hne := (Real.sqrt_pos.2 hpos).ne'
    clear hu hu2 hm
    rw [he]
    unfold Quat.normalized
    rw [if_pos hpos]
    rw [hn] at hsq hne ⊢
    generalize √(2 * s ^ 2 * (1 + d.w)) = n at hsq hne
    unfold UnitQuat at hd
    have hn2 : n ^ 2 = 2 * s ^ 2 * (1 + d.w) := by rw [sq, hsq]
    obtain ⟨w, x, y, z⟩ := d
    simp only [Quat.mul, Quat.combine, Quat.identity, Quat.mk.injEq] at *
    refine ⟨?_, ?_, ?_, ?_⟩ <;> field_simp <;> rw [hn2]
    · linear_combination (-s ^ 2) * hd
    all_goals ring

/-- With positions 0, 2 and 6 the displacements are 2 and 4, and the predicted move is 4/2 + 2/4. -/
example : averageVelocity [![6, 0, 0], ![2, 0, 0], ![0, 0, 0]] = ![5 / 2, 0, 0] := by
  ext i
  fin_cases i <;> simp [averageVelocity]
  norm_num

/-- C38: a camera that does not move from a reset on is predicted at the same place, with the same
orientation. -/
theorem C38_constant_pose (before : List MotionCall) {pose : Pose} (h : UnitQuat pose.orientation)
    (past : List (Sq 6 × Bool)) (v : Sq 6) (b : Bool) :
    ((MotionModel.after (before ++ .reset :: past.map fun c => .predict ⟨pose, c.1⟩ c.2)).predict
        ⟨pose, v⟩ b).1.pose = pose := by
  have step : ∀ (m : MotionModel), m.isSet = true → m.lastQ = pose.orientation →
      m.angularVelocity = Quat.identity → m.lastPosition = pose.position → m.linearVelocity = 0 →
      ∀ v b, (m.predict ⟨pose, v⟩ b).1.pose = pose ∧ (m.predict ⟨pose, v⟩ b).2 = m := by
    intro m h1 h2 h3 h4 h5 v b
    have ha : (Quat.slerp (pose.orientation.mul (Quat.inverse m.lastQ)) (1 / 2) m.angularVelocity).normalized =
        Quat.identity := by
      rw [h2, mul_inverse h, h3, slerp_identity]
    unfold MotionModel.predict
    simp only [h1, Bool.true_eq_false, if_false, ha, mul_identity, normalized_of_unitQuat h, h4, h5,
      sub_self, add_zero, smul_zero, Pose.ofParameters, true_and]
    obtain ⟨q, w, p, l, s⟩ := m
    simp only at h1 h2 h3 h4 h5
    subst h1 h2 h3 h4 h5
    rfl
  have key : ∀ (past : List (Sq 6 × Bool)) (m : MotionModel), m.isSet = true → m.lastQ = pose.orientation →
      m.angularVelocity = Quat.identity → m.lastPosition = pose.position → m.linearVelocity = 0 →
      (((past.map fun c => MotionCall.predict ⟨pose, c.1⟩ c.2).foldl MotionModel.call m).predict
        ⟨pose, v⟩ b).1.pose = pose := by
    intro past
    induction past with
    | nil => intro m h1 h2 h3 h4 h5; exact (step m h1 h2 h3 h4 h5 v b).1
    | cons c l ih =>
      intro m h1 h2 h3 h4 h5
      rw [List.map_cons, List.foldl_cons]
      have : m.call (.predict ⟨pose, c.1⟩ c.2) = m := (step m h1 h2 h3 h4 h5 c.1 c.2).2
      rw [this]
      exact ih m h1 h2 h3 h4 h5
  unfold MotionModel.after
  rw [List.foldl_append, List.foldl_cons]
  have hr : ∀ m : MotionModel, m.call .reset = .fresh := fun _ => rfl
  rw [hr]
  cases past with
  | nil =>
    rw [List.map_nil, List.foldl_nil, predict_unset rfl]
    simp only [Pose.ofParameters, normalized_of_unitQuat h]
  | cons c l =>
    rw [List.map_cons, List.foldl_cons]
    have hc : MotionModel.fresh.call (.predict ⟨pose, c.1⟩ c.2) =
        { MotionModel.fresh with lastQ := pose.orientation, lastPosition := pose.position, isSet := true } := by
      simp only [MotionModel.call, predict_unset (m := MotionModel.fresh) rfl]
    rw [hc]
    exact key l _ rfl rfl rfl rfl rfl

/-- C38: the variance of a prediction is a covariance whenever the given one is, and is never smaller. -/
theorem C38_variance (m : MotionModel) {current : PoseVar} (h : IsCovariance current.variance) (b : Bool) :
    IsCovariance (m.predict current b).1.variance ∧
      Covariance.Spec.NotLarger current.variance (m.predict current b).1.variance := by
  have hp : IsCovariance (poseError b) := by
    unfold poseError
    cases b with
    | false =>
      simp only [Bool.false_eq_true, if_false]
      exact ⟨fun _ _ => rfl, fun x => by simp [Covariance.Spec.variance]⟩
    | true =>
      simp only [if_true]
      apply isCovariance_diagonal
      intro i
      fin_cases i <;> simp
  cases hs : m.isSet with
  | false =>
    rw [predict_unset hs]
    exact ⟨h, fun x => le_refl _⟩
  | true =>
    have : (m.predict current b).1.variance = current.variance + poseError b := by
      simp [MotionModel.predict, hs]
    rw [this]
    exact ⟨h.add hp, notLarger_of_add rfl hp⟩

/-! ## C83: the predicted rotation -/

theorem normalized_scaled {u : Quat} (hu : UnitQuat u) {k : ℝ} (hk : 0 < k) :
    Quat.normalized ⟨k * u.w, k * u.x, k * u.y, k * u.z⟩ = u := by
  have hn : Quat.normSq ⟨k * u.w, k * u.x, k * u.y, k * u.z⟩ = k ^ 2 := by
    unfold UnitQuat at hu
    simp only [Quat.normSq]
    linear_combination k ^ 2 * hu
  unfold Quat.normalized
  rw [hn, if_pos (by positivity), Real.sqrt_sq hk.le]
  obtain ⟨w, x, y, z⟩ := u
  simp only [Quat.mk.injEq]
  refine ⟨?_, ?_, ?_, ?_⟩ <;> field_simp

/-- The orientation predicted by a model that was given two orientations since its last reset. -/
noncomputable def predictedRotation (q0 q1 : Quat) : Quat :=
  ((MotionModel.after [.predict ⟨⟨0, q0⟩, 0⟩ false]).predict ⟨⟨0, q1⟩, 0⟩ false).1.pose.orientation

/-- C83 is false: after a rotation around the axis `e` (in the world), the predicted rotation is not
around `e` in general.  The difference is measured on the left (in the world frame) and applied on the
right (in the camera frame). -/
theorem C83_same_axis_false : ¬ ∀ (e : V3) (q0 q1 : Quat), UnitQuat q0 → UnitQuat q1 →
    RotatesAround e (q1.mul (Quat.inverse q0)) →
      RotatesAround e ((predictedRotation q0 q1).mul (Quat.inverse q1)) := by
  intro h
  let q0 : Quat := ⟨28 / 125, -96 / 125, 72 / 125, 21 / 125⟩
  let q1 : Quat := ⟨4 / 5, 0, 0, 3 / 5⟩
  have hq0 : UnitQuat q0 := by simp only [UnitQuat, q0]; norm_num
  have hq1 : UnitQuat q1 := by simp only [UnitQuat, q1]; norm_num
  have hd : q1.mul (Quat.inverse q0) = ⟨7 / 25, 24 / 25, 0, 0⟩ := by
    have hn := Geometry.UnitQuat.normSq hq0
    simp only [Quat.mul, Quat.inverse, hn, q0, q1, Quat.mk.injEq]
    norm_num
  have hw : UnitQuat ⟨7 / 25, 24 / 25, 0, 0⟩ := by simp only [UnitQuat]; norm_num
  have hs : (Quat.slerp ⟨7 / 25, 24 / 25, 0, 0⟩ (1 / 2) Quat.identity).normalized = ⟨4 / 5, 3 / 5, 0, 0⟩ := by
    obtain ⟨s, hs, he⟩ := slerp_half hw identity_unit
    have hdot : ¬ Quat.dot ⟨7 / 25, 24 / 25, 0, 0⟩ Quat.identity < 0 := by
      simp [Quat.dot, Quat.identity]; norm_num
    rw [he, if_neg hdot]
    have hu : UnitQuat ⟨4 / 5, 3 / 5, 0, 0⟩ := by simp only [UnitQuat]; norm_num
    rw [← normalized_scaled hu (k := 8 / 5 * s) (by positivity)]
    congr 1
    simp only [Quat.combine, Quat.identity, Quat.mk.injEq]
    refine ⟨by ring, by ring, by ring, by ring⟩
  have hp : predictedRotation q0 q1 = q1.mul ⟨4 / 5, 3 / 5, 0, 0⟩ := by
    have hm : UnitQuat (q1.mul ⟨4 / 5, 3 / 5, 0, 0⟩) := mul_unit hq1 (by simp only [UnitQuat]; norm_num)
    unfold predictedRotation MotionModel.after
    simp only [List.foldl_cons, List.foldl_nil, MotionModel.call, predict_unset (m := .fresh) rfl]
    simp only [MotionModel.predict, Bool.true_eq_false, if_false, MotionModel.fresh, hd, hs, Pose.ofParameters]
    rw [normalized_of_unitQuat hm, normalized_of_unitQuat hm]
  obtain ⟨t, -, hy, -⟩ := h ![1, 0, 0] q0 q1 hq0 hq1 (by
    rw [hd]; exact ⟨24 / 25, by simp, by simp, by simp⟩)
  have hn := Geometry.UnitQuat.normSq hq1
  rw [hp] at hy
  simp only [Quat.mul, Quat.inverse, hn, q1] at hy
  norm_num at hy

theorem Spec.RotatesAround.mul {e : V3} {a b : Quat} (ha : RotatesAround e a) (hb : RotatesAround e b) :
    RotatesAround e (a.mul b) := by
  obtain ⟨s, a1, a2, a3⟩ := ha
  obtain ⟨t, b1, b2, b3⟩ := hb
  refine ⟨a.w * t + s * b.w, ?_, ?_, ?_⟩ <;> simp only [Quat.mul, a1, a2, a3, b1, b2, b3] <;> ring

theorem Spec.RotatesAround.inverse {e : V3} {a : Quat} (ha : RotatesAround e a) : RotatesAround e (Quat.inverse a) := by
  obtain ⟨s, a1, a2, a3⟩ := ha
  refine ⟨-s / a.normSq, ?_, ?_, ?_⟩ <;> simp only [Quat.inverse, a1, a2, a3] <;> ring

theorem Spec.RotatesAround.normalized {e : V3} {a : Quat} (ha : RotatesAround e a) : RotatesAround e a.normalized := by
  obtain ⟨s, a1, a2, a3⟩ := ha
  unfold Quat.normalized
  split
  · refine ⟨s / Real.sqrt a.normSq, ?_, ?_, ?_⟩ <;> simp only [a1, a2, a3] <;> ring
  · exact ⟨s, a1, a2, a3⟩

theorem Spec.RotatesAround.slerp {e : V3} {a b : Quat} (ha : RotatesAround e a) (hb : RotatesAround e b) (t : ℝ) :
    RotatesAround e (Quat.slerp a t b) := by
  obtain ⟨s, a1, a2, a3⟩ := ha
  obtain ⟨r, b1, b2, b3⟩ := hb
  unfold Quat.slerp
  simp only
  generalize (if 1 - doubleEps ≤ |Quat.dot a b| then 1 - t else
    Real.sin ((1 - t) * Real.arccos |Quat.dot a b|) / Real.sin (Real.arccos |Quat.dot a b|)) = u
  generalize (if Quat.dot a b < 0 then
    -(if 1 - doubleEps ≤ |Quat.dot a b| then t else
      Real.sin (t * Real.arccos |Quat.dot a b|) / Real.sin (Real.arccos |Quat.dot a b|))
    else (if 1 - doubleEps ≤ |Quat.dot a b| then t else
      Real.sin (t * Real.arccos |Quat.dot a b|) / Real.sin (Real.arccos |Quat.dot a b|))) = v
  refine ⟨u * s + v * r, ?_, ?_, ?_⟩ <;> simp only [Quat.combine, a1, a2, a3, b1, b2, b3] <;> ring

theorem identity_around (e : V3) : RotatesAround e Quat.identity := ⟨0, by simp [Quat.identity]⟩

/-- C83 (partial: all the orientations given to the model are rotations around one axis, like those of a
vehicle on a flat ground): the predicted orientation is a rotation around that axis too. -/
theorem C83_planar_partial (e : V3) (history : List (PoseVar × Bool)) (current : PoseVar) (b : Bool)
    (h : ∀ c ∈ history, RotatesAround e c.1.pose.orientation) (hc : RotatesAround e current.pose.orientation) :
    RotatesAround e ((MotionModel.after (history.map fun c => .predict c.1 c.2)).predict
      current b).1.pose.orientation := by
  have step : ∀ (m : MotionModel) (c : PoseVar) (b : Bool), RotatesAround e m.lastQ →
      RotatesAround e m.angularVelocity → RotatesAround e c.pose.orientation →
      RotatesAround e (m.predict c b).1.pose.orientation ∧ RotatesAround e (m.predict c b).2.lastQ ∧
        RotatesAround e (m.predict c b).2.angularVelocity := by
    intro m c b h1 h2 h3
    cases hs : m.isSet with
    | false => rw [predict_unset hs]; exact ⟨h3.normalized, h3, h2⟩
    | true =>
      have ha := ((h3.mul h1.inverse).slerp h2 (1 / 2)).normalized
      unfold MotionModel.predict
      simp only [hs]
      exact ⟨(h3.mul ha).normalized.normalized, h3, ha⟩
  have key : ∀ (history : List (PoseVar × Bool)) (m : MotionModel), RotatesAround e m.lastQ →
      RotatesAround e m.angularVelocity → (∀ c ∈ history, RotatesAround e c.1.pose.orientation) →
      RotatesAround e (((history.map fun c => MotionCall.predict c.1 c.2).foldl MotionModel.call m).predict
        current b).1.pose.orientation := by
    intro history
    induction history with
    | nil => intro m h1 h2 _; exact (step m current b h1 h2 hc).1
    | cons c l ih =>
      intro m h1 h2 h3
      have := step m c.1 c.2 h1 h2 (h3 c List.mem_cons_self)
      exact ih _ this.2.1 this.2.2 fun d hd => h3 d (List.mem_cons_of_mem _ hd)
  exact key history _ (identity_around e) (identity_around e) h

/-- Rotations around the vertical axis. -/
example : RotatesAround ![0, 0, 1] ⟨4 / 5, 0, 0, 3 / 5⟩ := ⟨3 / 5, by simp⟩

end RgbdSlam.Optimizer
