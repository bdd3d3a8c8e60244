import Verif.Model.Validity
import Verif.Props.Updates
/-
C134: the features of the map pass the validity test that opens the pose optimisation.
-/
namespace RgbdSlam.Updates

open Geometry Covariance Optimizer Keypoints Points2d Matrix
open Covariance.Spec (IsCovariance IsPseudoInverse)
open Map (PlaneOps World)

variable {Desc S Shape Pose Var : Type} {n : ℕ}

theorem isCovariance_diag {C : Sq n} (h : IsCovariance C) (i : Fin n) : 0 ≤ C i i := by
  have := (isCovariance_iff.1 h).diag_nonneg (i := i)
  exact this

theorem isValid_diag {C : Sq n} (h : isValid C = true) (i : Fin n) : 0 ≤ C i i := by
  simp only [isValid, decide_eq_true_eq] at h
  have := h.2.diag_nonneg (i := i)
  simpa [symUpper] using this

/-- C134: the standard deviations are the non-negative numbers whose squares are the variances. -/
theorem C134_deviations {C : Sq n} (h : ∀ i, 0 ≤ C i i) (i : Fin n) :
    ∃ s, deviations C i = some s ∧ 0 ≤ s ∧ s ^ 2 = C i i :=
  ⟨Real.sqrt (C i i), by rw [deviations, if_neg (not_lt.2 (h i))], Real.sqrt_nonneg _, Real.sq_sqrt (h i)⟩

theorem deviationsValid_iff (C : Sq n) : deviationsValid (deviations C) = true ↔ ∀ i, 0 ≤ C i i := by
  constructor
  · intro h i
    simp only [deviationsValid, Bool.and_eq_true, decide_eq_true_eq] at h
    refine not_lt.1 fun hi => h.1 i ?_
    rw [deviations, if_pos hi]
  · intro h
    simp only [deviationsValid, Bool.and_eq_true, decide_eq_true_eq]
    refine ⟨fun i => ?_, fun i x hx => ?_⟩
    · obtain ⟨s, hs, -⟩ := C134_deviations h i
      rw [hs]; simp
    · obtain ⟨s, hs, h0, -⟩ := C134_deviations h i
      rw [hs] at hx
      cases hx
      exact h0

/-- C134: a match is valid exactly when no variance of the map feature is negative. -/
theorem C134_valid_iff (k : Kp) (d : DetectedPlane) (i id : ℕ) (b : PointBody Desc) (p : TrackedPlane) :
    ((pointMatch k i id b).isValid = true ↔ ∀ j, 0 ≤ b.tracked.covariance j j) ∧
    ((planeMatch d i id p).isValid = true ↔ ∀ j, 0 ≤ p.covariance j j) :=
  ⟨deviationsValid_iff _, deviationsValid_iff _⟩

/-- C134: every plane that the constructor accepts, or whose copy does not throw, gives valid matches. -/
theorem C134_planes (c : Camera) (d d' : DetectedPlane) (i id : ℕ) (p : TrackedPlane)
    (h : newPlane c d = .ok p ∨ (copyPlane p).isSome = true ∨ GoodPlane p) :
    (planeMatch d' i id p).isValid = true := by
  rw [(C134_valid_iff (Desc := Unit) ⟨⟨0, 0⟩, 0⟩ d' i id ⟨⟨0, 0, false⟩, none⟩ p).2]
  rcases h with h | h | h
  · unfold newPlane at h
    rcases detectedPlaneCovariance_cases c d with e | ⟨W, e, cW⟩
    · rw [e] at h; cases h
    · rw [e, Outcome.bind_ok] at h
      obtain ⟨B, -, h⟩ := Outcome.bind_eq_ok h
      dsimp only at h
      split_ifs at h
      cases h
      exact isCovariance_diag cW
  · unfold copyPlane at h
    cases hv : isValid p.covariance with
    | false => rw [hv] at h; simp at h
    | true => exact isValid_diag hv
  · exact isCovariance_diag h.covariance

/-- C134: at any time of any history (with the assumptions of C130), matches of points of the map and of
planes with no negative variance pass the validity test: the answer of the pose optimisation is that of the
consensus search and of the variance estimation, whatever they are. -/
theorem C134_never_refused [Inhabited Desc] (sight2 sight1 : Sight Desc S) (pinv : Sq 3 → Sq 3)
    (hpinv : ∀ A, IsCovariance A → IsPseudoInverse A (pinv A))
    (op : PlaneOps (Body Desc S) (Detected Desc ⊕ Shape) (Camera × Handler Desc))
    (hcov : ∀ e, op.covValid e = isValid e.1.pose)
    (G : Body Desc S → Prop) (E : Camera → Shape → Prop) (hop : PlanesReturn op G E)
    (lt : Map.Match → Map.Match → Bool) (cam : Pose → Camera) (hsym : ∀ p, (cam p).poseᵀ = (cam p).pose)
    (po : Slam.PoseOps Pose) (start : Pose)
    (frames : List (Slam.Frame (Outcome (World (Body Desc S))) (Handler Desc × List Shape) Pose Map.Match))
    (hf : ∀ f ∈ frames, Map.Handled f)
    (hE : ∀ f ∈ frames, ∀ L p b pose, ∀ s ∈ (f.detect L p b).2, E (cam pose) s)
    (s : Slam.State (Outcome (World (Body Desc S))) Pose) (outs : List (Slam.Out Pose))
    (h : Slam.run (Map.localMapOps
        (Map.programKinds (Map.withShapes (Map.handlerOps (geo2 sight2 pinv)))
          (Map.withShapes (Map.handlerOps (geo1 sight1 pinv))) op) (fun e => isValid e.1.pose) lt
        (fun pose d => (cam pose, d.1)) Map.frameDets) po frames (Slam.init start (.ok World.init)) =
      .ok (s, outs)) :
    ∃ w, s.localMap = .ok w ∧ ∀ l : List MatchFeature,
      (∀ f ∈ l,
        (∃ p ∈ (w.maps .point).localMap ++ (w.maps .point).staged, ∃ b, p.2.body = .point b ∧
          ∃ k i, f = pointMatch k i p.2.id b) ∨
        (∃ p : TrackedPlane, (∀ j, 0 ≤ p.covariance j j) ∧ ∃ d i id, f = planeMatch d i id p)) →
      ∀ (out : Pose) (ransac : Outcome (Ransac.Result MatchFeature Pose))
        (variance : Pose → List MatchFeature → Option Var),
        (∀ r v, ransac = .ok r → r.success = true → variance r.pose r.inliers = some v →
          Ransac.optimizedPose MatchFeature.isValid l out ransac variance = .ok (r, some v)) ∧
        (∀ r, ransac = .ok r → r.success = true → variance r.pose r.inliers = none →
          Ransac.optimizedPose MatchFeature.isValid l out ransac variance =
            .ok (⟨false, r.pose, r.inliers, r.outliers⟩, none)) ∧
        (∀ r, ransac = .ok r → r.success = false →
          Ransac.optimizedPose MatchFeature.isValid l out ransac variance = .ok (r, none)) := by
  obtain ⟨w, hw, hg, -⟩ := C130_points_keep_running sight2 sight1 pinv hpinv op hcov G E hop lt cam hsym po start
    frames hf hE s outs h
  refine ⟨w, hw, fun l hl out ransac variance => ?_⟩
  have hall : l.all MatchFeature.isValid = true := by
    rw [List.all_eq_true]
    intro f hfm
    rcases hl f hfm with ⟨p, hp, b, hb, k, i, rfl⟩ | ⟨p, hp, d, i, id, rfl⟩
    · obtain ⟨b', hb', cb, -⟩ := hg p hp
      rw [hb] at hb'
      cases hb'
      exact (deviationsValid_iff _).2 (isCovariance_diag cb)
    · exact (deviationsValid_iff _).2 hp
  unfold Ransac.optimizedPose
  rw [if_pos hall]
  refine ⟨fun r v hr hs hv => ?_, fun r hr hs hv => ?_, fun r hr hs => ?_⟩
  · rw [hr, Outcome.bind_ok, if_pos hs, hv]
  · rw [hr, Outcome.bind_ok, if_pos hs, hv]
  · rw [hr, Outcome.bind_ok, hs, if_neg (by decide)]

/-- C134: and one map feature with a negative variance would refuse every pose: nothing else is looked at. -/
theorem C134_one_refuses_all (l : List MatchFeature) (k : Kp) (i id : ℕ) (b : PointBody Desc)
    (hb : ∃ j, b.tracked.covariance j j < 0) (hl : pointMatch k i id b ∈ l)
    (out : Pose) (ransac : Outcome (Ransac.Result MatchFeature Pose))
    (variance : Pose → List MatchFeature → Option Var) :
    Ransac.optimizedPose MatchFeature.isValid l out ransac variance = .ok (⟨false, out, [], []⟩, none) := by
  have hall : ¬ l.all MatchFeature.isValid = true := by
    rw [List.all_eq_true]
    intro h
    obtain ⟨j, hj⟩ := hb
    have := (deviationsValid_iff _).1 (h _ hl) j
    linarith
  unfold Ransac.optimizedPose
  rw [if_neg hall]

/-! Examples: a covariance with variances 4, 9 and 0, and a matrix with a negative variance. -/

example : deviations (Matrix.diagonal ![4, 9, 0] : Sq 3) 1 = some 3 := by
  have h : Real.sqrt 9 = 3 := by
    rw [show (9 : ℝ) = 3 ^ 2 by norm_num]; exact Real.sqrt_sq (by norm_num)
  simp [deviations, h]

example : (pointMatch ⟨⟨0, 0⟩, 0⟩ 0 1 (⟨⟨0, Matrix.diagonal ![4, 9, 0], false⟩, some ()⟩ : PointBody Unit)).isValid = true := by
  refine (deviationsValid_iff _).2 fun i => ?_
  fin_cases i <;> simp

example : (pointMatch ⟨⟨0, 0⟩, 0⟩ 0 1 (⟨⟨0, Matrix.diagonal ![4, -9, 0], false⟩, some ()⟩ : PointBody Unit)).isValid = false := by
  rw [← Bool.not_eq_true]
  intro h
  have := (deviationsValid_iff _).1 h 1
  simp at this
  norm_num at this

end RgbdSlam.Updates
