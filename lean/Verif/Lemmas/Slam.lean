import Verif.Model.Slam
import Verif.Spec.Slam
/-
Helper lemmas for the frame loop: decomposition of runs and the history invariant.
-/
namespace RgbdSlam.Slam
open RgbdSlam.Spec.Slam

variable {L Det Pose Match : Type}

theorem run_length (ops : MapOps L Det Pose Match) (po : PoseOps Pose) :
    ∀ (fs : List (Frame L Det Pose Match)) (s s' : State L Pose) (os : List (Out Pose)),
      run ops po fs s = .ok (s', os) → os.length = fs.length := by
  intro fs
  induction fs with
  | nil => intro s s' os h; simp [run] at h; simp [← h.2]
  | cons f fs ih =>
    intro s s' os h
    simp only [run] at h
    obtain ⟨⟨s1, o⟩, _, h2⟩ := Outcome.bind_eq_ok h
    obtain ⟨⟨s2, os'⟩, h3, h4⟩ := Outcome.bind_eq_ok h2
    simp only [Outcome.ok.injEq, Prod.mk.injEq] at h4
    simp [← h4.2, ih _ _ _ h3]

/-- Each output of a run is produced by one step from the state reached by the frames before. -/
theorem run_split (ops : MapOps L Det Pose Match) (po : PoseOps Pose) :
    ∀ (fs : List (Frame L Det Pose Match)) (s s' : State L Pose) (os : List (Out Pose)),
      run ops po fs s = .ok (s', os) → ∀ i (hi : i < os.length) (hf : i < fs.length),
        ∃ si si', run ops po (fs.take i) s = .ok (si, os.take i) ∧
          step ops po fs[i] si = .ok (si', os[i]) := by
  intro fs
  induction fs with
  | nil => intro s s' os h i hi hf; simp at hf
  | cons f fs ih =>
    intro s s' os h i hi hf
    simp only [run] at h
    obtain ⟨⟨s1, o⟩, h1, h2⟩ := Outcome.bind_eq_ok h
    obtain ⟨⟨s2, os'⟩, h3, h4⟩ := Outcome.bind_eq_ok h2
    simp only [Outcome.ok.injEq, Prod.mk.injEq] at h4
    obtain ⟨rfl, rfl⟩ := h4
    cases i with
    | zero => exact ⟨s, s1, by simp [run], by simpa using h1⟩
    | succ j =>
      obtain ⟨si, si', ha, hb⟩ := ih s1 s2 os' h3 j (by simpa using hi) (by simpa using hf)
      refine ⟨si, si', ?_, by simpa using hb⟩
      simp [run, h1, ha]

theorem run_snoc (ops : MapOps L Det Pose Match) (po : PoseOps Pose) (f : Frame L Det Pose Match) :
    ∀ (fs : List (Frame L Det Pose Match)) (s s' : State L Pose) (os : List (Out Pose)),
      run ops po (fs ++ [f]) s = .ok (s', os) →
        ∃ s1 os1 o, run ops po fs s = .ok (s1, os1) ∧ step ops po f s1 = .ok (s', o) ∧
          os = os1 ++ [o] := by
  intro fs
  induction fs with
  | nil =>
    intro s s' os h
    simp only [List.nil_append, run] at h
    obtain ⟨⟨s1, o⟩, h1, h2⟩ := Outcome.bind_eq_ok h
    simp only [Outcome.bind_ok, Outcome.ok.injEq, Prod.mk.injEq] at h2
    obtain ⟨rfl, rfl⟩ := h2
    exact ⟨s, [], o, rfl, h1, rfl⟩
  | cons g fs ih =>
    intro s s' os h
    simp only [List.cons_append, run] at h
    obtain ⟨⟨s1, o⟩, h1, h2⟩ := Outcome.bind_eq_ok h
    obtain ⟨⟨s2, os'⟩, h3, h4⟩ := Outcome.bind_eq_ok h2
    simp only [Outcome.ok.injEq, Prod.mk.injEq] at h4
    obtain ⟨rfl, rfl⟩ := h4
    obtain ⟨s3, os1, o', ha, hb, hc⟩ := ih _ _ _ h3
    refine ⟨s3, o :: os1, o', ?_, hb, by simp [hc]⟩
    simp [run, h1, ha]

theorem trailingFailures_snoc (h : List Bool) (b : Bool) :
    trailingFailures (h ++ [b]) = if b then 0 else trailingFailures h + 1 := by
  cases b <;> simp [trailingFailures]

theorem trailingFailures_le (h : List Bool) : trailingFailures h ≤ h.length := by
  unfold trailingFailures
  have := (List.takeWhile_sublist (l := h.reverse) (fun b => !b)).length_le
  simpa using this

theorem lastPose_snoc (start : Pose) (h : List (Option Pose)) (b : Option Pose) :
    lastPose start (h ++ [b]) = b.getD (lastPose start h) := by
  cases b <;> simp [lastPose]

/-- What is known of the state after a history of answers. -/
structure Inv (start : Pose) (s : State L Pose) (os : List (Out Pose)) : Prop where
  first : s.isFirstTrackingCall = os.isEmpty
  failed : s.failedTrackingCount = trailingFailures (os.map (·.tracked)).tail % uintSize
  lost : s.isTrackingLost = (decide (os.length ≤ 1) || decide (3 < s.failedTrackingCount))
  count0 : os = [] → s.computeKeypointCount = 0
  count : os ≠ [] → s.computeKeypointCount = (os.length - 1) % 5 + 1
  pose : s.currentPose = lastPose start (os.map (·.optimized))
  total : s.totalFrameTreated = os.length

/-- What is known of one step. -/
structure StepFacts (po : PoseOps Pose) (s s' : State L Pose) (o : Out Pose) : Prop where
  valid : po.covValid s.currentPose = true
  pose : o.returned = s'.currentPose
  poseEq : s'.currentPose = o.optimized.getD s.currentPose
  forced : o.forcedDetection = (s.isTrackingLost || (s.computeKeypointCount % 5 + 1 == 1))
  lost : o.lostAfter = s'.isTrackingLost
  reseed : o.reseeded = (o.optimized.isNone && s.isTrackingLost && po.posCovValid s.currentPose)
  first : s.isFirstTrackingCall = true → o.optimized = none
  tracked : o.tracked = true → o.optimized.isSome = true
  first' : s'.isFirstTrackingCall = false
  count' : s'.computeKeypointCount = s.computeKeypointCount % 5 + 1
  total' : s'.totalFrameTreated = s.totalFrameTreated + 1
  lost' : s'.isTrackingLost =
    if s.isFirstTrackingCall then s.isTrackingLost else decide (3 < s'.failedTrackingCount)
  failed' : s'.failedTrackingCount = if s.isFirstTrackingCall then s.failedTrackingCount else
    if o.tracked then 0 else (s.failedTrackingCount + 1) % uintSize

theorem step_facts (ops : MapOps L Det Pose Match) (po : PoseOps Pose)
    (f : Frame L Det Pose Match) (s s' : State L Pose) (o : Out Pose)
    (h : step ops po f s = .ok (s', o)) : StepFacts po s s' o := by
  unfold step at h
  split at h
  · rename_i hv
    dsimp only at h
    split at h
    · rename_i opt outl heq
      have hf : s.isFirstTrackingCall = false := by
        cases hf : s.isFirstTrackingCall <;> simp_all
      split at h
      · simp only [Outcome.ok.injEq, Prod.mk.injEq] at h
        obtain ⟨rfl, rfl⟩ := h
        constructor <;> simp_all [incr, keypointRefreshFrequency]
      · simp only [Outcome.ok.injEq, Prod.mk.injEq] at h
        obtain ⟨rfl, rfl⟩ := h
        constructor <;> simp_all [keypointRefreshFrequency]
    · simp only [Outcome.ok.injEq, Prod.mk.injEq] at h
      obtain ⟨rfl, rfl⟩ := h
      cases hf : s.isFirstTrackingCall <;>
        constructor <;> simp_all [incr, keypointRefreshFrequency]
  · simp at h

theorem inv_init (start : Pose) (map : L) : Inv start (init start map) [] := by
  constructor <;> simp [init, trailingFailures, lastPose]

theorem inv_step (po : PoseOps Pose) (start : Pose) (s s' : State L Pose) (os : List (Out Pose))
    (o : Out Pose) (hi : Inv start s os) (hs : StepFacts po s s' o) : Inv start s' (os ++ [o]) := by
  have hfirst := hi.first
  rcases os.eq_nil_or_concat with rfl | ⟨os', x, hx⟩
  · simp at hfirst
    constructor
    · simp [hs.first']
    · have := hi.failed
      rw [hs.failed', if_pos hfirst, this]; simp
    · have := hi.lost
      rw [hs.lost', if_pos hfirst, this]; simp
    · simp
    · intro _; rw [hs.count', hi.count0 rfl]; simp
    · rw [hs.poseEq, hi.pose]; exact (lastPose_snoc start [] o.optimized).symm
    · rw [hs.total', hi.total]; simp
  · rw [List.concat_eq_append] at hx
    subst hx
    have hf : s.isFirstTrackingCall = false := by rw [hfirst]; cases os' <;> rfl
    have htail : ((os' ++ [x] ++ [o]).map (·.tracked)).tail
        = ((os' ++ [x]).map (·.tracked)).tail ++ [o.tracked] := by
      cases os' <;> simp
    constructor
    · simp [hs.first']
    · rw [hs.failed', hi.failed, htail, trailingFailures_snoc]
      simp only [hf]
      cases ho : o.tracked
      · simp [Nat.add_mod]
      · simp
    · rw [hs.lost', hf]; simp
    · simp
    · intro _
      rw [hs.count', hi.count (by simp)]
      simp
    · rw [hs.poseEq, hi.pose]
      rw [show (os' ++ [x] ++ [o]).map (·.optimized)
        = (os' ++ [x]).map (·.optimized) ++ [o.optimized] by simp]
      rw [lastPose_snoc]
    · rw [hs.total', hi.total]; simp

theorem inv_run (ops : MapOps L Det Pose Match) (po : PoseOps Pose) (start : Pose) (map : L) :
    ∀ (n : Nat) (fs : List (Frame L Det Pose Match)) (s : State L Pose) (os : List (Out Pose)),
      fs.length = n → run ops po fs (init start map) = .ok (s, os) → Inv start s os := by
  intro n
  induction n with
  | zero =>
    intro fs s os hn h
    have : fs = [] := List.length_eq_zero_iff.mp hn
    subst this
    simp only [run, Outcome.ok.injEq, Prod.mk.injEq] at h
    obtain ⟨rfl, rfl⟩ := h
    exact inv_init start map
  | succ n ih =>
    intro fs s os hn h
    rcases fs.eq_nil_or_concat with rfl | ⟨fs', f, hx⟩
    · simp at hn
    · rw [List.concat_eq_append] at hx
      subst hx
      obtain ⟨s1, os1, o, h1, h2, rfl⟩ := run_snoc ops po f fs' _ _ _ h
      exact inv_step po start s1 s os1 o (ih fs' s1 os1 (by simpa using hn) h1)
        (step_facts ops po f s1 s o h2)

/-- Everything known about the `i`-th answer of a run. -/
theorem run_at (ops : MapOps L Det Pose Match) (po : PoseOps Pose) (start : Pose) (map : L)
    (fs : List (Frame L Det Pose Match)) (s : State L Pose) (os : List (Out Pose))
    (h : run ops po fs (init start map) = .ok (s, os)) (i : Nat) (hi : i < os.length) :
    ∃ si si' : State L Pose, Inv start si (os.take i) ∧ Inv start si' (os.take (i + 1)) ∧
      StepFacts po si si' os[i] := by
  have hl := run_length ops po fs _ _ _ h
  obtain ⟨si, si', h1, h2⟩ := run_split ops po fs _ _ _ h i hi (by omega)
  have hI := inv_run ops po start map _ _ _ _ rfl h1
  have hS := step_facts ops po _ _ _ _ h2
  refine ⟨si, si', hI, ?_, hS⟩
  have := inv_step po start si si' _ _ hI hS
  rwa [List.take_append_getElem] at this

end RgbdSlam.Slam
