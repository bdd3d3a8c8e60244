import Verif.Lemmas.Slam
/-
Properties C01-C04: the frame loop of `RGBD_SLAM::track`, for every history of frames.

In all statements `frames` is the list of frames given to `track`, `outs` the list of what each call
showed.  `run = .ok` means that the process did not `exit` (it does so when the stored pose has an
invalid covariance, src/rgbd_slam.cpp:167-171).
-/
namespace RgbdSlam.Slam
open RgbdSlam.Spec.Slam

variable {L Det Pose Match : Type}

/-- C01. After each call, tracking is reported lost exactly when at most one frame was treated or the
last four frames (the first one aside) all failed. -/
theorem C01_lost_iff_recent_failures (ops : MapOps L Det Pose Match) (po : PoseOps Pose)
    (start : Pose) (map : L) (frames : List (Frame L Det Pose Match)) (s : State L Pose)
    (outs : List (Out Pose)) (h : run ops po frames (init start map) = .ok (s, outs))
    (hlen : frames.length ≤ 2 ^ 32) (i : Nat) (hi : i < outs.length) :
    (outs[i].lostAfter = true ↔ Lost ((outs.take (i + 1)).map (·.tracked))) := by
  obtain ⟨si, si', _, hI, hS⟩ := run_at ops po start map frames s outs h i hi
  have hl := run_length ops po frames _ _ _ h
  rw [hS.lost, hI.lost, hI.failed]
  have hle := trailingFailures_le ((outs.take (i + 1)).map (·.tracked)).tail
  simp only [List.length_tail, List.length_map, List.length_take] at hle
  have hlt : trailingFailures ((outs.take (i + 1)).map (·.tracked)).tail % uintSize
      = trailingFailures ((outs.take (i + 1)).map (·.tracked)).tail := by
    apply Nat.mod_eq_of_lt
    simp only [uintSize]
    omega
  rw [hlt]
  simp only [Lost, Bool.or_eq_true, decide_eq_true_eq, List.length_map]
  omega

/-- C01, the wrap: `_failedTrackingCount` is a 32 bit unsigned.  After a first frame and `2^32`
consecutive failures tracking is reported as not lost although the last `2^32` frames failed.  So the
length bound of `C01_lost_iff_recent_failures` cannot be dropped. -/
theorem C01_wrap (ops : MapOps L Det Pose Match) (po : PoseOps Pose)
    (start : Pose) (map : L) (frames : List (Frame L Det Pose Match)) (s : State L Pose)
    (outs : List (Out Pose)) (h : run ops po frames (init start map) = .ok (s, outs))
    (hlen : frames.length = 2 ^ 32 + 1) (hfail : ∀ o ∈ outs, o.tracked = false) :
    s.isTrackingLost = false ∧ Lost (outs.map (·.tracked)) := by
  have hI := inv_run ops po start map _ frames s outs rfl h
  have hl := run_length ops po frames _ _ _ h
  have hall : ∀ (l : List Bool), (∀ b ∈ l, b = false) → trailingFailures l = l.length := by
    intro l hl
    have aux : ∀ m : List Bool, (∀ b ∈ m, b = false) → m.takeWhile (fun b => !b) = m := by
      intro m
      induction m with
      | nil => simp
      | cons a m ih =>
        intro hm
        simp [hm a (by simp), ih (fun b hb => hm b (by simp [hb]))]
    unfold trailingFailures
    rw [aux]
    · simp
    · intro x hx
      exact hl x (by simpa using hx)
  have ht : trailingFailures (outs.map (·.tracked)).tail = 2 ^ 32 := by
    rw [hall]
    · simp; omega
    · intro b hb
      obtain ⟨o, ho, rfl⟩ := List.mem_map.mp (List.mem_of_mem_tail hb)
      exact hfail o ho
  constructor
  · rw [hI.lost, hI.failed, ht, hl, hlen]; decide
  · right; rw [ht]; decide

/-- C01, consequence in words of the API: a tracked frame clears the lost status, and the three frames
after it cannot raise it. -/
theorem C01_three_failures_tolerated (ops : MapOps L Det Pose Match) (po : PoseOps Pose)
    (start : Pose) (map : L) (frames : List (Frame L Det Pose Match)) (s : State L Pose)
    (outs : List (Out Pose)) (h : run ops po frames (init start map) = .ok (s, outs))
    (i j : Nat) (hi : i < outs.length) (hij : i ≤ j) (hj : j ≤ i + 3) (hjl : j < outs.length)
    (ht : outs[i].tracked = true) : outs[j].lostAfter = false := by
  obtain ⟨si, si', hI0, hI, hS⟩ := run_at ops po start map frames s outs h i hi
  -- the counter after frame `i + k` is at most `k`
  have key : ∀ k, ∀ hk : i + k < outs.length, k ≤ 3 →
      ∃ t : State L Pose, Inv start t (outs.take (i + k + 1)) ∧ t.failedTrackingCount ≤ k ∧
        t.isTrackingLost = outs[i + k].lostAfter ∧ t.isFirstTrackingCall = false ∧
        outs[i + k].lostAfter = false := by
    intro k
    induction k with
    | zero =>
      intro hk _
      have hf : si.isFirstTrackingCall = false := by
        cases hf : si.isFirstTrackingCall
        · rfl
        · have h1 := hS.first hf
          have h2 := hS.tracked ht
          simp [h1] at h2
      refine ⟨si', hI, ?_, hS.lost.symm, hS.first', ?_⟩
      · rw [hS.failed']; simp [hf, ht]
      · show outs[i].lostAfter = false
        rw [hS.lost, hS.lost', hS.failed']; simp [hf, ht]
    | succ k ih =>
      intro hk hk3
      obtain ⟨t, hIt, hle, hlost, hf, _⟩ := ih (by omega) (by omega)
      obtain ⟨t1, t2, hJ, hJ', hT⟩ := run_at ops po start map frames s outs h (i + (k + 1)) hk
      have e1 : t1.failedTrackingCount = t.failedTrackingCount := by
        rw [hJ.failed, hIt.failed]; rfl
      have e2 : t1.isFirstTrackingCall = false := by
        rw [hJ.first, ← hf, hIt.first]; rfl
      have hc : t2.failedTrackingCount ≤ k + 1 := by
        rw [hT.failed', e1]
        simp only [e2, Bool.false_eq_true, if_false]
        split
        · omega
        · exact Nat.le_trans (Nat.mod_le _ _) (by omega)
      refine ⟨t2, hJ', hc, hT.lost.symm, hT.first', ?_⟩
      rw [hT.lost, hT.lost']
      simp only [e2, Bool.false_eq_true, if_false, decide_eq_false_iff_not]
      omega
  obtain ⟨k, rfl⟩ := Nat.exists_eq_add_of_le hij
  exact (key k hjl (by omega)).choose_spec.2.2.2.2

/-- C02. The pose returned by each call is the most recent optimised pose, or the start pose. -/
theorem C02_returns_last_optimized (ops : MapOps L Det Pose Match) (po : PoseOps Pose)
    (start : Pose) (map : L) (frames : List (Frame L Det Pose Match)) (s : State L Pose)
    (outs : List (Out Pose)) (h : run ops po frames (init start map) = .ok (s, outs))
    (i : Nat) (hi : i < outs.length) :
    outs[i].returned = lastPose start ((outs.take (i + 1)).map (·.optimized)) := by
  obtain ⟨si, si', _, hI, hS⟩ := run_at ops po start map frames s outs h i hi
  rw [hS.pose, hI.pose]

/-- C02. The first call always returns the start pose, and no pose is optimised in it. -/
theorem C02_first_returns_start (ops : MapOps L Det Pose Match) (po : PoseOps Pose)
    (start : Pose) (map : L) (frames : List (Frame L Det Pose Match)) (s : State L Pose)
    (outs : List (Out Pose)) (h : run ops po frames (init start map) = .ok (s, outs))
    (hi : 0 < outs.length) : outs[0].returned = start ∧ outs[0].optimized = none := by
  obtain ⟨si, si', hI0, _, hS⟩ := run_at ops po start map frames s outs h 0 hi
  have ho := hS.first (by rw [hI0.first]; rfl)
  refine ⟨?_, ho⟩
  rw [hS.pose, hS.poseEq, ho, hI0.pose]
  rfl

/-- C02. A call without optimised pose returns the same pose as the call before it. -/
theorem C02_failed_frame_keeps_pose (ops : MapOps L Det Pose Match) (po : PoseOps Pose)
    (start : Pose) (map : L) (frames : List (Frame L Det Pose Match)) (s : State L Pose)
    (outs : List (Out Pose)) (h : run ops po frames (init start map) = .ok (s, outs))
    (i : Nat) (hi : i + 1 < outs.length) (hn : outs[i + 1].optimized = none) :
    outs[i + 1].returned = outs[i].returned := by
  rw [C02_returns_last_optimized ops po start map frames s outs h (i + 1) hi,
    C02_returns_last_optimized ops po start map frames s outs h i (by omega)]
  have ht : outs.take (i + 1 + 1) = outs.take (i + 1) ++ [outs[i + 1]] := by
    rw [List.take_append_getElem]
  rw [ht, List.map_append, List.map_singleton, hn, lastPose_snoc]
  rfl

/-- C03. Keypoint detection is forced on a frame exactly when tracking was lost before it (which
includes the first frame) or its position is a multiple of five. -/
theorem C03_forced_iff (ops : MapOps L Det Pose Match) (po : PoseOps Pose)
    (start : Pose) (map : L) (frames : List (Frame L Det Pose Match)) (s : State L Pose)
    (outs : List (Out Pose)) (h : run ops po frames (init start map) = .ok (s, outs))
    (i : Nat) (hi : i < outs.length) :
    (outs[i].forcedDetection = true ↔
      (i = 0 ∨ (∃ hp : i - 1 < outs.length, 0 < i ∧ outs[i - 1].lostAfter = true)) ∨ i % 5 = 0) := by
  obtain ⟨si, si', hI0, _, hS⟩ := run_at ops po start map frames s outs h i hi
  rw [hS.forced]
  cases i with
  | zero =>
    have : si.isTrackingLost = true := by rw [hI0.lost]; simp
    simp [this]
  | succ j =>
    obtain ⟨sj, sj', _, hJ, hT⟩ := run_at ops po start map frames s outs h j (by omega)
    have e : si.isTrackingLost = outs[j].lostAfter := by
      rw [hT.lost, hI0.lost, hJ.lost, hI0.failed, hJ.failed]
    have hne : outs.take (j + 1) ≠ [] := by
      intro hc
      have := congrArg List.length hc
      simp at this
      subst this
      simp at hi
    have hl : (outs.take (j + 1)).length = j + 1 := by simp; omega
    rw [hI0.count hne, hl, e]
    simp only [Nat.add_sub_cancel, Bool.or_eq_true, beq_iff_eq, Nat.succ_ne_zero, false_or,
      Nat.zero_lt_succ, true_and]
    constructor
    · rintro (h1 | h1)
      · exact Or.inl ⟨by omega, h1⟩
      · right; omega
    · rintro (⟨_, h1⟩ | h1)
      · exact Or.inl h1
      · right; omega

/-- C03. Among any five consecutive frames keypoint detection is forced at least once. -/
theorem C03_forced_in_every_window (ops : MapOps L Det Pose Match) (po : PoseOps Pose)
    (start : Pose) (map : L) (frames : List (Frame L Det Pose Match)) (s : State L Pose)
    (outs : List (Out Pose)) (h : run ops po frames (init start map) = .ok (s, outs))
    (i : Nat) (hi : i + 4 < outs.length) :
    ∃ j, ∃ hj : j < outs.length, i ≤ j ∧ j ≤ i + 4 ∧ outs[j].forcedDetection = true := by
  refine ⟨i + (5 - i % 5) % 5, by omega, by omega, by omega, ?_⟩
  rw [C03_forced_iff ops po start map frames s outs h]
  right
  omega

/-- C04. A frame re-seeds the map exactly when it has no optimised pose, tracking was lost before it
(or it is the first frame) and the position covariance of the pose in use is valid. -/
theorem C04_reseeded_iff (ops : MapOps L Det Pose Match) (po : PoseOps Pose)
    (start : Pose) (map : L) (frames : List (Frame L Det Pose Match)) (s : State L Pose)
    (outs : List (Out Pose)) (h : run ops po frames (init start map) = .ok (s, outs))
    (i : Nat) (hi : i < outs.length) :
    (outs[i].reseeded = true ↔ outs[i].optimized = none ∧ po.posCovValid outs[i].returned = true ∧
      (i = 0 ∨ (∃ hp : i - 1 < outs.length, 0 < i ∧ outs[i - 1].lostAfter = true))) := by
  obtain ⟨si, si', hI0, _, hS⟩ := run_at ops po start map frames s outs h i hi
  rw [hS.reseed]
  have hret : outs[i].optimized = none → outs[i].returned = si.currentPose := by
    intro hn; rw [hS.pose, hS.poseEq, hn]; rfl
  have hlost : (si.isTrackingLost = true ↔
      (i = 0 ∨ (∃ hp : i - 1 < outs.length, 0 < i ∧ outs[i - 1].lostAfter = true))) := by
    cases i with
    | zero => rw [hI0.lost]; simp
    | succ j =>
      obtain ⟨sj, sj', _, hJ, hT⟩ := run_at ops po start map frames s outs h j (by omega)
      have e : si.isTrackingLost = outs[j].lostAfter := by
        rw [hT.lost, hI0.lost, hJ.lost, hI0.failed, hJ.failed]
      rw [e]
      constructor
      · intro h1; exact Or.inr ⟨by simpa using (by omega : j < outs.length), by omega, h1⟩
      · rintro (h1 | ⟨_, _, h1⟩)
        · omega
        · exact h1
  rw [← hlost]
  simp only [Bool.and_eq_true, Option.isNone_iff_eq_none]
  constructor
  · rintro ⟨⟨h1, h2⟩, h3⟩; exact ⟨h1, by rw [hret h1]; exact h3, h2⟩
  · rintro ⟨h1, h3, h2⟩; exact ⟨⟨h1, h2⟩, by rw [hret h1] at h3; exact h3⟩

/-- C04. From the third frame on, a frame re-seeds the map only if the four frames before it all failed
(and were not the first frame). -/
theorem C04_reseed_needs_four_failures (ops : MapOps L Det Pose Match) (po : PoseOps Pose)
    (start : Pose) (map : L) (frames : List (Frame L Det Pose Match)) (s : State L Pose)
    (outs : List (Out Pose)) (h : run ops po frames (init start map) = .ok (s, outs))
    (hlen : frames.length ≤ 2 ^ 32) (i : Nat) (hi : i < outs.length) (h2 : 2 ≤ i)
    (hr : outs[i].reseeded = true) :
    5 ≤ i ∧ ∀ k, 1 ≤ k → k ≤ 4 → ∃ hk : i - k < outs.length, outs[i - k].tracked = false := by
  have h1 := ((C04_reseeded_iff ops po start map frames s outs h i hi).mp hr).2.2
  rcases h1 with h1 | ⟨hp, _, h1⟩
  · omega
  · have h3 := (C01_lost_iff_recent_failures ops po start map frames s outs h hlen (i - 1) hp).mp h1
    have e : i - 1 + 1 = i := by omega
    rw [e] at h3
    rcases h3 with h3 | h3
    · simp at h3; omega
    · have hlt := trailingFailures_le ((outs.take i).map (·.tracked)).tail
      simp only [List.length_tail, List.length_map, List.length_take] at hlt
      have hi5 : 5 ≤ i := by omega
      refine ⟨hi5, fun k hk1 hk4 => ⟨by omega, ?_⟩⟩
      -- the last `4` entries of the history are failures
      have gen : ∀ (n : Nat) (l : List Bool), n ≤ trailingFailures l →
          ∀ k, (hk : 1 ≤ k) → (hkn : k ≤ n) → ∃ hx : l.length - k < l.length,
            l[l.length - k] = false := by
        intro n
        induction n with
        | zero => intro l _ k hk hkn; omega
        | succ n ih =>
          intro l hl k hk hkn
          rcases l.eq_nil_or_concat with rfl | ⟨l', b, hx⟩
          · simp [trailingFailures] at hl
          · rw [List.concat_eq_append] at hx
            subst hx
            rw [trailingFailures_snoc] at hl
            cases b
            · simp only [Bool.false_eq_true, if_false] at hl
              by_cases hk1 : k = 1
              · subst hk1
                exact ⟨by simp, by simp⟩
              · obtain ⟨hx, hv⟩ := ih l' (by omega) (k - 1) (by omega) (by omega)
                refine ⟨by simp; omega, ?_⟩
                have e2 : (l' ++ [false]).length - k = l'.length - (k - 1) := by simp; omega
                simp only [e2]
                rw [List.getElem_append_left hx]
                exact hv
            · simp at hl
      obtain ⟨hx, hv⟩ := gen 4 _ h3 k hk1 hk4
      have hl' : ((outs.take i).map (·.tracked)).tail.length = i - 1 := by
        simp; omega
      simp only [hl'] at hv
      simp only [List.getElem_tail, List.getElem_map, List.getElem_take] at hv
      have e3 : i - 1 - k + 1 = i - k := by omega
      simp only [e3] at hv
      exact hv

/-! ### Witnesses: a concrete system with non trivial histories -/

namespace Example
/-- Poses are numbers, always valid; the map counts how many times it was re-seeded. -/
def ops : MapOps Nat Unit Nat Unit :=
  { find := fun _ _ m => (m, [()]), update := fun p _ _ m => (m, p == 13),
    updateNoPose := fun m => m, addAll := fun _ _ m => m + 1 }
def po : PoseOps Nat := { covValid := fun _ => true, posCovValid := fun _ => true }
def fail : Frame Nat Unit Nat Unit := { detect := fun _ _ _ => (), optimize := fun _ _ => none }
def good (p : Nat) : Frame Nat Unit Nat Unit :=
  { detect := fun _ _ _ => (), optimize := fun _ _ => some (p, []) }
def frames : List (Frame Nat Unit Nat Unit) :=
  [fail, good 7, fail, fail, good 13, fail, fail, good 9, fail]

/-- The hypotheses of C01-C04 are met by a history with successes, failures, a throwing map update
(pose 13) and re-seeding; the observed answers are the expected ones. -/
example : ∃ s outs, run ops po frames (init 3 0) = .ok (s, outs) ∧
    outs.map (·.lostAfter) = [true, false, false, false, false, true, true, false, false] ∧
    outs.map (·.returned) = [3, 7, 7, 7, 13, 13, 13, 9, 9] ∧
    outs.map (·.forcedDetection) = [true, true, false, false, false, true, true, true, false] ∧
    outs.map (·.reseeded) = [true, false, false, false, false, false, true, false, false] ∧
    s.localMap = 2 := by
  refine ⟨_, _, rfl, ?_, ?_, ?_, ?_, ?_⟩ <;> decide

/-- The hypotheses of `C01_wrap` are met: any number of failing frames can be run. -/
theorem all_fail : ∀ (n : Nat) (st : State Nat Nat), ∃ s outs,
    run ops po (List.replicate n fail) st = .ok (s, outs) ∧ ∀ o ∈ outs, o.tracked = false := by
  intro n
  induction n with
  | zero => intro st; exact ⟨st, [], rfl, by simp⟩
  | succ n ih =>
    intro st
    have hs : ∃ s1 o1, step ops po fail st = .ok (s1, o1) ∧ o1.tracked = false := by
      cases hf : st.isFirstTrackingCall <;> simp only [step, po, fail, hf, if_true] <;>
        exact ⟨_, _, rfl, rfl⟩
    obtain ⟨s1, o1, h1, ho⟩ := hs
    obtain ⟨s, outs, h2, h3⟩ := ih s1
    refine ⟨s, o1 :: outs, ?_, ?_⟩
    · simp [List.replicate_succ, run, h1, h2]
    · intro o ho'
      rcases List.mem_cons.mp ho' with rfl | h4
      · exact ho
      · exact h3 o h4

example (n : Nat) (hn : n = 2 ^ 32 + 1) :
    ∃ s outs, run ops po (List.replicate n fail) (init 3 0) = .ok (s, outs) ∧
    s.isTrackingLost = false := by
  obtain ⟨s, outs, h1, h2⟩ := all_fail n (init 3 0)
  exact ⟨s, outs, h1, (C01_wrap ops po 3 0 _ s outs h1 (by rw [List.length_replicate, hn]) h2).1⟩

/-- A process whose pose covariance is invalid exits at the first frame. -/
example : run ops { po with covValid := fun _ => false } [fail] (init 3 0) = .exit := rfl
end Example

end RgbdSlam.Slam
