import Verif.Props.System
import Verif.Lemmas.CheckedMap
/-
C173: no assertion of the maps fails in the frame loop.
-/
namespace RgbdSlam.Map.Checked

open Keypoints (Handler Detected)

variable {P D Env Pose Det Desc Cam Shape : Type}

/-- A map left by a frame comes from a map before it, which gave fewer ids. -/
theorem step_back {k : FType → Kind P D Env} (hk : ∀ t, (k t).type = t) {cov : Env → Bool}
    {lt : Match → Match → Bool} {env : Pose → Det → Env} {dets : Det → FType → List D}
    {po : Slam.PoseOps Pose} {f : Slam.Frame (Outcome (World P)) Det Pose Match}
    {s s' : Slam.State (Outcome (World P)) Pose} {o : Slam.Out Pose} {v : World P}
    (h : Slam.step (localMapOps k cov lt env dets) po f s = .ok (s', o)) (hv : s'.localMap = .ok v) :
    ∃ w, s.localMap = .ok w ∧ Micros k w v := by
  obtain ⟨det, -, hc⟩ := step_map h
  dsimp only at hc
  cases hw : s.localMap with
  | ok w =>
    refine ⟨w, rfl, ?_⟩
    rw [hw] at hc
    let O := localMapOps k cov lt env dets
    have hf : (O.find s.currentPose det (.ok w)).1 =
      .ok (w.find k lt (env s.currentPose det) (dets det) order []).1 := rfl
    change (∃ opt out, s'.localMap = (O.update opt det out (O.find _ det (.ok w)).1).1 ∨
      s'.localMap = O.updateNoPose (O.update opt det out (O.find _ det (.ok w)).1).1) ∨
      s'.localMap = O.updateNoPose (O.find _ det (.ok w)).1 ∨
      s'.localMap = O.addAll _ det (O.updateNoPose (O.find _ det (.ok w)).1) at hc
    have hm := find_micros k lt (env s.currentPose det) (dets det) order w []
    rw [hf] at hc
    generalize (w.find k lt (env s.currentPose det) (dets det) order []).1 = w1 at hc hm
    have hu : ∀ opt out w2, (O.update opt det out (.ok w1)).1 = .ok w2 → Micros k w1 w2 := by
      intro opt out w2 h2
      change (w1.update k cov w1.budget (env opt det) (dets det) out).map (·.1) = _ at h2
      obtain ⟨r, h3, h4⟩ := Outcome.bind_eq_ok h2
      injection h4 with h4
      rw [← h4]
      exact update_micros hk h3
    have hno : ∀ L w2, O.updateNoPose L = .ok w2 → ∃ w3, L = .ok w3 ∧ Micros k w3 w2 := by
      intro L w2 h2
      cases L with
      | ok w3 =>
        injection h2 with h2
        exact ⟨w3, rfl, h2 ▸ noPose_micros k order w3⟩
      | _ => cases h2
    rcases hc with ⟨opt, out, hc | hc⟩ | hc | hc
    · exact hm.trans (hu opt out v (hc.symm.trans hv))
    · obtain ⟨w3, h3, h4⟩ := hno _ v (hc.symm.trans hv)
      exact hm.trans ((hu opt out w3 h3).trans h4)
    · obtain ⟨w3, h3, h4⟩ := hno _ v (hc.symm.trans hv)
      injection h3 with h3
      exact hm.trans (h3 ▸ h4)
    · have hc' := hc.symm.trans hv
      change ((w1.noPose k order).addAll k cov _ _).map (·.1) = _ at hc'
      obtain ⟨r, h3, h4⟩ := Outcome.bind_eq_ok hc'
      injection h4 with h4
      exact hm.trans ((noPose_micros k order w1).trans (h4 ▸ addAll_micros h3))
  | _ =>
    exfalso
    rw [hw] at hc
    rcases hc with ⟨opt, out, hc | hc⟩ | hc | hc <;> (rw [hv] at hc; cases hc)

theorem run_back {k : FType → Kind P D Env} (hk : ∀ t, (k t).type = t) {cov : Env → Bool}
    {lt : Match → Match → Bool} {env : Pose → Det → Env} {dets : Det → FType → List D}
    {po : Slam.PoseOps Pose} {frames : List (Slam.Frame (Outcome (World P)) Det Pose Match)}
    {s s' : Slam.State (Outcome (World P)) Pose} {outs : List (Slam.Out Pose)} {v : World P}
    (h : Slam.run (localMapOps k cov lt env dets) po frames s = .ok (s', outs))
    (hv : s'.localMap = .ok v) : ∃ w, s.localMap = .ok w ∧ Micros k w v := by
  induction frames generalizing s outs with
  | nil => injection h with h; injection h with h1 h2; exact ⟨v, by rw [h1, hv], .refl v⟩
  | cons f fs ih =>
    obtain ⟨⟨s1, o⟩, h1, h⟩ := Outcome.bind_eq_ok h
    obtain ⟨⟨s2, os⟩, h2, h⟩ := Outcome.bind_eq_ok h
    injection h with h
    injection h with h3 h4
    subst h3
    obtain ⟨w1, hw1, hm1⟩ := ih h2
    obtain ⟨w, hw, hm⟩ := step_back hk h1 hw1
    exact ⟨w, hw, hm.trans hm1⟩

/-- The pose optimisation of the frame only reports outliers among the matches it was given (C22). -/
def Honest {L Det : Type} (f : Slam.Frame L Det Pose Match) : Prop :=
  ∀ p ms p' out, f.optimize p ms = some (p', out) → ∀ m ∈ out, m ∈ ms

/-- The state of the tracker on the checked map. -/
def lift (s : Slam.State (Outcome (World P)) Pose) (w : World P) (seen : Option Nat) :
    Slam.State (Outcome (CWorld P)) Pose :=
  { currentPose := s.currentPose, isTrackingLost := s.isTrackingLost,
    failedTrackingCount := s.failedTrackingCount, isFirstTrackingCall := s.isFirstTrackingCall,
    computeKeypointCount := s.computeKeypointCount, totalFrameTreated := s.totalFrameTreated,
    localMap := .ok ⟨w, seen⟩ }

theorem step_ok {k : FType → Kind P D Env} (hk : ∀ t, (k t).type = t) {cov : Env → Bool}
    {lt : Match → Match → Bool} {env : Pose → Det → Env} {dets : Det → FType → List D}
    {po : Slam.PoseOps Pose} {f : Slam.Frame (Outcome (World P)) Det Pose Match}
    {s s' : Slam.State (Outcome (World P)) Pose} {o : Slam.Out Pose} {w v : World P}
    (h : Slam.step (localMapOps k cov lt env dets) po f s = .ok (s', o)) (hs : s.localMap = .ok w)
    (hv : s'.localMap = .ok v) (hlt : v.alloc.given < 2 ^ 64) (hw : WInv w)
    (hr : ∀ b t, InRange (k t) (env s.currentPose (f.detect (.ok w) s.currentPose b))
      (dets (f.detect (.ok w) s.currentPose b) t))
    (hout : ∀ b r, w.find k lt (env s.currentPose (f.detect (.ok w) s.currentPose b))
        (dets (f.detect (.ok w) s.currentPose b)) order [] = r →
      ∀ p out, f.optimize s.currentPose r.2 = some (p, out) →
        ∀ m ∈ out, m.detected < (r.1.maps m.type).flags.length)
    (n : Nat) (seen : Option Nat) :
    Slam.step (checkedOps k cov lt env dets) po (tag n f) (lift s w seen) = .ok (lift s' v (some n), o) := by
  generalize hO : localMapOps k cov lt env dets = O at h
  generalize hC : checkedOps k cov lt env dets = C
  unfold Slam.step at h
  unfold Slam.step
  by_cases hp : po.covValid s.currentPose = true
  · obtain ⟨b, hb⟩ : ∃ b, (s.isTrackingLost ||
      (s.computeKeypointCount % Slam.keypointRefreshFrequency + 1 == 1)) = b := ⟨_, rfl⟩
    obtain ⟨det, hdet⟩ : ∃ det, f.detect (.ok w) s.currentPose b = det := ⟨_, rfl⟩
    obtain ⟨⟨w1, ms⟩, hfind⟩ : ∃ r, w.find k lt (env s.currentPose det) (dets det) order [] = r := ⟨_, rfl⟩
    have hr := hr b
    have hout := hout b (w1, ms)
    rw [hdet] at hr hout
    have hout := hout hfind
    have hm : Micros k w w1 := by
      have := find_micros k lt (env s.currentPose det) (dets det) order w []
      rw [hfind] at this; exact this
    have hf : O.find s.currentPose det (.ok w) = (.ok w1, ms) := by
      rw [← hO]
      change ((.ok (w.find k lt (env s.currentPose det) (dets det) order []).1 : Outcome (World P)),
        (w.find k lt (env s.currentPose det) (dets det) order []).2) = _
      rw [hfind]
    have hf' : C.find s.currentPose (n, det) (.ok ⟨w, seen⟩) = (.ok ⟨w1, some n⟩, ms) := by
      rw [← hC]
      unfold checkedOps find
      dsimp only
      rw [Outcome.bind_ok, trackedAll_ok (winv_keyed hw), Outcome.bind_ok,
        findAll_ok hr order (winv_keyed hw) [], hfind]
      rfl
    have hdet' : (tag n f).detect (.ok ⟨w, seen⟩) s.currentPose b = (n, det) := by
      rw [← hdet]; rfl
    rw [if_pos hp] at h
    rw [if_pos (show po.covValid (lift s w seen).currentPose = true from hp)]
    simp only [hb, hs, hdet, hf] at h
    simp only [show (lift s w seen).currentPose = s.currentPose from rfl,
      show (lift s w seen).isTrackingLost = s.isTrackingLost from rfl,
      show (lift s w seen).failedTrackingCount = s.failedTrackingCount from rfl,
      show (lift s w seen).isFirstTrackingCall = s.isFirstTrackingCall from rfl,
      show (lift s w seen).computeKeypointCount = s.computeKeypointCount from rfl,
      show (lift s w seen).totalFrameTreated = s.totalFrameTreated from rfl,
      show (tag n f).optimize = f.optimize from rfl, hb, hdet',
      show (lift s w seen).localMap = .ok ⟨w, seen⟩ from rfl, hf']
    have key : ∀ {w2 : World P}, Micros k w1 w2 → Micros k w2 v → WInv w1 ∧ WInv w2 ∧
        w2.alloc.given < 2 ^ 64 := by
      intro w2 h1 h2
      have b2 := Nat.lt_of_le_of_lt (micros_given h2) hlt
      have b1 := Nat.lt_of_le_of_lt (micros_given h1) b2
      have i1 := winv_micros hm hw b1
      exact ⟨i1, winv_micros h1 i1 b2, b2⟩
    have hupd : ∀ p out w2 bad, (∀ m ∈ out, m.detected < (w1.maps m.type).flags.length) →
        w1.update k cov w1.budget (env p det) (dets det) out = .ok (w2, bad) → Micros k w2 v →
        C.update p (n, det) out (.ok ⟨w1, some n⟩) =
          (.ok ⟨w2, some n⟩, bad) := by
      intro p out w2 bad ho h1 h2
      obtain ⟨i1, -, b2⟩ := key (update_micros hk h1) h2
      rw [← hC]; unfold checkedOps
      dsimp only
      rw [Outcome.bind_ok, update_ok hk i1 ho h1 b2]
      rfl
    have hno : ∀ w2, WInv w2 → C.updateNoPose (.ok ⟨w2, some n⟩) =
        .ok ⟨w2.noPose k order, some n⟩ := by
      intro w2 i2
      rw [← hC]; unfold checkedOps
      dsimp only
      rw [Outcome.bind_ok, noPose_ok k order (winv_keyed i2)]
      rfl
    cases hopt : (if s.isFirstTrackingCall = true then none else f.optimize s.currentPose ms) with
    | some q =>
      obtain ⟨opt, out⟩ := q
      have hfo : f.optimize s.currentPose ms = some (opt, out) := by
        split at hopt
        · cases hopt
        · exact hopt
      have ho := hout opt out hfo
      have hu : O.update opt det out (.ok w1) =
        ((w1.update k cov w1.budget (env opt det) (dets det) out).map (·.1),
          (w1.update k cov w1.budget (env opt det) (dets det) out).holds (·.2)) := by rw [← hO]; rfl
      cases h1 : w1.update k cov w1.budget (env opt det) (dets det) out with
      | ok q2 =>
        obtain ⟨w2, bad⟩ := q2
        rw [h1] at hu
        replace hu : O.update opt det out (.ok w1) = (.ok w2, bad) := hu
        simp only [hopt, hu] at h
        by_cases hb : bad = true
        · rw [if_pos hb] at h
          injection h with h
          injection h with h2 h3
          have hv2 : v = w2.noPose k order := by
            rw [← h2, ← hO] at hv
            injection hv with hv
            exact hv.symm
          have hm2 : Micros k w2 v := hv2 ▸ noPose_micros k order w2
          simp only [hupd opt out w2 bad ho h1 hm2]
          rw [if_pos hb, hno w2 (key (update_micros hk h1) hm2).2.1, ← h2, ← h3, hv2]
          rfl
        · rw [if_neg hb] at h
          injection h with h
          injection h with h2 h3
          have hv2 : v = w2 := by
            rw [← h2] at hv
            injection hv with hv
            exact hv.symm
          simp only [hupd opt out w2 bad ho h1 (by rw [hv2]; exact .refl w2)]
          rw [if_neg hb, ← h2, ← h3, hv2]
          rfl
      | _ =>
        exfalso
        rw [h1] at hu
        have hu2 : (O.update opt det out (.ok w1)).2 = false := by rw [hu]; rfl
        have hu1 : ∀ w2, (O.update opt det out (.ok w1)).1 ≠ .ok w2 := fun w2 e => by rw [hu] at e; cases e
        obtain ⟨⟨L, bad⟩, hL⟩ : ∃ r, O.update opt det out (.ok w1) = r := ⟨_, rfl⟩
        rw [hL] at hu1 hu2
        simp only [hopt, hL] at h
        rw [if_neg (by rw [show bad = false from hu2]; simp)] at h
        injection h with h
        injection h with h2 h3
        rw [← h2] at hv
        exact hu1 v hv
    | none =>
      rw [hopt] at h
      dsimp only at h ⊢
      injection h with h
      injection h with h2 h3
      have hn1 : O.updateNoPose (.ok w1) = .ok (w1.noPose k order) := by rw [← hO]; rfl
      have hmn := noPose_micros k order w1
      rw [hn1] at h2
      by_cases hre : (s.isTrackingLost && po.posCovValid s.currentPose) = true
      · rw [if_pos hre] at h2
        have hv2 : ((w1.noPose k order).addAll k cov (env s.currentPose det) (dets det)).map (·.1) =
            .ok v := by
          rw [← h2, ← hO] at hv; exact hv
        obtain ⟨⟨w3, bad⟩, h4, h5⟩ := Outcome.bind_eq_ok hv2
        injection h5 with h5
        subst h5
        obtain ⟨i1, i2, -⟩ := key hmn (addAll_micros h4)
        rw [hno w1 i1, if_pos hre]
        have hadd : C.addAll s.currentPose (n, det)
            (.ok ⟨w1.noPose k order, some n⟩) = .ok ⟨w3, some n⟩ := by
          rw [← hC]; unfold checkedOps
          dsimp only
          rw [Outcome.bind_ok, addAll_ok i2 h4 hlt]
          rfl
        rw [hadd, ← h2, ← h3]; rfl
      · rw [if_neg hre] at h2
        have hv2 : w1.noPose k order = v := by
          rw [← h2] at hv
          injection hv with hv
        obtain ⟨i1, -, -⟩ := key hmn (hv2 ▸ .refl _)
        rw [hno w1 i1, if_neg hre, ← h2, ← h3, hv2]; rfl
  · rw [if_neg hp] at h
    cases h

/-! ### C173 -/

theorem run_ok (g2 g1 : PointGeo P Desc Cam) (op : PlaneOps P (Detected Desc ⊕ Shape) (Cam × Handler Desc))
    {cov : Cam × Handler Desc → Bool} {lt : Match → Match → Bool} {cam : Pose → Cam}
    {po : Slam.PoseOps Pose} (number : Nat → Nat)
    {frames : List (Slam.Frame (Outcome (World P)) (Handler Desc × List Shape) Pose Match)}
    (hf : ∀ f ∈ frames, Handled f) (ho : ∀ f ∈ frames, Honest f) (i : Nat)
    {s s' : Slam.State (Outcome (World P)) Pose} {outs : List (Slam.Out Pose)} {w v : World P}
    (h : Slam.run (localMapOps
        (programKinds (withShapes (handlerOps g2)) (withShapes (handlerOps g1)) op) cov lt
        (fun pose d => (cam pose, d.1)) frameDets) po frames s = .ok (s', outs))
    (hs : s.localMap = .ok w) (hact : ∀ t, (w.maps t).active = true) (hw : WInv w)
    (hv : s'.localMap = .ok v) (hlt : v.alloc.given < 2 ^ 64) (seen : Option Nat) :
    ∃ seen', Slam.run (checkedOps
        (programKinds (withShapes (handlerOps g2)) (withShapes (handlerOps g1)) op) cov lt
        (fun pose d => (cam pose, d.1)) frameDets) po (tagFrom number i frames) (lift s w seen) =
      .ok (lift s' v seen', outs) := by
  have hk := programKinds_type (withShapes (Shape := Shape) (handlerOps g2))
    (withShapes (Shape := Shape) (handlerOps g1)) op
  induction frames generalizing s outs w seen i with
  | nil =>
    injection h with h
    injection h with h1 h2
    subst h1 h2
    rw [hs] at hv
    injection hv with hv
    exact ⟨seen, by rw [← hv]; rfl⟩
  | cons f fs ih =>
    obtain ⟨⟨s1, o⟩, h1, h⟩ := Outcome.bind_eq_ok h
    obtain ⟨⟨s2, os⟩, h2, h⟩ := Outcome.bind_eq_ok h
    injection h with h
    injection h with h3 h4
    subst h3
    obtain ⟨w1, hw1, hm1⟩ := run_back hk h2 hv
    obtain ⟨w0, hw0, hm0⟩ := step_back hk h1 hw1
    rw [hs] at hw0
    injection hw0 with hw0
    subst hw0
    have hlt1 := Nat.lt_of_le_of_lt (micros_given hm1) hlt
    have hr : ∀ b t, InRange (programKinds (withShapes (handlerOps g2)) (withShapes (handlerOps g1)) op t)
        (cam s.currentPose, (f.detect (.ok w) s.currentPose b).1)
        (frameDets (f.detect (.ok w) s.currentPose b) t) := by
      intro b t
      obtain ⟨hh0, im, detected, descs, tracked, hset⟩ :=
        hf f List.mem_cons_self (.ok w) s.currentPose b
      obtain ⟨hfill, -⟩ := Keypoints.set_spec hset
      cases t with
      | point2d => exact inRange_point2d g2 _ hfill
      | point => exact inRange_point g1 _ hfill
      | plane => exact inRange_plane op _ _
    have hstep := step_ok hk h1 hs hw1 hlt1 hw hr (by
      rintro b ⟨w2, ms⟩ hfind p out hopt m hm
      have hm' := ho f List.mem_cons_self _ _ _ _ hopt m hm
      obtain ⟨-, g, hg, -, hgm⟩ := found_in_maps _ _ op lt hact _ _ w2 ms hfind m hm'
      have hready := find_ready (lt := lt) (hr b) hact [] m.type
      rw [hfind] at hready
      rw [hready.flags]
      rcases List.mem_append.1 hg with hg | hg
      · obtain ⟨p, hp, rfl⟩ := List.mem_map.1 hg
        exact hready.loc p hp _ hgm
      · obtain ⟨p, hp, rfl⟩ := List.mem_map.1 hg
        exact hready.stg p hp _ hgm) (containerId (number i)) seen
    obtain ⟨seen', hrun⟩ := ih (fun g hg => hf g (List.mem_cons_of_mem _ hg))
      (fun g hg => ho g (List.mem_cons_of_mem _ hg)) (i + 1) h2 hw1
      (fun t => (micros_active hm0 t).trans (hact t)) (winv_micros hm0 hw hlt1)
      (some (containerId (number i)))
    refine ⟨seen', ?_⟩
    rw [tagFrom, Slam.run, hstep, Outcome.bind_ok]
    dsimp only
    rw [hrun, Outcome.bind_ok, ← h4]

/-- For every history of frames, with any poses, any detections read from a keypoint handler, any camera
and feature geometry and a pose optimisation that only rejects matches it was given: as long as fewer than
2^64 ids were given, the program with all assertions and index checks of the maps goes through the same
states and returns the same poses as the program without them.  So no assertion of the maps fails and no
match flag out of range is written. -/
theorem C173_no_assertion_fails (g2 g1 : PointGeo P Desc Cam)
    (op : PlaneOps P (Detected Desc ⊕ Shape) (Cam × Handler Desc))
    (cov : Cam × Handler Desc → Bool) (lt : Match → Match → Bool) (cam : Pose → Cam)
    (po : Slam.PoseOps Pose) (start : Pose) (number : Nat → Nat)
    (frames : List (Slam.Frame (Outcome (World P)) (Handler Desc × List Shape) Pose Match))
    (hf : ∀ f ∈ frames, Handled f) (ho : ∀ f ∈ frames, Honest f)
    (s : Slam.State (Outcome (World P)) Pose) (outs : List (Slam.Out Pose))
    (h : Slam.run (localMapOps
        (programKinds (withShapes (handlerOps g2)) (withShapes (handlerOps g1)) op) cov lt
        (fun pose d => (cam pose, d.1)) frameDets) po frames (Slam.init start (.ok World.init)) =
      .ok (s, outs))
    (w : World P) (hw : s.localMap = .ok w) (hlt : w.alloc.given < 2 ^ 64) :
    ∃ s' seen, Slam.run (checkedOps
        (programKinds (withShapes (handlerOps g2)) (withShapes (handlerOps g1)) op) cov lt
        (fun pose d => (cam pose, d.1)) frameDets) po (tagFrom number 0 frames)
        (Slam.init start (.ok CWorld.init)) = .ok (s', outs) ∧
      s'.localMap = .ok ⟨w, seen⟩ ∧ s'.currentPose = s.currentPose ∧
      s'.isTrackingLost = s.isTrackingLost ∧ s'.failedTrackingCount = s.failedTrackingCount := by
  obtain ⟨seen, hrun⟩ := run_ok g2 g1 op number hf ho 0 h rfl (fun _ => rfl) winv_init hw hlt none
  exact ⟨lift s w seen, seen, hrun, rfl, rfl, rfl, rfl⟩

/-- The same without supposing that the calls on the maps return: with features that can be merged and
copied (the hypotheses of C65), the program with all assertions runs through every history of frames in
which the tracker does not leave through its exit for an invalid pose. -/
theorem C173_no_assertion_fails_total (g2 g1 : PointGeo P Desc Cam)
    (op : PlaneOps P (Detected Desc ⊕ Shape) (Cam × Handler Desc)) (G : FType → P → Prop)
    (E : Cam → Detected Desc ⊕ Shape → Prop) (hn : NoFailure g2 g1 op G E)
    (cov : Cam × Handler Desc → Bool) (c2 : ∀ e, g2.covValid e.1 = cov e)
    (c1 : ∀ e, g1.covValid e.1 = cov e) (cp : ∀ e, op.covValid e = cov e)
    (lt : Match → Match → Bool) (cam : Pose → Cam) (po : Slam.PoseOps Pose) (start : Pose)
    (number : Nat → Nat)
    (frames : List (Slam.Frame (Outcome (World P)) (Handler Desc × List Shape) Pose Match))
    (hf : ∀ f ∈ frames, Handled f) (hE : ∀ f ∈ frames, Suited cam E f) (ho : ∀ f ∈ frames, Honest f)
    (s : Slam.State (Outcome (World P)) Pose) (outs : List (Slam.Out Pose))
    (h : Slam.run (localMapOps
        (programKinds (withShapes (handlerOps g2)) (withShapes (handlerOps g1)) op) cov lt
        (fun pose d => (cam pose, d.1)) frameDets) po frames (Slam.init start (.ok World.init)) =
      .ok (s, outs)) :
    ∃ w, s.localMap = .ok w ∧ (w.alloc.given < 2 ^ 64 →
      ∃ s' seen, Slam.run (checkedOps
          (programKinds (withShapes (handlerOps g2)) (withShapes (handlerOps g1)) op) cov lt
          (fun pose d => (cam pose, d.1)) frameDets) po (tagFrom number 0 frames)
          (Slam.init start (.ok CWorld.init)) = .ok (s', outs) ∧ s'.localMap = .ok ⟨w, seen⟩) := by
  obtain ⟨w, hw, -⟩ := C65_frame_loop_keeps_running_partial g2 g1 op G E hn cov c2 c1 cp lt cam po start
    frames hf hE s outs h
  refine ⟨w, hw, fun hlt => ?_⟩
  obtain ⟨s', seen, hr, hl, -⟩ := C173_no_assertion_fails g2 g1 op cov lt cam po start number frames hf ho s
    outs h w hw hlt
  exact ⟨s', seen, hr, hl⟩

theorem containerId_ne {n m : Nat} (hn : n < 2 ^ 64) (hm : m < 2 ^ 64) (h : n ≠ m) :
    containerId n ≠ containerId m := by
  unfold containerId
  omega

/-- The assertion on the detections works: after a search with one container of detections, an update or an
insertion of all features with another container of the program (among the first 2^64) ends the program. -/
theorem C173_other_detections_refused (k : FType → Kind P D Env) (cov : Env → Bool)
    (lt : Match → Match → Bool) (fuel : Nat) (env env' : Env) (det det' : FType → List D) (n m : Nat)
    (hn : n < 2 ^ 64) (hm : m < 2 ^ 64) (hne : n ≠ m) (c c' : CWorld P) (ms out : List Match)
    (h : find k lt env (containerId n) det c = .ok (c', ms)) :
    update k cov fuel env' (containerId m) det' out c' = .terminate ∧
      (cov env' = true → addAll k cov env' (containerId m) det' c' = .terminate) := by
  obtain ⟨⟨w, ms'⟩, -, h2⟩ := Outcome.bind_eq_ok h
  injection h2 with h2
  injection h2 with h2 h3
  have hid := containerId_ne hn hm hne
  have hs : ∀ {α : Type} (r : Outcome α), sameDetections c' (containerId m) r = .terminate := by
    intro α r
    rw [← h2]
    exact if_neg hid
  refine ⟨hs _, fun hc => ?_⟩
  unfold addAll
  rw [hc, hs]
  rfl

/-- The frames of the demonstration. -/
def demoChecked (number : Nat → Nat) (n : Nat) : Outcome (Outcome (CWorld Keypoints.Pt)) :=
  (Map.seen 1000).bind fun h =>
    (Slam.run (checkedOps (programKinds (withShapes (handlerOps demoGeo)) (withShapes (handlerOps demoGeo)) noPlanes)
      (fun _ => true) (fun _ _ => false) (fun (_ : Nat) d => ((), d.1)) frameDets)
      ⟨fun _ => true, fun _ => true⟩ (tagFrom number 0 (List.replicate n (sameFrame h)))
      (Slam.init 0 (.ok CWorld.init))).map fun r => r.1.localMap

example : ((demoChecked id 4).holds fun L => L.holds fun c =>
    (c.world.maps .point).localMap.map (·.1) == [1] && c.seen == some 4) = true := by
  decide +kernel

example (h : Handler Nat) : Honest (sameFrame h) := by
  intro p ms p' out ho m hm
  injection ho with ho
  injection ho with h1 h2
  rw [← h2] at hm
  exact absurd hm List.not_mem_nil

/-- Outside the frame loop the assertions are not idle: the id compared by the first assertion has no value
until detections were searched, so that a call of `update` or `add_all_features_to_map` (with a valid
covariance) on a new map is undefined. -/
theorem C173_new_map_undefined (k : FType → Kind P D Env) (cov : Env → Bool) (fuel : Nat) (env : Env) (id : Nat)
    (det : FType → List D) (out : List Match) :
    update k cov fuel env id det out CWorld.init = .ub ∧
      (cov env = true → addAll k cov env id det CWorld.init = .ub) := by
  refine ⟨rfl, fun hc => ?_⟩
  unfold addAll
  rw [hc]
  rfl

/-- An outlier that is not a match found in the frame can name a detection that does not exist: writing its
flag is undefined. -/
theorem C173_foreign_outlier_undefined :
    ((demoChecked id 4).holds fun L => L.holds fun c =>
      match markAll [⟨.point, 1, 7⟩] order c.world with
      | .ub => true
      | _ => false) = true := by
  decide +kernel

end RgbdSlam.Map.Checked
