import Verif.Props.LocalMap
import Verif.Lemmas.Slam
/-
The frame loop on the local map: C65 (no call of the frame loop on the map leaves the detections of the
frame, fails an assertion or hangs) and C66 (every map the frame loop produces is a reachable one).
-/
namespace RgbdSlam.Map

open Keypoints (Handler Detected)

variable {P D Env Pose Det : Type}

/-- A property of the map kept by the calls of one frame is kept by the whole history. -/
theorem run_keeps {L Match : Type} {ops : Slam.MapOps L Det Pose Match} {po : Slam.PoseOps Pose}
    {I : L → Prop} {frames : List (Slam.Frame L Det Pose Match)}
    (hI : ∀ f ∈ frames, ∀ s s' o, I s.localMap → Slam.step ops po f s = .ok (s', o) → I s'.localMap)
    {s s' : Slam.State L Pose} {outs : List (Slam.Out Pose)} (h0 : I s.localMap)
    (h : Slam.run ops po frames s = .ok (s', outs)) : I s'.localMap := by
  induction frames generalizing s outs with
  | nil => injection h with h; injection h with h1 h2; rw [← h1]; exact h0
  | cons f fs ih =>
    obtain ⟨⟨s1, o⟩, h1, h⟩ := Outcome.bind_eq_ok h
    obtain ⟨⟨s2, os⟩, h2, h⟩ := Outcome.bind_eq_ok h
    injection h with h
    injection h with h3 h4
    subst h3
    exact ih (fun g hg => hI g (List.mem_cons_of_mem _ hg)) (hI f List.mem_cons_self _ _ _ h0 h1) h2

/-- The map after one frame. -/
theorem step_map {L Match : Type} {ops : Slam.MapOps L Det Pose Match} {po : Slam.PoseOps Pose}
    {f : Slam.Frame L Det Pose Match} {s s' : Slam.State L Pose} {o : Slam.Out Pose}
    (h : Slam.step ops po f s = .ok (s', o)) :
    ∃ det, (∃ b, det = f.detect s.localMap s.currentPose b) ∧
      let m1 := (ops.find s.currentPose det s.localMap).1
      (∃ opt out, s'.localMap = (ops.update opt det out m1).1 ∨
        s'.localMap = ops.updateNoPose (ops.update opt det out m1).1) ∨
      s'.localMap = ops.updateNoPose m1 ∨ 
      s'.localMap = ops.addAll s.currentPose det (ops.updateNoPose m1) := by
  unfold Slam.step at h
  split at h
  · refine ⟨f.detect s.localMap s.currentPose (s.isTrackingLost ||
      (s.computeKeypointCount % Slam.keypointRefreshFrequency + 1 == 1)), ⟨_, rfl⟩, ?_⟩
    simp only at h
    split at h
    · rename_i opt out _
      split at h
      · injection h with h; injection h with h1 h2
        exact .inl ⟨opt, out, .inr (by rw [← h1])⟩
      · injection h with h; injection h with h1 h2
        exact .inl ⟨opt, out, .inl (by rw [← h1])⟩
    · injection h with h; injection h with h1 h2
      rw [← h1]
      simp only
      split
      · exact .inr (.inr rfl)
      · exact .inr (.inl rfl)
  · cases h

theorem run_append {k : FType → Kind P D Env} {cov : Env → Bool} {a b : List (WOp D Env)} {w w1 w2 : World P}
    (h1 : World.run k cov a w = .ok w1) (h2 : World.run k cov b w1 = .ok w2) :
    World.run k cov (a ++ b) w = .ok w2 := by
  induction a generalizing w with
  | nil => injection h1 with h1; rw [h1]; exact h2
  | cons op ops ih =>
    obtain ⟨w3, h3, h1⟩ := Outcome.bind_eq_ok h1
    change (World.step k cov op w).bind _ = _
    rw [h3]; exact ih h1

/-! ### C66 -/

/-- Every content of the local map that a history of frames produces (detectors, pose optimisation and
poses being arbitrary) is the result of a sequence of calls of the public operations of the local map:
the properties of all such sequences (C12, C21, C62, C63 and with C62 all those of the single maps) hold
after every frame of every run of the program. -/
theorem C66_frame_loop_maps_reachable (k : FType → Kind P D Env) (cov : Env → Bool)
    (lt : Match → Match → Bool) (env : Pose → Det → Env) (dets : Det → FType → List D)
    (po : Slam.PoseOps Pose) (start : Pose)
    (frames : List (Slam.Frame (Outcome (World P)) Det Pose Match))
    (s : Slam.State (Outcome (World P)) Pose) (outs : List (Slam.Out Pose))
    (h : Slam.run (localMapOps k cov lt env dets) po frames (Slam.init start (.ok World.init)) = .ok (s, outs))
    (w : World P) (hw : s.localMap = .ok w) :
    ∃ ops : List (WOp D Env), World.run k cov ops World.init = .ok w := by
  let I : Outcome (World P) → Prop := fun L => ∀ w, L = .ok w →
    ∃ ops : List (WOp D Env), World.run k cov ops World.init = .ok w
  have one : ∀ (L : Outcome (World P)) (L' : World P → Outcome (World P)) (op : World P → WOp D Env),
      (∀ w, L' w = World.step k cov (op w) w) → I L → I (L.bind L') := by
    intro L L' op hop hL w hw
    obtain ⟨w1, h1, h2⟩ := Outcome.bind_eq_ok hw
    obtain ⟨ops, ho⟩ := hL w1 h1
    refine ⟨ops ++ [op w1], run_append ho ?_⟩
    change (World.step k cov (op w1) w1).bind _ = _
    rw [← hop, h2]; rfl
  let O := localMapOps k cov lt env dets
  have hfind : ∀ p d L, I L → I (O.find p d L).1 := by
    intro p d L hL
    have : (O.find p d L).1 = L.bind fun w => .ok (w.find k lt (env p d) (dets d) order []).1 := by
      cases L <;> rfl
    rw [this]
    exact one L _ (fun _ => .find lt (env p d) (dets d)) (fun _ => rfl) hL
  have hupd : ∀ p d ms L, I L → I (O.update p d ms L).1 := by
    intro p d ms L hL
    have : (O.update p d ms L).1 = L.bind fun w =>
        (w.update k cov w.budget (env p d) (dets d) ms).map (·.1) := by
      cases L <;> rfl
    rw [this]
    exact one L _ (fun w => .update w.budget (env p d) (dets d) ms) (fun _ => rfl) hL
  have hno : ∀ L, I L → I (O.updateNoPose L) := by
    intro L hL
    have : O.updateNoPose L = L.bind fun w => .ok (w.noPose k order) := by cases L <;> rfl
    rw [this]
    exact one L _ (fun _ => .noPose) (fun _ => rfl) hL
  have hadd : ∀ p d L, I L → I (O.addAll p d L) := by
    intro p d L hL
    have : O.addAll p d L = L.bind fun w => (w.addAll k cov (env p d) (dets d)).map (·.1) := by
      cases L <;> rfl
    rw [this]
    exact one L _ (fun _ => .addAll (env p d) (dets d)) (fun _ => rfl) hL
  have := run_keeps (I := I) (ops := O) (fun f _ s s' o h0 hs => by
    obtain ⟨det, -, hcase⟩ := step_map hs
    simp only at hcase
    rcases hcase with ⟨opt, out, hc | hc⟩ | hc | hc <;> rw [hc]
    · exact hupd _ _ _ _ (hfind _ _ _ h0)
    · exact hno _ (hupd _ _ _ _ (hfind _ _ _ h0))
    · exact hno _ (hfind _ _ _ h0)
    · exact hadd _ _ _ (hno _ (hfind _ _ _ h0))) (fun w hw => ⟨[], hw⟩) h
  exact this w hw

/-! ### C65 -/

variable {Desc Cam Shape : Type}

theorem inRange_plane (o : PlaneOps P D Env) (env : Env) (det : List D) : InRange (planeKind o) env det := by
  intro f fl b adv hfl i hi
  rcases (exclusive_plane o env det).find f fl b adv hfl i hi with h | h
  · have := h.1
    rw [← hfl]
    exact (List.getElem?_eq_some_iff.1 this).1
  · exact h.elim

theorem detections_length (h : Handler Desc) : (Keypoints.detections h).length = h.keypoints.length := by
  simp [Keypoints.detections]

theorem inRange_point (g : PointGeo P Desc Cam) (c : Cam) {h : Handler Desc} {detected : List Keypoints.Pt}
    {tracked : List Keypoints.Tracked} (hf : Keypoints.Filled h detected tracked) :
    InRange (pointKind (withShapes (Shape := Shape) (handlerOps g))) (c, h)
      ((Keypoints.detections h).map .inl) := by
  intro f fl b adv hfl i hi
  have hlen : (((Keypoints.detections h).map .inl : List (Detected Desc ⊕ Shape))).length =
      (Keypoints.detections h).length := by simp
  rw [hlen] at hfl ⊢
  have hi' : i ∈ ((pointKind (handlerOps g)).findMatches (c, h) (Keypoints.detections h) f fl b adv).1 := hi
  rcases (exclusive_point g c hf (Keypoints.detections h)).find f fl b adv hfl i hi' with h1 | h1
  · rw [← hfl]
    exact (List.getElem?_eq_some_iff.1 h1.1).1
  · rw [keypoints_length hf]
    obtain ⟨t, h2, h3, -⟩ := trackIndex_spec hf h1
    have := (List.getElem?_eq_some_iff.1 h2).1
    omega

theorem inRange_point2d (g : PointGeo P Desc Cam) (c : Cam) {h : Handler Desc}
    {detected : List Keypoints.Pt} {tracked : List Keypoints.Tracked}
    (hf : Keypoints.Filled h detected tracked) :
    InRange (point2dKind (withShapes (Shape := Shape) (handlerOps g))) (c, h)
      ((Keypoints.detections h).map .inl) := by
  intro f fl b adv hfl i hi
  have hlen : (((Keypoints.detections h).map .inl : List (Detected Desc ⊕ Shape))).length =
      (Keypoints.detections h).length := by simp
  rw [hlen] at hfl ⊢
  have hi' : i ∈ ((point2dKind (handlerOps g)).findMatches (c, h) (Keypoints.detections h) f fl b adv).1 := hi
  rcases (exclusive_point2d g c hf (Keypoints.detections h)).find f fl b adv hfl i hi' with h1 | h1
  · rw [← hfl]
    exact (List.getElem?_eq_some_iff.1 h1.1).1
  · exact h1.elim

/-- What the feature types are assumed to do, for some property `G` of the features that their constructors
establish: merging a detection into a feature returns, copying a candidate into the map does not throw, and
both keep the property.  `E` is what is asked of the camera and the detections of the frames. -/
structure NoFailure (g2 g1 : PointGeo P Desc Cam)
    (op : PlaneOps P (Detected Desc ⊕ Shape) (Cam × Handler Desc)) (G : FType → P → Prop)
    (E : Cam → Detected Desc ⊕ Shape → Prop) : Prop where
  update2 : ∀ c d b, g2.covValid c = true → E c (.inl d) → G .point2d b →
    ∃ b' r, g2.update c d b = .ok (b', r) ∧ G .point2d b'
  update1 : ∀ c d b, g1.covValid c = true → E c (.inl d) → G .point b →
    ∃ b' r, g1.update c d b = .ok (b', r) ∧ G .point b'
  updateP : ∀ e d b, op.covValid e = true → E e.1 d → G .plane b →
    ∃ b' r, op.update e d b = .ok (b', r) ∧ G .plane b'
  copy2 : ∀ b, G .point2d b → ∃ b', g2.copy b = some b' ∧ G .point2d b'
  copy1 : ∀ b, G .point b → ∃ b', g1.copy b = some b' ∧ G .point b'
  copyP : ∀ b, G .plane b → ∃ b', op.copy b = some b' ∧ G .plane b'
  build2 : ∀ c d b, g2.covValid c = true → E c (.inl d) → d.desc.isSome = true →
    depthValid d.kp.depth = false → g2.build c d = some b → G .point2d b
  build1 : ∀ c d b, g1.covValid c = true → E c (.inl d) → d.desc.isSome = true →
    depthValid d.kp.depth = true → g1.build c d = some b → G .point b
  buildP : ∀ e d b, op.covValid e = true → E e.1 d → op.build e d = some b → G .plane b
  upgraded : ∀ c b u b', G .point2d b → g2.upgrade c b = some u → g1.buildUpgraded u = some b' → G .point b'

/-- The detections of every frame come from a keypoint handler filled by `set`. -/
def Handled (f : Slam.Frame (Outcome (World P)) (Handler Desc × List Shape) Pose Match) : Prop :=
  ∀ L p b, ∃ h0 im detected descs tracked,
    Keypoints.set im detected descs tracked h0 = .ok (f.detect L p b).1

theorem sound_program {g2 g1 : PointGeo P Desc Cam}
    {op : PlaneOps P (Detected Desc ⊕ Shape) (Cam × Handler Desc)} {G : FType → P → Prop}
    {E : Cam → Detected Desc ⊕ Shape → Prop} (hn : NoFailure g2 g1 op G E)
    {cov : Cam × Handler Desc → Bool} (c2 : ∀ e, g2.covValid e.1 = cov e) (c1 : ∀ e, g1.covValid e.1 = cov e)
    (cp : ∀ e, op.covValid e = cov e) :
    Sound (programKinds (withShapes (handlerOps g2)) (withShapes (handlerOps g1)) op) cov G
      (fun e d => E e.1 d) where
  keeps t := by
    refine ⟨fun e d f hc he hf => ?_, fun f hf => ?_, fun e d b hc he hcan hb => ?_⟩
    · cases t with
      | point2d =>
        simp only [programKinds, point2dKind, guardedUpdate]
        split
        · exact ⟨_, _, rfl, hf⟩
        · cases d with
          | inl d => exact hn.update2 e.1 d f.body hc he hf
          | inr d => exact ⟨_, _, rfl, hf⟩
      | point =>
        simp only [programKinds, pointKind, guardedUpdate]
        split
        · exact ⟨_, _, rfl, hf⟩
        · cases d with
          | inl d => exact hn.update1 e.1 d f.body hc he hf
          | inr d => exact ⟨_, _, rfl, hf⟩
      | plane =>
        simp only [programKinds, planeKind, guardedUpdate]
        split
        · exact ⟨_, _, rfl, hf⟩
        · exact hn.updateP e d f.body hc he hf
    · cases t with
      | point2d => exact hn.copy2 f.body hf
      | point => exact hn.copy1 f.body hf
      | plane => exact hn.copyP f.body hf
    · cases t with
      | point2d =>
        cases d with
        | inl d =>
          simp only [programKinds, point2dKind, withShapes, handlerOps, Bool.and_eq_true,
            Bool.not_eq_true'] at hcan
          exact hn.build2 e.1 d b hc he hcan.1 hcan.2 hb
        | inr d => cases hb
      | point =>
        cases d with
        | inl d =>
          simp only [programKinds, pointKind, withShapes, handlerOps, Bool.and_eq_true] at hcan
          exact hn.build1 e.1 d b hc he hcan.1 hcan.2 hb
        | inr d => cases hb
      | plane => exact hn.buildP e d b hc he hb
  types t := by cases t <;> rfl
  covs t e := by
    cases t with
    | point2d => exact c2 e
    | point => exact c1 e
    | plane => exact cp e
  accepts t e f u hf hu b hb := by
    cases t with
    | point2d =>
      simp only [programKinds, point2dKind, withShapes, handlerOps] at hu
      cases h : g2.upgrade e.1 f.body with
      | none => rw [h] at hu; cases hu
      | some b0 =>
        rw [h] at hu
        simp only [Option.map_some, Option.some.injEq] at hu
        subst hu
        simp only [programKinds, pointKind, withShapes, handlerOps] at hb
        cases h' : g1.buildUpgraded b0 with
        | none => rw [h'] at hb; cases hb
        | some b1 =>
          rw [h'] at hb
          injection hb with hb
          subst hb
          exact hn.upgraded _ _ _ _ hf h h'
    | point => cases hu
    | plane => cases hu

theorem noPose_micros_active (k : FType → Kind P D Env) (w : World P) (t : FType) :
    ((w.noPose k order).maps t).active = (w.maps t).active := micros_active (noPose_micros k order w) t

/-- The detections of a frame are such that updates return, whatever the pose. -/
def Suited (cam : Pose → Cam) (E : Cam → Detected Desc ⊕ Shape → Prop)
    (f : Slam.Frame (Outcome (World P)) (Handler Desc × List Shape) Pose Match) : Prop :=
  ∀ L p b pose t, ∀ d ∈ frameDets (f.detect L p b) t, E (cam pose) d

/-- For every history of frames, with any poses, any answers of the pose optimisation and any detections
read from a keypoint handler: if merging a detection and copying a candidate do not fail on features with
some property, which the constructors establish and the merges keep, no call of the frame loop on the local
map reads a detection that does not exist, fails the size assertion of the match flags, terminates the
program or runs forever; and all features of the map have the property. -/
theorem C65_frame_loop_keeps_running_partial (g2 g1 : PointGeo P Desc Cam)
    (op : PlaneOps P (Detected Desc ⊕ Shape) (Cam × Handler Desc)) (G : FType → P → Prop)
    (E : Cam → Detected Desc ⊕ Shape → Prop) (hn : NoFailure g2 g1 op G E)
    (cov : Cam × Handler Desc → Bool) (c2 : ∀ e, g2.covValid e.1 = cov e)
    (c1 : ∀ e, g1.covValid e.1 = cov e) (cp : ∀ e, op.covValid e = cov e)
    (lt : Match → Match → Bool) (cam : Pose → Cam) (po : Slam.PoseOps Pose) (start : Pose)
    (frames : List (Slam.Frame (Outcome (World P)) (Handler Desc × List Shape) Pose Match))
    (hf : ∀ f ∈ frames, Handled f) (hE : ∀ f ∈ frames, Suited cam E f)
    (s : Slam.State (Outcome (World P)) Pose) (outs : List (Slam.Out Pose))
    (h : Slam.run (localMapOps
        (programKinds (withShapes (handlerOps g2)) (withShapes (handlerOps g1)) op) cov lt
        (fun pose d => (cam pose, d.1)) frameDets) po frames (Slam.init start (.ok World.init)) =
      .ok (s, outs)) :
    ∃ w, s.localMap = .ok w ∧ ∀ t, (∀ p ∈ (w.maps t).localMap, G t p.2.body) ∧
      ∀ p ∈ (w.maps t).staged, G t p.2.body := by
  have hs := sound_program hn c2 c1 cp
  generalize hk : programKinds (withShapes (handlerOps g2)) (withShapes (handlerOps g1)) op = k at hs h
  have hty : ∀ t, (k t).type = t := by rw [← hk]; exact programKinds_type _ _ _
  let I : Outcome (World P) → Prop := fun L =>
    ∃ w, L = .ok w ∧ (∀ t, (w.maps t).active = true) ∧ GoodWorld G w
  let O := localMapOps k cov lt (fun (pose : Pose) (d : Handler Desc × List Shape) => (cam pose, d.1)) frameDets
  have := run_keeps (I := I) (ops := O) (frames := frames) (fun f hfm s s' o h0 hstep => by
    obtain ⟨det, ⟨b, hdet⟩, hcase⟩ := step_map hstep
    obtain ⟨w, hw, hact, hgood⟩ := h0
    obtain ⟨hh0, im, detected, descs, tracked, hset⟩ := hf f hfm s.localMap s.currentPose b
    have hsuit := hE f hfm s.localMap s.currentPose b
    rw [← hdet] at hset hsuit
    obtain ⟨hfill, -⟩ := Keypoints.set_spec hset
    have hr : ∀ t, InRange (k t) (cam s.currentPose, det.1) (frameDets det t) := by
      intro t
      rw [← hk]
      cases t with
      | point2d => exact inRange_point2d g2 _ hfill
      | point => exact inRange_point g1 _ hfill
      | plane => exact inRange_plane op _ _
    generalize hw1 : (w.find k lt (cam s.currentPose, det.1) (frameDets det) order []).1 = w1
    have hready : ∀ t, Ready (frameDets det t).length (w1.maps t) := by
      intro t; rw [← hw1]; exact find_ready hr hact [] t
    have hgood1 : GoodWorld G w1 := by rw [← hw1]; exact find_good hgood []
    have hfind : (O.find s.currentPose det s.localMap).1 = .ok w1 := by
      rw [hw, ← hw1]; rfl
    have hupd : ∀ opt out, I (O.update opt det out (.ok w1)).1 := by
      intro opt out
      obtain ⟨⟨w2, b⟩, h2, h2g⟩ := update_ok hs (env := (cam opt, det.1)) (det := frameDets det)
        (fun t d hd => hsuit opt t d hd) (outliers := out) hready hgood1 (Nat.le_refl _)
      refine ⟨w2, ?_, fun t => ?_, h2g⟩
      · change (w1.update k cov w1.budget (cam opt, det.1) (frameDets det) out).map (·.1) = _
        rw [h2]; rfl
      · rw [micros_active (update_micros hty h2) t]; exact (hready t).active
    have hno : ∀ L, I L → I (O.updateNoPose L) := by
      rintro L ⟨v, rfl, hv, hvg⟩
      exact ⟨_, rfl, fun t => by rw [noPose_micros_active]; exact hv t, noPose_good _ hvg⟩
    simp only at hcase
    rw [hfind] at hcase
    rcases hcase with ⟨opt, out, hc | hc⟩ | hc | hc <;> rw [hc]
    · exact hupd opt out
    · exact hno _ (hupd opt out)
    · exact hno _ ⟨w1, rfl, fun t => (hready t).active, hgood1⟩
    · obtain ⟨⟨w2, b⟩, h2, h2g⟩ := addAll_ok hs (env := (cam s.currentPose, det.1)) (det := frameDets det)
        (fun t d hd => hsuit _ t d hd)
        (w := w1.noPose k order) (fun t => by rw [noPose_maps k order order_nodup]; exact (hready t).flags)
        (noPose_good _ hgood1)
      refine ⟨w2, ?_, fun t => ?_, h2g⟩
      · change ((w1.noPose k order).addAll k cov _ _).map (·.1) = _
        rw [h2]; rfl
      · rw [micros_active (addAll_micros h2) t, noPose_micros_active]
        exact (hready t).active) ⟨World.init, rfl, fun t => rfl, fun t =>
          ⟨fun p hp => absurd hp List.not_mem_nil, fun p hp => absurd hp List.not_mem_nil⟩⟩ h
  obtain ⟨w, hw, -, hg⟩ := this
  exact ⟨w, hw, hg⟩

/-- The demonstration points, but merging a detection throws. -/
def failingGeo : PointGeo Keypoints.Pt Nat Unit := { demoGeo with update := fun _ _ _ => .throws }

def noPlanes : PlaneOps Keypoints.Pt (Detected Nat ⊕ Unit) (Unit × Handler Nat) where
  isVisible := fun _ _ => true
  projectedArea := fun _ _ => 0
  similar := fun _ _ _ => false
  interArea := fun _ _ _ => 0
  detectedArea := fun _ => 0
  update := fun _ _ b => .ok (b, true)
  build := fun _ _ => none
  copy := fun b => some b
  covValid := fun _ => true

/-- Frames that all see the same keypoint; the optimisation returns the last pose. -/
def sameFrame (h : Handler Nat) :
    Slam.Frame (Outcome (World Keypoints.Pt)) (Handler Nat × List Unit) Nat Match :=
  ⟨fun _ _ _ => (h, []), fun p _ => some (p, [])⟩

def demoSystem (g : PointGeo Keypoints.Pt Nat Unit) (n : Nat) : Outcome (Outcome (World Keypoints.Pt)) :=
  (seen 1000).bind fun h =>
    (Slam.run (localMapOps (programKinds (withShapes (handlerOps g)) (withShapes (handlerOps g)) noPlanes)
      (fun _ => true) (fun _ _ => false) (fun (_ : Nat) d => ((), d.1)) frameDets)
      ⟨fun _ => true, fun _ => true⟩ (List.replicate n (sameFrame h))
      (Slam.init 0 (.ok World.init))).map fun r => r.1.localMap

/-- The hypotheses are met by a run of the program in which a keypoint becomes a map point. -/
example : NoFailure demoGeo demoGeo noPlanes (fun _ _ => True) (fun _ _ => True) where
  update2 _ d _ _ _ _ := ⟨d.kp.pt, true, rfl, trivial⟩
  update1 _ d _ _ _ _ := ⟨d.kp.pt, true, rfl, trivial⟩
  updateP _ _ b _ _ _ := ⟨b, true, rfl, trivial⟩
  copy2 b _ := ⟨b, rfl, trivial⟩
  copy1 b _ := ⟨b, rfl, trivial⟩
  copyP b _ := ⟨b, rfl, trivial⟩
  build2 _ _ _ _ _ _ _ _ := trivial
  build1 _ _ _ _ _ _ _ _ := trivial
  buildP _ _ _ _ _ _ := trivial
  upgraded _ _ _ _ _ _ _ := trivial

example (h : Handler Nat) (hs : seen 1000 = .ok h) : Handled (sameFrame h) :=
  fun _ _ _ => ⟨_, _, _, _, _, hs⟩

example : ((demoSystem demoGeo 4).holds fun L => L.holds fun w =>
    (w.maps .point).localMap.map (·.1) == [1] && (w.maps .point).staged.length == 0) = true := by
  decide +kernel

/-- What is missing: if merging a detection throws, the program is terminated; for the copy of a
candidate see `C17_update_may_loop_false`. -/
theorem C65_frame_loop_terminated_false :
    ((demoSystem failingGeo 2).holds fun L => match L with
      | .terminate => true
      | _ => false) = true := by
  decide +kernel

end RgbdSlam.Map
