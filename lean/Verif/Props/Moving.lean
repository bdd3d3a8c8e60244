import Verif.Props.PerfectMatches

/-! # C187: a moving camera and one map feature per scene point

C185 is about a camera that does not move.  Here every frame has its own pose, its own keypoints and its own keypoint handler.  The
keypoints of a frame are the same scene points in the same order: either detected anew, with descriptors, or followed by the
optical flow.  Matches are searched from the pose of the *previous* frame (rgbd_slam.cpp 163-199: the predicted pose is the current
one), and merged with the pose of this frame. -/

namespace RgbdSlam.Map

open Keypoints (Handler Detected Pt Tracked)

/-! ## Any feature maps -/

section loop

variable {P D Env Pose Det : Type}

/-- A frame of the trip after `prev`: it detects `det`, and the optimiser moves the camera from `prev` to `next` and rejects nothing. -/
structure Spec.Leg (o2 o : PointOps P D Env) (op : PlaneOps P D Env) (cov : Env → Bool) (env : Pose → Det → Env)
    (dets : Det → FType → List D) (po : Slam.PoseOps Pose) (Stands : Nat → P → Prop) (n : Nat) (prev next : Pose)
    (f : Slam.Frame (Outcome (World P)) Det Pose Match) (det : Det) : Prop where
  detect : ∀ L pose forced, f.detect L pose forced = det
  optimize : f.optimize prev (Spec.allFound n) = some (next, [])
  len : (dets det .point).length = n
  sees : Spec.Sees o (env prev det) (dets det .point) Stands
  merges : Spec.Merges o (env next det) (dets det .point) Stands
  plain : Spec.PlainFrame o2 o op (env next det) (dets det)
  cov : cov (env next det) = true
  valid : po.covValid next = true

/-- Successive frames. -/
inductive Spec.Trip (leg : Pose → Pose → Slam.Frame (Outcome (World P)) Det Pose Match → Prop) :
    Pose → List Pose → List (Slam.Frame (Outcome (World P)) Det Pose Match) → Prop
  | home (p : Pose) : Spec.Trip leg p [] []
  | go {p q : Pose} {qs : List Pose} {f : Slam.Frame (Outcome (World P)) Det Pose Match}
      {fs : List (Slam.Frame (Outcome (World P)) Det Pose Match)} : leg p q f → Spec.Trip leg q qs fs → Spec.Trip leg p (q :: qs) (f :: fs)

theorem moving_steps {o2 o : PointOps P D Env} {op : PlaneOps P D Env} (cov : Env → Bool) (lt : Match → Match → Bool)
    (env : Pose → Det → Env) (dets : Det → FType → List D) (po : Slam.PoseOps Pose) {Stands : Nat → P → Prop} {n : Nat} (h5 : 5 ≤ n)
    {p : Pose} {qs : List Pose} {fs : List (Slam.Frame (Outcome (World P)) Det Pose Match)}
    (htrip : Spec.Trip (fun prev next f => ∃ det, Spec.Leg o2 o op cov env dets po Stands n prev next f det) p qs fs) :
    ∀ (t : Nat) (w : World P) (s : Slam.State (Outcome (World P)) Pose), Spec.Settled Stands n t w → s.localMap = .ok w →
      s.currentPose = p → po.covValid p = true → s.isFirstTrackingCall = false → s.failedTrackingCount = 0 →
      ∃ s' outs w', Slam.run (localMapOps (programKinds o2 o op) cov lt env dets) po fs s = .ok (s', outs) ∧
        s'.localMap = .ok w' ∧ Spec.Settled Stands n (t + qs.length) w' ∧ s'.currentPose = (p :: qs).getLast (by simp) ∧
        s'.failedTrackingCount = 0 ∧ outs.map (·.returned) = qs ∧
        ∀ out ∈ outs, out.tracked = true ∧ out.reseeded = false ∧ out.lostAfter = false := by
  induction htrip with
  | home p =>
    intro t w s hw hl hp _ _ hc
    exact ⟨s, [], w, rfl, hl, hw, hp, hc, rfl, by simp⟩
  | @go p q qs f fs hleg _ ih =>
    intro t w s hw hl hp hpv hfirst hc
    obtain ⟨det, hleg⟩ := hleg
    have hlen := hleg.len
    obtain ⟨w1, e1, hw1⟩ := find_settled (o2 := o2) (op := op) hleg.sees (by rw [hlen]; exact h5) lt (by rw [hlen]; exact hw)
    obtain ⟨w2, e2, hw2⟩ := update_seen hleg.plain hleg.merges cov hleg.cov hw1
    rw [hlen] at e1 hw2
    have hfind : (localMapOps (programKinds o2 o op) cov lt env dets).find p det (.ok w) = (.ok w1, Spec.allFound n) := by
      simp only [localMapOps, alive, e1]
    have hupd : (localMapOps (programKinds o2 o op) cov lt env dets).update q det [] (.ok w1) = (.ok w2, false) := by
      simp only [localMapOps, alive, e2]
      rfl
    obtain ⟨s1, o1, hstep, i1, i2, i3, i4, i5, i6, i7, i8⟩ : ∃ s1 o1,
        Slam.step (localMapOps (programKinds o2 o op) cov lt env dets) po f s = .ok (s1, o1) ∧ s1.localMap = .ok w2 ∧
          s1.currentPose = q ∧ s1.isFirstTrackingCall = false ∧ s1.failedTrackingCount = 0 ∧ o1.returned = q ∧
          o1.tracked = true ∧ o1.reseeded = false ∧ o1.lostAfter = false := by
      rw [Slam.step, hp, hl]
      simp only [hpv, if_true, hleg.detect, hfind, hfirst, Bool.false_eq_true, if_false, hleg.optimize, hupd]
      exact ⟨_, _, rfl, rfl, rfl, rfl, rfl, rfl, rfl, rfl, rfl⟩
    obtain ⟨s', outs, w', er, g1, g2, g3, g4, g5, g6⟩ := ih (t + 1) w2 s1 hw2 i1 i2 hleg.valid i3 i4
    refine ⟨s', o1 :: outs, w', ?_, g1, ?_, ?_, g4, by simp [i5, g5], ?_⟩
    · rw [Slam.run, hstep]
      simp only [Outcome.bind_ok]
      rw [er]
      rfl
    · rw [List.length_cons, show t + (qs.length + 1) = t + 1 + qs.length by omega]
      exact g2
    · rw [g3, List.getLast_cons_cons]
    · intro out ho
      rcases List.mem_cons.1 ho with rfl | ho
      · exact ⟨i6, i7, i8⟩
      · exact g6 out ho

theorem moving_run {o2 o : PointOps P D Env} {op : PlaneOps P D Env} (cov : Env → Bool) (lt : Match → Match → Bool)
    (env : Pose → Det → Env) (dets : Det → FType → List D) (po : Slam.PoseOps Pose) {Stands : Nat → P → Prop} {n : Nat} (h5 : 5 ≤ n)
    (hn : n < 2 ^ 64) {start : Pose} {qs : List Pose} {f : Slam.Frame (Outcome (World P)) Det Pose Match} {det : Det}
    (hdet : ∀ L pose forced, f.detect L pose forced = det) (hlen : (dets det .point).length = n)
    (hb : Spec.Builds o (env start det) (dets det .point) Stands) (hplain : Spec.PlainFrame o2 o op (env start det) (dets det))
    (hcov : cov (env start det) = true) (hpo : po.covValid start = true) (hpos : po.posCovValid start = true)
    {fs : List (Slam.Frame (Outcome (World P)) Det Pose Match)}
    (htrip : Spec.Trip (fun prev next f => ∃ det, Spec.Leg o2 o op cov env dets po Stands n prev next f det) start qs fs) :
    ∃ s out outs w, Slam.run (localMapOps (programKinds o2 o op) cov lt env dets) po (f :: fs) (Slam.init start (.ok World.init)) =
        .ok (s, out :: outs) ∧ s.localMap = .ok w ∧ Spec.Settled Stands n qs.length w ∧
      s.currentPose = (start :: qs).getLast (by simp) ∧ s.failedTrackingCount = 0 ∧
      out.returned = start ∧ out.tracked = false ∧ out.reseeded = true ∧ outs.map (·.returned) = qs ∧
      ∀ out ∈ outs, out.tracked = true ∧ out.reseeded = false ∧ out.lostAfter = false := by
  obtain ⟨w1, w2, e1, e2, hw2⟩ := first_settled hplain hb (by rw [hlen]; exact hn) cov hcov lt
  rw [hlen] at hw2
  have hfind : (localMapOps (programKinds o2 o op) cov lt env dets).find start det (.ok World.init) = (.ok w1, []) := by
    simp only [localMapOps, alive, e1]
  have hno : (localMapOps (programKinds o2 o op) cov lt env dets).addAll start det
      ((localMapOps (programKinds o2 o op) cov lt env dets).updateNoPose (.ok w1)) = .ok w2 := by
    simp only [localMapOps, alive, e2]
    rfl
  obtain ⟨s1, o1, hstep, i1, i2, i3, i4, i5, i6, i7⟩ : ∃ s1 o1,
      Slam.step (localMapOps (programKinds o2 o op) cov lt env dets) po f (Slam.init start (.ok World.init)) = .ok (s1, o1) ∧
        s1.localMap = .ok w2 ∧ s1.currentPose = start ∧ s1.isFirstTrackingCall = false ∧ s1.failedTrackingCount = 0 ∧
        o1.returned = start ∧ o1.tracked = false ∧ o1.reseeded = true := by
    rw [Slam.step, Slam.init]
    simp only [hpo, if_true, hdet, hfind, hpos, hno, Bool.and_true]
    exact ⟨_, _, rfl, rfl, rfl, rfl, rfl, rfl, rfl, rfl⟩
  obtain ⟨s', outs, w', er, g1, g2, g3, g4, g5, g6⟩ := moving_steps cov lt env dets po h5 htrip 0 w2 s1 hw2 i1 i2 hpo i3 i4
  refine ⟨s', o1, outs, w', ?_, g1, by simpa using g2, g3, g4, i5, i6, i7, g5, g6⟩
  rw [Slam.run, hstep]
  simp only [Outcome.bind_ok]
  rw [er]
  rfl

end loop

/-! ## Keypoints -/

variable {P Desc Cam Shape Pose : Type}

/-- A frame whose keypoints are detected anew: scene point `i` is seen as keypoint `i`, from the pose `c` (`Spec.SeenAs`). -/
structure Spec.Redetected (g : PointGeo P Desc Cam) (cols rows : Nat) (Point : Nat → P → Prop) (n : Nat) (c : Cam) (h : Handler Desc) :
    Prop where
  seen : ∃ h0 im detected descs, Keypoints.Reached cols rows h0 ∧ descs.length = detected.length ∧ detected.length = n ∧
    Keypoints.set im detected descs [] h0 = .ok h ∧ ∀ i b, Point i b → Spec.SeenAs g c detected descs i b
  depth : ∀ d ∈ Keypoints.detections h, depthValid d.kp.depth = true

/-- A frame whose keypoints are all followed by the optical flow from the map features 1, 2, …, `n`; the scene points stay visible. -/
structure Spec.Followed (g : PointGeo P Desc Cam) (Point : Nat → P → Prop) (n : Nat) (c : Cam) (h : Handler Desc) : Prop where
  flow : ∃ h0 im tracked, tracked.map (·.id) = (List.range n).map (· + 1) ∧ Keypoints.set im [] [] tracked h0 = .ok h
  visible : ∀ i b, Point i b → g.isMoving b = false ∧ g.isVisible c b = true

theorem redetected_sees {g : PointGeo P Desc Cam} {cols rows : Nat} (hc : cols < 2 ^ 31) (hr : rows < 2 ^ 31)
    (hcx : 31 < cols) (hry : 31 < rows) (hw : Keypoints.cellsFor rows ≤ Keypoints.cellsFor cols) {Point : Nat → P → Prop} {n : Nat} {c : Cam}
    {h : Handler Desc} (hv : Spec.Redetected g cols rows Point n c h) :
    Spec.Sees (withShapes (Shape := Shape) (handlerOps g)) (c, h) (frameDets (h, []) .point) Point ∧
      (frameDets (Shape := Shape) (h, []) .point).length = n ∧
      ∀ d ∈ Keypoints.detections h, d.desc.isSome = true ∧ depthValid d.kp.depth = true := by
  obtain ⟨⟨h0, im, detected, descs, hh, hd, hn, e, hp⟩, hdepth⟩ := hv
  obtain ⟨hfl, -, -, -, hde⟩ := Keypoints.set_spec e
  have hkl : h.keypoints.length = detected.length := by
    have := congrArg List.length hfl.pts
    simpa using this
  have hlen : (frameDets (Shape := Shape) (h, []) .point).length = n := by
    simp [frameDets, Keypoints.detections, hkl, hn]
  have hno : ∀ id, Keypoints.trackIndex h id = none := by
    intro id
    cases ht : Keypoints.trackIndex h id with
    | none => rfl
    | some j =>
      obtain ⟨t, h1, -⟩ := trackIndex_spec hfl ht
      simp at h1
  refine ⟨⟨?_⟩, hlen, ?_⟩
  · intro i b hb
    have hb := hp i b hb
    refine ⟨hb.static, hb.visible, ?_⟩
    intro f _ hfb flags hflen hfi tm
    obtain ⟨p, q, d, hpr, -⟩ := hb.near
    have hwin := seenAs_recognised hc hr hcx hry hw hh hd e hb (flags := flags) (by rw [hflen, hlen, hkl, hn]) hfi []
    change pointFind (withShapes (handlerOps g)) _ _ _ _ _ _ = _
    have htr : ∀ id, (withShapes (Shape := Shape) (handlerOps g)).trackIndex (c, h) (frameDets (h, []) .point) id = none := hno
    have hon : (withShapes (Shape := Shape) (handlerOps g)).onScreen (c, h) f.body = true := by
      change (g.project c f.body).isSome = true
      rw [hfb, hpr]
      rfl
    have hwi : (withShapes (Shape := Shape) (handlerOps g)).window (c, h) (frameDets (h, []) .point) f.body flags 30 = [i] := by
      rw [hfb]
      exact hwin
    simp only [pointFind, htr, hon, if_true, matchSearchRadius, Bool.false_eq_true, if_false, hwi]
  · intro d hd'
    obtain ⟨i, hi⟩ := List.mem_iff_getElem?.1 hd'
    obtain ⟨hi', hdesc, -⟩ := detections_get hfl hi
    refine ⟨?_, hdepth d hd'⟩
    rw [hdesc, hde, List.getElem?_eq_getElem (by omega)]
    rfl

theorem followed_sees {g : PointGeo P Desc Cam} {Point : Nat → P → Prop} {n : Nat} {c : Cam} {h : Handler Desc}
    (hv : Spec.Followed g Point n c h) (hpt : ∀ i b, Point i b → i < n) :
    Spec.Sees (withShapes (Shape := Shape) (handlerOps g)) (c, h) (frameDets (h, []) .point) Point ∧
      (frameDets (Shape := Shape) (h, []) .point).length = n ∧ ∀ d ∈ Keypoints.detections h, d.desc = none := by
  obtain ⟨⟨h0, im, tracked, hids, e⟩, hvis⟩ := hv
  obtain ⟨hfl, -, -, -, hde⟩ := Keypoints.set_spec e
  have htl : tracked.length = n := by
    have := congrArg List.length hids
    simpa using this
  have hkl : h.keypoints.length = n := by
    have := congrArg List.length hfl.pts
    simpa [htl] using this
  have hid : ∀ (j : Nat) t, tracked[j]? = some t → t.id = j + 1 := by
    intro j t ht
    have hj := (List.getElem?_eq_some_iff.1 ht).1
    have := congrArg (·[j]?) hids
    simp only [List.getElem?_map, ht, Option.map_some] at this
    rw [List.getElem?_range (by omega)] at this
    simpa using this
  have hlen : (frameDets (Shape := Shape) (h, []) .point).length = n := by
    simp [frameDets, Keypoints.detections, hkl]
  have htrack : ∀ i < n, Keypoints.trackIndex h (i + 1) = some i := by
    intro i hi
    obtain ⟨j, hj⟩ := hfl.known tracked[i] (List.getElem_mem (by omega))
      (by rw [hid i _ (List.getElem?_eq_getElem (by omega))]; omega)
    rw [hid i _ (List.getElem?_eq_getElem (by omega))] at hj
    have hsome : ∃ k, h.ids.lookup (i + 1) = some k := by
      cases hk : h.ids.lookup (i + 1) with
      | some k => exact ⟨k, rfl⟩
      | none =>
        rw [List.lookup_eq_none_iff] at hk
        have := hk _ hj
        simp at this
    obtain ⟨k, hk⟩ := hsome
    have ht : Keypoints.trackIndex h (i + 1) = some k := by
      rw [Keypoints.trackIndex, if_neg, if_pos (by omega), hk]
      rw [List.isEmpty_iff]
      rintro h'
      rw [h'] at hkl
      simp at hkl
      omega
    obtain ⟨t, h1, -, h3⟩ := trackIndex_spec hfl ht
    simp only [List.length_nil, Nat.sub_zero] at h1
    have := hid k t h1
    rw [ht]
    congr 1
    omega
  refine ⟨⟨?_⟩, hlen, ?_⟩
  · intro i b hb
    refine ⟨(hvis i b hb).1, (hvis i b hb).2, ?_⟩
    intro f hfi _ flags _ _ tm
    change pointFind (withShapes (handlerOps g)) _ _ _ _ _ _ = _
    have htr : (withShapes (Shape := Shape) (handlerOps g)).trackIndex (c, h) (frameDets (h, []) .point) f.id = some i := by
      rw [hfi]
      exact htrack i (hpt i b hb)
    simp only [pointFind, htr]
  · intro d hd
    simp only [Keypoints.detections, List.mem_map] at hd
    obtain ⟨a, -, rfl⟩ := hd
    simp only [hde]
    rfl

/-- A frame of the trip: from the pose `prev`, the handler `h` sees the scene points, detected anew or followed; the optimiser
gives the pose `next` and rejects nothing; the detection of each point can be merged in its map point with that pose. -/
structure Spec.Stage (g2 g : PointGeo P Desc Cam) (op : PlaneOps P (Detected Desc ⊕ Shape) (Cam × Handler Desc)) (cam : Pose → Cam)
    (cov : Cam × Handler Desc → Bool) (po : Slam.PoseOps Pose) (cols rows : Nat) (Point : Nat → P → Prop) (n : Nat) (prev next : Pose)
    (f : Slam.Frame (Outcome (World P)) (Handler Desc × List Shape) Pose Match) (h : Handler Desc) : Prop where
  detect : ∀ L pose forced, f.detect L pose forced = (h, [])
  optimize : f.optimize prev (Spec.allFound n) = some (next, [])
  sees : Spec.Redetected g cols rows Point n (cam prev) h ∨ Spec.Followed g Point n (cam prev) h
  merges : ∀ i d b, (Keypoints.detections h)[i]? = some d → Point i b → ∃ b', g.update (cam next) d b = .ok (b', true) ∧ Point i b'
  cov : cov (cam next, h) = true
  cov2 : g2.covValid (cam next) = true
  cov1 : g.covValid (cam next) = true
  covP : op.covValid (cam next, h) = true
  valid : po.covValid next = true

theorem frameDets_get {h : Handler Desc} {i : Nat} {x : Detected Desc ⊕ Shape} (hx : (frameDets (Shape := Shape) (h, []) .point)[i]? = some x) :
    ∃ d : Detected Desc, x = Sum.inl d ∧ (Keypoints.detections h)[i]? = some d := by
  simp only [frameDets, List.getElem?_map, Option.map_eq_some_iff] at hx
  obtain ⟨d, hd, rfl⟩ := hx
  exact ⟨d, rfl, hd⟩

theorem stage_leg {g2 g : PointGeo P Desc Cam} {op : PlaneOps P (Detected Desc ⊕ Shape) (Cam × Handler Desc)} {cam : Pose → Cam}
    {cov : Cam × Handler Desc → Bool} {po : Slam.PoseOps Pose} {cols rows : Nat} (hc : cols < 2 ^ 31) (hr : rows < 2 ^ 31)
    (hcx : 31 < cols) (hry : 31 < rows) (hw : Keypoints.cellsFor rows ≤ Keypoints.cellsFor cols) {Point : Nat → P → Prop} {n : Nat}
    (hpt : ∀ i b, Point i b → i < n) (hcopy : ∀ i b, Point i b → ∃ b', g.copy b = some b' ∧ Point i b') {prev next : Pose}
    {f : Slam.Frame (Outcome (World P)) (Handler Desc × List Shape) Pose Match} {h : Handler Desc}
    (hs : Spec.Stage g2 g op cam cov po cols rows Point n prev next f h) :
    Spec.Leg (withShapes (handlerOps g2)) (withShapes (handlerOps g)) op cov (fun pose d => (cam pose, d.1)) frameDets po Point n prev next f
      (h, []) := by
  have hsee : Spec.Sees (withShapes (Shape := Shape) (handlerOps g)) (cam prev, h) (frameDets (h, []) .point) Point ∧
      (frameDets (Shape := Shape) (h, []) .point).length = n ∧
      ∀ d ∈ Keypoints.detections h, (d.desc.isSome && !depthValid d.kp.depth) = false := by
    rcases hs.sees with hv | hv
    · obtain ⟨h1, h2, h3⟩ := redetected_sees (Shape := Shape) hc hr hcx hry hw hv
      exact ⟨h1, h2, fun d hd => by simp [(h3 d hd).2]⟩
    · obtain ⟨h1, h2, h3⟩ := followed_sees (Shape := Shape) hv hpt
      exact ⟨h1, h2, fun d hd => by simp [h3 d hd]⟩
  refine ⟨hs.detect, hs.optimize, hsee.2.1, hsee.1, ⟨?_, hcopy⟩, ⟨?_, rfl, hs.cov2, hs.cov1, hs.covP⟩, hs.cov, hs.valid⟩
  · intro i b x hb hx
    obtain ⟨d, rfl, hd'⟩ := frameDets_get hx
    exact hs.merges i d b hd' hb
  · intro x hx
    simp only [frameDets, List.mem_map] at hx
    obtain ⟨d, hd', rfl⟩ := hx
    exact hsee.2.2 d hd'

/-- C187: a camera that moves in front of at least 5 scene points.  `Point i b` says that `b` is a map point of the scene point `i`.  The first
frame detects the scene points, all of known depth, and makes map points of them; every other frame detects them again less than 30
pixels from where the previous pose puts them, or follows them, and the optimiser finds a pose with no outlier.  However long the trip is: every
frame but the first is tracked and returns the pose of the optimiser, and the map holds exactly one feature per scene
point, with the ids 1, 2, …: a candidate at first, a map feature from the fourth frame on.  Nothing is duplicated and nothing is lost. -/
theorem C187_moving_camera_partial (g2 g : PointGeo P Desc Cam) (op : PlaneOps P (Detected Desc ⊕ Shape) (Cam × Handler Desc))
    (cam : Pose → Cam) (cov : Cam × Handler Desc → Bool) (lt : Match → Match → Bool) (po : Slam.PoseOps Pose)
    {cols rows : Nat} (hc : cols < 2 ^ 31) (hr : rows < 2 ^ 31)
    (hcx : 31 < cols) (hry : 31 < rows) (hw : Keypoints.cellsFor rows ≤ Keypoints.cellsFor cols)
    (Point : Nat → P → Prop) {n : Nat} (h5 : 5 ≤ n) (hn : n < 2 ^ 64) (hpt : ∀ i b, Point i b → i < n)
    (hcopy : ∀ i b, Point i b → ∃ b', g.copy b = some b' ∧ Point i b')
    (start : Pose) (f : Slam.Frame (Outcome (World P)) (Handler Desc × List Shape) Pose Match) (h : Handler Desc)
    (hdet : ∀ L pose forced, f.detect L pose forced = (h, []))
    (hfirst : Spec.Redetected g cols rows Point n (cam start) h)
    (hbuild : ∀ i d, (Keypoints.detections h)[i]? = some d → ∃ b, g.build (cam start) d = some b ∧ Point i b)
    (hcov : cov (cam start, h) = true) (hcov2 : g2.covValid (cam start) = true) (hcov1 : g.covValid (cam start) = true)
    (hcovP : op.covValid (cam start, h) = true) (hpo : po.covValid start = true) (hpos : po.posCovValid start = true)
    (poses : List Pose) (fs : List (Slam.Frame (Outcome (World P)) (Handler Desc × List Shape) Pose Match))
    (htrip : Spec.Trip (fun prev next f => ∃ h, Spec.Stage g2 g op cam cov po cols rows Point n prev next f h) start poses fs) :
    ∃ s out outs w, Slam.run (localMapOps (programKinds (withShapes (handlerOps g2)) (withShapes (handlerOps g)) op) cov lt
        (fun pose d => (cam pose, d.1)) frameDets) po (f :: fs) (Slam.init start (.ok World.init)) = .ok (s, out :: outs) ∧
      s.localMap = .ok w ∧ Spec.Settled Point n poses.length w ∧ s.currentPose = (start :: poses).getLast (by simp) ∧
      s.failedTrackingCount = 0 ∧ out.returned = start ∧ out.tracked = false ∧ out.reseeded = true ∧ outs.map (·.returned) = poses ∧
      ∀ out ∈ outs, out.tracked = true ∧ out.reseeded = false ∧ out.lostAfter = false := by
  obtain ⟨-, hlen, hdd⟩ := redetected_sees (Shape := Shape) hc hr hcx hry hw hfirst
  refine moving_run cov lt (fun (pose : Pose) (d : Handler Desc × List Shape) => (cam pose, d.1)) frameDets po h5 hn hdet hlen ⟨?_⟩
    ⟨?_, rfl, hcov2, hcov1, hcovP⟩ hcov hpo hpos ?_
  · intro i x hx
    obtain ⟨d, rfl, hd'⟩ := frameDets_get hx
    obtain ⟨h1, h2⟩ := hdd d (List.mem_of_getElem? hd')
    exact ⟨h1, h2, hbuild i d hd'⟩
  · intro x hx
    simp only [frameDets, List.mem_map] at hx
    obtain ⟨d, hd', rfl⟩ := hx
    change (d.desc.isSome && !depthValid d.kp.depth) = false
    simp [(hdd d hd').2]
  · clear hdet hfirst hbuild hcov hcov2 hcov1 hcovP hpo hpos hlen hdd
    induction htrip with
    | home p => exact .home p
    | go hs _ ih =>
      obtain ⟨h, hs⟩ := hs
      exact .go ⟨(h, []), stage_leg hc hr hcx hry hw hpt hcopy hs⟩ ih

/-! ## A camera that swings to and fro -/

/-- The pose 1 sees everything 20 pixels further to the right than the pose 0. -/
def shiftOf (pose : Nat) : Rat := if pose = 0 then 0 else 20

/-- Map points on a wall in front of the camera, which slides along it. -/
def wallGeo : PointGeo Pt Nat Rat where
  isMoving _ := false
  isVisible _ _ := true
  project c b := some ⟨b.x + c, b.y⟩
  descriptor _ := 0
  distance a b := if a ≤ b then b - a else a - b
  update c d _ := .ok (⟨d.kp.pt.x - c, d.kp.pt.y⟩, true)
  build c d := some ⟨d.kp.pt.x - c, d.kp.pt.y⟩
  copy b := some b
  upgrade _ _ := none
  buildUpgraded b := some b
  covValid _ := true

def noWalls : PlaneOps Pt (Detected Nat ⊕ Unit) (Rat × Handler Nat) where
  isVisible := fun _ _ => true
  projectedArea := fun _ _ => 0
  similar := fun _ _ _ => false
  interArea := fun _ _ _ => 0
  detectedArea := fun _ => 0
  update := fun _ _ b => .ok (b, true)
  build := fun _ _ => none
  copy := fun b => some b
  covValid := fun _ => true

/-- The five points of the wall, as seen from a pose. -/
def shifted (pose : Nat) : List Pt := spread.map fun q => ⟨q.x + shiftOf pose, q.y⟩

/-- All of them detected. -/
def newView (pose : Nat) : Outcome (Handler Nat) :=
  Keypoints.set demoImage (shifted pose) [0, 0, 0, 0, 0] [] (Keypoints.create 640 480)

/-- All of them followed. -/
def flowView (pose : Nat) : Outcome (Handler Nat) :=
  Keypoints.set demoImage [] [] ((shifted pose).zipIdx.map fun (q, i) => ⟨i + 1, q⟩) (Keypoints.create 640 480)

def OnWall (i : Nat) (b : Pt) : Prop := spread[i]? = some b

theorem wall_seen {i : Nat} {b : Pt} (hb : OnWall i b) {prev next : Nat} :
    Spec.SeenAs wallGeo (shiftOf prev) (shifted next) [0, 0, 0, 0, 0] i b := by
  have hi : i < 5 := (List.getElem?_eq_some_iff.1 hb).1
  have hnext : ∀ j : Nat, (shifted next)[j]? = spread[j]?.map fun q => ⟨q.x + shiftOf next, q.y⟩ := by
    intro j; simp [shifted]
  refine ⟨rfl, rfl, ⟨b.x + shiftOf prev, b.y⟩, ⟨b.x + shiftOf next, b.y⟩, 0, rfl, by rw [hnext, hb]; rfl, ?_, ?_⟩
  · interval_cases i <;> rfl
  · have key : ∀ s ∈ [(0 : Rat), 20], ∀ s' ∈ [(0 : Rat), 20], ∀ i < 5, ∀ j < 5, ∀ q ∈ spread[i]?, ∀ q' ∈ spread[j]?, 31 ≤ q.x + s ∧ 31 ≤ q.y ∧
        (q.x + s' - (q.x + s)) * (q.x + s' - (q.x + s)) + (q.y - q.y) * (q.y - q.y) ≤ 30 * 30 ∧
        (j ≠ i → ¬ (q'.x + s' - (q.x + s)) * (q'.x + s' - (q.x + s)) + (q'.y - q.y) * (q'.y - q.y) ≤ 30 * 30) := by decide +kernel
    have hsh : ∀ p, shiftOf p ∈ [(0 : Rat), 20] := by
      intro p
      rw [shiftOf]
      split <;> simp
    have key := key _ (hsh prev) _ (hsh next)
    have k := key i hi i hi b hb b hb
    refine ⟨k.1, k.2.1, k.2.2.1, ?_⟩
    intro j q' d' hji hq' _ hn
    rw [hnext, Option.map_eq_some_iff] at hq'
    obtain ⟨q, hq, rfl⟩ := hq'
    exact absurd hn ((key i hi j (List.getElem?_eq_some_iff.1 hq).1 b hb q hq).2.2.2 hji)

def wallFrame (h : Handler Nat) (next : Nat) : Slam.Frame (Outcome (World Pt)) (Handler Nat × List Unit) Nat Match :=
  ⟨fun _ _ _ => (h, []), fun _ _ => some (next, [])⟩

/-- The poses 1, 0, 1, … -/
def swing : Nat → Nat → List Nat
  | _, 0 => []
  | pose, n + 1 => (1 - pose) :: swing (1 - pose) n

/-- The hypotheses are met: the camera swings as often as one likes, to the right with new keypoints and back with followed ones. -/
example : ∀ n, ∃ h fs, newView 0 = .ok h ∧
    ∃ s out outs w, Slam.run (localMapOps (programKinds (withShapes (handlerOps wallGeo)) (withShapes (handlerOps wallGeo)) noWalls)
      (fun _ => true) (fun _ _ => false) (fun (pose : Nat) d => (shiftOf pose, d.1)) frameDets)
      ⟨fun _ => true, fun _ => true⟩ (wallFrame h 0 :: fs) (Slam.init 0 (.ok World.init)) = .ok (s, out :: outs) ∧
      s.localMap = .ok w ∧ Spec.Settled OnWall 5 n w ∧ outs.map (·.returned) = swing 0 n := by
  obtain ⟨h0, e0, g0⟩ := holds_elim (show ((newView 0).holds fun h =>
    (Keypoints.detections h).all (fun d => depthValid d.kp.depth) && decide ((Keypoints.detections h).map (·.kp.pt) = shifted 0)) = true
    by decide +kernel)
  obtain ⟨h1, e1, g1⟩ := holds_elim (show ((newView 1).holds fun h =>
    (Keypoints.detections h).all (fun d => depthValid d.kp.depth) && decide ((Keypoints.detections h).map (·.kp.pt) = shifted 1)) = true
    by decide +kernel)
  obtain ⟨h2, e2, g2⟩ := holds_elim (show ((flowView 0).holds fun h =>
    decide ((Keypoints.detections h).map (·.kp.pt) = shifted 0)) = true by decide +kernel)
  simp only [Bool.and_eq_true, List.all_eq_true, decide_eq_true_eq] at g0 g1 g2
  have hmerge : ∀ (h : Handler Nat) (pose : Nat), (Keypoints.detections h).map (·.kp.pt) = shifted pose → ∀ (i : Nat) d b,
      (Keypoints.detections h)[i]? = some d → OnWall i b →
      (⟨d.kp.pt.x - shiftOf pose, d.kp.pt.y⟩ : Pt) = b := by
    intro h pose hp i d b hd hb
    have := congrArg (·[i]?) hp
    have hb' : spread[i]? = some b := hb
    simp only [List.getElem?_map, hd, shifted, hb', Option.map_some, Option.some.injEq] at this
    rw [this]
    cases b
    simp
  have hred : ∀ (h : Handler Nat) (prev next : Nat), newView next = .ok h → (∀ d ∈ Keypoints.detections h, depthValid d.kp.depth = true) →
      Spec.Redetected wallGeo 640 480 OnWall 5 (shiftOf prev) h := fun h prev next e g =>
    ⟨⟨Keypoints.create 640 480, demoImage, shifted next, [0, 0, 0, 0, 0], .create, by simp [shifted, spread], by simp [shifted, spread], e,
      fun i b hb => wall_seen hb⟩, g⟩
  have htrip : ∀ n pose, (pose = 0 ∨ pose = 1) → ∃ fs,
      Spec.Trip (fun prev next f => ∃ h, Spec.Stage wallGeo wallGeo noWalls shiftOf (fun _ => true) ⟨fun _ => true, fun _ => true⟩
        640 480 OnWall 5 prev next f h) pose (swing pose n) fs := by
    intro n
    induction n with
    | zero => exact fun pose _ => ⟨[], .home pose⟩
    | succ n ih =>
      intro pose hp
      rcases hp with rfl | rfl
      · obtain ⟨fs, ht⟩ := ih 1 (.inr rfl)
        refine ⟨wallFrame h1 1 :: fs, .go ⟨h1, ⟨fun _ _ _ => rfl, rfl, .inl (hred h1 0 1 e1 g1.1), ?_, rfl, rfl, rfl, rfl, rfl⟩⟩ ht⟩
        intro i d b hd hb
        refine ⟨_, rfl, ?_⟩
        have := hmerge h1 1 g1.2 i d b hd hb
        change OnWall i ⟨d.kp.pt.x - shiftOf 1, d.kp.pt.y⟩
        rw [this]
        exact hb
      · obtain ⟨fs, ht⟩ := ih 0 (.inl rfl)
        refine ⟨wallFrame h2 0 :: fs, .go ⟨h2, ⟨fun _ _ _ => rfl, rfl, .inr ⟨⟨Keypoints.create 640 480, demoImage, _, ?_, e2⟩,
          fun _ _ _ => ⟨rfl, rfl⟩⟩, ?_, rfl, rfl, rfl, rfl, rfl⟩⟩ ht⟩
        · decide +kernel
        · intro i d b hd hb
          refine ⟨_, rfl, ?_⟩
          have := hmerge h2 0 g2 i d b hd hb
          change OnWall i ⟨d.kp.pt.x - shiftOf 0, d.kp.pt.y⟩
          rw [this]
          exact hb
  intro n
  obtain ⟨fs, ht⟩ := htrip n 0 (.inl rfl)
  have hsw : ∀ n pose, (swing pose n).length = n := by
    intro n
    induction n with
    | zero => exact fun _ => rfl
    | succ n ih => exact fun pose => by rw [swing, List.length_cons, ih]
  obtain ⟨s, out, outs, w, r1, r2, r3, -, -, -, -, -, r4, -⟩ := C187_moving_camera_partial wallGeo wallGeo noWalls shiftOf (fun _ => true)
    (fun _ _ => false) ⟨fun _ => true, fun _ => true⟩ (cols := 640) (rows := 480) (by norm_num) (by norm_num) (by norm_num) (by norm_num)
    (by decide) OnWall (n := 5) (by norm_num) (by norm_num) (fun i b hb => (List.getElem?_eq_some_iff.1 hb).1) (fun i b hb => ⟨b, rfl, hb⟩)
    0 (wallFrame h0 0) h0 (fun _ _ _ => rfl) (hred h0 0 0 e0 g0.1) (by
      intro i d hd
      have hi : i < 5 := by
        have h1 := (List.getElem?_eq_some_iff.1 hd).1
        have h2 := congrArg List.length g0.2
        simp [shifted, spread] at h2
        omega
      refine ⟨_, rfl, ?_⟩
      have := hmerge h0 0 g0.2 i d spread[i] hd (List.getElem?_eq_getElem hi)
      change OnWall i ⟨d.kp.pt.x - shiftOf 0, d.kp.pt.y⟩
      rw [this]
      exact List.getElem?_eq_getElem hi) rfl rfl rfl rfl rfl rfl (swing 0 n) fs ht
  rw [hsw] at r3
  exact ⟨h0, fs, e0, s, out, outs, w, r1, r2, r3, r4⟩

end RgbdSlam.Map
