import Verif.Props.Displaced
import Verif.Props.ExportedScene

/-! # C216: the exported file after a loss

C202 says where the new map is after a loss.  Here the program ends and the file is read: it holds the map from before the loss, and the new
one beside it. -/

namespace RgbdSlam.Map.Anew

open Keypoints (Handler Detected Pt Tracked)
open Geometry Geometry.Spec Covariance Covariance.Spec Updates Matrix Writer
open Optimizer (PoseVar)

noncomputable section

variable {Desc S Shape : Type}

/-! ## What the destructor writes -/

/-- The calls of the writer for all features of a type. -/
def callsOf (outline : S → List V3 × V3) (w : World (Body Desc S)) (t : FType) : List (Call ℝ) :=
  (w.written t ++ (w.maps t).localMap.map (·.2)).flatMap fun f => writeToFile outline f.body

theorem fileCalls_perm (outline : S → List V3 × V3) {w : World (Body Desc S)} (h : ∀ t, (w.maps t).active = true) :
    (fileCalls outline w).Perm (order.flatMap (callsOf outline w)) := by
  have e : ∀ t, w.destroyed t = (w.maps t).localMap.map (·.2) := fun t => by simp [World.destroyed, destroyed, h t]
  have e' : order.flatMap (callsOf outline w) =
      (order.flatMap fun t => w.written t ++ (w.maps t).localMap.map (·.2)).flatMap fun f => writeToFile outline f.body := by
    rw [List.flatMap_assoc]; rfl
  rw [e', fileCalls]
  simp only [e]
  exact (List.flatMap_append_perm order _ _).flatMap_right _

/-- Features with the same contents are written in the same way. -/
theorem content_calls (outline : S → List V3 × V3) {l l' : List (Feat (Body Desc S))} (h : (l.map Spec.content).Perm (l'.map Spec.content)) :
    (l.flatMap fun f => writeToFile outline f.body).Perm (l'.flatMap fun f => writeToFile outline f.body) := by
  have e : ∀ l : List (Feat (Body Desc S)), (l.flatMap fun f => writeToFile outline f.body) =
      (l.map Spec.content).flatMap fun c => writeToFile outline c.2 := fun l => by
    rw [List.flatMap_map]; rfl
  rw [e, e]
  exact h.flatMap_right _

theorem vertices_perm {fmt : ℝ → List Char} (hf : OneWord fmt) {cs cs' : List (Call ℝ)} (h : cs.Perm cs') :
    (objVertices (objFile fmt cs)).Perm (objVertices (objFile fmt cs')) := by
  rw [objVertices_file hf, objVertices_file hf]
  exact (h.flatMap_right _).map _

theorem vertices_append {fmt : ℝ → List Char} (hf : OneWord fmt) (cs cs' : List (Call ℝ)) :
    objVertices (objFile fmt (cs ++ cs')) = objVertices (objFile fmt cs) ++ objVertices (objFile fmt cs') := by
  rw [objVertices_file hf, objVertices_file hf, objVertices_file hf, List.flatMap_append, List.map_append]

/-! ## C216 -/

/-- C216.  The setting of C202: after any run the camera sees nothing for eleven frames or more, moves meanwhile, and then sees at least 5 scene points
again, without measurement error; `E` is the motion that takes the true place to the place where the program thinks it is.  The program ends.  The vertices of the exported file
are those of the file that the program would have written had it ended before the loss, and those of the scene moved by `E`, each of them once; those
of the scene are missing if there were fewer than four frames since the loss. -/
theorem C216_old_and_new [Inhabited Desc] (sight2 sight : Sight Desc S) {pinv : Sq 3 → Sq 3}
    (hpinv : ∀ A, IsCovariance A → IsPseudoInverse A (pinv A)) {fx fy cx cy : ℝ} (hfx : fx ≠ 0) (hfy : fy ≠ 0)
    (op : PlaneOps (Body Desc S) (Detected Desc ⊕ Shape) (Camera × Handler Desc)) (hop : ∀ c h, op.covValid (c, h) = isValid c.pose)
    (lt : Match → Match → Bool) {cols rows : Nat} (hc : cols < 2 ^ 31) (hr : rows < 2 ^ 31) (hcx : 31 < cols) (hry : 31 < rows)
    (hw : Keypoints.cellsFor rows ≤ Keypoints.cellsFor cols)
    -- any run
    {start : PoseVar} {before : List (Slam.Frame (Outcome (World (Body Desc S))) (Handler Desc × List Shape) PoseVar Match)}
    {s : Slam.State (Outcome (World (Body Desc S))) PoseVar} {outs : List (Slam.Out PoseVar)}
    (hrun : Slam.run (localMapOps (programKinds (withShapes (handlerOps (geo2 sight2 pinv))) (withShapes (handlerOps (geo1 sight pinv)))
          op) (fun e => isValid e.1.pose) lt (fun pose d => (Spec.cameraAt fx fy cx cy pose, d.1)) frameDets)
        ⟨fun p => isValid p.variance, fun p => isValid (firstPoseBlock p.variance)⟩ before (Slam.init start (.ok World.init)) = .ok (s, outs))
    {w : World (Body Desc S)} (hmap : s.localMap = .ok w) (hcov : IsCovariance s.currentPose.variance)
    -- nothing is seen
    {dark : List (Slam.Frame (Outcome (World (Body Desc S))) (Handler Desc × List Shape) PoseVar Match)} (hdark : ∀ f ∈ dark, Spec.Blind f)
    (h11 : 11 ≤ dark.length) (hcount : s.failedTrackingCount + dark.length < 2 ^ 32)
    -- the camera has moved
    {E Q : M4} (hE : Spec.Rigid E) (hQ : Spec.Rigid Q) (hlast : Spec.place s.currentPose = E * Q)
    -- the scene is seen
    {X : Nat → V3} {look : Nat → Desc} {n : Nat} (h5 : 5 ≤ n) (hn : w.alloc.given + n < 2 ^ 64)
    {f : Slam.Frame (Outcome (World (Body Desc S))) (Handler Desc × List Shape) PoseVar Match} {h : Handler Desc}
    (hdet : ∀ L pose forced, f.detect L pose forced = (h, [])) (hopt : f.optimize s.currentPose [] = none)
    (hview : Spec.ExactView fx fy cx cy X look Q h)
    (hfirst : Spec.Redetected (geo1 sight pinv) cols rows (Spec.At (fun i => pointToWorld E (X i)) look n) n
      (Spec.cameraAt fx fy cx cy s.currentPose) h) {Ts : List M4}
    {fs : List (Slam.Frame (Outcome (World (Body Desc S))) (Handler Desc × List Shape) PoseVar Match)}
    (hroute : Spec.Route (fun T U f => ∃ h, Spec.TrueFrame w.alloc.given sight pinv fx fy cx cy cols rows X look n E T U f h) Q Ts fs)
    -- the file
    {fmt : ℝ → List Char} (hf : OneWord fmt) (outline : S → List V3 × V3) :
    ∃ s' outs' w', Slam.run (localMapOps (programKinds (withShapes (handlerOps (geo2 sight2 pinv)))
          (withShapes (handlerOps (geo1 sight pinv))) op) (fun e => isValid e.1.pose) lt (fun pose d => (Spec.cameraAt fx fy cx cy pose, d.1)) frameDets)
        ⟨fun p => isValid p.variance, fun p => isValid (firstPoseBlock p.variance)⟩ (dark ++ f :: fs) s = .ok (s', outs') ∧
      s'.localMap = .ok w' ∧
      (objVertices (exportedFile fmt outline w')).Perm (objVertices (exportedFile fmt outline w) ++
        if Ts.length < 3 then [] else Spec.printed fmt (fun i => pointToWorld E (X i)) n) := by
  obtain ⟨poses, hmapP, -, ht⟩ := true_trip sight2 sight hpinv hfx hfy hop hE hroute s.currentPose hlast
  obtain ⟨-, hlen, hdd⟩ := redetected_sees (base := w.alloc.given) (Shape := Shape) hc hr hcx hry hw hfirst
  have hpose : isValid (Spec.cameraAt fx fy cx cy s.currentPose).pose = true := (firstPoseBlock_isCovariance hcov).valid
  obtain ⟨s', outs1, out, outs2, w', old, r1, r2, r3, r4, r5, r6, r7, r8, r9, r10, r11, r12, r13⟩ :=
    C201_found_again (geo2 sight2 pinv) (geo1 sight pinv) op
    (Spec.cameraAt fx fy cx cy) (fun e => isValid e.1.pose) lt
    ⟨fun p => isValid p.variance, fun p => isValid (firstPoseBlock p.variance)⟩ hc hr hcx hry hw start before s outs hrun w hmap hcov.valid hpose
    (fun _ => hpose) hpose hpose (fun _ => by rw [hop]; exact hpose) dark hdark h11 hcount
    (Spec.At (fun i => pointToWorld E (X i)) look n) h5 hn (fun i b hb => hb.1) (fun i b hb => exact_copy sight pinv hb) f h hdet hopt hfirst
    (fun i d hd => exact_build sight hfx hfy hcov (hlast ▸ view_moved hE hQ hview) hd (by
      have := (List.getElem?_eq_some_iff.1 hd).1
      have e : (frameDets (Shape := Shape) (h, []) .point).length = (Keypoints.detections h).length := by simp [frameDets]
      omega) (hdd d (List.mem_of_getElem? hd)).1) poses fs ht
  have hty := programKinds_type (withShapes (Shape := Shape) (handlerOps (geo2 sight2 pinv))) (withShapes (handlerOps (geo1 sight pinv))) op
  obtain ⟨w0, e0, hm⟩ := frames_micros hty before _ _ _ hrun w hmap
  injection e0 with e0
  subst e0
  have hact : ∀ u, (w.maps u).active = true := fun u => by rw [micros_active hm u]; rfl
  have hl : poses.length = Ts.length := by simpa using congrArg List.length hmapP
  rw [hl] at r12
  refine ⟨s', _, w', r1, r11, ?_⟩
  have hold : ∀ t, ((w'.written t).flatMap fun f => writeToFile outline f.body).Perm (callsOf outline w t) := by
    intro t
    refine content_calls outline ?_
    rw [r12.written, List.map_append, List.map_map]
    exact r13 t
  have hnew : (order.flatMap fun t => ((w'.maps t).localMap.map (·.2)).flatMap fun f => writeToFile outline f.body) =
      if Ts.length < 3 then [] else (List.range n).map fun i => .point (toVec (pointToWorld E (X i))) := by
    have hp := r12.points
    simp only [order, List.flatMap_cons, List.flatMap_nil, (r12.others .point2d (by decide)).1, (r12.others .plane (by decide)).1,
      List.map_nil, List.nil_append, List.append_nil]
    split at hp
    · rw [hp.1]; simp_all
    · rename_i h3
      rw [if_neg h3]
      refine calls_scene (look := look) (n := n) outline ?_
      rw [List.forall₂_map_right_iff]
      exact List.Forall₂.imp (fun i a hr => hr.2.2.2.2) hp.2
  have hcalls : (fileCalls outline w').Perm (fileCalls outline w ++
      if Ts.length < 3 then [] else (List.range n).map fun i => .point (toVec (pointToWorld E (X i)))) := by
    refine (fileCalls_perm outline r12.active).trans ?_
    rw [← hnew]
    have e : order.flatMap (callsOf outline w') = order.flatMap fun t => ((w'.written t).flatMap fun f => writeToFile outline f.body) ++
        ((w'.maps t).localMap.map (·.2)).flatMap fun f => writeToFile outline f.body := by
      congr 1
      funext t
      rw [callsOf, List.flatMap_append]
    rw [e]
    refine (List.flatMap_append_perm order _ _).symm.trans (List.Perm.append ?_ (List.Perm.refl _))
    exact (List.Perm.flatMap_left _ fun t _ => hold t).trans (fileCalls_perm outline hact).symm
  have := vertices_perm hf hcalls
  rw [vertices_append hf] at this
  rw [exportedFile, exportedFile]
  refine this.trans (List.Perm.append (List.Perm.refl _) ?_)
  split
  · rw [objVertices_file hf]; simp
  · rw [vertices_scene hf]

/-! ## The camera that is pushed aside while it is covered -/

/-- The file after a loss is not the scene: the swinging camera of C193 sees the wall for five frames, is covered for eleven, is pushed aside
meanwhile, and sees the wall again for four.  All measurements are exact.  The file holds the wall twice, once where it is and once beside it.  Here the
hypotheses of `C216_old_and_new` are met. -/
theorem C216_scene_twice : ∃ h h1 h2 : Handler Nat, newView 0 = .ok h ∧ newView 1 = .ok h1 ∧ flowView 0 = .ok h2 ∧
    ∃ s s' outs outs' w', Slam.run (localMapOps (programKinds (withShapes (handlerOps (geo2 wallSight (examplePinv 3))))
          (withShapes (handlerOps (geo1 wallSight (examplePinv 3)))) wallOps) (fun e => isValid e.1.pose) (fun _ _ => false)
          (fun pose d => (Spec.cameraAt 1000 1000 0 0 pose, d.1)) frameDets)
        ⟨fun p => isValid p.variance, fun p => isValid (firstPoseBlock p.variance)⟩
        (exactFrame h 0 :: [exactFrame h1 1, exactFrame h2 0, exactFrame h1 1, exactFrame h2 0])
        (Slam.init (wallPose 0) (.ok World.init)) = .ok (s, outs) ∧
      Slam.run (localMapOps (programKinds (withShapes (handlerOps (geo2 wallSight (examplePinv 3))))
          (withShapes (handlerOps (geo1 wallSight (examplePinv 3)))) wallOps) (fun e => isValid e.1.pose) (fun _ _ => false)
          (fun pose d => (Spec.cameraAt 1000 1000 0 0 pose, d.1)) frameDets)
        ⟨fun p => isValid p.variance, fun p => isValid (firstPoseBlock p.variance)⟩
        (List.replicate 11 coveredFrame ++ dawnFrame h1 0 :: [dawnFrame h1 0, dawnFrame h1 0, dawnFrame h1 0]) s = .ok (s', outs') ∧
      s'.localMap = .ok w' ∧
      (objVertices (exportedFile wholeFmt (fun _ => ([], 0)) w')).Perm
        (Spec.printed wholeFmt wallPoint 5 ++ Spec.printed wholeFmt (fun i => pointToWorld pushed (wallPoint i)) 5) ∧
      ¬ (objVertices (exportedFile wholeFmt (fun _ => ([], 0)) w')).Perm (Spec.printed wholeFmt wallPoint 5) := by
  obtain ⟨h, h1, h2, e0, e1, e2, x1, x2, hv, hf⟩ := swing_frames
  obtain ⟨h1', e1', g1⟩ := holds_elim (show ((newView 1).holds fun h =>
    (Keypoints.detections h).all (fun d => decide (d.kp.depth = 1000 ∧ (d.desc = some 0 ∨ d.desc = none))) &&
      decide ((Keypoints.detections h).map (·.kp.pt) = shifted 1)) = true by decide +kernel)
  rw [e1] at e1'
  injection e1' with e1'
  subst e1'
  simp only [Bool.and_eq_true, List.all_eq_true, decide_eq_true_eq] at g1
  have hv1 := wall_view g1.2 g1.1
  have hagain : ∀ prev, Spec.place prev = wallPlace 0 → Spec.Redetected (geo1 wallSight (examplePinv 3)) 640 480
      (Spec.At (fun i => pointToWorld pushed (wallPoint i)) (fun _ => 0) 5) 5 (Spec.cameraAt 1000 1000 0 0 prev) h1 := fun prev hp =>
    ⟨⟨Keypoints.create 640 480, demoImage, shifted 1, [0, 0, 0, 0, 0], .create, by simp [shifted, spread],
        by simp [shifted, spread], e1, fun i b hb => pushed_seenAs hp hb⟩, fun d hd => by rw [(g1.1 d hd).1]; decide +kernel⟩
  obtain ⟨s, outs, w, r1, -, r2, r3, r4, r5, -, r6⟩ := trip_state wallSight wallSight examplePinv_spec (by norm_num) (by norm_num) wallOps
    (fun _ _ => rfl) (fun _ _ => false) (cols := 640) (rows := 480) (by norm_num) (by norm_num) (by norm_num) (by norm_num) (by decide)
    (n := 5) (by norm_num) (by norm_num) (start := wallPose 0) isCovariance_one (f := exactFrame h 0) (fun _ _ _ => rfl)
    hv hf (Ts := [wallPlace 1, wallPlace 0, wallPlace 1, wallPlace 0])
    (.go ⟨h1, x1 0⟩ (.go ⟨h2, x2 1⟩ (.go ⟨h1, x1 0⟩ (.go ⟨h2, x2 1⟩ (.home _)))))
  obtain ⟨s0, outs0, w0, q1, q2, q3⟩ := C196_file_is_scene_partial wallSight wallSight examplePinv_spec (by norm_num) (by norm_num) wallOps
    (fun _ _ => rfl) (fun _ _ => false) (cols := 640) (rows := 480) (by norm_num) (by norm_num) (by norm_num) (by norm_num) (by decide)
    (n := 5) (by norm_num) (by norm_num) (start := wallPose 0) isCovariance_one (f := exactFrame h 0) (fun _ _ _ => rfl)
    hv hf (Ts := [wallPlace 1, wallPlace 0, wallPlace 1, wallPlace 0])
    (.go ⟨h1, x1 0⟩ (.go ⟨h2, x2 1⟩ (.go ⟨h1, x1 0⟩ (.go ⟨h2, x2 1⟩ (.home _))))) (by simp) (.home _ _) wholeFmt_oneWord (fun _ => ([], 0))
  rw [List.append_nil, r1] at q1
  injection q1 with q1
  injection q1 with q1 q1'
  rw [← q1, r2] at q2
  injection q2 with q2
  subst q2
  have hpl : Spec.place s.currentPose = wallPlace 0 := by rw [r4]; rfl
  have hg : w.alloc.given = 5 := by rw [r3.ids]
  have htrue : Spec.TrueFrame 5 wallSight (examplePinv 3) 1000 1000 0 0 640 480 wallPoint (fun _ => 0) 5 pushed (wallPlace 1) (wallPlace 1)
      (dawnFrame h1 0) h1 := by
    refine ⟨fun _ _ _ => rfl, wallPlace_rigid 1, hv1, fun prev hprev => .inl (hagain prev (hprev.trans pushed_place.symm)),
      fun prev _ => ⟨wallPose 0, ?_, isCovariance_one, by simp [UnitQuat, wallPose], ?_⟩, ?_⟩
    · have hfound : Spec.allFound 5 5 ≠ [] := by decide
      simp [dawnFrame, hfound]
    · intro i d hd
      have := sees_moved pushed_rigid (wallPlace_rigid 1) (hv1 i d hd).1
      rw [← pushed_place] at this
      exact ⟨_, this⟩
    · rintro M ⟨R, t, hR, hRd, rfl⟩ hre
      exact wall_only_rigid g1.2 hR hRd hre
  obtain ⟨s', outs', w', p1, p2, p3⟩ := C216_old_and_new wallSight wallSight examplePinv_spec (by norm_num) (by norm_num)
    wallOps (fun _ _ => rfl) (fun _ _ => false) (cols := 640) (rows := 480) (by norm_num) (by norm_num) (by norm_num) (by norm_num) (by decide)
    r1 r2 r5 (dark := List.replicate 11 coveredFrame)
    (fun f hf => by
      rw [List.eq_of_mem_replicate hf]
      exact ⟨⟨Keypoints.create 640 480, rfl, fun _ _ _ => rfl⟩, fun _ => rfl⟩) (by simp) (by rw [r6]; simp)
    pushed_rigid (wallPlace_rigid 1) (by rw [hpl]; exact pushed_place) (n := 5) (by norm_num) (by rw [hg]; norm_num)
    (f := dawnFrame h1 0) (h := h1) (fun _ _ _ => rfl) rfl hv1 (hagain _ hpl) (Ts := [wallPlace 1, wallPlace 1, wallPlace 1])
    (fs := [dawnFrame h1 0, dawnFrame h1 0, dawnFrame h1 0])
    (.go ⟨h1, by rw [hg]; exact htrue⟩ (.go ⟨h1, by rw [hg]; exact htrue⟩ (.go ⟨h1, by rw [hg]; exact htrue⟩ (.home _))))
    wholeFmt_oneWord (fun _ => ([], 0))
  rw [q3, if_neg (by simp)] at p3
  refine ⟨h, h1, h2, e0, e1, e2, s, s', outs, outs', w', r1, p1, p2, p3, fun hh => ?_⟩
  have a := p3.length_eq
  have b := hh.length_eq
  rw [b] at a
  simp [Spec.printed] at a

end

end RgbdSlam.Map.Anew
