import Verif.Props.TumLosses

/-! # C222: the two files of the same run

The example program leaves a trajectory (C221), and when its tracker is destroyed the map is in the OBJ file (C196, C217).  Here both are about the same run: they are in the
same frame. -/

namespace RgbdSlam.Map.Exact

open Keypoints (Handler Detected Pt Tracked)
open Geometry Geometry.Spec Covariance Covariance.Spec Updates Matrix Writer
open Optimizer (PoseVar)
open TumRun (Program Input Image Colour Key Loop Line lineOf startPose)
open TumRun.Spec (kept UntilQuit)

noncomputable section

variable {Desc S Shape : Type} {L Det Match' : Type}

/-- The tracker of the program goes through the states of successive calls of `track`. -/
theorem tracked_slam {ops : Slam.MapOps L Det PoseVar Match'} {po : Slam.PoseOps PoseVar}
    {frameOf : Image Colour × Image ℚ → Slam.Frame L Det PoseVar Match'} {prog : Program (Slam.State L PoseVar)}
    (htrack : prog.track = slamTrack ops po frameOf) {treated : List Input} {gs : List (Slam.Frame L Det PoseVar Match')}
    (h : List.Forall₂ (fun i g => ∃ images, TumRun.prepare prog.width prog.height i = .ok images ∧ frameOf images = g) treated gs) :
    ∀ {s s' : Slam.State L PoseVar} {outs : List (Slam.Out PoseVar)}, Slam.run ops po gs s = .ok (s', outs) →
      TumRun.Spec.Tracked prog.track prog.width prog.height s treated (outs.map fun o => o.returned.pose) s' := by
  induction h with
  | nil =>
    intro s s' outs hr
    injection hr with hr
    injection hr with hr1 hr2
    subst hr1 hr2
    exact .nil _
  | @cons f g treated gs hf _ ih =>
    intro s s' outs hr
    obtain ⟨images, e1, rfl⟩ := hf
    obtain ⟨⟨s1, o⟩, h1, hr⟩ := Outcome.bind_eq_ok hr
    obtain ⟨⟨s2, os⟩, h2, hr⟩ := Outcome.bind_eq_ok hr
    injection hr with hr
    injection hr with hr1 hr2
    subst hr1 hr2
    obtain ⟨hc, hd⟩ := TumRun.prepare_spec e1
    refine .cons hc hd ?_ (ih h2)
    rw [htrack, slamTrack, h1]
    rfl

/-- C222.  The setting of C221, with at least four images before the first loss; `Ds` is empty when there is no loss.  The program ends normally; `final` is its tracker after the treated
images.  When the trajectory is saved its lines describe the places of C221; the file written when the tracker is destroyed has as vertices the scene points, each once, and for each
loss each of them once more, moved by the motions that were not seen until then.  So each line and the copy of the scene of its part of the run are moved alike. -/
theorem C222_both_files [Inhabited Desc] (sight2 sight : Sight Desc S) {pinv : Sq 3 → Sq 3}
    (hpinv : ∀ A, IsCovariance A → IsPseudoInverse A (pinv A)) {fx fy cx cy : ℝ} (hfx : fx ≠ 0) (hfy : fy ≠ 0)
    (op : PlaneOps (Body Desc S) (Detected Desc ⊕ Shape) (Camera × Handler Desc)) (hop : ∀ c h, op.covValid (c, h) = isValid c.pose)
    (lt : Match → Match → Bool) {cols rows : Nat} (hc : cols < 2 ^ 31) (hr : rows < 2 ^ 31) (hcx : 31 < cols) (hry : 31 < rows)
    (hw : Keypoints.cellsFor rows ≤ Keypoints.cellsFor cols) {X : Nat → V3} {look : Nat → Desc} {n : Nat} (h5 : 5 ≤ n)
    -- the program
    {frameOf : Image Colour × Image ℚ → Slam.Frame (Outcome (World (Body Desc S))) (Handler Desc × List Shape) PoseVar Match}
    {prog : Program (Slam.State (Outcome (World (Body Desc S))) PoseVar)}
    (htrack : prog.track = slamTrack (localMapOps (programKinds (withShapes (handlerOps (geo2 sight2 pinv))) (withShapes (handlerOps (geo1 sight pinv)))
          op) (fun e => isValid e.1.pose) lt (fun pose d => (Spec.cameraAt fx fy cx cy pose, d.1)) frameDets)
        ⟨fun p => isValid p.variance, fun p => isValid (firstPoseBlock p.variance)⟩ frameOf)
    (hxyz : Angles.Spec.IsXyz prog.xyz) {keys : ℕ → Key} {first : ℕ} {variance : Sq 6} (hstart : IsCovariance variance)
    -- the dataset
    {inputs treated : List Input} (hquit : UntilQuit keys (kept prog.jump first inputs) treated) {f : Slam.Frame (Outcome (World (Body Desc S))) (Handler Desc × List Shape) PoseVar Match} {fs gs : List (Slam.Frame (Outcome (World (Body Desc S))) (Handler Desc × List Shape) PoseVar Match)}
    (himages : List.Forall₂ (fun i g => ∃ images, TumRun.prepare prog.width prog.height i = .ok images ∧ frameOf images = g) treated (f :: fs ++ gs))
    {h : Handler Desc} (hdet : ∀ L pose forced, f.detect L pose forced = (h, []))
    (hview : Spec.ExactView fx fy cx cy X look (Spec.place ⟨startPose inputs, variance⟩) h)
    (hfirst : Spec.Redetected (geo1 sight pinv) cols rows (Spec.At X look n) n (Spec.cameraAt fx fy cx cy ⟨startPose inputs, variance⟩) h)
    {Ts : List M4} (hrigid : ∀ T ∈ Spec.place ⟨startPose inputs, variance⟩ :: Ts, Anew.Spec.Rigid T)
    (hroute : Spec.Route (fun T U f => ∃ h, Spec.ExactFrame sight pinv fx fy cx cy cols rows X look n T U f h)
      (Spec.place ⟨startPose inputs, variance⟩) Ts fs)
    -- the losses
    {places Ds : List M4} (hlosses : Anew.Spec.Losses sight pinv fx fy cx cy cols rows X look n 1
      ((Spec.place ⟨startPose inputs, variance⟩ :: Ts).getLast (by simp)) n gs places Ds) (hmany : n + n * Ds.length < 2 ^ 64) (h3 : 3 ≤ Ts.length)
    {fmt : ℝ → List Char} (hf : OneWord fmt) (outline : S → List V3 × V3) :
    ∃ report poses final w, TumRun.run prog (fun p => Slam.init ⟨p, variance⟩ (.ok World.init)) first keys inputs = .ok (some report) ∧
      TumRun.Spec.Tracked prog.track prog.width prog.height (Slam.init ⟨startPose inputs, variance⟩ (.ok World.init)) treated poses final ∧
      (prog.save = true → report.trajectory.map Spec.placeOf = Spec.place ⟨startPose inputs, variance⟩ :: (Ts ++ places)) ∧
      final.localMap = .ok w ∧ (objVertices (exportedFile fmt outline w)).Perm
        (Spec.printed fmt X n ++ (Anew.Spec.displacements 1 Ds).flatMap fun E => Spec.printed fmt (fun i => pointToWorld E (X i)) n) := by
  obtain ⟨s, outs, w, r1, r2, r3, r4, r5, r6, -, r7⟩ := trip_state sight2 sight hpinv hfx hfy op hop lt hc hr hcx hry hw h5 (by omega)
    (start := ⟨startPose inputs, variance⟩) hstart hdet hview hfirst hroute
  obtain ⟨s0, outs0, w0, p1, p2, p3⟩ := C196_file_is_scene_partial sight2 sight hpinv hfx hfy op hop lt hc hr hcx hry hw h5 (by omega)
    (start := ⟨startPose inputs, variance⟩) hstart hdet hview hfirst hroute h3 (.home _ _) hf outline
  rw [List.append_nil, r1] at p1
  injection p1 with p1
  injection p1 with p1 p1'
  rw [← p1, r3] at p2
  injection p2 with p2
  subst p2
  have hone : Anew.Spec.Rigid 1 := ⟨1, 0, by simp, by simp, transformation_one.symm⟩
  have hlastR := hrigid _ (List.getLast_mem (l := Spec.place ⟨startPose inputs, variance⟩ :: Ts) (by simp))
  obtain ⟨s', outs', w', q1, q2, q3, q4⟩ := Anew.C217_losses_add_up sight2 sight hpinv hfx hfy op hop lt hc hr hcx hry hw h5 hf
    outline hone hlosses hmany r1 r3 r6 r7 (by rw [r4.ids]) (by rw [r5, Matrix.one_mul])
  have r2' : outs.map (fun o => Spec.place o.returned) = Spec.place ⟨startPose inputs, variance⟩ :: Ts := by
    have := congrArg (List.map Prod.fst) r2
    simpa [List.map_map, Function.comp_def] using this
  obtain ⟨report, t1, t2, -⟩ := report_places htrack hxyz hquit (create := fun p => Slam.init ⟨p, variance⟩ (.ok World.init)) himages
    (Anew.Slam.run_append r1 q1)
    (by rw [List.map_append, r2', q2, List.cons_append]) (by
      rw [← List.cons_append]
      intro U hU
      rcases List.mem_append.1 hU with hU | hU
      · exact hrigid U hU
      · exact losses_rigid hlosses hone hlastR U hU)
  rw [p3] at q4
  exact ⟨report, _, s', w', t1, tracked_slam htrack himages (Anew.Slam.run_append r1 q1), t2, q3, q4⟩

/-- The hypotheses are met, for any number of losses: the wall is in the file at its place, once more moved as the camera was pushed, and once more for each further loss. -/
example : ∃ h0 h1 h2, ∀ k, k < 2 ^ 32 → ∃ (report : TumRun.Report) (places : List M4) (poses : List Pose)
      (final : Slam.State (Outcome (World (Body Nat Unit))) PoseVar) (w : World (Body Nat Unit)),
    TumRun.run (lossProgram h0 h1 h2) (fun p => Slam.init ⟨p, 1⟩ (.ok World.init)) 0 (fun _ => .other)
      (([0, 1, 2, 1, 2] ++ (darkAndDawnColours ++ (List.replicate k darkAndDawnColours).flatten)).map picture) = .ok (some report) ∧
    TumRun.Spec.Tracked (lossProgram h0 h1 h2).track 640 480 (Slam.init (wallPose 0) (.ok World.init))
      (([0, 1, 2, 1, 2] ++ (darkAndDawnColours ++ (List.replicate k darkAndDawnColours).flatten)).map picture) poses final ∧
    report.trajectory.map Spec.placeOf = [wallPlace 0, wallPlace 1, wallPlace 0, wallPlace 1, wallPlace 0] ++ (List.replicate 15 (wallPlace 0) ++ places) ∧
    final.localMap = .ok w ∧ (objVertices (exportedFile wholeFmt (fun _ => ([], 0)) w)).Perm (Spec.printed wholeFmt wallPoint 5 ++
      (Anew.Spec.displacements 1 (Anew.pushed :: List.replicate k 1)).flatMap fun E => Spec.printed wholeFmt (fun i => pointToWorld E (wallPoint i)) 5) := by
  obtain ⟨h0, h1, h2, e0, e1, e2, x1, x2, hv, hf⟩ := swing_frames
  refine ⟨h0, h1, h2, fun k hk => ?_⟩
  obtain ⟨hv1, hagain, ht⟩ := Anew.pushed_true e1 5
  obtain ⟨places, hrest⟩ := Anew.wall_losses e1 k (5 + 5)
  have hs : ∀ is, (⟨startPose (picture 0 :: is), 1⟩ : PoseVar) = wallPose 0 := by
    have : (0 : V3) = ![-((shiftOf 0 : ℚ) : ℝ), 0, 0] := by
      ext i; fin_cases i <;> simp [shiftOf]
    intro is
    simp only [startPose, picture, List.head?_cons, Pose.default, wallPose, ← this]
  have hp : ∀ is, Spec.place ⟨startPose (picture 0 :: is), 1⟩ = wallPlace 0 := fun is => by rw [hs]; rfl
  have hdd : Anew.darkAndDawn h1 = darkAndDawnColours.map (lossView h0 h1 h2) := by
    simp [Anew.darkAndDawn, darkAndDawnColours, lossView]
  have hframes : exactFrame h0 0 :: [exactFrame h1 1, exactFrame h2 0, exactFrame h1 1, exactFrame h2 0] ++
      (Anew.darkAndDawn h1 ++ (List.replicate k (Anew.darkAndDawn h1)).flatten) =
      ([0, 1, 2, 1, 2] ++ (darkAndDawnColours ++ (List.replicate k darkAndDawnColours).flatten)).map (lossView h0 h1 h2) := by
    rw [hdd]
    simp only [List.map_append, List.map_flatten, List.map_replicate]
    rfl
  have hlosses : Anew.Spec.Losses wallSight (examplePinv 3) 1000 1000 0 0 640 480 wallPoint (fun _ => 0) 5 1 (wallPlace 0) 5
      (Anew.darkAndDawn h1 ++ (List.replicate k (Anew.darkAndDawn h1)).flatten)
      (List.replicate (List.replicate 11 coveredFrame).length (1 * wallPlace 0) ++
        (wallPlace 1 :: [wallPlace 1, wallPlace 1, wallPlace 1]).map (1 * Anew.pushed * ·) ++ places) (Anew.pushed :: List.replicate k 1) :=
    Anew.Spec.Losses.again (E := 1) (T := wallPlace 0) (D := Anew.pushed) (Q := wallPlace 1) (dark := List.replicate 11 coveredFrame)
      (f := Anew.dawnFrame h1 0) (fs := [Anew.dawnFrame h1 0, Anew.dawnFrame h1 0, Anew.dawnFrame h1 0]) (places := places)
      (Ts := [wallPlace 1, wallPlace 1, wallPlace 1])
      (fun f hf => by
        rw [List.eq_of_mem_replicate hf]
        exact ⟨⟨Keypoints.create 640 480, rfl, fun _ _ _ => rfl⟩, fun _ => rfl⟩) (by simp) (by simp)
      Anew.pushed_rigid (Anew.wallPlace_rigid 1) Anew.pushed_place (fun _ _ _ => rfl) (fun _ => rfl) hv1
      (fun prev hp => by rw [Matrix.one_mul] at hp ⊢; exact hagain prev hp)
      (by rw [Matrix.one_mul]; exact .go ⟨h1, ht⟩ (.go ⟨h1, ht⟩ (.go ⟨h1, ht⟩ (.home _)))) (by simp)
      (by rw [Matrix.one_mul]; exact hrest)
  obtain ⟨report, poses, final, w, r1, rt, r2, r3, r4⟩ := C222_both_files wallSight wallSight examplePinv_spec (by norm_num) (by norm_num) wallOps
    (fun _ _ => rfl) (fun _ _ => false) (cols := 640) (rows := 480) (by norm_num) (by norm_num) (by norm_num) (by norm_num) (by decide)
    (n := 5) (by norm_num) (prog := lossProgram h0 h1 h2) (frameOf := fun images => lossView h0 h1 h2 (images.1.pixel 0 0).1) rfl
    Optimizer.PoseVector.C215_angles.1 (keys := fun _ => .other)
    (first := 0) (variance := 1) isCovariance_one
    (inputs := ([0, 1, 2, 1, 2] ++ (darkAndDawnColours ++ (List.replicate k darkAndDawnColours).flatten)).map picture)
    (all_treated rfl (fun _ => by decide)) (f := exactFrame h0 0) (fs := [exactFrame h1 1, exactFrame h2 0, exactFrame h1 1, exactFrame h2 0])
    (gs := Anew.darkAndDawn h1 ++ (List.replicate k (Anew.darkAndDawn h1)).flatten) (by
      rw [hframes, List.forall₂_map_left_iff, List.forall₂_map_right_iff]
      exact List.forall₂_same.2 fun c _ => ⟨_, prepare_picture c, rfl⟩) (h := h0) (fun _ _ _ => rfl)
    (by
      rw [List.cons_append, List.map_cons, hp]
      exact hv) (by
      rw [List.cons_append, List.map_cons, hs]
      exact hf)
    (Ts := [wallPlace 1, wallPlace 0, wallPlace 1, wallPlace 0]) (by
      rw [List.cons_append, List.map_cons, hp]
      intro T hT
      simp only [List.mem_cons, List.not_mem_nil, or_false] at hT
      rcases hT with rfl | rfl | rfl | rfl | rfl <;> exact Anew.wallPlace_rigid _) (by
      rw [List.cons_append, List.map_cons, hp]
      exact .go ⟨h1, x1 0⟩ (.go ⟨h2, x2 1⟩ (.go ⟨h1, x1 0⟩ (.go ⟨h2, x2 1⟩ (.home _)))))
    (by exact hlosses) (by rw [List.length_cons, List.length_replicate]; omega) (by simp) wholeFmt_oneWord (fun _ => ([], 0))
  refine ⟨report, places, poses, final, w, r1, ?_, ?_, r3, r4⟩
  · have := rt
    rw [List.cons_append, List.map_cons, hs] at this
    exact this
  · rw [r2 rfl]
    simp only [List.cons_append, List.map_cons, hp, Matrix.one_mul, ← Anew.pushed_place, List.length_replicate, List.map_nil, List.nil_append]
    rfl

end

end RgbdSlam.Map.Exact
