import Verif.Props.CapeExact
import Verif.Props.TumFiles

/-! # C223: the two files of a run on numbered images

C222 for the other example program: numbered images, the default pose as start, the depth images rectified. -/

namespace RgbdSlam.Map.ExactCape

open Keypoints (Handler Detected Pt Tracked)
open Geometry Geometry.Spec Covariance Covariance.Spec Updates Matrix Writer
open Optimizer (PoseVar)
open TumRun (Image Colour Key Line lineOf)
open CapeRun (Program Loop Dataset)
open CapeRun.Spec (Present Wanted EndsAt frames UntilQuit)
open Exact (slamTrack lineOf_place losses_rigid lossView darkAndDawnColours)

noncomputable section

variable {Desc S Shape : Type} {L Det Match' : Type}

/-- The tracker of the program goes through the states of successive calls of `track`. -/
theorem tracked_slam {ops : Slam.MapOps L Det PoseVar Match'} {po : Slam.PoseOps PoseVar}
    {frameOf : Image Colour × Image ℚ → Slam.Frame L Det PoseVar Match'} {prog : Program (Slam.State L PoseVar)}
    (htrack : prog.track = slamTrack ops po frameOf) {d : Dataset} {treated : List ℕ} {gs : List (Slam.Frame L Det PoseVar Match')}
    (h : List.Forall₂ (Spec.Gives prog d frameOf) treated gs) :
    ∀ {s s' : Slam.State L PoseVar} {outs : List (Slam.Out PoseVar)}, Slam.run ops po gs s = .ok (s', outs) →
      CapeRun.Spec.Tracked prog.track prog.rectify prog.width prog.height d s treated (outs.map fun o => o.returned.pose) s' := by
  induction h with
  | nil =>
    intro s s' outs hr
    injection hr with hr
    injection hr with hr1 hr2
    subst hr1 hr2
    exact .nil _
  | @cons f g treated gs hf _ ih =>
    intro s s' outs hr
    obtain ⟨rgb, file, ⟨rgb', depth⟩, hp, e1, rfl⟩ := hf
    obtain ⟨⟨s1, o⟩, h1, hr⟩ := Outcome.bind_eq_ok hr
    obtain ⟨⟨s2, os⟩, h2, hr⟩ := Outcome.bind_eq_ok hr
    injection hr with hr
    injection hr with hr1 hr2
    subst hr1 hr2
    obtain ⟨rfl, hrec, a, b, c, e⟩ := CapeRun.prepare_spec e1
    refine .cons hp hrec a b c e ?_ (ih h2)
    rw [htrack, slamTrack, h1]
    rfl

/-- C223.  The program for numbered images treats a dataset that begins with at least four exact views of a scene and in which tracking may be lost any number of times; `Ds`
are the motions that are not seen, none when there is no loss.  The program ends normally.  `final` is its tracker after the treated frames.  When the
trajectory is saved its lines describe the true places, moved after each loss by the motions not seen so far; the last line is the end pose.  The file written when the tracker
is destroyed has as vertices the scene points, each once, and for each loss each of them once more, moved by the same motions. -/
theorem C223_both_files [Inhabited Desc] (sight2 sight : Sight Desc S) {pinv : Sq 3 → Sq 3}
    (hpinv : ∀ A, IsCovariance A → IsPseudoInverse A (pinv A)) {fx fy cx cy : ℝ} (hfx : fx ≠ 0) (hfy : fy ≠ 0)
    (op : PlaneOps (Body Desc S) (Detected Desc ⊕ Shape) (Camera × Handler Desc)) (hop : ∀ c h, op.covValid (c, h) = isValid c.pose)
    (lt : Match → Match → Bool) {cols rows : Nat} (hc : cols < 2 ^ 31) (hr : rows < 2 ^ 31) (hcx : 31 < cols) (hry : 31 < rows)
    (hw : Keypoints.cellsFor rows ≤ Keypoints.cellsFor cols) {X : Nat → V3} {look : Nat → Desc} {n : Nat} (h5 : 5 ≤ n)
    -- the program
    {frameOf : Image Colour × Image ℚ → Slam.Frame (Outcome (World (Body Desc S))) (Handler Desc × List Shape) PoseVar Match}
    {prog : Program (Slam.State (Outcome (World (Body Desc S))) PoseVar)}
    (htrack : prog.track = slamTrack (localMapOps (programKinds (withShapes (handlerOps (geo2 sight2 pinv))) (withShapes (handlerOps (geo1 sight pinv)))
          op) (fun e => isValid e.1.pose) lt (fun pose d => (Spec.cameraAt fx fy cx cy pose, d.1)) frameDets)
        ⟨fun p => isValid p.variance, fun p => isValid (firstPoseBlock p.variance)⟩ frameOf)
    (hxyz : Angles.Spec.IsXyz prog.xyz) {keys : ℕ → Key} {first : ℕ} {variance : Sq 6} (hstart : IsCovariance variance)
    -- the dataset
    {d : Dataset} {e : ℕ} (he : e < 2 ^ 32) (hend : EndsAt d prog.jump first e) {treated : List ℕ}
    (hquit : UntilQuit keys (frames prog.jump first e) treated) {f : Slam.Frame (Outcome (World (Body Desc S))) (Handler Desc × List Shape) PoseVar Match} {fs gs : List (Slam.Frame (Outcome (World (Body Desc S))) (Handler Desc × List Shape) PoseVar Match)}
    (himages : List.Forall₂ (Spec.Gives prog d frameOf) treated (f :: fs ++ gs))
    {h : Handler Desc} (hdet : ∀ L pose forced, f.detect L pose forced = (h, []))
    (hview : Spec.ExactView fx fy cx cy X look (Spec.place ⟨Pose.default, variance⟩) h)
    (hfirst : Spec.Redetected (geo1 sight pinv) cols rows (Spec.At X look n) n (Spec.cameraAt fx fy cx cy ⟨Pose.default, variance⟩) h)
    {Ts : List M4} (hrigid : ∀ T ∈ Spec.place ⟨Pose.default, variance⟩ :: Ts, Anew.Spec.Rigid T)
    (hroute : Spec.Route (fun T U f => ∃ h, Spec.ExactFrame sight pinv fx fy cx cy cols rows X look n T U f h)
      (Spec.place ⟨Pose.default, variance⟩) Ts fs)
    -- the losses
    {places Ds : List M4} (hlosses : Anew.Spec.Losses sight pinv fx fy cx cy cols rows X look n 1
      ((Spec.place ⟨Pose.default, variance⟩ :: Ts).getLast (by simp)) n gs places Ds) (hmany : n + n * Ds.length < 2 ^ 64) (h3 : 3 ≤ Ts.length)
    {fmt : ℝ → List Char} (hf : OneWord fmt) (outline : S → List V3 × V3) :
    ∃ poses final w, CapeRun.Spec.Tracked prog.track prog.rectify prog.width prog.height d (Slam.init ⟨Pose.default, variance⟩ (.ok World.init)) treated poses final ∧
      final.localMap = .ok w ∧ (objVertices (exportedFile fmt outline w)).Perm
        (Spec.printed fmt X n ++ (Anew.Spec.displacements 1 Ds).flatMap fun E => Spec.printed fmt (fun i => pointToWorld E (X i)) n) ∧
      ∃ bound, ∀ fuel, bound ≤ fuel → ∃ report,
        CapeRun.run prog (fun p => Slam.init ⟨p, variance⟩ (.ok World.init)) first keys d fuel = .ok report ∧
        (prog.save = true → report.trajectory.map Exact.Spec.placeOf = Spec.place ⟨Pose.default, variance⟩ :: (Ts ++ places)) ∧
        cameraToWorld report.endPose.orientation report.endPose.position =
          (Spec.place ⟨Pose.default, variance⟩ :: (Ts ++ places)).getLast (by simp) := by
  obtain ⟨s, outs1, w, r1, r2, r3, r4, r5, r6, -, r7⟩ := trip_state sight2 sight hpinv hfx hfy op hop lt hc hr hcx hry hw h5 (by omega)
    (start := ⟨Pose.default, variance⟩) hstart hdet hview hfirst hroute
  obtain ⟨s0, outs0, w0, p1, p2, p3⟩ := C196_file_is_scene_partial sight2 sight hpinv hfx hfy op hop lt hc hr hcx hry hw h5 (by omega)
    (start := ⟨Pose.default, variance⟩) hstart hdet hview hfirst hroute h3 (.home _ _) hf outline
  rw [List.append_nil, r1] at p1
  injection p1 with p1
  injection p1 with p1 p1'
  rw [← p1, r3] at p2
  injection p2 with p2
  subst p2
  have hone : Anew.Spec.Rigid 1 := ⟨1, 0, by simp, by simp, transformation_one.symm⟩
  have hlastR := hrigid _ (List.getLast_mem (l := Spec.place ⟨Pose.default, variance⟩ :: Ts) (by simp))
  obtain ⟨sf, outs2, w', q1, q2, q3, q4⟩ := Anew.C217_losses_add_up sight2 sight hpinv hfx hfy op hop lt hc hr hcx hry hw h5 hf
    outline hone hlosses hmany r1 r3 r6 r7 (by rw [r4.ids]) (by rw [r5, Matrix.one_mul])
  have r2' : outs1.map (fun o => Spec.place o.returned) = Spec.place ⟨Pose.default, variance⟩ :: Ts := by
    have := congrArg (List.map Prod.fst) r2
    simpa [List.map_map, Function.comp_def] using this
  rw [p3] at q4
  have hrun := Anew.Slam.run_append r1 q1
  have hplaces : (outs1 ++ outs2).map (fun o => Spec.place o.returned) = Spec.place ⟨Pose.default, variance⟩ :: (Ts ++ places) := by
    rw [List.map_append, r2', q2, List.cons_append]
  have hall : ∀ U ∈ Spec.place ⟨Pose.default, variance⟩ :: (Ts ++ places), Anew.Spec.Rigid U := by
    rw [← List.cons_append]
    intro U hU
    rcases List.mem_append.1 hU with hU | hU
    · exact hrigid U hU
    · exact losses_rigid hlosses hone hlastR U hU
  generalize outs1 ++ outs2 = outs at hrun hplaces
  have hne' : outs ≠ [] := by
    rintro rfl
    simp at hplaces
  refine ⟨_, sf, w', tracked_slam htrack himages hrun, q3, q4, e - first + 2, fun fuel hfuel => ?_⟩
  have hix : (((first : ℤ) % 2 ^ 32).toNat) = first := by
    have := hend.after
    omega
  obtain ⟨s', l1, l2, l3⟩ := loop_slam htrack he (keys := keys) (d := d) (fuel := fuel)
    (s := { slam := Slam.init ⟨Pose.default, variance⟩ (.ok World.init), pose := Pose.default, goOn := true, frameIndex := ((first : ℤ) % 2 ^ 32).toNat,
            treated := 0, lines := [] }) (by dsimp only; rw [hix]; exact hend) (by dsimp only; rw [hix]; omega) rfl
    (by dsimp only; rw [hix]; simpa using hquit) himages hrun
  refine ⟨_, by rw [CapeRun.run, l1]; rfl, ?_, ?_⟩
  · intro hsave
    dsimp only
    rw [l2 hsave, List.nil_append, ← hplaces, List.map_map]
    refine List.map_congr_left fun o ho => lineOf_place hxyz (hall _ ?_)
    rw [← hplaces]
    exact List.mem_map_of_mem ho
  · dsimp only
    have e : (Spec.place ⟨Pose.default, variance⟩ :: (Ts ++ places)).getLast (by simp) = Spec.place (outs.getLast hne').returned := by
      rw [← List.getLast_map (f := fun o : Slam.Out PoseVar => Spec.place o.returned) (by simpa using hne')]
      congr 1
      exact hplaces.symm
    rw [e, l3, List.getLast?_map, List.getLast?_eq_getLast_of_ne_nil hne']
    rfl

/-! ## A dataset -/

/-- Numbered images with these colours. -/
def numbered (colours : List ℕ) : Dataset where
  rgb := fun i => match colours[i]? with | some c => .image ⟨480, 640, fun _ _ => (c, 0, 0)⟩ | none => .missing
  depth := fun i => match colours[i]? with | some _ => .image ⟨480, 640, fun _ _ => 1000⟩ | none => .missing

/-- The program for numbered images, for the wall and a lens that is covered from time to time. -/
def lossProgram (h0 h1 h2 : Handler Nat) : Program (Slam.State (Outcome (World (Body Nat Unit))) PoseVar) :=
  { wallProgram h0 h1 h2 with
    track := slamTrack (localMapOps (programKinds (withShapes (handlerOps (geo2 wallSight (examplePinv 3))))
        (withShapes (handlerOps (geo1 wallSight (examplePinv 3)))) wallOps) (fun e => isValid e.1.pose) (fun _ _ => false)
        (fun pose d => (Spec.cameraAt 1000 1000 0 0 pose, d.1)) frameDets)
      ⟨fun p => isValid p.variance, fun p => isValid (firstPoseBlock p.variance)⟩ (fun images => lossView h0 h1 h2 (images.1.pixel 0 0).1) }

theorem numbered_gives (h0 h1 h2 : Handler Nat) (colours : List ℕ) :
    List.Forall₂ (Spec.Gives (lossProgram h0 h1 h2) (numbered colours) (fun images => lossView h0 h1 h2 (images.1.pixel 0 0).1))
      (List.range' 0 colours.length) (colours.map (lossView h0 h1 h2)) := by
  refine List.forall₂_iff_get.2 ⟨by simp, fun i hi hi' => ?_⟩
  have hl : i < colours.length := by simpa using hi
  refine ⟨⟨480, 640, fun _ _ => (colours[i], 0, 0)⟩, ⟨480, 640, fun _ _ => 1000⟩, (⟨480, 640, fun _ _ => (colours[i], 0, 0)⟩, ⟨480, 640, fun _ _ => 1000⟩),
    ⟨?_, ?_⟩, ?_, ?_⟩
  · simp [numbered, hl]
  · simp [numbered, hl]
  · simp [CapeRun.prepare, lossProgram, wallProgram]
  · simp

/-- The hypotheses are met, for any number of losses: the wall is in the file at its place, once more moved as the camera was pushed, and once more for each further loss. -/
example : ∃ h0 h1 h2, ∀ k, k < 2 ^ 24 → ∃ (colours : List ℕ) (places poses : _) (final : Slam.State (Outcome (World (Body Nat Unit))) PoseVar)
      (w : World (Body Nat Unit)) (fuel : ℕ) (report : CapeRun.Report),
    colours = [0, 1, 2, 1, 2] ++ (darkAndDawnColours ++ (List.replicate k darkAndDawnColours).flatten) ∧
    CapeRun.Spec.Tracked (lossProgram h0 h1 h2).track (fun _ => none) 640 480 (numbered colours) (Slam.init (wallPose 0) (.ok World.init))
      (List.range' 0 colours.length) poses final ∧
    final.localMap = .ok w ∧ (objVertices (exportedFile wholeFmt (fun _ => ([], 0)) w)).Perm (Spec.printed wholeFmt wallPoint 5 ++
      (Anew.Spec.displacements 1 (Anew.pushed :: List.replicate k 1)).flatMap fun E => Spec.printed wholeFmt (fun i => pointToWorld E (wallPoint i)) 5) ∧
    CapeRun.run (lossProgram h0 h1 h2) (fun p => Slam.init ⟨p, 1⟩ (.ok World.init)) 0 (fun _ => .other) (numbered colours) fuel = .ok report ∧
    report.trajectory.map Exact.Spec.placeOf =
      [wallPlace 0, wallPlace 1, wallPlace 0, wallPlace 1, wallPlace 0] ++ (List.replicate 15 (wallPlace 0) ++ places) := by
  obtain ⟨h0, h1, h2, e0, e1, e2, x1, x2, hv, hf⟩ := swing_frames
  refine ⟨h0, h1, h2, fun k hk => ?_⟩
  obtain ⟨hv1, hagain, ht⟩ := Anew.pushed_true e1 5
  obtain ⟨places, hrest⟩ := Anew.wall_losses e1 k (5 + 5)
  have hs : (⟨Pose.default, 1⟩ : PoseVar) = wallPose 0 := by
    have : (0 : V3) = ![-((shiftOf 0 : ℚ) : ℝ), 0, 0] := by
      ext i; fin_cases i <;> simp [shiftOf]
    simp only [Pose.default, wallPose, ← this]
  have hp : Spec.place ⟨Pose.default, 1⟩ = wallPlace 0 := by rw [hs]; rfl
  have hdd : Anew.darkAndDawn h1 = darkAndDawnColours.map (lossView h0 h1 h2) := by
    simp [Anew.darkAndDawn, darkAndDawnColours, lossView]
  have hframes : exactFrame h0 0 :: [exactFrame h1 1, exactFrame h2 0, exactFrame h1 1, exactFrame h2 0] ++
      (Anew.darkAndDawn h1 ++ (List.replicate k (Anew.darkAndDawn h1)).flatten) =
      ([0, 1, 2, 1, 2] ++ (darkAndDawnColours ++ (List.replicate k darkAndDawnColours).flatten)).map (lossView h0 h1 h2) := by
    rw [hdd]
    simp only [List.map_append, List.map_flatten, List.map_replicate]
    rfl
  have hlosses : Anew.Spec.Losses wallSight (examplePinv 3) 1000 1000 0 0 640 480 wallPoint (fun _ => 0) 5 1 (wallPlace 0) 5
      (Anew.darkAndDawn h1 ++ (List.replicate k (Anew.darkAndDawn h1)).flatten)
      (List.replicate (List.replicate 11 coveredFrame).length (1 * wallPlace 0) ++
        (wallPlace 1 :: [wallPlace 1, wallPlace 1, wallPlace 1]).map (1 * Anew.pushed * ·) ++ places) (Anew.pushed :: List.replicate k 1) :=
    Anew.Spec.Losses.again (E := 1) (T := wallPlace 0) (D := Anew.pushed) (Q := wallPlace 1) (dark := List.replicate 11 coveredFrame)
      (f := Anew.dawnFrame h1 0) (fs := [Anew.dawnFrame h1 0, Anew.dawnFrame h1 0, Anew.dawnFrame h1 0]) (places := places)
      (Ts := [wallPlace 1, wallPlace 1, wallPlace 1])
      (fun f hf => by
        rw [List.eq_of_mem_replicate hf]
        exact ⟨⟨Keypoints.create 640 480, rfl, fun _ _ _ => rfl⟩, fun _ => rfl⟩) (by simp) (by simp)
      Anew.pushed_rigid (Anew.wallPlace_rigid 1) Anew.pushed_place (fun _ _ _ => rfl) (fun _ => rfl) hv1
      (fun prev hp => by rw [Matrix.one_mul] at hp ⊢; exact hagain prev hp)
      (by rw [Matrix.one_mul]; exact .go ⟨h1, ht⟩ (.go ⟨h1, ht⟩ (.go ⟨h1, ht⟩ (.home _)))) (by simp)
      (by rw [Matrix.one_mul]; exact hrest)
  obtain ⟨colours, hcol⟩ : ∃ colours, colours = [0, 1, 2, 1, 2] ++ (darkAndDawnColours ++ (List.replicate k darkAndDawnColours).flatten) := ⟨_, rfl⟩
  rw [← hcol] at hframes
  have hlen : colours.length < 2 ^ 32 := by
    rw [hcol]
    simp only [List.length_append, List.length_flatten, List.map_replicate, List.sum_replicate, darkAndDawnColours, List.length_replicate,
      List.length_cons, List.length_nil, smul_eq_mul]
    omega
  have hfr : frames 0 0 colours.length = List.range' 0 colours.length := by simp [frames, Wanted]
  obtain ⟨poses, final, w, r1, r2, r3, fuel, hb⟩ := C223_both_files wallSight wallSight examplePinv_spec (by norm_num) (by norm_num) wallOps
    (fun _ _ => rfl) (fun _ _ => false) (cols := 640) (rows := 480) (by norm_num) (by norm_num) (by norm_num) (by norm_num) (by decide)
    (n := 5) (by norm_num) (prog := lossProgram h0 h1 h2) rfl Optimizer.PoseVector.C215_angles.1 (keys := fun _ => .other)
    (first := 0) (variance := 1) isCovariance_one (d := numbered colours) hlen
    ⟨Nat.zero_le _, .inl rfl, by
      rintro ⟨a, b, ha, -⟩
      simp [numbered] at ha, fun i _ hi _ => ⟨⟨480, 640, fun _ _ => (colours[i], 0, 0)⟩, ⟨480, 640, fun _ _ => 1000⟩, by simp [numbered, hi], by simp [numbered, hi]⟩⟩
    (treated := List.range' 0 colours.length) ⟨by rw [show (lossProgram h0 h1 h2).jump = 0 from rfl, hfr], fun _ _ h => (by cases h), fun hl => by
      rw [show (lossProgram h0 h1 h2).jump = 0 from rfl, hfr] at hl
      exact absurd hl (lt_irrefl _)⟩
    (f := exactFrame h0 0) (fs := [exactFrame h1 1, exactFrame h2 0, exactFrame h1 1, exactFrame h2 0])
    (gs := Anew.darkAndDawn h1 ++ (List.replicate k (Anew.darkAndDawn h1)).flatten) (by
      rw [hframes]
      exact numbered_gives h0 h1 h2 colours) (h := h0) (fun _ _ _ => rfl) (by rw [hp]; exact hv) (by rw [hs]; exact hf)
    (Ts := [wallPlace 1, wallPlace 0, wallPlace 1, wallPlace 0]) (by
      rw [hp]
      intro T hT
      simp only [List.mem_cons, List.not_mem_nil, or_false] at hT
      rcases hT with rfl | rfl | rfl | rfl | rfl <;> exact Anew.wallPlace_rigid _) (by
      rw [hp]
      exact .go ⟨h1, x1 0⟩ (.go ⟨h2, x2 1⟩ (.go ⟨h1, x1 0⟩ (.go ⟨h2, x2 1⟩ (.home _)))))
    (by exact hlosses) (by rw [List.length_cons, List.length_replicate]; omega) (by simp) wholeFmt_oneWord (fun _ => ([], 0))
  obtain ⟨report, t1, t2, -⟩ := hb fuel le_rfl
  rw [hs] at r1
  refine ⟨colours, places, poses, final, w, fuel, report, hcol, r1, r2, r3, t1, ?_⟩
  rw [t2 rfl]
  simp only [List.cons_append, List.map_cons, hp, Matrix.one_mul, ← Anew.pushed_place, List.length_replicate, List.map_nil, List.nil_append]
  rfl

end

end RgbdSlam.Map.ExactCape
