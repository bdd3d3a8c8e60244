import Verif.Props.TumExact
import Verif.Props.ManyLosses

/-! # C221: the trajectory saved for a dataset with losses of tracking

C218 is about datasets that are exact from end to end.  Here the camera sees nothing for a while, any number of times, and moves in the meantime. -/

namespace RgbdSlam.Map.Exact

open Keypoints (Handler Detected Pt Tracked)
open Geometry Geometry.Spec Covariance Covariance.Spec Updates Matrix Writer
open Optimizer (PoseVar)
open TumRun (Program Input Image Colour Key Loop Line lineOf startPose)
open TumRun.Spec (kept UntilQuit)

noncomputable section

variable {Desc S Shape : Type} {L Det Match' : Type}

theorem route_rigid {F : Type} {leg : M4 → M4 → F → Prop} (hleg : ∀ T U f, leg T U f → Anew.Spec.Rigid U) {T : M4} {Us : List M4} {fs : List F}
    (h : Spec.Route leg T Us fs) : ∀ U ∈ Us, Anew.Spec.Rigid U := by
  induction h with
  | home => simp
  | go hl _ ih => exact List.forall_mem_cons.2 ⟨hleg _ _ _ hl, ih⟩

theorem losses_rigid [Inhabited Desc] {sight : Sight Desc S} {pinv : Sq 3 → Sq 3} {fx fy cx cy : ℝ} {cols rows : Nat} {X : Nat → V3}
    {look : Nat → Desc} {n : Nat} {E T : M4} {base : Nat} {gs : List (Slam.Frame (Outcome (World (Body Desc S))) (Handler Desc × List Shape) PoseVar Match)} {places Ds : List M4}
    (h : Anew.Spec.Losses sight pinv fx fy cx cy cols rows X look n E T base gs places Ds) (hE : Anew.Spec.Rigid E) (hT : Anew.Spec.Rigid T) :
    ∀ U ∈ places, Anew.Spec.Rigid U := by
  induction h with
  | none => simp
  | @again E T D Q base dark fs gs f h Ts places Ds blind lost short motion there moved detect nothing view found route enough _ ih =>
    have hr : ∀ U ∈ Q :: Ts, Anew.Spec.Rigid U := List.forall_mem_cons.2 ⟨there, route_rigid (fun _ _ _ ⟨_, h⟩ => h.rigid) route⟩
    intro U hU
    rcases List.mem_append.1 hU with hU | hU
    · rcases List.mem_append.1 hU with hU | hU
      · rw [List.eq_of_mem_replicate hU]
        exact Anew.rigid_mul hE hT
      · obtain ⟨V, hV, rfl⟩ := List.mem_map.1 hU
        exact Anew.rigid_mul (Anew.rigid_mul hE motion) (hr V hV)
    · exact ih (Anew.rigid_mul hE motion) (hr _ (List.getLast_mem _)) U hU

/-- What the program writes, when the poses that the tracker returns for the treated images are known. -/
theorem report_places {ops : Slam.MapOps L Det PoseVar Match'} {po : Slam.PoseOps PoseVar}
    {frameOf : Image Colour × Image ℚ → Slam.Frame L Det PoseVar Match'} {prog : Program (Slam.State L PoseVar)}
    (htrack : prog.track = slamTrack ops po frameOf) (hxyz : Angles.Spec.IsXyz prog.xyz) {keys : ℕ → Key} {first : ℕ} {inputs treated : List Input}
    (hquit : UntilQuit keys (kept prog.jump first inputs) treated) {create : Pose → Slam.State L PoseVar} {g : Slam.Frame L Det PoseVar Match'}
    {gs : List (Slam.Frame L Det PoseVar Match')}
    (himages : List.Forall₂ (fun i g => ∃ images, TumRun.prepare prog.width prog.height i = .ok images ∧ frameOf images = g) treated (g :: gs))
    {s : Slam.State L PoseVar} {outs : List (Slam.Out PoseVar)} (hrun : Slam.run ops po (g :: gs) (create (startPose inputs)) = .ok (s, outs))
    {T : M4} {Ts : List M4} (hplaces : outs.map (fun o => Spec.place o.returned) = T :: Ts) (hrigid : ∀ U ∈ T :: Ts, Anew.Spec.Rigid U) :
    ∃ report, TumRun.run prog create first keys inputs = .ok (some report) ∧
      (prog.save = true → report.trajectory.map Spec.placeOf = T :: Ts) ∧
      cameraToWorld report.endPose.orientation report.endPose.position = (T :: Ts).getLast (by simp) := by
  have hne : inputs.isEmpty = false := by
    cases inputs with
    | nil =>
      obtain rfl : treated = [] := by simpa [kept] using hquit.1
      cases himages
    | cons => rfl
  obtain ⟨s', q1, q2, q3⟩ := loop_slam htrack (keys := keys) (inputs := inputs) (first := first)
    (s := { slam := create (startPose inputs), pose := startPose inputs, goOn := true, frameIndex := first % 2 ^ 32, treated := 0,
            positionError := 0, rotationError := 0, truthAvailable := false, lines := [] }) rfl rfl (by simpa using hquit) himages hrun
  refine ⟨_, by rw [TumRun.run, hne, if_neg (by simp)]; dsimp only; rw [q1]; rfl, ?_, ?_⟩
  · intro hsave
    dsimp only
    rw [q2 hsave, List.nil_append, ← hplaces, List.map_map]
    refine List.map_congr_left fun o ho => lineOf_place hxyz (hrigid _ ?_)
    rw [← hplaces]
    exact List.mem_map_of_mem ho
  · have hne' : outs ≠ [] := by
      rintro rfl
      simp at hplaces
    have e : (T :: Ts).getLast (by simp) = Spec.place (outs.getLast hne').returned := by
      rw [← List.getLast_map (f := fun o : Slam.Out PoseVar => Spec.place o.returned) (by simpa using hne')]
      congr 1
      exact hplaces.symm
    dsimp only
    rw [e, q3, List.getLast?_map, List.getLast?_eq_getLast_of_ne_nil hne']
    rfl

/-! ## C221 -/

/-- C221.  The dataset of C218 goes on: any number of times, eleven or more treated images show nothing while the camera moves, and then the scene is seen again
(`Anew.Spec.Losses`).  The program still ends normally and writes one line per treated image.  Before the first loss the lines describe the true places; while nothing is seen
they repeat the last place; after each loss they describe the true places moved by all motions that were not seen so far. -/
theorem C221_saved_after_losses [Inhabited Desc] (sight2 sight : Sight Desc S) {pinv : Sq 3 → Sq 3}
    (hpinv : ∀ A, IsCovariance A → IsPseudoInverse A (pinv A)) {fx fy cx cy : ℝ} (hfx : fx ≠ 0) (hfy : fy ≠ 0)
    (op : PlaneOps (Body Desc S) (Detected Desc ⊕ Shape) (Camera × Handler Desc)) (hop : ∀ c h, op.covValid (c, h) = isValid c.pose)
    (lt : Match → Match → Bool) {cols rows : Nat} (hc : cols < 2 ^ 31) (hr : rows < 2 ^ 31) (hcx : 31 < cols) (hry : 31 < rows)
    (hw : Keypoints.cellsFor rows ≤ Keypoints.cellsFor cols) {X : Nat → V3} {look : Nat → Desc} {n : Nat} (h5 : 5 ≤ n)
    -- the program
    {frameOf : Image Colour × Image ℚ → Slam.Frame (Outcome (World (Body Desc S))) (Handler Desc × List Shape) PoseVar Match}
    {prog : Program (Slam.State (Outcome (World (Body Desc S))) PoseVar)}
    (htrack : prog.track = slamTrack (localMapOps (programKinds (withShapes (handlerOps (geo2 sight2 pinv))) (withShapes (handlerOps (geo1 sight pinv)))
          op) (fun e => isValid e.1.pose) lt (fun pose d => (Spec.cameraAt fx fy cx cy pose, d.1)) frameDets)
        ⟨fun p => isValid p.variance, fun p => isValid (firstPoseBlock p.variance)⟩ frameOf)
    (hxyz : Angles.Spec.IsXyz prog.xyz) {keys : ℕ → Key} {first : ℕ} {variance : Sq 6} (hstart : IsCovariance variance)
    -- the dataset
    {inputs treated : List Input} (hquit : UntilQuit keys (kept prog.jump first inputs) treated) {f : Slam.Frame (Outcome (World (Body Desc S))) (Handler Desc × List Shape) PoseVar Match} {fs gs : List (Slam.Frame (Outcome (World (Body Desc S))) (Handler Desc × List Shape) PoseVar Match)}
    (himages : List.Forall₂ (fun i g => ∃ images, TumRun.prepare prog.width prog.height i = .ok images ∧ frameOf images = g) treated (f :: fs ++ gs))
    {h : Handler Desc} (hdet : ∀ L pose forced, f.detect L pose forced = (h, []))
    (hview : Spec.ExactView fx fy cx cy X look (Spec.place ⟨startPose inputs, variance⟩) h)
    (hfirst : Spec.Redetected (geo1 sight pinv) cols rows (Spec.At X look n) n (Spec.cameraAt fx fy cx cy ⟨startPose inputs, variance⟩) h)
    {Ts : List M4} (hrigid : ∀ T ∈ Spec.place ⟨startPose inputs, variance⟩ :: Ts, Anew.Spec.Rigid T)
    (hroute : Spec.Route (fun T U f => ∃ h, Spec.ExactFrame sight pinv fx fy cx cy cols rows X look n T U f h)
      (Spec.place ⟨startPose inputs, variance⟩) Ts fs)
    -- the losses
    {places Ds : List M4} (hlosses : Anew.Spec.Losses sight pinv fx fy cx cy cols rows X look n 1
      ((Spec.place ⟨startPose inputs, variance⟩ :: Ts).getLast (by simp)) n gs places Ds) (hmany : n + n * Ds.length < 2 ^ 64) :
    ∃ report, TumRun.run prog (fun p => Slam.init ⟨p, variance⟩ (.ok World.init)) first keys inputs = .ok (some report) ∧
      (prog.save = true → report.trajectory.map Spec.placeOf = Spec.place ⟨startPose inputs, variance⟩ :: (Ts ++ places)) ∧
      cameraToWorld report.endPose.orientation report.endPose.position =
        (Spec.place ⟨startPose inputs, variance⟩ :: (Ts ++ places)).getLast (by simp) := by
  obtain ⟨s, outs, w, r1, r2, r3, r4, r5, r6, -, r7⟩ := trip_state sight2 sight hpinv hfx hfy op hop lt hc hr hcx hry hw h5 (by omega)
    (start := ⟨startPose inputs, variance⟩) hstart hdet hview hfirst hroute
  have hone : Anew.Spec.Rigid 1 := ⟨1, 0, by simp, by simp, transformation_one.symm⟩
  have hlastR := hrigid _ (List.getLast_mem (l := Spec.place ⟨startPose inputs, variance⟩ :: Ts) (by simp))
  obtain ⟨s', outs', w', q1, q2, -⟩ := Anew.C217_losses_add_up sight2 sight hpinv hfx hfy op hop lt hc hr hcx hry hw h5 wholeFmt_oneWord
    (fun _ => ([], 0)) hone hlosses hmany r1 r3 r6 r7 (by rw [r4.ids]) (by rw [r5, Matrix.one_mul])
  have r2' : outs.map (fun o => Spec.place o.returned) = Spec.place ⟨startPose inputs, variance⟩ :: Ts := by
    have := congrArg (List.map Prod.fst) r2
    simpa [List.map_map, Function.comp_def] using this
  exact report_places htrack hxyz hquit (create := fun p => Slam.init ⟨p, variance⟩ (.ok World.init)) himages (Anew.Slam.run_append r1 q1)
    (by rw [List.map_append, r2', q2, List.cons_append]) (by
      rw [← List.cons_append]
      intro U hU
      rcases List.mem_append.1 hU with hU | hU
      · exact hrigid U hU
      · exact losses_rigid hlosses hone hlastR U hU)

/-! ## A dataset -/

/-- What the detectors and the optimiser make of an image, which they know by its colour. -/
def lossView (h0 h1 h2 : Handler Nat) : ℕ → Slam.Frame (Outcome (World (Body Nat Unit))) (Handler Nat × List Unit) PoseVar Match
  | 0 => exactFrame h0 0
  | 1 => exactFrame h1 1
  | 2 => exactFrame h2 0
  | 3 => coveredFrame
  | _ => Anew.dawnFrame h1 0

/-- The example program, for the wall and a lens that is covered from time to time. -/
def lossProgram (h0 h1 h2 : Handler Nat) : Program (Slam.State (Outcome (World (Body Nat Unit))) PoseVar) :=
  { wallProgram h0 h1 h2 with
    track := slamTrack (localMapOps (programKinds (withShapes (handlerOps (geo2 wallSight (examplePinv 3))))
        (withShapes (handlerOps (geo1 wallSight (examplePinv 3)))) wallOps) (fun e => isValid e.1.pose) (fun _ _ => false)
        (fun pose d => (Spec.cameraAt 1000 1000 0 0 pose, d.1)) frameDets)
      ⟨fun p => isValid p.variance, fun p => isValid (firstPoseBlock p.variance)⟩ (fun images => lossView h0 h1 h2 (images.1.pixel 0 0).1) }

/-- The colours of eleven covered images and four images of the wall. -/
def darkAndDawnColours : List ℕ := List.replicate 11 3 ++ [4, 4, 4, 4]

/-- The hypotheses are met, for any number of losses: the camera swings, is covered and pushed aside, and is covered again `k` times.  After the first loss it stands at
`wallPlace 1`, but the file says `wallPlace 0`. -/
example : ∃ h0 h1 h2, ∀ k, k < 2 ^ 32 → ∃ (report : TumRun.Report) (places : List M4),
    TumRun.run (lossProgram h0 h1 h2) (fun p => Slam.init ⟨p, 1⟩ (.ok World.init)) 0 (fun _ => .other)
      (([0, 1, 2, 1, 2] ++ (darkAndDawnColours ++ (List.replicate k darkAndDawnColours).flatten)).map picture) = .ok (some report) ∧
    report.trajectory.map Spec.placeOf = [wallPlace 0, wallPlace 1, wallPlace 0, wallPlace 1, wallPlace 0] ++ (List.replicate 15 (wallPlace 0) ++ places) ∧
    wallPlace 0 = Anew.pushed * wallPlace 1 := by
  obtain ⟨h0, h1, h2, e0, e1, e2, x1, x2, hv, hf⟩ := swing_frames
  refine ⟨h0, h1, h2, fun k hk => ?_⟩
  obtain ⟨hv1, hagain, ht⟩ := Anew.pushed_true e1 5
  obtain ⟨places, hrest⟩ := Anew.wall_losses e1 k (5 + 5)
  have hs : ∀ is, (⟨startPose (picture 0 :: is), 1⟩ : PoseVar) = wallPose 0 := by
    have : (0 : V3) = ![-((shiftOf 0 : ℚ) : ℝ), 0, 0] := by
      ext i; fin_cases i <;> simp [shiftOf]
    intro is
    simp only [startPose, picture, List.head?_cons, Pose.default, wallPose, ← this]
  have hp : ∀ is, Spec.place ⟨startPose (picture 0 :: is), 1⟩ = wallPlace 0 := fun is => by rw [hs]; rfl
  have hdd : Anew.darkAndDawn h1 = darkAndDawnColours.map (lossView h0 h1 h2) := by
    simp [Anew.darkAndDawn, darkAndDawnColours, lossView]
  have hframes : exactFrame h0 0 :: [exactFrame h1 1, exactFrame h2 0, exactFrame h1 1, exactFrame h2 0] ++
      (Anew.darkAndDawn h1 ++ (List.replicate k (Anew.darkAndDawn h1)).flatten) =
      ([0, 1, 2, 1, 2] ++ (darkAndDawnColours ++ (List.replicate k darkAndDawnColours).flatten)).map (lossView h0 h1 h2) := by
    rw [hdd]
    simp only [List.map_append, List.map_flatten, List.map_replicate]
    rfl
  have hlosses : Anew.Spec.Losses wallSight (examplePinv 3) 1000 1000 0 0 640 480 wallPoint (fun _ => 0) 5 1 (wallPlace 0) 5
      (Anew.darkAndDawn h1 ++ (List.replicate k (Anew.darkAndDawn h1)).flatten)
      (List.replicate (List.replicate 11 coveredFrame).length (1 * wallPlace 0) ++
        (wallPlace 1 :: [wallPlace 1, wallPlace 1, wallPlace 1]).map (1 * Anew.pushed * ·) ++ places) (Anew.pushed :: List.replicate k 1) :=
    Anew.Spec.Losses.again (E := 1) (T := wallPlace 0) (D := Anew.pushed) (Q := wallPlace 1) (dark := List.replicate 11 coveredFrame)
      (f := Anew.dawnFrame h1 0) (fs := [Anew.dawnFrame h1 0, Anew.dawnFrame h1 0, Anew.dawnFrame h1 0]) (places := places)
      (Ts := [wallPlace 1, wallPlace 1, wallPlace 1])
      (fun f hf => by
        rw [List.eq_of_mem_replicate hf]
        exact ⟨⟨Keypoints.create 640 480, rfl, fun _ _ _ => rfl⟩, fun _ => rfl⟩) (by simp) (by simp)
      Anew.pushed_rigid (Anew.wallPlace_rigid 1) Anew.pushed_place (fun _ _ _ => rfl) (fun _ => rfl) hv1
      (fun prev hp => by rw [Matrix.one_mul] at hp ⊢; exact hagain prev hp)
      (by rw [Matrix.one_mul]; exact .go ⟨h1, ht⟩ (.go ⟨h1, ht⟩ (.go ⟨h1, ht⟩ (.home _)))) (by simp)
      (by rw [Matrix.one_mul]; exact hrest)
  obtain ⟨report, r1, r2, -⟩ := C221_saved_after_losses wallSight wallSight examplePinv_spec (by norm_num) (by norm_num) wallOps
    (fun _ _ => rfl) (fun _ _ => false) (cols := 640) (rows := 480) (by norm_num) (by norm_num) (by norm_num) (by norm_num) (by decide)
    (n := 5) (by norm_num) (prog := lossProgram h0 h1 h2) (frameOf := fun images => lossView h0 h1 h2 (images.1.pixel 0 0).1) rfl
    Optimizer.PoseVector.C215_angles.1 (keys := fun _ => .other)
    (first := 0) (variance := 1) isCovariance_one
    (inputs := ([0, 1, 2, 1, 2] ++ (darkAndDawnColours ++ (List.replicate k darkAndDawnColours).flatten)).map picture)
    (all_treated rfl (fun _ => by decide)) (f := exactFrame h0 0) (fs := [exactFrame h1 1, exactFrame h2 0, exactFrame h1 1, exactFrame h2 0])
    (gs := Anew.darkAndDawn h1 ++ (List.replicate k (Anew.darkAndDawn h1)).flatten) (by
      rw [hframes, List.forall₂_map_left_iff, List.forall₂_map_right_iff]
      exact List.forall₂_same.2 fun c _ => ⟨_, prepare_picture c, rfl⟩) (h := h0) (fun _ _ _ => rfl)
    (by
      rw [List.cons_append, List.map_cons, hp]
      exact hv) (by
      rw [List.cons_append, List.map_cons, hs]
      exact hf)
    (Ts := [wallPlace 1, wallPlace 0, wallPlace 1, wallPlace 0]) (by
      rw [List.cons_append, List.map_cons, hp]
      intro T hT
      simp only [List.mem_cons, List.not_mem_nil, or_false] at hT
      rcases hT with rfl | rfl | rfl | rfl | rfl <;> exact Anew.wallPlace_rigid _) (by
      rw [List.cons_append, List.map_cons, hp]
      exact .go ⟨h1, x1 0⟩ (.go ⟨h2, x2 1⟩ (.go ⟨h1, x1 0⟩ (.go ⟨h2, x2 1⟩ (.home _)))))
    (by exact hlosses) (by rw [List.length_cons, List.length_replicate]; omega)
  refine ⟨report, places, r1, ?_, Anew.pushed_place⟩
  rw [r2 rfl]
  simp only [List.cons_append, List.map_cons, hp, Matrix.one_mul, ← Anew.pushed_place, List.length_replicate, List.map_nil, List.nil_append]
  rfl

end

end RgbdSlam.Map.Exact
