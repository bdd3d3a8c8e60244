import Verif.Props.TumProgram
import Verif.Props.Displaced
import Verif.Props.PoseVector

/-! # C218: the trajectory saved for an exact dataset

C141 is about the example program with any tracker, C193 about the tracker with any source of images.  Here they are put together. -/

namespace RgbdSlam.Map.Exact

open Keypoints (Handler Detected Pt Tracked)
open Geometry Geometry.Spec Covariance Covariance.Spec Updates Matrix
open Optimizer (PoseVar)
open TumRun (Program Input Image Colour Key Loop Line lineOf startPose)
open TumRun.Spec (kept UntilQuit)

noncomputable section

variable {Desc S Shape : Type} {L Det Match' : Type}

/-- src/rgbd_slam.cpp 99-125, `RGBD_SLAM::track`, for the example program: it is given two images and returns a pose; `frameOf` is what the detectors
and the optimiser make of the images. -/
def slamTrack (ops : Slam.MapOps L Det PoseVar Match') (po : Slam.PoseOps PoseVar)
    (frameOf : Image Colour × Image ℚ → Slam.Frame L Det PoseVar Match') (s : Slam.State L PoseVar) (images : Image Colour × Image ℚ) :
    Outcome (Slam.State L PoseVar × Pose) :=
  (Slam.step ops po (frameOf images) s).map fun r => (r.1, r.2.returned.pose)

/-- The loop of the example program: it does what successive calls of `track` with the treated images do. -/
theorem loop_slam {ops : Slam.MapOps L Det PoseVar Match'} {po : Slam.PoseOps PoseVar}
    {frameOf : Image Colour × Image ℚ → Slam.Frame L Det PoseVar Match'} {prog : Program (Slam.State L PoseVar)}
    (htrack : prog.track = slamTrack ops po frameOf) {keys : ℕ → Key} : ∀ {inputs treated : List Input} {gs : List (Slam.Frame L Det PoseVar Match')}
    {s : Loop (Slam.State L PoseVar)} {slam : Slam.State L PoseVar} {outs : List (Slam.Out PoseVar)} {first : ℕ},
    s.frameIndex = first % 2 ^ 32 → s.goOn = true → UntilQuit (fun i => keys (s.treated + i)) (kept prog.jump first inputs) treated →
    List.Forall₂ (fun f g => ∃ images, TumRun.prepare prog.width prog.height f = .ok images ∧ frameOf images = g) treated gs →
    Slam.run ops po gs s.slam = .ok (slam, outs) → ∃ s', TumRun.loop prog keys inputs s = .ok s' ∧
      (prog.save = true → s'.lines = s.lines ++ outs.map (fun o => lineOf prog.xyz o.returned.pose)) ∧
      s'.pose = ((outs.map fun o => o.returned.pose).getLast?).getD s.pose
  | [], treated, gs, s, slam, outs, first, _, _, hu, hf, hr => by
    obtain rfl : treated = [] := by simpa [kept] using hu.1
    cases hf
    injection hr with hr
    injection hr with _ hr
    subst hr
    exact ⟨s, rfl, by simp, rfl⟩
  | i :: inputs, treated, gs, s, slam, outs, first, hi, hgo, hu, hf, hr => by
    have next : (s.frameIndex + 1) % 2 ^ 32 = (first + 1) % 2 ^ 32 := by rw [hi]; omega
    rw [TumRun.kept_cons] at hu
    rw [TumRun.loop, if_neg (by simp [hgo])]
    split_ifs at hu with hj
    · rw [if_neg (by rw [hi]; omega)]
      cases hf with
      | nil =>
        obtain ⟨k, hk, -⟩ := hu.2.2 (by simp)
        simp at hk
      | @cons f g treated gs hf hfs =>
        obtain ⟨rfl, hpre⟩ := List.cons_prefix_cons.1 hu.1
        obtain ⟨images, e1, rfl⟩ := hf
        obtain ⟨⟨s1, o⟩, h1, hr⟩ := Outcome.bind_eq_ok hr
        obtain ⟨⟨s2, os⟩, h2, hr⟩ := Outcome.bind_eq_ok hr
        injection hr with hr
        injection hr with hr1 hr2
        subst hr1 hr2
        have e2 : prog.track s.slam images = .ok (s1, o.returned.pose) := by
          rw [htrack, slamTrack, h1]
          rfl
        rw [e1, Outcome.bind_ok, e2, Outcome.bind_ok]
        by_cases hk : keys s.treated = .quit
        · have ht : treated = [] := by
            by_contra ht
            exact hu.2.1 0 (by simpa using List.length_pos_iff.2 ht) hk
          subst ht
          cases hfs
          injection h2 with h2
          injection h2 with _ h2
          subst h2
          refine ⟨TumRun.record prog (keys s.treated) f s s1 o.returned.pose, ?_, fun hsave => ?_, rfl⟩
          · cases inputs with
            | nil => rfl
            | cons j inputs => rw [TumRun.loop, if_pos (by simp [TumRun.record, hk, TumRun.checkUserInputs])]
          · simp [TumRun.record, hsave]
        · have hgo' : (TumRun.record prog (keys s.treated) f s s1 o.returned.pose).goOn = true := by
            cases e : keys s.treated <;> simp_all [TumRun.record, TumRun.checkUserInputs]
          have hu' : UntilQuit (fun i => keys ((TumRun.record prog (keys s.treated) f s s1 o.returned.pose).treated + i))
              (kept prog.jump (first + 1) inputs) treated := by
            have kshift : ∀ i, keys ((TumRun.record prog (keys s.treated) f s s1 o.returned.pose).treated + i) = keys (s.treated + (i + 1)) :=
              fun i => congrArg keys (by simp only [TumRun.record]; omega)
            refine ⟨hpre, fun i hl => ?_, fun hl => ?_⟩
            · show keys _ ≠ _
              rw [kshift]
              exact hu.2.1 (i + 1) (by simpa using hl)
            · obtain ⟨j, h3, h4⟩ := hu.2.2 (by simpa using hl)
              cases j with
              | zero => exact absurd h4 hk
              | succ j => exact ⟨j, by simpa using h3, by show keys _ = _; rw [kshift]; exact h4⟩
          obtain ⟨s', r1, r2, r3⟩ := loop_slam htrack (s := TumRun.record prog (keys s.treated) f s s1 o.returned.pose) next hgo' hu' hfs h2
          refine ⟨s', r1, fun hsave => ?_, ?_⟩
          · rw [r2 hsave]
            simp [TumRun.record, hsave]
          · rw [r3]
            cases os with
            | nil => rfl
            | cons a os => simp [TumRun.record, List.getLast?_cons]
    · rw [if_pos (by rw [hi]; omega)]
      exact loop_slam htrack (s := { s with frameIndex := (s.frameIndex + 1) % 2 ^ 32 }) next hgo hu hf hr

/-- The place that a line of the trajectory file describes. -/
def Spec.placeOf (l : Line) : M4 := cameraToWorld (Angles.quaternionOf l.angles) l.position

/-- The line of a pose describes its place. -/
theorem lineOf_place {xyz : M3 → V3} (hx : Angles.Spec.IsXyz xyz) {p : PoseVar} (hp : Anew.Spec.Rigid (Spec.place p)) :
    Spec.placeOf (lineOf xyz p.pose) = Spec.place p := by
  obtain ⟨R, t, h1, h2, e⟩ := hp
  rw [Spec.place, cameraToWorld_eq, transformation, transformation, fromBlocks_inj] at e
  have hR : p.pose.orientation.toRotationMatrixᵀ * p.pose.orientation.toRotationMatrix = 1 := by
    rw [← e.1, transpose_mul, Matrix.mul_assoc, ← Matrix.mul_assoc axesRotationᵀ, axesRotation_orthogonal, Matrix.one_mul] at h1
    exact h1
  have hd : p.pose.orientation.toRotationMatrix.det = 1 := by
    rw [← e.1, det_mul, axesRotation_det, one_mul] at h2
    exact h2
  have hm : (Angles.quaternionOf (Angles.eulerOf xyz p.pose.orientation)).toRotationMatrix = p.pose.orientation.toRotationMatrix := by
    have := Angles.C138_matrix_of_angles (Angles.eulerOf xyz p.pose.orientation)
    rw [Angles.matrixOf] at this
    rw [this]
    exact hx _ hR hd
  rw [Spec.placeOf, Spec.place, cameraToWorld, cameraToWorld, lineOf, hm]

/-! ## C218 -/

/-- C218.  The example program treats a dataset whose images are exact views of a scene of at least 5 points: `frameOf` is what the detectors and the optimiser make
of two images.  `treated` are the images that are not skipped, up to the one after which the user quits.  The world frame is the one in which the first treated image is taken
from the start pose of the program.  All treated images have the size of the camera.  Then the program ends normally, the trajectory file, if it is saved, has
one line per treated image, the line of each image describes the place from which it was taken, and the end pose is the last one.  This is so however
long the dataset is, for any number of skipped images and wherever the user quits. -/
theorem C218_saved_trajectory [Inhabited Desc] (sight2 sight : Sight Desc S) {pinv : Sq 3 → Sq 3}
    (hpinv : ∀ A, IsCovariance A → IsPseudoInverse A (pinv A)) {fx fy cx cy : ℝ} (hfx : fx ≠ 0) (hfy : fy ≠ 0)
    (op : PlaneOps (Body Desc S) (Detected Desc ⊕ Shape) (Camera × Handler Desc)) (hop : ∀ c h, op.covValid (c, h) = isValid c.pose)
    (lt : Match → Match → Bool) {cols rows : Nat} (hc : cols < 2 ^ 31) (hr : rows < 2 ^ 31) (hcx : 31 < cols) (hry : 31 < rows)
    (hw : Keypoints.cellsFor rows ≤ Keypoints.cellsFor cols) {X : Nat → V3} {look : Nat → Desc} {n : Nat} (h5 : 5 ≤ n) (hn : n < 2 ^ 64)
    -- the program
    {frameOf : Image Colour × Image ℚ → Slam.Frame (Outcome (World (Body Desc S))) (Handler Desc × List Shape) PoseVar Match}
    {prog : Program (Slam.State (Outcome (World (Body Desc S))) PoseVar)}
    (htrack : prog.track = slamTrack (localMapOps (programKinds (withShapes (handlerOps (geo2 sight2 pinv))) (withShapes (handlerOps (geo1 sight pinv)))
          op) (fun e => isValid e.1.pose) lt (fun pose d => (Spec.cameraAt fx fy cx cy pose, d.1)) frameDets)
        ⟨fun p => isValid p.variance, fun p => isValid (firstPoseBlock p.variance)⟩ frameOf)
    (hxyz : Angles.Spec.IsXyz prog.xyz) {keys : ℕ → Key} {first : ℕ} {variance : Sq 6} (hstart : IsCovariance variance)
    -- the dataset
    {inputs treated : List Input} (hquit : UntilQuit keys (kept prog.jump first inputs) treated) {f : Slam.Frame (Outcome (World (Body Desc S))) (Handler Desc × List Shape) PoseVar Match} {fs : List (Slam.Frame (Outcome (World (Body Desc S))) (Handler Desc × List Shape) PoseVar Match)}
    (himages : List.Forall₂ (fun i g => ∃ images, TumRun.prepare prog.width prog.height i = .ok images ∧ frameOf images = g) treated (f :: fs))
    {h : Handler Desc} (hdet : ∀ L pose forced, f.detect L pose forced = (h, []))
    (hview : Spec.ExactView fx fy cx cy X look (Spec.place ⟨startPose inputs, variance⟩) h)
    (hfirst : Spec.Redetected (geo1 sight pinv) cols rows (Spec.At X look n) n (Spec.cameraAt fx fy cx cy ⟨startPose inputs, variance⟩) h)
    {Ts : List M4} (hrigid : ∀ T ∈ Spec.place ⟨startPose inputs, variance⟩ :: Ts, Anew.Spec.Rigid T)
    (hroute : Spec.Route (fun T U f => ∃ h, Spec.ExactFrame sight pinv fx fy cx cy cols rows X look n T U f h)
      (Spec.place ⟨startPose inputs, variance⟩) Ts fs) :
    ∃ report, TumRun.run prog (fun p => Slam.init ⟨p, variance⟩ (.ok World.init)) first keys inputs = .ok (some report) ∧
      (prog.save = true → report.trajectory.map Spec.placeOf = Spec.place ⟨startPose inputs, variance⟩ :: Ts) ∧
      cameraToWorld report.endPose.orientation report.endPose.position =
        (Spec.place ⟨startPose inputs, variance⟩ :: Ts).getLast (by simp) := by
  obtain ⟨s, out, outs, w, r1, -, r3, -⟩ := C193_no_drift sight2 sight hpinv hfx hfy op hop lt hc hr hcx hry hw h5 hn (start := ⟨startPose inputs, variance⟩)
    hstart hdet hview hfirst hroute
  have hne : inputs.isEmpty = false := by
    cases inputs with
    | nil =>
      obtain rfl : treated = [] := by simpa [kept] using hquit.1
      cases himages
    | cons => rfl
  obtain ⟨s', q1, q2, q3⟩ := loop_slam htrack (keys := keys) (inputs := inputs) (first := first)
    (s := { slam := Slam.init ⟨startPose inputs, variance⟩ (.ok World.init), pose := startPose inputs, goOn := true, frameIndex := first % 2 ^ 32, treated := 0,
            positionError := 0, rotationError := 0, truthAvailable := false, lines := [] }) rfl rfl (by simpa using hquit) himages r1
  refine ⟨_, by rw [TumRun.run, hne, if_neg (by simp)]; dsimp only; rw [q1]; rfl, ?_, ?_⟩
  · intro hsave
    dsimp only
    rw [q2 hsave, List.nil_append, ← r3, List.map_map]
    refine List.map_congr_left fun o ho => lineOf_place hxyz (hrigid _ ?_)
    rw [← r3]
    exact List.mem_map_of_mem ho
  · dsimp only
    have e : (Spec.place ⟨startPose inputs, variance⟩ :: Ts).getLast (by simp) = Spec.place ((out :: outs).getLast (by simp)).returned := by
      rw [← List.getLast_map (f := fun o : Slam.Out PoseVar => Spec.place o.returned) (by simp)]
      congr 1
      exact r3.symm
    rw [e, q3, List.getLast?_map, List.getLast?_eq_getLast_of_ne_nil (by simp)]
    rfl

/-! ## A dataset -/

theorem kept_all : ∀ (inputs : List Input) (first : ℕ), kept 0 first inputs = inputs
  | [], _ => rfl
  | i :: is, first => by rw [TumRun.kept_cons, if_pos (.inl rfl), kept_all is]

/-- When no image is skipped and nobody quits, all images are treated. -/
theorem all_treated {jump first : ℕ} (hjump : jump = 0) {keys : ℕ → Key} (hkeys : ∀ i, keys i ≠ .quit) {inputs : List Input} :
    UntilQuit keys (kept jump first inputs) inputs := by
  rw [hjump, kept_all]
  exact ⟨List.prefix_rfl, fun i _ => hkeys i, fun h => absurd h (lt_irrefl _)⟩

/-- An image of the size of the camera; its colour tells which view of the wall it is. -/
def picture (k : ℕ) : Input := ⟨some ⟨480, 640, fun _ _ => (k, 0, 0)⟩, none, none⟩

/-- What the detectors and the optimiser make of the images. -/
def viewOf (h0 h1 h2 : Handler Nat) (images : Image Colour × Image ℚ) :
    Slam.Frame (Outcome (World (Body Nat Unit))) (Handler Nat × List Unit) PoseVar Match :=
  match (images.1.pixel 0 0).1 with
  | 0 => exactFrame h0 0
  | 1 => exactFrame h1 1
  | _ => exactFrame h2 0

/-- The example program, for the wall. -/
def wallProgram (h0 h1 h2 : Handler Nat) : Program (Slam.State (Outcome (World (Body Nat Unit))) PoseVar) where
  jump := 0
  save := true
  width := 640
  height := 480
  track := slamTrack (localMapOps (programKinds (withShapes (handlerOps (geo2 wallSight (examplePinv 3))))
      (withShapes (handlerOps (geo1 wallSight (examplePinv 3)))) wallOps) (fun e => isValid e.1.pose) (fun _ _ => false)
      (fun pose d => (Spec.cameraAt 1000 1000 0 0 pose, d.1)) frameDets)
    ⟨fun p => isValid p.variance, fun p => isValid (firstPoseBlock p.variance)⟩ (viewOf h0 h1 h2)
  xyz := Optimizer.eulerAngles

theorem prepare_picture (k : ℕ) : TumRun.prepare 640 480 (picture k) =
    .ok (⟨480, 640, fun _ _ => (k, 0, 0)⟩, ⟨480, 640, fun _ _ => 0 * (1 / 5)⟩) := by
  simp [TumRun.prepare, picture]

/-- The hypotheses are met: the camera swings in front of the wall as often as one likes; the file has the places of the camera, and consecutive lines
describe different places. -/
example : ∃ h0 h1 h2, ∀ n, ∃ (inputs : List Input) (report : TumRun.Report), inputs.length = n + 1 ∧
    TumRun.run (wallProgram h0 h1 h2) (fun p => Slam.init ⟨p, 1⟩ (.ok World.init)) 0 (fun _ => .other) inputs = .ok (some report) ∧
    report.trajectory.map Spec.placeOf = wallPlace 0 :: (swing 0 n).map wallPlace ∧ wallPlace 0 ≠ wallPlace 1 := by
  obtain ⟨h0, h1, h2, e0, e1, e2, x1, x2, hv, hf⟩ := swing_frames
  refine ⟨h0, h1, h2, fun n => ?_⟩
  have hroute : ∀ n pose, (pose = 0 ∨ pose = 1) → ∃ inputs fs, inputs.length = n ∧
      List.Forall₂ (fun i g => ∃ images, TumRun.prepare 640 480 i = .ok images ∧ viewOf h0 h1 h2 images = g) inputs fs ∧
      Spec.Route (fun T U f => ∃ h, Spec.ExactFrame wallSight (examplePinv 3) 1000 1000 0 0 640 480 wallPoint (fun _ => 0) 5 T U
        (f : Slam.Frame _ (Handler Nat × List Unit) PoseVar Match) h) (wallPlace pose) ((swing pose n).map wallPlace) fs := by
    intro n
    induction n with
    | zero => exact fun pose _ => ⟨[], [], rfl, .nil, .home _⟩
    | succ n ih =>
      intro pose hp
      rcases hp with rfl | rfl
      · obtain ⟨is, fs, hl, hi, ht⟩ := ih 1 (.inr rfl)
        exact ⟨picture 1 :: is, exactFrame h1 1 :: fs, by rw [List.length_cons, hl], .cons ⟨_, prepare_picture 1, rfl⟩ hi, .go ⟨h1, x1 0⟩ ht⟩
      · obtain ⟨is, fs, hl, hi, ht⟩ := ih 0 (.inl rfl)
        exact ⟨picture 2 :: is, exactFrame h2 0 :: fs, by rw [List.length_cons, hl], .cons ⟨_, prepare_picture 2, rfl⟩ hi, .go ⟨h2, x2 1⟩ ht⟩
  obtain ⟨is, fs, hl, hi, ht⟩ := hroute n 0 (.inl rfl)
  have hs : (⟨startPose (picture 0 :: is), 1⟩ : PoseVar) = wallPose 0 := by
    have : (0 : V3) = ![-((shiftOf 0 : ℚ) : ℝ), 0, 0] := by
      ext i; fin_cases i <;> simp [shiftOf]
    simp only [startPose, picture, List.head?_cons, Pose.default, wallPose, ← this]
  have hp : Spec.place ⟨startPose (picture 0 :: is), 1⟩ = wallPlace 0 := by rw [hs]; rfl
  obtain ⟨report, r1, r2, -⟩ := C218_saved_trajectory wallSight wallSight examplePinv_spec (by norm_num) (by norm_num) wallOps
    (fun _ _ => rfl) (fun _ _ => false) (cols := 640) (rows := 480) (by norm_num) (by norm_num) (by norm_num) (by norm_num) (by decide)
    (n := 5) (by norm_num) (by norm_num) (prog := wallProgram h0 h1 h2) rfl Optimizer.PoseVector.C215_angles.1 (keys := fun _ => .other)
    (first := 0) (variance := 1) isCovariance_one (inputs := picture 0 :: is) (all_treated rfl (fun _ => by decide)) (f := exactFrame h0 0) (fs := fs)
    (.cons ⟨_, prepare_picture 0, rfl⟩ hi) (h := h0) (fun _ _ _ => rfl) (by rw [hp]; exact hv) (by rw [hs]; exact hf)
    (Ts := (swing 0 n).map wallPlace) (by
      rw [hp]
      intro T hT
      rcases List.mem_cons.1 hT with rfl | hT
      · exact Anew.wallPlace_rigid 0
      · obtain ⟨k, -, rfl⟩ := List.mem_map.1 hT
        exact Anew.wallPlace_rigid k) (by rw [hp]; exact ht)
  rw [hp] at r2
  refine ⟨_, report, by rw [List.length_cons, hl], r1, r2 rfl, fun e => ?_⟩
  rw [wallPlace_eq, wallPlace_eq, transformation, transformation, fromBlocks_inj] at e
  have e' : axesRotation *ᵥ ![-((shiftOf 0 : ℚ) : ℝ), 0, 0] = axesRotation *ᵥ ![-((shiftOf 1 : ℚ) : ℝ), 0, 0] :=
    funext fun i => congrFun (congrFun e.2.1 i) 0
  have e'' := congrArg (axesRotationᵀ *ᵥ ·) e'
  simp only [mulVec_mulVec, axesRotation_orthogonal, one_mulVec] at e''
  have := congrFun e'' 0
  norm_num [shiftOf] at this

end

end RgbdSlam.Map.Exact
