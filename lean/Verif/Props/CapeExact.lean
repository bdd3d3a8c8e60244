import Verif.Props.TumExact
import Verif.Props.CapeRun

/-! # C220: the trajectory saved for numbered images that are exact

C153 is about the other example program with any tracker.  Here it has the tracker of C193, which starts from the default pose. -/

namespace RgbdSlam.Map.ExactCape

open Keypoints (Handler Detected Pt Tracked)
open Geometry Geometry.Spec Covariance Covariance.Spec Updates Matrix
open Optimizer (PoseVar)
open TumRun (Image Colour Key Line lineOf)
open CapeRun (Program Loop Dataset)
open CapeRun.Spec (Present Wanted EndsAt frames UntilQuit)
open Exact (slamTrack lineOf_place)

noncomputable section

variable {Desc S Shape : Type} {L Det Match' : Type}

/-- The images of the frame `i`, checked and rectified, give `g`. -/
def Spec.Gives {T F : Type} (prog : Program T) (d : Dataset) (frameOf : Image Colour × Image ℚ → F) (i : ℕ) (g : F) : Prop :=
  ∃ rgb file images, Present d i rgb file ∧ CapeRun.prepare prog (rgb, file) = .ok images ∧ frameOf images = g

/-- The loop of the program: it does what successive calls of `track` with the treated images do. -/
theorem loop_slam {ops : Slam.MapOps L Det PoseVar Match'} {po : Slam.PoseOps PoseVar}
    {frameOf : Image Colour × Image ℚ → Slam.Frame L Det PoseVar Match'} {prog : Program (Slam.State L PoseVar)}
    (htrack : prog.track = slamTrack ops po frameOf) {keys : ℕ → Key} {d : Dataset} {e : ℕ} (he : e < 2 ^ 32) :
    ∀ {fuel : ℕ} {treated : List ℕ} {gs : List (Slam.Frame L Det PoseVar Match')}
    {s : Loop (Slam.State L PoseVar)} {slam : Slam.State L PoseVar} {outs : List (Slam.Out PoseVar)},
    EndsAt d prog.jump s.frameIndex e → e - s.frameIndex + 1 < fuel → s.goOn = true →
    UntilQuit (fun i => keys (s.treated + i)) (frames prog.jump s.frameIndex e) treated →
    List.Forall₂ (Spec.Gives prog d frameOf) treated gs →
    Slam.run ops po gs s.slam = .ok (slam, outs) → ∃ s', CapeRun.loop prog keys d fuel s = .ok s' ∧
      (prog.save = true → s'.lines = s.lines ++ outs.map (fun o => lineOf prog.xyz o.returned.pose)) ∧
      s'.pose = ((outs.map fun o => o.returned.pose).getLast?).getD s.pose
  | 0, _, _, _, _, _, _, hfuel, _, _, _, _ => by omega
  | fuel + 1, treated, gs, s, slam, outs, hd, hfuel, hgo, hu, hf, hr => by
    rw [CapeRun.loop, if_neg (by simp [hgo])]
    rcases Nat.lt_or_ge s.frameIndex e with hlt | hge
    · have next : (s.frameIndex + 1) % 2 ^ 32 = s.frameIndex + 1 := Nat.mod_eq_of_lt (by omega)
      rw [CapeRun.frames_step hlt] at hu
      split_ifs at hu with hj
      · rw [if_neg (CapeRun.wanted_iff.1 hj)]
        cases hf with
        | nil =>
          obtain ⟨k, hk, -⟩ := hu.2.2 (by simp)
          simp at hk
        | @cons f g treated gs hf hfs =>
          obtain ⟨rfl, hpre⟩ := List.cons_prefix_cons.1 hu.1
          obtain ⟨rgb, file, images, hp, e1, rfl⟩ := hf
          obtain ⟨⟨s1, o⟩, h1, hr⟩ := Outcome.bind_eq_ok hr
          obtain ⟨⟨s2, os⟩, h2, hr⟩ := Outcome.bind_eq_ok hr
          injection hr with hr
          injection hr with hr1 hr2
          subst hr1 hr2
          have e2 : prog.track s.slam images = .ok (s1, o.returned.pose) := by
            rw [htrack, slamTrack, h1]
            rfl
          rw [(CapeRun.loadImages_iff ..).2 hp]
          dsimp only
          rw [e1, Outcome.bind_ok, e2, Outcome.bind_ok]
          by_cases hk : keys s.treated = .quit
          · have ht : treated = [] := by
              by_contra ht
              exact hu.2.1 0 (by simpa using List.length_pos_iff.2 ht) hk
            subst ht
            cases hfs
            injection h2 with h2
            injection h2 with _ h2
            subst h2
            refine ⟨CapeRun.record prog (keys s.treated) s s1 o.returned.pose, ?_, fun hsave => ?_, rfl⟩
            · cases fuel with
              | zero => omega
              | succ fuel => rw [CapeRun.loop, if_pos (by simp [CapeRun.record, hk, TumRun.checkUserInputs])]
            · simp [CapeRun.record, hsave]
          · have hgo' : (CapeRun.record prog (keys s.treated) s s1 o.returned.pose).goOn = true := by
              cases e : keys s.treated <;> simp_all [CapeRun.record, TumRun.checkUserInputs]
            have hix : (CapeRun.record prog (keys s.treated) s s1 o.returned.pose).frameIndex = s.frameIndex + 1 := next
            have hu' : UntilQuit (fun i => keys ((CapeRun.record prog (keys s.treated) s s1 o.returned.pose).treated + i))
                (frames prog.jump (s.frameIndex + 1) e) treated := by
              have kshift : ∀ i, keys ((CapeRun.record prog (keys s.treated) s s1 o.returned.pose).treated + i) = keys (s.treated + (i + 1)) :=
                fun i => congrArg keys (by simp only [CapeRun.record]; omega)
              refine ⟨hpre, fun i hl => ?_, fun hl => ?_⟩
              · show keys _ ≠ _
                rw [kshift]
                exact hu.2.1 (i + 1) (by simpa using hl)
              · obtain ⟨j, h3, h4⟩ := hu.2.2 (by simpa using hl)
                cases j with
                | zero => exact absurd h4 hk
                | succ j => exact ⟨j, by simpa using h3, by show keys _ = _; rw [kshift]; exact h4⟩
            obtain ⟨s', r1, r2, r3⟩ := loop_slam htrack he (fuel := fuel) (s := CapeRun.record prog (keys s.treated) s s1 o.returned.pose)
              (by rw [hix]; exact hd.next hlt) (by rw [hix]; omega) hgo' (by rw [hix]; exact hu') hfs h2
            refine ⟨s', r1, fun hsave => ?_, ?_⟩
            · rw [r2 hsave]
              simp [CapeRun.record, hsave]
            · rw [r3]
              cases os with
              | nil => rfl
              | cons a os => simp [CapeRun.record, List.getLast?_cons]
      · rw [if_pos (by by_contra h; exact hj (CapeRun.wanted_iff.2 h))]
        exact loop_slam htrack he (s := { s with frameIndex := (s.frameIndex + 1) % 2 ^ 32 }) (by dsimp only; rw [next]; exact hd.next hlt)
          (by dsimp only; rw [next]; omega) hgo (by dsimp only; rw [next]; exact hu) hf hr
    · have hix : s.frameIndex = e := le_antisymm hd.after hge
      rw [hix, CapeRun.frames_end] at hu
      obtain rfl : treated = [] := by simpa using hu.1
      cases hf
      injection hr with hr
      injection hr with _ hr
      subst hr
      rw [if_neg (by rw [hix]; exact CapeRun.wanted_iff.1 hd.wanted), hix, CapeRun.loadImages_none.2 hd.absent]
      exact ⟨s, rfl, by simp, rfl⟩

/-! ## C220 -/

/-- C220.  The program for numbered images treats a dataset whose images are exact views of a scene of at least 5 points: `frameOf` is what the detectors and the
optimiser make of two images.  `treated` are the frames that are not skipped, up to the end of the dataset or to the one after which the user quits.  The
world frame is the one in which the first treated image is taken from the default pose.  Then the program ends normally, the trajectory file, if it is
saved, has one line per treated frame, the line of each frame describes the place from which it was taken, and the end pose is the last one. -/
theorem C220_saved_trajectory [Inhabited Desc] (sight2 sight : Sight Desc S) {pinv : Sq 3 → Sq 3}
    (hpinv : ∀ A, IsCovariance A → IsPseudoInverse A (pinv A)) {fx fy cx cy : ℝ} (hfx : fx ≠ 0) (hfy : fy ≠ 0)
    (op : PlaneOps (Body Desc S) (Detected Desc ⊕ Shape) (Camera × Handler Desc)) (hop : ∀ c h, op.covValid (c, h) = isValid c.pose)
    (lt : Match → Match → Bool) {cols rows : Nat} (hc : cols < 2 ^ 31) (hr : rows < 2 ^ 31) (hcx : 31 < cols) (hry : 31 < rows)
    (hw : Keypoints.cellsFor rows ≤ Keypoints.cellsFor cols) {X : Nat → V3} {look : Nat → Desc} {n : Nat} (h5 : 5 ≤ n) (hn : n < 2 ^ 64)
    -- the program
    {frameOf : Image Colour × Image ℚ → Slam.Frame (Outcome (World (Body Desc S))) (Handler Desc × List Shape) PoseVar Match}
    {prog : Program (Slam.State (Outcome (World (Body Desc S))) PoseVar)}
    (htrack : prog.track = slamTrack (localMapOps (programKinds (withShapes (handlerOps (geo2 sight2 pinv))) (withShapes (handlerOps (geo1 sight pinv)))
          op) (fun e => isValid e.1.pose) lt (fun pose d => (Spec.cameraAt fx fy cx cy pose, d.1)) frameDets)
        ⟨fun p => isValid p.variance, fun p => isValid (firstPoseBlock p.variance)⟩ frameOf)
    (hxyz : Angles.Spec.IsXyz prog.xyz) {keys : ℕ → Key} {first : ℕ} {variance : Sq 6} (hstart : IsCovariance variance)
    -- the dataset
    {d : Dataset} {e : ℕ} (he : e < 2 ^ 32) (hend : EndsAt d prog.jump first e) {treated : List ℕ}
    (hquit : UntilQuit keys (frames prog.jump first e) treated) {f : Slam.Frame (Outcome (World (Body Desc S))) (Handler Desc × List Shape) PoseVar Match} {fs : List (Slam.Frame (Outcome (World (Body Desc S))) (Handler Desc × List Shape) PoseVar Match)}
    (himages : List.Forall₂ (Spec.Gives prog d frameOf) treated (f :: fs))
    {h : Handler Desc} (hdet : ∀ L pose forced, f.detect L pose forced = (h, []))
    (hview : Spec.ExactView fx fy cx cy X look (Spec.place ⟨Pose.default, variance⟩) h)
    (hfirst : Spec.Redetected (geo1 sight pinv) cols rows (Spec.At X look n) n (Spec.cameraAt fx fy cx cy ⟨Pose.default, variance⟩) h)
    {Ts : List M4} (hrigid : ∀ T ∈ Spec.place ⟨Pose.default, variance⟩ :: Ts, Anew.Spec.Rigid T)
    (hroute : Spec.Route (fun T U f => ∃ h, Spec.ExactFrame sight pinv fx fy cx cy cols rows X look n T U f h)
      (Spec.place ⟨Pose.default, variance⟩) Ts fs) :
    ∃ bound, ∀ fuel, bound ≤ fuel → ∃ report,
      CapeRun.run prog (fun p => Slam.init ⟨p, variance⟩ (.ok World.init)) first keys d fuel = .ok report ∧
      (prog.save = true → report.trajectory.map Exact.Spec.placeOf = Spec.place ⟨Pose.default, variance⟩ :: Ts) ∧
      cameraToWorld report.endPose.orientation report.endPose.position = (Spec.place ⟨Pose.default, variance⟩ :: Ts).getLast (by simp) := by
  obtain ⟨s, out, outs, w, r1, -, r3, -⟩ := C193_no_drift sight2 sight hpinv hfx hfy op hop lt hc hr hcx hry hw h5 hn (start := ⟨Pose.default, variance⟩)
    hstart hdet hview hfirst hroute
  refine ⟨e - first + 2, fun fuel hfuel => ?_⟩
  have hix : (((first : ℤ) % 2 ^ 32).toNat) = first := by
    have := hend.after
    omega
  obtain ⟨s', q1, q2, q3⟩ := loop_slam htrack he (keys := keys) (d := d) (fuel := fuel)
    (s := { slam := Slam.init ⟨Pose.default, variance⟩ (.ok World.init), pose := Pose.default, goOn := true, frameIndex := ((first : ℤ) % 2 ^ 32).toNat,
            treated := 0, lines := [] }) (by dsimp only; rw [hix]; exact hend) (by dsimp only; rw [hix]; omega) rfl
    (by dsimp only; rw [hix]; simpa using hquit) himages r1
  refine ⟨_, by rw [CapeRun.run, q1]; rfl, ?_, ?_⟩
  · intro hsave
    dsimp only
    rw [q2 hsave, List.nil_append, ← r3, List.map_map]
    refine List.map_congr_left fun o ho => lineOf_place hxyz (hrigid _ ?_)
    rw [← r3]
    exact List.mem_map_of_mem ho
  · dsimp only
    have e : (Spec.place ⟨Pose.default, variance⟩ :: Ts).getLast (by simp) = Spec.place ((out :: outs).getLast (by simp)).returned := by
      rw [← List.getLast_map (f := fun o : Slam.Out PoseVar => Spec.place o.returned) (by simp)]
      congr 1
      exact r3.symm
    rw [e, q3, List.getLast?_map, List.getLast?_eq_getLast_of_ne_nil (by simp)]
    rfl

/-! ## A dataset -/

/-- What the detectors and the optimiser make of the `i`-th view of the wall. -/
def viewOf (h0 h1 h2 : Handler Nat) (i : ℕ) : Slam.Frame (Outcome (World (Body Nat Unit))) (Handler Nat × List Unit) PoseVar Match :=
  if i = 0 then exactFrame h0 0 else if i % 2 = 1 then exactFrame h1 1 else exactFrame h2 0

/-- Images of the wall from 0 to `n`, whose colour is their number. -/
def wallImages (n : ℕ) : Dataset where
  rgb := fun i => if i ≤ n then .image ⟨480, 640, fun _ _ => (i, 0, 0)⟩ else .missing
  depth := fun i => if i ≤ n then .image ⟨480, 640, fun _ _ => 1000⟩ else .missing

/-- The program for numbered images, for the wall. -/
def wallProgram (h0 h1 h2 : Handler Nat) : Program (Slam.State (Outcome (World (Body Nat Unit))) PoseVar) where
  jump := 0
  save := true
  width := 640
  height := 480
  rectify := fun _ => none
  track := slamTrack (localMapOps (programKinds (withShapes (handlerOps (geo2 wallSight (examplePinv 3))))
      (withShapes (handlerOps (geo1 wallSight (examplePinv 3)))) wallOps) (fun e => isValid e.1.pose) (fun _ _ => false)
      (fun pose d => (Spec.cameraAt 1000 1000 0 0 pose, d.1)) frameDets)
    ⟨fun p => isValid p.variance, fun p => isValid (firstPoseBlock p.variance)⟩ (fun images => viewOf h0 h1 h2 (images.1.pixel 0 0).1)
  xyz := Optimizer.eulerAngles

/-- The hypotheses are met: the camera swings in front of the wall; the file has the places of the camera. -/
example : ∃ h0 h1 h2, ∀ n, n + 1 < 2 ^ 32 → ∃ fuel report,
    CapeRun.run (wallProgram h0 h1 h2) (fun p => Slam.init ⟨p, 1⟩ (.ok World.init)) 0 (fun _ => .other) (wallImages n) fuel = .ok report ∧
    report.trajectory.map Exact.Spec.placeOf = wallPlace 0 :: (swing 0 n).map wallPlace := by
  obtain ⟨h0, h1, h2, e0, e1, e2, x1, x2, hv, hf⟩ := swing_frames
  refine ⟨h0, h1, h2, fun n hn => ?_⟩
  have hs : (⟨Pose.default, 1⟩ : PoseVar) = wallPose 0 := by
    have : (0 : V3) = ![-((shiftOf 0 : ℚ) : ℝ), 0, 0] := by
      ext i; fin_cases i <;> simp [shiftOf]
    simp only [Pose.default, wallPose, ← this]
  have hp : Spec.place ⟨Pose.default, 1⟩ = wallPlace 0 := by rw [hs]; rfl
  have hroute : ∀ n k, Spec.Route (fun T U f => ∃ h, Spec.ExactFrame wallSight (examplePinv 3) 1000 1000 0 0 640 480 wallPoint (fun _ => 0) 5 T U
        (f : Slam.Frame _ (Handler Nat × List Unit) PoseVar Match) h) (wallPlace (k % 2)) ((swing (k % 2) n).map wallPlace)
        ((List.range' (k + 1) n).map (viewOf h0 h1 h2)) := by
    intro n
    induction n with
    | zero => exact fun k => .home _
    | succ n ih =>
      intro k
      have := ih (k + 1)
      rw [List.range'_succ, List.map_cons, swing, List.map_cons]
      rcases Nat.mod_two_eq_zero_or_one k with hk | hk
      · have h1' : (k + 1) % 2 = 1 := by omega
        rw [h1'] at this
        rw [hk, viewOf, if_neg (by omega), if_pos h1']
        exact .go ⟨h1, x1 0⟩ this
      · have h1' : (k + 1) % 2 = 0 := by omega
        rw [h1'] at this
        rw [hk, viewOf, if_neg (by omega), if_neg (by omega)]
        exact .go ⟨h2, x2 1⟩ this
  have hfr : frames 0 0 (n + 1) = List.range' 0 (n + 1) := by simp [frames, Wanted]
  have hgive : ∀ i ∈ List.range' 0 (n + 1), Spec.Gives (wallProgram h0 h1 h2) (wallImages n) (fun images => viewOf h0 h1 h2 (images.1.pixel 0 0).1) i
      (viewOf h0 h1 h2 i) := by
    intro i hi
    have hi' : i ≤ n := by
      have := (List.mem_range'_1.1 hi).2
      omega
    refine ⟨⟨480, 640, fun _ _ => (i, 0, 0)⟩, ⟨480, 640, fun _ _ => 1000⟩, (⟨480, 640, fun _ _ => (i, 0, 0)⟩, ⟨480, 640, fun _ _ => 1000⟩),
      ⟨if_pos hi', if_pos hi'⟩, ?_, rfl⟩
    simp [CapeRun.prepare, wallProgram]
  obtain ⟨bound, hb⟩ := C220_saved_trajectory wallSight wallSight examplePinv_spec (by norm_num) (by norm_num) wallOps
    (fun _ _ => rfl) (fun _ _ => false) (cols := 640) (rows := 480) (by norm_num) (by norm_num) (by norm_num) (by norm_num) (by decide)
    (n := 5) (by norm_num) (by norm_num) (prog := wallProgram h0 h1 h2) rfl Optimizer.PoseVector.C215_angles.1 (keys := fun _ => .other)
    (first := 0) (variance := 1) isCovariance_one (d := wallImages n) hn
    ⟨Nat.zero_le _, .inl rfl, by
      rintro ⟨a, b, ha, -⟩
      simp [wallImages] at ha, fun i _ hi _ => ⟨_, _, if_pos (by omega), if_pos (by omega)⟩⟩
    (treated := List.range' 0 (n + 1)) ⟨by rw [show (wallProgram h0 h1 h2).jump = 0 from rfl, hfr], fun _ _ h => (by cases h), fun hl => by
      rw [show (wallProgram h0 h1 h2).jump = 0 from rfl, hfr] at hl
      exact absurd hl (lt_irrefl _)⟩
    (f := exactFrame h0 0) (fs := (List.range' 1 n).map (viewOf h0 h1 h2)) (by
      have : exactFrame h0 0 :: (List.range' 1 n).map (viewOf h0 h1 h2) = (List.range' 0 (n + 1)).map (viewOf h0 h1 h2) := by
        rw [List.range'_succ, List.map_cons]
        rfl
      rw [this, List.forall₂_map_right_iff]
      exact List.forall₂_same.2 hgive) (h := h0) (fun _ _ _ => rfl) (by rw [hp]; exact hv) (by rw [hs]; exact hf)
    (Ts := (swing 0 n).map wallPlace) (by
      rw [hp]
      intro T hT
      rcases List.mem_cons.1 hT with rfl | hT
      · exact Anew.wallPlace_rigid 0
      · obtain ⟨k, -, rfl⟩ := List.mem_map.1 hT
        exact Anew.wallPlace_rigid k) (by rw [hp]; exact hroute n 0)
  obtain ⟨report, r1, r2, -⟩ := hb bound le_rfl
  rw [hp] at r2
  exact ⟨bound, report, r1, r2 rfl⟩

end

end RgbdSlam.Map.ExactCape
