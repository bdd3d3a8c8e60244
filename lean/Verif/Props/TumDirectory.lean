import Verif.Props.CapeFiles

/-! # C224: from the directory of a dataset to the two files

C213 is about the elements of the dataset in a directory, C222 about a run on a list of elements. -/

namespace RgbdSlam.Map.Exact

open Keypoints (Handler Detected Pt Tracked)
open Geometry Geometry.Spec Covariance Covariance.Spec Updates Matrix Writer
open Optimizer (PoseVar)
open TumRun (Program Input Image Colour Key Loop Line lineOf startPose)
open TumRun.Spec (kept UntilQuit)
open TumProgram (Directory Runs)
open TumProgram.Spec (IsElement)
open TumText.Spec (PairLine TruthLine Written Separator)

noncomputable section

variable {Desc S Shape : Type}

/-- The images and the ground truth of a line are determined by the directory. -/
theorem isElement_unique {dir : Directory} {truth : List TruthLine} {line : (ℚ × String) × (ℚ × String)} {i j : Input}
    (hi : IsElement dir truth line i) (hj : IsElement dir truth line j) : i = j := by
  obtain ⟨a, b, c⟩ := i
  obtain ⟨a', b', c'⟩ := j
  obtain rfl : a = a' := hi.colour.trans hj.colour.symm
  obtain rfl : b = b' := hi.depth.trans hj.depth.symm
  obtain rfl : c = c' := Option.ext fun g => (hi.truth g).trans (hj.truth g).symm
  rfl

theorem elements_unique {dir : Directory} {truth : List TruthLine} {pairs : List ((ℚ × String) × (ℚ × String))} {is js : List Input}
    (hi : List.Forall₂ (IsElement dir truth) pairs is) : List.Forall₂ (IsElement dir truth) pairs js → is = js := by
  induction hi generalizing js with
  | nil => rintro ⟨⟩; rfl
  | cons h _ ih =>
    rintro (_ | ⟨h', hs'⟩)
    rw [isElement_unique h h', ih hs']

/-- C224.  The directory of a dataset has an association file and a ground truth in whatever layout; `inputs` are the elements of its lines, with their images and the pose that
the ground truth has for them.  When they are as in C222, the program has exactly one outcome on this directory: it ends normally, with the trajectory and the map of C222. -/
theorem C224_directory [Inhabited Desc] (sight2 sight : Sight Desc S) {pinv : Sq 3 → Sq 3}
    (hpinv : ∀ A, IsCovariance A → IsPseudoInverse A (pinv A)) {fx fy cx cy : ℝ} (hfx : fx ≠ 0) (hfy : fy ≠ 0)
    (op : PlaneOps (Body Desc S) (Detected Desc ⊕ Shape) (Camera × Handler Desc)) (hop : ∀ c h, op.covValid (c, h) = isValid c.pose)
    (lt : Match → Match → Bool) {cols rows : Nat} (hc : cols < 2 ^ 31) (hr : rows < 2 ^ 31) (hcx : 31 < cols) (hry : 31 < rows)
    (hw : Keypoints.cellsFor rows ≤ Keypoints.cellsFor cols) {X : Nat → V3} {look : Nat → Desc} {n : Nat} (h5 : 5 ≤ n)
    -- the program
    {frameOf : Image Colour × Image ℚ → Slam.Frame (Outcome (World (Body Desc S))) (Handler Desc × List Shape) PoseVar Match}
    {prog : Program (Slam.State (Outcome (World (Body Desc S))) PoseVar)}
    (htrack : prog.track = slamTrack (localMapOps (programKinds (withShapes (handlerOps (geo2 sight2 pinv))) (withShapes (handlerOps (geo1 sight pinv)))
          op) (fun e => isValid e.1.pose) lt (fun pose d => (Spec.cameraAt fx fy cx cy pose, d.1)) frameDets)
        ⟨fun p => isValid p.variance, fun p => isValid (firstPoseBlock p.variance)⟩ frameOf)
    (hxyz : Angles.Spec.IsXyz prog.xyz) {keys : ℕ → Key} {first : ℕ} {variance : Sq 6} (hstart : IsCovariance variance)
    -- the directory
    {dir : Directory} (unread : ℕ → ℝ) {lines : List PairLine} (hlines : ∀ l ∈ lines, l.Valid) {text : List Char}
    (htext : Written (lines.map (·.text)) text) (hfile : dir.file "associations.txt" = some text)
    {truth : List TruthLine} (htruth : ∀ l ∈ truth, l.Valid) {truthText : List Char}
    (ht : Written (truth.map (·.text)) truthText) (htfile : dir.file "groundtruth.txt" = some truthText)
    -- the dataset
    {inputs treated : List Input} (helements : List.Forall₂ (IsElement dir truth) (lines.filterMap (·.pair?)) inputs)
    (hquit : UntilQuit keys (kept prog.jump first inputs) treated) {f : Slam.Frame (Outcome (World (Body Desc S))) (Handler Desc × List Shape) PoseVar Match} {fs gs : List (Slam.Frame (Outcome (World (Body Desc S))) (Handler Desc × List Shape) PoseVar Match)}
    (himages : List.Forall₂ (fun i g => ∃ images, TumRun.prepare prog.width prog.height i = .ok images ∧ frameOf images = g) treated (f :: fs ++ gs))
    {h : Handler Desc} (hdet : ∀ L pose forced, f.detect L pose forced = (h, []))
    (hview : Spec.ExactView fx fy cx cy X look (Spec.place ⟨startPose inputs, variance⟩) h)
    (hfirst : Spec.Redetected (geo1 sight pinv) cols rows (Spec.At X look n) n (Spec.cameraAt fx fy cx cy ⟨startPose inputs, variance⟩) h)
    {Ts : List M4} (hrigid : ∀ T ∈ Spec.place ⟨startPose inputs, variance⟩ :: Ts, Anew.Spec.Rigid T)
    (hroute : Spec.Route (fun T U f => ∃ h, Spec.ExactFrame sight pinv fx fy cx cy cols rows X look n T U f h)
      (Spec.place ⟨startPose inputs, variance⟩) Ts fs)
    -- the losses
    {places Ds : List M4} (hlosses : Anew.Spec.Losses sight pinv fx fy cx cy cols rows X look n 1
      ((Spec.place ⟨startPose inputs, variance⟩ :: Ts).getLast (by simp)) n gs places Ds) (hmany : n + n * Ds.length < 2 ^ 64) (h3 : 3 ≤ Ts.length)
    {fmt : ℝ → List Char} (hf : OneWord fmt) (outline : S → List V3 × V3) :
    ∃ report poses final w, (∀ o, Runs dir unread prog (fun p => Slam.init ⟨p, variance⟩ (.ok World.init)) first keys o ↔ o = .ok (some report)) ∧
      TumRun.Spec.Tracked prog.track prog.width prog.height (Slam.init ⟨startPose inputs, variance⟩ (.ok World.init)) treated poses final ∧
      (prog.save = true → report.trajectory.map Spec.placeOf = Spec.place ⟨startPose inputs, variance⟩ :: (Ts ++ places)) ∧
      final.localMap = .ok w ∧ (objVertices (exportedFile fmt outline w)).Perm
        (Spec.printed fmt X n ++ (Anew.Spec.displacements 1 Ds).flatMap fun E => Spec.printed fmt (fun i => pointToWorld E (X i)) n) := by
  obtain ⟨report, poses, final, w, r1, r2⟩ := C222_both_files sight2 sight hpinv hfx hfy op hop lt hc hr hcx hry hw h5 htrack hxyz (keys := keys)
    (first := first) hstart hquit himages hdet hview hfirst hrigid hroute hlosses hmany h3 hf outline
  have hall : ∀ o, Runs dir unread prog (fun p => Slam.init ⟨p, variance⟩ (.ok World.init)) first keys o → o = .ok (some report) := by
    intro o ho
    obtain ⟨elements, he, rfl⟩ := TumProgram.runs_association dir unread prog _ first keys lines hlines text htext hfile truth htruth truthText ht
      htfile o ho
    rw [← elements_unique helements he, r1]
  refine ⟨report, poses, final, w, fun o => ⟨hall o, ?_⟩, r2⟩
  rintro rfl
  have := Runs.run (unread := unread) (prog := prog) (create := fun p => Slam.init ⟨p, variance⟩ (.ok World.init)) (start := first) (keys := keys)
    (TumProgram.Associated.fromFile hfile)
  rwa [hall _ this] at this

/-! ## A directory -/

/-- The line of an image of this colour; the length of its path tells the colour. -/
def wallLine (c : ℕ) : PairLine :=
  .pair [] ⟨none, [1], none, none⟩ [' '] ['d'] [' '] ⟨none, [2], none, none⟩ [' '] ('c' :: List.replicate c 'c') []

/-- A directory with images of the wall, of these colours. -/
def wallDirectory (colours : List ℕ) : Directory where
  file := fun name =>
    if name = "associations.txt" then some ((colours.map wallLine).map (·.text) |>.flatMap (· ++ ['\n']))
    else if name = "groundtruth.txt" then some [] else none
  colour := fun path => some ⟨480, 640, fun _ _ => (path.length - 1, 0, 0)⟩
  depth := fun _ => none

theorem wallLine_valid (c : ℕ) : (wallLine c).Valid := by
  refine ⟨by simp, ⟨by simp, by simp⟩, ⟨by simp, ?_⟩, ⟨by simp, ?_⟩, ⟨by simp, ?_⟩, ⟨by simp, by simp⟩,
    ⟨by simp, ?_⟩, ⟨by simp, ?_⟩, by simp⟩
  · unfold Separator; decide
  · unfold Separator; decide
  · unfold Separator; decide
  · unfold Separator; decide
  · intro a ha
    obtain rfl : a = 'c' := by
      rcases List.mem_cons.1 ha with rfl | ha
      · rfl
      · exact List.eq_of_mem_replicate ha
    unfold Separator; decide

theorem wall_elements (colours : List ℕ) :
    List.Forall₂ (IsElement (wallDirectory colours) []) ((colours.map wallLine).filterMap (·.pair?)) (colours.map picture) := by
  rw [List.filterMap_map, show ((·.pair?) ∘ wallLine) = fun c => some
    ((TumText.Spec.Numeral.value ⟨none, [1], none, none⟩, String.ofList ['d']), (TumText.Spec.Numeral.value ⟨none, [2], none, none⟩, String.ofList ('c' :: List.replicate c 'c'))) from rfl,
    List.filterMap_eq_map', List.forall₂_map_left_iff, List.forall₂_map_right_iff]
  refine List.forall₂_same.2 fun c _ => ⟨?_, rfl, fun g => ⟨fun h => (by cases h), ?_⟩⟩
  · have hc : (String.ofList ('c' :: List.replicate c 'c')).length - 1 = c := by simp [String.length_ofList, -String.ofList_cons]
    dsimp only [picture, wallDirectory]
    rw [hc]
  · rintro ⟨numbers, ⟨pre, post, h, -⟩, -⟩
    simp at h

/-- The hypotheses are met, for any number of losses: the wall is in the file at its place, once more moved as the camera was pushed, and once more for each further loss. -/
example : ∃ h0 h1 h2, ∀ k, k < 2 ^ 32 → ∃ (report : TumRun.Report) (places : List M4) (poses : List Pose)
      (final : Slam.State (Outcome (World (Body Nat Unit))) PoseVar) (w : World (Body Nat Unit)),
    (∀ o, TumProgram.Runs (wallDirectory ([0, 1, 2, 1, 2] ++ (darkAndDawnColours ++ (List.replicate k darkAndDawnColours).flatten))) (fun _ => 0)
      (lossProgram h0 h1 h2) (fun p => Slam.init ⟨p, 1⟩ (.ok World.init)) 0 (fun _ => .other) o ↔ o = .ok (some report)) ∧
    TumRun.Spec.Tracked (lossProgram h0 h1 h2).track 640 480 (Slam.init (wallPose 0) (.ok World.init))
      (([0, 1, 2, 1, 2] ++ (darkAndDawnColours ++ (List.replicate k darkAndDawnColours).flatten)).map picture) poses final ∧
    report.trajectory.map Spec.placeOf = [wallPlace 0, wallPlace 1, wallPlace 0, wallPlace 1, wallPlace 0] ++ (List.replicate 15 (wallPlace 0) ++ places) ∧
    final.localMap = .ok w ∧ (objVertices (exportedFile wholeFmt (fun _ => ([], 0)) w)).Perm (Spec.printed wholeFmt wallPoint 5 ++
      (Anew.Spec.displacements 1 (Anew.pushed :: List.replicate k 1)).flatMap fun E => Spec.printed wholeFmt (fun i => pointToWorld E (wallPoint i)) 5) := by
  obtain ⟨h0, h1, h2, e0, e1, e2, x1, x2, hv, hf⟩ := swing_frames
  refine ⟨h0, h1, h2, fun k hk => ?_⟩
  obtain ⟨hv1, hagain, ht⟩ := Anew.pushed_true e1 5
  obtain ⟨places, hrest⟩ := Anew.wall_losses e1 k (5 + 5)
  have hs : ∀ is, (⟨startPose (picture 0 :: is), 1⟩ : PoseVar) = wallPose 0 := by
    have : (0 : V3) = ![-((shiftOf 0 : ℚ) : ℝ), 0, 0] := by
      ext i; fin_cases i <;> simp [shiftOf]
    intro is
    simp only [startPose, picture, List.head?_cons, Pose.default, wallPose, ← this]
  have hp : ∀ is, Spec.place ⟨startPose (picture 0 :: is), 1⟩ = wallPlace 0 := fun is => by rw [hs]; rfl
  have hdd : Anew.darkAndDawn h1 = darkAndDawnColours.map (lossView h0 h1 h2) := by
    simp [Anew.darkAndDawn, darkAndDawnColours, lossView]
  have hframes : exactFrame h0 0 :: [exactFrame h1 1, exactFrame h2 0, exactFrame h1 1, exactFrame h2 0] ++
      (Anew.darkAndDawn h1 ++ (List.replicate k (Anew.darkAndDawn h1)).flatten) =
      ([0, 1, 2, 1, 2] ++ (darkAndDawnColours ++ (List.replicate k darkAndDawnColours).flatten)).map (lossView h0 h1 h2) := by
    rw [hdd]
    simp only [List.map_append, List.map_flatten, List.map_replicate]
    rfl
  have hlosses : Anew.Spec.Losses wallSight (examplePinv 3) 1000 1000 0 0 640 480 wallPoint (fun _ => 0) 5 1 (wallPlace 0) 5
      (Anew.darkAndDawn h1 ++ (List.replicate k (Anew.darkAndDawn h1)).flatten)
      (List.replicate (List.replicate 11 coveredFrame).length (1 * wallPlace 0) ++
        (wallPlace 1 :: [wallPlace 1, wallPlace 1, wallPlace 1]).map (1 * Anew.pushed * ·) ++ places) (Anew.pushed :: List.replicate k 1) :=
    Anew.Spec.Losses.again (E := 1) (T := wallPlace 0) (D := Anew.pushed) (Q := wallPlace 1) (dark := List.replicate 11 coveredFrame)
      (f := Anew.dawnFrame h1 0) (fs := [Anew.dawnFrame h1 0, Anew.dawnFrame h1 0, Anew.dawnFrame h1 0]) (places := places)
      (Ts := [wallPlace 1, wallPlace 1, wallPlace 1])
      (fun f hf => by
        rw [List.eq_of_mem_replicate hf]
        exact ⟨⟨Keypoints.create 640 480, rfl, fun _ _ _ => rfl⟩, fun _ => rfl⟩) (by simp) (by simp)
      Anew.pushed_rigid (Anew.wallPlace_rigid 1) Anew.pushed_place (fun _ _ _ => rfl) (fun _ => rfl) hv1
      (fun prev hp => by rw [Matrix.one_mul] at hp ⊢; exact hagain prev hp)
      (by rw [Matrix.one_mul]; exact .go ⟨h1, ht⟩ (.go ⟨h1, ht⟩ (.go ⟨h1, ht⟩ (.home _)))) (by simp)
      (by rw [Matrix.one_mul]; exact hrest)
  obtain ⟨report, poses, final, w, r1, rt, r2, r3, r4⟩ := C224_directory wallSight wallSight examplePinv_spec (by norm_num) (by norm_num) wallOps
    (fun _ _ => rfl) (fun _ _ => false) (cols := 640) (rows := 480) (by norm_num) (by norm_num) (by norm_num) (by norm_num) (by decide)
    (n := 5) (by norm_num) (prog := lossProgram h0 h1 h2) (frameOf := fun images => lossView h0 h1 h2 (images.1.pixel 0 0).1) rfl
    Optimizer.PoseVector.C215_angles.1 (keys := fun _ => .other)
    (first := 0) (variance := 1) isCovariance_one
    (dir := wallDirectory ([0, 1, 2, 1, 2] ++ (darkAndDawnColours ++ (List.replicate k darkAndDawnColours).flatten))) (fun _ => 0)
    (lines := ([0, 1, 2, 1, 2] ++ (darkAndDawnColours ++ (List.replicate k darkAndDawnColours).flatten)).map wallLine)
    (fun l hl => by
      obtain ⟨c, -, rfl⟩ := List.mem_map.1 hl
      exact wallLine_valid c) (.inr rfl) rfl (truth := []) (fun l hl => by cases hl) (truthText := []) (.inr rfl) rfl
    (inputs := ([0, 1, 2, 1, 2] ++ (darkAndDawnColours ++ (List.replicate k darkAndDawnColours).flatten)).map picture)
    (wall_elements _) (all_treated rfl (fun _ => by decide)) (f := exactFrame h0 0) (fs := [exactFrame h1 1, exactFrame h2 0, exactFrame h1 1, exactFrame h2 0])
    (gs := Anew.darkAndDawn h1 ++ (List.replicate k (Anew.darkAndDawn h1)).flatten) (by
      rw [hframes, List.forall₂_map_left_iff, List.forall₂_map_right_iff]
      exact List.forall₂_same.2 fun c _ => ⟨_, prepare_picture c, rfl⟩) (h := h0) (fun _ _ _ => rfl)
    (by
      rw [List.cons_append, List.map_cons, hp]
      exact hv) (by
      rw [List.cons_append, List.map_cons, hs]
      exact hf)
    (Ts := [wallPlace 1, wallPlace 0, wallPlace 1, wallPlace 0]) (by
      rw [List.cons_append, List.map_cons, hp]
      intro T hT
      simp only [List.mem_cons, List.not_mem_nil, or_false] at hT
      rcases hT with rfl | rfl | rfl | rfl | rfl <;> exact Anew.wallPlace_rigid _) (by
      rw [List.cons_append, List.map_cons, hp]
      exact .go ⟨h1, x1 0⟩ (.go ⟨h2, x2 1⟩ (.go ⟨h1, x1 0⟩ (.go ⟨h2, x2 1⟩ (.home _)))))
    (by exact hlosses) (by rw [List.length_cons, List.length_replicate]; omega) (by simp) wholeFmt_oneWord (fun _ => ([], 0))
  refine ⟨report, places, poses, final, w, r1, ?_, ?_, r3, r4⟩
  · have := rt
    rw [List.cons_append, List.map_cons, hs] at this
    exact this
  · rw [r2 rfl]
    simp only [List.cons_append, List.map_cons, hp, Matrix.one_mul, ← Anew.pushed_place, List.length_replicate, List.map_nil, List.nil_append]
    rfl

end

end RgbdSlam.Map.Exact
