import Verif.Props.TumDirectory
import Verif.Props.Synchronised

/-! # C227: the program on the lists of a synchronised camera -/

namespace RgbdSlam.Map.Exact

open Keypoints (Handler Detected Pt Tracked)
open Geometry Geometry.Spec Covariance Covariance.Spec Updates Matrix Writer
open Optimizer (PoseVar)
open TumRun (Program Input Image Colour Key Loop Line lineOf startPose Report)
open TumRun.Spec (kept UntilQuit)
open TumProgram (Directory Runs)
open TumText.Spec (ImageLine Written Separator Numeral number powerValue)

noncomputable section

variable {Desc S Shape : Type}

/-- The lists of a synchronised camera are associated as they were taken. -/
theorem lists_frames (dir : Directory) (hfile : dir.file "associations.txt" = none)
    {rgb depth : List ImageLine} (hrgb : ∀ l ∈ rgb, l.Valid) (hdepth : ∀ l ∈ depth, l.Valid) {rgbText depthText : List Char}
    (hr' : Written (rgb.map (·.text)) rgbText) (hrfile : dir.file "rgb.txt" = some rgbText)
    (hd' : Written (depth.map (·.text)) depthText) (hdfile : dir.file "depth.txt" = some depthText)
    {δ : ℚ} (hδ : δ < 15 / 100) {pairs : List ((ℚ × String) × (ℚ × String))}
    (hsync : Tum.Spec.Synchronised δ pairs (rgb.filterMap (·.image?)) (depth.filterMap (·.image?)))
    {o : Outcome (List (Tum.Frame (List (Option ℚ))))} (ho : TumProgram.Associated dir o) :
    ∃ out, o = .ok out ∧ out.map (fun f => (f.rgb, f.depth)) = pairs.map (fun p => (p.1, some p.2)) ∧
      Tum.Associates (TumText.parseImages rgbText) (TumText.parseImages depthText) (TumText.parseTruth (dir.text "groundtruth.txt")) (.ok out) := by
  have h1 : dir.text "rgb.txt" = rgbText := by rw [Directory.text, hrfile]; rfl
  have h2 : dir.text "depth.txt" = depthText := by rw [Directory.text, hdfile]; rfl
  obtain ⟨-, hm1⟩ := TumText.C211_images rgb hrgb rgbText hr'
  obtain ⟨-, hm2⟩ := TumText.C211_images depth hdepth depthText hd'
  obtain ⟨m1, m2⟩ := Tum.synchronised_mem hsync
  have weaken : ∀ {l : List (ℚ × String)}, (∀ x ∈ l, x.2 ≠ "") → ∀ e, Tum.Spec.FirstAt (fun i => 0 < i.1) l e ↔
      Tum.Spec.FirstAt (fun i => i.2 ≠ "" ∧ 0 < i.1) l e := by
    intro l hl e
    constructor
    · rintro ⟨pre, post, rfl, a, b⟩
      exact ⟨pre, post, rfl, ⟨hl e (by simp), a⟩, fun x hx hv => b x hx hv.2⟩
    · rintro ⟨pre, post, rfl, a, b⟩
      exact ⟨pre, post, rfl, a.2, fun x hx hv => b x hx ⟨hl x (by simp [hx]), hv⟩⟩
  have hmr : ∀ e, e ∈ TumText.parseImages rgbText ↔ ∃ p ∈ pairs, p.1 = e := by
    intro e
    rw [hm1 e, weaken (fun x hx => ?_), ← (Tum.C51_parse_images _).2 e, m1]
    obtain ⟨p, hp, rfl⟩ := List.mem_map.1 (hsync.rgb.mem_iff.1 hx)
    exact (hsync.valid p hp).1
  have hmd : ∀ e, e ∈ TumText.parseImages depthText ↔ ∃ p ∈ pairs, p.2 = e := by
    intro e
    rw [hm2 e, weaken (fun x hx => ?_), ← (Tum.C51_parse_images _).2 e, m2]
    obtain ⟨p, hp, rfl⟩ := List.mem_map.1 (hsync.depth.mem_iff.1 hx)
    exact (hsync.valid p hp).2.2.1
  cases ho with
  | fromFile h0 =>
    rw [hfile] at h0
    cases h0
  | fromLists _ ha =>
    rw [h1, h2] at ha
    obtain ⟨out, rfl, hout⟩ := Tum.associates_paired hδ _ _ _ hsync.paired hmr hmd _ ha
    exact ⟨out, rfl, hout, ha⟩

/-- C227.  A directory without an association file has the lists of a synchronised camera, in whatever layout.  Then no run of the program is undefined: it treats the frames as they
were taken, by increasing time, each with its own two images; without a ground truth file, none has a ground truth. -/
theorem C227_lists {T : Type} (dir : Directory) (unread : ℕ → ℝ) (hfile : dir.file "associations.txt" = none)
    {rgb depth : List ImageLine} (hrgb : ∀ l ∈ rgb, l.Valid) (hdepth : ∀ l ∈ depth, l.Valid) {rgbText depthText : List Char}
    (hr' : Written (rgb.map (·.text)) rgbText) (hrfile : dir.file "rgb.txt" = some rgbText)
    (hd' : Written (depth.map (·.text)) depthText) (hdfile : dir.file "depth.txt" = some depthText)
    {δ : ℚ} (hδ : δ < 15 / 100) {pairs : List ((ℚ × String) × (ℚ × String))}
    (hsync : Tum.Spec.Synchronised δ pairs (rgb.filterMap (·.image?)) (depth.filterMap (·.image?)))
    (prog : Program T) (create : Pose → T) (start : ℕ) (keys : ℕ → Key) :
    (∃ o, Runs dir unread prog create start keys o) ∧
    ∀ o, Runs dir unread prog create start keys o → ∃ elements : List Input,
      List.Forall₂ (fun p e => e.rgb = dir.colour p.1.2 ∧ e.depth = dir.depth p.2.2 ∧ (dir.file "groundtruth.txt" = none → e.truth = none)) pairs elements ∧
      o = TumRun.run prog create start keys elements := by
  constructor
  · obtain ⟨o, ho⟩ := (Tum.C51_total (G := List (Option ℚ)) _ _ _).1
    exact ⟨_, .run (.fromLists hfile ho)⟩
  · rintro _ ⟨ho⟩
    obtain ⟨out, rfl, hout, ha⟩ := lists_frames dir hfile hrgb hdepth hr' hrfile hd' hdfile hδ hsync ho
    have hass := Tum.C51_association_partial _ _ _ ha
    refine ⟨out.map (TumProgram.input dir unread), ?_, rfl⟩
    have hp : List.Forall₂ (fun (p : (ℚ × String) × (ℚ × String)) (f : Tum.Frame (List (Option ℚ))) => (f.rgb, f.depth) = (p.1, some p.2)) pairs out := by
      have : List.Forall₂ (fun a b => b = a) (pairs.map fun p => (p.1, some p.2)) (out.map fun f => (f.rgb, f.depth)) := by
        rw [hout]
        exact List.forall₂_same.2 fun _ _ => rfl
      rwa [List.forall₂_map_left_iff, List.forall₂_map_right_iff] at this
    rw [List.forall₂_map_right_iff]
    have hnone : ∀ f ∈ out, dir.file "groundtruth.txt" = none → f.groundTruth = none := by
      intro f hf h0
      have ht : TumText.parseTruth (dir.text "groundtruth.txt") = [] := by rw [Directory.text, h0]; rfl
      by_contra hne
      obtain ⟨g, hg⟩ := Option.ne_none_iff_exists'.1 hne
      have : g ∈ TumText.parseTruth (dir.text "groundtruth.txt") := hass.truthKnown f hf g hg
      rw [ht] at this
      cases this
    refine ((List.forall₂_and_left _ _).2 ⟨hnone, hp.flip⟩).flip.imp fun p f h => ?_
    obtain ⟨e1, e2⟩ := Prod.mk.inj h.2
    refine ⟨?_, ?_, fun h0 => ?_⟩
    · show dir.colour f.rgb.2 = _
      rw [e1]
    · show f.depth.bind _ = _
      rw [e2]
      rfl
    · show f.groundTruth.map _ = none
      rw [h.1 h0]
      rfl

/-- C227, with the tracker of C222 and no ground truth: the program has exactly one outcome, with the trajectory and the map of C222. -/
theorem C227_files [Inhabited Desc] (sight2 sight : Sight Desc S) {pinv : Sq 3 → Sq 3}
    (hpinv : ∀ A, IsCovariance A → IsPseudoInverse A (pinv A)) {fx fy cx cy : ℝ} (hfx : fx ≠ 0) (hfy : fy ≠ 0)
    (op : PlaneOps (Body Desc S) (Detected Desc ⊕ Shape) (Camera × Handler Desc)) (hop : ∀ c h, op.covValid (c, h) = isValid c.pose)
    (lt : Match → Match → Bool) {cols rows : Nat} (hc : cols < 2 ^ 31) (hr : rows < 2 ^ 31) (hcx : 31 < cols) (hry : 31 < rows)
    (hw : Keypoints.cellsFor rows ≤ Keypoints.cellsFor cols) {X : Nat → V3} {look : Nat → Desc} {n : Nat} (h5 : 5 ≤ n)
    -- the program
    {frameOf : Image Colour × Image ℚ → Slam.Frame (Outcome (World (Body Desc S))) (Handler Desc × List Shape) PoseVar Match}
    {prog : Program (Slam.State (Outcome (World (Body Desc S))) PoseVar)}
    (htrack : prog.track = slamTrack (localMapOps (programKinds (withShapes (handlerOps (geo2 sight2 pinv))) (withShapes (handlerOps (geo1 sight pinv)))
          op) (fun e => isValid e.1.pose) lt (fun pose d => (Spec.cameraAt fx fy cx cy pose, d.1)) frameDets)
        ⟨fun p => isValid p.variance, fun p => isValid (firstPoseBlock p.variance)⟩ frameOf)
    (hxyz : Angles.Spec.IsXyz prog.xyz) {keys : ℕ → Key} {first : ℕ} {variance : Sq 6} (hstart : IsCovariance variance)
    -- the directory
    {dir : Directory} (unread : ℕ → ℝ) (hfile : dir.file "associations.txt" = none)
    {rgb depth : List ImageLine} (hrgb : ∀ l ∈ rgb, l.Valid) (hdepth : ∀ l ∈ depth, l.Valid) {rgbText depthText : List Char}
    (hr' : Written (rgb.map (·.text)) rgbText) (hrfile : dir.file "rgb.txt" = some rgbText)
    (hd' : Written (depth.map (·.text)) depthText) (hdfile : dir.file "depth.txt" = some depthText)
    {δ : ℚ} (hδ : δ < 15 / 100) {pairs : List ((ℚ × String) × (ℚ × String))}
    (hsync : Tum.Spec.Synchronised δ pairs (rgb.filterMap (·.image?)) (depth.filterMap (·.image?)))
    (hno : dir.file "groundtruth.txt" = none)
    -- the dataset
    {inputs treated : List Input} (helements : inputs = pairs.map fun p => ⟨dir.colour p.1.2, dir.depth p.2.2, none⟩)
    (hquit : UntilQuit keys (kept prog.jump first inputs) treated) {f : Slam.Frame (Outcome (World (Body Desc S))) (Handler Desc × List Shape) PoseVar Match} {fs gs : List (Slam.Frame (Outcome (World (Body Desc S))) (Handler Desc × List Shape) PoseVar Match)}
    (himages : List.Forall₂ (fun i g => ∃ images, TumRun.prepare prog.width prog.height i = .ok images ∧ frameOf images = g) treated (f :: fs ++ gs))
    {h : Handler Desc} (hdet : ∀ L pose forced, f.detect L pose forced = (h, []))
    (hview : Spec.ExactView fx fy cx cy X look (Spec.place ⟨startPose inputs, variance⟩) h)
    (hfirst : Spec.Redetected (geo1 sight pinv) cols rows (Spec.At X look n) n (Spec.cameraAt fx fy cx cy ⟨startPose inputs, variance⟩) h)
    {Ts : List M4} (hrigid : ∀ T ∈ Spec.place ⟨startPose inputs, variance⟩ :: Ts, Anew.Spec.Rigid T)
    (hroute : Spec.Route (fun T U f => ∃ h, Spec.ExactFrame sight pinv fx fy cx cy cols rows X look n T U f h)
      (Spec.place ⟨startPose inputs, variance⟩) Ts fs)
    -- the losses
    {places Ds : List M4} (hlosses : Anew.Spec.Losses sight pinv fx fy cx cy cols rows X look n 1
      ((Spec.place ⟨startPose inputs, variance⟩ :: Ts).getLast (by simp)) n gs places Ds) (hmany : n + n * Ds.length < 2 ^ 64) (h3 : 3 ≤ Ts.length)
    {fmt : ℝ → List Char} (hf : OneWord fmt) (outline : S → List V3 × V3) :
    ∃ report poses final w, (∀ o, Runs dir unread prog (fun p => Slam.init ⟨p, variance⟩ (.ok World.init)) first keys o ↔ o = .ok (some report)) ∧
      TumRun.Spec.Tracked prog.track prog.width prog.height (Slam.init ⟨startPose inputs, variance⟩ (.ok World.init)) treated poses final ∧
      (prog.save = true → report.trajectory.map Spec.placeOf = Spec.place ⟨startPose inputs, variance⟩ :: (Ts ++ places)) ∧
      final.localMap = .ok w ∧ (objVertices (exportedFile fmt outline w)).Perm
        (Spec.printed fmt X n ++ (Anew.Spec.displacements 1 Ds).flatMap fun E => Spec.printed fmt (fun i => pointToWorld E (X i)) n) := by
  subst helements
  obtain ⟨report, poses, final, w, r1, r2⟩ := C222_both_files sight2 sight hpinv hfx hfy op hop lt hc hr hcx hry hw h5 htrack hxyz (keys := keys)
    (first := first) hstart hquit himages hdet hview hfirst hrigid hroute hlosses hmany h3 hf outline
  obtain ⟨⟨o, ho⟩, hall⟩ := C227_lists dir unread hfile hrgb hdepth hr' hrfile hd' hdfile hδ hsync prog
    (fun p => Slam.init ⟨p, variance⟩ (.ok World.init)) first keys
  have huniq : ∀ o, Runs dir unread prog (fun p => Slam.init ⟨p, variance⟩ (.ok World.init)) first keys o → o = .ok (some report) := by
    intro o ho
    obtain ⟨elements, he, rfl⟩ := hall o ho
    have : elements = pairs.map fun p => ⟨dir.colour p.1.2, dir.depth p.2.2, none⟩ := by
      rw [← List.forall₂_eq_eq_eq, List.forall₂_map_right_iff]
      refine he.flip.imp fun e p h => ?_
      obtain ⟨x, y, z⟩ := e
      obtain ⟨rfl, rfl, h3⟩ := h
      obtain rfl : z = none := h3 hno
      rfl
    rw [this, r1]
  refine ⟨report, poses, final, w, fun o => ⟨huniq o, ?_⟩, r2⟩
  rintro rfl
  rwa [huniq _ ho] at ho

/-! ## A directory -/

/-- The time of the image `i`: a number of that many ones. -/
def ones (i : ℕ) : List (Fin 10) := 1 :: List.replicate i 1

/-- The line of an image of this colour; the length of its path tells the colour. -/
def rgbLine (c : ℕ × ℕ) : ImageLine := .image [] ⟨none, ones c.2, none, none⟩ [' '] ('c' :: List.replicate c.1 'c') []

/-- Its depth image comes a tenth of a second later. -/
def depthLine (c : ℕ × ℕ) : ImageLine := .image [] ⟨none, ones c.2, some [1], none⟩ [' '] ['d'] []

/-- A directory with the lists of images of the wall, of these colours. -/
def listDirectory (colours : List ℕ) : Directory where
  file := fun name =>
    if name = "rgb.txt" then some ((colours.zipIdx.map rgbLine).map (·.text) |>.flatMap (· ++ ['\n']))
    else if name = "depth.txt" then some ((colours.zipIdx.map depthLine).map (·.text) |>.flatMap (· ++ ['\n'])) else none
  colour := fun path => some ⟨480, 640, fun _ _ => (path.length - 1, 0, 0)⟩
  depth := fun _ => none

/-- The frames of these lists. -/
def listPair (c : ℕ × ℕ) : (ℚ × String) × (ℚ × String) :=
  (((number (ones c.2) : ℕ) , String.ofList ('c' :: List.replicate c.1 'c')), (((number (ones c.2) : ℕ) + 1 / 10 : ℚ), String.ofList ['d']))

theorem rgbLine_valid (c : ℕ × ℕ) : (rgbLine c).Valid := by
  refine ⟨by simp, ⟨by simp [ones], by simp⟩, ⟨by simp, ?_⟩, ⟨by simp, ?_⟩, by simp⟩
  · unfold Separator; decide
  · intro a ha
    obtain rfl : a = 'c' := by
      rcases List.mem_cons.1 ha with rfl | ha
      · rfl
      · exact List.eq_of_mem_replicate ha
    unfold Separator; decide

theorem depthLine_valid (c : ℕ × ℕ) : (depthLine c).Valid := by
  refine ⟨by simp, ⟨by simp [ones], by simp⟩, ⟨by simp, ?_⟩, ⟨by simp, ?_⟩, by simp⟩ <;> unfold Separator <;> decide

theorem number_ones (i : ℕ) : number (ones (i + 1)) = number (ones i) + 10 ^ (i + 1) := by
  have : ∀ i, ones i = List.replicate (i + 1) 1 := fun i => rfl
  rw [this, this]
  simp only [TumText.Spec.number, List.map_replicate, List.reverse_replicate]
  rw [List.replicate_succ', Nat.ofDigits_append]
  simp

theorem ones_lt {i j : ℕ} (h : i < j) : number (ones i) + 1 ≤ number (ones j) := by
  induction h with
  | refl => rw [number_ones]; exact Nat.add_le_add_left (Nat.one_le_pow _ _ (by norm_num)) _
  | step _ ih => rw [number_ones]; exact ih.trans (Nat.le_add_right _ _)

theorem list_synchronised (colours : List ℕ) : Tum.Spec.Synchronised (1 / 10) (colours.zipIdx.map listPair)
    ((colours.zipIdx.map rgbLine).filterMap (·.image?)) ((colours.zipIdx.map depthLine).filterMap (·.image?)) where
  rgb := by
    rw [List.filterMap_map, List.map_map]
    have : ((·.image?) ∘ rgbLine) = fun c => some ((listPair c).1) := by
      funext c
      simp [rgbLine, ImageLine.image?, listPair, Numeral.value, powerValue, TumText.Spec.number]
    rw [this, List.filterMap_eq_map']
    exact List.Perm.refl _
  depth := by
    rw [List.filterMap_map, List.map_map]
    have : ((·.image?) ∘ depthLine) = fun c => some ((listPair c).2) := by
      funext c
      simp [depthLine, ImageLine.image?, listPair, Numeral.value, powerValue, TumText.Spec.number]
    rw [this, List.filterMap_eq_map']
    exact List.Perm.refl _
  valid := by
    intro p hp
    obtain ⟨c, -, rfl⟩ := List.mem_map.1 hp
    have h1 : 0 < number (ones c.2) := by
      rcases Nat.eq_zero_or_pos c.2 with h | h
      · rw [h]; decide
      · exact lt_of_lt_of_le (Nat.succ_pos _) (ones_lt h)
    have h2 : (0 : ℚ) < (number (ones c.2) : ℕ) := by exact_mod_cast h1
    refine ⟨?_, h2, (by decide +kernel : String.ofList ['d'] ≠ ""), by dsimp only [listPair]; linarith⟩
    intro h
    have := congrArg String.length h
    simp [listPair] at this
  paired := by
    refine ⟨?_, ?_⟩
    · intro p hp
      obtain ⟨c, -, rfl⟩ := List.mem_map.1 hp
      rw [abs_le]
      constructor <;> dsimp only [listPair] <;> linarith
    · rw [List.pairwise_map]
      have : colours.zipIdx.Pairwise fun a b => a.2 < b.2 := by
        have := List.pairwise_lt_range' (s := 0) (n := colours.length) (step := 1)
        rw [← List.zipIdx_map_snd 0 colours, List.pairwise_map] at this
        exact this
      refine this.imp fun {a b} hab => ?_
      have h1 : ((number (ones a.2) : ℕ) : ℚ) + 1 ≤ (number (ones b.2) : ℕ) := by exact_mod_cast ones_lt hab
      dsimp only [listPair]
      linarith

theorem list_inputs (all colours : List ℕ) : colours.map picture = (colours.zipIdx.map listPair).map fun p =>
    ⟨(listDirectory all).colour p.1.2, (listDirectory all).depth p.2.2, none⟩ := by
  conv_lhs => rw [← List.zipIdx_map_fst 0 colours]
  rw [List.map_map, List.map_map]
  refine List.map_congr_left fun c _ => ?_
  have hc : (String.ofList ('c' :: List.replicate c.1 'c')).length - 1 = c.1 := by simp [String.length_ofList, -String.ofList_cons]
  dsimp only [Function.comp, picture, listDirectory, listPair]
  rw [hc]

/-- The hypotheses are met, for any number of losses: the wall is in the file at its place, once more moved as the camera was pushed, and once more for each further loss. -/
example : ∃ h0 h1 h2, ∀ k, k < 2 ^ 32 → ∃ (report : TumRun.Report) (places : List M4) (poses : List Pose)
      (final : Slam.State (Outcome (World (Body Nat Unit))) PoseVar) (w : World (Body Nat Unit)),
    (∀ o, TumProgram.Runs (listDirectory ([0, 1, 2, 1, 2] ++ (darkAndDawnColours ++ (List.replicate k darkAndDawnColours).flatten))) (fun _ => 0)
      (lossProgram h0 h1 h2) (fun p => Slam.init ⟨p, 1⟩ (.ok World.init)) 0 (fun _ => .other) o ↔ o = .ok (some report)) ∧
    TumRun.Spec.Tracked (lossProgram h0 h1 h2).track 640 480 (Slam.init (wallPose 0) (.ok World.init))
      (([0, 1, 2, 1, 2] ++ (darkAndDawnColours ++ (List.replicate k darkAndDawnColours).flatten)).map picture) poses final ∧
    report.trajectory.map Spec.placeOf = [wallPlace 0, wallPlace 1, wallPlace 0, wallPlace 1, wallPlace 0] ++ (List.replicate 15 (wallPlace 0) ++ places) ∧
    final.localMap = .ok w ∧ (objVertices (exportedFile wholeFmt (fun _ => ([], 0)) w)).Perm (Spec.printed wholeFmt wallPoint 5 ++
      (Anew.Spec.displacements 1 (Anew.pushed :: List.replicate k 1)).flatMap fun E => Spec.printed wholeFmt (fun i => pointToWorld E (wallPoint i)) 5) := by
  obtain ⟨h0, h1, h2, e0, e1, e2, x1, x2, hv, hf⟩ := swing_frames
  refine ⟨h0, h1, h2, fun k hk => ?_⟩
  obtain ⟨hv1, hagain, ht⟩ := Anew.pushed_true e1 5
  obtain ⟨places, hrest⟩ := Anew.wall_losses e1 k (5 + 5)
  have hs : ∀ is, (⟨startPose (picture 0 :: is), 1⟩ : PoseVar) = wallPose 0 := by
    have : (0 : V3) = ![-((shiftOf 0 : ℚ) : ℝ), 0, 0] := by
      ext i; fin_cases i <;> simp [shiftOf]
    intro is
    simp only [startPose, picture, List.head?_cons, Pose.default, wallPose, ← this]
  have hp : ∀ is, Spec.place ⟨startPose (picture 0 :: is), 1⟩ = wallPlace 0 := fun is => by rw [hs]; rfl
  have hdd : Anew.darkAndDawn h1 = darkAndDawnColours.map (lossView h0 h1 h2) := by
    simp [Anew.darkAndDawn, darkAndDawnColours, lossView]
  have hframes : exactFrame h0 0 :: [exactFrame h1 1, exactFrame h2 0, exactFrame h1 1, exactFrame h2 0] ++
      (Anew.darkAndDawn h1 ++ (List.replicate k (Anew.darkAndDawn h1)).flatten) =
      ([0, 1, 2, 1, 2] ++ (darkAndDawnColours ++ (List.replicate k darkAndDawnColours).flatten)).map (lossView h0 h1 h2) := by
    rw [hdd]
    simp only [List.map_append, List.map_flatten, List.map_replicate]
    rfl
  have hlosses : Anew.Spec.Losses wallSight (examplePinv 3) 1000 1000 0 0 640 480 wallPoint (fun _ => 0) 5 1 (wallPlace 0) 5
      (Anew.darkAndDawn h1 ++ (List.replicate k (Anew.darkAndDawn h1)).flatten)
      (List.replicate (List.replicate 11 coveredFrame).length (1 * wallPlace 0) ++
        (wallPlace 1 :: [wallPlace 1, wallPlace 1, wallPlace 1]).map (1 * Anew.pushed * ·) ++ places) (Anew.pushed :: List.replicate k 1) :=
    Anew.Spec.Losses.again (E := 1) (T := wallPlace 0) (D := Anew.pushed) (Q := wallPlace 1) (dark := List.replicate 11 coveredFrame)
      (f := Anew.dawnFrame h1 0) (fs := [Anew.dawnFrame h1 0, Anew.dawnFrame h1 0, Anew.dawnFrame h1 0]) (places := places)
      (Ts := [wallPlace 1, wallPlace 1, wallPlace 1])
      (fun f hf => by
        rw [List.eq_of_mem_replicate hf]
        exact ⟨⟨Keypoints.create 640 480, rfl, fun _ _ _ => rfl⟩, fun _ => rfl⟩) (by simp) (by simp)
      Anew.pushed_rigid (Anew.wallPlace_rigid 1) Anew.pushed_place (fun _ _ _ => rfl) (fun _ => rfl) hv1
      (fun prev hp => by rw [Matrix.one_mul] at hp ⊢; exact hagain prev hp)
      (by rw [Matrix.one_mul]; exact .go ⟨h1, ht⟩ (.go ⟨h1, ht⟩ (.go ⟨h1, ht⟩ (.home _)))) (by simp)
      (by rw [Matrix.one_mul]; exact hrest)
  obtain ⟨report, poses, final, w, r1, rt, r2, r3, r4⟩ := C227_files wallSight wallSight examplePinv_spec (by norm_num) (by norm_num) wallOps
    (fun _ _ => rfl) (fun _ _ => false) (cols := 640) (rows := 480) (by norm_num) (by norm_num) (by norm_num) (by norm_num) (by decide)
    (n := 5) (by norm_num) (prog := lossProgram h0 h1 h2) (frameOf := fun images => lossView h0 h1 h2 (images.1.pixel 0 0).1) rfl
    Optimizer.PoseVector.C215_angles.1 (keys := fun _ => .other)
    (first := 0) (variance := 1) isCovariance_one
    (dir := listDirectory ([0, 1, 2, 1, 2] ++ (darkAndDawnColours ++ (List.replicate k darkAndDawnColours).flatten))) (fun _ => 0)
    rfl (rgb := ([0, 1, 2, 1, 2] ++ (darkAndDawnColours ++ (List.replicate k darkAndDawnColours).flatten)).zipIdx.map rgbLine) (depth := ([0, 1, 2, 1, 2] ++ (darkAndDawnColours ++ (List.replicate k darkAndDawnColours).flatten)).zipIdx.map depthLine)
    (fun l hl => by
      obtain ⟨c, -, rfl⟩ := List.mem_map.1 hl
      exact rgbLine_valid c) (fun l hl => by
      obtain ⟨c, -, rfl⟩ := List.mem_map.1 hl
      exact depthLine_valid c) (.inr rfl) rfl (.inr rfl) rfl (δ := 1 / 10) (by norm_num) (list_synchronised _) rfl
    (inputs := ([0, 1, 2, 1, 2] ++ (darkAndDawnColours ++ (List.replicate k darkAndDawnColours).flatten)).map picture)
    (list_inputs _ _) (all_treated rfl (fun _ => by decide)) (f := exactFrame h0 0) (fs := [exactFrame h1 1, exactFrame h2 0, exactFrame h1 1, exactFrame h2 0])
    (gs := Anew.darkAndDawn h1 ++ (List.replicate k (Anew.darkAndDawn h1)).flatten) (by
      rw [hframes, List.forall₂_map_left_iff, List.forall₂_map_right_iff]
      exact List.forall₂_same.2 fun c _ => ⟨_, prepare_picture c, rfl⟩) (h := h0) (fun _ _ _ => rfl)
    (by
      rw [List.cons_append, List.map_cons, hp]
      exact hv) (by
      rw [List.cons_append, List.map_cons, hs]
      exact hf)
    (Ts := [wallPlace 1, wallPlace 0, wallPlace 1, wallPlace 0]) (by
      rw [List.cons_append, List.map_cons, hp]
      intro T hT
      simp only [List.mem_cons, List.not_mem_nil, or_false] at hT
      rcases hT with rfl | rfl | rfl | rfl | rfl <;> exact Anew.wallPlace_rigid _) (by
      rw [List.cons_append, List.map_cons, hp]
      exact .go ⟨h1, x1 0⟩ (.go ⟨h2, x2 1⟩ (.go ⟨h1, x1 0⟩ (.go ⟨h2, x2 1⟩ (.home _)))))
    (by exact hlosses) (by rw [List.length_cons, List.length_replicate]; omega) (by simp) wholeFmt_oneWord (fun _ => ([], 0))
  refine ⟨report, places, poses, final, w, r1, ?_, ?_, r3, r4⟩
  · have := rt
    rw [List.cons_append, List.map_cons, hs] at this
    exact this
  · rw [r2 rfl]
    simp only [List.cons_append, List.map_cons, hp, Matrix.one_mul, ← Anew.pushed_place, List.length_replicate, List.map_nil, List.nil_append]
    rfl

end

end RgbdSlam.Map.Exact
