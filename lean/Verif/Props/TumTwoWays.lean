import Verif.Props.TumLists

/-! # C228: a dataset given by its lists or by their association -/

namespace RgbdSlam.TumProgram

open Geometry
open TumRun (Program Input Key Report shortRun)
open TumText TumText.Spec

/-- When a frame that is close to a ground truth has one of its own time, that is the one it gets. -/
theorem assign_exact {G : Type} : ∀ (frames : List (Tum.Frame G)) (truth : Tum.TimeMap G), Tum.SortedMap truth → (frames.Pairwise fun a b => a.rgb.1 ≠ b.rgb.1) →
    (∀ f ∈ frames, ∀ e ∈ truth, |f.rgb.1 - e.1| < 5 / 100 → ∃ e' ∈ truth, e'.1 = f.rgb.1) →
    Tum.assignGroundTruth frames truth =
      frames.map fun f => { f with groundTruth := (Tum.find? f.rgb.1 truth).map fun g => (f.rgb.1, g) }
  | [], _, _, _, _ => rfl
  | f :: fs, truth, hs, hd, hex => by
    have hc := Tum.closestTo_none (time := f.rgb.1) hs
    obtain ⟨hd1, hd2⟩ := List.pairwise_cons.1 hd
    rw [Tum.assignGroundTruth, List.map_cons]
    cases h : Tum.closestTo f.rgb.1 truth none false with
    | none =>
      rw [h] at hc
      have hn : Tum.find? f.rgb.1 truth = none := by
        by_contra hne
        obtain ⟨g, hg⟩ := Option.ne_none_iff_exists'.1 hne
        have := hc _ ((TumRun.find?_iff hs _ _).1 hg)
        rw [sub_self, abs_zero] at this
        norm_num at this
      dsimp only
      rw [hn, assign_exact fs truth hs hd2 fun f' hf' => hex f' (List.mem_cons_of_mem _ hf')]
      rfl
    | some r =>
      obtain ⟨s, t, g⟩ := r
      rw [h] at hc
      obtain ⟨hmem, hclose, hmin⟩ := hc
      obtain ⟨e', he', he1⟩ := hex f List.mem_cons_self _ hmem hclose
      have h0 := hmin e' he'
      rw [he1, sub_self, abs_zero] at h0
      obtain rfl : f.rgb.1 = t := sub_eq_zero.1 (abs_eq_zero.1 (le_antisymm h0 (abs_nonneg _)))
      have hf : Tum.find? f.rgb.1 truth = some g := (TumRun.find?_iff hs _ _).2 hmem
      dsimp only
      rw [hf, assign_exact fs (Tum.erase f.rgb.1 truth) (hs.erase _) hd2 fun f' hf' e he hlt => by
        obtain ⟨e', h1, h2⟩ := hex f' (List.mem_cons_of_mem _ hf') e (Tum.mem_erase.1 he).1 hlt
        exact ⟨e', Tum.mem_erase.2 ⟨h1, by rw [h2]; exact (hd1 f' hf').symm⟩, h2⟩]
      congr 1
      refine List.map_congr_left fun f' hf' => ?_
      have : Tum.find? f'.rgb.1 (Tum.erase f.rgb.1 truth) = Tum.find? f'.rgb.1 truth := by
        refine Option.ext fun v => ?_
        rw [TumRun.find?_iff (hs.erase _), TumRun.find?_iff hs, Tum.mem_erase]
        exact ⟨And.left, fun h => ⟨h, (hd1 f' hf').symm⟩⟩
      rw [this]

/-- C228 (partial: when a frame that is closer than 5 hundredths of a second to a pose of the ground truth has one of its very time, see `C228_same_run_false`).  A directory has the
lists of a synchronised camera and no association file; another has the same images and ground truth, and an association file with the two images of each frame, by increasing time.
The program has the same outcomes on both.  In particular, there may be no ground truth. -/
theorem C228_same_run_partial {S : Type} (lists file : Directory) (unread unread' : ℕ → ℝ) (hcolour : file.colour = lists.colour) (himages : file.depth = lists.depth)
    (hlists : lists.file "associations.txt" = none) {rgb depth : List ImageLine} (hrgb : ∀ l ∈ rgb, l.Valid) (hdepth : ∀ l ∈ depth, l.Valid)
    {rgbText depthText : List Char} (hr : Written (rgb.map (·.text)) rgbText) (hrfile : lists.file "rgb.txt" = some rgbText)
    (hd : Written (depth.map (·.text)) depthText) (hdfile : lists.file "depth.txt" = some depthText)
    {δ : ℚ} (hδ : δ < 15 / 100) {pairs : List ((ℚ × String) × (ℚ × String))}
    (hsync : Tum.Spec.Synchronised δ pairs (rgb.filterMap (·.image?)) (depth.filterMap (·.image?)))
    {lines : List PairLine} (hlines : ∀ l ∈ lines, l.Valid) {text : List Char} (htext : Written (lines.map (·.text)) text)
    (hfile : file.file "associations.txt" = some text) (hpairs : lines.filterMap (·.pair?) = pairs.map Prod.swap)
    -- the ground truth, if there is one
    (hsame : file.file "groundtruth.txt" = lists.file "groundtruth.txt") {truth : List TruthLine} (htruth : ∀ l ∈ truth, l.Valid)
    (ht : Written (truth.map (·.text)) ((lists.file "groundtruth.txt").getD []))
    (hexact : ∀ p ∈ pairs, ∀ e ∈ truth.filterMap (·.pose?), |p.1.1 - e.1| < 5 / 100 → ∃ e' ∈ truth.filterMap (·.pose?), e'.1 = p.1.1)
    (prog : Program S) (create : Pose → S) (start : ℕ) (keys : ℕ → Key) (o : Outcome (Option Report)) :
    Runs lists unread prog create start keys o ↔ Runs file unread' prog create start keys o := by
  obtain ⟨hs, hm⟩ := C212_truth_partial truth htruth _ ht
  set poses := parseTruth ((lists.file "groundtruth.txt").getD []) with hposes
  have hpose : ∀ e ∈ poses, ∀ u u' : ℕ → ℝ, poseOf u e.2 = poseOf u' e.2 := by
    intro e he u u'
    obtain ⟨pre, post, hl, -⟩ := (hm e).1 he
    obtain ⟨l, hl1, hl2⟩ := List.mem_filterMap.1 (show e ∈ truth.filterMap (·.pose?) by rw [hl]; simp)
    exact isPose_inj (pose?_shape (htruth l hl1) hl2 u) (pose?_shape (htruth l hl1) hl2 u')
  -- the first pose written for a time
  have hfirst : ∀ {t : ℚ}, (∃ e' ∈ truth.filterMap (·.pose?), e'.1 = t) → ∃ e' ∈ poses, e'.1 = t := by
    rintro t ⟨e', h1, h2⟩
    generalize truth.filterMap (·.pose?) = l at hm h1
    clear hexact
    obtain ⟨e, he, he'⟩ : ∃ e, Tum.Spec.FirstAt (fun _ => True) l e ∧ e.1 = t := by
      clear hm
      induction l with
      | nil => cases h1
      | cons x l ih =>
        by_cases hx : x.1 = t
        · exact ⟨x, ⟨[], l, rfl, trivial, by simp⟩, hx⟩
        · rcases List.mem_cons.1 h1 with rfl | h1
          · exact absurd h2 hx
          · obtain ⟨e, ⟨pre, post, rfl, -, hpre⟩, he⟩ := ih h1
            refine ⟨e, ⟨x :: pre, post, rfl, trivial, fun y hy _ => ?_⟩, he⟩
            rcases List.mem_cons.1 hy with rfl | hy
            · rw [he]; exact hx
            · exact hpre y hy trivial
    exact ⟨e, (hm e).2 he, he'⟩
  have hmem : ∀ e ∈ poses, e ∈ truth.filterMap (·.pose?) := by
    intro e he
    obtain ⟨pre, post, hl, -⟩ := (hm e).1 he
    rw [hl]; simp
  -- the elements of both
  let element : (ℚ × String) × (ℚ × String) → Input := fun p =>
    ⟨lists.colour p.1.2, lists.depth p.2.2, (Tum.find? p.1.1 poses).map (poseOf unread)⟩
  have run₁ : ∀ o, Runs lists unread prog create start keys o → o = TumRun.run prog create start keys (pairs.map element) := by
    rintro _ ⟨ho⟩
    obtain ⟨out, rfl, hout, ha⟩ := Map.Exact.lists_frames lists hlists hrgb hdepth hr hrfile hd hdfile hδ hsync ho
    obtain ⟨order, sorted, -, -, rfl⟩ := Tum.result_spec ha
    have hsorted := (Tum.assignGroundTruth_spec sorted poses hs).1
    have hout' : sorted.map (fun f => (f.rgb, f.depth)) = pairs.map fun p => (p.1, some p.2) := hsorted.symm.trans hout
    have hf : List.Forall₂ (fun (f : Tum.Frame (List (Option ℚ))) (p : (ℚ × String) × (ℚ × String)) => (f.rgb, f.depth) = (p.1, some p.2)) sorted pairs := by
      rw [← List.forall₂_eq_eq_eq, List.forall₂_map_left_iff, List.forall₂_map_right_iff] at hout'
      exact hout'
    have hapart : sorted.Pairwise fun a b => a.rgb.1 ≠ b.rgb.1 := by
      have h1 : (pairs.map fun p => (p.1, some p.2)).Pairwise fun a b => a.1.1 ≠ b.1.1 := by
        rw [List.pairwise_map]
        refine hsync.paired.apart.imp_of_mem fun {p q} hp _ h => ?_
        have := (abs_nonneg _).trans (hsync.paired.close p hp)
        intro he
        dsimp only at he
        linarith
      rw [← hout', List.pairwise_map] at h1
      exact h1
    have hex : ∀ f ∈ sorted, ∀ e ∈ poses, |f.rgb.1 - e.1| < 5 / 100 → ∃ e' ∈ poses, e'.1 = f.rgb.1 := by
      intro f hf' e he hlt
      have h1 : (f.rgb, f.depth) ∈ pairs.map fun p => (p.1, some p.2) := by
        rw [← hout']
        exact List.mem_map_of_mem hf'
      obtain ⟨p, hp, hpe⟩ := List.mem_map.1 h1
      obtain ⟨e1, -⟩ := Prod.mk.inj hpe
      rw [← e1] at hlt ⊢
      exact hfirst (hexact p hp e (hmem e he) hlt)
    show TumRun.run prog create start keys ((Tum.assignGroundTruth sorted poses).map (input lists unread)) = _
    rw [assign_exact sorted poses hs hapart hex, List.map_map]
    congr 1
    rw [← List.forall₂_eq_eq_eq, List.forall₂_map_left_iff, List.forall₂_map_right_iff]
    refine hf.imp fun f p h => ?_
    obtain ⟨e1, e2⟩ := Prod.mk.inj h
    dsimp only [Function.comp, input, element]
    rw [e1, e2, Option.map_map]
    rfl
  have run₂ : ∀ o, Runs file unread' prog create start keys o → o = TumRun.run prog create start keys (pairs.map element) := by
    rintro _ ⟨ho⟩
    cases ho with
    | fromLists h0 =>
      rw [hfile] at h0
      cases h0
    | fromFile h0 =>
      obtain rfl := Option.some.inj (h0.symm.trans hfile)
      have ht : parseTruth (file.text "groundtruth.txt") = poses := by rw [Directory.text, hsame]
      rw [ht, C211_associations poses lines hlines _ htext, hpairs]
      show TumRun.run _ _ _ _ _ = _
      congr 1
      rw [List.map_map, List.map_map]
      refine List.map_congr_left fun p _ => ?_
      dsimp only [Function.comp, input, element, Prod.swap]
      rw [hcolour, himages, Option.map_map]
      congr 1
      cases hfnd : Tum.find? p.1.1 poses with
      | none => rfl
      | some g => exact congrArg some (hpose _ ((TumRun.find?_iff hs _ _).1 hfnd) _ _)
  have h₁ : Runs lists unread prog create start keys (TumRun.run prog create start keys (pairs.map element)) := by
    obtain ⟨o, ho⟩ := (Map.Exact.C227_lists lists unread hlists hrgb hdepth hr hrfile hd hdfile hδ hsync prog create start keys).1
    rwa [run₁ o ho] at ho
  constructor
  · intro h
    rw [run₁ o h]
    have := Runs.run (unread := unread') (prog := prog) (create := create) (start := start) (keys := keys) (Associated.fromFile hfile)
    rwa [run₂ _ this] at this
  · intro h
    rw [run₂ o h]
    exact h₁

/-! ## Two directories -/

/-- The two lines of a frame of `listDirectory` in one. -/
def bothLine (c : ℕ × ℕ) : PairLine :=
  .pair [] ⟨none, Map.Exact.ones c.2, some [1], none⟩ [' '] ['d'] [' '] ⟨none, Map.Exact.ones c.2, none, none⟩ [' '] ('c' :: List.replicate c.1 'c') []

/-- A pose of the ground truth for the time of a colour image. -/
def truthLine (c : ℕ × ℕ) : TruthLine := .pose [] ⟨none, Map.Exact.ones c.2, none, none⟩ (List.replicate 7 ([' '], ⟨none, [1], none, none⟩)) []

/-- The lists of `listDirectory`, with a ground truth. -/
def listTruth (colours : List ℕ) : Directory :=
  { Map.Exact.listDirectory colours with
    file := fun name =>
      if name = "groundtruth.txt" then some ((colours.zipIdx.map truthLine).map (·.text) |>.flatMap (· ++ ['\n']))
      else (Map.Exact.listDirectory colours).file name }

/-- The same images and ground truth with an association file. -/
def fileTruth (colours : List ℕ) : Directory :=
  { Map.Exact.listDirectory colours with
    file := fun name =>
      if name = "groundtruth.txt" then some ((colours.zipIdx.map truthLine).map (·.text) |>.flatMap (· ++ ['\n']))
      else if name = "associations.txt" then some ((colours.zipIdx.map bothLine).map (·.text) |>.flatMap (· ++ ['\n'])) else none }

theorem truthLine_valid (c : ℕ × ℕ) : (truthLine c).Valid := by
  refine ⟨by simp, ⟨by simp [Map.Exact.ones], by simp⟩, by simp, fun n hn => ?_, by simp⟩
  obtain rfl := List.eq_of_mem_replicate hn
  refine ⟨⟨by simp, ?_⟩, by simp, by simp⟩
  unfold Separator; decide

theorem bothLine_valid (c : ℕ × ℕ) : (bothLine c).Valid := by
  refine ⟨by simp, ⟨by simp [Map.Exact.ones], by simp⟩, ⟨by simp, ?_⟩, ⟨by simp, ?_⟩, ⟨by simp, ?_⟩, ⟨by simp [Map.Exact.ones], by simp⟩,
    ⟨by simp, ?_⟩, ⟨by simp, ?_⟩, by simp⟩
  · unfold Separator; decide
  · unfold Separator; decide
  · unfold Separator; decide
  · unfold Separator; decide
  · intro a ha
    obtain rfl : a = 'c' := by
      rcases List.mem_cons.1 ha with rfl | ha
      · rfl
      · exact List.eq_of_mem_replicate ha
    unfold Separator; decide

/-- Non-vacuity of `C228_same_run_partial`: these two directories, with any number of images, all with a ground truth. -/
example (colours : List ℕ) {S : Type} (prog : Program S) (create : Pose → S) (start : ℕ) (keys : ℕ → Key) (o : Outcome (Option Report)) :
    Runs (listTruth colours) (fun _ => 0) prog create start keys o ↔ Runs (fileTruth colours) (fun _ => 1) prog create start keys o :=
  C228_same_run_partial (listTruth colours) (fileTruth colours) (fun _ => 0) (fun _ => 1) rfl rfl rfl
    (rgb := colours.zipIdx.map Map.Exact.rgbLine) (depth := colours.zipIdx.map Map.Exact.depthLine)
    (fun l hl => by
      obtain ⟨c, -, rfl⟩ := List.mem_map.1 hl
      exact Map.Exact.rgbLine_valid c)
    (fun l hl => by
      obtain ⟨c, -, rfl⟩ := List.mem_map.1 hl
      exact Map.Exact.depthLine_valid c) (.inr rfl) rfl (.inr rfl) rfl (δ := 1 / 10) (by norm_num) (Map.Exact.list_synchronised colours)
    (lines := colours.zipIdx.map bothLine)
    (fun l hl => by
      obtain ⟨c, -, rfl⟩ := List.mem_map.1 hl
      exact bothLine_valid c) (.inr rfl) rfl (by
      rw [List.filterMap_map, List.map_map]
      have : ((·.pair?) ∘ bothLine) = fun c => some ((Map.Exact.listPair c).swap) := by
        funext c
        simp [bothLine, PairLine.pair?, Map.Exact.listPair, Numeral.value, powerValue, TumText.Spec.number]
      rw [this, List.filterMap_eq_map']
      rfl) rfl (truth := colours.zipIdx.map truthLine)
    (fun l hl => by
      obtain ⟨c, -, rfl⟩ := List.mem_map.1 hl
      exact truthLine_valid c) (.inr rfl) (fun p hp _ _ _ => by
      obtain ⟨c, hc, rfl⟩ := List.mem_map.1 hp
      refine ⟨_, List.mem_filterMap.2 ⟨_, List.mem_map_of_mem hc, rfl⟩, ?_⟩
      simp [Map.Exact.listPair, Numeral.value, powerValue, TumText.Spec.number]) prog create start keys o

/-- An image, and a ground truth a hundredth of a second later. -/
def nearLists : Directory where
  file := fun name =>
    if name = "rgb.txt" then some "1 c\n".toList
    else if name = "depth.txt" then some "1 d\n".toList
    else if name = "groundtruth.txt" then some "1.01 1 2 3 0 0 0 1\n".toList
    else none
  colour := fun _ => none
  depth := fun _ => none

/-- The same with an association file. -/
def nearFile : Directory where
  file := fun name =>
    if name = "associations.txt" then some "1 d 1 c\n".toList
    else if name = "groundtruth.txt" then some "1.01 1 2 3 0 0 0 1\n".toList
    else none
  colour := fun _ => none
  depth := fun _ => none

deriving instance DecidableEq for Tum.Frame

/-- C228 is false of the code with a ground truth: from the lists an image has the closest pose, from an association file only one written for the very same time.  On these two
directories, the program shows an error to the ground truth for the lists and none for the file. -/
theorem C228_same_run_false (unread : ℕ → ℝ) :
    ((∃ o, Runs nearLists unread shortRun (fun _ => 0) 0 (fun _ => .other) o) ∧
      ∀ o, Runs nearLists unread shortRun (fun _ => 0) 0 (fun _ => .other) o → ∃ report, o = .ok (some report) ∧ report.error.isSome = true) ∧
    (∃ o, Runs nearFile unread shortRun (fun _ => 0) 0 (fun _ => .other) o) ∧
      ∀ o, Runs nearFile unread shortRun (fun _ => 0) 0 (fun _ => .other) o → ∃ report, o = .ok (some report) ∧ report.error = none := by
  have e1 : parseImages (nearLists.text "rgb.txt") = [(1, "c")] := by decide +kernel
  have e2 : parseImages (nearLists.text "depth.txt") = [(1, "d")] := by decide +kernel
  have e3 : parseTruth (nearLists.text "groundtruth.txt") = [(101 / 100, [some 1, some 2, some 3, some 0, some 0, some 0, some 1])] := by decide +kernel
  have e4 : nearLists.file "associations.txt" = none := by decide +kernel
  have f1 : nearFile.file "associations.txt" = some "1 d 1 c\n".toList := by decide +kernel
  have f2 : parseAssociationFile (parseTruth (nearFile.text "groundtruth.txt")) "1 d 1 c\n".toList = .ok [⟨(1, "c"), some (1, "d"), none⟩] := by
    rw [C211_associations _ [.pair [] ⟨none, [1], none, none⟩ [' '] ['d'] [' '] ⟨none, [1], none, none⟩ [' '] ['c'] []] ?_ _ (.inr (by decide +kernel))]
    · have hf : Tum.find? 1 (parseTruth (nearFile.text "groundtruth.txt")) = none := by decide +kernel
      have h1 : Numeral.value ⟨none, [1], none, none⟩ = 1 := by decide +kernel
      simp only [List.filterMap_cons, PairLine.pair?, List.filterMap_nil, List.map_cons, List.map_nil, h1, hf]
      rfl
    · intro l hl
      obtain rfl := List.mem_singleton.1 hl
      refine ⟨by simp, ⟨by simp, by simp⟩, ⟨by simp, ?_⟩, ⟨by simp, ?_⟩, ⟨by simp, ?_⟩, ⟨by simp, by simp⟩,
        ⟨by simp, ?_⟩, ⟨by simp, ?_⟩, by simp⟩ <;> unfold Separator <;> decide
  refine ⟨⟨?_, ?_⟩, ⟨_, .run (.fromFile f1)⟩, ?_⟩
  · obtain ⟨o, ho⟩ := (Tum.C51_total (G := List (Option ℚ)) _ _ _).1
    exact ⟨_, .run (.fromLists e4 ho)⟩
  · rintro _ ⟨h⟩
    cases h with
    | fromFile h =>
      rw [e4] at h
      cases h
    | fromLists _ h =>
      rw [e1, e2, e3] at h
      obtain ⟨h1, h2⟩ := h
      cases h1 with
      | sorted _ hp _ =>
        have c1 : Tum.candidates 0 (15 / 100) [((1 : ℚ), "c")] [((1 : ℚ), "d")] = [⟨0, 1, 1⟩] := by decide +kernel
        rw [c1, List.perm_singleton] at hp
        subst hp
        have c2 : (Tum.associateAll (G := List (Option ℚ)) [⟨0, 1, 1⟩] [((1 : ℚ), "c")] [((1 : ℚ), "d")]).1 ++
            Tum.withoutDepth (Tum.associateAll (G := List (Option ℚ)) [⟨0, 1, 1⟩] [((1 : ℚ), "c")] [((1 : ℚ), "d")]).2.1 = [⟨(1, "c"), some (1, "d"), none⟩] := by
          decide +kernel
        rw [c2] at h2
        cases h2 with
        | invalid hw =>
          refine absurd ?_ hw
          constructor <;> simp [Tum.before]
        | sorted _ hp _ =>
          rw [List.perm_singleton] at hp
          subst hp
          have c3 : Tum.assignGroundTruth [⟨((1 : ℚ), "c"), some (1, "d"), none⟩] [(101 / 100, [some 1, some 2, some 3, some 0, some 0, some 0, some (1 : ℚ)])] =
              [⟨(1, "c"), some (1, "d"), some (101 / 100, [some 1, some 2, some 3, some 0, some 0, some 0, some 1])⟩] := by decide +kernel
          rw [Outcome.map, Outcome.bind_ok, Outcome.bind_ok, c3]
          exact ⟨_, rfl, rfl⟩
  · rintro _ ⟨h⟩
    cases h with
    | fromLists h =>
      rw [f1] at h
      cases h
    | fromFile h =>
      obtain rfl := Option.some.inj (h.symm.trans f1)
      rw [f2]
      exact ⟨_, rfl, rfl⟩

end RgbdSlam.TumProgram
