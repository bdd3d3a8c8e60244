import Verif.Props.TumTwoWays

/-! # C229: the run of a dataset depends on its images only -/

namespace RgbdSlam.TumProgram

open Geometry
open TumRun (Program Input Key Report)
open TumText TumText.Spec

/-- The assignment of the ground truth replaces what the frames had. -/
theorem assign_congr {G : Type} : ∀ (a b : List (Tum.Frame G)) (truth : Tum.TimeMap G),
    a.map (fun f => (f.rgb, f.depth)) = b.map (fun f => (f.rgb, f.depth)) → Tum.assignGroundTruth a truth = Tum.assignGroundTruth b truth
  | [], [], _, _ => rfl
  | [], _ :: _, _, h => by simp at h
  | _ :: _, [], _, h => by simp at h
  | ⟨r, d, g⟩ :: a, ⟨r', d', g'⟩ :: b, truth, h => by
    simp only [List.map_cons, List.cons.injEq, Prod.mk.injEq] at h
    obtain ⟨⟨rfl, rfl⟩, h⟩ := h
    rw [Tum.assignGroundTruth, Tum.assignGroundTruth]
    dsimp only
    split
    · rw [assign_congr a b _ h]
    · rw [assign_congr a b _ h]

/-- A directory without association file has the lists of these frames, in some layout and order. -/
structure Spec.HasLists (dir : Directory) (δ : ℚ) (pairs : List ((ℚ × String) × (ℚ × String))) : Prop where
  noFile : dir.file "associations.txt" = none
  lists : ∃ rgb depth : List ImageLine, (∀ l ∈ rgb, l.Valid) ∧ (∀ l ∈ depth, l.Valid) ∧
    (∃ text, Written (rgb.map (·.text)) text ∧ dir.file "rgb.txt" = some text) ∧
    (∃ text, Written (depth.map (·.text)) text ∧ dir.file "depth.txt" = some text) ∧
    Tum.Spec.Synchronised δ pairs (rgb.filterMap (·.image?)) (depth.filterMap (·.image?))

/-- C229.  Two directories have the same images and the same ground truth file, and lists of the same frames of a synchronised camera, in any layout and order.  The program has one
outcome on the first, and this is its outcome on the second. -/
theorem C229_same_result {S : Type} (d₁ d₂ : Directory) (unread : ℕ → ℝ) (hcolour : d₁.colour = d₂.colour) (hdepth : d₁.depth = d₂.depth)
    (htruth : d₁.file "groundtruth.txt" = d₂.file "groundtruth.txt") {δ₁ δ₂ : ℚ} (h₁ : δ₁ < 15 / 100) (h₂ : δ₂ < 15 / 100)
    {pairs : List ((ℚ × String) × (ℚ × String))} (hl₁ : Spec.HasLists d₁ δ₁ pairs) (hl₂ : Spec.HasLists d₂ δ₂ pairs)
    (prog : Program S) (create : Pose → S) (start : ℕ) (keys : ℕ → Key) :
    ∃ o, (∀ o', Runs d₁ unread prog create start keys o' ↔ o' = o) ∧ ∀ o', Runs d₂ unread prog create start keys o' ↔ o' = o := by
  have one : ∀ {d : Directory} {δ : ℚ}, δ < 15 / 100 → Spec.HasLists d δ pairs →
      (∃ o, Runs d unread prog create start keys o) ∧ ∀ o, Runs d unread prog create start keys o → o = TumRun.run prog create start keys
        ((Tum.assignGroundTruth (pairs.map fun p => ⟨p.1, some p.2, none⟩) (parseTruth (d.text "groundtruth.txt"))).map (input d unread)) := by
    intro d δ hδ hl
    obtain ⟨hno, rgb, depth, v1, v2, ⟨t1, w1, f1⟩, ⟨t2, w2, f2⟩, hsync⟩ := hl
    refine ⟨(Map.Exact.C227_lists d unread hno v1 v2 w1 f1 w2 f2 hδ hsync prog create start keys).1, ?_⟩
    rintro _ ⟨ho⟩
    obtain ⟨out, rfl, hout, ha⟩ := Map.Exact.lists_frames d hno v1 v2 w1 f1 w2 f2 hδ hsync ho
    obtain ⟨order, sorted, -, -, rfl⟩ := Tum.result_spec ha
    have hs : Tum.SortedMap (parseTruth (d.text "groundtruth.txt")) := (Tum.C51_parse_truth _).1
    have hsorted := (Tum.assignGroundTruth_spec sorted _ hs).1
    show TumRun.run _ _ _ _ _ = _
    rw [assign_congr sorted (pairs.map fun p => ⟨p.1, some p.2, none⟩) _ (by
      rw [hsorted.symm.trans hout, List.map_map]
      rfl)]
  have e : input d₁ unread = input d₂ unread := by
    funext f
    unfold input
    rw [hcolour, hdepth]
  have et : d₁.text "groundtruth.txt" = d₂.text "groundtruth.txt" := by rw [Directory.text, Directory.text, htruth]
  obtain ⟨⟨o₁, r₁⟩, a₁⟩ := one h₁ hl₁
  obtain ⟨⟨o₂, r₂⟩, a₂⟩ := one h₂ hl₂
  rw [e, et] at a₁
  refine ⟨_, fun o' => ⟨a₁ o', ?_⟩, fun o' => ⟨a₂ o', ?_⟩⟩
  · rintro rfl
    rwa [a₁ _ r₁] at r₁
  · rintro rfl
    rwa [a₂ _ r₂] at r₂

/-! ## Two orders -/

/-- `listTruth` with both lists reversed. -/
def reversedLists (colours : List ℕ) : Directory :=
  { Map.Exact.listDirectory colours with
    file := fun name =>
      if name = "groundtruth.txt" then (listTruth colours).file name
      else if name = "rgb.txt" then some ((colours.zipIdx.map Map.Exact.rgbLine).reverse.map (·.text) |>.flatMap (· ++ ['\n']))
      else if name = "depth.txt" then some ((colours.zipIdx.map Map.Exact.depthLine).reverse.map (·.text) |>.flatMap (· ++ ['\n']))
      else none }

/-- Non-vacuity of `C229_same_result`: the lists in order and reversed, with any number of images, all with a ground truth. -/
example (colours : List ℕ) {S : Type} (prog : Program S) (create : Pose → S) (start : ℕ) (keys : ℕ → Key) :
    ∃ o, (∀ o', Runs (listTruth colours) (fun _ => 0) prog create start keys o' ↔ o' = o) ∧
      ∀ o', Runs (reversedLists colours) (fun _ => 0) prog create start keys o' ↔ o' = o := by
  have v1 : ∀ l ∈ colours.zipIdx.map Map.Exact.rgbLine, l.Valid := fun l hl => by
    obtain ⟨c, -, rfl⟩ := List.mem_map.1 hl
    exact Map.Exact.rgbLine_valid c
  have v2 : ∀ l ∈ colours.zipIdx.map Map.Exact.depthLine, l.Valid := fun l hl => by
    obtain ⟨c, -, rfl⟩ := List.mem_map.1 hl
    exact Map.Exact.depthLine_valid c
  have hs := Map.Exact.list_synchronised colours
  refine C229_same_result (listTruth colours) (reversedLists colours) (fun _ => 0) rfl rfl rfl (δ₁ := 1 / 10) (δ₂ := 1 / 10) (by norm_num) (by norm_num)
    ⟨rfl, _, _, v1, v2, ⟨_, .inr rfl, rfl⟩, ⟨_, .inr rfl, rfl⟩, hs⟩
    ⟨rfl, _, _, fun l hl => v1 l (List.mem_reverse.1 hl), fun l hl => v2 l (List.mem_reverse.1 hl), ⟨_, .inr rfl, rfl⟩, ⟨_, .inr rfl, rfl⟩, ⟨?_, ?_, hs.valid, hs.paired⟩⟩
    prog create start keys
  · rw [List.filterMap_reverse]
    exact (List.reverse_perm _).trans hs.rgb
  · rw [List.filterMap_reverse]
    exact (List.reverse_perm _).trans hs.depth

/-! ## A camera that is not synchronised -/

/-- A depth image halfway between two colour images. -/
def halfway : Directory where
  file := fun name =>
    if name = "rgb.txt" then some "1 a\n1.1 b\n".toList
    else if name = "depth.txt" then some "1.05 d\n".toList
    else none
  colour := fun _ => none
  depth := fun path => if path = "d" then some ⟨1, 2, fun _ _ => 5⟩ else none

/-- A tracker whose pose shows a depth of the image. -/
noncomputable def depthRun : Program Unit :=
  { jump := 0, save := true, width := 2, height := 1
    track := fun s images => .ok (s, ⟨![(images.2.pixel 0 0 : ℚ), 0, 0], ⟨1, 0, 0, 0⟩⟩), xyz := fun _ => 0 }

theorem depthRun_two (x y : Option (TumRun.Image ℚ)) (hx : x = none ∨ x = some ⟨1, 2, fun _ _ => 5⟩) (hy : y = none ∨ y = some ⟨1, 2, fun _ _ => 5⟩) :
    ∃ r, TumRun.run depthRun (fun _ => ()) 0 (fun _ => .other) [⟨none, x, none⟩, ⟨none, y, none⟩] = .ok (some r) ∧
      r.trajectory.map (fun l => l.position 0) = [if x = none then 0 else 1, if y = none then 0 else 1] := by
  rcases hx with rfl | rfl <;> rcases hy with rfl | rfl <;> refine ⟨_, rfl, ?_⟩ <;>
    simp [depthRun, TumRun.record, TumRun.lineOf]

/-- C229 is false of a camera that is not synchronised: the depth image goes to either colour image, depending on what the sort does with equal scores. -/
theorem C229_unsynchronised_false (unread : ℕ → ℝ) : ∃ r₁ r₂,
    Runs halfway unread depthRun (fun _ => ()) 0 (fun _ => .other) (.ok (some r₁)) ∧
    Runs halfway unread depthRun (fun _ => ()) 0 (fun _ => .other) (.ok (some r₂)) ∧
    r₁.trajectory.map (fun l => l.position 0) = [1, 0] ∧ r₂.trajectory.map (fun l => l.position 0) = [0, 1] := by
  have e1 : parseImages (halfway.text "rgb.txt") = [(1, "a"), (11 / 10, "b")] := by decide +kernel
  have e2 : parseImages (halfway.text "depth.txt") = [(105 / 100, "d")] := by decide +kernel
  have e3 : parseTruth (halfway.text "groundtruth.txt") = [] := rfl
  have e4 : halfway.file "associations.txt" = none := by decide +kernel
  have c1 : Tum.candidates 0 (15 / 100) [((1 : ℚ), "a"), (11 / 10, "b")] [((105 / 100 : ℚ), "d")] = [⟨5 / 100, 1, 105 / 100⟩, ⟨5 / 100, 11 / 10, 105 / 100⟩] := by decide +kernel
  have hw : Tum.StrictWeakOn (fun a b : Tum.Candidate => a.score < b.score) [⟨5 / 100, 1, 105 / 100⟩, ⟨5 / 100, 11 / 10, 105 / 100⟩] := by
    constructor <;> simp
  have assoc : ∀ {order : List Tum.Candidate} {u out : List (Tum.Frame (List (Option ℚ)))}, order.Perm [⟨5 / 100, 1, 105 / 100⟩, ⟨5 / 100, 11 / 10, 105 / 100⟩] →
      (order.Pairwise fun a b => ¬ b.score < a.score) →
      ((Tum.associateAll order [((1 : ℚ), "a"), (11 / 10, "b")] [((105 / 100 : ℚ), "d")]).1 ++
        Tum.withoutDepth (Tum.associateAll (G := List (Option ℚ)) order [((1 : ℚ), "a"), (11 / 10, "b")] [((105 / 100 : ℚ), "d")]).2.1) = u →
      Tum.StrictWeakOn Tum.before u → out.Perm u → (out.Pairwise fun a b => ¬ Tum.before b a) →
      Associated halfway (.ok (Tum.assignGroundTruth out [])) := by
    intro order u out h1 h2 h3 h4 h5 h6
    refine .fromLists e4 ?_
    rw [e1, e2, e3]
    refine .run (sorted := .ok out) (.sorted (by rw [c1]; exact hw) (by rw [c1]; exact h1) h2) ?_
    rw [h3]
    exact .sorted h4 h5 h6
  have a1 := assoc (order := [⟨5 / 100, 1, 105 / 100⟩, ⟨5 / 100, 11 / 10, 105 / 100⟩]) (u := [⟨(1, "a"), some (105 / 100, "d"), none⟩, ⟨(11 / 10, "b"), none, none⟩])
    (out := [⟨(1, "a"), some (105 / 100, "d"), none⟩, ⟨(11 / 10, "b"), none, none⟩]) (List.Perm.refl _) (by simp) (by decide +kernel)
    (by constructor <;> simp [Tum.before] <;> norm_num) (List.Perm.refl _) (by simp [Tum.before]; norm_num)
  have a2 := assoc (order := [⟨5 / 100, 11 / 10, 105 / 100⟩, ⟨5 / 100, 1, 105 / 100⟩]) (u := [⟨(11 / 10, "b"), some (105 / 100, "d"), none⟩, ⟨(1, "a"), none, none⟩])
    (out := [⟨(1, "a"), none, none⟩, ⟨(11 / 10, "b"), some (105 / 100, "d"), none⟩]) (List.Perm.swap _ _ _) (by simp) (by decide +kernel)
    (by constructor <;> simp [Tum.before] <;> norm_num) (List.Perm.swap _ _ _) (by simp [Tum.before]; norm_num)
  have i1 : (Tum.assignGroundTruth [⟨((1 : ℚ), "a"), some (105 / 100, "d"), none⟩, ⟨(11 / 10, "b"), none, none⟩] []).map (input halfway unread) =
      [⟨none, some ⟨1, 2, fun _ _ => 5⟩, none⟩, ⟨none, none, none⟩] := rfl
  have i2 : (Tum.assignGroundTruth [⟨((1 : ℚ), "a"), none, none⟩, ⟨(11 / 10, "b"), some (105 / 100, "d"), none⟩] []).map (input halfway unread) =
      [⟨none, none, none⟩, ⟨none, some ⟨1, 2, fun _ _ => 5⟩, none⟩] := rfl
  have b1 := Runs.run (unread := unread) (prog := depthRun) (create := fun _ => ()) (start := 0) (keys := fun _ => .other) a1
  have b2 := Runs.run (unread := unread) (prog := depthRun) (create := fun _ => ()) (start := 0) (keys := fun _ => .other) a2
  rw [Outcome.bind_ok, i1] at b1
  rw [Outcome.bind_ok, i2] at b2
  obtain ⟨r₁, h1, t1⟩ := depthRun_two (some ⟨1, 2, fun _ _ => 5⟩) none (.inr rfl) (.inl rfl)
  obtain ⟨r₂, h2, t2⟩ := depthRun_two none (some ⟨1, 2, fun _ _ => 5⟩) (.inl rfl) (.inr rfl)
  rw [h1] at b1
  rw [h2] at b2
  exact ⟨r₁, r₂, b1, b2, by simpa using t1, by simpa using t2⟩

end RgbdSlam.TumProgram
