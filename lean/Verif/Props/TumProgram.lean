import Verif.Model.TumProgram
import Verif.Props.TumText
/-
C213: the program of examples/main_TUM.cpp, from the text of the files of a dataset to its report.
-/
namespace RgbdSlam.TumProgram

open Geometry TumText TumText.Spec
open TumRun (Input Key Program Report startPose)
open TumRun.Spec (kept UntilQuit Tracked)
open Tum.Spec (FirstAt)

namespace Spec

/-- The pose of a complete line of the ground truth: position, then x, y, z and w of the quaternion. -/
def IsPose (numbers : List (Option ℚ)) (g : V3 × Quat) : Prop :=
  ∃ px py pz qx qy qz qw : ℚ, numbers = [some px, some py, some pz, some qx, some qy, some qz, some qw] ∧
    g = (![(px : ℝ), py, pz], ⟨qw, qx, qy, qz⟩)

/-- What the program makes of a line with two images: these images, and the pose which is the first one written for the
time of the colour image. -/
structure IsElement (dir : Directory) (truth : List TruthLine) (line : (ℚ × String) × (ℚ × String)) (i : Input) :
    Prop where
  colour : i.rgb = dir.colour line.2.2
  depth : i.depth = dir.depth line.1.2
  truth : ∀ g, i.truth = some g ↔ ∃ numbers, FirstAt (fun _ => True) (truth.filterMap (·.pose?)) (line.2.1, numbers) ∧
    IsPose numbers g

/-- The report of a program that gave these elements of the dataset to the tracker, one after the other: a pose for each,
a line of the trajectory for each pose. -/
def Reported {S : Type} (prog : Program S) (create : Pose → S) (start : ℕ) (keys : ℕ → Key) (elements : List Input)
    (report : Report) : Prop :=
  ∃ (treated : List Input) (poses : List Pose) (final : S),
    UntilQuit keys (kept prog.jump start elements) treated ∧
    Tracked prog.track prog.width prog.height (create (startPose elements)) treated poses final ∧
    report.endPose = poses.getLast?.getD (startPose elements) ∧
    report.trajectory.map (·.position) = if prog.save then poses.map (·.position) else []

end Spec

open Spec

theorem pose?_shape {l : TruthLine} (h : l.Valid) {e : ℚ × List (Option ℚ)} (he : l.pose? = some e) (unread : ℕ → ℝ) :
    IsPose e.2 (poseOf unread e.2) := by
  cases l with
  | comment t => cases he
  | pose before time numbers after =>
    obtain rfl := Option.some.inj he
    have hl := h.2.2.1
    obtain ⟨a, b, c, d, e, f, g, rfl⟩ : ∃ a b c d e f g, numbers = [a, b, c, d, e, f, g] := by
      rcases numbers with _ | ⟨a, _ | ⟨b, _ | ⟨c, _ | ⟨d, _ | ⟨e, _ | ⟨f, _ | ⟨g, _ | ⟨k, l⟩⟩⟩⟩⟩⟩⟩⟩ <;>
        simp at hl
      exact ⟨a, b, c, d, e, f, g, rfl⟩
    exact ⟨_, _, _, _, _, _, _, rfl, rfl⟩

theorem isPose_inj {numbers : List (Option ℚ)} {g g' : V3 × Quat} (h : IsPose numbers g) (h' : IsPose numbers g') :
    g = g' := by
  obtain ⟨a, b, c, d, e, f, k, rfl, rfl⟩ := h
  obtain ⟨a', b', c', d', e', f', k', h, rfl⟩ := h'
  simp only [List.cons.injEq, Option.some.injEq, and_true] at h
  obtain ⟨rfl, rfl, rfl, rfl, rfl, rfl, rfl⟩ := h
  rfl

theorem reported {S : Type} {prog : Program S} {create : Pose → S} {start : ℕ} {keys : ℕ → Key} {frames : List Input}
    {report : Report} (h : TumRun.run prog create start keys frames = .ok (some report)) :
    Reported prog create start keys frames report := by
  obtain ⟨t, poses, s, out, h1, h2, h3, h4, hu, hd, rfl⟩ := TumRun.run_spec h
  refine ⟨t, poses, out.slam, hu, h1 ▸ hd.tracked, by rw [← h2]; exact hd.pose, ?_⟩
  dsimp only
  rw [hd.lines, h4]
  split_ifs
  · rw [List.nil_append, List.map_map]
    rfl
  · rfl

/-- With an association file the program is run on the elements of its lines. -/
theorem runs_association {S : Type} (dir : Directory) (unread : ℕ → ℝ) (prog : Program S) (create : Pose → S)
    (start : ℕ) (keys : ℕ → Key) (lines : List PairLine) (hlines : ∀ l ∈ lines, l.Valid) (text : List Char)
    (htext : Written (lines.map (·.text)) text) (hfile : dir.file "associations.txt" = some text)
    (truth : List TruthLine) (htruth : ∀ l ∈ truth, l.Valid) (truthText : List Char)
    (ht : Written (truth.map (·.text)) truthText) (htfile : dir.file "groundtruth.txt" = some truthText)
    (o : Outcome (Option Report)) (h : Runs dir unread prog create start keys o) :
    ∃ elements, List.Forall₂ (IsElement dir truth) (lines.filterMap (·.pair?)) elements ∧
      o = TumRun.run prog create start keys elements := by
  obtain ⟨ho⟩ := h
  rename_i o
  have htt : dir.text "groundtruth.txt" = truthText := by rw [Directory.text, htfile]; rfl
  have e := C211_associations (parseTruth truthText) lines hlines text htext
  cases ho with
  | fromLists h0 =>
    rw [h0] at hfile
    cases hfile
  | fromFile h0 =>
    obtain rfl := Option.some.inj (h0.symm.trans hfile)
    rw [htt, e]
    refine ⟨_, ?_, rfl⟩
    rw [List.map_map, List.forall₂_map_right_iff]
    refine List.forall₂_same.2 fun p _ => ⟨rfl, rfl, fun g => ?_⟩
    obtain ⟨hs, hm⟩ := C212_truth_partial truth htruth truthText ht
    have hpose : ∀ numbers, FirstAt (fun _ => True) (truth.filterMap (·.pose?)) (p.2.1, numbers) →
        IsPose numbers (poseOf unread numbers) := by
      rintro numbers ⟨pre, post, he, -⟩
      have hmem : (p.2.1, numbers) ∈ truth.filterMap (·.pose?) := by rw [he]; simp
      obtain ⟨l, hl, hl'⟩ := List.mem_filterMap.1 hmem
      exact pose?_shape (htruth l hl) hl' unread
    have hfind : ∀ numbers, Tum.find? p.2.1 (parseTruth truthText) = some numbers ↔
        FirstAt (fun _ => True) (truth.filterMap (·.pose?)) (p.2.1, numbers) := fun numbers =>
      (TumRun.find?_iff hs _ _).trans (hm _)
    have et : (input dir unread { rgb := p.2, depth := some p.1, groundTruth :=
        (Tum.find? p.2.1 (parseTruth truthText)).map fun g => (p.2.1, g) }).truth =
        (Tum.find? p.2.1 (parseTruth truthText)).map (poseOf unread) := by
      unfold input
      rw [Option.map_map]
      rfl
    show (input dir unread _).truth = some g ↔ _
    rw [et, Option.map_eq_some_iff]
    constructor
    · rintro ⟨numbers, hf, rfl⟩
      exact ⟨numbers, (hfind _).1 hf, hpose _ ((hfind _).1 hf)⟩
    · rintro ⟨numbers, hf, hp⟩
      exact ⟨numbers, (hfind _).2 hf, isPose_inj (hpose _ hf) hp⟩

/-- C213: with an association file, the program treats the elements of its lines, in their order: the images of the two
paths of the line and the pose that the ground truth file has for the time of the colour image. -/
theorem C213_association_file {S : Type} (dir : Directory) (unread : ℕ → ℝ) (prog : Program S) (create : Pose → S)
    (start : ℕ) (keys : ℕ → Key) (lines : List PairLine) (hlines : ∀ l ∈ lines, l.Valid) (text : List Char)
    (htext : Written (lines.map (·.text)) text) (hfile : dir.file "associations.txt" = some text)
    (truth : List TruthLine) (htruth : ∀ l ∈ truth, l.Valid) (truthText : List Char)
    (ht : Written (truth.map (·.text)) truthText) (htfile : dir.file "groundtruth.txt" = some truthText)
    (o : Outcome (Option Report)) (h : Runs dir unread prog create start keys o) :
    (lines.filterMap (·.pair?) = [] → o = .ok none) ∧
    ∀ report, o = .ok (some report) → ∃ elements, List.Forall₂ (IsElement dir truth) (lines.filterMap (·.pair?)) elements ∧
      Reported prog create start keys elements report := by
  obtain ⟨elements, he, rfl⟩ := runs_association dir unread prog create start keys lines hlines text htext hfile truth htruth truthText ht htfile o h
  refine ⟨fun hnil => ?_, fun report hr => ⟨elements, he, reported hr⟩⟩
  rw [hnil] at he
  cases he
  rfl

/-- C213: without an association file, the behaviour is undefined or the program treats the colour images of its list by
increasing time, each with the depth image of its list, not used for another one, that is closer than 15 hundredths of a
second, if it was given one. -/
theorem C213_image_lists_partial {S : Type} (dir : Directory) (unread : ℕ → ℝ) (prog : Program S) (create : Pose → S)
    (start : ℕ) (keys : ℕ → Key) (hfile : dir.file "associations.txt" = none)
    (rgb depth : List ImageLine) (hrgb : ∀ l ∈ rgb, l.Valid) (hdepth : ∀ l ∈ depth, l.Valid) (rgbText depthText : List Char)
    (hr : Written (rgb.map (·.text)) rgbText) (hrfile : dir.file "rgb.txt" = some rgbText)
    (hd : Written (depth.map (·.text)) depthText) (hdfile : dir.file "depth.txt" = some depthText)
    (report : Report) (h : Runs dir unread prog create start keys (.ok (some report))) :
    ∃ (elements : List Input) (images : List ((ℚ × String) × Option (ℚ × String))),
      List.Forall₂ (fun i e => e.rgb = dir.colour i.1.2 ∧ e.depth = i.2.bind fun d => dir.depth d.2) images elements ∧
      images.Pairwise (fun a b => a.1.1 < b.1.1) ∧
      (∀ i, i ∈ images.map (·.1) ↔ FirstAt (fun i => 0 < i.1) (rgb.filterMap (·.image?)) i) ∧
      (∀ i ∈ images, ∀ d, i.2 = some d → FirstAt (fun i => 0 < i.1) (depth.filterMap (·.image?)) d ∧
        |i.1.1 - d.1| < 15 / 100) ∧
      (images.filterMap (·.2)).Nodup ∧
      Reported prog create start keys elements report := by
  generalize hres : (Outcome.ok (some report) : Outcome (Option Report)) = res at h
  obtain ⟨ho⟩ := h
  rename_i o
  cases ho with
  | fromFile h0 =>
    rw [h0] at hfile
    cases hfile
  | fromLists _ ha =>
    obtain ⟨frames, rfl, hrun⟩ := Outcome.bind_eq_ok hres.symm
    have h1 : dir.text "rgb.txt" = rgbText := by rw [Directory.text, hrfile]; rfl
    have h2 : dir.text "depth.txt" = depthText := by rw [Directory.text, hdfile]; rfl
    rw [h1, h2] at ha
    have hass := Tum.C51_association_partial _ _ _ ha
    obtain ⟨-, hm1⟩ := C211_images rgb hrgb rgbText hr
    obtain ⟨-, hm2⟩ := C211_images depth hdepth depthText hd
    refine ⟨_, frames.map fun f => (f.rgb, f.depth), ?_, ?_, fun i => ?_, ?_, ?_, reported hrun⟩
    · rw [List.forall₂_map_left_iff, List.forall₂_map_right_iff]
      exact List.forall₂_same.2 fun f _ => ⟨rfl, rfl⟩
    · rw [List.pairwise_map]
      exact hass.inOrder
    · rw [List.map_map, ← hm1 i]
      exact hass.everyRgbOnce.mem_iff
    · intro i hi d hd
      obtain ⟨f, hf, rfl⟩ := List.mem_map.1 hi
      exact ⟨(hm2 d).1 (hass.depthKnown f hf d hd), hass.depthClose f hf d hd⟩
    · rw [List.filterMap_map]
      exact hass.depthOnce

/-- The lists of two colour and two depth images. -/
def crossedDirectory : Directory where
  file := fun name =>
    if name = "rgb.txt" then some "10.10 r1\n10.15 r2\n".toList
    else if name = "depth.txt" then some "10.07 d1\n10.12 d2\n".toList
    else none
  colour := fun _ => none
  depth := fun _ => none

/-- C213 is false of the code without an association file: with these two lists, every run of the program has undefined
behaviour. -/
theorem C213_image_lists_false {S : Type} (unread : ℕ → ℝ) (prog : Program S) (create : Pose → S) (start : ℕ)
    (keys : ℕ → Key) :
    (∃ o, Runs crossedDirectory unread prog create start keys o) ∧
    ∀ o, Runs crossedDirectory unread prog create start keys o → o = .ub := by
  have e1 : parseImages (crossedDirectory.text "rgb.txt") = Tum.parseFile Tum.exampleRgb := by decide +kernel
  have e2 : parseImages (crossedDirectory.text "depth.txt") = Tum.parseFile Tum.exampleDepth := by decide +kernel
  have e3 : parseTruth (crossedDirectory.text "groundtruth.txt") = Tum.parseGroundTruth [] := rfl
  have e4 : crossedDirectory.file "associations.txt" = none := by decide +kernel
  obtain ⟨⟨o, ho⟩, hall⟩ := Tum.C51_order_undefined_false (G := List (Option ℚ)) []
  constructor
  · exact ⟨_, .run (.fromLists e4 (by rw [e1, e2, e3]; exact ho))⟩
  · rintro _ ⟨h⟩
    cases h with
    | fromFile h =>
      rw [e4] at h
      cases h
    | fromLists _ h =>
      rw [e1, e2, e3] at h
      rw [hall _ h]
      rfl

/-- A dataset with an association file and a ground truth. -/
def smallDirectory : Directory where
  file := fun name =>
    if name = "associations.txt" then some "# two images\n1 d 2 c\n".toList
    else if name = "groundtruth.txt" then some "2 1 2 3 0 0 0 1\n".toList
    else none
  colour := fun _ => none
  depth := fun _ => none

/-- Non-vacuity of `C213_association_file`: the program runs on this dataset, and its only element has the ground truth of
the file. -/
example (unread : ℕ → ℝ) :
    (∃ report, Runs smallDirectory unread TumRun.shortRun (fun _ => 0) 0 (fun _ => .other) (.ok (some report))) ∧
    Written ([PairLine.comment " two images".toList, .pair [] ⟨none, [1], none, none⟩ [' '] ['d'] [' ']
      ⟨none, [2], none, none⟩ [' '] ['c'] []].map (·.text)) "# two images\n1 d 2 c\n".toList ∧
    parseAssociationFile (parseTruth (smallDirectory.text "groundtruth.txt")) "# two images\n1 d 2 c\n".toList =
      .ok [⟨(2, "c"), some (1, "d"), some (2, [some 1, some 2, some 3, some 0, some 0, some 0, some 1])⟩] := by
  have e : parseAssociationFile (parseTruth (smallDirectory.text "groundtruth.txt")) "# two images\n1 d 2 c\n".toList =
      .ok [⟨(2, "c"), some (1, "d"), some (2, [some 1, some 2, some 3, some 0, some 0, some 0, some 1])⟩] := by
    have hw : Written ([PairLine.comment " two images".toList, .pair [] ⟨none, [1], none, none⟩ [' '] ['d'] [' ']
      ⟨none, [2], none, none⟩ [' '] ['c'] []].map (·.text)) "# two images\n1 d 2 c\n".toList := .inr (by decide +kernel)
    rw [C211_associations _ _ ?_ _ hw]
    · have hf : Tum.find? 2 (parseTruth (smallDirectory.text "groundtruth.txt")) =
          some [some 1, some 2, some 3, some 0, some 0, some 0, some 1] := by decide +kernel
      have h1 : Numeral.value ⟨none, [1], none, none⟩ = 1 := by decide +kernel
      have h2 : Numeral.value ⟨none, [2], none, none⟩ = 2 := by decide +kernel
      simp only [List.filterMap_cons, PairLine.pair?, List.filterMap_nil, List.map_cons, List.map_nil, h1, h2, hf]
      rfl
    · intro l hl
      fin_cases hl
      · show '\n' ∉ _
        decide
      · refine ⟨by simp, ⟨by simp, by simp⟩, ⟨by simp, ?_⟩, ⟨by simp, ?_⟩, ⟨by simp, ?_⟩, ⟨by simp, by simp⟩,
          ⟨by simp, ?_⟩, ⟨by simp, ?_⟩, by simp⟩ <;> unfold Separator <;> decide
  refine ⟨?_, .inr (by decide +kernel), e⟩
  obtain ⟨report, h⟩ := TumRun.C141_ends TumRun.shortRun (fun _ => 0) 0 (fun _ => .other)
    ([⟨(2, "c"), some (1, "d"), some (2, [some 1, some 2, some 3, some 0, some 0, some 0, some 1])⟩].map
      (input smallDirectory unread)) (by simp) (by
        intro f hf
        obtain rfl := List.mem_singleton.1 hf
        exact ⟨fun i hi => (by cases hi), fun i hi => (by cases hi)⟩) (fun s images => ⟨_, rfl⟩)
  refine ⟨report, ?_⟩
  have hr := Runs.run (S := ℕ) (unread := unread) (prog := TumRun.shortRun) (create := fun _ => 0) (start := 0)
    (keys := fun _ => .other) (Associated.fromFile (dir := smallDirectory) (text := "# two images\n1 d 2 c\n".toList)
      (by decide +kernel))
  rw [e] at hr
  rwa [Outcome.bind_ok, h] at hr

end RgbdSlam.TumProgram
