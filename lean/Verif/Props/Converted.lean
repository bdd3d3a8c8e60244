import Verif.Props.TumRun
import Verif.Props.CapeRun

/-! # C225: a dataset in either format gives the same trajectory

The two example programs have the same loop, with other sources of images. -/

namespace RgbdSlam.Converted

open Geometry Angles
open TumRun (Image Colour Key Input)
open CapeRun (Dataset)

variable {S : Type}

namespace Spec

/-- The programs have the same options, camera and tracker. -/
structure SameProgram (tum : TumRun.Program S) (cape : CapeRun.Program S) : Prop where
  jump : tum.jump = cape.jump
  save : tum.save = cape.save
  width : tum.width = cape.width
  height : tum.height = cape.height
  track : tum.track = cape.track
  xyz : tum.xyz = cape.xyz

/-- The frame `i` of the numbered images is this element of the other dataset: the same colours; the depths are in millimetres here and in fifths of a millimetre there; the
rectification has nothing to change. -/
def SameFrame (rectify : Image ℚ → Option (Image ℚ)) (d : Dataset) (i : ℕ) (f : Input) : Prop :=
  ∃ rgb depth file, f.rgb = some rgb ∧ f.depth = some depth ∧ CapeRun.Spec.Present d i rgb file ∧
    file.rows = depth.rows ∧ file.cols = depth.cols ∧ (∀ a b, depth.pixel a b = 5 * file.pixel a b) ∧ (rectify file = none ∨ rectify file = some file)

/-- The numbered images, from `first` on, are the elements of the other dataset; there are no others. -/
structure SameDataset (rectify : Image ℚ → Option (Image ℚ)) (d : Dataset) (first : ℕ) (inputs : List Input) : Prop where
  frames : ∀ i (h : i < inputs.length), SameFrame rectify d (first + i) inputs[i]
  no_more : ∀ i, first + inputs.length ≤ i → ¬ ∃ rgb depth, CapeRun.Spec.Present d i rgb depth

end Spec

open Spec

noncomputable section

/-- What both loops have in common. -/
def common (s : TumRun.Loop S) : S × Pose × List TumRun.Line := (s.slam, s.pose, s.lines)

def common' (s : CapeRun.Loop S) : S × Pose × List TumRun.Line := (s.slam, s.pose, s.lines)

theorem prepare_same {tum : TumRun.Program S} {cape : CapeRun.Program S} (hp : SameProgram tum cape) {rgb : Image Colour} {depth file : Image ℚ} {f : Input}
    (h1 : f.rgb = some rgb) (h2 : f.depth = some depth) (h3 : file.rows = depth.rows) (h4 : file.cols = depth.cols)
    (h5 : ∀ a b, depth.pixel a b = 5 * file.pixel a b) (h6 : cape.rectify file = none ∨ cape.rectify file = some file) :
    TumRun.prepare tum.width tum.height f = CapeRun.prepare cape (rgb, file) := by
  obtain ⟨fr, fc, fp⟩ := file
  obtain ⟨dr, dc, dp⟩ := depth
  obtain rfl : fr = dr := h3
  obtain rfl : fc = dc := h4
  have e : (fun i j => dp i j * (1 / 5)) = fp := by
    funext i j
    have := h5 i j
    dsimp only at this
    rw [this]
    ring
  unfold TumRun.prepare CapeRun.prepare
  rw [h1, h2, hp.width, hp.height]
  dsimp only [Option.getD_some]
  rw [e]
  rcases h6 with h6 | h6 <;> rw [h6]
  simp

/-- After the last image the loop of the numbered images skips to a wanted number and stops. -/
theorem loop_end {cape : CapeRun.Program S} {keys : ℕ → Key} {d : Dataset} {e : ℕ} (hno : ∀ i, e ≤ i → ¬ ∃ rgb depth, CapeRun.Spec.Present d i rgb depth) :
    ∀ (turns fuel : ℕ) (s : CapeRun.Loop S), e ≤ s.frameIndex → s.frameIndex + turns < 2 ^ 32 → turns < fuel →
      (cape.jump = 0 ∨ cape.jump ∣ s.frameIndex + turns) → ∃ s', CapeRun.loop cape keys d fuel s = .ok s' ∧ common' s' = common' s
  | _, 0, _, _, _, h, _ => by omega
  | turns, fuel + 1, s, he, hlt, hf, hj => by
    rw [CapeRun.loop]
    by_cases hgo : s.goOn
    · rw [if_neg (by simp [hgo])]
      split_ifs with hskip
      · cases turns with
        | zero =>
          rcases hj with hj | hj
          · omega
          · exact absurd (Nat.mod_eq_zero_of_dvd hj) hskip.2
        | succ turns =>
          have next : (s.frameIndex + 1) % 2 ^ 32 = s.frameIndex + 1 := Nat.mod_eq_of_lt (by omega)
          rw [next]
          exact loop_end hno turns fuel { s with frameIndex := s.frameIndex + 1 } (by dsimp only; omega) (by dsimp only; omega) (by omega)
            (by dsimp only; rcases hj with hj | hj; exacts [.inl hj, .inr (by rwa [Nat.add_right_comm, Nat.add_assoc])])
      · rw [CapeRun.loadImages_none.2 (hno _ he)]
        exact ⟨s, rfl, rfl⟩
    · rw [if_pos hgo]
      exact ⟨s, rfl, rfl⟩

theorem loop_same {tum : TumRun.Program S} {cape : CapeRun.Program S} (hp : SameProgram tum cape) {keys : ℕ → Key} {d : Dataset} :
    ∀ (inputs : List Input) (fuel : ℕ) (s : TumRun.Loop S) (t : CapeRun.Loop S),
      SameDataset cape.rectify d t.frameIndex inputs → t.frameIndex + inputs.length + cape.jump < 2 ^ 32 → inputs.length + cape.jump + 1 ≤ fuel →
      common s = common' t → s.goOn = t.goOn → s.frameIndex = t.frameIndex → s.treated = t.treated →
      (TumRun.loop tum keys inputs s).map common = (CapeRun.loop cape keys d fuel t).map common'
  | [], fuel, s, t, hd, hlt, hf, hc, _, hi, _ => by
    have hturns : ∃ turns, turns ≤ cape.jump ∧ (cape.jump = 0 ∨ cape.jump ∣ t.frameIndex + turns) := by
      rcases Nat.eq_zero_or_pos cape.jump with h0 | h0
      · exact ⟨0, Nat.zero_le _, .inl h0⟩
      · refine ⟨cape.jump - t.frameIndex % cape.jump, Nat.sub_le _ _, .inr ?_⟩
        have h1 := Nat.mod_lt t.frameIndex h0
        have h2 := Nat.div_add_mod t.frameIndex cape.jump
        exact ⟨t.frameIndex / cape.jump + 1, by rw [Nat.mul_add, Nat.mul_one]; omega⟩
    obtain ⟨turns, h1, h2⟩ := hturns
    simp only [List.length_nil] at hlt hf
    obtain ⟨t', e1, e2⟩ := loop_end (cape := cape) (keys := keys) hd.no_more turns fuel t (by simp) (by omega) (by omega) h2
    rw [e1, TumRun.loop]
    show Outcome.ok _ = Outcome.ok _
    rw [e2, hc]
  | f :: rest, 0, s, t, hd, hlt, hf, hc, hg, hi, hn => by omega
  | f :: rest, fuel + 1, s, t, hd, hlt, hf, hc, hg, hi, hn => by
    have next : (t.frameIndex + 1) % 2 ^ 32 = t.frameIndex + 1 := Nat.mod_eq_of_lt (by simp only [List.length_cons] at hlt; omega)
    have hd' : SameDataset cape.rectify d (t.frameIndex + 1) rest :=
      ⟨fun i h => by
        have := hd.frames (i + 1) (by simpa using h)
        rw [List.getElem_cons_succ] at this
        rwa [show t.frameIndex + 1 + i = t.frameIndex + (i + 1) by omega],
       fun i h => hd.no_more i (by simp only [List.length_cons]; omega)⟩
    obtain ⟨c1, c2⟩ := Prod.mk.inj hc
    obtain ⟨c2, c3⟩ := Prod.mk.inj c2
    rw [TumRun.loop, CapeRun.loop, hg]
    by_cases hgo : t.goOn
    · rw [if_neg (not_not.2 hgo), if_neg (not_not.2 hgo), hp.jump, hi, next]
      simp only [List.length_cons] at hlt hf
      split_ifs with hskip
      · exact loop_same hp rest fuel _ { t with frameIndex := t.frameIndex + 1 } hd' (by dsimp only; omega) (by omega) hc rfl rfl hn
      · obtain ⟨rgb, depth, file, f1, f2, f3, f4, f5, f6, f7⟩ := hd.frames 0 (by simp)
        rw [Nat.add_zero] at f3
        rw [(CapeRun.loadImages_iff ..).2 f3, prepare_same hp (f := f) f1 f2 f4 f5 f6 f7]
        dsimp only
        cases CapeRun.prepare cape (rgb, file) with
        | ok images =>
          rw [Outcome.bind_ok, Outcome.bind_ok, hp.track, c1]
          cases cape.track t.slam images with
          | ok r =>
            rw [Outcome.bind_ok, Outcome.bind_ok]
            refine loop_same hp rest fuel _ _ ?_ ?_ (by omega) ?_ ?_ ?_ ?_
            · rw [show (CapeRun.record cape (keys t.treated) t r.1 r.2).frameIndex = t.frameIndex + 1 from next]
              exact hd'
            · rw [show (CapeRun.record cape (keys t.treated) t r.1 r.2).frameIndex = t.frameIndex + 1 from next]
              omega
            · simp only [common, common', TumRun.record, CapeRun.record, hp.save, hp.xyz, c3]
            · simp only [TumRun.record, CapeRun.record, hg, hn]
            · simp only [TumRun.record, CapeRun.record, hi]
            · simp only [TumRun.record, CapeRun.record, hn]
          | _ => rfl
        | _ => rfl
    · rw [if_pos hgo, if_pos hgo]
      exact congrArg Outcome.ok hc

/-- C225.  The same images are in the directory of a dataset, without a ground truth for the first of them, and in a folder of numbered images.  With the same options, camera,
tracker and keys, both example programs have the same outcome: both end normally, with the same trajectory and the same end pose, or both fail in the same way. -/
theorem C225_same_trajectory (tum : TumRun.Program S) (cape : CapeRun.Program S) (hp : SameProgram tum cape) (create : Pose → S) (first : ℕ) (keys : ℕ → Key)
    (d : Dataset) (inputs : List Input) (hne : inputs ≠ []) (hd : SameDataset cape.rectify d first inputs) (htruth : ∀ f ∈ inputs.head?, f.truth = none)
    (hlt : first + inputs.length + cape.jump < 2 ^ 32) :
    ∃ bound, ∀ fuel, bound ≤ fuel → (TumRun.run tum create first keys inputs).map (fun r => r.map fun r => (r.endPose, r.trajectory)) =
      (CapeRun.run cape create first keys d fuel).map (fun r => some (r.endPose, r.trajectory)) := by
  refine ⟨inputs.length + cape.jump + 1, fun fuel hf => ?_⟩
  have hstart : TumRun.startPose inputs = Pose.default := by
    cases inputs with
    | nil => exact absurd rfl hne
    | cons f rest =>
      have := htruth f (by simp)
      obtain ⟨a, b, c⟩ := f
      obtain rfl : c = none := this
      rfl
  have hix : (((first : ℤ) % 2 ^ 32).toNat) = first := by omega
  have hix' : first % 2 ^ 32 = first := Nat.mod_eq_of_lt (by omega)
  have key := loop_same hp (keys := keys) (d := d) inputs fuel
    { slam := create Pose.default, pose := Pose.default, goOn := true, frameIndex := first, treated := 0, positionError := 0,
      rotationError := 0, truthAvailable := false, lines := [] }
    { slam := create Pose.default, pose := Pose.default, goOn := true, frameIndex := first, treated := 0, lines := [] }
    hd hlt hf rfl rfl rfl rfl
  rw [TumRun.run, if_neg (by simpa using hne), CapeRun.run, hstart, hix, hix']
  dsimp only
  revert key
  generalize TumRun.loop tum keys inputs _ = a
  generalize CapeRun.loop cape keys d fuel _ = b
  intro key
  have e1 : ∀ a : Outcome (TumRun.Loop S), (a.map common).map (fun c => some (c.2.1, c.2.2)) = Outcome.map
      (fun r : Option TumRun.Report => r.map fun r => (r.endPose, r.trajectory)) (a.map fun s => some
        { error := if s.truthAvailable then some (s.positionError / 10, s.rotationError) else none, endPose := s.pose, trajectory := s.lines }) := by
    intro a; cases a <;> rfl
  have e2 : ∀ b : Outcome (CapeRun.Loop S), (b.map common').map (fun c => some (c.2.1, c.2.2)) = Outcome.map
      (fun r : CapeRun.Report => some (r.endPose, r.trajectory)) (b.map fun s =>
        { endPose := s.pose, frame := s.frameIndex, trajectory := s.lines }) := by
    intro b; cases b <;> rfl
  rw [← e1, key, e2]

/-! ## A dataset in both formats -/

/-- A tracker that counts the images and advances by the first depth. -/
def walker (k : ℚ) (images : Image Colour × Image ℚ) : Outcome (ℚ × Pose) :=
  if images.1.pixel 0 0 = (7, 7, 7) then .throws else .ok (k + images.2.pixel 0 0, { Pose.default with position := fun _ => ((k + images.2.pixel 0 0 : ℚ) : ℝ) })

/-- Image `i` of the dataset: its first depth is `i` millimetres. -/
def bothInput (i : ℕ) : Input := ⟨some ⟨1, 1, fun _ _ => (i, 0, 0)⟩, some ⟨1, 1, fun _ _ => 5 * i⟩, none⟩

def bothImages (first n : ℕ) : Dataset where
  rgb := fun i => if i < first + n then .image ⟨1, 1, fun _ _ => (i - first, 0, 0)⟩ else .missing
  depth := fun i => if i < first + n then .image ⟨1, 1, fun _ _ => ((i - first : ℕ) : ℚ)⟩ else .missing

/-- The hypotheses are met by datasets of any length, with any jump. -/
example (first n jump : ℕ) (hn : 0 < n) (h : first + n + jump < 2 ^ 32) (keys : ℕ → Key) :
    ∃ bound, ∀ fuel, bound ≤ fuel →
      (TumRun.run ⟨jump, true, 1, 1, walker, fun _ => 0⟩ (fun _ => 0) first keys ((List.range n).map bothInput)).map (fun r => r.map fun r => (r.endPose, r.trajectory)) =
      (CapeRun.run ⟨jump, true, 1, 1, fun _ => none, walker, fun _ => 0⟩ (fun _ => 0) first keys (bothImages first n) fuel).map
        (fun r => some (r.endPose, r.trajectory)) := by
  refine C225_same_trajectory _ _ ⟨rfl, rfl, rfl, rfl, rfl, rfl⟩ _ first keys _ _ ?_ ⟨fun i hi => ?_, ?_⟩ ?_ (by simpa using h)
  · intro h0
    have := congrArg List.length h0
    simp at this
    omega
  · have hi' : i < n := by simpa using hi
    refine ⟨⟨1, 1, fun _ _ => (i, 0, 0)⟩, ⟨1, 1, fun _ _ => 5 * i⟩, ⟨1, 1, fun _ _ => i⟩, by simp [bothInput], by simp [bothInput],
      ⟨by simp [bothImages, hi'], by simp [bothImages, hi']⟩, rfl, rfl, fun _ _ => rfl, .inl rfl⟩
  · rintro i hi ⟨rgb, depth, h1, -⟩
    simp only [List.length_map, List.length_range] at hi
    simp [bothImages, not_lt.2 hi] at h1
  · intro f hf
    obtain ⟨k, -, rfl⟩ := List.mem_map.1 (List.mem_of_mem_head? hf)
    rfl

/-- And the common outcome is not trivial: without a key pressed, three images give three lines. -/
example : ∃ report, TumRun.run ⟨0, true, 1, 1, walker, fun _ => 0⟩ (fun _ => 0) 0 (fun _ => .other) ((List.range 3).map bothInput) = .ok (some report) ∧
    report.trajectory.length = 3 ∧ report.endPose.position 0 = 3 := by
  simp [List.range, List.range.loop, TumRun.run, TumRun.loop, TumRun.prepare, bothInput, walker, TumRun.record, TumRun.checkUserInputs, Outcome.map, Outcome.bind]
  norm_num

end

end RgbdSlam.Converted
