import Verif.Model.TumRun
import Verif.Spec.TumRun
import Verif.Spec.Tum
import Verif.Props.Tum
import Verif.Props.Angles
import Mathlib.Tactic.Ring
import Mathlib.Tactic.Linarith
import Mathlib.Tactic.NormNum
/-
C140: association files; C141: trajectory; C142: reported error; C143: start pose.
-/
namespace RgbdSlam.TumRun

open Geometry Angles Spec
open Geometry.Spec (UnitQuat)
open Tum.Spec (FirstAt)

/-! ## C140 -/

theorem find?_iff {V : Type} {m : Tum.TimeMap V} (h : Tum.SortedMap m) (t : ℚ) (v : V) :
    Tum.find? t m = some v ↔ (t, v) ∈ m := by
  constructor
  · exact Tum.find?_some
  · intro hm
    cases e : Tum.find? t m with
    | none => exact absurd rfl (Tum.find?_none e _ hm)
    | some w =>
      have := Tum.SortedMap.key_inj h (Tum.find?_some e) hm rfl
      rw [(Prod.mk.inj this).2]

/-- C140: a frame for each line with two paths, in the order of the file, with the images of this line and the
ground truth of the first line of the ground truth file that has the very time of the colour image. -/
theorem C140_association_partial {G : Type} (truthLines : List (ℚ × G)) (lines : List AssociationLine) :
    ((parseAssociations (Tum.parseGroundTruth truthLines) lines).map fun f => (f.depth, f.rgb)) =
      (lines.filter fun l => l.depthPath ≠ "" ∧ l.rgbPath ≠ "").map
        (fun l => (some (l.depthTime, l.depthPath), (l.rgbTime, l.rgbPath))) ∧
    ∀ f ∈ parseAssociations (Tum.parseGroundTruth truthLines) lines, ∀ t g,
      f.groundTruth = some (t, g) ↔ t = f.rgb.1 ∧ FirstAt (fun _ => True) truthLines (t, g) := by
  obtain ⟨hs, hm⟩ := Tum.C51_parse_truth truthLines
  constructor
  · unfold parseAssociations
    induction lines with
    | nil => rfl
    | cons l lines ih =>
      by_cases h : l.depthPath ≠ "" ∧ l.rgbPath ≠ ""
      · rw [List.filterMap_cons_some (by rw [if_pos h]), List.filter_cons_of_pos (by simpa using h), List.map_cons,
          List.map_cons, ih]
      · rw [List.filterMap_cons_none (by rw [if_neg h]), List.filter_cons_of_neg (by simpa using h), ih]
  · intro f hf t g
    obtain ⟨l, -, hl⟩ := List.mem_filterMap.1 hf
    split at hl
    · obtain rfl := Option.some.inj hl
      dsimp only
      rw [← hm]
      constructor
      · intro h
        obtain ⟨g', h1, h2⟩ := Option.map_eq_some_iff.1 h
        obtain ⟨rfl, rfl⟩ := Prod.mk.inj h2
        exact ⟨rfl, (find?_iff hs _ _).1 h1⟩
      · rintro ⟨rfl, h⟩
        rw [(find?_iff hs _ _).2 h]
        rfl
    · exact absurd hl (by simp)

/-- C140 is false of the code: with an association file, a frame whose colour image is one millisecond away from a
ground truth has none, although the same images without association file get it. -/
theorem C140_association_false :
    ∃ (truth : List (ℚ × ℕ)) (line : AssociationLine),
      ((parseAssociations (Tum.parseGroundTruth truth) [line]).map fun f => (f.rgb, f.groundTruth)) =
        [((line.rgbTime, line.rgbPath), none)] ∧
      (∃ t ∈ truth, |line.rgbTime - t.1| = 1 / 1000) ∧
      (Tum.assignGroundTruth (parseAssociations (Tum.parseGroundTruth truth) [line])
        (Tum.parseGroundTruth truth)).map (·.groundTruth) = [some (1, 7)] :=
  ⟨[(1, 7)], ⟨1, "depth/1.png", 1001 / 1000, "rgb/1.png"⟩, by decide +kernel,
    ⟨(1, 7), by simp, by norm_num⟩, by decide +kernel⟩

/-- Non-vacuity: two lines, one with a ground truth, and an incomplete one. -/
example : (parseAssociations (Tum.parseGroundTruth [(1, 7), (1, 8), (2, 9)])
    [⟨1, "d1", 1, "c1"⟩, ⟨2, "", 2, "c2"⟩, ⟨3, "d3", 3, "c3"⟩]).map (fun f => (f.rgb, f.groundTruth)) =
    [((1, "c1"), some (1, 7)), ((3, "c3"), none)] := by decide +kernel

/-! ## C141: the loop -/

theorem kept_cons (jump start : ℕ) (f : Input) (fs : List Input) : kept jump start (f :: fs) =
    if jump = 0 ∨ start % 2 ^ 32 % jump = 0 then f :: kept jump (start + 1) fs else kept jump (start + 1) fs := by
  unfold kept
  rw [List.zipIdx_cons]
  split_ifs with h
  · rw [List.filter_cons_of_pos (by simpa using h), List.map_cons]
  · rw [List.filter_cons_of_neg (by simpa using h)]

theorem prepare_spec {width height : ℕ} {f : Input} {images : Image Colour × Image ℚ}
    (h : prepare width height f = .ok images) :
    IsColour width height f.rgb images.1 ∧ IsDepth width height f.depth images.2 := by
  unfold prepare at h
  dsimp only at h
  split_ifs at h with h1 h2
  obtain rfl := Outcome.ok.inj h
  refine ⟨⟨h1.2, h1.1, ?_⟩, ⟨h2.2, h2.1, ?_⟩⟩
  · cases f.rgb <;> simp
  · cases hf : f.depth with
    | none => simp
    | some d =>
      rw [hf] at h2
      exact ⟨h2.2, h2.1, fun i j => by simp only [Option.getD_some]; ring⟩

theorem tracked_length {S : Type} {track : S → Image Colour × Image ℚ → Outcome (S × Pose)} {width height : ℕ} {s s' : S}
    {t : List Input} {poses : List Pose} (h : Tracked track width height s t poses s') : poses.length = t.length := by
  induction h with
  | nil => rfl
  | cons _ _ _ _ ih => simp [ih]

/-- What the loop did from a state `s`. -/
structure Did {S : Type} (prog : Program S) (s : Loop S) (t : List Input) (poses : List Pose) (out : Loop S) : Prop where
  tracked : Tracked prog.track prog.width prog.height s.slam t poses out.slam
  lines : out.lines = s.lines ++ if prog.save then poses.map (lineOf prog.xyz) else []
  count : out.treated = s.treated + t.length
  pose : out.pose = poses.getLast?.getD s.pose
  none : t = [] → out.truthAvailable = s.truthAvailable ∧ out.positionError = s.positionError ∧
    out.rotationError = s.rotationError
  last : ∀ f, t.getLast? = some f → out.truthAvailable = f.truth.isSome ∧ ∀ g, f.truth = some g →
    out.positionError = Angles.positionError out.pose (Pose.ofParameters g.1 g.2) ∧
    out.rotationError = Angles.rotationError out.pose (Pose.ofParameters g.1 g.2)

theorem loop_spec {S : Type} (prog : Program S) (keys : ℕ → Key) : ∀ (frames : List Input) (s : Loop S) (start : ℕ)
    (out : Loop S), s.frameIndex = start % 2 ^ 32 → s.goOn = true → loop prog keys frames s = .ok out →
    ∃ t poses, UntilQuit (fun i => keys (s.treated + i)) (kept prog.jump start frames) t ∧ Did prog s t poses out
  | [], s, start, out, _, _, h => by
    obtain rfl := Outcome.ok.inj h
    refine ⟨[], [], ⟨List.nil_prefix, fun i hi => by simp at hi, fun hl => by simp [kept] at hl⟩, .nil _, ?_, rfl, rfl,
      fun _ => ⟨rfl, rfl, rfl⟩, fun f hf => by simp at hf⟩
    cases prog.save <;> simp
  | f :: rest, s, start, out, hi, hg, h => by
    unfold loop at h
    rw [if_neg (by simp [hg])] at h
    rw [kept_cons]
    have next : (s.frameIndex + 1) % 2 ^ 32 = (start + 1) % 2 ^ 32 := by rw [hi]; omega
    split_ifs at h with hj
    · rw [hi] at hj
      rw [if_neg (by omega)]
      obtain ⟨t, poses, hu, hd⟩ := loop_spec prog keys rest { s with frameIndex := (s.frameIndex + 1) % 2 ^ 32 }
        (start + 1) out next hg h
      exact ⟨t, poses, hu, ⟨hd.tracked, hd.lines, hd.count, hd.pose, hd.none, hd.last⟩⟩
    · rw [hi] at hj
      rw [if_pos (by omega)]
      obtain ⟨images, h1, h⟩ := Outcome.bind_eq_ok h
      obtain ⟨r, h2, h⟩ := Outcome.bind_eq_ok h
      obtain ⟨hc, hd⟩ := prepare_spec h1
      by_cases hk : keys s.treated = .quit
      · have hout : out = record prog (keys s.treated) f s r.1 r.2 := by
          cases rest with
          | nil => exact (Outcome.ok.inj h).symm
          | cons g rest =>
            unfold loop at h
            rw [if_pos (by simp [record, hk, checkUserInputs])] at h
            exact (Outcome.ok.inj h).symm
        refine ⟨[f], [r.2], ⟨⟨_, rfl⟩, fun i h => by simp at h, fun _ => ⟨0, rfl, hk⟩⟩, ?_⟩
        rw [hout]
        refine ⟨.cons hc hd h2 (.nil _), ?_, rfl, rfl, fun h => by simp at h, ?_⟩
        · simp only [record]; split_ifs <;> simp
        · intro f' hf'
          obtain rfl : f = f' := by simpa using hf'
          exact ⟨rfl, fun g hg => by simp [record, hg]⟩
      · have hgo : (record prog (keys s.treated) f s r.1 r.2).goOn = true := by
          cases e : keys s.treated <;> simp_all [record, checkUserInputs]
        obtain ⟨t, poses, hu, hd'⟩ := loop_spec prog keys rest (record prog (keys s.treated) f s r.1 r.2)
          (start + 1) out next hgo h
        have kshift : ∀ i, keys ((record prog (keys s.treated) f s r.1 r.2).treated + i) = keys (s.treated + (i + 1)) :=
          fun i => congrArg keys (by simp only [record]; omega)
        refine ⟨f :: t, r.2 :: poses, ⟨List.cons_prefix_cons.2 ⟨rfl, hu.1⟩, ?_, ?_⟩,
          ⟨.cons hc hd h2 hd'.tracked, ?_, ?_, ?_, fun h => by simp at h, ?_⟩⟩
        · intro i hi'
          cases i with
          | zero => exact hk
          | succ i => show keys _ ≠ _; rw [← kshift]; exact hu.2.1 i (by simpa using hi')
        · intro hl
          obtain ⟨i, h3, h4⟩ := hu.2.2 (by simpa using hl)
          exact ⟨i + 1, by simpa using h3, by show keys _ = _; rw [← kshift]; exact h4⟩
        · rw [hd'.lines]
          simp only [record]
          split_ifs <;> simp
        · rw [hd'.count]
          simp only [record, List.length_cons]
          omega
        · rw [hd'.pose]
          simp only [record]
          cases poses with
          | nil => rfl
          | cons q poses => rw [List.getLast?_cons_cons, List.getLast?_cons]; rfl
        · intro f' hf'
          cases t with
          | nil =>
            obtain rfl : f = f' := by simpa using hf'
            have hp : poses = [] := by
              have := tracked_length hd'.tracked
              simpa using this
            have he := hd'.pose
            rw [hp] at he
            obtain ⟨n1, n2, n3⟩ := hd'.none rfl
            rw [n1, n2, n3, he]
            exact ⟨rfl, fun g hg => by simp [record, hg]⟩
          | cons g t => exact hd'.last f' (by simpa [List.getLast?_cons_cons] using hf')

theorem run_spec {S : Type} {prog : Program S} {create : Pose → S} {start : ℕ} {keys : ℕ → Key} {frames : List Input}
    {report : Report} (h : run prog create start keys frames = .ok (some report)) :
    ∃ (t : List Input) (poses : List Pose) (s out : Loop S), s.slam = create (startPose frames) ∧
      s.pose = startPose frames ∧ s.truthAvailable = false ∧ s.lines = [] ∧
      UntilQuit keys (kept prog.jump start frames) t ∧ Did prog s t poses out ∧
      report = { error := if out.truthAvailable then some (out.positionError / 10, out.rotationError) else none
                 endPose := out.pose
                 trajectory := out.lines } := by
  unfold run at h
  split_ifs at h with he
  · simp at h
  · obtain ⟨out, h1, h2⟩ := Outcome.bind_eq_ok h
    obtain ⟨t, poses, hu, hd⟩ := loop_spec prog keys frames _ start out rfl rfl h1
    refine ⟨t, poses, _, out, rfl, rfl, rfl, rfl, ?_, hd, ?_⟩
    · simpa using hu
    · exact (Option.some.inj (Outcome.ok.inj h2)).symm

/-- C141: the tracker is given the kept frames in order until the user quits, with depths in millimetres and images
of the size of the camera; the trajectory has a line for each of them, with the position and the angles of the
orientation that the tracker answered; the last one is the end pose. -/
theorem C141_trajectory {S : Type} (prog : Program S) (create : Pose → S) (start : ℕ) (keys : ℕ → Key)
    (frames : List Input) (hx : Angles.Spec.IsXyz prog.xyz) (report : Report)
    (h : run prog create start keys frames = .ok (some report)) :
    ∃ (treated : List Input) (poses : List Pose) (final : S),
      UntilQuit keys (kept prog.jump start frames) treated ∧
      Tracked prog.track prog.width prog.height (create (startPose frames)) treated poses final ∧
      report.endPose = poses.getLast?.getD (startPose frames) ∧
      (prog.save = false → report.trajectory = []) ∧
      (prog.save = true → List.Forall₂ (fun line p => line.position = p.position ∧
        (UnitQuat p.orientation → matrixOf line.angles = p.orientation.toRotationMatrix)) report.trajectory poses) := by
  obtain ⟨t, poses, s, out, h1, h2, h3, h4, hu, hd, rfl⟩ := run_spec h
  refine ⟨t, poses, out.slam, hu, h1 ▸ hd.tracked, ?_, ?_, ?_⟩
  · rw [← h2]; exact hd.pose
  · intro hs
    simp only
    rw [hd.lines, h4, hs]
    rfl
  · intro hs
    simp only
    rw [hd.lines, h4, hs, if_pos rfl, List.nil_append, List.forall₂_map_left_iff]
    exact List.forall₂_same.2 fun p _ => ⟨rfl, fun hp => C138_euler_round_trip _ hx _ hp⟩

/-- C141: the program ends with a report when the images that can be read have the size of the camera and the tracker
answers. -/
theorem C141_ends {S : Type} (prog : Program S) (create : Pose → S) (start : ℕ) (keys : ℕ → Key) (frames : List Input)
    (hne : frames ≠ [])
    (himages : ∀ f ∈ frames, (∀ i, f.rgb = some i → i.rows = prog.height ∧ i.cols = prog.width) ∧
      ∀ i, f.depth = some i → i.rows = prog.height ∧ i.cols = prog.width)
    (htrack : ∀ s images, ∃ r, prog.track s images = .ok r) :
    ∃ report, run prog create start keys frames = .ok (some report) := by
  have key : ∀ (fs : List Input), (∀ f ∈ fs, f ∈ frames) → ∀ s : Loop S, ∃ out, loop prog keys fs s = .ok out := by
    intro fs
    induction fs with
    | nil => exact fun _ s => ⟨s, rfl⟩
    | cons f fs ih =>
      intro hm s
      have hf := himages f (hm f (List.mem_cons_self ..))
      have ih' := ih fun g hg => hm g (List.mem_cons_of_mem _ hg)
      unfold loop
      split_ifs
      · exact ih' _
      · have hp : ∃ images, prepare prog.width prog.height f = .ok images := by
          unfold prepare
          dsimp only
          rw [if_neg, if_neg]
          · exact ⟨_, rfl⟩
          · rw [not_not]
            cases hd : f.depth with
            | none => exact ⟨rfl, rfl⟩
            | some i => exact ⟨(hf.2 i hd).2, (hf.2 i hd).1⟩
          · rw [not_not]
            cases hd : f.rgb with
            | none => exact ⟨rfl, rfl⟩
            | some i => exact ⟨(hf.1 i hd).2, (hf.1 i hd).1⟩
        obtain ⟨images, hp⟩ := hp
        obtain ⟨r, hr⟩ := htrack s.slam images
        rw [hp, Outcome.bind_ok, hr, Outcome.bind_ok]
        exact ih' _
      · exact ⟨s, rfl⟩
  unfold run
  rw [if_neg (by simpa using hne)]
  dsimp only
  generalize hs : (Loop.mk (create (startPose frames)) _ _ _ _ _ _ _ _ : Loop S) = s0
  obtain ⟨out, ho⟩ := key frames (fun _ h => h) s0
  rw [ho]
  exact ⟨_, rfl⟩

/-! ## C142, C143: units -/

/-- C142 (partial: the numbers of the ground truth file are taken for millimetres): an error is reported exactly when
the last treated frame has a ground truth, and it is the distance, in tenths, between the end pose and the numbers
written in the file, and the angle in degrees between the orientations. -/
theorem C142_error_partial {S : Type} (prog : Program S) (create : Pose → S) (start : ℕ) (keys : ℕ → Key)
    (frames : List Input) (report : Report) (h : run prog create start keys frames = .ok (some report)) :
    ∃ treated : List Input, UntilQuit keys (kept prog.jump start frames) treated ∧
      (report.error.isSome = true ↔ ∃ f g, treated.getLast? = some f ∧ f.truth = some g) ∧
      ∀ f g, treated.getLast? = some f → f.truth = some g → ∀ cm degrees, report.error = some (cm, degrees) →
        cm * 10 = Angles.positionError report.endPose (Pose.ofParameters g.1 g.2) ∧
        (UnitQuat report.endPose.orientation → UnitQuat g.2.normalized →
          Angles.Spec.IsAngleBetween report.endPose.orientation.toRotationMatrix g.2.normalized.toRotationMatrix
            (degrees * (Real.pi / 180))) := by
  obtain ⟨t, poses, s, out, h1, h2, h3, h4, hu, hd, rfl⟩ := run_spec h
  refine ⟨t, hu, ?_, ?_⟩
  · cases hl : t.getLast? with
    | none =>
      have ht : t = [] := by simpa using hl
      rw [(hd.none ht).1, h3]
      simp
    | some f =>
      rw [(hd.last f hl).1]
      cases hf : f.truth with
      | none =>
        simp only [Option.isSome_none, Bool.false_eq_true, if_false, false_iff]
        rintro ⟨f', g, e, hg⟩
        obtain rfl := Option.some.inj e
        rw [hf] at hg
        exact absurd hg (by simp)
      | some g =>
        simp only [Option.isSome_some, if_true, true_iff]
        exact ⟨f, g, rfl, hf⟩
  · intro f g hl hg cm degrees he
    obtain ⟨a, b⟩ := hd.last f hl
    obtain ⟨b1, b2⟩ := b g hg
    simp only at he ⊢
    rw [a, hg, Option.isSome_some, if_pos rfl] at he
    obtain ⟨e1, e2⟩ := Prod.mk.inj (Option.some.inj he)
    rw [← e1, ← e2, b1, b2]
    refine ⟨by ring, fun hu1 hu2 => C139_rotation_error out.pose (Pose.ofParameters g.1 g.2) hu1 hu2⟩

/-- A program of one frame, whose tracker answers the true pose of the camera, in millimetres. -/
noncomputable def perfect (g : V3 × Quat) : Program Unit :=
  { jump := 0, save := false, width := 2, height := 1, track := fun _ _ => .ok ((), truthPose g), xyz := fun _ => 0 }

/-- C142 is false of the code: a tracker that finds the true pose of the camera is reported to be wrong by almost the
distance of the camera to the origin. -/
theorem C142_error_false (g : V3 × Quat) :
    ∃ report, run (perfect g) (fun _ => ()) 0 (fun _ => .other) [⟨none, none, some g⟩] = .ok (some report) ∧
      report.endPose = truthPose g ∧ ∃ degrees, report.error = some (999 / 10 * Geometry.norm g.1, degrees) := by
  refine ⟨_, rfl, rfl, Angles.rotationError (truthPose g) (Pose.ofParameters g.1 g.2), ?_⟩
  have e : Angles.positionError (truthPose g) (Pose.ofParameters g.1 g.2) = 999 * Geometry.norm g.1 := by
    have e1 := (C139_position_error (truthPose g) (Pose.ofParameters g.1 g.2) Pose.default).1
    have e2 := (C139_position_error Pose.default (Pose.ofParameters g.1 g.2) Pose.default).1
    have e3 : Angles.positionError Pose.default (Pose.ofParameters g.1 g.2) = Geometry.norm g.1 := by
      simp [Angles.positionError, Pose.default, Pose.ofParameters]
    rw [e3] at e2
    have n1 : 0 ≤ Angles.positionError (truthPose g) (Pose.ofParameters g.1 g.2) := Real.sqrt_nonneg _
    have n2 : 0 ≤ Geometry.norm g.1 := Real.sqrt_nonneg _
    refine (pow_left_inj₀ n1 (mul_nonneg (by norm_num) n2) two_ne_zero).1 ?_
    rw [e1, mul_pow, e2]
    simp only [truthPose, Pose.ofParameters, Pose.default, Pi.zero_apply]
    ring
  have : Angles.positionError (truthPose g) (Pose.ofParameters g.1 g.2) / 10 = 999 / 10 * Geometry.norm g.1 := by
    rw [e]; ring
  rw [← this]
  rfl

/-- The camera one metre from the origin: an error of 99.9 centimetres. -/
example : ∃ report, run (perfect (![1, 0, 0], ⟨1, 0, 0, 0⟩)) (fun _ => ()) 0 (fun _ => .other)
    [⟨none, none, some (![1, 0, 0], ⟨1, 0, 0, 0⟩)⟩] = .ok (some report) ∧
    ∃ degrees, report.error = some (999 / 10, degrees) := by
  obtain ⟨r, h1, -, d, h3⟩ := C142_error_false (![1, 0, 0], ⟨1, 0, 0, 0⟩)
  refine ⟨r, h1, d, ?_⟩
  rw [h3, norm_of_unit (by simp [dotProduct, Fin.sum_univ_three]), mul_one]

/-- C143 (partial: the position is that of the file, without its unit): the tracker starts with the orientation of
the ground truth of the first element of the dataset, at the position written in the file; at the origin without it. -/
theorem C143_start_partial (f : Input) (rest : List Input) :
    (∀ g, f.truth = some g → (startPose (f :: rest)).orientation = (truthPose g).orientation ∧
      ∀ i, 1000 * (startPose (f :: rest)).position i = (truthPose g).position i) ∧
    (f.truth = none → startPose (f :: rest) = Pose.default) := by
  obtain ⟨rgb, depth, truth⟩ := f
  constructor
  · rintro g rfl
    exact ⟨rfl, fun i => rfl⟩
  · rintro rfl
    rfl

/-- C143 is false of the code: the tracker starts at the true pose of the camera only when the camera is at the
origin. -/
theorem C143_start_false (f : Input) (rest : List Input) (g : V3 × Quat) (hg : f.truth = some g) :
    startPose (f :: rest) = truthPose g ↔ g.1 = 0 := by
  obtain ⟨rgb, depth, truth⟩ := f
  obtain rfl := hg
  constructor
  · intro h
    have hp := congrArg Pose.position h
    funext i
    have := congrFun hp i
    simp only [startPose, List.head?_cons, truthPose, Pose.ofParameters] at this
    simp only [Pi.zero_apply]
    linarith
  · intro h
    simp only [startPose, List.head?_cons, truthPose, Pose.ofParameters, h]
    congr 1
    funext i
    simp

/-- A run of three frames with jump 2: two are treated, a line for each. -/
noncomputable def shortRun : Program ℕ :=
  { jump := 2, save := true, width := 2, height := 1
    track := fun s _ => .ok (s + 1, ⟨![s, 0, 0], ⟨1, 0, 0, 0⟩⟩), xyz := fun _ => 0 }

/-- Non-vacuity of C141 and C142. -/
example : ∃ report, run shortRun (fun _ => 0) 0 (fun _ => .other)
    [⟨none, none, none⟩, ⟨none, none, none⟩, ⟨none, none, some (0, ⟨1, 0, 0, 0⟩)⟩] = .ok (some report) ∧
    report.trajectory.length = 2 ∧ report.error.isSome = true ∧ report.endPose.position 0 = 1 := by
  refine ⟨_, rfl, rfl, rfl, ?_⟩
  show ((0 + 1 : ℕ) : ℝ) = 1
  norm_num

/-- The user quits after the first treated frame: one line. -/
example : ∃ report, run shortRun (fun _ => 0) 0 (fun _ => .quit)
    [⟨none, none, none⟩, ⟨none, none, none⟩, ⟨none, none, some (0, ⟨1, 0, 0, 0⟩)⟩] = .ok (some report) ∧
    report.trajectory.length = 1 ∧ report.error = none := by
  exact ⟨_, rfl, rfl, rfl⟩

end RgbdSlam.TumRun
