import Verif.Model.CapeRun
import Verif.Spec.CapeRun
import Verif.Props.Angles
import Mathlib.Tactic.NormNum
/-
C153: numbered datasets; C154: name of the trajectory file.
-/
namespace RgbdSlam.CapeRun

open Geometry Angles Spec
open Geometry.Spec (UnitQuat)
open TumRun (Image Colour Key Line checkUserInputs lineOf)

/-! ## C153 -/

theorem loadImages_iff (d : Dataset) (i : ℕ) (rgb : Image Colour) (depth : Image ℚ) :
    loadImages d i = some (rgb, depth) ↔ Present d i rgb depth := by
  unfold loadImages Present
  cases hr : d.rgb i <;> cases hd : d.depth i <;> simp [File.isValid, File.read]

theorem loadImages_none {d : Dataset} {i : ℕ} : loadImages d i = none ↔ ¬ ∃ rgb depth, Present d i rgb depth := by
  constructor
  · rintro h ⟨r, dp, hp⟩
    rw [(loadImages_iff ..).2 hp] at h
    exact absurd h (by simp)
  · intro h
    cases e : loadImages d i with
    | none => rfl
    | some p => exact absurd ⟨p.1, p.2, (loadImages_iff ..).1 e⟩ h

theorem frames_step {jump start e : ℕ} (h : start < e) : frames jump start e =
    if Wanted jump start then start :: frames jump (start + 1) e else frames jump (start + 1) e := by
  unfold frames
  obtain ⟨n, rfl⟩ : ∃ n, e = start + (n + 1) := ⟨e - start - 1, by omega⟩
  rw [show start + (n + 1) - start = n + 1 by omega, show start + (n + 1) - (start + 1) = n by omega, List.range'_succ]
  split_ifs with hw
  · rw [List.filter_cons_of_pos (by simpa using hw)]
  · rw [List.filter_cons_of_neg (by simpa using hw)]

theorem frames_end (jump e : ℕ) : frames jump e e = [] := by simp [frames]

theorem wanted_iff {jump i : ℕ} : Wanted jump i ↔ ¬ (0 < jump ∧ i % jump ≠ 0) := by
  unfold Wanted
  rw [Nat.dvd_iff_mod_eq_zero]
  omega

theorem prepare_spec {S : Type} {prog : Program S} {rgb : Image Colour} {file : Image ℚ} {images : Image Colour × Image ℚ}
    (h : prepare prog (rgb, file) = .ok images) :
    images.1 = rgb ∧ Rectified prog.rectify file images.2 ∧ rgb.rows = prog.height ∧ rgb.cols = prog.width ∧
      images.2.rows = prog.height ∧ images.2.cols = prog.width := by
  unfold prepare at h
  dsimp only at h
  split_ifs at h with h1 h2
  cases hr : prog.rectify file with
  | none =>
    rw [hr] at h
    obtain rfl := Outcome.ok.inj h
    exact ⟨rfl, Or.inr ⟨hr, rfl⟩, h1.2, h1.1, h2.2, h2.1⟩
  | some depth =>
    rw [hr] at h
    dsimp only at h
    split_ifs at h with h3
    obtain rfl := Outcome.ok.inj h
    exact ⟨rfl, Or.inl hr, h1.2, h1.1, h3.1.trans h2.2, h3.2.trans h2.1⟩

/-- What the loop did from a state `s`. -/
structure Did {S : Type} (prog : Program S) (keys : ℕ → Key) (d : Dataset) (e : ℕ) (s : Loop S) (t : List ℕ)
    (poses : List Pose) (out : Loop S) : Prop where
  tracked : Tracked prog.track prog.rectify prog.width prog.height d s.slam t poses out.slam
  lines : out.lines = s.lines ++ if prog.save then poses.map (lineOf prog.xyz) else []
  pose : out.pose = poses.getLast?.getD s.pose
  quit : ∀ i, t.getLast? = some i → keys (s.treated + (t.length - 1)) = .quit → out.frameIndex = i + 1
  done : (∀ n, n < t.length → keys (s.treated + n) ≠ .quit) → out.frameIndex = e

theorem Spec.EndsAt.next {d : Dataset} {jump start e : ℕ} (h : EndsAt d jump start e) (hl : start < e) :
    EndsAt d jump (start + 1) e :=
  ⟨hl, h.wanted, h.absent, fun i hi => h.first i (by omega)⟩

theorem loop_spec {S : Type} (prog : Program S) (keys : ℕ → Key) (d : Dataset) (e : ℕ) (he : e < 2 ^ 32) :
    ∀ (fuel : ℕ) (s out : Loop S), EndsAt d prog.jump s.frameIndex e → s.goOn = true →
    loop prog keys d fuel s = .ok out →
    ∃ t poses, UntilQuit (fun i => keys (s.treated + i)) (frames prog.jump s.frameIndex e) t ∧
      Did prog keys d e s t poses out
  | 0, s, out, _, _, h => by simp [loop] at h
  | fuel + 1, s, out, hd, hg, h => by
    unfold loop at h
    rw [if_neg (by simp [hg])] at h
    rcases Nat.lt_or_ge s.frameIndex e with hlt | hge
    · have hnext : (s.frameIndex + 1) % 2 ^ 32 = s.frameIndex + 1 := Nat.mod_eq_of_lt (by omega)
      rw [frames_step hlt]
      by_cases hw : Wanted prog.jump s.frameIndex
      · rw [if_neg (wanted_iff.1 hw)] at h
        rw [if_pos hw]
        obtain ⟨rgb, file, hp⟩ := hd.first _ le_rfl hlt hw
        rw [(loadImages_iff ..).2 hp] at h
        dsimp only at h
        obtain ⟨images, h1, h⟩ := Outcome.bind_eq_ok h
        obtain ⟨r, h2, h⟩ := Outcome.bind_eq_ok h
        obtain ⟨p1, p2, p3, p4, p5, p6⟩ := prepare_spec h1
        have h2' : prog.track s.slam (rgb, images.2) = .ok (r.1, r.2) := by rw [← p1]; exact h2
        by_cases hk : keys s.treated = .quit
        · have hout : out = record prog (keys s.treated) s r.1 r.2 := by
            cases fuel with
            | zero => simp [loop] at h
            | succ fuel =>
              unfold loop at h
              rw [if_pos (by simp [record, hk, checkUserInputs])] at h
              exact (Outcome.ok.inj h).symm
          refine ⟨[s.frameIndex], [r.2], ⟨⟨_, rfl⟩, fun i h => by simp at h, fun _ => ⟨0, rfl, hk⟩⟩, ?_⟩
          rw [hout]
          refine ⟨.cons hp p2 p3 p4 p5 p6 h2' (.nil _), ?_, rfl, ?_, ?_⟩
          · simp only [record]; split_ifs <;> simp
          · intro i hi _
            obtain rfl : s.frameIndex = i := by simpa using hi
            exact hnext
          · intro hn
            exact absurd hk (hn 0 (by simp))
        · have hgo : (record prog (keys s.treated) s r.1 r.2).goOn = true := by
            cases e : keys s.treated <;> simp_all [record, checkUserInputs]
          have hfi : (record prog (keys s.treated) s r.1 r.2).frameIndex = s.frameIndex + 1 := hnext
          obtain ⟨t, poses, hu, hd'⟩ := loop_spec prog keys d e he fuel (record prog (keys s.treated) s r.1 r.2) out
            (by rw [hfi]; exact hd.next hlt) hgo h
          rw [hfi] at hu
          have kshift : ∀ i, keys ((record prog (keys s.treated) s r.1 r.2).treated + i) = keys (s.treated + (i + 1)) :=
            fun i => congrArg keys (by simp only [record]; omega)
          refine ⟨s.frameIndex :: t, r.2 :: poses, ⟨List.cons_prefix_cons.2 ⟨rfl, hu.1⟩, ?_, ?_⟩,
            ⟨.cons hp p2 p3 p4 p5 p6 h2' hd'.tracked, ?_, ?_, ?_, ?_⟩⟩
          · intro i hi'
            cases i with
            | zero => exact hk
            | succ i => show keys _ ≠ _; rw [← kshift]; exact hu.2.1 i (by simpa using hi')
          · intro hl
            obtain ⟨i, h3, h4⟩ := hu.2.2 (by simpa using hl)
            exact ⟨i + 1, by simpa using h3, by show keys _ = _; rw [← kshift]; exact h4⟩
          · rw [hd'.lines]
            simp only [record]
            split_ifs <;> simp
          · rw [hd'.pose]
            simp only [record]
            cases poses with
            | nil => rfl
            | cons q poses => rw [List.getLast?_cons_cons, List.getLast?_cons]; rfl
          · intro i hi hq
            cases t with
            | nil => exact absurd hq (by simpa using hk)
            | cons j t =>
              rw [List.getLast?_cons_cons] at hi
              refine hd'.quit i hi ?_
              rw [kshift]
              simpa using hq
          · intro hn
            refine hd'.done fun n hl => ?_
            rw [kshift]
            exact hn (n + 1) (by simpa using hl)
      · rw [if_pos (by rw [wanted_iff] at hw; exact not_not.1 hw)] at h
        rw [if_neg hw]
        rw [hnext] at h
        obtain ⟨t, poses, hu, hd'⟩ := loop_spec prog keys d e he fuel { s with frameIndex := s.frameIndex + 1 } out
          (hd.next hlt) hg h
        exact ⟨t, poses, hu, ⟨hd'.tracked, hd'.lines, hd'.pose, hd'.quit, hd'.done⟩⟩
    · obtain rfl : s.frameIndex = e := le_antisymm hd.after hge
      rw [if_neg (wanted_iff.1 hd.wanted), loadImages_none.2 hd.absent] at h
      obtain rfl := Outcome.ok.inj h
      refine ⟨[], [], ⟨List.nil_prefix, fun i hi => by simp at hi, fun hl => by simp [frames_end] at hl⟩, .nil _, ?_, rfl,
        fun i hi => by simp at hi, fun _ => rfl⟩
      cases prog.save <;> simp

/-- C153 (partial: the index option must not be negative): the tracker is given, in order, every frame from the index
option on that the jump option keeps, up to the first one that lacks an image or to the one after which the user quits;
each with its own two images. The trajectory has a line for each, the end pose is the last one, and the frame reported
is the one that lacks an image, or the one that follows the last treated one when the user quits. -/
theorem C153_frames_partial {S : Type} (prog : Program S) (create : Pose → S) (start e : ℕ) (keys : ℕ → Key)
    (d : Dataset) (fuel : ℕ) (hx : Angles.Spec.IsXyz prog.xyz) (he : e < 2 ^ 32) (hd : EndsAt d prog.jump start e)
    (report : Report) (h : run prog create start keys d fuel = .ok report) :
    ∃ (treated : List ℕ) (poses : List Pose) (final : S),
      UntilQuit keys (frames prog.jump start e) treated ∧
      Tracked prog.track prog.rectify prog.width prog.height d (create Pose.default) treated poses final ∧
      report.endPose = poses.getLast?.getD Pose.default ∧
      (prog.save = false → report.trajectory = []) ∧
      (prog.save = true → List.Forall₂ (fun line p => line.position = p.position ∧
        (UnitQuat p.orientation → matrixOf line.angles = p.orientation.toRotationMatrix)) report.trajectory poses) ∧
      (∀ i, treated.getLast? = some i → keys (treated.length - 1) = .quit → report.frame = i + 1) ∧
      ((∀ n, n < treated.length → keys n ≠ .quit) → report.frame = e) := by
  unfold run at h
  have hs : (((start : ℕ) : ℤ) % 2 ^ 32).toNat = start := by have := hd.after; omega
  rw [hs] at h
  generalize h0 : (Loop.mk (create Pose.default) Pose.default true start 0 [] : Loop S) = s0 at h
  have hslam : s0.slam = create Pose.default := by rw [← h0]
  have hpose : s0.pose = Pose.default := by rw [← h0]
  have hgo : s0.goOn = true := by rw [← h0]
  have hfi : s0.frameIndex = start := by rw [← h0]
  have htr : s0.treated = 0 := by rw [← h0]
  have hli : s0.lines = [] := by rw [← h0]
  cases hl : loop prog keys d fuel s0 with
  | ok out =>
    rw [hl] at h
    obtain rfl := Outcome.ok.inj h
    obtain ⟨t, poses, hu, hd'⟩ := loop_spec prog keys d e he fuel s0 out (hfi ▸ hd) hgo hl
    rw [hfi, htr] at hu
    simp only [Nat.zero_add] at hu
    refine ⟨t, poses, out.slam, hu, hslam ▸ hd'.tracked, hpose ▸ hd'.pose, ?_, ?_, ?_, ?_⟩
    · intro hs
      simp [hd'.lines, hli, hs]
    · intro hs
      simp only
      rw [hd'.lines, hli, hs, if_pos rfl, List.nil_append, List.forall₂_map_left_iff]
      exact List.forall₂_same.2 fun p _ => ⟨rfl, fun hp => C138_euler_round_trip _ hx _ hp⟩
    · intro i hi hq
      exact hd'.quit i hi (by rw [htr, Nat.zero_add]; exact hq)
    · intro hn
      exact hd'.done fun n hl => by rw [htr, Nat.zero_add]; exact hn n hl
  | _ => rw [hl] at h; exact absurd h (by simp [Outcome.map, Outcome.bind])

theorem loop_ends {S : Type} (prog : Program S) (keys : ℕ → Key) (d : Dataset) (e : ℕ) (he : e < 2 ^ 32)
    (himages : ∀ i rgb depth, Present d i rgb depth → rgb.rows = prog.height ∧ rgb.cols = prog.width ∧
      depth.rows = prog.height ∧ depth.cols = prog.width)
    (hrect : ∀ a b, prog.rectify a = some b → b.rows = a.rows ∧ b.cols = a.cols)
    (htrack : ∀ s images, ∃ r, prog.track s images = .ok r) :
    ∀ (fuel : ℕ) (s : Loop S), EndsAt d prog.jump s.frameIndex e → e - s.frameIndex + 1 < fuel →
      ∃ out, loop prog keys d fuel s = .ok out
  | 0, s, _, hf => by omega
  | fuel + 1, s, hd, hf => by
    unfold loop
    by_cases hg : s.goOn = true
    · rw [if_neg (by simp [hg])]
      rcases Nat.lt_or_ge s.frameIndex e with hlt | hge
      · have hnext : (s.frameIndex + 1) % 2 ^ 32 = s.frameIndex + 1 := Nat.mod_eq_of_lt (by omega)
        by_cases hw : Wanted prog.jump s.frameIndex
        · rw [if_neg (wanted_iff.1 hw)]
          obtain ⟨rgb, file, hp⟩ := hd.first _ le_rfl hlt hw
          rw [(loadImages_iff ..).2 hp]
          dsimp only
          obtain ⟨a1, a2, a3, a4⟩ := himages _ _ _ hp
          have hprep : ∃ images, prepare prog (rgb, file) = .ok images := by
            unfold prepare
            dsimp only
            rw [if_neg (by simp [a1, a2]), if_neg (by simp [a3, a4])]
            cases hr : prog.rectify file with
            | none => exact ⟨_, rfl⟩
            | some b =>
              dsimp only
              rw [if_pos (hrect _ _ hr)]
              exact ⟨_, rfl⟩
          obtain ⟨images, hprep⟩ := hprep
          obtain ⟨r, hr⟩ := htrack s.slam images
          rw [hprep, Outcome.bind_ok, hr, Outcome.bind_ok]
          have hfi : (record prog (keys s.treated) s r.1 r.2).frameIndex = s.frameIndex + 1 := hnext
          exact loop_ends prog keys d e he himages hrect htrack fuel _ (by rw [hfi]; exact hd.next hlt)
            (by rw [hfi]; omega)
        · rw [if_pos (by rw [wanted_iff] at hw; exact not_not.1 hw), hnext]
          exact loop_ends prog keys d e he himages hrect htrack fuel _ (hd.next hlt) (by dsimp only; omega)
      · obtain rfl : s.frameIndex = e := le_antisymm hd.after hge
        rw [if_neg (wanted_iff.1 hd.wanted), loadImages_none.2 hd.absent]
        exact ⟨_, rfl⟩
    · rw [if_pos (by simpa using hg)]
      exact ⟨_, rfl⟩

/-- C153: the program ends when the dataset does, if its images have the size of the camera and the tracker answers. -/
theorem C153_ends {S : Type} (prog : Program S) (create : Pose → S) (start e : ℕ) (keys : ℕ → Key) (d : Dataset)
    (he : e < 2 ^ 32) (hd : EndsAt d prog.jump start e)
    (himages : ∀ i rgb depth, Present d i rgb depth → rgb.rows = prog.height ∧ rgb.cols = prog.width ∧
      depth.rows = prog.height ∧ depth.cols = prog.width)
    (hrect : ∀ a b, prog.rectify a = some b → b.rows = a.rows ∧ b.cols = a.cols)
    (htrack : ∀ s images, ∃ r, prog.track s images = .ok r) :
    ∃ bound, ∀ fuel, bound ≤ fuel → ∃ report, run prog create start keys d fuel = .ok report := by
  refine ⟨e - start + 2, fun fuel hf => ?_⟩
  unfold run
  have hs : (((start : ℕ) : ℤ) % 2 ^ 32).toNat = start := by have := hd.after; omega
  rw [hs]
  generalize h0 : (Loop.mk (create Pose.default) Pose.default true start 0 [] : Loop S) = s0
  have hfi : s0.frameIndex = start := by rw [← h0]
  obtain ⟨out, ho⟩ := loop_ends prog keys d e he himages hrect htrack fuel s0 (hfi ▸ hd) (by omega)
  rw [ho]
  exact ⟨_, rfl⟩

/-- C153 is false of the code for a negative index: a dataset with frames from 0 on, whose first frame at or after the
index is there, of which no frame is treated. -/
theorem C153_negative_false {S : Type} (prog : Program S) (create : Pose → S) (keys : ℕ → Key) (hj : prog.jump = 0)
    (rgb : Image Colour) (depth : Image ℚ) :
    ∃ d : Dataset, (∀ i, i < 1000 → Present d i rgb depth) ∧ ∀ fuel, 0 < fuel →
      run prog create (-1) keys d fuel = .ok { endPose := Pose.default, frame := 4294967295, trajectory := [] } := by
  refine ⟨⟨fun i => if i < 1000 then .image rgb else .missing, fun i => if i < 1000 then .image depth else .missing⟩,
    fun i hi => ⟨by simp [hi], by simp [hi]⟩, fun fuel hf => ?_⟩
  obtain ⟨n, rfl⟩ : ∃ n, fuel = n + 1 := ⟨fuel - 1, by omega⟩
  unfold run loop
  simp [hj, loadImages, File.isValid, Outcome.map, Outcome.bind]

/-- Non-vacuity: frames 0 to 9, except that frame 7 lacks its depth; with a jump of 2 the end is frame 10, and without
it frame 7. -/
example : ∃ d : Dataset, EndsAt d 2 1 10 ∧ frames 2 1 10 = [2, 4, 6, 8] ∧ EndsAt d 0 1 7 ∧
    frames 0 1 7 = [1, 2, 3, 4, 5, 6] := by
  refine ⟨⟨fun i => if i < 10 then .image ⟨1, 1, fun _ _ => (1, 2, 3)⟩ else .missing,
    fun i => if i = 7 then .unreadable else if i < 10 then .image ⟨1, 1, fun _ _ => 5⟩ else .missing⟩,
    ⟨by omega, by decide, ?_, ?_⟩, by decide, ⟨by omega, by decide, ?_, ?_⟩, by decide⟩
  · rintro ⟨r, dp, h, -⟩
    simp at h
  · rintro i - hi hw
    have : i ≠ 7 := by rintro rfl; exact absurd hw (by decide)
    exact ⟨_, _, if_pos hi, (if_neg this).trans (if_pos hi)⟩
  · rintro ⟨r, dp, -, h⟩
    simp at h
  · rintro i - hi -
    have h7 : i ≠ 7 := by omega
    have h10 : i < 10 := by omega
    exact ⟨_, _, if_pos h10, (if_neg h7).trans (if_pos h10)⟩

/-- Non-vacuity: three frames, and a tracker that counts them and answers; the program ends with a report. -/
example : ∃ (prog : Program ℕ) (d : Dataset) (report : Report) (fuel : ℕ), EndsAt d prog.jump 0 3 ∧ prog.save = true ∧
    run prog (fun _ => 0) (0 : ℕ) (fun _ => .other) d fuel = .ok report := by
  let d : Dataset := ⟨fun i => if i < 3 then .image ⟨1, 1, fun _ _ => (1, 2, 3)⟩ else .missing,
    fun i => if i < 3 then .image ⟨1, 1, fun _ _ => 5⟩ else .missing⟩
  let prog : Program ℕ := ⟨0, true, 1, 1, fun _ => none, fun n _ => .ok (n + 1, Pose.default), fun _ => 0⟩
  have hd : EndsAt d prog.jump 0 3 := by
    refine ⟨by omega, Or.inl rfl, ?_, fun i _ hi _ => ⟨_, _, if_pos hi, if_pos hi⟩⟩
    rintro ⟨r, dp, h, -⟩
    simp [d] at h
  obtain ⟨bound, h⟩ := C153_ends prog (fun _ => 0) 0 3 (fun _ => .other) d (by norm_num) hd
    (fun i rgb depth hp => by
      obtain ⟨h1, h2⟩ := hp
      by_cases hi : i < 3
      · simp only [d, if_pos hi, File.image.injEq] at h1 h2
        subst h1 h2
        exact ⟨rfl, rfl, rfl, rfl⟩
      · simp [d, hi] at h1)
    (fun a b h => by simp [prog] at h) (fun s images => ⟨_, rfl⟩)
  obtain ⟨report, hr⟩ := h bound le_rfl
  exact ⟨prog, d, report, bound, hd, rfl, hr⟩

/-! ## C154 -/

theorem number_inj {a b : ℕ} (h : number a = number b) : a = b := by
  have := congrArg (fun l => Nat.ofDigitChars 10 l 0) h
  simpa [number, Nat.ofDigitChars_ten_toDigits] using this

theorem number_digits {n : ℕ} {c : Char} (h : c ∈ number n) : c.isDigit = true :=
  Nat.isDigit_of_mem_toDigits (by decide) (by decide) h

theorem split_inj {c : Char} {x y : List Char} : ∀ {a b : List Char}, c ∉ a → c ∉ b → a ++ c :: x = b ++ c :: y →
    a = b ∧ x = y
  | [], [], _, _, h => ⟨rfl, (List.cons.inj h).2⟩
  | [], d :: b, _, hb, h => absurd (List.cons.inj h).1 (fun e => hb (by simp [e]))
  | d :: a, [], ha, _, h => absurd (List.cons.inj h).1 (fun e => ha (by simp [e]))
  | d :: a, f :: b, ha, hb, h => by
    obtain ⟨h1, h2⟩ := List.cons.inj h
    obtain ⟨h3, h4⟩ := split_inj (fun hm => ha (List.mem_cons_of_mem _ hm)) (fun hm => hb (List.mem_cons_of_mem _ hm)) h2
    exact ⟨by rw [h1, h3], h4⟩

theorem number_split {a b : ℕ} {c : Char} {x y : List Char} (hc : c.isDigit = false)
    (h : number a ++ c :: x = number b ++ c :: y) : a = b ∧ x = y := by
  have ha : c ∉ number a := fun hm => by rw [number_digits hm] at hc; simp at hc
  have hb : c ∉ number b := fun hm => by rw [number_digits hm] at hc; simp at hc
  obtain ⟨h1, h2⟩ := split_inj ha hb h
  exact ⟨number_inj h1, h2⟩

theorem dateAndTime_inj {s t : Tm} (h : dateAndTime s = dateAndTime t) : s = t := by
  unfold dateAndTime at h
  obtain ⟨h1, h⟩ := number_split (by decide) h
  obtain ⟨h2, h⟩ := number_split (by decide) h
  obtain ⟨h3, h⟩ := number_split (by decide) h
  obtain ⟨h4, h⟩ := number_split (by decide) h
  obtain ⟨h5, h⟩ := number_split (by decide) h
  have h6 := number_inj h
  cases s; cases t
  simp only [Tm.mk.injEq] at *
  omega

theorem split_last_inj {c : Char} {x y a b : List Char} (hx : c ∉ x) (hy : c ∉ y) (h : a ++ c :: x = b ++ c :: y) :
    a = b ∧ x = y := by
  have h' := congrArg List.reverse h
  simp only [List.reverse_append, List.reverse_cons, List.append_assoc, List.singleton_append] at h'
  obtain ⟨h1, h2⟩ := split_inj (by simpa using hx) (by simpa using hy) h'
  exact ⟨List.reverse_injective h2, List.reverse_injective h1⟩

theorem number_not {n : ℕ} {c : Char} (hc : c.isDigit = false) : c ∉ number n := fun h => by
  rw [number_digits h] at hc
  cases hc

/-- What precedes the date is found again. -/
theorem dated_inj {a b : List Char} {s t : Tm} (h : a ++ '_' :: dateAndTime s = b ++ '_' :: dateAndTime t) :
    a = b ∧ s = t := by
  have e : ∀ (a : List Char) (s : Tm), a ++ '_' :: dateAndTime s =
      (a ++ '_' :: (number (1900 + s.year) ++ '-' :: (number (1 + s.mon) ++ '-' :: number s.mday))) ++ '_' ::
        (number (1 + s.hour) ++ ':' :: (number (1 + s.min) ++ ':' :: number (1 + s.sec))) := by
    intro a s
    simp [dateAndTime]
  have h0 := h
  rw [e, e] at h
  have hn : ∀ n, '_' ∉ number n := fun n => number_not (by decide)
  obtain ⟨h1, h2⟩ := split_last_inj (by simp [hn]) (by simp [hn]) h
  obtain ⟨h3, -⟩ := split_last_inj (by simp [hn]) (by simp [hn]) h1
  subst h3
  exact ⟨rfl, dateAndTime_inj (List.cons.inj (List.append_cancel_left h0)).2⟩

/-- C154 (partial: the hour, the minute and the second in the name are one too many): a run never writes in the
trajectory file of a run of another dataset or started at another second. -/
theorem C154_names_partial (dataset other : List Char) (s t : Tm) :
    (capeFile dataset s = capeFile other t ↔ dataset = other ∧ s = t) ∧
    (tumFile dataset s = tumFile other t ↔ dataset = other ∧ s = t) := by
  refine ⟨⟨fun h => ?_, fun ⟨h, h'⟩ => by rw [h, h']⟩, ⟨fun h => ?_, fun ⟨h, h'⟩ => by rw [h, h']⟩⟩
  · have h' := List.append_cancel_right h
    rw [show "_mat_".toList = "_mat".toList ++ ['_'] by decide, ← List.append_assoc, ← List.append_assoc,
      List.append_assoc _ ['_'], List.append_assoc _ ['_']] at h'
    obtain ⟨h1, h2⟩ := dated_inj h'
    exact ⟨List.append_cancel_left (List.append_cancel_right h1), h2⟩
  · have h' := List.append_cancel_right h
    rw [show "_".toList = ['_'] by decide, List.append_assoc _ ['_'], List.append_assoc _ ['_']] at h'
    obtain ⟨h1, h2⟩ := dated_inj h'
    exact ⟨List.append_cancel_left h1, h2⟩

/-- C154 (partial): the date in the name is right, and the time is one hour, one minute and one second late. -/
theorem C154_shifted_partial (t : Tm) :
    dateAndTime t = stamp { t with hour := t.hour + 1, min := t.min + 1, sec := t.sec + 1 } := by
  unfold dateAndTime stamp number
  simp [Nat.add_comm]
  rfl

/-- C154 is false of the code: a file opened at 23:59:59 on 31 December 2025 has a name with the time 24:60:60. -/
theorem C154_time_false : ∃ t : Tm, t.hour ≤ 23 ∧ t.min ≤ 59 ∧ t.sec ≤ 59 ∧
    dateAndTime t = "2025-12-31_24:60:60".toList ∧ stamp t = "2025-12-31_23:59:59".toList :=
  ⟨⟨125, 11, 31, 23, 59, 59⟩, by decide, by decide, by decide, by decide, by decide⟩

/-- Non-vacuity: two names. -/
example : capeFile "a".toList ⟨125, 0, 1, 0, 0, 0⟩ ≠ capeFile "b".toList ⟨125, 0, 1, 0, 0, 0⟩ := by decide

end RgbdSlam.CapeRun
