import Verif.Props.CapeRun
/-
C214 for examples/main_CAPE.cpp: what a run reports of its first frames depends neither on what follows, nor on the way it
is stopped, nor on the option that saves the poses.
-/
namespace RgbdSlam.CapeRun.Prefix

open Geometry Angles
open TumRun (Image Colour Key Line checkUserInputs lineOf)

variable {S : Type}

theorem record_lines (prog : Program S) (key : Key) (s : Loop S) (slam : S) (pose : Pose) :
    s.lines <+: (record prog key s slam pose).lines := by
  unfold record
  dsimp only
  split_ifs
  · exact List.prefix_append _ _
  · exact List.prefix_rfl

theorem loop_lines (prog : Program S) (keys : ℕ → Key) (d : Dataset) (fuel : ℕ) {s out : Loop S}
    (h : loop prog keys d fuel s = .ok out) : s.lines <+: out.lines := by
  induction fuel generalizing s with
  | zero => cases h
  | succ fuel ih =>
    rw [loop] at h
    split_ifs at h
    · have h := ih h
      exact h
    · cases e : loadImages d s.frameIndex with
      | none =>
        rw [e] at h
        obtain rfl := Outcome.ok.inj h
        exact List.prefix_rfl
      | some images =>
        rw [e] at h
        obtain ⟨images, -, h⟩ := Outcome.bind_eq_ok h
        obtain ⟨r, -, h⟩ := Outcome.bind_eq_ok h
        exact (record_lines _ _ _ _ _).trans (ih h)
    · obtain rfl := Outcome.ok.inj h
      exact List.prefix_rfl

theorem loop_prefix (prog : Program S) {keys keys' : ℕ → Key} (hk : ∀ n, keys' n = .quit → keys n = .quit)
    {d d' : Dataset} (hd : ∀ i images, loadImages d i = some images → loadImages d' i = some images) (fuel : ℕ)
    {s out : Loop S} (hs : s.goOn = true) (h : loop prog keys' d' fuel s = .ok out) :
    ∃ a, loop prog keys d fuel s = .ok a ∧ a.lines <+: out.lines := by
  induction fuel generalizing s with
  | zero => cases h
  | succ fuel ih =>
    have hl := loop_lines prog keys' d' (fuel + 1) h
    by_cases hj : 0 < prog.jump ∧ s.frameIndex % prog.jump ≠ 0
    · rw [loop, if_neg (not_not_intro hs), if_pos hj] at h ⊢
      exact ih hs h
    · rw [loop, if_neg (not_not_intro hs), if_neg hj] at h ⊢
      cases e : loadImages d s.frameIndex with
      | none => exact ⟨s, rfl, hl⟩
      | some images =>
        rw [hd _ _ e] at h
        dsimp only at h ⊢
        obtain ⟨images', h1, h⟩ := Outcome.bind_eq_ok h
        obtain ⟨r, h2, h⟩ := Outcome.bind_eq_ok h
        rw [h1, Outcome.bind_ok, h2, Outcome.bind_ok]
        by_cases hq : keys s.treated = .quit
        · refine ⟨record prog (keys s.treated) s r.1 r.2, ?_, (loop_lines prog keys' d' fuel h :)⟩
          cases fuel with
          | zero => cases h
          | succ fuel => rw [loop, if_pos (by simp [record, hq, checkUserInputs])]
        · have hg : ∀ key, key ≠ Key.quit → checkUserInputs s.goOn key = true := by
            intro key hkey
            cases key with
            | quit => exact absurd rfl hkey
            | pause => exact hs
            | other => exact hs
          have hr : record prog (keys s.treated) s r.1 r.2 = record prog (keys' s.treated) s r.1 r.2 := by
            unfold record
            rw [hg _ hq, hg _ fun e => hq (hk _ e)]
          rw [hr]
          exact ih (hg _ fun e => hq (hk _ e)) h

/-- C214 for the numbered images: when images are added to a dataset, or when the user does not stop the run where they
did, or later, the lines that were written are the first lines; and if the longer run ends without error, so does the
shorter one. -/
theorem C214_numbered_images (prog : Program S) (create : Pose → S) (start : ℤ) (keys keys' : ℕ → Key)
    (hk : ∀ n, keys' n = .quit → keys n = .quit) (d d' : Dataset)
    (hd : ∀ i images, loadImages d i = some images → loadImages d' i = some images) (fuel : ℕ) (full : Report)
    (h : run prog create start keys' d' fuel = .ok full) :
    ∃ report, run prog create start keys d fuel = .ok report ∧ report.trajectory <+: full.trajectory := by
  unfold run at h ⊢
  obtain ⟨out, h1, h2⟩ := Outcome.bind_eq_ok h
  obtain rfl := Outcome.ok.inj h2
  obtain ⟨a, h3, h4⟩ := loop_prefix prog hk hd fuel rfl h1
  rw [h3]
  exact ⟨_, rfl, h4⟩

/-- A dataset of `n` images of one pixel. -/
def pixels (n : ℕ) : Dataset :=
  ⟨fun i => if i < n then .image ⟨1, 1, fun _ _ => (1, 2, 3)⟩ else .missing,
    fun i => if i < n then .image ⟨1, 1, fun _ _ => 5⟩ else .missing⟩

/-- A tracker that counts the frames. -/
def counter : Program ℕ := ⟨0, true, 1, 1, fun _ => none, fun n _ => .ok (n + 1, ⟨![n, 0, 0], ⟨1, 0, 0, 0⟩⟩), fun _ => 0⟩

/-- Non-vacuity: three images, then five; the user stops the first run after one frame. -/
example : ∃ report full, run counter (fun _ => 0) 0 (fun _ => .quit) (pixels 3) 9 = .ok report ∧
    run counter (fun _ => 0) 0 (fun _ => .other) (pixels 5) 9 = .ok full ∧ report.trajectory.length = 1 ∧
    full.trajectory.length = 5 ∧ report.trajectory <+: full.trajectory := by
  obtain ⟨r, h, hp⟩ := C214_numbered_images counter (fun _ => 0) 0 (fun _ => .quit) (fun _ => .other) (fun _ h => by cases h)
    (pixels 3) (pixels 5) (fun i images h => by
      by_cases hi : i < 3
      · have h5 : i < 5 := by omega
        simp only [loadImages, pixels, if_pos hi, if_pos h5] at h ⊢
        exact h
      · simp [loadImages, pixels, if_neg hi, File.isValid] at h) 9 _ rfl
  obtain rfl := Outcome.ok.inj h
  exact ⟨_, _, h, rfl, rfl, rfl, hp⟩

theorem map_bind' {α β γ : Type} (o : Outcome α) (f : α → Outcome β) (g : β → γ) :
    (o.bind f).map g = o.bind fun a => (f a).map g := by
  cases o <;> rfl

/-- The state of the loop without its lines. -/
def unsaved (s : Loop S) : Loop S := { s with lines := [] }

theorem loop_save (prog : Program S) (keys : ℕ → Key) (save : Bool) (d : Dataset) (fuel : ℕ) (s t : Loop S)
    (h : unsaved s = unsaved t) :
    (loop prog keys d fuel s).map unsaved = (loop { prog with save := save } keys d fuel t).map unsaved := by
  induction fuel generalizing s t with
  | zero => rfl
  | succ fuel ih =>
    have h1 : s.goOn = t.goOn := (congrArg Loop.goOn h :)
    have h2 : s.frameIndex = t.frameIndex := (congrArg Loop.frameIndex h :)
    have h3 : s.slam = t.slam := (congrArg Loop.slam h :)
    have h4 : s.treated = t.treated := (congrArg Loop.treated h :)
    have h5 : s.pose = t.pose := (congrArg Loop.pose h :)
    rw [loop, loop]
    dsimp only
    rw [h1, h2]
    split_ifs
    · refine ih _ _ ?_
      simp only [unsaved, h3, h4, h5]
    · cases loadImages d t.frameIndex with
      | none => exact congrArg Outcome.ok h
      | some images =>
        dsimp only
        rw [map_bind', map_bind']
        have hp : prepare { prog with save := save } images = prepare prog images := rfl
        rw [hp]
        congr 1
        funext images
        rw [map_bind', map_bind', h3, h4]
        congr 1
        funext r
        refine ih _ _ ?_
        simp only [unsaved, record, h1, h2, h4]
    · exact congrArg Outcome.ok h

/-- C214 for the numbered images: saving the poses does not change them: with and without the option, the run ends in the
same way, at the same frame and with the same last pose. -/
theorem C214_numbered_images_saving (prog : Program S) (create : Pose → S) (start : ℤ) (keys : ℕ → Key) (d : Dataset)
    (fuel : ℕ) (save : Bool) :
    (run { prog with save := save } create start keys d fuel).map (fun r => (r.endPose, r.frame)) =
      (run prog create start keys d fuel).map (fun r => (r.endPose, r.frame)) := by
  unfold run
  have e := loop_save prog keys save d fuel
    { slam := create Pose.default, pose := Pose.default, goOn := true, frameIndex := (start % 2 ^ 32).toNat,
      treated := 0, lines := [] } _ rfl
  generalize loop prog keys d fuel _ = o at e ⊢
  generalize loop { prog with save := save } keys d fuel _ = o' at e ⊢
  cases o with
  | ok s =>
    cases o' with
    | ok s' =>
      have e := Outcome.ok.inj e
      have h1 : s.frameIndex = s'.frameIndex := (congrArg Loop.frameIndex e :)
      have h2 : s.pose = s'.pose := (congrArg Loop.pose e :)
      simp only [Outcome.map, Outcome.bind, h1, h2]
    | _ => cases e
  | _ => cases o' <;> first | rfl | cases e

end RgbdSlam.CapeRun.Prefix
