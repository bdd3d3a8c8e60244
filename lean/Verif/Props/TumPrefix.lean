import Verif.Props.TumRun
/-
C214: what a run of examples/main_TUM.cpp reports of its first frames depends neither on what follows, nor on the way it
is stopped, nor on the option that saves the poses.
-/
namespace RgbdSlam.TumRun.Prefix

open Geometry Angles

variable {S : Type}

theorem bind_assoc' {α β γ : Type} (o : Outcome α) (f : α → Outcome β) (g : β → Outcome γ) :
    (o.bind f).bind g = o.bind fun a => (f a).bind g := by
  cases o <;> rfl

theorem map_bind' {α β γ : Type} (o : Outcome α) (f : α → Outcome β) (g : β → γ) :
    (o.bind f).map g = o.bind fun a => (f a).map g := by
  cases o <;> rfl

theorem loop_stopped (prog : Program S) (keys : ℕ → Key) (fs : List Input) {s : Loop S} (h : s.goOn = false) :
    loop prog keys fs s = .ok s := by
  cases fs with
  | nil => rfl
  | cons f fs => rw [loop, if_pos (by simp [h])]

theorem loop_append (prog : Program S) (keys : ℕ → Key) (a b : List Input) (s : Loop S) :
    loop prog keys (a ++ b) s = (loop prog keys a s).bind (loop prog keys b) := by
  induction a generalizing s with
  | nil => rfl
  | cons f a ih =>
    rw [List.cons_append, loop, loop]
    split_ifs with h1 h2
    · exact ih _
    · rw [bind_assoc']
      congr 1
      funext images
      rw [bind_assoc']
      congr 1
      funext r
      exact ih _
    · rw [Outcome.bind_ok, loop_stopped prog keys b (by simpa using h1)]

theorem loop_lines (prog : Program S) (keys : ℕ → Key) (fs : List Input) {s out : Loop S}
    (h : loop prog keys fs s = .ok out) : s.lines <+: out.lines := by
  induction fs generalizing s with
  | nil =>
    obtain rfl := Outcome.ok.inj h
    exact List.prefix_rfl
  | cons f fs ih =>
    rw [loop] at h
    split_ifs at h
    · have h := ih h
      exact h
    · obtain ⟨images, -, h⟩ := Outcome.bind_eq_ok h
      obtain ⟨r, -, h⟩ := Outcome.bind_eq_ok h
      refine List.IsPrefix.trans ?_ (ih h)
      unfold record
      dsimp only
      split_ifs
      · exact List.prefix_append _ _
      · exact List.prefix_rfl
    · obtain rfl := Outcome.ok.inj h
      exact List.prefix_rfl

/-- C214: frames added at the end of a dataset do not change what is written for the first ones: when the run on the
longer dataset reports, so does the run on the shorter one, and its trajectory is the beginning of the other one. -/
theorem C214_causal (prog : Program S) (create : Pose → S) (start : ℕ) (keys : ℕ → Key) (frames more : List Input)
    (hne : frames ≠ []) (full : Report) (h : run prog create start keys (frames ++ more) = .ok (some full)) :
    ∃ report, run prog create start keys frames = .ok (some report) ∧ report.trajectory <+: full.trajectory := by
  obtain ⟨f, fs, rfl⟩ := List.exists_cons_of_ne_nil hne
  have hs : startPose (f :: fs ++ more) = startPose (f :: fs) := rfl
  unfold run at h ⊢
  rw [if_neg (by simp)] at h ⊢
  dsimp only at h ⊢
  rw [hs, loop_append] at h
  generalize loop prog keys (f :: fs) _ = o at h ⊢
  cases o with
  | ok s =>
    rw [Outcome.bind_ok] at h
    refine ⟨_, rfl, ?_⟩
    rcases e : loop prog keys more s with out | _ | _ | _ | _ | _
    · rw [e] at h
      obtain rfl := Option.some.inj (Outcome.ok.inj h)
      exact loop_lines prog keys more e
    all_goals
      rw [e] at h
      cases h
  | _ => cases h

/-- The state of the loop, once it is forgotten whether it goes on. -/
def running (s : Loop S) : Loop S := { s with goOn := true }

theorem loop_keys (prog : Program S) (keys : ℕ → Key) (fs : List Input) (s : Loop S) (h : s.goOn = true) :
    ∃ n, (fs ≠ [] → 0 < n) ∧
      (loop prog keys fs s).map running = (loop prog (fun _ => .other) (fs.take n) s).map running := by
  induction fs generalizing s with
  | nil => exact ⟨0, by simp, rfl⟩
  | cons f fs ih =>
    by_cases hj : 0 < prog.jump ∧ s.frameIndex % prog.jump ≠ 0
    · obtain ⟨n, -, e⟩ := ih { s with frameIndex := (s.frameIndex + 1) % 2 ^ 32 } h
      refine ⟨n + 1, by simp, ?_⟩
      rw [List.take_succ_cons, loop, loop, if_neg (not_not_intro h), if_neg (not_not_intro h), if_pos hj, if_pos hj]
      exact e
    · have step : ∀ (keys : ℕ → Key) (gs : List Input), loop prog keys (f :: gs) s =
          (prepare prog.width prog.height f).bind fun images => (prog.track s.slam images).bind fun r =>
            loop prog keys gs (record prog (keys s.treated) f s r.1 r.2) := by
        intro keys gs
        rw [loop, if_neg (not_not_intro h), if_neg hj]
      rcases hp : prepare prog.width prog.height f with images | _ | _ | _ | _ | _
      · rcases ht : prog.track s.slam images with r | _ | _ | _ | _ | _
        · by_cases hk : keys s.treated = .quit
          · refine ⟨1, by simp, ?_⟩
            rw [List.take_succ_cons, step, step, hp, Outcome.bind_ok, Outcome.bind_ok, ht, Outcome.bind_ok,
              Outcome.bind_ok, List.take_zero, loop_stopped prog keys fs (by simp [record, hk, checkUserInputs])]
            rfl
          · have hr : record prog (keys s.treated) f s r.1 r.2 = record prog .other f s r.1 r.2 := by
              unfold record
              cases e : keys s.treated with
              | quit => exact absurd e hk
              | pause => rfl
              | other => rfl
            obtain ⟨n, -, e⟩ := ih (record prog .other f s r.1 r.2) h
            refine ⟨n + 1, by simp, ?_⟩
            rw [List.take_succ_cons, step, step, hp, Outcome.bind_ok, Outcome.bind_ok, ht, Outcome.bind_ok,
              Outcome.bind_ok, hr]
            exact e
        all_goals
          refine ⟨1, by simp, ?_⟩
          rw [List.take_succ_cons, step, step, hp, Outcome.bind_ok, Outcome.bind_ok, ht]
          rfl
      all_goals
        refine ⟨1, by simp, ?_⟩
        rw [List.take_succ_cons, step, step, hp]
        rfl

/-- C214: a run that the user stops ends as if the dataset had ended there. -/
theorem C214_stopped (prog : Program S) (create : Pose → S) (start : ℕ) (keys : ℕ → Key) (frames : List Input) :
    ∃ n, (frames ≠ [] → 0 < n) ∧
      run prog create start keys frames = run prog create start (fun _ => .other) (frames.take n) := by
  rcases frames with _ | ⟨f, fs⟩
  · exact ⟨0, by simp, rfl⟩
  · obtain ⟨n, hn, e⟩ := loop_keys prog keys (f :: fs)
      { slam := create (startPose (f :: fs)), pose := startPose (f :: fs), goOn := true, frameIndex := start % 2 ^ 32,
        treated := 0, positionError := 0, rotationError := 0, truthAvailable := false, lines := [] } rfl
    obtain ⟨n, rfl⟩ := Nat.exists_eq_succ_of_ne_zero (hn (by simp)).ne'
    refine ⟨n + 1, by simp, ?_⟩
    rw [List.take_succ_cons] at e ⊢
    have hs : startPose (f :: fs.take n) = startPose (f :: fs) := rfl
    unfold run
    rw [if_neg (by simp), if_neg (by simp)]
    dsimp only
    rw [hs]
    generalize loop prog keys (f :: fs) _ = o at e ⊢
    generalize loop prog (fun _ => Key.other) (f :: fs.take n) _ = o' at e ⊢
    cases o with
    | ok s =>
      cases o' with
      | ok s' =>
        have e := Outcome.ok.inj e
        have h1 : s.truthAvailable = s'.truthAvailable := (congrArg Loop.truthAvailable e :)
        have h2 : s.positionError = s'.positionError := (congrArg Loop.positionError e :)
        have h3 : s.rotationError = s'.rotationError := (congrArg Loop.rotationError e :)
        have h4 : s.pose = s'.pose := (congrArg Loop.pose e :)
        have h5 : s.lines = s'.lines := (congrArg Loop.lines e :)
        simp only [Outcome.map, Outcome.bind, h1, h2, h3, h4, h5]
      | _ => cases e
    | _ => cases o' <;> first | rfl | cases e

/-- C214: the trajectory of a run that the user stops is the beginning of the trajectory of the whole run. -/
theorem C214_stopped_trajectory (prog : Program S) (create : Pose → S) (start : ℕ) (keys : ℕ → Key)
    (frames : List Input) (full : Report) (h : run prog create start (fun _ => .other) frames = .ok (some full)) :
    ∃ report, run prog create start keys frames = .ok (some report) ∧ report.trajectory <+: full.trajectory := by
  have hne : frames ≠ [] := by
    rintro rfl
    cases h
  obtain ⟨n, hn, e⟩ := C214_stopped prog create start keys frames
  rw [e]
  refine C214_causal prog create start _ (frames.take n) (frames.drop n) ?_ full ?_
  · obtain ⟨n, rfl⟩ := Nat.exists_eq_succ_of_ne_zero (hn hne).ne'
    obtain ⟨f, fs, rfl⟩ := List.exists_cons_of_ne_nil hne
    simp
  · rw [List.take_append_drop]
    exact h

/-- The run of three frames with one frame out of two is stopped after its first treated frame: one line instead of two,
the same one. -/
example : ∃ stopped full, run shortRun (fun _ => 0) 0 (fun _ => .quit)
      [⟨none, none, none⟩, ⟨none, none, none⟩, ⟨none, none, some (0, ⟨1, 0, 0, 0⟩)⟩] = .ok (some stopped) ∧
    run shortRun (fun _ => 0) 0 (fun _ => .other)
      [⟨none, none, none⟩, ⟨none, none, none⟩, ⟨none, none, some (0, ⟨1, 0, 0, 0⟩)⟩] = .ok (some full) ∧
    stopped.trajectory.length = 1 ∧ full.trajectory.length = 2 ∧ stopped.trajectory <+: full.trajectory := by
  obtain ⟨r, h, hp⟩ := C214_stopped_trajectory shortRun (fun _ => 0) 0 (fun _ => .quit)
    [⟨none, none, none⟩, ⟨none, none, none⟩, ⟨none, none, some (0, ⟨1, 0, 0, 0⟩)⟩] _ rfl
  obtain rfl := Option.some.inj (Outcome.ok.inj h)
  exact ⟨_, _, h, rfl, rfl, rfl, hp⟩

/-- The state of the loop without its lines. -/
def unsaved (s : Loop S) : Loop S := { s with lines := [] }

theorem loop_save (prog : Program S) (keys : ℕ → Key) (save : Bool) (fs : List Input) (s t : Loop S)
    (h : unsaved s = unsaved t) :
    (loop prog keys fs s).map unsaved = (loop { prog with save := save } keys fs t).map unsaved := by
  induction fs generalizing s t with
  | nil => exact congrArg Outcome.ok h
  | cons f fs ih =>
    have h1 : s.goOn = t.goOn := (congrArg Loop.goOn h :)
    have h2 : s.frameIndex = t.frameIndex := (congrArg Loop.frameIndex h :)
    have h3 : s.slam = t.slam := (congrArg Loop.slam h :)
    have h4 : s.treated = t.treated := (congrArg Loop.treated h :)
    have h5 : s.positionError = t.positionError := (congrArg Loop.positionError h :)
    have h6 : s.rotationError = t.rotationError := (congrArg Loop.rotationError h :)
    have h7 : s.pose = t.pose := (congrArg Loop.pose h :)
    have h8 : s.truthAvailable = t.truthAvailable := (congrArg Loop.truthAvailable h :)
    rw [loop, loop]
    dsimp only
    rw [h1, h2]
    split_ifs
    · refine ih _ _ ?_
      simp only [unsaved, h3, h4, h5, h6, h7, h8]
    · rw [map_bind', map_bind']
      congr 1
      funext images
      rw [map_bind', map_bind', h3, h4]
      congr 1
      funext r
      refine ih _ _ ?_
      simp only [unsaved, record, h1, h2, h4, h5, h6]
    · exact congrArg Outcome.ok h

/-- C214: saving the poses does not change them: with and without the option, the run ends in the same way, with the same
last pose and the same error. -/
theorem C214_saving (prog : Program S) (create : Pose → S) (start : ℕ) (keys : ℕ → Key) (frames : List Input)
    (save : Bool) :
    (run { prog with save := save } create start keys frames).map (Option.map fun r => (r.error, r.endPose)) =
      (run prog create start keys frames).map (Option.map fun r => (r.error, r.endPose)) := by
  unfold run
  split_ifs
  · rfl
  · dsimp only
    have e := loop_save prog keys save frames
      { slam := create (startPose frames), pose := startPose frames, goOn := true, frameIndex := start % 2 ^ 32,
        treated := 0, positionError := 0, rotationError := 0, truthAvailable := false, lines := [] } _ rfl
    generalize loop prog keys frames _ = o at e ⊢
    generalize loop { prog with save := save } keys frames _ = o' at e ⊢
    cases o with
    | ok s =>
      cases o' with
      | ok s' =>
        have e := Outcome.ok.inj e
        have h1 : s.truthAvailable = s'.truthAvailable := (congrArg Loop.truthAvailable e :)
        have h2 : s.positionError = s'.positionError := (congrArg Loop.positionError e :)
        have h3 : s.rotationError = s'.rotationError := (congrArg Loop.rotationError e :)
        have h4 : s.pose = s'.pose := (congrArg Loop.pose e :)
        simp only [Outcome.map, Outcome.bind, Option.map, h1, h2, h3, h4]
      | _ => cases e
    | _ => cases o' <;> first | rfl | cases e

end RgbdSlam.TumRun.Prefix
