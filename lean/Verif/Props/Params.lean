import Verif.Model.Params
import Verif.Spec.Params
/-
Property C05 (configuration) and C59 (cached intrinsics).
-/
namespace RgbdSlam.Params
open RgbdSlam.Spec.Params

private theorem camValid_ofFile (c : CamFile) (h : NonNegSizes c) :
    camValid (Cam.ofFile c) = true ↔ Usable c := by
  obtain ⟨h1, h2, h3, h4⟩ := h
  have e1 : toUint c.sizeX = c.sizeX.toNat := by
    unfold toUint; congr 1; exact Int.emod_eq_of_lt h1 (by omega)
  have e2 : toUint c.sizeY = c.sizeY.toNat := by
    unfold toUint; congr 1; exact Int.emod_eq_of_lt h3 (by omega)
  have hn : ∀ d : Dbl, d.isNeg = false ↔ ∀ q, d = .num q → 0 ≤ q := by
    intro d
    cases d with
    | nan => simp [Dbl.isNeg]
    | num q => simp [Dbl.isNeg, Rat.not_lt]
  simp only [camValid, Cam.ofFile, e1, e2, Usable, Bool.and_eq_true, Bool.not_eq_true',
    decide_eq_false_iff_not, hn]
  constructor
  · rintro ⟨⟨⟨ha, hb⟩, hc⟩, hd⟩; exact ⟨by omega, by omega, hc, hd⟩
  · rintro ⟨ha, hb, hc, hd⟩; exact ⟨⟨⟨by omega, by omega⟩, hc⟩, hd⟩

/-- C05 (part).  For files whose sizes are not negative `int`s, `parse_file` returns true exactly when
both cameras are usable.  Missing: negative sizes, see `C05_negative_size_accepted`. -/
theorem C05_parse_true_iff_usable_partial (s : State) (f1 f2 : CamFile)
    (h1 : NonNegSizes f1) (h2 : NonNegSizes f2) :
    (parseFile (some (f1, f2)) s).2 = true ↔ Usable f1 ∧ Usable f2 := by
  simp only [parseFile, check, Bool.and_eq_true]
  rw [camValid_ofFile f1 h1, camValid_ofFile f2 h2]

/-- C05 is false for negative sizes: a file with width -640 is accepted and gives an image width of
4294966656 pixels. -/
theorem C05_negative_size_accepted_false :
    ∃ f : CamFile, f.sizeX = -640 ∧ ∀ s, (parseFile (some (f, f)) s).2 = true ∧
      (parseFile (some (f, f)) s).1.cam1.sizeX = 4294966656 ∧ ¬ Usable f := by
  refine ⟨{ sizeX := -640, sizeY := 480, focalX := .num 550, focalY := .num 550,
            centerX := .num 320, centerY := .num 240 }, rfl, fun s => ⟨?_, ?_, ?_⟩⟩
  · simp only [parseFile, check]
    decide +kernel
  · rfl
  · intro h; exact absurd h.1 (by decide)

/-- C05. A missing file makes `parse_file` return false but leaves the default configuration, which is
valid: the SLAM object can be built. -/
theorem C05_missing_file_gives_default (s : State) :
    (parseFile none s).2 = false ∧ (parseFile none s).1.cam1 = defaultCam ∧
      (parseFile none s).1.cam2 = defaultCam ∧
      construct (parseFile none s).1 = .ok (parseFile none s).1 := by
  have : (parseFile none s).1.isValid = true := by
    show (camValid defaultCam && camValid defaultCam) = true
    decide +kernel
  refine ⟨rfl, rfl, rfl, ?_⟩
  simp [construct, this]

private theorem valid_of_ops (s : State) (ops : List Op) :
    (applyAll s ops).isValid = match lastParse ops with
      | none => s.isValid
      | some none => true
      | some (some (f1, f2)) => camValid (Cam.ofFile f1) && camValid (Cam.ofFile f2) := by
  induction ops generalizing s with
  | nil => simp [applyAll, lastParse]
  | cons op ops ih =>
    have := ih (apply s op)
    rw [applyAll, List.foldl_cons]
    rw [applyAll] at this
    rw [this]
    simp only [lastParse]
    cases hl : lastParse ops with
    | some f => cases f <;> rfl
    | none =>
      cases op with
      | parse f =>
        cases f with
        | none =>
          show (camValid defaultCam && camValid defaultCam) = true
          decide +kernel
        | some ff => rfl
      | loadDefault => rfl
      | getIntrinsics =>
        simp only [apply, intrinsics1]
        cases s.cachedIntrinsics1 <;> rfl

/-- C05. From program start, the SLAM object can be built exactly when `parse_file` was called and the
last call either found no file or read a file it accepted; otherwise the constructor exits the process.
In particular it always exits when `parse_file` was never called, even after `load_defaut`. -/
theorem C05_construct_iff (ops : List Op) :
    (construct (applyAll initial ops) = .exit ↔
      lastParse ops = none ∨
      ∃ f, lastParse ops = some (some f) ∧ ∀ s, (parseFile (some f) s).2 = false) ∧
    (construct (applyAll initial ops) ≠ .exit →
      construct (applyAll initial ops) = .ok (applyAll initial ops)) := by
  have hv := valid_of_ops initial ops
  have hc : construct (applyAll initial ops) =
      if (applyAll initial ops).isValid then .ok (applyAll initial ops) else .exit := by
    unfold construct
    cases h : (applyAll initial ops).isValid <;> simp [loadDefault, h]
  have hiff : construct (applyAll initial ops) = .exit ↔ (applyAll initial ops).isValid = false := by
    rw [hc]; cases (applyAll initial ops).isValid <;> simp
  refine ⟨?_, ?_⟩
  · rw [hiff, hv]
    cases hl : lastParse ops with
    | none => simp [initial]
    | some f =>
      cases f with
      | none => simp
      | some ff =>
        simp only [parseFile, check, Option.some.injEq, reduceCtorEq, false_or, exists_eq_left']
        exact ⟨fun h _ => h, fun h => h initial⟩
  · intro h
    rw [ne_eq, hiff] at h
    rw [hc]
    simp at h
    simp [h]

/-- C59 is false: the pinhole matrix is computed once.  After the first call it never changes again, so
a configuration parsed later is not taken into account. -/
theorem C59_intrinsics_frozen_false (s : State) (ops : List Op) :
    (intrinsics1 (applyAll (intrinsics1 s).1 ops)).2 = (intrinsics1 s).2 := by
  have key : ∀ (t : State) (m : Intrinsics), t.cachedIntrinsics1 = some m →
      (applyAll t ops).cachedIntrinsics1 = some m := by
    intro t m
    induction ops generalizing t with
    | nil => intro h; simpa [applyAll] using h
    | cons op ops ih =>
      intro h
      rw [applyAll, List.foldl_cons]
      apply ih
      cases op with
      | parse f => cases f <;> simp [apply, parseFile, check, loadDefault, h]
      | loadDefault => simp [apply, loadDefault, h]
      | getIntrinsics => simp [apply, intrinsics1, h]
  have h1 : (intrinsics1 s).1.cachedIntrinsics1 = some (intrinsics1 s).2 := by
    unfold intrinsics1
    cases h : s.cachedIntrinsics1 <;> simp [h]
  have h2 := key _ _ h1
  rw [intrinsics1, h2]

/-- C59 (part). Before any earlier use, the pinhole matrix is the one of the current configuration. -/
theorem C59_first_intrinsics_current_partial (s : State) (h : s.cachedIntrinsics1 = none) :
    (intrinsics1 s).2 = (s.cam1.focalX, s.cam1.focalY, s.cam1.centerX, s.cam1.centerY) := by
  simp [intrinsics1, h]

/-! ### Witnesses -/

def goodCam : CamFile :=
  { sizeX := 640, sizeY := 480, focalX := .num 525, focalY := .num 525,
    centerX := .num 319, centerY := .num 239 }

/-- The hypotheses are met by an ordinary file, and both answers occur. -/
example : NonNegSizes goodCam ∧ (parseFile (some (goodCam, goodCam)) initial).2 = true ∧
    (parseFile (some (goodCam, { goodCam with sizeY := 0 })) initial).2 = false := by
  refine ⟨?_, by decide +kernel, by decide +kernel⟩
  unfold NonNegSizes goodCam; decide

example : construct (applyAll initial [.loadDefault]) = .exit := by decide +kernel
example : construct (applyAll initial [.parse none, .loadDefault]) ≠ .exit := by decide +kernel

/-- Reading another file after the first use of the intrinsics changes the focal but not the matrix. -/
example :
    let s1 := applyAll initial [.parse (some (goodCam, goodCam)), .getIntrinsics,
      .parse (some ({ goodCam with focalX := .num 600 }, goodCam))]
    s1.cam1.focalX = .num 600 ∧ (intrinsics1 s1).2.1 = .num 525 := by
  decide +kernel

end RgbdSlam.Params
