import Verif.Model.KeypointHistory
import Verif.Lemmas.Keypoints

/-
C165: the keypoints given for a frame are those of this frame, although they are kept in a variable that is reused for
all the frames of all the trackers of the program.
-/
namespace RgbdSlam.Keypoints

variable {Desc : Type}

/-- `set` forgets all but the size of the grid. -/
theorem set_congr (im : DepthImage) (detected : List Pt) (descs : List Desc) (tracked : List Tracked)
    {h h' : Handler Desc} (hx : h.cellX = h'.cellX) (hy : h.cellY = h'.cellY)
    (hc : h.cells.length = h'.cells.length) :
    set im detected descs tracked h = set im detected descs tracked h' := by
  have : clear h = { clear h' with descs := h.descs } := by
    have e : (h.cells.map fun _ => ([] : List Nat)) = h'.cells.map fun _ => [] := by
      rw [List.map_const', List.map_const', hc]
    simp only [clear, hx, hy, e]
  unfold set
  rw [this]

theorem afterFrames_some (fs : List (FramePoints Desc)) {h : Handler Desc} {s : Option (Handler Desc)}
    (hr : afterFrames fs (some h) = .ok s) :
    ∃ h', s = some h' ∧ h'.cellX = h.cellX ∧ h'.cellY = h.cellY ∧ h'.cells.length = h.cells.length := by
  induction fs generalizing h with
  | nil =>
    simp only [afterFrames] at hr
    cases hr
    exact ⟨h, rfl, rfl, rfl, rfl⟩
  | cons f fs ih =>
    simp only [afterFrames] at hr
    obtain ⟨h1, e1, hr⟩ := Outcome.bind_eq_ok hr
    obtain ⟨_, a1, a2, a3, _⟩ := set_spec e1
    obtain ⟨h', rfl, b1, b2, b3⟩ := ih hr
    exact ⟨h', rfl, b1.trans a1, b2.trans a2, b3.trans a3⟩

/-- **C165.**  For any earlier frames with images of the size of this one, the keypoints of a frame (positions, depths,
descriptors, identifiers, and the grid used to find matches) are the same as in a program that sees this frame only.  -/
theorem C165_history (past : List (FramePoints Desc)) (f : FramePoints Desc)
    (hsize : ∀ g ∈ past, g.image.cols = f.image.cols ∧ g.image.rows = f.image.rows)
    (s : Option (Handler Desc)) (hs : afterFrames past none = .ok s) :
    fillStatic f s = fillStatic f none := by
  cases past with
  | nil =>
    simp only [afterFrames] at hs
    cases hs
    rfl
  | cons g past =>
    simp only [afterFrames] at hs
    obtain ⟨h1, e1, hs⟩ := Outcome.bind_eq_ok hs
    obtain ⟨_, a1, a2, a3, _⟩ := set_spec e1
    obtain ⟨h', rfl, b1, b2, b3⟩ := afterFrames_some past hs
    obtain ⟨c, r⟩ := hsize g (by simp)
    simp only [Option.getD, c, r] at a1 a2 a3
    exact set_congr _ _ _ _ (b1.trans a1) (b2.trans a2) (b3.trans a3)

/-- **C165.**  When the images are not empty and not higher than wide, no frame stops the program.  -/
theorem C165_always (past : List (FramePoints Desc)) (cols rows : Nat) (hc : 0 < cols) (hr : 0 < rows) (hw : rows ≤ cols)
    (hsize : ∀ g ∈ past, g.image.cols = cols ∧ g.image.rows = rows) : ∃ s, afterFrames past none = .ok s := by
  have hle : (rows + 31 - 1) / 31 ≤ (cols + 31 - 1) / 31 := Nat.div_le_div_right (by omega)
  have key : ∀ (fs : List (FramePoints Desc)) (h : Handler Desc), Sized h → h.cellY ≤ h.cellX →
      ∃ s, afterFrames fs (some h) = .ok s := by
    intro fs
    induction fs with
    | nil => intro h _ _; exact ⟨_, rfl⟩
    | cons f fs ih =>
      intro h h1 h2
      obtain ⟨h', e⟩ := set_ok (im := f.image) f.detected f.descs f.tracked h1 h2
      obtain ⟨_, a1, a2, a3, _⟩ := set_spec e
      obtain ⟨s, es⟩ := ih h' (by simpa only [Sized, a1, a2, a3] using h1) (by simpa only [a1, a2] using h2)
      refine ⟨s, ?_⟩
      simp only [afterFrames, fillStatic, Option.getD]
      rw [e]
      exact es
  cases past with
  | nil => exact ⟨_, rfl⟩
  | cons g past =>
    obtain ⟨c, r⟩ := hsize g (by simp)
    have h1 : Sized (create cols rows : Handler Desc) := create_sized hc hr
    obtain ⟨s, e⟩ := key (g :: past) (create cols rows) h1 hle
    refine ⟨s, ?_⟩
    rw [← e]
    simp only [afterFrames, fillStatic, Option.getD, c, r]

/-- Two frames of 640 × 480, with other keypoints in the first one. -/
def demoPast : FramePoints Nat := ⟨⟨640, 480, fun _ _ => 3⟩, [⟨10, 20⟩, ⟨600, 400⟩], [7, 8], [⟨4, ⟨50, 60⟩⟩]⟩
/-- The second one. -/
def demoFrame : FramePoints Nat := ⟨⟨640, 480, fun _ _ => 5⟩, [⟨100, 200⟩], [9], [⟨6, ⟨50, 61⟩⟩]⟩

example : (afterFrames [demoPast] none).bind (fun s => (fillStatic demoFrame s).map fun h =>
    (h.keypoints, h.descs, h.ids)) =
    .ok ([⟨⟨100, 200⟩, 5⟩, ⟨⟨50, 61⟩, 5⟩], [9], [(6, 1)]) := by decide +kernel

theorem addDetected_same (im : DepthImage) (ps : List Pt) (i : Nat) {h g h' g' : Handler Desc}
    (hk : h.keypoints = g.keypoints) (hd : h.descs = g.descs) (hi : h.ids = g.ids)
    (e : addDetected im i ps h = .ok h') (e' : addDetected im i ps g = .ok g') :
    h'.keypoints = g'.keypoints ∧ h'.descs = g'.descs ∧ h'.ids = g'.ids := by
  induction ps generalizing i h g with
  | nil =>
    simp only [addDetected] at e e'
    cases e
    cases e'
    exact ⟨hk, hd, hi⟩
  | cons p ps ih =>
    simp only [addDetected] at e e'
    obtain ⟨d, ed, e⟩ := Outcome.bind_eq_ok e
    obtain ⟨d', ed', e'⟩ := Outcome.bind_eq_ok e'
    rw [ed] at ed'
    cases ed'
    split at e
    · split at e'
      · refine ih (i + 1) ?_ ?_ ?_ e e' <;> simp only [hk, hd, hi]
      · cases e'
    · cases e

theorem addTracked_same (im : DepthImage) (ts : List Tracked) (i : Nat) {h g h' g' : Handler Desc}
    (hk : h.keypoints = g.keypoints) (hd : h.descs = g.descs) (hi : h.ids = g.ids)
    (e : addTracked im i ts h = .ok h') (e' : addTracked im i ts g = .ok g') :
    h'.keypoints = g'.keypoints ∧ h'.descs = g'.descs ∧ h'.ids = g'.ids := by
  induction ts generalizing i h g with
  | nil =>
    simp only [addTracked] at e e'
    cases e
    cases e'
    exact ⟨hk, hd, hi⟩
  | cons p ps ih =>
    simp only [addTracked] at e e'
    obtain ⟨d, ed, e⟩ := Outcome.bind_eq_ok e
    obtain ⟨d', ed', e'⟩ := Outcome.bind_eq_ok e'
    rw [ed] at ed'
    cases ed'
    refine ih (i + 1) ?_ ?_ ?_ e e' <;> simp only [hk, hd, hi]

/-- **C165.**  After frames of any sizes, the positions, depths, descriptors and identifiers of the keypoints of a frame
are those of a program that sees this frame only (the grid is not: it keeps the size of the first image).  -/
theorem C165_any_sizes (past : List (FramePoints Desc)) (f : FramePoints Desc)
    (s : Option (Handler Desc)) (_hs : afterFrames past none = .ok s) (h alone : Handler Desc)
    (e : fillStatic f s = .ok h) (e' : fillStatic f none = .ok alone) :
    h.keypoints = alone.keypoints ∧ h.descs = alone.descs ∧ h.ids = alone.ids := by
  unfold fillStatic set at e e'
  obtain ⟨h1, e1, e⟩ := Outcome.bind_eq_ok e
  obtain ⟨g1, e1', e'⟩ := Outcome.bind_eq_ok e'
  obtain ⟨a1, a2, a3⟩ := addDetected_same f.image f.detected 0
    (h := { clear (s.getD (create f.image.cols f.image.rows)) with descs := f.descs })
    (g := { clear ((none : Option (Handler Desc)).getD (create f.image.cols f.image.rows)) with descs := f.descs })
    rfl rfl rfl e1 e1'
  exact addTracked_same _ _ _ a1 a2 a3 e e'

/-- After a frame of 320 × 240. -/
example : (afterFrames [{ demoPast with image := ⟨320, 240, fun _ _ => 3⟩ }] none).bind
    (fun s => (fillStatic demoFrame s).map fun h => (h.keypoints, h.descs, h.ids, h.cellX)) =
    .ok ([⟨⟨100, 200⟩, 5⟩, ⟨⟨50, 61⟩, 5⟩], [9], [(6, 1)], 11) := by decide +kernel

end RgbdSlam.Keypoints
