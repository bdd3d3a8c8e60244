import Verif.Model.KeypointStatics
import Verif.Props.KeypointDetection

/-
C164: a tracker in a program that used another one before.
-/
namespace RgbdSlam.KeypointStatics

open KeypointDetection

/-- The variables keep the size of the first tracker. -/
theorem usedBy_first (a b : ℕ) (rest : List (ℕ × ℕ)) :
    usedBy ((a, b) :: rest) Statics.initial = ⟨some (a, b), some (a, b)⟩ := by
  have key : ∀ rest, usedBy rest ⟨some (a, b), some (a, b)⟩ = ⟨some (a, b), some (a, b)⟩ := by
    intro rest
    induction rest with
    | nil => rfl
    | cons c rest ih => simpa [usedBy, construct] using ih
  simpa [usedBy, construct, Statics.initial] using key rest

/-- When all parts exist, the windows are searched as in `detect`. -/
theorem searchAll_ok (ws : List Window) (counts : List ℕ) (image mask : ℕ × ℕ) (free : Pixel → Bool)
    (raw : ℕ → Bool → List Key) (h : ∀ w ∈ ws, part image w = .ok () ∧ part mask w = .ok ()) (order : List ℕ) :
    searchAll ws counts image mask free raw order = .ok (order.flatMap fun i =>
      match ws[i]?, counts[i]? with
      | some w, some already => detectInWindow w already free (raw i)
      | _, _ => []) := by
  induction order with
  | nil => rfl
  | cons i is ih =>
    have h1 : searchWindow ws counts image mask free raw i = .ok (match ws[i]?, counts[i]? with
        | some w, some already => detectInWindow w already free (raw i)
        | _, _ => []) := by
      unfold searchWindow
      cases hw : ws[i]? with
      | none => rfl
      | some w =>
        cases hc : counts[i]? with
        | none => rfl
        | some already =>
          obtain ⟨p1, p2⟩ := h w (List.mem_of_getElem? hw)
          dsimp only
          split_ifs with hlt
          · rw [p1, p2]; rfl
          · simp [detectInWindow, hlt]
    rw [searchAll, h1, ih]
    rfl

theorem part_windows (width height : ℕ) : ∀ w ∈ windows width height, part (width, height) w = .ok () := by
  intro w hw
  obtain ⟨i, hi⟩ := List.mem_iff_getElem?.1 hw
  obtain ⟨hi, rfl⟩ := (windows_get ..).1 hi
  have key : ∀ m s n : ℕ, m < 3 → s = n / 3 → m * s + s ≤ n := by
    intro m s n hm hs
    have : m = 0 ∨ m = 1 ∨ m = 2 := by omega
    rcases this with rfl | rfl | rfl <;> omega
  have h1 := key (i % 3) (width / 3) width (by omega) rfl
  have h2 := key (i / 3) (height / 3) height (by omega) rfl
  simp only [part]
  rw [if_pos ⟨h1, h2⟩]

/-- **C164, partial.**  In a program where all the trackers use images of one size, each tracker searches its images as if
it were the only one: it has the windows of its images and finds the keypoints of `detect`.  (Missing: trackers for
images of different sizes, for which it is false.)  -/
theorem C164_partial (width height n : ℕ) (disc : Pixel → Pixel → Bool) (tracked : List Pixel)
    (raw : ℕ → Bool → List Key) (order : List ℕ) :
    let s := usedBy (List.replicate n (width, height)) Statics.initial
    let c := construct (width, height) s
    c.2 = windows width height ∧
      (perform c.1 c.2 (width, height) disc tracked raw order).map (·.2) =
        .ok (detect width height disc tracked raw order) := by
  have hs : usedBy (List.replicate n (width, height)) Statics.initial = Statics.initial ∨
      usedBy (List.replicate n (width, height)) Statics.initial = ⟨some (width, height), some (width, height)⟩ := by
    cases n with
    | zero => exact Or.inl rfl
    | succ n => exact Or.inr (usedBy_first width height _)
  have hp : ∀ (s : Statics), s.mask.getD (width, height) = (width, height) →
      (perform s (windows width height) (width, height) disc tracked raw order).map (·.2) =
        .ok (detect width height disc tracked raw order) := by
    intro s hm
    unfold perform
    dsimp only
    rw [hm, searchAll_ok _ _ _ _ _ _ fun w hw => ⟨part_windows width height w hw, part_windows width height w hw⟩]
    rfl
  rcases hs with hs | hs <;> rw [hs]
  · exact ⟨rfl, hp _ rfl⟩
  · exact ⟨rfl, hp _ rfl⟩

/-- Two trackers for 640 × 480 images, the second one finds a keypoint. -/
example : (perform (construct (640, 480) (usedBy [(640, 480)] Statics.initial)).1
      (construct (640, 480) (usedBy [(640, 480)] Statics.initial)).2 (640, 480) (fun _ _ => false) []
      (fun i _ => if i = 4 then [⟨⟨10, 20⟩, 7⟩] else []) (List.range 9)).map (·.2) =
    .ok [⟨⟨223, 180⟩, 7⟩] := by decide +kernel

/-- **C164, false.**  A tracker for smaller images than those of the first tracker of the program: the search windows are
those of the first one, and the first search in the images of the second one ends the program.  -/
theorem C164_smaller_false (a b width height : ℕ) (rest : List (ℕ × ℕ))
    (hsmall : width < 3 * (a / 3) ∨ height < 3 * (b / 3)) (disc : Pixel → Pixel → Bool)
    (raw : ℕ → Bool → List Key) (order : List ℕ) (ho : Schedule order) :
    let s := usedBy ((a, b) :: rest) Statics.initial
    let c := construct (width, height) s
    perform c.1 c.2 (width, height) disc [] raw order = .terminate := by
  intro s c
  have hc : c = (⟨some (a, b), some (a, b)⟩, windows a b) := by
    simp only [c, s, usedBy_first]
    rfl
  have hw : (windows a b)[8]? = some ⟨2 * (a / 3), 2 * (b / 3), a / 3, b / 3⟩ := rfl
  have hcounts : countInWindows (windows a b) [] (List.replicate (windows a b).length 0) = List.replicate 9 0 := rfl
  have h8 : searchWindow (windows a b) (List.replicate 9 0) (width, height) (a, b) (allowed disc []) raw 8 =
      .throws := by
    unfold searchWindow
    rw [hw]
    have : (List.replicate 9 0)[8]? = some 0 := rfl
    rw [this]
    dsimp only
    rw [if_pos (by decide), part, if_neg]
    · rfl
    · dsimp only
      omega
  have hwin : ∀ i, searchWindow (windows a b) (List.replicate 9 0) (width, height) (a, b) (allowed disc []) raw i =
      .throws ∨ ∃ l, searchWindow (windows a b) (List.replicate 9 0) (width, height) (a, b) (allowed disc []) raw i =
        .ok l := by
    intro i
    unfold searchWindow part
    repeat' split
    all_goals simp [Outcome.bind]
  have hall : ∀ order : List ℕ, 8 ∈ order →
      searchAll (windows a b) (List.replicate 9 0) (width, height) (a, b) (allowed disc []) raw order = .throws := by
    intro order
    induction order with
    | nil => intro h; simp at h
    | cons i is ih =>
      intro h
      rw [searchAll]
      rcases hwin i with e | ⟨l, e⟩
      · rw [e]; rfl
      · rw [e, Outcome.bind_ok]
        rcases List.mem_cons.1 h with rfl | h
        · rw [h8] at e; cases e
        · rw [ih h]; rfl
  rw [hc]
  unfold perform
  dsimp only [Option.getD]
  rw [hcounts, hall order (ho.mem_iff.2 (by simp))]
  rfl

/-- A camera of 320 × 240 pixels after one of 640 × 480. -/
example : perform (construct (320, 240) (usedBy [(640, 480)] Statics.initial)).1
    (construct (320, 240) (usedBy [(640, 480)] Statics.initial)).2 (320, 240) (fun _ _ => false) []
    (fun _ _ => []) (List.range 9) = .terminate := by decide +kernel

/-- **C164, false.**  A tracker for bigger images than those of the first tracker of the program: the windows it searches
are those of the first one, so that no keypoint is ever found out of the size of the first images.  -/
theorem C164_bigger_false (a b width height : ℕ) (rest : List (ℕ × ℕ)) (disc : Pixel → Pixel → Bool)
    (tracked : List Pixel) (raw : ℕ → Bool → List Key) (hr : RawInside a b raw) (order : List ℕ)
    (r : Statics × List Key) :
    let s := usedBy ((a, b) :: rest) Statics.initial
    let c := construct (width, height) s
    perform c.1 c.2 (width, height) disc tracked raw order = .ok r →
      ∀ k ∈ r.2, InImage a b k.pos := by
  intro s c e k hk
  have hc : c = (⟨some (a, b), some (a, b)⟩, windows a b) := by
    simp only [c, s, usedBy_first]
    rfl
  rw [hc] at e
  unfold perform at e
  rw [Outcome.noexcept_eq_ok] at e
  dsimp only [Option.getD] at e
  obtain ⟨keys, e1, e2⟩ := Outcome.bind_eq_ok e
  cases e2
  have hsub : ∀ order keys, searchAll (windows a b)
      (countInWindows (windows a b) tracked (List.replicate (windows a b).length 0)) (width, height) (a, b)
      (allowed disc tracked) raw order = .ok keys → keys = order.flatMap fun i =>
        match (windows a b)[i]?, (countInWindows (windows a b) tracked
            (List.replicate (windows a b).length 0))[i]? with
        | some w, some already => detectInWindow w already (allowed disc tracked) (raw i)
        | _, _ => [] := by
    intro order
    induction order with
    | nil => intro keys e; simp only [searchAll] at e; cases e; rfl
    | cons i is ih =>
      intro keys e
      rw [searchAll] at e
      obtain ⟨l, e1, e⟩ := Outcome.bind_eq_ok e
      obtain ⟨l', e2, e⟩ := Outcome.bind_eq_ok e
      cases e
      rw [List.flatMap_cons, ← ih l' e2]
      congr 1
      unfold searchWindow at e1
      cases hw : (windows a b)[i]? with
      | none => rw [hw] at e1; cases e1; rfl
      | some w =>
        cases hc : (countInWindows (windows a b) tracked (List.replicate (windows a b).length 0))[i]? with
        | none => rw [hw, hc] at e1; cases e1; rfl
        | some already =>
          rw [hw, hc] at e1
          dsimp only at e1 ⊢
          split_ifs at e1 with hlt
          · obtain ⟨_, _, e1⟩ := Outcome.bind_eq_ok e1
            obtain ⟨_, _, e1⟩ := Outcome.bind_eq_ok e1
            cases e1
            rfl
          · cases e1
            simp [detectInWindow, hlt]
  have hd : removeDuplicated keys = detect a b disc tracked raw order := by
    rw [hsub order keys e1]
    rfl
  rw [hd] at hk
  exact ((C105_detected a b disc tracked raw hr order).2 k hk).1

/-- A camera of 1280 × 960 pixels after one of 640 × 480: the keypoint of the last window is in the first quarter of the
image. -/
example : (perform (construct (1280, 960) (usedBy [(640, 480)] Statics.initial)).1
      (construct (1280, 960) (usedBy [(640, 480)] Statics.initial)).2 (1280, 960) (fun _ _ => false) []
      (fun i _ => if i = 8 then [⟨⟨10, 20⟩, 7⟩] else []) (List.range 9)).map (·.2) =
    .ok [⟨⟨436, 340⟩, 7⟩] := by decide +kernel

end RgbdSlam.KeypointStatics
