import Verif.Spec.KeypointDetection
import Verif.Lemmas.KeypointDetection
import Verif.Lemmas.Keypoints
/-
C101: depth of a keypoint; C102: which keypoints stay tracked; C103: detection windows; C104: number of
new keypoints; C105: which keypoints are detected; C106: when new keypoints are searched.
-/
namespace RgbdSlam.KeypointDetection

open Keypoints (Pt Tracked Flow Handler DepthImage getDepth opticalFlow)

/-! ### C101 -/

/-- The depth of a keypoint is the depth of the pixel nearest to it, and 0 on the outermost pixels. -/
theorem C101_depth_of_nearest_pixel (im : DepthImage) (p : Pt) :
    (1 ≤ p.x ∧ 1 ≤ p.y ∧ p.x < (im.cols : Rat) - 1 ∧ p.y < (im.rows : Rat) - 1 →
      ∃ col row, Nearest p col row ∧ col < im.cols ∧ row < im.rows ∧
        getDepth im p = .ok (im.value row col)) ∧
    (¬(1 ≤ p.x ∧ 1 ≤ p.y ∧ p.x < (im.cols : Rat) - 1 ∧ p.y < (im.rows : Rat) - 1) →
      getDepth im p = .ok 0) := by
  constructor
  · intro h
    obtain ⟨h1, h2, h3, h4⟩ := h
    have key : ∀ (v : Rat) (n : Nat), 1 ≤ v → v < (n : Rat) - 1 → ∃ m : Nat, Keypoints.round v = m ∧
        m < n ∧ (m : Rat) - 1 / 2 ≤ v ∧ v < (m : Rat) + 1 / 2 := by
      intro v n hv hn
      have a : 0 ≤ Keypoints.round v := by
        rw [Keypoints.round, Rat.le_floor_iff]
        have : ((0 : Int) : Rat) = 0 := rfl
        grind
      have b : Keypoints.round v < n := by
        rw [Keypoints.round, Rat.floor_lt_iff]
        have : (((n : Nat) : Int) : Rat) = (n : Rat) := rfl
        grind
      obtain ⟨m, hm⟩ := Int.eq_ofNat_of_zero_le a
      refine ⟨m, hm, by omega, ?_, ?_⟩
      · have := (Rat.le_floor_iff (a := v + 1 / 2) (x := (m : Int))).1 (by rw [← hm]; exact Int.le_refl _)
        have e : (((m : Nat) : Int) : Rat) = (m : Rat) := rfl
        grind
      · have := (Rat.floor_lt_iff (a := v + 1 / 2) (x := (m : Int) + 1)).1 (by
          have : Keypoints.round v < (m : Int) + 1 := by omega
          exact this)
        have e : (((m : Nat) : Int) : Rat) = (m : Rat) := rfl
        have e2 : (((m : Int) + 1 : Int) : Rat) = (m : Rat) + 1 := by rw [Rat.intCast_add]; rfl
        grind
    obtain ⟨c, hc, c1, c2, c3⟩ := key p.x im.cols h1 h3
    obtain ⟨r, hr, r1, r2, r3⟩ := key p.y im.rows h2 h4
    refine ⟨c, r, ⟨c2, c3, r2, r3⟩, c1, r1, ?_⟩
    unfold getDepth
    rw [if_pos (by simp [Keypoints.inBorder, h1, h2, h3, h4]), hc, hr]
    unfold DepthImage.at
    rw [if_pos ⟨by omega, by omega, by omega, by omega⟩]
    rfl
  · intro h
    unfold getDepth
    rw [if_neg]
    simpa [Keypoints.inBorder] using h

/-- Every keypoint of a frame has the depth read at its position. -/
theorem C101_keypoints_have_their_depth {Desc : Type} (im : DepthImage) (detected : List Pt)
    (descs : List Desc) (tracked : List Tracked) (h h' : Handler Desc)
    (e : Keypoints.set im detected descs tracked h = .ok h') :
    ∀ k ∈ h'.keypoints, getDepth im k.pt = .ok k.depth := by
  have add1 : ∀ (ps : List Pt) (i : Nat) (g g' : Handler Desc), Keypoints.addDetected im i ps g = .ok g' →
      (∀ k ∈ g.keypoints, getDepth im k.pt = .ok k.depth) →
      ∀ k ∈ g'.keypoints, getDepth im k.pt = .ok k.depth := by
    intro ps
    induction ps with
    | nil => intro i g g' hg hk; cases hg; exact hk
    | cons p ps ih =>
      intro i g g' hg hk
      simp only [Keypoints.addDetected] at hg
      obtain ⟨d, hd, hg⟩ := Outcome.bind_eq_ok hg
      split at hg
      · refine ih _ _ _ hg ?_
        intro k hm
        rcases List.mem_append.1 hm with hm | hm
        · exact hk k hm
        · rw [List.mem_singleton.1 hm]; exact hd
      · cases hg
  have add2 : ∀ (ts : List Tracked) (i : Nat) (g g' : Handler Desc), Keypoints.addTracked im i ts g = .ok g' →
      (∀ k ∈ g.keypoints, getDepth im k.pt = .ok k.depth) →
      ∀ k ∈ g'.keypoints, getDepth im k.pt = .ok k.depth := by
    intro ts
    induction ts with
    | nil => intro i g g' hg hk; cases hg; exact hk
    | cons t ts ih =>
      intro i g g' hg hk
      simp only [Keypoints.addTracked] at hg
      obtain ⟨d, hd, hg⟩ := Outcome.bind_eq_ok hg
      refine ih _ _ _ hg ?_
      intro k hm
      rcases List.mem_append.1 hm with hm | hm
      · exact hk k hm
      · rw [List.mem_singleton.1 hm]; exact hd
  unfold Keypoints.set at e
  obtain ⟨h1, e1, e2⟩ := Outcome.bind_eq_ok e
  exact add2 _ _ _ _ e2 (add1 _ _ _ _ e1 (by simp [Keypoints.clear]))

/-- The keypoints offered to the maps are the points of the detection followed by the tracked points, in
their order, and the keypoint of a given rank has the descriptor of that rank. -/
theorem C101_keypoints_in_order {Desc : Type} (im : DepthImage) (detected : List Pt)
    (descs : List Desc) (tracked : List Tracked) (h h' : Handler Desc)
    (e : Keypoints.set im detected descs tracked h = .ok h') :
    (Keypoints.detections h').map (·.kp.pt) = detected ++ tracked.map (·.pt) ∧
    ∀ (i : Nat) (d : Keypoints.Detected Desc), (Keypoints.detections h')[i]? = some d → d.desc = descs[i]? := by
  have add1 : ∀ (ps : List Pt) (i : Nat) (g g' : Handler Desc), Keypoints.addDetected im i ps g = .ok g' →
      g'.keypoints.map (·.pt) = g.keypoints.map (·.pt) ++ ps ∧ g'.descs = g.descs := by
    intro ps
    induction ps with
    | nil => intro i g g' hg; cases hg; simp
    | cons p ps ih =>
      intro i g g' hg
      simp only [Keypoints.addDetected] at hg
      obtain ⟨d, hd, hg⟩ := Outcome.bind_eq_ok hg
      split at hg
      · have := ih _ _ _ hg
        simpa using this
      · cases hg
  have add2 : ∀ (ts : List Tracked) (i : Nat) (g g' : Handler Desc), Keypoints.addTracked im i ts g = .ok g' →
      g'.keypoints.map (·.pt) = g.keypoints.map (·.pt) ++ ts.map (·.pt) ∧ g'.descs = g.descs := by
    intro ts
    induction ts with
    | nil => intro i g g' hg; cases hg; simp
    | cons t ts ih =>
      intro i g g' hg
      simp only [Keypoints.addTracked] at hg
      obtain ⟨d, hd, hg⟩ := Outcome.bind_eq_ok hg
      have := ih _ _ _ hg
      simpa using this
  unfold Keypoints.set at e
  obtain ⟨h1, e1, e2⟩ := Outcome.bind_eq_ok e
  have a := add1 _ _ _ _ e1
  have b := add2 _ _ _ _ e2
  have hd : h'.descs = descs := by rw [b.2, a.2]
  have hk : h'.keypoints.map (·.pt) = detected ++ tracked.map (·.pt) := by
    rw [b.1, a.1]; simp [Keypoints.clear]
  constructor
  · rw [← hk]
    apply List.ext_getElem?
    intro i
    simp [Keypoints.detections, List.getElem?_map]
    cases h'.keypoints[i]? <;> simp
  · intro i d hi
    rw [← hd]
    simp only [Keypoints.detections, List.getElem?_map, List.getElem?_zipIdx] at hi
    cases hh : h'.keypoints[i]? with
    | none => simp [hh] at hi
    | some k => simp [hh] at hi; rw [← hi]

example : getDepth ⟨4, 3, fun r c => (10 * r + c : Nat)⟩ ⟨8 / 5, 1⟩ = .ok 12 := by decide +kernel

/-! ### C102 -/

open Classical in
/-- A keypoint of the last frame stays tracked exactly when both optical flows find it, in the image and
back within 30 pixels; it keeps its id and gets the new position. -/
theorem C102_still_tracked (cols rows : Nat) (last : List Tracked) (forward : List Flow)
    (back : Pt → Flow) :
    opticalFlow cols rows last forward (fun l => l.map back) =
      ((last.zip forward).filter fun tf => decide (StillTracked cols rows back tf.1 tf.2)).map
        fun tf => ⟨tf.1.id, tf.2.pt⟩ := by
  rw [opticalFlow_pointwise]
  generalize last.zip forward = l
  induction l with
  | nil => rfl
  | cons tf l ih =>
    have hn : ((30 * 30 : Nat) : Rat) = 900 := rfl
    rw [hn] at ih ⊢
    have e : StillTracked cols rows back tf.1 tf.2 ↔ tf.2.status = 1 ∧
        Keypoints.inBorder tf.2.pt cols rows 0 = true ∧ (back tf.2.pt).status = 1 ∧
        ¬ (900 : Rat) < Keypoints.dist2 tf.1.pt (back tf.2.pt).pt := by
      simp only [StillTracked, Keypoints.inBorder, Keypoints.dist2, decide_eq_true_eq, Rat.not_lt]
      have z : ∀ n : Nat, (n : Rat) - 0 = n := fun n => by grind
      rw [z, z]
      constructor
      · rintro ⟨a, ⟨b, c, d, f⟩, g⟩; exact ⟨a, ⟨b, d, c, f⟩, g⟩
      · rintro ⟨a, ⟨b, d, c, f⟩, g⟩; exact ⟨a, ⟨b, c, d, f⟩, g⟩
    rw [List.filterMap_cons, List.filter_cons, ih]
    by_cases c1 : tf.2.status = 1 <;> by_cases c2 : Keypoints.inBorder tf.2.pt cols rows 0 = true <;>
      by_cases c3 : (back tf.2.pt).status = 1 <;>
      by_cases c4 : (900 : Rat) < Keypoints.dist2 tf.1.pt (back tf.2.pt).pt <;>
      simp [e, c1, c2, c3, c4]

example : opticalFlow 100 100 [⟨5, ⟨10, 10⟩⟩, ⟨6, ⟨20, 10⟩⟩] [⟨1, ⟨12, 10⟩⟩, ⟨1, ⟨22, 10⟩⟩]
    (fun l => l.map fun p => ⟨1, ⟨10, p.y⟩⟩) = [⟨5, ⟨12, 10⟩⟩, ⟨6, ⟨22, 10⟩⟩] := by decide +kernel

/-! ### C103 -/

/-- Windows are in the image, no pixel is in two of them, and the pixels of the image in no window are
those of the last `width % 3` columns and `height % 3` rows. -/
theorem C103_windows_partial (width height : Nat) :
    (∀ w ∈ windows width height, ∀ p, w.contains p = true → InImage width height p) ∧
    (∀ (i j : Nat) (v w : Window), (windows width height)[i]? = some v → (windows width height)[j]? = some w →
      ∀ p, v.contains p = true → w.contains p = true → i = j) ∧
    (∀ p, InImage width height p →
      ((∃ w ∈ windows width height, w.contains p = true) ↔
        p.x < width - (width % 3 : Nat) ∧ p.y < height - (height % 3 : Nat))) := by
  have hm : ∀ m s n : Nat, m < 3 → s = n / 3 → m * s + s ≤ n - n % 3 := by
    intro m s n hm hs
    have : m = 0 ∨ m = 1 ∨ m = 2 := by omega
    rcases this with rfl | rfl | rfl <;> omega
  have inside : ∀ w ∈ windows width height, ∀ p, w.contains p = true →
      0 ≤ p.x ∧ 0 ≤ p.y ∧ p.x < width - (width % 3 : Nat) ∧ p.y < height - (height % 3 : Nat) := by
    intro w hw p hp
    obtain ⟨i, hi⟩ := List.mem_iff_getElem?.1 hw
    obtain ⟨hi, rfl⟩ := (windows_get ..).1 hi
    obtain ⟨a1, a2, a3, a4⟩ := (contains_iff _ _).1 hp
    dsimp only at *
    have h1 := hm (i % 3) (width / 3) width (by omega) rfl
    have h2 := hm (i / 3) (height / 3) height (by omega) rfl
    have h3 : width % 3 ≤ width := Nat.mod_le _ _
    have h4 : height % 3 ≤ height := Nat.mod_le _ _
    omega
  refine ⟨fun w hw p hp => ?_, fun i j v w hi hj p hv hw => windows_disjoint hi hj hv hw,
    fun p hp => ⟨?_, ?_⟩⟩
  · obtain ⟨a, b, c, d⟩ := inside w hw p hp
    exact ⟨a, by omega, b, by omega⟩
  · rintro ⟨w, hw, hc⟩
    exact (inside w hw p hc).2.2
  · rintro ⟨hx, hy⟩
    obtain ⟨h1, -, h2, -⟩ := hp
    have cell : ∀ (s n : Nat) (x : Int), s = n / 3 → 0 ≤ x → x < n - (n % 3 : Nat) →
        ∃ m : Nat, m < 3 ∧ ((m * s : Nat) : Int) ≤ x ∧ x < (m * s : Nat) + s := by
      intro s n x hs h0 hx
      have : x < 3 * s := by omega
      rcases (by omega : x < s ∨ (s ≤ x ∧ x < 2 * s) ∨ 2 * s ≤ x) with h | h | h
      · exact ⟨0, by omega, by omega, by omega⟩
      · exact ⟨1, by omega, by omega, by omega⟩
      · exact ⟨2, by omega, by omega, by omega⟩
    obtain ⟨m, m1, m2, m3⟩ := cell (width / 3) width p.x rfl h1 hx
    obtain ⟨n, n1, n2, n3⟩ := cell (height / 3) height p.y rfl h2 hy
    refine ⟨⟨m * (width / 3), n * (height / 3), width / 3, height / 3⟩, ?_, ?_⟩
    · refine List.mem_of_getElem? (i := 3 * n + m) ?_
      rw [windows_get]
      have e1 : (3 * n + m) % 3 = m := by omega
      have e2 : (3 * n + m) / 3 = n := by omega
      rw [e1, e2]
      exact ⟨by omega, rfl⟩
    · rw [contains_iff]
      exact ⟨m2, m3, n2, n3⟩

/-- With the default 640 x 480 camera the last column is in no window. -/
theorem C103_last_column_false (y : Int) :
    ∀ w ∈ windows 640 480, w.contains ⟨639, y⟩ = false := by
  intro w hw
  simp only [windows, cellCount] at hw
  have : List.range 3 = [0, 1, 2] := rfl
  simp [this] at hw
  rcases hw with rfl | rfl | rfl | rfl | rfl | rfl | rfl | rfl | rfl <;>
    simp [Window.contains]

/-! ### C104 -/

/-- When the detectors give no two keypoints of a window the same response: a window never ends with more
than 11 keypoints, unless more were already tracked in it, and a frame gives at most 99 new keypoints. -/
theorem C104_quota_partial (width height : Nat) (disc : Pixel → Pixel → Bool) (tracked : List Pixel)
    (ht : tracked.length < 2 ^ 16) (raw : Nat → Bool → List Key) (hr : RawInside width height raw)
    (hd : ∀ i b, ((raw i b).map (·.response)).Nodup) (order : List Nat) (ho : Schedule order) :
    (∀ w ∈ windows width height,
      ((detect width height disc tracked raw order).countP fun k => w.contains k.pos) +
        tracksIn w tracked ≤ max 11 (tracksIn w tracked)) ∧
    (detect width height disc tracked raw order).length ≤ 99 := by
  have size : ∀ i w, (windows width height)[i]? = some w →
      (part width height disc tracked raw i).length + tracksIn w tracked ≤ max 11 (tracksIn w tracked) := by
    intro i w hw
    rw [part_eq disc tracked raw hw ht, detectInWindow_eq]
    have hp : perCell = 11 := rfl
    rw [hp]
    split_ifs with h
    · rw [List.length_map]
      have := retainBest_length_le (detectMasked w (allowed disc tracked)
        (raw i (useAdvanced w (tracksIn w tracked) (allowed disc tracked) (raw i)))) (11 - tracksIn w tracked)
        (List.Nodup.sublist (List.Sublist.map _ List.filter_sublist) (hd _ _))
      omega
    · simp
  have size' : ∀ i, (part width height disc tracked raw i).length ≤ 11 := by
    intro i
    by_cases h : i < 9
    · obtain ⟨w, hw⟩ : ∃ w, (windows width height)[i]? = some w :=
        ⟨_, (windows_get ..).2 ⟨h, rfl⟩⟩
      have := size i w hw
      by_cases c : tracksIn w tracked ≤ 11
      · omega
      · omega
    · rw [part_out disc tracked raw (by omega)]; simp
  constructor
  · intro w hw
    obtain ⟨i, hi⟩ := List.mem_iff_getElem?.1 hw
    have h1 := size i w hi
    have h2 : ((detect width height disc tracked raw order).countP fun k => w.contains k.pos) ≤
        (part width height disc tracked raw i).length := by
      rw [detect_eq]
      refine Nat.le_trans ((removeDuplicated_sublist _).countP_le) ?_
      apply countP_flatMap_le _ _ i _ List.countP_le_length
      · exact (ho.nodup_iff).2 List.nodup_range
      · intro j _ hji
        rw [List.countP_eq_zero]
        intro k hk hc
        obtain ⟨v, hv, hc'⟩ := part_inside hr hk
        exact hji (windows_disjoint hv hi hc' hc)
    omega
  · rw [detect_eq]
    refine Nat.le_trans (removeDuplicated_sublist _).length_le ?_
    have := length_flatMap_le _ 11 size' order
    rw [ho.length_eq, List.length_range] at this
    exact this

/-- Twelve keypoints of equal response in each window are all kept: 108 new keypoints in one frame. -/
theorem C104_equal_responses_false (disc : Pixel → Pixel → Bool) : ∃ raw : Nat → Bool → List Key,
    RawInside 640 480 raw ∧ (detect 640 480 disc [] raw (List.range 9)).length = 108 := by
  refine ⟨fun _ _ => (List.range 12).map fun j : Nat => ⟨⟨10 * j + 10, 10⟩, 20⟩, ?_, ?_⟩
  · intro i w hw b k hk
    obtain ⟨-, rfl⟩ := (windows_get ..).1 hw
    obtain ⟨j, hj, rfl⟩ := List.mem_map.1 hk
    have := List.mem_range.1 hj
    refine ⟨?_, ?_, ?_, ?_⟩ <;> dsimp only <;> omega
  · have e : detect 640 480 disc [] (fun _ _ => (List.range 12).map fun j : Nat => ⟨⟨10 * j + 10, 10⟩, 20⟩)
        (List.range 9) = detect 640 480 (fun _ _ => false) []
        (fun _ _ => (List.range 12).map fun j : Nat => ⟨⟨10 * j + 10, 10⟩, 20⟩) (List.range 9) := rfl
    rw [e]
    decide +kernel

/-- With distinct responses, 30 keypoints tracked in one corner of the image and 11 found in each of the
other windows: 118 keypoints in one frame, more than the 100 of the configuration. -/
theorem C104_more_than_maximum_false : ∃ (tracked : List Pixel) (raw : Nat → Bool → List Key),
    tracked.length < 100 ∧ RawInside 640 480 raw ∧ (∀ i b, ((raw i b).map (·.response)).Nodup) ∧
    100 < tracked.length + (detect 640 480 (fun a b => a == b) tracked raw (List.range 9)).length := by
  refine ⟨(List.range 30).map fun j : Nat => ⟨5 * j + 10, 10⟩,
    fun _ _ => (List.range 11).map fun j : Nat => ⟨⟨10 * j + 10, 10⟩, j⟩, by simp, ?_, ?_, ?_⟩
  · intro i w hw b k hk
    obtain ⟨-, rfl⟩ := (windows_get ..).1 hw
    obtain ⟨j, hj, rfl⟩ := List.mem_map.1 hk
    have := List.mem_range.1 hj
    refine ⟨?_, ?_, ?_, ?_⟩ <;> dsimp only <;> omega
  · intro _ _
    simp only [List.map_map, Function.comp_def]
    decide
  · decide +kernel

/-- The hypotheses of the theorems above and below are met by a detection with tracked points, equal
positions in no detector, and a shuffled schedule. -/
example : RawInside 640 480 (fun _ _ => [⟨⟨5, 5⟩, 1⟩, ⟨⟨50, 5⟩, 2⟩]) ∧
    Schedule [3, 1, 2, 0, 8, 7, 6, 5, 4] ∧
    (detect 640 480 (fun a b => a == b) [⟨5, 5⟩] (fun _ _ => [⟨⟨5, 5⟩, 1⟩, ⟨⟨50, 5⟩, 2⟩])
      [3, 1, 2, 0, 8, 7, 6, 5, 4]).length = 17 := by
  refine ⟨?_, by unfold Schedule; decide, by decide +kernel⟩
  intro i w hw b k hk
  obtain ⟨-, rfl⟩ := (windows_get ..).1 hw
  simp only [List.mem_cons, List.not_mem_nil, or_false] at hk
  rcases hk with rfl | rfl <;> refine ⟨?_, ?_, ?_, ?_⟩ <;> dsimp only <;> omega

/-! ### C105 -/

/-- New keypoints are in the image, away from the masked area of every tracked keypoint, and no two are
at the same position. -/
theorem C105_detected (width height : Nat) (disc : Pixel → Pixel → Bool) (tracked : List Pixel)
    (raw : Nat → Bool → List Key) (hr : RawInside width height raw) (order : List Nat) :
    ((detect width height disc tracked raw order).map (·.pos)).Nodup ∧
    ∀ k ∈ detect width height disc tracked raw order,
      InImage width height k.pos ∧ ∀ t ∈ tracked, disc t k.pos = false := by
  refine ⟨removeDuplicated_nodup _, fun k hk => ?_⟩
  rw [detect_eq] at hk
  obtain ⟨j, -, hk⟩ := List.mem_flatMap.1 ((removeDuplicated_sublist _).subset hk)
  obtain ⟨w, b, r, hw, -, -, ha⟩ := mem_part hk
  obtain ⟨v, hv, hc⟩ := part_inside hr hk
  refine ⟨(C103_windows_partial width height).1 v (List.mem_of_getElem? hv) _ hc, fun t ht => ?_⟩
  simp only [allowed, Bool.not_eq_true', List.any_eq_false] at ha
  simpa using ha t ht

/-- The keypoints found do not depend on the order in which the parallel searches end. -/
theorem C105_schedule_independent (width height : Nat) (disc : Pixel → Pixel → Bool)
    (tracked : List Pixel) (raw : Nat → Bool → List Key) (order order' : List Nat)
    (ho : Schedule order) (ho' : Schedule order') :
    (detect width height disc tracked raw order).Perm (detect width height disc tracked raw order') := by
  rw [detect_eq, detect_eq]
  rw [List.perm_ext_iff_of_nodup (List.Nodup.of_map _ (removeDuplicated_nodup _))
    (List.Nodup.of_map _ (removeDuplicated_nodup _))]
  intro k
  have hp := (ho.trans ho'.symm).flatMap_right (part width height disc tracked raw)
  rw [mem_removeDuplicated, mem_removeDuplicated]
  constructor
  · rintro ⟨h1, h2⟩; exact ⟨hp.mem_iff.1 h1, fun k' hk' => h2 k' (hp.mem_iff.2 hk')⟩
  · rintro ⟨h1, h2⟩; exact ⟨hp.mem_iff.2 h1, fun k' hk' => h2 k' (hp.mem_iff.1 hk')⟩

/-- In each window the new keypoints are the strongest of one detector, the advanced one exactly when the
normal one does not find enough, and as many as wanted if there are that many. -/
theorem C105_strongest (width height : Nat) (disc : Pixel → Pixel → Bool) (tracked : List Pixel)
    (ht : tracked.length < 2 ^ 16) (raw : Nat → Bool → List Key) (hr : RawInside width height raw)
    (hd : ∀ i b, ((raw i b).map (·.pos)).Nodup) (order : List Nat) (ho : Schedule order)
    (i : Nat) (w : Window) (hw : (windows width height)[i]? = some w) :
    ∃ advanced : Bool,
      let free := fun k : Key => decide (∀ t ∈ tracked, disc t (w.toImage k).pos = false)
      let found := (detect width height disc tracked raw order).filter fun k => w.contains k.pos
      (advanced = true ↔ ((raw i false).filter free).length < 11 - tracksIn w tracked) ∧
      (∀ k ∈ found, ∃ r ∈ raw i advanced, k = w.toImage r) ∧
      (∀ r ∈ (raw i advanced).filter free, w.toImage r ∉ found → ∀ k ∈ found, r.response < k.response) ∧
      min (11 - tracksIn w tracked) ((raw i advanced).filter free).length ≤ found.length := by
  refine ⟨useAdvanced w (tracksIn w tracked) (allowed disc tracked) (raw i), ?_⟩
  intro free found
  have hfree : ∀ b, (raw i b).filter free = detectMasked w (allowed disc tracked) (raw i b) := by
    intro b
    unfold detectMasked
    apply List.filter_congr
    intro k _
    simp only [free, allowed]
    rw [Bool.eq_iff_iff]
    simp
  have hfound : ∀ k, k ∈ found ↔
      k ∈ detectInWindow w (tracksIn w tracked) (allowed disc tracked) (raw i) := by
    intro k
    rw [← part_eq disc tracked raw hw ht, ← mem_detect_window hr hd ho hw, List.mem_filter]
  have hp : perCell = 11 := rfl
  rw [detectInWindow_eq, hp] at hfound
  refine ⟨?_, ?_, ?_, ?_⟩
  · rw [hfree, useAdvanced, decide_eq_true_iff, hp]
  · intro k hk
    rw [hfound] at hk
    split_ifs at hk
    · obtain ⟨r, h, rfl⟩ := List.mem_map.1 hk
      exact ⟨r, (List.filter_sublist.subset ((retainBest_sublist _ _).subset h)), rfl⟩
    · cases hk
  · intro r h hn k hk
    rw [hfree] at h
    rw [hfound] at hk hn
    split_ifs at hk hn with hlt
    · obtain ⟨s, hs, rfl⟩ := List.mem_map.1 hk
      exact retainBest_stronger _ _ (a := s) hs h fun c => hn (List.mem_map_of_mem c)
    · cases hk
  · rw [hfree]
    split_ifs at hfound with hlt
    · refine Nat.le_trans (retainBest_length_ge _ _) ?_
      rw [← List.length_map (f := w.toImage)]
      apply List.Subperm.length_le
      apply List.subperm_of_subset
      · have := part_positions (width := width) (height := height) (disc := disc) (tracked := tracked) hd i
        rw [part_eq disc tracked raw hw ht, detectInWindow_eq, hp, if_pos hlt] at this
        exact List.Nodup.of_map _ this
      · intro k hk
        exact (hfound k).2 hk
    · omega

/-! ### C106 -/

/-- New keypoints are searched exactly when it is requested or fewer than 100 are tracked; the result has
the described new keypoints first and the tracked ones after them. -/
theorem C106_search_when_needed {Desc : Type} (cols rows : Nat) (im : DepthImage) (hasPyramid : Bool)
    (last : List Tracked) (force : Bool) (a : Answers Desc) (h h' : Handler Desc)
    (e : computeKeypoints cols rows im hasPyramid last force a h = .ok h') :
    ∃ tracked,
      (tracked = if hasPyramid = true ∧ last ≠ [] then
        opticalFlow cols rows last (a.forward (last.map (·.pt))) a.backward else []) ∧
      (force = false ∧ 100 ≤ tracked.length →
        h'.keypoints.map (·.pt) = tracked.map (·.pt) ∧ h'.descs = []) ∧
      (force = true ∨ tracked.length < 100 → ∃ new,
        (new = [] ∧ a.detected (tracked.map (·.pt)) = [] ∨
          new = a.describe (a.detected (tracked.map (·.pt)))) ∧
        h'.keypoints.map (·.pt) = new.map (·.1) ++ tracked.map (·.pt) ∧ h'.descs = new.map (·.2)) := by
  unfold computeKeypoints at e
  dsimp only at e
  have et : (if (hasPyramid && !last.isEmpty) = true then
      opticalFlow cols rows last (a.forward (last.map (·.pt))) a.backward else []) =
      if hasPyramid = true ∧ last ≠ [] then
        opticalFlow cols rows last (a.forward (last.map (·.pt))) a.backward else [] := by
    congr 1
    cases hasPyramid <;> cases last <;> simp
  rw [et] at e
  refine ⟨_, rfl, ?_⟩
  revert e
  generalize (if hasPyramid = true ∧ last ≠ [] then
        opticalFlow cols rows last (a.forward (last.map (·.pt))) a.backward else []) = tracked
  intro e
  obtain ⟨hf, -, -, -, hde⟩ := Keypoints.set_spec e
  have hp := hf.pts
  have hm : maximumPoints = 100 := rfl
  rw [hm] at hp hde
  constructor
  · rintro ⟨h1, h2⟩
    rw [if_neg (by simp [h1]; omega)] at hp hde
    exact ⟨by simpa using hp, hde⟩
  · intro hc
    rw [if_pos (by simpa using hc)] at hp hde
    by_cases hd : a.detected (tracked.map (·.pt)) = []
    · refine ⟨[], Or.inl ⟨rfl, hd⟩, ?_⟩
      rw [hd] at hp hde
      exact ⟨by simpa using hp, by simpa using hde⟩
    · have : (a.detected (tracked.map (·.pt))).isEmpty = false := by simpa using hd
      rw [this] at hp hde
      exact ⟨_, Or.inr rfl, by simpa using hp, by simpa using hde⟩

/-- The first call has no image to track from: every keypoint is new. -/
theorem C106_first_call_tracks_nothing {Desc : Type} (cols rows : Nat) (im : DepthImage)
    (last : List Tracked) (force : Bool) (a : Answers Desc) (h h' : Handler Desc)
    (e : computeKeypoints cols rows im false last force a h = .ok h') (x : Nat) :
    Keypoints.trackIndex h' x = none := by
  obtain ⟨hf, -⟩ := Keypoints.set_spec e
  have : h'.ids = [] := by
    rw [List.eq_nil_iff_forall_not_mem]
    rintro ⟨y, i⟩ hm
    obtain ⟨t, ht, -⟩ := hf.ids y i hm
    simp at ht
  unfold Keypoints.trackIndex
  rw [this]
  split_ifs <;> rfl

/-- A first call on an image where one keypoint is found, and a second one that tracks it. -/
example :
    ((computeKeypoints 100 100 ⟨100, 100, fun _ _ => 5⟩ false [] true
        ⟨fun _ => [], fun _ => [], fun _ => [⟨40, 40⟩], fun l => l.map fun p => (p, 7)⟩
        (Keypoints.create (Desc := Nat) 100 100)).bind fun h1 =>
      (computeKeypoints 100 100 ⟨100, 100, fun _ _ => 6⟩ true [⟨3, ⟨40, 40⟩⟩] false
        ⟨fun l => l.map fun p => ⟨1, ⟨p.x + 1, p.y⟩⟩, fun l => l.map fun p => ⟨1, ⟨p.x - 1, p.y⟩⟩,
          fun _ => [], fun _ => []⟩ h1).map fun h2 =>
      (h1.keypoints, h2.keypoints, Keypoints.trackIndex h2 3)) =
    .ok ([⟨⟨40, 40⟩, 5⟩], [⟨⟨41, 40⟩, 6⟩], some 0) := by decide +kernel

end RgbdSlam.KeypointDetection
