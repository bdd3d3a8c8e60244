import Verif.Model.PlaneMap
import Verif.Props.PlaneEntry
import Verif.Props.PlaneNoDrift

/-! # C198: the walls of a room enter the map, exactly where they are

The map of planes (C192) with the filter of the planes (C194), for a camera that moves freely. -/

namespace RgbdSlam.Updates

open Geometry Geometry.Spec Covariance Covariance.Spec Matrix Map

noncomputable section

/-! ## Specification -/

/-- The frames of a run: where the camera is, and the planes it detects. -/
abbrev Spec.Frames := List (Camera × List DetectedPlane)

/-- The run: at each frame the search for matches, the update of the map and the new candidates. -/
def Spec.planeRun (o : PlaneOps TrackedPlane DetectedPlane Camera) (fuel : Nat) : Spec.Frames → State TrackedPlane → Outcome (State TrackedPlane)
  | [], s => .ok s
  | f :: fs, s => (Map.Spec.planeFrame o fuel f.1 f.2 s).bind (Spec.planeRun o fuel fs)

/-- A room: every frame shows all the walls, in the same order, without error and from the inside.  No wall passes through the origin of
the world or through the centre of a camera. -/
structure Spec.InRoom (walls : List Plane) (frames : Spec.Frames) : Prop where
  count : ∀ f ∈ frames, f.2.length = walls.length
  seen : ∀ f ∈ frames, ∀ (i : Nat) w d, walls[i]? = some w → f.2[i]? = some d →
    Spec.SeesWall w (f.1, d) ∧ Orthonormal d.boundary.xAxis d.boundary.yAxis ∧ doubleEps < |d.plane.d|
  away : ∀ w ∈ walls, doubleEps < |w.d|
  pose : ∀ f ∈ frames, IsCovariance f.1.pose

/-- The outlines tell the walls apart.  `Shows i B`: `B` may be the outline of the wall `i` in the map.  Such an outline is visible and covers
the detected one; two walls whose outlines overlap differ by 20 degrees or more. -/
structure Spec.Outlined (merge : M4 → Polygon → Polygon → Outcome Polygon) (out : Outlines) (walls : List Plane) (frames : Spec.Frames)
    (Shows : Nat → Polygon → Prop) : Prop where
  starts : ∀ f ∈ frames, ∀ (i : Nat) d B, f.2[i]? = some d → d.boundary.toWorld f.1.c2w = .ok B → Shows i B
  grows : ∀ f ∈ frames, ∀ (i : Nat) w d B B', walls[i]? = some w → f.2[i]? = some d → Shows i B →
    updateBoundary (merge f.1.c2w d.boundary) B w = .ok (some B') → Shows i B'
  covers : ∀ f ∈ frames, ∀ (i : Nat) d B, f.2[i]? = some d → Shows i B → out.visible f.1 B = true ∧ 0 < out.area f.1 B ∧
    0 < out.overlap f.1 B d.boundary ∧ (out.detected d.boundary = 0 ∨ 2 / 5 ≤ out.overlap f.1 B d.boundary / out.detected d.boundary)
  apart : ∀ f ∈ frames, ∀ (i j : Nat) w w' d B, walls[i]? = some w → walls[j]? = some w' → j ≠ i → f.2[j]? = some d → Shows i B →
    out.overlap f.1 B d.boundary ≤ 0 ∨ |w'.normal ⬝ᵥ w.normal| ≤ Real.cos (20 * Real.pi / 180)

/-! ## Proofs -/

/-- One update with a detection without error, with the outline. -/
theorem exact_outline {pinv : Sq 4 → Sq 4} (hpinv : ∀ A, IsCovariance A → IsPseudoInverse A (pinv A))
    {merge : M4 → Polygon → Polygon → Outcome Polygon}
    (hm : ∀ (M : M4) (D Q : Polygon), Orthonormal Q.xAxis Q.yAxis → ∃ Q', merge M D Q = .ok Q' ∧ Orthonormal Q'.xAxis Q'.yAxis)
    {v : Camera × DetectedPlane} {p : TrackedPlane} (hp : GoodPlane p) (h : Spec.SeesWall p.plane v)
    (h1 : doubleEps < |v.2.plane.d|) (h2 : doubleEps < |p.plane.d|) :
    ∃ p', updatePlane pinv merge v.1 v.2 p = .ok (p', true) ∧ GoodPlane p' ∧ p'.plane = p.plane ∧
      updateBoundary (merge v.1.c2w v.2.boundary) p.boundary p.plane = .ok (some p'.boundary) := by
  have hw := measured_wall h
  obtain ⟨q, pos, hq, hM⟩ := h.place
  obtain ⟨W, e, cW⟩ := C131_plane_not_refused hq pos v.1 hM h.pose v.2 h.exact.1 h1 (by rw [hw]; exact h2) h.cloud
  obtain ⟨x, K, G, e1, cK, -, h3, -⟩ := static_step (by norm_num : (0 : ℝ) ≤ 1 / 10 ^ 6) pinv hpinv (planeVector p.plane)
    (planeVector p.plane) hp.covariance cW
  rw [sub_self, mulVec_zero, add_zero] at h3
  subst h3
  have hf : fusePlane pinv p p.plane W = .ok (planeVector p.plane, K) := e1
  have hu := (unitVec_iff _).1 hp.normal
  obtain ⟨B, hB, oB⟩ := updateBoundary_merge (hm v.1.c2w v.2.boundary) hp.axes hu
  have hn1 : doubleEqual (Geometry.norm p.plane.normal) 1 = true := by
    rw [norm_of_unit hu]; exact doubleEqual_self _ doubleEps_nonneg
  refine ⟨⟨p.plane, K, B⟩, ?_, ⟨cK, hp.normal, oB⟩, rfl, hB⟩
  unfold updatePlane
  rw [hw, e]
  simp only [Outcome.bind]
  rw [TrackedPlane.track, cW.valid, hp.covariance.valid, hf]
  simp only [Bool.not_true, Bool.false_eq_true, if_false, planeOfVector_planeVector hp.normal, hB, Outcome.bind, hn1, cK.valid, Outcome.map,
    caught, Option.isSome]

/-- A wall, seen from the camera that measures it, is the detected plane. -/
theorem wall_in_camera {w : Plane} {v : Camera × DetectedPlane} (h : Spec.SeesWall w v) :
    w.transform (planeWorldToCamera (worldToCameraOf v.1.c2w)) = v.2.plane := by
  obtain ⟨q, pos, hq, e⟩ := h.place
  have h1 := C30_camera_round_trip hq pos h.exact.1
  rw [worldToCamera, ← e, measured_wall h] at h1
  exact h1

/-- The camera does not change the angle of two walls. -/
theorem angle_in_camera {w w' : Plane} {c : Camera} {d d' : DetectedPlane} (h : Spec.SeesWall w (c, d)) (h' : Spec.SeesWall w' (c, d')) :
    d'.plane.normal ⬝ᵥ d.plane.normal = w'.normal ⬝ᵥ w.normal := by
  obtain ⟨q, pos, hq, e⟩ := h.place
  have hw : d.plane.transform (planeCameraToWorld c.c2w) = w := measured_wall (v := (c, d)) h
  have hw' : d'.plane.transform (planeCameraToWorld c.c2w) = w' := measured_wall (v := (c, d')) h'
  simp only at e
  obtain ⟨R, t, hR, eR⟩ := cameraToWorld_rigid hq pos
  rw [e, eR, plane_toWorld hR t ((unitVec_iff _).1 h.exact.1)] at hw
  rw [e, eR, plane_toWorld hR t ((unitVec_iff _).1 h'.exact.1)] at hw'
  rw [← hw, ← hw']
  exact (orthogonal_dot hR _ _).symm

theorem cos_match_pos : 0 < Real.cos (20 * Real.pi / 180) := by
  apply Real.cos_pos_of_mem_Ioo
  constructor <;> nlinarith [Real.pi_pos]

theorem similar_self {P : Plane} (h : UnitVec P.normal) : Refine.distanceSimilar P P = true ∧ Refine.normalSimilar P P = true := by
  constructor
  · simp [Refine.distanceSimilar, Refine.matchDistance]
  · simp only [Refine.normalSimilar, decide_eq_true_eq, (unitVec_iff _).1 h, abs_one, Refine.matchAngle]
    rw [abs_of_pos cos_match_pos, ← Real.cos_zero]
    apply Real.cos_lt_cos_of_nonneg_of_le_pi (le_refl _) <;> nlinarith [Real.pi_pos]

/-- What the map holds of the wall `i`. -/
def StandsAt (walls : List Plane) (Shows : Nat → Polygon → Prop) (i : Nat) (p : TrackedPlane) : Prop :=
  GoodPlane p ∧ walls[i]? = some p.plane ∧ Shows i p.boundary

theorem still_walls {pinv : Sq 4 → Sq 4} (hpinv : ∀ A, IsCovariance A → IsPseudoInverse A (pinv A))
    {merge : M4 → Polygon → Polygon → Outcome Polygon}
    (hm : ∀ (M : M4) (D Q : Polygon), Orthonormal Q.xAxis Q.yAxis → ∃ Q', merge M D Q = .ok Q' ∧ Orthonormal Q'.xAxis Q'.yAxis)
    {out : Outlines} {walls : List Plane} {frames : Spec.Frames} {Shows : Nat → Polygon → Prop} (hr : Spec.InRoom walls frames)
    (ho : Spec.Outlined merge out walls frames Shows) {f : Camera × List DetectedPlane} (hf : f ∈ frames) :
    Map.Spec.StillPlanes (planeOps pinv merge out) f.1 f.2 (StandsAt walls Shows) := by
  have hlen := hr.count f hf
  have get : ∀ {i : Nat} {w : Plane}, walls[i]? = some w → ∃ d, f.2[i]? = some d := by
    intro i w h
    have : i < walls.length := by
      by_contra hi
      rw [List.getElem?_eq_none (by omega)] at h
      cases h
    exact ⟨_, List.getElem?_eq_getElem (by omega)⟩
  refine ⟨(hr.pose f hf).valid, ?_, ?_, ?_, ?_, ?_, ?_⟩
  · intro i d hd
    have hi : i < walls.length := by
      by_contra hi
      rw [List.getElem?_eq_none (by omega)] at hd
      cases hd
    have hw : walls[i]? = some walls[i] := List.getElem?_eq_getElem hi
    obtain ⟨h1, h2, h3⟩ := hr.seen f hf i _ d hw hd
    obtain ⟨p, e, hp, hpw, -⟩ := C194_plane_starts h1 h2 h3 (hr.away _ (List.getElem_mem hi))
    have e' : newPlane f.1 d = .ok p := e
    refine ⟨p, by simp only [planeOps, e'], hp, by rw [hpw]; exact hw, ?_⟩
    rw [newPlane] at e'
    obtain ⟨W, -, e'⟩ := Outcome.bind_eq_ok e'
    obtain ⟨B, eB, e'⟩ := Outcome.bind_eq_ok e'
    simp only at e'
    split at e'
    · cases e'
    · rw [← Outcome.ok.inj e']
      exact ho.starts f hf i d B hd eB
  · rintro i p ⟨-, hw, hB⟩
    obtain ⟨d, hd⟩ := get hw
    obtain ⟨h1, h2, -⟩ := ho.covers f hf i d _ hd hB
    exact ⟨h1, h2⟩
  · rintro i p d ⟨-, hw, hB⟩ hd
    obtain ⟨-, -, h3, h4⟩ := ho.covers f hf i d _ hd hB
    obtain ⟨h1, -, -⟩ := hr.seen f hf i _ d hw hd
    refine ⟨?_, h3, h4⟩
    obtain ⟨g1, g2⟩ := similar_self h1.exact.1
    have hc : p.plane.transform (planeWorldToCamera (worldToCameraOf f.1.c2w)) = d.plane := wall_in_camera (v := (f.1, d)) h1
    simp only [planeOps, hc]
    rw [g1, g2]
    rfl
  · rintro i j p d ⟨-, hw, hB⟩ hd hji
    have hj : j < walls.length := by
      by_contra hj
      rw [List.getElem?_eq_none (by omega)] at hd
      cases hd
    have hw' : walls[j]? = some walls[j] := List.getElem?_eq_getElem hj
    rcases ho.apart f hf i j _ _ d _ hw hw' hji hd hB with h | h
    · exact .inr h
    · left
      obtain ⟨di, hdi⟩ := get hw
      obtain ⟨h1, -, -⟩ := hr.seen f hf i _ di hw hdi
      obtain ⟨h2, -, -⟩ := hr.seen f hf j _ d hw' hd
      have hc : p.plane.transform (planeWorldToCamera (worldToCameraOf f.1.c2w)) = di.plane := wall_in_camera (v := (f.1, di)) h1
      have ha := angle_in_camera h1 h2
      simp only [planeOps, hc]
      have : Refine.normalSimilar d.plane di.plane = false := by
        simp only [Refine.normalSimilar, decide_eq_false_iff_not, not_lt, ha, Refine.matchAngle]
        rw [abs_of_pos cos_match_pos]
        exact h
      rw [this, Bool.and_false]
  · rintro i p d ⟨hp, hw, hB⟩ hd
    obtain ⟨h1, -, h3⟩ := hr.seen f hf i _ d hw hd
    obtain ⟨p', e, g, hpw, eB⟩ := exact_outline hpinv hm hp h1 h3 (hr.away _ (List.mem_of_getElem? hw))
    exact ⟨p', e, g, by rw [hpw]; exact hw, ho.grows f hf i _ d _ _ hw hd hB eB⟩
  · rintro i p ⟨hp, hw, hB⟩
    refine ⟨p, ?_, hp, hw, hB⟩
    have hn1 : doubleEqual (Geometry.norm p.plane.normal) 1 = true := by
      rw [norm_of_unit ((unitVec_iff _).1 hp.normal)]; exact doubleEqual_self _ doubleEps_nonneg
    simp [planeOps, copyPlane, hp.covariance.valid, hn1]

theorem run_calm {o : PlaneOps TrackedPlane DetectedPlane Camera} {Stands : Nat → TrackedPlane → Prop} {n fuel a g : Nat} (hn : 0 < n)
    (hfu : n + 1 ≤ fuel) : ∀ (fs : Spec.Frames) (t : Nat) (s : State TrackedPlane),
    (∀ f ∈ fs, Map.Spec.StillPlanes o f.1 f.2 Stands ∧ f.2.length = n) → a + n + (t + fs.length) < 2 ^ 64 → CalmState Stands a g n t s →
    ∃ s', Spec.planeRun o fuel fs s = .ok s' ∧ CalmState Stands a g n (t + fs.length) s' := by
  intro fs
  induction fs with
  | nil => exact fun t s _ _ h => ⟨s, rfl, h⟩
  | cons f fs ih =>
    intro t s hs hlt h
    obtain ⟨h1, h2⟩ := hs f (by simp)
    subst h2
    simp only [List.length_cons] at hlt
    obtain ⟨s1, e1, c1⟩ := frame_calm h1 (List.length_pos_iff.1 hn) hfu (t := t) (by omega) h
    obtain ⟨s2, e2, c2⟩ := ih (t + 1) s1 (fun f hf => hs f (by simp [hf])) (by omega) c1
    refine ⟨s2, by rw [Spec.planeRun, e1, Outcome.bind_ok, e2], ?_⟩
    rw [List.length_cons, show t + (fs.length + 1) = t + 1 + fs.length by omega]
    exact c2

theorem walls_calm {pinv : Sq 4 → Sq 4} (hpinv : ∀ A, IsCovariance A → IsPseudoInverse A (pinv A))
    {merge : M4 → Polygon → Polygon → Outcome Polygon}
    (hm : ∀ (M : M4) (D Q : Polygon), Orthonormal Q.xAxis Q.yAxis → ∃ Q', merge M D Q = .ok Q' ∧ Orthonormal Q'.xAxis Q'.yAxis)
    {out : Outlines} {walls : List Plane} {frames : Spec.Frames} {Shows : Nat → Polygon → Prop} (hr : Spec.InRoom walls frames)
    (ho : Spec.Outlined merge out walls frames Shows) (hw : walls ≠ []) (hne : frames ≠ []) {fuel a g : Nat} (hfu : walls.length + 1 ≤ fuel)
    (hlt : a + walls.length + frames.length < 2 ^ 64) :
    ∃ s, Spec.planeRun (planeOps pinv merge out) fuel frames (State.init ⟨a, g⟩) = .ok s ∧
      CalmState (StandsAt walls Shows) a g walls.length (frames.length - 1) s := by
  obtain ⟨f, fs, rfl⟩ := List.exists_cons_of_ne_nil hne
  have hst : ∀ x ∈ f :: fs, Map.Spec.StillPlanes (planeOps pinv merge out) x.1 x.2 (StandsAt walls Shows) ∧ x.2.length = walls.length :=
    fun x hx => ⟨still_walls hpinv hm hr ho hx, hr.count x hx⟩
  obtain ⟨h1, h2⟩ := hst f (by simp)
  simp only [List.length_cons] at hlt
  obtain ⟨s1, e1, c1⟩ := first_calm h1 (fuel := fuel) (a := a) (g := g) (by omega)
  rw [h2] at c1
  obtain ⟨s2, e2, c2⟩ := run_calm (List.length_pos_iff.2 hw) hfu fs 0 s1 (fun x hx => hst x (by simp [hx])) (by omega) c1
  refine ⟨s2, by rw [Spec.planeRun, e1, Outcome.bind_ok, e2], ?_⟩
  simpa using c2

/-! ## C198 -/

/-- C198 (partial: not for the wall that is detected first): in a room whose walls are measured without error, for any motion of the camera that
keeps them in view, every other wall is in the map from the fifth frame on, exactly where it is, and has been recognised at
every frame since the first one; the map holds nothing else, and nothing is given up. -/
theorem C198_walls_enter_partial {pinv : Sq 4 → Sq 4} (hpinv : ∀ A, IsCovariance A → IsPseudoInverse A (pinv A))
    {merge : M4 → Polygon → Polygon → Outcome Polygon}
    (hm : ∀ (M : M4) (D Q : Polygon), Orthonormal Q.xAxis Q.yAxis → ∃ Q', merge M D Q = .ok Q' ∧ Orthonormal Q'.xAxis Q'.yAxis)
    {out : Outlines} {walls : List Plane} {frames : Spec.Frames} {Shows : Nat → Polygon → Prop} (hr : Spec.InRoom walls frames)
    (ho : Spec.Outlined merge out walls frames Shows) (hw : walls ≠ []) (hne : frames ≠ []) {fuel a g : Nat} (hfu : walls.length + 1 ≤ fuel)
    (hlt : a + walls.length + frames.length < 2 ^ 64) :
    ∃ s, Spec.planeRun (planeOps pinv merge out) fuel frames (State.init ⟨a, g⟩) = .ok s ∧ s.written = [] ∧
      (5 ≤ frames.length → ∀ i w, 1 ≤ i → walls[i]? = some w → ∃ f, (a + 1 + i, f) ∈ s.map.localMap ∧ f.id = a + 1 + i ∧
        f.body.plane = w ∧ f.succ = frames.length - 1 ∧ f.failed = 0) ∧
      (∀ p ∈ s.map.localMap, ∃ i w, 1 ≤ i ∧ walls[i]? = some w ∧ p.1 = a + 1 + i ∧ p.2.body.plane = w) ∧
      (s.map.localMap.map Prod.fst).Nodup ∧ (frames.length < 5 → s.map.localMap = []) := by
  have hpos : 0 < frames.length := List.length_pos_iff.2 hne
  obtain ⟨s, e, h⟩ := walls_calm hpinv hm hr ho hw hne (g := g) hfu hlt
  refine ⟨s, e, h.written, fun h5 i w h1 hi => ?_, fun p hp => ?_, h.calm.localKeys, fun h5 => (h.calm.young (by omega)).1⟩
  · have hlen : i < walls.length := by
      by_contra hn
      rw [List.getElem?_eq_none (by omega)] at hi
      cases hi
    have hreal : Real a walls.length (a + 1 + i) := ⟨by omega, by omega⟩
    obtain ⟨⟨k, f⟩, hp, hk⟩ := List.mem_map.1 ((h.calm.grown (by omega)).2 _ hreal)
    simp only at hk
    subst hk
    have hfine := (h.calm.localFine _ hp).1
    obtain ⟨⟨-, q1, -⟩, q2, q3⟩ := hfine.real hreal
    rw [show a + 1 + i - a - 1 = i by omega, hi] at q1
    exact ⟨f, hp, hfine.id, (Option.some.inj q1).symm, by simpa [Nat.cast_sub hpos] using q3, q2⟩
  · obtain ⟨hfine, hreal⟩ := h.calm.localFine p hp
    obtain ⟨⟨-, q1, -⟩, -⟩ := hfine.real hreal
    have := hreal.1
    exact ⟨p.1 - a - 1, _, by omega, q1, by omega, rfl⟩

/-- C198 is false for the wall that is detected first: whatever the motion and however long the run, no plane of the map is where that wall
is. -/
theorem C198_first_wall_false {pinv : Sq 4 → Sq 4} (hpinv : ∀ A, IsCovariance A → IsPseudoInverse A (pinv A))
    {merge : M4 → Polygon → Polygon → Outcome Polygon}
    (hm : ∀ (M : M4) (D Q : Polygon), Orthonormal Q.xAxis Q.yAxis → ∃ Q', merge M D Q = .ok Q' ∧ Orthonormal Q'.xAxis Q'.yAxis)
    {out : Outlines} {wall : Plane} {walls : List Plane} {frames : Spec.Frames} {Shows : Nat → Polygon → Prop}
    (hr : Spec.InRoom (wall :: walls) frames) (ho : Spec.Outlined merge out (wall :: walls) frames Shows) (hdiff : wall ∉ walls)
    (hne : frames ≠ []) {fuel a g : Nat} (hfu : walls.length + 2 ≤ fuel) (hlt : a + (walls.length + 1) + frames.length < 2 ^ 64) :
    ∃ s, Spec.planeRun (planeOps pinv merge out) fuel frames (State.init ⟨a, g⟩) = .ok s ∧
      ∀ p ∈ s.map.localMap, p.2.body.plane ≠ wall := by
  obtain ⟨s, e, -, -, h, -⟩ := C198_walls_enter_partial hpinv hm hr ho (by simp) hne (g := g) (fuel := fuel) (by simp only [List.length_cons]; omega)
    (by simpa using hlt)
  refine ⟨s, e, fun p hp hpw => ?_⟩
  obtain ⟨i, w, h1, h2, -, h3⟩ := h p hp
  obtain ⟨j, rfl⟩ : ∃ j, i = j + 1 := ⟨i - 1, by omega⟩
  rw [List.getElem?_cons_succ] at h2
  rw [hpw] at h3
  exact hdiff (h3 ▸ List.mem_of_getElem? h2)

/-! ## The hypotheses are met -/

/-- Three walls at 2 m from the origin. -/
def exampleRoom : List Plane := [⟨![1, 0, 0], -2000⟩, ⟨![0, 1, 0], -2000⟩, ⟨![0, 0, 1], -2000⟩]

/-- What a camera sees of them. -/
def exampleFrame (pose : Quat × V3) : Camera × List DetectedPlane :=
  (⟨525, 525, 320, 240, cameraToWorld pose.1 pose.2, 1⟩, exampleRoom.map fun w =>
    ⟨w.transform (planeWorldToCamera (worldToCamera pose.1 pose.2)), 1, examplePolygon⟩)

theorem exampleRoom_wall {w : Plane} (h : w ∈ exampleRoom) : ∃ i : Fin 3, w = ⟨Pi.single i 1, -2000⟩ := by
  simp only [exampleRoom, List.mem_cons, List.not_mem_nil, or_false] at h
  rcases h with rfl | rfl | rfl
  · exact ⟨0, by congr 1; ext i; fin_cases i <;> rfl⟩
  · exact ⟨1, by congr 1; ext i; fin_cases i <;> rfl⟩
  · exact ⟨2, by congr 1; ext i; fin_cases i <;> rfl⟩

/-- Any walk of the camera within a metre of the origin, in each direction, is in the room. -/
theorem exampleRoom_walk {poses : List (Quat × V3)} (h : ∀ p ∈ poses, UnitQuat p.1 ∧ ∀ i, |p.2 i| ≤ 1000) :
    Spec.InRoom exampleRoom (poses.map exampleFrame) := by
  refine ⟨?_, ?_, ?_, ?_⟩
  · intro f hf
    obtain ⟨p, -, rfl⟩ := List.mem_map.1 hf
    simp [exampleFrame]
  · intro f hf i w d hw hd
    obtain ⟨p, hp, rfl⟩ := List.mem_map.1 hf
    obtain ⟨hq, hpos⟩ := h p hp
    simp only [exampleFrame, List.getElem?_map, hw, Option.map_some, Option.some.injEq] at hd
    subst hd
    obtain ⟨k, rfl⟩ := exampleRoom_wall (List.mem_of_getElem? hw)
    have hn : UnitVec (⟨Pi.single k 1, -2000⟩ : Plane).normal := by
      rw [unitVec_iff]; simp
    refine ⟨wall_seen hn hq p.2, examplePolygon_axes, ?_⟩
    have hR : (axesRotation * p.1.toRotationMatrix)ᵀ * (axesRotation * p.1.toRotationMatrix) = 1 :=
      orthogonal_mul axesRotation_orthogonal (rotationMatrix_orthogonal hq)
    simp only
    rw [worldToCamera, worldToCameraOf, cameraToWorld_eq, plane_toCamera hR _ ((unitVec_iff _).1 hn)]
    simp only [dotProduct_single, mul_one]
    have ht : |(axesRotation *ᵥ p.2) k| ≤ 1000 := by
      have h0 := hpos 0; have h1 := hpos 1; have h2 := hpos 2
      fin_cases k <;> simp [axesRotation, mulVec, dotProduct, Fin.sum_univ_three] <;> assumption
    have := abs_le.1 ht
    rw [abs_of_neg (by linarith)]
    have : doubleEps < 1 := by norm_num [doubleEps]
    linarith
  · intro w hw
    obtain ⟨k, rfl⟩ := exampleRoom_wall hw
    norm_num [doubleEps]
  · intro f hf
    obtain ⟨p, -, rfl⟩ := List.mem_map.1 hf
    exact isCovariance_one

/-- Outlines that always cover, of walls at right angles. -/
theorem exampleRoom_outlined (poses : List (Quat × V3)) :
    Spec.Outlined (fun _ _ Q => .ok Q) ⟨fun _ _ => true, fun _ _ => 1, fun _ _ _ => 1, fun _ => 1⟩ exampleRoom (poses.map exampleFrame)
      (fun _ _ => True) := by
  refine ⟨fun _ _ _ _ _ _ _ => trivial, fun _ _ _ _ _ _ _ _ _ _ _ => trivial, ?_, ?_⟩
  · intro f hf i d B _ _
    exact ⟨rfl, by norm_num, by norm_num, by norm_num⟩
  · intro f hf i j w w' d B hw hw' hji _ _
    right
    have hi : i < 3 := by
      by_contra hn
      rw [List.getElem?_eq_none (by simp [exampleRoom]; omega)] at hw
      cases hw
    have hj : j < 3 := by
      by_contra hn
      rw [List.getElem?_eq_none (by simp [exampleRoom]; omega)] at hw'
      cases hw'
    have : w'.normal ⬝ᵥ w.normal = 0 := by
      interval_cases i <;> interval_cases j <;> simp [exampleRoom] at hw hw' hji <;> subst hw hw' <;>
        simp [dotProduct, Fin.sum_univ_three]
    rw [this, abs_zero]
    exact cos_match_pos.le

/-- A hundred frames, during which the camera goes away and turns round: two walls are in the map, exactly where they are, and the first one
is not. -/
example : ∃ s, Spec.planeRun (planeOps (examplePinv 4) (fun _ _ Q => .ok Q) ⟨fun _ _ => true, fun _ _ => 1, fun _ _ _ => 1, fun _ => 1⟩) 9
      (((List.range 100).map fun k : Nat => (if k < 50 then ⟨1, 0, 0, 0⟩ else exampleQuat, ![(k : ℝ), 2 * k, -3 * k])).map exampleFrame)
      (State.init ⟨0, 0⟩) = .ok s ∧
    (∃ f, (2, f) ∈ s.map.localMap ∧ f.body.plane = ⟨![0, 1, 0], -2000⟩) ∧ (∃ f, (3, f) ∈ s.map.localMap ∧ f.body.plane = ⟨![0, 0, 1], -2000⟩) ∧
    ∀ p ∈ s.map.localMap, p.2.body.plane ≠ ⟨![1, 0, 0], -2000⟩ := by
  have hroom := exampleRoom_walk (poses := (List.range 100).map fun k : Nat =>
      (if k < 50 then ⟨1, 0, 0, 0⟩ else exampleQuat, ![(k : ℝ), 2 * k, -3 * k])) (by
    intro p hp
    obtain ⟨k, hk, rfl⟩ := List.mem_map.1 hp
    have hk : (k : ℝ) < 100 := by exact_mod_cast List.mem_range.1 hk
    have h0 : (0 : ℝ) ≤ k := Nat.cast_nonneg k
    refine ⟨?_, fun i => ?_⟩
    · simp only
      split
      · norm_num [UnitQuat]
      · exact exampleQuat_unit
    · fin_cases i
      · change |(k : ℝ)| ≤ 1000
        rw [abs_le]; constructor <;> linarith
      · change |2 * (k : ℝ)| ≤ 1000
        rw [abs_le]; constructor <;> linarith
      · change |-3 * (k : ℝ)| ≤ 1000
        rw [abs_le]; constructor <;> linarith)
  obtain ⟨s, e, -, h1, h2, -⟩ := C198_walls_enter_partial examplePinv_spec (merge := fun _ _ Q => .ok Q) (fun _ _ Q h => ⟨Q, rfl, h⟩) hroom
    (exampleRoom_outlined _) (by simp [exampleRoom]) (by simp) (fuel := 9) (a := 0) (g := 0) (by simp [exampleRoom]) (by simp [exampleRoom])
  refine ⟨s, e, ?_, ?_, fun p hp he => ?_⟩
  · obtain ⟨f, hf, -, hw, -⟩ := h1 (by simp) 1 _ (by omega) rfl
    exact ⟨f, hf, hw⟩
  · obtain ⟨f, hf, -, hw, -⟩ := h1 (by simp) 2 _ (by omega) rfl
    exact ⟨f, hf, hw⟩
  · obtain ⟨i, w, hi, hw, -, hp⟩ := h2 p hp
    rw [he] at hp
    subst hp
    have hi3 : i < 3 := by
      by_contra hn
      rw [List.getElem?_eq_none (by simp [exampleRoom]; omega)] at hw
      cases hw
    interval_cases i <;> simp [exampleRoom] at hw

end

end RgbdSlam.Updates
