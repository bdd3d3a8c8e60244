import Verif.Props.Updates
import Verif.Props.Validity
import Verif.Props.TrackedFeatures
import Verif.Props.Optimizer
/-
More about the properties of Props/Updates.lean, Props/TrackedFeatures.lean and Props/Validity.lean: what new
features hold, what an update does with a bad pose covariance, and what a match hands to the optimisation.
-/
namespace RgbdSlam.Updates

open Geometry Covariance Points2d Matrix Optimizer Spec
open Keypoints (Handler Detected Kp Pt)
open Map (depthValid PointGeo PlaneOps Feat Store addToTracked trackStore Draws)

variable {Desc S : Type}

/-! ## New points -/

/-- C130: a keypoint becomes a new 3D point only when it is not left of or above the image, its depth is
not zero, it has a descriptor and the covariance of its position is valid.  The point is the one that the
pinhole camera sees in the keypoint's pixel at its depth, moved to the world; it keeps the descriptor and is
not moving. -/
theorem C130_new_point [Inhabited Desc] (sight : Sight Desc S) (pinv : Sq 3 → Sq 3) (c : Camera)
    (hx : c.fx ≠ 0) (hy : c.fy ≠ 0) (d : Detected Desc) (b : Body Desc S)
    (h : (geo1 sight pinv).build c d = some b) :
    (geo1 sight pinv).isMoving b = false ∧ ∃ p, b = .point p ∧ p.desc = d.desc ∧ p.desc.isSome = true ∧
      isValid p.tracked.covariance = true ∧ worldPointCovariance c d.kp = .ok p.tracked.covariance ∧
      0 ≤ d.kp.pt.x ∧ 0 ≤ d.kp.pt.y ∧ doubleEps < |(d.kp.depth : ℝ)| ∧
      p.tracked.coordinates = pointToWorld c.c2w
        ![(d.kp.pt.x - c.cx) / c.fx * d.kp.depth, (d.kp.pt.y - c.cy) / c.fy * d.kp.depth, d.kp.depth] := by
  simp only [geo1, Option.map_eq_some_iff] at h
  obtain ⟨p, hp, rfl⟩ := h
  unfold newPoint at hp
  split at hp
  · rename_i x C hw hC
    unfold makePoint at hp
    split_ifs at hp with h1 h2
    cases hp
    unfold worldPoint screenToCamera at hw
    split_ifs at hw with h3 h4 h5
    · cases hw
    · cases hw
    · cases hw
    · cases hw
      have e0 : screenPoint d.kp 0 = (d.kp.pt.x : ℝ) := rfl
      have e1 : screenPoint d.kp 1 = (d.kp.pt.y : ℝ) := rfl
      have e2 : screenPoint d.kp 2 = (d.kp.depth : ℝ) := rfl
      rw [e0] at h3
      rw [e1] at h4
      rw [e2] at h5
      refine ⟨rfl, _, rfl, rfl, ?_, by simpa using h2, hC, by exact_mod_cast not_lt.1 h3,
        by exact_mod_cast not_lt.1 h4, ?_, ?_⟩
      · cases hd : d.desc with
        | none => rw [hd] at h1; exact absurd rfl h1
        | some _ => rfl
      · simpa [doubleEqual] using h5
      · dsimp only
        congr 1
        rw [Camera.K, screenToCamera2_eq hx hy, e0, e1, e2]
        ext i
        fin_cases i
        · simp; ring
        · simp; ring
        · simp
  · cases hp

/-- A keypoint at one metre. -/
example : ∃ b, newPoint (Desc := ℕ) exampleCamera ⟨⟨⟨100, 50⟩, 1000⟩, some 7⟩ = some b ∧
    exampleCamera.fx ≠ 0 ∧ exampleCamera.fy ≠ 0 := by
  obtain ⟨x, hx⟩ := worldPoint_ok exampleCamera (k := ⟨⟨100, 50⟩, 1000⟩)
    (by norm_num [depthValid]) (fun _ => ⟨by norm_num, by norm_num⟩)
  obtain ⟨C, hC, cC⟩ := worldPointCovariance_ok (c := exampleCamera) isCovariance_one ⟨⟨100, 50⟩, 1000⟩
  refine ⟨⟨⟨x, C, false⟩, some 7⟩, ?_, by norm_num [exampleCamera], by norm_num [exampleCamera]⟩
  simp only [newPoint, hx, hC, makePoint, cC.valid]
  rfl

/-- C130: a keypoint becomes a new 2D point only when the covariance of the pose of the camera is valid
and so is the covariance it gives to the point.  The point lies on the ray of the camera through the pixel,
seen from the position of the camera, at half of the baseline as inverse depth; it keeps the descriptor and is not moving. -/
theorem C130_new_point2d [Inhabited Desc] (sight : Sight Desc S) (pinv : Sq 3 → Sq 3) {q : Quat} (hq : UnitQuat q)
    (pos : V3) (c : Camera) (hM : c.c2w = cameraToWorld q pos) (hx : c.fx ≠ 0) (hy : c.fy ≠ 0) (d : Detected Desc)
    (b : Body Desc S) (h : (geo2 sight pinv).build c d = some b) :
    (geo2 sight pinv).isMoving b = false ∧ ∃ p, b = .inverse p ∧ p.desc = d.desc ∧
      isValid p.tracked.covariance = true ∧ isValid c.pose = true ∧
      firstPoseBlock p.tracked.covariance = c.pose ∧
      p.tracked.coordinates.first = pointToWorld c.c2w 0 ∧ p.tracked.coordinates.inverseDepth = 1 / 2000 ∧
      ∃ t : ℝ, 0 < t ∧ pointToWorld c.c2w ![(d.kp.pt.x - c.cx) / c.fx, (d.kp.pt.y - c.cy) / c.fy, 1] =
        p.tracked.coordinates.first + t • p.tracked.coordinates.bearing := by
  simp only [geo2, Option.map_eq_some_iff] at h
  obtain ⟨p, hp, rfl⟩ := h
  obtain ⟨ip, h1, h2, h3, t, ht, h4⟩ := C32_first_observation hq pos c.K (screenPoint2 d.kp)
  rw [← hM] at h1 h2 h4
  unfold newPoint2d newInverse at hp
  rw [h1, Outcome.bind_ok] at hp
  dsimp only at hp
  split_ifs at hp with h5 h6
  cases hp
  refine ⟨rfl, _, rfl, rfl, by simpa using h6, by simpa using h5, ?_, h2, h3, t, ht, ?_⟩
  · ext i j
    fin_cases i <;> fin_cases j <;> simp [firstPoseBlock, initialInverseCovariance, setFirstPoseBlock]
  · rw [← h4, Camera.K, screenToCamera2_eq hx hy]
    rfl

/-- C130: copying a candidate into the map keeps the coordinates, the covariance and the descriptor; what is
copied is not moving any more. -/
theorem C130_copied [Inhabited Desc] (sight : Sight Desc S) (pinv : Sq 3 → Sq 3) (p : PointBody Desc)
    (i : InverseBody Desc) :
    (∀ b, (geo1 sight pinv).copy (.point p) = some b → (geo1 sight pinv).isMoving b = false ∧
      ∃ p', b = .point p' ∧ p'.desc = p.desc ∧ p'.tracked.coordinates = p.tracked.coordinates ∧
        p'.tracked.covariance = p.tracked.covariance) ∧
    (∀ b, (geo2 sight pinv).copy (.inverse i) = some b → (geo2 sight pinv).isMoving b = false ∧
      ∃ i', b = .inverse i' ∧ i'.desc = i.desc ∧ i'.tracked.coordinates = i.tracked.coordinates ∧
        i'.tracked.covariance = i.tracked.covariance) := by
  constructor
  · intro b h
    simp only [geo1, Option.map_eq_some_iff] at h
    obtain ⟨p', hp, rfl⟩ := h
    unfold copyPoint makePoint at hp
    split_ifs at hp
    cases hp
    exact ⟨rfl, _, rfl, rfl, rfl, rfl⟩
  · intro b h
    simp only [geo2, Option.map_eq_some_iff] at h
    obtain ⟨p', hp, rfl⟩ := h
    unfold copyPoint2d at hp
    split_ifs at hp
    cases hp
    exact ⟨rfl, _, rfl, rfl, rfl, rfl⟩

/-- C130: a 2D point that becomes a 3D point keeps its descriptor, takes the world point it stood for, and
the map of 3D points accepts it. -/
theorem C130_upgraded [Inhabited Desc] (sight2 sight1 : Sight Desc S) (pinv : Sq 3 → Sq 3) (c : Camera)
    (p : InverseBody Desc) (hp : GoodInverse p) (b : Body Desc S)
    (h : (geo2 sight2 pinv).upgrade c (.inverse p) = some b) :
    ∃ r, b = .point r ∧ r.desc = p.desc ∧ p.tracked.coordinates.toWorld = .ok r.tracked.coordinates ∧
      cartesianCovariance p.tracked.coordinates p.tracked.covariance = .ok r.tracked.covariance ∧
      (geo1 sight1 pinv).buildUpgraded b = some b ∧ (geo1 sight1 pinv).isMoving b = false := by
  simp only [geo2] at h
  split at h
  · rename_i x C hu
    cases h
    unfold computeUpgraded at hu
    obtain ⟨o, -, hu⟩ := Outcome.bind_eq_ok hu
    cases o with
    | none => cases hu
    | some score =>
      dsimp only at hu
      split_ifs at hu
      · obtain ⟨w, hw, hu⟩ := Outcome.bind_eq_ok hu
        have hc := cartesianCovariance_ok (p := p.tracked.coordinates) hp.1
        rw [hc] at hu
        dsimp only at hu
        cases hu
        have hv : isValid (propagate p.tracked.covariance (worldJacobian p.tracked.coordinates)) = true :=
          (hp.1.propagate' _).valid
        refine ⟨_, rfl, rfl, hw, hc, ?_, rfl⟩
        have hs : p.desc.isNone = false := by
          have := hp.2.1
          cases hd : p.desc
          · rw [hd] at this; cases this
          · rfl
        simp only [geo1, copyPoint, makePoint, hs, hv]
        rfl
      · cases hu
  · cases h

/-! ## A pose without covariance -/

theorem newInverse_bad (c : Camera) (hc : isValid c.pose = false) (s : V2) (desc : Option Desc) :
    newInverse c s desc = .throws := by
  obtain ⟨p, hp, -⟩ := ofScreen_ok c.K s c.c2w
  unfold newInverse
  rw [hp, Outcome.bind_ok, hc]
  rfl

/-- C130: when the covariance of the pose is not valid, a keypoint without depth makes no 2D point; the
update of a 2D point with it is refused and changes nothing, but that of a 3D point ends the program: its
exception leaves a noexcept function. -/
theorem C130_bad_pose (pinv : Sq 3 → Sq 3) (c : Camera) (hc : isValid c.pose = false) (d : Detected Desc)
    (hd : depthValid d.kp.depth = false) (b : InverseBody Desc) (p : PointBody Desc) :
    newPoint2d c d = none ∧ updatePoint2d pinv c d b = .ok (b, false) ∧ updatePoint pinv c d p = .terminate := by
  refine ⟨?_, ?_, ?_⟩
  · unfold newPoint2d
    rw [newInverse_bad c hc]
  · unfold updatePoint2d observe
    rw [hd, newInverse_bad c hc]
    rfl
  · unfold updatePoint observe
    rw [hd, newInverse_bad c hc]
    rfl

/-- C130: when the covariance computed for an observation is not valid, or the filter fails, the point is
left as it was and the update is reported as failed. -/
theorem C130_failed_update (pinv : Sq 3 → Sq 3) (c : Camera) (d : Detected Desc) (hd : depthValid d.kp.depth = true)
    (x : V3) (hx : worldPoint c d.kp = .ok x) (C : Sq 3) (hC : worldPointCovariance c d.kp = .ok C)
    (hv : isValid C = false) (p : PointBody Desc) :
    updatePoint pinv c d p = .ok (p, false) := by
  unfold updatePoint PointBody.merge TrackedPoint.track
  rw [hd, hx, hC]
  simp [Outcome.bind, Outcome.map, Outcome.noexcept, hv]

/-- A pose whose variances are negative. -/
example : isValid ({ exampleCamera with pose := -1 } : Camera).pose = false := by
  rw [Bool.eq_false_iff]
  intro h
  have := isValid_diag h 0
  simp at this
  linarith

/-- For every keypoint there is a pose covariance, with negative variances, that makes the covariance of the
observation invalid. -/
example (k : Kp) : ∃ (B C : Sq 3), worldPointCovariance { exampleCamera with pose := B } k = .ok C ∧
    isValid C = false := by
  obtain ⟨C, hC, -⟩ := worldPointCovariance_ok (c := exampleCamera) isCovariance_one k
  have key : ∀ B, worldPointCovariance { exampleCamera with pose := B } k = .ok (C - 1 + B) := by
    intro B
    unfold worldPointCovariance at hC ⊢
    cases hs : screenCovariance (if depthValid k.depth = true then depthQuantization (k.depth : ℝ) else 1000) with
    | ok S =>
      rw [hs] at hC
      simp only [Outcome.map, Outcome.bind, Outcome.noexcept, movedPointCovariance] at hC ⊢
      injection hC with hC
      rw [← hC]
      congr 1
      have : exampleCamera.pose = 1 := rfl
      rw [this, add_sub_cancel_right]
    | _ => rw [hs] at hC; cases hC
  refine ⟨-C, _, key _, ?_⟩
  rw [Bool.eq_false_iff]
  intro h
  have := isValid_diag h 0
  simp at this
  linarith

/-! ## New planes -/

/-- C131: a detected plane becomes a plane of the map with the covariance of the detection in world space, a
normal of length one and its boundary in world space: every corner of the boundary is moved as a point.  When
the plane contains neither origin, nothing is refused. -/
theorem C131_new_plane {q : Quat} (hq : UnitQuat q) (pos : V3) (c : Camera) (hM : c.c2w = cameraToWorld q pos)
    (hc : IsCovariance c.pose) (d : DetectedPlane) (hn : UnitVec d.plane.normal) (hd : doubleEps < |d.plane.d|)
    (hd' : doubleEps < |(d.plane.transform (planeCameraToWorld c.c2w)).d|) (hC : IsCovariance d.cloud)
    (hB : Orthonormal d.boundary.xAxis d.boundary.yAxis) :
    ∃ p before after, newPlane c d = .ok p ∧ GoodPlane p ∧
      detectedPlaneCovariance c d = .ok p.covariance ∧
      (∀ x : V3, signedDistance p.plane (pointToWorld c.c2w x) = signedDistance d.plane x) ∧
      d.boundary.unprojected = .ok before ∧ p.boundary.unprojected = .ok after ∧
      after = before.map (pointToWorld c.c2w) ∧ copyPlane p = some p := by
  obtain ⟨W, hW, cW⟩ := C131_plane_not_refused hq pos c hM hc d hn hd hd' hC
  obtain ⟨B, before, after, h1, h2, h3, h4, h5⟩ := C74_to_world hq pos hB
  rw [← hM] at h1 h5
  have hu : UnitVec (d.plane.transform (planeCameraToWorld c.c2w)).normal := by
    rw [hM]; exact C30_unit_normal hq pos hn
  have h1n : doubleEqual (Geometry.norm (d.plane.transform (planeCameraToWorld c.c2w)).normal) 1 = true := by
    rw [norm_of_unit ((unitVec_iff _).1 hu)]; exact doubleEqual_self _ doubleEps_nonneg
  refine ⟨⟨d.plane.transform (planeCameraToWorld c.c2w), W, B⟩, before, after, ?_, ?_, hW, ?_, h3, h4, h5, ?_⟩
  · rw [newPlane, hW, Outcome.bind_ok, h1, Outcome.bind_ok]
    dsimp only
    rw [h1n]
    rfl
  · exact ⟨cW, hu, h2⟩
  · intro x
    rw [hM]
    exact C30_signed_distance hq pos hn x
  · simp only [copyPlane, cW.valid, h1n]
    rfl

/-! ## Matches -/

/-- C134: the match of a point with a keypoint names the point and the keypoint; its error in the optimisation
is zero at every pose from which the camera sees the point exactly in the pixel of the keypoint. -/
theorem C134_point_match (K : M3) (k : Kp) (i id : ℕ) (b : PointBody Desc) (w2c : M4) (s : V3)
    (hs : cameraToScreen K (pointToCamera w2c b.tracked.coordinates) = some s)
    (hx : s 0 = k.pt.x) (hy : s 1 = k.pt.y) :
    (pointMatch k i id b).key = ⟨.point, id, i⟩ ∧
      ((pointMatch k i id b).toMatch.feature K).distance w2c = some [0, 0] := by
  refine ⟨rfl, ?_⟩
  simp [pointMatch, MatchFeature.toMatch, Match.feature, pointFeature, signedPixelDistance, hs, hx, hy,
    screenPoint2]

/-- C134: the match of a map plane with a detected plane names the two; its error in the optimisation is zero
at every pose from which the map plane is seen as the detected one. -/
theorem C134_plane_match (K : M3) (d : DetectedPlane) (i id : ℕ) (p : TrackedPlane) (w2c : M4)
    (hs : p.plane.transform (planeWorldToCamera w2c) = d.plane) :
    (planeMatch d i id p).key = ⟨.plane, id, i⟩ ∧
      ((planeMatch d i id p).toMatch.feature K).distance w2c = some [0, 0, 0] := by
  refine ⟨rfl, ?_⟩
  simp [planeMatch, MatchFeature.toMatch, Match.feature, planeFeature, Plane.reducedDistance, hs]

/-- C134: a match made from a new plane has no error at the pose that made it. -/
theorem C134_new_plane_match (K : M3) {q : Quat} (hq : UnitQuat q) (pos : V3) (c : Camera)
    (hM : c.c2w = cameraToWorld q pos) (d : DetectedPlane) (hn : UnitVec d.plane.normal) (p : TrackedPlane)
    (hp : newPlane c d = .ok p) (i id : ℕ) :
    ((planeMatch d i id p).toMatch.feature K).distance (worldToCamera q pos) = some [0, 0, 0] := by
  refine (C134_plane_match K d i id p (worldToCamera q pos) ?_).2
  unfold newPlane at hp
  obtain ⟨W, -, hp⟩ := Outcome.bind_eq_ok hp
  obtain ⟨B, -, hp⟩ := Outcome.bind_eq_ok hp
  dsimp only at hp
  split_ifs at hp
  cases hp
  dsimp only
  rw [hM]
  exact C30_camera_round_trip hq pos hn

end RgbdSlam.Updates

namespace RgbdSlam.Map

variable {P Px : Type}

/-- C132: with a drop chance of zero nothing is drawn at random and every visible point matched in the last
frame whose projection succeeds is followed. -/
theorem C132_no_drop (visible : P → Bool) (project : P → Option Px) (draws : Draws) (n : Nat) (l : Store P) :
    trackStore visible project 0 draws n l = .ok (((l.map (·.2)).filter fun f =>
      decide (f.matched ≠ []) && visible f.body).filterMap fun f => (project f.body).map fun px => (f.id, px), n) := by
  induction l with
  | nil => rfl
  | cons a l ih =>
    obtain ⟨key, f⟩ := a
    unfold trackStore
    have he : (!f.matched.isEmpty && visible f.body) = (decide (f.matched ≠ []) && visible f.body) := by
      cases f.matched <;> simp
    rw [he, ih, List.map_cons, List.filter_cons]
    split
    · simp only [addToTracked, if_true, Outcome.map, Outcome.bind, Outcome.noexcept, List.filterMap_cons]
      cases project f.body <;> simp [ih]
    · rfl

example : trackStore (P := ℕ) (fun _ => true) (fun b => some b) 0 (fun _ => 0) 4
    [(1, { id := 1, failed := 0, succ := 3, matched := [0], body := 5 }),
     (2, { id := 2, failed := 0, succ := 3, matched := [], body := 6 })] = .ok ([(1, 5)], 4) := rfl

end RgbdSlam.Map
