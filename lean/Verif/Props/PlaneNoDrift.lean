import Verif.Props.Updates
import Verif.Props.KalmanFusion

/-! # C194: a plane measured without error stays where it is

The counterpart of C193 for the planes of the map: the filter of a plane works on its 4 parameters, of which the first three are
normalised again after every update. -/

namespace RgbdSlam.Updates

open Geometry Geometry.Spec Covariance Covariance.Spec Matrix

noncomputable section

/-! ## Specification -/

/-- A camera at the place `T` measures the plane `wall` of the world without error: the point `y` of the camera has the same signed distance
to the detected plane as its image in the world has to the wall. -/
def Spec.Measures (T : M4) (wall detected : Plane) : Prop :=
  UnitVec detected.normal ∧ ∀ y : V3, signedDistance detected y = signedDistance wall (pointToWorld T y)

/-- A detection of the wall: the camera is somewhere, turned somehow, and the covariances of its position and of the point cloud are
covariances. -/
structure Spec.SeesWall (wall : Plane) (v : Camera × DetectedPlane) : Prop where
  place : ∃ q pos, UnitQuat q ∧ v.1.c2w = cameraToWorld q pos
  pose : IsCovariance v.1.pose
  cloud : IsCovariance v.2.cloud
  exact : Spec.Measures v.1.c2w wall v.2.plane

/-- Updates of a map plane with successive matched detections, each of them with what it answers. -/
def Spec.planeUpdates (pinv : Sq 4 → Sq 4) (merge : M4 → Polygon → Polygon → Outcome Polygon) :
    List (Camera × DetectedPlane) → TrackedPlane → Outcome (TrackedPlane × List Bool)
  | [], p => .ok (p, [])
  | v :: vs, p => (updatePlane pinv merge v.1 v.2 p).bind fun r =>
      (Spec.planeUpdates pinv merge vs r.1).map fun s => (s.1, r.2 :: s.2)

/-! ## Proofs -/

theorem plane_ext_of_distance {P Q : Plane} (h : ∀ x, signedDistance P x = signedDistance Q x) : P = Q := by
  have h0 := h 0
  have hi := fun i => h (Pi.single i 1)
  simp only [signedDistance_eq, Plane.distance, dotProduct_zero, zero_add] at h0 hi
  have hn : P.normal = Q.normal := by
    ext i
    have := hi i
    simp only [dotProduct_single, mul_one, h0] at this
    linarith
  cases P; cases Q
  simp_all

/-- A detection without error, in world space, is the wall. -/
theorem measured_wall {wall : Plane} {v : Camera × DetectedPlane} (h : Spec.SeesWall wall v) :
    v.2.plane.transform (planeCameraToWorld v.1.c2w) = wall := by
  obtain ⟨q, pos, hq, e⟩ := h.place
  obtain ⟨hn, hd⟩ := h.exact
  apply plane_ext_of_distance
  intro x
  rw [e] at hd ⊢
  have h1 := C29_world_round_trip hq pos x
  rw [← h1, C30_signed_distance hq pos hn, hd]

theorem planeOfVector_planeVector {P : Plane} (h : UnitVec P.normal) : planeOfVector (planeVector P) = P := by
  have e : (![planeVector P 0, planeVector P 1, planeVector P 2] : V3) = P.normal := by
    ext i; fin_cases i <;> rfl
  rw [planeOfVector, e, make_of_unit ((unitVec_iff _).1 h)]
  rfl

/-- One update with a detection without error. -/
theorem exact_plane {pinv : Sq 4 → Sq 4} (hpinv : ∀ A, IsCovariance A → IsPseudoInverse A (pinv A))
    {merge : M4 → Polygon → Polygon → Outcome Polygon}
    (hm : ∀ (M : M4) (D Q : Polygon), Orthonormal Q.xAxis Q.yAxis → ∃ Q', merge M D Q = .ok Q' ∧ Orthonormal Q'.xAxis Q'.yAxis)
    {v : Camera × DetectedPlane} {p : TrackedPlane} (hp : GoodPlane p) (h : Spec.SeesWall p.plane v) :
    ∃ p' ok, updatePlane pinv merge v.1 v.2 p = .ok (p', ok) ∧ GoodPlane p' ∧ p'.plane = p.plane ∧
      (doubleEps < |v.2.plane.d| → doubleEps < |p.plane.d| → ok = true) := by
  have hw := measured_wall h
  unfold updatePlane
  rw [hw]
  rcases detectedPlaneCovariance_cases v.1 v.2 with e | ⟨W, e, cW⟩
  · refine ⟨p, false, by rw [e]; rfl, hp, rfl, fun h1 h2 => ?_⟩
    obtain ⟨q, pos, hq, hM⟩ := h.place
    obtain ⟨W, e', -⟩ := C131_plane_not_refused hq pos v.1 hM h.pose v.2 h.exact.1 h1 (by rw [hw]; exact h2) h.cloud
    rw [e] at e'; cases e'
  · rw [e]
    simp only [Outcome.bind]
    obtain ⟨x, K, G, h1, cK, -, h3, -⟩ := static_step (by norm_num : (0 : ℝ) ≤ 1 / 10 ^ 6) pinv hpinv (planeVector p.plane)
      (planeVector p.plane) hp.covariance cW
    rw [sub_self, mulVec_zero, add_zero] at h3
    subst h3
    have hf : fusePlane pinv p p.plane W = .ok (planeVector p.plane, K) := h1
    have hu := (unitVec_iff _).1 hp.normal
    obtain ⟨B, hB, oB⟩ := updateBoundary_merge (hm v.1.c2w v.2.boundary) hp.axes hu
    have hn1 : doubleEqual (Geometry.norm p.plane.normal) 1 = true := by
      rw [norm_of_unit hu]; exact doubleEqual_self _ doubleEps_nonneg
    refine ⟨⟨p.plane, K, B⟩, true, ?_, ⟨cK, hp.normal, oB⟩, rfl, fun _ _ => rfl⟩
    rw [TrackedPlane.track, cW.valid, hp.covariance.valid, hf]
    simp only [Bool.not_true, Bool.false_eq_true, if_false, planeOfVector_planeVector hp.normal, hB, Outcome.bind, hn1, cK.valid, Outcome.map,
      caught, Option.isSome]

/-! ## C194 -/

/-- C194 (partial: the wall is always seen from the side from which it was first seen): a plane of the map that is where the wall is stays exactly there, whatever cameras see the wall, in whatever order and however
often, as long as they measure it without error.  None of the updates ends the program, and each of them is accepted unless the
wall passes through the origin of the world or through the centre of the camera. -/
theorem C194_plane_stays_partial {pinv : Sq 4 → Sq 4} (hpinv : ∀ A, IsCovariance A → IsPseudoInverse A (pinv A))
    {merge : M4 → Polygon → Polygon → Outcome Polygon}
    (hm : ∀ (M : M4) (D Q : Polygon), Orthonormal Q.xAxis Q.yAxis → ∃ Q', merge M D Q = .ok Q' ∧ Orthonormal Q'.xAxis Q'.yAxis)
    {wall : Plane} {vs : List (Camera × DetectedPlane)} (hvs : ∀ v ∈ vs, Spec.SeesWall wall v) {p : TrackedPlane} (hp : GoodPlane p)
    (hpw : p.plane = wall) :
    ∃ p' oks, Spec.planeUpdates pinv merge vs p = .ok (p', oks) ∧ GoodPlane p' ∧ p'.plane = wall ∧
      (doubleEps < |wall.d| → List.Forall₂ (fun v ok => doubleEps < |v.2.plane.d| → ok = true) vs oks) := by
  subst hpw
  induction vs generalizing p with
  | nil => exact ⟨p, [], rfl, hp, rfl, fun _ => .nil⟩
  | cons v vs ih =>
    obtain ⟨p1, ok, e1, g1, w1, k1⟩ := exact_plane hpinv hm hp (hvs v (by simp))
    obtain ⟨p2, oks, e2, g2, w2, k2⟩ := ih g1 (by rw [w1]; exact fun v hv => hvs v (by simp [hv]))
    refine ⟨p2, ok :: oks, ?_, g2, w2.trans w1, fun h => .cons (fun h' => k1 h' h) (k2 (by rw [w1]; exact h))⟩
    rw [Spec.planeUpdates, e1, Outcome.bind_ok, e2]
    rfl

/-- C194: the first detection of the wall makes a candidate exactly where the wall is, if it does not pass through the origin of the world or
through the centre of the camera; and entering the map does not move it. -/
theorem C194_plane_starts {wall : Plane} {v : Camera × DetectedPlane} (h : Spec.SeesWall wall v)
    (hb : Orthonormal v.2.boundary.xAxis v.2.boundary.yAxis) (h1 : doubleEps < |v.2.plane.d|) (h2 : doubleEps < |wall.d|) :
    ∃ p, newPlane v.1 v.2 = .ok p ∧ GoodPlane p ∧ p.plane = wall ∧ copyPlane p = some p := by
  have hw := measured_wall h
  obtain ⟨q, pos, hq, hM⟩ := h.place
  obtain ⟨W, e, cW⟩ := C131_plane_not_refused hq pos v.1 hM h.pose v.2 h.exact.1 h1 (by rw [hw]; exact h2) h.cloud
  have hu : UnitVec wall.normal := by
    rw [← hw, hM]; exact C30_unit_normal hq pos h.exact.1
  have hn1 : doubleEqual (Geometry.norm wall.normal) 1 = true := by
    rw [norm_of_unit ((unitVec_iff _).1 hu)]; exact doubleEqual_self _ doubleEps_nonneg
  obtain ⟨B, -, -, eB, oB, -⟩ := C74_to_world hq pos hb
  rw [← hM] at eB
  refine ⟨⟨wall, W, B⟩, ?_, ⟨cW, hu, oB⟩, rfl, ?_⟩
  · rw [newPlane, e, Outcome.bind_ok, eB, Outcome.bind_ok, hw]
    simp [hn1]
  · simp [copyPlane, cW.valid, hn1]

/-- The covariance of a detection is a covariance to which a hundredth is added on the diagonal. -/
theorem detected_split {q : Quat} (hq : UnitQuat q) (pos : V3) {c : Camera} (hM : c.c2w = cameraToWorld q pos) (hc : IsCovariance c.pose)
    {d : DetectedPlane} (hn : UnitVec d.plane.normal) (hd : doubleEps < |d.plane.d|)
    (hd' : doubleEps < |(d.plane.transform (planeCameraToWorld c.c2w)).d|) (hC : IsCovariance d.cloud) :
    ∃ E, IsCovariance E ∧ detectedPlaneCovariance c d = .ok (E + (1 / 100 : ℝ) • (1 : Sq 4)) := by
  obtain ⟨K, hK, cK⟩ := (C36_planes hn hd hC (isCovariance_one (n := 4))).1
  obtain ⟨R, hR, cR⟩ := (C36_planes hn hd hC cK).2
  have cV := (cR.propagate' (rotation (cameraToWorld q pos))).add hc
  rw [hM] at hd'
  have hn' : UnitVec (d.plane.transform (planeCameraToWorld (cameraToWorld q pos))).normal := C30_unit_normal hq pos hn
  set D := d.plane.transform (planeCameraToWorld (cameraToWorld q pos)) with hD
  set V := propagate R (rotation (cameraToWorld q pos)) + c.pose with hV
  set J := expandJacobian (D.d • D.normal) with hJ
  refine ⟨propagate V J, cV.propagate' J, ?_⟩
  have h1 : doubleEqual D.d 0 = false := by simp [doubleEqual, hd']
  have h2 : doubleEqual (Geometry.norm D.normal) 1 = true := by
    rw [norm_of_unit ((unitVec_iff _).1 hn')]; exact doubleEqual_self _ doubleEps_nonneg
  have c1 := cV.propagate J (e := 1 / 100) (by norm_num)
  have h3 : propagate V J (1 / 100) = propagate V J + (1 / 100 : ℝ) • (1 : Sq 4) := by
    rw [propagate, propagate, zero_smul, add_zero]
  rw [detectedPlaneCovariance, hK, hM]
  simp only [Outcome.bind, worldPlaneCovariance, cK.valid, hR, Bool.not_true, Bool.false_eq_true, if_false]
  rw [← hV, cV.valid, ← hD]
  simp only [if_true, planeCovariance]
  rw [cV.valid, h1, h2, ← hJ, c1.valid, ← h3]
  simp

/-- C194 is false when the wall was first seen from its other side: for every camera closer than 50 mm to the wall, which measures it without
error, the map may hold the wall with the opposite normal; the two tests of the matching, which ignore the sign of the normal,
accept it, and the update puts the plane at half its distance from the origin of the world. -/
theorem C194_other_side_false {pinv : Sq 4 → Sq 4} (hpinv : ∀ A, IsCovariance A → IsPseudoInverse A (pinv A))
    {merge : M4 → Polygon → Polygon → Outcome Polygon}
    (hm : ∀ (M : M4) (D Q : Polygon), Orthonormal Q.xAxis Q.yAxis → ∃ Q', merge M D Q = .ok Q' ∧ Orthonormal Q'.xAxis Q'.yAxis)
    {wall : Plane} {c : Camera} {d : DetectedPlane} {q : Quat} (hq : UnitQuat q) {pos : V3} (hM : c.c2w = cameraToWorld q pos)
    (h : Spec.SeesWall wall (c, d)) (h1 : doubleEps < |d.plane.d|) (h50 : |d.plane.d| < 50) (h2 : doubleEps < |wall.d|)
    {B : Polygon} (hB : Orthonormal B.xAxis B.yAxis) :
    ∃ p p', GoodPlane p ∧ p.boundary = B ∧ p.plane = ⟨-wall.normal, -wall.d⟩ ∧
      (∀ x, OnPlane p.plane x ↔ OnPlane wall x) ∧
      Refine.normalSimilar d.plane (p.plane.transform (planeWorldToCamera (worldToCamera q pos))) = true ∧
      Refine.distanceSimilar d.plane (p.plane.transform (planeWorldToCamera (worldToCamera q pos))) = true ∧
      updatePlane pinv merge c d p = .ok (p', true) ∧ p'.plane = ⟨wall.normal, wall.d / 2⟩ := by
  have hw : d.plane.transform (planeCameraToWorld c.c2w) = wall := measured_wall (v := (c, d)) h
  have hn : UnitVec d.plane.normal := h.exact.1
  have hu : UnitVec wall.normal := by
    rw [← hw, hM]; exact C30_unit_normal hq pos hn
  obtain ⟨E, cE, hW⟩ := detected_split hq pos hM h.pose hn h1 (by rw [hw]; exact h2) h.cloud
  have cW : IsCovariance (E + (1 / 100 : ℝ) • (1 : Sq 4)) := cE.add (isCovariance_smul_one (by norm_num))
  set W := E + (1 / 100 : ℝ) • (1 : Sq 4) with hWd
  have hinv : IsUnit W := by
    have g1 : E.PosSemidef := isCovariance_iff.1 cE
    have g2 : ((1 / 100 : ℝ) • (1 : Sq 4)).PosDef := PosDef.one.smul (by norm_num)
    exact (Matrix.PosDef.posSemidef_add g1 g2).isUnit
  have c0 : IsCovariance (E + (1 / 100 - 1 / 10 ^ 6 : ℝ) • (1 : Sq 4)) := cE.add (isCovariance_smul_one (by norm_num))
  have cC : IsCovariance (E + (1 / 100 - 1 / 10 ^ 6 : ℝ) • (1 : Sq 4) + W + W) := (c0.add cW).add cW
  set C0 := E + (1 / 100 - 1 / 10 ^ 6 : ℝ) • (1 : Sq 4) + W + W with hC0
  have hsum : C0 + (1 / 10 ^ 6 : ℝ) • (1 : Sq 4) = (3 : ℝ) • W := by
    rw [hC0, hWd]; module
  have hun : UnitVec (-wall.normal) := by
    rw [unitVec_iff, neg_dotProduct_neg, ← unitVec_iff]; exact hu
  set p : TrackedPlane := ⟨⟨-wall.normal, -wall.d⟩, C0, B⟩ with hp
  have hback : p.plane.transform (planeWorldToCamera (worldToCamera q pos)) = ⟨-d.plane.normal, -d.plane.d⟩ := by
    have hop : UnitVec (-d.plane.normal) := by
      rw [unitVec_iff, neg_dotProduct_neg, ← unitVec_iff]; exact hn
    have hflip : (⟨-d.plane.normal, -d.plane.d⟩ : Plane).transform (planeCameraToWorld (cameraToWorld q pos)) = p.plane := by
      obtain ⟨Rm, t, hRm, e⟩ := cameraToWorld_rigid hq pos
      rw [hM, e, plane_toWorld hRm t ((unitVec_iff _).1 hn)] at hw
      rw [e, plane_toWorld hRm t ((unitVec_iff _).1 hop), hp, ← hw]
      simp only [mulVec_neg, dotProduct_neg]
      congr 1
      ring
    rw [← hflip]
    exact C30_camera_round_trip hq pos hop
  obtain ⟨x, K, G, e1, cK, -, e3, e4, -⟩ := static_step (by norm_num : (0 : ℝ) ≤ 1 / 10 ^ 6) pinv hpinv (planeVector p.plane)
    (planeVector wall) cC cW
  have hG : G = (3 / 4 : ℝ) • (1 : Sq 4) := by
    rw [hsum] at e4
    apply hinv.mul_right_cancel
    rw [mul_add, Matrix.mul_smul] at e4
    have : (4 : ℝ) • (G * W) = (3 : ℝ) • W := Eq.trans (by module) e4
    rw [Matrix.smul_mul, Matrix.one_mul, show (3 / 4 : ℝ) • W = (1 / 4 : ℝ) • ((3 : ℝ) • W) by module, ← this]
    module
  have hx : ∀ i, x i = planeVector wall i / 2 := by
    intro i
    have hv : planeVector p.plane i = -planeVector wall i := by fin_cases i <;> rfl
    rw [e3, hG, smul_mulVec, one_mulVec]
    simp only [Pi.add_apply, Pi.smul_apply, Pi.sub_apply, smul_eq_mul, hv]
    ring
  have hx3 : (![x 0, x 1, x 2] : V3) = (1 / 2 : ℝ) • wall.normal := by
    ext i; fin_cases i
    · change x 0 = 1 / 2 * wall.normal 0
      rw [hx]; change wall.normal 0 / 2 = _; ring
    · change x 1 = 1 / 2 * wall.normal 1
      rw [hx]; change wall.normal 1 / 2 = _; ring
    · change x 2 = 1 / 2 * wall.normal 2
      rw [hx]; change wall.normal 2 / 2 = _; ring
  have hplane : planeOfVector x = ⟨wall.normal, wall.d / 2⟩ := by
    rw [planeOfVector, hx3, Plane.make]
    congr 1
    · have g := (unitVec_iff _).1 hu
      have g1 : ((1 / 2 : ℝ) • wall.normal) ⬝ᵥ ((1 / 2 : ℝ) • wall.normal) = (1 / 2) ^ 2 := by
        rw [smul_dotProduct, dotProduct_smul, g, smul_eq_mul, smul_eq_mul]; norm_num
      rw [normalized, g1, if_pos (by norm_num), Geometry.norm, g1, Real.sqrt_sq (by norm_num), smul_smul]
      norm_num
    · rw [hx]; rfl
  have hf : fusePlane pinv p wall W = .ok (x, K) := e1
  have hu' : (⟨wall.normal, wall.d / 2⟩ : Plane).normal ⬝ᵥ (⟨wall.normal, wall.d / 2⟩ : Plane).normal = 1 := (unitVec_iff _).1 hu
  obtain ⟨B', hB', oB⟩ := updateBoundary_merge (hm c.c2w d.boundary) hB hu'
  have hn1 : doubleEqual (Geometry.norm wall.normal) 1 = true := by
    rw [norm_of_unit ((unitVec_iff _).1 hu)]; exact doubleEqual_self _ doubleEps_nonneg
  refine ⟨p, ⟨⟨wall.normal, wall.d / 2⟩, K, B'⟩, ⟨cC, hun, hB⟩, rfl, rfl, ?_, ?_, ?_, ?_, rfl⟩
  · intro x
    have : ∑ i, (-wall.normal) i * x i + -wall.d = -(∑ i, wall.normal i * x i + wall.d) := by
      simp only [Fin.sum_univ_three, Pi.neg_apply]; ring
    change ∑ i, (-wall.normal) i * x i + -wall.d = 0 ↔ _
    rw [this, neg_eq_zero]
    rfl
  · rw [hback]
    simp only [Refine.normalSimilar, decide_eq_true_eq, dotProduct_neg, abs_neg, (unitVec_iff _).1 hn, abs_one]
    have g : 0 < Real.cos (Refine.matchAngle * Real.pi / 180) := by
      apply Real.cos_pos_of_mem_Ioo
      rw [Refine.matchAngle]
      constructor <;> nlinarith [Real.pi_pos]
    rw [abs_of_pos g, ← Real.cos_zero]
    apply Real.cos_lt_cos_of_nonneg_of_le_pi (le_refl _) <;> rw [Refine.matchAngle] <;> nlinarith [Real.pi_pos]
  · rw [hback]
    rw [Refine.distanceSimilar, decide_eq_true_eq, Refine.matchDistance]
    dsimp only
    rw [sub_neg_eq_add, ← two_mul, abs_mul, abs_of_pos (by norm_num : (0 : ℝ) < 2)]
    linarith
  · unfold updatePlane
    rw [hW, hw]
    simp only [Outcome.bind]
    have hcov : p.covariance = C0 := rfl
    have hbd : p.boundary = B := rfl
    rw [TrackedPlane.track, cW.valid, hcov, cC.valid, hf]
    simp only [Bool.not_true, Bool.false_eq_true, if_false, hplane, hbd, hB', Outcome.bind, hn1, cK.valid, Outcome.map, caught, Option.isSome]

/-! ## The hypotheses are met -/

/-- Every wall is measured without error by some detection, wherever the camera is. -/
theorem wall_seen {wall : Plane} (hw : UnitVec wall.normal) {q : Quat} (hq : UnitQuat q) (pos : V3) :
    Spec.SeesWall wall (⟨525, 525, 320, 240, cameraToWorld q pos, 1⟩,
      ⟨wall.transform (planeWorldToCamera (worldToCamera q pos)), 1, examplePolygon⟩) := by
  have hu : UnitVec (wall.transform (planeWorldToCamera (worldToCamera q pos))).normal := by
    obtain ⟨R, t, hR, e⟩ := cameraToWorld_rigid hq pos
    have hu := (unitVec_iff _).1 hw
    rw [worldToCamera, worldToCameraOf, e, plane_toCamera hR t hu, unitVec_iff]
    simp only
    rw [orthogonal_dot (R := Rᵀ) (by rw [Matrix.transpose_transpose]; exact orthogonal_comm hR), hu]
  refine ⟨⟨q, pos, hq, rfl⟩, isCovariance_one, isCovariance_one, hu, fun y => ?_⟩
  rw [← C30_signed_distance hq pos hu y, C30_world_round_trip hq pos hw]

/-- A wall 2 m away, seen in turn from three places: it does not move, and every update is accepted. -/
example : ∃ p' oks, Spec.planeUpdates (examplePinv 4) (fun _ _ Q => .ok Q)
      [(⟨525, 525, 320, 240, cameraToWorld ⟨1, 0, 0, 0⟩ 0, 1⟩,
          ⟨Plane.transform (planeWorldToCamera (worldToCamera ⟨1, 0, 0, 0⟩ 0)) ⟨![1, 0, 0], -2000⟩, 1, examplePolygon⟩),
        (⟨525, 525, 320, 240, cameraToWorld exampleQuat ![1, 2, 3], 1⟩,
          ⟨Plane.transform (planeWorldToCamera (worldToCamera exampleQuat ![1, 2, 3])) ⟨![1, 0, 0], -2000⟩, 1, examplePolygon⟩),
        (⟨525, 525, 320, 240, cameraToWorld exampleQuat ![100, 0, 0], 1⟩,
          ⟨Plane.transform (planeWorldToCamera (worldToCamera exampleQuat ![100, 0, 0])) ⟨![1, 0, 0], -2000⟩, 1, examplePolygon⟩)]
      ⟨⟨![1, 0, 0], -2000⟩, 1, examplePolygon⟩ = .ok (p', oks) ∧ oks.length = 3 ∧ p'.plane = ⟨![1, 0, 0], -2000⟩ := by
  have hn : UnitVec (⟨![1, 0, 0], -2000⟩ : Plane).normal := by simp [UnitVec, Fin.sum_univ_three]
  have h1 : UnitQuat ⟨1, 0, 0, 0⟩ := by norm_num [UnitQuat]
  obtain ⟨p', oks, e, -, hp, hk⟩ := C194_plane_stays_partial (wall := ⟨![1, 0, 0], -2000⟩) examplePinv_spec
    (merge := fun _ _ Q => .ok Q) (fun _ _ Q h => ⟨Q, rfl, h⟩) (vs := [_, _, _]) (by
      intro v hv
      simp only [List.mem_cons, List.not_mem_nil, or_false] at hv
      rcases hv with rfl | rfl | rfl
      · exact wall_seen hn h1 0
      · exact wall_seen hn exampleQuat_unit ![1, 2, 3]
      · exact wall_seen hn exampleQuat_unit ![100, 0, 0])
    (p := ⟨⟨![1, 0, 0], -2000⟩, 1, examplePolygon⟩) ⟨isCovariance_one, hn, examplePolygon_axes⟩ rfl
  exact ⟨p', oks, e, (hk (by norm_num [doubleEps])).length_eq.symm, hp⟩

/-- A wall 2 mm in front of a camera at the origin meets the conditions of the counterexample, and of the creation. -/
example : ∃ wall, Spec.SeesWall wall (exampleCamera, ⟨⟨![0, 0, 1], -2⟩, 1, examplePolygon⟩) ∧ doubleEps < |wall.d| ∧
    doubleEps < |(-2 : ℝ)| ∧ |(-2 : ℝ)| < 50 := by
  have hu : UnitQuat ⟨1, 0, 0, 0⟩ := by norm_num [UnitQuat]
  have hn : UnitVec (⟨![0, 0, 1], -2⟩ : Plane).normal := by simp [UnitVec, Fin.sum_univ_three]
  refine ⟨Plane.transform (planeCameraToWorld (cameraToWorld ⟨1, 0, 0, 0⟩ 0)) ⟨![0, 0, 1], -2⟩,
    ⟨⟨_, _, hu, rfl⟩, isCovariance_one, isCovariance_one, hn, fun y => (C30_signed_distance hu 0 hn y).symm⟩, ?_,
    by norm_num [doubleEps], by norm_num⟩
  obtain ⟨R, t, h, e⟩ := cameraToWorld_rigid hu 0
  have ht : t = 0 := by
    rw [cameraToWorld_eq] at e
    have := congrArg translation e
    simpa using this.symm
  rw [e, plane_toWorld h t (by simp [dotProduct, Fin.sum_univ_three]), ht]
  norm_num [doubleEps]

end

end RgbdSlam.Updates
