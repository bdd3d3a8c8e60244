import Verif.Lemmas.Updates
import Verif.Model.Refine

/-
C130: merging keypoints into the points of the maps never ends the program, over all histories of frames.
-/
namespace RgbdSlam.Updates

open Geometry Covariance Points2d Matrix
open Covariance.Spec (IsCovariance IsPseudoInverse)
open Geometry.Spec (UnitVec UnitQuat Orthonormal)
open Keypoints (Handler Detected Kp Pt)
open Map (depthValid PointGeo PlaneOps FType World Match)

variable {Desc S Shape Pose : Type}

/-! ## One update -/

/-- C130: a 3D point with a covariance and a descriptor, matched with a keypoint whose depth was read inside
the image, is updated; it keeps a covariance, and has the descriptor of the keypoint if that has one. -/
theorem C130_point_updated (pinv : Sq 3 → Sq 3) (hpinv : ∀ A, IsCovariance A → IsPseudoInverse A (pinv A))
    (c : Camera) (hc : IsCovariance c.pose) (d : Detected Desc)
    (hd : d.kp.depth ≠ 0 → 0 ≤ d.kp.pt.x ∧ 0 ≤ d.kp.pt.y) (b : PointBody Desc)
    (hb : IsCovariance b.tracked.covariance) (hs : b.desc.isSome = true) :
    ∃ b', updatePoint pinv c d b = .ok (b', true) ∧ IsCovariance b'.tracked.covariance ∧
      b'.desc = (if d.desc.isSome then d.desc else b.desc) := by
  have hdesc : newest d.desc b.desc = (if d.desc.isSome then d.desc else b.desc) := by
    cases d.desc <;> rfl
  unfold updatePoint
  split
  · rename_i hv
    obtain ⟨x, hx⟩ := worldPoint_ok c hv hd
    obtain ⟨C, hC, cC⟩ := worldPointCovariance_ok hc d.kp
    obtain ⟨b', e, hg, he⟩ := PointBody.merge_ok ⟨hb, hs⟩ hpinv x cC d.desc
    simp only [hx, hC, Outcome.bind, e, Outcome.noexcept]
    exact ⟨b', rfl, hg.1, he.trans hdesc⟩
  · obtain ⟨x, C, ho, cC⟩ := observe_ok hc (screenPoint2 d.kp)
    obtain ⟨b', e, hg, he⟩ := PointBody.merge_ok ⟨hb, hs⟩ hpinv x cC d.desc
    simp only [ho, Outcome.bind, e, Outcome.noexcept]
    exact ⟨b', rfl, hg.1, he.trans hdesc⟩

/-- C130: a 2D point matched with a keypoint: the update returns, and the point keeps a covariance and a
descriptor. -/
theorem C130_point2d_updated (pinv : Sq 3 → Sq 3) (c : Camera) (hc : IsCovariance c.pose) (d : Detected Desc)
    (hd : d.kp.depth ≠ 0 → 0 ≤ d.kp.pt.x ∧ 0 ≤ d.kp.pt.y) (b : InverseBody Desc) (hb : GoodInverse b) :
    ∃ b' r, updatePoint2d pinv c d b = .ok (b', r) ∧ GoodInverse b' ∧
      b'.desc = (if r = true ∧ d.desc.isSome = true then d.desc else b.desc) := by
  have hdesc : ∀ r : Bool, (if r then newest d.desc b.desc else b.desc) =
      (if r = true ∧ d.desc.isSome = true then d.desc else b.desc) := by
    intro r; cases r <;> cases d.desc <;> rfl
  unfold updatePoint2d
  split
  · rename_i hv
    obtain ⟨x, hx⟩ := worldPoint_ok c hv hd
    obtain ⟨C, hC, cC⟩ := worldPointCovariance_ok hc d.kp
    obtain ⟨b', r, e, hg, he⟩ := InverseBody.merge_ok hb pinv x cC d.desc
    simp only [hx, hC, Outcome.bind, e, caught, Outcome.noexcept]
    exact ⟨b', r, rfl, hg, he.trans (hdesc r)⟩
  · obtain ⟨x, C, ho, cC⟩ := observe_ok hc (screenPoint2 d.kp)
    obtain ⟨b', r, e, hg, he⟩ := InverseBody.merge_ok hb pinv x cC d.desc
    simp only [ho, Outcome.bind, e, caught, Outcome.noexcept]
    exact ⟨b', r, rfl, hg, he.trans (hdesc r)⟩

/-- What the assumption on the keypoint excludes: a keypoint left of the image with a depth ends the
program.  The keypoint handler gives no depth to such keypoints (`set_inside`). -/
theorem C130_outside_terminates (pinv : Sq 3 → Sq 3) (c : Camera) (d : Detected Desc)
    (hv : depthValid d.kp.depth = true) (hx : d.kp.pt.x < 0) (b : PointBody Desc) :
    updatePoint pinv c d b = .terminate := by
  have hx' : screenPoint d.kp 0 < 0 := by
    change ((d.kp.pt.x : ℝ)) < 0
    exact_mod_cast hx
  unfold updatePoint worldPoint screenToCamera
  rw [if_pos hv, if_pos hx']
  rfl

/-! ## All histories -/

/-- The plane type of the map: merging a detection returns, copying a candidate does not throw, for planes
with some property that the constructor establishes. -/
structure PlanesReturn (op : PlaneOps (Body Desc S) (Detected Desc ⊕ Shape) (Camera × Handler Desc))
    (G : Body Desc S → Prop) (E : Camera → Shape → Prop) : Prop where
  update : ∀ e d b, op.covValid e = true → E e.1 d → G b → ∃ b' r, op.update e (.inr d) b = .ok (b', r) ∧ G b'
  other : ∀ e d b, G b → ∃ b' r, op.update e (.inl d) b = .ok (b', r) ∧ G b'
  copy : ∀ b, G b → ∃ b', op.copy b = some b' ∧ G b'
  build : ∀ e d b, op.covValid e = true → E e.1 d → op.build e (.inr d) = some b → G b
  buildOther : ∀ e d, op.build e (.inl d) = none

/-- The properties of the features. -/
def Good (G : Body Desc S → Prop) : FType → Body Desc S → Prop
  | .point => fun b => ∃ p, b = .point p ∧ GoodPoint p
  | .point2d => fun b => ∃ p, b = .inverse p ∧ GoodInverse p
  | .plane => G

/-- What is asked of a camera and a detection. -/
def Usable (E : Camera → Shape → Prop) (c : Camera) : Detected Desc ⊕ Shape → Prop
  | .inl d => c.poseᵀ = c.pose ∧ Inside d.kp
  | .inr s => E c s

theorem copyPoint_good {b : PointBody Desc} (hb : GoodPoint b) : ∃ b', copyPoint b = some b' ∧ GoodPoint b' := by
  unfold copyPoint makePoint
  have hs : b.desc.isNone = false := by
    have := hb.2
    cases hd : b.desc
    · rw [hd] at this; cases this
    · rfl
  rw [hs, hb.1.valid]
  exact ⟨_, rfl, hb.1, hb.2⟩

theorem makePoint_good {x : V3} {C : Sq 3} (hC : IsCovariance C) {desc : Option Desc} {b : PointBody Desc}
    (h : makePoint x C desc = some b) : GoodPoint b := by
  unfold makePoint at h
  split at h
  · cases h
  · rename_i hs
    split at h
    · cases h
    · cases h
      refine ⟨hC, ?_⟩
      cases desc
      · exact absurd rfl hs
      · rfl

theorem noFailure [Inhabited Desc] (sight2 sight1 : Sight Desc S) {pinv : Sq 3 → Sq 3}
    (hpinv : ∀ A, IsCovariance A → IsPseudoInverse A (pinv A))
    {op : PlaneOps (Body Desc S) (Detected Desc ⊕ Shape) (Camera × Handler Desc)}
    {G : Body Desc S → Prop} {E : Camera → Shape → Prop} (hop : PlanesReturn op G E) :
    Map.NoFailure (geo2 sight2 pinv) (geo1 sight1 pinv) op (Good G) (Usable E) where
  update2 c d b hc hE hb := by
    obtain ⟨p, rfl, hp⟩ := hb
    have hpose := (isValid_iff hE.1).1 hc
    obtain ⟨b', r, e, hg, -⟩ := C130_point2d_updated pinv c hpose d hE.2 p hp
    refine ⟨.inverse b', r, ?_, b', rfl, hg⟩
    simp only [geo2, e, Outcome.map, Outcome.bind]
  update1 c d b hc hE hb := by
    obtain ⟨p, rfl, hp⟩ := hb
    have hpose := (isValid_iff hE.1).1 hc
    obtain ⟨b', e, hg, he⟩ := C130_point_updated pinv hpinv c hpose d hE.2 p hp.1 hp.2
    refine ⟨.point b', true, ?_, b', rfl, hg, ?_⟩
    · simp only [geo1, e, Outcome.map, Outcome.bind]
    · rw [he]
      split
      · assumption
      · exact hp.2
  updateP e d b hc hE hb := by
    cases d with
    | inl d => exact hop.other e d b hb
    | inr d => exact hop.update e d b hc hE hb
  copy2 b hb := by
    obtain ⟨p, rfl, hp⟩ := hb
    refine ⟨.inverse { p with tracked := { p.tracked with moving := false } }, ?_, _, rfl, hp⟩
    simp only [geo2, copyPoint2d, hp.1.valid]
    rfl
  copy1 b hb := by
    obtain ⟨p, rfl, hp⟩ := hb
    obtain ⟨b', e, hg⟩ := copyPoint_good hp
    exact ⟨.point b', by simp only [geo1, e, Option.map_some], b', rfl, hg⟩
  copyP b hb := hop.copy b hb
  build2 c d b hc hE hs _ h := by
    have hpose := (isValid_iff hE.1).1 hc
    obtain ⟨p, e, cp, hdesc, hinv⟩ := newInverse_ok (c := c) hpose (screenPoint2 d.kp) d.desc
    simp only [geo2, newPoint2d, e, Option.map_some, Option.some.injEq] at h
    refine ⟨p, h.symm, cp, by rw [hdesc]; exact hs, fun h0 => ?_⟩
    rw [hinv] at h0; norm_num at h0
  build1 c d b hc hE hs hv h := by
    have hpose := (isValid_iff hE.1).1 hc
    obtain ⟨x, hx⟩ := worldPoint_ok c hv hE.2
    obtain ⟨C, hC, cC⟩ := worldPointCovariance_ok hpose d.kp
    simp only [geo1, newPoint, hx, hC, Option.map_eq_some_iff] at h
    obtain ⟨p, hp, rfl⟩ := h
    exact ⟨p, rfl, makePoint_good cC hp⟩
  buildP e d b hc hE h := by
    cases d with
    | inl d => rw [hop.buildOther] at h; cases h
    | inr d => exact hop.build e d b hc hE h
  upgraded c b u b' hb hu h := by
    obtain ⟨p, rfl, hp⟩ := hb
    obtain ⟨r, e, hr⟩ := computeUpgraded_ok hp.1 hp.2.2 c.c2w
    simp only [geo2, e] at hu
    cases r with
    | none => cases hu
    | some xk =>
      obtain ⟨x, K⟩ := xk
      cases hu
      simp only [geo1, Option.map_eq_some_iff, copyPoint] at h
      obtain ⟨q, hq, rfl⟩ := h
      exact ⟨q, rfl, makePoint_good (hr x K rfl) hq⟩

/-- The keypoints of a frame are usable, because the keypoint handler reads depths inside the image. -/
theorem suited_of_handled {P : Type} {cam : Pose → Camera} (hsym : ∀ p, (cam p).poseᵀ = (cam p).pose)
    {E : Camera → Shape → Prop} {f : Slam.Frame (Outcome (World P)) (Handler Desc × List Shape) Pose Match}
    (h : Map.Handled f) (hE : ∀ L p b pose, ∀ s ∈ (f.detect L p b).2, E (cam pose) s) :
    Map.Suited cam (Usable E) f := by
  intro L p b pose t d hd
  obtain ⟨h0, im, detected, descs, tracked, hset⟩ := h L p b
  have hin := detections_inside (set_inside hset)
  cases t with
  | point2d =>
    simp only [Map.frameDets, List.mem_map] at hd
    obtain ⟨k, hk, rfl⟩ := hd
    exact ⟨hsym pose, hin k hk⟩
  | point =>
    simp only [Map.frameDets, List.mem_map] at hd
    obtain ⟨k, hk, rfl⟩ := hd
    exact ⟨hsym pose, hin k hk⟩
  | plane =>
    simp only [Map.frameDets, List.mem_map] at hd
    obtain ⟨k, hk, rfl⟩ := hd
    exact hE L p b pose k hk

/-- C130: for every history of frames, with any images and keypoints, any poses whose covariance is a
symmetric matrix, any answers of the pose optimisation and any decisions of the matching: the updates,
promotions, upgrades and insertions of points never end the program nor make it run forever; and at any time
all 3D and 2D points of the maps have a covariance (symmetric, no negative variance) and a descriptor.  The
updates of planes are assumed to return (C131). -/
theorem C130_points_keep_running [Inhabited Desc] (sight2 sight1 : Sight Desc S) (pinv : Sq 3 → Sq 3)
    (hpinv : ∀ A, IsCovariance A → IsPseudoInverse A (pinv A))
    (op : PlaneOps (Body Desc S) (Detected Desc ⊕ Shape) (Camera × Handler Desc))
    (hcov : ∀ e, op.covValid e = isValid e.1.pose)
    (G : Body Desc S → Prop) (E : Camera → Shape → Prop) (hop : PlanesReturn op G E)
    (lt : Match → Match → Bool) (cam : Pose → Camera) (hsym : ∀ p, (cam p).poseᵀ = (cam p).pose)
    (po : Slam.PoseOps Pose) (start : Pose)
    (frames : List (Slam.Frame (Outcome (World (Body Desc S))) (Handler Desc × List Shape) Pose Match))
    (hf : ∀ f ∈ frames, Map.Handled f)
    (hE : ∀ f ∈ frames, ∀ L p b pose, ∀ s ∈ (f.detect L p b).2, E (cam pose) s)
    (s : Slam.State (Outcome (World (Body Desc S))) Pose) (outs : List (Slam.Out Pose))
    (h : Slam.run (Map.localMapOps
        (Map.programKinds (Map.withShapes (Map.handlerOps (geo2 sight2 pinv)))
          (Map.withShapes (Map.handlerOps (geo1 sight1 pinv))) op) (fun e => isValid e.1.pose) lt
        (fun pose d => (cam pose, d.1)) Map.frameDets) po frames (Slam.init start (.ok World.init)) =
      .ok (s, outs)) :
    ∃ w, s.localMap = .ok w ∧
      (∀ p ∈ (w.maps .point).localMap ++ (w.maps .point).staged, ∃ b, p.2.body = .point b ∧
        IsCovariance b.tracked.covariance ∧ b.desc.isSome = true) ∧
      (∀ p ∈ (w.maps .point2d).localMap ++ (w.maps .point2d).staged, ∃ b, p.2.body = .inverse b ∧
        IsCovariance b.tracked.covariance ∧ b.desc.isSome = true) := by
  obtain ⟨w, hw, hg⟩ := Map.C65_frame_loop_keeps_running_partial (geo2 sight2 pinv) (geo1 sight1 pinv) op (Good G)
    (Usable E) (noFailure sight2 sight1 hpinv hop) (fun e => isValid e.1.pose) (fun _ => rfl) (fun _ => rfl) hcov
    lt cam po start frames hf (fun f hfm => suited_of_handled hsym (hf f hfm) (hE f hfm)) s outs h
  refine ⟨w, hw, fun p hp => ?_, fun p hp => ?_⟩
  · rcases List.mem_append.1 hp with hp | hp
    · exact (hg .point).1 p hp
    · exact (hg .point).2 p hp
  · have key : ∀ q : Body Desc S, Good G .point2d q → ∃ b, q = .inverse b ∧
        IsCovariance b.tracked.covariance ∧ b.desc.isSome = true :=
      fun q ⟨b, e, h1, h2, _⟩ => ⟨b, e, h1, h2⟩
    rcases List.mem_append.1 hp with hp | hp
    · exact key _ ((hg .point2d).1 p hp)
    · exact key _ ((hg .point2d).2 p hp)

/-! ## Planes -/

/-- A plane of the map: its covariance is one, its normal has length one, the axes of its boundary are
orthonormal. -/
structure GoodPlane (p : TrackedPlane) : Prop where
  covariance : IsCovariance p.covariance
  normal : UnitVec p.plane.normal
  axes : Orthonormal p.boundary.xAxis p.boundary.yAxis

theorem propagate_transpose {n m : ℕ} (C : Sq n) (J : Matrix (Fin m) (Fin n) ℝ) (e : ℝ) :
    (propagate C J e)ᵀ = propagate C J e := by
  rw [propagate, transpose_add, symLower_transpose, transpose_smul, transpose_one]

theorem planeCovariance_cases (P : Plane) (C : Sq 3) :
    planeCovariance P C = .throws ∨ ∃ R, planeCovariance P C = .ok R ∧ IsCovariance R := by
  unfold planeCovariance
  dsimp only
  split_ifs with h1 h2 h3 h4
  · exact .inl rfl
  · exact .inl rfl
  · exact .inl rfl
  · exact .inr ⟨_, rfl, (isValid_iff (propagate_transpose _ _ _)).1 h4⟩
  · exact .inl rfl

theorem detectedPlaneCovariance_cases (c : Camera) (d : DetectedPlane) :
    detectedPlaneCovariance c d = .throws ∨
      ∃ W, detectedPlaneCovariance c d = .ok W ∧ IsCovariance W := by
  unfold detectedPlaneCovariance worldPlaneCovariance
  rcases planeCovariance_cases d.plane d.cloud with h | ⟨K, h, cK⟩
  · rw [h]; exact .inl rfl
  · rw [h]
    simp only [Outcome.bind, cK.valid, Bool.not_true, Bool.false_eq_true, if_false]
    have hr : reducedPlaneCovariance d.plane K = .throws ∨ ∃ R, reducedPlaneCovariance d.plane K = .ok R := by
      unfold reducedPlaneCovariance
      dsimp only
      split_ifs
      · exact .inl rfl
      · exact .inl rfl
      · exact .inl rfl
      · exact .inr ⟨_, rfl⟩
      · exact .inl rfl
    rcases hr with h | ⟨R, h⟩
    · rw [h]; exact .inl rfl
    · rw [h]
      dsimp only
      split_ifs
      · exact planeCovariance_cases _ _
      · exact .inl rfl

/-- The update of the boundary does not fail for a polygon with orthonormal axes, a unit normal and a merge
that does not fail. -/
theorem updateBoundary_merge {merge : Polygon → Outcome Polygon}
    (hm : ∀ Q : Polygon, Orthonormal Q.xAxis Q.yAxis → ∃ Q', merge Q = .ok Q' ∧ Orthonormal Q'.xAxis Q'.yAxis)
    {P : Polygon} (hP : Orthonormal P.xAxis P.yAxis) {plane : Plane} (hn : plane.normal ⬝ᵥ plane.normal = 1) :
    ∃ B, updateBoundary merge P plane = .ok (some B) ∧ Orthonormal B.xAxis B.yAxis := by
  obtain ⟨x, y, hb, hx, hy, hxy, _⟩ := planeBasis_spec hn
  have ho : Orthonormal x y := ⟨(unitVec_iff x).2 hx, (unitVec_iff y).2 hy, hxy⟩
  have hn1 : doubleEqual (Geometry.norm plane.normal) 1 = true := by
    rw [norm_of_unit hn]; exact doubleEqual_self _ doubleEps_nonneg
  have hQ : ∃ Q, P.project x y plane.center = .ok Q ∧ Orthonormal Q.xAxis Q.yAxis := by
    cases he : (isApprox P.center plane.center && isApprox P.xAxis x && isApprox P.yAxis y) with
    | true => exact ⟨P, C73_same_place ho he, hP⟩
    | false =>
      obtain ⟨Q, hQ, -⟩ := C73_projection hP ho he
      refine ⟨Q, hQ, ?_⟩
      have h0 := hQ
      unfold Polygon.project at h0
      rw [he] at h0
      split_ifs at h0 with g1 g2 g3
      · cases g3
      · obtain ⟨b, -, h0⟩ := Outcome.bind_eq_ok h0
        unfold Polygon.make at h0
        split_ifs at h0
        cases h0
        exact ho
  obtain ⟨Q, hQ, oQ⟩ := hQ
  obtain ⟨B, hB, oB⟩ := hm Q oQ
  have hne := updateBoundary_not_none (merge := merge) (P := P) (plane := plane)
  refine ⟨B, ?_, oB⟩
  unfold updateBoundary projectPolygon at hne ⊢
  simp only [hn1, hb, hQ, Outcome.bind_ok, Bool.not_true, Bool.false_eq_true, if_false] at hne ⊢
  cases hA : isApprox Q.center plane.center with
  | true => simp [hB, Outcome.map, Outcome.noexcept]
  | false => rw [hA] at hne; simp [Outcome.noexcept] at hne

/-- A plane with a zero normal ends the program in the update of the boundary. -/
theorem updateBoundary_zero (merge : Polygon → Outcome Polygon) (P : Polygon) {plane : Plane}
    (hn : plane.normal = 0) : updateBoundary merge P plane = .terminate := by
  have : doubleEqual (Geometry.norm plane.normal) 1 = false := by
    rw [hn]
    simp [doubleEqual, Geometry.norm, doubleEps]
    norm_num
  unfold updateBoundary projectPolygon
  rw [this]
  rfl

/-- C131: every update of a plane of the map with a matched detection either leaves it as it was and reports
a failure, or gives a plane with a covariance, a normal of length one and orthonormal axes and reports a
success, or ends the program because the mean of the two normals, weighted by the filter, is zero.  The merge
of the boundaries is assumed to return (its result comes from boost). -/
theorem C131_plane_updated_partial (pinv : Sq 4 → Sq 4)
    (hpinv : ∀ A, IsCovariance A → IsPseudoInverse A (pinv A))
    (merge : M4 → Polygon → Polygon → Outcome Polygon)
    (hm : ∀ (M : M4) (D Q : Polygon), Orthonormal Q.xAxis Q.yAxis → ∃ Q', merge M D Q = .ok Q' ∧ Orthonormal Q'.xAxis Q'.yAxis)
    (c : Camera) (d : DetectedPlane) (p : TrackedPlane) (hp : GoodPlane p) :
    updatePlane pinv merge c d p = .ok (p, false) ∨
    (∃ p', updatePlane pinv merge c d p = .ok (p', true) ∧ GoodPlane p') ∨
    (∃ W x K, detectedPlaneCovariance c d = .ok W ∧
      fusePlane pinv p (d.plane.transform (planeCameraToWorld c.c2w)) W = .ok (x, K) ∧
      x 0 = 0 ∧ x 1 = 0 ∧ x 2 = 0 ∧ updatePlane pinv merge c d p = .terminate) := by
  unfold updatePlane
  rcases detectedPlaneCovariance_cases c d with h | ⟨W, h, cW⟩
  · rw [h]; exact .inl rfl
  · right
    rw [h]
    simp only [Outcome.bind]
    obtain ⟨x, K, _, e, _, _, _, cK, _⟩ := C35_update (staticFilter 4 (1 / 10 ^ 6)) pinv (planeVector p.plane)
      (planeVector (d.plane.transform (planeCameraToWorld c.c2w))) hp.covariance cW
      (isCovariance_smul_one (by norm_num)) hpinv
    have hf : fusePlane pinv p (d.plane.transform (planeCameraToWorld c.c2w)) W = .ok (x, K) := e
    by_cases h0 : (![x 0, x 1, x 2] : V3) = 0
    · right
      have hz : (planeOfVector x).normal = 0 := by
        change normalized (![x 0, x 1, x 2] : V3) = 0
        rw [h0]
        simp [normalized]
      refine ⟨W, x, K, rfl, hf, congrFun h0 0, congrFun h0 1, congrFun h0 2, ?_⟩
      rw [TrackedPlane.track, cW.valid, hp.covariance.valid, hf]
      simp only [Bool.not_true, Bool.false_eq_true, if_false, updateBoundary_zero _ _ hz, Outcome.bind,
        Outcome.map, caught]
    · left
      have hu : (planeOfVector x).normal ⬝ᵥ (planeOfVector x).normal = 1 := normalized_unit h0
      obtain ⟨B, hB, oB⟩ := updateBoundary_merge (hm c.c2w d.boundary) hp.axes hu
      have hn1 : doubleEqual (Geometry.norm (planeOfVector x).normal) 1 = true := by
        rw [norm_of_unit hu]; exact doubleEqual_self _ doubleEps_nonneg
      refine ⟨⟨planeOfVector x, K, B⟩, ?_, cK, (unitVec_iff _).2 hu, oB⟩
      rw [TrackedPlane.track, cW.valid, hp.covariance.valid, hf]
      simp only [Bool.not_true, Bool.false_eq_true, if_false, hB, Outcome.bind, hn1, cK.valid, Outcome.map,
        caught, Option.isSome]

/-- C131: planes that pass through the origin of neither frame are never refused. -/
theorem C131_plane_not_refused {q : Quat} (hq : UnitQuat q) (pos : V3) (c : Camera)
    (hM : c.c2w = cameraToWorld q pos) (hc : IsCovariance c.pose) (d : DetectedPlane)
    (hn : UnitVec d.plane.normal) (hd : doubleEps < |d.plane.d|)
    (hd' : doubleEps < |(d.plane.transform (planeCameraToWorld c.c2w)).d|) (hC : IsCovariance d.cloud) :
    ∃ W, detectedPlaneCovariance c d = .ok W ∧ IsCovariance W := by
  obtain ⟨K, hK, cK⟩ := (C36_planes hn hd hC (isCovariance_one (n := 4))).1
  rw [hM] at hd'
  obtain ⟨W, hW, cW⟩ := C36_world_plane hn hd hq pos hd' hc cK
  refine ⟨W, ?_, cW⟩
  rw [detectedPlaneCovariance, hK, hM]
  exact hW

/-- C131 is false: for every camera and every detected plane closer than 50 mm to the camera, that passes
through the origin of neither frame, the map may hold the same plane seen from its other side.  It passes the
two tests of the matching, which ignore the sign of the normal, and when the covariances are balanced the
update ends the program. -/
theorem C131_opposite_side_false (pinv : Sq 4 → Sq 4)
    (hpinv : ∀ A, IsCovariance A → IsPseudoInverse A (pinv A))
    (merge : M4 → Polygon → Polygon → Outcome Polygon) {q : Quat} (hq : UnitQuat q) (pos : V3) (c : Camera)
    (hM : c.c2w = cameraToWorld q pos) (hc : IsCovariance c.pose) (d : DetectedPlane)
    (hn : UnitVec d.plane.normal) (hd : doubleEps < |d.plane.d|) (hd50 : |d.plane.d| < 50)
    (hd' : doubleEps < |(d.plane.transform (planeCameraToWorld c.c2w)).d|) (hC : IsCovariance d.cloud)
    (B : Polygon) (hB : Orthonormal B.xAxis B.yAxis) :
    ∃ p : TrackedPlane, GoodPlane p ∧ p.boundary = B ∧
      Refine.normalSimilar d.plane (p.plane.transform (planeWorldToCamera (worldToCamera q pos))) = true ∧
      Refine.distanceSimilar d.plane (p.plane.transform (planeWorldToCamera (worldToCamera q pos))) = true ∧
      updatePlane pinv merge c d p = .terminate := by
  -- the covariance of the detection, less the noise of the filter, is a covariance
  obtain ⟨K, hK, cK⟩ := (C36_planes hn hd hC (isCovariance_one (n := 4))).1
  obtain ⟨R, hR, cR⟩ := (C36_planes hn hd hC cK).2
  have cV := (cR.propagate' (rotation (cameraToWorld q pos))).add hc
  rw [hM] at hd'
  have hn' : UnitVec (d.plane.transform (planeCameraToWorld (cameraToWorld q pos))).normal :=
    C30_unit_normal hq pos hn
  set D := d.plane.transform (planeCameraToWorld (cameraToWorld q pos)) with hD
  set V := propagate R (rotation (cameraToWorld q pos)) + c.pose with hV
  set J := expandJacobian (D.d • D.normal) with hJ
  have hW : detectedPlaneCovariance c d = .ok (propagate V J (1 / 100)) := by
    have h1 : doubleEqual D.d 0 = false := by simp [doubleEqual, hd']
    have h2 : doubleEqual (Geometry.norm D.normal) 1 = true := by
      rw [norm_of_unit ((unitVec_iff _).1 hn')]; exact doubleEqual_self _ doubleEps_nonneg
    have c1 := cV.propagate J (e := 1 / 100) (by norm_num)
    rw [detectedPlaneCovariance, hK, hM]
    simp only [Outcome.bind, worldPlaneCovariance, cK.valid, hR, Bool.not_true, Bool.false_eq_true, if_false]
    rw [← hV, cV.valid, ← hD]
    simp only [if_true, planeCovariance]
    rw [cV.valid, h1, h2, ← hJ, c1.valid]
    simp
  set W := propagate V J (1 / 100) with hWd
  have cC := cV.propagate J (e := 1 / 100 - 1 / 10 ^ 6) (by norm_num)
  set C0 := propagate V J (1 / 100 - 1 / 10 ^ 6) with hC0
  have hsum : C0 + (1 / 10 ^ 6 : ℝ) • (1 : Sq 4) = W := by
    rw [hC0, hWd, propagate, propagate, add_assoc, ← add_smul]
    congr 2
    norm_num
  have cW : IsCovariance W := cV.propagate J (by norm_num)
  have hinv : IsUnit W := by
    have h1 : (propagate V J).PosSemidef := isCovariance_iff.1 (cV.propagate' J)
    have h2 : ((1 / 100 : ℝ) • (1 : Sq 4)).PosDef := PosDef.one.smul (by norm_num)
    have h3 : W = propagate V J + (1 / 100 : ℝ) • (1 : Sq 4) := by
      rw [hWd, propagate, propagate, zero_smul, add_zero]
    rw [h3]
    exact (Matrix.PosDef.posSemidef_add h1 h2).isUnit
  -- the other side of the plane
  have hop : UnitVec (-d.plane.normal) := by
    rw [unitVec_iff, neg_dotProduct_neg, ← unitVec_iff]; exact hn
  obtain ⟨Rm, t, hRm, e⟩ := cameraToWorld_rigid hq pos
  have hflip : (⟨-d.plane.normal, -d.plane.d⟩ : Plane).transform
      (planeCameraToWorld (cameraToWorld q pos)) = ⟨-D.normal, -D.d⟩ := by
    rw [hD, e, plane_toWorld hRm t ((unitVec_iff _).1 hop), plane_toWorld hRm t ((unitVec_iff _).1 hn)]
    simp only [mulVec_neg, dotProduct_neg]
    congr 1
    ring
  have hback := C30_camera_round_trip hq pos (P := ⟨-d.plane.normal, -d.plane.d⟩) hop
  rw [hflip] at hback
  set p : TrackedPlane := ⟨⟨-D.normal, -D.d⟩, C0, B⟩ with hp
  have hpn : UnitVec p.plane.normal := by
    rw [unitVec_iff]
    change (-D.normal) ⬝ᵥ (-D.normal) = 1
    rw [neg_dotProduct_neg, ← unitVec_iff]; exact hn'
  refine ⟨p, ⟨cC, hpn, hB⟩, rfl, ?_, ?_, ?_⟩
  · change Refine.normalSimilar d.plane (Plane.transform _ ⟨-D.normal, -D.d⟩) = true
    rw [hback]
    simp only [Refine.normalSimilar, decide_eq_true_eq, dotProduct_neg, abs_neg, (unitVec_iff _).1 hn, abs_one]
    have h1 : 0 < Real.cos (Refine.matchAngle * Real.pi / 180) := by
      apply Real.cos_pos_of_mem_Ioo
      rw [Refine.matchAngle]
      constructor <;> nlinarith [Real.pi_pos]
    rw [abs_of_pos h1, ← Real.cos_zero]
    apply Real.cos_lt_cos_of_nonneg_of_le_pi (le_refl _) <;> rw [Refine.matchAngle] <;> nlinarith [Real.pi_pos]
  · change Refine.distanceSimilar d.plane (Plane.transform _ ⟨-D.normal, -D.d⟩) = true
    rw [hback]
    rw [Refine.distanceSimilar, decide_eq_true_eq, Refine.matchDistance]
    dsimp only
    rw [sub_neg_eq_add, ← two_mul, abs_mul, abs_of_pos (by norm_num : (0 : ℝ) < 2)]
    linarith
  · -- the gain of the filter is one half
    obtain ⟨S', hS', he⟩ := newState_eq (f := staticFilter 4 (1 / 10 ^ 6)) (state := planeVector p.plane)
      (z := planeVector D) cC cW (isCovariance_smul_one (by norm_num)) hpinv
    have hP : (staticFilter 4 (1 / 10 ^ 6)).dynamics * C0 * (staticFilter 4 (1 / 10 ^ 6)).dynamicsᵀ
        + (staticFilter 4 (1 / 10 ^ 6)).noise = W := by
      change 1 * C0 * (1 : Sq 4)ᵀ + (1 / 10 ^ 6 : ℝ) • (1 : Sq 4) = W
      rw [transpose_one, Matrix.one_mul, Matrix.mul_one, hsum]
    rw [hP] at hS' he
    have ho : (staticFilter 4 (1 / 10 ^ 6)).output = 1 := rfl
    have hdy : (staticFilter 4 (1 / 10 ^ 6)).dynamics = 1 := rfl
    rw [ho, transpose_one, Matrix.one_mul, Matrix.mul_one] at hS'
    rw [ho, hdy, transpose_one, Matrix.mul_one, one_mulVec, one_mulVec] at he
    have hgain : W * S' = (1 / 2 : ℝ) • (1 : Sq 4) := by
      have h1 := hS'.apa
      have h2 : (W + W) * S' = 1 := by
        have hu2 : IsUnit (W + W) := by
          rw [← two_smul ℝ W]
          exact hinv.smul (Units.mk0 (2 : ℝ) two_ne_zero)
        apply hu2.mul_right_cancel
        rw [h1, Matrix.one_mul]
      rw [← two_smul ℝ W, Matrix.smul_mul] at h2
      rw [← h2, smul_smul]
      norm_num
    obtain ⟨x, K', hx, hxe⟩ : ∃ x K', fusePlane pinv p D W = .ok (x, K') ∧
        x = planeVector p.plane + (W * S') *ᵥ (planeVector D - planeVector p.plane) := ⟨_, _, he, rfl⟩
    rw [hgain, smul_mulVec, one_mulVec] at hxe
    have hx0 : (![x 0, x 1, x 2] : V3) = 0 := by
      have key : ∀ i : Fin 4, x i = planeVector p.plane i +
          1 / 2 * (planeVector D i - planeVector p.plane i) := fun i => by rw [hxe]; rfl
      funext i
      fin_cases i
      · change x 0 = 0
        rw [key]
        change -D.normal 0 + 1 / 2 * (D.normal 0 - -D.normal 0) = 0
        ring
      · change x 1 = 0
        rw [key]
        change -D.normal 1 + 1 / 2 * (D.normal 1 - -D.normal 1) = 0
        ring
      · change x 2 = 0
        rw [key]
        change -D.normal 2 + 1 / 2 * (D.normal 2 - -D.normal 2) = 0
        ring
    have hz : (planeOfVector x).normal = 0 := by
      change normalized (![x 0, x 1, x 2] : V3) = 0
      rw [hx0]
      simp [normalized]
    unfold updatePlane
    rw [hW, hM, ← hD]
    simp only [Outcome.bind]
    have hcov : p.covariance = C0 := rfl
    rw [TrackedPlane.track, cW.valid, hcov, cC.valid, hx]
    simp only [Bool.not_true, Bool.false_eq_true, if_false, updateBoundary_zero _ _ hz, Outcome.bind,
      Outcome.map, caught]

/-! ## The hypotheses are met -/

/-- A camera at the origin, with the intrinsics of the TUM data sets. -/
noncomputable def exampleCamera : Camera := ⟨525, 525, 320, 240, cameraToWorld ⟨1, 0, 0, 0⟩ 0, 1⟩

example : IsCovariance exampleCamera.pose ∧ exampleCamera.poseᵀ = exampleCamera.pose :=
  ⟨isCovariance_one, transpose_one⟩

/-- A keypoint at one metre, and a map point with a unit covariance. -/
example : ∃ b', updatePoint (Desc := ℕ) (examplePinv 3) exampleCamera ⟨⟨⟨100, 50⟩, 1000⟩, some 7⟩
    ⟨⟨![1, 2, 3], 1, false⟩, some 3⟩ = .ok (b', true) ∧ b'.desc = some 7 := by
  obtain ⟨b', h, -, hd⟩ := C130_point_updated (Desc := ℕ) (examplePinv 3) examplePinv_spec exampleCamera
    isCovariance_one ⟨⟨⟨100, 50⟩, 1000⟩, some 7⟩ (fun _ => ⟨by norm_num, by norm_num⟩)
    ⟨⟨![1, 2, 3], 1, false⟩, some 3⟩ isCovariance_one rfl
  exact ⟨b', h, hd⟩

/-- A new 2D point meets the condition of its update. -/
example : ∃ b, newPoint2d (Desc := ℕ) exampleCamera ⟨⟨⟨100, 50⟩, 0⟩, some 7⟩ = some b ∧ GoodInverse b := by
  obtain ⟨b, h, hc, hd, hi⟩ := newInverse_ok (c := exampleCamera) isCovariance_one
    (screenPoint2 ⟨⟨100, 50⟩, 0⟩) (some 7)
  refine ⟨b, by simp only [newPoint2d, h], hc, by rw [hd]; rfl, fun h0 => ?_⟩
  rw [hi] at h0; norm_num at h0

/-- A map without planes. -/
noncomputable def noShapes : PlaneOps (Body ℕ Unit) (Detected ℕ ⊕ Unit) (Camera × Handler ℕ) where
  isVisible := fun _ _ => true
  projectedArea := fun _ _ => 0
  similar := fun _ _ _ => false
  interArea := fun _ _ _ => 0
  detectedArea := fun _ => 0
  update := fun _ _ b => .ok (b, true)
  build := fun _ _ => none
  copy := fun b => some b
  covValid := fun e => isValid e.1.pose

theorem noShapes_return : PlanesReturn noShapes (fun _ => True) (fun _ _ => True) where
  update _ _ b _ _ _ := ⟨b, true, rfl, trivial⟩
  other _ _ b _ := ⟨b, true, rfl, trivial⟩
  copy b _ := ⟨b, rfl, trivial⟩
  build _ _ _ _ _ h := by cases h
  buildOther _ _ := rfl

/-- The keypoint of `seen`: the frame loop runs over any number of frames that see it. -/
example (n : ℕ) (h : Handler ℕ) (hs : Map.seen 1000 = .ok h) (sight : Sight ℕ Unit)
    (s : Slam.State (Outcome (World (Body ℕ Unit))) ℕ) (outs : List (Slam.Out ℕ))
    (hr : Slam.run (Map.localMapOps
        (Map.programKinds (Map.withShapes (Map.handlerOps (geo2 sight (examplePinv 3))))
          (Map.withShapes (Map.handlerOps (geo1 sight (examplePinv 3)))) noShapes) (fun e => isValid e.1.pose)
        (fun _ _ => false) (fun (_ : ℕ) d => (exampleCamera, d.1)) Map.frameDets) ⟨fun _ => true, fun _ => true⟩
        (List.replicate n ⟨fun _ _ _ => (h, []), fun p _ => some (p, [])⟩)
        (Slam.init 0 (.ok World.init)) = .ok (s, outs)) :
    ∃ w, s.localMap = .ok w := by
  obtain ⟨w, hw, -⟩ := C130_points_keep_running sight sight (examplePinv 3) examplePinv_spec noShapes (fun _ => rfl)
    (fun _ => True) (fun _ _ => True) noShapes_return (fun _ _ => false) (fun _ => exampleCamera)
    (fun _ => transpose_one) ⟨fun _ => true, fun _ => true⟩ 0 _
    (fun f hf => by rw [List.mem_replicate] at hf; rw [hf.2]; exact fun _ _ _ => ⟨_, _, _, _, _, hs⟩)
    (fun _ _ _ _ _ _ _ _ => trivial) s outs hr
  exact ⟨w, hw⟩

/-- The plane z = 2 mm, seen from the origin. -/
example : ∃ W, detectedPlaneCovariance exampleCamera ⟨⟨![0, 0, 1], -2⟩, 1, examplePolygon⟩ = .ok W ∧
    IsCovariance W := by
  have hu : UnitQuat ⟨1, 0, 0, 0⟩ := by norm_num [UnitQuat]
  refine C131_plane_not_refused hu 0 exampleCamera rfl isCovariance_one _
    (by simp [UnitVec, Fin.sum_univ_three]) (by norm_num [doubleEps]) ?_ isCovariance_one
  obtain ⟨R, t, h, e⟩ := cameraToWorld_rigid hu 0
  have ht : t = 0 := by
    rw [cameraToWorld_eq] at e
    have := congrArg translation e
    simpa using this.symm
  change doubleEps < |(Plane.transform (planeCameraToWorld (cameraToWorld ⟨1, 0, 0, 0⟩ 0)) ⟨![0, 0, 1], -2⟩).d|
  rw [e, plane_toWorld h t (by simp [dotProduct, Fin.sum_univ_three]), ht]
  norm_num [doubleEps]

/-- A boundary with orthonormal axes, and a merge that keeps the boundary of the map. -/
example : Orthonormal examplePolygon.xAxis examplePolygon.yAxis ∧
    ∀ (M : M4) (D Q : Polygon), Orthonormal Q.xAxis Q.yAxis →
      ∃ Q', (fun (_ : M4) (_ Q : Polygon) => Outcome.ok Q) M D Q = .ok Q' ∧ Orthonormal Q'.xAxis Q'.yAxis :=
  ⟨examplePolygon_axes, fun _ _ Q h => ⟨Q, rfl, h⟩⟩

end RgbdSlam.Updates
