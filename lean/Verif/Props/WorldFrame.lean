import Verif.Props.KalmanFusion
import Verif.Props.Optimizer
import Verif.Lemmas.Geometry2
/-
C182: the choice of the world frame does not matter.
-/
namespace RgbdSlam.WorldFrame

open Matrix Geometry Covariance Optimizer
open Geometry.Spec (UnitQuat UnitVec)
open Covariance.Spec

/-- A rigid motion of the world: a rotation `turn`, then a translation `shift`. -/
structure Motion where
  turn : M3
  shift : V3
  rigid : turnᵀ * turn = 1

/-- Where a point goes. -/
def Motion.point (m : Motion) (x : V3) : V3 := m.turn *ᵥ x + m.shift

/-- Where a plane goes: the points `x` with `normal · x + d = 0`. -/
def Motion.plane (m : Motion) (P : Plane) : Plane :=
  { normal := m.turn *ᵥ P.normal, d := P.d - (m.turn *ᵥ P.normal) ⬝ᵥ m.shift }

/-- The moved plane is made of the moved points. -/
theorem Motion.plane_spec (m : Motion) (P : Plane) (x : V3) : (m.plane P).distance (m.point x) = P.distance x := by
  unfold Plane.distance Motion.plane Motion.point
  simp only
  rw [dotProduct_add, orthogonal_dot m.rigid]
  ring

/-- The match `b` is the match `a`, with the feature of the map moved and the same detection. -/
inductive Moved (m : Motion) : Match → Match → Prop
  | point (screen : V2) (x : V3) : Moved m (.point screen x) (.point screen (m.point x))
  | point2d (screen : V2) (p p' : InverseDepth) (std : ℝ) (h1 : p'.first = m.point p.first)
      (h2 : p'.bearing = m.turn *ᵥ p.bearing) (h3 : p'.inverseDepth = p.inverseDepth) (h4 : p'.infinite = p.infinite) :
      Moved m (.point2d screen p std) (.point2d screen p' std)
  | plane (camera world : Plane) : Moved m (.plane camera world) (.plane camera (m.plane world))

/-- The pose `p'` is the pose `p` moved: what the camera sees at some place is now where this place went. -/
def MovedPose (m : Motion) (p p' : Pose) : Prop :=
  ∀ x, pointToWorld (cameraToWorld p'.orientation p'.position) x = m.point (pointToWorld (cameraToWorld p.orientation p.position) x)

theorem ext_of_mulVec {A B : M3} {a b : V3} (h : ∀ x, A *ᵥ x + a = B *ᵥ x + b) : A = B ∧ a = b := by
  have h0 := h 0
  simp only [mulVec_zero, zero_add] at h0
  refine ⟨?_, h0⟩
  rw [h0] at h
  have h' : ∀ x, A *ᵥ x = B *ᵥ x := fun x => add_right_cancel (h x)
  ext i j
  have := congrFun (h' (Pi.single j 1)) i
  simpa using this

theorem toCamera_eq {R : M3} (h : Rᵀ * R = 1) (t x : V3) :
    pointToCamera (transformation R t)⁻¹ x = Rᵀ *ᵥ (x - t) := by
  rw [transformation_inv h, pointToCamera_transformation, mulVec_sub]
  abel

theorem toCamera_moved (m : Motion) {R : M3} (h : Rᵀ * R = 1) (t x : V3) :
    pointToCamera (transformation (m.turn * R) (m.point t))⁻¹ (m.point x) = pointToCamera (transformation R t)⁻¹ x := by
  rw [toCamera_eq h, toCamera_eq (orthogonal_mul m.rigid h)]
  have : m.point x - m.point t = m.turn *ᵥ (x - t) := by
    unfold Motion.point
    rw [mulVec_sub]
    abel
  rw [this, mulVec_mulVec, transpose_mul, Matrix.mul_assoc, m.rigid, Matrix.mul_one]

/-- The matrices of a moved pose. -/
theorem MovedPose.matrices {m : Motion} {p p' : Pose} (h : MovedPose m p p') (hp : UnitQuat p.orientation) :
    ∃ R t, Rᵀ * R = 1 ∧ worldToCamera p.orientation p.position = (transformation R t)⁻¹ ∧
      worldToCamera p'.orientation p'.position = (transformation (m.turn * R) (m.point t))⁻¹ := by
  refine ⟨axesRotation * p.orientation.toRotationMatrix, axesRotation *ᵥ p.position,
    orthogonal_mul axesRotation_orthogonal (rotationMatrix_orthogonal hp), ?_, ?_⟩
  · rw [worldToCamera, worldToCameraOf, cameraToWorld_eq]
  · rw [worldToCamera, worldToCameraOf, cameraToWorld_eq]
    have h' : ∀ x, (axesRotation * p'.orientation.toRotationMatrix) *ᵥ x + axesRotation *ᵥ p'.position =
        (m.turn * (axesRotation * p.orientation.toRotationMatrix)) *ᵥ x + m.point (axesRotation *ᵥ p.position) := by
      intro x
      have := h x
      rw [cameraToWorld_eq, cameraToWorld_eq, pointToWorld_transformation, pointToWorld_transformation] at this
      rw [this]
      unfold Motion.point
      rw [mulVec_add, mulVec_mulVec, add_assoc]
    obtain ⟨e1, e2⟩ := ext_of_mulVec h'
    rw [e1, e2]

/-- Planes seen by the camera. -/
theorem plane_moved (m : Motion) {R : M3} (hR : Rᵀ * R = 1) (t : V3) {P : Plane} (hP : UnitVec P.normal) :
    (m.plane P).transform (planeWorldToCamera (transformation (m.turn * R) (m.point t))⁻¹) =
      P.transform (planeWorldToCamera (transformation R t)⁻¹) := by
  have hu := (unitVec_iff _).1 hP
  have hu' : (m.plane P).normal ⬝ᵥ (m.plane P).normal = 1 := by
    show (m.turn *ᵥ P.normal) ⬝ᵥ (m.turn *ᵥ P.normal) = 1
    rw [orthogonal_dot m.rigid, hu]
  rw [plane_toCamera hR t hu, plane_toCamera (orthogonal_mul m.rigid hR) _ hu']
  simp only [Motion.plane, Motion.point, Plane.mk.injEq]
  constructor
  · rw [mulVec_mulVec, transpose_mul, Matrix.mul_assoc, m.rigid, Matrix.mul_one]
  · rw [add_dotProduct, orthogonal_dot m.rigid, dotProduct_comm m.shift]
    ring

/-- The segment of the possible places of a point without depth. -/
theorem segment_moved (m : Motion) (K : M3) {R : M3} (hR : Rᵀ * R = 1) (t : V3) {p p' : InverseDepth} (v : ℝ)
    (h1 : p'.first = m.point p.first) (h2 : p'.bearing = m.turn *ᵥ p.bearing) (h3 : p'.inverseDepth = p.inverseDepth)
    (h4 : p'.infinite = p.infinite) : inverseScreenSegment K p' v (transformation (m.turn * R) (m.point t))⁻¹ =
      inverseScreenSegment K p v (transformation R t)⁻¹ := by
  have e : ∀ c : ℝ, p'.first + c • p'.bearing = m.point (p.first + c • p.bearing) := fun c => by
    rw [h1, h2]
    unfold Motion.point
    rw [mulVec_add, mulVec_smul]
    abel
  have f1 : ∀ s, p'.furthest s = m.point (p.furthest s) := fun s => by
    unfold InverseDepth.furthest
    rw [e, h3, h4]
  have f2 : ∀ s, p'.closest s = m.point (p.closest s) := fun s => by
    unfold InverseDepth.closest
    rw [e, h3, h4]
  simp only [inverseScreenSegment, f1, f2, toCamera_moved m hR]

/-- The errors of a match do not depend on the world frame. -/
theorem feature_moved {m : Motion} {a b : Match} (h : Moved m a b) (K : M3) {R : M3} (hR : Rᵀ * R = 1) (t : V3)
    (hw : ∀ c w, a = .plane c w → UnitVec w.normal) :
    (b.feature K).distance (transformation (m.turn * R) (m.point t))⁻¹ = (a.feature K).distance (transformation R t)⁻¹ ∧
      (b.feature K).parts = (a.feature K).parts ∧ (b.feature K).alpha = (a.feature K).alpha ∧
      (b.feature K).score = (a.feature K).score := by
  cases h with
  | point screen x =>
    refine ⟨?_, rfl, rfl, rfl⟩
    simp only [Match.feature, pointFeature, signedPixelDistance, toCamera_moved m hR]
  | point2d screen p p' std h1 h2 h3 h4 =>
    refine ⟨?_, rfl, rfl, rfl⟩
    simp only [Match.feature, point2dFeature, point2dDistance, inverseScreenDistance, segment_moved m K hR t _ h1 h2 h3 h4]
  | plane camera world =>
    refine ⟨?_, rfl, rfl, rfl⟩
    simp only [Match.feature, planeFeature, Plane.reducedDistance, plane_moved m hR t (hw _ _ rfl)]

theorem residualLoop_moved {m : Motion} (K : M3) {R : M3} (hR : Rᵀ * R = 1) (t : V3) {as bs : List Match}
    (h : List.Forall₂ (Moved m) as bs) : (∀ c w, Match.plane c w ∈ as → UnitVec w.normal) → ∀ (index : ℕ) (out : List ℝ),
    residualLoop (transformation (m.turn * R) (m.point t))⁻¹ (bs.map (·.feature K)) index out =
      residualLoop (transformation R t)⁻¹ (as.map (·.feature K)) index out := by
  induction h with
  | nil => intro _ _ _; rfl
  | @cons a b as bs hab _ ih =>
    intro hw index out
    obtain ⟨e1, e2, e3, -⟩ := feature_moved hab K hR t fun c w e => hw c w (by rw [e]; exact List.mem_cons_self)
    have ih' := ih fun c w e => hw c w (List.mem_cons_of_mem _ e)
    simp only [List.map_cons, residualLoop, e1, e2, e3, ih']

/-- C182: moving the map and the camera together changes no error of the matches: the pose optimisation sees the same errors in
every world frame.  `c'` are the coefficients of the moved pose. -/
theorem C182_errors (m : Motion) (K : M3) {as bs : List Match} (h : List.Forall₂ (Moved m) as bs)
    (hw : ∀ c w, Match.plane c w ∈ as → UnitVec w.normal) (c c' : Fin 6 → ℝ)
    (hc : MovedPose m (poseOfCoefficients c) (poseOfCoefficients c')) (parts : ℕ) (out : List ℝ) :
    residuals (parts, bs.map (·.feature K)) c' out = residuals (parts, as.map (·.feature K)) c out := by
  obtain ⟨R, t, hR, e1, e2⟩ := hc.matrices (poseOfCoefficients_unit c)
  have hl : bs.length = as.length := h.length_eq.symm
  unfold residuals
  simp only [List.isEmpty_map]
  rw [e1, e2, residualLoop_moved K hR t h hw]
  have : bs.isEmpty = as.isEmpty := by cases h <;> rfl
  rw [this]

/-- Whether a match is an inlier, for its kind. -/
noncomputable def inlier (K : M3) : Match → M4 → Bool
  | .point s x => pointInlier K s x
  | .point2d s p std => point2dInlier K s p std
  | .plane c w => planeInlier c w

/-- C182: the matches with a small enough error are the same ones. -/
theorem C182_inliers (m : Motion) (K : M3) {a b : Match} (h : Moved m a b) (hw : ∀ c w, a = .plane c w → UnitVec w.normal)
    {p p' : Pose} (hp : UnitQuat p.orientation) (hm : MovedPose m p p') :
    inlier K b (worldToCamera p'.orientation p'.position) = inlier K a (worldToCamera p.orientation p.position) := by
  obtain ⟨R, t, hR, e1, e2⟩ := hm.matrices hp
  rw [e1, e2]
  cases h with
  | point screen x =>
    have e : signedPixelDistance K screen (transformation (m.turn * R) (m.point t))⁻¹ (m.point x) =
        signedPixelDistance K screen (transformation R t)⁻¹ x := by
      unfold signedPixelDistance
      rw [toCamera_moved m hR]
    show pointInlier K screen _ _ = pointInlier K screen _ _
    unfold pointInlier pixelDistance
    rw [e]
  | point2d screen p p' std h1 h2 h3 h4 =>
    show point2dInlier K screen _ _ _ = point2dInlier K screen _ _ _
    unfold point2dInlier point2dDistance inverseScreenDistance
    rw [segment_moved m K hR t _ h1 h2 h3 h4]
  | plane camera world =>
    show planeInlier camera _ _ = planeInlier camera _ _
    unfold planeInlier planeSignedDistance
    rw [plane_moved m hR t (hw _ _ rfl)]

/-- A match of each kind, and a camera that moved by one metre. -/
example : ∃ (m : Motion) (p p' : Pose), MovedPose m p p' ∧ UnitQuat p.orientation ∧ p.position ≠ p'.position ∧
    Moved m (.point ![0, 0] 0) (.point ![0, 0] (m.point 0)) := by
  refine ⟨⟨1, ![1000, 0, 0], by simp⟩, ⟨0, ⟨1, 0, 0, 0⟩⟩, ⟨![0, 0, 1000], ⟨1, 0, 0, 0⟩⟩, ?_, ?_, ?_, ?_⟩
  · intro x
    simp only [cameraToWorld_eq, pointToWorld_transformation, Motion.point, one_mulVec, mulVec_zero, add_zero]
    congr 1
    ext i
    fin_cases i <;> simp [axesRotation, mulVec, dotProduct, Fin.sum_univ_three]
  · unfold UnitQuat; norm_num
  · intro h
    have := congrFun h 2
    simp at this
  · exact Moved.point _ _

/-! ## Fusion -/

/-- The point moved, with its covariance. -/
def Motion.tracked (m : Motion) (p : TrackedPoint) (moving : Bool) : TrackedPoint :=
  { coordinates := m.point p.coordinates, covariance := m.turn * p.covariance * m.turnᵀ, moving := moving }

/-- C182: the fusion of a map point with a detection commutes with the motion: the moved point and the moved detection are fused
to the moved result, with the moved covariance and the same score.  Missing: the flag of moving points (`C182_moving_false`), and the
planes (`C182_plane_false`). -/
theorem C182_fused_partial (m : Motion) (pinv : Sq 3 → Sq 3) (hpinv : ∀ S, IsCovariance S → IsPseudoInverse S (pinv S))
    (p : TrackedPoint) (hC : IsCovariance p.covariance) (z : V3) {R : Sq 3} (hR : IsCovariance R) (moving : Bool) :
    ∃ score p' moving', p.track pinv z R = .ok (score, p') ∧
      (m.tracked p moving).track pinv (m.point z) (m.turn * R * m.turnᵀ) = .ok (score, m.tracked p' moving') := by
  have hq : (0 : ℝ) < 1 / 1000 := by norm_num
  have hA := m.rigid
  have hA' := orthogonal_comm hA
  obtain ⟨x1, C1, G1, a1, a2, -, a4, a5, -, a7⟩ := static_step hq.le pinv hpinv p.coordinates z hC hR
  obtain ⟨x2, C2, G2, b1, b2, -, b4, b5, -, b7⟩ := static_step hq.le pinv hpinv (m.tracked p moving).coordinates (m.point z)
    (C := (m.tracked p moving).covariance) (hC.conj m.turn) (hR.conj m.turn)
  have cS : IsCovariance (p.covariance + (1 / 1000 : ℝ) • (1 : Sq 3) + R) := (hC.add (isCovariance_smul_one hq.le)).add hR
  have uS : IsUnit (p.covariance + (1 / 1000 : ℝ) • (1 : Sq 3) + R).det := isUnit_det_of_pos cS fun y hy => by
    rw [variance_add]
    have := pos_smul_one hq hC y hy
    have := hR.nonneg y
    linarith
  have hM : (m.tracked p moving).covariance + (1 / 1000 : ℝ) • (1 : Sq 3) =
      m.turn * (p.covariance + (1 / 1000 : ℝ) • (1 : Sq 3)) * m.turnᵀ := by
    show m.turn * p.covariance * m.turnᵀ + _ = _
    rw [Matrix.mul_add, Matrix.add_mul, Matrix.mul_smul, Matrix.mul_one, Matrix.smul_mul, hA']
  have hG : G2 = m.turn * G1 * m.turnᵀ := by
    rw [hM, ← Matrix.add_mul, ← Matrix.mul_add] at b5
    set S := p.covariance + (1 / 1000 : ℝ) • (1 : Sq 3) + R
    have h1 : G2 * m.turn * S = m.turn * G1 * S := by
      have := congrArg (· * m.turn) b5
      simp only [Matrix.mul_assoc, hA, Matrix.mul_one] at this
      rw [Matrix.mul_assoc, Matrix.mul_assoc, this, ← a5]
    have h2 : G2 * m.turn = m.turn * G1 := by
      have := congrArg (· * S⁻¹) h1
      simpa only [Matrix.mul_assoc, mul_nonsing_inv _ uS, Matrix.mul_one] using this
    have := congrArg (· * m.turnᵀ) h2
    simpa only [Matrix.mul_assoc, hA', Matrix.mul_one] using this
  have hx : x2 = m.point x1 := by
    rw [b4, hG, a4]
    show m.point p.coordinates + _ *ᵥ (m.point z - m.point p.coordinates) = _
    unfold Motion.point
    have e : m.turn *ᵥ z + m.shift - (m.turn *ᵥ p.coordinates + m.shift) = m.turn *ᵥ (z - p.coordinates) := by
      rw [mulVec_sub]; abel
    rw [e, mulVec_mulVec, Matrix.mul_assoc, hA, Matrix.mul_one, mulVec_add, ← mulVec_mulVec]
    abel
  have hc : C2 = m.turn * C1 * m.turnᵀ := by
    rw [b7, hM, hG, a7, Matrix.sub_mul, Matrix.sub_mul, Matrix.one_mul, Matrix.one_mul, Matrix.mul_sub, Matrix.sub_mul]
    congr 1
    simp only [Matrix.mul_assoc]
    rw [← Matrix.mul_assoc m.turnᵀ m.turn, hA, Matrix.one_mul]
  refine ⟨_, _, movedBeyond (m.point p.coordinates) (m.point z) (m.turn * R * m.turnᵀ), track_ok pinv p z hC hR a1, ?_⟩
  rw [track_ok pinv (m.tracked p moving) (m.point z) (hC.conj m.turn) (hR.conj m.turn) b1]
  simp only [Outcome.ok.injEq, Prod.mk.injEq, Motion.tracked, hx, hc, and_true]
  have e : m.point p.coordinates - m.point x1 = m.turn *ᵥ (p.coordinates - x1) := by
    unfold Motion.point; rw [mulVec_sub]; abel
  rw [e, Geometry.norm, Geometry.norm, orthogonal_dot hA]

/-- A valid covariance, and a motion that is not the identity. -/
example : ∃ m : Motion, m.turn ≠ 1 ∧ IsCovariance (1 : Sq 3) := by
  refine ⟨⟨!![-1, 0, 0; 0, -1, 0; 0, 0, 1], 0, ?_⟩, ?_, isCovariance_one⟩
  · ext i j; fin_cases i <;> fin_cases j <;> simp [Matrix.mul_apply, Fin.sum_univ_three]
  · intro h
    have := congrFun (congrFun h 0) 0
    norm_num at this

/-- C182 is false of the flag of moving points: a point detected 2 mm away, with a standard deviation of 1 mm, is flagged or
not according to the direction of the axes. -/
theorem C182_moving_false (pinv : Sq 3 → Sq 3) (hpinv : ∀ S, IsCovariance S → IsPseudoInverse S (pinv S)) :
    ∃ (m : Motion) (p : TrackedPoint) (z : V3) (R : Sq 3), IsCovariance p.covariance ∧ IsCovariance R ∧
      ∃ s1 p1 s2 p2, p.track pinv z R = .ok (s1, p1) ∧
        (m.tracked p p.moving).track pinv (m.point z) (m.turn * R * m.turnᵀ) = .ok (s2, p2) ∧ p1.moving ≠ p2.moving := by
  have hm : (!![-1, 0, 0; 0, -1, 0; 0, 0, 1] : M3)ᵀ * !![-1, 0, 0; 0, -1, 0; 0, 0, 1] = 1 := by
    ext i j; fin_cases i <;> fin_cases j <;> simp [Matrix.mul_apply, Fin.sum_univ_three]
  let m : Motion := ⟨!![-1, 0, 0; 0, -1, 0; 0, 0, 1], 0, hm⟩
  let p : TrackedPoint := ⟨![2, 0, 0], 1, false⟩
  have hq : (0 : ℝ) ≤ 1 / 1000 := by norm_num
  have c1 : IsCovariance p.covariance := isCovariance_one
  have e1 : m.turn * 1 * m.turnᵀ = 1 := by rw [Matrix.mul_one]; exact orthogonal_comm hm
  refine ⟨m, p, 0, 1, c1, isCovariance_one, ?_⟩
  obtain ⟨x1, C1, -, a1, -⟩ := static_step hq pinv hpinv p.coordinates 0 c1 isCovariance_one
  have c2 : IsCovariance (m.tracked p p.moving).covariance := c1.conj m.turn
  obtain ⟨x2, C2, -, b1, -⟩ := static_step hq pinv hpinv (m.tracked p p.moving).coordinates (m.point 0) c2 isCovariance_one
  refine ⟨_, _, _, _, track_ok pinv p 0 c1 isCovariance_one a1,
    by rw [e1]; exact track_ok pinv (m.tracked p p.moving) (m.point 0) c2 isCovariance_one b1, ?_⟩
  have f1 : movedBeyond p.coordinates 0 1 = true := by
    simp only [movedBeyond, decide_eq_true_eq]
    exact ⟨0, by simp [p]⟩
  have f2 : movedBeyond (m.tracked p p.moving).coordinates (m.point 0) 1 = false := by
    simp only [movedBeyond, decide_eq_false_iff_not, not_exists, not_lt]
    intro i
    fin_cases i <;> simp [Motion.tracked, Motion.point, m, p]
    norm_num
  show movedBeyond p.coordinates 0 1 ≠ movedBeyond (m.tracked p p.moving).coordinates (m.point 0) 1
  rw [f1, f2]
  decide

/-- What the motion does with the four parameters of a plane. -/
def Motion.planeMatrix (m : Motion) : Sq 4 :=
  !![m.turn 0 0, m.turn 0 1, m.turn 0 2, 0;
     m.turn 1 0, m.turn 1 1, m.turn 1 2, 0;
     m.turn 2 0, m.turn 2 1, m.turn 2 2, 0;
     -(m.turnᵀ *ᵥ m.shift) 0, -(m.turnᵀ *ᵥ m.shift) 1, -(m.turnᵀ *ᵥ m.shift) 2, 1]

theorem Motion.planeMatrix_spec (m : Motion) (P : Plane) : m.planeMatrix *ᵥ planeVector P = planeVector (m.plane P) := by
  ext i
  fin_cases i <;> simp [planeMatrix, planeVector, Motion.plane, mulVec, dotProduct, Fin.sum_univ_four, Fin.sum_univ_three]
  ring

/-- C182 is false of planes: the noise added to the parameters of a plane before each fusion is not that of the moved plane, since
the distance to the origin is one of the parameters.  The plane `z = 0` seen at `z = -10` is put half way, at `z = -5`, but nearer to where
it was when the origin is one millimetre lower. -/
theorem C182_plane_false (pinv : Sq 4 → Sq 4) (hpinv : ∀ S, IsCovariance S → IsPseudoInverse S (pinv S)) (boundary : Polygon) :
    ∃ (m : Motion) (p : TrackedPlane) (detection : Plane) (R : Sq 4), p.boundary = boundary ∧ IsCovariance p.covariance ∧ IsCovariance R ∧
      UnitVec p.plane.normal ∧ UnitVec detection.normal ∧
      ∃ x C x' C', fusePlane pinv p detection R = .ok (x, C) ∧
        fusePlane pinv { p with plane := m.plane p.plane, covariance := m.planeMatrix * p.covariance * m.planeMatrixᵀ }
          (m.plane detection) (m.planeMatrix * R * m.planeMatrixᵀ) = .ok (x', C') ∧
        planeOfVector x' ≠ m.plane (planeOfVector x) := by
  let m : Motion := ⟨1, ![0, 0, 1], by simp⟩
  let p : TrackedPlane := ⟨⟨![0, 0, 1], 0⟩, 0, boundary⟩
  let z : Plane := ⟨![0, 0, 1], 10⟩
  let R : Sq 4 := (1 / 10 ^ 6 : ℝ) • 1
  have hq : (0 : ℝ) ≤ 1 / 10 ^ 6 := by norm_num
  have c0 : IsCovariance (0 : Sq 4) := by simpa using isCovariance_smul_one (n := 4) (le_refl (0 : ℝ))
  have cR : IsCovariance R := isCovariance_smul_one hq
  have u : UnitVec (![0, 0, 1] : V3) := (unitVec_iff _).2 (by simp)
  refine ⟨m, p, z, R, rfl, c0, cR, u, u, ?_⟩
  obtain ⟨x1, C1, G1, a1, -, -, a4, a5, -⟩ := static_step hq pinv hpinv (planeVector p.plane) (planeVector z) c0 cR
  obtain ⟨x2, C2, G2, b1, -, -, b4, b5, -⟩ := static_step hq pinv hpinv (planeVector (m.plane p.plane)) (planeVector (m.plane z))
    (c0.conj m.planeMatrix) (cR.conj m.planeMatrix)
  refine ⟨x1, C1, x2, C2, a1, b1, fun h => ?_⟩
  have d1 := congrArg Plane.d h
  have g1 : G1 3 3 = 1 / 2 := by
    have := congrFun (congrFun a5 3) 3
    simp [R, Matrix.mul_apply, Fin.sum_univ_four] at this
    linarith
  have hs : m.planeMatrix * R * m.planeMatrixᵀ =
      (1 / 10 ^ 6 : ℝ) • !![1, 0, 0, 0; 0, 1, 0, 0; 0, 0, 1, -1; 0, 0, -1, 2] := by
    have e : m.planeMatrix = !![1, 0, 0, 0; 0, 1, 0, 0; 0, 0, 1, 0; 0, 0, -1, 1] := by
      ext i j
      fin_cases i <;> fin_cases j <;> simp [Motion.planeMatrix, m]
    rw [e]
    show _ * ((1 / 10 ^ 6 : ℝ) • (1 : Sq 4)) * _ = _
    rw [Matrix.mul_smul, Matrix.mul_one, Matrix.smul_mul]
    congr 1
    ext i j
    fin_cases i <;> fin_cases j <;> simp [Matrix.mul_apply, Fin.sum_univ_four]
    norm_num
  have g2 : G2 3 3 = 2 / 5 := by
    rw [hs, Matrix.mul_zero, Matrix.zero_mul] at b5
    have h2 := congrFun (congrFun b5 3) 2
    have h3 := congrFun (congrFun b5 3) 3
    simp [Matrix.mul_apply, Fin.sum_univ_four] at h2 h3
    linarith
  have v1 : x1 3 = 5 := by
    rw [a4]
    simp [planeVector, p, z, mulVec, dotProduct, Fin.sum_univ_four, g1]
    norm_num
  have v2 : x2 3 = 3 := by
    have e1 : m.plane p.plane = ⟨![0, 0, 1], -1⟩ := by simp [Motion.plane, m, p]
    have e2 : m.plane z = ⟨![0, 0, 1], 9⟩ := by simp [Motion.plane, m, z]; norm_num
    rw [b4, e1, e2]
    simp [planeVector, mulVec, dotProduct, Fin.sum_univ_four, g2]
    norm_num
  have g3 : ∀ i : Fin 3, G1 (Fin.castSucc i) 3 = 0 := by
    intro i
    have := congrFun (congrFun a5 (Fin.castSucc i)) 3
    have hne : (Fin.castSucc i) ≠ (3 : Fin 4) := by fin_cases i <;> decide
    simp [R, Matrix.mul_apply, Fin.sum_univ_four, Matrix.one_apply, hne] at this
    linarith
  have w : ![x1 0, x1 1, x1 2] = (![0, 0, 1] : V3) := by
    have e0 := g3 0
    have e1 := g3 1
    have e2 := g3 2
    simp only [Fin.castSucc_zero, Fin.castSucc_one] at e0 e1
    have e2' : G1 2 3 = 0 := e2
    rw [a4]
    ext i
    fin_cases i <;> simp [planeVector, p, z, mulVec, dotProduct, Fin.sum_univ_four, e0, e1, e2']
  have hn : (planeOfVector x1).normal = ![0, 0, 1] := by
    unfold planeOfVector Plane.make
    rw [w]
    exact normalized_of_unit ((unitVec_iff _).1 u)
  have hd1 : (m.plane (planeOfVector x1)).d = 4 := by
    show x1 3 - (m.turn *ᵥ (planeOfVector x1).normal) ⬝ᵥ m.shift = 4
    rw [hn, v1]
    simp [m]
    norm_num
  rw [hd1] at d1
  have : (planeOfVector x2).d = 3 := v2
  rw [this] at d1
  norm_num at d1

end RgbdSlam.WorldFrame
