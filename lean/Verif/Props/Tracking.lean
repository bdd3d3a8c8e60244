import Verif.Props.Covariance
import Verif.Lemmas.Jacobian

/-
Properties of the update of tracked points and planes with a new detection.
-/
set_option linter.unusedSimpArgs false

namespace RgbdSlam.Covariance

open Matrix Spec Geometry
open Geometry.Spec (UnitVec UnitQuat OnPlane Orthonormal)

theorem newState_covariance {n m : ℕ} {f : Filter n m} {pinv : Sq m → Sq m} {x x' : Fin n → ℝ}
    {z : Fin m → ℝ} {C K : Sq n} {R : Sq m} (h : f.newState pinv x C z R = .ok (x', K)) :
    IsCovariance K := by
  simp only [Filter.newState] at h
  split_ifs at h with h1 h2 h3
  rw [Outcome.ok.injEq, Prod.mk.injEq] at h
  rw [← h.2]
  exact (isValid_iff (symLower_transpose _)).1 h3

/-! ## C55: failed updates -/

/-- C55: a map point whose update fails (negative score) is exactly the one before the call, and an
update that succeeds reports a distance. -/
theorem C55_point (p q : TrackedPoint) (pinv : Sq 3 → Sq 3) (detection : V3) (C : Sq 3) (score : ℝ)
    (h : p.track pinv detection C = .ok (score, q)) :
    (score < 0 → q = p) ∧ (0 ≤ score → IsCovariance q.covariance ∧
      score = Geometry.norm (p.coordinates - q.coordinates)) := by
  unfold TrackedPoint.track at h
  split_ifs at h with h1 h2
  · cases h
    exact ⟨fun _ => rfl, fun h => by linarith⟩
  · generalize hs : (staticFilter 3 (1 / 1000)).newState pinv p.coordinates p.covariance detection C = s at h
    cases s with
    | ok a =>
      obtain ⟨x, K⟩ := a
      cases h
      exact ⟨fun h => absurd (norm_nonneg' _) (not_le.2 h), fun _ => ⟨newState_covariance hs, rfl⟩⟩
    | throws =>
      cases h
      exact ⟨fun _ => rfl, fun h => by linarith⟩
    | exit => cases h
    | terminate => cases h
    | ub => cases h
    | outOfFuel => cases h

/-- C55: with covariances, and for any detection, the update of a point does not fail. -/
theorem C55_point_succeeds (p : TrackedPoint) (hp : IsCovariance p.covariance) (pinv : Sq 3 → Sq 3)
    (hpinv : ∀ S, IsCovariance S → IsPseudoInverse S (pinv S)) (detection : V3) {C : Sq 3}
    (hC : IsCovariance C) :
    ∃ score q, p.track pinv detection C = .ok (score, q) ∧ 0 ≤ score ∧ IsCovariance q.covariance := by
  obtain ⟨x, K, _, e, _, _, _, hK, _⟩ := C35_update (staticFilter 3 (1 / 1000)) pinv p.coordinates
    detection hp hC (isCovariance_smul_one (by norm_num)) hpinv
  refine ⟨_, { coordinates := x, covariance := K, moving := movedBeyond p.coordinates detection C },
    ?_, norm_nonneg' (p.coordinates - x), hK⟩
  rw [TrackedPoint.track, hC.valid, hp.valid, e]
  rfl

/-- A failing case: the detection has a negative variance. -/
example (p : TrackedPoint) : ∃ score, p.track (examplePinv 3) ![1, 2, 3] (-1) = .ok (score, p) ∧ score < 0 := by
  refine ⟨-1, ?_, by norm_num⟩
  have : isValid (-1 : Sq 3) = false := by
    rw [Bool.eq_false_iff]
    intro h
    rw [isValid_iff (by simp)] at h
    have := h.nonneg ![1, 0, 0]
    simp [variance, Fin.sum_univ_three] at this
    linarith
  simp [TrackedPoint.track, this]

/-- The centre of a polygon projected on a plane passes the check that follows. -/
theorem updateBoundary_not_none {merge : Polygon → Outcome Polygon} {P : Polygon} {plane : Plane} :
    updateBoundary merge P plane ≠ .ok none := by
  unfold updateBoundary projectPolygon
  intro h
  split_ifs at h with h1
  · cases h
  · generalize planeBasis plane.normal = b at h
    cases b <;> try cases h
    rename_i a
    simp only [Outcome.bind_ok] at h
    have hc : ∀ Q, P.project a.1 a.2 plane.center = .ok Q → isApprox Q.center plane.center = true := by
      intro Q hQ
      unfold Polygon.project at hQ
      split_ifs at hQ with g1 g2 g3
      · cases hQ
        simp only [Bool.and_eq_true] at g3
        exact g3.1.1
      · rw [Outcome.bind_eq_ok_iff] at hQ
        obtain ⟨b, _, hb⟩ := hQ
        unfold Polygon.make at hb
        split_ifs at hb
        cases hb
        exact isApprox_self _
    generalize hQ : P.project a.1 a.2 plane.center = o at h
    cases o <;> try cases h
    rename_i Q
    simp only [Outcome.bind_ok, hc Q hQ, if_true] at h
    generalize merge Q = r at h
    cases r <;> cases h

/-- C55: when the tracking of a map plane throws or the detection is refused, the plane, its
covariance and its boundary are exactly the ones before the call. -/
theorem C55_plane (p q : TrackedPlane) (pinv : Sq 4 → Sq 4) (merge : Polygon → Outcome Polygon)
    (detection : Plane) (C : Sq 4) :
    (p.track pinv merge detection C = .ok (none, q) → q = p) ∧
    (isValid C = false → p.track pinv merge detection C = .ok (some 0, p)) := by
  constructor
  · intro h
    unfold TrackedPlane.track at h
    split_ifs at h with h1 h2
    · cases h
    · generalize fusePlane pinv p detection C = s at h
      cases s with
      | ok a =>
        obtain ⟨x, K⟩ := a
        simp only at h
        rw [Outcome.bind_eq_ok_iff] at h
        obtain ⟨b, hb, hb'⟩ := h
        cases b with
        | none => exact absurd hb updateBoundary_not_none
        | some B =>
          simp only at hb'
          split_ifs at hb'
          cases hb'
      | throws => cases h; rfl
      | exit => cases h
      | terminate => cases h
      | ub => cases h
      | outOfFuel => cases h
  · intro h
    simp [TrackedPlane.track, h]

/-- C55 for inverse depth points, the part that holds: when the update reports failure, the point is
unchanged, or only its position and flag are changed and the fused point is on the vertical line
through the first observation. -/
theorem C55_inverse_depth_partial (p q : TrackedInverse) (hp : IsCovariance p.covariance)
    (pinv : Sq 3 → Sq 3) (point : V3) (C : Sq 3)
    (h : p.updateWithCartesian pinv point C = .ok (false, q)) :
    q = p ∨ (q.covariance = p.covariance ∧ q.coordinates.first = p.coordinates.first ∧
      Real.sin q.coordinates.theta = 0) := by
  unfold TrackedInverse.updateWithCartesian at h
  rw [hp.valid] at h
  split_ifs at h with h1
  · cases h; exact Or.inl rfl
  · rw [Outcome.bind_eq_ok_iff] at h
    obtain ⟨world, hw, h⟩ := h
    generalize hs : ((cartesianCovariance p.coordinates p.covariance).bind fun K =>
          (staticFilter 3 (1 / 10000)).newState pinv world K point C) = s at h
    cases s with
    | ok a =>
      obtain ⟨x, newC⟩ := a
      rw [Outcome.bind_eq_ok_iff] at hs
      obtain ⟨K, _, hs⟩ := hs
      have hN := newState_covariance hs
      simp only [hN.valid, if_true, TrackedInverse.store] at h
      rw [Outcome.bind_eq_ok_iff] at h
      obtain ⟨coords, hc, h⟩ := h
      have hc' : coords.first = p.coordinates.first ∧
          coords.theta = (Spherical.ofCartesian (x - p.coordinates.first)).theta := by
        simp only [InverseDepth.fromCartesian] at hc
        generalize hm : InverseDepth.make p.coordinates.first _ _ _ = m at hc
        cases m <;> simp only [Outcome.noexcept, Outcome.map, Outcome.bind, Outcome.ok.injEq, reduceCtorEq] at hc
        subst hc
        unfold InverseDepth.make at hm
        split_ifs at hm
        rw [← Outcome.ok.inj hm]
        exact ⟨rfl, rfl⟩
      cases hJ : inverseJacobian x p.coordinates.first with
      | some J =>
        rw [hJ] at h
        obtain ⟨K', e, hK', _⟩ := inverseCovariance_some hN (firstPoseBlock_isCovariance hp) hJ
        rw [e] at h
        simp [hK'.valid] at h
      | none =>
        rw [hJ] at h
        have e : inverseCovariance newC (firstPoseBlock p.covariance) none = .throws := by
          simp [inverseCovariance]
        rw [e] at h
        simp only [Outcome.ok.injEq, Prod.mk.injEq, true_and] at h
        subst h
        refine Or.inr ⟨rfl, hc'.1, ?_⟩
        simp only [hc'.2, Spherical.ofCartesian]
        unfold inverseJacobian at hJ
        split_ifs at hJ with h0
        have : (x - p.coordinates.first) 0 * (x - p.coordinates.first) 0 +
            (x - p.coordinates.first) 1 * (x - p.coordinates.first) 1 = 0 := by
          rw [← h0]; ring
        rw [this, Real.sqrt_zero, atan2, Complex.sin_arg]
        simp
    | throws => cases h; exact Or.inl rfl
    | exit => cases h; exact Or.inl rfl
    | terminate => cases h; exact Or.inl rfl
    | ub => cases h; exact Or.inl rfl
    | outOfFuel => cases h; exact Or.inl rfl

/-- C55: the case of the previous theorem does not arise off the vertical line: if the update is not
refused and the stored point is not straight above or below its first observation, it succeeds. -/
theorem C55_inverse_depth_off_vertical (p q : TrackedInverse) (hp : IsCovariance p.covariance)
    (pinv : Sq 3 → Sq 3) (point : V3) (C : Sq 3) (ok : Bool)
    (h : p.updateWithCartesian pinv point C = .ok (ok, q)) (hq : Real.sin q.coordinates.theta ≠ 0) :
    ok = true ∨ q = p := by
  cases ok with
  | true => exact Or.inl rfl
  | false =>
    rcases C55_inverse_depth_partial p q hp pinv point C h with h | h
    · exact Or.inr h
    · exact absurd h.2.2 hq

/-- The inverse depth point straight above its first observation, at distance `1 / w`. -/
noncomputable def verticalPoint (w : ℝ) : InverseDepth :=
  { first := 0, inverseDepth := w, theta := 0, phi := 0, bearing := ![0, 0, 1] }

theorem verticalPoint_make {w : ℝ} (hw : 0 < w) : InverseDepth.make 0 w 0 0 = .ok (verticalPoint w) := by
  have := Real.pi_pos
  rw [InverseDepth.make, if_neg (not_lt.2 hw.le), if_neg (by rintro (h | h) <;> linarith),
    if_neg (by rintro (h | h) <;> linarith)]
  simp [verticalPoint, Spherical.toCartesian]

theorem vertical_cartesian {w : ℝ} (hw : w ≠ 0) {b v a : ℝ} (hb : 0 ≤ b) (hv : 0 ≤ v) (ha : 0 ≤ a) :
    propagate (initialInverseCovariance (b • 1) v a) (worldJacobian (verticalPoint w)) =
      diagonal ![b + a / w ^ 2, b, b + v / w ^ 4] := by
  rw [propagate_eq' (initialInverseCovariance_isCovariance (isCovariance_smul_one hb) hv ha).transpose_eq]
  have e : initialInverseCovariance (b • 1) v a = diagonal ![b, b, b, v, a, a] := by
    ext i j
    fin_cases i <;> fin_cases j <;> simp [initialInverseCovariance, setFirstPoseBlock]
  rw [e]
  ext i j
  fin_cases i <;> fin_cases j <;>
    simp [Matrix.mul_apply, Fin.sum_univ_succ, worldJacobian, worldJacobianBlock, verticalPoint,
      diagonal_apply] <;> field_simp

/-- C55 is false for inverse depth points: a new point straight above its first observation, for every
covariance it may be given.  A detection further up is fused, the update reports a failure, and the
position of the point has changed while its covariance has not. -/
theorem C55_inverse_depth_false {w : ℝ} (hw : 0 < w) {b v a : ℝ} (hb : 0 ≤ b) (hv : 0 ≤ v)
    (ha : 0 ≤ a) (pinv : Sq 3 → Sq 3) (hpinv : ∀ S, IsCovariance S → IsPseudoInverse S (pinv S)) :
    ∃ (p q : TrackedInverse) (detection : V3), InverseDepth.make 0 w 0 0 = .ok p.coordinates ∧
      p.covariance = initialInverseCovariance (b • 1) v a ∧ IsCovariance p.covariance ∧
      p.updateWithCartesian pinv detection 1 = .ok (false, q) ∧
      q.coordinates.inverseDepth ≠ p.coordinates.inverseDepth ∧ q.covariance = p.covariance := by
  have cp := initialInverseCovariance_isCovariance (isCovariance_smul_one (n := 3) hb) hv ha
  set g : ℝ := (b + v / w ^ 4 + 1 / 10000) / (b + v / w ^ 4 + 1 / 10000 + 1) with hg
  have hgp : 0 < g := by positivity
  set z : ℝ := w⁻¹ + g * (w⁻¹ + 2 - w⁻¹) with hz
  have hzp : w⁻¹ < z := by
    have : 0 < g * (w⁻¹ + 2 - w⁻¹) := by
      rw [show w⁻¹ + 2 - w⁻¹ = 2 by ring]; positivity
    linarith
  have hwi : 0 < w⁻¹ := inv_pos.2 hw
  have hz0 : 0 < z := hwi.trans hzp
  obtain ⟨K, hK, cK⟩ := newState_diagonal (q := 1 / 10000) (by norm_num) (pinv := pinv)
    (x := ![0, 0, w⁻¹]) (z := ![0, 0, w⁻¹ + 2]) (c := ![b + a / w ^ 2, b, b + v / w ^ 4])
    (r := fun _ => 1) (forall_fin3 (by simp; positivity) (by simpa) (by simp; positivity))
    (fun _ => zero_le_one) hpinv
  have hx : (fun i => (![0, 0, w⁻¹] : V3) i + ((![b + a / w ^ 2, b, b + v / w ^ 4] : V3) i + 1 / 10000) /
      ((![b + a / w ^ 2, b, b + v / w ^ 4] : V3) i + 1 / 10000 + (fun _ => 1) i) *
      ((![0, 0, w⁻¹ + 2] : V3) i - (![0, 0, w⁻¹] : V3) i)) = (![0, 0, z] : V3) := by
    funext i
    revert i
    refine forall_fin3 (by simp) (by simp) ?_
    simp [hz, hg]
  rw [hx] at hK
  have hd1 : (diagonal fun _ => 1 : Sq 3) = 1 := diagonal_one
  rw [hd1] at hK
  have hnorm : Geometry.norm (![0, 0, z] : V3) = z := by
    simp [Geometry.norm, dotProduct, Fin.sum_univ_three, hz0.le]
  have hfc : InverseDepth.fromCartesian ![0, 0, z] 0 = .ok (verticalPoint (1 / z)) := by
    have hs : Spherical.ofCartesian (![0, 0, z] - 0) = ⟨z, 0, 0⟩ := by
      rw [sub_zero]
      simp only [Spherical.ofCartesian, hnorm]
      have e1 : atan2 0 z = 0 := by
        rw [atan2]; exact Complex.arg_ofReal_of_nonneg hz0.le
      have e2 : atan2 0 0 = 0 := by
        rw [atan2]; exact Complex.arg_zero
      simp [e1, e2]
    simp only [InverseDepth.fromCartesian, hs, verticalPoint_make (one_div_pos.2 hz0)]
    simp [Outcome.noexcept, Outcome.map, verticalPoint, hz0.ne']
  refine ⟨⟨verticalPoint w, initialInverseCovariance (b • 1) v a, false⟩,
    ⟨verticalPoint (1 / z), initialInverseCovariance (b • 1) v a,
      movedBeyond ![0, 0, w⁻¹] ![0, 0, w⁻¹ + 2] 1⟩, ![0, 0, w⁻¹ + 2], verticalPoint_make hw, rfl, cp, ?_,
    ?_, rfl⟩
  · have htw : (verticalPoint w).toWorld = .ok ![0, 0, w⁻¹] := by
      rw [InverseDepth.toWorld, if_neg (show (verticalPoint w).inverseDepth ≠ 0 from hw.ne')]
      simp [verticalPoint]
    have hJ : inverseJacobian ![0, 0, z] (verticalPoint w).first = none := by
      simp [inverseJacobian, verticalPoint]
    have hfc' : InverseDepth.fromCartesian ![0, 0, z] (verticalPoint w).first =
        .ok (verticalPoint (1 / z)) := hfc
    have hiC : ∀ B : Sq 3, inverseCovariance K B none = .throws := by
      intro B; simp [inverseCovariance]
    rw [TrackedInverse.updateWithCartesian, isCovariance_one.valid, cp.valid, htw]
    simp only [Bool.not_true, Bool.false_eq_true, if_false, Outcome.bind_ok]
    rw [cartesianCovariance_ok cp, Outcome.bind_ok, vertical_cartesian hw.ne' hb hv ha, hK]
    simp only [cK.valid, if_true, TrackedInverse.store, hfc', Outcome.bind_ok, hJ, hiC]
  · show 1 / z ≠ w
    intro h
    rw [← h] at hzp
    simp at hzp

/-- Such points exist: the values of the parameters are the ones of a point created on the screen. -/
example : ∃ (p q : TrackedInverse) (detection : V3),
    p.updateWithCartesian (examplePinv 3) detection 1 = .ok (false, q) ∧ q ≠ p := by
  obtain ⟨p, q, d, _, _, _, h, h', _⟩ := C55_inverse_depth_false (w := 1 / 2000) (by norm_num) (b := 1)
    (v := 1 / 10 ^ 6) (a := 1 / 1000) (by norm_num) (by norm_num) (by norm_num) (examplePinv 3)
    examplePinv_spec
  exact ⟨p, q, d, h, fun e => h' (by rw [e])⟩

/-! ## C79: the moving flag -/

/-- C79, the part that holds: a point flagged as moving was detected further away than the standard
deviation of the detection along some axis, towards the negative side of that axis. -/
theorem C79_moving_partial (p q : TrackedPoint) (pinv : Sq 3 → Sq 3) (detection : V3) (C : Sq 3)
    (score : ℝ) (h : p.track pinv detection C = .ok (score, q)) (hs : 0 ≤ score) :
    (q.moving = true → ∃ i, Real.sqrt (C i i) < |p.coordinates i - detection i|) ∧
    ((∃ i, Real.sqrt (C i i) < p.coordinates i - detection i) → q.moving = true) := by
  unfold TrackedPoint.track at h
  split_ifs at h with h1 h2
  · cases h; linarith
  · generalize (staticFilter 3 (1 / 1000)).newState pinv p.coordinates p.covariance detection C = s at h
    cases s with
    | ok a =>
      obtain ⟨x, K⟩ := a
      cases h
      simp only [movedBeyond, decide_eq_true_eq]
      exact ⟨fun ⟨i, hi⟩ => ⟨i, hi.trans_le (le_abs_self _)⟩, fun h => h⟩
    | throws => cases h; linarith
    | exit => cases h
    | terminate => cases h
    | ub => cases h
    | outOfFuel => cases h

/-- C79 is false: a point at the origin with unit covariance, detected ten units away on the positive
side of an axis with unit covariance, is not flagged as moving. -/
theorem C79_moving_false (pinv : Sq 3 → Sq 3)
    (hpinv : ∀ S, IsCovariance S → IsPseudoInverse S (pinv S)) :
    ∃ (p q : TrackedPoint) (detection : V3) (C : Sq 3) (score : ℝ),
      p.track pinv detection C = .ok (score, q) ∧ 0 ≤ score ∧
      (∃ i, Real.sqrt (C i i) < |p.coordinates i - detection i|) ∧ q.moving = false := by
  obtain ⟨score, q, h, h', _⟩ := C55_point_succeeds ⟨0, 1, false⟩ isCovariance_one pinv hpinv ![10, 0, 0]
    isCovariance_one
  refine ⟨_, q, _, _, score, h, h', ⟨0, by norm_num⟩, ?_⟩
  have hm : q.moving = movedBeyond 0 ![10, 0, 0] 1 := by
    unfold TrackedPoint.track at h
    simp only [isCovariance_one.valid, Bool.not_true, Bool.false_eq_true, if_false] at h
    generalize (staticFilter 3 (1 / 1000)).newState pinv 0 1 ![10, 0, 0] 1 = s at h
    cases s with
    | ok a => cases h; rfl
    | throws => cases h; norm_num at h'
    | exit => cases h
    | terminate => cases h
    | ub => cases h
    | outOfFuel => cases h
  rw [hm, Bool.eq_false_iff]
  simp only [movedBeyond, ne_eq, decide_eq_true_eq, not_exists, not_lt]
  exact forall_fin3 (by norm_num) (by norm_num) (by simp)

/-! ## C80: the fused plane -/

theorem eq_norm_smul_normalized {n : ℕ} {v : Fin n → ℝ} (h : v ≠ 0) :
    v = Geometry.norm v • normalized v := by
  have hp := dot_self_pos h
  have hn := (norm_pos h).ne'
  rw [normalized, if_pos hp, smul_smul, mul_inv_cancel₀ hn, one_smul]

/-- What a plane update that returns stores. -/
theorem track_some {p q : TrackedPlane} {pinv : Sq 4 → Sq 4} {merge : Polygon → Outcome Polygon}
    {detection : Plane} {C : Sq 4} {score : ℝ} (hC : isValid C = true)
    (h : p.track pinv merge detection C = .ok (some score, q)) :
    ∃ x, fusePlane pinv p detection C = .ok (x, q.covariance) ∧ q.plane = planeOfVector x := by
  unfold TrackedPlane.track at h
  rw [hC] at h
  split_ifs at h with h1 h2
  · simp at h1
  · generalize fusePlane pinv p detection C = s at h
    cases s with
    | ok a =>
      obtain ⟨x, K⟩ := a
      simp only at h
      rw [Outcome.bind_eq_ok_iff] at h
      obtain ⟨b, hb, hb'⟩ := h
      cases b with
      | none => cases hb'
      | some B =>
        simp only at hb'
        split_ifs at hb'
        cases hb'
        exact ⟨x, rfl, rfl⟩
    | throws => cases h
    | exit => cases h
    | terminate => cases h
    | ub => cases h
    | outOfFuel => cases h

/-- C80, the part that holds: the stored plane is parallel to the plane of the fused parameters, and is
that plane when the fused normal has length one or the plane passes through the origin. -/
theorem C80_fused_plane_partial {p q : TrackedPlane} {pinv : Sq 4 → Sq 4}
    {merge : Polygon → Outcome Polygon} {detection : Plane} {C : Sq 4} {score : ℝ}
    (hC : isValid C = true) (h : p.track pinv merge detection C = .ok (some score, q)) :
    ∃ x : Fin 4 → ℝ, fusePlane pinv p detection C = .ok (x, q.covariance) ∧
      (∃ c : ℝ, ![x 0, x 1, x 2] = c • q.plane.normal) ∧ q.plane.d = x 3 ∧
      (x 0 ^ 2 + x 1 ^ 2 + x 2 ^ 2 = 1 ∨ (x 3 = 0 ∧ ![x 0, x 1, x 2] ≠ (0 : V3)) →
        ∀ pt : V3, OnPlane q.plane pt ↔ x 0 * pt 0 + x 1 * pt 1 + x 2 * pt 2 + x 3 = 0) := by
  obtain ⟨x, hx, e⟩ := track_some hC h
  refine ⟨x, hx, ?_, by rw [e]; rfl, ?_⟩
  · rw [e]
    show ∃ c : ℝ, _ = c • normalized ![x 0, x 1, x 2]
    by_cases h0 : (![x 0, x 1, x 2] : V3) = 0
    · exact ⟨0, by rw [h0]; simp⟩
    · exact ⟨_, eq_norm_smul_normalized h0⟩
  · rintro h pt
    rw [e]
    simp only [OnPlane, planeOfVector, Plane.make, Fin.sum_univ_three]
    rcases h with h | ⟨h3, h0⟩
    · rw [normalized_of_unit (by simp [dotProduct, Fin.sum_univ_three, ← sq, h])]
      simp
    · have hp := norm_pos h0
      have e' := eq_norm_smul_normalized h0
      set N := normalized (![x 0, x 1, x 2] : V3)
      generalize Geometry.norm (![x 0, x 1, x 2] : V3) = c at *
      have e0 : x 0 = c * N 0 := congrFun e' 0
      have e1 : x 1 = c * N 1 := congrFun e' 1
      have e2 : x 2 = c * N 2 := congrFun e' 2
      rw [h3, e0, e1, e2]
      constructor
      · intro h; linear_combination c * h
      · intro h
        have : c * (N 0 * pt 0 + N 1 * pt 1 + N 2 * pt 2) = 0 := by linear_combination h
        rw [add_zero]
        exact (mul_eq_zero.1 this).resolve_left hp.ne'

/-- The update of the boundary does not fail for a polygon with orthonormal axes, a unit normal and a
merge that does not fail. -/
theorem updateBoundary_some {P : Polygon} (hP : Orthonormal P.xAxis P.yAxis) {plane : Plane}
    (hn : plane.normal ⬝ᵥ plane.normal = 1) :
    ∃ B, updateBoundary .ok P plane = .ok (some B) := by
  obtain ⟨x, y, hb, hx, hy, hxy, _⟩ := planeBasis_spec hn
  have ho : Orthonormal x y := ⟨(unitVec_iff x).2 hx, (unitVec_iff y).2 hy, hxy⟩
  have hn1 : doubleEqual (Geometry.norm plane.normal) 1 = true := by
    rw [norm_of_unit hn]; exact doubleEqual_self _ doubleEps_nonneg
  have hQ : ∃ Q, P.project x y plane.center = .ok Q := by
    cases he : (isApprox P.center plane.center && isApprox P.xAxis x && isApprox P.yAxis y) with
    | true => exact ⟨P, C73_same_place ho he⟩
    | false => exact (C73_projection hP ho he).imp fun _ h => h.1
  obtain ⟨Q, hQ⟩ := hQ
  have hne := updateBoundary_not_none (merge := .ok) (P := P) (plane := plane)
  unfold updateBoundary projectPolygon at hne ⊢
  simp only [hn1, hb, hQ, Outcome.bind_ok, Bool.not_true, Bool.false_eq_true, if_false] at hne ⊢
  cases hA : isApprox Q.center plane.center with
  | true => exact ⟨Q, by simp [Outcome.map, Outcome.noexcept]⟩
  | false => rw [hA] at hne; simp [Outcome.noexcept] at hne

/-- C80 is false: the planes z = 2 and y = 2 are fused with equal weights to y / 2 + z / 2 = 2, but the
stored plane has its normal rescaled to length one and not its distance, so that it does not contain
the point (0, 2, 2) of the fused plane. -/
theorem C80_fused_plane_false (pinv : Sq 4 → Sq 4)
    (hpinv : ∀ S, IsCovariance S → IsPseudoInverse S (pinv S)) :
    ∃ (p q : TrackedPlane) (detection : Plane) (C K : Sq 4) (score : ℝ) (x : Fin 4 → ℝ) (pt : V3),
      IsCovariance p.covariance ∧ IsCovariance C ∧ UnitVec p.plane.normal ∧ UnitVec detection.normal ∧
      p.track pinv .ok detection C = .ok (some score, q) ∧ fusePlane pinv p detection C = .ok (x, K) ∧
      x 0 * pt 0 + x 1 * pt 1 + x 2 * pt 2 + x 3 = 0 ∧ ¬ OnPlane q.plane pt := by
  obtain ⟨K, hK, cK⟩ := newState_diagonal (n := 4) (q := 1 / 10 ^ 6) (by norm_num) (pinv := pinv)
    (x := ![0, 0, 1, -2]) (z := ![0, 1, 0, -2]) (c := fun _ => 999999 / 10 ^ 6) (r := fun _ => 1)
    (fun _ => by norm_num) (fun _ => zero_le_one) hpinv
  have hx : (fun i : Fin 4 => (![0, 0, 1, -2] : Fin 4 → ℝ) i +
      ((fun _ => 999999 / 10 ^ 6 : Fin 4 → ℝ) i + 1 / 10 ^ 6) /
        ((fun _ => 999999 / 10 ^ 6 : Fin 4 → ℝ) i + 1 / 10 ^ 6 + (fun _ => 1 : Fin 4 → ℝ) i) *
      ((![0, 1, 0, -2] : Fin 4 → ℝ) i - (![0, 0, 1, -2] : Fin 4 → ℝ) i)) = ![0, 1 / 2, 1 / 2, -2] := by
    funext i
    revert i
    refine forall_fin4 ?_ ?_ ?_ ?_ <;> simp <;> norm_num
  rw [hx] at hK
  set c : Sq 4 := diagonal fun _ => 999999 / 10 ^ 6 with hc
  set r : Sq 4 := diagonal fun _ => 1 with hr
  have cc : IsCovariance c := isCovariance_diagonal fun _ => by norm_num
  have cr : IsCovariance r := isCovariance_diagonal fun _ => zero_le_one
  set p : TrackedPlane := ⟨⟨![0, 0, 1], -2⟩, c, examplePolygon⟩ with hp
  set d : Plane := ⟨![0, 1, 0], -2⟩ with hd
  have hf : fusePlane pinv p d r = .ok (![0, 1 / 2, 1 / 2, -2], K) := hK
  have h0 : (![0, 1 / 2, 1 / 2] : V3) ≠ 0 := by
    intro h
    have := congrFun h 1
    norm_num at this
  have hun : normalized (![0, 1 / 2, 1 / 2] : V3) ⬝ᵥ normalized (![0, 1 / 2, 1 / 2] : V3) = 1 :=
    normalized_unit h0
  have hpl : planeOfVector ![0, 1 / 2, 1 / 2, -2] = ⟨normalized ![0, 1 / 2, 1 / 2], -2⟩ := rfl
  obtain ⟨B, hB⟩ := updateBoundary_some (P := p.boundary) examplePolygon_axes
    (plane := planeOfVector ![0, 1 / 2, 1 / 2, -2]) (by rw [hpl]; exact hun)
  have hn1 : doubleEqual (Geometry.norm (planeOfVector ![0, 1 / 2, 1 / 2, -2]).normal) 1 = true := by
    rw [hpl, norm_of_unit hun]; exact doubleEqual_self _ doubleEps_nonneg
  have htr : ∃ score, p.track pinv .ok d r =
      .ok (some score, ⟨planeOfVector ![0, 1 / 2, 1 / 2, -2], K, B⟩) := by
    rw [TrackedPlane.track, cr.valid, cc.valid, hf]
    simp only [Bool.not_true, Bool.false_eq_true, if_false, hB, Outcome.bind_ok, hn1, cK.valid]
    exact ⟨_, rfl⟩
  obtain ⟨score, htr⟩ := htr
  refine ⟨p, ⟨planeOfVector ![0, 1 / 2, 1 / 2, -2], K, B⟩, d, r, K, score, ![0, 1 / 2, 1 / 2, -2], ![0, 2, 2],
    cc, cr, by simp [hp, UnitVec, Fin.sum_univ_three], by simp [hd, UnitVec, Fin.sum_univ_three], htr, hf,
    ?_, ?_⟩
  · simp
    norm_num
  · rw [hpl]
    intro h
    simp only [OnPlane, Fin.sum_univ_three] at h
    have e' := eq_norm_smul_normalized h0
    set N := normalized (![0, 1 / 2, 1 / 2] : V3)
    have e1 := congrFun e' 1
    have e2 := congrFun e' 2
    simp only [Pi.smul_apply, smul_eq_mul] at e1 e2
    have hu : N 0 * N 0 + N 1 * N 1 + N 2 * N 2 = 1 := by
      have := hun; simp only [dotProduct, Fin.sum_univ_three] at this; exact this
    have e0 := congrFun e' 0
    simp only [Pi.smul_apply, smul_eq_mul] at e0
    have hnp := (norm_pos h0).ne'
    generalize Geometry.norm (![0, 1 / 2, 1 / 2] : V3) = L at *
    simp at e0 e1 e2 h
    have e0' : N 0 = 0 := e0.resolve_left hnp
    have e12 : N 1 = N 2 := mul_left_cancel₀ hnp (by rw [← e1, ← e2])
    rw [e0', ← e12] at hu
    rw [← e12] at h
    have hq : N 1 = 1 / 2 := by linarith
    rw [hq] at hu
    norm_num at hu

end RgbdSlam.Covariance
