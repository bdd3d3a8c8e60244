import Verif.Props.Tracking
import Verif.Props.Points2d
import Verif.Props.CylinderFit
import Verif.Lemmas.Updates
/-
Statements added after wrong programs were accepted: what the covariances of moved points (C36) and of updated points
without depth (C55) are, promotion never throws (C120), normals of projected patches (C127).
-/
namespace RgbdSlam.Covariance

open Matrix Spec Geometry
open Geometry.Spec (UnitQuat)

/-- C36: moving a point with a rigid transformation moves its uncertainty: the variance along the image of a direction
is the variance along this direction, plus the variance of the position of the camera. -/
theorem C36_moved_variance {q : Quat} (hq : UnitQuat q) (p : V3) {C pose : Sq 3} (hC : IsCovariance C) (u : V3) :
    variance (movedPointCovariance C (cameraToWorld q p) pose) (rotation (cameraToWorld q p) *ᵥ u) =
      variance C u + variance pose (rotation (cameraToWorld q p) *ᵥ u) := by
  obtain ⟨R, t, hR, e⟩ := cameraToWorld_rigid hq p
  have hrot : rotation (cameraToWorld q p) = R := by
    rw [e]; ext i j; simp [rotation, transformation, toBlocks₁₁]
  have hs : Cᵀ = C := by ext i j; exact hC.symm j i
  rw [movedPointCovariance, propagate_eq' hs, hrot]
  simp only [variance_eq, Matrix.add_mulVec, dotProduct_add]
  congr 1
  rw [← Matrix.mulVec_mulVec, Matrix.mulVec_mulVec u Rᵀ R, hR, Matrix.one_mulVec, ← Matrix.mulVec_mulVec,
    orthogonal_dot hR]

/-- An uncertainty along the first axis of the camera (its right) goes to the second axis of the world. -/
example : UnitQuat ⟨1, 0, 0, 0⟩ ∧ IsCovariance (Matrix.diagonal ![4, 0, 0] : Sq 3) := by
  refine ⟨by norm_num [UnitQuat], fun i j => by fin_cases i <;> fin_cases j <;> simp, fun x => ?_⟩
  simp [variance, Fin.sum_univ_three]
  nlinarith [sq_nonneg (x 0)]

/-- C55: after an update of a point without depth that succeeds, the position is the fused one seen from the first
observation, the covariance of the first camera position is kept, and every other entry is the one of the fused
covariance carried by the derivative of the conversion. -/
theorem C55_inverse_depth_updated (p q : TrackedInverse) (hp : IsCovariance p.covariance) (pinv : Sq 3 → Sq 3)
    (point : V3) (C : Sq 3) (hC : IsCovariance C) (h : p.updateWithCartesian pinv point C = .ok (true, q)) :
    ∃ (world x : V3) (K newC : Sq 3) (J : Matrix (Fin 6) (Fin 3) ℝ),
      p.coordinates.toWorld = .ok world ∧ cartesianCovariance p.coordinates p.covariance = .ok K ∧
      (staticFilter 3 (1 / 10000)).newState pinv world K point C = .ok (x, newC) ∧
      inverseJacobian x p.coordinates.first = some J ∧
      InverseDepth.fromCartesian x p.coordinates.first = .ok q.coordinates ∧
      (∀ i j : Fin 6, i.val < 3 → j.val < 3 → q.covariance i j = p.covariance i j) ∧
      (∀ i j : Fin 6, 3 ≤ i.val ∨ 3 ≤ j.val → q.covariance i j = (J * newC * Jᵀ) i j) := by
  unfold TrackedInverse.updateWithCartesian at h
  rw [hp.valid, hC.valid] at h
  simp only [Bool.not_true, Bool.false_eq_true, if_false] at h
  obtain ⟨world, hw, h⟩ := Outcome.bind_eq_ok h
  generalize hs : ((cartesianCovariance p.coordinates p.covariance).bind fun K =>
        (staticFilter 3 (1 / 10000)).newState pinv world K point C) = s at h
  cases s with
  | ok a =>
    obtain ⟨x, newC⟩ := a
    obtain ⟨K, hK, hs⟩ := Outcome.bind_eq_ok hs
    have hN := newState_covariance hs
    simp only [hN.valid, if_true, TrackedInverse.store] at h
    obtain ⟨coords, hc, h⟩ := Outcome.bind_eq_ok h
    cases hJ : inverseJacobian x p.coordinates.first with
    | none =>
      rw [hJ] at h
      have e : inverseCovariance newC (firstPoseBlock p.covariance) none = .throws := by
        simp [inverseCovariance]
      rw [e] at h
      simp at h
    | some J =>
      obtain ⟨K', e, hK', _⟩ := inverseCovariance_some hN (firstPoseBlock_isCovariance hp) hJ
      rw [hJ, e] at h
      obtain ⟨-, rfl⟩ := Prod.mk.inj (Outcome.ok.inj h)
      have hval : K' = setFirstPoseBlock (J * newC * Jᵀ) (firstPoseBlock p.covariance) := by
        rw [← propagate_eq' (show newCᵀ = newC by ext i j; exact hN.symm j i)]
        unfold inverseCovariance at e
        simp only at e
        split_ifs at e
        exact (Outcome.ok.inj e).symm
      refine ⟨world, x, K, newC, J, hw, hK, hs, hJ, hc, ?_, ?_⟩
      · intro i j hi hj
        simp [hval, setFirstPoseBlock, firstPoseBlock, hi, hj]
      · intro i j hij
        have : ¬ (i.val < 3 ∧ j.val < 3) := by omega
        simp only [hval, setFirstPoseBlock, Matrix.of_apply, dif_neg this]
  | throws => simp at h
  | exit => simp at h
  | terminate => simp at h
  | ub => simp at h
  | outOfFuel => simp at h

/-- Such updates exist: a new point straight above its first observation, detected two millimetres aside. -/
example : ∃ (p q : TrackedInverse), IsCovariance p.covariance ∧ IsCovariance (1 : Sq 3) ∧
    p.updateWithCartesian (examplePinv 3) ![2, 0, 1] 1 = .ok (true, q) := by
  have cp := initialInverseCovariance_isCovariance (isCovariance_smul_one (n := 3) zero_le_one) zero_le_one
    zero_le_one
  obtain ⟨K, hK, cK⟩ := newState_diagonal (q := 1 / 10000) (by norm_num) (pinv := examplePinv 3)
    (x := ![0, 0, 1]) (z := ![2, 0, 1]) (c := ![2, 1, 2])
    (r := fun _ => 1) (forall_fin3 (by simp) (by simp) (by simp))
    (fun _ => zero_le_one) examplePinv_spec
  have hd1 : (diagonal fun _ => 1 : Sq 3) = 1 := diagonal_one
  rw [hd1] at hK
  generalize hx : (fun i => (![0, 0, 1] : V3) i + ((![2, 1, 2] : V3) i + 1 / 10000) /
      ((![2, 1, 2] : V3) i + 1 / 10000 + (fun _ => 1) i) * ((![2, 0, 1] : V3) i - (![0, 0, 1] : V3) i)) = x at hK
  have hx0 : x 0 ≠ 0 := by
    rw [← hx]; norm_num
  have htw : (verticalPoint 1).toWorld = .ok ![0, 0, 1] := by
    rw [InverseDepth.toWorld, if_neg (show (verticalPoint 1).inverseDepth ≠ 0 from one_ne_zero)]
    simp [verticalPoint]
  have hJ : ∃ J, inverseJacobian x (verticalPoint 1).first = some J := by
    unfold inverseJacobian
    rw [if_neg]
    · exact ⟨_, rfl⟩
    · simp only [verticalPoint, sub_zero]
      have := sq_nonneg (x 1)
      have : 0 < x 0 ^ 2 := by positivity
      linarith
  obtain ⟨J, hJ⟩ := hJ
  obtain ⟨c, hc, _⟩ := Updates.fromCartesian_ok x (verticalPoint 1).first
  obtain ⟨L, hL, cL, _⟩ := inverseCovariance_some cK (firstPoseBlock_isCovariance cp) hJ
  have hv : diagonal ![1 + 1 / 1 ^ 2, 1, 1 + 1 / 1 ^ 4] = (diagonal ![2, 1, 2] : Sq 3) := by
    norm_num
  refine ⟨⟨verticalPoint 1, initialInverseCovariance ((1 : ℝ) • 1) 1 1, false⟩, 
    ⟨c, L, movedBeyond ![0, 0, 1] ![2, 0, 1] 1⟩, cp, isCovariance_one, ?_⟩
  rw [TrackedInverse.updateWithCartesian, isCovariance_one.valid, cp.valid, htw]
  simp only [Bool.not_true, Bool.false_eq_true, if_false, Outcome.bind_ok]
  rw [cartesianCovariance_ok cp, Outcome.bind_ok, vertical_cartesian one_ne_zero zero_le_one zero_le_one zero_le_one,
    hv, hK]
  simp only [cK.valid, if_true, TrackedInverse.store, hc, Outcome.bind_ok, hJ, hL, cL.valid]

end RgbdSlam.Covariance

namespace RgbdSlam.Points2d

open Geometry Covariance

/-- C120: the promotion test answers for every point with an inverse depth, whatever its covariance, valid or not; a
point that is promoted has a valid one. -/
theorem C120_always_answers (p : InverseDepth) (hp : p.inverseDepth ≠ 0) (C : Sq 6) (c2w : M4) :
    ∃ r, computeUpgraded p C c2w = .ok r ∧ (r.isSome = true → isValid C = true) := by
  unfold computeUpgraded linearityScore
  have hw : p.toWorld = .ok (p.first + (p.inverseDepth)⁻¹ • p.bearing) := by
    rw [InverseDepth.toWorld, if_neg hp]
  simp only [hw, Outcome.bind_ok]
  split
  · exact ⟨none, rfl, by simp⟩
  · split_ifs
    · unfold cartesianCovariance
      by_cases hC : isValid C = true
      · simp only [hC, Bool.not_true, Bool.false_eq_true, if_false]
        by_cases hR : isValid (propagate C (worldJacobian p)) = true
        · rw [if_pos hR]; exact ⟨_, rfl, fun _ => trivial⟩
        · rw [if_neg hR]; exact ⟨_, rfl, fun _ => trivial⟩
      · rw [if_pos (by simpa using hC)]
        exact ⟨none, rfl, by simp⟩
    · exact ⟨none, rfl, by simp⟩

end RgbdSlam.Points2d

namespace RgbdSlam.CylinderFit

open Geometry Spec Matrix

/-- C127: the normal of a projected patch is a unit vector orthogonal to the axis, for every patch whose normal is not
along the axis, tangent to a cylinder or not; its centroid is in the plane through the origin orthogonal to the axis. -/
theorem C127_projected_patch {axis : V3} (ha : Unit3 axis) {p : Patch} (hp : projectOut axis p.normal ≠ 0) :
    Unit3 (projectPatch axis p).normal ∧ axis ⬝ᵥ (projectPatch axis p).normal = 0 ∧
      axis ⬝ᵥ (projectPatch axis p).centroid = 0 ∧ ∃ t : ℝ, p.centroid = (projectPatch axis p).centroid + t • axis := by
  unfold Unit3 at ha
  have orth : ∀ v : V3, axis ⬝ᵥ projectOut axis v = 0 := by
    intro v
    rw [projectOut, dotProduct_sub, dotProduct_smul, ha]; simp
  refine ⟨?_, ?_, orth _, axis ⬝ᵥ p.centroid, by simp [projectPatch, projectOut]⟩
  · unfold Unit3 projectPatch
    have hpos : 0 < projectOut axis p.normal ⬝ᵥ projectOut axis p.normal := by
      rcases lt_or_eq_of_le (show 0 ≤ projectOut axis p.normal ⬝ᵥ projectOut axis p.normal by
        simp only [dotProduct]; exact Finset.sum_nonneg fun i _ => mul_self_nonneg _) with h | h
      · exact h
      · exact absurd (dotProduct_self_eq_zero.1 h.symm) hp
    simp only [smul_dotProduct, dotProduct_smul, smul_eq_mul, Geometry.norm]
    have := Real.mul_self_sqrt hpos.le
    have h0 := (Real.sqrt_pos.2 hpos).ne'
    field_simp
    rw [pow_two, this]
  · unfold projectPatch
    simp only [dotProduct_smul, orth, smul_zero]

/-- A patch that is not tangent to a cylinder of vertical axis. -/
example : Unit3 ![0, 0, 1] ∧ projectOut ![0, 0, 1] ![3 / 5, 0, 4 / 5] ≠ 0 := by
  refine ⟨by simp [Unit3], fun h => ?_⟩
  have := congrFun h 0
  simp [projectOut] at this

end RgbdSlam.CylinderFit
