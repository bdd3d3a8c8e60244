import Verif.Props.InverseFusion
import Verif.Props.Updates
import Verif.Props.Points2d
/-
C190: a camera that does not move cannot find out the depth of a point.
-/
namespace RgbdSlam.Covariance

open Matrix Geometry Spec

/-! ## A new point without depth -/

/-- The covariance of a new point, in the world: that of its first pose and `newSpread`. -/
noncomputable def newSpread (p : InverseDepth) (v a : ℝ) : Sq 3 :=
  worldJacobian p * Matrix.diagonal ![0, 0, 0, v, a, a] * (worldJacobian p)ᵀ

theorem cartesian_new {B : Sq 3} (hB : IsCovariance B) {v a : ℝ} (hv : 0 ≤ v) (ha : 0 ≤ a) (p : InverseDepth) :
    cartesianCovariance p (initialInverseCovariance B v a) = .ok (newSpread p v a + B) := by
  have hC := initialInverseCovariance_isCovariance hB hv ha
  rw [cartesianCovariance_ok hC, propagate_eq' hC.transpose_eq, initialInverseCovariance, setFirstPoseBlock_eq, Matrix.mul_add,
    Matrix.add_mul]
  · have a2 : worldJacobian p * (poseEmbedding * B * poseEmbeddingᵀ) * (worldJacobian p)ᵀ =
        (worldJacobian p * poseEmbedding) * B * (worldJacobian p * poseEmbedding)ᵀ := by
      rw [transpose_mul]; simp only [Matrix.mul_assoc]
    rw [a2, worldJacobian_pose]
    simp [newSpread]
  · rintro i j ⟨hi, hj⟩
    by_cases e : i = j
    · subst e
      rw [diagonal_apply_eq]
      fin_cases i <;> simp_all
    · rw [diagonal_apply_ne _ e]

theorem newSpread_isCovariance {v a : ℝ} (hv : 0 ≤ v) (ha : 0 ≤ a) (p : InverseDepth) : IsCovariance (newSpread p v a) :=
  (isCovariance_diagonal fun i => by fin_cases i <;> simp [hv, ha]).conj _

/-- The depth is what a new point does not know. -/
theorem variance_newSpread {v a : ℝ} {p : InverseDepth} {y : V3}
    (hb : p.bearing = Spherical.toCartesian { p := 1, theta := p.theta, phi := p.phi }) :
    ∃ t f, variance (newSpread p v a) y = v / p.inverseDepth ^ 4 * (p.bearing ⬝ᵥ y) ^ 2 + a * t ^ 2 + a * f ^ 2 ∧
      (y = p.bearing → t = 0 ∧ f = 0) := by
  refine ⟨((worldJacobian p)ᵀ *ᵥ y) 4, ((worldJacobian p)ᵀ *ᵥ y) 5, ?_, ?_⟩
  · rw [newSpread, variance_conj, variance_eq]
    have h3 : ((worldJacobian p)ᵀ *ᵥ y) 3 = -(p.bearing ⬝ᵥ y) / p.inverseDepth ^ 2 := by
      rw [hb]
      simp [worldJacobian, worldJacobianBlock, mulVec, dotProduct, Fin.sum_univ_three, Spherical.toCartesian]
      ring
    simp only [mulVec_diagonal, dotProduct, Fin.sum_univ_six]
    simp only [h3, cons_val_zero, cons_val_one, cons_val]
    simp only [dotProduct]
    ring
  · rintro rfl
    rw [hb]
    constructor <;>
      simp [worldJacobian, worldJacobianBlock, mulVec, dotProduct, Fin.sum_univ_three, Spherical.toCartesian] <;>
      ring_nf
    · have h1 := Real.sin_sq_add_cos_sq p.phi
      have e : Real.cos p.phi ^ 2 * Real.cos p.theta * p.inverseDepth⁻¹ * Real.sin p.theta + 
        Real.cos p.theta * p.inverseDepth⁻¹ * Real.sin p.theta * Real.sin p.phi ^ 2 - 
        Real.cos p.theta * p.inverseDepth⁻¹ * Real.sin p.theta =
        Real.cos p.theta * p.inverseDepth⁻¹ * Real.sin p.theta * (Real.sin p.phi ^ 2 + Real.cos p.phi ^ 2 - 1) := by ring
      rw [h1] at e
      linarith

/-! ## One more look from the same place -/

theorem variance_scaled {n : ℕ} (C : Sq n) (t : ℝ) (y : Fin n → ℝ) : variance C (t • y) = t ^ 2 * variance C y := by
  rw [variance_eq, variance_eq, mulVec_smul, smul_dotProduct, dotProduct_smul, smul_eq_mul, smul_eq_mul]
  ring

theorem variance_single {n : ℕ} (C : Sq n) (i : Fin n) : variance C (Pi.single i 1) = C i i := by
  rw [variance_eq]; simp

theorem variance_bounded {n : ℕ} (C : Sq n) (y : Fin n → ℝ) : variance C y ≤ (∑ i, ∑ j, |C i j|) * ∑ i, y i ^ 2 := by
  unfold variance
  rw [Finset.sum_mul]
  refine Finset.sum_le_sum fun i _ => ?_
  rw [Finset.sum_mul]
  refine Finset.sum_le_sum fun j _ => ?_
  have h : ∀ k, y k ^ 2 ≤ ∑ i, y i ^ 2 := fun k => Finset.single_le_sum (f := fun i => y i ^ 2) (fun i _ => sq_nonneg _) (Finset.mem_univ k)
  have hab : |y i * y j| ≤ ∑ i, y i ^ 2 := by
    have := h i
    have := h j
    rw [abs_le]
    constructor <;> nlinarith [sq_nonneg (y i - y j), sq_nonneg (y i + y j)]
  calc _ ≤ |C i j| * |y i * y j| := by rw [← abs_mul]; refine le_trans (le_of_eq ?_) (le_abs_self _); ring
    _ ≤ _ := mul_le_mul_of_nonneg_left hab (abs_nonneg _)

/-- A point first seen from `o` in the direction `u`, placed two metres away, known in the direction `u` with a variance from `lo`
to `hi`, besides that of the place it was first seen from. -/
structure Blind (o u : V3) (B : Sq 3) (lo hi : ℝ) (p : TrackedInverse) : Prop where
  cov : IsCovariance p.covariance
  first : p.coordinates.first = o
  inv : p.coordinates.inverseDepth = 1 / 2000
  bearing : p.coordinates.bearing = u
  pose : firstPoseBlock p.covariance = B
  place : p.coordinates.toWorld = .ok (o + (2000 : ℝ) • u)
  spread : ∃ N, IsCovariance N ∧ cartesianCovariance p.coordinates p.covariance = .ok (N + B) ∧
    p.covariance 3 3 = variance N u * (1 / 2000) ^ 4 ∧ (∀ y, lo * (u ⬝ᵥ y) ^ 2 ≤ variance N y) ∧ variance N u ≤ hi

theorem blind_step {o u : V3} (hu : u ⬝ᵥ u = 1) (hna : ¬ Spec.Above (o + (2000 : ℝ) • u) o) {B R : Sq 3} (hB : IsCovariance B)
    (hR : IsCovariance R) (pinv : Sq 3 → Sq 3) (hpinv : ∀ S, IsCovariance S → IsPseudoInverse S (pinv S)) {lo hi m r b : ℝ}
    (hlo : 0 < lo) (hm : 0 < m) (hRm : ∀ y, m * (u ⬝ᵥ y) ^ 2 ≤ variance R y) (hRr : variance R u ≤ r) (hb : variance B u ≤ b)
    {p : TrackedInverse} (hp : Blind o u B lo hi p) (l : ℝ) :
    ∃ q, p.updateWithCartesian pinv (o + (2000 : ℝ) • u) R = .ok (true, q) ∧
      Blind o u B (lo * m / (lo + m)) ((1 - l) ^ 2 * (hi + b + 1 / 10000) + l ^ 2 * r) q := by
  obtain ⟨hC, hf, hi0, hbe, hpo, hpl, N, hN, hK, h33, hN1, hN2⟩ := hp
  have cK : IsCovariance (N + B) := hN.add hB
  obtain ⟨x, N', G, hx, cN', -, h3, -, h4, -⟩ := static_step (by norm_num : (0 : ℝ) ≤ 1 / 10000) pinv hpinv (o + (2000 : ℝ) • u)
    (o + (2000 : ℝ) • u) cK hR
  rw [sub_self, mulVec_zero, add_zero] at h3
  subst h3
  obtain ⟨x', N'', G', hx', -, -, -, -, -, h7⟩ := C35_update (staticFilter 3 (1 / 10000)) pinv (o + (2000 : ℝ) • u)
    (o + (2000 : ℝ) • u) cK hR (isCovariance_smul_one (by norm_num)) hpinv
  rw [hx] at hx'
  obtain ⟨-, rfl⟩ := Prod.mk.inj (Outcome.ok.inj hx')
  obtain ⟨bb, q, hup, hqf, -, hyes⟩ := inverse_step p hC hpl hK pinv _ hR hx
  rw [hf] at hyes hqf
  obtain ⟨rfl, cq, hq2, hq3, hq4⟩ := hyes hna
  rw [hpo] at hq3 hq4
  obtain ⟨w, x2, K2, N2, J, e1, e2, e3, e4, e5, -, e7⟩ := C55_inverse_depth_updated p q hC pinv _ R hR hup
  rw [hpl] at e1; rw [hK] at e2
  rw [← Outcome.ok.inj e1, ← Outcome.ok.inj e2, hx] at e3
  obtain ⟨rfl, rfl⟩ := Prod.mk.inj (Outcome.ok.inj e3)
  rw [hf] at e4 e5
  have hsub : o + (2000 : ℝ) • u - o = (2000 : ℝ) • u := by abel
  have hnorm : Geometry.norm ((2000 : ℝ) • u) = 2000 := by
    rw [Geometry.norm, smul_dotProduct, dotProduct_smul, hu]
    rw [show (2000 : ℝ) • (2000 : ℝ) • (1 : ℝ) = 2000 ^ 2 by norm_num]
    exact Real.sqrt_sq (by norm_num)
  have hinv : q.coordinates.inverseDepth = 1 / 2000 := by
    rw [(fromCartesian_fields e5).2.1, hsub, hnorm]
  refine ⟨q, hup, cq, hqf, hinv, ?_, hq3, hq2, N', cN', hq4, ?_, ?_, ?_⟩
  · have hw := hq2
    rw [InverseDepth.toWorld, if_neg (by rw [hinv]; norm_num), hinv, hqf] at hw
    have := add_left_cancel (Outcome.ok.inj hw)
    rw [show ((1 : ℝ) / 2000)⁻¹ = 2000 by norm_num] at this
    exact smul_right_injective V3 (by norm_num : (2000 : ℝ) ≠ 0) this
  · rw [e7 3 3 (by simp), ← variance_single (J * N' * Jᵀ) 3, variance_conj]
    have hrow : Jᵀ *ᵥ Pi.single 3 1 = (-(1 / 2000 ^ 2 : ℝ)) • u := by
      rw [inverseJacobian, hsub] at e4
      split_ifs at e4 with h0
      rw [← Option.some.inj e4]
      have hsq : (2000 * u 0) ^ 2 + (2000 * u 1) ^ 2 + (2000 * u 2) ^ 2 = 2000 ^ 2 := by
        simp only [dotProduct, Fin.sum_univ_three] at hu
        nlinarith
      ext j
      simp only [mulVec_single_one, col_apply, transpose_apply, Matrix.of_apply]
      fin_cases j <;>
        simp [inverseJacobianBlock, hsq] <;> ring_nf
    rw [hrow, variance_scaled]
    ring
  · intro y
    have ey : u ⬝ᵥ y = u ⬝ᵥ ((1 - G)ᵀ *ᵥ y) + u ⬝ᵥ (Gᵀ *ᵥ y) := by
      rw [← dotProduct_add, ← add_mulVec, ← transpose_add, sub_add_cancel, transpose_one, one_mulVec]
    rw [h4, variance_add ((1 - G) * (N + B + (1 / 10000 : ℝ) • (1 : Sq 3)) * (1 - G)ᵀ), variance_conj, variance_conj, variance_add,
      variance_add, variance_smul_one, ey]
    have a1 := hN1 ((1 - G)ᵀ *ᵥ y)
    have a2 := hRm (Gᵀ *ᵥ y)
    have a3 := hB.nonneg ((1 - G)ᵀ *ᵥ y)
    have a4 : 0 ≤ ((1 - G)ᵀ *ᵥ y) ⬝ᵥ ((1 - G)ᵀ *ᵥ y) := by
      rw [dotProduct]; exact Finset.sum_nonneg fun i _ => mul_self_nonneg _
    generalize u ⬝ᵥ ((1 - G)ᵀ *ᵥ y) = s at a1 ⊢
    generalize u ⬝ᵥ (Gᵀ *ᵥ y) = t at a2 ⊢
    have key : lo * m / (lo + m) * (s + t) ^ 2 ≤ lo * s ^ 2 + m * t ^ 2 := by
      rw [div_mul_eq_mul_div, div_le_iff₀ (by positivity)]
      nlinarith [sq_nonneg (lo * s - m * t)]
    linarith
  · have h := h7 (l • 1) u
    simp only [staticFilter, errorCovariance, Matrix.one_mul, Matrix.mul_one, transpose_one] at h
    have e1 : (1 : Sq 3) - l • (1 : Sq 3) = (1 - l) • (1 : Sq 3) := by rw [sub_smul, one_smul]
    rw [e1, variance_add ((1 - l) • (1 : Sq 3) * _ * _), variance_conj, variance_conj, transpose_smul, transpose_smul, transpose_one,
      smul_mulVec, smul_mulVec, one_mulVec, variance_scaled, variance_scaled, variance_add, variance_add, variance_smul_one, hu] at h
    have s1 := sq_nonneg (1 - l)
    have s2 := sq_nonneg l
    have k1 : (1 - l) ^ 2 * (variance N u + variance B u + 1 / 10000 * 1) ≤ (1 - l) ^ 2 * (hi + b + 1 / 10000) :=
      mul_le_mul_of_nonneg_left (by linarith) s1
    have k2 : l ^ 2 * variance R u ≤ l ^ 2 * r := mul_le_mul_of_nonneg_left hRr s2
    linarith

end RgbdSlam.Covariance

namespace RgbdSlam.Updates

open Geometry Covariance Covariance.Spec Points2d Points2d.Spec Matrix
open Keypoints (Detected Kp)
open Map (depthValid)

variable {Desc : Type}

/-! ## C190 -/

/-- A point of the line of sight of the pixel `s`, in front of the camera. -/
noncomputable def Spec.sightPoint (c : Camera) (s : V2) : V3 :=
  pointToWorld c.c2w ![(s 0 - c.cx) / c.fx, (s 1 - c.cy) / c.fy, 1]

/-- A keypoint without depth becomes a map point (it is seen for the first time: 0), then it is seen again `n` times at the
same pixel, again without depth, by a camera that does not move: `b` is the map point then.  -/
def Spec.Watched (pinv : Sq 3 → Sq 3) (c : Camera) (d : ℕ → Detected Desc) : ℕ → InverseBody Desc → Prop
  | 0, b => newPoint2d c (d 0) = some b
  | n + 1, b => ∃ a, Spec.Watched pinv c d n a ∧ updatePoint2d pinv c (d (n + 1)) a = .ok (b, true)

theorem unit_toCartesian (t f : ℝ) : Spherical.toCartesian ⟨1, t, f⟩ ⬝ᵥ Spherical.toCartesian ⟨1, t, f⟩ = 1 := by
  simp only [Spherical.toCartesian, dotProduct, Fin.sum_univ_three, cons_val_zero, cons_val_one, cons_val]
  nlinarith [Real.sin_sq_add_cos_sq t, Real.sin_sq_add_cos_sq f]

theorem newInverse_blind {c : Camera} (hp : IsCovariance c.pose) (hfx : c.fx ≠ 0) (hfy : c.fy ≠ 0) (s : V2)
    (hs : Spec.sightPoint c s ≠ translation c.c2w) :
    ∃ u : V3, u ⬝ᵥ u = 1 ∧
      (¬ Above (Spec.sightPoint c s) (translation c.c2w) → ¬ Above (translation c.c2w + (2000 : ℝ) • u) (translation c.c2w)) ∧
      (∃ t : ℝ, 0 < t ∧ Spec.sightPoint c s = translation c.c2w + t • u) ∧
      ∃ t N, Blind (translation c.c2w) u c.pose (10 ^ 6) (10 ^ 6) t ∧ IsCovariance N ∧ (∀ y, 10 ^ 6 * (u ⬝ᵥ y) ^ 2 ≤ variance N y) ∧
        variance N u ≤ 10 ^ 6 ∧ observe c s = .ok (translation c.c2w + (2000 : ℝ) • u, N + c.pose) ∧
        ∀ (Desc : Type) (desc : Option Desc), newInverse c s desc = .ok ⟨t, desc⟩ := by
  have hv : (0 : ℝ) ≤ (1 / 1000 / 4) ^ 2 := by positivity
  have ha : (0 : ℝ) ≤ (1 / 2 * (Real.pi / 180)) ^ 2 := by positivity
  have hC := initialInverseCovariance_isCovariance hp hv ha
  obtain ⟨p0, hp0, hf0, -⟩ := fromCartesian_ok (Spec.sightPoint c s) (translation c.c2w)
  obtain ⟨-, -, ht0, hph0⟩ := fromCartesian_fields hp0
  have hb0 : p0.bearing = Spherical.toCartesian ⟨1, p0.theta, p0.phi⟩ := by
    simp only [InverseDepth.fromCartesian] at hp0
    generalize hm : InverseDepth.make (translation c.c2w) _ _ _ = m at hp0
    cases m <;> simp only [Outcome.noexcept, Outcome.map, Outcome.bind, Outcome.ok.injEq, reduceCtorEq] at hp0
    subst hp0
    unfold InverseDepth.make at hm
    split_ifs at hm
    rw [← Outcome.ok.inj hm]
  have hof : InverseDepth.ofScreen c.K s c.c2w = .ok { p0 with inverseDepth := 1 / 1000 / 2, infinite := false } := by
    unfold InverseDepth.ofScreen InverseDepth.ofCamera
    rw [Camera.K, screenToCamera2_eq hfx hfy]
    simp only [cons_val_zero, cons_val_one]
    have := hp0
    unfold Spec.sightPoint at this
    rw [this]
    rfl
  set p : InverseDepth := { p0 with inverseDepth := 1 / 1000 / 2, infinite := false } with hpdef
  set C := initialInverseCovariance c.pose ((1 / 1000 / 4) ^ 2) ((1 / 2 * (Real.pi / 180)) ^ 2) with hCdef
  have hnew : ∀ (Desc : Type) (desc : Option Desc), newInverse c s desc = .ok ⟨⟨p, C, false⟩, desc⟩ := by
    intro Desc desc
    unfold newInverse
    rw [hof]
    simp only [Outcome.bind, hp.valid, ← hCdef, hC.valid]
    rfl
  have hunit : p.bearing ⬝ᵥ p.bearing = 1 := by
    show p0.bearing ⬝ᵥ p0.bearing = 1
    rw [hb0]; exact unit_toCartesian _ _
  have hplace : p.toWorld = .ok (translation c.c2w + (2000 : ℝ) • p.bearing) := by
    rw [InverseDepth.toWorld, if_neg (show p.inverseDepth ≠ 0 by simp [hpdef])]
    rw [show p.inverseDepth⁻¹ = 2000 by norm_num [hpdef], show p.first = translation c.c2w from hf0]
  obtain ⟨len, hlen, hray⟩ : ∃ t : ℝ, 0 < t ∧ Spec.sightPoint c s = translation c.c2w + t • p.bearing := by
    have hne : Spec.sightPoint c s - translation c.c2w ≠ 0 := sub_ne_zero.2 hs
    refine ⟨Geometry.norm (Spec.sightPoint c s - translation c.c2w), norm_pos hne, ?_⟩
    have h := toCartesian_ofCartesian (Spec.sightPoint c s - translation c.c2w)
    have e : Geometry.norm (Spec.sightPoint c s - translation c.c2w) • p.bearing =
        Spherical.toCartesian (Spherical.ofCartesian (Spec.sightPoint c s - translation c.c2w)) := by
      show _ • p0.bearing = _
      rw [hb0, ht0, hph0]
      ext i
      fin_cases i <;> simp [Spherical.toCartesian, Spherical.ofCartesian] <;> ring
    rw [e, h]
    abel
  have hcart := cartesian_new hp hv ha p
  have hbear : p.bearing = Spherical.toCartesian { p := 1, theta := p.theta, phi := p.phi } := hb0
  have hcoef : ((1 / 1000 / 4) ^ 2 : ℝ) / p.inverseDepth ^ 4 = 10 ^ 6 := by norm_num [hpdef]
  have hlow : ∀ y, 10 ^ 6 * (p.bearing ⬝ᵥ y) ^ 2 ≤ variance (newSpread p ((1 / 1000 / 4) ^ 2) ((1 / 2 * (Real.pi / 180)) ^ 2)) y := by
    intro y
    obtain ⟨t, f, h, -⟩ := variance_newSpread (v := (1 / 1000 / 4) ^ 2) (a := (1 / 2 * (Real.pi / 180)) ^ 2) (p := p) (y := y) hbear
    rw [h, hcoef]
    have := mul_nonneg ha (sq_nonneg t)
    have := mul_nonneg ha (sq_nonneg f)
    linarith
  have hself : variance (newSpread p ((1 / 1000 / 4) ^ 2) ((1 / 2 * (Real.pi / 180)) ^ 2)) p.bearing = 10 ^ 6 := by
    obtain ⟨t, f, h, h0⟩ := variance_newSpread (v := (1 / 1000 / 4) ^ 2) (a := (1 / 2 * (Real.pi / 180)) ^ 2) (p := p)
      (y := p.bearing) hbear
    obtain ⟨rfl, rfl⟩ := h0 rfl
    rw [h, hcoef, hunit]
    norm_num
  have cN := newSpread_isCovariance hv ha p
  refine ⟨p.bearing, hunit, ?_, ⟨len, hlen, hray⟩, ⟨p, C, false⟩, _,
    ⟨hC, hf0, by norm_num [hpdef], rfl, ?_, hplace, _, cN, hcart, ?_, hlow, hself.le⟩, cN, hlow, hself.le, ?_, hnew⟩
  · intro hs' h
    apply hs'
    rw [hray]
    obtain ⟨h0, h1⟩ := h
    simp only [Pi.add_apply, Pi.smul_apply, smul_eq_mul, add_eq_left, mul_eq_zero, OfNat.ofNat_ne_zero, false_or] at h0 h1
    exact ⟨by simp [h0], by simp [h1]⟩
  · show firstPoseBlock C = c.pose
    rw [hCdef]
    ext i j
    simp [firstPoseBlock, initialInverseCovariance, setFirstPoseBlock]
  · rw [hself]
    show C 3 3 = _
    rw [hCdef]
    simp [initialInverseCovariance, setFirstPoseBlock]
    norm_num
  · unfold observe
    rw [hnew]
    simp only [Outcome.bind, hplace, Outcome.map]
    have := hcart
    rw [← hCdef] at this
    rw [this]

theorem watched_blind {pinv : Sq 3 → Sq 3} (hpinv : ∀ S, IsCovariance S → IsPseudoInverse S (pinv S)) {c : Camera}
    (hp : IsCovariance c.pose) (hfx : c.fx ≠ 0) (hfy : c.fy ≠ 0) {b : ℝ} (hb : ∀ y, variance c.pose y ≤ b * ∑ i, y i ^ 2) {s : V2}
    (hs : ¬ Above (Spec.sightPoint c s) (translation c.c2w)) {d : ℕ → Detected Desc}
    (hd : ∀ n, screenPoint2 (d n).kp = s ∧ depthValid (d n).kp.depth = false) :
    ∃ u : V3, u ⬝ᵥ u = 1 ∧ (∃ t : ℝ, 0 < t ∧ Spec.sightPoint c s = translation c.c2w + t • u) ∧
      ∀ n, ∃ a, Spec.Watched pinv c d n a ∧
        Blind (translation c.c2w) u c.pose (10 ^ 6 / (n + 1)) ((10 ^ 6 + b) / (n + 1) + n * (b + 1 / 10000)) a.tracked := by
  obtain ⟨u, hu, hna, hray, t0, N, hbl, cN, hlow, hself, hobs, hnew⟩ := newInverse_blind hp hfx hfy s
    (fun h => hs (by rw [h]; exact ⟨rfl, rfl⟩))
  replace hna := hna hs
  have hbu : variance c.pose u ≤ b := by
    have := hb u
    have e : ∑ i, u i ^ 2 = 1 := by rw [← hu]; simp only [dotProduct, sq]
    rwa [e, mul_one] at this
  have hb0 : 0 ≤ b := (hp.nonneg u).trans hbu
  refine ⟨u, hu, hray, fun n => ?_⟩
  induction n with
  | zero =>
    refine ⟨⟨t0, (d 0).desc⟩, ?_, ?_⟩
    · show newPoint2d c (d 0) = _
      unfold newPoint2d
      rw [(hd 0).1, hnew]
    · obtain ⟨h1, h2, h3, h4, h5, h6, M, h7, h8, h9, h10, h11⟩ := hbl
      refine ⟨h1, h2, h3, h4, h5, h6, M, h7, h8, h9, ?_, ?_⟩
      · simpa using h10
      · refine h11.trans ?_
        norm_num
        linarith
  | succ n ih =>
    obtain ⟨a, ha, hblind⟩ := ih
    have hn : (0 : ℝ) < n + 1 := by positivity
    have hR : ∀ y, 10 ^ 6 * (u ⬝ᵥ y) ^ 2 ≤ variance (N + c.pose) y := fun y => by
      rw [variance_add]
      have := hlow y
      have := hp.nonneg y
      linarith
    have hRu : variance (N + c.pose) u ≤ 10 ^ 6 + b := by rw [variance_add]; linarith
    obtain ⟨q, hq, hq'⟩ := blind_step hu hna hp (cN.add hp) pinv hpinv (show (0 : ℝ) < 10 ^ 6 / (n + 1) by positivity)
      (by norm_num : (0 : ℝ) < 10 ^ 6) hR hRu hbu hblind (1 / (n + 2))
    refine ⟨⟨q, newest (d (n + 1)).desc a.desc⟩, ⟨a, ha, ?_⟩, ?_⟩
    · unfold updatePoint2d
      rw [(hd (n + 1)).2, (hd (n + 1)).1, hobs]
      simp only [Bool.false_eq_true, if_false, Outcome.bind, InverseBody.merge, hq, Outcome.map, if_true, caught, Outcome.noexcept]
    · obtain ⟨h1, h2, h3, h4, h5, h6, M, h7, h8, h9, h10, h11⟩ := hq'
      refine ⟨h1, h2, h3, h4, h5, h6, M, h7, h8, h9, fun y => ?_, h11.trans ?_⟩
      · refine le_trans (le_of_eq ?_) (h10 y)
        congr 1
        push_cast
        field_simp
        ring
      · push_cast
        have e : (1 - 1 / ((n : ℝ) + 2)) ^ 2 * ((10 ^ 6 + b) / (n + 1) + n * (b + 1 / 10000) + b + 1 / 10000) +
            (1 / ((n : ℝ) + 2)) ^ 2 * (10 ^ 6 + b) =
            (10 ^ 6 + b) / (n + 1 + 1) + ((n + 1) / (n + 2)) ^ 2 * ((n + 1) * (b + 1 / 10000)) := by
          field_simp
          ring
        rw [e]
        have hq1 : ((n : ℝ) + 1) / (n + 2) ≤ 1 := by rw [div_le_one (by positivity)]; linarith
        have hq0 : 0 ≤ ((n : ℝ) + 1) / (n + 2) := by positivity
        have hle : (((n : ℝ) + 1) / (n + 2)) ^ 2 ≤ 1 := pow_le_one₀ hq0 hq1
        have hpos : 0 ≤ ((n : ℝ) + 1) * (b + 1 / 10000) := by positivity
        have := mul_le_mul_of_nonneg_right hle hpos
        linarith

/-- The map point of a number of looks is determined. -/
theorem watched_unique {pinv : Sq 3 → Sq 3} {c : Camera} {d : ℕ → Detected Desc} {n : ℕ} : ∀ {a b : InverseBody Desc},
    Spec.Watched pinv c d n a → Spec.Watched pinv c d n b → a = b := by
  induction n with
  | zero =>
    intro a b ha hb
    exact Option.some.inj (Eq.trans (Eq.symm ha) hb)
  | succ n ih =>
    rintro a b ⟨a', ha, ha'⟩ ⟨b', hb, hb'⟩
    rw [ih ha hb, hb'] at ha'
    exact (Prod.mk.inj (Outcome.ok.inj ha')).1.symm

/-- When a point placed two metres away on its line of sight is promoted. -/
theorem blind_promoted {c : Camera} {u : V3} (hu : u ⬝ᵥ u = 1) {lo hi : ℝ} {p : TrackedInverse}
    (hp : Blind (translation c.c2w) u c.pose lo hi p) :
    (2500 ≤ lo → computeUpgraded p.coordinates p.covariance c.c2w = .ok none) ∧
    (hi < 2500 → ∃ R, computeUpgraded p.coordinates p.covariance c.c2w = .ok (some (translation c.c2w + (2000 : ℝ) • u, R))) ∧
    dist3 (translation c.c2w + (2000 : ℝ) • u) (translation c.c2w) = 2000 ∧
    (computeUpgraded p.coordinates p.covariance c.c2w = .ok none ∨
      ∃ R, computeUpgraded p.coordinates p.covariance c.c2w = .ok (some (translation c.c2w + (2000 : ℝ) • u, R))) := by
  obtain ⟨hC, hf, hi0, hbe, hpo, hpl, N, hN, hK, h33, hN1, hN2⟩ := hp
  have hsq : u 0 ^ 2 + u 1 ^ 2 + u 2 ^ 2 = 1 := by
    rw [← hu]; simp only [dotProduct, Fin.sum_univ_three, sq]
  have hd : dist3 (translation c.c2w + (2000 : ℝ) • u) (translation c.c2w) = 2000 := by
    unfold dist3
    simp only [Pi.add_apply, Pi.smul_apply, smul_eq_mul, add_sub_cancel_left]
    rw [show (2000 * u 0) ^ 2 + (2000 * u 1) ^ 2 + (2000 * u 2) ^ 2 = 2000 ^ 2 by nlinarith]
    exact Real.sqrt_sq (by norm_num)
  have hcos : cosSight u (translation c.c2w) (translation c.c2w + (2000 : ℝ) • u) = 1 := by
    unfold cosSight
    rw [hd]
    simp only [Pi.add_apply, Pi.smul_apply, smul_eq_mul, add_sub_cancel_left]
    rw [div_eq_one_iff_eq (by norm_num)]
    nlinarith
  have hne : translation c.c2w + (2000 : ℝ) • u ≠ translation c.c2w := fun h => by
    rw [h] at hd
    simp [dist3] at hd
  obtain ⟨-, h1, h2⟩ := C120_promoted_partial (p := p.coordinates) (C := p.covariance) (c2w := c.c2w)
    (x := translation c.c2w + (2000 : ℝ) • u) (by rw [hi0]; norm_num) hC
    (by rw [hf, hi0, hbe]; funext i; simp; ring) hne
  rw [hbe, hcos, hd, hi0, h33] at h1 h2
  have hv0 := hN.nonneg u
  have hs : Real.sqrt (variance N u * (1 / 2000) ^ 4) / (1 / 2000) ^ 2 * |(1 : ℝ)| = Real.sqrt (variance N u) := by
    rw [Real.sqrt_mul hv0, show ((1 : ℝ) / 2000) ^ 4 = ((1 / 2000) ^ 2) ^ 2 by norm_num, Real.sqrt_sq (by norm_num), abs_one, mul_one,
      mul_div_assoc, div_self (by norm_num), mul_one]
  rw [hs] at h1 h2
  have h50 : (2000 : ℝ) / 40 = Real.sqrt 2500 := by
    rw [show (2500 : ℝ) = 50 ^ 2 by norm_num, Real.sqrt_sq (by norm_num)]; norm_num
  rw [h50] at h1 h2
  refine ⟨fun h => h2 (not_lt.2 (Real.sqrt_le_sqrt ?_)), fun h => h1 (Real.sqrt_lt_sqrt hv0 (lt_of_le_of_lt hN2 h)), hd,
    (em _).elim (fun h => Or.inr (h1 h)) fun h => Or.inl (h2 h)⟩
  have := hN1 u
  rw [hu] at this
  linarith

/-- C190 (partial: only for the first 400 looks, that is 13 seconds at 30 frames per second): a point that was never seen with a
depth is not promoted to a 3D point while the camera has not moved. -/
theorem C190_depth_unknown_partial {pinv : Sq 3 → Sq 3} (hpinv : ∀ S, IsCovariance S → IsPseudoInverse S (pinv S)) {c : Camera}
    (hp : IsCovariance c.pose) (hfx : c.fx ≠ 0) (hfy : c.fy ≠ 0) {s : V2} (hs : ¬ Above (Spec.sightPoint c s) (translation c.c2w))
    {d : ℕ → Detected Desc} (hd : ∀ n, screenPoint2 (d n).kp = s ∧ depthValid (d n).kp.depth = false) {n : ℕ} (hn : n < 400)
    {a : InverseBody Desc} (ha : Spec.Watched pinv c d n a) :
    computeUpgraded a.tracked.coordinates a.tracked.covariance c.c2w = .ok none := by
  obtain ⟨b, hb⟩ : ∃ b : ℝ, ∀ y : V3, variance c.pose y ≤ b * ∑ i, y i ^ 2 :=
    ⟨_, variance_bounded c.pose⟩
  obtain ⟨u, hu, -, h⟩ := watched_blind hpinv hp hfx hfy hb hs hd
  obtain ⟨a', ha', hbl⟩ := h n
  rw [watched_unique ha ha']
  refine (blind_promoted hu hbl).1 ?_
  rw [le_div_iff₀ (by positivity)]
  have : (n : ℝ) + 1 ≤ 400 := by exact_mod_cast hn
  linarith

/-- C190 is false: whatever the point is, and whatever its true distance, a camera that does not move and whose position is known
to a millimetre makes of it a 3D point two metres away, after 800 looks or less. -/
theorem C190_depth_unknown_false {pinv : Sq 3 → Sq 3} (hpinv : ∀ S, IsCovariance S → IsPseudoInverse S (pinv S)) {c : Camera}
    (hp : IsCovariance c.pose) (hfx : c.fx ≠ 0) (hfy : c.fy ≠ 0) (hb : ∀ y, variance c.pose y ≤ ∑ i, y i ^ 2) {s : V2}
    (hs : ¬ Above (Spec.sightPoint c s) (translation c.c2w)) {d : ℕ → Detected Desc}
    (hd : ∀ n, screenPoint2 (d n).kp = s ∧ depthValid (d n).kp.depth = false) :
    ∃ n, n ≤ 800 ∧ (∀ m < n, ∀ a, Spec.Watched pinv c d m a →
        computeUpgraded a.tracked.coordinates a.tracked.covariance c.c2w = .ok none) ∧
      ∃ a x R, Spec.Watched pinv c d n a ∧
        computeUpgraded a.tracked.coordinates a.tracked.covariance c.c2w = .ok (some (x, R)) ∧
        dist3 x (translation c.c2w) = 2000 ∧
        ∃ t : ℝ, 0 < t ∧ ∀ i, x i - translation c.c2w i = t * (Spec.sightPoint c s i - translation c.c2w i) := by
  obtain ⟨u, hu, ⟨len, hlen, hray⟩, h⟩ := watched_blind hpinv hp hfx hfy (b := 1) (by simpa using hb) hs hd
  have hex : ∃ n, ∃ a R, Spec.Watched pinv c d n a ∧
      computeUpgraded a.tracked.coordinates a.tracked.covariance c.c2w =
        .ok (some (translation c.c2w + (2000 : ℝ) • u, R)) := by
    obtain ⟨a, ha, hbl⟩ := h 800
    obtain ⟨R, hR⟩ := (blind_promoted hu hbl).2.1 (by norm_num)
    exact ⟨800, a, R, ha, hR⟩
  have h800 : ∃ a R, Spec.Watched pinv c d 800 a ∧
      computeUpgraded a.tracked.coordinates a.tracked.covariance c.c2w =
        .ok (some (translation c.c2w + (2000 : ℝ) • u, R)) := by
    obtain ⟨a, ha, hbl⟩ := h 800
    obtain ⟨R, hR⟩ := (blind_promoted hu hbl).2.1 (by norm_num)
    exact ⟨a, R, ha, hR⟩
  classical
  obtain ⟨a, R, ha, hR⟩ := Nat.find_spec hex
  refine ⟨Nat.find hex, Nat.find_min' hex h800, fun m hm a' ha' => ?_, a, _, R, ha, hR, ?_, 2000 / len, by positivity, fun i => ?_⟩
  · obtain ⟨a2, ha2, hbl⟩ := h m
    obtain rfl := watched_unique ha' ha2
    rcases (blind_promoted hu hbl).2.2.2 with h0 | ⟨R', h0⟩
    · exact h0
    · exact absurd ⟨a', R', ha', h0⟩ (Nat.find_min hex hm)
  · obtain ⟨a2, -, hbl⟩ := h 0
    exact (blind_promoted hu hbl).2.2.1
  · rw [hray]
    simp only [Pi.add_apply, Pi.smul_apply, smul_eq_mul, add_sub_cancel_left]
    field_simp

/-- Such a camera: at the origin of the world, looking along the first axis, its position known exactly; the pixel is the centre of
the image, where the keypoint has no depth. -/
example : ∃ (c : Camera) (d : ℕ → Detected Unit), IsCovariance c.pose ∧ c.fx ≠ 0 ∧ c.fy ≠ 0 ∧
    (∀ y, variance c.pose y ≤ ∑ i, y i ^ 2) ∧ ¬ Above (Spec.sightPoint c ![320, 240]) (translation c.c2w) ∧
    ∀ n, screenPoint2 (d n).kp = ![320, 240] ∧ depthValid (d n).kp.depth = false := by
  refine ⟨exampleCamera, fun _ => ⟨⟨⟨320, 240⟩, 0⟩, none⟩, isCovariance_one, by simp [exampleCamera], by simp [exampleCamera],
    fun y => ?_, fun h => ?_, fun _ => ⟨by norm_num [screenPoint2], (by decide +kernel : depthValid 0 = false)⟩⟩
  · show variance (1 : Sq 3) y ≤ _
    rw [← one_smul ℝ (1 : Sq 3), variance_smul_one, one_mul]
    simp only [dotProduct, sq]
    rfl
  · have h0 := h.1
    simp [Spec.sightPoint, exampleCamera, pointToWorld, cameraToWorld_eq, translation, homogeneous, axesRotation, transformation,
      Quat.toRotationMatrix, mulVec, dotProduct, Fin.sum_univ_three] at h0

end RgbdSlam.Updates
