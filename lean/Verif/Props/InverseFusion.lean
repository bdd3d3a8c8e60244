import Verif.Props.KalmanFusion
import Verif.Props.Tightened
/-
C188: a point without depth that is seen again and again at one place goes there; C189: how certain it gets.
-/
namespace RgbdSlam.Covariance

open Matrix Geometry Spec

/-! ## The two conversions undo each other, also for covariances -/

theorem cos_atan2 {x y : ℝ} (h : 0 < x ^ 2 + y ^ 2) : Real.cos (atan2 y x) = x / Real.sqrt (x ^ 2 + y ^ 2) := by
  have hne : (⟨x, y⟩ : ℂ) ≠ 0 := by
    intro h0
    have h1 := congrArg Complex.re h0
    have h2 := congrArg Complex.im h0
    simp only [Complex.zero_re, Complex.zero_im] at h1 h2
    rw [h1, h2] at h
    norm_num at h
  rw [atan2, Complex.cos_arg hne, Complex.norm_def, Complex.normSq_mk]
  simp only [sq]

theorem sin_atan2 (x y : ℝ) : Real.sin (atan2 y x) = y / Real.sqrt (x ^ 2 + y ^ 2) := by
  rw [atan2, Complex.sin_arg, Complex.norm_def, Complex.normSq_mk]
  simp only [sq]

/-- What `from_cartesian` gives for a point that is not on its origin. -/
theorem fromCartesian_fields {x o : V3} {q : InverseDepth} (h : InverseDepth.fromCartesian x o = .ok q) :
    q.first = o ∧ q.inverseDepth = 1 / Geometry.norm (x - o) ∧ q.theta = (Spherical.ofCartesian (x - o)).theta ∧
      q.phi = (Spherical.ofCartesian (x - o)).phi := by
  simp only [InverseDepth.fromCartesian] at h
  generalize hm : InverseDepth.make o _ _ _ = m at h
  cases m <;> simp only [Outcome.noexcept, Outcome.map, Outcome.bind, Outcome.ok.injEq, reduceCtorEq] at h
  subst h
  unfold InverseDepth.make at hm
  split_ifs at hm
  rw [← Outcome.ok.inj hm]
  exact ⟨rfl, rfl, rfl, rfl⟩

theorem block_inverse {v : V3} (h : 0 < v 0 ^ 2 + v 1 ^ 2) :
    worldJacobianBlock (1 / Geometry.norm v) (Spherical.ofCartesian v).theta (Spherical.ofCartesian v).phi *
      inverseJacobianBlock v = 1 := by
  have hr : 0 < v 0 ^ 2 + v 1 ^ 2 + v 2 ^ 2 := by nlinarith [sq_nonneg (v 2)]
  have hn : Geometry.norm v = Real.sqrt (v 0 ^ 2 + v 1 ^ 2 + v 2 ^ 2) := by
    simp only [Geometry.norm, dotProduct, Fin.sum_univ_three, sq]
  have hrho : Real.sqrt (v 0 * v 0 + v 1 * v 1) = Real.sqrt (v 0 ^ 2 + v 1 ^ 2) := by simp only [sq]
  have e : v 2 ^ 2 + Real.sqrt (v 0 ^ 2 + v 1 ^ 2) ^ 2 = v 0 ^ 2 + v 1 ^ 2 + v 2 ^ 2 := by
    rw [Real.sq_sqrt h.le]; ring
  have ct : Real.cos (Spherical.ofCartesian v).theta = v 2 / Real.sqrt (v 0 ^ 2 + v 1 ^ 2 + v 2 ^ 2) := by
    simp only [Spherical.ofCartesian, hrho]
    rw [cos_atan2 (by rw [e]; exact hr), e]
  have st : Real.sin (Spherical.ofCartesian v).theta =
      Real.sqrt (v 0 ^ 2 + v 1 ^ 2) / Real.sqrt (v 0 ^ 2 + v 1 ^ 2 + v 2 ^ 2) := by
    simp only [Spherical.ofCartesian, hrho]
    rw [sin_atan2, e]
  have cp : Real.cos (Spherical.ofCartesian v).phi = v 0 / Real.sqrt (v 0 ^ 2 + v 1 ^ 2) := cos_atan2 h
  have sp : Real.sin (Spherical.ofCartesian v).phi = v 1 / Real.sqrt (v 0 ^ 2 + v 1 ^ 2) := sin_atan2 _ _
  have p1 := Real.sqrt_pos.2 h
  have p2 := Real.sqrt_pos.2 hr
  have s1 := Real.sq_sqrt h.le
  have s2 := Real.sq_sqrt hr.le
  simp only [worldJacobianBlock, inverseJacobianBlock, ct, st, cp, sp, hn]
  generalize Real.sqrt (v 0 ^ 2 + v 1 ^ 2) = a at p1 s1 ⊢
  generalize Real.sqrt (v 0 ^ 2 + v 1 ^ 2 + v 2 ^ 2) = b at p2 s2 ⊢
  rw [← s1] at s2 ⊢
  rw [← s2]
  have ha := p1.ne'
  have hb := p2.ne'
  ext i j
  fin_cases i <;> fin_cases j <;> simp [Matrix.mul_apply, Fin.sum_univ_three] <;> field_simp <;> simp only [s2, s1] <;> ring

/-- The columns of the first observation. -/
theorem worldJacobian_pose (p : InverseDepth) : worldJacobian p * poseEmbedding = 1 := by
  ext i j
  fin_cases i <;> fin_cases j <;> simp [Matrix.mul_apply, Fin.sum_univ_succ, worldJacobian, poseEmbedding]

theorem worldJacobian_inverse {x o : V3} {q : InverseDepth} {J : Matrix (Fin 6) (Fin 3) ℝ}
    (hq : InverseDepth.fromCartesian x o = .ok q) (hJ : inverseJacobian x o = some J) : worldJacobian q * J = 1 := by
  obtain ⟨-, h2, h3, h4⟩ := fromCartesian_fields hq
  unfold inverseJacobian at hJ
  split_ifs at hJ with h0
  have hpos : 0 < (x - o) 0 ^ 2 + (x - o) 1 ^ 2 := lt_of_le_of_ne (by positivity) (Ne.symm h0)
  have hb := block_inverse hpos
  rw [← h2, ← h3, ← h4] at hb
  rw [← Option.some.inj hJ, ← hb]
  ext i j
  rw [Matrix.mul_apply, Matrix.mul_apply, Fin.sum_univ_six, Fin.sum_univ_three]
  simp [worldJacobian]

/-- The covariance of a point that was just converted from a position and seen in the world again. -/
theorem cartesian_stored {x o : V3} {q : InverseDepth} {J : Matrix (Fin 6) (Fin 3) ℝ} {N B : Sq 3} {K : Sq 6}
    (hN : IsCovariance N) (hB : IsCovariance B)
    (hq : InverseDepth.fromCartesian x o = .ok q) (hJ : inverseJacobian x o = some J)
    (hK : K = setFirstPoseBlock (propagate N J) B) : cartesianCovariance q K = .ok (N + B) := by
  have e := setFirstPoseBlock_eq (C := propagate N J)
    (fun i j => propagate_inverse_block hN.transpose_eq (inverseJacobian_rows hJ) i j) B
  have cK : IsCovariance K := by
    rw [hK, e]
    exact (hN.propagate' J).add (hB.conj _)
  rw [cartesianCovariance_ok cK, propagate_eq' cK.transpose_eq, hK, e, propagate_eq' hN.transpose_eq, Matrix.mul_add, Matrix.add_mul]
  have w1 := worldJacobian_inverse hq hJ
  have w2 := worldJacobian_pose q
  have a1 : worldJacobian q * (J * N * Jᵀ) * (worldJacobian q)ᵀ = (worldJacobian q * J) * N * (worldJacobian q * J)ᵀ := by
    rw [transpose_mul]; simp only [Matrix.mul_assoc]
  have a2 : worldJacobian q * (poseEmbedding * B * poseEmbeddingᵀ) * (worldJacobian q)ᵀ =
      (worldJacobian q * poseEmbedding) * B * (worldJacobian q * poseEmbedding)ᵀ := by
    rw [transpose_mul]; simp only [Matrix.mul_assoc]
  rw [a1, a2, w1, w2]
  simp

/-! ## One update -/

/-- The point is straight above, straight below or at the place it was first seen from: the same first two coordinates. -/
def Spec.Above (x o : V3) : Prop := x 0 = o 0 ∧ x 1 = o 1

theorem inverseJacobian_eq_none {x o : V3} : inverseJacobian x o = none ↔ Spec.Above x o := by
  unfold inverseJacobian Spec.Above
  split_ifs with h
  · refine iff_of_true rfl ?_
    simp only [Pi.sub_apply] at h
    constructor <;> nlinarith [sq_nonneg (x 0 - o 0), sq_nonneg (x 1 - o 1)]
  · refine iff_of_false (by simp) fun ⟨h0, h1⟩ => h ?_
    simp [h0, h1]

/-- What an update of a point without depth does, with valid covariances. -/
theorem inverse_step (p : TrackedInverse) (hp : IsCovariance p.covariance) {w : V3} (hw : p.coordinates.toWorld = .ok w) {K : Sq 3}
    (hK : cartesianCovariance p.coordinates p.covariance = .ok K) (pinv : Sq 3 → Sq 3) (z : V3) {R : Sq 3} (hR : IsCovariance R)
    {x : V3} {N : Sq 3} (hx : (staticFilter 3 (1 / 10000)).newState pinv w K z R = .ok (x, N)) :
    ∃ b q, p.updateWithCartesian pinv z R = .ok (b, q) ∧ q.coordinates.first = p.coordinates.first ∧
      (Spec.Above x p.coordinates.first → b = false) ∧
      (¬ Spec.Above x p.coordinates.first → b = true ∧ IsCovariance q.covariance ∧ q.coordinates.toWorld = .ok x ∧
        firstPoseBlock q.covariance = firstPoseBlock p.covariance ∧
        cartesianCovariance q.coordinates q.covariance = .ok (N + firstPoseBlock p.covariance)) := by
  have hN := newState_covariance hx
  obtain ⟨c, hc, hcf, -⟩ := Updates.fromCartesian_ok x p.coordinates.first
  unfold TrackedInverse.updateWithCartesian
  rw [hp.valid, hR.valid, hw]
  simp only [Bool.not_true, Bool.false_eq_true, if_false, Outcome.bind_ok]
  rw [hK, Outcome.bind_ok, hx]
  simp only [hN.valid, if_true, TrackedInverse.store, hc, Outcome.bind_ok]
  cases hJ : inverseJacobian x p.coordinates.first with
  | none =>
    have e : inverseCovariance N (firstPoseBlock p.covariance) none = .throws := by simp [inverseCovariance]
    rw [e]
    exact ⟨false, _, rfl, hcf, fun _ => rfl, fun h => absurd (inverseJacobian_eq_none.1 hJ) h⟩
  | some J =>
    have hB := firstPoseBlock_isCovariance hp
    have hna : ¬ Spec.Above x p.coordinates.first := fun h => by
      rw [inverseJacobian_eq_none.2 h] at hJ; simp at hJ
    obtain ⟨K', e, hK', hf⟩ := inverseCovariance_some hN hB hJ
    rw [e]
    simp only [hK'.valid]
    refine ⟨true, _, rfl, hcf, fun h => absurd h hna, fun _ => ⟨rfl, hK', ?_, hf, ?_⟩⟩
    · have hne : x ≠ p.coordinates.first := fun h => hna (by rw [h]; exact ⟨rfl, rfl⟩)
      obtain ⟨c', h1, -, -, h4⟩ := C32_cartesian_round_trip hne
      rw [hc] at h1
      rw [Outcome.ok.inj h1]
      exact h4
    · refine cartesian_stored hN hB hc hJ ?_
      unfold inverseCovariance at e
      simp only at e
      split_ifs at e
      exact (Outcome.ok.inj e).symm

/-! ## C188 -/

/-- The point `p` is merged with detections at the place `z`, with these covariances one after the other; each merge says that it
succeeded, and the last one leaves `q`. -/
def Spec.MergedAll (pinv : Sq 3 → Sq 3) (z : V3) : TrackedInverse → List (Sq 3) → TrackedInverse → Prop
  | p, [], q => p = q
  | p, R :: l, q => ∃ s, p.updateWithCartesian pinv z R = .ok (true, s) ∧ Spec.MergedAll pinv z s l q

theorem within_mono {n : ℕ} {A B : Sq n} {e : Fin n → ℝ} {v : ℝ} (hv : 0 ≤ v) (h : ∀ y, variance A y ≤ variance B y)
    (hw : Within A e v) : Within B e v := fun y => (hw y).trans (mul_le_mul_of_nonneg_left (h y) hv)

/-- One more successful merge at `z`. -/
theorem merged_within {r v : ℝ} (hr : 0 < r) (hv : 0 ≤ v) (pinv : Sq 3 → Sq 3)
    (hpinv : ∀ S, IsCovariance S → IsPseudoInverse S (pinv S)) (z : V3) {R : Sq 3} (hR : IsCovariance R)
    (hb : NotLarger R (r • (1 : Sq 3))) {p s : TrackedInverse} (hp : IsCovariance p.covariance) {w : V3} {K : Sq 3}
    (hw : p.coordinates.toWorld = .ok w) (hK : cartesianCovariance p.coordinates p.covariance = .ok K)
    (hin : Within (K + (1 / 10000 : ℝ) • (1 : Sq 3)) (w - z) v) (h : p.updateWithCartesian pinv z R = .ok (true, s)) :
    ∃ x K', s.coordinates.toWorld = .ok x ∧ IsCovariance s.covariance ∧ cartesianCovariance s.coordinates s.covariance = .ok K' ∧
      (x - z) ⬝ᵥ (x - z) ≤ r * v ∧ Within (K' + (1 / 10000 : ℝ) • (1 : Sq 3)) (x - z) (v * (r / (r + 1 / 10000))) := by
  have cK : IsCovariance K := by
    rw [cartesianCovariance_ok hp] at hK
    rw [← Outcome.ok.inj hK]
    exact hp.propagate' _
  obtain ⟨x, N, hx, hN, h1, h2⟩ := within_step (by norm_num : (0 : ℝ) < 1 / 10000) hr hv pinv hpinv w z cK hR hb hin
  obtain ⟨b, q, hu, -, hab, hna⟩ := inverse_step p hp hw hK pinv z hR hx
  rw [hu] at h
  obtain ⟨rfl, rfl⟩ := Prod.mk.inj (Outcome.ok.inj h)
  obtain ⟨-, g1, g2, -, g3⟩ := hna fun ha => by simpa using hab ha
  refine ⟨x, _, g2, g1, g3, h1, within_mono (mul_nonneg hv (by positivity)) (fun y => ?_) h2⟩
  rw [variance_add, variance_add (N + _), variance_add N]
  have := (firstPoseBlock_isCovariance hp).nonneg y
  linarith

theorem mergedAll_within {r : ℝ} (hr : 0 < r) (pinv : Sq 3 → Sq 3)
    (hpinv : ∀ S, IsCovariance S → IsPseudoInverse S (pinv S)) (z : V3) (q : TrackedInverse) (Rs : List (Sq 3)) :
    ∀ (R : Sq 3) (p : TrackedInverse) (v : ℝ) (w : V3) (K : Sq 3), (∀ A ∈ R :: Rs, IsCovariance A ∧ NotLarger A (r • (1 : Sq 3))) →
      0 ≤ v → IsCovariance p.covariance → p.coordinates.toWorld = .ok w → cartesianCovariance p.coordinates p.covariance = .ok K →
      Within (K + (1 / 10000 : ℝ) • (1 : Sq 3)) (w - z) v → Spec.MergedAll pinv z p (R :: Rs) q →
      ∃ x, q.coordinates.toWorld = .ok x ∧ IsCovariance q.covariance ∧
        (x - z) ⬝ᵥ (x - z) ≤ r * (v * (r / (r + 1 / 10000)) ^ Rs.length) := by
  induction Rs with
  | nil =>
    rintro R p v w K hR hv hC hw hK hin ⟨s, hs, rfl⟩
    obtain ⟨x, K', h1, h2, -, h3, -⟩ := merged_within hr hv pinv hpinv z (hR R (by simp)).1 (hR R (by simp)).2 hC hw hK hin hs
    exact ⟨x, h1, h2, by simpa using h3⟩
  | cons R' Rs ih =>
    rintro R p v w K hR hv hC hw hK hin ⟨s, hs, hm⟩
    obtain ⟨x, K', h1, h2, h3, -, h4⟩ := merged_within hr hv pinv hpinv z (hR R (by simp)).1 (hR R (by simp)).2 hC hw hK hin hs
    obtain ⟨x', g1, g2, g3⟩ := ih R' s _ x K' (fun A hA => hR A (List.mem_cons_of_mem _ hA)) (mul_nonneg hv (by positivity)) h2 h1
      h3 h4 hm
    refine ⟨x', g1, g2, ?_⟩
    rw [List.length_cons, pow_succ]
    linarith [g3]

/-- C188: a map point without depth that is merged again and again with detections at the place `z`, with covariances that may
change but whose variances are at most `r` in each direction, goes there: its squared distance to `z` is multiplied by
`r / (r + 0.0001)` or less by each merge, up to the factor `10000 r` of the first one. -/
theorem C188_converges {r : ℝ} (hr : 0 < r) (pinv : Sq 3 → Sq 3) (hpinv : ∀ S, IsCovariance S → IsPseudoInverse S (pinv S))
    (p q : TrackedInverse) (hC : IsCovariance p.covariance) {w : V3} (hw : p.coordinates.toWorld = .ok w) (z : V3) (Rs : List (Sq 3))
    (hne : Rs ≠ []) (hR : ∀ A ∈ Rs, IsCovariance A ∧ NotLarger A (r • (1 : Sq 3))) (hm : Spec.MergedAll pinv z p Rs q) :
    ∃ x, q.coordinates.toWorld = .ok x ∧ IsCovariance q.covariance ∧
      ∑ i, (x i - z i) ^ 2 ≤ 10000 * r * (r / (r + 1 / 10000)) ^ (Rs.length - 1) * ∑ i, (w i - z i) ^ 2 := by
  obtain ⟨R, l, rfl⟩ := List.exists_cons_of_ne_nil hne
  have hK := cartesianCovariance_ok (p := p.coordinates) hC
  have cK := hC.propagate' (worldJacobian p.coordinates)
  have hin := within_start (by norm_num : (0 : ℝ) < 1 / 10000) cK (w - z)
  have h0 : 0 ≤ (w - z) ⬝ᵥ (w - z) := by
    rw [dotProduct]; exact Finset.sum_nonneg fun i _ => mul_self_nonneg _
  obtain ⟨x, h1, h2, h3⟩ := mergedAll_within hr pinv hpinv z q l R p _ w _ hR (by positivity) hC hw hK hin hm
  refine ⟨x, h1, h2, ?_⟩
  have e : ∀ a : V3, ∑ i, (a i - z i) ^ 2 = (a - z) ⬝ᵥ (a - z) := fun a => by
    rw [dotProduct]; exact Finset.sum_congr rfl fun i _ => by rw [pow_two]; rfl
  rw [e, e, List.length_cons, Nat.add_sub_cancel]
  refine h3.trans (le_of_eq ?_)
  ring

/-- The distance to the place tends to 0. -/
theorem C188_limit {r : ℝ} (hr : 0 < r) (pinv : Sq 3 → Sq 3) (hpinv : ∀ S, IsCovariance S → IsPseudoInverse S (pinv S))
    (p : TrackedInverse) (hC : IsCovariance p.covariance) {w : V3} (hw : p.coordinates.toWorld = .ok w) (z : V3) {d : ℝ} (hd : 0 < d) :
    ∃ n, ∀ (Rs : List (Sq 3)) (q : TrackedInverse), n ≤ Rs.length → (∀ A ∈ Rs, IsCovariance A ∧ NotLarger A (r • (1 : Sq 3))) →
      Spec.MergedAll pinv z p Rs q → ∃ x, q.coordinates.toWorld = .ok x ∧ ∑ i, (x i - z i) ^ 2 < d := by
  have hlt : r / (r + 1 / 10000) < 1 := by rw [div_lt_one (by positivity)]; linarith
  have h0 : 0 ≤ r / (r + 1 / 10000) := by positivity
  set D := 10000 * r * ∑ i, (w i - z i) ^ 2 with hD
  have hD0 : 0 ≤ D := by
    have : 0 ≤ ∑ i, (w i - z i) ^ 2 := Finset.sum_nonneg fun i _ => sq_nonneg _
    positivity
  obtain ⟨N, hN⟩ := exists_pow_lt_of_lt_one (show 0 < d / (D + 1) by positivity) hlt
  refine ⟨N + 1, fun Rs q hl hR hm => ?_⟩
  obtain ⟨x, h1, -, h3⟩ := C188_converges hr pinv hpinv p q hC hw z Rs (fun h => by rw [h] at hl; simp at hl) hR hm
  refine ⟨x, h1, lt_of_le_of_lt h3 ?_⟩
  have hp : (r / (r + 1 / 10000)) ^ (Rs.length - 1) ≤ (r / (r + 1 / 10000)) ^ N :=
    pow_le_pow_of_le_one h0 hlt.le (by omega)
  calc 10000 * r * (r / (r + 1 / 10000)) ^ (Rs.length - 1) * ∑ i, (w i - z i) ^ 2
      = D * (r / (r + 1 / 10000)) ^ (Rs.length - 1) := by rw [hD]; ring
    _ ≤ D * (d / (D + 1)) := mul_le_mul_of_nonneg_left (hp.trans hN.le) hD0
    _ < d := by
      rw [mul_div_assoc', div_lt_iff₀ (by positivity)]
      nlinarith

/-- C188: the only thing that stops such a sequence of merges: the compromise between the point and the detection is exactly above
or below the place the point was first seen from. -/
theorem C188_merged_or_above (pinv : Sq 3 → Sq 3) (hpinv : ∀ S, IsCovariance S → IsPseudoInverse S (pinv S)) (z : V3)
    (Rs : List (Sq 3)) (hR : ∀ A ∈ Rs, IsCovariance A) : ∀ (p : TrackedInverse) (w : V3), IsCovariance p.covariance →
    p.coordinates.toWorld = .ok w →
    (∃ q, Spec.MergedAll pinv z p Rs q) ∨
    ∃ before R after s s' place K x N, Rs = before ++ R :: after ∧ Spec.MergedAll pinv z p before s ∧
      s.coordinates.toWorld = .ok place ∧ cartesianCovariance s.coordinates s.covariance = .ok K ∧
      (staticFilter 3 (1 / 10000)).newState pinv place K z R = .ok (x, N) ∧ Spec.Above x p.coordinates.first ∧
      s.updateWithCartesian pinv z R = .ok (false, s') := by
  induction Rs with
  | nil => exact fun p w _ _ => Or.inl ⟨p, rfl⟩
  | cons R l ih =>
    intro p w hC hw
    have hK := cartesianCovariance_ok (p := p.coordinates) hC
    have cR := hR R (by simp)
    obtain ⟨x, N, -, hx, -⟩ := static_step (by norm_num : (0 : ℝ) ≤ 1 / 10000) pinv hpinv w z (hC.propagate' (worldJacobian p.coordinates)) cR
    obtain ⟨b, s, hu, hf, hab, hna⟩ := inverse_step p hC hw hK pinv z cR hx
    by_cases ha : Spec.Above x p.coordinates.first
    · refine Or.inr ⟨[], R, l, p, s, w, _, x, N, rfl, rfl, hw, hK, hx, ha, ?_⟩
      rw [hu, hab ha]
    · obtain ⟨rfl, g1, g2, -, -⟩ := hna ha
      rcases ih (fun A hA => hR A (List.mem_cons_of_mem _ hA)) s x g1 g2 with ⟨q, hq⟩ | ⟨bf, R', af, t, t', pl, K, x', N', h1, h2, h3⟩
      · exact Or.inl ⟨q, s, hu, hq⟩
      · rw [hf] at h3
        exact Or.inr ⟨R :: bf, R', af, t, t', pl, K, x', N', by rw [h1]; rfl, ⟨s, hu, h2⟩, h3⟩

/-! ## C189 -/

/-- C189: after a merge the variances of the point are those of the compromise with the detection plus those of the place it was
first seen from, which is added again at each merge.  Full claim: they are at most those of the detection, and at most those before
the merge up to the noise of the process (false, see below). -/
theorem C189_more_certain_partial (pinv : Sq 3 → Sq 3) (hpinv : ∀ S, IsCovariance S → IsPseudoInverse S (pinv S))
    (p q : TrackedInverse) (hC : IsCovariance p.covariance) {w : V3} (hw : p.coordinates.toWorld = .ok w) (z : V3) {R : Sq 3}
    (hR : IsCovariance R) (h : p.updateWithCartesian pinv z R = .ok (true, q)) :
    ∃ K K', cartesianCovariance p.coordinates p.covariance = .ok K ∧ cartesianCovariance q.coordinates q.covariance = .ok K' ∧
      ∀ y, variance K' y ≤ variance R y + variance (firstPoseBlock p.covariance) y ∧
        variance K' y ≤ variance K y + 1 / 10000 * ∑ i, y i ^ 2 + variance (firstPoseBlock p.covariance) y ∧
        variance (firstPoseBlock p.covariance) y ≤ variance K' y := by
  have hK := cartesianCovariance_ok (p := p.coordinates) hC
  have cK := hC.propagate' (worldJacobian p.coordinates)
  obtain ⟨x, N, G, hx, hN, hle, -, -, -, -⟩ := static_step (by norm_num : (0 : ℝ) ≤ 1 / 10000) pinv hpinv w z cK hR
  obtain ⟨x', N', G', hx', -, -, -, -, -, h7⟩ := C35_update (staticFilter 3 (1 / 10000)) pinv w z cK hR
    (isCovariance_smul_one (by norm_num)) hpinv
  rw [hx] at hx'
  obtain ⟨rfl, rfl⟩ := Prod.mk.inj (Outcome.ok.inj hx')
  have h0 := h7 0
  simp only [staticFilter, errorCovariance, Matrix.one_mul, Matrix.mul_one, Matrix.zero_mul, sub_zero, transpose_one,
    add_zero] at h0
  obtain ⟨b, s, hu, -, hab, hna⟩ := inverse_step p hC hw hK pinv z hR hx
  rw [hu] at h
  obtain ⟨rfl, rfl⟩ := Prod.mk.inj (Outcome.ok.inj h)
  obtain ⟨-, -, -, -, g3⟩ := hna fun ha => by simpa using hab ha
  refine ⟨_, _, hK, g3, fun y => ?_⟩
  have e : ∑ i, y i ^ 2 = y ⬝ᵥ y := by simp only [dotProduct, sq]
  have a1 := hle y
  have a2 := h0 y
  rw [variance_add, variance_smul_one] at a2
  have a3 := hN.nonneg y
  rw [variance_add, e]
  exact ⟨by linarith, by linarith, by linarith⟩

/-! A point with the same uncertainty in all directions. -/

/-- A point without depth that is at `w` with the variance `k` in each direction, first seen from the origin of the world, a place
known with the variance `b` in each direction. -/
def Even (b k : ℝ) (w : V3) (p : TrackedInverse) : Prop :=
  IsCovariance p.covariance ∧ p.coordinates.first = 0 ∧ p.coordinates.toWorld = .ok w ∧
    firstPoseBlock p.covariance = b • (1 : Sq 3) ∧ cartesianCovariance p.coordinates p.covariance = .ok (k • (1 : Sq 3))

theorem even_exists {b c : ℝ} (hb : 0 ≤ b) (hc : 0 ≤ c) {w : V3} (hw : ¬ Spec.Above w 0) : ∃ p, Even b (c + b) w p := by
  have hB := isCovariance_smul_one (n := 3) hb
  have hN := isCovariance_smul_one (n := 3) hc
  obtain ⟨i, hi, hif, -⟩ := Updates.fromCartesian_ok w 0
  cases hJ : inverseJacobian w 0 with
  | none => exact absurd (inverseJacobian_eq_none.1 hJ) hw
  | some J =>
    obtain ⟨K, e, hK, hf⟩ := inverseCovariance_some hN hB hJ
    have hne : w ≠ 0 := fun h => hw (by rw [h]; exact ⟨rfl, rfl⟩)
    obtain ⟨c', h1, -, -, h4⟩ := C32_cartesian_round_trip hne
    rw [hi] at h1
    refine ⟨⟨i, K, false⟩, hK, hif, by rw [Outcome.ok.inj h1]; exact h4, hf, ?_⟩
    rw [add_smul]
    refine cartesian_stored hN hB hi hJ ?_
    unfold inverseCovariance at e
    simp only at e
    split_ifs at e
    exact (Outcome.ok.inj e).symm

theorem even_step {b k r : ℝ} (hk : 0 ≤ k) (hr : 0 < r) {w z : V3} {p : TrackedInverse} (hp : Even b k w p) {g : ℝ}
    (hg : g = (k + 1 / 10000) / (k + 1 / 10000 + r)) (hna : ¬ Spec.Above (w + g • (z - w)) 0) :
    ∃ q, p.updateWithCartesian (examplePinv 3) z (r • 1) = .ok (true, q) ∧ Even b (g * r + b) (w + g • (z - w)) q := by
  obtain ⟨hC, hf, hw, hB, hK⟩ := hp
  have cR := isCovariance_smul_one (n := 3) hr.le
  obtain ⟨x, N, G, hx, -, -, h3, h4, -, h5⟩ := static_step (by norm_num : (0 : ℝ) ≤ 1 / 10000) (examplePinv 3) examplePinv_spec w z
    (isCovariance_smul_one (n := 3) hk) cR
  have hpos : 0 < k + 1 / 10000 + r := by positivity
  rw [← add_smul, ← add_smul, Matrix.mul_smul, Matrix.mul_one] at h4
  have hG : G = g • (1 : Sq 3) := by
    have := congrArg (fun A => (k + 1 / 10000 + r)⁻¹ • A) h4
    simp only [smul_smul, inv_mul_cancel₀ hpos.ne', one_smul] at this
    rw [this, hg, inv_mul_eq_div]
  have ex : x = w + g • (z - w) := by rw [h3, hG, smul_mulVec, one_mulVec]
  have eN : N = (g * r) • (1 : Sq 3) := by
    have e1 : (1 : Sq 3) - g • (1 : Sq 3) = (1 - g) • (1 : Sq 3) := by rw [sub_smul, one_smul]
    rw [h5, hG, ← add_smul, e1, Matrix.smul_mul, Matrix.one_mul, smul_smul]
    congr 1
    rw [hg]; field_simp; ring
  obtain ⟨b', q, hu, hqf, -, hyes⟩ := inverse_step p hC hw hK (examplePinv 3) z cR hx
  rw [hf, ex] at hyes
  obtain ⟨rfl, g1, g2, g3, g4⟩ := hyes hna
  refine ⟨q, hu, g1, hqf.trans hf, g2, g3.trans hB, ?_⟩
  rw [g4, hB, eN, ← add_smul]

/-- However often it is seen at 2 m to the front and 1 m up, with a variance of 1, a point first placed 1 m to the front is merged. -/
theorem even_merged {b : ℝ} (hb : 0 ≤ b) (n : ℕ) : ∀ (k : ℝ) (w : V3) (p : TrackedInverse), 0 ≤ k → 0 < w 0 → Even b k w p →
    ∃ q, Spec.MergedAll (examplePinv 3) ![2, 0, 1] p (List.replicate n ((1 : ℝ) • 1)) q := by
  induction n with
  | zero => exact fun k w p _ _ _ => ⟨p, rfl⟩
  | succ n ih =>
    intro k w p hk hw hp
    obtain ⟨g, hg⟩ : ∃ g : ℝ, g = (k + 1 / 10000) / (k + 1 / 10000 + 1) := ⟨_, rfl⟩
    have g0 : 0 ≤ g := by rw [hg]; positivity
    have g1 : g ≤ 1 := by rw [hg, div_le_one (by positivity)]; linarith
    have hx : 0 < (w + g • ((![2, 0, 1] : V3) - w)) 0 := by
      simp only [Pi.add_apply, Pi.smul_apply, Pi.sub_apply, smul_eq_mul, cons_val_zero]
      rcases g0.eq_or_lt with h | h
      · rw [← h]; linarith
      · nlinarith
    obtain ⟨s, hs, es⟩ := even_step (z := ![2, 0, 1]) hk one_pos hp hg fun h => hx.ne' h.1
    obtain ⟨q, hq⟩ := ih _ _ s (by positivity) hx es
    exact ⟨q, s, hs, hq⟩

/-- C188 holds of merges of any length. -/
example (n : ℕ) : ∃ p q, IsCovariance p.covariance ∧ p.coordinates.toWorld = .ok ![1, 0, 0] ∧
    (∀ A ∈ List.replicate n ((1 : ℝ) • (1 : Sq 3)), IsCovariance A ∧ NotLarger A ((1 : ℝ) • (1 : Sq 3))) ∧
    Spec.MergedAll (examplePinv 3) ![2, 0, 1] p (List.replicate n ((1 : ℝ) • 1)) q := by
  obtain ⟨p, hp⟩ := even_exists (b := 1) (c := 1) zero_le_one zero_le_one (w := ![1, 0, 0]) fun h => by
    have := h.1
    simp at this
  obtain ⟨q, hq⟩ := even_merged zero_le_one n _ _ p (by norm_num) (by simp) hp
  refine ⟨p, q, hp.1, hp.2.2.1, fun A hA => ?_, hq⟩
  rw [List.eq_of_mem_replicate hA]
  exact ⟨isCovariance_smul_one zero_le_one, fun _ => le_refl _⟩

/-- C189 is false: a point merged with a detection where it is, as certain as the point was, is less certain than before in each
direction, and less than the detection. -/
theorem C189_more_certain_false : ∃ (p q : TrackedInverse) (w : V3) (K K' R : Sq 3), IsCovariance p.covariance ∧ IsCovariance R ∧
    p.coordinates.toWorld = .ok w ∧ p.updateWithCartesian (examplePinv 3) w R = .ok (true, q) ∧
    cartesianCovariance p.coordinates p.covariance = .ok K ∧ cartesianCovariance q.coordinates q.covariance = .ok K' ∧
    ∀ y : V3, y ≠ 0 → variance R y < variance K' y ∧ variance K y + 1 / 10000 * ∑ i, y i ^ 2 < variance K' y := by
  have hw : ¬ Spec.Above (![1, 0, 0] : V3) 0 := fun h => by
    have := h.1
    simp at this
  obtain ⟨p, hp⟩ := even_exists (b := 1) (c := 0) zero_le_one le_rfl hw
  obtain ⟨q, hq, eq⟩ := even_step (z := ![1, 0, 0]) (by norm_num) one_pos hp rfl (by rw [sub_self, smul_zero, add_zero]; exact hw)
  refine ⟨p, q, _, _, _, _, hp.1, isCovariance_smul_one zero_le_one, hp.2.2.1, hq, hp.2.2.2.2, eq.2.2.2.2, fun y hy => ?_⟩
  have e : ∑ i, y i ^ 2 = y ⬝ᵥ y := by simp only [dotProduct, sq]
  have h2 : 0 < y ⬝ᵥ y := lt_of_le_of_ne (by rw [dotProduct]; exact Finset.sum_nonneg fun i _ => mul_self_nonneg _)
    (fun h => hy (dotProduct_self_eq_zero.1 h.symm))
  rw [variance_smul_one, variance_smul_one, variance_smul_one, e, ← add_mul]
  constructor <;> apply mul_lt_mul_of_pos_right _ h2 <;> norm_num

end RgbdSlam.Covariance
