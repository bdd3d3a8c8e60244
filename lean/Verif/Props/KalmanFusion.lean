import Verif.Props.Covariance
import Mathlib.Tactic.Positivity
import Mathlib.Tactic.FieldSimp
/-
C180: a fused point is the best compromise between the map and the detection; C181: a point seen again and again at one place
goes there.
-/
namespace RgbdSlam.Covariance

open Matrix Geometry Spec

variable {n : ℕ}

theorem variance_add (A B : Sq n) (y : Fin n → ℝ) : variance (A + B) y = variance A y + variance B y := by
  rw [variance_eq, variance_eq, variance_eq, add_mulVec, dotProduct_add]

theorem variance_smul_one (a : ℝ) (y : Fin n → ℝ) : variance (a • (1 : Sq n)) y = a * (y ⬝ᵥ y) := by
  rw [variance_eq, smul_mulVec, one_mulVec, dotProduct_smul, smul_eq_mul]

theorem variance_conj {m : ℕ} (C : Sq n) (J : Matrix (Fin m) (Fin n) ℝ) (y : Fin m → ℝ) :
    variance (J * C * Jᵀ) y = variance C (Jᵀ *ᵥ y) := by
  rw [variance_eq, variance_eq, ← mulVec_mulVec, ← mulVec_mulVec, dotProduct_mulVec y J, mulVec_transpose]

/-- One update of the filter of a static feature, with what is needed of it. -/
theorem static_step {q : ℝ} (hq : 0 ≤ q) (pinv : Sq n → Sq n) (hpinv : ∀ S, IsCovariance S → IsPseudoInverse S (pinv S))
    (x z : Fin n → ℝ) {C R : Sq n} (hC : IsCovariance C) (hR : IsCovariance R) :
    ∃ x' C' G, (staticFilter n q).newState pinv x C z R = .ok (x', C') ∧ IsCovariance C' ∧ NotLarger C' R ∧
      x' = x + G *ᵥ (z - x) ∧ G * (C + q • (1 : Sq n) + R) = C + q • (1 : Sq n) ∧
      C' = (1 - G) * (C + q • (1 : Sq n)) * (1 - G)ᵀ + G * R * Gᵀ ∧
      C' = (1 - G) * (C + q • (1 : Sq n)) := by
  obtain ⟨x', C', G, h1, h2, h3, h4, h5, -, h7⟩ := C35_update (staticFilter n q) pinv x z hC hR (isCovariance_smul_one hq) hpinv
  simp only [staticFilter, Matrix.one_mul, Matrix.mul_one, transpose_one, one_mulVec] at h2 h3 h4 h7
  refine ⟨x', C', G, h1, h5, ?_, h2, h3, ?_, ?_⟩
  · have := h7 1
    simp only [errorCovariance, Matrix.one_mul, Matrix.mul_one, sub_self, Matrix.zero_mul, zero_add, transpose_one] at this
    exact this
  · rw [h4]
    simp only [errorCovariance, Matrix.mul_one]
  · have cM : IsCovariance (C + q • (1 : Sq n)) := hC.add (isCovariance_smul_one hq)
    have := errorCovariance_eq (H := (1 : Sq n)) cM.transpose_eq hR.transpose_eq (G := G)
      (by rw [Matrix.one_mul, transpose_one, Matrix.mul_one]; exact h3) G
    rw [h4, this, sub_self, Matrix.zero_mul, Matrix.zero_mul, add_zero, Matrix.mul_one]

/-! ## C180 -/

/-- How far `p` is from a value `x` of covariance `C`, in standard deviations, squared (Mahalanobis distance). -/
noncomputable def Spec.disagreement (C : Sq n) (x p : Fin n → ℝ) : ℝ := (p - x) ⬝ᵥ (C⁻¹ *ᵥ (p - x))

theorem isUnit_det_of_pos {A : Sq n} (hA : IsCovariance A) (h : ∀ y, y ≠ 0 → 0 < variance A y) : IsUnit A.det := by
  have hp : A.PosDef := by
    refine Matrix.PosDef.of_dotProduct_mulVec_pos (isCovariance_iff.1 hA).1 fun y hy => ?_
    have := h y hy
    rw [variance_eq] at this
    simpa using this
  exact (Matrix.isUnit_iff_isUnit_det A).1 hp.isUnit

theorem pos_smul_one {q : ℝ} (hq : 0 < q) {C : Sq n} (hC : IsCovariance C) (y : Fin n → ℝ) (hy : y ≠ 0) :
    0 < variance (C + q • (1 : Sq n)) y := by
  rw [variance_add, variance_smul_one]
  have h1 := hC.nonneg y
  have h2 : 0 < y ⬝ᵥ y := lt_of_le_of_ne (by rw [dotProduct]; exact Finset.sum_nonneg fun i _ => mul_self_nonneg _)
    (fun h => hy (dotProduct_self_eq_zero.1 h.symm))
  have := mul_pos hq h2
  linarith

/-- Inverses of covariances without a null direction. -/
theorem variance_inv_pos {A : Sq n} (hA : IsCovariance A) (h : ∀ y, y ≠ 0 → 0 < variance A y) (y : Fin n → ℝ) (hy : y ≠ 0) :
    0 < y ⬝ᵥ (A⁻¹ *ᵥ y) := by
  have hu := isUnit_det_of_pos hA h
  have e : y = A *ᵥ (A⁻¹ *ᵥ y) := by rw [mulVec_mulVec, mul_nonsing_inv A hu, one_mulVec]
  have hne : A⁻¹ *ᵥ y ≠ 0 := fun h0 => hy (by rw [e, h0, mulVec_zero])
  have := h _ hne
  rw [variance_eq, ← e, dotProduct_comm] at this
  exact this

/-- C180: the update of a feature that does not move gives the only value for which the disagreement with the predicted value
(the present one, with the noise of the process added to its covariance) and with the detection, together, is least; and its covariance is
the one of independent measurements put together: the inverses add up. -/
theorem C180_best_compromise {q : ℝ} (hq : 0 < q) (pinv : Sq n → Sq n)
    (hpinv : ∀ S, IsCovariance S → IsPseudoInverse S (pinv S)) (x z : Fin n → ℝ) {C R : Sq n}
    (hC : IsCovariance C) (hR : IsCovariance R) (hpos : ∀ y, y ≠ 0 → 0 < variance R y) :
    ∃ x' C', (staticFilter n q).newState pinv x C z R = .ok (x', C') ∧
      (∀ p, p ≠ x' → disagreement (C + q • (1 : Sq n)) x x' + disagreement R z x' <
        disagreement (C + q • (1 : Sq n)) x p + disagreement R z p) ∧
      C' * ((C + q • (1 : Sq n))⁻¹ + R⁻¹) = 1 := by
  obtain ⟨x', C', G, h1, h2, -, h3, h4, -, h5⟩ := static_step hq.le pinv hpinv x z hC hR
  have cM : IsCovariance (C + q • (1 : Sq n)) := hC.add (isCovariance_smul_one hq.le)
  have pM := pos_smul_one hq hC
  set M := C + q • (1 : Sq n) with hM
  have uM := isUnit_det_of_pos cM pM
  have uR := isUnit_det_of_pos hR hpos
  have cS : IsCovariance (M + R) := cM.add hR
  have uS : IsUnit (M + R).det := isUnit_det_of_pos cS fun y hy => by
    rw [variance_add]
    have := pM y hy
    have := hR.nonneg y
    linarith
  have hG : G = M * (M + R)⁻¹ := by
    have := congrArg (· * (M + R)⁻¹) h4
    simpa only [Matrix.mul_assoc, mul_nonsing_inv _ uS, Matrix.mul_one] using this
  have hG' : 1 - G = R * (M + R)⁻¹ := by
    rw [hG, sub_eq_iff_eq_add, ← Matrix.add_mul, add_comm R M, mul_nonsing_inv _ uS]
  refine ⟨x', C', h1, fun p hp => ?_, ?_⟩
  · -- the gradient is zero at `x'`
    have g1 : M⁻¹ *ᵥ (x' - x) = (M + R)⁻¹ *ᵥ (z - x) := by
      rw [h3, add_sub_cancel_left, mulVec_mulVec, hG, ← Matrix.mul_assoc, nonsing_inv_mul _ uM, Matrix.one_mul]
    have g2 : R⁻¹ *ᵥ (x' - z) = -((M + R)⁻¹ *ᵥ (z - x)) := by
      have : x' - z = -((1 - G) *ᵥ (z - x)) := by
        rw [h3, sub_mulVec, one_mulVec]
        abel
      rw [this, mulVec_neg, mulVec_mulVec, hG', ← Matrix.mul_assoc, nonsing_inv_mul _ uR, Matrix.one_mul]
    have sq : ∀ (A : Sq n) (hA : IsCovariance A) (o : Fin n → ℝ),
        disagreement A o p = disagreement A o x' + 2 * ((p - x') ⬝ᵥ (A⁻¹ *ᵥ (x' - o))) + (p - x') ⬝ᵥ (A⁻¹ *ᵥ (p - x')) := by
      intro A hA o
      have hs : (A⁻¹)ᵀ = A⁻¹ := by rw [transpose_nonsing_inv, hA.transpose_eq]
      have e : p - o = (x' - o) + (p - x') := by abel
      have c : (x' - o) ⬝ᵥ (A⁻¹ *ᵥ (p - x')) = (p - x') ⬝ᵥ (A⁻¹ *ᵥ (x' - o)) := by
        rw [dotProduct_mulVec, ← mulVec_transpose, hs, dotProduct_comm]
      unfold disagreement
      rw [e, mulVec_add, dotProduct_add, add_dotProduct, add_dotProduct, c]
      ring
    rw [sq M cM x, sq R hR z, g1, g2, dotProduct_neg]
    have hne : p - x' ≠ 0 := sub_ne_zero.2 hp
    have p1 := variance_inv_pos cM pM _ hne
    have p2 := variance_inv_pos hR hpos _ hne
    linarith
  · rw [h5, hG', Matrix.mul_add, Matrix.mul_assoc, mul_nonsing_inv _ uM, Matrix.mul_one, Matrix.mul_assoc (R * (M + R)⁻¹)]
    have : R * (M + R)⁻¹ + R * (M + R)⁻¹ * (M * R⁻¹) = R * ((M + R)⁻¹ * (M + R)) * R⁻¹ := by
      have e : (M + R) * R⁻¹ = M * R⁻¹ + 1 := by rw [Matrix.add_mul, mul_nonsing_inv _ uR]
      rw [Matrix.mul_assoc R ((M + R)⁻¹ * (M + R)), Matrix.mul_assoc (M + R)⁻¹ (M + R), e, Matrix.mul_add, Matrix.mul_add,
        Matrix.mul_one, Matrix.mul_assoc R]
      abel
    rw [this, nonsing_inv_mul _ uS, Matrix.mul_one, mul_nonsing_inv _ uR]

/-- The filter of the map points and a detection with a standard deviation of 1 mm. -/
example : (∀ S, IsCovariance S → IsPseudoInverse S (examplePinv 3 S)) ∧ IsCovariance (1 : Sq 3) ∧
    ∀ y : Fin 3 → ℝ, y ≠ 0 → 0 < variance (1 : Sq 3) y := by
  refine ⟨examplePinv_spec, isCovariance_one, fun y hy => ?_⟩
  rw [← one_smul ℝ (1 : Sq 3), variance_smul_one, one_mul]
  exact lt_of_le_of_ne (by rw [dotProduct]; exact Finset.sum_nonneg fun i _ => mul_self_nonneg _)
    (fun h => hy (dotProduct_self_eq_zero.1 h.symm))

/-! ## C181 -/

/-- The point is detected at the same place `z` again and again, with these covariances. -/
noncomputable def TrackedPoint.seenAt (pinv : Sq 3 → Sq 3) (z : V3) : TrackedPoint → List (Sq 3) → Outcome TrackedPoint
  | p, [] => .ok p
  | p, R :: l => (p.track pinv z R).bind fun s => TrackedPoint.seenAt pinv z s.2 l

/-- `e` is within `v` standard deviations (squared) of 0, for the covariance `C`. -/
def Within (C : Sq n) (e : Fin n → ℝ) (v : ℝ) : Prop := ∀ y, (y ⬝ᵥ e) ^ 2 ≤ v * variance C y

theorem within_start {q : ℝ} (hq : 0 < q) {C : Sq n} (hC : IsCovariance C) (e : Fin n → ℝ) :
    Within (C + q • (1 : Sq n)) e ((e ⬝ᵥ e) / q) := by
  intro y
  have hcs : (y ⬝ᵥ e) ^ 2 ≤ (y ⬝ᵥ y) * (e ⬝ᵥ e) := by
    simp only [dotProduct, ← pow_two]
    exact Finset.sum_mul_sq_le_sq_mul_sq _ _ _
  have h1 := hC.nonneg y
  have h0 : 0 ≤ e ⬝ᵥ e := by rw [dotProduct]; exact Finset.sum_nonneg fun i _ => mul_self_nonneg _
  rw [variance_add, variance_smul_one]
  calc (y ⬝ᵥ e) ^ 2 ≤ (y ⬝ᵥ y) * (e ⬝ᵥ e) := hcs
    _ = (e ⬝ᵥ e) / q * (q * (y ⬝ᵥ y)) := by field_simp
    _ ≤ (e ⬝ᵥ e) / q * (variance C y + q * (y ⬝ᵥ y)) := by
      apply mul_le_mul_of_nonneg_left _ (by positivity)
      linarith

/-- One more detection at `z`. -/
theorem within_step {q r v : ℝ} (hq : 0 < q) (hr : 0 < r) (hv : 0 ≤ v) (pinv : Sq n → Sq n)
    (hpinv : ∀ S, IsCovariance S → IsPseudoInverse S (pinv S)) (x z : Fin n → ℝ) {C R : Sq n}
    (hC : IsCovariance C) (hR : IsCovariance R) (hb : NotLarger R (r • (1 : Sq n))) (hw : Within (C + q • (1 : Sq n)) (x - z) v) :
    ∃ x' C', (staticFilter n q).newState pinv x C z R = .ok (x', C') ∧ IsCovariance C' ∧
      (x' - z) ⬝ᵥ (x' - z) ≤ r * v ∧ Within (C' + q • (1 : Sq n)) (x' - z) (v * (r / (r + q))) := by
  obtain ⟨x', C', G, h1, h2, h6, h3, -, h4, -⟩ := static_step hq.le pinv hpinv x z hC hR
  have hbound : ∀ y, variance C' y ≤ r * (y ⬝ᵥ y) := fun y => by
    have := (h6 y).trans (hb y)
    rwa [variance_smul_one] at this
  have he : x' - z = (1 - G) *ᵥ (x - z) := by
    rw [h3, sub_mulVec, one_mulVec, ← neg_sub x z, mulVec_neg]
    abel
  have hw' : ∀ y, (y ⬝ᵥ (x' - z)) ^ 2 ≤ v * variance C' y := by
    intro y
    have := hw ((1 - G)ᵀ *ᵥ y)
    rw [he, dotProduct_mulVec, ← mulVec_transpose]
    refine this.trans (mul_le_mul_of_nonneg_left ?_ hv)
    rw [h4, variance_add ((1 - G) * (C + q • (1 : Sq n)) * (1 - G)ᵀ), variance_conj, variance_conj]
    linarith [hR.nonneg (Gᵀ *ᵥ y)]
  refine ⟨x', C', h1, h2, ?_, fun y => ?_⟩
  · have h := hw' (x' - z)
    have h' := mul_le_mul_of_nonneg_left (hbound (x' - z)) hv
    have h0 : 0 ≤ (x' - z) ⬝ᵥ (x' - z) := by rw [dotProduct]; exact Finset.sum_nonneg fun i _ => mul_self_nonneg _
    rcases h0.eq_or_lt with h0 | h0
    · rw [← h0]; positivity
    · nlinarith
  · rw [variance_add, variance_smul_one]
    have h := hw' y
    have hy := hbound y
    calc (y ⬝ᵥ (x' - z)) ^ 2 ≤ v * variance C' y := h
      _ ≤ v * (r / (r + q) * (variance C' y + q * (y ⬝ᵥ y))) := by
        apply mul_le_mul_of_nonneg_left _ hv
        rw [div_mul_eq_mul_div, le_div_iff₀ (by positivity)]
        nlinarith
      _ = v * (r / (r + q)) * (variance C' y + q * (y ⬝ᵥ y)) := by ring

/-- What the tracking of a point does with valid covariances. -/
theorem track_ok (pinv : Sq 3 → Sq 3) (p : TrackedPoint) (z : V3) {R : Sq 3} (hC : IsCovariance p.covariance)
    (hR : IsCovariance R) {x' : V3} {C' : Sq 3}
    (h : (staticFilter 3 (1 / 1000)).newState pinv p.coordinates p.covariance z R = .ok (x', C')) :
    p.track pinv z R = .ok (Geometry.norm (p.coordinates - x'),
      { coordinates := x', covariance := C', moving := movedBeyond p.coordinates z R }) := by
  unfold TrackedPoint.track
  rw [hR.valid, hC.valid, h]
  rfl

theorem seenAt_within {r : ℝ} (hr : 0 < r) (pinv : Sq 3 → Sq 3)
    (hpinv : ∀ S, IsCovariance S → IsPseudoInverse S (pinv S)) (z : V3) (Rs : List (Sq 3)) : ∀ (R : Sq 3) (p : TrackedPoint) (v : ℝ),
    (∀ A ∈ R :: Rs, IsCovariance A ∧ NotLarger A (r • (1 : Sq 3))) → 0 ≤ v → IsCovariance p.covariance →
    Within (p.covariance + (1 / 1000 : ℝ) • (1 : Sq 3)) (p.coordinates - z) v →
    ∃ p', p.seenAt pinv z (R :: Rs) = .ok p' ∧ IsCovariance p'.covariance ∧
      (p'.coordinates - z) ⬝ᵥ (p'.coordinates - z) ≤ r * (v * (r / (r + 1 / 1000)) ^ Rs.length) := by
  induction Rs with
  | nil =>
    intro R p v hR hv hC hw
    obtain ⟨x', C', h1, h2, h3, -⟩ := within_step (by norm_num : (0 : ℝ) < 1 / 1000) hr hv pinv hpinv p.coordinates z hC
      (hR R (by simp)).1 (hR R (by simp)).2 hw
    refine ⟨{ coordinates := x', covariance := C', moving := movedBeyond p.coordinates z R }, ?_, h2, ?_⟩
    · rw [TrackedPoint.seenAt, track_ok pinv p z hC (hR R (by simp)).1 h1, Outcome.bind_ok]
      rfl
    · simpa using h3
  | cons R' Rs ih =>
    intro R p v hR hv hC hw
    obtain ⟨x', C', h1, h2, -, h4⟩ := within_step (by norm_num : (0 : ℝ) < 1 / 1000) hr hv pinv hpinv p.coordinates z hC
      (hR R (by simp)).1 (hR R (by simp)).2 hw
    obtain ⟨p', g1, g2, g3⟩ := ih R' { coordinates := x', covariance := C', moving := movedBeyond p.coordinates z R } _
      (fun A hA => hR A (List.mem_cons_of_mem _ hA)) (mul_nonneg hv (by positivity)) h2 h4
    refine ⟨p', ?_, g2, ?_⟩
    · rw [TrackedPoint.seenAt, track_ok pinv p z hC (hR R (by simp)).1 h1, Outcome.bind_ok]
      exact g1
    · rw [List.length_cons, pow_succ]
      linarith [g3]

/-- C181: a map point that is detected again and again at the place `z`, with covariances that may change but whose variances are
at most `r` in each direction, goes there: its squared distance to `z` is multiplied by `r / (r + 0.001)` or less by each detection, up to
the factor `1000 r` of the first one. -/
theorem C181_converges {r : ℝ} (hr : 0 < r) (pinv : Sq 3 → Sq 3) (hpinv : ∀ S, IsCovariance S → IsPseudoInverse S (pinv S))
    (p : TrackedPoint) (hC : IsCovariance p.covariance) (z : V3) (Rs : List (Sq 3)) (hne : Rs ≠ [])
    (hR : ∀ A ∈ Rs, IsCovariance A ∧ NotLarger A (r • (1 : Sq 3))) :
    ∃ p', p.seenAt pinv z Rs = .ok p' ∧ IsCovariance p'.covariance ∧
      ∑ i, (p'.coordinates i - z i) ^ 2 ≤ 1000 * r * (r / (r + 1 / 1000)) ^ (Rs.length - 1) * ∑ i, (p.coordinates i - z i) ^ 2 := by
  obtain ⟨R, l, rfl⟩ := List.exists_cons_of_ne_nil hne
  have hw := within_start (by norm_num : (0 : ℝ) < 1 / 1000) hC (p.coordinates - z)
  have h0 : 0 ≤ (p.coordinates - z) ⬝ᵥ (p.coordinates - z) := by
    rw [dotProduct]; exact Finset.sum_nonneg fun i _ => mul_self_nonneg _
  obtain ⟨p', h1, h2, h3⟩ := seenAt_within hr pinv hpinv z l R p _ hR (by positivity) hC hw
  refine ⟨p', h1, h2, ?_⟩
  have e : ∀ a : V3, ∑ i, (a i - z i) ^ 2 = (a - z) ⬝ᵥ (a - z) := fun a => by
    rw [dotProduct]; exact Finset.sum_congr rfl fun i _ => by rw [pow_two]; rfl
  rw [e, e, List.length_cons, Nat.add_sub_cancel]
  refine h3.trans (le_of_eq ?_)
  ring

/-- The distance to the place tends to 0. -/
theorem C181_limit {r : ℝ} (hr : 0 < r) (pinv : Sq 3 → Sq 3) (hpinv : ∀ S, IsCovariance S → IsPseudoInverse S (pinv S))
    (p : TrackedPoint) (hC : IsCovariance p.covariance) (z : V3) {d : ℝ} (hd : 0 < d) :
    ∃ N, ∀ Rs : List (Sq 3), N ≤ Rs.length → (∀ A ∈ Rs, IsCovariance A ∧ NotLarger A (r • (1 : Sq 3))) →
      ∃ p', p.seenAt pinv z Rs = .ok p' ∧ ∑ i, (p'.coordinates i - z i) ^ 2 < d := by
  have hlt : r / (r + 1 / 1000) < 1 := by rw [div_lt_one (by positivity)]; linarith
  have h0 : 0 ≤ r / (r + 1 / 1000) := by positivity
  set D := 1000 * r * ∑ i, (p.coordinates i - z i) ^ 2 with hD
  have hD0 : 0 ≤ D := by
    have : 0 ≤ ∑ i, (p.coordinates i - z i) ^ 2 := Finset.sum_nonneg fun i _ => sq_nonneg _
    positivity
  obtain ⟨N, hN⟩ := exists_pow_lt_of_lt_one (show 0 < d / (D + 1) by positivity) hlt
  refine ⟨N + 1, fun Rs hl hR => ?_⟩
  obtain ⟨p', h1, -, h3⟩ := C181_converges hr pinv hpinv p hC z Rs (fun h => by rw [h] at hl; simp at hl) hR
  refine ⟨p', h1, lt_of_le_of_lt h3 ?_⟩
  have hp : (r / (r + 1 / 1000)) ^ (Rs.length - 1) ≤ (r / (r + 1 / 1000)) ^ N := pow_le_pow_of_le_one h0 hlt.le (by omega)
  calc 1000 * r * (r / (r + 1 / 1000)) ^ (Rs.length - 1) * ∑ i, (p.coordinates i - z i) ^ 2
      = D * (r / (r + 1 / 1000)) ^ (Rs.length - 1) := by rw [hD]; ring
    _ ≤ (D + 1) * (r / (r + 1 / 1000)) ^ N := mul_le_mul (by linarith) hp (by positivity) (by positivity)
    _ < (D + 1) * (d / (D + 1)) := mul_lt_mul_of_pos_left hN (by positivity)
    _ = d := by field_simp

/-- Three detections with a standard deviation of 2 mm at most. -/
example : ∀ A ∈ [(1 : Sq 3), (4 : ℝ) • 1, (2 : ℝ) • 1], IsCovariance A ∧ NotLarger A ((4 : ℝ) • (1 : Sq 3)) := by
  have key : ∀ a : ℝ, 0 ≤ a → a ≤ 4 → IsCovariance (a • (1 : Sq 3)) ∧ NotLarger (a • (1 : Sq 3)) ((4 : ℝ) • (1 : Sq 3)) := by
    intro a h0 h4
    refine ⟨isCovariance_smul_one h0, fun y => ?_⟩
    rw [variance_smul_one, variance_smul_one]
    exact mul_le_mul_of_nonneg_right h4 (by rw [dotProduct]; exact Finset.sum_nonneg fun i _ => mul_self_nonneg _)
  intro A hA
  simp only [List.mem_cons, List.not_mem_nil, or_false] at hA
  rcases hA with rfl | rfl | rfl
  · simpa using key 1 (by norm_num) (by norm_num)
  · exact key 4 (by norm_num) (by norm_num)
  · exact key 2 (by norm_num) (by norm_num)

end RgbdSlam.Covariance
