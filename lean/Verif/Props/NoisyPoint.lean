import Verif.Props.KalmanFusion
import Mathlib.Tactic.LinearCombination

/-! # C197: a map point whose detections are not exact

C193 is about detections without error, C181 about detections that are all at one place.  Here every detection of a point that stands at `t`
is wrong in its own way; how far from `t` can the map point be?  Nothing is assumed of the errors but a bound: they are not
independent, nor zero on average. -/

namespace RgbdSlam.Covariance

open Matrix Geometry Spec

variable {n : ℕ}

/-! ## Specification -/

/-- A map point updated with detections: each of them is a place and its covariance. -/
noncomputable def Spec.trackAll (pinv : Sq 3 → Sq 3) : TrackedPoint → List (V3 × Sq 3) → Outcome TrackedPoint
  | p, [] => .ok p
  | p, d :: ds => (p.track pinv d.1 d.2).bind fun s => Spec.trackAll pinv s.2 ds

/-- A map point made from a first detection, then updated with other ones. -/
noncomputable def Spec.pointOf (pinv : Sq 3 → Sq 3) (first : V3 × Sq 3) (ds : List (V3 × Sq 3)) : Outcome TrackedPoint :=
  Spec.trackAll pinv ⟨first.1, first.2, false⟩ ds

/-- The squared distance. -/
def Spec.sqDist (a b : V3) : ℝ := ∑ i, (a i - b i) ^ 2

/-- The detection is at most `k` times as far from the place `t` as its covariance says, in each direction. -/
def Spec.WithinDeviations (k : ℝ) (t : V3) (d : V3 × Sq 3) : Prop :=
  ∀ y : V3, (∑ i, y i * (d.1 i - t i)) ^ 2 ≤ k ^ 2 * variance d.2 y

/-! ## The bound -/

theorem cauchy_two {a b v w A B : ℝ} (hv : 0 ≤ v) (hw : 0 ≤ w) (hA : 0 ≤ A) (hB : 0 ≤ B) (ha : a ^ 2 ≤ v * A) (hb : b ^ 2 ≤ w * B) :
    (a + b) ^ 2 ≤ (v + w) * (A + B) := by
  have h1 : (a * b) ^ 2 ≤ (v * B) * (w * A) := by
    calc (a * b) ^ 2 = a ^ 2 * b ^ 2 := by ring
      _ ≤ (v * A) * (w * B) := mul_le_mul ha hb (sq_nonneg _) (mul_nonneg hv hA)
      _ = _ := by ring
  have h2 : 2 * (a * b) ≤ v * B + w * A := by
    have hs : 0 ≤ v * B + w * A := add_nonneg (mul_nonneg hv hB) (mul_nonneg hw hA)
    by_contra hc
    rw [not_le] at hc
    have h3 : (v * B + w * A) ^ 2 < (2 * (a * b)) ^ 2 := by
      apply pow_lt_pow_left₀ hc hs (by norm_num)
    have h4 : 0 ≤ (v * B - w * A) ^ 2 := sq_nonneg _
    nlinarith
  nlinarith

/-- One more detection, `d` away from the true place `t`. -/
theorem noisy_step {q r v w : ℝ} (hq : 0 < q) (hr : 0 < r) (hv : 0 ≤ v) (hw0 : 0 ≤ w) (pinv : Sq n → Sq n)
    (hpinv : ∀ S, IsCovariance S → IsPseudoInverse S (pinv S)) (x z t : Fin n → ℝ) {C R : Sq n}
    (hC : IsCovariance C) (hR : IsCovariance R) (hb : NotLarger R (r • (1 : Sq n))) (hw : Within (C + q • (1 : Sq n)) (x - t) v)
    (hz : Within R (z - t) w) :
    ∃ x' C', (staticFilter n q).newState pinv x C z R = .ok (x', C') ∧ IsCovariance C' ∧
      (x' - t) ⬝ᵥ (x' - t) ≤ r * (v + w) ∧ Within (C' + q • (1 : Sq n)) (x' - t) ((v + w) * (r / (r + q))) := by
  obtain ⟨x', C', G, h1, h2, h6, h3, -, h4, -⟩ := static_step hq.le pinv hpinv x z hC hR
  have hbound : ∀ y, variance C' y ≤ r * (y ⬝ᵥ y) := fun y => by
    have := (h6 y).trans (hb y)
    rwa [variance_smul_one] at this
  have he : x' - t = (1 - G) *ᵥ (x - t) + G *ᵥ (z - t) := by
    rw [h3, sub_mulVec, one_mulVec, show z - x = (z - t) - (x - t) by abel, mulVec_sub]
    abel
  have cM : IsCovariance (C + q • (1 : Sq n)) := hC.add (isCovariance_smul_one hq.le)
  have hw' : ∀ y, (y ⬝ᵥ (x' - t)) ^ 2 ≤ (v + w) * variance C' y := by
    intro y
    have g1 := hw ((1 - G)ᵀ *ᵥ y)
    have g2 := hz (Gᵀ *ᵥ y)
    rw [he, dotProduct_add, dotProduct_mulVec, dotProduct_mulVec, ← mulVec_transpose, ← mulVec_transpose]
    rw [h4, variance_add ((1 - G) * (C + q • (1 : Sq n)) * (1 - G)ᵀ), variance_conj, variance_conj]
    exact cauchy_two hv hw0 (cM.nonneg _) (hR.nonneg _) g1 g2
  have hvw : 0 ≤ v + w := add_nonneg hv hw0
  refine ⟨x', C', h1, h2, ?_, fun y => ?_⟩
  · have h := hw' (x' - t)
    have h' := mul_le_mul_of_nonneg_left (hbound (x' - t)) hvw
    have h0 : 0 ≤ (x' - t) ⬝ᵥ (x' - t) := by rw [dotProduct]; exact Finset.sum_nonneg fun i _ => mul_self_nonneg _
    rcases h0.eq_or_lt with h0 | h0
    · rw [← h0]; positivity
    · nlinarith
  · rw [variance_add, variance_smul_one]
    have h := hw' y
    have hy := hbound y
    calc (y ⬝ᵥ (x' - t)) ^ 2 ≤ (v + w) * variance C' y := h
      _ ≤ (v + w) * (r / (r + q) * (variance C' y + q * (y ⬝ᵥ y))) := by
        apply mul_le_mul_of_nonneg_left _ hvw
        rw [div_mul_eq_mul_div, le_div_iff₀ (by positivity)]
        nlinarith
      _ = (v + w) * (r / (r + q)) * (variance C' y + q * (y ⬝ᵥ y)) := by ring

theorem within_le {C : Sq n} (hC : IsCovariance C) {e : Fin n → ℝ} {v w : ℝ} (h : Within C e v) (hvw : v ≤ w) : Within C e w :=
  fun y => (h y).trans (mul_le_mul_of_nonneg_right hvw (hC.nonneg y))

theorem withinDeviations_within {k : ℝ} {t : V3} {d : V3 × Sq 3} (h : Spec.WithinDeviations k t d) : Within d.2 (d.1 - t) (k ^ 2) := h

theorem sqDist_eq (a b : V3) : Spec.sqDist a b = (a - b) ⬝ᵥ (a - b) := by
  rw [Spec.sqDist, dotProduct]; exact Finset.sum_congr rfl fun i _ => by rw [pow_two]; rfl

/-- What is kept along the history of a point. -/
theorem pointOf_bounded {r k : ℝ} (hr : 0 < r) (pinv : Sq 3 → Sq 3) (hpinv : ∀ S, IsCovariance S → IsPseudoInverse S (pinv S)) (t : V3)
    (ds : List (V3 × Sq 3)) (hd : ∀ d ∈ ds, IsCovariance d.2 ∧ NotLarger d.2 (r • (1 : Sq 3)) ∧ Spec.WithinDeviations k t d) :
    ∀ p : TrackedPoint, IsCovariance p.covariance →
      Within (p.covariance + (1 / 1000 : ℝ) • (1 : Sq 3)) (p.coordinates - t) (k ^ 2 * (1 + 1000 * r)) →
      Spec.sqDist p.coordinates t ≤ k ^ 2 * r * (2 + 1000 * r) →
      ∃ p', Spec.trackAll pinv p ds = .ok p' ∧ IsCovariance p'.covariance ∧
        Spec.sqDist p'.coordinates t ≤ k ^ 2 * r * (2 + 1000 * r) := by
  induction ds with
  | nil => intro p hp _ hs; exact ⟨p, rfl, hp, hs⟩
  | cons d ds ih =>
    intro p hp hw _
    obtain ⟨cd, bd, wd⟩ := hd d (by simp)
    obtain ⟨x', C', h1, h2, h3, h4⟩ := noisy_step (by norm_num : (0 : ℝ) < 1 / 1000) hr (by positivity) (sq_nonneg k) pinv hpinv p.coordinates d.1 t
      hp cd bd hw (withinDeviations_within wd)
    have hC' : IsCovariance (C' + (1 / 1000 : ℝ) • (1 : Sq 3)) := h2.add (isCovariance_smul_one (by norm_num))
    obtain ⟨p', e, g1, g2⟩ := ih (fun d hd' => hd d (by simp [hd']))
      { coordinates := x', covariance := C', moving := movedBeyond p.coordinates d.1 d.2 } h2 (within_le hC' h4 (by
        rw [mul_div_assoc', div_le_iff₀ (by positivity)]
        have := sq_nonneg k
        have : 0 ≤ k ^ 2 * (1 / 1000) := by positivity
        nlinarith)) (by
        rw [sqDist_eq]
        refine h3.trans (le_of_eq ?_)
        ring)
    refine ⟨p', ?_, g1, g2⟩
    rw [Spec.trackAll, track_ok pinv p d.1 hp cd h1, Outcome.bind_ok]
    exact e

/-- C197: the point stands at `t`.  Every detection of it is within `k` standard deviations of `t` for its own covariance, and the
variances of these are at most `r` in each direction.  Then however many detections there are, and whatever their errors, the map
point is never refused and its squared distance to `t` is at most `k² r (2 + 1000 r)`: the error does not build up.

Missing, and false (`C197_farther_false`, `C197_overconfident_false`): that it is no farther from `t` than its farthest detection, or than
its own covariance says. -/
theorem C197_bounded_partial {r k : ℝ} (hr : 0 < r) (pinv : Sq 3 → Sq 3) (hpinv : ∀ S, IsCovariance S → IsPseudoInverse S (pinv S))
    (t : V3) (first : V3 × Sq 3) (ds : List (V3 × Sq 3))
    (hd : ∀ d ∈ first :: ds, IsCovariance d.2 ∧ NotLarger d.2 (r • (1 : Sq 3)) ∧ Spec.WithinDeviations k t d) :
    ∃ p, Spec.pointOf pinv first ds = .ok p ∧ IsCovariance p.covariance ∧ Spec.sqDist p.coordinates t ≤ k ^ 2 * r * (2 + 1000 * r) := by
  obtain ⟨c0, b0, w0⟩ := hd first (by simp)
  have hk := sq_nonneg k
  have w1 : Within first.2 (first.1 - t) (k ^ 2) := withinDeviations_within w0
  refine pointOf_bounded hr pinv hpinv t ds (fun d h => hd d (by simp [h])) ⟨first.1, first.2, false⟩ c0 (fun y => ?_) ?_
  · refine (w1 y).trans ?_
    rw [variance_add, variance_smul_one]
    have h1 := c0.nonneg y
    have h2 : 0 ≤ y ⬝ᵥ y := by rw [dotProduct]; exact Finset.sum_nonneg fun i _ => mul_self_nonneg _
    have h3 : 0 ≤ k ^ 2 * (1000 * r) * (variance first.2 y + 1 / 1000 * (y ⬝ᵥ y)) := by positivity
    have h4 : 0 ≤ k ^ 2 * (1 / 1000 * (y ⬝ᵥ y)) := by positivity
    nlinarith
  · rw [sqDist_eq]
    have h0 : 0 ≤ (first.1 - t) ⬝ᵥ (first.1 - t) := by rw [dotProduct]; exact Finset.sum_nonneg fun i _ => mul_self_nonneg _
    have h := w1 (first.1 - t)
    have h' := b0 (first.1 - t)
    rw [variance_smul_one] at h'
    have h2 := mul_le_mul_of_nonneg_left h' hk
    have h3 : (first.1 - t) ⬝ᵥ (first.1 - t) ≤ k ^ 2 * r := by
      rcases h0.eq_or_lt with h0 | h0
      · rw [← h0]; positivity
      · nlinarith
    have h4 : 0 ≤ k ^ 2 * r * (1 + 1000 * r) := by positivity
    nlinarith

/-! ## Equal errors in all directions -/

theorem round_step {q : ℝ} (hq : 0 < q) (pinv : Sq 3 → Sq 3) (hpinv : ∀ S, IsCovariance S → IsPseudoInverse S (pinv S)) (x z : V3) {c a : ℝ}
    (hc : 0 ≤ c) (ha : 0 ≤ a) :
    ∃ x' g, (staticFilter 3 q).newState pinv x (c • (1 : Sq 3)) z (a • (1 : Sq 3)) = .ok (x', ((1 - g) * (c + q)) • (1 : Sq 3)) ∧
      0 ≤ g ∧ g ≤ 1 ∧ x' = (1 - g) • x + g • z ∧ g = (c + q) / (c + q + a) := by
  obtain ⟨x', C', G, h1, -, -, h3, h4, -, h5⟩ := static_step hq.le pinv hpinv x z (isCovariance_smul_one hc) (isCovariance_smul_one ha)
  have hs : 0 < c + q + a := by linarith
  have hG : G = ((c + q) / (c + q + a)) • (1 : Sq 3) := by
    rw [← add_smul, ← add_smul, Matrix.mul_smul, Matrix.mul_one] at h4
    have := congrArg (fun A => (c + q + a)⁻¹ • A) h4
    simp only [smul_smul, inv_mul_cancel₀ hs.ne', one_smul] at this
    rw [this, div_eq_inv_mul]
  refine ⟨x', (c + q) / (c + q + a), ?_, by positivity, ?_, ?_, rfl⟩
  · rw [h1, h5, hG, ← add_smul]
    congr 2
    rw [show (1 : Sq 3) - ((c + q) / (c + q + a)) • (1 : Sq 3) = (1 - (c + q) / (c + q + a)) • (1 : Sq 3) by rw [sub_smul, one_smul],
      Matrix.smul_mul, Matrix.one_mul, smul_smul]
  · rw [div_le_one hs]; linarith
  · rw [h3, hG, smul_mulVec, one_mulVec]
    module

theorem convex_dist {x z t : V3} {g m : ℝ} (h0 : 0 ≤ g) (h1 : g ≤ 1) (hx : Spec.sqDist x t ≤ m) (hz : Spec.sqDist z t ≤ m) :
    Spec.sqDist ((1 - g) • x + g • z) t ≤ m := by
  simp only [Spec.sqDist, Fin.sum_univ_three, Pi.add_apply, Pi.smul_apply, smul_eq_mul] at *
  have key : ∀ a b c : ℝ, ((1 - g) * a + g * b - c) ^ 2 ≤ (1 - g) * (a - c) ^ 2 + g * (b - c) ^ 2 := by
    intro a b c
    have : 0 ≤ g * (1 - g) * (a - b) ^ 2 := by
      have : 0 ≤ 1 - g := by linarith
      positivity
    linarith [this, show (1 - g) * (a - c) ^ 2 + g * (b - c) ^ 2 - ((1 - g) * a + g * b - c) ^ 2 = g * (1 - g) * (a - b) ^ 2 by ring]
  have k0 := key (x 0) (z 0) (t 0)
  have k1 := key (x 1) (z 1) (t 1)
  have k2 := key (x 2) (z 2) (t 2)
  have g1 := mul_le_mul_of_nonneg_left hx (show 0 ≤ 1 - g by linarith)
  have g2 := mul_le_mul_of_nonneg_left hz h0
  linarith

/-- C197, when the covariance of every detection is the same in all directions: the map point is never farther from `t` than the farthest
detection. -/
theorem C197_round {m : ℝ} (pinv : Sq 3 → Sq 3) (hpinv : ∀ S, IsCovariance S → IsPseudoInverse S (pinv S)) (t : V3)
    (first : V3 × Sq 3) (ds : List (V3 × Sq 3))
    (hd : ∀ d ∈ first :: ds, (∃ a : ℝ, 0 ≤ a ∧ d.2 = a • (1 : Sq 3)) ∧ Spec.sqDist d.1 t ≤ m) :
    ∃ p, Spec.pointOf pinv first ds = .ok p ∧ Spec.sqDist p.coordinates t ≤ m := by
  obtain ⟨⟨a0, ha0, e0⟩, hm0⟩ := hd first (by simp)
  have key : ∀ (ds : List (V3 × Sq 3)), (∀ d ∈ ds, (∃ a : ℝ, 0 ≤ a ∧ d.2 = a • (1 : Sq 3)) ∧ Spec.sqDist d.1 t ≤ m) → ∀ p : TrackedPoint,
      (∃ c : ℝ, 0 ≤ c ∧ p.covariance = c • (1 : Sq 3)) → Spec.sqDist p.coordinates t ≤ m →
      ∃ p', Spec.trackAll pinv p ds = .ok p' ∧ Spec.sqDist p'.coordinates t ≤ m := by
    intro ds
    induction ds with
    | nil => intro _ p _ hp; exact ⟨p, rfl, hp⟩
    | cons d ds ih =>
      intro hd p hc hp
      obtain ⟨c, hc, ec⟩ := hc
      obtain ⟨⟨a, ha, ea⟩, hm⟩ := hd d (by simp)
      obtain ⟨x', g, h1, g0, g1, hx, -⟩ := round_step (by norm_num : (0 : ℝ) < 1 / 1000) pinv hpinv p.coordinates d.1 hc ha
      have cp : IsCovariance p.covariance := by rw [ec]; exact isCovariance_smul_one hc
      have cd : IsCovariance d.2 := by rw [ea]; exact isCovariance_smul_one ha
      rw [← ec, ← ea] at h1
      obtain ⟨p', e, hp'⟩ := ih (fun d hd' => hd d (by simp [hd']))
        ⟨x', ((1 - g) * (c + 1 / 1000)) • (1 : Sq 3), movedBeyond p.coordinates d.1 d.2⟩
        ⟨_, mul_nonneg (by linarith) (by linarith), rfl⟩ (by rw [hx]; exact convex_dist g0 g1 hp hm)
      refine ⟨p', ?_, hp'⟩
      rw [Spec.trackAll, track_ok pinv p d.1 cp cd h1, Outcome.bind_ok]
      exact e
  exact key ds (fun d h => hd d (by simp [h])) ⟨first.1, first.2, false⟩ ⟨a0, ha0, e0⟩ hm0

/-! ## Farther than all detections -/

/-- Covariances of two detections of a point, in square millimetres: deviations of 3 mm along an axis and 1 mm across, and of 4.6 mm along the
diagonal and 1 mm across. -/
noncomputable def sharpAlong : Sq 3 := !![10 - 1 / 1000, 0, 0; 0, 1 - 1 / 1000, 0; 0, 0, 1 - 1 / 1000]
def sharpAcross : Sq 3 := !![11, 10, 0; 10, 11, 0; 0, 0, 1]

theorem variance_three (A : Sq 3) (y : V3) : variance A y = y ⬝ᵥ (A *ᵥ y) := variance_eq A y

theorem sharpAlong_covariance : IsCovariance sharpAlong := by
  refine ⟨?_, fun y => ?_⟩
  · intro i j; fin_cases i <;> fin_cases j <;> simp [sharpAlong]
  · rw [variance_three]
    simp only [sharpAlong, dotProduct, mulVec, Fin.sum_univ_three, of_apply, cons_val', cons_val_zero, cons_val_one, cons_val_two, cons_val_fin_one,
      head_cons, tail_cons, head_fin_const, empty_val']
    nlinarith [sq_nonneg (y 0), sq_nonneg (y 1), sq_nonneg (y 2)]

theorem sharpAcross_covariance : IsCovariance sharpAcross := by
  refine ⟨?_, fun y => ?_⟩
  · intro i j; fin_cases i <;> fin_cases j <;> simp [sharpAcross]
  · rw [variance_three]
    simp only [sharpAcross, dotProduct, mulVec, Fin.sum_univ_three, of_apply, cons_val', cons_val_zero, cons_val_one, cons_val_two, cons_val_fin_one,
      head_cons, tail_cons, head_fin_const, empty_val']
    nlinarith [sq_nonneg (y 0 + y 1), sq_nonneg (y 0), sq_nonneg (y 1), sq_nonneg (y 2)]

/-- C197 is false of the distance to the farthest detection: wherever the point stands, two detections 1 mm away from it, one above and
one below, within 1.1 standard deviations, give a map point more than 1.5 mm away. -/
theorem C197_farther_false (pinv : Sq 3 → Sq 3) (hpinv : ∀ S, IsCovariance S → IsPseudoInverse S (pinv S)) (t : V3) :
    ∃ a b : V3 × Sq 3, (IsCovariance a.2 ∧ IsCovariance b.2) ∧ Spec.sqDist a.1 t = 1 ∧ Spec.sqDist b.1 t = 1 ∧
      Spec.WithinDeviations (11 / 10) t a ∧ Spec.WithinDeviations (11 / 10) t b ∧
      ∃ p, Spec.pointOf pinv a [b] = .ok p ∧ (3 / 2) ^ 2 < Spec.sqDist p.coordinates t := by
  refine ⟨(t + ![0, 1, 0], sharpAlong), (t + ![0, -1, 0], sharpAcross), ⟨sharpAlong_covariance, sharpAcross_covariance⟩, ?_, ?_, ?_, ?_, ?_⟩
  · simp [Spec.sqDist, Fin.sum_univ_three]
  · simp [Spec.sqDist, Fin.sum_univ_three]
  · intro y
    rw [variance_three]
    simp only [sharpAlong, dotProduct, mulVec, Fin.sum_univ_three, of_apply, cons_val', cons_val_zero, cons_val_one, cons_val_two, cons_val_fin_one,
      head_cons, tail_cons, head_fin_const, empty_val', Pi.add_apply]
    nlinarith [sq_nonneg (y 0), sq_nonneg (y 1), sq_nonneg (y 2)]
  · intro y
    rw [variance_three]
    simp only [sharpAcross, dotProduct, mulVec, Fin.sum_univ_three, of_apply, cons_val', cons_val_zero, cons_val_one, cons_val_two, cons_val_fin_one,
      head_cons, tail_cons, head_fin_const, empty_val', Pi.add_apply]
    nlinarith [sq_nonneg (11 * y 0 + 10 * y 1), sq_nonneg (y 0), sq_nonneg (y 1), sq_nonneg (y 2)]
  · obtain ⟨x', C', G, h1, -, -, h3, h4, -⟩ := static_step (by norm_num : (0 : ℝ) ≤ 1 / 1000) pinv hpinv (t + ![0, 1, 0]) (t + ![0, -1, 0])
      sharpAlong_covariance sharpAcross_covariance
    have hM : sharpAlong + (1 / 1000 : ℝ) • (1 : Sq 3) = !![10, 0, 0; 0, 1, 0; 0, 0, 1] := by
      ext i j; fin_cases i <;> fin_cases j <;> simp [sharpAlong]
    rw [hM] at h4
    have hS : (!![10, 0, 0; 0, 1, 0; 0, 0, 1] + sharpAcross) *ᵥ ![20 / 152, -42 / 152, 0] = (![0, -2, 0] : V3) := by
      ext i; fin_cases i <;> simp [sharpAcross, mulVec, dotProduct, Fin.sum_univ_three] <;> norm_num
    have hd : (t + ![0, -1, 0]) - (t + ![0, 1, 0]) = (![0, -2, 0] : V3) := by
      ext i; fin_cases i <;> simp
      norm_num
    rw [hd, ← hS, mulVec_mulVec, h4] at h3
    refine ⟨⟨x', C', movedBeyond (t + ![0, 1, 0]) (t + ![0, -1, 0]) sharpAcross⟩, ?_, ?_⟩
    · rw [Spec.pointOf, Spec.trackAll,
        track_ok pinv ⟨t + ![0, 1, 0], sharpAlong, false⟩ _ sharpAlong_covariance sharpAcross_covariance h1, Outcome.bind_ok]
      rfl
    · have hv : (!![10, 0, 0; 0, 1, 0; 0, 0, 1] : Sq 3) *ᵥ ![20 / 152, -42 / 152, 0] = (![200 / 152, -42 / 152, 0] : V3) := by
        ext i; fin_cases i <;> simp [mulVec, dotProduct, Fin.sum_univ_three] <;> norm_num
      rw [hv] at h3
      have e0 : x' 0 - t 0 = 200 / 152 := by
        have : x' 0 = t 0 + 0 + 200 / 152 := by rw [h3]; rfl
        rw [this]; ring
      have e1 : x' 1 - t 1 = 110 / 152 := by
        have : x' 1 = t 1 + 1 + -42 / 152 := by rw [h3]; rfl
        rw [this]; ring
      have e2 : x' 2 - t 2 = 0 := by
        have : x' 2 = t 2 + 0 + 0 := by rw [h3]; rfl
        rw [this]; ring
      simp only [Spec.sqDist, Fin.sum_univ_three]
      rw [e0, e1, e2]
      norm_num

/-- C197 is false of the deviations that the map point itself announces: wherever the point stands, two detections at the same place 1 mm away
from it, at one standard deviation, give a map point at that place, with a standard deviation of 0.71 mm. -/
theorem C197_overconfident_false (pinv : Sq 3 → Sq 3) (hpinv : ∀ S, IsCovariance S → IsPseudoInverse S (pinv S)) (t : V3) :
    ∃ a : V3 × Sq 3, IsCovariance a.2 ∧ Spec.WithinDeviations 1 t a ∧
      ∃ p, Spec.pointOf pinv a [a] = .ok p ∧ p.coordinates = a.1 ∧ ¬ Spec.WithinDeviations 1 t (p.coordinates, p.covariance) ∧
        Spec.sqDist p.coordinates t = 1 ∧ ∀ y, variance p.covariance y = 1001 / 2001 * ∑ i, y i ^ 2 := by
  obtain ⟨x', g, h1, -, -, hx, hg⟩ := round_step (by norm_num : (0 : ℝ) < 1 / 1000) pinv hpinv (t + ![1, 0, 0]) (t + ![1, 0, 0])
    (c := 1) (a := 1) (by norm_num) (by norm_num)
  have hx' : x' = t + ![1, 0, 0] := by rw [hx, ← add_smul, sub_add_cancel, one_smul]
  have hc : (1 - g) * (1 + 1 / 1000) = 1001 / 2001 := by rw [hg]; norm_num
  rw [hc] at h1
  have hv : ∀ (c : ℝ) (y : V3), variance (c • (1 : Sq 3)) y = c * ∑ i, y i ^ 2 := fun c y => by
    rw [variance_smul_one, dotProduct]
    congr 1
    exact Finset.sum_congr rfl fun i _ => by rw [pow_two]
  have e2 : (![1, 0, 0] : V3) 2 = 0 := rfl
  have c1 : IsCovariance ((1 : ℝ) • (1 : Sq 3)) := isCovariance_smul_one (by norm_num)
  refine ⟨(t + ![1, 0, 0], (1 : ℝ) • (1 : Sq 3)), c1, fun y => ?_,
    ⟨x', (1001 / 2001 : ℝ) • (1 : Sq 3), movedBeyond (t + ![1, 0, 0]) (t + ![1, 0, 0]) ((1 : ℝ) • (1 : Sq 3))⟩, ?_, hx', fun h => ?_, ?_, hv _⟩
  · rw [hv]
    simp only [Fin.sum_univ_three, Pi.add_apply, cons_val_zero, cons_val_one, cons_val_two, head_cons, tail_cons]
    nlinarith [sq_nonneg (y 0), sq_nonneg (y 1), sq_nonneg (y 2)]
  · rw [Spec.pointOf, Spec.trackAll, track_ok pinv ⟨t + ![1, 0, 0], (1 : ℝ) • (1 : Sq 3), false⟩ _ c1 c1 h1, Outcome.bind_ok]
    rfl
  · have := h ![1, 0, 0]
    simp only [hx', hv, Fin.sum_univ_three, e2] at this
    norm_num at this
  · simp only [hx', Spec.sqDist, Fin.sum_univ_three, Pi.add_apply, add_sub_cancel_left, e2]
    norm_num

/-! ## The hypotheses are met -/

/-- Detections of a point at the origin, with errors of 1 mm and deviations of 1 and 2 mm: `r` is 4, `k` is 1. -/
example : ∀ d ∈ [((![1, 0, 0] : V3), (1 : ℝ) • (1 : Sq 3)), (![0, -1, 0], (4 : ℝ) • 1), (![0, 0, 1], (2 : ℝ) • 1)],
    (IsCovariance d.2 ∧ NotLarger d.2 ((4 : ℝ) • (1 : Sq 3)) ∧ Spec.WithinDeviations 1 0 d) ∧
      (∃ a : ℝ, 0 ≤ a ∧ d.2 = a • (1 : Sq 3)) ∧ Spec.sqDist d.1 0 ≤ 1 := by
  have key : ∀ (u : V3) (a : ℝ), 1 ≤ a → a ≤ 4 → ∑ i, u i ^ 2 = 1 →
      (IsCovariance (a • (1 : Sq 3)) ∧ NotLarger (a • (1 : Sq 3)) ((4 : ℝ) • (1 : Sq 3)) ∧ Spec.WithinDeviations 1 0 (u, a • (1 : Sq 3))) ∧
        (∃ b : ℝ, 0 ≤ b ∧ a • (1 : Sq 3) = b • (1 : Sq 3)) ∧ Spec.sqDist u 0 ≤ 1 := by
    intro u a h1 h4 hu
    refine ⟨⟨isCovariance_smul_one (by linarith), fun y => ?_, fun y => ?_⟩, ⟨a, by linarith, rfl⟩, by simp [Spec.sqDist, hu]⟩
    · rw [variance_smul_one, variance_smul_one]
      exact mul_le_mul_of_nonneg_right h4 (by rw [dotProduct]; exact Finset.sum_nonneg fun i _ => mul_self_nonneg _)
    · rw [variance_smul_one]
      have hcs : (∑ i, y i * u i) ^ 2 ≤ (∑ i, y i ^ 2) * ∑ i, u i ^ 2 := Finset.sum_mul_sq_le_sq_mul_sq _ _ _
      rw [hu, mul_one] at hcs
      have h0 : 0 ≤ ∑ i, y i ^ 2 := Finset.sum_nonneg fun i _ => sq_nonneg _
      have e : y ⬝ᵥ y = ∑ i, y i ^ 2 := by rw [dotProduct]; exact Finset.sum_congr rfl fun i _ => by rw [pow_two]
      simp only [Pi.zero_apply, sub_zero]
      rw [e]
      nlinarith
  intro d hd
  simp only [List.mem_cons, List.not_mem_nil, or_false] at hd
  rcases hd with rfl | rfl | rfl
  · exact key _ 1 (by norm_num) (by norm_num) (by simp [Fin.sum_univ_three])
  · exact key _ 4 (by norm_num) (by norm_num) (by simp [Fin.sum_univ_three])
  · exact key _ 2 (by norm_num) (by norm_num) (by simp [Fin.sum_univ_three])

end RgbdSlam.Covariance
