import Verif.Model.LsdNfa
import Verif.Spec.LsdNfa
import Mathlib.Analysis.Complex.ExponentialBounds
import Mathlib.Analysis.SpecialFunctions.Pow.Real
import Mathlib.Data.Nat.Choose.Sum
import Mathlib.Tactic.Linarith
import Mathlib.Tactic.NormNum
/-
C160: how meaningful a rectangle is.
-/
namespace RgbdSlam.Lsd

theorem meaningful_eq (logNt : ℝ) (n k : ℕ) (p : ℝ) (h : 0 < Spec.chance n k p) :
    Spec.meaningful logNt n k p = -logNt - Real.logb 10 (Spec.chance n k p) := by
  unfold Spec.meaningful
  rw [Real.logb_mul (by positivity) h.ne', Real.logb_rpow (by norm_num) (by norm_num)]
  ring

/-- C160 (partial: no pixel, no aligned pixel, or only aligned pixels): the value is exact. -/
theorem C160_meaningful_partial (logGamma : ℝ → ℝ) (logNt : ℝ) (n k : ℕ) (p : ℝ) (hp : 0 < p) (hk : k = 0 ∨ k = n) :
    nfa logGamma logNt n k p = Spec.meaningful logNt n k p := by
  have hall : Spec.chance n 0 p = 1 := by
    unfold Spec.chance
    have h := add_pow p (1 - p) n
    rw [add_sub_cancel, one_pow] at h
    rw [show Finset.Icc 0 n = Finset.range (n + 1) by ext i; simp]
    refine Eq.trans ?_ h.symm
    exact Finset.sum_congr rfl fun i _ => by ring
  rcases hk with rfl | rfl
  · rw [meaningful_eq _ _ _ _ (by rw [hall]; norm_num), hall, Real.logb_one]
    simp [nfa]
  · have htop : Spec.chance k k p = p ^ k := by simp [Spec.chance]
    rw [meaningful_eq _ _ _ _ (by rw [htop]; positivity), htop, Real.logb_pow]
    unfold nfa
    by_cases h0 : k = 0
    · subst h0
      simp
    · rw [if_neg (by simp [h0]), if_pos rfl]

/-! ### The sum -/

/-- The probability that exactly `i` of `n` pixels are aligned. -/
noncomputable def binom (n : ℕ) (p : ℝ) (i : ℕ) : ℝ := (n.choose i : ℝ) * p ^ i * (1 - p) ^ (n - i)

theorem binom_nonneg {n : ℕ} {p : ℝ} (hp : 0 < p) (hp1 : p < 1) (i : ℕ) : 0 ≤ binom n p i := by
  have : 0 < 1 - p := by linarith
  unfold binom
  positivity

theorem binom_pos {n : ℕ} {p : ℝ} (hp : 0 < p) (hp1 : p < 1) {i : ℕ} (hi : i ≤ n) : 0 < binom n p i := by
  have : 0 < 1 - p := by linarith
  have := Nat.choose_pos hi
  unfold binom
  positivity

/-- The factor of the loop leads from a term to the next one. -/
theorem binom_succ {n : ℕ} {p : ℝ} (hp1 : p < 1) {i : ℕ} (hi : 0 < i) (hin : i ≤ n) :
    binom n p i = binom n p (i - 1) * (((n : ℝ) - i + 1) / i * (p / (1 - p))) := by
  obtain ⟨j, rfl⟩ : ∃ j, i = j + 1 := ⟨i - 1, by omega⟩
  have h1 : (1 - p) ≠ 0 := by linarith
  have hc : ((n.choose (j + 1) : ℕ) : ℝ) * ((j : ℝ) + 1) = (n.choose j : ℝ) * ((n : ℝ) - j) := by
    have h := Nat.choose_succ_right_eq n j
    have h' : ((n.choose (j + 1) * (j + 1) : ℕ) : ℝ) = ((n.choose j * (n - j) : ℕ) : ℝ) := by rw [h]
    push_cast [Nat.cast_sub (show j ≤ n by omega)] at h'
    exact h'
  unfold binom
  rw [Nat.add_sub_cancel, show n - j = (n - (j + 1)) + 1 by omega]
  have hj : ((j : ℝ) + 1) ≠ 0 := by positivity
  push_cast
  field_simp
  linear_combination p ^ (j + 1) * (1 - p) ^ (n - (j + 1)) * (1 - p) * hc

/-- The terms after `i` are less than those of a geometric sequence. -/
theorem binom_geometric {n : ℕ} {p : ℝ} (hp : 0 < p) (hp1 : p < 1) {i : ℕ} (hi : 0 < i) (m : ℕ)
    (hm : i + m ≤ n) :
    binom n p (i + m) ≤ binom n p i * (((n : ℝ) - i + 1) / i * (p / (1 - p))) ^ m := by
  have h1 : 0 < 1 - p := by linarith
  induction m with
  | zero => simp
  | succ m ih =>
    have hb := ih (by omega)
    have hq : 0 ≤ p / (1 - p) := by positivity
    rw [binom_succ hp1 (i := i + (m + 1)) (by omega) hm, show i + (m + 1) - 1 = i + m by omega, pow_succ,
      ← mul_assoc (binom n p i)]
    have hi' : (0 : ℝ) < i := by exact_mod_cast hi
    have hle : (i : ℝ) + m + 1 ≤ n := by exact_mod_cast (by omega : i + m + 1 ≤ n)
    have hfac : ((n : ℝ) - ((i + (m + 1) : ℕ) : ℝ) + 1) / ((i + (m + 1) : ℕ) : ℝ) ≤ ((n : ℝ) - i + 1) / i := by
      push_cast
      have hm0 : (0 : ℝ) ≤ m := by positivity
      rw [div_le_div_iff₀ (by positivity) hi']
      nlinarith [mul_nonneg hm0 hi'.le]
    have hnn : 0 ≤ ((n : ℝ) - ((i + (m + 1) : ℕ) : ℝ) + 1) / ((i + (m + 1) : ℕ) : ℝ) := by
      push_cast
      apply div_nonneg <;> [linarith; positivity]
    apply mul_le_mul hb (mul_le_mul_of_nonneg_right hfac hq) (mul_nonneg hnn hq)
    have := hnn.trans hfac
    exact mul_nonneg (binom_nonneg hp hp1 _) (pow_nonneg (mul_nonneg this hq) _)

/-- What is left of the sum after `i` is at most the error computed by the loop. -/
theorem rest_le {n : ℕ} {p : ℝ} (hp : 0 < p) (hp1 : p < 1) {i : ℕ} (hi : 0 < i) (hin : i ≤ n)
    (hne : ((n : ℝ) - i + 1) / i * (p / (1 - p)) ≠ 1) :
    ∑ j ∈ Finset.Icc (i + 1) n, binom n p j ≤ binom n p i *
      ((1 - (((n : ℝ) - i + 1) / i * (p / (1 - p))) ^ (n - i + 1)) / (1 - ((n : ℝ) - i + 1) / i * (p / (1 - p))) - 1) := by
  generalize hr : ((n : ℝ) - i + 1) / i * (p / (1 - p)) = r at hne
  have hgeo : (1 - r ^ (n - i + 1)) / (1 - r) = ∑ m ∈ Finset.range (n - i + 1), r ^ m := by
    rw [geom_sum_eq hne, div_eq_div_iff (sub_ne_zero.2 hne.symm) (sub_ne_zero.2 hne)]
    ring
  rw [hgeo, Finset.sum_range_succ', pow_zero, add_sub_cancel_right, Finset.mul_sum]
  have hIcc : ∑ j ∈ Finset.Icc (i + 1) n, binom n p j = ∑ m ∈ Finset.range (n - i), binom n p (i + (m + 1)) := by
    rw [show Finset.Icc (i + 1) n = Finset.Ico (i + 1) (n + 1) by ext; simp, Finset.sum_Ico_eq_sum_range]
    rw [show n + 1 - (i + 1) = n - i by omega]
    refine Finset.sum_congr rfl fun m _ => ?_
    rw [show i + 1 + m = i + (m + 1) by omega]
  rw [hIcc]
  refine Finset.sum_le_sum fun m hm => ?_
  rw [Finset.mem_range] at hm
  have := binom_geometric (n := n) hp hp1 hi (m + 1) (by omega)
  rwa [hr] at this

/-- The loop, with all terms multiplied by `c`. -/
theorem nfaLoop_spec {n k : ℕ} {p : ℝ} (hp : 0 < p) (hp1 : p < 1) (logNt c : ℝ) (hc : 0 < c) :
    ∀ (left i : ℕ), k < i → i + left = n + 1 → ∀ tail : ℝ, tail = c * ∑ j ∈ Finset.Ico k i, binom n p j →
    ∃ T, nfaLoop n (p / (1 - p)) logNt left i (c * binom n p (i - 1)) tail = c * T ∧
      ∑ j ∈ Finset.Ico k i, binom n p j ≤ T ∧ T ≤ Spec.chance n k p ∧
      Spec.chance n k p ≤ (1 + |-Real.logb 10 (c * T) - logNt| / 10) * T
  | 0, i, _, hl, tail, ht => by
    have e : ∑ j ∈ Finset.Ico k i, binom n p j = Spec.chance n k p := by
      unfold Spec.chance
      rw [show Finset.Ico k i = Finset.Icc k n by ext; simp; omega]
      rfl
    have hpos : 0 ≤ Spec.chance n k p := by
      rw [← e]
      exact Finset.sum_nonneg fun j _ => binom_nonneg hp hp1 j
    refine ⟨Spec.chance n k p, ?_, e.le, le_refl _, ?_⟩
    · rw [nfaLoop, ht, e]
    · nlinarith [mul_nonneg (abs_nonneg (-Real.logb 10 (c * Spec.chance n k p) - logNt)) hpos]
  | left + 1, i, hk, hl, tail, ht => by
    have hin : i ≤ n := by omega
    have hi0 : 0 < i := by omega
    have hterm : c * binom n p (i - 1) * (((n : ℝ) - i + 1) / i * (p / (1 - p))) = c * binom n p i := by
      rw [binom_succ hp1 hi0 hin]; ring
    have htail : tail + c * binom n p i = c * ∑ j ∈ Finset.Ico k (i + 1), binom n p j := by
      rw [Finset.sum_Ico_succ_top (by omega), ht]; ring
    rw [nfaLoop, hterm, htail]
    have hmono : ∑ j ∈ Finset.Ico k i, binom n p j ≤ ∑ j ∈ Finset.Ico k (i + 1), binom n p j := by
      rw [Finset.sum_Ico_succ_top (by omega)]
      linarith [binom_nonneg hp hp1 (n := n) i]
    split_ifs with h
    · obtain ⟨-, hne, herr⟩ := h
      have hrest := rest_le hp hp1 hi0 hin hne
      have hsplit : Spec.chance n k p =
          ∑ j ∈ Finset.Ico k (i + 1), binom n p j + ∑ j ∈ Finset.Icc (i + 1) n, binom n p j := by
        rw [show Finset.Icc (i + 1) n = Finset.Ico (i + 1) (n + 1) by ext; simp,
          Finset.sum_Ico_consecutive _ (by omega) (by omega)]
        unfold Spec.chance
        rw [show Finset.Icc k n = Finset.Ico k (n + 1) by ext; simp]
        rfl
      refine ⟨_, rfl, hmono, ?_, ?_⟩
      · rw [hsplit]
        linarith [Finset.sum_nonneg fun j (_ : j ∈ Finset.Icc (i + 1) n) => binom_nonneg hp hp1 (n := n) j]
      · rw [hsplit]
        generalize ∑ j ∈ Finset.Ico k (i + 1), binom n p j = A at *
        generalize ∑ j ∈ Finset.Icc (i + 1) n, binom n p j = B at *
        have h2 : c * B ≤ c * (|-Real.logb 10 (c * A) - logNt| / 10 * A) := by
          have h3 := mul_le_mul_of_nonneg_left hrest hc.le
          rw [← mul_assoc] at h3
          refine h3.trans (herr.le.trans (le_of_eq ?_))
          ring
        have h4 := le_of_mul_le_mul_left h2 hc
        linarith
    · obtain ⟨T, h1, h2, h3⟩ := nfaLoop_spec (n := n) (k := k) hp hp1 logNt c hc left (i + 1) (by omega) (by omega) _ rfl
      rw [Nat.add_sub_cancel] at h1
      exact ⟨T, h1, hmono.trans h2, h3⟩

/-- What `double_equal` takes for zero. -/
theorem isZero_iff {a : ℝ} (ha : 0 < a) : isZero a = true ↔ a ≤ 100 / 2 ^ 1074 := by
  have hm : (0 : ℝ) < 1 / 2 ^ 1022 := by positivity
  have e : (100 : ℝ) / 2 ^ 1074 = 100 * (1 / 2 ^ 52) * (1 / 2 ^ 1022) := by
    rw [show (1074 : ℕ) = 52 + 1022 from rfl, pow_add]
    field_simp
  unfold isZero
  rw [if_neg ha.ne', decide_eq_true_iff, abs_of_pos ha, div_le_iff₀ (lt_max_of_lt_left ha), e]
  generalize (1 : ℝ) / 2 ^ 1022 = m at hm
  rcases le_total a m with h | h
  · rw [max_eq_right h]
  · rw [max_eq_left h]
    have h1 : (100 : ℝ) * (1 / 2 ^ 52) < 1 := by norm_num
    constructor
    · intro h2
      nlinarith
    · intro h2
      nlinarith

/-- The first term of the sum, with the mistake of the code. -/
theorem first_term {logGamma : ℝ → ℝ} (hg : ∀ m : ℕ, logGamma ((m : ℝ) + 1) = Real.log (m.factorial : ℝ)) {n k : ℕ} {p : ℝ}
    (hp : 0 < p) (hp1 : p < 1) (hkn : k < n) :
    Real.exp (((n : ℝ) + 1) - logGamma (k + 1) - logGamma ((n - k : ℕ) + 1) + k * Real.log p
      + (n - k : ℕ) * Real.log (1 - p)) = Real.exp (n + 1) / n.factorial * binom n p k := by
  have h1p : 0 < 1 - p := by linarith
  rw [hg k, hg (n - k), Real.exp_add, Real.exp_add, Real.exp_sub, Real.exp_sub, Real.exp_log (by positivity),
    Real.exp_log (by positivity), ← Real.log_pow, ← Real.log_pow, Real.exp_log (by positivity),
    Real.exp_log (by positivity)]
  have hch := Nat.choose_mul_factorial_mul_factorial hkn.le
  have hch' : (n.choose k : ℝ) * k.factorial * (n - k).factorial = n.factorial := by exact_mod_cast hch
  unfold binom
  rw [← hch']
  have := Nat.choose_pos hkn.le
  have h3 : (0 : ℝ) < n.choose k := by exact_mod_cast this
  have h4 : (k.factorial : ℝ) ≠ 0 := by positivity
  have h5 : ((n - k).factorial : ℝ) ≠ 0 := by positivity
  field_simp
/-- C160 (partial: the value is shifted, and an error of ten percent is accepted): for every number of pixels, of aligned
pixels and probability, with an exact logarithm of the gamma function, and a first term that the code does not
take for zero: the value
is that of a probability `T` that is at most the true one, and misses at most a part of it of one tenth of the value; but
the probability is multiplied by `e ^ (n + 1) / n!`. -/
theorem C160_shifted_partial (logGamma : ℝ → ℝ) (hg : ∀ m : ℕ, logGamma ((m : ℝ) + 1) = Real.log (m.factorial : ℝ))
    (logNt : ℝ) (n k : ℕ) (p : ℝ) (hp : 0 < p) (hp1 : p < 1) (hk : 0 < k) (hkn : k < n)
    (hnormal : 100 / 2 ^ 1074 < Real.exp (n + 1) / n.factorial * ((n.choose k : ℝ) * p ^ k * (1 - p) ^ (n - k))) :
    ∃ T, 0 < T ∧ T ≤ Spec.chance n k p ∧ Spec.chance n k p ≤ (1 + |nfa logGamma logNt n k p| / 10) * T ∧
      nfa logGamma logNt n k p = -logNt - Real.logb 10 (Real.exp (n + 1) / n.factorial * T) := by
  have h1p : 0 < 1 - p := by linarith
  have hc : (0 : ℝ) < Real.exp (n + 1) / n.factorial := by positivity
  have hterm := first_term hg hp hp1 hkn
  have hnz : isZero (Real.exp (n + 1) / n.factorial * binom n p k) = false := by
    have hpos : 0 < Real.exp (n + 1) / n.factorial * binom n p k := mul_pos hc (binom_pos hp hp1 hkn.le)
    rw [← Bool.not_eq_true, isZero_iff hpos]
    exact not_le.2 hnormal
  obtain ⟨T, h1, h2, h3, h4⟩ := nfaLoop_spec (n := n) (k := k) hp hp1 logNt _ hc (n - k) (k + 1) (Nat.lt_succ_self k) (by omega)
    (Real.exp (n + 1) / n.factorial * binom n p k) (by simp)
  rw [Nat.add_sub_cancel] at h1
  have hv : nfa logGamma logNt n k p = -Real.logb 10 (Real.exp (n + 1) / n.factorial * T) - logNt := by
    unfold nfa
    rw [if_neg (by omega), if_neg (by omega)]
    dsimp only
    rw [hterm, hnz, if_neg (by simp)]
    have h1' : nfaLoop n (p / (1 - p)) logNt (n - k) (k + 1) (Real.exp (n + 1) / n.factorial * binom n p k)
      (Real.exp (n + 1) / n.factorial * binom n p k) = _ := h1
    rw [h1']
  refine ⟨T, ?_, h3, ?_, ?_⟩
  · have : 0 < ∑ j ∈ Finset.Ico k (k + 1), binom n p j := by simpa using binom_pos hp hp1 hkn.le
    linarith
  · rw [hv]; exact h4
  · rw [hv]; ring

/-- Non-vacuity: three aligned pixels of eight, of which one of eight is aligned by chance. -/
example : ∃ logGamma : ℝ → ℝ, (∀ m : ℕ, logGamma ((m : ℝ) + 1) = Real.log (m.factorial : ℝ)) ∧
    100 / 2 ^ 1074 < Real.exp ((8 : ℕ) + 1) / (8 : ℕ).factorial * (((8 : ℕ).choose 3 : ℝ) * (1 / 8) ^ 3 *
      (1 - 1 / 8) ^ (8 - 3)) := by
  refine ⟨fun x => Real.log ((⌊x⌋₊ - 1).factorial : ℝ), fun m => ?_, ?_⟩
  · have : ⌊(m : ℝ) + 1⌋₊ = m + 1 := by exact_mod_cast Nat.floor_natCast (m + 1)
    simp only [this, Nat.add_sub_cancel]
  · have he : (1 : ℝ) ≤ Real.exp ((8 : ℕ) + 1) := Real.one_le_exp (by positivity)
    have h1 : (100 : ℝ) / 2 ^ 1074 < 1 / 2 ^ 40 := by
      rw [div_lt_div_iff₀ (by positivity) (by positivity), show (1074 : ℕ) = 50 + 1024 from rfl, pow_add]
      have : (1 : ℝ) ≤ 2 ^ 1024 := one_le_pow₀ (by norm_num)
      generalize (2 : ℝ) ^ 1024 = y at this
      norm_num
      linarith
    have h2 : (8 : ℕ).factorial = 40320 := by decide
    have h3 : (8 : ℕ).choose 3 = 56 := by decide
    rw [h2, h3]
    refine h1.trans_le ?_
    have : (1 : ℝ) / 40320 ≤ Real.exp ((8 : ℕ) + 1) / (40320 : ℕ) := by
      push_cast at he ⊢
      exact div_le_div_of_nonneg_right he (by norm_num)
    refine le_trans ?_ (mul_le_mul_of_nonneg_right this (by norm_num))
    norm_num

/-- C160 (partial: as above): with a first term that the code takes for zero, the value is that of this term alone when the
aligned pixels are more than expected, and that of a certain event otherwise. -/
theorem C160_tiny_partial (logGamma : ℝ → ℝ) (hg : ∀ m : ℕ, logGamma ((m : ℝ) + 1) = Real.log (m.factorial : ℝ))
    (logNt : ℝ) (n k : ℕ) (p : ℝ) (hp : 0 < p) (hp1 : p < 1) (hk : 0 < k) (hkn : k < n)
    (htiny : Real.exp (n + 1) / n.factorial * ((n.choose k : ℝ) * p ^ k * (1 - p) ^ (n - k)) ≤ 100 / 2 ^ 1074) :
    (n * p < k → nfa logGamma logNt n k p = -logNt -
      Real.logb 10 (Real.exp (n + 1) / n.factorial * ((n.choose k : ℝ) * p ^ k * (1 - p) ^ (n - k)))) ∧
    ((k : ℝ) ≤ n * p → nfa logGamma logNt n k p = -logNt) := by
  have hpos : 0 < Real.exp (n + 1) / n.factorial * binom n p k :=
    mul_pos (by positivity) (binom_pos hp hp1 hkn.le)
  have hterm := first_term hg hp hp1 hkn
  have hz := (isZero_iff hpos).2 htiny
  have hlog := congrArg Real.log hterm
  rw [Real.log_exp] at hlog
  unfold nfa
  rw [if_neg (by omega), if_neg (by omega)]
  dsimp only
  rw [hterm, if_pos hz]
  constructor
  · intro h
    rw [if_pos h, hlog, Real.logb]
    unfold binom
    ring
  · intro h
    rw [if_neg (not_lt.2 h)]

/-- Non-vacuity: with few aligned pixels by chance, the first term is as small as wanted. -/
example : ∃ p : ℝ, 0 < p ∧ p < 1 ∧ ((2 : ℕ) : ℝ) * p < (1 : ℕ) ∧
    Real.exp ((2 : ℕ) + 1) / (2 : ℕ).factorial * (((2 : ℕ).choose 1 : ℝ) * p ^ 1 * (1 - p) ^ (2 - 1)) ≤ 100 / 2 ^ 1074 := by
  have he := Real.exp_pos (((2 : ℕ) : ℝ) + 1)
  have h1 : 1 < Real.exp (((2 : ℕ) : ℝ) + 1) := Real.one_lt_exp_iff.2 (by positivity)
  have ht : (0 : ℝ) < 100 / 2 ^ 1074 := by positivity
  have ht1 : (100 : ℝ) / 2 ^ 1074 < 1 / 4 := by
    rw [div_lt_div_iff₀ (by positivity) (by norm_num), show (1074 : ℕ) = 10 + 1064 from rfl, pow_add]
    have : (1 : ℝ) ≤ 2 ^ 1064 := one_le_pow₀ (by norm_num)
    generalize (2 : ℝ) ^ 1064 = y at this
    norm_num
    linarith
  generalize (100 : ℝ) / 2 ^ 1074 = t at ht ht1
  generalize Real.exp (((2 : ℕ) : ℝ) + 1) = x at he h1
  have hq : 0 < t / x := div_pos ht he
  have hq1 : t / x < 1 / 4 := by
    rw [div_lt_iff₀ he]
    nlinarith
  refine ⟨t / x, hq, by linarith, by push_cast; linarith, ?_⟩
  have e : x / (2 : ℕ).factorial * (((2 : ℕ).choose 1 : ℝ) * (t / x) ^ 1 * (1 - t / x) ^ (2 - 1)) = t * (1 - t / x) := by
    simp [Nat.factorial]
    field_simp
  rw [e]
  nlinarith

/-- C160 is false of the code: one aligned pixel of two, when half of the pixels are by chance; with an exact logarithm of
the gamma function, and whatever the number of tests, the value is too small by more than one: the number of false alarms is
more than ten times what it should be. The logarithm of the factorial of n is replaced by n + 1. -/
theorem C160_meaningful_false (logGamma : ℝ → ℝ) (hg : logGamma 2 = 0) (logNt : ℝ) :
    nfa logGamma logNt 2 1 (1 / 2) < Spec.meaningful logNt 2 1 (1 / 2) - 1 := by
  have hch : Spec.chance 2 1 (1 / 2) = 3 / 4 := by
    unfold Spec.chance
    rw [show Finset.Icc 1 2 = {1, 2} by decide]
    norm_num [Nat.choose]
  rw [meaningful_eq _ _ _ _ (by rw [hch]; norm_num), hch]
  have hlog : Real.exp (((2 : ℕ) : ℝ) + 1 - logGamma ((1 : ℕ) + 1) - logGamma ((2 - 1 : ℕ) + 1) + (1 : ℕ) * Real.log (1 / 2)
      + (2 - 1 : ℕ) * Real.log (1 - 1 / 2)) = Real.exp 3 / 4 := by
    have h2 : ((1 : ℕ) : ℝ) + 1 = 2 := by norm_num
    rw [h2, hg]
    have : ((2 : ℕ) : ℝ) + 1 - 0 - 0 + (1 : ℕ) * Real.log (1 / 2) + (2 - 1 : ℕ) * Real.log (1 - 1 / 2) =
        3 + (Real.log (1 / 2) + Real.log (1 / 2)) := by norm_num; ring
    rw [this, Real.exp_add, Real.exp_add, Real.exp_log (by norm_num)]
    ring
  have he : (20 : ℝ) < Real.exp 3 := by
    have h1 : Real.exp 3 = Real.exp 1 ^ 3 := by
      rw [← Real.exp_nat_mul]
      norm_num
    have h2 := Real.exp_one_gt_d9
    rw [h1]
    have : (2.7182818283 : ℝ) ^ 3 < Real.exp 1 ^ 3 := pow_lt_pow_left₀ h2 (by norm_num) (by norm_num)
    norm_num at this ⊢
    linarith
  have hnz : isZero (Real.exp 3 / 4) = false := by
    unfold isZero
    have hpos : (0 : ℝ) < Real.exp 3 / 4 := by positivity
    rw [if_neg hpos.ne', decide_eq_false_iff_not, not_le, abs_of_pos hpos, max_eq_left (by
      have : (1 : ℝ) / 2 ^ 1022 ≤ 1 := by
        rw [div_le_one (by positivity)]
        exact one_le_pow₀ (by norm_num)
      exact this.trans (by linarith)), div_self hpos.ne']
    norm_num
  have hloop : ∀ t : ℝ, nfaLoop 2 (1 / 2 / (1 - 1 / 2)) logNt 1 2 t t = t + t * (1 / 2) := by
    intro t
    simp only [nfaLoop, ite_self]
    norm_num
  unfold nfa
  rw [if_neg (by norm_num), if_neg (by norm_num)]
  dsimp only
  rw [hlog, hnz]
  rw [if_neg (by simp)]
  change -Real.logb 10 (nfaLoop 2 (1 / 2 / (1 - 1 / 2)) logNt 1 2 _ _) - logNt < _
  rw [hloop]
  have hten : Real.logb 10 (15 / 2) < Real.logb 10 (Real.exp 3 / 4 + Real.exp 3 / 4 * (1 / 2)) :=
    Real.logb_lt_logb (by norm_num) (by norm_num) (by linarith)
  have h10 : Real.logb 10 (15 / 2) = 1 + Real.logb 10 (3 / 4) := by
    rw [show (15 / 2 : ℝ) = 10 * (3 / 4) by norm_num, Real.logb_mul (by norm_num) (by norm_num),
      Real.logb_self_eq_one (by norm_num)]
  linarith

/-- Non-vacuity: an exact logarithm of the gamma function at 2, and ten aligned pixels of ten. -/
example : (fun x : ℝ => if x = 2 then 0 else x) 2 = 0 ∧ nfa (fun x => x) 3 10 10 (1 / 10) = 7 := by
  refine ⟨by simp, ?_⟩
  unfold nfa
  rw [if_neg (by norm_num), if_pos rfl, one_div, Real.logb_inv, Real.logb_self_eq_one (by norm_num)]
  norm_num

end RgbdSlam.Lsd
