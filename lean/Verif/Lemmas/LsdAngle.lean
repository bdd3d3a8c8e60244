import Mathlib.Tactic.Linarith
import Mathlib.Tactic.Positivity
import Mathlib.Tactic.NormNum
import Mathlib.Tactic.Ring
import Mathlib.Tactic.FieldSimp
import Mathlib.Analysis.SpecialFunctions.Pow.Real
import Mathlib.Analysis.Real.Pi.Bounds
import Verif.Lemmas.Lsd
/-
Lemmas on the angles of the detector of segments, its threshold on gradients and the smallest size of a region.
-/
namespace RgbdSlam.Lsd

open Real

theorem isAligned_iff (angle : Px → Option ℝ) (w h : ℕ) (p : Px) (theta prec a : ℝ) (hp : p.1 < w ∧ p.2 < h)
    (ha : angle p = some a) (hprec : 0 ≤ prec) (hprec' : prec < π / 2) (ht : 0 ≤ theta ∧ theta < 2 * π)
    (ha' : 0 ≤ a ∧ a < 2 * π) :
    isAligned angle w h p theta prec = true ↔ Spec.Near prec theta a := by
  have hpi := Real.pi_pos
  have habs : (if theta - a < 0 then -(theta - a) else theta - a) = |theta - a| := by
    split_ifs with h
    · exact (abs_of_neg h).symm
    · exact (abs_of_nonneg (by linarith)).symm
  have h1 : ¬ (w ≤ p.1 ∨ h ≤ p.2) := by omega
  unfold isAligned
  rw [if_neg h1, ha]
  dsimp only
  rw [habs]
  have hlt : |theta - a| < 2 * π := by
    rw [abs_lt]; constructor <;> linarith [ht.1, ht.2, ha'.1, ha'.2]
  have hneg : |theta - a| - 2 * π < 0 := by linarith
  rw [if_pos hneg, decide_eq_true_eq]
  unfold Spec.Near
  constructor
  · intro hn
    split_ifs at hn with hbig
    · rcases abs_cases (theta - a) with ⟨e, hs⟩ | ⟨e, hs⟩
      · refine ⟨1, ?_⟩
        rw [e] at hn hbig
        rw [abs_le]; push_cast; constructor <;> linarith
      · refine ⟨-1, ?_⟩
        rw [e] at hn hbig
        rw [abs_le]; push_cast; constructor <;> linarith
    · exact ⟨0, by simpa using hn⟩
  · rintro ⟨k, hk⟩
    rw [abs_le] at hk
    have hk1 : (k : ℝ) < 2 := by
      by_contra hh
      have : (2 : ℝ) ≤ k := not_lt.1 hh
      nlinarith [ht.1, ht.2, ha'.1, ha'.2]
    have hk2 : (-2 : ℝ) < k := by
      by_contra hh
      have : (k : ℝ) ≤ -2 := not_lt.1 hh
      nlinarith [ht.1, ht.2, ha'.1, ha'.2]
    have hk1' : k < 2 := by exact_mod_cast hk1
    have hk2' : -2 < k := by exact_mod_cast hk2
    have hcases : k = -1 ∨ k = 0 ∨ k = 1 := by omega
    rcases hcases with rfl | rfl | rfl
    · push_cast at hk
      have e : |theta - a| = -(theta - a) := abs_of_neg (by linarith)
      rw [e]
      split_ifs <;> linarith
    · simp only [Int.cast_zero, zero_mul, sub_zero] at hk
      have e : |theta - a| ≤ prec := abs_le.2 hk
      rw [if_neg (by linarith)]
      exact e
    · push_cast at hk
      have e : |theta - a| = theta - a := abs_of_pos (by linarith)
      rw [e]
      split_ifs <;> linarith

theorem isAligned_some (angle : Px → Option ℝ) (w h : ℕ) (p : Px) (theta prec : ℝ)
    (ha : isAligned angle w h p theta prec = true) : ∃ a, angle p = some a := by
  unfold isAligned at ha
  split_ifs at ha
  cases e : angle p with
  | none => simp [e] at ha
  | some a => exact ⟨a, rfl⟩

theorem tolerance_eq : tolerance = π / 8 := by unfold tolerance; ring

theorem tolerance_pos : 0 < tolerance := by rw [tolerance_eq]; linarith [Real.pi_pos]

theorem tolerance_lt : tolerance < π / 2 := by rw [tolerance_eq]; linarith [Real.pi_pos]

theorem threshold_pos : 0 < threshold := by
  unfold threshold
  have := Real.sin_pos_of_pos_of_lt_pi tolerance_pos (by rw [tolerance_eq]; linarith [Real.pi_pos])
  positivity

/-- The square of the threshold: 16 / (2 - √2), about 27.3. -/
theorem threshold_sq : threshold ^ 2 = 16 / (2 - √2) := by
  unfold threshold
  rw [tolerance_eq, Real.sin_pi_div_eight, div_pow, div_pow]
  have h2 : √2 < 2 := by
    rw [Real.sqrt_lt' (by norm_num)]; norm_num
  rw [Real.sq_sqrt (by linarith)]
  have : (2 - √2) ≠ 0 := by linarith
  field_simp
  norm_num

theorem threshold_bounds : 27 < threshold ^ 2 ∧ threshold ^ 2 < 28 := by
  rw [threshold_sq]
  have h1 : (1.414 : ℝ) < √2 := by
    rw [Real.lt_sqrt (by norm_num)]; norm_num
  have h2 : √2 < 1.4143 := by
    rw [Real.sqrt_lt' (by norm_num)]; norm_num
  constructor
  · rw [lt_div_iff₀ (by linarith)]; linarith
  · rw [div_lt_iff₀ (by linarith)]; linarith

theorem threshold_gt : 5 < threshold := by
  have h := threshold_bounds.1
  nlinarith [threshold_pos]

/-- A region is kept when it has as many pixels as `minRegionSize`: at least two. -/
theorem two_le_minRegionSize (w h : ℕ) (hw : 2 ≤ w) (hh : 2 ≤ h) : 2 ≤ minRegionSize w h := by
  unfold minRegionSize
  apply Nat.le_floor
  have h10 : (1 : ℝ) < 10 := by norm_num
  have e8 : Real.logb 10 (1 / 8) = -(3 * Real.logb 10 2) := by
    rw [one_div, Real.logb_inv, show (8 : ℝ) = 2 ^ (3 : ℕ) by norm_num, Real.logb_pow]
    norm_num
  have hl2 : 0 < Real.logb 10 2 := Real.logb_pos h10 (by norm_num)
  have hw' : Real.logb 10 2 ≤ Real.logb 10 w :=
    Real.logb_le_logb_of_le h10 (by norm_num) (by exact_mod_cast hw)
  have hh' : Real.logb 10 2 ≤ Real.logb 10 h :=
    Real.logb_le_logb_of_le h10 (by norm_num) (by exact_mod_cast hh)
  have h11 : Real.logb 10 2 ≤ Real.logb 10 11 :=
    Real.logb_le_logb_of_le h10 (by norm_num) (by norm_num)
  rw [e8, neg_div_neg_eq, le_div_iff₀ (by linarith)]
  push_cast
  linarith

end RgbdSlam.Lsd
