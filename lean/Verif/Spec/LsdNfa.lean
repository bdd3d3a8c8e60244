import Mathlib.Algebra.BigOperators.Intervals
import Mathlib.Analysis.SpecialFunctions.Log.Base
import Mathlib.Data.Nat.Choose.Basic
import Mathlib.Order.Interval.Finset.Nat
/-
The probability that pixels are aligned by chance.
-/
namespace RgbdSlam.Lsd.Spec

/-- The probability that `k` of `n` pixels or more are aligned, when each is with probability `p`. -/
noncomputable def chance (n k : ℕ) (p : ℝ) : ℝ := ∑ i ∈ Finset.Icc k n, (n.choose i : ℝ) * p ^ i * (1 - p) ^ (n - i)

/-- How meaningful `k` aligned pixels of `n` are: minus the logarithm of the number of false alarms expected of 10^`logNt`
tests. -/
noncomputable def meaningful (logNt : ℝ) (n k : ℕ) (p : ℝ) : ℝ := -Real.logb 10 (10 ^ logNt * chance n k p)

end RgbdSlam.Lsd.Spec
