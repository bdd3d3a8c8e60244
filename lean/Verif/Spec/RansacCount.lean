import Mathlib.Data.Fintype.BigOperators
import Mathlib.Data.Fintype.Pi
import Mathlib.Data.Real.Basic
/-
Specification vocabulary for the number of tries of a random search.
-/
namespace RgbdSlam.RansacCount.Spec

/-- The probability that this happens in independent tries, each of which is good with probability `q`. -/
noncomputable def outcomeProbability (q : ℝ) {n : ℕ} (tries : Fin n → Bool) : ℝ :=
  ∏ i, if tries i then q else 1 - q

/-- The probability that at least one of `n` independent tries is good. -/
noncomputable def someGood (q : ℝ) (n : ℕ) : ℝ :=
  ∑ tries : Fin n → Bool, if ∃ i, tries i = true then outcomeProbability q tries else 0

end RgbdSlam.RansacCount.Spec
