import Verif.Model.Lsd
/-
The number of false alarms of a rectangle, third_party/line_segment_detector.cpp 921-960, used by the advanced refinement
(`LSD_REFINE_ADV`), which the program does not use.  Doubles are reals; `logGamma` is the logarithm of the gamma function.
-/
namespace RgbdSlam.Lsd

noncomputable section

open Classical

/-- third_party/line_segment_detector.cpp 945-957: the loop from `i`, with the number of turns left.  When `multTerm` is 1
the error is not a number and the test fails. -/
def nfaLoop (n : ℕ) (pTerm logNt : ℝ) : ℕ → ℕ → ℝ → ℝ → ℝ
  | 0, _, _, tail => tail
  | left + 1, i, term, tail =>
    let binTerm : ℝ := ((n : ℝ) - i + 1) / i
    let multTerm := binTerm * pTerm
    let term := term * multTerm
    let tail := tail + term
    let err := term * ((1 - multTerm ^ (n - i + 1)) / (1 - multTerm) - 1)
    if binTerm < 1 ∧ multTerm ≠ 1 ∧ err < 1 / 10 * |-Real.logb 10 tail - logNt| * tail then tail
    else nfaLoop n pTerm logNt left (i + 1) term tail

/-- third_party/line_segment_detector.cpp 921-960, `nfa`; `logNt` is LOG_NT, the logarithm of the number of tests. -/
def nfa (logGamma : ℝ → ℝ) (logNt : ℝ) (n k : ℕ) (p : ℝ) : ℝ :=
  if n = 0 ∨ k = 0 then -logNt
  else if n = k then -logNt - n * Real.logb 10 p
  else
    let pTerm := p / (1 - p)
    let log1term := ((n : ℝ) + 1) - logGamma (k + 1) - logGamma ((n - k : ℕ) + 1) + k * Real.log p
      + (n - k : ℕ) * Real.log (1 - p)
    let term := Real.exp log1term
    if isZero term then
      if n * p < k then -log1term / Real.log 10 - logNt else -logNt
    else -Real.logb 10 (nfaLoop n pTerm logNt (n - k) (k + 1) term term) - logNt

end

end RgbdSlam.Lsd
