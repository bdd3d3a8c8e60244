import Verif.Model.Outcome
import Mathlib.Analysis.SpecialFunctions.Pow.Real
/-
The number of tries of the two RANSAC searches, and the checks of their parameters when the program is
compiled.  Numbers are reals: the rounding of `float` and `double` is not modelled, infinities and NaN are.
-/
namespace RgbdSlam.RansacCount

open Real

/-- A floating point number without rounding. -/
inductive F where
  | fin (x : ℝ)
  | posInf
  | negInf
  | nan

/-- `std::log`, `logf`. -/
noncomputable def flog (x : ℝ) : F := if x < 0 then .nan else if x = 0 then .negInf else .fin (Real.log x)

/-- The quotient of two results of `flog`: a zero there is a positive zero. -/
noncomputable def fdiv : F → F → F
  | .fin x, .fin y =>
    if y = 0 then (if x = 0 then .nan else if x < 0 then .negInf else .posInf) else .fin (x / y)
  | .fin _, .posInf => .fin 0
  | .fin _, .negInf => .fin 0
  | .posInf, .fin y => if y < 0 then .negInf else .posInf
  | .negInf, .fin y => if y < 0 then .posInf else .negInf
  | _, _ => .nan

/-- Conversion of a `double` or `float` to `uint`: not defined outside of the range of `uint` (C++ [conv.fpint]);
for a `constexpr` the program does not compile. -/
noncomputable def toUint : F → Outcome ℕ
  | .fin x => if -1 < x ∧ x < 2 ^ 32 then .ok ⌊x⌋₊ else .ub
  | _ => .ub

/-- `std::ceil`. -/
noncomputable def fceil : F → F
  | .fin x => .fin ⌈x⌉
  | x => x

/-- `maximumIterations` of the search of the pose, src/pose_optimization/pose_optimization.cpp 129-132. -/
noncomputable def poseIterations (pSuccess inliers trust : ℝ) : Outcome ℕ :=
  toUint (fceil (fdiv (flog (1 - pSuccess)) (flog (1 - inliers ^ trust))))

/-- `maximumIterations` of the search of cylinders, src/features/primitives/cylinder_segment.cpp 128-132: the
quotient is cut, not rounded up. -/
noncomputable def cylinderIterations (pSuccess inliers : ℝ) : Outcome ℕ :=
  toUint (fdiv (flog (1 - pSuccess)) (flog (1 - inliers ^ (3 : ℝ))))

/-- What the search of the pose does before its first try, src/pose_optimization/pose_optimization.cpp
133-139: `none` when it gives up. -/
noncomputable def poseSearch (pSuccess inliers trust : ℝ) : Outcome (Option ℕ) :=
  (poseIterations pSuccess inliers trust).map fun n => if n ≤ 0 then none else some n

/-- What the search of cylinders does before its first try, src/features/primitives/cylinder_segment.cpp 234:
an assertion on the number of tries. -/
noncomputable def cylinderSearch (pSuccess inliers : ℝ) : Outcome ℕ :=
  (cylinderIterations pSuccess inliers).bind fun n => if 0 < n then .ok n else .terminate

/-- The parameters of the two searches. -/
structure Settings where
  probabilityOfSuccess : ℝ
  inlierProportion : ℝ
  featureTrustCount : ℝ
  cylinderInlierProportions : ℝ
  cylinderProbabilityOfSuccess : ℝ

/-- src/parameters.hpp 35-37 and 85-86. -/
noncomputable def defaults : Settings where
  probabilityOfSuccess := 8 / 10
  inlierProportion := 65 / 100
  featureTrustCount := 10
  cylinderInlierProportions := 33 / 100
  cylinderProbabilityOfSuccess := 8 / 10

/-- The checks of these parameters when the program is compiled, src/parameters.cpp 136-143 and 186-191. -/
def compiles (s : Settings) : Prop :=
  (s.probabilityOfSuccess ≥ 0 ∧ s.probabilityOfSuccess ≤ 1) ∧
  (s.inlierProportion ≥ 0 ∧ s.inlierProportion ≤ 1) ∧
  s.featureTrustCount > 0 ∧
  (s.cylinderInlierProportions > 0 ∧ s.cylinderInlierProportions < 1) ∧
  (s.cylinderProbabilityOfSuccess > 0 ∨ s.cylinderProbabilityOfSuccess < 1)

end RgbdSlam.RansacCount
