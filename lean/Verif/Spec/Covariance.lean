import Verif.Model.Covariance

/-
Specification vocabulary for covariances and the Kalman filter.
-/
namespace RgbdSlam.Covariance.Spec

open Matrix

/-- The quadratic form of a matrix: the variance of the combination `x` of the variables. -/
noncomputable def variance {n : ℕ} (C : Sq n) (x : Fin n → ℝ) : ℝ := ∑ i, ∑ j, x i * C i j * x j

/-- A covariance matrix: symmetric, and no combination of the variables has a negative variance. -/
structure IsCovariance {n : ℕ} (C : Sq n) : Prop where
  symm : ∀ i j, C i j = C j i
  nonneg : ∀ x, 0 ≤ variance C x

/-- `A` is not larger than `B`: every combination of the variables has at most the variance of `B`. -/
def NotLarger {n : ℕ} (A B : Sq n) : Prop := ∀ x, variance A x ≤ variance B x

/-- The four Moore-Penrose equations: what a pseudo inverse is. -/
structure IsPseudoInverse {n : ℕ} (A P : Sq n) : Prop where
  apa : A * P * A = A
  pap : P * A * P = P
  ap_symm : (A * P)ᵀ = A * P
  pa_symm : (P * A)ᵀ = P * A

/-- The error covariance of the estimate `x + L (z - H x)` when `x` has error covariance `P` and the
independent measurement `z` of `H x` has error covariance `R`. -/
def errorCovariance {n m : ℕ} (P : Sq n) (H : Matrix (Fin m) (Fin n) ℝ) (R : Sq m)
    (L : Matrix (Fin n) (Fin m) ℝ) : Sq n :=
  (1 - L * H) * P * (1 - L * H)ᵀ + L * R * Lᵀ

end RgbdSlam.Covariance.Spec
