import Mathlib.Data.Real.Basic
/-
Coordinates brought into an image.
-/
namespace RgbdSlam.Lsd.Spec

/-- `v'` is the place of `v` once brought into the `n` pixels of an image. -/
def Clamped (n : ℕ) (v v' : ℝ) : Prop := (v < 0 → v' = 0) ∧ (0 ≤ v → v < n → v' = v) ∧ (n ≤ v → v' = n - 1)

end RgbdSlam.Lsd.Spec
