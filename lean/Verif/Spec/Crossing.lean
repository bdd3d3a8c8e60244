import Verif.Model.Crossing
/-
Points on segments and lines; what an intersection of segments may give.
-/
namespace RgbdSlam.Crossing.Spec

/-- On the segment between two points. -/
def OnSegment {n : ℕ} (s : (Fin n → ℝ) × (Fin n → ℝ)) (p : Fin n → ℝ) : Prop :=
  ∃ t : ℝ, 0 ≤ t ∧ t ≤ 1 ∧ p = s.1 + t • (s.2 - s.1)

/-- On the line through a point with a direction. -/
def OnLine {n : ℕ} (start direction p : Fin n → ℝ) : Prop := ∃ t : ℝ, p = start + t • direction

/-- An intersection of segments: it gives points of both, and some when there are some. -/
def Right {n : ℕ} (cross : (Fin n → ℝ) × (Fin n → ℝ) → (Fin n → ℝ) × (Fin n → ℝ) → Found n) : Prop :=
  ∀ a b, (∀ p ∈ (cross a b).points, OnSegment a p ∧ OnSegment b p) ∧
    ((∃ p, OnSegment a p ∧ OnSegment b p) → (cross a b).points ≠ [])

/-- It returns true when it gives points, and only then. -/
def TellsWhether {n : ℕ} (cross : (Fin n → ℝ) × (Fin n → ℝ) → (Fin n → ℝ) × (Fin n → ℝ) → Found n) : Prop :=
  ∀ a b, (cross a b).returned = true ↔ (cross a b).points ≠ []

end RgbdSlam.Crossing.Spec
