import Verif.Model.HullOrder
/-
Points that are told apart; directions turned counterclockwise.
-/
namespace RgbdSlam.ConcaveHull.Spec

/-- Two coordinates are the same, or clearly different. -/
def Apart (a b : ℚ) : Prop := a = b ∨ 1 / 2 ^ 52 < |a - b|

/-- Each point is listed once: the same places as before, no place twice. -/
def SamePlacesOnce (points out : List Point) : Prop :=
  (out.map fun p => (p.x, p.y)).Nodup ∧ (∀ p ∈ out, p ∈ points) ∧ ∀ p ∈ points, ∃ q ∈ out, q.x = p.x ∧ q.y = p.y

/-- The direction `d` is the direction `back` turned counterclockwise by `φ` radians, more than none and at most a
whole turn. -/
def TurnedBy (back d : ℝ × ℝ) (φ : ℝ) : Prop :=
  0 < φ ∧ φ ≤ 2 * Real.pi ∧ ∃ r : ℝ, 0 < r ∧
    d = (r * (Real.cos φ * back.1 - Real.sin φ * back.2), r * (Real.sin φ * back.1 + Real.cos φ * back.2))

/-- The direction from which turns are counted: back to the vertex before, or to the right for the first vertex. -/
noncomputable def backDirection (current : ℝ × ℝ) : Option (ℝ × ℝ) → ℝ × ℝ
  | none => (1, 0)
  | some previous => (previous.1 - current.1, previous.2 - current.2)

end RgbdSlam.ConcaveHull.Spec
