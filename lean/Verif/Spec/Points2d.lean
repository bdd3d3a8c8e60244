import Verif.Model.Geometry

/-
Specification vocabulary for the points without depth.
-/
namespace RgbdSlam.Points2d.Spec

open RgbdSlam Geometry

/-- The point at proportion `t` of a segment of the screen. -/
def along (a b : V2) (t : ℝ) : V2 := ![a 0 + t * (b 0 - a 0), a 1 + t * (b 1 - a 1)]

/-- A point of the segment from `a` to `b`. -/
def OnSegment (a b p : V2) : Prop := ∃ t : ℝ, 0 ≤ t ∧ t ≤ 1 ∧ p = along a b t

/-- A point of the image. -/
def InImage (width height : ℕ) (p : V2) : Prop := 0 ≤ p 0 ∧ p 0 ≤ width ∧ 0 ≤ p 1 ∧ p 1 ≤ height

/-- A point of the image, at one pixel of its border or more. -/
def InFrame (width height : ℕ) (p : V2) : Prop :=
  1 ≤ p 0 ∧ p 0 ≤ (width : ℝ) - 1 ∧ 1 ≤ p 1 ∧ p 1 ≤ (height : ℝ) - 1

/-- A point of that frame, on its border. -/
def OnFrame (width height : ℕ) (p : V2) : Prop :=
  InFrame width height p ∧ (p 0 = 1 ∨ p 0 = (width : ℝ) - 1 ∨ p 1 = 1 ∨ p 1 = (height : ℝ) - 1)

/-- The points where a segment meets the border of the frame, each once. -/
structure Crossings (width height : ℕ) (a b : V2) (l : List V2) : Prop where
  nodup : l.Nodup
  mem : ∀ p, p ∈ l ↔ OnSegment a b p ∧ OnFrame width height p

/-- Distance of two points of space. -/
noncomputable def dist3 (p q : V3) : ℝ :=
  Real.sqrt ((p 0 - q 0) ^ 2 + (p 1 - q 1) ^ 2 + (p 2 - q 2) ^ 2)

/-- Cosine of the angle, at the point `x`, between the direction `u` of length one and the line of sight of a
camera at `c`. -/
noncomputable def cosSight (u c x : V3) : ℝ :=
  (u 0 * (x 0 - c 0) + u 1 * (x 1 - c 1) + u 2 * (x 2 - c 2)) / dist3 x c

end RgbdSlam.Points2d.Spec
