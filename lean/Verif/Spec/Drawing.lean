import Verif.Model.Drawing

/-
Specification vocabulary for the debug image.
-/
namespace RgbdSlam.Drawing.Spec

open Geometry PolygonOps

/-- Where a camera with these focal lengths and this center sees a point of its frame. -/
noncomputable def seenAt (fx fy cx cy : ℝ) (q : V3) : ℝ × ℝ := (fx * q 0 / q 2 + cx, fy * q 1 / q 2 + cy)

/-- The point is in front of the camera and its projection is in the image. -/
def InView (fx fy cx cy : ℝ) (width height : ℕ) (q : V3) : Prop :=
  0 < q 2 ∧ 0 ≤ (seenAt fx fy cx cy q).1 ∧ (seenAt fx fy cx cy q).1 ≤ width ∧
    0 ≤ (seenAt fx fy cx cy q).2 ∧ (seenAt fx fy cx cy q).2 ≤ height

/-- A pixel that is not further than one pixel from a position of the image. -/
def Near (x y : ℤ) (p : ℝ × ℝ) : Prop := |(x : ℝ) - p.1| < 1 ∧ |(y : ℝ) - p.2| < 1

/-- The line drawn for two following points of a boundary. -/
def LineOf (fx fy cx cy : ℝ) (color : Color) (e : V3 × V3) (s : Shape) : Prop :=
  ∃ x1 y1 x2 y2, s = .line x1 y1 x2 y2 color 2 ∧ Near x1 y1 (seenAt fx fy cx cy e.1) ∧
    Near x2 y2 (seenAt fx fy cx cy e.2)

open Classical in
/-- The pairs of following points that are both in front of the camera. -/
noncomputable def sides (pts : List V3) : List (V3 × V3) :=
  (pts.zip pts.tail).filter fun e => decide (0 < e.1 2 ∧ 0 < e.2 2)

/-- What the camera sees of a point in front of it has coordinates that are an `int`. -/
def Drawable (fx fy cx cy : ℝ) (q : V3) : Prop :=
  |(seenAt fx fy cx cy q).1| < 2 ^ 31 ∧ |(seenAt fx fy cx cy q).2| < 2 ^ 31

/-- The points of the boundary of a polygon of the world, in the frame of a camera. -/
noncomputable def cornersSeen (w2c : M4) (P : Poly) : List V3 :=
  P.shape.outer.map fun v => pointToCamera w2c (P.center + v 0 • P.xAxis + v 1 • P.yAxis)

end RgbdSlam.Drawing.Spec
