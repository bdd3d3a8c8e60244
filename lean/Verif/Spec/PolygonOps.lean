import Verif.Model.PolygonOps
import Verif.Spec.Geometry
/-
Specification vocabulary for the areas, unions and simplification of polygons.
-/
namespace RgbdSlam.PolygonOps.Spec

open RgbdSlam Geometry

/-- The area inside a closed line that does not cross itself (shoelace formula). -/
noncomputable def shoelace (ring : List V2) : ℝ :=
  |((ring.zip ring.tail).map fun e => e.1 0 * e.2 1 - e.2 0 * e.1 1).sum| / 2

/-- The last point is the first one. -/
def Closed (ring : List V2) : Prop := 2 < ring.length → ring.head? = ring.getLast?

/-- A polygon without hole, whose boundary is closed and clockwise. -/
structure Regular (P : Poly) : Prop where
  noHole : P.shape.inners = []
  closed : Closed P.shape.outer
  clockwise : 0 ≤ ringArea P.shape.outer

/-- What boost guarantees of a valid polygon: a boundary of at least three sides. -/
def ValidHasSides (B : Boost) : Prop := ∀ s, B.valid s = true → 4 ≤ s.outer.length

/-- The parts of an intersection that succeeds, and those of the union, measure what the areas of plane figures do: the shared area is at
most each of the two, and both polygons together cover the union and, twice, what they share. -/
structure MeasuresAreas (B : Boost) : Prop where
  inside : ∀ a b, B.interOk a b = true → 0 ≤ ((B.inter a b).map (·.area)).sum ∧
    ((B.inter a b).map (·.area)).sum ≤ a.area ∧ ((B.inter a b).map (·.area)).sum ≤ b.area
  total : ∀ a b, B.interOk a b = true →
    ((B.inter a b).map (·.area)).sum + ((B.union a b).map (·.area)).sum = a.area + b.area

/-- The union with a polygon of at least three sides has only parts of at least three sides, and one of
them covers the polygon. -/
def UnionCovers (B : Boost) : Prop := ∀ a b, 4 ≤ a.outer.length →
  (∀ u ∈ B.union a b, 4 ≤ u.outer.length) ∧ ∃ u ∈ B.union a b, a.area ≤ u.area

/-- Every part of the intersection is inside a part of the union. -/
def InterInsideUnion (B : Boost) : Prop := ∀ a b, ∀ i ∈ B.inter a b, ∃ u ∈ B.union a b, i.area ≤ u.area

/-- The scalar product of the normals of two planes given by their axes: the cosine of their angle. -/
noncomputable def cosine (x y x' y' : V3) : ℝ :=
  (x 1 * y 2 - x 2 * y 1) * (x' 1 * y' 2 - x' 2 * y' 1) +
  (x 2 * y 0 - x 0 * y 2) * (x' 2 * y' 0 - x' 0 * y' 2) +
  (x 0 * y 1 - x 1 * y 0) * (x' 0 * y' 1 - x' 1 * y' 0)

/-- The pixel that sees a point (pinhole camera). -/
noncomputable def pixel (fx fy cx cy : ℝ) (p : V3) : V2 := ![fx * p 0 / p 2 + cx, fy * p 1 / p 2 + cy]

/-- Strictly inside of the image, one pixel away from its border. -/
def InsideImage (width height : ℕ) (v : V2) : Prop :=
  1 < v 0 ∧ v 0 < width - 1 ∧ 1 < v 1 ∧ v 1 < height - 1

/-- The image without its border of one pixel, as a clockwise closed boundary (y goes down). -/
noncomputable def imageRectangle (width height : ℕ) : Shape :=
  ⟨[![1, 1], ![1, (height : ℝ) - 1], ![(width : ℝ) - 1, (height : ℝ) - 1], ![(width : ℝ) - 1, 1], ![1, 1]], []⟩

/-- The given closed line, in the clockwise direction. -/
def Clockwise (line ring : List V2) : Prop := (ring = line ∨ ring = line.reverse) ∧ 0 ≤ ringArea ring

/-- A polygon with an area whose boundary is inside the image meets the image. -/
def InterSeesInside (B : Boost) (width height : ℕ) : Prop :=
  ∀ s, s.inners = [] → 0 < s.area → (∀ v ∈ s.outer, InsideImage width height v) →
    B.inter s (imageRectangle width height) ≠ []

end RgbdSlam.PolygonOps.Spec
