import Verif.Model.ConcaveHull
import Verif.Model.Tum
import Verif.Model.Geometry
/-
The search of a concave hull on a list that must not change, and the order in which candidates are tried
(third_party/concave_fitting.cpp).  Complements Verif/Model/ConcaveHull.lean, where candidates come in any order.
-/
namespace RgbdSlam.ConcaveHull

open Tum (SortsTo)

/-- The comparison of third_party/concave_fitting.cpp 206-211. -/
def lexLess (a b : Point) : Bool := if equal a.x b.x then lessThan a.y b.y else lessThan a.x b.x

/-- `std::unique` after an element that is kept: `PointsEqual` compares with the last element kept. -/
def uniqueFrom : Point → List Point → List Point
  | _, [] => []
  | last, p :: ps => if pointsEqual last p then uniqueFrom last ps else p :: uniqueFrom p ps

/-- `std::unique`, third_party/concave_fitting.cpp 213-217. -/
def unique : List Point → List Point
  | [] => []
  | p :: ps => p :: uniqueFrom p ps

/-- third_party/concave_fitting.cpp 204-218, `RemoveDuplicates`: its possible outcomes. -/
def RemovesDuplicates (points : List Point) (o : Outcome (List Point)) : Prop :=
  ∃ sorted, SortsTo (fun a b => lexLess a b = true) points sorted ∧ o = sorted.map unique

/-- The index of third_party/concave_fitting.cpp 108-110, whose elements are known by their position
(third_party/concave_fitting.cpp 278-286), not by their member `id`. -/
def indexed (points : List Point) : List Point := points.zipIdx.map fun p => { p.1 with id := p.2 }

/-- third_party/concave_fitting.cpp 93-183, `ConcaveHull`, on points whose `id` may not be their position: the first
point is removed from the index by its `id` (line 118), and the points left at the end are those whose `id` is not that
of a vertex (lines 329-341). -/
def concaveHullIds (neighbours : Neighbours) (points : List Point) (k : ℕ) : Outcome (Bool × List Point) :=
  if points.length < 3 then .ok (true, [])
  else if points.length = 3 then .ok (true, points)
  else
    let first := findMinY points.tail (points.headD default)
    (extendHull neighbours k points first points.length [first] ((indexed points).filter fun p => p.id ≠ first.id)).bind
      fun
      | none => .ok (false, [])
      | some hull =>
        let rest := points.filter fun p => !(hull.any fun h => h.id = p.id)
        .ok (rest.all fun p => pointInPolygon p hull, hull)

/-- third_party/concave_fitting.cpp 69-90, `compute_concave_hull`, on such points. -/
def computeConcaveHullIds (neighbours : ℕ → Neighbours) (points : List Point) (maxIterations : ℕ) :
    Outcome (Option (List Point) × List ℕ) :=
  if points.length < 3 then .terminate
  else
    retry (fun attempt k => concaveHullIds (neighbours attempt) points k) points.length
      (min maxIterations neighboursValues.length) 0 (neighboursValues.getD 0 0)

/-- third_party/concave_fitting.cpp 61-67, `compute_concave_hull` of a constant list: its possible outcomes. -/
def ComputesConstant (neighbours : ℕ → Neighbours) (points : List Point) (maxIterations : ℕ)
    (o : Outcome (Option (List Point) × List ℕ)) : Prop :=
  ∃ r, RemovesDuplicates points r ∧ o = r.bind fun dataset => computeConcaveHullIds neighbours dataset maxIterations

noncomputable section

/-- third_party/concave_fitting.cpp 320-326, `NormaliseAngle`. -/
def normaliseAngle (radians : ℝ) : ℝ := if radians < 0 then radians + Real.pi + Real.pi else radians

/-- third_party/concave_fitting.cpp 312-317, `Angle`. -/
def angle (a b : ℝ × ℝ) : ℝ := normaliseAngle (-Geometry.atan2 (b.2 - a.2) (b.1 - a.1))

/-- third_party/concave_fitting.cpp 294-296: the angle given to a neighbour. -/
def turnAngle (origin : ℝ × ℝ) (prevAngle : ℝ) (target : ℝ × ℝ) : ℝ :=
  normaliseAngle (angle origin target - prevAngle)

/-- third_party/concave_fitting.cpp 292-309, `SortByAngle`: its possible outcomes; `GreaterThan` has a tolerance. -/
def SortsByAngle (values : List (ℝ × ℝ)) (origin : ℝ × ℝ) (prevAngle : ℝ) (o : Outcome (List (ℝ × ℝ))) : Prop :=
  SortsTo (fun a b => turnAngle origin prevAngle a > turnAngle origin prevAngle b + (eps : ℝ)) values o

/-- third_party/concave_fitting.cpp 121 and 170, `prevAngle`: none for the first vertex, then the angle from a vertex
back to the one before. -/
def prevAngle (current : ℝ × ℝ) : Option (ℝ × ℝ) → ℝ
  | none => 0
  | some previous => angle current previous

end

end RgbdSlam.ConcaveHull
