import Verif.Model.Outcome
import Mathlib.Algebra.Order.Field.Rat
import Mathlib.Algebra.Order.Group.Abs

/-
The concave hull of a set of points (third_party/concave_fitting.cpp), used to fit the boundary of a
plane.

Coordinates are rationals: rounding is not modelled.  The search of the nearest neighbours (FLANN, a
randomised index) and their order by angle are not modelled: they are an arbitrary function that chooses
candidates among the points left.
-/
namespace RgbdSlam.ConcaveHull

/-- third_party/concave_fitting.hpp 16-25, `struct Point`. -/
structure Point where
  x : ℚ
  y : ℚ
  id : ℕ
  deriving DecidableEq, Repr

instance : Inhabited Point := ⟨{ x := 0, y := 0, id := 0 }⟩

/-- `DBL_EPSILON`. -/
def eps : ℚ := 1 / 2 ^ 52

/-- third_party/concave_fitting.cpp 186, `Equal`. -/
def equal (a b : ℚ) : Bool := |a - b| ≤ eps

/-- third_party/concave_fitting.cpp 189, `Zero`. -/
def isZero (a : ℚ) : Bool := |a| ≤ eps

/-- third_party/concave_fitting.cpp 192, `LessThan`. -/
def lessThan (a b : ℚ) : Bool := a < b - eps

/-- third_party/concave_fitting.cpp 195, `LessThanOrEqual`. -/
def lessThanOrEqual (a b : ℚ) : Bool := a ≤ b + eps

/-- third_party/concave_fitting.cpp 198, `GreaterThan`. -/
def greaterThan (a b : ℚ) : Bool := a > b + eps

/-- third_party/concave_fitting.cpp 201, `PointsEqual`. -/
def pointsEqual (a b : Point) : Bool := equal a.x b.x && equal a.y b.y

/-- third_party/concave_fitting.cpp 232-244, `FindMinYPoint`: `std::min_element` keeps the first of the
elements that no later one is less than. -/
def minYLess (a b : Point) : Bool := if equal a.y b.y then greaterThan a.x b.x else lessThan a.y b.y

def findMinY : List Point → Point → Point
  | [], best => best
  | p :: ps, best => findMinY ps (if minYLess p best then p else best)

/-- third_party/concave_fitting.cpp 433-470, `Intersects`. -/
def intersects (a1 a2 b1 b2 : Point) : Bool :=
  let a1' := a2.y - a1.y
  let b1' := a1.x - a2.x
  let c1 := a1' * a1.x + b1' * a1.y
  let a2' := b2.y - b1.y
  let b2' := b1.x - b2.x
  let c2 := a2' * b1.x + b2' * b1.y
  let det := a1' * b2' - a2' * b1'
  if isZero det then false
  else
    let x := (b2' * c1 - b1' * c2) / det
    let y := (a1' * c2 - a2' * c1) / det
    lessThanOrEqual (min a1.x a2.x) x && lessThanOrEqual x (max a1.x a2.x) &&
    (lessThanOrEqual (min a1.y a2.y) y && lessThanOrEqual y (max a1.y a2.y)) &&
    (lessThanOrEqual (min b1.x b2.x) x && lessThanOrEqual x (max b1.x b2.x)) &&
    (lessThanOrEqual (min b1.y b2.y) y && lessThanOrEqual y (max b1.y b2.y))

/-- The edge condition of `PointInPolygon` (third_party/concave_fitting.cpp 413-415). -/
def crossesRight (p v0 v1 : Point) : Bool :=
  ((lessThanOrEqual v0.y p.y && lessThan p.y v1.y) || (lessThanOrEqual v1.y p.y && lessThan p.y v0.y)) &&
  !isZero (v1.y - v0.y) && lessThan p.x (v0.x + ((v1.x - v0.x) * (p.y - v0.y) / (v1.y - v0.y)))

/-- The loop of `PointInPolygon` (third_party/concave_fitting.cpp 407-421). -/
def countCrossings (p : Point) : List Point → ℕ
  | v0 :: v1 :: rest => (if crossesRight p v0 v1 then 1 else 0) + countCrossings p (v1 :: rest)
  | _ => 0

/-- third_party/concave_fitting.cpp 399-430, `PointInPolygon`. -/
def pointInPolygon (p : Point) (polygon : List Point) : Bool :=
  if polygon.length ≤ 2 then false
  else
    let inout := countCrossings p polygon
    if inout = 0 then true
    else if inout % 2 = 0 then false
    else true

/-- The innermost loop of `ConcaveHull` (third_party/concave_fitting.cpp 144-159): does the segment from the
last vertex to the candidate cross an earlier edge?  `step` is always the number of vertices. -/
def crossesHull (hull : List Point) (first candidate : Point) : Bool :=
  let step := hull.length
  let lastPoint := if pointsEqual candidate first then 1 else 0
  (List.range' 2 (step - lastPoint - 2)).any fun j =>
    intersects (hull.getD (step - 1) default) candidate (hull.getD (step - j - 1) default)
      (hull.getD (step - j) default)

/-- How the candidates are chosen among the points left, from the vertices so far and the number of
neighbours (third_party/concave_fitting.cpp 135-136). -/
abbrev Neighbours := List Point → List Point → ℕ → List Point

/-- The points in the index (third_party/concave_fitting.cpp 127-133): the first point comes back at the
fourth step, with a new identifier. -/
def withFirst (points hull available : List Point) (first : Point) : List Point :=
  if hull.length = 4 then available ++ [{ first with id := points.length }] else available

/-- The main loop of `ConcaveHull` (third_party/concave_fitting.cpp 125-175); `none` when it returns false. -/
def extendHull (neighbours : Neighbours) (k : ℕ) (points : List Point) (first : Point) :
    ℕ → List Point → List Point → Outcome (Option (List Point))
  | 0, _, _ => .outOfFuel
  | fuel + 1, hull, available =>
    let current := hull.getD (hull.length - 1) default
    if (!pointsEqual current first || hull.length = 1) && hull.length ≠ points.length then
      let left := withFirst points hull available first
      match (neighbours left hull k).find? fun c => !crossesHull hull first c with
      | none => .ok none
      | some c => extendHull neighbours k points first fuel (hull ++ [c]) (left.filter fun p => p.id ≠ c.id)
    else .ok (some hull)

/-- third_party/concave_fitting.cpp 93-183, `ConcaveHull`, and 329-396 for the final test. -/
def concaveHull (neighbours : Neighbours) (points : List Point) (k : ℕ) : Outcome (Bool × List Point) :=
  if points.length < 3 then .ok (true, [])
  else if points.length = 3 then .ok (true, points)
  else
    let first := findMinY points.tail (points.headD default)
    (extendHull neighbours k points first points.length [first] (points.filter fun p => p.id ≠ first.id)).bind
      fun
      | none => .ok (false, [])
      | some hull =>
        let rest := points.filter fun p => !(hull.any fun h => h.id = p.id)
        .ok (rest.all fun p => pointInPolygon p hull, hull)

/-- third_party/concave_fitting.cpp 72-73. -/
def neighboursValues : List ℕ :=
  [3, 5, 7, 11, 13, 17, 21, 23, 29, 31, 37, 41, 43, 47, 53, 59, 61, 67, 71, 73, 79, 83, 89, 97]

/-- The loop of `compute_concave_hull` (third_party/concave_fitting.cpp 79-88), with the numbers of
neighbours tried.  `search` is the attempt: its first argument is the iteration, because the neighbour
search is randomised. -/
def retry (search : ℕ → ℕ → Outcome (Bool × List Point)) (count : ℕ) :
    ℕ → ℕ → ℕ → Outcome (Option (List Point) × List ℕ)
  | 0, _, _ => .ok (none, [])
  | left + 1, iteration, k =>
    (search iteration k).bind fun r =>
      if r.1 then .ok (some r.2, [k])
      else
        let next := neighboursValues.getD iteration 0
        if count < next then .ok (none, [k])
        else (retry search count left (iteration + 1) next).map fun o => (o.1, k :: o.2)

/-- third_party/concave_fitting.cpp 69-90, `compute_concave_hull`: the hull when it returns true, and the
numbers of neighbours tried. -/
def computeConcaveHull (neighbours : ℕ → Neighbours) (points : List Point) (maxIterations : ℕ) :
    Outcome (Option (List Point) × List ℕ) :=
  if points.length < 3 then .terminate
  else
    retry (fun attempt k => concaveHull (neighbours attempt) points k) points.length
      (min maxIterations neighboursValues.length) 0 (neighboursValues.getD 0 0)

/-- src/utils/polygon.cpp 292-300: the points given to the search are numbered. -/
def numbered (points : List (ℚ × ℚ)) : List Point := points.zipIdx.map fun p => ⟨p.1.1, p.1.2, p.2⟩

/-- src/utils/polygon.cpp 283-318, `Polygon::compute_concave_hull`: an empty polygon on failure. -/
def polygonOf (neighbours : ℕ → Neighbours) (points : List (ℚ × ℚ)) : Outcome (List (ℚ × ℚ)) :=
  if points.length < 3 then .ok []
  else (computeConcaveHull neighbours (numbered points) 8).map fun r =>
    match r.1 with
    | none => []
    | some hull => hull.map fun p => (p.x, p.y)

end RgbdSlam.ConcaveHull
