import Verif.Model.Geometry
/-
Intersections of lines and segments, src/utils/line.cpp 74-137.
-/
namespace RgbdSlam.Crossing

open Geometry

noncomputable section

/-- What `boost::geometry::intersection` of two segments gives: the value it returns and the points it appends. -/
structure Found (n : ℕ) where
  returned : Bool
  points : List (Fin n → ℝ)

/-- src/utils/line.cpp 94-112 and 114-137, `intersects` of two segments, in two and three dimensions: the point, `none`
when it returns false. `cross` is `boost::geometry::intersection`. The first of no points is read out of bounds. -/
def segments {n : ℕ} (cross : (Fin n → ℝ) × (Fin n → ℝ) → (Fin n → ℝ) × (Fin n → ℝ) → Found n)
    (first second : (Fin n → ℝ) × (Fin n → ℝ)) : Outcome (Option (Fin n → ℝ)) :=
  let output := cross first second
  if output.returned then
    match output.points with
    | [] => .ub
    | p :: _ => .ok (some p)
  else .ok none

/-- src/utils/line.cpp 74-82 and 84-92, `intersects` of two lines, with the results of the virtual `compute_normal`. -/
def lines {n : ℕ} (cross : (Fin n → ℝ) × (Fin n → ℝ) → (Fin n → ℝ) × (Fin n → ℝ) → Found n)
    (start1 normal1 start2 normal2 : Fin n → ℝ) : Outcome (Option (Fin n → ℝ)) :=
  segments cross (start1, start1 + (100 : ℝ) • normal1) (start2, start2 + (100 : ℝ) • normal2)

end

end RgbdSlam.Crossing
