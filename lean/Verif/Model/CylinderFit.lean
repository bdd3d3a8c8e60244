import Verif.Model.Geometry

/-
The geometry of the cylinder segmentation: axis, projection of the patches, least squares circle, distances.

Doubles are modelled by the reals; a division by zero gives NaN or an infinity in the code and 0 here, so
that the theorems exclude null divisors.
-/
namespace RgbdSlam.CylinderFit

open Matrix Geometry

noncomputable section

/-- A plane patch: `get_normal()` and `get_centroid()` of a cell of the grid
(src/features/primitives/cylinder_segment.cpp 50-71). -/
structure Patch where
  normal : V3
  centroid : V3

/-- src/features/primitives/cylinder_segment.cpp 73-88: covariance of the normals and of their opposites,
a sum over `2 n` columns divided by `2 n - 1`. -/
def covariance (l : List Patch) : M3 :=
  (1 / ((2 * l.length : ℕ) - 1 : ℝ)) •
    ((l.map fun p => vecMulVec p.normal p.normal).sum + (l.map fun p => vecMulVec (-p.normal) (-p.normal)).sum)

/-- src/features/primitives/cylinder_segment.cpp 110-114 and 115-118: what is left of a vector without its
part along the axis. -/
def projectOut (axis v : V3) : V3 := v - (axis ⬝ᵥ v) • axis

/-- src/features/primitives/cylinder_segment.cpp 110-124: projection of a patch on the plane orthogonal to
the axis; the projected normal is divided by its norm. -/
def projectPatch (axis : V3) (p : Patch) : Patch where
  normal := (Geometry.norm (projectOut axis p.normal))⁻¹ • projectOut axis p.normal
  centroid := projectOut axis p.centroid

/-- A radius and a centre. -/
structure Circle where
  radius : ℝ
  center : V3

/-- src/features/primitives/cylinder_segment.cpp 253-279: the hypothesis of three projected patches. -/
def hypothesis (p q r : Patch) : Circle :=
  let sumN := p.normal + q.normal + r.normal
  let sumC := p.centroid + q.centroid + r.centroid
  let a := 1 - (sumN ⬝ᵥ sumN) / 9
  let b := (p.normal ⬝ᵥ p.centroid + q.normal ⬝ᵥ q.centroid + r.normal ⬝ᵥ r.centroid) / 3 -
    (sumN ⬝ᵥ sumC) / 9
  let radius := b / a
  ⟨radius, (1 / 3 : ℝ) • (sumC - radius • sumN)⟩

/-- src/features/primitives/cylinder_segment.cpp 291-294: the distance of a patch to a hypothesis. -/
def hypothesisDistance (c : Circle) (p : Patch) : ℝ :=
  let e := p.centroid - c.radius • p.normal - c.center
  (e ⬝ᵥ e) * (1 / (c.radius * c.radius))

/-- src/features/primitives/cylinder_segment.cpp 155-187: the least squares circle of the projected inliers,
before its radius is made positive. -/
def leastSquares (l : List Patch) : Circle :=
  let n : ℝ := l.length
  let sumN := (l.map Patch.normal).sum
  let sumC := (l.map Patch.centroid).sum
  let a := 1 - (sumN ⬝ᵥ sumN) * (1 / (n * n))
  let b := (l.map fun p => p.normal ⬝ᵥ p.centroid).sum / n - (sumN ⬝ᵥ sumC) * (1 / (n * n))
  let radius := b / a
  ⟨radius, (1 / n) • (sumC - radius • sumN)⟩

/-- A sub-segment: its radius (`_radius`), and the two points of its axis (`_pointsAxis1`,
`_pointsAxis2`); `_normalsAxis1Axis2` is the norm of their difference. -/
structure Sub where
  radius : ℝ
  p1 : V3
  p2 : V3

/-- src/features/primitives/cylinder_segment.cpp 187-204 and 220-223: the sub-segment added for the
inliers. -/
def subSegment (axis : V3) (projected : List Patch) : Sub :=
  let c := leastSquares projected
  ⟨if c.radius < 0 then -c.radius else c.radius, c.center, c.center + axis⟩

/-- src/features/primitives/cylinder_segment.cpp 337-343, `get_distance(point, segmentId)`. -/
def Sub.distance (s : Sub) (point : V3) : ℝ :=
  Geometry.norm (crossProduct (s.p2 - s.p1) (point - s.p2)) / Geometry.norm (s.p2 - s.p1) - s.radius

/-- src/features/primitives/cylinder_segment.cpp 206-219: the mean squared error of the inliers, with their
centroids before projection. -/
def meanSquaredError (s : Sub) (l : List Patch) : ℝ :=
  (l.map fun p => s.distance p.centroid * s.distance p.centroid).sum / l.length

/-- src/features/primitives/cylinder_segment.cpp 324-335, `get_distance(point)`, for the sub-segments `first`
and `rest`. -/
def distance (first : Sub) (rest : List Sub) (point : V3) : ℝ :=
  rest.foldl (fun m s => if m > s.distance point then s.distance point else m) (first.distance point)

/-- src/features/primitives/shape_primitives.cpp 36-41, `Cylinder::get_distance`: not implemented. -/
def cylinderDistance (_axis : V3) (_radius : ℝ) (_point : V3) : ℝ := 0

open Classical in
/-- src/features/primitives/shape_primitives.cpp 29-34, `Cylinder::is_similar`: the angle is 20 degrees
(src/parameters.hpp, `maximumAngleForPlaneMatch_d`). -/
def cylinderSimilar (a b : V3) : Bool := decide (|Real.cos (20 * Real.pi / 180)| < |a ⬝ᵥ b|)

end

end RgbdSlam.CylinderFit
