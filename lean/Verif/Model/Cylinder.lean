import Verif.Model.Outcome

/-
Model of the cylinder segmentation: which plane patches are put in which cylinder sub-segment, and what
is kept when the result is copied.
-/
namespace RgbdSlam.Cylinder

open RgbdSlam

/-- A floating point number; `none` is NaN. -/
abbrev Num := Option Rat

/-- `cylinderRansacSqrtMaxDistance` (src/parameters.hpp 83). -/
def maxDistance : Rat := 4 / 100

/-- src/features/primitives/cylinder_segment.cpp 277-300: one hypothesis is scored on the patches left.
`d i` is the normalised squared distance of patch `i` to the cylinder of the hypothesis.  Result: the
inliers and the truncated distance.  A NaN distance is not an inlier. -/
def scoreHypothesis (left : List Nat) (d : Nat → Num) : List Nat × Rat :=
  let inlier := fun i => match d i with
    | some x => decide (x < maxDistance)
    | none => false
  (left.filter inlier,
    left.foldl (fun s i => s + (match d i with
      | some x => if x < maxDistance then x else maxDistance
      | none => maxDistance)) 0)

/-- src/features/primitives/cylinder_segment.cpp 247-313: the RANSAC iterations.  `best` is
`finalInlierIndexes`, `minDist` is `minHypothesisDist`.  A hypothesis is the distance function obtained from
a random triplet of patches left; here it is any function (simplification: the random draw and the
geometry are not modelled).  Line 311 reads the size of `inlierIndexes` after the swap, that is the size
of the *previous* best set. -/
def iterations (left : List Nat) (accepted : Nat) : List (Nat → Num) → List Nat → Rat → List Nat
  | [], best, _ => best
  | d :: ds, best, minDist =>
    let r := scoreHypothesis left d
    if r.2 < minDist then
      if best.length > accepted then r.1
      else iterations left accepted ds r.1 r.2
    else iterations left accepted ds best minDist

/-- src/features/primitives/cylinder_segment.cpp 227-322 (`run_ransac_loop`).  `idsLeft` holds the true
positions of `idsLeftMask` (lines 132-138 and 157-180), so both are `left`.  The result lists the true
positions of `isInlierFinal`.  `⌊0.9 n⌋` is taken exactly.  With fewer than three patches left the function
returns 0 and the caller stops. -/
def runRansac (left : List Nat) (hyps : List (Nat → Num)) : List Nat :=
  if left.length < 3 then []
  else iterations left (9 * left.length / 10) hyps [] (maxDistance * left.length)

/-- src/features/primitives/cylinder_segment.hpp: the fields of a `Cylinder_Segment` that matter here:
`_segmentCount`, `_radius`, `_inliers`, `_local2globalMap`. -/
structure Segment where
  count : Nat
  radii : List Num
  inliers : List (List Nat)
  toGlobal : List Nat
  deriving DecidableEq, Repr

/-- What the numerical part of the fit decides. -/
structure Fit where
  /-- Checkpoint 1 is passed (cylinder_segment.cpp 88-93). -/
  axis : Bool
  /-- The hypotheses drawn in each round. -/
  hyps : Nat → List (Nat → Num)
  /-- The least squares radius of a set of inliers, before its sign is dropped (lines 182-191). -/
  radius : List Nat → Num

/-- src/features/primitives/cylinder_segment.cpp 189-191: the radius of a concave cylinder is negated. -/
def absRadius : Num → Num
  | some r => if r < 0 then some (-r) else some r
  | none => none

/-- src/features/primitives/cylinder_segment.cpp 142-224: the sequential RANSAC loop on `total` patches.
`remaining` is `planeSegmentsLeft`, an unsigned counter: taking away more than it holds wraps, which
is reported as `ub` here.  `minCells` is `minimumCellActivated`. -/
def loop (fit : Fit) (total minCells : Nat) : Nat → Nat → List Nat → Nat → Segment → Outcome Segment
  | 0, _, _, _, _ => .outOfFuel
  | fuel + 1, round, left, remaining, seg =>
    if remaining > minCells ∧ 10 * remaining > total then
      let inl := runRansac left (fit.hyps round)
      if inl.length < 6 then .ok seg
      else if remaining < inl.length then .ub
      else loop fit total minCells fuel (round + 1) (left.filter (fun i => !inl.contains i))
        (remaining - inl.length)
        { seg with count := seg.count + 1, radii := seg.radii ++ [absRadius (fit.radius inl)],
                   inliers := seg.inliers ++ [inl] }
    else .ok seg

/-- src/features/primitives/cylinder_segment.cpp 35-225: the fitting constructor, on the list of the
activated cells in increasing order. -/
def fitSegment (fit : Fit) (cells : List Nat) (minCells fuel : Nat) : Outcome Segment :=
  let seg : Segment := { count := 0, radii := [], inliers := [], toGlobal := cells }
  if fit.axis then loop fit cells.length minCells fuel 0 (List.range cells.length) cells.length seg
  else .ok seg

/-- src/features/primitives/cylinder_segment.cpp 20-33: the copy constructor. -/
def copy (s : Segment) : Segment := { count := 0, radii := s.radii, inliers := [], toGlobal := [] }

/-- Division of a double by a `uint` converted to a double: 0/0 is NaN; x/0 for x ≠ 0 does not occur
where this is used with a zero divisor (the sum is then 0) and is mapped to NaN as well. -/
def divNat (x : Num) (n : Nat) : Num :=
  match x with
  | none => none
  | some q => if n = 0 then none else some (q / n)

/-- Addition of doubles. -/
def addNum : Num → Num → Num
  | some a, some b => some (a + b)
  | _, _ => none

/-- src/features/primitives/shape_primitives.cpp 17-25: the radius of the `Cylinder` made from a segment.
`get_radius(i)` is `_radius[i]` (cylinder_segment.cpp 386-390). -/
def cylinderRadius (s : Segment) : Num :=
  divNat ((List.range s.count).foldl (fun r i => addNum r (s.radii.getD i none)) (some 0)) s.count

end RgbdSlam.Cylinder
