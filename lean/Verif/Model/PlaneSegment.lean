import Mathlib.Algebra.Order.Field.Basic
import Verif.Model.Outcome

/-
Model of the plane segments (src/features/primitives/plane_segment.cpp): the sums accumulated over the points of
a cell, their union, the covariance and the plane fit.

Floating point numbers are modelled by an ordered field: arithmetic is exact.  Rounding, overflow and NaN are not
modelled in this file.
-/
namespace RgbdSlam.PlaneSegment

open RgbdSlam

variable {K : Type*} [Field K] [LinearOrder K]

/-- A 3D point or vector. -/
@[ext] structure Pt (K : Type*) where
  x : K
  y : K
  z : K
  deriving DecidableEq, Repr

/-- Scalar product of two vectors (`Eigen` `dot`). -/
def Pt.dot (a b : Pt K) : K := a.x * b.x + a.y * b.y + a.z * b.z

/-- plane_segment.hpp 113-134: the fields `_pointCount` and `_Sx`, ..., `_Szx`. -/
@[ext] structure Stats (K : Type*) where
  n : Nat
  sx : K
  sy : K
  sz : K
  sxs : K
  sys : K
  szs : K
  sxy : K
  syz : K
  szx : K
  deriving DecidableEq, Repr

/-- plane_segment.cpp 289-312 (`clear_plane_parameters`). -/
def Stats.clear : Stats K :=
  { n := 0, sx := 0, sy := 0, sz := 0, sxs := 0, sys := 0, szs := 0, sxy := 0, syz := 0, szx := 0 }

/-- plane_segment.cpp 132-149: one turn of the loop of `init_plane_segment`. -/
def Stats.add (s : Stats K) (p : Pt K) : Stats K :=
  if 0 < p.z then
    { n := s.n + 1
      sx := s.sx + p.x
      sy := s.sy + p.y
      sz := s.sz + p.z
      sxs := s.sxs + p.x * p.x
      sys := s.sys + p.y * p.y
      szs := s.szs + p.z * p.z
      sxy := s.sxy + p.x * p.y
      szx := s.szx + p.x * p.z
      syz := s.syz + p.y * p.z }
  else s

/-- plane_segment.cpp 127-150: the loop of `init_plane_segment`. -/
def Stats.ofCell (cell : List (Pt K)) : Stats K := cell.foldl Stats.add Stats.clear

/-- plane_segment.cpp 170-190 (`expand_segment`), without its assertions. -/
def Stats.expand (a b : Stats K) : Stats K :=
  { n := a.n + b.n
    sx := a.sx + b.sx
    sy := a.sy + b.sy
    sz := a.sz + b.sz
    sxs := a.sxs + b.sxs
    sys := a.sys + b.sys
    szs := a.szs + b.szs
    sxy := a.sxy + b.sxy
    syz := a.syz + b.syz
    szx := a.szx + b.szx }

/-- A symmetric 3 × 3 matrix, given by its six coefficients. -/
@[ext] structure Sym3 (K : Type*) where
  xx : K
  yy : K
  zz : K
  xy : K
  xz : K
  yz : K
  deriving DecidableEq, Repr

/-- Matrix times vector. -/
def Sym3.mul (m : Sym3 K) (v : Pt K) : Pt K :=
  { x := m.xx * v.x + m.xy * v.y + m.xz * v.z
    y := m.xy * v.x + m.yy * v.y + m.yz * v.z
    z := m.xz * v.x + m.yz * v.y + m.zz * v.z }

/-- `determinant()` of a symmetric matrix. -/
def Sym3.det (m : Sym3 K) : K :=
  m.xx * (m.yy * m.zz - m.yz * m.yz) - m.xy * (m.xy * m.zz - m.yz * m.xz) +
    m.xz * (m.xy * m.yz - m.yy * m.xz)

/-- plane_segment.cpp 239: the centroid. -/
def Stats.centroid (s : Stats K) : Pt K :=
  { x := s.sx * (1 / (s.n : K)), y := s.sy * (1 / (s.n : K)), z := s.sz * (1 / (s.n : K)) }

/-- plane_segment.cpp 205-230 (`get_point_cloud_Huygen_covariance`). -/
def Stats.covariance (s : Stats K) : Sym3 K :=
  { xx := max 0 (s.sxs - s.sx * s.sx * (1 / (s.n : K)))
    yy := max 0 (s.sys - s.sy * s.sy * (1 / (s.n : K)))
    zz := max 0 (s.szs - s.sz * s.sz * (1 / (s.n : K)))
    xy := s.sxy - s.sx * s.sy * (1 / (s.n : K))
    xz := s.szx - s.sx * s.sz * (1 / (s.n : K))
    yz := s.syz - s.sy * s.sz * (1 / (s.n : K)) }

/-- Result of `Eigen::SelfAdjointEigenSolver`: the two smallest eigenvalues and the normalised eigenvector of the
smallest one.  It is an oracle here. -/
structure Eigen3 (K : Type*) where
  l0 : K
  l1 : K
  v0 : Pt K
  deriving DecidableEq, Repr

/-- The parameters given by `fit_plane`. -/
structure Plane (K : Type*) where
  centroid : Pt K
  normal : Pt K
  d : K
  mse : K
  score : K
  deriving DecidableEq, Repr

/-- plane_segment.cpp 232-284 (`fit_plane`); `none` is the early return on a null determinant, which leaves
the segment non planar; `eps` is the tolerance of `double_equal` (distance_utils.cpp 15-18).  The eigenvector is
taken as already normalised (251, 262). -/
def Stats.fit (solve : Sym3 K → Eigen3 K) (eps : K) (s : Stats K) : Option (Plane K) :=
  let c := s.centroid
  let m := s.covariance
  if |m.det - 0| ≤ eps then none
  else
    let e := solve m
    let d := -(e.v0.dot c)
    let flip := decide (d ≤ 0)
    some { centroid := c
           normal := if flip then { x := -e.v0.x, y := -e.v0.y, z := -e.v0.z } else e.v0
           d := if flip then -d else d
           mse := |e.l0| * (1 / (s.n : K))
           score := |e.l1| / max |e.l0| (1 / 1000000) }

/-- src/utils/covariances.cpp 12-19 (`get_depth_quantization`), with parameters.hpp 16-18. -/
def depthQuantization (depth : K) : K :=
  max (-(53 / 100) + 74 / 100 / 1000 * depth + 273 / 100 * ((1 / 1000) * (1 / 1000)) * (depth * depth)) (1 / 2)

/-- plane_segment.cpp 44-60 (`is_continuous`): the new `lastPixelDepth`, or `none` at a discontinuity. -/
def continuous (depth last : K) : Option K :=
  if 0 < depth then
    if |depth - last| ≤ 4 * depthQuantization depth then some depth else none
  else some last

/-- plane_segment.cpp 72-77 and 92-97: the scan of the depths `zs` after the first one. -/
def scan : List K → K → Bool
  | [], _ => true
  | z :: zs, last =>
    match continuous z last with
    | none => false
    | some last => scan zs last

/-- `depthMatrix(i)`. -/
def depthAt (cell : List (Pt K)) (i : Nat) : Outcome K :=
  match cell[i]? with
  | some p => .ok p.z
  | none => .ub

/-- The depths at the given places. -/
def depthsAt (cell : List (Pt K)) : List Nat → Outcome (List K)
  | [] => .ok []
  | i :: is => (depthAt cell i).bind fun z => (depthsAt cell is).bind fun zs => .ok (z :: zs)

/-- plane_segment.cpp 62-80 and 82-100, common part: the depths of pixels `a` and `b` give the depth to start from, and
`places` are the pixels of the loop.  (The model reads all these pixels before it looks at the depths.) -/
def lineContinuous (cell : List (Pt K)) (a b : Nat) (places : List Nat) : Outcome Bool :=
  (depthAt cell a).bind fun za =>
  (depthAt cell b).bind fun zb =>
  let last := max za zb
  if last ≤ 0 then .ok false else
  (depthsAt cell places).bind fun zs => .ok (scan zs last)

/-- plane_segment.cpp 73: `for (i = startValue + _cellWidth; i < endValue; i += _cellWidth)`. -/
def columnLoop (width size : Nat) : List Nat :=
  (List.range (size - width / 2)).filter fun i =>
    decide (width / 2 + width ≤ i ∧ (i - width / 2) % width = 0)

/-- plane_segment.cpp 62-80 (`is_cell_vertical_continuous`). -/
def verticalContinuous (width : Nat) (cell : List (Pt K)) : Outcome Bool :=
  let start := width / 2
  lineContinuous cell start (start + width) (columnLoop width cell.length)

/-- plane_segment.cpp 82-100 (`is_cell_horizontal_continuous`); `_cellHeight` is the quotient of the number of points by
the width (plane_segment.hpp 39). -/
def horizontalContinuous (width : Nat) (cell : List (Pt K)) : Outcome Bool :=
  let start := width * (cell.length / width) / 2
  lineContinuous cell start (start + 1) ((List.range (width - 1)).map (start + 1 + ·))

/-- State of a plane segment after `init_plane_segment`. -/
structure Cell (K : Type*) where
  stats : Stats K
  plane : Option (Plane K)
  planar : Bool
  deriving DecidableEq, Repr

/-- plane_segment.cpp 102-168 (`init_plane_segment`): `cell` is the block of the cell in the organised cloud,
`minCount` is `_minZeroPointCount`.  A false value of the mean square error test leaves the fitted parameters in
place. -/
def init (solve : Sym3 K → Eigen3 K) (eps : K) (width minCount : Nat) (cell : List (Pt K)) :
    Outcome (Cell K) :=
  let none' : Cell K := { stats := Stats.clear, plane := none, planar := false }
  (horizontalContinuous width cell).bind fun h =>
  if !h then .ok none' else
  (verticalContinuous width cell).bind fun v =>
  if !v then .ok none' else
  if (cell.filter fun p => decide (0 < p.z)).length < cell.length / 2 then .ok none' else
  let s := Stats.ofCell cell
  if s.n < minCount then .ok { stats := s, plane := none, planar := false } else
  if ¬ (0 < s.sxs ∧ 0 < s.sys ∧ 0 < s.szs) then .terminate else
  match s.fit solve eps with
  | none => .ok { stats := s, plane := none
                  planar := false }
  | some p =>
    .ok { stats := s, plane := some p
          planar := decide (p.mse ≤ depthQuantization p.centroid.z * depthQuantization p.centroid.z) }

end RgbdSlam.PlaneSegment
