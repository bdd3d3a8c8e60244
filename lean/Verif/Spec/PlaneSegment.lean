import Verif.Model.PlaneSegment

/-
Specification vocabulary for the plane segment properties.
-/
namespace RgbdSlam.PlaneSegment.Spec

open RgbdSlam

variable {K : Type*} [Field K] [LinearOrder K]

/-- Sum of `f` over a list of points. -/
def total (f : Pt K → K) (pts : List (Pt K)) : K := (pts.map f).sum

/-- The points of a cell that have a depth. -/
def measured (cell : List (Pt K)) : List (Pt K) := cell.filter fun p => decide (0 < p.z)

/-- The statistics are the count, sums, sums of squares and of products of these points. -/
structure HasStats (s : Stats K) (pts : List (Pt K)) : Prop where
  n : s.n = pts.length
  sx : s.sx = total (fun p => p.x) pts
  sy : s.sy = total (fun p => p.y) pts
  sz : s.sz = total (fun p => p.z) pts
  sxs : s.sxs = total (fun p => p.x * p.x) pts
  sys : s.sys = total (fun p => p.y * p.y) pts
  szs : s.szs = total (fun p => p.z * p.z) pts
  sxy : s.sxy = total (fun p => p.x * p.y) pts
  syz : s.syz = total (fun p => p.y * p.z) pts
  szx : s.szx = total (fun p => p.x * p.z) pts

/-- The mean point. -/
def mean (pts : List (Pt K)) : Pt K :=
  { x := total (fun p => p.x) pts / pts.length, y := total (fun p => p.y) pts / pts.length
    z := total (fun p => p.z) pts / pts.length }

/-- Sum of the squared deviations from the mean along `v`. -/
def spread (pts : List (Pt K)) (v : Pt K) : K :=
  total (fun p => (v.dot p - v.dot (mean pts)) * (v.dot p - v.dot (mean pts))) pts

/-- Signed distance of a point to the plane of unit normal `n` and offset `d`. -/
def offset (n : Pt K) (d : K) (p : Pt K) : K := n.dot p + d

/-- What an eigenvalue solver guarantees for the pair used by the fit. -/
structure IsEigen (m : Sym3 K) (e : Eigen3 K) : Prop where
  eq : m.mul e.v0 = { x := e.l0 * e.v0.x, y := e.l0 * e.v0.y, z := e.l0 * e.v0.z }
  unit : e.v0.dot e.v0 = 1

/-- No jump between a depth and the previous measured depth in a list of depths read one after the other: measured
depths (positive) differ from the last measured one by at most four times the depth quantisation. -/
def NoJump (zs : List K) : Prop :=
  (zs.filter fun z => decide (0 < z)).IsChain fun a b => |b - a| ≤ 4 * depthQuantization b

/-- Depth of the pixel in row `r` and column `c` of a cell given row after row. -/
def depthOf (width : Nat) (cell : List (Pt K)) (r c : Nat) : K :=
  match cell[width * r + c]? with
  | some p => p.z
  | none => 0

/-- Depths of the pixels of row `r`, from column `lo` to column `hi` excluded. -/
def rowDepths (width : Nat) (cell : List (Pt K)) (r lo hi : Nat) : List K :=
  (List.range (hi - lo)).map fun i => depthOf width cell r (lo + i)

/-- Depths of the pixels of column `c`, from row `lo` to row `hi` excluded. -/
def columnDepths (width : Nat) (cell : List (Pt K)) (c lo hi : Nat) : List K :=
  (List.range (hi - lo)).map fun i => depthOf width cell (lo + i) c

end RgbdSlam.PlaneSegment.Spec
