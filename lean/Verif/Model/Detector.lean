import Verif.Model.Primitives
import Verif.Model.PlaneSegment
import Verif.Model.RandomThreads
import Mathlib.Algebra.Field.Rat
import Mathlib.Algebra.Order.Ring.Unbundled.Rat

/-
The object `Primitive_Detection` (src/features/primitives/primitive_detection.cpp) over a sequence of frames: its
members stay from one frame to the next, and are only partly cleared by `reset_data`.

The other models of the detection (Verif/Model/Primitives.lean, Verif/Model/PlaneSegment.lean) start from fresh
members.  Here each member is read and written as the code does.  Exact rationals stand for `float` and `double`.
-/
namespace RgbdSlam.Detector

open RgbdSlam PlaneSegment Primitives Cylinder

/-- src/features/primitives/plane_segment.hpp 122-140: all the members of a `Plane_Segment`.  An error of `none` is the
largest double. -/
structure Patch where
  stats : Stats ℚ
  score : ℚ
  mse : Option ℚ
  planar : Bool
  centroid : Pt ℚ
  normal : Pt ℚ
  d : ℚ
  deriving DecidableEq, Repr

/-- The origin. -/
def origin : Pt ℚ := ⟨0, 0, 0⟩

/-- src/features/primitives/plane_segment.cpp 286-312 (`clear_plane_parameters`), on a segment in any state.  The
normal of a default `PlaneCoordinates` (src/coordinates/plane_coordinates.hpp) is modelled as null. -/
def Patch.clear (p : Patch) : Patch :=
  let p := { p with planar := false }
  let p := { p with stats := { p.stats with n := 0 }, score := 0, mse := none }
  let p := { p with centroid := origin, normal := origin, d := 0 }
  { p with stats := { p.stats with sx := 0, sy := 0, sz := 0, sxs := 0, sys := 0, szs := 0, sxy := 0, syz := 0,
                                   szx := 0 } }

/-- src/features/primitives/plane_segment.cpp 11-16: the default constructor. -/
def Patch.new : Patch :=
  Patch.clear ⟨Stats.clear, 0, none, false, origin, origin, 0⟩

/-- src/features/primitives/plane_segment.cpp 232-284 (`fit_plane`) on the members: the early return on a null
determinant keeps the error and the parameters of before, and only changes the centroid and the flag. -/
def Patch.fit (solve : Sym3 ℚ → Eigen3 ℚ) (eps : ℚ) (p : Patch) : Patch :=
  let p := { p with planar := false, centroid := p.stats.centroid }
  match p.stats.fit solve eps with
  | none => p
  | some f => { p with normal := f.normal, d := f.d, mse := some f.mse, score := f.score, planar := true }

/-- src/features/primitives/plane_segment.cpp 102-168 (`init_plane_segment`) on a segment in any state; `cell` is the
block of the cell in the organised cloud. -/
def Patch.init (solve : Sym3 ℚ → Eigen3 ℚ) (eps : ℚ) (width minCount : ℕ) (cell : List (Pt ℚ)) (p : Patch) :
    Outcome Patch :=
  let p := p.clear
  (horizontalContinuous width cell).bind fun h =>
  if !h then .ok p else
  (verticalContinuous width cell).bind fun v =>
  if !v then .ok p else
  if (cell.filter fun q => decide (0 < q.z)).length < cell.length / 2 then .ok p else
  let p := { p with stats := cell.foldl Stats.add { p.stats with n := 0 } }
  if p.stats.n < minCount then .ok p else
  if ¬ (0 < p.stats.sxs ∧ 0 < p.stats.sys ∧ 0 < p.stats.szs) then .terminate else
  let p := p.fit solve eps
  .ok { p with planar :=
          match p.mse with
          | none => false
          | some m => decide (m ≤ depthQuantization p.centroid.z * depthQuantization p.centroid.z) }

/-- The numerical functions of the detection, as arbitrary functions of what the code gives them. -/
structure Numerics (V : Type) where
  /-- `Eigen::SelfAdjointEigenSolver` -/
  solve : Sym3 ℚ → Eigen3 ℚ
  eps : ℚ
  width : ℕ
  minCount : ℕ
  /-- primitive_detection.cpp 203-217: the merging distance of a planar cell -/
  tolerance : Patch → List (Pt ℚ) → ℚ
  /-- primitive_detection.cpp 250-254: the direction of the normal -/
  direction : Patch → ℚ × ℚ
  /-- `can_be_merged` of two cells -/
  merge : Patch → Patch → ℚ → Bool
  /-- of the segment fitted on the points of these cells: planar, score above 100, error below that of the cylinder,
  and the cylinder fit, which uses the random numbers of the thread -/
  planarFit : List Patch → Bool
  highScore : List Patch → Bool
  planeBetter : List Patch → Bool
  cylinder : (ℕ → V) → List Patch → Fit
  /-- `can_be_merged` of two fitted segments -/
  segMerge : List Patch → List Patch → Bool

/-- The members of `Primitive_Detection` (src/features/primitives/primitive_detection.hpp 198-227) that hold data of the
frames.  A mask is the list of its cells that are not null. -/
structure Members where
  w : ℕ
  h : ℕ
  histogram : Histogram.Hist
  planeGrid : List Patch
  planeSegments : List Seg
  cylinderSegments : List Segment
  gridPlaneSegmentMap : List ℕ
  gridCylinderSegMap : List ℕ
  isUnassignedMask : List ℕ
  cellDistanceTols : List ℚ
  mask : List ℕ
  deriving DecidableEq, Repr

/-- src/features/primitives/primitive_detection.cpp 26-67: the constructor, with the size of the grid.  The content of
`_mask` is not initialised: it is any list. -/
def new (w h : ℕ) (garbage : List ℕ) : Members :=
  { w := w, h := h, histogram := Histogram.reset, planeGrid := List.replicate (w * h) Patch.new,
    planeSegments := [], cylinderSegments := [], gridPlaneSegmentMap := List.replicate (w * h) 0,
    gridCylinderSegMap := List.replicate (w * h) 0, isUnassignedMask := [],
    cellDistanceTols := List.replicate (w * h) 0, mask := garbage }

/-- src/features/primitives/primitive_detection.cpp 168-185 (`reset_data`).  `_planeGrid`, `_cellDistanceTols` and the
masks are left as they are. -/
def resetData (m : Members) : Members :=
  { m with
    histogram := { counts := m.histogram.counts.map fun _ => 0, bins := [] }
    planeSegments := []
    cylinderSegments := []
    gridPlaneSegmentMap := m.gridPlaneSegmentMap.map fun _ => 0
    gridCylinderSegMap := m.gridCylinderSegMap.map fun _ => 0
    isUnassignedMask := [] }

/-- src/features/primitives/primitive_detection.cpp 192-223: the loop of `init_planar_cell_fitting` from cell `i` on.
`cloud i` is the block of cell `i`. -/
def initCells {V : Type} (num : Numerics V) (cloud : ℕ → List (Pt ℚ)) : ℕ → ℕ → Members → Outcome Members
  | 0, _, m => .ok m
  | n + 1, i, m =>
    match m.planeGrid[i]? with
    | none => .ub
    | some p =>
      (p.init num.solve num.eps num.width num.minCount (cloud i)).bind fun p =>
      initCells num cloud n (i + 1)
        { m with
          planeGrid := m.planeGrid.set i p
          cellDistanceTols := m.cellDistanceTols.set i (if p.planar then num.tolerance p (cloud i) else 0) }

/-- src/features/primitives/primitive_detection.cpp 187-237 (`init_planar_cell_fitting`). -/
def initPlanarCellFitting {V : Type} (num : Numerics V) (cloud : ℕ → List (Pt ℚ)) (m : Members) : Outcome Members :=
  initCells num cloud m.planeGrid.length 0 m

/-- What the grid and the random numbers decide, read from the members by the rest of the detection. -/
def scene {V : Type} (num : Numerics V) (random : ℕ → V) (m : Members) : Scene :=
  let cell := fun i => m.planeGrid.getD i Patch.new
  { w := m.w
    h := m.h
    planar := fun i => (cell i).planar
    direction := fun i => num.direction (cell i)
    cellMerge := fun a b => num.merge (cell a) (cell b) (m.cellDistanceTols.getD b 0)
    mse := fun i => (cell i).mse
    planarFit := fun l => num.planarFit (l.map cell)
    highScore := fun l => num.highScore (l.map cell)
    cylinder := fun l => num.cylinder random (l.map cell)
    planeBetter := fun l => num.planeBetter (l.map cell)
    segMerge := fun a b => num.segMerge (a.map cell) (b.map cell) }

/-- src/features/primitives/primitive_detection.cpp 239-265 (`init_histogram`): planar cells are added to
`_isUnassignedMask`; then `Histogram::init_histogram` (src/features/primitives/histogram.hpp 35-62), which assigns
`_bins` and adds to the counters as they are.  The second result is `remainingPlanarCells`. -/
def initHistogram (g : Scene) (m : Members) : Outcome (Members × ℕ) :=
  let planar := (List.range m.planeGrid.length).filter g.planar
  let unassigned := m.isUnassignedMask ++ planar
  (Histogram.initLoop
      ((List.range (m.w * m.h)).map fun i => if unassigned.contains i then some (g.direction i) else none)
      { m.histogram with bins := [] }).bind fun hist =>
  .ok ({ m with histogram := hist, isUnassignedMask := unassigned }, planar.length)

/-- src/features/primitives/primitive_detection.cpp 267-310 (`grow_planes_and_cylinders`) on the members; the second
result is `cylinder2regionMap`. -/
def growPlanesAndCylinders (g : Scene) (fuel : ℕ) (m : Members) (remaining : ℕ) :
    Outcome (Members × List Region) :=
  (growLoop g fuel fuel
    { hist := m.histogram, free := m.isUnassignedMask, untried := remaining, planes := m.planeSegments,
      cylinders := m.cylinderSegments, regions := [], planeMap := m.gridPlaneSegmentMap,
      cylMap := m.gridCylinderSegMap }).bind fun s =>
  .ok ({ m with histogram := s.hist, isUnassignedMask := s.free, planeSegments := s.planes,
                cylinderSegments := s.cylinders, gridPlaneSegmentMap := s.planeMap,
                gridCylinderSegMap := s.cylMap }, s.regions)

/-- src/features/primitives/primitive_detection.cpp 503-560 (`merge_planes`) on the members; the second result is
`planeMergeLabels`. -/
def mergeMembers (g : Scene) (m : Members) : Members × List ℕ :=
  let adj := fun a b =>
    (connected m.h m.w fun r c => m.gridPlaneSegmentMap.getD (c + m.w * r) 0).contains (a, b)
  let r := mergePlanes g adj m.planeSegments
  ({ m with planeSegments := r.segs }, r.labels)

/-- src/features/primitives/primitive_detection.cpp 578-597: the mask of plane `i`: `_mask = 0`, then the cells of the
planes merged in it are set. -/
def planeMask (m : Members) (labels : List ℕ) (i : ℕ) : Members :=
  let m := { m with mask := [] }
  { m with mask := m.mask ++ (List.range m.gridPlaneSegmentMap.length).filter fun c =>
      (List.range m.planeSegments.length).any fun j =>
        decide (i ≤ j) && labels.getD j 0 == i && m.gridPlaneSegmentMap.getD c 0 == j + 1 }

/-- src/features/primitives/primitive_detection.cpp 562-648 (`add_planes_to_primitives`): for each plane returned, its
segment and the mask its boundary is computed from. -/
def addPlanes (g : Scene) (labels : List ℕ) : List ℕ → Members → Members × List (Seg × List ℕ)
  | [], m => (m, [])
  | i :: is, m =>
    let seg := m.planeSegments.getD i noSeg
    if labels.getD i 0 != i || !g.planarFit seg.fitted then addPlanes g labels is m
    else
      let m := planeMask m labels i
      let r := addPlanes g labels is m
      (r.1, (seg, m.mask) :: r.2)

/-- src/features/primitives/primitive_detection.cpp 705-734 (`add_cylinders_to_primitives`): the mask of each region
(`_mask = 0`, then its cells are set, then the closing is written back in it), and the cylinders of the regions
whose mask is not completely eroded.  `closing` and `survives` stand for `cv::dilate`, `cv::erode` and
`cv::minMaxLoc`. -/
def addCylinders (closing : List ℕ → List ℕ) (survives : List ℕ → Bool) (regions : List Region) :
    List ℕ → Members → Members × List Num
  | [], m => (m, [])
  | i :: is, m =>
    let m := { m with mask := [] }
    let m := { m with mask := m.mask ++ (List.range m.gridCylinderSegMap.length).filter fun c =>
      m.gridCylinderSegMap.getD c 0 == i + 1 }
    let m := { m with mask := closing m.mask }
    let r := addCylinders closing survives regions is m
    if survives m.mask then
      let region := regions.getD i { cylinder := 0, segId := 0, cells := [] }
      (r.1, cylinderRadius (m.cylinderSegments.getD region.cylinder
        { count := 0, radii := [], inliers := [], toGlobal := [] }) :: r.2)
    else r

/-- What `find_primitives` gives: the planes, by their segment and mask, and the cylinders, by their radius. -/
structure Found where
  planes : List (Seg × List ℕ)
  cylinders : List Num
  deriving DecidableEq, Repr

/-- src/features/primitives/primitive_detection.cpp 118-166 (`find_primitives`), without the time measurements; it is
`noexcept` and none of its steps throws. -/
def findPrimitives {V : Type} (num : Numerics V) (closing : List ℕ → List ℕ) (survives : List ℕ → Bool)
    (fuel : ℕ) (cloud : ℕ → List (Pt ℚ)) (random : ℕ → V) (m : Members) : Outcome (Members × Found) :=
  (initPlanarCellFitting num cloud (resetData m)).bind fun m =>
  let g := scene num random m
  (initHistogram g m).bind fun r =>
  (growPlanesAndCylinders g fuel r.1 r.2).bind fun r =>
  let merged := mergeMembers g r.1
  let planes := addPlanes g merged.2 (List.range merged.1.planeSegments.length) merged.1
  let cylinders := addCylinders closing survives r.2 (List.range r.2.length) planes.1
  .ok (cylinders.1, { planes := planes.2, cylinders := cylinders.2 })

/-- A sequence of frames given to the same detector, as by `detect_features` (src/rgbd_slam.cpp 291-297): each one is
its cloud, and the random numbers of the thread that treats it. -/
def treat {V : Type} (num : Numerics V) (closing : List ℕ → List ℕ) (survives : List ℕ → Bool) (fuel : ℕ) :
    List ((ℕ → List (Pt ℚ)) × (ℕ → V)) → Members → Outcome Members
  | [], m => .ok m
  | f :: fs, m =>
    (findPrimitives num closing survives fuel f.1 f.2 m).bind fun r => treat num closing survives fuel fs r.1

end RgbdSlam.Detector
