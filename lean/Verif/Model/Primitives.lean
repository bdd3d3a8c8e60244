import Verif.Model.Histogram
import Verif.Model.Cylinder

/-
Model of the primitive detection (src/features/primitives/primitive_detection.cpp): growing planes and
cylinders on the grid of planar cells, the adjacency of the planes found, and their merge.

A cell is designated by its index `x + w * y`.  A vector of booleans over the cells is modelled by the list
of the indexes at which it is true.
-/
namespace RgbdSlam.Primitives

open RgbdSlam Histogram Cylinder

/-- A plane segment as far as this model goes: the list of the grid cells whose points were accumulated in
it, with multiplicity (`_Sx`, ..., `_pointCount`; Plane_Segment::expand_segment, plane_segment.cpp 170-190,
adds them), and the same list at the time of the last `fit_plane`: normal, centroid and mean square error
are those of the last fit. -/
structure Seg where
  parts : List Nat
  fitted : List Nat
  deriving DecidableEq, Repr

/-- src/features/primitives/plane_segment.cpp 170-190 (`expand_segment`). -/
def Seg.expand (a b : Seg) : Seg := { a with parts := a.parts ++ b.parts }

/-- src/features/primitives/plane_segment.cpp 232-284 (`fit_plane`). -/
def Seg.fit (a : Seg) : Seg := { a with fitted := a.parts }

/-- What the depth image decides: the size of the grid and the results of all numerical computations, as
arbitrary functions. -/
structure Scene where
  /-- `_horizontalCellsCount` -/
  w : Nat
  /-- `_verticalCellsCount` -/
  h : Nat
  /-- `_planeGrid[i].is_planar()` -/
  planar : Nat → Bool
  /-- direction of the normal of a planar cell (see `Histogram.bin`) -/
  direction : Nat → Rat × Rat
  /-- `_planeGrid[a].can_be_merged(_planeGrid[b], _cellDistanceTols[b])` -/
  cellMerge : Nat → Nat → Bool
  /-- `_planeGrid[i].get_MSE()`; `none` is a value that is not below the largest double -/
  mse : Nat → Option Rat
  /-- is a segment fitted on these cells planar -/
  planarFit : List Nat → Bool
  /-- is the score of a segment fitted on these cells above 100 -/
  highScore : List Nat → Bool
  /-- the cylinder fit on these cells -/
  cylinder : List Nat → Cylinder.Fit
  /-- is the mean square error of the plane fitted on these cells below that of the cylinder -/
  planeBetter : List Nat → Bool
  /-- `can_be_merged` of two plane segments last fitted on these cells, with the distance
  `maximumPlaneDistanceForMerge_mm` -/
  segMerge : List Nat → List Nat → Bool

/-- `_totalCellCount`. -/
def Scene.total (g : Scene) : Nat := g.w * g.h

/-- primitive_detection.cpp 279-280: `minimumPlaneSeedProportion * _totalCellCount` as an integer
(0.8 %; exact arithmetic). -/
def Scene.minSeeds (g : Scene) : Nat := g.total * 8 / 1000

/-- primitive_detection.cpp 359-360 and cylinder_segment.cpp 140-141:
`minimumCellActivatedProportion * _totalCellCount` as an integer (0.65 %; exact arithmetic). -/
def Scene.minCells (g : Scene) : Nat := g.total * 65 / 10000

/-- src/features/primitives/primitive_detection.cpp 778-818 (`region_growing`); `free` is
`_isUnassignedMask`, `prev` the cell whose plane is expanded (for the seed, a copy of its own plane), `act`
is `isActivatedMap`.  The recursion is bounded by `fuel`. -/
def grow (g : Scene) (free : List Nat) : Nat → Nat → Nat → Nat → List Nat → Outcome (List Nat)
  | 0, _, _, _, _ => .outOfFuel
  | fuel + 1, x, y, prev, act =>
    let index := x + g.w * y
    if g.total ≤ index then .ok act
    else if !free.contains index || act.contains index then .ok act
    else if g.cellMerge prev index then
      (if x > 0 then grow g free fuel (x - 1) y index (index :: act) else .ok (index :: act)).bind fun act =>
      (if x < g.w - 1 then grow g free fuel (x + 1) y index act else .ok act).bind fun act =>
      (if y > 0 then grow g free fuel x (y - 1) index act else .ok act).bind fun act =>
      (if y < g.h - 1 then grow g free fuel x (y + 1) index act else .ok act)
    else .ok act

/-- An entry of `cylinder2regionMap`: the index of the cylinder and that of its sub-segment.  `cells` is not
stored by the code: it records the inlier cells of the sub-segment, which the copy of the cylinder in
`_cylinderSegments` loses. -/
structure Region where
  cylinder : Nat
  segId : Nat
  cells : List Nat
  deriving DecidableEq, Repr

/-- The members of `Primitive_Detection` used while growing, and `cylinder2regionMap`. -/
structure St where
  hist : Hist
  /-- `_isUnassignedMask` -/
  free : List Nat
  /-- `untriedPlanarCellsCount` -/
  untried : Nat
  /-- `_planeSegments` -/
  planes : List Seg
  /-- `_cylinderSegments` -/
  cylinders : List Segment
  /-- `cylinder2regionMap` -/
  regions : List Region
  /-- `_gridPlaneSegmentMap`, row after row -/
  planeMap : List Nat
  /-- `_gridCylinderSegMap`, row after row -/
  cylMap : List Nat
  deriving DecidableEq, Repr

/-- src/features/primitives/primitive_detection.cpp 282-303: the seed with the smallest error among the
candidates; the search stops at an error that is not positive.  `best` is (`seedId`, `minMSE`).  NaN errors
are not modelled. -/
def pickSeed (mse : Nat → Option Rat) : List Nat → Option (Nat × Rat) → Option (Nat × Rat)
  | [], best => best
  | c :: cs, best =>
    match mse c with
    | none => pickSeed mse cs best
    | some e =>
      match best with
      | some (s, m) => if m ≤ e then pickSeed mse cs (some (s, m))
          else if e ≤ 0 then some (c, e) else pickSeed mse cs (some (c, e))
      | none => if e ≤ 0 then some (c, e) else pickSeed mse cs (some (c, e))

/-- src/features/primitives/primitive_detection.cpp 335-356: the activated cells are accumulated in the
segment, removed from the histogram and marked assigned.  The loop runs over `cells`, the activated cells
in increasing order; it also returns `cellActivatedCount`. -/
def absorb (g : Scene) : List Nat → St → Seg → Nat → Outcome (St × Seg × Nat)
  | [], s, seg, n => .ok (s, seg, n)
  | i :: is, s, seg, n =>
    if g.planar i then
      (removePoint s.hist i).bind fun hist =>
      if s.untried = 0 then .terminate
      else absorb g is
        { s with hist := hist, free := s.free.filter (fun j => j != i), untried := s.untried - 1 }
        (seg.expand { parts := [i], fitted := [i] }) (n + 1)
    else absorb g is s seg n

/-- Write `label` at the given cells of a label map. -/
def paint (cells : List Nat) (label : Nat) (map : List Nat) : List Nat :=
  cells.foldl (fun m c => m.set c label) map

/-- src/features/primitives/primitive_detection.cpp 391-411 (`add_plane_segment_to_features`). -/
def addPlane (s : St) (seg : Seg) (cells : List Nat) : St :=
  let planes := s.planes ++ [seg]
  { s with planes := planes, planeMap := paint cells planes.length s.planeMap }

/-- src/features/primitives/primitive_detection.cpp 478-501 (`cylinder_fitting`), 413-435
(`find_plane_segment_in_cylinder`) and 437-476 (`add_cylinder_to_features`) for one sub-segment;
`cells` are its inlier cells (global indexes).  Cells that are not planar are not accumulated.  When
the refitted plane is not planar its error stays the largest double, which is not below that of
the cylinder. -/
def addSubSegment (g : Scene) (s : St) (segId : Nat) (cells : List Nat) : St :=
  let parts := cells.filter g.planar
  if parts.isEmpty then s
  else if g.planarFit parts && g.planeBetter parts then
    addPlane s { parts := parts, fitted := parts } cells
  else
    let regions := s.regions ++ [{ cylinder := s.cylinders.length - 1, segId := segId, cells := cells }]
    { s with regions := regions, cylMap := paint cells regions.length s.cylMap }

/-- The loop of `cylinder_fitting` over the sub-segments. -/
def addSubSegments (g : Scene) : List (List Nat) → Nat → St → St
  | [], _, s => s
  | cells :: rest, segId, s => addSubSegments g rest (segId + 1) (addSubSegment g s segId cells)

/-- src/features/primitives/primitive_detection.cpp 478-501 (`cylinder_fitting`).  What is stored in
`_cylinderSegments` is a copy of the fitted segment (`emplace_back` of a const reference). -/
def cylinderFitting (g : Scene) (s : St) (cells : List Nat) (fuel : Nat) : Outcome St :=
  (fitSegment (g.cylinder cells) cells g.minCells fuel).bind fun seg =>
  .ok (addSubSegments g (seg.inliers.map fun inl => inl.map fun i => seg.toGlobal.getD i 0) 0
    { s with cylinders := s.cylinders ++ [copy seg] })

/-- src/features/primitives/primitive_detection.cpp 312-389 (`grow_plane_segment_at_seed`). -/
def growAtSeed (g : Scene) (fuel : Nat) (s : St) (seed : Nat) : Outcome St :=
  if !g.planar seed then .ok s
  else
    (grow g s.free fuel (seed % g.w) (seed / g.w) seed []).bind fun act =>
    let cells := (List.range g.total).filter act.contains
    (absorb g cells s { parts := [seed], fitted := [seed] } 0).bind fun r =>
    let s := r.1
    let seg := r.2.1
    let n := r.2.2
    if n = 0 ∨ n < g.minCells then
      (removePoint s.hist seed).bind fun hist => .ok { s with hist := hist }
    else
      let seg := seg.fit
      if !g.planarFit seg.fitted then .ok s
      else if g.highScore seg.fitted then .ok (addPlane s seg cells)
      else if n > 5 then cylinderFitting g s cells fuel
      else .ok s

/-- src/features/primitives/primitive_detection.cpp 267-310 (`grow_planes_and_cylinders`); the `while` loop
is bounded by the first argument, the recursion and the cylinder loop by `fuel`. -/
def growLoop (g : Scene) (fuel : Nat) : Nat → St → Outcome St
  | 0, _ => .outOfFuel
  | turns + 1, s =>
    if s.untried = 0 then .ok s
    else
      let cands := candidates s.hist
      if cands.length < g.minSeeds then .ok s
      else match pickSeed g.mse cands none with
        | none => .ok s
        | some (seed, _) => (growAtSeed g fuel s seed).bind (growLoop g fuel turns)

/-- src/features/primitives/primitive_detection.cpp 168-185 (`reset_data`) and 239-265
(`init_histogram`). -/
def start (g : Scene) : Outcome St :=
  (Histogram.init ((List.range g.total).map fun i => if g.planar i then some (g.direction i) else none)).bind
  fun hist =>
  let free := (List.range g.total).filter g.planar
  .ok { hist := hist, free := free, untried := free.length, planes := [], cylinders := [], regions := [],
        planeMap := List.replicate g.total 0, cylMap := List.replicate g.total 0 }

/-- src/features/primitives/primitive_detection.cpp 134-145: initialisation and growth. -/
def detect (g : Scene) (fuel : Nat) : Outcome St := (start g).bind (growLoop g fuel fuel)

/-- src/features/primitives/primitive_detection.cpp 736-776 (`get_connected_components_matrix`) on a map
of `rows` × `cols` labels: the pairs of planes (0-based) set to true, in the order of the writes.  Only the
first `rows - 1` rows and `cols - 1` columns are scanned. -/
def connected (rows cols : Nat) (label : Nat → Nat → Nat) : List (Nat × Nat) :=
  (List.range (rows - 1)).flatMap fun r =>
    (List.range (cols - 1)).flatMap fun c =>
      let p := label r c
      let n := label r (c + 1)
      let b := label (r + 1) c
      if p = 0 then []
      else
        (if n > 0 ∧ p ≠ n then [(p - 1, n - 1), (n - 1, p - 1)] else []) ++
        (if b > 0 ∧ p ≠ b then [(p - 1, b - 1), (b - 1, p - 1)] else [])

/-- State of `merge_planes`: `_planeSegments` and `planeMergeLabels`. -/
structure Merge where
  segs : List Seg
  labels : List Nat
  deriving DecidableEq, Repr

/-- An empty segment, never read in range. -/
def noSeg : Seg := { parts := [], fitted := [] }

/-- src/features/primitives/primitive_detection.cpp 530-553: one plane `col` against the plane `planeId` being
expanded from row `row`.  Simplification, justified by `C44_refused_pairs`: the entries of the matrix cleared on a refused merge are not
modelled, as a pair (row, col) is read once only, for `row < col`.  The flag is `wasPlaneExpanded`. -/
def mergeCol (g : Scene) (adj : Nat → Nat → Bool) (row planeId : Nat) (m : Merge × Bool) (col : Nat) :
    Merge × Bool :=
  if !adj row col then m
  else
    let a := m.1.segs.getD planeId noSeg
    let b := m.1.segs.getD col noSeg
    if !g.planarFit b.fitted then m
    else if g.segMerge a.fitted b.fitted then
      ({ segs := m.1.segs.set planeId (a.expand b), labels := m.1.labels.set col planeId }, true)
    else m

/-- src/features/primitives/primitive_detection.cpp 520-558: one row. -/
def mergeRow (g : Scene) (adj : Nat → Nat → Bool) (n : Nat) (m : Merge) (row : Nat) : Merge :=
  let planeId := m.labels.getD row 0
  if !g.planarFit (m.segs.getD planeId noSeg).fitted then m
  else
    let r := ((List.range n).filter fun col => decide (row < col)).foldl (mergeCol g adj row planeId) (m, false)
    if r.2 then { r.1 with segs := r.1.segs.set planeId (r.1.segs.getD planeId noSeg).fit } else r.1

/-- src/features/primitives/primitive_detection.cpp 503-560 (`merge_planes`) for a given adjacency. -/
def mergePlanes (g : Scene) (adj : Nat → Nat → Bool) (segs : List Seg) : Merge :=
  (List.range segs.length).foldl (mergeRow g adj segs.length)
    { segs := segs, labels := List.range segs.length }

/-- The adjacency matrix of the planes of a detection state. -/
def St.adj (g : Scene) (s : St) (a b : Nat) : Bool :=
  (connected g.h g.w (fun r c => s.planeMap.getD (c + g.w * r) 0)).contains (a, b)

/-- src/features/primitives/primitive_detection.cpp 562-648 (`add_planes_to_primitives`) up to the boundary
computation: for each plane that is its own representative and planar, the segment and the cells of its
mask. -/
def planeMasks (g : Scene) (s : St) (m : Merge) : List (Seg × List Nat) :=
  ((List.range m.segs.length).filter fun i =>
      m.labels.getD i 0 == i && g.planarFit (m.segs.getD i noSeg).fitted).map fun i =>
    (m.segs.getD i noSeg,
      (List.range g.total).filter fun c =>
        (List.range m.segs.length).any fun j =>
          decide (i ≤ j) && m.labels.getD j 0 == i && s.planeMap.getD c 0 == j + 1)

/-- src/features/primitives/primitive_detection.cpp 705-734 (`add_cylinders_to_primitives`): the radii of the
cylinders returned; `survives i` says that the mask of region `i` is not completely eroded. -/
def cylinderRadii (survives : Nat → Bool) (s : St) : List Num :=
  ((List.range s.regions.length).filter survives).map fun i =>
    let r := s.regions.getD i { cylinder := 0, segId := 0, cells := [] }
    cylinderRadius (s.cylinders.getD r.cylinder { count := 0, radii := [], inliers := [], toGlobal := [] })

end RgbdSlam.Primitives
