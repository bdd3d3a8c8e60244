import Verif.Model.Primitives
/-
`merge_planes` (src/features/primitives/primitive_detection.cpp 503-560) with the matrix of adjacent planes as the variable it
is in the program: the entries of a refused pair are cleared.
-/
namespace RgbdSlam.Primitives

/-- The variables of the loops: planes and labels, `wasPlaneExpanded`, `isPlanesConnectedMatrix`. -/
structure MergeVars where
  merge : Merge
  expanded : Bool
  matrix : Nat → Nat → Bool

/-- The writes of lines 547-548 of primitive_detection.cpp. -/
def clearPair (matrix : Nat → Nat → Bool) (row col : Nat) : Nat → Nat → Bool := fun a b =>
  if (a = row ∧ b = col) ∨ (a = col ∧ b = row) then false else matrix a b

/-- primitive_detection.cpp 528-550: the body of the inner loop. -/
def mergeColStep (g : Scene) (row planeId : Nat) (v : MergeVars) (col : Nat) : MergeVars :=
  if !v.matrix row col then v
  else
    let a := v.merge.segs.getD planeId noSeg
    let b := v.merge.segs.getD col noSeg
    if !g.planarFit b.fitted then v
    else if g.segMerge a.fitted b.fitted then
      { v with merge := { segs := v.merge.segs.set planeId (a.expand b), labels := v.merge.labels.set col planeId },
               expanded := true }
    else { v with matrix := clearPair v.matrix row col }

/-- primitive_detection.cpp 520-557: the body of the outer loop. -/
def mergeRowStep (g : Scene) (n : Nat) (v : Merge × (Nat → Nat → Bool)) (row : Nat) : Merge × (Nat → Nat → Bool) :=
  let planeId := v.1.labels.getD row 0
  if !g.planarFit (v.1.segs.getD planeId noSeg).fitted then v
  else
    let r := ((List.range n).filter fun col => decide (row < col)).foldl (mergeColStep g row planeId) ⟨v.1, false, v.2⟩
    (if r.expanded then { r.merge with segs := r.merge.segs.set planeId (r.merge.segs.getD planeId noSeg).fit } else r.merge,
      r.matrix)

/-- primitive_detection.cpp 503-560. -/
def mergePlanesMatrix (g : Scene) (matrix : Nat → Nat → Bool) (segs : List Seg) : Merge :=
  ((List.range segs.length).foldl (mergeRowStep g segs.length)
    ({ segs := segs, labels := List.range segs.length }, matrix)).1

end RgbdSlam.Primitives
