import Verif.Model.LocalMap
/-
Specification of the map points followed by optical flow.
-/
namespace RgbdSlam.Map.Spec

variable {P Px : Type}

/-- The map points that can be followed: those of the map (not the candidates) that were matched in the last
frame and are visible from the predicted pose, in the order of the container. -/
def followable (visible : P → Bool) (m : FMap P) : List (Feat P) :=
  (m.localMap.map (·.2)).filter fun f => decide (f.matched ≠ []) && visible f.body

/-- One point out of ten is left out: number `i` when the `i`-th random number is below 1/10. -/
def sampled (draws : Nat → Rat) (l : List (Feat P)) : List (Feat P) :=
  (l.zipIdx.filter fun fi => decide (1 / 10 ≤ draws fi.2)).map (·.1)

end RgbdSlam.Map.Spec
