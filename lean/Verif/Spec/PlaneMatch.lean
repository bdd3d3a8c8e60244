import Verif.Model.MapKinds
/-
Specification vocabulary for the choice of the match of a map plane.
-/
namespace RgbdSlam.Map.Spec

variable {P D Env : Type}

/-- The detected plane `k` is `d`, it is not used yet by another map plane, it is near the map plane `body`, and
the part of it that `body` covers is not empty and is at least `share` of its area. -/
structure Candidate (o : PlaneOps P D Env) (env : Env) (body : P) (det : List D) (used : List Bool) (share : Rat)
    (k : Nat) (d : D) : Prop where
  detected : det[k]? = some d
  unused : used[k]? ≠ some true
  near : o.similar env body d = true
  shared : 0 < o.interArea env body d
  enough : o.detectedArea d = 0 ∨ share ≤ o.interArea env body d / o.detectedArea d

/-- The candidate `k` covers the greatest area; among equals it is the first. -/
def Best (o : PlaneOps P D Env) (env : Env) (body : P) (det : List D) (used : List Bool) (share : Rat)
    (k : Nat) (d : D) : Prop :=
  Candidate o env body det used share k d ∧
  ∀ j e, Candidate o env body det used share j e →
    o.interArea env body e ≤ o.interArea env body d ∧
    (j < k → o.interArea env body e < o.interArea env body d)

end RgbdSlam.Map.Spec
