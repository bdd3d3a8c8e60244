import Verif.Model.System
import Verif.Spec.FeatureMap
/-
Vocabulary for the properties of the whole local map.
-/
namespace RgbdSlam.Map

variable {P D Env : Type}

/-- The 2D points that converge, with the 3D point made of each and the detections matched to it. -/
def converged (o2 o1 : PointOps P D Env) (env : Env) (fs : List (Feat P)) : List (P × List Nat) :=
  fs.filterMap fun f => ((o2.upgrade env f.body).bind o1.buildUpgraded).map (·, f.matched)

/-- Map features (key and feature) made of upgrades: consecutive ids from `n` on, one match, no miss. -/
def freshFrom : Nat → List (P × List Nat) → Store P
  | _, [] => []
  | n, (b, ms) :: r => (n, ⟨n, 0, 1, ms, b⟩) :: freshFrom (n + 1) r

/-- No constructor of a 3D map point fails on what these 2D points become. -/
def UpgradesBuild (o2 o1 : PointOps P D Env) (env : Env) (fs : List (Feat P)) : Prop :=
  ∀ f ∈ fs, ∀ b, o2.upgrade env f.body = some b → o1.buildUpgraded b ≠ none

/-- The features of a map type that do not converge. -/
def staying (o2 : PointOps P D Env) (env : Env) (l : Store P) : Store P :=
  l.filter fun p => (o2.upgrade env p.2.body).isNone

end RgbdSlam.Map
