import Verif.Model.Optimizer
import Verif.Spec.Geometry
import Verif.Spec.Covariance
import Verif.Spec.Jacobian

/-
Specification vocabulary for the pose optimisation and the motion model.
-/
namespace RgbdSlam.Optimizer.Spec

open Geometry

noncomputable section

/-- The four coefficients of a quaternion, w first. -/
def coeffs (q : Quat) : Fin 4 → ℝ := ![q.w, q.x, q.y, q.z]

/-- The inverse stereographic projection: the point of the unit sphere of R^4 that is on the line through
the pole (0, 0, 0, -1) and the point `(c, 0)`. -/
def stereographic (c : V3) : Fin 4 → ℝ :=
  let n := c 0 ^ 2 + c 1 ^ 2 + c 2 ^ 2
  ![2 * c 0 / (1 + n), 2 * c 1 / (1 + n), 2 * c 2 / (1 + n), (1 - n) / (1 + n)]

/-- Average of one coordinate over samples. -/
def mean (samples : List (Fin 6 → ℝ)) (i : Fin 6) : ℝ := (samples.map fun s => s i).sum / samples.length

/-- The (unbiased) sample covariance of two coordinates. -/
def sampleCovariance (samples : List (Fin 6 → ℝ)) (i j : Fin 6) : ℝ :=
  (samples.map fun s => (s i - mean samples i) * (s j - mean samples j)).sum / (samples.length - 1)

/-- A rotation around the axis `e` (of any angle). -/
def RotatesAround (e : V3) (q : Quat) : Prop := ∃ t : ℝ, q.x = t * e 0 ∧ q.y = t * e 1 ∧ q.z = t * e 2

/-- The point is projected in front of the camera. -/
def InFront (w2c : M4) (p : V3) : Prop := 0 < pointToCamera w2c p 2

/-- The residuals expected from a list of features: the distance vectors, each weighted and divided by
its size, one after the other. -/
def expectedResiduals (w2c : M4) (features : List Feature) : List ℝ :=
  features.flatMap fun f => ((f.distance w2c).getD []).map fun x => x * f.alpha / f.parts

/-- The `count` values of a vector from position `first`. -/
def slots (v : List ℝ) (first count : ℕ) : List ℝ := (v.drop first).take count

/-- Every distance vector has the announced size and no NaN. -/
def WellFormed (w2c : M4) (features : List Feature) : Prop :=
  ∀ f ∈ features, ∃ d, f.distance w2c = some d ∧ d.length = f.parts

/-- The displacements of a list of positions, each halved once more for every later displacement: the
exponential average. -/
def averageVelocity : List V3 → V3
  | [] => 0
  | [_] => 0
  | p :: q :: older => (1 / 2 : ℝ) • ((p - q) + averageVelocity (q :: older))

end

end RgbdSlam.Optimizer.Spec
