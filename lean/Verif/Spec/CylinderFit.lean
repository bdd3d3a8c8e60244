import Verif.Model.CylinderFit

/-
Vocabulary for the cylinder fit.
-/
namespace RgbdSlam.CylinderFit

open Matrix Geometry

/-- A vector of length one. -/
def Unit3 (v : V3) : Prop := v ⬝ᵥ v = 1

/-- The patch is tangent to the cylinder of this axis, through this point, with this radius: its centroid is
on the surface and its normal is the direction from the axis to it (`side = 1`, the cylinder is seen from
inside the normals, or `side = -1` for the opposite direction). -/
def Tangent (axis origin : V3) (radius side : ℝ) (p : Patch) : Prop :=
  ∃ (h : ℝ) (u : V3), u ⬝ᵥ u = 1 ∧ u ⬝ᵥ axis = 0 ∧ p.centroid = origin + h • axis + radius • u ∧
    p.normal = side • u

/-- The sum of the squared differences between the centroids and the places where a circle puts them. -/
noncomputable def cost (l : List Patch) (radius : ℝ) (center : V3) : ℝ :=
  (l.map fun p => (p.centroid - radius • p.normal - center) ⬝ᵥ (p.centroid - radius • p.normal - center)).sum

/-- The distance of a point to the line through `a` of direction `axis`: the smallest distance to a point of
the line. -/
def DistanceToLine (axis a point : V3) (d : ℝ) : Prop :=
  (∃ t : ℝ, d = Geometry.norm (point - (a + t • axis))) ∧
    ∀ t : ℝ, d ≤ Geometry.norm (point - (a + t • axis))

end RgbdSlam.CylinderFit
