import Verif.Model.Geometry

/-
Specification vocabulary for the depth image.
-/
namespace RgbdSlam.DepthMap.Spec

open RgbdSlam Geometry

/-- The four numbers of a pinhole camera. -/
structure Pinhole where
  fx : ℝ
  fy : ℝ
  cx : ℝ
  cy : ℝ

/-- The calibration matrix of the camera, as the library stores it. -/
noncomputable def Pinhole.matrix (c : Pinhole) : M3 := intrinsics c.fx c.fy c.cx c.cy

/-- A camera with non zero focal lengths. -/
def Pinhole.Valid (c : Pinhole) : Prop := c.fx ≠ 0 ∧ c.fy ≠ 0

/-- The point that a camera measures at a pixel with a depth (pinhole model). -/
noncomputable def measured (c : Pinhole) (row col : ℕ) (z : ℝ) : V3 :=
  ![(col - c.cx) * z / c.fx, (row - c.cy) * z / c.fy, z]

/-- Column of the pixel of the camera on which a point projects (pinhole model). -/
noncomputable def seenCol (c : Pinhole) (p : V3) : ℤ := ⌊c.fx * p 0 / p 2 + c.cx⌋

/-- Row of the pixel of the camera on which a point projects (pinhole model). -/
noncomputable def seenRow (c : Pinhole) (p : V3) : ℤ := ⌊c.fy * p 1 / p 2 + c.cy⌋

/-- A point moved to another frame. -/
def moved (R : M3) (t : V3) (p : V3) : V3 := fun i => R i 0 * p 0 + R i 1 * p 1 + R i 2 * p 2 + t i

/-- The pixels of an image. -/
def InImage (width height : ℕ) (p : ℕ × ℕ) : Prop := p.1 < height ∧ p.2 < width

end RgbdSlam.DepthMap.Spec
