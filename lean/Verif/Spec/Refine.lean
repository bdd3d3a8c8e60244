import Verif.Spec.DepthMap

/-
Specification vocabulary for the boundaries of the planes and the merging and matching tests.
-/
namespace RgbdSlam.Refine.Spec

open RgbdSlam Geometry

/-- A set of cells in a grid of `rows` × `cols` cells. -/
def InGrid (rows cols : ℕ) (c : ℕ × ℕ) : Prop := c.1 < rows ∧ c.2 < cols

/-- The same cell, or a cell beside it, above it or below it. -/
def Beside (a b : ℕ × ℕ) : Prop :=
  (a.1 = b.1 ∧ (a.2 = b.2 ∨ a.2 + 1 = b.2 ∨ b.2 + 1 = a.2)) ∨ (a.2 = b.2 ∧ (a.1 + 1 = b.1 ∨ b.1 + 1 = a.1))

/-- The same cell, or one of the eight around it. -/
def Around (a b : ℕ × ℕ) : Prop :=
  (a.1 = b.1 ∨ a.1 + 1 = b.1 ∨ b.1 + 1 = a.1) ∧ (a.2 = b.2 ∨ a.2 + 1 = b.2 ∨ b.2 + 1 = a.2)

/-- A cell well inside a set of cells: not on the border of the grid, and it belongs to the set with the
four cells beside it. -/
def Inside (rows cols : ℕ) (S : ℕ × ℕ → Prop) (c : ℕ × ℕ) : Prop :=
  (0 < c.1 ∧ c.1 + 1 < rows ∧ 0 < c.2 ∧ c.2 + 1 < cols) ∧ ∀ d, Beside c d → S d

/-- A cell on the edge of a set of cells: in it or around one of its cells, but not well inside. -/
def Edge (rows cols : ℕ) (S : ℕ × ℕ → Prop) (c : ℕ × ℕ) : Prop :=
  (∃ d, InGrid rows cols d ∧ S d ∧ Around c d) ∧ ¬ Inside rows cols S c

/-- The row and column of the pixel at the centre of a cell of `size` × `size` pixels. -/
def centre (size : ℕ) (c : ℕ × ℕ) : ℕ × ℕ := (c.1 * size + size / 2, c.2 * size + size / 2)

/-- A cell whose cells beside (in the grid), and itself, all have one of `S` beside them: the set `S` with its
holes and gaps of one cell filled. -/
def Filled (rows cols : ℕ) (S : ℕ × ℕ → Prop) (c : ℕ × ℕ) : Prop :=
  ∀ d, InGrid rows cols d → Beside c d → ∃ e, InGrid rows cols e ∧ Beside d e ∧ S e

/-- A cell that is in the set with all the cells of the grid beside it. -/
def Core (rows cols : ℕ) (S : ℕ × ℕ → Prop) (c : ℕ × ℕ) : Prop :=
  InGrid rows cols c ∧ ∀ d, InGrid rows cols d → Beside c d → S d

/-- The angle of two unit vectors. -/
noncomputable def angle (u v : V3) : ℝ := Real.arccos (u 0 * v 0 + u 1 * v 1 + u 2 * v 2)

/-- Degrees to radians. -/
noncomputable def degrees (a : ℝ) : ℝ := a * Real.pi / 180

/-- Distance of a point to the plane of unit normal `n` and offset `d`. -/
def offPlane (n : V3) (d : ℝ) (p : V3) : ℝ := |n 0 * p 0 + n 1 * p 1 + n 2 * p 2 + d|

/-- A vector of length one. -/
def UnitLength (n : V3) : Prop := n 0 * n 0 + n 1 * n 1 + n 2 * n 2 = 1

/-- Distance of two points. -/
noncomputable def dist3 (p q : V3) : ℝ :=
  Real.sqrt ((p 0 - q 0) ^ 2 + (p 1 - q 1) ^ 2 + (p 2 - q 2) ^ 2)

/-- The point of the plane nearest to the camera. -/
def foot (n : V3) (d : ℝ) : V3 := ![-d * n 0, -d * n 1, -d * n 2]

/-- A cell of a grid of cells of `cell` × `cell` pixels that gives a point to the boundary of the plane
`normal`, `d` of deviation `sigma` with the cells `S`: on the edge of `S`, with a depth at its centre, and the
point measured there is at less than three deviations of the plane. -/
def Gives (cam : DepthMap.Spec.Pinhole) (width height cell : ℕ) (depth : ℕ → ℕ → ℝ) (normal : V3)
    (d sigma : ℝ) (S : ℕ × ℕ → Prop) (c : ℕ × ℕ) : Prop :=
  InGrid (height / cell) (width / cell) c ∧ Edge (height / cell) (width / cell) S c ∧
    0 < depth (centre cell c).1 (centre cell c).2 ∧
    offPlane normal d (DepthMap.Spec.measured cam (centre cell c).1 (centre cell c).2
      (depth (centre cell c).1 (centre cell c).2)) < 3 * sigma

end RgbdSlam.Refine.Spec
