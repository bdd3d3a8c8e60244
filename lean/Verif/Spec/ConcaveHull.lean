import Verif.Model.ConcaveHull

/-
What the properties of the concave hull say, in terms of points of the plane.
-/
namespace RgbdSlam.ConcaveHull.Spec

open RgbdSlam.ConcaveHull

/-- The neighbour search only returns points that are left. -/
def FromLeft (neighbours : Neighbours) : Prop := ∀ left hull k, ∀ c ∈ neighbours left hull k, c ∈ left

/-- The point `(x, y)` is on the segment from `a` to `b`. -/
def OnSegment (a b : Point) (x y : ℚ) : Prop :=
  ∃ t : ℚ, 0 ≤ t ∧ t ≤ 1 ∧ x = a.x + t * (b.x - a.x) ∧ y = a.y + t * (b.y - a.y)

/-- Twice the area spanned by the directions of two segments: zero when they are parallel. -/
def turn (a1 a2 b1 b2 : Point) : ℚ := (a2.x - a1.x) * (b2.y - b1.y) - (a2.y - a1.y) * (b2.x - b1.x)

/-- The sizes of the neighbourhoods that the code lists. -/
def table : List ℕ :=
  [3, 5, 7, 11, 13, 17, 21, 23, 29, 31, 37, 41, 43, 47, 53, 59, 61, 67, 71, 73, 79, 83, 89, 97]

/-- The edges drawn by a list of vertices. -/
def edges (polygon : List Point) : List (Point × Point) := polygon.zip polygon.tail

/-- The half line from `p` to the right meets the edge (lower end included, upper end excluded), with the
tolerance of the code. -/
def RayMeets (p : Point) (e : Point × Point) : Prop :=
  ((e.1.y ≤ p.y + eps ∧ p.y < e.2.y - eps) ∨ (e.2.y ≤ p.y + eps ∧ p.y < e.1.y - eps)) ∧
  eps < |e.2.y - e.1.y| ∧
  p.x < e.1.x + (e.2.x - e.1.x) * (p.y - e.1.y) / (e.2.y - e.1.y) - eps

instance (p : Point) (e : Point × Point) : Decidable (RayMeets p e) := by unfold RayMeets; infer_instance

/-- How many edges the half line from `p` to the right meets. -/
def rayHits (p : Point) (polygon : List Point) : ℕ := ((edges polygon).filter fun e => RayMeets p e).length

/-- No vertex has a larger abscissa than `x`. -/
def LeftOf (polygon : List Point) (x : ℚ) : Prop := ∀ v ∈ polygon, v.x < x

/-- The squared distance of two points. -/
def dist2 (a b : Point) : ℚ := (a.x - b.x) * (a.x - b.x) + (a.y - b.y) * (a.y - b.y)

/-- Clockwise angle of `v` from `u` smaller than that of `w`, without trigonometry. -/
def angleLess (u v w : ℚ × ℚ) : Bool :=
  let cw (a b : ℚ × ℚ) : ℚ := a.2 * b.1 - a.1 * b.2
  let half (a : ℚ × ℚ) : Bool := !(0 < cw u a || (cw u a = 0 && 0 < u.1 * a.1 + u.2 * a.2))
  (!half v && half w) || (half v == half w && 0 < cw v w)

def insertBy (lt : Point → Point → Bool) (p : Point) : List Point → List Point
  | [] => [p]
  | q :: qs => if lt p q then p :: q :: qs else q :: insertBy lt p qs

def sortBy (lt : Point → Point → Bool) (l : List Point) : List Point := l.foldr (insertBy lt) []

/-- The exact search: the `k` nearest of the points left, the largest clockwise angle from the last edge
first. -/
def exactNeighbours : Neighbours := fun left hull k =>
  let current := hull.getD (hull.length - 1) default
  let previous := hull.getD (hull.length - 2) default
  let u : ℚ × ℚ := if hull.length = 1 then (1, 0) else (previous.x - current.x, previous.y - current.y)
  sortBy (fun p q => angleLess u (q.x - current.x, q.y - current.y) (p.x - current.x, p.y - current.y))
    ((sortBy (fun p q => dist2 p current < dist2 q current) left).take k)

end RgbdSlam.ConcaveHull.Spec
