import Mathlib.Data.Set.Basic
import Verif.Model.PolygonRepair
/- What the repair of an outline is expected to do, without the functions of the program. -/
namespace RgbdSlam.PolygonRepair.Spec

/-- `p` is on the open segment from `a` to `b`. -/
def Between (a b p : Pt) : Prop :=
  ∃ s : ℚ, 0 < s ∧ s < 1 ∧ p.1 = a.1 + s * (b.1 - a.1) ∧ p.2 = a.2 + s * (b.2 - a.2)

/-- Two edges of an outline cross at a point that is not one of their ends. -/
def Crosses (ring : List Pt) (i j : ℕ) (p : Pt) : Prop :=
  ∃ a b c d, ring[i]? = some a ∧ ring[i + 1]? = some b ∧ ring[j]? = some c ∧ ring[j + 1]? = some d ∧
    Between a b p ∧ Between c d p

/-- The intersections reported for an outline are its crossings, each of them once. -/
def AllCrossings (ring : List Pt) (turns : List Turn) : Prop :=
  turns.Nodup ∧ ∀ t : Turn, t ∈ turns ↔ t.first < t.second ∧ Crosses ring t.first t.second t.p

/-- The crossings of an outline are in general position: between the ends of two edges, at different points, none of
which is a corner. -/
def Simple (ring : List Pt) (turns : List Turn) : Prop :=
  (∀ t ∈ turns, t.first < t.second ∧ Crosses ring t.first t.second t.p) ∧ (turns.map Turn.p).Nodup ∧
    ∀ t ∈ turns, t.p ∉ ring

/-- The program keeps the crossing: it is nearer to the start of one of the two edges than these starts are to each
other. -/
def Kept (ring : List Pt) (t : Turn) : Prop :=
  ∃ a b, ring[t.first]? = some a ∧ ring[t.second]? = some b ∧
    (dist2 t.p a < dist2 a b ∨ dist2 t.p b < dist2 a b)

/-- A way of the outline through a crossing: along the first of its two edges, or along the second. -/
abbrev Passage := Turn × Bool

namespace Passage

/-- The other way through the same crossing. -/
def other (x : Passage) : Passage := (x.1, !x.2)

/-- The edge of the outline. -/
def edgeOf (x : Passage) : ℕ := if x.2 then x.1.second else x.1.first

/-- The square of the distance from the start of the edge. -/
def along (ring : List Pt) (x : Passage) : ℚ :=
  let q := (ring[x.edgeOf]?).getD (0, 0)
  (x.1.p.1 - q.1) * (x.1.p.1 - q.1) + (x.1.p.2 - q.2) * (x.1.p.2 - q.2)

end Passage

/-- An outline in general position, with the list of its crossings: these are at different points, and so are the
corners; no corner is inside an edge; edges that cross are not parallel. -/
structure GeneralPosition (ring : List Pt) (turns : List Turn) : Prop where
  crossings : AllCrossings ring turns
  points : (turns.map Turn.p).Nodup
  corners : ring.tail.Nodup
  ends : ∀ (i : ℕ) (a b p : Pt), ring[i]? = some a → ring[i + 1]? = some b → p ∈ ring → ¬ Between a b p
  transversal : ∀ t ∈ turns, ∀ a b c d : Pt, ring[t.first]? = some a → ring[t.first + 1]? = some b →
    ring[t.second]? = some c → ring[t.second + 1]? = some d → (b.1 - a.1) * (d.2 - c.2) ≠ (b.2 - a.2) * (d.1 - c.1)

/-- A closed list of points. -/
def Closed (ring : List Pt) : Prop := ring ≠ [] ∧ ring.head? = ring.getLast?

/-- 1 for a clockwise loop, -1 for the others. -/
def turnsOf (area : ℚ) : ℤ := if 0 < area then 1 else -1

/-- The winding number of a point: the number of clockwise loops around it, minus the number of the others. -/
noncomputable def windingAt {α P : Type*} (points : α → Set P) (pieces : List (α × ℚ)) (p : P) : ℤ :=
  open scoped Classical in ((pieces.filter fun b => p ∈ points b.1).map fun b => turnsOf b.2).sum

/-- What an edge adds to the number of turns around `z`: the half line from `z` to the right is crossed downwards (1),
upwards (-1) or not at all. -/
def crossing (z a b : Pt) : ℤ :=
  if b.2 ≤ z.2 ∧ z.2 < a.2 ∧ z.1 < a.1 + (z.2 - a.2) / (b.2 - a.2) * (b.1 - a.1) then 1
  else if a.2 ≤ z.2 ∧ z.2 < b.2 ∧ z.1 < a.1 + (z.2 - a.2) / (b.2 - a.2) * (b.1 - a.1) then -1
  else 0

/-- The winding number of a closed outline: how often it turns clockwise around `z`. -/
def turnsAround (z : Pt) : List Pt → ℤ
  | a :: b :: l => crossing z a b + turnsAround z (b :: l)
  | _ => 0

/-- The points of a list of polygons. -/
def pointsOf {α P : Type*} (points : α → Set P) (l : List α) : Set P := {p | ∃ a ∈ l, p ∈ points a}

/-- The number of the polygons of a list that hold the point. -/
noncomputable def around {α : Type*} (inside : α → Prop) (l : List α) : ℕ :=
  open scoped Classical in l.countP fun a => decide (inside a)

/-- Loops that come in decreasing order of size are nested or apart. -/
def NestedOrApart {α P : Type*} (points : α → Set P) (covers : α → α → Bool) (pieces : List (α × ℚ)) : Prop :=
  pieces.Pairwise fun a b => (covers a.1 b.1 = true ∧ points b.1 ⊆ points a.1) ∨
    (covers a.1 b.1 = false ∧ ∀ p, p ∈ points b.1 → p ∉ points a.1)

/-- No loop is in a loop which is in a third one. -/
def NoThreeNested {α : Type*} (covers : α → α → Bool) (pieces : List (α × ℚ)) : Prop :=
  ∀ (i k j : ℕ) (a b c : α × ℚ), i < k → k < j → pieces[i]? = some a → pieces[k]? = some b → pieces[j]? = some c →
    covers a.1 b.1 = true → covers b.1 c.1 = false

end RgbdSlam.PolygonRepair.Spec
