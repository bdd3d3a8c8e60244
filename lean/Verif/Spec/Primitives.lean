import Verif.Model.Primitives

/-
Specification vocabulary for the primitive detection properties.
-/
namespace RgbdSlam.Primitives.Spec

open RgbdSlam

/-- Cells `a` and `b` of a grid of `w` × `h` cells numbered row after row are horizontal or vertical
neighbours. -/
def Neighbour (w h a b : Nat) : Prop :=
  ∃ x y x' y', x < w ∧ y < h ∧ x' < w ∧ y' < h ∧ a = x + w * y ∧ b = x' + w * y' ∧
    ((y = y' ∧ (x = x' + 1 ∨ x' = x + 1)) ∨ (x = x' ∧ (y = y' + 1 ∨ y' = y + 1)))

/-- Cells that can be reached from a seed: the seed itself when it may be used and passes the merge test with
itself, then any neighbour that may be used and passes the merge test with the cell it is reached from. -/
inductive Reachable (w h : Nat) (usable : Nat → Prop) (merge : Nat → Nat → Prop) (seed : Nat) : Nat → Prop
  | seed : usable seed → merge seed seed → Reachable w h usable merge seed seed
  | step {a b : Nat} : Reachable w h usable merge seed a → Neighbour w h a b → usable b → merge a b →
      Reachable w h usable merge seed b

/-- The quantised direction `k` of a normal: with `u` and `v` the two angles as fractions of their range,
`k = 20 j + i`, where `i` is the interval of `u` among the 19 first ones, and `j` that of `v`, taken as 0 when
`i` is 0. -/
def Quantised (u v : Rat) (k : Nat) : Prop :=
  ∃ i j : Nat, k = 20 * j + i ∧ (i : Rat) ≤ 19 * u ∧ 19 * u < i + 1 ∧
    ((i = 0 ∧ j = 0) ∨ (0 < i ∧ (j : Rat) ≤ 19 * v ∧ 19 * v < j + 1))

/-- The directions given to the histogram are fractions of the range of the angles. -/
def ValidDirections (points : List (Option (Rat × Rat))) : Prop :=
  ∀ u v, some (u, v) ∈ points → 0 ≤ u ∧ u ≤ 1 ∧ 0 ≤ v ∧ v ≤ 1

/-- Cell `i` was given to the histogram with a direction quantised to `k`. -/
def InBin (points : List (Option (Rat × Rat))) (k i : Nat) : Prop :=
  ∃ u v, points[i]? = some (some (u, v)) ∧ Quantised u v k

/-- `cells` lists, in increasing order, the cells with property `p`. -/
def Lists (cells : List Nat) (p : Nat → Prop) : Prop :=
  cells.Pairwise (· < ·) ∧ ∀ i, i ∈ cells ↔ p i

/-- Among the bins accepted by `ok`, bin `k` has at least as many remaining cells as any other. -/
def MostPopulated (points : List (Option (Rat × Rat))) (removed : List Nat) (ok : Nat → Prop) (k : Nat) : Prop :=
  ∀ k', ok k' → ∀ a b, Lists a (fun i => InBin points k i ∧ i ∉ removed) →
    Lists b (fun i => InBin points k' i ∧ i ∉ removed) → b.length ≤ a.length

/-- Planes `p` and `q` (numbered from 0; label `p + 1` in the map) have neighbouring cells. -/
def Touch (rows cols : Nat) (label : Nat → Nat → Nat) (p q : Nat) : Prop :=
  p ≠ q ∧ ∃ r c r' c', r < rows ∧ c < cols ∧ r' < rows ∧ c' < cols ∧
    label r c = p + 1 ∧ label r' c' = q + 1 ∧
    ((r = r' ∧ (c = c' + 1 ∨ c' = c + 1)) ∨ (c = c' ∧ (r = r' + 1 ∨ r' = r + 1)))

/-- The normals of the planar cells are given by angles in their range. -/
def ValidScene (g : Scene) : Prop :=
  ∀ i, i < g.total → g.planar i = true → 0 ≤ (g.direction i).1 ∧ (g.direction i).1 ≤ 1 ∧
    0 ≤ (g.direction i).2 ∧ (g.direction i).2 ≤ 1

/-- States of the growing loop: the initial one, and those obtained by growing a candidate seed. -/
inductive Reached (g : Scene) (fuel : Nat) : St → Prop
  | start {s : St} : start g = .ok s → Reached g fuel s
  | turn {s s' : St} {seed : Nat} : Reached g fuel s → seed ∈ Histogram.candidates s.hist →
      growAtSeed g fuel s seed = .ok s' → Reached g fuel s'

/-- The growing loop goes from one state to another: each turn needs cells left to try and a most frequent
direction that holds 0.8 % of the cells of the grid at least, and grows a cell of that direction whose
error is the smallest. -/
inductive Turns (g : Scene) (fuel : Nat) (s : St) : St → Prop
  | none : Turns g fuel s s
  | turn {a b : St} {seed : Nat} {e : Rat} : Turns g fuel s a → 0 < a.untried →
      g.total * 8 / 1000 ≤ (Histogram.candidates a.hist).length → seed ∈ Histogram.candidates a.hist →
      g.mse seed = some e → (∀ c ∈ Histogram.candidates a.hist, ∀ e', g.mse c = some e' → e ≤ e') →
      growAtSeed g fuel a seed = .ok b → Turns g fuel s b

/-- The number of times cell `c` is accumulated in a segment. -/
def times (c : Nat) (seg : Seg) : Nat := seg.parts.count c

end RgbdSlam.Primitives.Spec
