import Verif.Model.MergeMatrix
import Verif.Props.Primitives
/-
C44: clearing the entries of a refused pair of planes changes nothing, so what is proved of `mergePlanes`, which keeps the
matrix, holds of the program.
-/
namespace RgbdSlam.Primitives

/-- The entries that are still to be read when row `row` is treated from column `col` on are those of `adj`. -/
def Unread (adj matrix : Nat → Nat → Bool) (row col : Nat) : Prop :=
  ∀ a b, a < b → (row < a ∨ (a = row ∧ col ≤ b)) → matrix a b = adj a b

theorem mergeColStep_eq {g : Scene} {adj : Nat → Nat → Bool} {row planeId col : Nat} (hc : row < col) {v : MergeVars}
    (hu : Unread adj v.matrix row col) :
    ((mergeColStep g row planeId v col).merge, (mergeColStep g row planeId v col).expanded) =
      mergeCol g adj row planeId (v.merge, v.expanded) col ∧
    Unread adj (mergeColStep g row planeId v col).matrix row (col + 1) := by
  have hm : v.matrix row col = adj row col := hu row col hc (.inr ⟨rfl, Nat.le_refl _⟩)
  have hu' : Unread adj v.matrix row (col + 1) := fun a b hab h => hu a b hab (by omega)
  unfold mergeColStep mergeCol
  rw [hm]
  split
  · exact ⟨rfl, hu'⟩
  dsimp only
  split
  · exact ⟨rfl, hu'⟩
  split
  · exact ⟨rfl, hu'⟩
  · refine ⟨rfl, fun a b hab h => ?_⟩
    simp only [clearPair]
    rw [if_neg (by omega)]
    exact hu' a b hab h

theorem mergeColStep_foldl {g : Scene} {adj : Nat → Nat → Bool} {row planeId : Nat} (cols : List Nat) (from' : Nat)
    (hs : cols.Pairwise (· < ·)) (hf : ∀ c ∈ cols, row < c ∧ from' ≤ c) {v : MergeVars} (hu : Unread adj v.matrix row from') :
    let r := cols.foldl (mergeColStep g row planeId) v
    (r.merge, r.expanded) = cols.foldl (mergeCol g adj row planeId) (v.merge, v.expanded) ∧
    ∀ a b, a < b → row < a → r.matrix a b = adj a b := by
  induction cols generalizing v from' with
  | nil => exact ⟨rfl, fun a b hab h => hu a b hab (.inl h)⟩
  | cons c cols ih =>
    rw [List.pairwise_cons] at hs
    obtain ⟨h1, h2⟩ := hf c List.mem_cons_self
    obtain ⟨e, hu'⟩ := mergeColStep_eq (g := g) (planeId := planeId) h1
      (fun a b hab h => hu a b hab (by omega) : Unread adj v.matrix row c)
    have := ih (c + 1) hs.2 (fun d hd => ⟨(hf d (List.mem_cons_of_mem _ hd)).1, hs.1 d hd⟩) hu'
    simp only [List.foldl_cons]
    rw [← e]
    exact this

/-- For every set of planes, every adjacency and every scene, the program, which clears the entries of refused pairs while it
merges, gives the planes and labels of the merging without clearing: a refused pair has no effect on any other pair. -/
theorem C44_refused_pairs (g : Scene) (adj : Nat → Nat → Bool) (planes : List Seg) :
    mergePlanesMatrix g adj planes = mergePlanes g adj planes := by
  unfold mergePlanesMatrix mergePlanes
  generalize hn : planes.length = n
  have key : ∀ (k : Nat) (m : Merge),
      let r := (List.range k).foldl (mergeRowStep g n) (m, adj)
      r.1 = (List.range k).foldl (mergeRow g adj n) m ∧ ∀ a b, a < b → k ≤ a → r.2 a b = adj a b := by
    intro k m
    induction k with
    | zero => exact ⟨rfl, fun _ _ _ _ => rfl⟩
    | succ k ih =>
      simp only [List.range_succ, List.foldl_append, List.foldl_cons, List.foldl_nil]
      obtain ⟨e, hm⟩ := ih
      generalize hr : (List.range k).foldl (mergeRowStep g n) (m, adj) = r at e hm ⊢
      obtain ⟨r1, r2⟩ := r
      simp only at e hm
      rw [← e]
      unfold mergeRowStep mergeRow
      dsimp only
      split
      · exact ⟨rfl, fun a b hab h => hm a b hab (by omega)⟩
      · obtain ⟨c1, c2⟩ := mergeColStep_foldl (g := g) (adj := adj) (row := k) (planeId := r1.labels.getD k 0)
          ((List.range n).filter fun col => decide (k < col)) 0
          (List.Pairwise.filter _ List.pairwise_lt_range)
          (fun c hc => by simp only [List.mem_filter, decide_eq_true_eq] at hc; exact ⟨hc.2, Nat.zero_le _⟩)
          (v := ⟨r1, false, r2⟩) (fun a b hab h => hm a b hab (by omega))
        simp only at c1 c2
        rw [← c1]
        exact ⟨rfl, fun a b hab h => c2 a b hab (by omega)⟩
  exact (key n _).1

/-- Non-vacuity: the refused pair of the example of C44 is cleared, and the labels are the same. -/
example : (mergePlanesMatrix { sample 1 1 (fun _ => true) true with segMerge := fun _ b => b != [2] }
    (fun a b => a + 1 == b || b + 1 == a)
    [⟨[0], [0]⟩, ⟨[1], [1]⟩, ⟨[2], [2]⟩, ⟨[3], [3]⟩]).labels = [0, 0, 2, 2] := by decide +kernel

end RgbdSlam.Primitives
