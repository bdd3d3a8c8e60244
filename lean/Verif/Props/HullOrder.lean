import Verif.Model.HullOrder
import Verif.Spec.HullOrder
import Verif.Lemmas.Tum
import Verif.Lemmas.Geometry2
import Verif.Props.ConcaveHull
import Mathlib.Analysis.SpecialFunctions.Complex.Arg
import Mathlib.Analysis.SpecialFunctions.Trigonometric.Arctan
import Mathlib.Analysis.SpecialFunctions.Trigonometric.Bounds
import Mathlib.Tactic.Linarith
import Mathlib.Tactic.NormNum
import Mathlib.Tactic.Ring
/-
C155: duplicates; C156: constant lists; C157: order of the candidates.
-/
namespace RgbdSlam.ConcaveHull

open Spec
open Tum (SortsTo StrictWeakOn)

/-! ## C155 -/

theorem equal_apart {a b : ℚ} (h : Apart a b) : equal a b = true ↔ a = b := by
  unfold equal
  rw [decide_eq_true_iff]
  unfold eps
  rcases h with rfl | h
  · simp
  · constructor
    · intro h'; linarith
    · rintro rfl; simp

theorem lessThan_apart {a b : ℚ} (h : Apart a b) : lessThan a b = true ↔ a < b := by
  unfold lessThan
  rw [decide_eq_true_iff]
  unfold eps
  rcases h with rfl | h
  · simp
  · constructor
    · intro h'
      have : (0 : ℚ) < 1 / 2 ^ 52 := by norm_num
      linarith
    · intro h'
      rw [abs_of_neg (by linarith)] at h
      linarith

def lex (a b : Point) : Prop := a.x < b.x ∨ a.x = b.x ∧ a.y < b.y

theorem lexLess_apart {a b : Point} (hx : Apart a.x b.x) (hy : Apart a.y b.y) : lexLess a b = true ↔ lex a b := by
  unfold lexLess lex
  by_cases e : a.x = b.x
  · rw [if_pos ((equal_apart hx).2 e), lessThan_apart hy]
    constructor
    · exact fun h => Or.inr ⟨e, h⟩
    · rintro (h | h)
      · exact absurd h (by rw [e]; exact lt_irrefl _)
      · exact h.2
  · rw [if_neg (fun h => e ((equal_apart hx).1 h)), lessThan_apart hx]
    constructor
    · exact Or.inl
    · rintro (h | h)
      · exact h
      · exact absurd h.1 e

theorem lex_trans {a b c : Point} (h1 : lex a b) (h2 : lex b c) : lex a c := by
  rcases h1 with h1 | ⟨h1, h1'⟩ <;> rcases h2 with h2 | ⟨h2, h2'⟩
  · exact Or.inl (h1.trans h2)
  · exact Or.inl (h2 ▸ h1)
  · exact Or.inl (h1 ▸ h2)
  · exact Or.inr ⟨h1.trans h2, h1'.trans h2'⟩

theorem lex_total {a b : Point} (h1 : ¬ lex a b) (h2 : ¬ lex b a) : a.x = b.x ∧ a.y = b.y := by
  unfold lex at h1 h2
  push Not at h1 h2
  have hx : a.x = b.x := le_antisymm h2.1 h1.1
  exact ⟨hx, le_antisymm (h2.2 hx.symm) (h1.2 hx)⟩

theorem lex_same {a b : Point} (h : a.x = b.x ∧ a.y = b.y) : ¬ lex a b := by
  rintro (h1 | h1)
  · exact absurd h.1 h1.ne
  · exact absurd h.2 h1.2.ne

theorem lexLess_strictWeak {points : List Point}
    (h : ∀ p ∈ points, ∀ q ∈ points, Apart p.x q.x ∧ Apart p.y q.y) :
    StrictWeakOn (fun a b => lexLess a b = true) points := by
  refine ⟨fun a ha => ?_, fun a ha b hb c hc => ?_, fun a ha b hb c hc => ?_⟩
  · rw [lexLess_apart (h a ha a ha).1 (h a ha a ha).2]
    exact lex_same ⟨rfl, rfl⟩
  · rw [lexLess_apart (h a ha b hb).1 (h a ha b hb).2, lexLess_apart (h b hb c hc).1 (h b hb c hc).2,
      lexLess_apart (h a ha c hc).1 (h a ha c hc).2]
    exact lex_trans
  · rw [lexLess_apart (h a ha b hb).1 (h a ha b hb).2, lexLess_apart (h b hb c hc).1 (h b hb c hc).2,
      lexLess_apart (h a ha c hc).1 (h a ha c hc).2, lexLess_apart (h b hb a ha).1 (h b hb a ha).2,
      lexLess_apart (h c hc b hb).1 (h c hc b hb).2, lexLess_apart (h c hc a ha).1 (h c hc a ha).2]
    intro h1 h2 h3 h4
    have e1 := lex_total h1 h2
    have e2 := lex_total h3 h4
    exact ⟨lex_same ⟨e1.1.trans e2.1, e1.2.trans e2.2⟩, lex_same ⟨(e1.1.trans e2.1).symm, (e1.2.trans e2.2).symm⟩⟩

theorem pointsEqual_apart {a b : Point} (hx : Apart a.x b.x) (hy : Apart a.y b.y) :
    pointsEqual a b = true ↔ a.x = b.x ∧ a.y = b.y := by
  unfold pointsEqual
  rw [Bool.and_eq_true, equal_apart hx, equal_apart hy]

theorem uniqueFrom_spec : ∀ (l : List Point) (last : Point),
    (∀ p ∈ last :: l, ∀ q ∈ last :: l, Apart p.x q.x ∧ Apart p.y q.y) →
    (last :: l).Pairwise (fun a b => ¬ lex b a) →
    (∀ q ∈ uniqueFrom last l, q ∈ l ∧ lex last q) ∧
    (uniqueFrom last l).Pairwise lex ∧
    ∀ p ∈ l, (last.x = p.x ∧ last.y = p.y) ∨ ∃ q ∈ uniqueFrom last l, q.x = p.x ∧ q.y = p.y
  | [], last, _, _ => ⟨by simp [uniqueFrom], by simp [uniqueFrom], by simp⟩
  | p :: l, last, ha, hs => by
    have hlp := ha last (by simp) p (by simp)
    unfold uniqueFrom
    split_ifs with he
    · rw [pointsEqual_apart hlp.1 hlp.2] at he
      obtain ⟨a1, a2, a3⟩ := uniqueFrom_spec l last
        (fun u hu v hv => ha u (by rcases List.mem_cons.1 hu with rfl | hu <;> simp [*]) v
          (by rcases List.mem_cons.1 hv with rfl | hv <;> simp [*]))
        (List.Pairwise.sublist (by simp) hs)
      refine ⟨fun q hq => ⟨List.mem_cons_of_mem _ (a1 q hq).1, (a1 q hq).2⟩, a2, fun q hq => ?_⟩
      rcases List.mem_cons.1 hq with rfl | hq
      · exact Or.inl he
      · exact a3 q hq
    · rw [pointsEqual_apart hlp.1 hlp.2] at he
      have hnl : ¬ lex p last := (List.pairwise_cons.1 hs).1 p (by simp)
      have hlt : lex last p := by
        by_contra hc
        exact he (lex_total hc hnl)
      obtain ⟨a1, a2, a3⟩ := uniqueFrom_spec l p
        (fun u hu v hv => ha u (List.mem_cons_of_mem _ hu) v (List.mem_cons_of_mem _ hv)) (List.pairwise_cons.1 hs).2
      refine ⟨fun q hq => ?_, List.pairwise_cons.2 ⟨fun q hq => (a1 q hq).2, a2⟩, fun q hq => ?_⟩
      · rcases List.mem_cons.1 hq with rfl | hq
        · exact ⟨by simp, hlt⟩
        · exact ⟨List.mem_cons_of_mem _ (a1 q hq).1, lex_trans hlt (a1 q hq).2⟩
      · rcases List.mem_cons.1 hq with rfl | hq
        · exact Or.inr ⟨q, by simp, rfl, rfl⟩
        · rcases a3 q hq with h | ⟨u, hu, h⟩
          · exact Or.inr ⟨p, by simp, h⟩
          · exact Or.inr ⟨u, List.mem_cons_of_mem _ hu, h⟩

theorem unique_spec (l : List Point) (ha : ∀ p ∈ l, ∀ q ∈ l, Apart p.x q.x ∧ Apart p.y q.y)
    (hs : l.Pairwise (fun a b => ¬ lex b a)) :
    (unique l).Pairwise lex ∧ (∀ p ∈ unique l, p ∈ l) ∧ ∀ p ∈ l, ∃ q ∈ unique l, q.x = p.x ∧ q.y = p.y := by
  cases l with
  | nil => exact ⟨by simp [unique], by simp [unique], by simp⟩
  | cons p l =>
    obtain ⟨a1, a2, a3⟩ := uniqueFrom_spec l p ha hs
    refine ⟨List.pairwise_cons.2 ⟨fun q hq => (a1 q hq).2, a2⟩, fun q hq => ?_, fun q hq => ?_⟩
    · rcases List.mem_cons.1 hq with rfl | hq
      · simp
      · exact List.mem_cons_of_mem _ (a1 q hq).1
    · rcases List.mem_cons.1 hq with rfl | hq
      · exact ⟨q, by simp [unique], rfl, rfl⟩
      · rcases a3 q hq with h | ⟨u, hu, h⟩
        · exact ⟨p, by simp [unique], h⟩
        · exact ⟨u, List.mem_cons_of_mem _ hu, h⟩

theorem sorted_lex {points sorted : List Point}
    (h : ∀ p ∈ points, ∀ q ∈ points, Apart p.x q.x ∧ Apart p.y q.y) (hp : sorted.Perm points)
    (hs : sorted.Pairwise (fun a b => ¬ lexLess b a = true)) : sorted.Pairwise (fun a b => ¬ lex b a) := by
  rw [List.pairwise_iff_forall_sublist] at hs ⊢
  intro a b hab
  have ha : a ∈ points := hp.mem_iff.1 (hab.subset (by simp))
  have hb : b ∈ points := hp.mem_iff.1 (hab.subset (by simp))
  rw [← lexLess_apart (h b hb a ha).1 (h b hb a ha).2]
  exact hs hab

theorem removes_lex {points : List Point} (h : ∀ p ∈ points, ∀ q ∈ points, Apart p.x q.x ∧ Apart p.y q.y)
    {o : Outcome (List Point)} (ho : RemovesDuplicates points o) :
    ∃ out, o = .ok out ∧ out.Pairwise lex ∧ (∀ p ∈ out, p ∈ points) ∧ ∀ p ∈ points, ∃ q ∈ out, q.x = p.x ∧ q.y = p.y := by
  obtain ⟨s, hs, rfl⟩ := ho
  cases hs with
  | invalid hn => exact absurd (lexLess_strictWeak h) hn
  | @sorted l' _ hp hl =>
    obtain ⟨a1, a2, a3⟩ := unique_spec l' (fun p hp' q hq => h p (hp.mem_iff.1 hp') q (hp.mem_iff.1 hq))
      (sorted_lex h hp hl)
    exact ⟨unique l', rfl, a1, fun p hp' => hp.mem_iff.1 (a2 p hp'), fun p hp' => a3 p (hp.mem_iff.2 hp')⟩

/-- C155 (partial: coordinates must be the same or clearly different): the removal of duplicates returns, and keeps
each place once. -/
theorem C155_once_partial (points : List Point) (h : ∀ p ∈ points, ∀ q ∈ points, Apart p.x q.x ∧ Apart p.y q.y)
    (o : Outcome (List Point)) (ho : RemovesDuplicates points o) : ∃ out, o = .ok out ∧ SamePlacesOnce points out := by
  obtain ⟨out, rfl, a1, a2, a3⟩ := removes_lex h ho
  refine ⟨out, rfl, ?_, a2, a3⟩
  rw [List.nodup_iff_pairwise_ne, List.pairwise_map]
  refine a1.imp ?_
  intro a b hl he
  exact lex_same (Prod.mk.inj he) hl

/-- C155 is false of the code: three points that are one tolerance apart, with coordinates that a double holds, for
which the comparison is not an order and the behaviour of the sort is undefined. -/
theorem C155_order_false : ∃ points : List Point,
    points.map (fun p => (p.x, p.y)) = [(1, 0), (1 + 1 / 2 ^ 52, 0), (1 + 2 / 2 ^ 52, 0)] ∧
    ∀ o, RemovesDuplicates points o ↔ o = .ub := by
  refine ⟨[⟨1, 0, 0⟩, ⟨1 + 1 / 2 ^ 52, 0, 1⟩, ⟨1 + 2 / 2 ^ 52, 0, 2⟩], rfl, fun o => ?_⟩
  have hn : ¬ StrictWeakOn (fun a b => lexLess a b = true)
      [⟨1, 0, 0⟩, ⟨1 + 1 / 2 ^ 52, 0, 1⟩, ⟨1 + 2 / 2 ^ 52, 0, 2⟩] := by
    intro h
    have := h.equivTrans ⟨1, 0, 0⟩ (by simp) ⟨1 + 1 / 2 ^ 52, 0, 1⟩ (by simp) ⟨1 + 2 / 2 ^ 52, 0, 2⟩ (by simp)
      (by decide +kernel) (by decide +kernel) (by decide +kernel) (by decide +kernel)
    exact absurd this (by decide +kernel)
  constructor
  · rintro ⟨s, hs, rfl⟩
    cases hs with
    | sorted h _ _ => exact absurd h hn
    | invalid _ => rfl
  · rintro rfl
    exact ⟨.ub, .invalid hn, rfl⟩

/-- Non-vacuity: a point listed twice. -/
example : ∃ points : List Point, (∀ p ∈ points, ∀ q ∈ points, Apart p.x q.x ∧ Apart p.y q.y) ∧
    RemovesDuplicates points (.ok [⟨0, 1, 2⟩, ⟨1, 0, 0⟩]) ∧ points.length = 3 := by
  have ha : ∀ p ∈ [(⟨1, 0, 0⟩ : Point), ⟨1, 0, 1⟩, ⟨0, 1, 2⟩], ∀ q ∈ [(⟨1, 0, 0⟩ : Point), ⟨1, 0, 1⟩, ⟨0, 1, 2⟩],
      Apart p.x q.x ∧ Apart p.y q.y := by
    unfold Apart
    decide +kernel
  refine ⟨[⟨1, 0, 0⟩, ⟨1, 0, 1⟩, ⟨0, 1, 2⟩], ha, ⟨.ok [⟨0, 1, 2⟩, ⟨1, 0, 0⟩, ⟨1, 0, 1⟩],
    .sorted (lexLess_strictWeak ha) ?_ ?_, ?_⟩, rfl⟩
  · decide +kernel
  · decide +kernel
  · show _ = Outcome.ok _
    decide +kernel

/-! ## C156 -/

theorem indexed_eq {points : List Point} (h : points.map (·.id) = List.range points.length) :
    indexed points = points := by
  apply List.ext_getElem
  · simp [indexed]
  · intro i h1 h2
    have hi : (points.map (·.id))[i]'(by simpa using h2) = i := by
      simp only [h]
      simp
    rw [List.getElem_map] at hi
    simp only [indexed, List.getElem_map, List.getElem_zipIdx, Nat.zero_add]
    cases hp : points[i] with
    | mk x y id => rw [hp] at hi; simpa using hi.symm

/-- C156 (partial: the points must be numbered by their places in the list without duplicates): the search on a
constant list is the search on the list of its distinct points. -/
theorem C156_constant_partial (neighbours : ℕ → Neighbours) (points : List Point) (m : ℕ)
    (h : ∀ p ∈ points, ∀ q ∈ points, Apart p.x q.x ∧ Apart p.y q.y)
    (hid : ∀ out, RemovesDuplicates points (.ok out) → out.map (·.id) = List.range out.length)
    (o : Outcome (Option (List Point) × List ℕ)) (ho : ComputesConstant neighbours points m o) :
    ∃ distinct, SamePlacesOnce points distinct ∧ o = computeConcaveHull neighbours distinct m := by
  obtain ⟨r, hr, rfl⟩ := ho
  obtain ⟨out, rfl, hs⟩ := C155_once_partial points h r hr
  refine ⟨out, hs, ?_⟩
  show computeConcaveHullIds neighbours out m = _
  unfold computeConcaveHullIds computeConcaveHull concaveHullIds concaveHull
  simp only [indexed_eq (hid out hr)]
  rfl

/-- The candidates of the code in the witness below, by number of vertices: their places in the index. -/
def witnessOrder (n : ℕ) : List ℕ := if n = 1 then [3, 0, 1] else if n = 2 then [0, 1] else [1]

def witnessNeighbours : Neighbours := fun left hull _ =>
  (witnessOrder hull.length).filterMap fun i => left.find? fun p => p.id = i

def witnessPoints : List Point := [⟨1, 0, 0⟩, ⟨3, 1, 1⟩, ⟨2, 0, 2⟩, ⟨2, 3, 3⟩]

def witnessSorted : List Point := [⟨1, 0, 0⟩, ⟨2, 0, 2⟩, ⟨2, 3, 3⟩, ⟨3, 1, 1⟩]

theorem witness_apart : ∀ p ∈ witnessPoints, ∀ q ∈ witnessPoints, Apart p.x q.x ∧ Apart p.y q.y := by
  unfold Apart
  decide +kernel

theorem witness_removed (r : Outcome (List Point)) : RemovesDuplicates witnessPoints r ↔ r = .ok witnessSorted := by
  constructor
  · rintro ⟨s, hs, rfl⟩
    cases hs with
    | invalid hn => exact absurd (lexLess_strictWeak witness_apart) hn
    | @sorted l' _ hp hl =>
      have key : ∀ l ∈ witnessPoints.permutations', l.Pairwise (fun a b => ¬ lexLess b a = true) → l = witnessSorted := by
        decide +kernel
      rw [key l' (List.mem_permutations'.2 hp) hl]
      show Outcome.ok (unique witnessSorted) = _
      rw [show unique witnessSorted = witnessSorted by decide +kernel]
  · rintro rfl
    refine ⟨.ok witnessSorted, .sorted (lexLess_strictWeak witness_apart) ?_ ?_, ?_⟩
    · decide +kernel
    · decide +kernel
    · show _ = Outcome.ok (unique witnessSorted)
      rw [show unique witnessSorted = witnessSorted by decide +kernel]

/-- C156 is false of the code: four points in general position, numbered in their order. The search on the constant list
succeeds with a boundary that leaves the point (2, 3) out: after the removal of duplicates the points are sorted, the
lowest one is in the second place with number 2, and it is (2, 3), in the third place, that is removed from the index.
The candidates are those of the code: the three nearest points in the index, by decreasing angle. -/
theorem C156_constant_false : ∃ (neighbours : ℕ → Neighbours) (points : List Point) (hull : List Point) (tried : List ℕ),
    (∀ i, FromLeft (neighbours i)) ∧
    points = [⟨1, 0, 0⟩, ⟨3, 1, 1⟩, ⟨2, 0, 2⟩, ⟨2, 3, 3⟩] ∧
    (∀ o, ComputesConstant neighbours points 8 o ↔ o = .ok (some hull, tried)) ∧
    hull.map (fun p => (p.x, p.y)) = [(2, 0), (3, 1), (1, 0), (2, 0)] := by
  refine ⟨fun _ => witnessNeighbours, witnessPoints, [⟨2, 0, 2⟩, ⟨3, 1, 3⟩, ⟨1, 0, 0⟩, ⟨2, 0, 1⟩], [3], ?_, rfl, ?_, rfl⟩
  · intro _ left hull k c hc
    obtain ⟨i, -, hi⟩ := List.mem_filterMap.1 hc
    exact List.mem_of_find?_eq_some hi
  · have hrun : computeConcaveHullIds (fun _ => witnessNeighbours) witnessSorted 8 =
        .ok (some [⟨2, 0, 2⟩, ⟨3, 1, 3⟩, ⟨1, 0, 0⟩, ⟨2, 0, 1⟩], [3]) := by
      decide +kernel
    intro o
    constructor
    · rintro ⟨r, hr, rfl⟩
      rw [(witness_removed r).1 hr]
      exact hrun
    · rintro rfl
      exact ⟨_, (witness_removed _).2 rfl, hrun.symm⟩

/-- Beside C156: the same points, not constant: the boundary goes through (2, 3). -/
example : computeConcaveHull (fun _ left hull _ => (if hull.length = 1 then [1, 3, 0] else if hull.length = 2 then [3, 0]
      else [0]).filterMap fun i => left.find? fun p => p.id = i) witnessPoints 8 =
    .ok (some [⟨2, 0, 2⟩, ⟨3, 1, 1⟩, ⟨2, 3, 3⟩, ⟨1, 0, 0⟩], [3]) := by decide +kernel

/-- Non-vacuity of the partial theorem: points that are already in order. -/
example : ∀ out, RemovesDuplicates [⟨0, 0, 0⟩, ⟨1, 0, 1⟩, ⟨1, 1, 2⟩] (.ok out) → out.map (·.id) = List.range out.length := by
  rintro out ⟨s, hs, h⟩
  have ha : ∀ p ∈ [(⟨0, 0, 0⟩ : Point), ⟨1, 0, 1⟩, ⟨1, 1, 2⟩], ∀ q ∈ [(⟨0, 0, 0⟩ : Point), ⟨1, 0, 1⟩, ⟨1, 1, 2⟩],
      Apart p.x q.x ∧ Apart p.y q.y := by
    unfold Apart
    decide +kernel
  cases hs with
  | invalid hn => exact absurd (lexLess_strictWeak ha) hn
  | @sorted l' _ hp hl =>
    have key : ∀ l ∈ [(⟨0, 0, 0⟩ : Point), ⟨1, 0, 1⟩, ⟨1, 1, 2⟩].permutations',
        l.Pairwise (fun a b => ¬ lexLess b a = true) → l = [⟨0, 0, 0⟩, ⟨1, 0, 1⟩, ⟨1, 1, 2⟩] := by
      decide +kernel
    rw [key l' (List.mem_permutations'.2 hp) hl] at h
    obtain rfl := Outcome.ok.inj h
    decide +kernel

/-! ## C157 -/

theorem normaliseAngle_range {a : ℝ} (h1 : -(2 * Real.pi) ≤ a) (h2 : a < 2 * Real.pi) :
    0 ≤ normaliseAngle a ∧ normaliseAngle a < 2 * Real.pi ∧ (normaliseAngle a = a ∨ normaliseAngle a = a + 2 * Real.pi) := by
  unfold normaliseAngle
  split_ifs with h
  · exact ⟨by linarith, by linarith, Or.inr (by ring)⟩
  · exact ⟨by linarith, h2, Or.inl rfl⟩

theorem cos_normalise {a : ℝ} (h1 : -(2 * Real.pi) ≤ a) (h2 : a < 2 * Real.pi) :
    Real.cos (normaliseAngle a) = Real.cos a ∧ Real.sin (normaliseAngle a) = Real.sin a := by
  rcases (normaliseAngle_range h1 h2).2.2 with h | h <;> rw [h]
  · exact ⟨rfl, rfl⟩
  · exact ⟨Real.cos_add_two_pi a, Real.sin_add_two_pi a⟩

theorem atan2_polar (x y : ℝ) : ‖(⟨x, y⟩ : ℂ)‖ * Real.cos (Geometry.atan2 y x) = x ∧
    ‖(⟨x, y⟩ : ℂ)‖ * Real.sin (Geometry.atan2 y x) = y :=
  ⟨Complex.norm_mul_cos_arg _, Complex.norm_mul_sin_arg _⟩

theorem angle_range (a b : ℝ × ℝ) : 0 ≤ angle a b ∧ angle a b < 2 * Real.pi := by
  have h1 := Complex.neg_pi_lt_arg (⟨b.1 - a.1, b.2 - a.2⟩ : ℂ)
  have h2 := Complex.arg_le_pi (⟨b.1 - a.1, b.2 - a.2⟩ : ℂ)
  have := Real.pi_pos
  have h := normaliseAngle_range (a := -Geometry.atan2 (b.2 - a.2) (b.1 - a.1)) (by unfold Geometry.atan2; linarith)
    (by unfold Geometry.atan2; linarith)
  exact ⟨h.1, h.2.1⟩

/-- The direction from `a` to `b`, from its angle. -/
theorem angle_polar {a b : ℝ × ℝ} (h : a ≠ b) : ∃ r : ℝ, 0 < r ∧ b.1 - a.1 = r * Real.cos (angle a b) ∧
    b.2 - a.2 = -(r * Real.sin (angle a b)) := by
  have h1 := Complex.neg_pi_lt_arg (⟨b.1 - a.1, b.2 - a.2⟩ : ℂ)
  have h2 := Complex.arg_le_pi (⟨b.1 - a.1, b.2 - a.2⟩ : ℂ)
  have hpi := Real.pi_pos
  obtain ⟨c, s⟩ := cos_normalise (a := -Geometry.atan2 (b.2 - a.2) (b.1 - a.1)) (by unfold Geometry.atan2; linarith)
    (by unfold Geometry.atan2; linarith)
  obtain ⟨px, py⟩ := atan2_polar (b.1 - a.1) (b.2 - a.2)
  refine ⟨‖(⟨b.1 - a.1, b.2 - a.2⟩ : ℂ)‖, norm_pos_iff.2 fun e => h ?_, ?_, ?_⟩
  · rw [Complex.ext_iff] at e
    simp only [Complex.zero_re, Complex.zero_im] at e
    exact Prod.ext (by linarith [e.1]) (by linarith [e.2])
  · unfold angle
    rw [c, Real.cos_neg, px]
  · unfold angle
    rw [s, Real.sin_neg, mul_neg, neg_neg, py]

theorem prevAngle_polar (current : ℝ × ℝ) (previous : Option (ℝ × ℝ)) (hp : previous ≠ some current) :
    0 ≤ prevAngle current previous ∧ prevAngle current previous < 2 * Real.pi ∧
    ∃ r : ℝ, 0 < r ∧ (backDirection current previous).1 = r * Real.cos (prevAngle current previous) ∧
      (backDirection current previous).2 = -(r * Real.sin (prevAngle current previous)) := by
  cases previous with
  | none =>
    have := Real.pi_pos
    exact ⟨le_rfl, by simp [prevAngle]; exact this, 1, one_pos, by simp [prevAngle, backDirection],
      by simp [prevAngle, backDirection]⟩
  | some p =>
    exact ⟨(angle_range current p).1, (angle_range current p).2, angle_polar fun e => hp (by rw [e])⟩

/-- The angle of a candidate tells how far it is turned. -/
theorem turnAngle_turned (current target : ℝ × ℝ) (previous : Option (ℝ × ℝ)) (hp : previous ≠ some current)
    (ht : target ≠ current) :
    TurnedBy (backDirection current previous) (target.1 - current.1, target.2 - current.2)
      (2 * Real.pi - turnAngle current (prevAngle current previous) target) := by
  obtain ⟨b0, b1, rb, hrb, bx, by'⟩ := prevAngle_polar current previous hp
  obtain ⟨a0, a1⟩ := angle_range current target
  obtain ⟨ra, hra, ax, ay⟩ := angle_polar (a := current) (b := target) ht.symm
  have hlow : -(2 * Real.pi) ≤ angle current target - prevAngle current previous := by linarith
  have hhigh : angle current target - prevAngle current previous < 2 * Real.pi := by linarith
  obtain ⟨t0, t1, -⟩ := normaliseAngle_range hlow hhigh
  obtain ⟨c, s⟩ := cos_normalise hlow hhigh
  refine ⟨by unfold turnAngle; linarith, by unfold turnAngle; linarith, ra / rb, div_pos hra hrb, ?_⟩
  rw [Real.cos_two_pi_sub, Real.sin_two_pi_sub]
  unfold turnAngle
  rw [c, s, bx, by', ax, ay, Real.cos_sub, Real.sin_sub]
  have hs := Real.sin_sq_add_cos_sq (prevAngle current previous)
  generalize prevAngle current previous = β at *
  generalize angle current target = α at *
  ext
  · field_simp
    linear_combination -(Real.cos α) * hs
  · field_simp
    linear_combination (Real.sin α) * hs

/-- C157: the candidates are tried by how far they are turned counterclockwise, from the direction back to the vertex
before (to the right for the first vertex), the least turned first, up to the tolerance; none is lost. -/
theorem C157_order_partial (values out : List (ℝ × ℝ)) (current : ℝ × ℝ) (previous : Option (ℝ × ℝ))
    (hp : previous ≠ some current) (hv : current ∉ values)
    (h : SortsByAngle values current (prevAngle current previous) (.ok out)) :
    out.Perm values ∧ out.Pairwise fun a b => ∃ φ ψ,
      TurnedBy (backDirection current previous) (a.1 - current.1, a.2 - current.2) φ ∧
      TurnedBy (backDirection current previous) (b.1 - current.1, b.2 - current.2) ψ ∧ φ ≤ ψ + 1 / 2 ^ 52 := by
  unfold SortsByAngle at h
  cases h with
  | sorted hw hperm hs =>
    refine ⟨hperm, ?_⟩
    rw [List.pairwise_iff_forall_sublist] at hs ⊢
    intro a b hab
    have ha : a ≠ current := fun e => hv (e ▸ hperm.mem_iff.1 (hab.subset (by simp)))
    have hb : b ≠ current := fun e => hv (e ▸ hperm.mem_iff.1 (hab.subset (by simp)))
    refine ⟨_, _, turnAngle_turned current a previous hp ha, turnAngle_turned current b previous hp hb, ?_⟩
    have := hs hab
    have he : ((eps : ℚ) : ℝ) = 1 / 2 ^ 52 := by norm_num [eps]
    rw [he] at this
    linarith [not_lt.1 this]

/-- C157: the order exists when any two candidates are turned by the same angle or by clearly different ones. -/
theorem C157_sorted_partial (values : List (ℝ × ℝ)) (current : ℝ × ℝ) (previous : Option (ℝ × ℝ))
    (hp : previous ≠ some current) (hv : current ∉ values)
    (h : ∀ a ∈ values, ∀ b ∈ values, ∀ φ ψ,
      TurnedBy (backDirection current previous) (a.1 - current.1, a.2 - current.2) φ →
      TurnedBy (backDirection current previous) (b.1 - current.1, b.2 - current.2) ψ → φ = ψ ∨ 1 / 2 ^ 52 < |φ - ψ|) :
    ∀ o, SortsByAngle values current (prevAngle current previous) o → ∃ out, o = .ok out := by
  have he : ((eps : ℚ) : ℝ) = 1 / 2 ^ 52 := by norm_num [eps]
  have hpos : (0 : ℝ) < 1 / 2 ^ 52 := by positivity
  have hap : ∀ a ∈ values, ∀ b ∈ values,
      (turnAngle current (prevAngle current previous) a > turnAngle current (prevAngle current previous) b + (eps : ℝ)) ↔
        turnAngle current (prevAngle current previous) b < turnAngle current (prevAngle current previous) a := by
    intro a ha b hb
    rw [he]
    have hab := h a ha b hb _ _ (turnAngle_turned current a previous hp fun e => hv (e ▸ ha))
      (turnAngle_turned current b previous hp fun e => hv (e ▸ hb))
    constructor
    · intro hlt
      linarith
    · intro hlt
      rcases hab with hab | hab
      · linarith
      · rw [lt_abs] at hab
        rcases hab with hab | hab <;> linarith
  intro o ho
  cases ho with
  | @sorted out _ _ _ => exact ⟨out, rfl⟩
  | invalid hn =>
    refine absurd ?_ hn
    refine ⟨fun a ha => by rw [hap a ha a ha]; exact lt_irrefl _, fun a ha b hb c hc => ?_, fun a ha b hb c hc => ?_⟩
    · rw [hap a ha b hb, hap b hb c hc, hap a ha c hc]
      intro h1 h2
      exact h2.trans h1
    · rw [hap a ha b hb, hap b hb a ha, hap b hb c hc, hap c hc b hb, hap a ha c hc, hap c hc a ha]
      simp only [not_lt]
      intro h1 h2 h3 h4
      exact ⟨h1.trans h3, h4.trans h2⟩

theorem arctan_le_self' {y : ℝ} (hy : 0 < y) : Real.arctan y ≤ y := by
  have := Real.lt_tan (Real.arctan_pos.2 hy) (Real.arctan_lt_pi_div_two y)
  rw [Real.tan_arctan] at this
  exact this.le

theorem turnAngle_right {y : ℝ} (hy : 0 ≤ y) : turnAngle (0, 0) (prevAngle (0, 0) none) (1, -y) = Real.arctan y := by
  have hpi := Real.pi_pos
  have harg : Complex.arg ⟨1, -y⟩ = -Real.arctan y := by
    have h1 : |Complex.arg ⟨1, -y⟩| < Real.pi / 2 := by
      rw [Complex.abs_arg_lt_pi_div_two_iff]
      left
      simp
    rw [abs_lt] at h1
    rw [← Real.arctan_tan h1.1 h1.2, Complex.tan_arg, ← Real.arctan_neg]
    simp
  have h0 : ¬ Real.arctan y < 0 := not_lt.2 (Real.arctan_nonneg.2 hy)
  unfold turnAngle angle prevAngle Geometry.atan2
  simp only [sub_zero]
  rw [harg, neg_neg]
  unfold normaliseAngle
  rw [if_neg h0, if_neg h0]

/-- C157 is false of the code: three candidates one tolerance apart, of which the comparison is not an order; the
behaviour of the sort is undefined. -/
theorem C157_order_false : ∃ values : List (ℝ × ℝ), values = [(1, 0), (1, -(1 / 2 ^ 52)), (1, -(2 / 2 ^ 52))] ∧
    ∀ o, SortsByAngle values (0, 0) (prevAngle (0, 0) none) o ↔ o = .ub := by
  refine ⟨_, rfl, fun o => ?_⟩
  have he : ((eps : ℚ) : ℝ) = 1 / 2 ^ 52 := by norm_num [eps]
  have hn : ¬ StrictWeakOn (fun a b : ℝ × ℝ => turnAngle (0, 0) (prevAngle (0, 0) none) a >
      turnAngle (0, 0) (prevAngle (0, 0) none) b + (eps : ℝ)) [(1, 0), (1, -(1 / 2 ^ 52)), (1, -(2 / 2 ^ 52))] := by
    intro h
    have t0 : turnAngle (0, 0) (prevAngle (0, 0) none) (1, 0) = 0 := by
      have := turnAngle_right (le_refl 0)
      rwa [neg_zero, Real.arctan_zero] at this
    have t1 := turnAngle_right (y := 1 / 2 ^ 52) (by positivity)
    have t2 := turnAngle_right (y := 2 / 2 ^ 52) (by positivity)
    have a1 : Real.arctan (1 / 2 ^ 52) ≤ 1 / 2 ^ 52 := arctan_le_self' (by positivity)
    have a1' : 0 ≤ Real.arctan (1 / 2 ^ 52) := Real.arctan_nonneg.2 (by positivity)
    have a12 : Real.arctan (1 / 2 ^ 52) < Real.arctan (2 / 2 ^ 52) := Real.arctan_strictMono (by norm_num)
    have a2 : Real.arctan (2 / 2 ^ 52) - Real.arctan (1 / 2 ^ 52) ≤ 1 / 2 ^ 52 := by
      have hadd := Real.arctan_add (x := 2 / 2 ^ 52) (y := -(1 / 2 ^ 52)) (by norm_num)
      rw [Real.arctan_neg] at hadd
      rw [sub_eq_add_neg, hadd]
      exact (arctan_le_self' (by norm_num)).trans (by norm_num)
    have a3 : 1 / 2 ^ 52 < Real.arctan (2 / 2 ^ 52) := by
      have hp3 := Real.two_le_pi
      have htan : Real.tan (1 / 2 ^ 52) < 2 / 2 ^ 52 := by
        have hs : Real.sin (1 / 2 ^ 52) < 1 / 2 ^ 52 := Real.sin_lt (by positivity)
        have hc := Real.one_sub_sq_div_two_le_cos (x := 1 / 2 ^ 52)
        have hc2 : (1 : ℝ) / 2 < Real.cos (1 / 2 ^ 52) := by
          refine lt_of_lt_of_le ?_ hc
          norm_num
        rw [Real.tan_eq_sin_div_cos, div_lt_iff₀ (by linarith)]
        have : (2 : ℝ) / 2 ^ 52 * (1 / 2) ≤ 2 / 2 ^ 52 * Real.cos (1 / 2 ^ 52) :=
          mul_le_mul_of_nonneg_left hc2.le (by positivity)
        norm_num at this hs ⊢
        linarith
      have hh : (1 : ℝ) / 2 ^ 52 < Real.pi / 2 := by
        have : (1 : ℝ) / 2 ^ 52 < 1 := by norm_num
        linarith
      have h0 : -(Real.pi / 2) < (1 : ℝ) / 2 ^ 52 := by
        have : (0 : ℝ) < 1 / 2 ^ 52 := by positivity
        linarith
      have hmono := Real.arctan_strictMono htan
      rwa [Real.arctan_tan h0 hh] at hmono
    have key := h.equivTrans (1, 0) (by simp) (1, -(1 / 2 ^ 52)) (by simp) (1, -(2 / 2 ^ 52)) (by simp)
      (by rw [t0, t1, he]; linarith) (by rw [t0, t1, he]; linarith) (by rw [t1, t2, he]; linarith)
      (by rw [t1, t2, he]; linarith)
    have := key.2
    rw [t0, t2, he] at this
    exact this (by linarith)
  constructor
  · intro hs
    cases hs with
    | sorted h _ _ => exact absurd h hn
    | invalid _ => rfl
  · rintro rfl
    exact .invalid hn

/-- Non-vacuity: a candidate a quarter turn away and one half a turn away. -/
example : TurnedBy (backDirection (0, 0) none) (0, 1) (Real.pi / 2) ∧ TurnedBy (backDirection (0, 0) none) (-1, 0) Real.pi := by
  have := Real.pi_pos
  refine ⟨⟨by linarith, by linarith, 1, one_pos, ?_⟩, ⟨by linarith, by linarith, 1, one_pos, ?_⟩⟩ <;>
    simp [backDirection]

end RgbdSlam.ConcaveHull
