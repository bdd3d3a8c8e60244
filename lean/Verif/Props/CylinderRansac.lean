import Verif.Spec.CylinderRansac
import Verif.Lemmas.Cylinder
import Mathlib.Algebra.Order.Ring.Rat
import Mathlib.Algebra.BigOperators.Group.List.Basic
import Mathlib.Tactic.Linarith
import Mathlib.Tactic.Ring

/-
C126: the inliers of a cylinder sub-segment.
-/
namespace RgbdSlam.Cylinder

theorem scoreHypothesis_cost (left : List Nat) (d : Nat → Num) : (scoreHypothesis left d).2 = cost left d := by
  have h : ∀ (l : List Nat) (s : Rat), l.foldl (fun s i => s + (match d i with
      | some x => if x < maxDistance then x else maxDistance
      | none => maxDistance)) s = s + (l.map fun i => truncated (d i)).sum := by
    intro l
    induction l with
    | nil => intro s; simp
    | cons a l ih =>
      intro s
      rw [List.foldl_cons, ih, List.map_cons, List.sum_cons, ← add_assoc]
      congr 2
      unfold truncated
      cases d a with
      | none => rfl
      | some x =>
        simp only
        split_ifs with hx
        · exact (min_eq_left hx.le).symm
        · exact (min_eq_right (not_lt.mp hx)).symm
  unfold scoreHypothesis cost
  exact (h left 0).trans (zero_add _)

theorem scoreHypothesis_inliers (left : List Nat) (d : Nat → Num) (i : Nat) :
    i ∈ (scoreHypothesis left d).1 ↔ i ∈ left ∧ Near d i := by
  unfold scoreHypothesis Near
  simp only [List.mem_filter]
  cases d i with
  | none => simp
  | some x => simp

theorem iterations_spec (left : List Nat) (accepted : Nat) : ∀ (hyps : List (Nat → Num)) (best : List Nat)
    (m : Rat),
    (iterations left accepted hyps best m = best ∧ ∀ d ∈ hyps, m ≤ cost left d) ∨
    ∃ (k : Nat) (d : Nat → Num), hyps[k]? = some d ∧
      iterations left accepted hyps best m = (scoreHypothesis left d).1 ∧ cost left d < m ∧
      (∀ (j : Nat) (d' : Nat → Num), j < k → hyps[j]? = some d' → cost left d ≤ cost left d') ∧
      ((∀ d' ∈ hyps, cost left d ≤ cost left d') ∨ accepted < best.length ∨
        ∃ (j : Nat) (d' : Nat → Num), j < k ∧ hyps[j]? = some d' ∧
          accepted < (scoreHypothesis left d').1.length)
  | [], best, m => by left; exact ⟨rfl, by simp⟩
  | d :: ds, best, m => by
    have hc := scoreHypothesis_cost left d
    unfold iterations
    simp only [hc]
    split_ifs with h1 h2
    · right
      exact ⟨0, d, rfl, rfl, h1, by omega, Or.inr (Or.inl h2)⟩
    · right
      rcases iterations_spec left accepted ds (scoreHypothesis left d).1 (cost left d) with
        ⟨e, hall⟩ | ⟨k, d', hk, e, hlt, hj, hs⟩
      · refine ⟨0, d, rfl, e, h1, by omega, Or.inl ?_⟩
        intro d' hd'
        rcases List.mem_cons.mp hd' with rfl | hd'
        · exact le_refl _
        · exact hall d' hd'
      · refine ⟨k + 1, d', by simpa using hk, e, lt_trans hlt h1, ?_, ?_⟩
        · intro j d'' hjk hd''
          cases j with
          | zero =>
            simp only [List.getElem?_cons_zero, Option.some.injEq] at hd''
            exact hd'' ▸ hlt.le
          | succ j => exact hj j d'' (by omega) (by simpa using hd'')
        · rcases hs with hs | hs | ⟨j, d'', hjk, hd'', hl⟩
          · left
            intro d'' hd''
            rcases List.mem_cons.mp hd'' with rfl | hd''
            · exact hlt.le
            · exact hs d'' hd''
          · exact Or.inr (Or.inr ⟨0, d, by omega, rfl, hs⟩)
          · exact Or.inr (Or.inr ⟨j + 1, d'', by omega, by simpa using hd'', hl⟩)
    · rcases iterations_spec left accepted ds best m with ⟨e, hall⟩ | ⟨k, d', hk, e, hlt, hj, hs⟩
      · left
        refine ⟨e, ?_⟩
        intro d' hd'
        rcases List.mem_cons.mp hd' with rfl | hd'
        · exact not_lt.mp h1
        · exact hall d' hd'
      · right
        refine ⟨k + 1, d', by simpa using hk, e, hlt, ?_, ?_⟩
        · intro j d'' hjk hd''
          cases j with
          | zero =>
            simp only [List.getElem?_cons_zero, Option.some.injEq] at hd''
            subst hd''
            exact le_trans hlt.le (not_lt.mp h1)
          | succ j => exact hj j d'' (by omega) (by simpa using hd'')
        · rcases hs with hs | hs | ⟨j, d'', hjk, hd'', hl⟩
          · left
            intro d'' hd''
            rcases List.mem_cons.mp hd'' with rfl | hd''
            · exact le_trans hlt.le (not_lt.mp h1)
            · exact hs d'' hd''
          · exact Or.inr (Or.inl hs)
          · exact Or.inr (Or.inr ⟨j + 1, d'', by omega, by simpa using hd'', hl⟩)

theorem truncated_le (x : Num) : truncated x ≤ maxDistance := by
  cases x with
  | none => exact le_refl _
  | some x => exact min_le_right _ _

theorem truncated_lt (d : Nat → Num) (i : Nat) : truncated (d i) < maxDistance ↔ Near d i := by
  unfold truncated Near
  cases d i with
  | none => simp
  | some x => simp

/-- A hypothesis costs less than all patches at the tolerance exactly when it has an inlier. -/
theorem cost_lt_iff (left : List Nat) (d : Nat → Num) :
    cost left d < maxDistance * left.length ↔ ∃ i ∈ left, Near d i := by
  have hle : ∀ l : List Nat, (l.map fun i => truncated (d i)).sum ≤ maxDistance * l.length := by
    intro l
    induction l with
    | nil => simp
    | cons a l ih =>
      rw [List.map_cons, List.sum_cons, List.length_cons]
      have := truncated_le (d a)
      push_cast
      linarith
  unfold cost
  induction left with
  | nil => simp
  | cons a l ih =>
    rw [List.map_cons, List.sum_cons, List.length_cons]
    push_cast
    constructor
    · intro h
      by_cases ha : Near d a
      · exact ⟨a, by simp, ha⟩
      · have h1 := not_lt.mp (fun hh => ha ((truncated_lt d a).mp hh))
        obtain ⟨i, hi, hn⟩ := ih.mp (by linarith)
        exact ⟨i, by simp [hi], hn⟩
    · rintro ⟨i, hi, hn⟩
      rcases List.mem_cons.mp hi with rfl | hi
      · have h1 := (truncated_lt d i).mpr hn
        have h2 := hle l
        linarith
      · have h1 := ih.mpr ⟨i, hi, hn⟩
        have h2 := truncated_le (d a)
        linarith

/-- C126: the patches chosen for a cylinder are exactly the patches left that are within the tolerance of one
of the hypotheses drawn.  No hypothesis drawn before it has a lower cost, and neither has any drawn after it
unless more than nine tenths of the patches left were within the tolerance of an earlier one. -/
theorem C126_best_hypothesis (left : List Nat) (hyps : List (Nat → Num)) (h : runRansac left hyps ≠ []) :
    3 ≤ left.length ∧ ∃ (k : Nat) (d : Nat → Num), hyps[k]? = some d ∧
      (∀ i, i ∈ runRansac left hyps ↔ i ∈ left ∧ Near d i) ∧
      (∀ (j : Nat) (d' : Nat → Num), j < k → hyps[j]? = some d' → cost left d ≤ cost left d') ∧
      ((∀ d' ∈ hyps, cost left d ≤ cost left d') ∨
        ∃ (j : Nat) (d' : Nat → Num) (l : List Nat), j < k ∧ hyps[j]? = some d' ∧ 9 * left.length < 10 * l.length ∧
          l.Sublist left ∧ ∀ i ∈ l, Near d' i) := by
  unfold runRansac at h ⊢
  split_ifs at h ⊢ with hl
  · exact absurd rfl h
  refine ⟨by omega, ?_⟩
  rcases iterations_spec left (9 * left.length / 10) hyps [] (maxDistance * left.length) with
    ⟨e, _⟩ | ⟨k, d, hk, e, _, hj, hs⟩
  · exact absurd e h
  refine ⟨k, d, hk, ?_, hj, ?_⟩
  · intro i
    rw [e]
    exact scoreHypothesis_inliers left d i
  · rcases hs with hs | hs | ⟨j, d', hjk, hd', hlt⟩
    · exact Or.inl hs
    · exact absurd hs (Nat.not_lt_zero _)
    · refine Or.inr ⟨j, d', (scoreHypothesis left d').1, hjk, hd', by omega, ?_, ?_⟩
      · exact List.filter_sublist
      · intro i hi
        exact ((scoreHypothesis_inliers left d' i).mp hi).2

/-- C126: no patch is chosen exactly when fewer than three are left, or when no patch left is within the tolerance of
any hypothesis drawn. -/
theorem C126_nothing (left : List Nat) (hyps : List (Nat → Num)) :
    runRansac left hyps = [] ↔ left.length < 3 ∨ ∀ d ∈ hyps, ∀ i ∈ left, ¬ Near d i := by
  unfold runRansac
  split_ifs with hl
  · simp [hl]
  rcases iterations_spec left (9 * left.length / 10) hyps [] (maxDistance * left.length) with
    ⟨e, hall⟩ | ⟨k, d, hk, e, hlt, _, _⟩
  · rw [e]
    refine iff_of_true rfl (Or.inr ?_)
    intro d hd i hi hn
    exact absurd ((cost_lt_iff left d).mpr ⟨i, hi, hn⟩) (not_lt.mpr (hall d hd))
  · obtain ⟨i, hi, hn⟩ := (cost_lt_iff left d).mp hlt
    refine iff_of_false ?_ ?_
    · rw [e]
      intro h0
      have := (scoreHypothesis_inliers left d i).mpr ⟨hi, hn⟩
      rw [h0] at this
      exact absurd this (by simp)
    · rintro (h | h)
      · exact hl h
      · exact h d (List.mem_of_getElem? hk) i hi hn

theorem loop_prefix (fit : Fit) (total minCells : Nat) : ∀ (fuel round : Nat) (left : List Nat) (remaining : Nat)
    (seg seg' : Segment), loop fit total minCells fuel round left remaining seg = .ok seg' →
    ∃ t, seg'.inliers = seg.inliers ++ t := by
  intro fuel
  induction fuel with
  | zero => intro _ _ _ _ _ h; simp [loop] at h
  | succ fuel ih =>
    intro round left remaining seg seg' h
    rw [loop] at h
    simp only at h
    split_ifs at h with h1 h2 h3
    · cases h; exact ⟨[], by simp⟩
    · obtain ⟨t, ht⟩ := ih _ _ _ _ _ h
      exact ⟨[runRansac left (fit.hyps round)] ++ t, by rw [ht, List.append_assoc]⟩
    · cases h; exact ⟨[], by simp⟩

theorem loop_inliers (fit : Fit) (total minCells : Nat) : ∀ (fuel round : Nat) (left : List Nat) (remaining : Nat)
    (seg seg' : Segment), loop fit total minCells fuel round left remaining seg = .ok seg' →
    seg.inliers.length = round →
    (∀ i, i ∈ left ↔ i < total ∧ ∀ m ∈ seg.inliers, i ∉ m) →
    ∀ (a : Nat) (l : List Nat), round ≤ a → seg'.inliers[a]? = some l →
      ∃ d ∈ fit.hyps a, ∀ i, i ∈ l ↔ i < total ∧ (∀ m ∈ seg'.inliers.take a, i ∉ m) ∧ Near d i := by
  intro fuel
  induction fuel with
  | zero => intro _ _ _ _ _ h; simp [loop] at h
  | succ fuel ih =>
    intro round left remaining seg seg' h hlen hleft a l ha hl
    rw [loop] at h
    simp only at h
    split_ifs at h with h1 h2 h3
    · cases h
      have := List.getElem?_eq_none (l := seg.inliers) (i := a) (by omega)
      rw [this] at hl; cases hl
    · obtain ⟨t, ht⟩ := loop_prefix fit total minCells _ _ _ _ _ _ h
      simp only at ht
      rcases Nat.lt_or_eq_of_le ha with hlt | heq
      · refine ih _ _ _ _ _ h (by simp [hlen]) ?_ a l (by omega) hl
        intro i
        simp only [List.mem_filter, hleft, List.mem_append, List.mem_singleton]
        constructor
        · rintro ⟨⟨hi, hn⟩, hc⟩
          refine ⟨hi, ?_⟩
          rintro m (hm | rfl)
          · exact hn m hm
          · simpa using hc
        · rintro ⟨hi, hn⟩
          exact ⟨⟨hi, fun m hm => hn m (Or.inl hm)⟩, by simpa using hn _ (Or.inr rfl)⟩
      · subst heq
        have hl' : l = runRansac left (fit.hyps round) := by
          rw [ht, List.append_assoc, List.getElem?_append_right (by omega), ← hlen] at hl
          simpa [hlen] using hl.symm
        have hne : runRansac left (fit.hyps round) ≠ [] := by
          intro h0
          rw [h0] at h2
          simp at h2
        obtain ⟨_, k, d, hk, hin, _⟩ := C126_best_hypothesis left (fit.hyps round) hne
        have htake : seg'.inliers.take round = seg.inliers := by
          rw [ht, List.append_assoc, ← hlen, List.take_left]
        refine ⟨d, List.mem_of_getElem? hk, ?_⟩
        intro i
        rw [hl', hin i, hleft i, htake, and_assoc]
    · cases h
      have := List.getElem?_eq_none (l := seg.inliers) (i := a) (by omega)
      rw [this] at hl; cases hl

/-- C126: every sub-segment of a cylinder holds exactly the patches that are in no earlier sub-segment and that are within
the tolerance of one hypothesis drawn for it. -/
theorem C126_sub_segments (fit : Fit) (cells : List Nat) (minCells fuel : Nat) (seg : Segment)
    (h : fitSegment fit cells minCells fuel = .ok seg) (a : Nat) (l : List Nat) (hl : seg.inliers[a]? = some l) :
    ∃ d ∈ fit.hyps a, ∀ i, i ∈ l ↔
      i < cells.length ∧ (∀ m ∈ seg.inliers.take a, i ∉ m) ∧ Near d i := by
  unfold fitSegment at h
  simp only at h
  split_ifs at h with hx
  · exact loop_inliers fit _ _ _ _ _ _ _ _ h rfl (by simp) a l (Nat.zero_le _) hl
  · cases h
    simp at hl

/-- Non-vacuity of `C126_sub_segments`: two sub-segments, of seven and six patches. -/
example : (fitSegment { axis := true,
                        hyps := fun r => [fun i => if r = 0 ∧ i < 7 then some 0 else if r = 1 then some (1 / 100) else none],
                        radius := fun _ => some 3 } (List.range 13) 0 14).holds
    (fun s => s.inliers[1]? == some [7, 8, 9, 10, 11, 12]) = true := by decide +kernel

/-- Non-vacuity: the second hypothesis is better than the first one and is kept. -/
example : runRansac [0, 1, 2, 4] [fun i => if i = 1 then some 0 else none,
    fun i => if i = 2 then some 5 else some (i / 1000), fun _ => none] = [0, 1, 4] := by decide +kernel

/-- The search goes on for one more improvement after a hypothesis that suits all patches: the size that is compared is
that of the set that has just been replaced. -/
example : runRansac [0, 1, 2] [fun _ => some (1 / 100), fun i => if i < 2 then some 0 else some (2 / 100),
    fun i => if i < 2 then some 0 else some (1 / 1000)] = [0, 1, 2] ∧
    runRansac [0, 1, 2] [fun _ => some (3 / 100), fun i => if i < 2 then some 0 else none, fun _ => some 0] = [0, 1] := by
  decide +kernel

end RgbdSlam.Cylinder
