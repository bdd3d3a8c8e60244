import Verif.Model.Cylinder

/-
Lemmas about the cylinder segmentation.
-/
namespace RgbdSlam.Cylinder

open RgbdSlam

theorem iterations_filter (left : List Nat) (accepted : Nat) (hyps : List (Nat → Num)) :
    ∀ (best : List Nat) (minDist : Rat), (∃ p : Nat → Bool, best = left.filter p) →
      ∃ p : Nat → Bool, iterations left accepted hyps best minDist = left.filter p := by
  induction hyps with
  | nil => intro best _ h; exact h
  | cons d ds ih =>
    intro best minDist h
    rw [iterations]
    split
    · split
      · exact ⟨_, rfl⟩
      · exact ih _ _ ⟨_, rfl⟩
    · exact ih _ _ h

theorem runRansac_filter (left : List Nat) (hyps : List (Nat → Num)) :
    ∃ p : Nat → Bool, runRansac left hyps = left.filter p := by
  unfold runRansac
  split
  · exact ⟨fun _ => false, by simp⟩
  · exact iterations_filter _ _ _ _ _ ⟨fun _ => false, by simp⟩

theorem filter_not_length (left : List Nat) (p : Nat → Bool) :
    (left.filter p).length + (left.filter (fun i => !(left.filter p).contains i)).length = left.length := by
  have h : left.filter (fun i => !(left.filter p).contains i) = left.filter (fun i => !p i) := by
    apply List.filter_congr
    intro x hx
    simp [hx]
  rw [h]
  have := List.length_eq_countP_add_countP p (l := left)
  rw [List.countP_eq_length_filter, List.countP_eq_length_filter] at this
  rw [this]
  congr 2
  apply List.filter_congr
  intro x _
  cases p x <;> rfl

/-- What the segmentation of `n` patches guarantees. -/
structure Good (n : Nat) (seg : Segment) : Prop where
  count : seg.count = seg.inliers.length
  radii : seg.radii.length = seg.inliers.length
  size : ∀ l, l ∈ seg.inliers → 6 ≤ l.length
  nodup : ∀ l, l ∈ seg.inliers → l.Nodup
  range : ∀ l, l ∈ seg.inliers → ∀ i, i ∈ l → i < n
  disjoint : seg.inliers.Pairwise (fun a b => ∀ i, i ∈ a → i ∉ b)

theorem loop_spec (fit : Fit) (total minCells : Nat) : ∀ (fuel round : Nat) (left : List Nat) (seg : Segment),
    left.length < fuel → left.Nodup → (∀ i, i ∈ left → i < total) → Good total seg →
    (∀ l, l ∈ seg.inliers → ∀ i, i ∈ l → i ∉ left) →
    ∃ seg', loop fit total minCells fuel round left left.length seg = .ok seg' ∧ Good total seg' ∧
      seg'.toGlobal = seg.toGlobal := by
  intro fuel
  induction fuel with
  | zero => intro round left seg h; omega
  | succ fuel ih =>
    intro round left seg hf hn hr hg hd
    rw [loop]
    split
    case isFalse => exact ⟨seg, rfl, hg, rfl⟩
    simp only
    obtain ⟨p, hp⟩ := runRansac_filter left (fit.hyps round)
    rw [hp]
    split
    case isTrue => exact ⟨seg, rfl, hg, rfl⟩
    rename_i h6
    have hlen := filter_not_length left p
    rw [if_neg (by omega)]
    have he : left.length - (left.filter p).length =
        (left.filter (fun i => !(left.filter p).contains i)).length := by omega
    rw [he]
    obtain ⟨seg', h1, h2, h3⟩ := ih (round + 1) (left.filter (fun i => !(left.filter p).contains i))
      { seg with count := seg.count + 1,
                 radii := seg.radii ++ [absRadius (fit.radius (left.filter p))],
                 inliers := seg.inliers ++ [left.filter p] }
      (by omega) (hn.filter _) (fun i hi => hr i (List.mem_filter.mp hi).1)
      ⟨by simp [hg.count], by simp [hg.radii],
        by
          intro l hl
          rcases List.mem_append.mp hl with h | h
          · exact hg.size l h
          · rw [List.mem_singleton.mp h]; omega,
        by
          intro l hl
          rcases List.mem_append.mp hl with h | h
          · exact hg.nodup l h
          · rw [List.mem_singleton.mp h]; exact hn.filter _,
        by
          intro l hl
          rcases List.mem_append.mp hl with h | h
          · exact hg.range l h
          · rw [List.mem_singleton.mp h]; exact fun i hi => hr i (List.mem_filter.mp hi).1,
        by
          rw [List.pairwise_append]
          refine ⟨hg.disjoint, List.pairwise_singleton _ _, ?_⟩
          intro a ha b hb i hia hib
          rw [List.mem_singleton.mp hb] at hib
          exact hd a ha i hia (List.mem_filter.mp hib).1⟩
      (by
        intro l hl i hi hi'
        rw [List.mem_filter] at hi'
        rcases List.mem_append.mp hl with h | h
        · exact hd l h i hi hi'.1
        · rw [List.mem_singleton.mp h] at hi
          simp [hi] at hi')
    exact ⟨seg', h1, h2, h3⟩

theorem fitSegment_spec (fit : Fit) (cells : List Nat) (minCells fuel : Nat) (hf : cells.length < fuel) :
    ∃ seg, fitSegment fit cells minCells fuel = .ok seg ∧ Good cells.length seg ∧ seg.toGlobal = cells := by
  have hg : Good cells.length { count := 0, radii := [], inliers := [], toGlobal := cells } :=
    ⟨rfl, rfl, by simp, by simp, by simp, List.Pairwise.nil⟩
  unfold fitSegment
  simp only
  split
  · have := loop_spec fit cells.length minCells fuel 0 (List.range cells.length)
      { count := 0, radii := [], inliers := [], toGlobal := cells } (by simpa using hf) List.nodup_range
      (by simp) hg (by simp)
    simpa using this
  · exact ⟨_, rfl, hg, rfl⟩

theorem absRadius_nonneg {x : Num} {r : Rat} (h : absRadius x = some r) : 0 ≤ r := by
  cases x with
  | none => cases h
  | some q =>
    simp only [absRadius] at h
    split at h
    · injection h with h
      subst h
      grind
    · injection h with h
      subst h
      grind

theorem loop_radii {fit : Fit} {total minCells : Nat} : ∀ (fuel round : Nat) (left : List Nat) (remaining : Nat)
    (seg seg' : Segment), loop fit total minCells fuel round left remaining seg = .ok seg' →
    (∀ r : Rat, some r ∈ seg.radii → 0 ≤ r) → ∀ r : Rat, some r ∈ seg'.radii → 0 ≤ r := by
  intro fuel
  induction fuel with
  | zero => intro _ _ _ _ _ h; simp [loop] at h
  | succ fuel ih =>
    intro round left remaining seg seg' h hr
    rw [loop] at h
    simp only at h
    split at h
    · split at h
      · cases h; exact hr
      · split at h
        · cases h
        · refine ih _ _ _ _ _ h ?_
          intro r hm
          simp only [List.mem_append, List.mem_singleton] at hm
          rcases hm with hm | hm
          · exact hr r hm
          · exact absRadius_nonneg hm.symm
    · cases h; exact hr

/-- The radii of a fitted segment that are numbers are not negative. -/
theorem fitSegment_radii {fit : Fit} {cells : List Nat} {minCells fuel : Nat} {seg : Segment}
    (h : fitSegment fit cells minCells fuel = .ok seg) : ∀ r : Rat, some r ∈ seg.radii → 0 ≤ r := by
  unfold fitSegment at h
  simp only at h
  split at h
  · exact loop_radii _ _ _ _ _ _ h (by simp)
  · cases h; simp

end RgbdSlam.Cylinder
