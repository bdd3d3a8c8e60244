import Verif.Lemmas.Ransac
/-
Random subsets and consensus search: C22 (split), C23 (accepted poses are supported), C24 (best
candidate), C25 (random subsets), C54 (random integers), C67 (a failed search leaves its outputs).
-/
namespace RgbdSlam.Ransac

variable {M Pose : Type}

/-! ### C54 -/

/-- C54: a random integer is in the requested interval. -/
theorem C54_random_in_range {r : Rat} (h0 : 0 ≤ r) (h1 : r < 1) {lo hi : Nat} (h : lo < hi) :
    ∃ v, randomUint r lo hi = .ok v ∧ lo ≤ v ∧ v < hi := by
  have hw : (0 : Rat) < (hi : Rat) - lo := by
    have : (lo : Rat) < hi := by exact_mod_cast h
    grind
  have hlt : r * ((hi : Rat) - lo) < (hi : Rat) - lo := by
    have := Rat.mul_lt_mul_of_pos_right h1 hw
    rwa [Rat.one_mul] at this
  have hnn : 0 ≤ r * ((hi : Rat) - lo) := Rat.mul_nonneg h0 (Rat.le_of_lt hw)
  have hcast : ((hi : Rat) - lo) = (((hi : Int) - (lo : Int) : Int) : Rat) := by
    push_cast; rfl
  have hfl : (r * ((hi : Rat) - lo)).floor < (hi : Int) - lo := by
    rw [Rat.floor_lt_iff, ← hcast]; exact hlt
  have hf0 : 0 ≤ (r * ((hi : Rat) - lo)).floor := by
    rw [Rat.le_floor_iff]; exact_mod_cast hnn
  refine ⟨lo + (r * ((hi : Rat) - lo)).floor.toNat, by rw [randomUint, if_pos h], by omega, by omega⟩

/-- C54: every integer of the interval is given by some output of the generator. -/
theorem C54_random_reaches_all {lo hi v : Nat} (h1 : lo ≤ v) (h2 : v < hi) :
    ∃ r : Rat, 0 ≤ r ∧ r < 1 ∧ randomUint r lo hi = .ok v := by
  have hw : (0 : Rat) < (hi : Rat) - lo := by
    have : (lo : Rat) < hi := by exact_mod_cast Nat.lt_of_le_of_lt h1 h2
    grind
  have hv0 : (0 : Rat) ≤ (v : Rat) - lo := by
    have : (lo : Rat) ≤ v := by exact_mod_cast h1
    grind
  have hvw : (v : Rat) - lo < (hi : Rat) - lo := by
    have : (v : Rat) < hi := by exact_mod_cast h2
    grind
  have hne : (hi : Rat) - lo ≠ 0 := by grind
  refine ⟨((v : Rat) - lo) / ((hi : Rat) - lo), ?_, ?_, ?_⟩
  · rw [Rat.div_def]; exact Rat.mul_nonneg hv0 (Rat.le_of_lt (Rat.inv_pos.mpr hw))
  · rw [Rat.div_lt_iff hw, Rat.one_mul]; exact hvw
  · rw [randomUint, if_pos (Nat.lt_of_le_of_lt h1 h2), Rat.div_mul_cancel hne]
    have hcast : ((v : Rat) - lo) = (((v : Int) - (lo : Int) : Int) : Rat) := by push_cast; rfl
    rw [hcast, Rat.floor_intCast]
    congr 1
    omega

example : randomUint (99 / 100) 0 7 = .ok 6 ∧ randomUint 0 0 7 = .ok 0 := by decide +kernel

/-- C54: an empty interval is refused by the assertion. -/
theorem C54_empty_interval {r : Rat} {lo hi : Nat} (h : hi ≤ lo) : randomUint r lo hi = .terminate := by
  rw [randomUint, if_neg (by omega)]

/-! ### C22 -/

/-- C22: for every pose each match is in exactly one of the two sets, in the original order, according to
the inlier test, and the score is the sum of the scores of the inliers. -/
theorem C22_split_is_partition (p : Problem M Pose) (q : Pose) (l : List M) :
    let s := split p q l
    s.inliers.Sublist l ∧ s.outliers.Sublist l ∧ (s.inliers ++ s.outliers).Perm l ∧
      (∀ m, m ∈ s.inliers ↔ m ∈ l ∧ p.inlier q m = true) ∧
      (∀ m, m ∈ s.outliers ↔ m ∈ l ∧ p.inlier q m = false) ∧
      s.score = total p.score s.inliers := by
  simp only [split_eq]
  refine ⟨List.filter_sublist, List.filter_sublist, List.filter_append_perm _ _, ?_, ?_, rfl⟩
  · intro m; exact List.mem_filter
  · intro m; simp [List.mem_filter]

/-- C22: the score of a match set is the sum of its scores. -/
theorem C22_set_score (p : Problem M Pose) (l : List M) : setScore p l = total p.score l :=
  setScore_eq p l

/-- Matches 0..4 are points and the others planes; pose 100 has points 0..4 as inliers and pose 101 two
points and two planes.  The first match of a subset decides which of the two poses is found. -/
def demo : Problem Nat Nat where
  score m := if m < 5 then 1 / 5 else 1 / 3
  parts m := if m < 5 then 2 else 3
  inlier q m := if q = 100 then m < 5 else decide (3 ≤ m ∧ m < 7)
  minimise q l := if 100 ≤ q then some (q + 100) else match l with
    | 0 :: _ => some 100
    | 6 :: _ => some 101
    | _ => none

def demoMatches : List Nat := [0, 1, 2, 3, 4, 5, 6, 7]

example : (split demo 101 demoMatches).inliers = [3, 4, 5, 6] ∧
    (split demo 101 demoMatches).outliers = [0, 1, 2, 7] ∧
    (split demo 101 demoMatches).score = 16 / 15 := by decide +kernel

/-! ### C25 -/

/-- C25: a random subset of size `n` has `n` elements drawn without repetition, or the call throws
because `n` exceeds the size; there is no other outcome. -/
theorem C25_subset {l shuffled : List M} (hp : shuffled.Perm l) (n : Nat) :
    (l.length < n ∧ subset shuffled n = .throws) ∨
      (n ≤ l.length ∧ ∃ s, subset shuffled n = .ok s ∧ s.length = n ∧ DrawnFrom s l) := by
  rw [subset, hp.length_eq]
  by_cases h : l.length < n
  · exact .inl ⟨h, if_pos h⟩
  · refine .inr ⟨by omega, _, if_neg h, ?_, ?_⟩
    · simp [hp.length_eq]; omega
    · exact DrawnFrom.perm ⟨_, List.reverse_perm _, List.take_sublist n shuffled⟩ hp

/-- C25: every selection of `n` elements is drawn for some shuffle. -/
theorem C25_subset_reaches_all {l s : List M} (h : DrawnFrom s l) :
    ∃ shuffled, shuffled.Perm l ∧ subset shuffled s.length = .ok s := by
  obtain ⟨t, h1, h2⟩ := h
  obtain ⟨rest, h3⟩ := h2.exists_perm_append
  refine ⟨s.reverse ++ rest, ?_, ?_⟩
  · exact (((List.reverse_perm s).trans h1).append_right rest).trans h3.symm
  · rw [subset, if_neg (by simp)]
    congr 1
    rw [List.take_left' (by simp), List.reverse_reverse]

/-- C25: with positive scores and a positive target the draw throws exactly when the total score is too
small; otherwise it returns different elements, whose score reaches the target, and does not reach it
without the last one drawn. -/
theorem C25_subset_with_score {score : M → Rat} {target : Rat} {l shuffled : List M}
    (hp : shuffled.Perm l) (hpos : ∀ m ∈ l, 0 < score m) (ht : 0 < target) :
    (total score l < target ∧ subsetScore score target shuffled = .throws) ∨
      (target ≤ total score l ∧ ∃ a s, subsetScore score target shuffled = .ok (a :: s) ∧
        DrawnFrom (a :: s) l ∧ target ≤ total score (a :: s) ∧ total score s < target) := by
  have hsum : (shuffled.map score).sum = (l.map score).sum := sum_perm (hp.map _)
  have hposs : ∀ m ∈ shuffled, 0 < score m := fun m hm => hpos m (hp.subset hm)
  by_cases hex : ∃ r, subsetScore score target shuffled = .ok r
  · obtain ⟨r, hr⟩ := hex
    obtain ⟨pre, a, post, h1, h2, h3, h4⟩ := pickLoop_ok hr
    have hpost : 0 ≤ (post.map score).sum := by
      have : ∀ m ∈ post, 0 < score m := fun m hm => hposs m (by rw [h1]; simp [hm])
      clear h1 h2 h3 h4 hr
      induction post with
      | nil => exact Rat.le_refl
      | cons x post ih =>
        have h1 := ih fun m hm => this m (by simp [hm])
        have h2 := this x (by simp)
        simp only [List.map_cons, List.sum_cons]
        grind
    refine .inr ⟨?_, a, pre.reverse ++ [], ?_, ?_, ?_, ?_⟩
    · rw [total, ← hsum, h1, List.map_append, sum_append']
      simp only [List.map_cons, List.sum_cons]
      grind
    · rw [hr, h2]
    · refine DrawnFrom.perm ⟨pre ++ [a], ?_, ?_⟩ hp
      · rw [List.append_nil]
        exact (List.Perm.cons a (List.reverse_perm pre)).trans
          (List.perm_append_comm (l₁ := [a]) (l₂ := pre))
      · rw [h1]
        exact List.Sublist.append (List.Sublist.refl _) (List.Sublist.cons_cons a (List.nil_sublist _))
    · simp only [total, List.append_nil, List.map_cons, List.sum_cons, reverse_sum]
      grind
    · simp only [total, List.append_nil, reverse_sum]
      obtain h | ⟨pre', b, h⟩ := List.eq_nil_or_concat pre
      · rw [h]; exact ht
      · rw [List.concat_eq_append] at h
        have := h4 pre' [] b h
        rw [h, List.map_append, sum_append']
        simp only [List.map_cons, List.map_nil, List.sum_cons, List.sum_nil]
        grind
  · have hno : ∀ r, pickLoop score target shuffled 0 [] ≠ .ok r := fun r hr => hex ⟨r, hr⟩
    refine .inl ⟨?_, (pickLoop_throws hno).1⟩
    apply Classical.byContradiction
    intro hge
    have hge' : target ≤ (shuffled.map score).sum := by rw [hsum]; exact Rat.not_lt.mp hge
    have hne : shuffled ≠ [] := by
      intro h
      rw [h] at hge'
      simp only [List.map_nil, List.sum_nil] at hge'
      grind
    exact hex (pickLoop_enough hne hge')

example : (∀ m ∈ demoMatches, 0 < demo.score m) ∧
    subsetScore demo.score 1 [7, 0, 6, 1, 2, 5, 3, 4] = .ok [1, 6, 0, 7] := by decide +kernel

example : subset [3, 1, 2] 2 = .ok [1, 3] ∧ subset [3, 1, 2] 4 = .throws := by decide +kernel

/-- C25: the draws with repetition only give elements of the container, as many as asked. -/
theorem C25_subset_with_duplicates {l : List M} {n : Nat} {draws : List Rat}
    (hd : ∀ r ∈ draws, 0 ≤ r ∧ r < 1) (hn : n ≤ draws.length) :
    (l.length < n ∧ subsetDup l n draws = .throws) ∨
      (n ≤ l.length ∧ ∃ s, subsetDup l n draws = .ok s ∧ s.length = n ∧ ∀ m ∈ s, m ∈ l) := by
  have key : ∀ (draws : List Rat) (out : List M), (∀ r ∈ draws, 0 ≤ r ∧ r < 1) →
      n ≤ out.length + draws.length → out.length ≤ n → n ≤ l.length → (∀ m ∈ out, m ∈ l) →
      ∃ s, drawLoop l n draws out = .ok s ∧ s.length = n ∧ ∀ m ∈ s, m ∈ l := by
    intro draws
    induction draws with
    | nil =>
      intro out _ h1 h2 _ h4
      refine ⟨out, ?_, by simp at h1; omega, h4⟩
      rw [drawLoop, if_neg (by simp at h1; omega)]
    | cons r rs ih =>
      intro out hd h1 h2 h3 h4
      rw [drawLoop]
      by_cases hlt : out.length < n
      · rw [if_pos hlt]
        obtain ⟨v, hv, _, hvl⟩ := C54_random_in_range (hd r (by simp)).1 (hd r (by simp)).2
          (lo := 0) (hi := l.length) (by omega)
        simp only [hv, Outcome.bind_ok, List.getElem?_eq_getElem hvl]
        refine ih _ (fun r hr => hd r (by simp [hr])) (by simp at h1 ⊢; omega) (by simp; omega) h3 ?_
        intro m hm
        rcases List.mem_cons.mp hm with rfl | hm
        · exact List.getElem_mem hvl
        · exact h4 m hm
      · rw [if_neg hlt]
        exact ⟨out, rfl, by omega, h4⟩
  rw [subsetDup]
  by_cases h : l.length < n
  · exact .inl ⟨h, if_pos h⟩
  · rw [if_neg h]
    exact .inr ⟨by omega, key draws [] hd (by simpa using hn) (by simp) (by omega) (by simp)⟩

example : subsetDup [10, 20, 30] 3 [0, 1 / 2, 2 / 5] = .ok [20, 20, 10] := by decide +kernel

/-! ### C23 -/

/-- C23: when the search succeeds, for every interleaving of the iterations and every draw, the returned
match sets are the exact split of the matches by one candidate pose, this candidate is the optimisation
of a subset of the matches, its inliers have a score of one at least, and the returned pose is the
optimisation of these inliers started from it. -/
theorem C23_accepted_pose_supported {p : Problem M Pose} {current : Pose} {l : List M} {stop n : Nat}
    {out : Pose} {r : Result M Pose} (h : Ransac p current l stop n out (.ok r)) (hr : r.success = true) :
    ∃ q s, DrawnFrom s l ∧ 1 ≤ total p.score s ∧ p.minimise current s = some q ∧
      r.inliers = l.filter (p.inlier q) ∧ r.outliers = l.filter (fun m => !p.inlier q m) ∧
      1 ≤ total p.score r.inliers ∧ p.minimise q r.inliers = some r.pose := by
  cases h with
  | few _ => cases hr
  | @loop s hs hreach hfin _ =>
    have hs' : 1 ≤ (l.map p.score).sum := by rw [← setScore_eq]; exact Rat.not_lt.mp hs
    have hc := finished_cons (inv_reach hs' hreach) hfin
    unfold finish at hr ⊢
    split at hr
    · cases hr
    · rename_i hsc
      rw [setScore_eq] at hsc
      split at hr
      · rename_i q hq
        rw [if_neg (by rw [setScore_eq]; exact hsc)]
        rcases hc with ⟨_, _, h3, _⟩ | ⟨c, ⟨⟨sub, h1, h2, h3⟩, h4, h5⟩, _, h7, h8, h9⟩
        · rw [h3] at hsc
          exact absurd (by decide +kernel : (0 : Rat) < 1) (by simpa using hsc)
        · rw [h4, split_eq] at h8 h9
          refine ⟨c.pose, sub, h1, h2, h3, h8, h9, Rat.not_lt.mp hsc, ?_⟩
          rw [← h7]
          exact (globalPose_some hq).1
      · cases hr

/-- C23: when the search fails the pose argument is unchanged and the match sets are empty. -/
theorem C23_failure_leaves_nothing {p : Problem M Pose} {current : Pose} {l : List M} {stop n : Nat}
    {out : Pose} {r : Result M Pose} (h : Ransac p current l stop n out (.ok r))
    (hr : r.success = false) : r = ⟨false, out, [], []⟩ := by
  cases h with
  | few _ => rfl
  | loop _ _ _ _ =>
    unfold finish at hr ⊢
    split
    · rfl
    · split
      · rename_i h1 _ q hq
        rw [if_neg h1, hq] at hr
        cases hr
      · rfl

/-- C23: with a total score below one the search fails without any iteration. -/
theorem C23_too_few_matches {p : Problem M Pose} {current : Pose} {l : List M} {stop n : Nat}
    {out : Pose} {o : Outcome (Result M Pose)} (hs : total p.score l < 1)
    (h : Ransac p current l stop n out o) : o = .ok ⟨false, out, [], []⟩ := by
  have hs' : setScore p l < 1 := by rw [setScore_eq]; exact hs
  cases h with
  | few _ => rfl
  | loop h1 _ _ _ => exact absurd hs' h1
  | crash h1 _ _ => exact absurd hs' h1

/-- C23: no draw throws, so that the function, which is noexcept, never ends the program. -/
theorem C23_never_terminates {p : Problem M Pose} {current : Pose} {l : List M} {stop n : Nat}
    {out : Pose} : ¬ Ransac p current l stop n out .terminate := by
  intro h
  cases h with
  | crash hs hr ht =>
    have := (inv_reach (by rw [← setScore_eq]; exact Rat.not_lt.mp hs) hr).live
    rw [this] at ht; cases ht

/-- C23: no deadlock: as long as an iteration is not finished, some iteration can make a step. -/
theorem C23_no_deadlock {p : Problem M Pose} {current : Pose} {l : List M} {stop n : Nat}
    {s : Par M Pose} (hs : 1 ≤ total p.score l) (h : Par.Reach p current l stop n s)
    (hf : ¬ s.finished) : ∃ i, ∀ shuffled, ∃ s', s.step p current l stop shuffled i = some s' := by
  have hI := inv_reach hs h
  cases hh : s.holder with
  | some i =>
    have hlt := hI.bound i hh
    have hget : s.pcs[i]? = some s.pcs[i] := List.getElem?_eq_getElem hlt
    have hcrit := (hI.hold i _ hget).mpr hh
    refine ⟨i, fun sh => step_possible hget ?_ ?_⟩
    · intro hd; rw [hd] at hcrit; cases hcrit
    · rintro ⟨c, hc⟩; rw [hc] at hcrit; cases hcrit
  | none =>
    simp only [Par.finished, Classical.not_forall] at hf
    obtain ⟨pc, hpc, hne⟩ := hf
    obtain ⟨i, hi⟩ := List.getElem?_of_mem hpc
    exact ⟨i, fun sh => step_possible hi hne fun _ => hh⟩

/-- C23: the search ends: there is no infinite execution. -/
theorem C23_always_ends {p : Problem M Pose} {current : Pose} {l : List M} {stop : Nat}
    (hs : 1 ≤ total p.score l) (run : Nat → Par M Pose) :
    ¬ ∀ k, ∃ shuffled i, shuffled.Perm l ∧ (run k).step p current l stop shuffled i = some (run (k + 1)) := by
  intro h
  have hdec : ∀ k, measure (run k) + k ≤ measure (run 0) := by
    intro k
    induction k with
    | zero => simp
    | succ k ih =>
      obtain ⟨sh, i, hp, hst⟩ := h k
      have := step_measure hs hp hst
      omega
  have := hdec (measure (run 0) + 1)
  omega

/-- Draws that give pose 100 and pose 101. -/
def shA : List Nat := [1, 2, 3, 4, 0, 5, 6, 7]
def shB : List Nat := [5, 7, 4, 6, 0, 3, 1, 2]

def isDone : Pc Nat Nat → Bool
  | .done => true
  | _ => false

theorem isDone_done {pc : Pc Nat Nat} (h : isDone pc = true) : pc = .done := by
  cases pc <;> first | rfl | cases h

/-- Final state of a schedule that finishes. -/
def ends (p : Problem Nat Nat) (l : List Nat) (stop n : Nat) (sched : List (List Nat × Nat))
    (t : Par Nat Nat → Bool) : Bool :=
  match Par.runSchedule p 7 l stop sched (.init 7 n) with
  | some s => s.pcs.all isDone && !s.terminated && t s
  | none => false

theorem ends_reach {p : Problem Nat Nat} {l : List Nat} {stop n : Nat} {sched : List (List Nat × Nat)}
    {t : Par Nat Nat → Bool} (hp : ∀ e ∈ sched, e.1.Perm l) (h : ends p l stop n sched t = true) :
    ∃ s, Par.Reach p 7 l stop n s ∧ s.finished ∧ s.terminated = false ∧ t s = true := by
  unfold ends at h
  split at h
  · rename_i s hs
    simp only [Bool.and_eq_true, List.all_eq_true, Bool.not_eq_true'] at h
    exact ⟨s, reach_schedule .init hp hs, fun pc hpc => isDone_done (h.1.1 pc hpc), h.1.2, h.2⟩
  · cases h

/-- A successful search of two iterations, the second one first: pose 101 is retained, then pose 100. -/
def demoSchedule : List (List Nat × Nat) := List.replicate 9 (shB, 1) ++ List.replicate 11 (shA, 0)

theorem demoSchedule_perm : ∀ e ∈ demoSchedule, e.1.Perm demoMatches := by
  have hA : shA.Perm demoMatches := by decide
  have hB : shB.Perm demoMatches := by decide
  intro e he
  rcases List.mem_append.mp he with h | h
  · rw [(List.mem_replicate.mp h).2]; exact hB
  · rw [(List.mem_replicate.mp h).2]; exact hA

example : ∃ r, Ransac demo 7 demoMatches 99 2 7 (.ok r) ∧ r.success = true ∧ r.pose = 200 ∧
    r.inliers = [0, 1, 2, 3, 4] := by
  obtain ⟨s, h1, h2, h3, h4⟩ := ends_reach demoSchedule_perm
    (show ends demo demoMatches 99 2 demoSchedule (fun s =>
      (finish demo 7 s.sh).success && (finish demo 7 s.sh).pose == 200 &&
      (finish demo 7 s.sh).inliers == [0, 1, 2, 3, 4]) = true by decide +kernel)
  simp only [Bool.and_eq_true, beq_iff_eq] at h4
  exact ⟨_, .loop (by decide +kernel) h1 h2 h3, h4.1.1, h4.1.2, h4.2⟩

example : total demo.score [0, 1, 5] < 1 ∧ Ransac demo 7 [0, 1, 5] 99 2 7 (.ok ⟨false, 7, [], []⟩) :=
  ⟨by decide +kernel, .few (by decide +kernel)⟩

/-! ### C24 -/

/-- The candidates that the first `k` draws give. -/
def candidates (p : Problem M Pose) (current : Pose) (l : List M) (draws : List (List M)) :
    List (Cand M Pose) :=
  draws.filterMap fun sh => match evaluate p current l sh with
    | .ok c => c
    | _ => none

theorem candidates_cons (p : Problem M Pose) (current : Pose) (l sh : List M) (draws : List (List M))
    {r : Option (Cand M Pose)} (h : evaluate p current l sh = .ok r) :
    candidates p current l (sh :: draws) = r.toList ++ candidates p current l draws := by
  unfold candidates
  rw [List.filterMap_cons, h]
  cases r <;> rfl

/-- Scores of candidates are multiples of the common score. -/
theorem sum_const {w : Rat} {f : M → Rat} : ∀ {l : List M}, (∀ m ∈ l, f m = w) →
    (l.map f).sum = (l.length : Rat) * w
  | [], _ => by simp [Rat.zero_mul]
  | m :: l, h => by
    have := sum_const (l := l) fun m hm => h m (by simp [hm])
    simp only [List.map_cons, List.sum_cons, this, h m (by simp), List.length_cons]
    push_cast
    grind

theorem seq_best {p : Problem M Pose} {current : Pose} {l : List M} {stop : Nat} {w : Rat}
    (hw : ∀ m ∈ l, p.score m = w) (hw' : 1 / 10 < w) (hs : 1 ≤ (l.map p.score).sum) :
    ∀ (draws : List (List M)) (i : Nat) (s s' : Shared M Pose) (seen : List (Cand M Pose)),
      (∀ sh ∈ draws, sh.Perm l) →
      ((s.maxScore = 1 ∧ s.inliers = [] ∧ seen = []) ∨
        ∃ c ∈ seen, s.maxScore = c.sets.score ∧ s.bestPose = c.pose ∧ s.inliers = c.sets.inliers ∧
          c.sets.score = (c.sets.inliers.length : Rat) * w) →
      (∀ c ∈ seen, c.sets.score ≤ s.maxScore) →
      seqLoop p current l stop i draws s = .ok s' →
      ∃ k, (k = draws.length ∨ s'.canQuit = true) ∧
        ((s'.inliers = [] ∧ seen ++ candidates p current l (draws.take k) = []) ∨
          ∃ c ∈ seen ++ candidates p current l (draws.take k), s'.bestPose = c.pose ∧
            s'.inliers = c.sets.inliers ∧
            ∀ d ∈ seen ++ candidates p current l (draws.take k), d.sets.score ≤ c.sets.score) := by
  intro draws
  induction draws with
  | nil =>
    intro i s s' seen _ h1 h2 h
    injection h with h; subst h
    refine ⟨0, .inl rfl, ?_⟩
    simp only [candidates, List.take_nil, List.filterMap_nil, List.append_nil]
    rcases h1 with ⟨_, h3, h4⟩ | ⟨c, hc, h3, h4, h5, _⟩
    · exact .inl ⟨h3, h4⟩
    · exact .inr ⟨c, hc, h4, h5, fun d hd => by rw [← h3]; exact h2 d hd⟩
  | cons sh draws ih =>
    intro i s s' seen hp h1 h2 h
    rw [seqLoop] at h
    split at h
    · rename_i hq
      injection h with h; subst h
      refine ⟨0, .inr hq, ?_⟩
      simp only [candidates, List.take_zero, List.filterMap_nil, List.append_nil]
      rcases h1 with ⟨_, h3, h4⟩ | ⟨c, hc, h3, h4, h5, _⟩
      · exact .inl ⟨h3, h4⟩
      · exact .inr ⟨c, hc, h4, h5, fun d hd => by rw [← h3]; exact h2 d hd⟩
    · obtain ⟨r, hr, hcand⟩ := evaluate_ok (p := p) (current := current) hs (hp sh (by simp))
      rw [hr, Outcome.bind_ok] at h
      have step : ∃ k, (k = draws.length ∨ s'.canQuit = true) ∧
          ((s'.inliers = [] ∧ (seen ++ r.toList) ++ candidates p current l (draws.take k) = []) ∨
          ∃ c ∈ (seen ++ r.toList) ++ candidates p current l (draws.take k), s'.bestPose = c.pose ∧
            s'.inliers = c.sets.inliers ∧
            ∀ d ∈ (seen ++ r.toList) ++ candidates p current l (draws.take k),
              d.sets.score ≤ c.sets.score) := by
        cases r with
        | none =>
          refine ih (i + 1) _ s' (seen ++ []) (fun x hx => hp x (by simp [hx])) ?_ ?_ h
          · simpa [seqTurn] using h1
          · simpa [seqTurn] using h2
        | some c =>
          obtain ⟨_, hsets, hge⟩ := hcand c rfl
          have hcs : c.sets.score = (c.sets.inliers.length : Rat) * w := by
            rw [hsets, split_eq]
            exact sum_const fun m hm => hw m (List.mem_filter.mp hm).1
          have hturn : (seqTurn stop i (some c) s).maxScore =
                (if canOverload c.sets.score s.maxScore s.inliers.length c.sets.inliers.length then
                  c.sets.score else s.maxScore) ∧
              (seqTurn stop i (some c) s).bestPose =
                (if canOverload c.sets.score s.maxScore s.inliers.length c.sets.inliers.length then
                  c.pose else s.bestPose) ∧
              (seqTurn stop i (some c) s).inliers =
                (if canOverload c.sets.score s.maxScore s.inliers.length c.sets.inliers.length then
                  c.sets.inliers else s.inliers) := by
            simp only [seqTurn]
            by_cases ho : canOverload c.sets.score s.maxScore s.inliers.length c.sets.inliers.length
            · simp only [ho, if_true]
              split <;> exact ⟨rfl, rfl, rfl⟩
            · simp only [ho, Bool.false_eq_true, if_false]
              split <;> exact ⟨rfl, rfl, rfl⟩
          obtain ⟨ht1, ht2, ht3⟩ := hturn
          refine ih (i + 1) _ s' (seen ++ [c]) (fun x hx => hp x (by simp [hx])) ?_ ?_ h
          · by_cases ho : canOverload c.sets.score s.maxScore s.inliers.length c.sets.inliers.length
            · rw [ht1, ht2, ht3]
              simp only [ho, if_true]
              exact .inr ⟨c, by simp, rfl, rfl, rfl, hcs⟩
            · rw [ht1, ht2, ht3]
              simp only [ho, Bool.false_eq_true, if_false]
              rcases h1 with ⟨h3, h4, h5⟩ | ⟨d, hd, h3, h4, h5, h6⟩
              · exfalso
                apply ho
                have hlen : 0 < c.sets.inliers.length := by
                  rcases Nat.eq_zero_or_pos c.sets.inliers.length with h0 | h0
                  · rw [h0] at hcs
                    rw [hcs] at hge
                    have hz : ((0 : Nat) : Rat) = 0 := rfl
                    rw [hz, Rat.zero_mul] at hge
                    exact absurd hge (by decide +kernel)
                  · exact h0
                rw [canOverload, h3, h4]
                by_cases hgt : 1 < c.sets.score
                · simp [hgt]
                · have : c.sets.score = 1 := Rat.le_antisymm (Rat.not_lt.mp hgt) hge
                  simp only [this]
                  simp [hlen]
                  decide +kernel
              · exact .inr ⟨d, by simp [hd], h3, h4, h5, h6⟩
          · rw [ht1]
            intro d hd
            by_cases ho : canOverload c.sets.score s.maxScore s.inliers.length c.sets.inliers.length
            · simp only [ho, if_true]
              -- the new score is at least the old one
              have hle : s.maxScore ≤ c.sets.score := by
                simp only [canOverload, Bool.or_eq_true, Bool.and_eq_true, decide_eq_true_eq] at ho
                rcases ho with ho | ⟨⟨_, ho2⟩, ho3⟩
                · exact Rat.le_of_lt ho
                · rcases h1 with ⟨h3, _, _⟩ | ⟨e, _, h3, _, h5, h6⟩
                  · rw [h3]; exact hge
                  · rw [h3, h6, ← h5, hcs]
                    have : (s.inliers.length : Rat) < c.sets.inliers.length := by exact_mod_cast ho3
                    exact Rat.mul_le_mul_of_nonneg_right (Rat.le_of_lt this) (by grind)
              rcases List.mem_append.mp hd with hd | hd
              · exact Rat.le_trans (h2 d hd) hle
              · rw [List.mem_singleton.mp hd]; exact Rat.le_refl
            · simp only [ho, Bool.false_eq_true, if_false]
              rcases List.mem_append.mp hd with hd | hd
              · exact h2 d hd
              · rw [List.mem_singleton.mp hd]
                simp only [canOverload, Bool.or_eq_true, Bool.and_eq_true, decide_eq_true_eq,
                  not_or] at ho
                exact Rat.not_lt.mp ho.1
      obtain ⟨k, hk, hres⟩ := step
      refine ⟨k + 1, ?_, ?_⟩
      · rcases hk with hk | hk
        · exact .inl (by simp [hk])
        · exact .inr hk
      · rw [List.take_succ_cons, candidates_cons _ _ _ _ _ hr, ← List.append_assoc]
        exact hres

/-- C24 for the deterministic build and matches that all count the same (only points or only planes):
the retained candidate is one of those evaluated and none of them has a higher score.  All draws are
evaluated unless the search stopped early.  Missing: mixed matches and the parallel build, where the
property is false. -/
theorem C24_sequential_best_partial {p : Problem M Pose} {current : Pose} {l : List M} {stop : Nat}
    {w : Rat} (hw : ∀ m ∈ l, p.score m = w) (hw' : 1 / 10 < w) (hs : 1 ≤ total p.score l)
    {draws : List (List M)} (hp : ∀ sh ∈ draws, sh.Perm l) {s : Shared M Pose}
    (h : seqLoop p current l stop 0 draws (.init current) = .ok s) :
    ∃ k, (k = draws.length ∨ s.canQuit = true) ∧
      ((s.inliers = [] ∧ candidates p current l (draws.take k) = []) ∨
        ∃ c ∈ candidates p current l (draws.take k), s.bestPose = c.pose ∧ s.inliers = c.sets.inliers ∧
          ∀ d ∈ candidates p current l (draws.take k), d.sets.score ≤ c.sets.score) :=
  seq_best hw hw' hs draws 0 _ s [] hp (.inl ⟨rfl, rfl, rfl⟩) (fun c hc => by cases hc) h

/-- Seven points; the pose found (by the first match of the subset) has 5, 6 or 7 inliers. -/
def points : Problem Nat Nat where
  score _ := 1 / 5
  parts _ := 2
  inlier q m := m < q
  minimise _ l := match l with
    | 0 :: _ => some 5
    | 1 :: _ => some 7
    | _ => some 6

def sevenPoints : List Nat := [0, 1, 2, 3, 4, 5, 6]
def sh5 : List Nat := [4, 1, 2, 3, 0, 5, 6]
def sh7 : List Nat := [4, 0, 2, 3, 1, 5, 6]

example : (∀ m ∈ sevenPoints, points.score m = 1 / 5) ∧ (1 / 10 : Rat) < 1 / 5 ∧
    1 ≤ total points.score sevenPoints ∧ (∀ sh ∈ [sh5, sh7, sh5], sh.Perm sevenPoints) ∧
    (candidates points 9 sevenPoints [sh5, sh7, sh5]).map (·.sets.score) = [1, 7 / 5, 1] ∧
    ((seqLoop points 9 sevenPoints 99 0 [sh5, sh7, sh5] (.init 9)).holds fun s =>
      s.inliers == sevenPoints) = true := by decide +kernel

/-- C24 is false for mixed matches, even in the deterministic build: a candidate of lower score replaces
a better one when its score is within 0.1 and it has more inliers. -/
theorem C24_mixed_matches_false :
    ∃ (p : Problem Nat Nat) (l : List Nat) (draws : List (List Nat)) (s : Shared Nat Nat),
      (∀ sh ∈ draws, sh.Perm l) ∧ 1 ≤ total p.score l ∧
      seqLoop p 7 l 99 0 draws (.init 7) = .ok s ∧ s.canQuit = false ∧
      ∃ d ∈ candidates p 7 l draws, total p.score s.inliers < d.sets.score := by
  have h : ((seqLoop demo 7 demoMatches 99 0 [shB, shA] (.init 7)).holds fun s =>
      !s.canQuit && (candidates demo 7 demoMatches [shB, shA]).any fun d =>
        decide (total demo.score s.inliers < d.sets.score)) = true := by decide +kernel
  cases hl : seqLoop demo 7 demoMatches 99 0 [shB, shA] (.init 7) with
  | ok s =>
    rw [hl] at h
    simp only [Outcome.holds, Bool.and_eq_true, List.any_eq_true, decide_eq_true_eq,
      Bool.not_eq_true'] at h
    exact ⟨demo, demoMatches, [shB, shA], s, by decide, by decide +kernel, hl, h.1, h.2⟩
  | _ => rw [hl] at h; cases h

/-- Iteration 0 compares its candidate and waits for the lock, iteration 1 runs to its end, iteration 0
then overwrites the better result. -/
def lostUpdate : List (List Nat × Nat) :=
  List.replicate 4 (sh5, 0) ++ List.replicate 9 (sh7, 1) ++ List.replicate 7 (sh5, 0)

/-- C24 is false in the parallel build even if all matches count the same: the comparison with the best
score is made before taking the lock, so that a better candidate found in between is lost. -/
theorem C24_lost_update_false :
    ∃ (p : Problem Nat Nat) (l : List Nat) (s : Par Nat Nat) (sh : List Nat) (c : Cand Nat Nat),
      (∀ m ∈ l, p.score m = 1 / 5) ∧ Par.Reach p 7 l 99 2 s ∧ s.finished ∧ sh.Perm l ∧
      Par.step p 7 l 99 sh 1 (.init 7 2) = some { Par.init 7 2 with pcs := [.start, .greater c] } ∧
      total p.score s.sh.inliers < c.sets.score := by
  have hp : ∀ e ∈ lostUpdate, e.1.Perm sevenPoints := by
    have h5 : sh5.Perm sevenPoints := by decide
    have h7 : sh7.Perm sevenPoints := by decide
    intro e he
    rcases List.mem_append.mp he with he | he
    · rcases List.mem_append.mp he with he | he
      · rw [(List.mem_replicate.mp he).2]; exact h5
      · rw [(List.mem_replicate.mp he).2]; exact h7
    · rw [(List.mem_replicate.mp he).2]; exact h5
  obtain ⟨s, h1, h2, _, h4⟩ := ends_reach hp
    (show ends points sevenPoints 99 2 lostUpdate (fun s =>
      decide (total points.score s.sh.inliers < 7 / 5)) = true by decide +kernel)
  simp only [decide_eq_true_eq] at h4
  refine ⟨points, sevenPoints, s, sh7, ⟨7, split points 7 sevenPoints⟩, fun _ _ => rfl, h1, h2,
    by decide, by decide +kernel, ?_⟩
  have : (split points 7 sevenPoints).score = 7 / 5 := by decide +kernel
  rw [this]; exact h4

/-- The comparison reads `maxScore` without the lock: there are executions in which one iteration is about
to read it while another one is about to write it, a data race (undefined behaviour in C++). -/
theorem C24_data_race_false :
    ∃ (p : Problem Nat Nat) (l : List Nat) (s : Par Nat Nat) (c d : Cand Nat Nat),
      Par.Reach p 7 l 99 2 s ∧ s.pcs[0]? = some (.greater c) ∧ s.pcs[1]? = some (.writeScore d) := by
  let sched : List (List Nat × Nat) := [(sh5, 0), (sh7, 1), (sh7, 1), (sh7, 1)]
  have hp : ∀ e ∈ sched, e.1.Perm sevenPoints := by decide
  have hr : (Par.runSchedule points 7 sevenPoints 99 sched (.init 7 2)).map (·.pcs) =
      some [.greater ⟨5, split points 5 sevenPoints⟩, .writeScore ⟨7, split points 7 sevenPoints⟩] := by
    decide +kernel
  obtain ⟨s, h1, h2⟩ := Option.map_eq_some_iff.mp hr
  refine ⟨points, sevenPoints, s, ⟨5, split points 5 sevenPoints⟩, ⟨7, split points 7 sevenPoints⟩,
    reach_schedule .init hp h1, ?_, ?_⟩
  · rw [h2]; rfl
  · rw [h2]; rfl

/-! ### C67 -/

/-- C67: an accepted optimisation: all matches are valid, the consensus search succeeded, and the
variance is the one of its pose and inliers. -/
theorem C67_success {Var : Type} {valid : M → Bool} {l : List M} {out : Pose}
    {ransac : Outcome (Result M Pose)} {variance : Pose → List M → Option Var} {r : Result M Pose}
    {v : Option Var} (h : optimizedPose valid l out ransac variance = .ok (r, v))
    (hr : r.success = true) :
    (∀ m ∈ l, valid m = true) ∧ ransac = .ok r ∧ v = variance r.pose r.inliers ∧ v.isSome := by
  unfold optimizedPose at h
  split at h
  · rename_i hv
    obtain ⟨r', h1, h2⟩ := Outcome.bind_eq_ok h
    split at h2
    · split at h2
      · rename_i w hw
        injection h2 with h2; injection h2 with h3 h4
        subst h3; subst h4
        exact ⟨List.all_eq_true.mp hv, h1, hw.symm, rfl⟩
      · injection h2 with h2; injection h2 with h3 h4
        subst h3; cases hr
    · rename_i hf
      injection h2 with h2; injection h2 with h3 h4
      subst h3; exact absurd hr hf
  · injection h with h; injection h with h3 h4
    subst h3; cases hr

/-- C67: when the matches are invalid or the consensus search fails, the pose and the match sets are
those before the call.  Missing: a failure of the variance estimation. -/
theorem C67_failure_unchanged_partial {Var : Type} {valid : M → Bool} {p : Problem M Pose}
    {current : Pose} {l : List M} {stop n : Nat} {out : Pose} {o : Outcome (Result M Pose)}
    {variance : Pose → List M → Option Var} {r : Result M Pose} {v : Option Var}
    (ho : Ransac p current l stop n out o) (h : optimizedPose valid l out o variance = .ok (r, v))
    (hr : r.success = false) (hv : ∀ q s, o = .ok s → variance q s.inliers ≠ none) :
    r = ⟨false, out, [], []⟩ ∧ v = none := by
  unfold optimizedPose at h
  split at h
  · obtain ⟨r', h1, h2⟩ := Outcome.bind_eq_ok h
    subst h1
    split at h2
    · split at h2
      · rename_i hs _ w hw
        injection h2 with h2; injection h2 with h3 h4
        subst h3; rw [hs] at hr; cases hr
      · rename_i hn
        exact absurd hn (hv _ r' rfl)
    · rename_i hf
      injection h2 with h2; injection h2 with h3 h4
      subst h3; subst h4
      exact ⟨C23_failure_leaves_nothing ho (by simpa using hf), rfl⟩
  · injection h with h; injection h with h3 h4
    exact ⟨h3.symm, h4.symm⟩

/-- C67 is false when the variance estimation fails: the call reports a failure, but the pose and the
match sets have been replaced. -/
theorem C67_failure_changes_pose_false :
    ∃ (p : Problem Nat Nat) (l : List Nat) (o : Outcome (Result Nat Nat)) (r : Result Nat Nat),
      Ransac p 7 l 99 2 7 o ∧ optimizedPose (Var := Unit) (fun _ => true) l 7 o (fun _ _ => none) =
        .ok (r, none) ∧ r.success = false ∧ r.pose ≠ 7 ∧ r.inliers ≠ [] := by
  obtain ⟨s, h1, h2, h3, h4⟩ := ends_reach demoSchedule_perm
    (show ends demo demoMatches 99 2 demoSchedule (fun s =>
      (finish demo 7 s.sh).success && (finish demo 7 s.sh).pose == 200 &&
      (finish demo 7 s.sh).inliers == [0, 1, 2, 3, 4]) = true by decide +kernel)
  simp only [Bool.and_eq_true, beq_iff_eq] at h4
  refine ⟨demo, demoMatches, _, { finish demo 7 s.sh with success := false },
    .loop (by decide +kernel) h1 h2 h3, ?_, rfl, ?_, ?_⟩
  · simp [optimizedPose, h4.1.1]
  · simp [h4.1.2]
  · simp [h4.2]

end RgbdSlam.Ransac
