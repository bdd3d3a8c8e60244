import Verif.Props.Ransac
/-
More about random subsets and the consensus search: C24 (how far from the best), C25 (draws with
repetition up to a score), C125 (early stop).
-/
namespace RgbdSlam.Ransac

variable {M Pose : Type}

/-! ### C25 -/

/-- C25: the draw with repetition up to a score gives elements of the container, at most as many as allowed,
reaches the score unless the number of draws is exhausted, and does not reach it without the last one
drawn. -/
theorem C25_score_with_duplicates {score : M → Rat} {target : Rat} {l : List M} (hl : l ≠ [])
    {maxDraws : Nat} {draws : List Rat} (hd : ∀ r ∈ draws, 0 ≤ r ∧ r < 1) (hn : maxDraws ≤ draws.length) :
    ∃ s, pickDup score target l maxDraws draws 0 [] = .ok s ∧ (∀ m ∈ s, m ∈ l) ∧ s.length ≤ maxDraws ∧
      (target ≤ total score s ∨ s.length = maxDraws) ∧
      ∀ a rest, s = a :: rest → total score rest < target := by
  have key : ∀ (fuel : Nat) (draws : List Rat) (acc : Rat) (out : List M),
      (∀ r ∈ draws, 0 ≤ r ∧ r < 1) → fuel ≤ draws.length → acc = total score out → (∀ m ∈ out, m ∈ l) →
      (∀ a rest, out = a :: rest → total score rest < target) →
      ∃ s, pickDup score target l fuel draws acc out = .ok s ∧ (∀ m ∈ s, m ∈ l) ∧
        s.length ≤ fuel + out.length ∧ (target ≤ total score s ∨ s.length = fuel + out.length) ∧
        ∀ a rest, s = a :: rest → total score rest < target := by
    intro fuel
    induction fuel with
    | zero =>
      intro draws acc out _ _ _ h4 h5
      exact ⟨out, rfl, h4, by omega, .inr (by omega), h5⟩
    | succ fuel ih =>
      intro draws acc out h1 h2 h3 h4 h5
      cases draws with
      | nil => simp at h2
      | cons r rs =>
        rw [pickDup]
        by_cases hlt : acc < target
        · rw [if_pos hlt]
          obtain ⟨v, hv, _, hvl⟩ := C54_random_in_range (h1 r (by simp)).1 (h1 r (by simp)).2
            (lo := 0) (hi := l.length) (List.length_pos_iff.mpr hl)
          simp only [hv, Outcome.bind_ok, List.getElem?_eq_getElem hvl]
          obtain ⟨s, e1, e2, e3, e4, e5⟩ := ih rs (acc + score l[v]) (l[v] :: out)
            (fun x hx => h1 x (by simp [hx])) (by simp at h2; omega)
            (by simp only [total, List.map_cons, List.sum_cons] at h3 ⊢; rw [h3]; grind)
            (by
              intro m hm
              rcases List.mem_cons.mp hm with rfl | hm
              · exact List.getElem_mem hvl
              · exact h4 m hm)
            (by
              intro a rest e
              injection e with _ e
              rw [← e, ← h3]; exact hlt)
          refine ⟨s, e1, e2, by simp at e3; omega, ?_, e5⟩
          rcases e4 with e4 | e4
          · exact .inl e4
          · exact .inr (by simp at e4; omega)
        · rw [if_neg hlt]
          refine ⟨out, rfl, h4, by omega, .inl ?_, h5⟩
          rw [← h3]; exact Rat.not_lt.mp hlt
  obtain ⟨s, e1, e2, e3, e4, e5⟩ := key maxDraws draws 0 [] hd hn rfl (by simp) (fun a rest e => by cases e)
  exact ⟨s, e1, e2, by simpa using e3, by simpa using e4, e5⟩

/-- Draws up to a score of 1, with elements of score 1/5 and 1/3. -/
example : pickDup (fun m : Nat => if m < 5 then 1 / 5 else 1 / 3) 1 [0, 1, 7] 512
    (List.replicate 512 (9 / 10)) 0 [] = .ok [7, 7, 7] := by decide +kernel

/-- C25: from an empty container nothing can be drawn up to a positive score: the assertion of the random
number fails. -/
theorem C25_score_from_empty {score : M → Rat} {target : Rat} (ht : 0 < target) {maxDraws : Nat} {r : Rat}
    {rs : List Rat} : pickDup score target [] (maxDraws + 1) (r :: rs) 0 [] = .terminate := by
  rw [pickDup, if_pos ht]
  simp [randomUint, Outcome.bind]

/-! ### C24 -/

/-- The effect of one turn on the retained score and inliers. -/
theorem seqTurn_score (stop i : Nat) (c : Cand M Pose) (s : Shared M Pose) :
    (seqTurn stop i (some c) s).maxScore =
        (if canOverload c.sets.score s.maxScore s.inliers.length c.sets.inliers.length then
          c.sets.score else s.maxScore) ∧
      (seqTurn stop i (some c) s).inliers =
        (if canOverload c.sets.score s.maxScore s.inliers.length c.sets.inliers.length then
          c.sets.inliers else s.inliers) := by
  simp only [seqTurn]
  by_cases ho : canOverload c.sets.score s.maxScore s.inliers.length c.sets.inliers.length
  · simp only [ho, if_true]
    split <;> exact ⟨rfl, rfl⟩
  · simp only [ho, Bool.false_eq_true, if_false]
    split <;> exact ⟨rfl, rfl⟩

/-- A turn keeps at least the score of its candidate, and loses at most 0.1, for more inliers. -/
theorem seqTurn_close (stop i : Nat) (c : Cand M Pose) (s : Shared M Pose) :
    c.sets.score ≤ (seqTurn stop i (some c) s).maxScore ∧
      s.maxScore ≤ (seqTurn stop i (some c) s).maxScore + 1 / 10 ∧
      ((seqTurn stop i (some c) s).maxScore < s.maxScore →
        s.inliers.length < (seqTurn stop i (some c) s).inliers.length) := by
  obtain ⟨h1, h2⟩ := seqTurn_score stop i c s
  rw [h1, h2]
  by_cases ho : canOverload c.sets.score s.maxScore s.inliers.length c.sets.inliers.length
  · simp only [ho, if_true]
    simp only [canOverload, Bool.or_eq_true, Bool.and_eq_true, decide_eq_true_eq] at ho
    refine ⟨Rat.le_refl, ?_, ?_⟩
    · rcases ho with h | ⟨⟨_, h⟩, _⟩ <;> grind
    · intro hlt
      rcases ho with h | ⟨_, h⟩
      · grind
      · exact h
  · simp only [ho, Bool.false_eq_true, if_false]
    simp only [canOverload, Bool.or_eq_true, Bool.and_eq_true, decide_eq_true_eq, not_or] at ho
    exact ⟨Rat.not_lt.mp ho.1, by grind, fun h => absurd h (by grind)⟩

theorem seq_close {p : Problem M Pose} {current : Pose} {l : List M} {stop : Nat}
    (hs : 1 ≤ (l.map p.score).sum) :
    ∀ (draws : List (List M)) (i : Nat) (s s' : Shared M Pose), (∀ sh ∈ draws, sh.Perm l) →
      Cons p current l s → seqLoop p current l stop i draws s = .ok s' →
      Cons p current l s' ∧ ∃ k ≤ draws.length, (k = draws.length ∨ s'.canQuit = true) ∧
        s.maxScore ≤ s'.maxScore + k / 10 ∧
        ∀ d ∈ candidates p current l (draws.take k), d.sets.score ≤ s'.maxScore + k / 10 := by
  intro draws
  induction draws with
  | nil =>
    intro i s s' _ hc h
    injection h with h; subst h
    exact ⟨hc, 0, by simp, .inl rfl, by simp; grind, fun d hd => by simp [candidates] at hd⟩
  | cons sh draws ih =>
    intro i s s' hp hc h
    rw [seqLoop] at h
    split at h
    · rename_i hq
      injection h with h; subst h
      exact ⟨hc, 0, by simp, .inr hq, by simp; grind, fun d hd => by simp [candidates] at hd⟩
    · obtain ⟨r, hr, hcand⟩ := evaluate_ok (p := p) (current := current) hs (hp sh (by simp))
      rw [hr, Outcome.bind_ok] at h
      have hc' : Cons p current l (seqTurn stop i r s) := by
        cases r with
        | none => exact hc
        | some c =>
          by_cases ho : canOverload c.sets.score s.maxScore s.inliers.length c.sets.inliers.length
          · refine .inr ⟨c, hcand c rfl, ?_⟩
            simp only [seqTurn, ho, if_true]
            split <;> exact ⟨rfl, rfl, rfl, rfl⟩
          · have : ∀ b, Cons p current l { s with canQuit := b } := fun _ => hc
            simp only [seqTurn, ho, Bool.false_eq_true, if_false]
            split
            · exact this true
            · exact hc
      obtain ⟨h1, k, hk, h2, h3, h4⟩ := ih (i + 1) _ s' (fun x hx => hp x (by simp [hx])) hc' h
      refine ⟨h1, k + 1, by simpa using hk, ?_, ?_, ?_⟩
      · rcases h2 with h2 | h2
        · exact .inl (by simp [h2])
        · exact .inr h2
      · push_cast
        cases r with
        | none => simp only [seqTurn] at h3; grind
        | some c =>
          have := (seqTurn_close stop i c s).2.1
          grind
      · push_cast
        intro d hd
        rw [List.take_succ_cons, candidates_cons _ _ _ _ _ hr] at hd
        rcases List.mem_append.mp hd with hd | hd
        · cases r with
          | none => cases hd
          | some c =>
            rw [List.mem_singleton.mp hd]
            have := (seqTurn_close stop i c s).1
            grind
        · have := h4 d hd
          grind

/-- C24 for the deterministic build and any matches: the retained candidate is one of those that can be
evaluated, and no candidate evaluated is better than it by more than 0.1 for each iteration.  Missing: the
retained candidate need not be the best, and in the parallel build there is no such bound
(`C24_mixed_matches_false`, `C24_lost_update_false`). -/
theorem C24_sequential_close_partial {p : Problem M Pose} {current : Pose} {l : List M} {stop : Nat}
    (hs : 1 ≤ total p.score l) {draws : List (List M)} (hp : ∀ sh ∈ draws, sh.Perm l) {s : Shared M Pose}
    (h : seqLoop p current l stop 0 draws (.init current) = .ok s) :
    ∃ k ≤ draws.length, (k = draws.length ∨ s.canQuit = true) ∧
      (s.inliers ≠ [] → s.maxScore = total p.score s.inliers ∧
        s.inliers = l.filter (p.inlier s.bestPose)) ∧
      ∀ d ∈ candidates p current l (draws.take k), d.sets.score ≤ s.maxScore + k / 10 := by
  obtain ⟨h1, k, hk, h2, _, h4⟩ := seq_close hs draws 0 (.init current) s hp (.inl ⟨rfl, rfl, rfl, rfl⟩) h
  refine ⟨k, hk, h2, ?_, h4⟩
  intro hne
  rcases h1 with ⟨_, _, h, _⟩ | ⟨c, ⟨_, hsp, _⟩, e1, e2, e3, _⟩
  · exact absurd h hne
  · rw [hsp, split_eq] at e1 e3
    rw [e1, e2, e3]
    exact ⟨rfl, rfl⟩

/-- C24 for the deterministic build: when an iteration replaces the retained candidate by a worse one, the
loss is at most 0.1 and the new one has more inliers; the candidate of the iteration is never better than
the one retained afterwards.  Missing: the same in the parallel build, where it is false. -/
theorem C24_turn_partial (stop i : Nat) (c : Cand M Pose) (s : Shared M Pose) :
    let s' := seqTurn stop i (some c) s
    c.sets.score ≤ s'.maxScore ∧ s.maxScore ≤ s'.maxScore + 1 / 10 ∧
      (s'.maxScore < s.maxScore → s.inliers.length < s'.inliers.length) :=
  seqTurn_close stop i c s

/-- The bound is not empty: a candidate of score 16/15 is replaced by one of score 1. -/
example : ((seqLoop demo 7 demoMatches 99 0 [shB, shA] (.init 7)).holds fun s =>
    s.maxScore == 1 && s.inliers.length == 5 &&
      (candidates demo 7 demoMatches [shB, shA]).map (·.sets.score) == [16 / 15, 1]) = true := by
  decide +kernel

/-! ### C125 -/

/-- C125: in the default build, the search is told to stop only after an iteration with index 3 or more
found that the retained set of inliers was larger than the number of inliers to stop at. -/
theorem C125_early_stop {p : Problem M Pose} {current : Pose} {l : List M} {stop n : Nat} {s : Par M Pose}
    (h : Par.Reach p current l stop n s) (hq : s.sh.canQuit = true) :
    ∃ s0 i, Par.Reach p current l stop n s0 ∧ Follows p current l stop s0 s ∧ 3 ≤ i ∧ i < n ∧
      s0.pcs[i]? = some .stopTest ∧ stop < s0.sh.inliers.length := by
  have key : ∀ s : Par M Pose, Par.Reach p current l stop n s → s.pcs.length = n ∧
      ((s.sh.canQuit = true ∨ ∃ j : Nat, s.pcs[j]? = some .setQuit) →
        ∃ s0 i, Par.Reach p current l stop n s0 ∧ Follows p current l stop s0 s ∧ 3 ≤ i ∧ i < n ∧
          s0.pcs[i]? = some .stopTest ∧ stop < s0.sh.inliers.length) := by
    intro s h
    induction h with
    | init =>
      refine ⟨by simp [Par.init], ?_⟩
      rintro (h | ⟨j, h⟩)
      · cases h
      · simp only [Par.init, List.getElem?_replicate] at h
        split at h <;> cases h
    | @step a b sh i hr hp hstep ih =>
      obtain ⟨hlen, ih⟩ := ih
      have cont : (a.sh.canQuit = true ∨ ∃ j : Nat, a.pcs[j]? = some .setQuit) →
          ∃ s0 i, Par.Reach p current l stop n s0 ∧ Follows p current l stop s0 b ∧ 3 ≤ i ∧ i < n ∧
            s0.pcs[i]? = some .stopTest ∧ stop < s0.sh.inliers.length := by
        intro h
        obtain ⟨s0, j, h1, h2, h3⟩ := ih h
        exact ⟨s0, j, h1, .step sh i h2 hp hstep, h3⟩
      have moved : ∀ {pc pc' : Pc M Pose} {q : Bool}, a.pcs[i]? = some pc → b.pcs = a.pcs.set i pc' →
          b.sh.canQuit = q → (q = true → a.sh.canQuit = true) → pc' ≠ .setQuit →
          (b.sh.canQuit = true ∨ ∃ j : Nat, b.pcs[j]? = some .setQuit) →
          (a.sh.canQuit = true ∨ ∃ j : Nat, a.pcs[j]? = some .setQuit) := by
        intro pc pc' q h1 h2 h3 h4 h5 h
        rcases h with h | ⟨j, h⟩
        · exact .inl (h4 (h3 ▸ h))
        · rw [h2] at h
          rcases set_get h1 h with ⟨_, h6⟩ | ⟨_, h6⟩
          · exact absurd h6.symm h5
          · exact .inr ⟨j, h6⟩
      have hb : ∀ pc, a.pcs[i]? = some pc → i < n := by
        intro pc hpc
        rw [← hlen]
        rcases Nat.lt_or_ge i a.pcs.length with h' | h'
        · exact h'
        · rw [List.getElem?_eq_none h'] at hpc; cases hpc
      have orig := hstep
      unfold Par.step at hstep
      simp only at hstep
      split at hstep
      · cases hstep
      · rename_i hpc
        split at hstep
        · injection hstep with e; subst e
          exact ⟨by simp [hlen], fun h => cont (moved hpc rfl rfl id (by simp) h)⟩
        · split at hstep <;> (injection hstep with e; subst e)
          · exact ⟨by simp [hlen], fun h => cont (moved hpc rfl rfl id (by simp) h)⟩
          · exact ⟨by simp [hlen], fun h => cont (moved hpc rfl rfl id (by simp) h)⟩
          · exact ⟨hlen, fun h => cont h⟩
      · rename_i c hpc
        split at hstep <;> (injection hstep with e; subst e) <;>
          exact ⟨by simp [hlen], fun h => cont (moved hpc rfl rfl id (by simp) h)⟩
      · rename_i c hpc
        split at hstep <;> (injection hstep with e; subst e) <;>
          exact ⟨by simp [hlen], fun h => cont (moved hpc rfl rfl id (by simp) h)⟩
      · rename_i c hpc
        split at hstep <;> (injection hstep with e; subst e) <;>
          exact ⟨by simp [hlen], fun h => cont (moved hpc rfl rfl id (by simp) h)⟩
      · rename_i c hpc
        split at hstep
        · cases hstep
        · injection hstep with e; subst e
          exact ⟨by simp [hlen], fun h => cont (moved hpc rfl rfl id (by simp) h)⟩
      · rename_i c hpc
        injection hstep with e; subst e
        exact ⟨by simp [hlen], fun h => cont (moved hpc rfl rfl id (by simp) h)⟩
      · rename_i c hpc
        injection hstep with e; subst e
        exact ⟨by simp [hlen], fun h => cont (moved hpc rfl rfl id (by simp) h)⟩
      · rename_i c hpc
        injection hstep with e; subst e
        exact ⟨by simp [hlen], fun h => cont (moved hpc rfl rfl id (by simp) h)⟩
      · rename_i c hpc
        injection hstep with e; subst e
        exact ⟨by simp [hlen], fun h => cont (moved hpc rfl rfl id (by simp) h)⟩
      · rename_i c hpc
        injection hstep with e; subst e
        exact ⟨by simp [hlen], fun h => cont (moved hpc rfl rfl id (by simp) h)⟩
      · rename_i hpc
        split at hstep
        · rename_i hcond
          injection hstep with e
          refine ⟨by rw [← e]; simp [hlen], fun _ => ?_⟩
          exact ⟨a, i, hr, .step sh i .refl hp orig, hcond.1, hb _ hpc, hpc, hcond.2⟩
        · injection hstep with e; subst e
          exact ⟨by simp [hlen], fun h => cont (moved hpc rfl rfl id (by simp) h)⟩
      · rename_i hpc
        injection hstep with e; subst e
        exact ⟨by simp [hlen], fun _ => cont (.inr ⟨i, hpc⟩)⟩
      · cases hstep
  exact (key s h).2 (.inl hq)

/-- C125: an iteration is given up at its beginning only when the search was told to stop, and otherwise it
evaluates a candidate. -/
theorem C125_not_skipped {p : Problem M Pose} {current : Pose} {l shuffled : List M} {stop i : Nat}
    {s s' : Par M Pose} (hp : s.pcs[i]? = some .start) (hq : s.sh.canQuit = false)
    (h : s.step p current l stop shuffled i = some s') {c : Cand M Pose}
    (hc : evaluate p current l shuffled = .ok (some c)) : s'.pcs[i]? = some (.greater c) := by
  have hi : i < s.pcs.length := by
    rcases Nat.lt_or_ge i s.pcs.length with h' | h'
    · exact h'
    · rw [List.getElem?_eq_none h'] at hp; cases hp
  unfold Par.step at h
  simp only [hp, hq, hc] at h
  injection h with h
  rw [← h]
  exact List.getElem?_set_self hi

/-- C125 for the deterministic build: the search stops before its last iteration only after four
iterations at least, with a retained set of inliers larger than the number of inliers to stop at. -/
theorem C125_sequential {p : Problem M Pose} {current : Pose} {l : List M} {stop : Nat}
    {draws : List (List M)} {s : Shared M Pose}
    (h : seqLoop p current l stop 0 draws (.init current) = .ok s) (hq : s.canQuit = true) :
    stop < s.inliers.length ∧ ∃ k ≤ draws.length, 4 ≤ k ∧
      seqLoop p current l stop 0 (draws.take k) (.init current) = .ok s := by
  have key : ∀ (draws : List (List M)) (i : Nat) (s0 s : Shared M Pose), s0.canQuit = false →
      seqLoop p current l stop i draws s0 = .ok s → s.canQuit = true →
      stop < s.inliers.length ∧ ∃ k ≤ draws.length, 4 ≤ k + i ∧
        seqLoop p current l stop i (draws.take k) s0 = .ok s := by
    intro draws
    induction draws with
    | nil =>
      intro i s0 s h0 h hq
      injection h with h; subst h
      rw [h0] at hq; cases hq
    | cons sh draws ih =>
      intro i s0 s h0 h hq
      rw [seqLoop, if_neg (by simp [h0])] at h
      obtain ⟨c, hc, h1⟩ := Outcome.bind_eq_ok h
      by_cases hstop : (seqTurn stop i c s0).canQuit = true
      · have hs : seqTurn stop i c s0 = s := by
          cases draws with
          | nil => injection h1
          | cons _ _ => rw [seqLoop, if_pos hstop] at h1; injection h1
        have hcond : minIterations ≤ i ∧ stop < (seqTurn stop i c s0).inliers.length := by
          cases c with
          | none => simp only [seqTurn] at hstop; rw [h0] at hstop; cases hstop
          | some c =>
            unfold seqTurn at hstop ⊢
            simp only at hstop ⊢
            generalize hx : (if canOverload c.sets.score s0.maxScore s0.inliers.length
              c.sets.inliers.length then _ else _ : Shared M Pose) = x at hstop ⊢
            have hxq : x.canQuit = false := by
              rw [← hx]; split <;> exact h0
            by_cases h : minIterations ≤ i ∧ stop < x.inliers.length
            · rw [if_pos h]; exact h
            · rw [if_neg h, hxq] at hstop; cases hstop
        refine ⟨hs ▸ hcond.2, 1, by simp, ?_, ?_⟩
        · have := hcond.1; unfold minIterations at this; omega
        · rw [List.take_succ_cons, List.take_zero, seqLoop, if_neg (by simp [h0]), hc, Outcome.bind_ok, seqLoop, hs]
      · obtain ⟨h2, k, hk, h3, h4⟩ := ih (i + 1) _ s (by simpa using hstop) h1 hq
        refine ⟨h2, k + 1, by simpa using hk, by omega, ?_⟩
        rw [List.take_succ_cons, seqLoop, if_neg (by simp [h0]), hc, Outcome.bind_ok, h4]
  exact key draws 0 _ s rfl h hq

/-- Non-vacuity: with two inliers to stop at, the search of the seven points stops at the fourth of six
iterations. -/
example : ((seqLoop points 9 sevenPoints 2 0 [sh5, sh5, sh5, sh7, sh5, sh5] (.init 9)).holds fun s =>
    s.canQuit && s.inliers.length == 7) = true := by decide +kernel

end RgbdSlam.Ransac
