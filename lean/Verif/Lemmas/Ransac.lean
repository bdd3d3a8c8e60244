import Verif.Spec.Ransac
/-
Lemmas on random subsets and on the consensus search.
-/
namespace RgbdSlam.Ransac

variable {M Pose : Type}

/-! ### Sums and splits -/

theorem foldl_score (f : M → Rat) : ∀ (l : List M) (a : Rat),
    l.foldl (fun acc m => acc + f m) a = a + (l.map f).sum
  | [], a => by simp [Rat.add_zero]
  | m :: l, a => by
    rw [List.foldl_cons, foldl_score f l, List.map_cons, List.sum_cons, Rat.add_assoc]

theorem setScore_eq (p : Problem M Pose) (l : List M) : setScore p l = (l.map p.score).sum := by
  rw [setScore, foldl_score, Rat.zero_add]

theorem sum_append' (a b : List Rat) : (a ++ b).sum = a.sum + b.sum := by
  induction a with
  | nil => simp [Rat.zero_add]
  | cons x a ih => simp [ih, Rat.add_assoc]

theorem sum_perm {a b : List Rat} (h : a.Perm b) : a.sum = b.sum := by
  induction h with
  | nil => rfl
  | cons x _ ih => simp [ih]
  | swap x y l => simp only [List.sum_cons]; grind
  | trans _ _ ih1 ih2 => exact ih1.trans ih2

theorem split_fold (p : Problem M Pose) (q : Pose) : ∀ (l : List M) (s : Split M),
    l.foldl (fun s m =>
      if p.inlier q m then ⟨s.inliers ++ [m], s.outliers, s.score + p.score m⟩
      else ⟨s.inliers, s.outliers ++ [m], s.score⟩) s =
    ⟨s.inliers ++ l.filter (p.inlier q), s.outliers ++ l.filter (fun m => !p.inlier q m),
      s.score + ((l.filter (p.inlier q)).map p.score).sum⟩
  | [], s => by simp [Rat.add_zero]
  | m :: l, s => by
    rw [List.foldl_cons, split_fold p q l]
    by_cases h : p.inlier q m
    · simp [h, Rat.add_assoc]
    · simp [h]

theorem split_eq (p : Problem M Pose) (q : Pose) (l : List M) :
    split p q l = ⟨l.filter (p.inlier q), l.filter (fun m => !p.inlier q m),
      ((l.filter (p.inlier q)).map p.score).sum⟩ := by
  rw [split, split_fold]
  simp [Rat.zero_add]

/-! ### Picking up to a score -/

/-- The loop stops at the first prefix that reaches the target. -/
theorem pickLoop_ok {score : M → Rat} {target : Rat} : ∀ {rest : List M} {acc : Rat} {out r : List M},
    pickLoop score target rest acc out = .ok r →
    ∃ pre a post, rest = pre ++ a :: post ∧ r = a :: (pre.reverse ++ out) ∧
      target ≤ acc + (pre.map score).sum + score a ∧
      ∀ pre' post' b, pre = pre' ++ b :: post' → acc + (pre'.map score).sum + score b < target
  | [], _, _, _, h => by cases h
  | a :: rest, acc, out, r, h => by
    rw [pickLoop] at h
    split at h
    · rename_i ht
      injection h with h
      refine ⟨[], a, rest, rfl, by simp [h.symm], by simpa [Rat.add_zero] using ht, ?_⟩
      intro pre' post' b hb
      simp at hb
    · rename_i ht
      obtain ⟨pre, b, post, h1, h2, h3, h4⟩ := pickLoop_ok h
      refine ⟨a :: pre, b, post, by simp [h1], by simp [h2], ?_, ?_⟩
      · simpa [Rat.add_assoc] using h3
      · intro pre' post' c hc
        cases pre' with
        | nil =>
          simp at hc
          rw [← hc.1]
          simpa [Rat.add_zero] using Rat.not_le.mp ht
        | cons d pre' =>
          simp at hc
          have := h4 pre' post' c hc.2
          rw [← hc.1]
          simpa [Rat.add_assoc] using this

theorem pickLoop_throws {score : M → Rat} {target : Rat} : ∀ {rest : List M} {acc : Rat} {out : List M},
    (∀ r, pickLoop score target rest acc out ≠ .ok r) →
    pickLoop score target rest acc out = .throws ∧
      ∀ pre a post, rest = pre ++ a :: post → acc + (pre.map score).sum + score a < target
  | [], _, _, _ => ⟨rfl, fun pre a post h => by simp at h⟩
  | a :: rest, acc, out, h => by
    rw [pickLoop] at h ⊢
    split at h
    · exact absurd rfl (h _)
    · rename_i ht
      rw [if_neg ht]
      obtain ⟨h1, h2⟩ := pickLoop_throws h
      refine ⟨h1, ?_⟩
      intro pre b post hb
      cases pre with
      | nil =>
        simp at hb
        rw [← hb.1]
        simpa [Rat.add_zero] using Rat.not_le.mp ht
      | cons c pre =>
        simp at hb
        have := h2 pre b post hb.2
        rw [← hb.1]
        simpa [Rat.add_assoc] using this

/-- With enough score in total the loop succeeds. -/
theorem pickLoop_enough {score : M → Rat} {target : Rat} {l : List M} (hne : l ≠ [])
    (h : target ≤ (l.map score).sum) : ∃ r, pickLoop score target l 0 [] = .ok r := by
  apply Classical.byContradiction
  intro hno
  have hno' : ∀ r, pickLoop score target l 0 [] ≠ .ok r := fun r hr => hno ⟨r, hr⟩
  obtain ⟨_, h2⟩ := pickLoop_throws hno'
  obtain hl | ⟨pre, a, hl⟩ := List.eq_nil_or_concat l
  · exact hne hl
  · rw [List.concat_eq_append] at hl
    have := h2 pre a [] hl
    rw [hl, List.map_append, sum_append'] at h
    simp only [List.map_cons, List.map_nil, List.sum_cons, List.sum_nil] at h
    grind

theorem reverse_sum (score : M → Rat) (l : List M) : (l.reverse.map score).sum = (l.map score).sum :=
  sum_perm ((List.reverse_perm l).map score)

theorem DrawnFrom.perm {s l l' : List M} (h : DrawnFrom s l) (hp : l.Perm l') : DrawnFrom s l' := by
  obtain ⟨t, h1, h2⟩ := h
  obtain ⟨u, h3, h4⟩ := List.exists_perm_sublist h2 hp
  exact ⟨u, h1.trans h3.symm, h4⟩

/-! ### One iteration -/

/-- A draw never throws when the total score is at least one. -/
theorem randomSubset_ok {p : Problem M Pose} {l sh : List M} (hs : 1 ≤ (l.map p.score).sum)
    (hp : sh.Perm l) : ∃ s, randomSubset p sh = .ok s ∧ DrawnFrom s l ∧ 1 ≤ (s.map p.score).sum := by
  have hsum : (sh.map p.score).sum = (l.map p.score).sum := sum_perm (hp.map _)
  have hne : sh ≠ [] := by
    intro h
    rw [← hsum, h] at hs
    simp only [List.map_nil, List.sum_nil] at hs
    exact absurd hs (by decide)
  obtain ⟨r, hr⟩ := pickLoop_enough hne (score := p.score) (target := 1) (by rw [hsum]; exact hs)
  obtain ⟨pre, a, post, h1, h2, h3, _⟩ := pickLoop_ok hr
  have hr1 : 1 ≤ (r.map p.score).sum := by
    rw [h2]
    simp only [List.append_nil, List.map_cons, List.sum_cons, reverse_sum]
    grind
  refine ⟨r, ?_, ?_, hr1⟩
  · rw [randomSubset, subsetScore, hr, Outcome.bind_ok, setScore_eq, if_neg (Rat.not_lt.mpr hr1)]
  · have h5 : r.Perm (pre ++ [a]) := by
      rw [h2, List.append_nil]
      exact (List.Perm.cons a (List.reverse_perm pre)).trans
        (List.perm_append_comm (l₁ := [a]) (l₂ := pre))
    have h6 : (pre ++ [a]).Sublist sh := by
      rw [h1]
      exact List.Sublist.append (List.Sublist.refl _) (List.Sublist.cons_cons a (List.nil_sublist _))
    exact DrawnFrom.perm ⟨_, h5, h6⟩ hp

theorem globalPose_some {p : Problem M Pose} {q r : Pose} {l : List M} (h : globalPose p q l = some r) :
    p.minimise q l = some r ∧ 1 ≤ (l.map p.score).sum := by
  unfold globalPose at h
  split at h
  · cases h
  · split at h
    · cases h
    · rename_i h2
      rw [setScore_eq] at h2
      exact ⟨h, Rat.not_lt.mp h2⟩

/-- A candidate: the optimised pose of a subset of score one at least, with the split of the matches by
this pose, whose inliers have a score of one at least. -/
def IsCand (p : Problem M Pose) (current : Pose) (l : List M) (c : Cand M Pose) : Prop :=
  (∃ s, DrawnFrom s l ∧ 1 ≤ (s.map p.score).sum ∧ p.minimise current s = some c.pose) ∧
    c.sets = split p c.pose l ∧ 1 ≤ c.sets.score

theorem evaluate_ok {p : Problem M Pose} {current : Pose} {l sh : List M}
    (hs : 1 ≤ (l.map p.score).sum) (hp : sh.Perm l) :
    ∃ r, evaluate p current l sh = .ok r ∧ ∀ c, r = some c → IsCand p current l c := by
  obtain ⟨s, h1, h2, h3⟩ := randomSubset_ok hs hp
  unfold evaluate
  rw [h1, Outcome.bind_ok]
  split
  · exact ⟨none, rfl, fun c hc => by cases hc⟩
  · rename_i q hq
    simp only
    split
    · exact ⟨none, rfl, fun c hc => by cases hc⟩
    · rename_i hsc
      refine ⟨_, rfl, ?_⟩
      intro c hc
      injection hc with hc
      subst hc
      exact ⟨⟨s, h2, h3, (globalPose_some hq).1⟩, rfl, Rat.not_lt.mp hsc⟩

/-! ### The parallel loop -/

def crit : Pc M Pose → Bool
  | .writeScore _ | .writePose _ | .writeInliers _ | .writeOutliers _ | .unlock _ => true
  | _ => false

def candOf : Pc M Pose → Option (Cand M Pose)
  | .greater c | .close c | .larger c | .lock c | .writeScore c | .writePose c | .writeInliers c
  | .writeOutliers c | .unlock c => some c
  | _ => none

/-- The shared variables hold the initial values or one candidate. -/
def Cons (p : Problem M Pose) (current : Pose) (l : List M) (sh : Shared M Pose) : Prop :=
  (sh.maxScore = 1 ∧ sh.bestPose = current ∧ sh.inliers = [] ∧ sh.outliers = []) ∨
  ∃ c, IsCand p current l c ∧ sh.maxScore = c.sets.score ∧ sh.bestPose = c.pose ∧
    sh.inliers = c.sets.inliers ∧ sh.outliers = c.sets.outliers

/-- What the holder of the lock has written. -/
def Pending (sh : Shared M Pose) : Pc M Pose → Prop
  | .writePose c => sh.maxScore = c.sets.score
  | .writeInliers c => sh.maxScore = c.sets.score ∧ sh.bestPose = c.pose
  | .writeOutliers c => sh.maxScore = c.sets.score ∧ sh.bestPose = c.pose ∧ sh.inliers = c.sets.inliers
  | .unlock c => sh.maxScore = c.sets.score ∧ sh.bestPose = c.pose ∧ sh.inliers = c.sets.inliers ∧
      sh.outliers = c.sets.outliers
  | _ => True

structure Inv (p : Problem M Pose) (current : Pose) (l : List M) (n : Nat) (s : Par M Pose) : Prop where
  len : s.pcs.length = n
  live : s.terminated = false
  cands : ∀ pc ∈ s.pcs, ∀ c, candOf pc = some c → IsCand p current l c
  hold : ∀ i pc, s.pcs[i]? = some pc → (crit pc = true ↔ s.holder = some i)
  bound : ∀ i, s.holder = some i → i < s.pcs.length
  free : s.holder = none → Cons p current l s.sh
  pend : ∀ i pc, s.holder = some i → s.pcs[i]? = some pc → Pending s.sh pc

theorem inv_init (p : Problem M Pose) (current : Pose) (l : List M) (n : Nat) :
    Inv p current l n (.init current n) where
  len := by simp [Par.init]
  live := rfl
  cands := by
    intro pc hpc c hc
    rw [Par.init] at hpc
    rw [(List.mem_replicate.mp hpc).2] at hc
    cases hc
  hold := by
    intro i pc h
    simp only [Par.init, List.getElem?_replicate] at h
    split at h
    · injection h with h; subst h; simp [crit, Par.init]
    · cases h
  bound := by intro i h; cases h
  free := fun _ => .inl ⟨rfl, rfl, rfl, rfl⟩
  pend := by intro i pc h; cases h

theorem set_get {l : List (Pc M Pose)} {i j : Nat} {a b c : Pc M Pose} (h : l[i]? = some a)
    (hj : (l.set i b)[j]? = some c) : (j = i ∧ c = b) ∨ (j ≠ i ∧ l[j]? = some c) := by
  have hi : i < l.length := by
    rcases Nat.lt_or_ge i l.length with h' | h'
    · exact h'
    · rw [List.getElem?_eq_none h'] at h; cases h
  by_cases hji : j = i
  · subst hji
    rw [List.getElem?_set_self hi] at hj
    exact .inl ⟨rfl, (Option.some.inj hj).symm⟩
  · rw [List.getElem?_set_ne (Ne.symm hji)] at hj
    exact .inr ⟨hji, hj⟩

/-- A step of an iteration outside the critical section that keeps the four variables. -/
theorem inv_move {p : Problem M Pose} {current : Pose} {l : List M} {n i : Nat} {s : Par M Pose}
    {pc pc' : Pc M Pose} {sh' : Shared M Pose} (hI : Inv p current l n s) (hpc : s.pcs[i]? = some pc)
    (h1 : crit pc = false) (h2 : crit pc' = false)
    (h3 : ∀ c, candOf pc' = some c → IsCand p current l c)
    (h4 : sh'.maxScore = s.sh.maxScore) (h5 : sh'.bestPose = s.sh.bestPose)
    (h6 : sh'.inliers = s.sh.inliers) (h7 : sh'.outliers = s.sh.outliers) :
    Inv p current l n { s with sh := sh', pcs := s.pcs.set i pc' } where
  len := by simp [hI.len]
  live := hI.live
  cands := by
    intro q hq c hc
    rcases List.mem_or_eq_of_mem_set hq with h | h
    · exact hI.cands q h c hc
    · subst h; exact h3 c hc
  hold := by
    intro j q hq
    rcases set_get hpc hq with ⟨rfl, rfl⟩ | ⟨_, h⟩
    · have := hI.hold j pc hpc
      rw [h1] at this
      rw [h2]
      exact this
    · exact hI.hold j q h
  bound := by intro j hj; simpa using hI.bound j hj
  free := by
    intro h
    have := hI.free h
    simp only [Cons, h4, h5, h6, h7] at this ⊢
    exact this
  pend := by
    intro j q hj hq
    rcases set_get hpc hq with ⟨rfl, rfl⟩ | ⟨_, h⟩
    · have := (hI.hold j pc hpc).mpr hj
      rw [h1] at this; cases this
    · have := hI.pend j q hj h
      cases q <;> simp only [Pending, h4, h5, h6, h7] at this ⊢ <;> exact this

/-- A step inside the critical section. -/
theorem inv_write {p : Problem M Pose} {current : Pose} {l : List M} {n i : Nat} {s : Par M Pose}
    {pc pc' : Pc M Pose} {sh' : Shared M Pose} (hI : Inv p current l n s) (hpc : s.pcs[i]? = some pc)
    (h1 : crit pc = true) (h2 : crit pc' = true) (h3 : candOf pc' = candOf pc)
    (h4 : Pending sh' pc') :
    Inv p current l n { s with sh := sh', pcs := s.pcs.set i pc' } where
  len := by simp [hI.len]
  live := hI.live
  cands := by
    intro q hq c hc
    rcases List.mem_or_eq_of_mem_set hq with h | h
    · exact hI.cands q h c hc
    · subst h
      rw [h3] at hc
      exact hI.cands pc (List.mem_of_getElem? hpc) c hc
  hold := by
    intro j q hq
    rcases set_get hpc hq with ⟨rfl, rfl⟩ | ⟨_, h⟩
    · have := hI.hold j pc hpc
      rw [h1] at this
      rw [h2]
      exact this
    · exact hI.hold j q h
  bound := by intro j hj; simpa using hI.bound j hj
  free := by
    intro h
    have := (hI.hold i pc hpc).mp h1
    simp only at h
    rw [h] at this; cases this
  pend := by
    intro j q hj hq
    rcases set_get hpc hq with ⟨rfl, rfl⟩ | ⟨hne, _⟩
    · exact h4
    · have := (hI.hold i pc hpc).mp h1
      simp only at hj
      rw [this] at hj
      exact absurd (Option.some.inj hj).symm hne

theorem inv_step {p : Problem M Pose} {current : Pose} {l shuffled : List M} {stop n i : Nat}
    {s s' : Par M Pose} (hs : 1 ≤ (l.map p.score).sum) (hperm : shuffled.Perm l)
    (hI : Inv p current l n s) (h : s.step p current l stop shuffled i = some s') :
    Inv p current l n s' := by
  unfold Par.step at h
  simp only at h
  split at h
  · cases h
  · rename_i hpc
    split at h
    · injection h with h; subst h
      exact inv_move hI hpc rfl rfl (fun c hc => by cases hc) rfl rfl rfl rfl
    · obtain ⟨r, hr, hc⟩ := evaluate_ok (p := p) (current := current) hs hperm
      rw [hr] at h
      cases r with
      | none =>
        injection h with h; subst h
        exact inv_move hI hpc rfl rfl (fun c hc => by cases hc) rfl rfl rfl rfl
      | some c =>
        injection h with h; subst h
        refine inv_move hI hpc rfl rfl (fun d hd => ?_) rfl rfl rfl rfl
        injection hd with hd; subst hd
        exact hc c rfl
  · rename_i c hpc
    have hcand := hI.cands _ (List.mem_of_getElem? hpc) c rfl
    split at h <;> (injection h with h; subst h)
    all_goals
      refine inv_move hI hpc rfl rfl (fun d hd => ?_) rfl rfl rfl rfl
      injection hd with hd; subst hd; exact hcand
  · rename_i c hpc
    have hcand := hI.cands _ (List.mem_of_getElem? hpc) c rfl
    split at h <;> (injection h with h; subst h)
    · refine inv_move hI hpc rfl rfl (fun d hd => ?_) rfl rfl rfl rfl
      injection hd with hd; subst hd; exact hcand
    · exact inv_move hI hpc rfl rfl (fun c hc => by cases hc) rfl rfl rfl rfl
  · rename_i c hpc
    have hcand := hI.cands _ (List.mem_of_getElem? hpc) c rfl
    split at h <;> (injection h with h; subst h)
    · refine inv_move hI hpc rfl rfl (fun d hd => ?_) rfl rfl rfl rfl
      injection hd with hd; subst hd; exact hcand
    · exact inv_move hI hpc rfl rfl (fun c hc => by cases hc) rfl rfl rfl rfl
  · rename_i c hpc
    have hcand := hI.cands _ (List.mem_of_getElem? hpc) c rfl
    split at h
    · cases h
    · rename_i hfree
      have hnone : s.holder = none := by simpa using hfree
      injection h with h; subst h
      have hlt : i < s.pcs.length := by
        rcases Nat.lt_or_ge i s.pcs.length with h' | h'
        · exact h'
        · rw [List.getElem?_eq_none h'] at hpc; cases hpc
      exact {
        len := by simp [hI.len]
        live := hI.live
        cands := by
          intro q hq d hd
          rcases List.mem_or_eq_of_mem_set hq with h | h
          · exact hI.cands q h d hd
          · subst h; injection hd with hd; subst hd; exact hcand
        hold := by
          intro j q hq
          rcases set_get hpc hq with ⟨rfl, rfl⟩ | ⟨hne, h⟩
          · simp [crit]
          · have := hI.hold j q h
            rw [hnone] at this
            simp only [this, Option.some.injEq]
            constructor
            · intro h; cases h
            · intro h; exact absurd h.symm hne
        bound := by intro j hj; injection hj with hj; subst hj; simpa using hlt
        free := by intro h; cases h
        pend := by
          intro j q hj hq
          injection hj with hj; subst hj
          rcases set_get hpc hq with ⟨_, rfl⟩ | ⟨hne, _⟩
          · trivial
          · exact absurd rfl hne }
  · rename_i c hpc
    injection h with h; subst h
    exact inv_write hI hpc rfl rfl rfl rfl
  · rename_i c hpc
    injection h with h; subst h
    have hh := (hI.hold i _ hpc).mp rfl
    exact inv_write hI hpc rfl rfl rfl ⟨hI.pend i _ hh hpc, rfl⟩
  · rename_i c hpc
    injection h with h; subst h
    have hh := (hI.hold i _ hpc).mp rfl
    have := hI.pend i _ hh hpc
    exact inv_write hI hpc rfl rfl rfl ⟨this.1, this.2, rfl⟩
  · rename_i c hpc
    injection h with h; subst h
    have hh := (hI.hold i _ hpc).mp rfl
    have := hI.pend i _ hh hpc
    exact inv_write hI hpc rfl rfl rfl ⟨this.1, this.2.1, this.2.2, rfl⟩
  · rename_i c hpc
    injection h with h; subst h
    have hh := (hI.hold i _ hpc).mp rfl
    have hcand := hI.cands _ (List.mem_of_getElem? hpc) c rfl
    have hp := hI.pend i _ hh hpc
    exact {
      len := by simp [hI.len]
      live := hI.live
      cands := by
        intro q hq d hd
        rcases List.mem_or_eq_of_mem_set hq with h | h
        · exact hI.cands q h d hd
        · subst h; cases hd
      hold := by
        intro j q hq
        rcases set_get hpc hq with ⟨rfl, rfl⟩ | ⟨hne, h⟩
        · simp [crit]
        · have := hI.hold j q h
          rw [hh] at this
          constructor
          · intro hc
            exact absurd (Option.some.inj (this.mp hc)).symm hne
          · intro h; cases h
      bound := by intro j hj; cases hj
      free := fun _ => .inr ⟨c, hcand, hp⟩
      pend := by intro j q hj; cases hj }
  · rename_i hpc
    split at h <;> (injection h with h; subst h)
    all_goals exact inv_move hI hpc rfl rfl (fun c hc => by cases hc) rfl rfl rfl rfl
  · rename_i hpc
    injection h with h; subst h
    exact inv_move hI hpc rfl rfl (fun c hc => by cases hc) rfl rfl rfl rfl
  · cases h

theorem inv_reach {p : Problem M Pose} {current : Pose} {l : List M} {stop n : Nat} {s : Par M Pose}
    (hs : 1 ≤ (l.map p.score).sum) (h : Par.Reach p current l stop n s) : Inv p current l n s := by
  induction h with
  | init => exact inv_init p current l n
  | step sh i _ hp hstep ih => exact inv_step hs hp ih hstep

theorem finished_cons {p : Problem M Pose} {current : Pose} {l : List M} {n : Nat} {s : Par M Pose}
    (hI : Inv p current l n s) (hf : s.finished) : Cons p current l s.sh := by
  apply hI.free
  cases hh : s.holder with
  | none => rfl
  | some i =>
    have hlt := hI.bound i hh
    have hget : s.pcs[i]? = some s.pcs[i] := List.getElem?_eq_getElem hlt
    have := (hI.hold i _ hget).mpr hh
    rw [hf _ (List.getElem_mem hlt)] at this
    cases this

/-! ### Progress -/

/-- Steps left. -/
def rank : Pc M Pose → Nat
  | .start => 12
  | .greater _ => 11
  | .close _ => 10
  | .larger _ => 9
  | .lock _ => 8
  | .writeScore _ => 7
  | .writePose _ => 6
  | .writeInliers _ => 5
  | .writeOutliers _ => 4
  | .unlock _ => 3
  | .stopTest => 2
  | .setQuit => 1
  | .done => 0

def measure (s : Par M Pose) : Nat := (s.pcs.map rank).sum

theorem sum_set_lt : ∀ {l : List (Pc M Pose)} {i : Nat} {a b : Pc M Pose}, l[i]? = some a →
    rank b < rank a → ((l.set i b).map rank).sum < (l.map rank).sum
  | [], i, a, b, h, _ => by simp at h
  | c :: l, 0, a, b, h, hr => by
    simp at h; subst h; simp; exact hr
  | c :: l, i + 1, a, b, h, hr => by
    simp at h
    have := sum_set_lt h hr
    simp only [List.set_cons_succ, List.map_cons, List.sum_cons]
    omega

theorem step_measure {p : Problem M Pose} {current : Pose} {l shuffled : List M} {stop i : Nat}
    {s s' : Par M Pose} (hs : 1 ≤ (l.map p.score).sum) (hperm : shuffled.Perm l)
    (h : s.step p current l stop shuffled i = some s') : measure s' < measure s := by
  unfold Par.step at h
  simp only at h
  split at h
  · cases h
  · rename_i hpc
    split at h
    · injection h with h; subst h
      exact sum_set_lt hpc (by simp [rank])
    · obtain ⟨r, hr, hc⟩ := evaluate_ok (p := p) (current := current) hs hperm
      rw [hr] at h
      cases r with
      | none => injection h with h; subst h; exact sum_set_lt hpc (by simp [rank])
      | some c => injection h with h; subst h; exact sum_set_lt hpc (by simp [rank])
  all_goals (rename_i hpc)
  all_goals (try split at h)
  all_goals first
    | (injection h with h; subst h; exact sum_set_lt hpc (by simp [rank]))
    | cases h

/-- An iteration that is not finished can make a step, unless it waits for the lock. -/
theorem step_possible {p : Problem M Pose} {current : Pose} {l shuffled : List M} {stop i : Nat}
    {s : Par M Pose} {pc : Pc M Pose} (hpc : s.pcs[i]? = some pc) (hd : pc ≠ .done)
    (hl : (∃ c, pc = .lock c) → s.holder = none) :
    ∃ s', s.step p current l stop shuffled i = some s' := by
  unfold Par.step
  rw [hpc]
  cases pc with
  | start =>
    simp only
    split
    · exact ⟨_, rfl⟩
    · cases evaluate p current l shuffled with
      | ok r => cases r <;> exact ⟨_, rfl⟩
      | _ => exact ⟨_, rfl⟩
  | lock c =>
    simp only
    rw [hl ⟨c, rfl⟩]
    exact ⟨_, rfl⟩
  | done => exact absurd rfl hd
  | greater c => simp only; split <;> exact ⟨_, rfl⟩
  | close c => simp only; split <;> exact ⟨_, rfl⟩
  | larger c => simp only; split <;> exact ⟨_, rfl⟩
  | stopTest => simp only; split <;> exact ⟨_, rfl⟩
  | _ => exact ⟨_, rfl⟩

/-- A schedule: shuffle and iteration number of each step. -/
def Par.runSchedule (p : Problem M Pose) (current : Pose) (l : List M) (stop : Nat) :
    List (List M × Nat) → Par M Pose → Option (Par M Pose)
  | [], s => some s
  | (sh, i) :: rest, s =>
    (s.step p current l stop sh i).bind (Par.runSchedule p current l stop rest)

theorem reach_schedule {p : Problem M Pose} {current : Pose} {l : List M} {stop n : Nat} :
    ∀ {sched : List (List M × Nat)} {s s' : Par M Pose}, Par.Reach p current l stop n s →
      (∀ e ∈ sched, e.1.Perm l) → Par.runSchedule p current l stop sched s = some s' →
      Par.Reach p current l stop n s'
  | [], s, s', hr, _, h => by injection h with h; subst h; exact hr
  | (sh, i) :: rest, s, s', hr, hp, h => by
    rw [Par.runSchedule] at h
    cases hst : s.step p current l stop sh i with
    | none => rw [hst] at h; cases h
    | some s1 =>
      rw [hst] at h
      exact reach_schedule (.step sh i hr (hp _ List.mem_cons_self) hst)
        (fun e he => hp e (List.mem_cons_of_mem _ he)) h

end RgbdSlam.Ransac
