import Verif.Lemmas.FeatureMap
/-
The invariant of every history of a feature map.
-/
namespace RgbdSlam.Map

variable {P D Env : Type}

structure Inv (s : State P) : Prop where
  alloc : s.alloc.Ok
  keyedL : Keyed s.map.localMap
  keyedS : Keyed s.map.staged
  nodup : (keys s.map.localMap ++ keys s.map.staged).Nodup
  range : ∀ x ∈ keys s.map.localMap ++ keys s.map.staged, 1 ≤ x ∧ x ≤ s.alloc.given
  wnodup : (s.written.map (·.id)).Nodup
  wfresh : ∀ x ∈ s.written.map (·.id), x ∉ keys s.map.localMap ++ keys s.map.staged
  wrange : ∀ x ∈ s.written.map (·.id), 1 ≤ x ∧ x ≤ s.alloc.given

theorem inv_init : Inv (State.init Alloc.start : State P) where
  alloc := Alloc.ok_start
  keyedL := keyed_nil
  keyedS := keyed_nil
  nodup := by simp [State.init, FMap.empty]
  range := by simp [State.init, FMap.empty]
  wnodup := by simp [State.init]
  wfresh := by simp [State.init]
  wrange := by simp [State.init]

/-- Same allocator, nothing written, keys only removed: the invariant stays. -/
theorem inv_shrink {s s' : State P} (h : Inv s) (ha : s'.alloc = s.alloc)
    (hw : s'.written = s.written)
    (kl : Keyed s'.map.localMap) (ks : Keyed s'.map.staged)
    (hl : (keys s'.map.localMap).Sublist (keys s.map.localMap))
    (hs : (keys s'.map.staged).Sublist (keys s.map.staged)) : Inv s' := by
  have hsub := hl.append hs
  exact
    { alloc := ha ▸ h.alloc
      keyedL := kl
      keyedS := ks
      nodup := h.nodup.sublist hsub
      range := fun x hx => ha ▸ h.range x (hsub.subset hx)
      wnodup := hw ▸ h.wnodup
      wfresh := fun x hx hc => h.wfresh x (hw ▸ hx) (hsub.subset hc)
      wrange := fun x hx => ha ▸ h.wrange x (hw ▸ hx) }

theorem inv_core {s s' : State P} (h : Inv s) (ha : s'.alloc = s.alloc)
    (hw : s'.written = s.written)
    (hl : s'.map.localMap.map core = s.map.localMap.map core)
    (hs : s'.map.staged.map core = s.map.staged.map core) : Inv s' :=
  inv_shrink h ha hw (keyed_of_core hl h.keyedL) (keyed_of_core hs h.keyedS)
    (by rw [keys_of_core hl]; exact List.Sublist.refl _)
    (by rw [keys_of_core hs]; exact List.Sublist.refl _)

theorem keys_eq_ids {l : Store P} (h : Keyed l) : keys l = l.map (·.2.id) :=
  List.map_congr_left fun p hp => h p hp

theorem inv_updateMap {k : Kind P D Env} {fuel : Nat} {env : Env} {det : List D} {s s' : State P}
    {used : List Nat} (h : Inv s) (hr : updateMap k fuel env det s = .ok (s', used)) :
    Inv s' ∧ s'.alloc = s.alloc := by
  unfold updateMap at hr
  split at hr
  · simp only [Outcome.ok.injEq, Prod.mk.injEq] at hr
    obtain ⟨rfl, -⟩ := hr
    exact ⟨h, rfl⟩
  · split at hr
    · simp at hr
    · obtain ⟨⟨loc, used1, wr⟩, h1, hr⟩ := Outcome.bind_eq_ok hr
      obtain ⟨⟨stg, loc', used2⟩, h2, hr⟩ := Outcome.bind_eq_ok hr
      simp only [Outcome.ok.injEq, Prod.mk.injEq] at hr
      obtain ⟨rfl, -⟩ := hr
      obtain ⟨a1, a2, a3, a4⟩ := updateLocal_sub h1
      have hnd := h.nodup
      rw [List.nodup_append] at hnd
      have hn2 : (keys s.map.staged ++ keys loc).Nodup := by
        rw [List.nodup_append]
        refine ⟨hnd.2.1, hnd.1.sublist a1, ?_⟩
        intro x hx y hy hxy
        exact hnd.2.2 y (a1.subset hy) x hx hxy.symm
      obtain ⟨b1, b2, b3, b4, b5, b6⟩ := updateStaged_sub h2 h.keyedS (a2 h.keyedL) hn2
      have hwid : wr.map (·.id) = wr.map (·.id) := rfl
      have hwsub : (wr.map (·.id)).Sublist (keys s.map.localMap) := by
        rw [keys_eq_ids h.keyedL]; exact a3
      have hall : ∀ x ∈ keys loc' ++ keys stg, x ∈ keys s.map.localMap ++ keys s.map.staged := by
        intro x hx
        rcases List.mem_append.1 hx with hx | hx
        · rcases b5 x hx with hx | hx
          · exact List.mem_append.2 (.inr hx)
          · exact List.mem_append.2 (.inl (a1.subset hx))
        · exact List.mem_append.2 (.inr (b1.subset hx))
      refine ⟨⟨h.alloc, b3, b2, ?_, fun x hx => h.range x (hall x hx), ?_, ?_, ?_⟩, rfl⟩
      · exact (List.perm_append_comm.nodup_iff).1 b4
      · simp only [List.map_append]
        rw [List.nodup_append]
        refine ⟨h.wnodup, hnd.1.sublist hwsub, ?_⟩
        intro x hx y hy hxy
        subst hxy
        exact h.wfresh x hx (List.mem_append.2 (.inl (hwsub.subset hy)))
      · intro x hx
        simp only [List.map_append, List.mem_append] at hx
        rcases hx with hx | hx
        · intro hc; exact h.wfresh x hx (hall x hc)
        · intro hc
          rcases List.mem_append.1 hc with hc | hc
          · rcases b5 x hc with hc | hc
            · exact hnd.2.2 x (hwsub.subset hx) x hc rfl
            · exact a4 h.keyedL hnd.1 x hx hc
          · exact hnd.2.2 x (hwsub.subset hx) x (b1.subset hc) rfl
      · intro x hx
        simp only [List.map_append, List.mem_append] at hx
        rcases hx with hx | hx
        · exact h.wrange x hx
        · exact h.range x (List.mem_append.2 (.inl (hwsub.subset hx)))

theorem inv_noTracking (k : Kind P D Env) {s : State P} (h : Inv s) :
    Inv (updateNoTracking k s) ∧ (updateNoTracking k s).alloc = s.alloc := by
  unfold updateNoTracking
  split
  · exact ⟨h, rfl⟩
  · refine ⟨?_, rfl⟩
    obtain ⟨a1, a2, a3, a4⟩ := missLocal_sub k s.map.localMap
    obtain ⟨b1, b2⟩ := missStaged_sub k s.map.staged
    have hnd := h.nodup
    rw [List.nodup_append] at hnd
    have hsub := a1.append b1
    have hwsub : ((missLocal k s.map.localMap).2.map (·.id)).Sublist (keys s.map.localMap) := by
      rw [keys_eq_ids h.keyedL]; exact a3
    refine ⟨h.alloc, a2 h.keyedL, b2 h.keyedS, h.nodup.sublist hsub,
      fun x hx => h.range x (hsub.subset hx), ?_, ?_, ?_⟩
    · simp only [List.map_append]
      rw [List.nodup_append]
      refine ⟨h.wnodup, hnd.1.sublist hwsub, ?_⟩
      intro x hx y hy hxy
      subst hxy
      exact h.wfresh x hx (List.mem_append.2 (.inl (hwsub.subset hy)))
    · intro x hx
      simp only [List.map_append, List.mem_append] at hx
      rcases hx with hx | hx
      · intro hc; exact h.wfresh x hx (hsub.subset hc)
      · intro hc
        rcases List.mem_append.1 hc with hc | hc
        · exact a4 h.keyedL hnd.1 x hx hc
        · exact hnd.2.2 x (hwsub.subset hx) x (b1.subset hc) rfl
    · intro x hx
      simp only [List.map_append, List.mem_append] at hx
      rcases hx with hx | hx
      · exact h.wrange x hx
      · exact h.range x (List.mem_append.2 (.inl (hwsub.subset hx)))

theorem inv_alloc {s : State P} (h : Inv s) {a : Alloc} (ha : a.Ok)
    (hg : s.alloc.given ≤ a.given) : Inv { s with alloc := a } :=
  { alloc := ha, keyedL := h.keyedL, keyedS := h.keyedS, nodup := h.nodup,
    range := fun x hx => ⟨(h.range x hx).1, Nat.le_trans (h.range x hx).2 hg⟩,
    wnodup := h.wnodup, wfresh := h.wfresh,
    wrange := fun x hx => ⟨(h.wrange x hx).1, Nat.le_trans (h.wrange x hx).2 hg⟩ }

/-- Adding a feature under a new id. -/
theorem fresh_not_mem {s : State P} (h : Inv s) (hlt : s.alloc.given + 1 < 2 ^ 64) :
    s.alloc.next.last = s.alloc.given + 1 ∧
    s.alloc.next.last ∉ keys s.map.localMap ++ keys s.map.staged ∧
    s.alloc.next.last ∉ s.written.map (·.id) := by
  have hl : s.alloc.last = s.alloc.given := h.alloc (by omega)
  have hn : s.alloc.next.last = s.alloc.given + 1 := by
    rw [alloc_next_last (by omega), hl]
  refine ⟨hn, fun hc => ?_, fun hc => ?_⟩
  · have := (h.range _ hc).2; omega
  · have := (h.wrange _ hc).2; omega

theorem inv_stageOne (k : Kind P D Env) (env : Env) (d : D) {s : State P} (h : Inv s)
    (hlt : (stageOne k env d s).alloc.given < 2 ^ 64) : Inv (stageOne k env d s) := by
  unfold stageOne at hlt ⊢
  split
  · rename_i hc
    simp only [hc, if_true] at hlt
    split
    · rename_i body hb
      simp only [hb, Alloc.given_next] at hlt
      obtain ⟨hn, hm, hw⟩ := fresh_not_mem h hlt
      have hm2 := hm
      simp only [List.mem_append, not_or] at hm2
      dsimp only
      rw [emplace_of_not_mem hm2.2]
      have hall : ∀ x ∈ keys s.map.localMap ++ keys (s.map.staged ++
          [(s.alloc.next.last, (⟨s.alloc.next.last, 0, 0, [], body⟩ : Feat P))]),
          x = s.alloc.next.last ∨ x ∈ keys s.map.localMap ++ keys s.map.staged := by
        intro x hx
        simp only [keys_append, keys_cons, keys_nil, List.mem_append, List.mem_singleton] at hx ⊢
        rcases hx with hx | hx | hx
        · exact .inr (.inl hx)
        · exact .inr (.inr hx)
        · exact .inl hx
      refine ⟨Alloc.ok_next h.alloc, h.keyedL, ?_, ?_, ?_, h.wnodup, ?_, ?_⟩
      · simp only [keyed_append, keyed_cons, keyed_nil, and_true]; exact h.keyedS
      · simp only [keys_append, keys_cons, keys_nil]
        rw [← List.append_assoc, List.nodup_append]
        refine ⟨h.nodup, by simp, ?_⟩
        intro x hx y hy hxy
        simp only [List.mem_singleton] at hy
        subst hxy hy
        exact hm hx
      · intro x hx
        rcases hall x hx with rfl | hx
        · rw [hn]; exact ⟨by omega, by simp [Alloc.given_next]⟩
        · have := h.range x hx
          exact ⟨this.1, by simp only [Alloc.given_next]; omega⟩
      · intro x hx hc
        rcases hall x hc with rfl | hc
        · exact hw hx
        · exact h.wfresh x hx hc
      · intro x hx
        have := h.wrange x hx
        exact ⟨this.1, by simp only [Alloc.given_next]; omega⟩
    · split
      · exact inv_alloc h (Alloc.ok_next h.alloc) (by simp [Alloc.given_next])
      · exact h
  · exact h

theorem given_stageOne (k : Kind P D Env) (env : Env) (d : D) (s : State P) :
    s.alloc.given ≤ (stageOne k env d s).alloc.given := by
  unfold stageOne
  repeat' split
  all_goals simp [Alloc.given_next]

theorem given_stageFrom (k : Kind P D Env) (env : Env) (used : List Nat) (i : Nat) (ds : List D)
    (s : State P) : s.alloc.given ≤ (stageFrom k env used i ds s).alloc.given := by
  induction ds generalizing i s with
  | nil => simp [stageFrom]
  | cons d ds ih =>
    simp only [stageFrom]
    split
    · exact ih _ _
    · exact Nat.le_trans (given_stageOne k env d s) (ih _ _)

theorem inv_stageFrom (k : Kind P D Env) (env : Env) (used : List Nat) (i : Nat) (ds : List D)
    {s : State P} (h : Inv s) (hlt : (stageFrom k env used i ds s).alloc.given < 2 ^ 64) :
    Inv (stageFrom k env used i ds s) := by
  induction ds generalizing i s with
  | nil => simpa [stageFrom] using h
  | cons d ds ih =>
    simp only [stageFrom] at hlt ⊢
    split
    · rename_i hc
      simp only [hc, if_true] at hlt
      exact ih _ h hlt
    · rename_i hc
      rw [if_neg hc] at hlt
      exact ih _ (inv_stageOne k env d h (Nat.lt_of_le_of_lt (given_stageFrom k env used _ ds _) hlt)) hlt

theorem given_addUpgraded (k : Kind P D Env) (us : List (Upgrade P)) (s : State P) :
    s.alloc.given ≤ (addUpgraded k us s).1.alloc.given := by
  induction us generalizing s with
  | nil => simp [addUpgraded]
  | cons u us ih =>
    simp only [addUpgraded]
    split
    · split
      · exact ih s
      · exact Nat.le_refl _
      · refine Nat.le_trans ?_ (ih _)
        simp [Alloc.given_next]
    · exact ih s

theorem inv_addUpgraded (k : Kind P D Env) (us : List (Upgrade P)) {s : State P} (h : Inv s)
    (hlt : (addUpgraded k us s).1.alloc.given < 2 ^ 64) : Inv (addUpgraded k us s).1 := by
  induction us generalizing s with
  | nil => simpa [addUpgraded] using h
  | cons u us ih =>
    simp only [addUpgraded] at hlt ⊢
    split
    · rename_i ht
      simp only [ht, if_true] at hlt
      split
      · rename_i ha
        rw [ha] at hlt
        exact ih h hlt
      · exact h
      · rename_i body ha
        rw [ha] at hlt
        refine ih ?_ hlt
        have hlt2 := Nat.lt_of_le_of_lt (given_addUpgraded k us _) hlt
        simp only [Alloc.given_next] at hlt2
        obtain ⟨hn, hm, hw⟩ := fresh_not_mem h hlt2
        have hm2 := hm
        simp only [List.mem_append, not_or] at hm2
        rw [emplace_of_not_mem hm2.1]
        have hall : ∀ x ∈ keys (s.map.localMap ++
            [(s.alloc.next.last, (⟨s.alloc.next.last, 0, 1, u.matched, body⟩ : Feat P))]) ++
              keys s.map.staged,
            x = s.alloc.next.last ∨ x ∈ keys s.map.localMap ++ keys s.map.staged := by
          intro x hx
          simp only [keys_append, keys_cons, keys_nil, List.mem_append, List.mem_singleton] at hx ⊢
          rcases hx with (hx | hx) | hx
          · exact .inr (.inl hx)
          · exact .inl hx
          · exact .inr (.inr hx)
        refine ⟨Alloc.ok_next h.alloc, ?_, h.keyedS, ?_, ?_, h.wnodup, ?_, ?_⟩
        · simp only [keyed_append, keyed_cons, keyed_nil, and_true]; exact h.keyedL
        · simp only [keys_append, keys_cons, keys_nil]
          have hp : (keys s.map.localMap ++ [s.alloc.next.last] ++ keys s.map.staged).Perm
              (s.alloc.next.last :: (keys s.map.localMap ++ keys s.map.staged)) := by
            rw [List.append_assoc]
            exact List.perm_middle
          rw [hp.nodup_iff, List.nodup_cons]
          exact ⟨hm, h.nodup⟩
        · intro x hx
          rcases hall x hx with rfl | hx
          · rw [hn]; exact ⟨by omega, by simp [Alloc.given_next]⟩
          · have := h.range x hx
            exact ⟨this.1, by simp only [Alloc.given_next]; omega⟩
        · intro x hx hc
          rcases hall x hc with rfl | hc
          · exact hw hx
          · exact h.wfresh x hx hc
        · intro x hx
          have := h.wrange x hx
          exact ⟨this.1, by simp only [Alloc.given_next]; omega⟩
    · rename_i ht
      rw [if_neg ht] at hlt
      exact ih h hlt

theorem stage_cases {k : Kind P D Env} {env : Env} {det : List D} {used : List Nat} {s s' : State P}
    (h : stage k env det used s = .ok s') :
    s' = s ∨ s' = stageFrom k env used 0 det s := by
  unfold stage at h
  repeat' split at h
  all_goals simp_all

theorem given_step {k : Kind P D Env} {op : Op P D Env} {s s' : State P}
    (hr : step k op s = .ok s') : s.alloc.given ≤ s'.alloc.given := by
  cases op with
  | find env det => simp [step] at hr; rw [← hr]; exact Nat.le_refl _
  | update fuel env det =>
    simp only [step] at hr
    split at hr
    · simp at hr; rw [hr]; exact Nat.le_refl _
    · simp only [Outcome.map] at hr
      obtain ⟨⟨s2, used⟩, h1, hr⟩ := Outcome.bind_eq_ok hr
      simp only [Outcome.ok.injEq] at hr
      subst hr
      unfold updateMap at h1
      split at h1
      · simp at h1; rw [h1.1]; exact Nat.le_refl _
      · split at h1
        · simp at h1
        · obtain ⟨⟨loc, used1, wr⟩, _, h1⟩ := Outcome.bind_eq_ok h1
          obtain ⟨⟨stg, loc', used2⟩, _, h1⟩ := Outcome.bind_eq_ok h1
          simp at h1
          rw [← h1.1]; exact Nat.le_refl _
  | noTracking =>
    simp [step] at hr; rw [← hr]
    unfold updateNoTracking
    split <;> exact Nat.le_refl _
  | stage env det used =>
    simp only [step] at hr
    split at hr
    · simp at hr; rw [hr]; exact Nat.le_refl _
    · rcases stage_cases hr with rfl | rfl
      · exact Nat.le_refl _
      · exact given_stageFrom _ _ _ _ _ _
  | outliers ms => simp [step] at hr; rw [← hr]; exact Nat.le_refl _
  | takeUpgrades env => simp [step] at hr; rw [← hr]; exact Nat.le_refl _
  | addUpgrades us => simp [step] at hr; rw [← hr]; exact given_addUpgraded _ _ _
  | reset => simp [step] at hr; rw [← hr]; exact Nat.le_refl _
  | deactivate => simp [step] at hr; rw [← hr]; exact Nat.le_refl _
  | foreignIds n => simp [step] at hr; rw [← hr]; simp [Alloc.given_skip]
  | rehash a b => simp [step] at hr; rw [← hr]; exact Nat.le_refl _

theorem inv_step {k : Kind P D Env} {op : Op P D Env} {s s' : State P} (h : Inv s)
    (hr : step k op s = .ok s') (hlt : s'.alloc.given < 2 ^ 64) : Inv s' := by
  cases op with
  | find env det =>
    simp [step] at hr; subst hr
    have hc := getMatches_core k env det s.map
    exact inv_core h rfl rfl hc.1 hc.2.1
  | update fuel env det =>
    simp only [step] at hr
    split at hr
    · simp at hr; subst hr; exact h
    · simp only [Outcome.map] at hr
      obtain ⟨⟨s2, used⟩, h1, hr⟩ := Outcome.bind_eq_ok hr
      simp only [Outcome.ok.injEq] at hr
      subst hr
      exact (inv_updateMap h h1).1
  | noTracking => simp [step] at hr; subst hr; exact (inv_noTracking k h).1
  | stage env det used =>
    simp only [step] at hr
    split at hr
    · simp at hr; subst hr; exact h
    · rcases stage_cases hr with rfl | rfl
      · exact h
      · exact inv_stageFrom k env used 0 det h hlt
  | outliers ms =>
    simp [step] at hr; subst hr
    have hc := markOutliers_core k.type ms s.map
    exact inv_core h rfl rfl hc.1 hc.2.1
  | takeUpgrades env =>
    simp [step] at hr; subst hr
    have h1 := takeUpgraded_sub k env s.map.localMap
    have h2 := takeUpgraded_sub k env s.map.staged
    exact inv_shrink h rfl rfl (h.keyedL.sublist h1) (h.keyedS.sublist h2)
      (keys_sublist h1) (keys_sublist h2)
  | addUpgrades us => simp [step] at hr; subst hr; exact inv_addUpgraded k us h hlt
  | reset =>
    simp [step] at hr; subst hr
    by_cases ha : s.map.active = true
    · exact inv_shrink h rfl rfl (by simp [reset, ha]) (by simp [reset, ha])
        (by simp [reset, ha]) (by simp [reset, ha])
    · exact inv_shrink h rfl rfl (by simpa [reset, ha] using h.keyedL)
        (by simpa [reset, ha] using h.keyedS) (by simp [reset, ha]) (by simp [reset, ha])
  | deactivate =>
    simp [step] at hr; subst hr
    exact inv_core h rfl rfl rfl rfl
  | foreignIds n =>
    simp [step] at hr; subst hr
    exact inv_alloc h (Alloc.ok_skip n h.alloc) (by simp [Alloc.given_skip])
  | rehash a b =>
    simp [step] at hr; subst hr
    have pa := a.perm s.map.localMap
    have pb := b.perm s.map.staged
    have pk : (keys (a.app s.map.localMap) ++ keys (b.app s.map.staged)).Perm
        (keys s.map.localMap ++ keys s.map.staged) := (pa.map _).append (pb.map _)
    exact
      { alloc := h.alloc
        keyedL := fun p hp => h.keyedL p (pa.mem_iff.1 hp)
        keyedS := fun p hp => h.keyedS p (pb.mem_iff.1 hp)
        nodup := pk.nodup_iff.2 h.nodup
        range := fun x hx => h.range x (pk.mem_iff.1 hx)
        wnodup := h.wnodup
        wfresh := fun x hx hc => h.wfresh x hx (pk.mem_iff.1 hc)
        wrange := h.wrange }

theorem given_run {k : Kind P D Env} {ops : List (Op P D Env)} {s s' : State P}
    (hr : run k ops s = .ok s') : s.alloc.given ≤ s'.alloc.given := by
  induction ops generalizing s with
  | nil => simp [run] at hr; rw [hr]; exact Nat.le_refl _
  | cons op ops ih =>
    simp only [run] at hr
    obtain ⟨s1, h1, hr⟩ := Outcome.bind_eq_ok hr
    exact Nat.le_trans (given_step h1) (ih hr)

theorem inv_run {k : Kind P D Env} {ops : List (Op P D Env)} {s s' : State P} (h : Inv s)
    (hr : run k ops s = .ok s') (hlt : s'.alloc.given < 2 ^ 64) : Inv s' := by
  induction ops generalizing s with
  | nil => simp [run] at hr; exact hr ▸ h
  | cons op ops ih =>
    simp only [run] at hr
    obtain ⟨s1, h1, hr⟩ := Outcome.bind_eq_ok hr
    exact ih (inv_step h h1 (Nat.lt_of_le_of_lt (given_run hr) hlt)) hr

end RgbdSlam.Map
