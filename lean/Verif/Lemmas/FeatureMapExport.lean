import Verif.Lemmas.FeatureMapClosed
/-
Ids, exports, staging and outliers.
-/
namespace RgbdSlam.Map

variable {P D Env : Type}

theorem skip_succ (n : Nat) (a : Alloc) : a.skip (n + 1) = (a.skip n).next := by
  induction n generalizing a with
  | zero => rfl
  | succ n ih => exact ih a.next

theorem nthId_eq (n : Nat) : nthId n = n % (2 ^ 64 - 1) + 1 := by
  induction n with
  | zero => decide
  | succ n ih =>
    unfold nthId at ih ⊢
    rw [skip_succ]
    simp only [Alloc.next, ih]
    omega

/-! written -/

/-- the body of `f` after its matches were applied -/
theorem applyMatches_body {k : Kind P D Env} {env : Env} {det : List D} {all : Bool}
    {is : List Nat} {f f' : Feat P} {hit : Bool} {used : List Nat}
    (h : applyMatches k env det all is f = .ok (f', hit, used)) :
    bodyAfter k env det is f = f'.body := by
  induction is generalizing f f' hit used with
  | nil => simp [applyMatches] at h; simp [bodyAfter, h.1]
  | cons i is ih =>
    simp only [applyMatches] at h
    simp only [bodyAfter]
    split at h
    · cases h
    · rename_i d hd
      obtain ⟨⟨body, good⟩, h1, h⟩ := Outcome.bind_eq_ok h
      obtain ⟨⟨f2, good', used'⟩, h2, h⟩ := Outcome.bind_eq_ok h
      simp only [Outcome.ok.injEq, Prod.mk.injEq] at h
      rw [Outcome.noexcept_eq_ok] at h1
      simp only [hd, h1]
      rw [ih h2, h.1]

@[simp] theorem settle_body (b : Bool) (f : Feat P) : (settle b f).body = f.body := by
  cases b <;> rfl

theorem step_written {k : Kind P D Env} {op : Op P D Env} {s s' : State P} (h : Inv s)
    (hr : step k op s = .ok s') :
    ∃ w, s'.written = s.written ++ w ∧
      ∀ g ∈ w, k.isLost g = true ∧ g.id ∈ keys s.map.localMap ∧ g.id ∉ keys s'.map.localMap := by
  cases op with
  | update fuel env det =>
    simp only [step] at hr
    split at hr
    · simp at hr; subst hr; exact ⟨[], by simp⟩
    · simp only [Outcome.map] at hr
      obtain ⟨⟨s2, used⟩, h1, hr⟩ := Outcome.bind_eq_ok hr
      simp only [Outcome.ok.injEq] at hr
      subst hr
      unfold updateMap at h1
      split at h1
      · simp at h1; rw [← h1.1]; exact ⟨[], by simp⟩
      · split at h1
        · simp at h1
        · obtain ⟨⟨loc, used1, wr⟩, h2, h1⟩ := Outcome.bind_eq_ok h1
          obtain ⟨⟨stg, loc', used2⟩, h3, h1⟩ := Outcome.bind_eq_ok h1
          simp at h1
          rw [← h1.1]
          refine ⟨wr, rfl, fun g hg => ?_⟩
          obtain ⟨c1, c2, p, hp, c3⟩ := updateLocal_written h2 g hg
          obtain ⟨a1, a2, a3, a4⟩ := updateLocal_sub h2
          have hnd := h.nodup
          rw [List.nodup_append] at hnd
          have hgl : g.id ∈ keys s.map.localMap := by
            rw [← c3, ← h.keyedL p hp]; exact List.mem_map_of_mem hp
          refine ⟨c1, hgl, fun hc => ?_⟩
          have hn2 : (keys s.map.staged ++ keys loc).Nodup := by
            rw [List.nodup_append]
            refine ⟨hnd.2.1, hnd.1.sublist a1, ?_⟩
            intro x hx y hy hxy
            exact hnd.2.2 y (a1.subset hy) x hx hxy.symm
          obtain ⟨b1, b2, b3, b4, b5, b6⟩ := updateStaged_sub h3 h.keyedS (a2 h.keyedL) hn2
          rcases b5 _ hc with hx | hx
          · exact hnd.2.2 _ hgl _ hx rfl
          · exact a4 h.keyedL hnd.1 _ (List.mem_map_of_mem hg) hx
  | noTracking =>
    simp [step] at hr; subst hr
    unfold updateNoTracking
    split
    · exact ⟨[], by simp⟩
    · refine ⟨_, rfl, fun g hg => ?_⟩
      obtain ⟨c1, p, hp, c3⟩ := missLocal_written k _ g hg
      have hnd := h.nodup
      rw [List.nodup_append] at hnd
      refine ⟨c1, by rw [← c3, ← h.keyedL p hp]; exact List.mem_map_of_mem hp, ?_⟩
      exact (missLocal_sub k s.map.localMap).2.2.2 h.keyedL hnd.1 _ (List.mem_map_of_mem hg)
  | stage env det used =>
    refine ⟨[], ?_, by simp⟩
    simp only [step] at hr
    have hone : ∀ (d : D) (s : State P), (stageOne k env d s).written = s.written := by
      intro d s
      unfold stageOne
      split
      · split
        · rfl
        · split <;> rfl
      · rfl
    have hfrom : ∀ (ds : List D) (i : Nat) (s : State P),
        (stageFrom k env used i ds s).written = s.written := by
      intro ds
      induction ds with
      | nil => intro i s; rfl
      | cons d ds ih =>
        intro i s
        simp only [stageFrom]
        split
        · exact ih _ _
        · rw [ih, hone]
    split at hr
    · simp at hr; subst hr; simp
    · rcases stage_cases hr with rfl | rfl
      · simp
      · simp [hfrom]
  | addUpgrades us =>
    refine ⟨[], ?_, by simp⟩
    simp [step] at hr; subst hr
    rw [List.append_nil]
    clear h
    induction us generalizing s with
    | nil => rfl
    | cons u us ih =>
      simp only [addUpgraded]
      split
      · split
        · exact ih
        · rfl
        · exact ih
      · exact ih
  | find env det => simp [step] at hr; subst hr; exact ⟨[], by simp⟩
  | outliers ms => simp [step] at hr; subst hr; exact ⟨[], by simp⟩
  | takeUpgrades env => simp [step] at hr; subst hr; exact ⟨[], by simp⟩
  | reset => simp [step] at hr; subst hr; exact ⟨[], by simp⟩
  | deactivate => simp [step] at hr; subst hr; exact ⟨[], by simp⟩
  | foreignIds n => simp [step] at hr; subst hr; exact ⟨[], by simp⟩
  | rehash a b => simp [step] at hr; subst hr; exact ⟨[], by simp⟩

theorem addUpgraded_keeps {k : Kind P D Env} {us : List (Upgrade P)} {s : State P} {x : Nat}
    (hx : x ∈ keys s.map.localMap) : x ∈ keys (addUpgraded k us s).1.map.localMap := by
  induction us generalizing s with
  | nil => exact hx
  | cons u us ih =>
    simp only [addUpgraded]
    split
    · split
      · exact ih hx
      · exact hx
      · refine ih ?_
        simp only [emplace]
        split
        · exact hx
        · simp [hx]
    · exact ih hx

/-- A map feature that leaves the map is written, unless it is a moving one lost in an update. -/
theorem step_lost {k : Kind P D Env} {op : Op P D Env} {s s' : State P} (h : Inv s)
    (hkeep : Keeps k op) (hr : step k op s = .ok s') {x : Nat} (hx : x ∈ keys s.map.localMap)
    (hx' : x ∉ keys s'.map.localMap) :
    (∃ g ∈ s'.written, g.id = x) ∨ LeftMoving k op s x := by
  cases op with
  | update fuel env det =>
    simp only [step] at hr
    split at hr
    · simp at hr; subst hr; exact absurd hx hx'
    · simp only [Outcome.map] at hr
      obtain ⟨⟨s2, used⟩, h1, hr⟩ := Outcome.bind_eq_ok hr
      simp only [Outcome.ok.injEq] at hr
      subst hr
      unfold updateMap at h1
      split at h1
      · simp at h1; rw [h1.1] at hx; exact absurd hx hx'
      · split at h1
        · simp at h1
        · obtain ⟨⟨loc, used1, wr⟩, h2, h1⟩ := Outcome.bind_eq_ok h1
          obtain ⟨⟨stg, loc', used2⟩, h3, h1⟩ := Outcome.bind_eq_ok h1
          simp at h1
          obtain ⟨a1, a2, a3, a4⟩ := updateLocal_sub h2
          have hnd := h.nodup
          rw [List.nodup_append] at hnd
          rw [← lookup_isSome, Option.isSome_iff_exists] at hx
          obtain ⟨f, hf⟩ := hx
          obtain ⟨f1, hit, u, c1, c2, c3⟩ := updateLocal_lookup h2 hnd.1 hf
          have hn2 : (keys s.map.staged ++ keys loc).Nodup := by
            rw [List.nodup_append]
            refine ⟨hnd.2.1, hnd.1.sublist a1, ?_⟩
            intro x hx y hy hxy
            exact hnd.2.2 y (a1.subset hy) x hx hxy.symm
          obtain ⟨b1, b2, b3, b4, b5, b6⟩ := updateStaged_sub h3 h.keyedS (a2 h.keyedL) hn2
          have hnl : x ∉ keys loc := by
            intro hc
            have := b6 _ hc
            rw [← h1.1] at hx'
            exact hx' this
          have hlost : k.isLost (settle hit f1) = true := by
            cases hc : k.isLost (settle hit f1) with
            | true => rfl
            | false =>
              have := c3 hc
              rw [lookup_eq_none.2 hnl] at this
              cases this
          cases hm : k.isMoving (settle hit f1).body with
          | false =>
            left
            refine ⟨settle hit f1, ?_, ?_⟩
            · rw [← h1.1]
              simp [(c2 hlost).2 hm]
            · rw [settle_id, (applyMatches_spec c1).1]
              have := h.keyedL _ (lookup_mem hf)
              simpa using this.symm
          | true =>
            right
            refine ⟨fuel, env, det, f, rfl, ?_, ?_⟩
            · rw [featureOf_eq h, hf]; rfl
            · rw [applyMatches_body c1, ← settle_body hit f1]; exact hm
  | noTracking =>
    simp [step] at hr; subst hr
    unfold updateNoTracking at hx' ⊢
    split at hx'
    · exact absurd hx hx'
    · rename_i ha
      rw [if_neg ha]
      have hnd := h.nodup
      rw [List.nodup_append] at hnd
      rw [← lookup_isSome, Option.isSome_iff_exists] at hx
      obtain ⟨f, hf⟩ := hx
      obtain ⟨c1, c2⟩ := missLocal_lookup k hnd.1 hf
      have hlost : k.isLost (settle false f) = true := by
        cases hc : k.isLost (settle false f) with
        | true => rfl
        | false =>
          have := c2 hc
          rw [lookup_eq_none.2 hx'] at this
          cases this
      left
      refine ⟨settle false f, by simp [(c1 hlost).2], ?_⟩
      rw [settle_id]
      have := h.keyedL _ (lookup_mem hf)
      simpa using this.symm
  | stage env det used =>
    exfalso
    simp only [step] at hr
    split at hr
    · simp at hr; subst hr; exact hx' hx
    · rcases stage_cases hr with rfl | rfl
      · exact hx' hx
      · rw [stageFrom_local] at hx'; exact hx' hx
  | find env det =>
    simp [step] at hr; subst hr
    rw [keys_of_core (getMatches_core k env det s.map).1] at hx'
    exact absurd hx hx'
  | outliers ms =>
    simp [step] at hr; subst hr
    rw [keys_of_core (markOutliers_core k.type ms s.map).1] at hx'
    exact absurd hx hx'
  | takeUpgrades env =>
    simp [step] at hr; subst hr
    have hkeep' : ∀ f, k.upgrade env f = none := hkeep
    simp only [getUpgraded, takeUpgraded_none hkeep'] at hx'
    exact absurd hx hx'
  | addUpgrades us =>
    simp [step] at hr; subst hr
    exact absurd (addUpgraded_keeps hx) hx'
  | reset => exact absurd hkeep (by simp [Keeps])
  | deactivate => simp [step] at hr; subst hr; exact absurd hx hx'
  | foreignIds n => simp [step] at hr; subst hr; exact absurd hx hx'
  | rehash a b =>
    simp [step] at hr; subst hr
    exact absurd (((a.perm s.map.localMap).map (fun q : Nat × Feat P => q.1)).mem_iff.2 hx) hx'

theorem run_written {k : Kind P D Env} {ops : List (Op P D Env)} {s s' : State P} (h : Inv s)
    (hr : run k ops s = .ok s') (hlt : s'.alloc.given < 2 ^ 64) {g : Feat P} (hg : g ∈ s.written) :
    g ∈ s'.written := by
  induction ops generalizing s with
  | nil => simp [run] at hr; exact hr ▸ hg
  | cons op ops ih =>
    simp only [run] at hr
    obtain ⟨s1, h1, hr⟩ := Outcome.bind_eq_ok hr
    refine ih (inv_step h h1 (Nat.lt_of_le_of_lt (given_run hr) hlt)) hr ?_
    obtain ⟨w, hw, -⟩ := step_written h h1
    rw [hw]; exact List.mem_append.2 (.inl hg)

theorem run_exported {k : Kind P D Env} {ops : List (Op P D Env)} {s s' : State P} (h : Inv s)
    (hkeep : ∀ op ∈ ops, Keeps k op) (hr : run k ops s = .ok s') (hlt : s'.alloc.given < 2 ^ 64)
    {x : Nat} (hx : x ∈ keys s.map.localMap) :
    x ∈ keys s'.map.localMap ∨ (∃ g ∈ s'.written, g.id = x) ∨ EverLeftMoving k ops s x := by
  induction ops generalizing s with
  | nil => simp [run] at hr; subst hr; exact .inl hx
  | cons op ops ih =>
    simp only [run] at hr
    obtain ⟨s1, h1, hr⟩ := Outcome.bind_eq_ok hr
    have hinv := inv_step h h1 (Nat.lt_of_le_of_lt (given_run hr) hlt)
    by_cases hx1 : x ∈ keys s1.map.localMap
    · rcases ih hinv (fun o ho => hkeep o (List.mem_cons_of_mem _ ho)) hr hx1 with hc | hc | hc
      · exact .inl hc
      · exact .inr (.inl hc)
      · right; right
        simp only [EverLeftMoving, h1]
        exact .inr hc
    · rcases step_lost h (hkeep op List.mem_cons_self) h1 hx hx1 with ⟨g, hg, hid⟩ | hm
      · exact .inr (.inl ⟨g, run_written hinv hr hlt hg, hid⟩)
      · right; right
        simp only [EverLeftMoving, h1]
        exact .inl hm

theorem exported_nodup {s : State P} (h : Inv s) : ((exported s).map (·.id)).Nodup := by
  unfold exported destroyed
  split
  · simpa using h.wnodup
  · rw [List.map_append, List.map_map, List.nodup_append]
    have hk := keys_eq_ids h.keyedL
    have hnd := h.nodup
    rw [List.nodup_append] at hnd
    have e : List.map ((fun x : Feat P => x.id) ∘ fun x : Nat × Feat P => x.2) s.map.localMap =
        keys s.map.localMap := hk.symm
    rw [e]
    refine ⟨h.wnodup, hnd.1, ?_⟩
    intro a ha b hb hab
    subst hab
    exact h.wfresh a ha (List.mem_append.2 (.inl hb))

/-! staging -/

theorem stageFrom_spec {k : Kind P D Env} {env : Env} {used : List Nat} {i : Nat} {ds : List D}
    {s : State P} (h : Inv s) (hlt : (stageFrom k env used i ds s).alloc.given < 2 ^ 64) :
    ∃ news : List (Feat P),
      (stageFrom k env used i ds s).map =
        { s.map with staged := s.map.staged ++ news.map fun f => (f.id, f) } ∧
      (stageFrom k env used i ds s).written = s.written ∧
      news.map (·.body) = wanted k env used i ds ∧
      (∀ f ∈ news, s.alloc.given < f.id ∧ f.failed = 0 ∧ f.succ = 0 ∧ f.matched = []) ∧
      (news.map (·.id)).Pairwise (· < ·) := by
  induction ds generalizing i s with
  | nil => exact ⟨[], by simp [stageFrom], rfl, rfl, by simp, by simp⟩
  | cons d ds ih =>
    simp only [stageFrom, wanted] at hlt ⊢
    split
    · rename_i hc
      simp only [hc, if_true] at hlt
      exact ih h hlt
    · rename_i hc
      rw [if_neg hc] at hlt
      have hlt1 := Nat.lt_of_le_of_lt (given_stageFrom k env used _ ds _) hlt
      have hinv := inv_stageOne k env d h hlt1
      obtain ⟨news, e1, e2, e3, e4, e5⟩ := ih hinv hlt
      unfold stageOne at e1 e2 e4 hlt1
      split at e1
      · rename_i hcan
        simp only [hcan, if_true] at e1 e2 e4 hlt1 ⊢
        cases hb : k.build env d with
        | some body =>
          simp only [hb, Alloc.given_next] at e1 e2 e4 hlt1 ⊢
          obtain ⟨hn, hm, hw⟩ := fresh_not_mem h hlt1
          simp only [List.mem_append, not_or] at hm
          rw [emplace_of_not_mem hm.2] at e1
          refine ⟨⟨s.alloc.next.last, 0, 0, [], body⟩ :: news, ?_, ?_, ?_, ?_, ?_⟩
          · simp only [stageOne, hcan, if_true, hb, emplace_of_not_mem hm.2]
            rw [e1]
            simp
          · simp only [stageOne, hcan, if_true, hb]
            exact e2
          · simp [e3]
          · intro f hf
            rcases List.mem_cons.1 hf with rfl | hf
            · simp only [hn]; exact ⟨by omega, trivial, trivial, trivial⟩
            · have := e4 f hf
              exact ⟨by omega, this.2⟩
          · rw [List.map_cons, List.pairwise_cons]
            refine ⟨?_, e5⟩
            intro y hy
            obtain ⟨f, hf, rfl⟩ := List.mem_map.1 hy
            have := (e4 f hf).1
            simp only [hn]; omega
        | none =>
          simp only [hb] at e1 e2 e4 ⊢
          refine ⟨news, ?_, ?_, e3, ?_, e5⟩
          · simp only [stageOne, hcan, if_true, hb]
            cases hi : k.idOnThrow <;> simp only [hi, if_true, Bool.false_eq_true, if_false] at e1 ⊢ <;> exact e1
          · simp only [stageOne, hcan, if_true, hb]
            cases hi : k.idOnThrow <;> simp only [hi, if_true, Bool.false_eq_true, if_false] at e2 ⊢ <;> exact e2
          · intro f hf
            have := e4 f hf
            refine ⟨?_, this.2⟩
            cases hi : k.idOnThrow
            · simp only [hi, Bool.false_eq_true, if_false] at this; exact this.1
            · simp only [hi, if_true, Alloc.given_next] at this; omega
      · rename_i hcan
        simp only [hcan, Bool.false_eq_true, if_false] at e1 e2 e4 ⊢
        refine ⟨news, ?_, ?_, e3, e4, e5⟩
        · simp only [stageOne, hcan, Bool.false_eq_true, if_false]; exact e1
        · simp only [stageOne, hcan, Bool.false_eq_true, if_false]; exact e2

/-! outliers -/

theorem eraseMatch_eq {key det : Nat} {l : Store P} (hk : Keyed l) :
    eraseMatch key det l = l.map fun p =>
      (p.1, { p.2 with matched := p.2.matched.filter fun d => !(decide (p.2.id = key ∧ d = det)) }) := by
  unfold eraseMatch
  apply List.map_congr_left
  rintro ⟨k, f⟩ hp
  have : k = f.id := hk _ hp
  simp only
  by_cases h : k = key
  · rw [if_pos h]
    have h2 : f.id = key := by rw [← this]; exact h
    simp [h2]
  · rw [if_neg h]
    have h2 : f.id ≠ key := by rw [← this]; exact h
    have : (f.matched.filter fun d => !(decide (f.id = key ∧ d = det))) = f.matched := by
      rw [List.filter_eq_self]
      intro d _
      simp [h2]
    rw [this]

theorem withoutMatches_nil (t : FType) (l : Store P) : withoutMatches t [] l = l := by
  unfold withoutMatches
  have : ∀ p ∈ l, ((p.1, { p.2 with matched := p.2.matched.filter fun d =>
      !(decide (∃ o ∈ ([] : List Match), o.type = t ∧ o.idInMap = p.2.id ∧ o.detected = d)) }) : Nat × Feat P) = p := by
    rintro ⟨k, f⟩ _
    simp [List.filter_eq_self.2]
  rw [List.map_congr_left this]
  simp

theorem filter_filter_or {α : Type} (l : List α) (p q r : α → Bool)
    (h : ∀ a, r a = (p a && q a)) : (l.filter p).filter q = l.filter r := by
  rw [List.filter_filter]
  apply List.filter_congr
  intro a _
  rw [h, Bool.and_comm]

theorem withoutMatches_cons {t : FType} {o : Match} {os : List Match} (ho : o.type = t) {l : Store P}
    (hk : Keyed l) :
    withoutMatches t os (eraseMatch o.idInMap o.detected l) = withoutMatches t (o :: os) l := by
  rw [eraseMatch_eq hk]
  unfold withoutMatches
  rw [List.map_map]
  apply List.map_congr_left
  rintro ⟨k, f⟩ _
  simp only [Function.comp]
  congr 2
  apply filter_filter_or
  intro d
  rw [← Bool.not_or, ← Bool.decide_or]
  congr 1
  apply decide_eq_decide.2
  constructor
  · rintro ⟨o', ho', h⟩
    rcases List.mem_cons.1 ho' with rfl | ho'
    · exact .inl ⟨h.2.1.symm, h.2.2.symm⟩
    · exact .inr ⟨o', ho', h⟩
  · rintro (⟨h1, h2⟩ | ⟨o', ho', h⟩)
    · exact ⟨o, List.mem_cons_self, ho, h1.symm, h2.symm⟩
    · exact ⟨o', List.mem_cons_of_mem _ ho', h⟩

theorem withoutMatches_skip {t : FType} {o : Match} {os : List Match} {l : Store P}
    (ho : o.type ≠ t ∨ ∀ p ∈ l, p.2.id = o.idInMap → p.2.matched = []) :
    withoutMatches t (o :: os) l = withoutMatches t os l := by
  unfold withoutMatches
  apply List.map_congr_left
  rintro ⟨k, f⟩ hp
  simp only
  congr 2
  rcases ho with ho | ho
  · apply List.filter_congr
    intro d _
    congr 1
    apply decide_eq_decide.2
    constructor
    · rintro ⟨o', ho', h⟩
      rcases List.mem_cons.1 ho' with rfl | ho'
      · exact absurd h.1 ho
      · exact ⟨o', ho', h⟩
    · rintro ⟨o', ho', h⟩
      exact ⟨o', List.mem_cons_of_mem _ ho', h⟩
  · by_cases hid : f.id = o.idInMap
    · have := ho _ hp hid
      simp only at this
      rw [this]; rfl
    · apply List.filter_congr
      intro d _
      congr 1
      apply decide_eq_decide.2
      constructor
      · rintro ⟨o', ho', h⟩
        rcases List.mem_cons.1 ho' with rfl | ho'
        · exact absurd h.2.1.symm hid
        · exact ⟨o', ho', h⟩
      · rintro ⟨o', ho', h⟩
        exact ⟨o', List.mem_cons_of_mem _ ho', h⟩

/-- keyed, distinct, non zero -/
structure Tidy (m : FMap P) : Prop where
  keyedL : Keyed m.localMap
  keyedS : Keyed m.staged
  nodup : (keys m.localMap ++ keys m.staged).Nodup
  pos : 0 ∉ keys m.localMap ++ keys m.staged

theorem Inv.tidy {s : State P} (h : Inv s) : Tidy s.map :=
  ⟨h.keyedL, h.keyedS, h.nodup, fun hc => absurd (h.range 0 hc).1 (by omega)⟩

theorem Tidy.core {m m' : FMap P} (h : Tidy m) (hl : m'.localMap.map core = m.localMap.map core)
    (hs : m'.staged.map core = m.staged.map core) : Tidy m' :=
  ⟨keyed_of_core hl h.keyedL, keyed_of_core hs h.keyedS,
    by rw [keys_of_core hl, keys_of_core hs]; exact h.nodup,
    by rw [keys_of_core hl, keys_of_core hs]; exact h.pos⟩

theorem no_id_of_lookup_none {l : Store P} (hk : Keyed l) {x : Nat} (h : lookup x l = none) :
    ∀ p ∈ l, p.2.id = x → p.2.matched = [] := by
  intro p hp hid
  exfalso
  rw [lookup_eq_none] at h
  apply h
  rw [← hid, ← hk p hp]
  exact List.mem_map_of_mem hp

theorem unmatched_of_lookup {l : Store P} (hk : Keyed l) (hn : (keys l).Nodup) {x : Nat} {f : Feat P}
    (h : lookup x l = some f) (hm : f.matched = []) :
    ∀ p ∈ l, p.2.id = x → p.2.matched = [] := by
  rintro ⟨k, g⟩ hp hid
  have hkid : k = g.id := hk _ hp
  simp only at hid
  have : lookup x l = some g := lookup_of_mem hn (by rw [← hid, ← hkid]; exact hp)
  rw [h] at this
  injection this with this
  subst this
  exact hm

theorem withoutMatches_absent {t : FType} {o : Match} {os : List Match} {l : Store P} (hk : Keyed l)
    (h : lookup o.idInMap l = none) : withoutMatches t (o :: os) l = withoutMatches t os l :=
  withoutMatches_skip (.inr (no_id_of_lookup_none hk h))

theorem markOutliers_spec {t : FType} {os : List Match} {m : FMap P} (h : Tidy m)
    (ha : m.active = true) :
    (markOutliers t os m).localMap = withoutMatches t os m.localMap ∧
    (markOutliers t os m).staged = withoutMatches t os m.staged ∧
    (markOutliers t os m).active = true ∧
    (markOutliers t os m).flags.length = m.flags.length ∧
    (∀ i, (markOutliers t os m).flags[i]? = m.flags[i]? ∨
      ((∃ o ∈ os, o.type = t ∧ o.detected = i) ∧
        (markOutliers t os m).flags[i]? = (m.flags[i]?).map fun _ => false)) := by
  induction os generalizing m with
  | nil =>
    simp only [markOutliers, withoutMatches_nil]
    exact ⟨trivial, trivial, ha, trivial, fun i => .inl trivial⟩
  | cons o os ih =>
    simp only [markOutliers]
    split
    · rename_i ho
      have hc := markUnmatched_core o.idInMap o.detected m
      have htidy := h.core hc.1 hc.2.1
      obtain ⟨a1, a2, a3, a4, a5⟩ := ih htidy (by rw [hc.2.2]; exact ha)
      rw [a1, a2, a4]
      have hnd := h.nodup
      rw [List.nodup_append] at hnd
      have hpos := h.pos
      simp only [List.mem_append, not_or] at hpos
      have flagsOf : ∀ m' : FMap P, m' = (markUnmatched o.idInMap o.detected m).1 →
          (m'.flags = m.flags ∨ m'.flags = m.flags.set o.detected false) →
          (markUnmatched o.idInMap o.detected m).1.flags.length = m.flags.length ∧
          (∀ i, (markOutliers t os (markUnmatched o.idInMap o.detected m).1).flags[i]? = m.flags[i]? ∨
            ((∃ o' ∈ o :: os, o'.type = t ∧ o'.detected = i) ∧
              (markOutliers t os (markUnmatched o.idInMap o.detected m).1).flags[i]? =
                (m.flags[i]?).map fun _ => false)) := by
        rintro m' rfl hf
        refine ⟨?_, fun i => ?_⟩
        · rcases hf with hf | hf <;> rw [hf]
          simp
        · have key : (markUnmatched o.idInMap o.detected m).1.flags[i]? = m.flags[i]? ∨
              (o.detected = i ∧ (markUnmatched o.idInMap o.detected m).1.flags[i]? =
                (m.flags[i]?).map fun _ => false) := by
            rcases hf with hf | hf
            · rw [hf]; exact .inl rfl
            · rw [hf, List.getElem?_set]
              by_cases hi : o.detected = i
              · rw [if_pos hi]
                right
                refine ⟨hi, ?_⟩
                split
                · rename_i hlt
                  subst hi
                  rw [List.getElem?_eq_getElem hlt]; rfl
                · rename_i hlt
                  subst hi
                  rw [List.getElem?_eq_none (by omega)]; rfl
              · rw [if_neg hi]; exact .inl rfl
          rcases a5 i with h5 | ⟨⟨o', ho', h5⟩, h6⟩
          · rcases key with key | ⟨hi, key⟩
            · exact .inl (h5.trans key)
            · exact .inr ⟨⟨o, List.mem_cons_self, ho, hi⟩, h5.trans key⟩
          · right
            refine ⟨⟨o', List.mem_cons_of_mem _ ho', h5⟩, ?_⟩
            rw [h6]
            rcases key with key | ⟨hi, key⟩
            · rw [key]
            · rw [key]; simp
      have skipBoth : (markUnmatched o.idInMap o.detected m).1 = m →
          withoutMatches t (o :: os) m.localMap = withoutMatches t os m.localMap →
          withoutMatches t (o :: os) m.staged = withoutMatches t os m.staged →
          withoutMatches t os (markUnmatched o.idInMap o.detected m).1.localMap =
            withoutMatches t (o :: os) m.localMap ∧
          withoutMatches t os (markUnmatched o.idInMap o.detected m).1.staged =
            withoutMatches t (o :: os) m.staged ∧
          ((markUnmatched o.idInMap o.detected m).1.flags = m.flags ∨
            (markUnmatched o.idInMap o.detected m).1.flags = m.flags.set o.detected false) := by
        intro he h1 h2
        rw [he, h1, h2]
        exact ⟨rfl, rfl, .inl rfl⟩
      have main : withoutMatches t os (markUnmatched o.idInMap o.detected m).1.localMap =
            withoutMatches t (o :: os) m.localMap ∧
          withoutMatches t os (markUnmatched o.idInMap o.detected m).1.staged =
            withoutMatches t (o :: os) m.staged ∧
          ((markUnmatched o.idInMap o.detected m).1.flags = m.flags ∨
            (markUnmatched o.idInMap o.detected m).1.flags = m.flags.set o.detected false) := by
        by_cases h0 : o.idInMap = 0
        · refine skipBoth (by simp [markUnmatched, ha, h0]) ?_ ?_
          · exact withoutMatches_absent h.keyedL (by rw [h0]; exact lookup_eq_none.2 hpos.1)
          · exact withoutMatches_absent h.keyedS (by rw [h0]; exact lookup_eq_none.2 hpos.2)
        · cases hl : lookup o.idInMap m.localMap with
          | some f =>
            have hxs : lookup o.idInMap m.staged = none := lookup_eq_none.2 fun hc =>
              hnd.2.2 o.idInMap (by rw [← lookup_isSome, hl]; rfl) o.idInMap hc rfl
            cases hm : f.matched with
            | nil =>
              refine skipBoth (by simp [markUnmatched, ha, h0, hl, hm]) ?_ ?_
              · exact withoutMatches_skip (.inr (unmatched_of_lookup h.keyedL hnd.1 hl hm))
              · exact withoutMatches_absent h.keyedS hxs
            | cons a b =>
              have he : (markUnmatched o.idInMap o.detected m).1 =
                  { m with flags := m.flags.set o.detected false,
                           localMap := eraseMatch o.idInMap o.detected m.localMap } := by
                simp [markUnmatched, ha, h0, hl, hm]
              rw [he]
              refine ⟨withoutMatches_cons ho h.keyedL, ?_, .inr rfl⟩
              exact (withoutMatches_absent h.keyedS hxs).symm
          | none =>
            cases hs : lookup o.idInMap m.staged with
            | some f =>
              cases hm : f.matched with
              | nil =>
                refine skipBoth (by simp [markUnmatched, ha, h0, hl, hs, hm]) ?_ ?_
                · exact withoutMatches_absent h.keyedL hl
                · exact withoutMatches_skip (.inr (unmatched_of_lookup h.keyedS hnd.2.1 hs hm))
              | cons a b =>
                have he : (markUnmatched o.idInMap o.detected m).1 =
                    { m with flags := m.flags.set o.detected false,
                             staged := eraseMatch o.idInMap o.detected m.staged } := by
                  simp [markUnmatched, ha, h0, hl, hs, hm]
                rw [he]
                exact ⟨(withoutMatches_absent h.keyedL hl).symm, withoutMatches_cons ho h.keyedS, .inr rfl⟩
            | none =>
              exact skipBoth (by simp [markUnmatched, ha, h0, hl, hs])
                (withoutMatches_absent h.keyedL hl) (withoutMatches_absent h.keyedS hs)
      obtain ⟨m1, m2, m3⟩ := main
      obtain ⟨f1, f2⟩ := flagsOf _ rfl m3
      exact ⟨m1, m2, a3, f1, f2⟩
    · rename_i ho
      obtain ⟨a1, a2, a3, a4, a5⟩ := ih h ha
      rw [a1, a2, withoutMatches_skip (.inl ho), withoutMatches_skip (.inl ho)]
      refine ⟨rfl, rfl, a3, a4, fun i => ?_⟩
      rcases a5 i with h5 | ⟨⟨o', ho', h5⟩, h6⟩
      · exact .inl h5
      · exact .inr ⟨⟨o', List.mem_cons_of_mem _ ho', h5⟩, h6⟩

end RgbdSlam.Map
