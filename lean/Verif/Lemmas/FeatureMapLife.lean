import Verif.Lemmas.FeatureMapInv
/-
What happens to one stored feature in each operation.
-/
namespace RgbdSlam.Map

variable {P D Env : Type}

theorem lookup_cons (k : Nat) (f : Feat P) (l : Store P) (x : Nat) :
    lookup x ((k, f) :: l) = if k = x then some f else lookup x l := rfl

theorem updateLocal_lookup {k : Kind P D Env} {env : Env} {det : List D} {l kept : Store P}
    {used : List Nat} {wr : List (Feat P)} (h : updateLocal k env det l = .ok (kept, used, wr))
    (hn : (keys l).Nodup) {x : Nat} {f : Feat P} (hx : lookup x l = some f) :
    ∃ f1 hit u, applyMatches k env det false f.matched f = .ok (f1, hit, u) ∧
      (k.isLost (settle hit f1) = true → lookup x kept = none ∧
        (k.isMoving (settle hit f1).body = false → settle hit f1 ∈ wr)) ∧
      (k.isLost (settle hit f1) = false → lookup x kept = some (settle hit f1)) := by
  induction l generalizing kept used wr with
  | nil => simp [lookup] at hx
  | cons p l ih =>
    obtain ⟨key, g⟩ := p
    have hsub := (updateLocal_sub h).1
    simp only [updateLocal] at h
    obtain ⟨⟨f1, hit, used1⟩, h1, h⟩ := Outcome.bind_eq_ok h
    obtain ⟨⟨kept', used', wr'⟩, h2, h⟩ := Outcome.bind_eq_ok h
    have hsub' := (updateLocal_sub h2).1
    simp only [keys_cons, List.nodup_cons] at hn
    rw [lookup_cons] at hx
    by_cases hk : key = x
    · rw [if_pos hk] at hx
      injection hx with hx
      subst hx
      subst hk
      refine ⟨f1, hit, used1, h1, ?_, ?_⟩
      · intro hl
        dsimp only at h
        rw [if_pos hl] at h
        simp only [Outcome.ok.injEq, Prod.mk.injEq] at h
        obtain ⟨rfl, -, rfl⟩ := h
        refine ⟨lookup_eq_none.2 fun hc => hn.1 (hsub'.subset hc), ?_⟩
        intro hm
        simp [hm]
      · intro hl
        dsimp only at h
        rw [if_neg (by simp [hl])] at h
        simp only [Outcome.ok.injEq, Prod.mk.injEq] at h
        obtain ⟨rfl, -, rfl⟩ := h
        simp [lookup_cons]
    · rw [if_neg hk] at hx
      obtain ⟨f1', hit', u', a1, a2, a3⟩ := ih h2 hn.2 hx
      refine ⟨f1', hit', u', a1, ?_, ?_⟩
      · intro hl
        obtain ⟨b1, b2⟩ := a2 hl
        split at h
        · simp only [Outcome.ok.injEq, Prod.mk.injEq] at h
          obtain ⟨rfl, -, rfl⟩ := h
          refine ⟨b1, fun hm => ?_⟩
          split
          · exact b2 hm
          · exact List.mem_cons_of_mem _ (b2 hm)
        · simp only [Outcome.ok.injEq, Prod.mk.injEq] at h
          obtain ⟨rfl, -, rfl⟩ := h
          refine ⟨by rw [lookup_cons, if_neg hk]; exact b1, b2⟩
      · intro hl
        have b1 := a3 hl
        split at h
        · simp only [Outcome.ok.injEq, Prod.mk.injEq] at h
          obtain ⟨rfl, -, rfl⟩ := h
          exact b1
        · simp only [Outcome.ok.injEq, Prod.mk.injEq] at h
          obtain ⟨rfl, -, rfl⟩ := h
          rw [lookup_cons, if_neg hk]; exact b1

/-- every written feature of `updateLocal` is the settled version of a lost one -/
theorem updateLocal_written {k : Kind P D Env} {env : Env} {det : List D} {l kept : Store P}
    {used : List Nat} {wr : List (Feat P)} (h : updateLocal k env det l = .ok (kept, used, wr)) :
    ∀ g ∈ wr, k.isLost g = true ∧ k.isMoving g.body = false ∧ ∃ p ∈ l, p.2.id = g.id := by
  induction l generalizing kept used wr with
  | nil => simp [updateLocal] at h; simp [h]
  | cons p l ih =>
    obtain ⟨key, f⟩ := p
    simp only [updateLocal] at h
    obtain ⟨⟨f1, hit, used1⟩, h1, h⟩ := Outcome.bind_eq_ok h
    obtain ⟨⟨kept', used', wr'⟩, h2, h⟩ := Outcome.bind_eq_ok h
    have hid := (applyMatches_spec h1).1
    have ih2 := ih h2
    simp only at h
    intro g hg
    have tailcase : g ∈ wr' → k.isLost g = true ∧ k.isMoving g.body = false ∧
        ∃ p ∈ (key, f) :: l, p.2.id = g.id := by
      intro hg
      obtain ⟨c1, c2, q, hq, c3⟩ := ih2 g hg
      exact ⟨c1, c2, q, List.mem_cons_of_mem _ hq, c3⟩
    split at h
    · rename_i hl
      simp only [Outcome.ok.injEq, Prod.mk.injEq] at h
      obtain ⟨rfl, -, rfl⟩ := h
      split at hg
      · exact tailcase hg
      · rename_i hm
        rcases List.mem_cons.1 hg with rfl | hg
        · exact ⟨hl, by simpa using hm, (key, f), List.mem_cons_self, by simp [hid]⟩
        · exact tailcase hg
    · simp only [Outcome.ok.injEq, Prod.mk.injEq] at h
      obtain ⟨rfl, -, rfl⟩ := h
      exact tailcase hg

theorem updateStaged_other {k : Kind P D Env} {env : Env} {det : List D} {n : Nat}
    {todo loc stg loc' : Store P} {used : List Nat}
    (h : updateStaged k env det n todo loc = .ok (stg, loc', used))
    (hk : Keyed todo) {x : Nat} (hx : x ∉ keys todo) : lookup x loc' = lookup x loc := by
  induction n generalizing todo loc stg loc' used with
  | zero =>
    cases todo with
    | nil => simp [updateStaged] at h; rw [h.2.1]
    | cons p l => simp [updateStaged] at h
  | succ n ih =>
    cases todo with
    | nil => simp [updateStaged] at h; rw [h.2.1]
    | cons p l =>
      obtain ⟨key, f⟩ := p
      simp only [updateStaged] at h
      obtain ⟨⟨f1, hit, used1⟩, h1, h⟩ := Outcome.bind_eq_ok h
      have hid := (applyMatches_spec h1).1
      have hk2 := keyed_cons.1 hk
      have hkey : key = f.id := hk2.1
      simp only [keys_cons, List.mem_cons, not_or] at hx
      simp only at h
      split at h
      · split at h
        · obtain ⟨⟨stg', loc2, used'⟩, h2, h⟩ := Outcome.bind_eq_ok h
          simp only [Outcome.ok.injEq, Prod.mk.injEq] at h
          obtain ⟨rfl, rfl, -⟩ := h
          rw [ih h2 hk2.2 hx.2]
          simp only [emplace]
          split
          · rfl
          · rw [lookup_append, lookup_cons]
            have : (settle hit f1).id ≠ x := by
              rw [settle_id, hid, ← hkey]; exact fun hc => hx.1 hc.symm
            rw [if_neg this]
            cases lookup x loc <;> simp [lookup]
        · obtain ⟨⟨stg', loc2, used'⟩, h2, h⟩ := Outcome.bind_eq_ok h
          simp only [Outcome.ok.injEq, Prod.mk.injEq] at h
          obtain ⟨rfl, rfl, -⟩ := h
          have hks : Keyed ((key, settle hit f1) :: l) := by
            simp only [keyed_cons, settle_id, hid]; exact hk2
          exact ih h2 hks (by simp only [keys_cons, List.mem_cons, not_or]; exact hx)
      · obtain ⟨⟨stg', loc2, used'⟩, h2, h⟩ := Outcome.bind_eq_ok h
        have := ih h2 hk2.2 hx.2
        split at h
        · simp only [Outcome.ok.injEq, Prod.mk.injEq] at h
          obtain ⟨rfl, rfl, -⟩ := h; exact this
        · simp only [Outcome.ok.injEq, Prod.mk.injEq] at h
          obtain ⟨rfl, rfl, -⟩ := h; exact this

theorem updateStaged_lookup {k : Kind P D Env} {env : Env} {det : List D} {n : Nat}
    {todo loc stg loc' : Store P} {used : List Nat} (hprom : ∀ f, k.promote f ≠ none)
    (h : updateStaged k env det n todo loc = .ok (stg, loc', used))
    (hk : Keyed todo) (hkl : Keyed loc) (hn : (keys todo ++ keys loc).Nodup)
    {x : Nat} {f : Feat P} (hx : lookup x todo = some f) :
    ∃ f1 hit u, applyMatches k env det true f.matched f = .ok (f1, hit, u) ∧
      (k.shouldAdd (settle hit f1) = true → lookup x stg = none ∧
        ∃ body, k.promote (settle hit f1) = some body ∧
          lookup x loc' = some (promoted (settle hit f1) body)) ∧
      (k.shouldAdd (settle hit f1) = false → lookup x loc' = none ∧
        (k.shouldRemove (settle hit f1) = true → lookup x stg = none) ∧
        (k.shouldRemove (settle hit f1) = false → lookup x stg = some (settle hit f1))) := by
  induction n generalizing todo loc stg loc' used with
  | zero =>
    cases todo with
    | nil => simp [lookup] at hx
    | cons p l => simp [updateStaged] at h
  | succ n ih =>
    cases todo with
    | nil => simp [lookup] at hx
    | cons p l =>
      obtain ⟨key, g⟩ := p
      have hsubs := updateStaged_sub h hk hkl hn
      simp only [updateStaged] at h
      obtain ⟨⟨f1, hit, used1⟩, h1, h⟩ := Outcome.bind_eq_ok h
      have hid := (applyMatches_spec h1).1
      have hk2 := keyed_cons.1 hk
      have hkey : key = g.id := hk2.1
      have hn' := hn
      simp only [keys_cons, List.cons_append, List.nodup_cons, List.mem_append, not_or] at hn'
      simp only at h
      rw [lookup_cons] at hx
      by_cases hkx : key = x
      · rw [if_pos hkx] at hx
        injection hx with hx
        subst hx
        subst hkx
        refine ⟨f1, hit, used1, h1, ?_, ?_⟩
        · intro ha
          rw [if_pos ha] at h
          split at h
          · rename_i body hb
            obtain ⟨⟨stg', loc2, used'⟩, h2, h⟩ := Outcome.bind_eq_ok h
            simp only [Outcome.ok.injEq, Prod.mk.injEq] at h
            obtain ⟨rfl, rfl, -⟩ := h
            have hnm : (settle hit f1).id ∉ keys loc := by
              rw [settle_id, hid, ← hkey]; exact hn'.1.2
            have hloc := updateStaged_other h2 hk2.2 hn'.1.1
            rw [emplace_of_not_mem hnm] at hloc h2
            have hloc2 : lookup key (loc ++ [((settle hit f1).id, promoted (settle hit f1) body)]) =
                some (promoted (settle hit f1) body) := by
              rw [lookup_append, lookup_eq_none.2 hn'.1.2, lookup_cons, settle_id, hid, ← hkey]
              simp
            refine ⟨?_, body, hb, hloc.trans hloc2⟩
            have hks := updateStaged_sub h2 hk2.2 (by
                simp only [keyed_append, keyed_cons, keyed_nil, and_true]
                exact ⟨hkl, by simp [promoted]⟩)
              (by
                simp only [keys_append, keys_cons, keys_nil, settle_id, hid, ← hkey]
                rw [← List.append_assoc, List.nodup_append]
                refine ⟨hn'.2, by simp, ?_⟩
                intro a ha b hb
                simp only [List.mem_singleton] at hb
                subst hb
                rintro rfl
                rcases List.mem_append.1 ha with ha | ha
                · exact hn'.1.1 ha
                · exact hn'.1.2 ha)
            exact lookup_eq_none.2 fun hc => hn'.1.1 (hks.1.subset hc)
          · rename_i hb
            exact absurd hb (hprom _)
        · intro ha
          rw [if_neg (by simp [ha])] at h
          obtain ⟨⟨stg', loc2, used'⟩, h2, h⟩ := Outcome.bind_eq_ok h
          have hloc := updateStaged_other h2 hk2.2 hn'.1.1
          rw [lookup_eq_none.2 hn'.1.2] at hloc
          have hks := updateStaged_sub h2 hk2.2 hkl hn'.2
          have hstg : lookup key stg' = none :=
            lookup_eq_none.2 fun hc => hn'.1.1 (hks.1.subset hc)
          split at h
          · rename_i hr
            simp only [Outcome.ok.injEq, Prod.mk.injEq] at h
            obtain ⟨rfl, rfl, -⟩ := h
            refine ⟨hloc, fun _ => hstg, fun hr' => ?_⟩
            rw [hr] at hr'; cases hr'
          · rename_i hr
            simp only [Outcome.ok.injEq, Prod.mk.injEq] at h
            obtain ⟨rfl, rfl, -⟩ := h
            refine ⟨hloc, fun hr' => absurd hr' hr, fun _ => ?_⟩
            simp [lookup_cons]
      · rw [if_neg hkx] at hx
        split at h
        · split at h
          · rename_i body hb
            obtain ⟨⟨stg', loc2, used'⟩, h2, h⟩ := Outcome.bind_eq_ok h
            simp only [Outcome.ok.injEq, Prod.mk.injEq] at h
            obtain ⟨rfl, rfl, -⟩ := h
            have hnm : (settle hit f1).id ∉ keys loc := by
              rw [settle_id, hid, ← hkey]; exact hn'.1.2
            rw [emplace_of_not_mem hnm] at h2
            exact ih h2 hk2.2 (by
                simp only [keyed_append, keyed_cons, keyed_nil, and_true]
                exact ⟨hkl, by simp [promoted]⟩)
              (by
                simp only [keys_append, keys_cons, keys_nil, settle_id, hid, ← hkey]
                rw [← List.append_assoc, List.nodup_append]
                refine ⟨hn'.2, by simp, ?_⟩
                intro a ha b hb
                simp only [List.mem_singleton] at hb
                subst hb
                rintro rfl
                rcases List.mem_append.1 ha with ha | ha
                · exact hn'.1.1 ha
                · exact hn'.1.2 ha) hx
          · rename_i hb
            exact absurd hb (hprom _)
        · obtain ⟨⟨stg', loc2, used'⟩, h2, h⟩ := Outcome.bind_eq_ok h
          obtain ⟨f1', hit', u', a1, a2, a3⟩ := ih h2 hk2.2 hkl hn'.2 hx
          refine ⟨f1', hit', u', a1, ?_, ?_⟩
          · intro ha
            obtain ⟨b1, b2⟩ := a2 ha
            split at h
            · simp only [Outcome.ok.injEq, Prod.mk.injEq] at h
              obtain ⟨rfl, rfl, -⟩ := h
              exact ⟨b1, b2⟩
            · simp only [Outcome.ok.injEq, Prod.mk.injEq] at h
              obtain ⟨rfl, rfl, -⟩ := h
              exact ⟨by rw [lookup_cons, if_neg hkx]; exact b1, b2⟩
          · intro ha
            obtain ⟨b1, b2, b3⟩ := a3 ha
            split at h
            · simp only [Outcome.ok.injEq, Prod.mk.injEq] at h
              obtain ⟨rfl, rfl, -⟩ := h
              exact ⟨b1, b2, b3⟩
            · simp only [Outcome.ok.injEq, Prod.mk.injEq] at h
              obtain ⟨rfl, rfl, -⟩ := h
              refine ⟨b1, fun hr => ?_, fun hr => ?_⟩
              · rw [lookup_cons, if_neg hkx]; exact b2 hr
              · rw [lookup_cons, if_neg hkx]; exact b3 hr

theorem missLocal_lookup (k : Kind P D Env) {l : Store P} (hn : (keys l).Nodup)
    {x : Nat} {f : Feat P} (hx : lookup x l = some f) :
    (k.isLost (settle false f) = true →
      lookup x (missLocal k l).1 = none ∧ settle false f ∈ (missLocal k l).2) ∧
    (k.isLost (settle false f) = false → lookup x (missLocal k l).1 = some (settle false f)) := by
  induction l with
  | nil => simp [lookup] at hx
  | cons p l ih =>
    obtain ⟨key, g⟩ := p
    simp only [keys_cons, List.nodup_cons] at hn
    have hsub := (missLocal_sub k l).1
    rw [lookup_cons] at hx
    simp only [missLocal]
    by_cases hk : key = x
    · rw [if_pos hk] at hx
      injection hx with hx
      subst hx
      subst hk
      constructor
      · intro hl
        simp only [hl, if_true, List.mem_cons, true_or, and_true]
        exact lookup_eq_none.2 fun hc => hn.1 (hsub.subset hc)
      · intro hl
        simp [hl, lookup_cons]
    · rw [if_neg hk] at hx
      obtain ⟨a1, a2⟩ := ih hn.2 hx
      constructor
      · intro hl
        obtain ⟨b1, b2⟩ := a1 hl
        split
        · exact ⟨b1, List.mem_cons_of_mem _ b2⟩
        · exact ⟨by rw [lookup_cons, if_neg hk]; exact b1, b2⟩
      · intro hl
        have b1 := a2 hl
        split
        · exact b1
        · rw [lookup_cons, if_neg hk]; exact b1

theorem missLocal_written (k : Kind P D Env) (l : Store P) :
    ∀ g ∈ (missLocal k l).2, k.isLost g = true ∧ ∃ p ∈ l, p.2.id = g.id := by
  induction l with
  | nil => simp [missLocal]
  | cons p l ih =>
    obtain ⟨key, f⟩ := p
    simp only [missLocal]
    intro g hg
    split at hg
    · rename_i hl
      rcases List.mem_cons.1 hg with rfl | hg
      · exact ⟨hl, (key, f), List.mem_cons_self, by simp⟩
      · obtain ⟨c1, q, hq, c2⟩ := ih g hg
        exact ⟨c1, q, List.mem_cons_of_mem _ hq, c2⟩
    · obtain ⟨c1, q, hq, c2⟩ := ih g hg
      exact ⟨c1, q, List.mem_cons_of_mem _ hq, c2⟩

theorem missStaged_lookup (k : Kind P D Env) {l : Store P} (hn : (keys l).Nodup)
    {x : Nat} {f : Feat P} (hx : lookup x l = some f) :
    (k.shouldRemove (settle false f) = true → lookup x (missStaged k l) = none) ∧
    (k.shouldRemove (settle false f) = false →
      lookup x (missStaged k l) = some (settle false f)) := by
  induction l with
  | nil => simp [lookup] at hx
  | cons p l ih =>
    obtain ⟨key, g⟩ := p
    simp only [keys_cons, List.nodup_cons] at hn
    have hsub := (missStaged_sub k l).1
    rw [lookup_cons] at hx
    simp only [missStaged]
    by_cases hk : key = x
    · rw [if_pos hk] at hx
      injection hx with hx
      subst hx
      subst hk
      constructor
      · intro hl
        simp only [hl, if_true]
        exact lookup_eq_none.2 fun hc => hn.1 (hsub.subset hc)
      · intro hl
        simp [hl, lookup_cons]
    · rw [if_neg hk] at hx
      obtain ⟨a1, a2⟩ := ih hn.2 hx
      constructor
      · intro hl
        have b1 := a1 hl
        split
        · exact b1
        · rw [lookup_cons, if_neg hk]; exact b1
      · intro hl
        have b1 := a2 hl
        split
        · exact b1
        · rw [lookup_cons, if_neg hk]; exact b1

theorem lookup_none_of_sub {a b : Store P} (h : (keys a).Sublist (keys b)) {x : Nat}
    (hx : lookup x b = none) : lookup x a = none :=
  lookup_eq_none.2 fun hc => lookup_eq_none.1 hx (h.subset hc)

/-- lookups only see `core` up to matches -/
theorem lookup_core {a b : Store P} (h : a.map core = b.map core) (x : Nat) :
    (lookup x a).map (fun f => (f.id, f.failed, f.succ, f.body)) =
    (lookup x b).map (fun f => (f.id, f.failed, f.succ, f.body)) := by
  induction a generalizing b with
  | nil =>
    cases b with
    | nil => rfl
    | cons q b => simp at h
  | cons p a ih =>
    cases b with
    | nil => simp at h
    | cons q b =>
      obtain ⟨k1, f1⟩ := p
      obtain ⟨k2, f2⟩ := q
      simp only [List.map_cons, List.cons.injEq, core, Prod.mk.injEq] at h
      obtain ⟨⟨rfl, e1, e2, e3, e4⟩, h⟩ := h
      rw [lookup_cons, lookup_cons]
      by_cases hk : k1 = x
      · simp [hk, e1, e2, e3, e4]
      · rw [if_neg hk, if_neg hk]
        exact ih h

theorem lookup_stageOne (k : Kind P D Env) (env : Env) (d : D) {s : State P} {x : Nat}
    (h : Inv s) (hx : x ≤ s.alloc.given) (hlt : (stageOne k env d s).alloc.given < 2 ^ 64) :
    lookup x (stageOne k env d s).map.staged = lookup x s.map.staged ∧
    (stageOne k env d s).map.localMap = s.map.localMap := by
  unfold stageOne at hlt ⊢
  split
  · rename_i hc
    simp only [hc, if_true] at hlt
    split
    · rename_i body hb
      simp only [hb, Alloc.given_next] at hlt
      obtain ⟨hn, hm, hw⟩ := fresh_not_mem h hlt
      simp only [List.mem_append, not_or] at hm
      dsimp only
      rw [emplace_of_not_mem hm.2, lookup_append, lookup_cons]
      have : s.alloc.next.last ≠ x := by omega
      rw [if_neg this]
      refine ⟨?_, rfl⟩
      cases lookup x s.map.staged <;> simp [lookup]
    · split <;> exact ⟨rfl, rfl⟩
  · exact ⟨rfl, rfl⟩

theorem lookup_stageFrom (k : Kind P D Env) (env : Env) (used : List Nat) (i : Nat) (ds : List D)
    {s : State P} {x : Nat} (h : Inv s) (hx : x ≤ s.alloc.given)
    (hlt : (stageFrom k env used i ds s).alloc.given < 2 ^ 64) :
    lookup x (stageFrom k env used i ds s).map.staged = lookup x s.map.staged ∧
    (stageFrom k env used i ds s).map.localMap = s.map.localMap := by
  induction ds generalizing i s with
  | nil => simp [stageFrom]
  | cons d ds ih =>
    simp only [stageFrom] at hlt ⊢
    split
    · rename_i hc
      simp only [hc, if_true] at hlt
      exact ih _ h hx hlt
    · rename_i hc
      rw [if_neg hc] at hlt
      have hlt1 := Nat.lt_of_le_of_lt (given_stageFrom k env used _ ds _) hlt
      have h1 := lookup_stageOne k env d h hx hlt1
      have h2 := ih _ (inv_stageOne k env d h hlt1)
        (Nat.le_trans hx (given_stageOne k env d s)) hlt
      exact ⟨h2.1.trans h1.1, h2.2.trans h1.2⟩

theorem lookup_addUpgraded (k : Kind P D Env) (us : List (Upgrade P)) {s : State P} {x : Nat}
    (h : Inv s) (hx : x ≤ s.alloc.given) (hlt : (addUpgraded k us s).1.alloc.given < 2 ^ 64) :
    lookup x (addUpgraded k us s).1.map.localMap = lookup x s.map.localMap ∧
    (addUpgraded k us s).1.map.staged = s.map.staged := by
  induction us generalizing s with
  | nil => simp [addUpgraded]
  | cons u us ih =>
    simp only [addUpgraded] at hlt ⊢
    split
    · rename_i ht
      simp only [ht, if_true] at hlt
      split
      · rename_i ha
        rw [ha] at hlt
        exact ih h hx hlt
      · exact ⟨rfl, rfl⟩
      · rename_i body ha
        rw [ha] at hlt
        dsimp only at hlt
        have hinv : Inv (addUpgraded k [u] s).1 := inv_addUpgraded k [u] h (by
          simp only [addUpgraded, ht, if_true, ha]
          have hlt3 := Nat.lt_of_le_of_lt (given_addUpgraded k us _) hlt
          exact hlt3)
        simp only [addUpgraded, ht, if_true, ha] at hinv
        have hlt2 := Nat.lt_of_le_of_lt (given_addUpgraded k us _) hlt
        have hlt2 : s.alloc.given + 1 < 2 ^ 64 := hlt2
        have h2 := ih hinv (by simp only [Alloc.given_next]; omega) hlt
        obtain ⟨hn, hm, hw⟩ := fresh_not_mem h hlt2
        simp only [List.mem_append, not_or] at hm
        refine ⟨h2.1.trans ?_, h2.2⟩
        dsimp only
        rw [emplace_of_not_mem hm.1, lookup_append, lookup_cons]
        have : s.alloc.next.last ≠ x := by omega
        rw [if_neg this]
        cases lookup x s.map.localMap <;> simp [lookup]
    · rename_i ht
      rw [if_neg ht] at hlt
      exact ih h hx hlt

end RgbdSlam.Map
