import Verif.Model.FeatureMap
/-
Helper lemmas on the feature map model: keys, well-formedness of stores, the id allocator.
-/
namespace RgbdSlam.Map

variable {P D Env : Type}

def keys (l : Store P) : List Nat := l.map (·.1)

def Keyed (l : Store P) : Prop := ∀ p ∈ l, p.1 = p.2.id

@[simp] theorem keys_nil : keys ([] : Store P) = [] := rfl
@[simp] theorem keys_cons (p : Nat × Feat P) (l : Store P) : keys (p :: l) = p.1 :: keys l := rfl
@[simp] theorem keys_append (a b : Store P) : keys (a ++ b) = keys a ++ keys b := by simp [keys]

theorem mem_keys {l : Store P} {x : Nat} : x ∈ keys l ↔ ∃ f, (x, f) ∈ l := by
  simp [keys]

@[simp] theorem keyed_nil : Keyed ([] : Store P) := by simp [Keyed]
@[simp] theorem keyed_cons {p : Nat × Feat P} {l : Store P} :
    Keyed (p :: l) ↔ p.1 = p.2.id ∧ Keyed l := by simp [Keyed]
@[simp] theorem keyed_append {a b : Store P} : Keyed (a ++ b) ↔ Keyed a ∧ Keyed b := by
  simp only [Keyed, List.mem_append]
  exact ⟨fun h => ⟨fun p hp => h p (.inl hp), fun p hp => h p (.inr hp)⟩,
    fun h p hp => hp.elim (h.1 p) (h.2 p)⟩

/-! ### lookup and emplace -/

theorem lookup_isSome {l : Store P} {x : Nat} : (lookup x l).isSome ↔ x ∈ keys l := by
  induction l with
  | nil => simp [lookup]
  | cons p l ih =>
    obtain ⟨k, f⟩ := p
    simp only [lookup, keys_cons, List.mem_cons]
    by_cases h : k = x
    · simp [h]
    · rw [if_neg h, ih]
      constructor
      · exact .inr
      · rintro (h' | h')
        · exact absurd h'.symm h
        · exact h'

theorem lookup_eq_none {l : Store P} {x : Nat} : lookup x l = none ↔ x ∉ keys l := by
  rw [← lookup_isSome]; cases lookup x l <;> simp

theorem lookup_mem {l : Store P} {x : Nat} {f : Feat P} (h : lookup x l = some f) : (x, f) ∈ l := by
  induction l with
  | nil => simp [lookup] at h
  | cons p l ih =>
    obtain ⟨k, g⟩ := p
    simp only [lookup] at h
    by_cases hk : k = x
    · rw [if_pos hk] at h
      cases h; subst hk; exact List.mem_cons_self
    · rw [if_neg hk] at h
      exact List.mem_cons_of_mem _ (ih h)

theorem lookup_of_mem {l : Store P} {x : Nat} {f : Feat P} (hn : (keys l).Nodup)
    (h : (x, f) ∈ l) : lookup x l = some f := by
  induction l with
  | nil => simp at h
  | cons p l ih =>
    obtain ⟨k, g⟩ := p
    simp only [keys_cons, List.nodup_cons] at hn
    rcases List.mem_cons.1 h with h | h
    · cases h; simp [lookup]
    · have : k ≠ x := by
        rintro rfl
        exact hn.1 (mem_keys.2 ⟨f, h⟩)
      simp [lookup, this, ih hn.2 h]

theorem lookup_append {a b : Store P} {x : Nat} :
    lookup x (a ++ b) = (lookup x a).or (lookup x b) := by
  induction a with
  | nil => simp [lookup]
  | cons p a ih =>
    obtain ⟨k, f⟩ := p
    simp only [List.cons_append, lookup]
    by_cases h : k = x <;> simp [h, ih]

theorem lookup_perm {a b : Store P} (hp : a.Perm b) (hn : (keys b).Nodup) (x : Nat) :
    lookup x a = lookup x b := by
  have hna : (keys a).Nodup := (List.Perm.nodup_iff (hp.map (fun q : Nat × Feat P => q.1))).2 hn
  cases h : lookup x b with
  | some f => exact lookup_of_mem hna (hp.mem_iff.2 (lookup_mem h))
  | none =>
    rw [lookup_eq_none] at h ⊢
    intro hx
    obtain ⟨f, hf⟩ := mem_keys.1 hx
    exact h (mem_keys.2 ⟨f, hp.mem_iff.1 hf⟩)

theorem emplace_of_not_mem {l : Store P} {x : Nat} {f : Feat P} (h : x ∉ keys l) :
    emplace x f l = l ++ [(x, f)] := by
  rw [← lookup_eq_none] at h
  simp [emplace, h]

/-! ### the allocator -/

theorem alloc_next_last {a : Alloc} (h : a.last + 1 < 2 ^ 64) : a.next.last = a.last + 1 := by
  simp only [Alloc.next, Nat.mod_eq_of_lt h]
  omega

/-- the allocator has not wrapped -/
def Alloc.Ok (a : Alloc) : Prop := a.given < 2 ^ 64 → a.last = a.given

theorem Alloc.ok_start : Alloc.start.Ok := fun _ => rfl

theorem Alloc.ok_next {a : Alloc} (h : a.Ok) : a.next.Ok := by
  intro hlt
  have hlt' : a.given + 1 < 2 ^ 64 := hlt
  have hl := h (by omega)
  rw [alloc_next_last (by omega)]
  simp only [Alloc.next, hl]

theorem Alloc.given_next (a : Alloc) : a.next.given = a.given + 1 := rfl

theorem Alloc.ok_skip (n : Nat) {a : Alloc} (h : a.Ok) : (a.skip n).Ok := by
  induction n generalizing a with
  | zero => exact h
  | succ n ih => exact ih (Alloc.ok_next h)

theorem Alloc.given_skip (n : Nat) (a : Alloc) : (a.skip n).given = a.given + n := by
  induction n generalizing a with
  | zero => rfl
  | succ n ih => simp [Alloc.skip, ih, Alloc.given_next]; omega

/-! ### matching keeps keys, ids and counters -/

/-- everything of a feature but its matches -/
def core (p : Nat × Feat P) : Nat × Nat × Nat × Int × P :=
  (p.1, p.2.id, p.2.failed, p.2.succ, p.2.body)

theorem matchPass_core (k : Kind P D Env) (env : Env) (det : List D) (b adv : Bool) (l : Store P)
    (fl : List Bool) : (matchPass k env det b adv l fl).1.map core = l.map core := by
  induction l generalizing fl with
  | nil => rfl
  | cons p l ih =>
    obtain ⟨key, f⟩ := p
    simp only [matchPass]
    split
    · simp [ih, core]
    · simp [ih, core]

theorem keys_of_core {a b : Store P} (h : a.map core = b.map core) : keys a = keys b := by
  have : (a.map core).map (·.1) = (b.map core).map (·.1) := by rw [h]
  simpa [keys, core, List.map_map, Function.comp_def] using this

theorem keyed_iff_map {l : Store P} :
    Keyed l ↔ ∀ q ∈ l.map core, q.1 = q.2.1 := by
  constructor
  · intro h q hq
    obtain ⟨p, hp, rfl⟩ := List.mem_map.1 hq
    exact h p hp
  · intro h p hp
    exact h (core p) (List.mem_map_of_mem hp)

theorem keyed_of_core {a b : Store P} (h : a.map core = b.map core) (hb : Keyed b) : Keyed a := by
  rw [keyed_iff_map] at hb ⊢
  rw [h]; exact hb

theorem matchOnce_core (k : Kind P D Env) (env : Env) (det : List D) (adv : Bool) (old : List Match)
    (m : FMap P) :
    (matchOnce k env det adv old m).1.localMap.map core = m.localMap.map core ∧
    (matchOnce k env det adv old m).1.staged.map core = m.staged.map core ∧
    (matchOnce k env det adv old m).1.active = m.active := by
  unfold matchOnce
  split
  · simp
  · simp [matchPass_core]

theorem getMatches_core (k : Kind P D Env) (env : Env) (det : List D) (m : FMap P) :
    (getMatches k env det m).1.localMap.map core = m.localMap.map core ∧
    (getMatches k env det m).1.staged.map core = m.staged.map core ∧
    (getMatches k env det m).1.active = m.active := by
  have h1 := matchOnce_core k env det false [] m
  simp only [getMatches]
  split
  · have h2 := matchOnce_core k env det true (matchOnce k env det false [] m).2
      (matchOnce k env det false [] m).1
    exact ⟨h2.1.trans h1.1, h2.2.1.trans h1.2.1, h2.2.2.trans h1.2.2⟩
  · exact h1

/-! ### update -/

@[simp] theorem settle_id (b : Bool) (f : Feat P) : (settle b f).id = f.id := by
  cases b <;> rfl

theorem applyMatches_spec {k : Kind P D Env} {env : Env} {det : List D} {all : Bool}
    {is : List Nat} {f f' : Feat P} {hit : Bool} {used : List Nat}
    (h : applyMatches k env det all is f = .ok (f', hit, used)) :
    f'.id = f.id ∧ f'.failed = f.failed ∧ f'.succ = f.succ ∧ f'.matched = f.matched := by
  induction is generalizing f f' hit used with
  | nil => simp [applyMatches] at h; simp [h.1]
  | cons i is ih =>
    simp only [applyMatches] at h
    split at h
    · simp at h
    · obtain ⟨⟨body, good⟩, _, h⟩ := Outcome.bind_eq_ok h
      obtain ⟨⟨f2, good', used'⟩, h2, h⟩ := Outcome.bind_eq_ok h
      simp only [Outcome.ok.injEq, Prod.mk.injEq] at h
      have := ih h2
      rw [← h.1]
      exact this

theorem updateLocal_sub {k : Kind P D Env} {env : Env} {det : List D} {l kept : Store P}
    {used : List Nat} {wr : List (Feat P)} (h : updateLocal k env det l = .ok (kept, used, wr)) :
    (keys kept).Sublist (keys l) ∧ (Keyed l → Keyed kept) ∧
    (wr.map (·.id)).Sublist (l.map (·.2.id)) ∧
    (Keyed l → (keys l).Nodup → ∀ x ∈ wr.map (·.id), x ∉ keys kept) := by
  induction l generalizing kept used wr with
  | nil => simp [updateLocal] at h; simp [h]
  | cons p l ih =>
    obtain ⟨key, f⟩ := p
    simp only [updateLocal] at h
    obtain ⟨⟨f1, hit, used1⟩, h1, h⟩ := Outcome.bind_eq_ok h
    obtain ⟨⟨kept', used', wr'⟩, h2, h⟩ := Outcome.bind_eq_ok h
    have hid := (applyMatches_spec h1).1
    obtain ⟨i1, i2, i3, i4⟩ := ih h2
    simp only at h
    split at h
    · simp only [Outcome.ok.injEq, Prod.mk.injEq] at h
      obtain ⟨rfl, -, rfl⟩ := h
      refine ⟨?_, ?_, ?_, ?_⟩
      · simp only [keys_cons]; exact i1.trans (List.sublist_cons_self _ _)
      · intro hk; exact i2 (keyed_cons.1 hk).2
      · split
        · exact i3.trans (List.sublist_cons_self _ _)
        · simp only [List.map_cons, settle_id, hid]; exact i3.cons_cons _
      · intro hk hn x hx
        simp only [keys_cons, List.nodup_cons] at hn
        have hk2 := keyed_cons.1 hk
        split at hx
        · exact i4 hk2.2 hn.2 x hx
        · simp only [List.map_cons, settle_id, hid, List.mem_cons] at hx
          rcases hx with rfl | hx
          · have : key = f.id := hk2.1
            rw [← this]
            intro hc; exact hn.1 (i1.subset hc)
          · exact i4 hk2.2 hn.2 x hx
    · simp only [Outcome.ok.injEq, Prod.mk.injEq] at h
      obtain ⟨rfl, -, rfl⟩ := h
      refine ⟨?_, ?_, ?_, ?_⟩
      · simp only [keys_cons]; exact i1.cons_cons _
      · intro hk
        have hk2 := keyed_cons.1 hk
        simp only [keyed_cons, settle_id, hid]
        exact ⟨hk2.1, i2 hk2.2⟩
      · exact i3.trans (List.sublist_cons_self _ _)
      · intro hk hn x hx
        simp only [keys_cons, List.nodup_cons] at hn
        have hk2 := keyed_cons.1 hk
        simp only [keys_cons, List.mem_cons, not_or]
        refine ⟨?_, i4 hk2.2 hn.2 x hx⟩
        rintro rfl
        have hxl : x ∈ l.map (·.2.id) := i3.subset hx
        obtain ⟨q, hq, hqx⟩ := List.mem_map.1 hxl
        apply hn.1
        rw [← hqx, ← hk2.2 q hq]
        exact List.mem_map_of_mem hq

theorem updateStaged_sub {k : Kind P D Env} {env : Env} {det : List D} {n : Nat}
    {todo loc stg loc' : Store P} {used : List Nat}
    (h : updateStaged k env det n todo loc = .ok (stg, loc', used))
    (hk : Keyed todo) (hkl : Keyed loc) (hn : (keys todo ++ keys loc).Nodup) :
    (keys stg).Sublist (keys todo) ∧ Keyed stg ∧ Keyed loc' ∧ (keys stg ++ keys loc').Nodup ∧
    (∀ x ∈ keys loc', x ∈ keys todo ∨ x ∈ keys loc) ∧ (∀ x ∈ keys loc, x ∈ keys loc') := by
  induction n generalizing todo loc stg loc' used with
  | zero =>
    cases todo with
    | nil =>
      simp [updateStaged] at h
      obtain ⟨rfl, rfl, rfl⟩ := h
      simp [hkl]; simpa using hn
    | cons p l => simp [updateStaged] at h
  | succ n ih =>
    cases todo with
    | nil =>
      simp [updateStaged] at h
      obtain ⟨rfl, rfl, rfl⟩ := h
      simp [hkl]; simpa using hn
    | cons p l =>
      obtain ⟨key, f⟩ := p
      simp only [updateStaged] at h
      obtain ⟨⟨f1, hit, used1⟩, h1, h⟩ := Outcome.bind_eq_ok h
      have hid := (applyMatches_spec h1).1
      have hk2 := keyed_cons.1 hk
      have hkey : key = f.id := hk2.1
      simp only at h
      have hn' := hn
      simp only [keys_cons, List.cons_append, List.nodup_cons, List.mem_append, not_or] at hn'
      split at h
      · split at h
        · obtain ⟨⟨stg', loc2, used'⟩, h2, h⟩ := Outcome.bind_eq_ok h
          simp only [Outcome.ok.injEq, Prod.mk.injEq] at h
          obtain ⟨rfl, rfl, -⟩ := h
          have hnm : (settle hit f1).id ∉ keys loc := by rw [settle_id, hid, ← hkey]; exact hn'.1.2
          rw [emplace_of_not_mem hnm] at h2
          have := ih h2 hk2.2 (by
              simp only [keyed_append, keyed_cons, keyed_nil, and_true]
              exact ⟨hkl, by simp [promoted]⟩)
            (by
              simp only [keys_append, keys_cons, keys_nil, settle_id, hid, ← hkey]
              rw [← List.append_assoc, List.nodup_append]
              refine ⟨hn'.2, by simp, ?_⟩
              intro a ha b hb
              simp only [List.mem_singleton] at hb
              subst hb
              rintro rfl
              rcases List.mem_append.1 ha with ha | ha
              · exact hn'.1.1 ha
              · exact hn'.1.2 ha)
          obtain ⟨a1, a2, a3, a4, a5, a6⟩ := this
          refine ⟨a1.trans (List.sublist_cons_self _ _), a2, a3, a4, ?_, ?_⟩
          · intro x hx
            rcases a5 x hx with hx | hx
            · left; simp [hx]
            · simp only [keys_append, keys_cons, keys_nil, settle_id, hid, ← hkey,
                List.mem_append, List.mem_singleton] at hx
              rcases hx with hx | hx
              · exact .inr hx
              · left; simp [hx]
          · intro x hx; exact a6 x (by simp [hx])
        · obtain ⟨⟨stg', loc2, used'⟩, h2, h⟩ := Outcome.bind_eq_ok h
          simp only [Outcome.ok.injEq, Prod.mk.injEq] at h
          obtain ⟨rfl, rfl, -⟩ := h
          have hks : Keyed ((key, settle hit f1) :: l) := by
            simp only [keyed_cons, settle_id, hid]; exact hk2
          have := ih h2 hks hkl hn
          exact this
      · obtain ⟨⟨stg', loc2, used'⟩, h2, h⟩ := Outcome.bind_eq_ok h
        obtain ⟨a1, a2, a3, a4, a5, a6⟩ := ih h2 hk2.2 hkl hn'.2
        split at h
        · simp only [Outcome.ok.injEq, Prod.mk.injEq] at h
          obtain ⟨rfl, rfl, -⟩ := h
          refine ⟨a1.trans (List.sublist_cons_self _ _), a2, a3, a4, ?_, a6⟩
          intro x hx
          rcases a5 x hx with hx | hx
          · left; simp [hx]
          · exact .inr hx
        · simp only [Outcome.ok.injEq, Prod.mk.injEq] at h
          obtain ⟨rfl, rfl, -⟩ := h
          refine ⟨by simp only [keys_cons]; exact a1.cons_cons _, ?_, a3, ?_, ?_, a6⟩
          · simp only [keyed_cons, settle_id, hid]; exact ⟨hk2.1, a2⟩
          · simp only [keys_cons, List.cons_append, List.nodup_cons, List.mem_append, not_or]
            refine ⟨⟨fun hc => hn'.1.1 (a1.subset hc), ?_⟩, a4⟩
            intro hc
            rcases a5 _ hc with hc | hc
            · exact hn'.1.1 hc
            · exact hn'.1.2 hc
          · intro x hx
            rcases a5 x hx with hx | hx
            · left; simp [hx]
            · exact .inr hx

theorem missLocal_sub (k : Kind P D Env) (l : Store P) :
    (keys (missLocal k l).1).Sublist (keys l) ∧ (Keyed l → Keyed (missLocal k l).1) ∧
    ((missLocal k l).2.map (·.id)).Sublist (l.map (·.2.id)) ∧
    (Keyed l → (keys l).Nodup →
      ∀ x ∈ (missLocal k l).2.map (·.id), x ∉ keys (missLocal k l).1) := by
  induction l with
  | nil => simp [missLocal]
  | cons p l ih =>
    obtain ⟨key, f⟩ := p
    obtain ⟨i1, i2, i3, i4⟩ := ih
    simp only [missLocal]
    split
    · refine ⟨i1.trans (List.sublist_cons_self _ _), fun hk => i2 (keyed_cons.1 hk).2, ?_, ?_⟩
      · simp only [List.map_cons, settle_id]; exact i3.cons_cons _
      · intro hk hn x hx
        simp only [keys_cons, List.nodup_cons] at hn
        have hk2 := keyed_cons.1 hk
        simp only [List.map_cons, settle_id, List.mem_cons] at hx
        rcases hx with rfl | hx
        · have : key = f.id := hk2.1
          rw [← this]
          intro hc; exact hn.1 (i1.subset hc)
        · exact i4 hk2.2 hn.2 x hx
    · refine ⟨by simp only [keys_cons]; exact i1.cons_cons _, ?_,
        i3.trans (List.sublist_cons_self _ _), ?_⟩
      · intro hk
        have hk2 := keyed_cons.1 hk
        simp only [keyed_cons, settle_id]; exact ⟨hk2.1, i2 hk2.2⟩
      · intro hk hn x hx
        simp only [keys_cons, List.nodup_cons] at hn
        have hk2 := keyed_cons.1 hk
        simp only [keys_cons, List.mem_cons, not_or]
        refine ⟨?_, i4 hk2.2 hn.2 x hx⟩
        rintro rfl
        have hxl : x ∈ l.map (·.2.id) := i3.subset hx
        obtain ⟨q, hq, hqx⟩ := List.mem_map.1 hxl
        apply hn.1
        rw [← hqx, ← hk2.2 q hq]
        exact List.mem_map_of_mem hq

theorem missStaged_sub (k : Kind P D Env) (l : Store P) :
    (keys (missStaged k l)).Sublist (keys l) ∧ (Keyed l → Keyed (missStaged k l)) := by
  induction l with
  | nil => simp [missStaged]
  | cons p l ih =>
    obtain ⟨key, f⟩ := p
    simp only [missStaged]
    split
    · exact ⟨ih.1.trans (List.sublist_cons_self _ _), fun hk => ih.2 (keyed_cons.1 hk).2⟩
    · refine ⟨by simp only [keys_cons]; exact ih.1.cons_cons _, ?_⟩
      intro hk
      have hk2 := keyed_cons.1 hk
      simp only [keyed_cons, settle_id]; exact ⟨hk2.1, ih.2 hk2.2⟩

theorem takeUpgraded_sub (k : Kind P D Env) (env : Env) (l : Store P) :
    (takeUpgraded k env l).1.Sublist l := by
  induction l with
  | nil => simp [takeUpgraded]
  | cons p l ih =>
    obtain ⟨key, f⟩ := p
    simp only [takeUpgraded]
    split
    · exact ih.trans (List.sublist_cons_self _ _)
    · exact ih.cons_cons _

theorem Keyed.sublist {a b : Store P} (h : a.Sublist b) (hb : Keyed b) : Keyed a :=
  fun p hp => hb p (h.subset hp)

theorem keys_sublist {a b : Store P} (h : a.Sublist b) : (keys a).Sublist (keys b) := h.map _

theorem eraseMatch_core (key det : Nat) (l : Store P) :
    (eraseMatch key det l).map core = l.map core := by
  simp only [eraseMatch, List.map_map]
  apply List.map_congr_left
  intro p _
  obtain ⟨k, f⟩ := p
  simp only [Function.comp]
  split <;> simp [core]

theorem markUnmatched_core (id det : Nat) (m : FMap P) :
    (markUnmatched id det m).1.localMap.map core = m.localMap.map core ∧
    (markUnmatched id det m).1.staged.map core = m.staged.map core ∧
    (markUnmatched id det m).1.active = m.active := by
  unfold markUnmatched
  repeat' split
  all_goals simp [eraseMatch_core]

theorem markOutliers_core (t : FType) (os : List Match) (m : FMap P) :
    (markOutliers t os m).localMap.map core = m.localMap.map core ∧
    (markOutliers t os m).staged.map core = m.staged.map core ∧
    (markOutliers t os m).active = m.active := by
  induction os generalizing m with
  | nil => simp [markOutliers]
  | cons o os ih =>
    simp only [markOutliers]
    split
    · have h1 := markUnmatched_core o.idInMap o.detected m
      have h2 := ih (markUnmatched o.idInMap o.detected m).1
      exact ⟨h2.1.trans h1.1, h2.2.1.trans h1.2.1, h2.2.2.trans h1.2.2⟩
    · exact ih m

end RgbdSlam.Map
