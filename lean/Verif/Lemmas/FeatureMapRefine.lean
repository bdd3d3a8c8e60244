import Verif.Lemmas.FeatureMapLife
import Verif.Spec.FeatureMap
/-
The life of one feature is a function of its matches and misses.
-/
namespace RgbdSlam.Map

variable {P D Env : Type}

/-- Counters of a feature. -/
inductive Status where
  | absent
  | staged (net : Int) (miss : Nat)
  | mapped (miss : Nat)
  deriving DecidableEq, Repr

structure Rule where
  add : Int → Nat → Bool
  remove : Int → Nat → Bool
  lost : Nat → Bool
  /-- a miss does not promote, a new candidate is not promoted -/
  addMiss : ∀ n m, add (n - 1) (m + 1) = true → add n m = true
  addNew : add 0 0 = false

structure Follows (k : Kind P D Env) (r : Rule) : Prop where
  add : ∀ f, k.shouldAdd f = r.add f.succ f.failed
  remove : ∀ f, k.shouldRemove f = r.remove f.succ f.failed
  lost : ∀ f, k.isLost f = r.lost f.failed
  promote : ∀ f, k.promote f ≠ none

def stagedNext (r : Rule) (n : Int) (m : Nat) : Status :=
  if r.add n m then .mapped 0 else if r.remove n m then .absent else .staged n m

def lifeStep (r : Rule) : Status → Bool → Status
  | .absent, _ => .absent
  | .mapped _, true => if r.lost 0 then .absent else .mapped 0
  | .mapped m, false => if r.lost (m + 1) then .absent else .mapped (m + 1)
  | .staged n _, true => stagedNext r (n + 1) 0
  | .staged n m, false => stagedNext r (n - 1) (m + 1)

def observe (s : State P) (x : Nat) : Status :=
  match lookup x s.map.localMap with
  | some f => .mapped f.failed
  | none =>
    match lookup x s.map.staged with
    | some f => .staged f.succ f.failed
    | none => .absent

/-- no candidate is waiting for promotion -/
def Waiting (r : Rule) (s : State P) : Prop := ∀ p ∈ s.map.staged, r.add p.2.succ p.2.failed = false

theorem applyMatches_hit {k : Kind P D Env} {env : Env} {det : List D} {all : Bool}
    {is : List Nat} {f f' : Feat P} {hit : Bool} {used : List Nat}
    (h : applyMatches k env det all is f = .ok (f', hit, used)) :
    accepted k env det is f = hit := by
  induction is generalizing f f' hit used with
  | nil => simp [applyMatches] at h; simp [accepted, h.2.1]
  | cons i is ih =>
    simp only [applyMatches] at h
    simp only [accepted]
    split at h
    · cases h
    · rename_i d hd
      obtain ⟨⟨body, good⟩, h1, h⟩ := Outcome.bind_eq_ok h
      obtain ⟨⟨f2, good', used'⟩, h2, h⟩ := Outcome.bind_eq_ok h
      simp only [Outcome.ok.injEq, Prod.mk.injEq] at h
      rw [Outcome.noexcept_eq_ok] at h1
      simp only [hd, h1]
      rw [ih h2]
      exact h.2.1

theorem lookup_find {l : Store P} (hk : Keyed l) (x : Nat) :
    (l.map (·.2)).find? (·.id = x) = lookup x l := by
  induction l with
  | nil => rfl
  | cons p l ih =>
    obtain ⟨key, f⟩ := p
    simp only [keyed_cons] at hk
    rw [lookup_cons, List.map_cons, List.find?_cons, hk.1, ih hk.2]
    by_cases h : f.id = x <;> simp [h]

theorem featureOf_eq {s : State P} (h : Inv s) (x : Nat) :
    featureOf s x = (lookup x s.map.localMap).or (lookup x s.map.staged) := by
  simp only [featureOf, features, List.find?_append, lookup_find h.keyedL, lookup_find h.keyedS]

theorem exists_id {l : Store P} (hk : Keyed l) (x : Nat) :
    (∃ f ∈ l, f.2.id = x) ↔ (lookup x l).isSome := by
  rw [lookup_isSome, mem_keys]
  constructor
  · rintro ⟨⟨key, f⟩, hm, rfl⟩
    exact ⟨f, by have := hk _ hm; simp only at this; rw [← this]; exact hm⟩
  · rintro ⟨f, hm⟩
    exact ⟨(x, f), hm, (hk _ hm).symm⟩

def Status.place : Status → Place
  | .absent => .absent
  | .staged _ _ => .staged
  | .mapped _ => .mapped

theorem place_eq {s : State P} (h : Inv s) (x : Nat) : place s x = (observe s x).place := by
  unfold place observe
  simp only [exists_id h.keyedL, exists_id h.keyedS]
  cases h1 : lookup x s.map.localMap with
  | some f => simp [Status.place]
  | none =>
    cases h2 : lookup x s.map.staged with
    | some f => simp [Status.place]
    | none => simp [Status.place]

theorem observe_core {s s' : State P} (hl : s'.map.localMap.map core = s.map.localMap.map core)
    (hs : s'.map.staged.map core = s.map.staged.map core) (x : Nat) :
    observe s' x = observe s x := by
  have e1 := lookup_core hl x
  have e2 := lookup_core hs x
  unfold observe
  cases a1 : lookup x s'.map.localMap <;> cases b1 : lookup x s.map.localMap <;>
    simp only [a1, b1, Option.map_none, Option.map_some, Option.some.injEq, Prod.mk.injEq,
      reduceCtorEq] at e1 ⊢
  · cases a2 : lookup x s'.map.staged <;> cases b2 : lookup x s.map.staged <;>
      simp only [a2, b2, Option.map_none, Option.map_some, Option.some.injEq, Prod.mk.injEq,
        reduceCtorEq] at e2 ⊢
    rw [e2.2.1, e2.2.2.1]
  · rw [e1.2.1]

theorem waiting_core {r : Rule} {s s' : State P}
    (hs : s'.map.staged.map core = s.map.staged.map core) (h : Waiting r s) : Waiting r s' := by
  intro p hp
  have hm : core p ∈ s.map.staged.map core := by rw [← hs]; exact List.mem_map_of_mem hp
  obtain ⟨q, hq, he⟩ := List.mem_map.1 hm
  simp only [core, Prod.mk.injEq] at he
  rw [← he.2.2.1, ← he.2.2.2.1]
  exact h q hq

/-! every operation against the counters -/

theorem observe_absent {s : State P} {x : Nat} :
    observe s x = .absent ↔ x ∉ keys s.map.localMap ++ keys s.map.staged := by
  unfold observe
  rw [List.mem_append, not_or, ← lookup_eq_none, ← lookup_eq_none]
  cases lookup x s.map.localMap <;> cases lookup x s.map.staged <;> simp

theorem observe_update {k : Kind P D Env} {r : Rule} (hk : Follows k r) {fuel : Nat} {env : Env}
    {det : List D} {s s' : State P} {used : List Nat} (h : Inv s) (ha : s.map.active = true)
    (hc : k.covValid env = true)
    (hr : updateMap k fuel env det s = .ok (s', used)) (x : Nat) :
    (∀ f, featureOf s x = some f →
      observe s' x = lifeStep r (observe s x) (accepted k env det f.matched f)) ∧
    (featureOf s x = none → observe s' x = .absent) := by
  unfold updateMap at hr
  simp only [ha, hc, Bool.not_true, Bool.false_eq_true, if_false] at hr
  obtain ⟨⟨loc, used1, wr⟩, h1, hr⟩ := Outcome.bind_eq_ok hr
  obtain ⟨⟨stg, loc', used2⟩, h2, hr⟩ := Outcome.bind_eq_ok hr
  simp only [Outcome.ok.injEq, Prod.mk.injEq] at hr
  obtain ⟨rfl, -⟩ := hr
  obtain ⟨a1, a2, a3, a4⟩ := updateLocal_sub h1
  have hnd := h.nodup
  rw [List.nodup_append] at hnd
  have hn2 : (keys s.map.staged ++ keys loc).Nodup := by
    rw [List.nodup_append]
    refine ⟨hnd.2.1, hnd.1.sublist a1, ?_⟩
    intro x hx y hy hxy
    exact hnd.2.2 y (a1.subset hy) x hx hxy.symm
  obtain ⟨b1, b2, b3, b4, b5, b6⟩ := updateStaged_sub h2 h.keyedS (a2 h.keyedL) hn2
  rw [featureOf_eq h]
  cases hl : lookup x s.map.localMap with
  | some f =>
    have hxs : x ∉ keys s.map.staged := fun hc => hnd.2.2 x (by
      rw [← lookup_isSome, hl]; rfl) x hc rfl
    have hstg : lookup x stg = none := lookup_eq_none.2 fun hc => hxs (b1.subset hc)
    obtain ⟨f1, hit, u, c1, c2, c3⟩ := updateLocal_lookup h1 hnd.1 hl
    have hsp := applyMatches_spec c1
    have hloc := updateStaged_other h2 h.keyedS hxs
    refine ⟨fun g hg => ?_, fun hg => by simp at hg⟩
    simp only [Option.some_or, Option.some.injEq] at hg
    subst hg
    rw [applyMatches_hit c1]
    have e1 : observe s x = .mapped f.failed := by simp [observe, hl]
    rw [e1]
    have hfail : (settle hit f1).failed = if hit then 0 else f.failed + 1 := by
      cases hit <;> simp [settle, hsp.2.1]
    by_cases hlost : k.isLost (settle hit f1) = true
    · have hl2 := (c2 hlost).1
      rw [hk.lost, hfail] at hlost
      cases hit <;> simp_all [lifeStep, observe]
    · rw [Bool.not_eq_true] at hlost
      have hl2 := c3 hlost
      rw [hk.lost, hfail] at hlost
      cases hit <;> simp_all [lifeStep, observe]
  | none =>
    have hlocn : lookup x loc = none := lookup_none_of_sub a1 hl
    cases hs : lookup x s.map.staged with
    | some f =>
      obtain ⟨f1, hit, u, c1, c2, c3⟩ :=
        updateStaged_lookup hk.promote h2 h.keyedS (a2 h.keyedL) hn2 hs
      have hsp := applyMatches_spec c1
      refine ⟨fun g hg => ?_, fun hg => by simp at hg⟩
      simp only [Option.none_or, Option.some.injEq] at hg
      subst hg
      rw [applyMatches_hit c1]
      have e1 : observe s x = .staged f.succ f.failed := by simp [observe, hl, hs]
      rw [e1]
      have hfail : (settle hit f1).failed = if hit then 0 else f.failed + 1 := by
        cases hit <;> simp [settle, hsp.2.1]
      have hsucc : (settle hit f1).succ = if hit then f.succ + 1 else f.succ - 1 := by
        cases hit <;> simp [settle, hsp.2.2.1]
      have hls : lifeStep r (.staged f.succ f.failed) hit =
          stagedNext r (settle hit f1).succ (settle hit f1).failed := by
        rw [hsucc, hfail]; cases hit <;> rfl
      rw [hls]
      unfold stagedNext
      rw [← hk.add, ← hk.remove]
      cases hadd : k.shouldAdd (settle hit f1) with
      | true =>
        obtain ⟨d1, body, d2, d3⟩ := c2 hadd
        simp [observe, d3, promoted]
      | false =>
        obtain ⟨d1, d2, d3⟩ := c3 hadd
        cases hrem : k.shouldRemove (settle hit f1) with
        | true => simp [observe, d1, d2 hrem]
        | false => simp [observe, d1, d3 hrem]
    | none =>
      refine ⟨fun g hg => by simp at hg, fun _ => ?_⟩
      have hstg : lookup x stg = none := lookup_none_of_sub b1 hs
      have hloc := updateStaged_other h2 h.keyedS (lookup_eq_none.1 hs)
      simp [observe, hloc, hlocn, hstg]

theorem waiting_staged {k : Kind P D Env} {r : Rule} (hk : Follows k r) {env : Env} {det : List D}
    {n : Nat} {todo loc stg loc' : Store P} {used : List Nat}
    (h : updateStaged k env det n todo loc = .ok (stg, loc', used)) :
    ∀ p ∈ stg, r.add p.2.succ p.2.failed = false := by
  induction n generalizing todo loc stg loc' used with
  | zero =>
    cases todo with
    | nil => simp [updateStaged] at h; simp [h.1]
    | cons p l => simp [updateStaged] at h
  | succ n ih =>
    cases todo with
    | nil => simp [updateStaged] at h; simp [h.1]
    | cons p l =>
      obtain ⟨key, f⟩ := p
      simp only [updateStaged] at h
      obtain ⟨⟨f1, hit, used1⟩, h1, h⟩ := Outcome.bind_eq_ok h
      simp only at h
      split at h
      · split at h
        · obtain ⟨⟨stg', loc2, used'⟩, h2, h⟩ := Outcome.bind_eq_ok h
          simp only [Outcome.ok.injEq, Prod.mk.injEq] at h
          obtain ⟨rfl, -, -⟩ := h
          exact ih h2
        · rename_i hb
          exact absurd hb (hk.promote _)
      · rename_i hadd
        obtain ⟨⟨stg', loc2, used'⟩, h2, h⟩ := Outcome.bind_eq_ok h
        have := ih h2
        split at h
        · simp only [Outcome.ok.injEq, Prod.mk.injEq] at h
          obtain ⟨rfl, -, -⟩ := h; exact this
        · simp only [Outcome.ok.injEq, Prod.mk.injEq] at h
          obtain ⟨rfl, -, -⟩ := h
          intro p hp
          rcases List.mem_cons.1 hp with rfl | hp
          · rw [hk.add] at hadd; simpa using hadd
          · exact this p hp

theorem waiting_miss {k : Kind P D Env} {r : Rule} (l : Store P)
    (h : ∀ p ∈ l, r.add p.2.succ p.2.failed = false) :
    ∀ p ∈ missStaged k l, r.add p.2.succ p.2.failed = false := by
  induction l with
  | nil => simp [missStaged]
  | cons p l ih =>
    obtain ⟨key, f⟩ := p
    simp only [missStaged]
    have ih' := ih fun q hq => h q (List.mem_cons_of_mem _ hq)
    intro q hq
    split at hq
    · exact ih' q hq
    · rcases List.mem_cons.1 hq with rfl | hq
      · have := h _ List.mem_cons_self
        simp only at this
        simp only [settle, Bool.false_eq_true, if_false]
        by_cases hc : r.add (f.succ - 1) (f.failed + 1) = true
        · rw [r.addMiss _ _ hc] at this; cases this
        · simpa using hc
      · exact ih' q hq

theorem observe_miss {k : Kind P D Env} {r : Rule} (hk : Follows k r) {s : State P} (h : Inv s)
    (hw : Waiting r s) (ha : s.map.active = true) (x : Nat) :
    observe (updateNoTracking k s) x = lifeStep r (observe s x) false := by
  unfold updateNoTracking
  simp only [ha, Bool.not_true, Bool.false_eq_true, if_false]
  have hnd := h.nodup
  rw [List.nodup_append] at hnd
  have hsubl := (missLocal_sub k s.map.localMap).1
  have hsubs := (missStaged_sub k s.map.staged).1
  cases hl : lookup x s.map.localMap with
  | some f =>
    have hxs : lookup x s.map.staged = none := lookup_eq_none.2 fun hc => hnd.2.2 x (by
      rw [← lookup_isSome, hl]; rfl) x hc rfl
    have hstg := lookup_none_of_sub hsubs hxs
    obtain ⟨c1, c2⟩ := missLocal_lookup k hnd.1 hl
    have hfail : (settle false f).failed = f.failed + 1 := rfl
    rw [hk.lost, hfail] at c1 c2
    have e1 : observe s x = .mapped f.failed := by simp [observe, hl]
    rw [e1]
    simp only [lifeStep]
    cases hlost : r.lost (f.failed + 1) with
    | true => simp [observe, (c1 hlost).1, hstg]
    | false => simp [observe, c2 hlost, hfail]
  | none =>
    have hloc := lookup_none_of_sub hsubl hl
    cases hs : lookup x s.map.staged with
    | some f =>
      obtain ⟨c1, c2⟩ := missStaged_lookup k hnd.2.1 hs
      rw [hk.remove] at c1 c2
      have e1 : observe s x = .staged f.succ f.failed := by simp [observe, hl, hs]
      rw [e1]
      simp only [lifeStep, stagedNext]
      have hadd : r.add (f.succ - 1) (f.failed + 1) = false := by
        by_cases hc : r.add (f.succ - 1) (f.failed + 1) = true
        · have := hw _ (lookup_mem hs)
          rw [r.addMiss _ _ hc] at this; cases this
        · simpa using hc
      rw [hadd]
      have hf2 : (settle false f).failed = f.failed + 1 := rfl
      have hs2 : (settle false f).succ = f.succ - 1 := rfl
      rw [hs2, hf2] at c1 c2
      cases hrem : r.remove (f.succ - 1) (f.failed + 1) with
      | true => simp [observe, hloc, c1 hrem]
      | false => simp [observe, hloc, c2 hrem, hs2, hf2]
    | none =>
      have hstg := lookup_none_of_sub hsubs hs
      simp [observe, hloc, hstg, hl, hs, lifeStep]

theorem lookup_of_sublist {a b : Store P} (hs : a = b) (x : Nat) : lookup x a = lookup x b := by
  rw [hs]

theorem takeUpgraded_none {k : Kind P D Env} {env : Env} (h : ∀ f, k.upgrade env f = none)
    (l : Store P) : (takeUpgraded k env l).1 = l := by
  induction l with
  | nil => rfl
  | cons p l ih =>
    obtain ⟨key, f⟩ := p
    simp only [takeUpgraded, h]
    rw [ih]

/-- new candidates are not waiting -/
theorem waiting_stageOne {k : Kind P D Env} {r : Rule} (env : Env) (d : D) {s : State P}
    (h : Waiting r s) : Waiting r (stageOne k env d s) := by
  unfold stageOne
  split
  · split
    · intro p hp
      simp only [emplace] at hp
      split at hp
      · exact h p hp
      · rcases List.mem_append.1 hp with hp | hp
        · exact h p hp
        · simp only [List.mem_singleton] at hp
          subst hp
          exact r.addNew
    · split <;> exact h
  · exact h

theorem waiting_stageFrom {k : Kind P D Env} {r : Rule} (env : Env) (used : List Nat) (i : Nat)
    (ds : List D) {s : State P} (h : Waiting r s) : Waiting r (stageFrom k env used i ds s) := by
  induction ds generalizing i s with
  | nil => simpa [stageFrom] using h
  | cons d ds ih =>
    simp only [stageFrom]
    split
    · exact ih _ h
    · exact ih _ (waiting_stageOne env d h)

theorem addUpgraded_staged (k : Kind P D Env) (us : List (Upgrade P)) (s : State P) :
    (addUpgraded k us s).1.map.staged = s.map.staged := by
  induction us generalizing s with
  | nil => rfl
  | cons u us ih =>
    simp only [addUpgraded]
    split
    · split
      · exact ih s
      · rfl
      · exact ih _
    · exact ih s

theorem waiting_step {k : Kind P D Env} {r : Rule} (hk : Follows k r) {op : Op P D Env}
    {s s' : State P} (hw : Waiting r s) (hr : step k op s = .ok s') : Waiting r s' := by
  cases op with
  | find env det =>
    simp [step] at hr; subst hr
    exact waiting_core (getMatches_core k env det s.map).2.1 hw
  | update fuel env det =>
    simp only [step] at hr
    split at hr
    · simp at hr; subst hr; exact hw
    · simp only [Outcome.map] at hr
      obtain ⟨⟨s2, used⟩, h1, hr⟩ := Outcome.bind_eq_ok hr
      simp only [Outcome.ok.injEq] at hr
      subst hr
      unfold updateMap at h1
      split at h1
      · simp at h1; rw [← h1.1]; exact hw
      · split at h1
        · simp at h1
        · obtain ⟨⟨loc, used1, wr⟩, _, h1⟩ := Outcome.bind_eq_ok h1
          obtain ⟨⟨stg, loc', used2⟩, h2, h1⟩ := Outcome.bind_eq_ok h1
          simp at h1
          rw [← h1.1]
          exact waiting_staged hk h2
  | noTracking =>
    simp [step] at hr; subst hr
    unfold updateNoTracking
    split
    · exact hw
    · exact waiting_miss _ hw
  | stage env det used =>
    simp only [step] at hr
    split at hr
    · simp at hr; subst hr; exact hw
    · rcases stage_cases hr with rfl | rfl
      · exact hw
      · exact waiting_stageFrom env used 0 det hw
  | outliers ms =>
    simp [step] at hr; subst hr
    exact waiting_core (markOutliers_core k.type ms s.map).2.1 hw
  | takeUpgrades env =>
    simp [step] at hr; subst hr
    intro p hp
    exact hw p ((takeUpgraded_sub k env s.map.staged).subset hp)
  | addUpgrades us =>
    simp [step] at hr; subst hr
    intro p hp
    rw [addUpgraded_staged] at hp
    exact hw p hp
  | reset =>
    simp [step] at hr; subst hr
    intro p hp
    unfold reset at hp
    split at hp
    · exact hw p hp
    · simp at hp
  | deactivate => simp [step] at hr; subst hr; exact hw
  | foreignIds n => simp [step] at hr; subst hr; exact hw
  | rehash a b =>
    simp [step] at hr; subst hr
    intro p hp
    exact hw p ((b.perm _).mem_iff.1 hp)

theorem featureOf_none {s : State P} (h : Inv s) {x : Nat} :
    featureOf s x = none ↔ observe s x = .absent := by
  rw [featureOf_eq h]
  unfold observe
  cases lookup x s.map.localMap <;> cases lookup x s.map.staged <;> simp

theorem applyMatches_noThrow (k : Kind P D Env) (env : Env) (det : List D) (all : Bool)
    (is : List Nat) (f : Feat P) : applyMatches k env det all is f ≠ .throws := by
  induction is generalizing f with
  | nil => simp [applyMatches]
  | cons i is ih =>
    simp only [applyMatches]
    split
    · simp
    · rename_i d hd
      cases h : k.updateWith env d f with
      | ok v =>
        simp only [Outcome.noexcept, Outcome.bind_ok]
        cases h2 : applyMatches k env det all is { f with body := v.1 } with
        | ok w => simp [Outcome.bind]
        | throws => exact absurd h2 (ih _)
        | _ => simp [Outcome.bind]
      | _ => simp [Outcome.noexcept, Outcome.bind]

theorem bind_noThrow {α β : Type _} {x : Outcome α} {f : α → Outcome β} (hx : x ≠ .throws)
    (hf : ∀ a, f a ≠ .throws) : x.bind f ≠ .throws := by
  cases x <;> simp_all [Outcome.bind]

theorem updateLocal_noThrow (k : Kind P D Env) (env : Env) (det : List D) (l : Store P) :
    updateLocal k env det l ≠ .throws := by
  induction l with
  | nil => simp [updateLocal]
  | cons p l ih =>
    simp only [updateLocal]
    refine bind_noThrow (applyMatches_noThrow _ _ _ _ _ _) fun a => bind_noThrow ih fun b => ?_
    split <;> simp

theorem updateStaged_noThrow (k : Kind P D Env) (env : Env) (det : List D) (n : Nat)
    (todo loc : Store P) : updateStaged k env det n todo loc ≠ .throws := by
  induction n generalizing todo loc with
  | zero => cases todo <;> simp [updateStaged]
  | succ n ih =>
    cases todo with
    | nil => simp [updateStaged]
    | cons p l =>
      simp only [updateStaged]
      refine bind_noThrow (applyMatches_noThrow _ _ _ _ _ _) fun a => ?_
      split
      · split
        · exact bind_noThrow (ih _ _) fun b => by simp
        · exact bind_noThrow (ih _ _) fun b => by simp
      · exact bind_noThrow (ih _ _) fun b => by split <;> simp

theorem updateMap_noThrow {k : Kind P D Env} {env : Env} (hc : k.covValid env = true) (fuel : Nat)
    (det : List D) (s : State P) : updateMap k fuel env det s ≠ .throws := by
  unfold updateMap
  split
  · simp
  · simp only [hc, Bool.not_true, Bool.false_eq_true, if_false]
    exact bind_noThrow (updateLocal_noThrow _ _ _ _) fun a =>
      bind_noThrow (updateStaged_noThrow _ _ _ _ _ _) fun b => by simp

theorem observe_step {k : Kind P D Env} {r : Rule} (hk : Follows k r) {op : Op P D Env}
    {s s' : State P} (h : Inv s) (hw : Waiting r s) (hkeep : Keeps k op)
    (hr : step k op s = .ok s') (hlt : s'.alloc.given < 2 ^ 64) {x : Nat} (hx : x ≤ s.alloc.given) :
    observe s' x = (eventOf k op s x).toList.foldl (lifeStep r) (observe s x) := by
  have habs : featureOf s x = none → (eventOf k op s x).toList.foldl (lifeStep r) (observe s x) =
      observe s x := by
    intro hf
    simp only [eventOf, hf]
    split <;> rfl
  cases op with
  | find env det =>
    simp [step] at hr; subst hr
    have : eventOf k (.find env det) s x = none := by
      unfold eventOf; split; rfl; split <;> rfl
    rw [this]
    exact observe_core (getMatches_core k env det s.map).1 (getMatches_core k env det s.map).2.1 x
  | update fuel env det =>
    simp only [step] at hr
    cases ha : s.map.active with
    | false =>
      have : s' = s := by simpa [updateMap, ha, Outcome.map, Outcome.bind] using hr.symm
      subst this
      simp [eventOf, ha]
    | true =>
      cases hc : k.covValid env with
      | false =>
        have : s' = s := by simpa [updateMap, ha, hc] using hr.symm
        subst this
        cases hf : featureOf s' x with
        | none => rw [habs hf]
        | some f => simp [eventOf, ha, hf, hc]
      | true =>
        split at hr
        · simp at hr; subst hr
          rename_i h1
          exact absurd h1 (updateMap_noThrow hc _ _ _)
        · simp only [Outcome.map] at hr
          obtain ⟨⟨s2, used⟩, h1, hr⟩ := Outcome.bind_eq_ok hr
          simp only [Outcome.ok.injEq] at hr
          subst hr
          have hob := observe_update hk h ha hc h1 x
          cases hf : featureOf s x with
          | none =>
            rw [habs hf, hob.2 hf]
            exact ((featureOf_none h).1 hf).symm
          | some f =>
            rw [hob.1 f hf]
            simp [eventOf, ha, hf, hc]
  | noTracking =>
    simp [step] at hr; subst hr
    cases ha : s.map.active with
    | false => simp [updateNoTracking, eventOf, ha]
    | true =>
      cases hf : featureOf s x with
      | none =>
        rw [habs hf, observe_miss hk h hw ha, (featureOf_none h).1 hf]
        rfl
      | some f =>
        rw [observe_miss hk h hw ha]
        simp [eventOf, ha, hf]
  | stage env det used =>
    have hev : eventOf k (.stage env det used) s x = none := by
      unfold eventOf; split; rfl; split <;> rfl
    rw [hev]
    simp only [step] at hr
    split at hr
    · simp at hr; subst hr; rfl
    · rcases stage_cases hr with rfl | rfl
      · rfl
      · have := lookup_stageFrom k env used 0 det h hx hlt
        simp [observe, this]
  | outliers ms =>
    have hev : eventOf k (.outliers ms) s x = none := by
      unfold eventOf; split; rfl; split <;> rfl
    rw [hev]
    simp [step] at hr; subst hr
    exact observe_core (markOutliers_core k.type ms s.map).1 (markOutliers_core k.type ms s.map).2.1 x
  | takeUpgrades env =>
    have hev : eventOf k (.takeUpgrades env) s x = none := by
      unfold eventOf; split; rfl; split <;> rfl
    rw [hev]
    simp [step] at hr; subst hr
    have hkeep' : ∀ f, k.upgrade env f = none := hkeep
    simp [observe, getUpgraded, takeUpgraded_none hkeep']
  | addUpgrades us =>
    have hev : eventOf k (.addUpgrades us) s x = none := by
      unfold eventOf; split; rfl; split <;> rfl
    rw [hev]
    simp [step] at hr; subst hr
    have := lookup_addUpgraded k us h hx hlt
    simp [observe, this]
  | reset => exact absurd hkeep (by simp [Keeps])
  | deactivate =>
    have hev : eventOf k (.deactivate) s x = none := by
      unfold eventOf; split; rfl; split <;> rfl
    rw [hev]
    simp [step] at hr; subst hr
    rfl
  | foreignIds n =>
    have hev : eventOf k (.foreignIds n) s x = none := by
      unfold eventOf; split; rfl; split <;> rfl
    rw [hev]
    simp [step] at hr; subst hr
    rfl
  | rehash a b =>
    have hev : eventOf k (.rehash a b) s x = none := by
      unfold eventOf; split; rfl; split <;> rfl
    rw [hev]
    simp [step] at hr; subst hr
    have hnd := h.nodup
    rw [List.nodup_append] at hnd
    simp [observe, lookup_perm (a.perm _) hnd.1, lookup_perm (b.perm _) hnd.2.1]

theorem observe_run {k : Kind P D Env} {r : Rule} (hk : Follows k r) {ops : List (Op P D Env)}
    {s s' : State P} (h : Inv s) (hw : Waiting r s) (hkeep : ∀ op ∈ ops, Keeps k op)
    (hr : run k ops s = .ok s') (hlt : s'.alloc.given < 2 ^ 64) {x : Nat} (hx : x ≤ s.alloc.given) :
    observe s' x = (events k ops s x).foldl (lifeStep r) (observe s x) := by
  induction ops generalizing s with
  | nil => simp [run] at hr; subst hr; rfl
  | cons op ops ih =>
    simp only [run] at hr
    obtain ⟨s1, h1, hr⟩ := Outcome.bind_eq_ok hr
    have hlt1 := Nat.lt_of_le_of_lt (given_run hr) hlt
    simp only [events, h1, List.foldl_append]
    rw [ih (inv_step h h1 hlt1) (waiting_step hk hw h1)
      (fun o ho => hkeep o (List.mem_cons_of_mem _ ho)) hr (Nat.le_trans hx (given_step h1)),
      observe_step hk h hw (hkeep op List.mem_cons_self) h1 hlt1 hx]

end RgbdSlam.Map
