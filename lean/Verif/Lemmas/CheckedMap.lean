import Verif.Model.CheckedMap
import Verif.Lemmas.System
import Verif.Lemmas.Matching
/-
The checked operations of the maps do what the others do when the invariants of the maps hold.
-/
namespace RgbdSlam.Map.Checked

variable {P D Env : Type}

theorem assert_pos {α : Type} {c : Prop} [Decidable c] (h : c) (r : Outcome α) : assert c r = r := if_pos h

theorem keyed_head {p : Nat × Feat P} {l : Store P} (h : Keyed (p :: l)) : p.1 = p.2.id ∧ Keyed l :=
  ⟨h p List.mem_cons_self, fun q hq => h q (List.mem_cons_of_mem _ hq)⟩

/-! ### One map -/

theorem setFlags_ok (flags : List Bool) (idx : List Nat) (h : ∀ i ∈ idx, i < flags.length) :
    setFlags flags idx = .ok (Map.setFlags flags idx) := by
  induction idx generalizing flags with
  | nil => rfl
  | cons i is ih =>
    rw [setFlags, if_pos (h i List.mem_cons_self), ih _ (fun j hj => by
      rw [List.length_set]; exact h j (List.mem_cons_of_mem _ hj))]
    rfl

theorem setFlags_length (flags : List Bool) (idx : List Nat) :
    (Map.setFlags flags idx).length = flags.length := by
  unfold Map.setFlags
  induction idx generalizing flags with
  | nil => rfl
  | cons i is ih => rw [List.foldl_cons, ih, List.length_set]

theorem matchPass_ok {k : Kind P D Env} {env : Env} {det : List D} (hk : InRange k env det)
    (b adv : Bool) (l : Store P) (hl : Keyed l) (fl : List Bool) (hfl : fl.length = det.length) :
    matchPass k env det b adv l fl = .ok (Map.matchPass k env det b adv l fl) := by
  induction l generalizing fl with
  | nil => rfl
  | cons p rest ih =>
    obtain ⟨key, f⟩ := p
    obtain ⟨h1, h2⟩ := keyed_head hl
    rw [matchPass, assert_pos h1, Map.matchPass]
    dsimp only
    by_cases hc : (k.isMoving f.body || !k.isVisible env f.body) = true
    · rw [if_pos hc, if_pos hc, ih h2 fl hfl]; rfl
    · rw [if_neg hc, if_neg hc, setFlags_ok _ _ (fun i hi => by
        rw [hfl]; exact hk _ _ _ _ hfl i hi)]
      rw [Outcome.bind_ok, ih h2 _ (by rw [setFlags_length, hfl])]
      rfl

theorem matchOnce_ok {k : Kind P D Env} {env : Env} {det : List D} (hk : InRange k env det)
    (adv : Bool) (old : List Match) (m : FMap P) (hl : Keyed m.localMap) (hs : Keyed m.staged) :
    matchOnce k env det adv old m = .ok (Map.matchOnce k env det adv old m) := by
  unfold matchOnce Map.matchOnce
  split
  · rfl
  · rw [matchPass_ok hk _ _ _ hl _ (by simp), Outcome.bind_ok]
    dsimp only
    rw [matchPass_ok hk _ _ _ hs _ (by rw [matchPass_flags_length]; simp)]
    rfl

theorem getMatches_ok {k : Kind P D Env} {env : Env} {det : List D} (hk : InRange k env det)
    (m : FMap P) (hl : Keyed m.localMap) (hs : Keyed m.staged) :
    getMatches k env det m = .ok (Map.getMatches k env det m) := by
  unfold getMatches Map.getMatches
  rw [matchOnce_ok hk _ _ _ hl hs, Outcome.bind_ok]
  dsimp only
  split
  · obtain ⟨c1, c2, -⟩ := matchOnce_core k env det false [] m
    rw [matchOnce_ok hk _ _ _ (keyed_of_core c1 hl) (keyed_of_core c2 hs)]
  · rfl

theorem lookup_id {l : Store P} (hl : Keyed l) {x : Nat} {f : Feat P} (h : lookup x l = some f) :
    f.id = x := (hl _ (lookup_mem h)).symm

theorem markUnmatched_ok {m : FMap P} (hl : Keyed m.localMap) (hs : Keyed m.staged) (id : Nat) {d : Nat}
    (hd : d < m.flags.length) : markUnmatched id d m = .ok (Map.markUnmatched id d m) := by
  unfold markUnmatched Map.markUnmatched
  split
  · rfl
  · split
    · rfl
    · cases h1 : lookup id m.localMap with
      | some f =>
        dsimp only
        rw [assert_pos (lookup_id hl h1)]
        split
        · rfl
        · rfl
      | none =>
        dsimp only
        cases h2 : lookup id m.staged with
        | some f =>
          dsimp only
          rw [assert_pos (lookup_id hs h2)]
          split
          · rfl
          · rfl
        | none => rfl

theorem markUnmatched_length (id d : Nat) (m : FMap P) :
    (Map.markUnmatched id d m).1.flags.length = m.flags.length := by
  unfold Map.markUnmatched
  split
  · rfl
  · split
    · rfl
    · split
      · split
        · rfl
        · exact List.length_set
      · split
        · split
          · rfl
          · exact List.length_set
        · rfl

theorem markOutliers_ok (t : FType) (ms : List Match) {m : FMap P} (hl : Keyed m.localMap)
    (hs : Keyed m.staged) (hd : ∀ o ∈ ms, o.type = t → o.detected < m.flags.length) :
    markOutliers t ms m = .ok (Map.markOutliers t ms m) := by
  induction ms generalizing m with
  | nil => rfl
  | cons o os ih =>
    rw [markOutliers, Map.markOutliers]
    split
    · rename_i ht
      rw [markUnmatched_ok hl hs _ (hd o List.mem_cons_self ht), Outcome.bind_ok]
      obtain ⟨c1, c2, -⟩ := markUnmatched_core o.idInMap o.detected m
      refine ih (m := (Map.markUnmatched o.idInMap o.detected m).1) (keyed_of_core c1 hl)
        (keyed_of_core c2 hs) fun p hp hpt => ?_
      rw [markUnmatched_length]; exact hd p (List.mem_cons_of_mem _ hp) hpt
    · exact ih hl hs fun p hp => hd p (List.mem_cons_of_mem _ hp)

theorem markOutliers_length (t : FType) (ms : List Match) (m : FMap P) :
    (Map.markOutliers t ms m).flags.length = m.flags.length := by
  induction ms generalizing m with
  | nil => rfl
  | cons o os ih =>
    rw [Map.markOutliers]
    split
    · rw [ih, markUnmatched_length]
    · exact ih m

theorem updateLocal_eq (k : Kind P D Env) (env : Env) (det : List D) (l : Store P) (hl : Keyed l) :
    updateLocal k env det l = Map.updateLocal k env det l := by
  induction l with
  | nil => rfl
  | cons p rest ih =>
    obtain ⟨key, f⟩ := p
    obtain ⟨h1, h2⟩ := keyed_head hl
    rw [updateLocal, assert_pos h1, Map.updateLocal, ih h2]

theorem keyed_emplace {l : Store P} (hl : Keyed l) {f : Feat P} : Keyed (emplace f.id f l) := by
  unfold emplace
  split
  · exact hl
  · intro p hp
    rcases List.mem_append.1 hp with hp | hp
    · exact hl p hp
    · rw [List.mem_singleton.1 hp]

theorem lookup_emplace {l : Store P} (x : Nat) (f : Feat P) : ∃ g, lookup x (emplace x f l) = some g := by
  unfold emplace
  split
  · rename_i h; exact Option.isSome_iff_exists.1 h
  · rename_i h
    rw [lookup_append]
    cases hx : lookup x l with
    | some g => exact ⟨g, rfl⟩
    | none => exact ⟨f, by simp [lookup]⟩

theorem settle_id (b : Bool) (f : Feat P) : (settle b f).id = f.id := by
  unfold settle; split <;> rfl

theorem updateStaged_eq (k : Kind P D Env) (env : Env) (det : List D) (n : Nat) (l loc : Store P)
    (hl : Keyed l) (hloc : Keyed loc) :
    updateStaged k env det n l loc = Map.updateStaged k env det n l loc := by
  induction n generalizing l loc with
  | zero => cases l <;> rfl
  | succ n ih =>
    cases l with
    | nil => rfl
    | cons p rest =>
      obtain ⟨key, f⟩ := p
      obtain ⟨h1, h2⟩ := keyed_head hl
      rw [updateStaged, assert_pos h1, Map.updateStaged]
      cases ha : applyMatches k env det true f.matched f with
      | ok r =>
        obtain ⟨f1, hit, used⟩ := r
        have hid : (settle hit f1).id = f.id := by rw [settle_id, (applyMatches_spec ha).1]
        rw [Outcome.bind_ok, Outcome.bind_ok]
        dsimp only
        split
        · cases k.promote (settle hit f1) with
          | some body =>
            dsimp only
            have hk2 : Keyed (emplace (settle hit f1).id (promoted (settle hit f1) body) loc) :=
              keyed_emplace (f := promoted (settle hit f1) body) hloc
            obtain ⟨g, hg⟩ := lookup_emplace (l := loc) (settle hit f1).id (promoted (settle hit f1) body)
            rw [assert_pos (by rw [hg]; exact congrArg some (lookup_id hk2 hg)), ih _ _ h2 hk2]
          | none =>
            dsimp only
            rw [ih]
            · intro q hq
              rcases List.mem_cons.1 hq with rfl | hq
              · exact h1.trans hid.symm
              · exact h2 q hq
            · exact hloc
        · rw [ih _ _ h2 hloc]
      | _ => rfl

theorem updateMap_eq (k : Kind P D Env) (fuel : Nat) (env : Env) (det : List D) (s : State P)
    (hl : Keyed s.map.localMap) (hs : Keyed s.map.staged) :
    updateMap k fuel env det s = Map.updateMap k fuel env det s := by
  unfold updateMap Map.updateMap
  split
  · rfl
  · split
    · rfl
    · rw [updateLocal_eq k env det _ hl]
      cases h : Map.updateLocal k env det s.map.localMap with
      | ok r =>
        obtain ⟨loc, u, wr⟩ := r
        rw [Outcome.bind_ok, Outcome.bind_ok]
        dsimp only
        rw [updateStaged_eq k env det fuel _ _ hs ((updateLocal_sub h).2.1 hl)]
      | _ => rfl

theorem missLocal_ok (k : Kind P D Env) (l : Store P) (hl : Keyed l) :
    missLocal k l = .ok (Map.missLocal k l) := by
  induction l with
  | nil => rfl
  | cons p rest ih =>
    obtain ⟨key, f⟩ := p
    obtain ⟨h1, h2⟩ := keyed_head hl
    rw [missLocal, assert_pos h1, Map.missLocal, ih h2, Outcome.bind_ok]
    dsimp only
    split <;> rfl

theorem missStaged_ok (k : Kind P D Env) (l : Store P) (hl : Keyed l) :
    missStaged k l = .ok (Map.missStaged k l) := by
  induction l with
  | nil => rfl
  | cons p rest ih =>
    obtain ⟨key, f⟩ := p
    obtain ⟨h1, h2⟩ := keyed_head hl
    rw [missStaged, assert_pos h1, Map.missStaged, ih h2, Outcome.bind_ok]
    split <;> rfl

theorem updateNoTracking_ok (k : Kind P D Env) (s : State P)
    (hl : Keyed s.map.localMap) (hs : Keyed s.map.staged) :
    updateNoTracking k s = .ok (Map.updateNoTracking k s) := by
  unfold updateNoTracking Map.updateNoTracking
  split
  · rfl
  · rw [missLocal_ok k _ hl, Outcome.bind_ok]
    dsimp only
    rw [missStaged_ok k _ hs]
    rfl

theorem stageOne_ok (k : Kind P D Env) (env : Env) (d : D) {s : State P} (h : Inv s)
    (hlt : (Map.stageOne k env d s).alloc.given < 2 ^ 64) :
    stageOne k env d s = .ok (Map.stageOne k env d s) := by
  unfold Map.stageOne at hlt
  unfold stageOne Map.stageOne
  by_cases hc : k.canAdd d = true
  · rw [if_pos hc] at hlt
    rw [if_pos hc, if_pos hc]
    dsimp only at hlt ⊢
    cases hb : k.build env d with
    | some body =>
      rw [hb] at hlt
      dsimp only at hlt ⊢
      rw [Alloc.given_next] at hlt
      obtain ⟨-, hm, -⟩ := fresh_not_mem h hlt
      rw [assert_pos]
      rw [lookup_eq_none.2 (fun hx => hm (List.mem_append.2 (.inr hx)))]
      rfl
    | none => rfl
  · rw [if_neg hc, if_neg hc]

theorem stageFrom_ok (k : Kind P D Env) (env : Env) (used : List Nat) (i : Nat) (ds : List D)
    {s : State P} (h : Inv s) (hlt : (Map.stageFrom k env used i ds s).alloc.given < 2 ^ 64) :
    stageFrom k env used i ds s = .ok (Map.stageFrom k env used i ds s) := by
  induction ds generalizing i s with
  | nil => rfl
  | cons d ds ih =>
    rw [Map.stageFrom] at hlt
    rw [stageFrom, Map.stageFrom]
    by_cases hc : used.contains i = true
    · rw [if_pos hc] at hlt ⊢
      rw [if_pos hc]
      exact ih _ h hlt
    · rw [if_neg hc] at hlt ⊢
      rw [if_neg hc]
      have h1 := Nat.lt_of_le_of_lt (given_stageFrom k env used _ ds _) hlt
      rw [stageOne_ok k env d h h1, Outcome.bind_ok]
      exact ih _ (inv_stageOne k env d h h1) hlt

theorem stage_ok' {k : Kind P D Env} {env : Env} {det : List D} {used : List Nat} {s : State P} (h : Inv s)
    (hlt : ∀ s', Map.stage k env det used s = .ok s' → s'.alloc.given < 2 ^ 64) :
    stage k env det used s = Map.stage k env det used s := by
  unfold Map.stage at hlt
  unfold stage Map.stage
  by_cases h1 : (!s.map.active) = true
  · rw [if_pos h1, if_pos h1]
  · rw [if_neg h1] at hlt
    rw [if_neg h1, if_neg h1]
    by_cases h2 : (!k.covValid env) = true
    · rw [if_pos h2, if_pos h2]
    · rw [if_neg h2] at hlt
      rw [if_neg h2, if_neg h2]
      by_cases h3 : det.length = s.map.flags.length
      · rw [if_neg (by simpa using h3)] at hlt
        rw [if_neg (by simpa using h3), assert_pos h3]
        exact stageFrom_ok k env used 0 det h (hlt _ rfl)
      · rw [if_pos h3]
        unfold assert
        rw [if_neg h3]

theorem takeUpgraded_ok (k : Kind P D Env) (env : Env) (l : Store P) (hl : Keyed l) :
    takeUpgraded k env l = .ok (Map.takeUpgraded k env l) := by
  induction l with
  | nil => rfl
  | cons p rest ih =>
    obtain ⟨key, f⟩ := p
    obtain ⟨h1, h2⟩ := keyed_head hl
    rw [takeUpgraded, assert_pos h1, Map.takeUpgraded, ih h2, Outcome.bind_ok]
    dsimp only
    cases k.upgrade env f <;> rfl

theorem getUpgraded_ok (k : Kind P D Env) (env : Env) (m : FMap P) (hl : Keyed m.localMap)
    (hs : Keyed m.staged) : getUpgraded k env m = .ok (Map.getUpgraded k env m) := by
  unfold getUpgraded Map.getUpgraded
  rw [takeUpgraded_ok k env _ hl, Outcome.bind_ok]
  dsimp only
  rw [takeUpgraded_ok k env _ hs]
  rfl

theorem tracked_ok (l : Store P) (hl : Keyed l) : tracked l = .ok () := by
  induction l with
  | nil => rfl
  | cons p rest ih =>
    obtain ⟨key, f⟩ := p
    obtain ⟨h1, h2⟩ := keyed_head hl
    rw [tracked, assert_pos h1, ih h2]

/-! ### All maps -/

def AllKeyed (w : World P) : Prop := ∀ t, Keyed (w.maps t).localMap ∧ Keyed (w.maps t).staged

theorem winv_keyed {w : World P} (h : WInv w) : AllKeyed w := fun t => ⟨(h.each t).keyedL, (h.each t).keyedS⟩

theorem AllKeyed.put {w : World P} (h : AllKeyed w) {t : FType} {s : State P} (hl : Keyed s.map.localMap)
    (hs : Keyed s.map.staged) : AllKeyed (w.put t s) := by
  intro u
  unfold World.put
  dsimp only
  split
  · exact ⟨hl, hs⟩
  · exact h u

theorem trackedAll_ok {w : World P} (h : AllKeyed w) (ts : List FType) : trackedAll w ts = .ok () := by
  induction ts with
  | nil => rfl
  | cons t ts ih => rw [trackedAll, tracked_ok _ (h t).1, Outcome.bind_ok, ih]

theorem findAll_ok {k : FType → Kind P D Env} {lt : Match → Match → Bool} {env : Env}
    {det : FType → List D} (hr : ∀ t, InRange (k t) env (det t)) (ts : List FType) {w : World P}
    (h : AllKeyed w) (ms : List Match) : findAll k lt env det ts w ms = .ok (w.find k lt env det ts ms) := by
  induction ts generalizing w ms with
  | nil => rfl
  | cons t ts ih =>
    rw [findAll, getMatches_ok (hr t) _ (h t).1 (h t).2, Outcome.bind_ok]
    obtain ⟨c1, c2, -⟩ := getMatches_core (k t) env (det t) (w.maps t)
    exact ih (h.put (keyed_of_core c1 (h t).1) (keyed_of_core c2 (h t).2)) _

theorem markAll_ok {ms : List Match} (ts : List FType) (hn : ts.Nodup) {w : World P} (h : AllKeyed w)
    (hd : ∀ o ∈ ms, o.detected < (w.maps o.type).flags.length) :
    markAll ms ts w = .ok (w.markOutliers ms ts) := by
  induction ts generalizing w with
  | nil => rfl
  | cons t ts ih =>
    rw [markAll, markOutliers_ok t ms (h t).1 (h t).2 (fun o ho ht => ht ▸ hd o ho), Outcome.bind_ok]
    obtain ⟨c1, c2, -⟩ := markOutliers_core t ms (w.maps t)
    refine ih hn.of_cons (h.put (keyed_of_core c1 (h t).1) (keyed_of_core c2 (h t).2)) fun o ho => ?_
    unfold World.put
    dsimp only
    split
    · rename_i ht
      rw [markOutliers_length, ← ht]
      exact hd o ho
    · exact hd o ho

/-- Loops over the maps that agree as long as the ids are not exhausted. -/
theorem eachMap_same {k : FType → Kind P D Env} {f g : FType → World P → Outcome (World P × Bool)}
    (hg : ∀ t w w' b, g t w = .ok (w', b) → Micros k w w')
    (hfg : ∀ t w r, WInv w → g t w = .ok r → r.1.alloc.given < 2 ^ 64 → f t w = .ok r)
    (ts : List FType) {w : World P} {r : World P × Bool} (hw : WInv w) (h : eachMap g ts w = .ok r)
    (hlt : r.1.alloc.given < 2 ^ 64) : eachMap f ts w = .ok r := by
  induction ts generalizing w with
  | nil => exact h
  | cons t ts ih =>
    obtain ⟨⟨w1, b⟩, h1, h2⟩ := Outcome.bind_eq_ok h
    have hm := hg t w w1 b h1
    have hlt1 : w1.alloc.given < 2 ^ 64 := by
      dsimp only at h2
      split at h2
      · injection h2 with h2; rw [← h2] at hlt; exact hlt
      · exact Nat.lt_of_le_of_lt (micros_given (eachMap_micros hg ts w1 h2)) hlt
    rw [eachMap, hfg t w _ hw h1 hlt1, Outcome.bind_ok]
    dsimp only at h2 ⊢
    split
    · rename_i hb
      rw [if_pos hb] at h2; exact h2
    · rename_i hb
      rw [if_neg hb] at h2
      exact ih (winv_micros hm hw hlt1) h2

theorem updateOne_ok {k : FType → Kind P D Env} {fuel : Nat} {env : Env} {det : FType → List D}
    (t : FType) (w : World P) (r : World P × Bool) (hw : WInv w)
    (h : World.updateOne k fuel env det t w = .ok r) (hlt : r.1.alloc.given < 2 ^ 64) :
    updateOne k fuel env det t w = .ok r := by
  have hi := hw.each t
  unfold World.updateOne at h
  unfold updateOne
  rw [updateMap_eq (k t) fuel env (det t) _ hi.keyedL hi.keyedS]
  cases h1 : Map.updateMap (k t) fuel env (det t) (w.view t) with
  | ok p =>
    obtain ⟨s, used⟩ := p
    rw [h1] at h
    dsimp only at h ⊢
    obtain ⟨hi2, ha⟩ := inv_updateMap hi h1
    rw [stage_ok' hi2 (fun s' hs' => by
      rw [hs'] at h
      injection h with h
      rw [← h] at hlt
      exact hlt)]
    exact h
  | throws => rw [h1] at h; exact h
  | _ => rw [h1] at h; cases h

theorem upgradeOne_ok {k : FType → Kind P D Env} {env : Env} {ts : List FType}
    (t : FType) (w : World P) (r : World P × Bool) (hw : WInv w)
    (h : World.upgradeOne k env ts t w = .ok r) : upgradeOne k env ts t w = .ok r := by
  unfold upgradeOne
  rw [getUpgraded_ok (k t) env (w.maps t) (hw.each t).keyedL (hw.each t).keyedS, Outcome.bind_ok]
  exact h

theorem addOne_ok {k : FType → Kind P D Env} {env : Env} {det : FType → List D}
    (t : FType) (w : World P) (r : World P × Bool) (hw : WInv w)
    (h : World.addOne k env det t w = .ok r) (hlt : r.1.alloc.given < 2 ^ 64) :
    addOne k env det t w = .ok r := by
  unfold World.addOne Map.stageAll at h
  unfold addOne
  rw [stage_ok' (hw.each t) (fun s' hs' => by
    rw [hs'] at h
    injection h with h
    rw [← h] at hlt
    exact hlt)]
  exact h

theorem noPose_ok (k : FType → Kind P D Env) (ts : List FType) {w : World P} (h : AllKeyed w) :
    noPose k ts w = .ok (w.noPose k ts) := by
  induction ts generalizing w with
  | nil => rfl
  | cons t ts ih =>
    rw [noPose, updateNoTracking_ok (k t) _ (h t).1 (h t).2, Outcome.bind_ok]
    refine ih (h.put ?_ ?_)
    · unfold Map.updateNoTracking
      split
      · exact (h t).1
      · exact (missLocal_sub (k t) _).2.1 (h t).1
    · unfold Map.updateNoTracking
      split
      · exact (h t).2
      · exact (missStaged_sub (k t) _).2 (h t).2

theorem update_ok {k : FType → Kind P D Env} (hk : ∀ t, (k t).type = t) {cov : Env → Bool} {fuel : Nat}
    {env : Env} {id : Nat} {det : FType → List D} {out : List Match} {w : World P} {r : World P × Bool}
    (hw : WInv w) (hd : ∀ o ∈ out, o.detected < (w.maps o.type).flags.length)
    (h : w.update k cov fuel env det out = .ok r) (hlt : r.1.alloc.given < 2 ^ 64) :
    update k cov fuel env id det out ⟨w, some id⟩ = .ok (⟨r.1, some id⟩, r.2) := by
  unfold update sameDetections
  dsimp only
  rw [assert_pos rfl]
  unfold World.update at h
  by_cases hc : (!cov env) = true
  · rw [if_pos hc] at h ⊢
    injection h with h
    rw [← h]
  · rw [if_neg hc] at h ⊢
    rw [markAll_ok order order_nodup (winv_keyed hw) hd, Outcome.bind_ok]
    obtain ⟨⟨w1, b⟩, h1, h2⟩ := Outcome.bind_eq_ok h
    dsimp only at h2
    have hm0 := markOutliers_micros hk out order w
    have hm1 := eachMap_micros (fun t => updateOne_micros t) order _ h1
    have hlt1 : w1.alloc.given < 2 ^ 64 := by
      split at h2
      · injection h2 with h2; rw [← h2] at hlt; exact hlt
      · exact Nat.lt_of_le_of_lt
          (micros_given (eachMap_micros (fun t => upgradeOne_micros t) order w1 h2)) hlt
    have hlt0 : (w.markOutliers out order).alloc.given < 2 ^ 64 :=
      Nat.lt_of_le_of_lt (micros_given hm1) hlt1
    have hw0 := winv_micros hm0 hw hlt0
    have hw1 := winv_micros hm1 hw0 hlt1
    rw [eachMap_same (fun t => updateOne_micros t) updateOne_ok order hw0 h1 hlt1, Outcome.bind_ok]
    dsimp only
    by_cases hb : b = true
    · rw [if_pos hb] at h2 ⊢
      injection h2 with h2
      rw [← h2]; rfl
    · rw [if_neg hb] at h2 ⊢
      rw [eachMap_same (fun t => upgradeOne_micros t) (fun t w r hw h _ => upgradeOne_ok t w r hw h) order
        hw1 h2 hlt]
      rfl

theorem addAll_ok {k : FType → Kind P D Env} {cov : Env → Bool} {env : Env} {id : Nat}
    {det : FType → List D} {w : World P} {r : World P × Bool} (hw : WInv w)
    (h : w.addAll k cov env det = .ok r) (hlt : r.1.alloc.given < 2 ^ 64) :
    addAll k cov env id det ⟨w, some id⟩ = .ok (⟨r.1, some id⟩, r.2) := by
  unfold addAll sameDetections
  unfold World.addAll at h
  by_cases hc : (!cov env) = true
  · rw [if_pos hc] at h ⊢
    injection h with h
    rw [← h]
  · rw [if_neg hc] at h ⊢
    dsimp only
    rw [assert_pos rfl, eachMap_same (fun t => addOne_micros t) addOne_ok order hw h hlt]
    rfl

end RgbdSlam.Map.Checked
