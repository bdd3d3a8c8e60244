import Verif.Model.System
import Verif.Lemmas.LocalMap
/-
The calls of the frame loop on the local map always return.
-/
namespace RgbdSlam.Map

variable {P D Env : Type}

/-! ### Active maps stay active -/

theorem markUnmatched_active (id d : Nat) (m : FMap P) : (markUnmatched id d m).1.active = m.active := by
  unfold markUnmatched
  split
  · rfl
  · split
    · rfl
    · split
      · split <;> rfl
      · split
        · split <;> rfl
        · rfl

theorem markOutliers_active (t : FType) (ms : List Match) (m : FMap P) :
    (markOutliers t ms m).active = m.active := by
  induction ms generalizing m with
  | nil => rfl
  | cons o os ih =>
    simp only [markOutliers]
    split
    · rw [ih, markUnmatched_active]
    · exact ih m

theorem updateMap_kept {k : Kind P D Env} {fuel : Nat} {env : Env} {det : List D} {s : State P}
    {r : State P × List Nat} (h : updateMap k fuel env det s = .ok r) :
    r.1.map.active = s.map.active ∧ r.1.map.flags = s.map.flags := by
  unfold updateMap at h
  split at h
  · injection h with h; rw [← h]; exact ⟨rfl, rfl⟩
  · split at h
    · cases h
    · obtain ⟨a, -, h⟩ := Outcome.bind_eq_ok h
      obtain ⟨b, -, h⟩ := Outcome.bind_eq_ok h
      injection h with h; rw [← h]; exact ⟨rfl, rfl⟩

theorem stageFrom_active (k : Kind P D Env) (env : Env) (used : List Nat) (i : Nat) (ds : List D)
    (s : State P) : (stageFrom k env used i ds s).map.active = s.map.active := by
  induction ds generalizing i s with
  | nil => rfl
  | cons d ds ih =>
    simp only [stageFrom]
    split
    · exact ih _ _
    · rw [ih]
      unfold stageOne
      split
      · simp only
        split
        · rfl
        · split <;> rfl
      · rfl

theorem addUpgraded_active (k : Kind P D Env) (us : List (Upgrade P)) (s : State P) :
    (addUpgraded k us s).1.map.active = s.map.active := by
  induction us generalizing s with
  | nil => rfl
  | cons u us ih =>
    simp only [addUpgraded]
    split
    · split
      · exact ih s
      · rfl
      · exact ih _
    · exact ih s

theorem step_active {k : Kind P D Env} {op : Op P D Env} (hd : op ≠ .deactivate) {s s' : State P}
    (h : step k op s = .ok s') : s'.map.active = s.map.active := by
  cases op with
  | find env det => injection h with h; rw [← h]; exact (getMatches_core ..).2.2
  | update fuel env det =>
    simp only [step] at h
    split at h
    · injection h with h; rw [← h]
    · obtain ⟨r, h1, h⟩ := Outcome.bind_eq_ok h
      injection h with h; rw [← h]; exact (updateMap_kept h1).1
  | noTracking =>
    injection h with h
    rw [← h]
    unfold updateNoTracking
    split <;> rfl
  | stage env det used =>
    simp only [step] at h
    split at h
    · injection h with h; rw [← h]
    · rcases stage_cases h with rfl | rfl
      · rfl
      · exact stageFrom_active ..
  | outliers ms => injection h with h; rw [← h]; exact markOutliers_active ..
  | takeUpgrades env => injection h with h; rw [← h]; rfl
  | addUpgrades us => injection h with h; rw [← h]; exact addUpgraded_active ..
  | reset =>
    injection h with h; rw [← h]; simp only [Map.reset]; split <;> rfl
  | deactivate => exact absurd rfl hd
  | foreignIds n => injection h with h; rw [← h]
  | rehash a b => injection h with h; rw [← h]

theorem micros_active {k : FType → Kind P D Env} {w w' : World P} (h : Micros k w w') (t : FType) :
    (w'.maps t).active = (w.maps t).active := by
  induction h with
  | refl => rfl
  | @step w1 u op s _ hd hs ih =>
    by_cases hu : t = u
    · subst hu
      have : ((w1.put t s).maps t) = s.map := by simp [World.put]
      rw [this, step_active hd hs]
      exact ih
    · have : ((w1.put u s).maps t) = w1.maps t := by simp [World.put, hu]
      rw [this]; exact ih

/-! ### Indexes in range -/

/-- The detections of a frame are only used where they exist. -/
def InRange (k : Kind P D Env) (env : Env) (det : List D) : Prop :=
  ∀ f fl b adv, fl.length = det.length → ∀ i ∈ (k.findMatches env det f fl b adv).1, i < det.length

/-- Ready for an update with `n` detections. -/
structure Ready (n : Nat) (m : FMap P) : Prop where
  active : m.active = true
  flags : m.flags.length = n
  loc : ∀ p ∈ m.localMap, ∀ i ∈ p.2.matched, i < n
  stg : ∀ p ∈ m.staged, ∀ i ∈ p.2.matched, i < n

theorem matchPass_range {k : Kind P D Env} {env : Env} {det : List D} (hk : InRange k env det)
    (b adv : Bool) (l : Store P) (fl : List Bool) (hfl : fl.length = det.length) :
    ∀ p ∈ (matchPass k env det b adv l fl).1, ∀ i ∈ p.2.matched, i < det.length := by
  induction l generalizing fl with
  | nil => intro p hp; cases hp
  | cons q l ih =>
    obtain ⟨key, f⟩ := q
    intro p hp i hi
    simp only [matchPass] at hp
    split at hp
    · rcases List.mem_cons.1 hp with rfl | hp
      · cases hi
      · exact ih fl hfl p hp i hi
    · rcases List.mem_cons.1 hp with rfl | hp
      · exact hk _ _ _ _ hfl i hi
      · exact ih _ ((setFlags_length _ _).trans hfl) p hp i hi

theorem matchOnce_ready {k : Kind P D Env} {env : Env} {det : List D} (hk : InRange k env det)
    (adv : Bool) (old : List Match) (m : FMap P) (ha : m.active = true) :
    Ready det.length (matchOnce k env det adv old m).1 := by
  have hc := matchOnce_core k env det adv old m
  refine ⟨hc.2.2.trans ha, ?_, ?_, ?_⟩ <;>
    simp only [matchOnce, ha, Bool.not_true, Bool.false_eq_true, if_false]
  · rw [matchPass_flags_length, matchPass_flags_length]; simp
  · exact matchPass_range hk _ _ _ _ (by simp)
  · exact matchPass_range hk _ _ _ _ (by rw [matchPass_flags_length]; simp)

theorem getMatches_ready {k : Kind P D Env} {env : Env} {det : List D} (hk : InRange k env det)
    (m : FMap P) (ha : m.active = true) : Ready det.length (getMatches k env det m).1 := by
  rw [getMatches_eq k env det m ha]
  split
  · exact matchOnce_ready hk _ _ _ ha
  · exact matchOnce_ready hk _ _ _ ha

theorem eraseMatch_range {key d n : Nat} {l : Store P}
    (h : ∀ p ∈ l, ∀ i ∈ p.2.matched, i < n) : ∀ p ∈ eraseMatch key d l, ∀ i ∈ p.2.matched, i < n := by
  intro p hp i hi
  unfold eraseMatch at hp
  obtain ⟨q, hq, rfl⟩ := List.mem_map.1 hp
  obtain ⟨a, f⟩ := q
  simp only at hi
  split at hi
  · exact h _ hq i (List.mem_filter.1 hi).1
  · exact h _ hq i hi

theorem markUnmatched_ready {n : Nat} {m : FMap P} (h : Ready n m) (id d : Nat) :
    Ready n (markUnmatched id d m).1 := by
  unfold markUnmatched
  split
  · exact h
  · split
    · exact h
    · split
      · split
        · exact h
        · exact ⟨h.active, by simpa using h.flags, eraseMatch_range h.loc, h.stg⟩
      · split
        · split
          · exact h
          · exact ⟨h.active, by simpa using h.flags, h.loc, eraseMatch_range h.stg⟩
        · exact h

theorem markOutliers_ready {n : Nat} {m : FMap P} (h : Ready n m) (t : FType) (ms : List Match) :
    Ready n (markOutliers t ms m) := by
  induction ms generalizing m with
  | nil => exact h
  | cons o os ih =>
    simp only [markOutliers]
    split
    · exact ih (markUnmatched_ready h _ _)
    · exact ih h

/-- A property `G` of the contents of the features that makes the update with a detection return, and that
updates, the promotion of a candidate and the constructor of candidates keep; `E` is what is asked of the
environment and of the detections. -/
structure KeepsGood (k : Kind P D Env) (G : P → Prop) (E : Env → D → Prop) : Prop where
  updates : ∀ env d f, k.covValid env = true → E env d → G f.body →
    ∃ b good, k.updateWith env d f = .ok (b, good) ∧ G b
  promotes : ∀ f, G f.body → ∃ b, k.promote f = some b ∧ G b
  builds : ∀ env d b, k.covValid env = true → E env d → k.canAdd d = true → k.build env d = some b → G b

/-- All features of a store satisfy `G`. -/
def AllGood (G : P → Prop) (l : Store P) : Prop := ∀ p ∈ l, G p.2.body

/-- All features of a map satisfy `G`. -/
def GoodMap (G : P → Prop) (m : FMap P) : Prop := AllGood G m.localMap ∧ AllGood G m.staged

section

variable {G : P → Prop} {E : Env → D → Prop}

theorem allGood_nil : AllGood G ([] : Store P) := fun _ h => absurd h List.not_mem_nil

theorem allGood_cons {p : Nat × Feat P} {l : Store P} : AllGood G (p :: l) ↔ G p.2.body ∧ AllGood G l := by
  simp [AllGood]

theorem AllGood.emplace {key : Nat} {f : Feat P} {l : Store P} (h : AllGood G l) (hf : G f.body) :
    AllGood G (Map.emplace key f l) := by
  intro p hp
  unfold Map.emplace at hp
  split at hp
  · exact h p hp
  · rcases List.mem_append.1 hp with hp | hp
    · exact h p hp
    · rw [List.mem_singleton] at hp; subst hp; exact hf

theorem applyMatches_ok {k : Kind P D Env} (hk : KeepsGood k G E) {env : Env} (hc : k.covValid env = true)
    {det : List D} (he : ∀ d ∈ det, E env d) (all : Bool)
    (is : List Nat) (f : Feat P) (hf : G f.body) (hi : ∀ i ∈ is, i < det.length) :
    ∃ f' b u, applyMatches k env det all is f = .ok (f', b, u) ∧ G f'.body := by
  induction is generalizing f with
  | nil => exact ⟨_, _, _, rfl, hf⟩
  | cons i is ih =>
    have hlt : i < det.length := hi i List.mem_cons_self
    have h0 : det[i]? = some det[i] := List.getElem?_eq_getElem hlt
    obtain ⟨body, good, hr, hb⟩ := hk.updates env det[i] f hc (he _ (List.getElem_mem hlt)) hf
    obtain ⟨a, b, c, hr', ha⟩ := ih { f with body := body } hb fun j hj => hi j (List.mem_cons_of_mem _ hj)
    simp only [applyMatches, h0, hr, Outcome.noexcept, Outcome.bind_ok, hr']
    exact ⟨_, _, _, rfl, ha⟩

theorem updateLocal_ok {k : Kind P D Env} (hk : KeepsGood k G E) {env : Env} (hc : k.covValid env = true)
    {det : List D} (he : ∀ d ∈ det, E env d) (l : Store P) (hg : AllGood G l)
    (hl : ∀ p ∈ l, ∀ i ∈ p.2.matched, i < det.length) :
    ∃ l' u wr, updateLocal k env det l = .ok (l', u, wr) ∧ AllGood G l' := by
  induction l with
  | nil => exact ⟨_, _, _, rfl, allGood_nil⟩
  | cons p l ih =>
    obtain ⟨key, f⟩ := p
    obtain ⟨hg1, hg2⟩ := allGood_cons.1 hg
    obtain ⟨f1, b, c, h1, h1'⟩ :=
      applyMatches_ok hk hc he false f.matched f hg1 (hl _ List.mem_cons_self)
    obtain ⟨a, b', c', h2, h2'⟩ := ih hg2 fun p hp => hl p (List.mem_cons_of_mem _ hp)
    simp only [updateLocal, h1, Outcome.bind_ok, h2]
    split
    · exact ⟨_, _, _, rfl, h2'⟩
    · exact ⟨_, _, _, rfl, allGood_cons.2 ⟨by rw [settle_body]; exact h1', h2'⟩⟩

theorem updateStaged_ok {k : Kind P D Env} (hk : KeepsGood k G E) {env : Env} (hc : k.covValid env = true)
    {det : List D} (he : ∀ d ∈ det, E env d) (l : Store P) (hg : AllGood G l)
    (hl : ∀ p ∈ l, ∀ i ∈ p.2.matched, i < det.length) (n : Nat) (hn : l.length ≤ n) (loc : Store P)
    (hloc : AllGood G loc) :
    ∃ stg loc' u, updateStaged k env det n l loc = .ok (stg, loc', u) ∧ AllGood G stg ∧ AllGood G loc' := by
  induction l generalizing n loc with
  | nil => cases n <;> exact ⟨_, _, _, rfl, allGood_nil, hloc⟩
  | cons p l ih =>
    obtain ⟨key, f⟩ := p
    obtain ⟨hg1, hg2⟩ := allGood_cons.1 hg
    cases n with
    | zero => simp at hn
    | succ n =>
      have hn' : l.length ≤ n := by simpa using hn
      have hl' : ∀ p ∈ l, ∀ i ∈ p.2.matched, i < det.length := fun p hp => hl p (List.mem_cons_of_mem _ hp)
      obtain ⟨f1, b, c, h1, h1'⟩ :=
        applyMatches_ok hk hc he true f.matched f hg1 (hl _ List.mem_cons_self)
      have h1s : G (settle b f1).body := by rw [settle_body]; exact h1'
      simp only [updateStaged, h1, Outcome.bind_ok]
      split
      · obtain ⟨body, hb, hb'⟩ := hk.promotes (settle b f1) h1s
        rw [hb]
        obtain ⟨x, y, z, h2, hx, hy⟩ := ih hg2 hl' n hn'
          (emplace (settle b f1).id (promoted (settle b f1) body) loc) (hloc.emplace hb')
        simp only [h2, Outcome.bind_ok]
        exact ⟨_, _, _, rfl, hx, hy⟩
      · obtain ⟨x, y, z, h2, hx, hy⟩ := ih hg2 hl' n hn' loc hloc
        rw [h2, Outcome.bind_ok]
        simp only
        split
        · exact ⟨_, _, _, rfl, hx, hy⟩
        · exact ⟨_, _, _, rfl, allGood_cons.2 ⟨h1s, hx⟩, hy⟩

theorem updateMap_ok {k : Kind P D Env} (hk : KeepsGood k G E) {env : Env} (hc : k.covValid env = true)
    {det : List D} (he : ∀ d ∈ det, E env d) {s : State P} (h : Ready det.length s.map)
    (hg : GoodMap G s.map) {fuel : Nat} (hf : s.map.staged.length ≤ fuel) :
    ∃ s' u, updateMap k fuel env det s = .ok (s', u) ∧ GoodMap G s'.map := by
  unfold updateMap
  obtain ⟨loc, u1, wr, h1, h1'⟩ := updateLocal_ok hk hc he _ hg.1 h.loc
  obtain ⟨stg, loc', u2, h2, h2', h2''⟩ := updateStaged_ok hk hc he _ hg.2 h.stg fuel hf loc h1'
  simp only [h.active, hc, h1, h2, Outcome.bind_ok, Bool.not_true, Bool.false_eq_true, if_false]
  exact ⟨_, _, rfl, h2'', h2'⟩

/-! ### The other operations keep good features -/

theorem matchPass_good {k : Kind P D Env} {env : Env} {det : List D} {b adv : Bool} {l : Store P}
    (hl : AllGood G l) (fl : List Bool) : AllGood G (matchPass k env det b adv l fl).1 := by
  induction l generalizing fl with
  | nil => exact allGood_nil
  | cons p l ih =>
    obtain ⟨key, f⟩ := p
    obtain ⟨h1, h2⟩ := allGood_cons.1 hl
    simp only [matchPass]
    split <;> exact allGood_cons.2 ⟨h1, ih h2 _⟩

theorem matchOnce_good {k : Kind P D Env} {env : Env} {det : List D} {adv : Bool} {old : List Match}
    {m : FMap P} (h : GoodMap G m) : GoodMap G (matchOnce k env det adv old m).1 := by
  unfold matchOnce
  split
  · exact h
  · exact ⟨matchPass_good h.1 _, matchPass_good h.2 _⟩

theorem getMatches_good {k : Kind P D Env} {env : Env} {det : List D} {m : FMap P} (h : GoodMap G m) :
    GoodMap G (getMatches k env det m).1 := by
  unfold getMatches
  simp only
  split
  · exact matchOnce_good (matchOnce_good h)
  · exact matchOnce_good h

theorem eraseMatch_good {key d : Nat} {l : Store P} (h : AllGood G l) : AllGood G (eraseMatch key d l) := by
  intro p hp
  obtain ⟨⟨a, f⟩, hq, rfl⟩ := List.mem_map.1 hp
  have := h _ hq
  simp only
  split <;> exact this

theorem markUnmatched_good {id d : Nat} {m : FMap P} (h : GoodMap G m) :
    GoodMap G (markUnmatched id d m).1 := by
  unfold markUnmatched
  split
  · exact h
  · split
    · exact h
    · split
      · split
        · exact h
        · exact ⟨eraseMatch_good h.1, h.2⟩
      · split
        · split
          · exact h
          · exact ⟨h.1, eraseMatch_good h.2⟩
        · exact h

theorem markOutliers_good {t : FType} {ms : List Match} {m : FMap P} (h : GoodMap G m) :
    GoodMap G (markOutliers t ms m) := by
  induction ms generalizing m with
  | nil => exact h
  | cons o os ih =>
    simp only [markOutliers]
    split
    · exact ih (markUnmatched_good h)
    · exact ih h

theorem missLocal_good {k : Kind P D Env} {l : Store P} (h : AllGood G l) : AllGood G (missLocal k l).1 := by
  induction l with
  | nil => exact allGood_nil
  | cons p l ih =>
    obtain ⟨key, f⟩ := p
    obtain ⟨h1, h2⟩ := allGood_cons.1 h
    simp only [missLocal]
    split
    · exact ih h2
    · exact allGood_cons.2 ⟨by rw [settle_body]; exact h1, ih h2⟩

theorem missStaged_good {k : Kind P D Env} {l : Store P} (h : AllGood G l) :
    AllGood G (missStaged k l) := by
  induction l with
  | nil => exact allGood_nil
  | cons p l ih =>
    obtain ⟨key, f⟩ := p
    obtain ⟨h1, h2⟩ := allGood_cons.1 h
    simp only [missStaged]
    split
    · exact ih h2
    · exact allGood_cons.2 ⟨by rw [settle_body]; exact h1, ih h2⟩

theorem updateNoTracking_good {k : Kind P D Env} {s : State P} (h : GoodMap G s.map) :
    GoodMap G (updateNoTracking k s).map := by
  unfold updateNoTracking
  split
  · exact h
  · exact ⟨missLocal_good h.1, missStaged_good h.2⟩

theorem stageOne_good {k : Kind P D Env} (hk : KeepsGood k G E) {env : Env} (hc : k.covValid env = true)
    {d : D} (he : E env d) {s : State P} (h : GoodMap G s.map) : GoodMap G (stageOne k env d s).map := by
  unfold stageOne
  split
  · rename_i hcan
    simp only
    split
    · rename_i body hb
      exact ⟨h.1, h.2.emplace (hk.builds env d body hc he hcan hb)⟩
    · split <;> exact h
  · exact h

theorem stageFrom_good {k : Kind P D Env} (hk : KeepsGood k G E) {env : Env} (hc : k.covValid env = true)
    {used : List Nat} {det : List D} (he : ∀ d ∈ det, E env d) (i : Nat) {s : State P}
    (h : GoodMap G s.map) : GoodMap G (stageFrom k env used i det s).map := by
  induction det generalizing i s with
  | nil => exact h
  | cons d ds ih =>
    simp only [stageFrom]
    split
    · exact ih (fun d hd => he d (List.mem_cons_of_mem _ hd)) _ h
    · exact ih (fun d hd => he d (List.mem_cons_of_mem _ hd)) _
        (stageOne_good hk hc (he d List.mem_cons_self) h)

theorem stage_ok {k : Kind P D Env} (hk : KeepsGood k G E) {env : Env} {det : List D} {used : List Nat}
    {s : State P} (hf : s.map.flags.length = det.length) (hc : k.covValid env = true)
    (he : ∀ d ∈ det, E env d) (hg : GoodMap G s.map) :
    ∃ s', stage k env det used s = .ok s' ∧ GoodMap G s'.map := by
  unfold stage
  split
  · exact ⟨_, rfl, hg⟩
  · simp only [hc, hf, Bool.not_true, Bool.false_eq_true, if_false, ne_eq, not_true_eq_false]
    exact ⟨_, rfl, stageFrom_good hk hc he 0 hg⟩

theorem takeUpgraded_good {k : Kind P D Env} {env : Env} {l : Store P} (h : AllGood G l) :
    AllGood G (takeUpgraded k env l).1 ∧
      ∀ u ∈ (takeUpgraded k env l).2, ∃ f, G f.body ∧ k.upgrade env f = some u := by
  induction l with
  | nil => exact ⟨allGood_nil, fun u hu => absurd hu List.not_mem_nil⟩
  | cons p l ih =>
    obtain ⟨key, f⟩ := p
    obtain ⟨h1, h2⟩ := allGood_cons.1 h
    obtain ⟨i1, i2⟩ := ih h2
    simp only [takeUpgraded]
    split
    · rename_i u hu
      refine ⟨i1, fun v hv => ?_⟩
      rcases List.mem_cons.1 hv with rfl | hv
      · exact ⟨f, h1, hu⟩
      · exact i2 v hv
    · exact ⟨allGood_cons.2 ⟨h1, i1⟩, i2⟩

theorem getUpgraded_good {k : Kind P D Env} {env : Env} {m : FMap P} (h : GoodMap G m) :
    GoodMap G (getUpgraded k env m).1 ∧
      ∀ u ∈ (getUpgraded k env m).2, ∃ f, G f.body ∧ k.upgrade env f = some u := by
  obtain ⟨a1, a2⟩ := takeUpgraded_good (k := k) (env := env) h.1
  obtain ⟨b1, b2⟩ := takeUpgraded_good (k := k) (env := env) h.2
  refine ⟨⟨a1, b1⟩, fun u hu => ?_⟩
  rcases List.mem_append.1 hu with hu | hu
  · exact a2 u hu
  · exact b2 u hu

theorem addUpgraded_good {k : Kind P D Env} {us : List (Upgrade P)}
    (hu : ∀ u ∈ us, u.type = k.type → ∀ b, k.accept u = .add b → G b) {s : State P} (h : GoodMap G s.map) :
    GoodMap G (addUpgraded k us s).1.map := by
  induction us generalizing s with
  | nil => exact h
  | cons u us ih =>
    have hu' : ∀ v ∈ us, v.type = k.type → ∀ b, k.accept v = .add b → G b := fun v hv =>
      hu v (List.mem_cons_of_mem _ hv)
    simp only [addUpgraded]
    split
    · rename_i ht
      split
      · exact ih hu' h
      · exact h
      · rename_i body hb
        exact ih hu' ⟨h.1.emplace (hu u List.mem_cons_self ht body hb), h.2⟩
    · exact ih hu' h

end

/-! ### The whole map -/

theorem find_maps (k : FType → Kind P D Env) (lt : Match → Match → Bool) (env : Env)
    (det : FType → List D) (ts : List FType) (hn : ts.Nodup) (w : World P) (ms : List Match) (t : FType) :
    (w.find k lt env det ts ms).1.maps t =
      if t ∈ ts then (getMatches (k t) env (det t) (w.maps t)).1 else w.maps t := by
  induction ts generalizing w ms with
  | nil => rfl
  | cons u ts ih =>
    rw [List.nodup_cons] at hn
    simp only [World.find]
    rw [ih hn.2]
    by_cases hu : t = u
    · subst hu
      simp [hn.1, World.put]
    · simp [World.put, hu]

theorem markOutliers_maps (ms : List Match) (ts : List FType) (hn : ts.Nodup) (w : World P) (t : FType) :
    (w.markOutliers ms ts).maps t = if t ∈ ts then Map.markOutliers t ms (w.maps t) else w.maps t := by
  induction ts generalizing w with
  | nil => rfl
  | cons u ts ih =>
    rw [List.nodup_cons] at hn
    simp only [World.markOutliers]
    rw [ih hn.2]
    by_cases hu : t = u
    · subst hu
      simp [hn.1, World.put]
    · simp [World.put, hu]

theorem mem_order (t : FType) : t ∈ order := by cases t <;> simp [order]

theorem order_nodup : order.Nodup := by simp [order]

/-- Loops whose body returns normally and leaves the other maps alone return normally. -/
theorem eachMap_ok {f : FType → World P → Outcome (World P × Bool)} {Q R : FType → FMap P → Prop}
    (hf : ∀ t w, Q t (w.maps t) → ∃ w', f t w = .ok (w', false) ∧ R t (w'.maps t) ∧
      ∀ u, u ≠ t → w'.maps u = w.maps u)
    (ts : List FType) (hn : ts.Nodup) (w : World P) (hq : ∀ t ∈ ts, Q t (w.maps t)) :
    ∃ w', eachMap f ts w = .ok (w', false) ∧ (∀ t ∈ ts, R t (w'.maps t)) ∧
      ∀ t, t ∉ ts → w'.maps t = w.maps t := by
  induction ts generalizing w with
  | nil => exact ⟨w, rfl, fun t ht => absurd ht List.not_mem_nil, fun _ _ => rfl⟩
  | cons t ts ih =>
    rw [List.nodup_cons] at hn
    obtain ⟨w', h1, h2, h3⟩ := hf t w (hq t List.mem_cons_self)
    simp only [eachMap, h1, Outcome.bind_ok, Bool.false_eq_true, if_false]
    obtain ⟨w'', e1, e2, e3⟩ := ih hn.2 w' fun u hu => by
      rw [h3 u fun h => hn.1 (h ▸ hu)]
      exact hq u (List.mem_cons_of_mem _ hu)
    refine ⟨w'', e1, fun u hu => ?_, fun u hu => ?_⟩
    · rcases List.mem_cons.1 hu with rfl | hu
      · rw [e3 u hn.1]; exact h2
      · exact e2 u hu
    · rw [List.mem_cons, not_or] at hu
      rw [e3 u hu.2, h3 u hu.1]

/-- Loops whose body returns and keeps a property return and keep it. -/
theorem eachMap_total {f : FType → World P → Outcome (World P × Bool)} {I : World P → Prop}
    (hf : ∀ t w, I w → ∃ r, f t w = .ok r ∧ I r.1) (ts : List FType) (w : World P) (hw : I w) :
    ∃ r, eachMap f ts w = .ok r ∧ I r.1 := by
  induction ts generalizing w with
  | nil => exact ⟨_, rfl, hw⟩
  | cons t ts ih =>
    obtain ⟨⟨w', b⟩, h1, h2⟩ := hf t w hw
    simp only [eachMap, h1, Outcome.bind_ok]
    split
    · exact ⟨_, rfl, h2⟩
    · exact ih w' h2

/-- What is asked of the feature types and of a frame for the map calls to return. -/
structure Sound (k : FType → Kind P D Env) (cov : Env → Bool) (G : FType → P → Prop)
    (E : Env → D → Prop) : Prop where
  keeps : ∀ t, KeepsGood (k t) (G t) E
  types : ∀ t, (k t).type = t
  covs : ∀ t env, (k t).covValid env = cov env
  accepts : ∀ t env f u, G t f.body → (k t).upgrade env f = some u →
    ∀ b, (k u.type).accept u = .add b → G u.type b

/-- All features of all maps are good. -/
def GoodWorld (G : FType → P → Prop) (w : World P) : Prop := ∀ t, GoodMap (G t) (w.maps t)

theorem GoodWorld.put {G : FType → P → Prop} {w : World P} (h : GoodWorld G w) {t : FType} {s : State P}
    (hs : GoodMap (G t) s.map) : GoodWorld G (w.put t s) := by
  intro u
  by_cases hu : u = t
  · subst hu; simpa [World.put] using hs
  · simpa [World.put, hu] using h u

theorem upgrade_total {k : FType → Kind P D Env} {cov : Env → Bool} {G : FType → P → Prop}
    {E : Env → D → Prop} (hk : Sound k cov G E) (env : Env) {w : World P} (hw : GoodWorld G w) :
    ∃ r, World.upgrade k env w = .ok r ∧ GoodWorld G r.1 := by
  refine eachMap_total (fun t w hw => ?_) _ _ hw
  obtain ⟨h1, h2⟩ := getUpgraded_good (k := k t) (env := env) (hw t)
  refine eachMap_total (fun u w' hw' => ⟨_, rfl, ?_⟩) _ _ (hw.put h1)
  refine hw'.put (addUpgraded_good ?_ (hw' u))
  intro up hup hty b hb
  obtain ⟨f, hf, hf'⟩ := h2 up hup
  rw [hk.types] at hty
  subst hty
  exact hk.accepts t env f up hf hf' b hb

theorem le_foldl_max (l : List Nat) (a : Nat) : a ≤ l.foldl max a ∧ ∀ x ∈ l, x ≤ l.foldl max a := by
  induction l generalizing a with
  | nil => simp
  | cons y l ih =>
    obtain ⟨h1, h2⟩ := ih (max a y)
    simp only [List.foldl_cons]
    refine ⟨by omega, fun x hx => ?_⟩
    rcases List.mem_cons.1 hx with rfl | hx
    · omega
    · exact h2 x hx

theorem budget_ge (w : World P) (t : FType) : (w.maps t).staged.length ≤ w.budget :=
  (le_foldl_max _ 0).2 _ (List.mem_map.2 ⟨t, mem_order t, rfl⟩)

theorem eraseMatch_length (key d : Nat) (l : Store P) : (eraseMatch key d l).length = l.length := by
  simp [eraseMatch]

theorem markUnmatched_staged (id d : Nat) (m : FMap P) :
    (markUnmatched id d m).1.staged.length = m.staged.length := by
  unfold markUnmatched
  split
  · rfl
  · split
    · rfl
    · split
      · split <;> rfl
      · split
        · split
          · rfl
          · exact eraseMatch_length ..
        · rfl

theorem markOutliers_staged (t : FType) (ms : List Match) (m : FMap P) :
    (markOutliers t ms m).staged.length = m.staged.length := by
  induction ms generalizing m with
  | nil => rfl
  | cons o os ih =>
    simp only [markOutliers]
    split
    · rw [ih, markUnmatched_staged]
    · exact ih m

theorem update_ok {k : FType → Kind P D Env} {cov : Env → Bool} {G : FType → P → Prop}
    {E : Env → D → Prop} (hk : Sound k cov G E) {env : Env}
    {det : FType → List D} (he : ∀ t, ∀ d ∈ det t, E env d) {outliers : List Match} {w : World P}
    (hw : ∀ t, Ready (det t).length (w.maps t)) (hg : GoodWorld G w) {fuel : Nat} (hf : w.budget ≤ fuel) :
    ∃ r, w.update k cov fuel env det outliers = .ok r ∧ GoodWorld G r.1 := by
  unfold World.update
  cases hc : cov env with
  | false => exact ⟨_, rfl, hg⟩
  | true =>
    simp only [Bool.not_true, Bool.false_eq_true, if_false]
    have h1 : ∃ w', eachMap (World.updateOne k fuel env det) order (w.markOutliers outliers order) =
        .ok (w', false) ∧ (∀ t ∈ order, GoodMap (G t) (w'.maps t)) ∧
          ∀ t, t ∉ order → w'.maps t = (w.markOutliers outliers order).maps t := by
      refine eachMap_ok (Q := fun t m => Ready (det t).length m ∧ m.staged.length ≤ fuel ∧ GoodMap (G t) m)
        (R := fun t m => GoodMap (G t) m) ?_ order order_nodup _ ?_
      · rintro t w ⟨hr, hl, hgt⟩
        have hct : (k t).covValid env = true := by rw [hk.covs]; exact hc
        obtain ⟨s, used, hu, hgs⟩ := updateMap_ok (s := w.view t) (hk.keeps t) hct (he t) hr hgt hl
        obtain ⟨s', hs, hgs'⟩ := stage_ok (hk.keeps t) (env := env) (det := det t) (used := used) (s := s) (by
          rw [(updateMap_kept hu).2]; exact hr.flags) hct (he t) hgs
        refine ⟨w.put t s', ?_, ?_, ?_⟩
        · simp [World.updateOne, hu, hs]
        · simpa [World.put] using hgs'
        · intro u hu; simp [World.put, hu]
      · intro t _
        rw [markOutliers_maps _ _ order_nodup, if_pos (mem_order t)]
        refine ⟨markOutliers_ready (hw t) _ _, ?_, markOutliers_good (hg t)⟩
        rw [markOutliers_staged]
        exact Nat.le_trans (budget_ge w t) hf
    obtain ⟨w', h1, h2, -⟩ := h1
    rw [h1, Outcome.bind_ok]
    exact upgrade_total hk env fun t => h2 t (mem_order t)

theorem addAll_ok {k : FType → Kind P D Env} {cov : Env → Bool} {G : FType → P → Prop}
    {E : Env → D → Prop} (hk : Sound k cov G E) {env : Env}
    {det : FType → List D} (he : ∀ t, ∀ d ∈ det t, E env d) {w : World P}
    (hw : ∀ t, (w.maps t).flags.length = (det t).length) (hg : GoodWorld G w) :
    ∃ r, w.addAll k cov env det = .ok r ∧ GoodWorld G r.1 := by
  unfold World.addAll
  cases hc : cov env with
  | false => exact ⟨_, rfl, hg⟩
  | true =>
    simp only [Bool.not_true, Bool.false_eq_true, if_false]
    have : ∃ w', eachMap (World.addOne k env det) order w = .ok (w', false) ∧
        (∀ t ∈ order, GoodMap (G t) (w'.maps t)) ∧ ∀ t, t ∉ order → w'.maps t = w.maps t := by
      refine eachMap_ok (Q := fun t m => m.flags.length = (det t).length ∧ GoodMap (G t) m)
        (R := fun t m => GoodMap (G t) m) ?_ order order_nodup _ fun t _ => ⟨hw t, hg t⟩
      rintro t w ⟨hr, hgt⟩
      obtain ⟨s', hs, hgs⟩ := stage_ok (hk.keeps t) (env := env) (det := det t) (used := [])
        (s := w.view t) hr (by rw [hk.covs]; exact hc) (he t) hgt
      refine ⟨w.put t s', ?_, ?_, ?_⟩
      · simp [World.addOne, stageAll, hs]
      · simpa [World.put] using hgs
      · intro u hu; simp [World.put, hu]
    obtain ⟨w', h, h', -⟩ := this
    exact ⟨_, h, fun t => h' t (mem_order t)⟩

theorem find_good {k : FType → Kind P D Env} {lt : Match → Match → Bool} {env : Env}
    {det : FType → List D} {G : FType → P → Prop} {w : World P} (h : GoodWorld G w) (ms : List Match) :
    GoodWorld G (w.find k lt env det order ms).1 := by
  intro t
  rw [find_maps _ _ _ _ _ order_nodup, if_pos (mem_order t)]
  exact getMatches_good (h t)

theorem noPose_good {k : FType → Kind P D Env} {G : FType → P → Prop} (ts : List FType) {w : World P}
    (h : GoodWorld G w) : GoodWorld G (w.noPose k ts) := by
  induction ts generalizing w with
  | nil => exact h
  | cons t ts ih => exact ih (h.put (updateNoTracking_good (h t)))

theorem noPose_maps (k : FType → Kind P D Env) (ts : List FType) (hn : ts.Nodup) (w : World P) (t : FType) :
    ((w.noPose k ts).maps t).flags = (w.maps t).flags := by
  induction ts generalizing w with
  | nil => rfl
  | cons u ts ih =>
    rw [List.nodup_cons] at hn
    simp only [World.noPose]
    rw [ih hn.2]
    by_cases hu : t = u
    · subst hu
      simp only [World.put, if_true]
      unfold updateNoTracking World.view
      split <;> rfl
    · simp [World.put, hu]

theorem find_ready {k : FType → Kind P D Env} {lt : Match → Match → Bool} {env : Env}
    {det : FType → List D} (hr : ∀ t, InRange (k t) env (det t)) {w : World P}
    (ha : ∀ t, (w.maps t).active = true) (ms : List Match) (t : FType) :
    Ready (det t).length ((w.find k lt env det order ms).1.maps t) := by
  rw [find_maps _ _ _ _ _ order_nodup, if_pos (mem_order t)]
  exact getMatches_ready (hr t) _ (ha t)

end RgbdSlam.Map
