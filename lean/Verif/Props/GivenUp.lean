import Verif.Props.MapSize
/-
C200: after eleven frames in a row without a pose nothing is left of the map, whatever it was.
-/
namespace RgbdSlam.Map

open Keypoints (Handler Detected)

variable {P D Env Pose Det : Type}

namespace Spec

/-- A map feature as it is exported: its id and its content. -/
def content (f : Feat P) : Nat × P := (f.id, f.body)

/-- Frames in a row without a pose after which the features of a type are given up. -/
def patience : FType → Nat
  | .plane => 10
  | _ => 11

end Spec

/-! ### One map -/

/-- Counters of a feature type: a map feature is lost after `L` misses; `Z c s n` holds of the counts `s`, `n` of a
candidate that was missed `c` times in a row, and no candidate survives two misses. -/
structure Fades (k : Kind P D Env) (L : Nat) (Z : Nat → Int → Nat → Prop) : Prop where
  lost : ∀ f, k.isLost f = false → f.failed ≤ L
  start : Z 0 0 0
  keep : ∀ f, k.shouldAdd f = false → k.shouldRemove f = false → Z 0 f.succ f.failed
  miss : ∀ c f, Z c f.succ f.failed → k.shouldRemove (settle false f) = false →
    Z (c + 1) (settle false f).succ (settle false f).failed ∧ Z 0 (settle false f).succ (settle false f).failed ∧ c = 0

/-- The counters of every reachable map. -/
structure Young (L : Nat) (Z : Nat → Int → Nat → Prop) (m : FMap P) : Prop where
  loc : ∀ p ∈ m.localMap, p.2.failed ≤ L
  stg : ∀ p ∈ m.staged, Z 0 p.2.succ p.2.failed

theorem young_core {L : Nat} {Z : Nat → Int → Nat → Prop} {m m' : FMap P}
    (hl : m'.localMap.map core = m.localMap.map core) (hs : m'.staged.map core = m.staged.map core)
    (h : Young L Z m) : Young L Z m' where
  loc p hp := by
    have : core p ∈ m.localMap.map core := hl ▸ List.mem_map_of_mem hp
    obtain ⟨q, hq, e⟩ := List.mem_map.1 this
    have := h.loc q hq
    simp only [core, Prod.mk.injEq] at e
    omega
  stg p hp := by
    have : core p ∈ m.staged.map core := hs ▸ List.mem_map_of_mem hp
    obtain ⟨q, hq, e⟩ := List.mem_map.1 this
    have := h.stg q hq
    simp only [core, Prod.mk.injEq] at e
    rw [← e.2.2.1, ← e.2.2.2.1]; exact this

section
variable {k : Kind P D Env} {L : Nat} {Z : Nat → Int → Nat → Prop}

theorem updateLocal_young (hk : Fades k L Z) {env : Env} {det : List D} {l kept : Store P} {used : List Nat}
    {wr : List (Feat P)} (h : updateLocal k env det l = .ok (kept, used, wr)) : ∀ p ∈ kept, p.2.failed ≤ L := by
  induction l generalizing kept used wr with
  | nil => injection h with h; injection h with h1 h2; subst h1; intro p hp; cases hp
  | cons q l ih =>
    obtain ⟨key, f⟩ := q
    simp only [updateLocal] at h
    obtain ⟨⟨f1, hit, u1⟩, h1, h⟩ := Outcome.bind_eq_ok h
    obtain ⟨⟨kept', u2, wr'⟩, h2, h⟩ := Outcome.bind_eq_ok h
    dsimp only at h
    split at h
    · injection h with h; injection h with h3 h4; subst h3; exact ih h2
    · rename_i hl
      injection h with h; injection h with h3 h4; subst h3
      intro p hp
      rcases List.mem_cons.1 hp with rfl | hp
      · exact hk.lost _ (by simpa using hl)
      · exact ih h2 p hp

theorem updateStaged_young_map (hk : Fades k L Z) {env : Env} {det : List D} {n : Nat} {l loc stg loc' : Store P}
    {used : List Nat} (h : updateStaged k env det n l loc = .ok (stg, loc', used)) (hl : ∀ p ∈ loc, p.2.failed ≤ L) :
    (∀ p ∈ loc', p.2.failed ≤ L) ∧ ∀ p ∈ stg, Z 0 p.2.succ p.2.failed := by
  induction n generalizing l loc stg loc' used with
  | zero =>
    cases l with
    | nil =>
      simp only [updateStaged, Outcome.ok.injEq, Prod.mk.injEq] at h
      obtain ⟨rfl, rfl, -⟩ := h
      exact ⟨hl, nofun⟩
    | cons q l => cases h
  | succ n ih =>
    cases l with
    | nil =>
      simp only [updateStaged, Outcome.ok.injEq, Prod.mk.injEq] at h
      obtain ⟨rfl, rfl, -⟩ := h
      exact ⟨hl, nofun⟩
    | cons q l =>
      obtain ⟨key, f⟩ := q
      simp only [updateStaged] at h
      obtain ⟨⟨f1, hit, u1⟩, h1, h⟩ := Outcome.bind_eq_ok h
      dsimp only at h
      split at h
      · split at h
        · obtain ⟨⟨stg', loc1, u2⟩, h2, h⟩ := Outcome.bind_eq_ok h
          simp only [Outcome.ok.injEq, Prod.mk.injEq] at h
          obtain ⟨rfl, rfl, -⟩ := h
          refine ih h2 fun p hp => ?_
          rcases mem_emplace hp with hp | rfl
          · exact hl p hp
          · exact Nat.zero_le _
        · obtain ⟨⟨stg', loc1, u2⟩, h2, h⟩ := Outcome.bind_eq_ok h
          simp only [Outcome.ok.injEq, Prod.mk.injEq] at h
          obtain ⟨rfl, rfl, -⟩ := h
          exact ih h2 hl
      · rename_i ha
        obtain ⟨⟨stg', loc1, u2⟩, h2, h⟩ := Outcome.bind_eq_ok h
        dsimp only at h
        obtain ⟨i1, i2⟩ := ih h2 hl
        split at h
        · simp only [Outcome.ok.injEq, Prod.mk.injEq] at h
          obtain ⟨rfl, rfl, -⟩ := h
          exact ⟨i1, i2⟩
        · rename_i hr
          simp only [Outcome.ok.injEq, Prod.mk.injEq] at h
          obtain ⟨rfl, rfl, -⟩ := h
          refine ⟨i1, fun p hp => ?_⟩
          rcases List.mem_cons.1 hp with rfl | hp
          · exact hk.keep _ (by simpa using ha) (by simpa using hr)
          · exact i2 p hp

theorem missLocal_mem {l : Store P} {p : Nat × Feat P} (hp : p ∈ (missLocal k l).1) :
    k.isLost p.2 = false ∧ ∃ q ∈ l, p.2 = settle false q.2 := by
  induction l with
  | nil => cases hp
  | cons q l ih =>
    obtain ⟨key, f⟩ := q
    simp only [missLocal] at hp
    split at hp
    · obtain ⟨h1, q, hq, e⟩ := ih hp
      exact ⟨h1, q, List.mem_cons_of_mem _ hq, e⟩
    · rename_i hl
      rcases List.mem_cons.1 hp with rfl | hp
      · exact ⟨by simpa using hl, _, List.mem_cons_self, rfl⟩
      · obtain ⟨h1, q, hq, e⟩ := ih hp
        exact ⟨h1, q, List.mem_cons_of_mem _ hq, e⟩

theorem missStaged_mem {l : Store P} {p : Nat × Feat P} (hp : p ∈ missStaged k l) :
    k.shouldRemove p.2 = false ∧ ∃ q ∈ l, p.2 = settle false q.2 := by
  induction l with
  | nil => cases hp
  | cons q l ih =>
    obtain ⟨key, f⟩ := q
    simp only [missStaged] at hp
    split at hp
    · obtain ⟨h1, q, hq, e⟩ := ih hp
      exact ⟨h1, q, List.mem_cons_of_mem _ hq, e⟩
    · rename_i hl
      rcases List.mem_cons.1 hp with rfl | hp
      · exact ⟨by simpa using hl, _, List.mem_cons_self, rfl⟩
      · obtain ⟨h1, q, hq, e⟩ := ih hp
        exact ⟨h1, q, List.mem_cons_of_mem _ hq, e⟩

/-- Without a pose a feature is kept or written, with the content it had. -/
theorem missLocal_content (l : Store P) :
    ((missLocal k l).2.map Spec.content ++ (missLocal k l).1.map (Spec.content ·.2)).Perm (l.map (Spec.content ·.2)) := by
  induction l with
  | nil => exact List.Perm.refl _
  | cons q l ih =>
    obtain ⟨key, f⟩ := q
    simp only [missLocal]
    split
    · simpa [Spec.content, settle] using ih
    · simp only [List.map_cons]
      refine List.perm_middle.trans ?_
      simpa [Spec.content, settle] using ih

theorem stageOne_young (env : Env) (d : D) (s : State P) (ha : s.alloc.Ok) :
    (stageOne k env d s).map.localMap = s.map.localMap ∧ (stageOne k env d s).written = s.written ∧
    (stageOne k env d s).alloc.Ok ∧ s.alloc.given ≤ (stageOne k env d s).alloc.given ∧
    ∀ p ∈ (stageOne k env d s).map.staged, p ∈ s.map.staged ∨
      (p.2.failed = 0 ∧ p.2.succ = 0) ∧ ((stageOne k env d s).alloc.given < 2 ^ 64 → s.alloc.given < p.2.id) := by
  have hle : s.alloc.given ≤ s.alloc.next.given := Nat.le_succ _
  unfold stageOne
  split
  · split
    · refine ⟨rfl, rfl, Alloc.ok_next ha, hle, fun p hp => ?_⟩
      rcases mem_emplace hp with hp | rfl
      · exact .inl hp
      · refine .inr ⟨⟨rfl, rfl⟩, fun h => ?_⟩
        have h1 : s.alloc.next.last = s.alloc.next.given := Alloc.ok_next ha h
        have h2 : s.alloc.next.given = s.alloc.given + 1 := rfl
        change s.alloc.given < s.alloc.next.last
        omega
    · split
      · exact ⟨rfl, rfl, Alloc.ok_next ha, hle, fun p hp => .inl hp⟩
      · exact ⟨rfl, rfl, ha, Nat.le_refl _, fun p hp => .inl hp⟩
  · exact ⟨rfl, rfl, ha, Nat.le_refl _, fun p hp => .inl hp⟩

/-- New candidates have new ids and no count. -/
theorem stageFrom_young {env : Env} {used : List Nat} {i : Nat} {ds : List D} {s : State P} (ha : s.alloc.Ok) :
    (stageFrom k env used i ds s).map.localMap = s.map.localMap ∧
    (stageFrom k env used i ds s).written = s.written ∧
    (stageFrom k env used i ds s).alloc.Ok ∧ s.alloc.given ≤ (stageFrom k env used i ds s).alloc.given ∧
    ∀ p ∈ (stageFrom k env used i ds s).map.staged, p ∈ s.map.staged ∨
      (p.2.failed = 0 ∧ p.2.succ = 0) ∧ ((stageFrom k env used i ds s).alloc.given < 2 ^ 64 → s.alloc.given < p.2.id) := by
  induction ds generalizing i s with
  | nil => exact ⟨rfl, rfl, ha, Nat.le_refl _, fun p hp => .inl hp⟩
  | cons d ds ih =>
    simp only [stageFrom]
    split
    · exact ih ha
    · obtain ⟨k1, k2, k3, k4, k5⟩ := stageOne_young (k := k) env d s ha
      obtain ⟨h1, h2, h3, h4, h5⟩ := ih (i := i + 1) k3
      refine ⟨h1.trans k1, h2.trans k2, h3, Nat.le_trans k4 h4, fun p hp => ?_⟩
      rcases h5 p hp with hp | ⟨hc, hi⟩
      · rcases k5 p hp with hp | ⟨hc, hi⟩
        · exact .inl hp
        · exact .inr ⟨hc, fun h => hi (Nat.lt_of_le_of_lt h4 h)⟩
      · exact .inr ⟨hc, fun h => Nat.lt_of_le_of_lt k4 (hi h)⟩

theorem stageFrom_counts (env : Env) (used : List Nat) (i : Nat) (ds : List D) (s : State P) :
    (stageFrom k env used i ds s).map.localMap = s.map.localMap ∧
    ∀ p ∈ (stageFrom k env used i ds s).map.staged, p ∈ s.map.staged ∨ p.2.failed = 0 ∧ p.2.succ = 0 := by
  induction ds generalizing i s with
  | nil => exact ⟨rfl, fun p hp => .inl hp⟩
  | cons d ds ih =>
    simp only [stageFrom]
    split
    · exact ih _ _
    · obtain ⟨h1, h3⟩ := ih (i + 1) (stageOne k env d s)
      have key : (stageOne k env d s).map.localMap = s.map.localMap ∧
          ∀ p ∈ (stageOne k env d s).map.staged, p ∈ s.map.staged ∨ p.2.failed = 0 ∧ p.2.succ = 0 := by
        unfold stageOne
        split
        · split
          · refine ⟨rfl, fun p hp => ?_⟩
            rcases mem_emplace hp with hp | rfl
            · exact .inl hp
            · exact .inr ⟨rfl, rfl⟩
          · split <;> exact ⟨rfl, fun p hp => .inl hp⟩
        · exact ⟨rfl, fun p hp => .inl hp⟩
      refine ⟨h1.trans key.1, fun p hp => ?_⟩
      rcases h3 p hp with hp | hp
      · exact key.2 p hp
      · exact .inr hp

theorem addUpgraded_young (us : List (Upgrade P)) (s : State P) (h : Young L Z s.map) :
    Young L Z (addUpgraded k us s).1.map := by
  induction us generalizing s with
  | nil => exact h
  | cons u us ih =>
    simp only [addUpgraded]
    split
    · split
      · exact ih s h
      · exact h
      · refine ih _ ⟨fun p hp => ?_, h.stg⟩
        rcases mem_emplace hp with hp | rfl
        · exact h.loc p hp
        · exact Nat.zero_le _
    · exact ih s h

theorem takeUpgraded_mem (env : Env) (l : Store P) : ∀ p ∈ (takeUpgraded k env l).1, p ∈ l := by
  induction l with
  | nil => exact fun p hp => hp
  | cons q l ih =>
    obtain ⟨key, f⟩ := q
    intro p hp
    simp only [takeUpgraded] at hp
    split at hp
    · exact List.mem_cons_of_mem _ (ih p hp)
    · rcases List.mem_cons.1 hp with rfl | hp
      · exact List.mem_cons_self
      · exact List.mem_cons_of_mem _ (ih p hp)

theorem updateNoTracking_young (hk : Fades k L Z) {s : State P} (h : Young L Z s.map) :
    Young L Z (updateNoTracking k s).map := by
  unfold updateNoTracking
  split
  · exact h
  · constructor
    · intro p hp
      exact hk.lost _ (missLocal_mem hp).1
    · intro p hp
      obtain ⟨h1, q, hq, e⟩ := missStaged_mem hp
      rw [e] at h1 ⊢
      exact (hk.miss 0 _ (h.stg q hq) h1).2.1

theorem young_step (hk : Fades k L Z) {op : Op P D Env} {s s' : State P} (h : Young L Z s.map)
    (hs : step k op s = .ok s') : Young L Z s'.map := by
  cases op with
  | find env det =>
    injection hs with hs; subst hs
    obtain ⟨x1, x2, -⟩ := getMatches_core k env det s.map
    exact young_core x1 x2 h
  | update fuel env det =>
    simp only [step] at hs
    split at hs
    · injection hs with hs; subst hs; exact h
    · rename_i r hr
      cases hu : updateMap k fuel env det s with
      | ok v =>
        rw [hu] at hs
        injection hs with hs
        subst hs
        unfold updateMap at hu
        split at hu
        · injection hu with hu; subst hu; exact h
        split at hu
        · cases hu
        obtain ⟨⟨loc, u1, wr⟩, h1, hu⟩ := Outcome.bind_eq_ok hu
        obtain ⟨⟨stg, loc', u2⟩, h2, hu⟩ := Outcome.bind_eq_ok hu
        injection hu with hu
        subst hu
        obtain ⟨y1, y2⟩ := updateStaged_young_map hk h2 (updateLocal_young hk h1)
        exact ⟨y1, y2⟩
      | throws => exact absurd hu hr
      | exit => rw [hu] at hs; cases hs
      | terminate => rw [hu] at hs; cases hs
      | ub => rw [hu] at hs; cases hs
      | outOfFuel => rw [hu] at hs; cases hs
  | noTracking => injection hs with hs; subst hs; exact updateNoTracking_young hk h
  | stage env det used =>
    simp only [step] at hs
    split at hs
    · injection hs with hs; subst hs; exact h
    · unfold stage at hs
      split at hs
      · injection hs with hs; subst hs; exact h
      split at hs
      · cases hs
      split at hs
      · cases hs
      · injection hs with hs; subst hs
        obtain ⟨z1, z3⟩ := stageFrom_counts (k := k) env used 0 det s
        refine ⟨by rw [z1]; exact h.loc, fun p hp => ?_⟩
        rcases z3 p hp with hp | ⟨e1, e2⟩
        · exact h.stg p hp
        · rw [e1, e2]; exact hk.start
  | outliers ms =>
    injection hs with hs; subst hs
    obtain ⟨x1, x2, -⟩ := markOutliers_core k.type ms s.map
    exact young_core x1 x2 h
  | takeUpgrades env =>
    injection hs with hs; subst hs
    exact ⟨fun p hp => h.loc p (takeUpgraded_mem env _ p hp), fun p hp => h.stg p (takeUpgraded_mem env _ p hp)⟩
  | addUpgrades us => injection hs with hs; subst hs; exact addUpgraded_young us s h
  | reset =>
    injection hs with hs; subst hs
    simp only [Map.reset]
    split
    · exact h
    · exact ⟨nofun, nofun⟩
  | deactivate => injection hs with hs; subst hs; exact ⟨h.loc, h.stg⟩
  | foreignIds n => injection hs with hs; subst hs; exact h
  | rehash a b =>
    injection hs with hs; subst hs
    exact ⟨fun p hp => h.loc p ((a.perm _).mem_iff.1 hp), fun p hp => h.stg p ((b.perm _).mem_iff.1 hp)⟩
end

theorem micros_young {k : FType → Kind P D Env} {L : FType → Nat} {Z : FType → Nat → Int → Nat → Prop}
    (hk : ∀ t, Fades (k t) (L t) (Z t)) {w w' : World P} (h : Micros k w w') (hw : ∀ t, Young (L t) (Z t) (w.maps t)) (t : FType) :
    Young (L t) (Z t) (w'.maps t) := by
  induction h with
  | refl => exact hw t
  | @step w1 u op s _ hd hs ih =>
    by_cases hu : t = u
    · subst hu
      have : ((w1.put t s).maps t) = s.map := by simp [World.put]
      rw [this]
      exact young_step (hk t) (s := w1.view t) ih hs
    · have : ((w1.put u s).maps t) = w1.maps t := by simp [World.put, hu]
      rw [this]; exact ih

/-! ### All maps -/

/-- The maps of `w` after `c` frames without a pose, as seen from a world with `g` ids given, where `base` was written
or in the map. -/
structure Fading (L : FType → Nat) (Z : FType → Nat → Int → Nat → Prop) (base : FType → List (Nat × P)) (g c : Nat)
    (w : World P) : Prop where
  young : ∀ t, Young (L t) (Z t) (w.maps t)
  act : ∀ t, (w.maps t).active = true
  alloc : w.alloc.Ok
  given : g ≤ w.alloc.given
  loc : ∀ t, ∀ p ∈ (w.maps t).localMap, c ≤ p.2.failed
  stg : ∀ t, ∀ p ∈ (w.maps t).staged, p.2.id ≤ g → Z t c p.2.succ p.2.failed ∧ c ≤ 1
  wr : ∀ t, ((w.written t).map Spec.content ++ (w.maps t).localMap.map (Spec.content ·.2)).Perm (base t)

section
variable {k : FType → Kind P D Env} {L : FType → Nat} {Z : FType → Nat → Int → Nat → Prop}
  {base : FType → List (Nat × P)} {g c : Nat}

theorem find_rest (lt : Match → Match → Bool) (env : Env) (det : FType → List D) (ts : List FType) (w : World P)
    (ms : List Match) : (w.find k lt env det ts ms).1.alloc = w.alloc ∧ (w.find k lt env det ts ms).1.written = w.written := by
  induction ts generalizing w ms with
  | nil => exact ⟨rfl, rfl⟩
  | cons u ts ih =>
    simp only [World.find]
    obtain ⟨h1, h2⟩ := ih (w.put u { w.view u with map := (getMatches (k u) env (det u) (w.maps u)).1 })
      (mergeBy lt ms (getMatches (k u) env (det u) (w.maps u)).2)
    refine ⟨h1, h2.trans (funext fun t => ?_)⟩
    simp only [World.put, World.view]
    split
    · rename_i h; rw [h]
    · rfl

theorem find_fading (lt : Match → Match → Bool) (env : Env) (det : FType → List D) {w : World P}
    (h : Fading L Z base g c w) : Fading L Z base g c (w.find k lt env det order []).1 := by
  obtain ⟨ea, ew⟩ := find_rest (k := k) lt env det order w []
  have hm : ∀ t, (w.find k lt env det order []).1.maps t = (getMatches (k t) env (det t) (w.maps t)).1 := by
    intro t; rw [find_maps _ _ _ _ _ order_nodup, if_pos (mem_order t)]
  have hcore := fun t => getMatches_core (k t) env (det t) (w.maps t)
  have hc : ∀ l : Store P, l.map (Spec.content ·.2) = (l.map core).map fun q => (q.2.1, q.2.2.2.2) := by
    intro l; rw [List.map_map]; rfl
  refine ⟨fun t => ?_, fun t => ?_, ea ▸ h.alloc, ea ▸ h.given, fun t p hp => ?_, fun t p hp hid => ?_, fun t => ?_⟩
  · rw [hm]; exact young_core (hcore t).1 (hcore t).2.1 (h.young t)
  · rw [micros_active (find_micros k lt env det order w []) t]; exact h.act t
  · rw [hm] at hp
    have : core p ∈ (w.maps t).localMap.map core := (hcore t).1 ▸ List.mem_map_of_mem hp
    obtain ⟨q, hq, e⟩ := List.mem_map.1 this
    have := h.loc t q hq
    simp only [core, Prod.mk.injEq] at e
    omega
  · rw [hm] at hp
    have : core p ∈ (w.maps t).staged.map core := (hcore t).2.1 ▸ List.mem_map_of_mem hp
    obtain ⟨q, hq, e⟩ := List.mem_map.1 this
    simp only [core, Prod.mk.injEq] at e
    have := h.stg t q hq (by omega)
    rw [← e.2.2.1, ← e.2.2.2.1]; exact this
  · rw [ew, hm, hc, (hcore t).1, ← hc]; exact h.wr t

theorem noPose_view (w : World P) (t : FType) :
    (w.noPose k order).maps t = (updateNoTracking (k t) (w.view t)).map ∧
    (w.noPose k order).written t = (updateNoTracking (k t) (w.view t)).written ∧
    (w.noPose k order).alloc = w.alloc := by
  have ea : ∀ (j : Kind P D Env) (s : State P), (updateNoTracking j s).alloc = s.alloc := by
    intro j s; unfold updateNoTracking; split <;> rfl
  have ev : ∀ (j : Kind P D Env) (s s' : State P), s.map = s'.map → s.written = s'.written →
      (updateNoTracking j s).map = (updateNoTracking j s').map ∧
      (updateNoTracking j s).written = (updateNoTracking j s').written := by
    intro j s s' h1 h2
    unfold updateNoTracking
    rw [h1]
    split
    · exact ⟨h1, h2⟩
    · exact ⟨rfl, by simp only [h2]⟩
  have gen : ∀ (ts : List FType), ts.Nodup → ∀ v : World P, (v.noPose k ts).alloc = v.alloc ∧
      ((v.noPose k ts).maps t = if t ∈ ts then (updateNoTracking (k t) (v.view t)).map else v.maps t) ∧
      ((v.noPose k ts).written t = if t ∈ ts then (updateNoTracking (k t) (v.view t)).written else v.written t) := by
    intro ts
    induction ts with
    | nil => intro _ v; exact ⟨rfl, rfl, rfl⟩
    | cons u ts ih =>
      intro hn v
      rw [List.nodup_cons] at hn
      simp only [World.noPose]
      obtain ⟨i1, i2, i3⟩ := ih hn.2 (v.put u (updateNoTracking (k u) (v.view u)))
      refine ⟨i1.trans (ea _ _), ?_⟩
      rw [i2, i3]
      by_cases hu : t = u
      · subst hu
        rw [if_neg hn.1, if_neg hn.1, if_pos List.mem_cons_self, if_pos List.mem_cons_self]
        simp [World.put]
      · have hne : ∀ s, (v.put u s).maps t = v.maps t := fun s => by simp [World.put, hu]
        have hnw : ∀ s, (v.put u s).written t = v.written t := fun s => by simp [World.put, hu]
        by_cases ht : t ∈ ts
        · rw [if_pos ht, if_pos ht, if_pos (List.mem_cons_of_mem _ ht), if_pos (List.mem_cons_of_mem _ ht)]
          exact ev _ _ _ (hne _) (hnw _)
        · rw [if_neg ht, if_neg ht, if_neg (by simp [hu, ht]), if_neg (by simp [hu, ht]), hne, hnw]
          exact ⟨rfl, rfl⟩
  obtain ⟨g1, g2, g3⟩ := gen order order_nodup w
  rw [if_pos (mem_order t)] at g2 g3
  exact ⟨g2, g3, g1⟩

theorem noPose_fading (hk : ∀ t, Fades (k t) (L t) (Z t)) {w : World P} (h : Fading L Z base g c w) :
    Fading L Z base g (c + 1) (w.noPose k order) := by
  have hv := noPose_view (k := k) w
  have hu : ∀ t, updateNoTracking (k t) (w.view t) = { w.view t with
      map := { w.maps t with localMap := (missLocal (k t) (w.maps t).localMap).1, staged := missStaged (k t) (w.maps t).staged },
      written := w.written t ++ (missLocal (k t) (w.maps t).localMap).2 } := by
    intro t
    unfold updateNoTracking
    have : (w.view t).map.active = true := h.act t
    rw [this]
    rfl
  refine ⟨fun t => ?_, fun t => ?_, (hv .point).2.2 ▸ h.alloc, (hv .point).2.2 ▸ h.given, fun t p hp => ?_, fun t p hp hid => ?_,
    fun t => ?_⟩
  · rw [(hv t).1]; exact updateNoTracking_young (hk t) (s := w.view t) (h.young t)
  · rw [micros_active (noPose_micros k order w) t]; exact h.act t
  · rw [(hv t).1, hu] at hp
    obtain ⟨-, q, hq, e⟩ := missLocal_mem hp
    have := h.loc t q hq
    rw [e]
    simp only [settle, Bool.false_eq_true, if_false]
    omega
  · rw [(hv t).1, hu] at hp
    obtain ⟨hr, q, hq, e⟩ := missStaged_mem hp
    rw [e] at hr hid ⊢
    obtain ⟨z1, -, z3⟩ := (hk t).miss c q.2 (h.stg t q hq hid).1 hr
    exact ⟨z1, by omega⟩
  · rw [(hv t).1, (hv t).2.1, hu]
    simp only [List.map_append, List.append_assoc]
    exact ((missLocal_content (k := k t) (w.maps t).localMap).append_left _).trans (h.wr t)

theorem addOne_fading (hk : ∀ t, Fades (k t) (L t) (Z t)) {env : Env} {det : FType → List D} {t : FType} {w w' : World P} {b : Bool}
    (h : Fading L Z base g c w) (hr : World.addOne k env det t w = .ok (w', b)) (hlt : w'.alloc.given < 2 ^ 64) :
    Fading L Z base g c w' := by
  unfold World.addOne at hr
  split at hr
  · rename_i s hs
    simp only [Outcome.ok.injEq, Prod.mk.injEq] at hr
    obtain ⟨rfl, -⟩ := hr
    unfold stageAll stage at hs
    rw [show (w.view t).map.active = true from h.act t] at hs
    split at hs
    · injection hs with hs; subst hs; rw [put_view]; exact h
    split at hs
    · cases hs
    split at hs
    · cases hs
    injection hs with hs
    subst hs
    obtain ⟨z1, z2, z3, z4, z5⟩ := stageFrom_young (k := k t) (env := env) (used := []) (i := 0) (ds := det t) (s := w.view t) h.alloc
    have hact : (stageFrom (k t) env [] 0 (det t) (w.view t)).map.active = true := by
      have : ∀ (ds : List D) (i : Nat) (s : State P), (stageFrom (k t) env [] i ds s).map.active = s.map.active := by
        intro ds
        induction ds with
        | nil => intros; rfl
        | cons d ds ih =>
          intro i s
          simp only [stageFrom]
          split
          · exact ih _ _
          · rw [ih]; unfold stageOne
            split
            · split
              · rfl
              · split <;> rfl
            · rfl
      rw [this]; exact h.act t
    generalize stageFrom (k t) env [] 0 (det t) (w.view t) = s at z1 z2 z3 z4 z5 hact hlt ⊢
    have hs : (w.put t s).maps t = s.map := by simp [World.put]
    have hsw : (w.put t s).written t = s.written := by simp [World.put]
    have ho : ∀ u, u ≠ t → (w.put t s).maps u = w.maps u := fun u hu => by simp [World.put, hu]
    have how : ∀ u, u ≠ t → (w.put t s).written u = w.written u := fun u hu => by simp [World.put, hu]
    have hlt' : s.alloc.given < 2 ^ 64 := hlt
    refine ⟨fun u => ?_, fun u => ?_, z3, Nat.le_trans h.given z4, fun u => ?_, fun u => ?_, fun u => ?_⟩ <;>
      by_cases hu : u = t
    · subst hu; rw [hs]
      refine ⟨by rw [z1]; exact (h.young u).loc, fun p hp => ?_⟩
      rcases z5 p hp with hp | ⟨⟨e1, e2⟩, -⟩
      · exact (h.young u).stg p hp
      · rw [e1, e2]; exact (hk u).start
    · rw [ho u hu]; exact h.young u
    · subst hu; rw [hs]; exact hact
    · rw [ho u hu]; exact h.act u
    · subst hu; rw [hs, z1]; exact h.loc u
    · rw [ho u hu]; exact h.loc u
    · subst hu; rw [hs]
      intro p hp hid
      rcases z5 p hp with hp | ⟨-, hi⟩
      · exact h.stg u p hp hid
      · have h1 : w.alloc.given < p.2.id := hi hlt'
        have := h.given
        omega
    · rw [ho u hu]; exact h.stg u
    · subst hu; rw [hs, hsw, z1, z2]; exact h.wr u
    · rw [ho u hu, how u hu]; exact h.wr u
  · simp only [Outcome.ok.injEq, Prod.mk.injEq] at hr
    obtain ⟨rfl, -⟩ := hr; exact h
  all_goals cases hr

theorem addAll_fading (hk : ∀ t, Fades (k t) (L t) (Z t)) {cov : Env → Bool} {env : Env} {det : FType → List D} {w w' : World P} {b : Bool}
    (h : Fading L Z base g c w) (hr : World.addAll k cov env det w = .ok (w', b)) (hlt : w'.alloc.given < 2 ^ 64) :
    Fading L Z base g c w' := by
  unfold World.addAll at hr
  split at hr
  · simp only [Outcome.ok.injEq, Prod.mk.injEq] at hr
    obtain ⟨rfl, -⟩ := hr; exact h
  · have one : ∀ (t : FType) (w w' : World P) b, World.addOne k env det t w = .ok (w', b) → Micros k w w' := by
      intro t w w' b hs
      unfold World.addOne at hs
      split at hs
      · rename_i s hs'
        simp only [Outcome.ok.injEq, Prod.mk.injEq] at hs
        obtain ⟨rfl, -⟩ := hs
        refine Micros.one t (.stage env (det t) []) nofun ?_
        simp only [step]
        change (match stageAll (k t) env (det t) (w.view t) with | .throws => _ | r => r) = _
        rw [hs']
      · simp only [Outcome.ok.injEq, Prod.mk.injEq] at hs
        obtain ⟨rfl, -⟩ := hs; exact .refl _
      all_goals cases hs
    have gen : ∀ (ts : List FType) (w : World P), Fading L Z base g c w → eachMap (World.addOne k env det) ts w = .ok (w', b) →
        Fading L Z base g c w' := by
      intro ts
      induction ts with
      | nil =>
        intro w h hr
        simp only [eachMap, Outcome.ok.injEq, Prod.mk.injEq] at hr
        obtain ⟨rfl, -⟩ := hr; exact h
      | cons t ts ih =>
        intro w h hr
        simp only [eachMap] at hr
        obtain ⟨⟨w1, b1⟩, h1, hr⟩ := Outcome.bind_eq_ok hr
        dsimp only at hr
        split at hr
        · simp only [Outcome.ok.injEq, Prod.mk.injEq] at hr
          obtain ⟨rfl, -⟩ := hr
          exact addOne_fading hk h h1 hlt
        · exact ih w1 (addOne_fading hk h h1
            (Nat.lt_of_le_of_lt (micros_given (eachMap_micros one ts w1 hr)) hlt)) hr
    exact gen order w h hr
end

/-! ### The frame loop -/

/-- What a frame without a pose does. -/
theorem step_none {L Match : Type} {ops : Slam.MapOps L Det Pose Match} {po : Slam.PoseOps Pose}
    {f : Slam.Frame L Det Pose Match} {s s' : Slam.State L Pose} {o : Slam.Out Pose}
    (h : Slam.step ops po f s = .ok (s', o)) (ho : o.optimized = none) :
    s'.currentPose = s.currentPose ∧ o.returned = s.currentPose ∧ s'.isFirstTrackingCall = false ∧
    s'.failedTrackingCount = (if s.isFirstTrackingCall then s.failedTrackingCount else Slam.incr s.failedTrackingCount) ∧
    s'.isTrackingLost = (if s.isFirstTrackingCall then s.isTrackingLost else decide (3 < s'.failedTrackingCount)) ∧
    ∃ det, s'.localMap = ops.updateNoPose (ops.find s.currentPose det s.localMap).1 ∨
      s'.localMap = ops.addAll s.currentPose det (ops.updateNoPose (ops.find s.currentPose det s.localMap).1) := by
  unfold Slam.step at h
  split at h
  · simp only at h
    split at h
    · split at h
      · injection h with h; injection h with h1 h2; rw [← h2] at ho; cases ho
      · injection h with h; injection h with h1 h2; rw [← h2] at ho; cases ho
    · injection h with h; injection h with h1 h2
      subst h1 h2
      refine ⟨rfl, rfl, rfl, rfl, rfl, f.detect s.localMap s.currentPose (s.isTrackingLost ||
        (s.computeKeypointCount % Slam.keypointRefreshFrequency + 1 == 1)), ?_⟩
      simp only
      split
      · exact .inr rfl
      · exact .inl rfl
  · cases h

theorem run_none {L Match : Type} {ops : Slam.MapOps L Det Pose Match} {po : Slam.PoseOps Pose}
    (frames : List (Slam.Frame L Det Pose Match)) (s s' : Slam.State L Pose) (outs : List (Slam.Out Pose))
    (h : Slam.run ops po frames s = .ok (s', outs)) (hn : ∀ o ∈ outs, o.optimized = none)
    (hc : s.failedTrackingCount + frames.length < Slam.uintSize) :
    s'.currentPose = s.currentPose ∧ (∀ o ∈ outs, o.returned = s.currentPose) ∧
    (s.isFirstTrackingCall = false → s'.failedTrackingCount = s.failedTrackingCount + frames.length ∧
      (1 ≤ frames.length → s'.isTrackingLost = decide (3 < s'.failedTrackingCount))) ∧
    (s.isFirstTrackingCall = true → 2 ≤ frames.length → s'.failedTrackingCount + 1 = s.failedTrackingCount + frames.length ∧
      s'.isTrackingLost = decide (3 < s'.failedTrackingCount)) := by
  induction frames generalizing s outs with
  | nil =>
    injection h with h; injection h with h1 h2
    subst h1 h2
    exact ⟨rfl, nofun, fun _ => ⟨rfl, by simp⟩, fun _ => by simp⟩
  | cons f fs ih =>
    obtain ⟨⟨s1, o⟩, h1, h⟩ := Outcome.bind_eq_ok h
    obtain ⟨⟨s2, os⟩, h2, h⟩ := Outcome.bind_eq_ok h
    injection h with h
    injection h with h3 h4
    subst h3 h4
    obtain ⟨a1, a2, a3, a4, a5, -⟩ := step_none h1 (hn _ List.mem_cons_self)
    simp only [List.length_cons] at hc ⊢
    have hle : s1.failedTrackingCount ≤ s.failedTrackingCount + 1 := by
      rw [a4]; split
      · omega
      · unfold Slam.incr; rw [Nat.mod_eq_of_lt (by omega)]; exact Nat.le_refl _
    obtain ⟨i1, i2, i3, -⟩ := ih s1 os h2 (fun o ho => hn o (List.mem_cons_of_mem _ ho)) (by omega)
    obtain ⟨i3, i4⟩ := i3 a3
    refine ⟨i1.trans a1, fun o' ho' => ?_, fun hf => ?_, fun hf hl => ?_⟩
    · rcases List.mem_cons.1 ho' with rfl | ho'
      · exact a2
      · exact (i2 o' ho').trans a1
    · rw [hf] at a4 a5
      simp only [Bool.false_eq_true, if_false] at a4 a5
      unfold Slam.incr at a4
      rw [Nat.mod_eq_of_lt (by omega)] at a4
      refine ⟨by omega, fun _ => ?_⟩
      cases fs with
      | nil =>
        simp only [Slam.run, Outcome.ok.injEq, Prod.mk.injEq] at h2
        obtain ⟨rfl, -⟩ := h2
        exact a5
      | cons => exact i4 (by simp)
    · rw [hf] at a4
      simp only [if_true] at a4
      exact ⟨by omega, i4 (by omega)⟩

/-- Misses after which the counters of a candidate of a type say that it is gone. -/
def weak : FType → Nat → Int → Nat → Prop
  | .plane, c, _, n => c ≤ n
  | _, c, s, _ => s + c ≤ 2

theorem fades_program (o2 o1 : PointOps P D Env) (op : PlaneOps P D Env) (t : FType) :
    Fades (programKinds o2 o1 op t) (missLimit t) (weak t) := by
  cases t
  · refine ⟨fun f h => by simpa [programKinds, point2dKind, missLimit] using h, by simp [weak], fun f ha hr => ?_, fun c f hz hr => ?_⟩
    · simp only [programKinds, point2dKind, decide_eq_false_iff_not, confidence_enough] at ha
      simp only [weak]; omega
    · simp only [programKinds, point2dKind, decide_eq_false_iff_not, confidence_nonpos] at hr
      simp only [weak] at hz ⊢
      simp only [settle, Bool.false_eq_true, if_false] at hr ⊢
      omega
  · refine ⟨fun f h => by simpa [programKinds, pointKind, missLimit] using h, by simp [weak], fun f ha hr => ?_, fun c f hz hr => ?_⟩
    · simp only [programKinds, pointKind, decide_eq_false_iff_not, confidence_enough] at ha
      simp only [weak]; omega
    · simp only [programKinds, pointKind, decide_eq_false_iff_not, confidence_nonpos] at hr
      simp only [weak] at hz ⊢
      simp only [settle, Bool.false_eq_true, if_false] at hr ⊢
      omega
  · refine ⟨fun f h => ?_, by simp [weak], fun f ha hr => by simp [weak], fun c f hz hr => ?_⟩
    · simp only [programKinds, planeKind, decide_eq_false_iff_not] at h
      simp only [missLimit]; omega
    · simp only [programKinds, planeKind, decide_eq_false_iff_not] at hr
      simp only [weak] at hz ⊢
      simp only [settle, Bool.false_eq_true, if_false] at hr ⊢
      omega

/-- The map operations of a frame are calls on single maps; a map that is gone stays gone. -/
theorem frame_micros {k : FType → Kind P D Env} (hk : ∀ t, (k t).type = t) {cov : Env → Bool} {lt : Match → Match → Bool}
    {env : Pose → Det → Env} {dets : Det → FType → List D} {po : Slam.PoseOps Pose}
    {f : Slam.Frame (Outcome (World P)) Det Pose Match} {s s' : Slam.State (Outcome (World P)) Pose} {o : Slam.Out Pose}
    (h : Slam.step (localMapOps k cov lt env dets) po f s = .ok (s', o)) {w' : World P} (hw' : s'.localMap = .ok w') :
    ∃ w, s.localMap = .ok w ∧ Micros k w w' := by
  let O := localMapOps k cov lt env dets
  have pfind : ∀ p d L (v : World P), (O.find p d L).1 = .ok v → ∃ w, L = .ok w ∧ Micros k w v := by
    intro p d L v hv
    have e : (O.find p d L).1 = L.bind fun w => .ok (w.find k lt (env p d) (dets d) order []).1 := by cases L <;> rfl
    rw [e] at hv
    obtain ⟨w, h1, h2⟩ := Outcome.bind_eq_ok hv
    injection h2 with h2
    exact ⟨w, h1, h2 ▸ find_micros ..⟩
  have pupd : ∀ p d ms L (v : World P), (O.update p d ms L).1 = .ok v → ∃ w, L = .ok w ∧ Micros k w v := by
    intro p d ms L v hv
    have e : (O.update p d ms L).1 = L.bind fun w => (w.update k cov w.budget (env p d) (dets d) ms).bind fun x => .ok x.1 := by
      cases L with
      | ok w =>
        change Outcome.map _ _ = _
        rw [Outcome.bind_ok]
        cases w.update k cov w.budget (env p d) (dets d) ms <;> rfl
      | _ => rfl
    rw [e] at hv
    obtain ⟨w, h1, h2⟩ := Outcome.bind_eq_ok hv
    obtain ⟨⟨x, b⟩, h3, h2⟩ := Outcome.bind_eq_ok h2
    injection h2 with h2
    exact ⟨w, h1, h2 ▸ update_micros hk h3⟩
  have pno : ∀ L (v : World P), O.updateNoPose L = .ok v → ∃ w, L = .ok w ∧ Micros k w v := by
    intro L v hv
    have e : O.updateNoPose L = L.bind fun w => .ok (w.noPose k order) := by cases L <;> rfl
    rw [e] at hv
    obtain ⟨w, h1, h2⟩ := Outcome.bind_eq_ok hv
    injection h2 with h2
    exact ⟨w, h1, h2 ▸ noPose_micros ..⟩
  have padd : ∀ p d L (v : World P), O.addAll p d L = .ok v → ∃ w, L = .ok w ∧ Micros k w v := by
    intro p d L v hv
    have e : O.addAll p d L = L.bind fun w => (w.addAll k cov (env p d) (dets d)).bind fun x => .ok x.1 := by
      cases L with
      | ok w =>
        change Outcome.map _ _ = _
        rw [Outcome.bind_ok]
        cases w.addAll k cov (env p d) (dets d) <;> rfl
      | _ => rfl
    rw [e] at hv
    obtain ⟨w, h1, h2⟩ := Outcome.bind_eq_ok hv
    obtain ⟨⟨x, b⟩, h3, h2⟩ := Outcome.bind_eq_ok h2
    injection h2 with h2
    exact ⟨w, h1, h2 ▸ addAll_micros h3⟩
  obtain ⟨det, -, hcase⟩ := step_map h
  simp only at hcase
  rcases hcase with ⟨opt, out, hc | hc⟩ | hc | hc <;> rw [hc] at hw'
  · obtain ⟨w2, e2, m2⟩ := pupd _ _ _ _ _ hw'
    obtain ⟨w1, e1, m1⟩ := pfind _ _ _ _ e2
    exact ⟨w1, e1, m1.trans m2⟩
  · obtain ⟨w3, e3, m3⟩ := pno _ _ hw'
    obtain ⟨w2, e2, m2⟩ := pupd _ _ _ _ _ e3
    obtain ⟨w1, e1, m1⟩ := pfind _ _ _ _ e2
    exact ⟨w1, e1, (m1.trans m2).trans m3⟩
  · obtain ⟨w3, e3, m3⟩ := pno _ _ hw'
    obtain ⟨w1, e1, m1⟩ := pfind _ _ _ _ e3
    exact ⟨w1, e1, m1.trans m3⟩
  · obtain ⟨w4, e4, m4⟩ := padd _ _ _ _ hw'
    obtain ⟨w3, e3, m3⟩ := pno _ _ e4
    obtain ⟨w1, e1, m1⟩ := pfind _ _ _ _ e3
    exact ⟨w1, e1, (m1.trans m3).trans m4⟩

theorem frames_micros {k : FType → Kind P D Env} (hk : ∀ t, (k t).type = t) {cov : Env → Bool} {lt : Match → Match → Bool}
    {env : Pose → Det → Env} {dets : Det → FType → List D} {po : Slam.PoseOps Pose}
    (fs : List (Slam.Frame (Outcome (World P)) Det Pose Match)) (s s' : Slam.State (Outcome (World P)) Pose)
    (outs : List (Slam.Out Pose)) (h : Slam.run (localMapOps k cov lt env dets) po fs s = .ok (s', outs)) (w' : World P)
    (hw' : s'.localMap = .ok w') : ∃ w, s.localMap = .ok w ∧ Micros k w w' := by
  induction fs generalizing s outs with
  | nil =>
    injection h with h; injection h with h1 h2
    subst h1
    exact ⟨w', hw', .refl _⟩
  | cons f fs ih =>
    obtain ⟨⟨s1, o⟩, h1, h⟩ := Outcome.bind_eq_ok h
    obtain ⟨⟨s2, os⟩, h2, h⟩ := Outcome.bind_eq_ok h
    injection h with h
    injection h with h3 h4
    subst h3
    obtain ⟨w1, e1, m1⟩ := ih s1 os h2
    obtain ⟨w, e, m⟩ := frame_micros hk h1 e1
    exact ⟨w, e, m.trans m1⟩

section
variable (k : FType → Kind P D Env) (cov : Env → Bool) (lt : Match → Match → Bool) (env : Pose → Det → Env)
  (dets : Det → FType → List D) (p : Pose) (d : Det) (w : World P)

theorem ops_find : ((localMapOps k cov lt env dets).find p d (.ok w)).1 = .ok (w.find k lt (env p d) (dets d) order []).1 := rfl

theorem ops_noPose : (localMapOps k cov lt env dets).updateNoPose (.ok w) = .ok (w.noPose k order) := rfl

theorem ops_addAll : (localMapOps k cov lt env dets).addAll p d (.ok w) =
    (w.addAll k cov (env p d) (dets d)).bind fun x => .ok x.1 := by
  change Outcome.map _ _ = _
  generalize w.addAll k cov (env p d) (dets d) = r
  cases r <;> rfl
end

theorem fading_frames {k : FType → Kind P D Env} {L : FType → Nat} {Z : FType → Nat → Int → Nat → Prop} (hk : ∀ t, (k t).type = t)
    (hfk : ∀ t, Fades (k t) (L t) (Z t)) {cov : Env → Bool} {lt : Match → Match → Bool}
    {env : Pose → Det → Env} {dets : Det → FType → List D} {po : Slam.PoseOps Pose} {base : FType → List (Nat × P)} {g : Nat}
    (gs : List (Slam.Frame (Outcome (World P)) Det Pose Match)) (c : Nat) (s s' : Slam.State (Outcome (World P)) Pose)
    (outs : List (Slam.Out Pose))
    (h : Slam.run (localMapOps k cov lt env dets) po gs s = .ok (s', outs))
    (hn : ∀ o ∈ outs, o.optimized = none) (w w' : World P) (hw : s.localMap = .ok w) (hw' : s'.localMap = .ok w')
    (hlt : w'.alloc.given < 2 ^ 64) (hf : Fading L Z base g c w) :
    Fading L Z base g (c + gs.length) w' := by
  induction gs generalizing s outs w c with
  | nil =>
    injection h with h; injection h with h1 h2
    subst h1
    rw [hw] at hw'
    injection hw' with hw'
    subst hw'
    exact hf
  | cons f fs ih =>
    obtain ⟨⟨s1, o⟩, h1, h⟩ := Outcome.bind_eq_ok h
    obtain ⟨⟨s2, os⟩, h2, h⟩ := Outcome.bind_eq_ok h
    injection h with h
    injection h with h3 h4
    subst h3 h4
    obtain ⟨-, -, -, -, -, det, hcase⟩ := step_none h1 (hn _ List.mem_cons_self)
    obtain ⟨w1, hw1, hm1⟩ := frames_micros hk fs s1 s2 os h2 w' hw'
    have hlt1 := Nat.lt_of_le_of_lt (micros_given hm1) hlt
    have hstep : Fading L Z base g (c + 1) w1 := by
      have hno := noPose_fading hfk
        (find_fading (k := k) lt (env s.currentPose det) (dets det) hf)
      rw [hw] at hcase
      rcases hcase with hc | hc
      · rw [hc, ops_find, ops_noPose] at hw1
        injection hw1 with hw1
        subst hw1
        exact hno
      · rw [hc] at hw1
        rw [ops_find, ops_noPose, ops_addAll] at hw1
        obtain ⟨⟨v, b⟩, hv, hw1⟩ := Outcome.bind_eq_ok hw1
        injection hw1 with hw1
        subst hw1
        exact addAll_fading hfk hno hv hlt1
    have := ih (c + 1) s1 os h2 (fun o ho => hn o (List.mem_cons_of_mem _ ho)) w1 hw1 hstep
    rw [List.length_cons, show c + (fs.length + 1) = c + 1 + fs.length by omega]
    exact this

/-- C200.  Take any run of the program, with any detections, poses and map operations, and let it be followed by frames
without a pose, eleven of them (ten for planes) or more; these frames may detect anything.  No map feature is left and no
candidate of the map before: what remains are candidates with new ids.  Each map feature was written to the output exactly
once, with its id and with the content it had when the last pose was found, and nothing else was written.  The pose returned
all along is the last one, and the tracking is reported as lost (unless its 32 bit failure counter wrapped). -/
theorem C200_map_given_up (o2 o1 : PointOps P D Env) (op : PlaneOps P D Env) (cov : Env → Bool) (lt : Match → Match → Bool)
    (env : Pose → Det → Env) (dets : Det → FType → List D) (po : Slam.PoseOps Pose) (start : Pose)
    (fs gs : List (Slam.Frame (Outcome (World P)) Det Pose Match)) (s s' : Slam.State (Outcome (World P)) Pose)
    (outs outs' : List (Slam.Out Pose))
    (h : Slam.run (localMapOps (programKinds o2 o1 op) cov lt env dets) po fs (Slam.init start (.ok World.init)) = .ok (s, outs))
    (h' : Slam.run (localMapOps (programKinds o2 o1 op) cov lt env dets) po gs s = .ok (s', outs'))
    (hn : ∀ o ∈ outs', o.optimized = none) (w w' : World P) (hw : s.localMap = .ok w) (hw' : s'.localMap = .ok w')
    (hlt : w'.alloc.given < 2 ^ 64) :
    (∀ t, Spec.patience t ≤ gs.length →
      (w'.maps t).localMap = [] ∧ (∀ p ∈ (w'.maps t).staged, w.alloc.given < p.2.id) ∧
      ((w'.written t).map Spec.content).Perm ((w.written t).map Spec.content ++ (w.maps t).localMap.map (Spec.content ·.2))) ∧
    (s.failedTrackingCount + gs.length < 2 ^ 32 →
      s'.currentPose = s.currentPose ∧ (∀ o ∈ outs', o.returned = s.currentPose) ∧
      (5 ≤ gs.length → s'.isTrackingLost = true)) := by
  have hty := programKinds_type o2 o1 op
  obtain ⟨w0, e0, hm⟩ := frames_micros hty fs _ _ _ h w hw
  injection e0 with e0
  subst e0
  obtain ⟨w1, e1, hm1⟩ := frames_micros hty gs _ _ _ h' w' hw'
  rw [hw] at e1
  injection e1 with e1
  subst e1
  have hlt0 := Nat.lt_of_le_of_lt (micros_given hm1) hlt
  constructor
  · intro t ht
    have hf : Fading missLimit weak (fun t => (w.written t).map Spec.content ++ (w.maps t).localMap.map (Spec.content ·.2))
        w.alloc.given 0 w := by
      have hy := micros_young (fades_program o2 o1 op) hm (fun t => ⟨nofun, nofun⟩)
      refine ⟨hy, fun t => ?_, ((winv_micros hm winv_init hlt0).each .point).alloc, Nat.le_refl _, fun t p hp => Nat.zero_le _,
        fun t p hp _ => ⟨(hy t).stg p hp, Nat.zero_le _⟩, fun t => List.Perm.refl _⟩
      rw [micros_active hm t]; rfl
    have hF := fading_frames hty (fades_program o2 o1 op) gs 0 s s' outs' h' hn w w' hw hw' hlt hf
    rw [Nat.zero_add] at hF
    have hmiss : missLimit t < gs.length := by
      cases t <;> simp only [missLimit, Spec.patience] at ht ⊢ <;> omega
    have hloc : (w'.maps t).localMap = [] := by
      cases hl : (w'.maps t).localMap with
      | nil => rfl
      | cons p l =>
        have hp : p ∈ (w'.maps t).localMap := hl ▸ List.mem_cons_self
        have a := hF.loc t p hp
        have b := (hF.young t).loc p hp
        omega
    refine ⟨hloc, fun p hp => ?_, ?_⟩
    · refine Classical.byContradiction fun hc => ?_
      have := (hF.stg t p hp (by omega)).2
      have : 2 ≤ Spec.patience t := by cases t <;> simp [Spec.patience]
      omega
    · have := hF.wr t
      rw [hloc] at this
      simpa using this
  · intro hc
    obtain ⟨a1, a2, a3, a4⟩ := run_none gs s s' outs' h' hn hc
    refine ⟨a1, a2, fun h5 => ?_⟩
    cases hfirst : s.isFirstTrackingCall with
    | false =>
      obtain ⟨b1, b2⟩ := a3 hfirst
      rw [b2 (by omega), b1]
      exact decide_eq_true (by omega)
    | true =>
      obtain ⟨b1, b2⟩ := a4 hfirst (by omega)
      rw [b2]
      exact decide_eq_true (by omega)

/-- A frame that sees the keypoint, but whose pose is not found. -/
def poselessFrame (h : Handler Nat) : Slam.Frame (Outcome (World Keypoints.Pt)) (Handler Nat × List Unit) Nat Match :=
  ⟨fun _ _ _ => (h, []), fun _ _ => none⟩

/-- Four frames with a pose, then `n` frames without. -/
def abandoned (n : Nat) : Outcome (Outcome (World Keypoints.Pt) × Bool × Bool) :=
  (seen 1000).bind fun h =>
    (Slam.run (localMapOps (programKinds (withShapes (handlerOps demoGeo)) (withShapes (handlerOps demoGeo)) noPlanes)
        (fun _ => true) (fun _ _ => false) (fun (_ : Nat) d => ((), d.1)) frameDets) ⟨fun _ => true, fun _ => true⟩
      (List.replicate 4 (sameFrame h)) (Slam.init 0 (.ok World.init))).bind fun r =>
      (Slam.run (localMapOps (programKinds (withShapes (handlerOps demoGeo)) (withShapes (handlerOps demoGeo)) noPlanes)
          (fun _ => true) (fun _ _ => false) (fun (_ : Nat) d => ((), d.1)) frameDets) ⟨fun _ => true, fun _ => true⟩
        (List.replicate n (poselessFrame h)) r.1).map fun r' => (r'.1.localMap, r'.2.all (·.optimized.isNone), r'.1.isTrackingLost)

/-- The hypotheses are met: the map feature 1 is still there after ten frames without a pose, and is written with the
eleventh, while the frames of the lost camera have brought new candidates. -/
example : ((abandoned 10).holds fun r => r.2.1 && r.1.holds fun w =>
      (w.maps .point).localMap.map (·.1) == [1] && (w.written .point).length == 0) &&
    ((abandoned 11).holds fun r => r.2.1 && r.2.2 && r.1.holds fun w =>
      (w.maps .point).localMap.isEmpty && (w.written .point).map (·.id) == [1] && (w.maps .point).staged.length == 1 &&
      decide (w.alloc.given < 2 ^ 64)) = true := by
  decide +kernel

end RgbdSlam.Map
