import Verif.Props.PlaneMatch
import Verif.Props.Recognition
/-
C192: which of the planes that are seen at every frame enter the map.
-/
namespace RgbdSlam.Map

variable {P D Env : Type}

/-! ## Specification -/

/-- An unchanging scene made of planes that do not overlap on the screen, seen by a camera that does not move.  `Stands i b`: `b` is
the map plane of the detected plane `i`. -/
structure Spec.StillPlanes (o : PlaneOps P D Env) (env : Env) (det : List D) (Stands : Nat → P → Prop) : Prop where
  cov : o.covValid env = true
  builds : ∀ i d, det[i]? = some d → ∃ b, o.build env d = some b ∧ Stands i b
  visible : ∀ i b, Stands i b → o.isVisible env b = true ∧ 0 < o.projectedArea env b
  own : ∀ i b d, Stands i b → det[i]? = some d → o.similar env b d = true ∧ 0 < o.interArea env b d ∧
    (o.detectedArea d = 0 ∨ 2 / 5 ≤ o.interArea env b d / o.detectedArea d)
  apart : ∀ i j b d, Stands i b → det[j]? = some d → j ≠ i → o.similar env b d = false ∨ o.interArea env b d ≤ 0
  merges : ∀ i b d, Stands i b → det[i]? = some d → ∃ b', o.update env d b = .ok (b', true) ∧ Stands i b'
  copies : ∀ i b, Stands i b → ∃ b', o.copy b = some b' ∧ Stands i b'

/-- One frame, for the map of planes: the search for matches, the update of the map with them (all of them agree with the pose), and the
planes that were not used become candidates (local_map.hpp 128-137). -/
def Spec.planeFrame (o : PlaneOps P D Env) (fuel : Nat) (env : Env) (det : List D) (s : State P) : Outcome (State P) :=
  (updateMap (planeKind o) fuel env det { s with map := (getMatches (planeKind o) env det s.map).1 }).bind fun r =>
    stage (planeKind o) env det r.2 r.1

/-- `n` equal frames. -/
def Spec.planeFrames (o : PlaneOps P D Env) (fuel : Nat) (env : Env) (det : List D) : Nat → State P → Outcome (State P)
  | 0, s => .ok s
  | n + 1, s => (Spec.planeFrames o fuel env det n s).bind (Spec.planeFrame o fuel env det)

/-! ## The search -/

theorem planeFind_still {o : PlaneOps P D Env} {env : Env} {det : List D} {Stands : Nat → P → Prop}
    (hs : Spec.StillPlanes o env det Stands) {i : Nat} {f : Feat P} (hf : Stands i f.body) (hi : i < det.length) {flags : List Bool}
    (hfl : i ≠ 0 → flags[i]? = some false) (tm adv : Bool) :
    planeFind o env det f flags tm adv = if i = 0 then ([], []) else ([i], if tm then [i] else []) := by
  have hd : det[i]? = some det[i] := List.getElem?_eq_getElem hi
  obtain ⟨hv, ha⟩ := hs.visible i _ hf
  obtain ⟨h1, h2, h3⟩ := hs.own i _ _ hf hd
  have key : ∀ j d, Fits o env f.body flags (if adv then minimumPlaneOverlap / 2 else minimumPlaneOverlap) 0 det j d →
      0 < o.interArea env f.body d → j = i := by
    intro j d hfit hpos
    by_contra hne
    have hg := hfit.get
    rw [Nat.sub_zero] at hg
    rcases hs.apart i j _ d hf hg hne with h | h
    · rw [hfit.near] at h; cases h
    · exact absurd hpos (not_lt.2 h)
  have hth : o.detectedArea det[i] = 0 ∨
      (if adv then minimumPlaneOverlap / 2 else minimumPlaneOverlap) ≤ o.interArea env f.body det[i] / o.detectedArea det[i] := by
    refine h3.imp id fun h => le_trans ?_ h
    unfold minimumPlaneOverlap
    split <;> norm_num
  rw [planeFind]
  simp only [not_le.2 ha, if_false]
  rcases planeSearch_best o env f.body flags (if adv then minimumPlaneOverlap / 2 else minimumPlaneOverlap) 0 det (-1) 0 with
    ⟨e, hno⟩ | ⟨j, d, e, hfit, hpos, -⟩
  · rw [e]
    by_cases h0 : i = 0
    · simp [h0]
    · exact absurd h2 (not_lt.2 (hno i _ ⟨by omega, by simp, by rw [hfl h0]; simp, h1, hth⟩))
  · rw [e]
    obtain rfl := key j d hfit hpos
    by_cases h0 : j = 0
    · subst h0; simp
    · have : ¬ ((j : Int) ≤ 0) := by omega
      simp [h0]

/-! ## The state between two frames -/

/-- The id of a plane other than the first; `a` ids were given before the first frame. -/
def Real (a n key : Nat) : Prop := a + 2 ≤ key ∧ key ≤ a + n

instance (a n key : Nat) : Decidable (Real a n key) := by unfold Real; infer_instance

/-- The id given to the first plane at frame `t`. -/
def ghostId (a n t : Nat) : Nat := if t = 0 then a + 1 else a + n + t

theorem ghost_not_real (a n t : Nat) : ¬ Real a n (ghostId a n t) := by
  unfold Real ghostId
  split <;> omega

/-- A feature of the map of planes after the frame `t`. -/
structure Fine (Stands : Nat → P → Prop) (a n t : Nat) (p : Nat × Feat P) : Prop where
  id : p.2.id = p.1
  real : Real a n p.1 → Stands (p.1 - a - 1) p.2.body ∧ p.2.failed = 0 ∧ p.2.succ = t
  ghost : ¬ Real a n p.1 → Stands 0 p.2.body ∧ p.2.succ ≤ 0 ∧
    (p.1 = ghostId a n t ∧ p.2.failed = 0 ∨ ∃ u, t = u + 1 ∧ p.1 = ghostId a n u ∧ p.2.failed = 1)

/-- The map of planes after the frame `t`. -/
structure Calm (Stands : Nat → P → Prop) (a n t : Nat) (m : FMap P) : Prop where
  active : m.active = true
  localFine : ∀ p ∈ m.localMap, Fine Stands a n t p ∧ Real a n p.1
  stagedFine : ∀ p ∈ m.staged, Fine Stands a n t p
  localKeys : (m.localMap.map Prod.fst).Nodup
  stagedKeys : (m.staged.map Prod.fst).Nodup
  young : t < 4 → m.localMap = [] ∧ ∀ k, Real a n k → k ∈ m.staged.map Prod.fst
  grown : 4 ≤ t → (∀ p ∈ m.staged, ¬ Real a n p.1) ∧ ∀ k, Real a n k → k ∈ m.localMap.map Prod.fst

/-- The indexes a feature is matched with. -/
def Found (a n : Nat) (p : Nat × Feat P) : Prop := p.2.matched = if Real a n p.1 then [p.1 - a - 1] else []

theorem matchPass_calm {o : PlaneOps P D Env} {env : Env} {det : List D} {Stands : Nat → P → Prop}
    (hs : Spec.StillPlanes o env det Stands) (hne : det ≠ []) (tm adv : Bool) {a t : Nat} :
    ∀ (l : Store P) (flags : List Bool), (∀ p ∈ l, Fine Stands a det.length t p) → (l.map Prod.fst).Nodup →
      (∀ p ∈ l, Real a det.length p.1 → flags[p.1 - a - 1]? = some false) →
      ∃ l' flags' ms, matchPass (planeKind o) env det tm adv l flags = (l', flags', ms) ∧ l'.map Prod.fst = l.map Prod.fst ∧
        ∀ p ∈ l', Fine Stands a det.length t p ∧ Found a det.length p := by
  have hpos : 0 < det.length := List.length_pos_iff.2 hne
  intro l
  induction l with
  | nil => exact fun flags _ _ _ => ⟨[], flags, [], rfl, rfl, by simp⟩
  | cons q l ih =>
    intro flags hf hn hfl
    obtain ⟨key, f⟩ := q
    have hq := hf (key, f) (by simp)
    rw [List.map_cons, List.nodup_cons] at hn
    have hstand : ∃ i, i < det.length ∧ Stands i f.body ∧ (i ≠ 0 → flags[i]? = some false) ∧
        (if i = 0 then [] else [i]) = if Real a det.length key then [key - a - 1] else [] := by
      by_cases hr : Real a det.length key
      · refine ⟨key - a - 1, ?_, (hq.real hr).1, fun _ => hfl (key, f) (by simp) hr, ?_⟩
        · have := hr.1; have := hr.2; omega
        · have := hr.1
          rw [if_neg (by omega), if_pos hr]
      · exact ⟨0, hpos, (hq.ghost hr).1, fun h => absurd rfl h, by rw [if_neg hr]; rfl⟩
    obtain ⟨i, hi, hst, hfr, hidx⟩ := hstand
    have hfind := planeFind_still hs (f := { f with matched := [] }) hst hi hfr tm adv
    have hfind1 : (planeFind o env det { f with matched := [] } flags tm adv).1 =
        if Real a det.length key then [key - a - 1] else [] := by
      rw [hfind, ← hidx]
      split <;> rfl
    obtain ⟨l', fl', ms, e, hk, hl'⟩ := ih (setFlags flags (planeFind o env det { f with matched := [] } flags tm adv).1)
      (fun p hp => hf p (by simp [hp])) hn.2 (fun p hp hr => by
        rw [hfind1]
        split
        · rename_i hr'
          rw [setFlags_one, List.getElem?_set_ne]
          · exact hfl p (by simp [hp]) hr
          · intro h
            have h1 := hr.1; have h2 := hr'.1
            have : p.1 = key := by omega
            exact hn.1 (List.mem_map.2 ⟨p, hp, this⟩)
        · exact hfl p (by simp [hp]) hr)
    have hmv : ((planeKind o).isMoving f.body || !(planeKind o).isVisible env f.body) = false := by
      simp [planeKind, (hs.visible i _ hst).1]
    refine ⟨(key, { f with matched := if Real a det.length key then [key - a - 1] else [] }) :: l', fl',
      (planeFind o env det { f with matched := [] } flags tm adv).2.map (⟨.plane, f.id, ·⟩) ++ ms, ?_, by simp [hk], ?_⟩
    · rw [matchPass]
      simp only [hmv]
      change ((key, { f with matched := (planeFind o env det { f with matched := [] } flags tm adv).1 }) ::
        (matchPass (planeKind o) env det tm adv l (setFlags flags (planeFind o env det { f with matched := [] } flags tm adv).1)).1,
        (matchPass (planeKind o) env det tm adv l (setFlags flags (planeFind o env det { f with matched := [] } flags tm adv).1)).2.1,
        _ ++ (matchPass (planeKind o) env det tm adv l
          (setFlags flags (planeFind o env det { f with matched := [] } flags tm adv).1)).2.2) = _
      rw [e, hfind1]
      rfl
    · intro p hp
      rcases List.mem_cons.1 hp with rfl | hp
      · exact ⟨⟨hq.id, hq.real, hq.ghost⟩, rfl⟩
      · exact hl' p hp

theorem matchOnce_calm {o : PlaneOps P D Env} {env : Env} {det : List D} {Stands : Nat → P → Prop}
    (hs : Spec.StillPlanes o env det Stands) (hne : det ≠ []) (adv : Bool) {a t : Nat} {m : FMap P}
    (hm : Calm Stands a det.length t m) (old : List Match) :
    Calm Stands a det.length t (matchOnce (planeKind o) env det adv old m).1 ∧
      ∀ p ∈ (matchOnce (planeKind o) env det adv old m).1.localMap ++ (matchOnce (planeKind o) env det adv old m).1.staged,
        Found a det.length p := by
  have hfree : ∀ k, Real a det.length k → (List.replicate det.length false)[k - a - 1]? = some false := by
    intro k hr
    have := hr.1; have := hr.2
    rw [List.getElem?_replicate, if_pos (by omega)]
  obtain ⟨loc, fl1, ms1, e1, k1, g1⟩ := matchPass_calm hs hne true adv m.localMap (List.replicate det.length false)
    (fun p hp => (hm.localFine p hp).1) hm.localKeys fun p _ hr => hfree _ hr
  obtain ⟨stg, fl2, ms2, e2, k2, g2⟩ := matchPass_calm hs hne (decide (ms1.length < (planeKind o).minFeatures * 3)) adv m.staged fl1
    hm.stagedFine hm.stagedKeys (fun p hp hr => by
      by_cases ht : t < 4
      · rw [(hm.young ht).1] at e1
        rw [matchPass] at e1
        have : fl1 = List.replicate det.length false := by
          have := congrArg (fun x => x.2.1) e1
          exact this.symm
        rw [this]
        exact hfree _ hr
      · exact absurd hr ((hm.grown (by omega)).1 p hp))
  have e : (matchOnce (planeKind o) env det adv old m).1 = { m with localMap := loc, staged := stg, flags := fl2 } := by
    rw [matchOnce]
    simp only [hm.active, e1, e2]
    rfl
  rw [e]
  have memk : ∀ {l l' : Store P}, l'.map Prod.fst = l.map Prod.fst → ∀ p ∈ l', ∃ q ∈ l, q.1 = p.1 := by
    intro l l' h p hp
    have : p.1 ∈ l.map Prod.fst := h ▸ List.mem_map_of_mem hp
    simpa using this
  refine ⟨⟨hm.active, fun p hp => ⟨(g1 p hp).1, ?_⟩, fun p hp => (g2 p hp).1, by rw [k1]; exact hm.localKeys, by rw [k2]; exact hm.stagedKeys,
    fun ht => ⟨?_, by rw [k2]; exact (hm.young ht).2⟩, fun ht => ⟨fun p hp => ?_, by rw [k1]; exact (hm.grown ht).2⟩⟩, fun p hp => ?_⟩
  · obtain ⟨q, hq, hqp⟩ := memk k1 p hp
    rw [← hqp]; exact (hm.localFine q hq).2
  · have := (hm.young ht).1
    rw [this] at k1
    exact List.map_eq_nil_iff.1 k1
  · obtain ⟨q, hq, hqp⟩ := memk k2 p hp
    rw [← hqp]; exact (hm.grown ht).1 q hq
  · rcases List.mem_append.1 hp with hp | hp
    · exact (g1 p hp).2
    · exact (g2 p hp).2

theorem getMatches_calm {o : PlaneOps P D Env} {env : Env} {det : List D} {Stands : Nat → P → Prop}
    (hs : Spec.StillPlanes o env det Stands) (hne : det ≠ []) {a t : Nat} {m : FMap P} (hm : Calm Stands a det.length t m) :
    Calm Stands a det.length t (getMatches (planeKind o) env det m).1 ∧
      ∀ p ∈ (getMatches (planeKind o) env det m).1.localMap ++ (getMatches (planeKind o) env det m).1.staged, Found a det.length p := by
  rw [getMatches_eq _ _ _ _ hm.active]
  split
  · exact matchOnce_calm hs hne true hm []
  · exact matchOnce_calm hs hne false hm []

/-! ## The update -/

/-- What the update makes of one feature. -/
theorem apply_calm {o : PlaneOps P D Env} {env : Env} {det : List D} {Stands : Nat → P → Prop}
    (hs : Spec.StillPlanes o env det Stands) (all : Bool) {a t : Nat} {p : Nat × Feat P} (hp : Fine Stands a det.length t p)
    (hf : Found a det.length p) :
    ∃ f hit, applyMatches (planeKind o) env det all p.2.matched p.2 =
        .ok (f, hit, if Real a det.length p.1 then [p.1 - a - 1] else []) ∧ f.id = p.1 ∧
      (Real a det.length p.1 → hit = true ∧ f.succ = t ∧ f.matched ≠ [] ∧ Stands (p.1 - a - 1) f.body) ∧
      (¬ Real a det.length p.1 → hit = false ∧ f = p.2) := by
  by_cases hr : Real a det.length p.1
  · rw [Found, if_pos hr] at hf
    obtain ⟨h1, h2, h3⟩ := hp.real hr
    have hi : p.1 - a - 1 < det.length := by have := hr.1; have := hr.2; omega
    have hd : det[p.1 - a - 1]? = some det[p.1 - a - 1] := List.getElem?_eq_getElem hi
    obtain ⟨b', e, hb⟩ := hs.merges _ _ _ h1 hd
    have hg : (planeKind o).updateWith env det[p.1 - a - 1] p.2 = .ok (b', true) := by
      simp [planeKind, guardedUpdate, hf, e]
    refine ⟨{ p.2 with body := b' }, true, ?_, hp.id, fun _ => ⟨rfl, h3, by simp [hf], hb⟩, fun h => absurd hr h⟩
    rw [hf]
    simp only [applyMatches, hd, hg, Outcome.noexcept, Outcome.bind_ok]
    simp [hr]
  · rw [Found, if_neg hr] at hf
    refine ⟨p.2, false, ?_, hp.id, fun h => absurd h hr, fun _ => ⟨rfl, rfl⟩⟩
    rw [hf, if_neg hr]
    rfl

theorem updateLocal_calm {o : PlaneOps P D Env} {env : Env} {det : List D} {Stands : Nat → P → Prop}
    (hs : Spec.StillPlanes o env det Stands) {a t : Nat} : ∀ l : Store P,
    (∀ p ∈ l, (Fine Stands a det.length t p ∧ Real a det.length p.1) ∧ Found a det.length p) →
    ∃ l', updateLocal (planeKind o) env det l = .ok (l', l.map (fun p => p.1 - a - 1), []) ∧ l'.map Prod.fst = l.map Prod.fst ∧
      ∀ p ∈ l', Fine Stands a det.length (t + 1) p ∧ Real a det.length p.1 := by
  intro l
  induction l with
  | nil => exact fun _ => ⟨[], rfl, rfl, by simp⟩
  | cons q l ih =>
    intro h
    obtain ⟨l', e, hk, hl'⟩ := ih fun p hp => h p (by simp [hp])
    obtain ⟨⟨hq, hr⟩, hf⟩ := h q (by simp)
    obtain ⟨f, hit, ea, hid, hreal, -⟩ := apply_calm hs false hq hf
    obtain ⟨rfl, hsu, -, hst⟩ := hreal hr
    obtain ⟨key, g⟩ := q
    refine ⟨(key, { f with failed := 0, succ := f.succ + 1 }) :: l', ?_, by simp [hk], ?_⟩
    · rw [updateLocal, ea]
      simp only [Outcome.bind_ok, e, settle, if_true, hr]
      have : (planeKind o).isLost { f with failed := 0, succ := f.succ + 1 } = false := by simp [planeKind]
      simp [this]
    · intro p hp
      rcases List.mem_cons.1 hp with rfl | hp
      · exact ⟨⟨hid, fun _ => ⟨hst, rfl, by simp [hsu]⟩, fun h => absurd hr h⟩, hr⟩
      · exact hl' p hp

/-- What the update makes of a candidate for the first plane: one more miss, and the second one removes it. -/
theorem ghost_settled {o : PlaneOps P D Env} {Stands : Nat → P → Prop} {a n t : Nat} {p : Nat × Feat P} (hp : Fine Stands a n t p)
    (hr : ¬ Real a n p.1) : (planeKind o).shouldAdd (settle false p.2) = false ∧
      ((planeKind o).shouldRemove (settle false p.2) = false → Fine Stands a n (t + 1) (p.1, settle false p.2)) := by
  obtain ⟨h1, h2, h3⟩ := hp.ghost hr
  constructor
  · simp only [planeKind, settle, Bool.false_eq_true, if_false, decide_eq_false_iff_not, not_le]
    omega
  · intro h
    simp only [planeKind, settle, Bool.false_eq_true, if_false, decide_eq_false_iff_not, not_le] at h
    refine ⟨hp.id, fun h => absurd h hr, fun _ => ⟨h1, ?_, .inr ⟨t, rfl, ?_, ?_⟩⟩⟩
    · simp only [settle, Bool.false_eq_true, if_false]; omega
    · rcases h3 with ⟨h3, -⟩ | ⟨u, -, -, h4⟩
      · exact h3
      · omega
    · simp only [settle, Bool.false_eq_true, if_false]
      rcases h3 with ⟨-, h4⟩ | ⟨u, -, -, h4⟩ <;> omega

theorem updateStaged_calm {o : PlaneOps P D Env} {env : Env} {det : List D} {Stands : Nat → P → Prop}
    (hs : Spec.StillPlanes o env det Stands) {a t : Nat} : ∀ (l : Store P) (fuel : Nat) (loc : Store P), l.length ≤ fuel →
    (∀ p ∈ l, Fine Stands a det.length t p ∧ Found a det.length p) → (l.map Prod.fst).Nodup →
    (∀ p ∈ l, Real a det.length p.1 → p.1 ∉ loc.map Prod.fst) →
    ∃ stg new used, updateStaged (planeKind o) env det fuel l loc = .ok (stg, loc ++ new, used) ∧
      (∀ j, j ∈ used ↔ ∃ p ∈ l, Real a det.length p.1 ∧ p.1 - a - 1 = j) ∧
      (stg.map Prod.fst).Sublist (l.map Prod.fst) ∧ (∀ p ∈ stg, Fine Stands a det.length (t + 1) p) ∧
      (new.map Prod.fst).Sublist (l.map Prod.fst) ∧ (∀ p ∈ new, Fine Stands a det.length (t + 1) p ∧ Real a det.length p.1) ∧
      (t + 1 < 4 → new = [] ∧ ∀ p ∈ l, Real a det.length p.1 → p.1 ∈ stg.map Prod.fst) ∧
      (4 ≤ t + 1 → (∀ p ∈ stg, ¬ Real a det.length p.1) ∧ ∀ p ∈ l, Real a det.length p.1 → p.1 ∈ new.map Prod.fst) := by
  intro l
  induction l with
  | nil =>
    intro fuel loc _ _ _ _
    refine ⟨[], [], [], by cases fuel <;> simp [updateStaged], by simp, by simp, by simp, by simp, by simp, by simp, by simp⟩
  | cons q l ih =>
    intro fuel loc hfu h hn hloc
    obtain ⟨fuel, rfl⟩ : ∃ m, fuel = m + 1 := ⟨fuel - 1, by simp at hfu; omega⟩
    obtain ⟨hq, hf⟩ := h q (by simp)
    rw [List.map_cons, List.nodup_cons] at hn
    have hrest : ∀ p ∈ l, Fine Stands a det.length t p ∧ Found a det.length p := fun p hp => h p (by simp [hp])
    have hlen : l.length ≤ fuel := by simpa using hfu
    obtain ⟨f, hit, ea, hid, hreal, hghost⟩ := apply_calm hs true hq hf
    obtain ⟨key, g⟩ := q
    by_cases hr : Real a det.length key
    · obtain ⟨rfl, hsu, -, hst⟩ := hreal hr
      simp only at hid hst ea
      by_cases ht : t + 1 < 4
      · obtain ⟨stg, new, used, e, hu, k1, g1, k2, g2, y, -⟩ := ih fuel loc hlen hrest hn.2 fun p hp => hloc p (by simp [hp])
        obtain ⟨y1, y2⟩ := y ht
        have hadd : (planeKind o).shouldAdd { f with failed := 0, succ := f.succ + 1 } = false := by
          simp only [planeKind, decide_eq_false_iff_not, not_le, hsu]; omega
        have hrem : (planeKind o).shouldRemove { f with failed := 0, succ := f.succ + 1 } = false := by
          simp [planeKind]
        refine ⟨(key, { f with failed := 0, succ := f.succ + 1 }) :: stg, new, (key - a - 1) :: used, ?_, ?_, ?_, ?_, k2.cons _, g2,
          fun _ => ⟨y1, ?_⟩, fun h => absurd ht (by omega)⟩
        · rw [updateStaged, ea]
          simp only [Outcome.bind_ok, settle, if_true, hadd, hrem, e, hr]
          simp
        · intro j
          simp only [List.mem_cons, hu]
          constructor
          · rintro (rfl | ⟨p, hp, h1⟩)
            · exact ⟨_, .inl rfl, hr, rfl⟩
            · exact ⟨p, .inr hp, h1⟩
          · rintro ⟨p, rfl | hp, h1⟩
            · exact .inl h1.2.symm
            · exact .inr ⟨p, hp, h1⟩
        · simpa using k1
        · intro p hp
          rcases List.mem_cons.1 hp with rfl | hp
          · exact ⟨hid, fun _ => ⟨hst, rfl, by simp [hsu]⟩, fun h => absurd hr h⟩
          · exact g1 p hp
        · intro p hp hpr
          rcases List.mem_cons.1 hp with rfl | hp
          · simp
          · exact List.mem_cons_of_mem _ (y2 p hp hpr)
      · have hadd : (planeKind o).shouldAdd { f with failed := 0, succ := f.succ + 1 } = true := by
          simp only [planeKind, decide_eq_true_eq, hsu]; omega
        obtain ⟨b2, ec, hb2⟩ := hs.copies _ _ hst
        have hpro : (planeKind o).promote { f with failed := 0, succ := f.succ + 1 } = some b2 := ec
        let G : Feat P := { id := f.id, failed := 0, succ := f.succ + 1, matched := f.matched, body := b2 }
        have hnk : key ∉ loc.map Prod.fst := hloc (key, g) (by simp) hr
        have hem : emplace f.id G loc = loc ++ [(key, G)] := by
          rw [emplace, hid, lookup_none fun x hx hxk => hnk (List.mem_map.2 ⟨x, hx, hxk⟩)]
          simp
        obtain ⟨stg, new, used, e, hu, k1, g1, k2, g2, -, y⟩ := ih fuel (loc ++ [(key, G)]) hlen hrest hn.2 (by
          intro p hp hpr hmem
          rw [List.map_append, List.mem_append] at hmem
          rcases hmem with hmem | hmem
          · exact hloc p (by simp [hp]) hpr hmem
          · simp only [List.map_cons, List.map_nil, List.mem_singleton] at hmem
            exact hn.1 (List.mem_map.2 ⟨p, hp, hmem⟩))
        obtain ⟨y1, y2⟩ := y (by omega)
        refine ⟨stg, (key, G) :: new, (key - a - 1) :: used, ?_, ?_, k1.cons _, g1, by simpa using k2, ?_,
          fun h => absurd h ht, fun _ => ⟨y1, ?_⟩⟩
        · rw [updateStaged, ea]
          simp only [Outcome.bind_ok, settle, if_true, hadd, hpro, promoted]
          change (updateStaged (planeKind o) env det fuel l (emplace f.id G loc)).bind _ = _
          rw [hem, e]
          simp [hr]
        · intro j
          simp only [List.mem_cons, hu]
          constructor
          · rintro (rfl | ⟨p, hp, h1⟩)
            · exact ⟨_, .inl rfl, hr, rfl⟩
            · exact ⟨p, .inr hp, h1⟩
          · rintro ⟨p, rfl | hp, h1⟩
            · exact .inl h1.2.symm
            · exact .inr ⟨p, hp, h1⟩
        · intro p hp
          rcases List.mem_cons.1 hp with rfl | hp
          · exact ⟨⟨hid, fun _ => ⟨hb2, rfl, by simp [G, hsu]⟩, fun h => absurd hr h⟩, hr⟩
          · exact g2 p hp
        · intro p hp hpr
          rcases List.mem_cons.1 hp with rfl | hp
          · simp
          · exact List.mem_cons_of_mem _ (y2 p hp hpr)
    · obtain ⟨rfl, rfl⟩ := hghost hr
      obtain ⟨hadd, hfine⟩ := ghost_settled (o := o) hq hr
      obtain ⟨stg, new, used, e, hu, k1, g1, k2, g2, y1, y2⟩ := ih fuel loc hlen hrest hn.2 fun p hp => hloc p (by simp [hp])
      simp only at hadd hfine ea
      have husd : ∀ j, j ∈ used ↔ ∃ p ∈ (key, f) :: l, Real a det.length p.1 ∧ p.1 - a - 1 = j := by
        intro j
        rw [hu]
        constructor
        · rintro ⟨p, hp, h1⟩
          exact ⟨p, by simp [hp], h1⟩
        · rintro ⟨p, hp, h1⟩
          rcases List.mem_cons.1 hp with rfl | hp
          · exact absurd h1.1 hr
          · exact ⟨p, hp, h1⟩
      by_cases hrem : (planeKind o).shouldRemove (settle false f) = true
      · refine ⟨stg, new, used, ?_, husd, k1.cons _, g1, k2.cons _, g2, fun ht => ⟨(y1 ht).1, ?_⟩, fun ht => ⟨(y2 ht).1, ?_⟩⟩
        · rw [updateStaged, ea]
          simp only [Outcome.bind_ok, hadd, e, hrem, hr]
          simp
        · intro p hp hpr
          rcases List.mem_cons.1 hp with rfl | hp
          · exact absurd hpr hr
          · exact (y1 ht).2 p hp hpr
        · intro p hp hpr
          rcases List.mem_cons.1 hp with rfl | hp
          · exact absurd hpr hr
          · exact (y2 ht).2 p hp hpr
      · rw [Bool.not_eq_true] at hrem
        refine ⟨(key, settle false f) :: stg, new, used, ?_, husd, by simpa using k1, ?_, k2.cons _, g2, fun ht => ⟨(y1 ht).1, ?_⟩,
          fun ht => ⟨?_, ?_⟩⟩
        · rw [updateStaged, ea]
          simp only [Outcome.bind_ok, hadd, e, hrem, hr]
          simp
        · intro p hp
          rcases List.mem_cons.1 hp with rfl | hp
          · exact hfine hrem
          · exact g1 p hp
        · intro p hp hpr
          rcases List.mem_cons.1 hp with rfl | hp
          · exact absurd hpr hr
          · exact List.mem_cons_of_mem _ ((y1 ht).2 p hp hpr)
        · intro p hp
          rcases List.mem_cons.1 hp with rfl | hp
          · exact hr
          · exact (y2 ht).1 p hp
        · intro p hp hpr
          rcases List.mem_cons.1 hp with rfl | hp
          · exact absurd hpr hr
          · exact (y2 ht).2 p hp hpr

/-! ## A frame -/

/-- The state after the frame `t`: with the numbers of ids given, and nothing was written. -/
structure CalmState (Stands : Nat → P → Prop) (a g n t : Nat) (s : State P) : Prop where
  calm : Calm Stands a n t s.map
  ids : s.alloc = ⟨a + n + t, g + n + t⟩
  written : s.written = []

theorem Fine.key_le {Stands : Nat → P → Prop} {a n t : Nat} {p : Nat × Feat P} (hp : Fine Stands a n t p) (hn : 0 < n) :
    p.1 ≤ a + n + t := by
  by_cases hr : Real a n p.1
  · have := hr.2; omega
  · obtain ⟨-, -, h⟩ := hp.ghost hr
    rcases h with ⟨h, -⟩ | ⟨u, hu, h, -⟩ <;> rw [h, ghostId] <;> split <;> omega

theorem Fine.key_cases {Stands : Nat → P → Prop} {a n t : Nat} {p : Nat × Feat P} (hp : Fine Stands a n t p) :
    Real a n p.1 ∨ p.1 = ghostId a n t ∨ p.1 = ghostId a n (t - 1) := by
  by_cases hr : Real a n p.1
  · exact .inl hr
  · obtain ⟨-, -, h⟩ := hp.ghost hr
    rcases h with ⟨h, -⟩ | ⟨u, hu, h, -⟩
    · exact .inr (.inl h)
    · exact .inr (.inr (by rw [h, hu]; rfl))

theorem length_le_of {l k : List Nat} (hl : l.Nodup) (h : ∀ x ∈ l, x ∈ k) : l.length ≤ k.length :=
  (List.subperm_of_subset hl h).length_le

/-- The ids of the planes other than the first. -/
theorem mem_realIds {a n k : Nat} : k ∈ (List.range (n - 1)).map (fun i => a + 2 + i) ↔ Real a n k := by
  simp only [List.mem_map, List.mem_range, Real]
  constructor
  · rintro ⟨i, hi, rfl⟩; omega
  · intro h; exact ⟨k - a - 2, by omega, by omega⟩

theorem staged_length {Stands : Nat → P → Prop} {a n t : Nat} {m : FMap P} (hm : Calm Stands a n t m) :
    m.staged.length ≤ (if t < 4 then n - 1 else 0) + 2 := by
  have h : (m.staged.map Prod.fst).length ≤
      ((if t < 4 then (List.range (n - 1)).map (fun i => a + 2 + i) else []) ++ [ghostId a n t, ghostId a n (t - 1)]).length := by
    refine length_le_of hm.stagedKeys fun x hx => ?_
    obtain ⟨p, hp, rfl⟩ := List.mem_map.1 hx
    rcases (hm.stagedFine p hp).key_cases with hr | h | h
    · refine List.mem_append_left _ ?_
      split
      · exact mem_realIds.2 hr
      · exact absurd hr ((hm.grown (by omega)).1 p hp)
    · exact List.mem_append_right _ (by simp [h])
    · exact List.mem_append_right _ (by simp [h])
  rw [List.length_map, List.length_append] at h
  refine h.trans (le_of_eq ?_)
  split <;> simp

theorem nextId {a g n t : Nat} (h : a + n + t + 1 < 2 ^ 64) :
    (⟨a + n + t, g + n + t⟩ : Alloc).next = ⟨a + n + (t + 1), g + n + (t + 1)⟩ := by
  simp only [Alloc.next]
  rw [Nat.mod_eq_of_lt (by omega)]
  congr 1
  omega

theorem frame_calm {o : PlaneOps P D Env} {env : Env} {det : List D} {Stands : Nat → P → Prop}
    (hs : Spec.StillPlanes o env det Stands) (hne : det ≠ []) {fuel : Nat} (hfu : det.length + 1 ≤ fuel) {a g t : Nat}
    (hlt : a + det.length + (t + 1) < 2 ^ 64) {s : State P} (h : CalmState Stands a g det.length t s) :
    ∃ s', Spec.planeFrame o fuel env det s = .ok s' ∧ CalmState Stands a g det.length (t + 1) s' := by
  have hpos : 0 < det.length := List.length_pos_iff.2 hne
  obtain ⟨hm, hfound⟩ := getMatches_calm hs hne h.calm
  have hflags : (getMatches (planeKind o) env det s.map).1.flags.length = det.length := by
    rw [getMatches_eq _ _ _ _ h.calm.active]
    have : ∀ adv, (matchOnce (planeKind o) env det adv [] s.map).1.flags.length = det.length := fun adv => by
      simp only [matchOnce, h.calm.active, Bool.not_true, Bool.false_eq_true, if_false]
      rw [matchPass_flags_length, matchPass_flags_length]; simp
    split <;> exact this _
  generalize hM : (getMatches (planeKind o) env det s.map).1 = M at hm hfound hflags
  obtain ⟨loc, e1, k1, g1⟩ := updateLocal_calm hs M.localMap fun p hp =>
    ⟨hm.localFine p hp, hfound p (List.mem_append_left _ hp)⟩
  have hlen : M.staged.length ≤ fuel := by
    have := staged_length hm
    split at this <;> omega
  obtain ⟨stg, new, used, e2, hu, k2, g2, k3, g3, y1, y2⟩ := updateStaged_calm hs M.staged fuel loc hlen
    (fun p hp => ⟨hm.stagedFine p hp, hfound p (List.mem_append_right _ hp)⟩) hm.stagedKeys (by
      intro p hp hr hmem
      rw [k1] at hmem
      by_cases ht : t < 4
      · rw [(hm.young ht).1] at hmem; cases hmem
      · exact (hm.grown (by omega)).1 p hp hr)
  have hcov : (planeKind o).covValid env = true := hs.cov
  have hupd : updateMap (planeKind o) fuel env det { s with map := M } =
      .ok ({ s with map := { M with localMap := loc ++ new, staged := stg } }, M.localMap.map (fun p => p.1 - a - 1) ++ used) := by
    rw [updateMap]
    simp only [hm.active, hcov, e1, e2, Outcome.bind_ok]
    simp
  obtain ⟨d0, ds, rfl⟩ := List.exists_cons_of_ne_nil hne
  have hused : ∀ j, 1 ≤ j → j < (d0 :: ds).length → j ∈ M.localMap.map (fun p => p.1 - a - 1) ++ used := by
    intro j h1 h2
    have hr : Real a (d0 :: ds).length (a + 1 + j) := ⟨by omega, by omega⟩
    by_cases ht : t < 4
    · obtain ⟨p, hp, e⟩ := List.mem_map.1 ((hm.young ht).2 _ hr)
      refine List.mem_append_right _ ((hu j).2 ⟨p, hp, by rw [e]; exact hr, by omega⟩)
    · obtain ⟨p, hp, e⟩ := List.mem_map.1 ((hm.grown (by omega)).2 _ hr)
      exact List.mem_append_left _ (List.mem_map.2 ⟨p, hp, by rw [e]; omega⟩)
  have h0 : 0 ∉ M.localMap.map (fun p => p.1 - a - 1) ++ used := by
    rw [List.mem_append, hu]
    rintro (hx | ⟨p, hp, hr, hx⟩)
    · obtain ⟨p, hp, hx⟩ := List.mem_map.1 hx
      have := (hm.localFine p hp).2.1
      omega
    · have := hr.1
      omega
  obtain ⟨b, hb, hst⟩ := hs.builds 0 d0 rfl
  have hnext := nextId (g := g) hlt
  have hnew : ∀ p ∈ stg, p.1 ≠ a + (d0 :: ds).length + (t + 1) := by
    intro p hp he
    have : p.1 ∈ M.staged.map Prod.fst := k2.subset (List.mem_map_of_mem hp)
    obtain ⟨q, hq, hqp⟩ := List.mem_map.1 this
    have := (hm.stagedFine q hq).key_le hpos
    omega
  have hgid : ghostId a (d0 :: ds).length (t + 1) = a + (d0 :: ds).length + (t + 1) := by simp [ghostId]
  have hone : stageOne (planeKind o) env d0 { s with map := { M with localMap := loc ++ new, staged := stg } } =
      { s with
        alloc := ⟨a + (d0 :: ds).length + (t + 1), g + (d0 :: ds).length + (t + 1)⟩,
        map := { M with localMap := loc ++ new, staged := stg ++ [(a + (d0 :: ds).length + (t + 1),
          ⟨a + (d0 :: ds).length + (t + 1), 0, 0, [], b⟩)] } } := by
    have hb' : (planeKind o).build env d0 = some b := hb
    have hc : (planeKind o).canAdd d0 = true := rfl
    simp only [stageOne, hc, if_true, hb', h.ids, hnext, emplace, lookup_none hnew]
    simp
  have hstage : stage (planeKind o) env (d0 :: ds) (M.localMap.map (fun p => p.1 - a - 1) ++ used)
      { s with map := { M with localMap := loc ++ new, staged := stg } } = .ok
      { s with
        alloc := ⟨a + (d0 :: ds).length + (t + 1), g + (d0 :: ds).length + (t + 1)⟩,
        map := { M with localMap := loc ++ new, staged := stg ++ [(a + (d0 :: ds).length + (t + 1),
          ⟨a + (d0 :: ds).length + (t + 1), 0, 0, [], b⟩)] } } := by
    rw [stage, if_neg (by simp [hm.active]), if_neg (by simp [hcov]), if_neg (by simp [hflags]), stageFrom,
      if_neg (by simpa using h0), hone, stageFrom_used _ ds (0 + 1) _ fun j h1 h2 => hused j (by omega) (by simp; omega)]
  have hframe : Spec.planeFrame o fuel env (d0 :: ds) s = .ok
      { s with
        alloc := ⟨a + (d0 :: ds).length + (t + 1), g + (d0 :: ds).length + (t + 1)⟩,
        map := { M with localMap := loc ++ new, staged := stg ++ [(a + (d0 :: ds).length + (t + 1),
          ⟨a + (d0 :: ds).length + (t + 1), 0, 0, [], b⟩)] } } := by
    rw [Spec.planeFrame, hM, hupd, Outcome.bind_ok]
    exact hstage
  refine ⟨_, hframe, ?_⟩
  refine ⟨?_, rfl, h.written⟩
  · have hghost : Fine Stands a (d0 :: ds).length (t + 1) (a + (d0 :: ds).length + (t + 1),
        (⟨a + (d0 :: ds).length + (t + 1), 0, 0, [], b⟩ : Feat P)) :=
      ⟨rfl, fun hr => absurd hr (by
        show ¬ Real a (d0 :: ds).length (a + (d0 :: ds).length + (t + 1))
        rw [← hgid]; exact ghost_not_real _ _ _), fun _ => ⟨hst, le_refl _, .inl ⟨hgid.symm, rfl⟩⟩⟩
    have hgr : ¬ Real a (d0 :: ds).length (a + (d0 :: ds).length + (t + 1)) := by rw [← hgid]; exact ghost_not_real _ _ _
    refine ⟨hm.active, fun p hp => ?_, fun p hp => ?_, ?_, ?_, fun ht => ⟨?_, fun k hk => ?_⟩, fun ht => ⟨fun p hp => ?_, fun k hk => ?_⟩⟩
    · rcases List.mem_append.1 hp with hp | hp
      · exact g1 p hp
      · exact g3 p hp
    · rcases List.mem_append.1 hp with hp | hp
      · exact g2 p hp
      · rw [List.mem_singleton.1 hp]; exact hghost
    · simp only
      rw [List.map_append, List.nodup_append]
      refine ⟨by rw [k1]; exact hm.localKeys, k3.nodup hm.stagedKeys, fun x hx y hy he => ?_⟩
      subst he
      obtain ⟨p, hp, rfl⟩ := List.mem_map.1 hy
      by_cases ht : t < 4
      · rw [k1, (hm.young ht).1] at hx; cases hx
      · obtain ⟨q, hq, hqp⟩ := List.mem_map.1 (k3.subset (List.mem_map_of_mem hp))
        exact (hm.grown (by omega)).1 q hq (by rw [hqp]; exact (g3 p hp).2)
    · simp only
      rw [List.map_append, List.nodup_append]
      refine ⟨k2.nodup hm.stagedKeys, by simp, fun x hx y hy he => ?_⟩
      subst he
      obtain ⟨p, hp, rfl⟩ := List.mem_map.1 hx
      exact hnew p hp (by simpa using hy)
    · have := (hm.young (by omega)).1
      rw [this] at k1
      simp only
      rw [List.map_eq_nil_iff.1 k1, (y1 ht).1]
      rfl
    · obtain ⟨p, hp, e⟩ := List.mem_map.1 ((hm.young (by omega)).2 k hk)
      simp only
      rw [List.map_append]
      exact List.mem_append_left _ (e ▸ (y1 ht).2 p hp (e ▸ hk))
    · rcases List.mem_append.1 hp with hp | hp
      · exact (y2 ht).1 p hp
      · rw [List.mem_singleton.1 hp]; exact hgr
    · simp only
      rw [List.map_append]
      by_cases h4 : t < 4
      · obtain ⟨p, hp, e⟩ := List.mem_map.1 ((hm.young h4).2 k hk)
        exact List.mem_append_right _ (e ▸ (y2 ht).2 p hp (e ▸ hk))
      · exact List.mem_append_left _ (by rw [k1]; exact (hm.grown (by omega)).2 k hk)

/-! ## The first frame -/

theorem stageFrom_calm {o : PlaneOps P D Env} {env : Env} {det : List D} {Stands : Nat → P → Prop}
    (hs : Spec.StillPlanes o env det Stands) {a g : Nat} (hlt : a + det.length < 2 ^ 64) :
    ∀ (ds : List D) (i : Nat) (s : State P), det.drop i = ds → i ≤ det.length → s.alloc = ⟨a + i, g + i⟩ →
      (∀ p ∈ s.map.staged, Fine Stands a det.length 0 p ∧ p.1 ≤ a + i) → (s.map.staged.map Prod.fst).Nodup →
      (∀ k, a + 2 ≤ k → k ≤ a + i → k ∈ s.map.staged.map Prod.fst) →
      ∃ l, stageFrom (planeKind o) env [] i ds s =
          { s with alloc := ⟨a + det.length, g + det.length⟩, map := { s.map with staged := l } } ∧
        (∀ p ∈ l, Fine Stands a det.length 0 p) ∧ (l.map Prod.fst).Nodup ∧ ∀ k, Real a det.length k → k ∈ l.map Prod.fst := by
  intro ds
  induction ds with
  | nil =>
    intro i s hd hi ha hf hn hk
    have : i = det.length := by
      have := congrArg List.length hd
      simp at this
      omega
    subst this
    exact ⟨s.map.staged, by rw [stageFrom]; cases s; simp_all, fun p hp => (hf p hp).1, hn, fun k hr => hk k hr.1 hr.2⟩
  | cons d ds ih =>
    intro i s hd hi ha hf hn hk
    have hi' : i < det.length := by
      have := congrArg List.length hd
      simp at this
      omega
    have hdi : det[i]? = some d := by
      have := congrArg (·[0]?) hd
      simpa using this
    obtain ⟨b, eb, hb⟩ := hs.builds i d hdi
    have hnext : s.alloc.next = ⟨a + (i + 1), g + (i + 1)⟩ := by
      rw [ha]
      simp only [Alloc.next]
      rw [Nat.mod_eq_of_lt (by omega)]
      congr 1
      omega
    have hkeys : ∀ p ∈ s.map.staged, p.1 ≠ a + (i + 1) := fun p hp he => by
      have := (hf p hp).2
      omega
    have hone : stageOne (planeKind o) env d s =
        { s with
          alloc := ⟨a + (i + 1), g + (i + 1)⟩,
          map := { s.map with staged := s.map.staged ++ [(a + (i + 1), ⟨a + (i + 1), 0, 0, [], b⟩)] } } := by
      have hc : (planeKind o).canAdd d = true := rfl
      have hb' : (planeKind o).build env d = some b := eb
      simp only [stageOne, hc, if_true, hb', hnext, emplace, lookup_none hkeys]
      simp
    have hnew : Fine Stands a det.length 0 (a + (i + 1), (⟨a + (i + 1), 0, 0, [], b⟩ : Feat P)) := by
      refine ⟨rfl, fun _ => ⟨?_, rfl, rfl⟩, fun hr => ?_⟩
      · rw [show a + (i + 1) - a - 1 = i by omega]; exact hb
      · have : i = 0 := by
          simp only [Real] at hr
          omega
        subst this
        exact ⟨hb, le_refl _, .inl ⟨by simp [ghostId], rfl⟩⟩
    obtain ⟨l, e, h1, h2, h3⟩ := ih (i + 1) (stageOne (planeKind o) env d s) (by
        have := congrArg List.tail hd
        simpa [List.tail_drop] using this) (by omega) (by rw [hone]) (by
        rw [hone]
        intro p hp
        rcases List.mem_append.1 hp with hp | hp
        · exact ⟨(hf p hp).1, by have := (hf p hp).2; omega⟩
        · rw [List.mem_singleton.1 hp]; exact ⟨hnew, le_refl _⟩) (by
        rw [hone]
        simp only
        rw [List.map_append, List.nodup_append]
        refine ⟨hn, by simp, fun x hx y hy he => ?_⟩
        subst he
        obtain ⟨p, hp, rfl⟩ := List.mem_map.1 hx
        exact hkeys p hp (by simpa using hy)) (by
        rw [hone]
        intro k h1 h2
        simp only
        rw [List.map_append, List.mem_append]
        by_cases hki : k ≤ a + i
        · exact .inl (hk k h1 hki)
        · exact .inr (by simp; omega))
    refine ⟨l, ?_, h1, h2, h3⟩
    rw [stageFrom, if_neg (by simp), e, hone]

theorem first_calm {o : PlaneOps P D Env} {env : Env} {det : List D} {Stands : Nat → P → Prop}
    (hs : Spec.StillPlanes o env det Stands) {fuel a g : Nat} (hlt : a + det.length < 2 ^ 64) :
    ∃ s, Spec.planeFrame o fuel env det (State.init ⟨a, g⟩) = .ok s ∧ CalmState Stands a g det.length 0 s := by
  have e0 := getMatches_empty (planeKind o) env det (m := (FMap.empty : FMap P)) rfl rfl rfl
  have hcov : (planeKind o).covValid env = true := hs.cov
  obtain ⟨l, e, h1, h2, h3⟩ := stageFrom_calm hs (g := g) hlt det 0
    ⟨{ (FMap.empty : FMap P) with flags := List.replicate det.length false }, ⟨a, g⟩, []⟩ rfl (by omega) rfl
    (by intro p hp; cases hp) (by simp [FMap.empty]) (by intro k h1 h2; omega)
  have hupd : updateMap (planeKind o) fuel env det
      ⟨{ (FMap.empty : FMap P) with flags := List.replicate det.length false }, ⟨a, g⟩, []⟩ =
      .ok (⟨{ (FMap.empty : FMap P) with flags := List.replicate det.length false }, ⟨a, g⟩, []⟩, []) := by
    cases fuel <;> simp [updateMap, FMap.empty, hcov, updateLocal, updateStaged]
  refine ⟨⟨⟨true, [], l, List.replicate det.length false⟩, ⟨a + det.length, g + det.length⟩, []⟩, ?_,
    ⟨rfl, by simp, h1, by simp, h2, fun _ => ⟨rfl, h3⟩, fun h => absurd h (by omega)⟩, rfl, rfl⟩
  rw [Spec.planeFrame]
  simp only [State.init, e0]
  rw [hupd, Outcome.bind_ok, stage, if_neg (by simp [FMap.empty]), if_neg (by simp [hcov]), if_neg (by simp), e]
  rfl

theorem frames_calm {o : PlaneOps P D Env} {env : Env} {det : List D} {Stands : Nat → P → Prop}
    (hs : Spec.StillPlanes o env det Stands) (hne : det ≠ []) {fuel : Nat} (hfu : det.length + 1 ≤ fuel) {a g : Nat} :
    ∀ t, a + det.length + t < 2 ^ 64 →
      ∃ s, Spec.planeFrames o fuel env det (t + 1) (State.init ⟨a, g⟩) = .ok s ∧ CalmState Stands a g det.length t s := by
  intro t
  induction t with
  | zero =>
    intro hlt
    obtain ⟨s, e, h⟩ := first_calm hs (fuel := fuel) (g := g) (a := a) (by omega)
    exact ⟨s, by rw [Spec.planeFrames, Spec.planeFrames, Outcome.bind_ok, e], h⟩
  | succ t ih =>
    intro hlt
    obtain ⟨s, e, h⟩ := ih (by omega)
    obtain ⟨s', e', h'⟩ := frame_calm hs hne hfu hlt h
    exact ⟨s', by rw [Spec.planeFrames, e, Outcome.bind_ok, e'], h'⟩

/-! ## C192 -/

/-- C192 (partial: not for the first detected plane): in front of an unchanging scene of planes, every other plane is recognised at every
frame and enters the map at the fifth one, where it stays; the map holds these planes and nothing else, and at most two candidates
more. -/
theorem C192_plane_enters_partial {o : PlaneOps P D Env} {env : Env} {det : List D} {Stands : Nat → P → Prop}
    (hs : Spec.StillPlanes o env det Stands) (hne : det ≠ []) {fuel : Nat} (hfu : det.length + 1 ≤ fuel) {a g t : Nat}
    (hlt : a + det.length + t < 2 ^ 64) :
    ∃ s, Spec.planeFrames o fuel env det (t + 1) (State.init ⟨a, g⟩) = .ok s ∧
      (∀ i, 1 ≤ i → i < det.length → ∃ f, (a + 1 + i, f) ∈ (if t < 4 then s.map.staged else s.map.localMap) ∧
        f.id = a + 1 + i ∧ f.failed = 0 ∧ f.succ = t ∧ Stands i f.body) ∧
      s.map.localMap.length = (if t < 4 then 0 else det.length - 1) ∧
      s.map.staged.length ≤ (if t < 4 then det.length - 1 else 0) + 2 ∧ s.written = [] := by
  obtain ⟨s, e, h⟩ := frames_calm hs hne hfu (g := g) t hlt
  refine ⟨s, e, fun i h1 h2 => ?_, ?_, staged_length h.calm, h.written⟩
  · have hr : Real a det.length (a + 1 + i) := ⟨by omega, by omega⟩
    have key : ∀ p : Nat × Feat P, p.1 = a + 1 + i → Fine Stands a det.length t p →
        p.2.id = a + 1 + i ∧ p.2.failed = 0 ∧ p.2.succ = t ∧ Stands i p.2.body := by
      intro p hp hf
      obtain ⟨q1, q2, q3⟩ := hf.real (hp ▸ hr)
      rw [hp, show a + 1 + i - a - 1 = i by omega] at q1
      exact ⟨hf.id.trans hp, q2, q3, q1⟩
    by_cases ht : t < 4
    · obtain ⟨⟨k, f⟩, hp, rfl⟩ := List.mem_map.1 ((h.calm.young ht).2 _ hr)
      exact ⟨f, by rw [if_pos ht]; exact hp, key _ rfl (h.calm.stagedFine _ hp)⟩
    · obtain ⟨⟨k, f⟩, hp, hk⟩ := List.mem_map.1 ((h.calm.grown (by omega)).2 _ hr)
      simp only at hk
      subst hk
      exact ⟨f, by rw [if_neg ht]; exact hp, key _ rfl (h.calm.localFine _ hp).1⟩
  · split
    · rename_i ht
      rw [(h.calm.young ht).1]; rfl
    · rename_i ht
      have h1 : (s.map.localMap.map Prod.fst).length ≤ ((List.range (det.length - 1)).map (fun i => a + 2 + i)).length :=
        length_le_of h.calm.localKeys fun x hx => by
          obtain ⟨p, hp, rfl⟩ := List.mem_map.1 hx
          exact mem_realIds.2 (h.calm.localFine p hp).2
      have h2 : ((List.range (det.length - 1)).map (fun i => a + 2 + i)).length ≤ (s.map.localMap.map Prod.fst).length :=
        length_le_of (List.Nodup.map (fun x y hxy => by simpa using hxy) List.nodup_range) fun x hx =>
          (h.calm.grown (by omega)).2 x (mem_realIds.1 hx)
      simp only [List.length_map, List.length_range] at h1 h2
      omega

/-- C192 is false for the first detected plane: however long it is seen, no feature of the map is its map plane. -/
theorem C192_first_plane_false {o : PlaneOps P D Env} {env : Env} {det : List D} {Stands : Nat → P → Prop}
    (hs : Spec.StillPlanes o env det Stands) (hne : det ≠ []) (hdiff : ∀ i j b, Stands i b → Stands j b → i = j) {fuel : Nat}
    (hfu : det.length + 1 ≤ fuel) {a g t : Nat} (hlt : a + det.length + t < 2 ^ 64) :
    ∃ s, Spec.planeFrames o fuel env det (t + 1) (State.init ⟨a, g⟩) = .ok s ∧ ∀ p ∈ s.map.localMap, ¬ Stands 0 p.2.body := by
  obtain ⟨s, e, h⟩ := frames_calm hs hne hfu (g := g) t hlt
  refine ⟨s, e, fun p hp h0 => ?_⟩
  obtain ⟨hf, hr⟩ := h.calm.localFine p hp
  have := hdiff _ _ _ (hf.real hr).1 h0
  have := hr.1
  omega

/-- A scene of four planes: the map plane of a detection is this detection, and covers only itself. -/
example : ∃ o : PlaneOps Nat Nat Unit, Spec.StillPlanes o () [7, 8, 9, 10] (fun i b => b = 7 + i ∧ i < 4) ∧
    ∀ i j b, (b = 7 + i ∧ i < 4) → (b = 7 + j ∧ j < 4) → i = j := by
  refine ⟨{ isVisible := fun _ _ => true, projectedArea := fun _ _ => 1, similar := fun _ b d => b == d, interArea := fun _ _ _ => 1,
            detectedArea := fun _ => 2, update := fun _ _ b => .ok (b, true), build := fun _ d => some d, copy := fun b => some b,
            covValid := fun _ => true }, ⟨rfl, ?_, ?_, ?_, ?_, ?_, ?_⟩, ?_⟩
  · intro i d h
    have hi : i < 4 := by
      by_contra hi
      rw [List.getElem?_eq_none (by simp; omega)] at h
      cases h
    refine ⟨d, rfl, ?_, hi⟩
    interval_cases i <;> simp_all
  · intro i b h; exact ⟨rfl, by norm_num⟩
  · rintro i b d ⟨rfl, hi⟩ h
    interval_cases i <;> simp_all <;> norm_num
  · rintro i j b d ⟨rfl, hi⟩ h hne
    have hj : j < 4 := by
      by_contra hj
      rw [List.getElem?_eq_none (by simp; omega)] at h
      cases h
    left
    interval_cases i <;> interval_cases j <;> simp_all <;> omega
  · intro i b d h _; exact ⟨b, rfl, h⟩
  · intro i b h; exact ⟨b, rfl, h⟩
  · intro i j b h1 h2; omega

/-- After a number of calls on a map of planes with at most one detected plane per search: no candidate is matched, none was ever. -/
structure Lonely (s : State P) : Prop where
  loc : s.map.localMap = []
  written : s.written = []
  staged : ∀ p ∈ s.map.staged, p.2.matched = [] ∧ p.2.succ ≤ 0

/-- A search in at most one detected plane. -/
theorem matchPass_lonely {o : PlaneOps P D Env} {env : Env} {det : List D} (hd : det.length ≤ 1) (tm adv : Bool) : ∀ (l : Store P)
    (flags : List Bool), (∀ p ∈ l, p.2.succ ≤ 0) →
    ∀ p ∈ (matchPass (planeKind o) env det tm adv l flags).1, p.2.matched = [] ∧ p.2.succ ≤ 0 := by
  intro l
  induction l with
  | nil => intro flags _ p hp; cases hp
  | cons q l ih =>
    intro flags h p hp
    obtain ⟨key, f⟩ := q
    simp only [matchPass] at hp
    split at hp
    · rcases List.mem_cons.1 hp with rfl | hp
      · exact ⟨rfl, h (key, f) (by simp)⟩
      · exact ih flags (fun p hp => h p (by simp [hp])) p hp
    · rcases List.mem_cons.1 hp with rfl | hp
      · refine ⟨?_, h (key, f) (by simp)⟩
        simp only
        change (planeFind o env det { f with matched := [] } flags tm adv).1 = []
        rcases planeFind_spec o env det { f with matched := [] } flags tm adv with h' | ⟨j, -, h1, h2, -⟩
        · exact h'
        · omega
      · exact ih _ (fun p hp => h p (by simp [hp])) p hp

theorem updateStaged_lonely {o : PlaneOps P D Env} {env : Env} {det : List D} : ∀ (l : Store P) (fuel : Nat) (r : Store P × Store P × List Nat),
    (∀ p ∈ l, p.2.matched = [] ∧ p.2.succ ≤ 0) → updateStaged (planeKind o) env det fuel l [] = .ok r →
    r.2.1 = [] ∧ ∀ p ∈ r.1, p.2.matched = [] ∧ p.2.succ ≤ 0 := by
  intro l
  induction l with
  | nil =>
    intro fuel r _ e
    cases fuel <;> (simp only [updateStaged, Outcome.ok.injEq] at e; subst e; simp)
  | cons q l ih =>
    intro fuel r h e
    obtain ⟨key, f⟩ := q
    obtain ⟨h1, h2⟩ := h (key, f) (by simp)
    simp only at h1 h2
    cases fuel with
    | zero => simp [updateStaged] at e
    | succ fuel =>
      have hadd : (planeKind o).shouldAdd (settle false f) = false := by
        simp only [planeKind, settle, Bool.false_eq_true, if_false, decide_eq_false_iff_not, not_le]
        omega
      rw [updateStaged, h1] at e
      simp only [applyMatches, Outcome.bind_ok, hadd, Bool.false_eq_true, if_false] at e
      obtain ⟨r', e', e2⟩ := Outcome.bind_eq_ok e
      obtain ⟨i1, i2⟩ := ih fuel r' (fun p hp => h p (by simp [hp])) e'
      obtain ⟨stg, loc, used⟩ := r'
      simp only at e2 i1 i2
      split at e2
      · rw [← Outcome.ok.inj e2]; exact ⟨i1, i2⟩
      · rw [← Outcome.ok.inj e2]
        refine ⟨i1, fun p hp => ?_⟩
        rcases List.mem_cons.1 hp with rfl | hp
        · simp only [settle, Bool.false_eq_true, if_false, true_and]; omega
        · exact i2 p hp

theorem stageFrom_lonely {o : PlaneOps P D Env} {env : Env} (used : List Nat) : ∀ (ds : List D) (i : Nat) (s : State P), Lonely s →
    Lonely (stageFrom (planeKind o) env used i ds s) := by
  intro ds
  induction ds with
  | nil => exact fun i s h => h
  | cons d ds ih =>
    intro i s h
    have hone : Lonely (stageOne (planeKind o) env d s) := by
      unfold stageOne
      split
      · split
        · refine ⟨h.loc, h.written, fun p hp => ?_⟩
          simp only [emplace] at hp
          split at hp
          · exact h.staged p hp
          · rcases List.mem_append.1 hp with hp | hp
            · exact h.staged p hp
            · rw [List.mem_singleton.1 hp]; simp
        · split
          · exact ⟨h.loc, h.written, h.staged⟩
          · exact h
      · exact h
    rw [stageFrom]
    split
    · exact ih _ _ h
    · exact ih _ _ hone

theorem addUpgraded_lonely {o : PlaneOps P D Env} : ∀ (us : List (Upgrade P)) (s : State P), (addUpgraded (planeKind o) us s).1 = s := by
  intro us
  induction us with
  | nil => exact fun s => rfl
  | cons u us ih =>
    intro s
    rw [addUpgraded]
    split
    · exact ih s
    · exact ih s

theorem step_lonely {o : PlaneOps P D Env} {op : Op P D Env} (hop : ∀ env det, op = .find env det → det.length ≤ 1) {s s' : State P}
    (h : Lonely s) (e : step (planeKind o) op s = .ok s') : Lonely s' := by
  cases op with
  | find env det =>
    have hd := hop env det rfl
    simp only [step, Outcome.ok.injEq] at e
    subst e
    have key : ∀ adv old (m : FMap P), m.localMap = [] → (∀ p ∈ m.staged, p.2.matched = [] ∧ p.2.succ ≤ 0) →
        (matchOnce (planeKind o) env det adv old m).1.localMap = [] ∧
        ∀ p ∈ (matchOnce (planeKind o) env det adv old m).1.staged, p.2.matched = [] ∧ p.2.succ ≤ 0 := by
      intro adv old m hl hst
      rw [matchOnce]
      split
      · exact ⟨hl, hst⟩
      · simp only [hl, matchPass]
        exact ⟨trivial, matchPass_lonely hd _ _ _ _ fun p hp => (hst p hp).2⟩
    have : (getMatches (planeKind o) env det s.map).1.localMap = [] ∧
        ∀ p ∈ (getMatches (planeKind o) env det s.map).1.staged, p.2.matched = [] ∧ p.2.succ ≤ 0 := by
      obtain ⟨k1, k2⟩ := key false [] s.map h.loc h.staged
      simp only [getMatches]
      split
      · exact key true _ _ k1 k2
      · exact ⟨k1, k2⟩
    exact ⟨this.1, h.written, this.2⟩
  | update fuel env det =>
    have key : ∀ r, updateMap (planeKind o) fuel env det s = .ok r → Lonely r.1 := by
      intro r hr
      rw [updateMap] at hr
      split at hr
      · rw [← Outcome.ok.inj hr]; exact h
      · split at hr
        · cases hr
        · rw [h.loc, updateLocal] at hr
          simp only [Outcome.bind_ok] at hr
          obtain ⟨r', e', e2⟩ := Outcome.bind_eq_ok hr
          obtain ⟨k1, k2⟩ := updateStaged_lonely _ _ _ h.staged e'
          rw [← Outcome.ok.inj e2]
          exact ⟨k1, by simp [h.written], k2⟩
    simp only [step] at e
    cases hu : updateMap (planeKind o) fuel env det s <;> rw [hu] at e <;>
      simp only [Outcome.map, Outcome.bind, Outcome.ok.injEq, reduceCtorEq] at e
    · exact e ▸ key _ hu
    · exact e ▸ h
  | noTracking =>
    simp only [step, Outcome.ok.injEq] at e
    subst e
    rw [updateNoTracking]
    split
    · exact h
    · have key : ∀ l : Store P, (∀ p ∈ l, p.2.matched = [] ∧ p.2.succ ≤ 0) →
          ∀ p ∈ missStaged (planeKind o) l, p.2.matched = [] ∧ p.2.succ ≤ 0 := by
        intro l
        induction l with
        | nil => intro _ p hp; cases hp
        | cons q l ih =>
          intro hl p hp
          obtain ⟨key, f⟩ := q
          simp only [missStaged] at hp
          split at hp
          · exact ih (fun p hp => hl p (by simp [hp])) p hp
          · rcases List.mem_cons.1 hp with rfl | hp
            · have := (hl (key, f) (by simp)).2
              simp only at this
              simp only [settle, Bool.false_eq_true, if_false, true_and]
              omega
            · exact ih (fun p hp => hl p (by simp [hp])) p hp
      rw [h.loc]
      exact ⟨by simp [missLocal], by simp [missLocal, h.written], key _ h.staged⟩
  | stage env det used =>
    have key : ∀ r, stage (planeKind o) env det used s = .ok r → Lonely r := by
      intro r hr
      rw [stage] at hr
      split at hr
      · rw [← Outcome.ok.inj hr]; exact h
      · split at hr
        · cases hr
        · split at hr
          · cases hr
          · rw [← Outcome.ok.inj hr]; exact stageFrom_lonely _ _ _ _ h
    simp only [step] at e
    cases hu : stage (planeKind o) env det used s <;> rw [hu] at e <;>
      simp only [Outcome.ok.injEq, reduceCtorEq] at e
    · exact e ▸ key _ hu
    · exact e ▸ h
  | outliers ms =>
    simp only [step, Outcome.ok.injEq] at e
    subst e
    have one : ∀ (id d : Nat) (m : FMap P), m.localMap = [] → (∀ p ∈ m.staged, p.2.matched = [] ∧ p.2.succ ≤ 0) →
        (markUnmatched id d m).1.localMap = [] ∧ ∀ p ∈ (markUnmatched id d m).1.staged, p.2.matched = [] ∧ p.2.succ ≤ 0 := by
      intro id d m hl hst
      rw [markUnmatched]
      split
      · exact ⟨hl, hst⟩
      · split
        · exact ⟨hl, hst⟩
        · rw [hl, lookup]
          simp only
          split
          · split
            · exact ⟨hl, hst⟩
            · refine ⟨rfl, fun p hp => ?_⟩
              simp only [eraseMatch, List.mem_map] at hp
              obtain ⟨q, hq, rfl⟩ := hp
              obtain ⟨h1, h2⟩ := hst q hq
              split
              · exact ⟨by simp [h1], h2⟩
              · exact ⟨h1, h2⟩
          · exact ⟨hl, hst⟩
    have key : ∀ (ms : List Match) (m : FMap P), m.localMap = [] → (∀ p ∈ m.staged, p.2.matched = [] ∧ p.2.succ ≤ 0) →
        (markOutliers (planeKind o).type ms m).localMap = [] ∧
        ∀ p ∈ (markOutliers (planeKind o).type ms m).staged, p.2.matched = [] ∧ p.2.succ ≤ 0 := by
      intro ms
      induction ms with
      | nil => exact fun m hl hst => ⟨hl, hst⟩
      | cons x xs ih =>
        intro m hl hst
        rw [markOutliers]
        split
        · exact ih _ (one _ _ m hl hst).1 (one _ _ m hl hst).2
        · exact ih m hl hst
    obtain ⟨k1, k2⟩ := key ms s.map h.loc h.staged
    exact ⟨k1, h.written, k2⟩
  | takeUpgrades env =>
    simp only [step, Outcome.ok.injEq] at e
    subst e
    have key : ∀ l : Store P, takeUpgraded (planeKind o) env l = (l, []) := by
      intro l
      induction l with
      | nil => rfl
      | cons q l ih => obtain ⟨key, f⟩ := q; simp only [takeUpgraded, ih]; rfl
    simp only [getUpgraded, key]
    exact ⟨h.loc, h.written, h.staged⟩
  | addUpgrades us => 
    simp only [step, Outcome.ok.injEq, addUpgraded_lonely] at e
    exact e ▸ h
  | reset =>
    simp only [step, Outcome.ok.injEq] at e
    subst e
    rw [reset]
    split
    · exact h
    · exact ⟨rfl, h.written, by simp⟩
  | deactivate => 
    simp only [step, Outcome.ok.injEq] at e
    subst e
    exact ⟨h.loc, h.written, h.staged⟩
  | foreignIds n => 
    simp only [step, Outcome.ok.injEq] at e
    subst e
    exact ⟨h.loc, h.written, h.staged⟩
  | rehash a b =>
    simp only [step, Outcome.ok.injEq] at e
    subst e
    refine ⟨?_, h.written, fun p hp => h.staged p ((b.perm _).mem_iff.1 hp)⟩
    have := a.perm s.map.localMap
    rw [h.loc] at this ⊢
    exact this.eq_nil

/-- C192 is false when the camera sees one plane at a time: whatever the camera does, whatever else happens to the map and for however
long, no plane ever enters the map, and none is exported. -/
theorem C192_single_plane_false {o : PlaneOps P D Env} {ops : List (Op P D Env)}
    (hone : ∀ op ∈ ops, ∀ env det, op = .find env det → det.length ≤ 1) {al : Alloc} {s : State P}
    (e : run (planeKind o) ops (State.init al) = .ok s) : s.map.localMap = [] ∧ s.written = [] := by
  have key : ∀ (ops : List (Op P D Env)) (s0 : State P), (∀ op ∈ ops, ∀ env det, op = .find env det → det.length ≤ 1) → Lonely s0 →
      run (planeKind o) ops s0 = .ok s → Lonely s := by
    intro ops
    induction ops with
    | nil => intro s0 _ h e; rw [← Outcome.ok.inj e]; exact h
    | cons op ops ih =>
      intro s0 hops h e
      obtain ⟨s1, e1, e2⟩ := Outcome.bind_eq_ok e
      exact ih s1 (fun p hp => hops p (by simp [hp])) (step_lonely (hops op (by simp)) h e1) e2
  have := key ops (State.init al) hone ⟨rfl, rfl, by simp [State.init, FMap.empty]⟩ e
  exact ⟨this.loc, this.written⟩

/-- Twenty frames in which the same plane is seen alone: there is a candidate at each of them, and no map plane; with another plane before
it in the list the plane is in the map. -/
example : ((run demoPlane (List.replicate 20 [Op.find () [7], .update 9 () [7], .stage () [7] []]).flatten (State.init Alloc.start)).holds
      fun s => s.map.localMap.length == 0 && s.map.staged.length == 2) = true ∧
    ((run demoPlane ([Op.find () [3, 7], .update 9 () [3, 7], .stage () [3, 7] []] ++
      (List.replicate 20 [Op.find () [3, 7], .update 9 () [3, 7], .stage () [3, 7] [1]]).flatten) (State.init Alloc.start)).holds
      fun s => (s.map.localMap.map fun p => p.2.body) == [7]) = true := by
  decide +kernel

end RgbdSlam.Map
