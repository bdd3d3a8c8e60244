import Verif.Lemmas.MapSize
import Verif.Lemmas.System
import Verif.Lemmas.FeatureMapClosed
import Verif.Model.System
/-
C209: the counters of the map in long runs.  `int _successivMatchedCount` and `size_t _failedTrackingCount`
(src/map_management/feature_map.hpp:168-169) are unbounded in the model of the map.  Here: how far they can be
from zero after a number of frames, so that in shorter runs the counters of the program and of the model agree.
-/
namespace RgbdSlam.Map.LongRuns

variable {P D Env : Type}

namespace Spec

/-- Does this call count the matches of a frame: an update with a pose or without. -/
def counts : WOp D Env → Bool
  | .update .. => true
  | .noPose => true
  | _ => false

/-- Number of updates of the map in a history of calls. -/
def updates (ops : List (WOp D Env)) : Nat := ops.countP counts

/-- All features of the map, candidates included. -/
def features (w : World P) (t : FType) : List (Feat P) :=
  ((w.maps t).localMap ++ (w.maps t).staged).map (·.2)

/-- Values of `int`. -/
def FitsInt (z : Int) : Prop := -2 ^ 31 ≤ z ∧ z ≤ 2 ^ 31 - 1

/-- Values of `size_t`. -/
def FitsSize (n : Nat) : Prop := n < 2 ^ 64

end Spec

open Spec

/-- The counters of a feature after at most `n` updates. -/
def Near (n : Nat) (f : Feat P) : Prop := -(n : Int) ≤ f.succ ∧ f.succ ≤ n ∧ f.failed ≤ n

def NearStore (n : Nat) (l : Store P) : Prop := ∀ p ∈ l, Near n p.2

def NearMap (n : Nat) (m : FMap P) : Prop := NearStore n m.localMap ∧ NearStore n m.staged

def NearWorld (n : Nat) (w : World P) : Prop := ∀ t, NearMap n (w.maps t)

theorem Near.mono {n m : Nat} (h : n ≤ m) {f : Feat P} (hf : Near n f) : Near m f := by
  obtain ⟨h1, h2, h3⟩ := hf
  refine ⟨?_, ?_, ?_⟩ <;> omega

theorem NearMap.mono {n m : Nat} (h : n ≤ m) {x : FMap P} (hx : NearMap n x) : NearMap m x :=
  ⟨fun p hp => (hx.1 p hp).mono h, fun p hp => (hx.2 p hp).mono h⟩

theorem near_settle {n : Nat} (b : Bool) {f : Feat P} (hf : Near n f) : Near (n + 1) (settle b f) := by
  obtain ⟨h1, h2, h3⟩ := hf
  cases b <;> simp only [settle, Bool.false_eq_true, if_false, if_true] <;> refine ⟨?_, ?_, ?_⟩ <;>
    simp only <;> omega

theorem nearStore_core {n : Nat} {a b : Store P} (h : a.map core = b.map core) (hb : NearStore n b) :
    NearStore n a := by
  intro p hp
  have : core p ∈ b.map core := h ▸ List.mem_map_of_mem hp
  obtain ⟨q, hq, e⟩ := List.mem_map.1 this
  have := hb q hq
  simp only [core, Prod.mk.injEq] at e
  obtain ⟨-, -, e1, e2, -⟩ := e
  unfold Near at this ⊢
  rw [← e1, ← e2]; exact this

theorem near_updateLocal {k : Kind P D Env} {env : Env} {det : List D} {n : Nat} {l kept : Store P}
    {used : List Nat} {wr : List (Feat P)} (hl : NearStore n l)
    (h : updateLocal k env det l = .ok (kept, used, wr)) : NearStore (n + 1) kept := by
  induction l generalizing kept used wr with
  | nil =>
    simp only [updateLocal, Outcome.ok.injEq, Prod.mk.injEq] at h
    obtain ⟨rfl, -, -⟩ := h
    exact fun p hp => absurd hp (by simp)
  | cons q l ih =>
    obtain ⟨key, f⟩ := q
    simp only [updateLocal] at h
    obtain ⟨⟨f1, hit, u1⟩, e1, h⟩ := Outcome.bind_eq_ok h
    obtain ⟨⟨kept', u2, wr'⟩, e2, h⟩ := Outcome.bind_eq_ok h
    obtain ⟨-, s2, s3, -⟩ := applyMatches_spec e1
    have hr := ih (fun p hp => hl p (List.mem_cons_of_mem _ hp)) e2
    have hf : Near n f1 := by
      have := hl (key, f) List.mem_cons_self
      unfold Near at this ⊢
      rw [s2, s3]; exact this
    dsimp only at h
    split at h
    · simp only [Outcome.ok.injEq, Prod.mk.injEq] at h
      obtain ⟨rfl, -, -⟩ := h
      exact hr
    · simp only [Outcome.ok.injEq, Prod.mk.injEq] at h
      obtain ⟨rfl, -, -⟩ := h
      intro p hp
      rcases List.mem_cons.1 hp with rfl | hp
      · exact near_settle hit hf
      · exact hr p hp

theorem near_emplace {n : Nat} {key : Nat} {f : Feat P} {l : Store P} (hl : NearStore n l) (hf : Near n f) :
    NearStore n (emplace key f l) := by
  intro p hp
  rcases mem_emplace hp with hp | rfl
  · exact hl p hp
  · exact hf

theorem near_updateStaged {k : Kind P D Env} (hc : ∀ f, ∃ b, k.promote f = some b) {env : Env} {det : List D}
    {fuel n : Nat} {l loc stg loc' : Store P} {used : List Nat} (hl : NearStore n l)
    (hloc : NearStore (n + 1) loc) (h : updateStaged k env det fuel l loc = .ok (stg, loc', used)) :
    NearStore (n + 1) stg ∧ NearStore (n + 1) loc' := by
  induction fuel generalizing l loc stg loc' used with
  | zero =>
    match l with
    | [] =>
      simp only [updateStaged, Outcome.ok.injEq, Prod.mk.injEq] at h
      obtain ⟨rfl, rfl, rfl⟩ := h
      exact ⟨fun p hp => absurd hp (by simp), hloc⟩
    | _ :: _ => simp [updateStaged] at h
  | succ fuel ih =>
    match l with
    | [] =>
      simp only [updateStaged, Outcome.ok.injEq, Prod.mk.injEq] at h
      obtain ⟨rfl, rfl, rfl⟩ := h
      exact ⟨fun p hp => absurd hp (by simp), hloc⟩
    | (key, f) :: rest =>
      simp only [updateStaged] at h
      obtain ⟨⟨f1, hit, u1⟩, e1, h⟩ := Outcome.bind_eq_ok h
      obtain ⟨-, s2, s3, -⟩ := applyMatches_spec e1
      have hrest : NearStore n rest := fun p hp => hl p (List.mem_cons_of_mem _ hp)
      have hf : Near n f1 := by
        have := hl (key, f) List.mem_cons_self
        unfold Near at this ⊢
        rw [s2, s3]; exact this
      have hs := near_settle hit hf
      dsimp only at h
      split at h
      · split at h
        · rename_i body _
          obtain ⟨⟨stg', l', u2⟩, e2, h⟩ := Outcome.bind_eq_ok h
          simp only [Outcome.ok.injEq, Prod.mk.injEq] at h
          obtain ⟨rfl, rfl, rfl⟩ := h
          have hp : Near (n + 1) (promoted (settle hit f1) body) := ⟨hs.1, hs.2.1, Nat.zero_le _⟩
          exact ih hrest (near_emplace hloc hp) e2
        · rename_i hnone
          obtain ⟨b, hb⟩ := hc (settle hit f1)
          rw [hb] at hnone; cases hnone
      · obtain ⟨⟨stg', l', u2⟩, e2, h⟩ := Outcome.bind_eq_ok h
        obtain ⟨b1, b2⟩ := ih hrest hloc e2
        dsimp only at h
        split at h
        · simp only [Outcome.ok.injEq, Prod.mk.injEq] at h
          obtain ⟨rfl, rfl, rfl⟩ := h
          exact ⟨b1, b2⟩
        · simp only [Outcome.ok.injEq, Prod.mk.injEq] at h
          obtain ⟨rfl, rfl, rfl⟩ := h
          refine ⟨fun p hp => ?_, b2⟩
          rcases List.mem_cons.1 hp with rfl | hp
          · exact hs
          · exact b1 p hp

theorem near_updateMap {k : Kind P D Env} (hc : ∀ f, ∃ b, k.promote f = some b) {env : Env} {det : List D}
    {fuel n : Nat} {s s' : State P} {used : List Nat} (hs : NearMap n s.map)
    (h : updateMap k fuel env det s = .ok (s', used)) : NearMap (n + 1) s'.map := by
  unfold updateMap at h
  split at h
  · simp only [Outcome.ok.injEq, Prod.mk.injEq] at h
    obtain ⟨rfl, -⟩ := h
    exact hs.mono (by omega)
  split at h
  · cases h
  obtain ⟨⟨loc, u1, wr⟩, e1, h⟩ := Outcome.bind_eq_ok h
  obtain ⟨⟨stg, loc', u2⟩, e2, h⟩ := Outcome.bind_eq_ok h
  simp only [Outcome.ok.injEq, Prod.mk.injEq] at h
  obtain ⟨rfl, -⟩ := h
  obtain ⟨b1, b2⟩ := near_updateStaged hc hs.2 (near_updateLocal hs.1 e1) e2
  exact ⟨b2, b1⟩

theorem near_stage {k : Kind P D Env} {env : Env} {det : List D} {n : Nat} {used : List Nat} {s s' : State P}
    (hs : NearMap n s.map) (h : stage k env det used s = .ok s') : NearMap n s'.map := by
  unfold stage at h
  split at h
  · injection h with h; subst h; exact hs
  split at h
  · cases h
  split at h
  · cases h
  · injection h with h
    obtain ⟨a1, a2, -, -⟩ := stageFrom_count k env used 0 det s
    rw [h] at a1 a2
    refine ⟨by rw [a1]; exact hs.1, fun p hp => ?_⟩
    rcases a2 p hp with hp | ⟨h1, h2⟩
    · exact hs.2 p hp
    · unfold Near; rw [h1, h2]; refine ⟨?_, ?_, ?_⟩ <;> omega

theorem near_missLocal {k : Kind P D Env} {n : Nat} {l : Store P} (hl : NearStore n l) :
    NearStore (n + 1) (missLocal k l).1 := by
  induction l with
  | nil => exact fun p hp => absurd hp (by simp [missLocal])
  | cons q l ih =>
    obtain ⟨key, f⟩ := q
    have hr := ih fun p hp => hl p (List.mem_cons_of_mem _ hp)
    simp only [missLocal]
    split
    · exact hr
    · intro p hp
      rcases List.mem_cons.1 hp with rfl | hp
      · exact near_settle false (hl (key, f) List.mem_cons_self)
      · exact hr p hp

theorem near_missStaged {k : Kind P D Env} {n : Nat} {l : Store P} (hl : NearStore n l) :
    NearStore (n + 1) (missStaged k l) := by
  induction l with
  | nil => exact fun p hp => absurd hp (by simp [missStaged])
  | cons q l ih =>
    obtain ⟨key, f⟩ := q
    have hr := ih fun p hp => hl p (List.mem_cons_of_mem _ hp)
    simp only [missStaged]
    split
    · exact hr
    · intro p hp
      rcases List.mem_cons.1 hp with rfl | hp
      · exact near_settle false (hl (key, f) List.mem_cons_self)
      · exact hr p hp

theorem near_noTracking {k : Kind P D Env} {n : Nat} {s : State P} (hs : NearMap n s.map) :
    NearMap (n + 1) (updateNoTracking k s).map := by
  unfold updateNoTracking
  split
  · exact hs.mono (by omega)
  · exact ⟨near_missLocal hs.1, near_missStaged hs.2⟩

theorem near_getUpgraded {k : Kind P D Env} {env : Env} {n : Nat} {m : FMap P} (hm : NearMap n m) :
    NearMap n (getUpgraded k env m).1 :=
  ⟨fun p hp => hm.1 p ((takeUpgraded_length k env m.localMap).1.subset hp),
    fun p hp => hm.2 p ((takeUpgraded_length k env m.staged).1.subset hp)⟩

theorem near_addUpgraded {k : Kind P D Env} {n : Nat} (h1 : 1 ≤ n) {us : List (Upgrade P)} {s : State P}
    (hs : NearMap n s.map) : NearMap n (addUpgraded k us s).1.map := by
  induction us generalizing s with
  | nil => exact hs
  | cons u us ih =>
    simp only [addUpgraded]
    split
    · split
      · exact ih hs
      · exact hs
      · exact ih ⟨near_emplace hs.1 (by refine ⟨?_, ?_, ?_⟩ <;> simp only <;> omega), hs.2⟩
    · exact ih hs

/-! ### All maps -/

theorem near_put {n : Nat} {w : World P} {t : FType} {s : State P} (hw : NearWorld n w) (hs : NearMap n s.map) :
    NearWorld n (w.put t s) := by
  intro u
  by_cases hu : u = t
  · subst hu; simpa [World.put] using hs
  · simpa [World.put, hu] using hw u

theorem eachMap_keeps {f : FType → World P → Outcome (World P × Bool)} {I : World P → Prop}
    (hf : ∀ t w w' b, I w → f t w = .ok (w', b) → I w') (ts : List FType) {w w' : World P} {b : Bool}
    (hw : I w) (h : eachMap f ts w = .ok (w', b)) : I w' := by
  induction ts generalizing w with
  | nil =>
    simp only [eachMap, Outcome.ok.injEq, Prod.mk.injEq] at h
    obtain ⟨rfl, -⟩ := h; exact hw
  | cons t ts ih =>
    obtain ⟨⟨w1, b1⟩, h1, h⟩ := Outcome.bind_eq_ok h
    have := hf t w w1 b1 hw h1
    dsimp only at h
    split at h
    · simp only [Outcome.ok.injEq, Prod.mk.injEq] at h
      obtain ⟨rfl, -⟩ := h; exact this
    · exact ih this h

theorem near_update {k : FType → Kind P D Env} (hc : ∀ t f, ∃ b, (k t).promote f = some b) {cov : Env → Bool}
    {fuel : Nat} {env : Env} {det : FType → List D} {out : List Match} {n : Nat} {w w' : World P} {b : Bool}
    (hw : NearWorld n w) (h : World.update k cov fuel env det out w = .ok (w', b)) : NearWorld (n + 1) w' := by
  unfold World.update at h
  split at h
  · simp only [Outcome.ok.injEq, Prod.mk.injEq] at h
    obtain ⟨rfl, -⟩ := h
    exact fun t => (hw t).mono (by omega)
  obtain ⟨⟨w1, b1⟩, h1, h⟩ := Outcome.bind_eq_ok h
  have h1' : NearWorld (n + 1) w1 := by
    obtain ⟨a, -, -⟩ := eachMap_each (Q := fun _ m => NearMap n m) (R := fun _ m => NearMap (n + 1) m)
      (R' := fun _ _ => True)
      (fun t v v' b' hq hv => by
        have put_same : ∀ s : State P, (v.put t s).maps t = s.map := fun s => by simp [World.put]
        have put_other : ∀ (s : State P) u, u ≠ t → (v.put t s).maps u = v.maps u := fun s u hu => by
          simp [World.put, hu]
        unfold World.updateOne at hv
        split at hv
        · rename_i s used hu
          have hn := near_updateMap (hc t) (s := v.view t) hq hu
          split at hv
          · rename_i s' hs
            simp only [Outcome.ok.injEq, Prod.mk.injEq] at hv
            obtain ⟨rfl, rfl⟩ := hv
            exact ⟨by rw [put_same]; exact near_stage hn hs, fun _ => trivial, put_other s'⟩
          · simp only [Outcome.ok.injEq, Prod.mk.injEq] at hv
            obtain ⟨rfl, rfl⟩ := hv
            exact ⟨by rw [put_same]; exact hn, fun _ => trivial, put_other s⟩
          all_goals cases hv
        · simp only [Outcome.ok.injEq, Prod.mk.injEq] at hv
          obtain ⟨rfl, rfl⟩ := hv
          exact ⟨NearMap.mono (by omega) hq, fun _ => trivial, fun _ _ => rfl⟩
        all_goals cases hv)
      (fun t m hq => hq.mono (by omega)) order order_nodup _ w1 b1
      (fun t _ => by
        rw [markOutliers_maps _ _ order_nodup, if_pos (mem_order t)]
        obtain ⟨x1, x2, -⟩ := markOutliers_core t out (w.maps t)
        exact ⟨nearStore_core x1 (hw t).1, nearStore_core x2 (hw t).2⟩) h1
    exact fun t => a t (mem_order t)
  dsimp only at h
  split at h
  · simp only [Outcome.ok.injEq, Prod.mk.injEq] at h
    obtain ⟨rfl, -⟩ := h
    exact h1'
  · refine eachMap_keeps (I := NearWorld (n + 1)) (fun t v v' b' hv hu => ?_) order h1' h
    simp only [World.upgradeOne] at hu
    refine eachMap_keeps (I := NearWorld (n + 1)) (fun t' x x' b'' hx hxo => ?_) order
      (near_put hv (near_getUpgraded (hv t))) hu
    simp only [World.offer, Outcome.ok.injEq, Prod.mk.injEq] at hxo
    obtain ⟨rfl, -⟩ := hxo
    exact near_put hx (near_addUpgraded (by omega) (s := x.view t') (hx t'))

theorem near_addAll {k : FType → Kind P D Env} {cov : Env → Bool} {env : Env} {det : FType → List D} {n : Nat}
    {w w' : World P} {b : Bool} (hw : NearWorld n w) (h : World.addAll k cov env det w = .ok (w', b)) :
    NearWorld n w' := by
  unfold World.addAll at h
  split at h
  · simp only [Outcome.ok.injEq, Prod.mk.injEq] at h
    obtain ⟨rfl, -⟩ := h; exact hw
  · refine eachMap_keeps (I := NearWorld n) (fun t v v' b' hv hu => ?_) order hw h
    unfold World.addOne at hu
    split at hu
    · rename_i s hs
      simp only [Outcome.ok.injEq, Prod.mk.injEq] at hu
      obtain ⟨rfl, -⟩ := hu
      exact near_put hv (near_stage (s := v.view t) (hv t) hs)
    · simp only [Outcome.ok.injEq, Prod.mk.injEq] at hu
      obtain ⟨rfl, -⟩ := hu; exact hv
    all_goals cases hu

theorem near_step {k : FType → Kind P D Env} (hc : ∀ t f, ∃ b, (k t).promote f = some b) {cov : Env → Bool}
    {op : WOp D Env} {n : Nat} {w w' : World P} (hw : NearWorld n w) (h : World.step k cov op w = .ok w') :
    NearWorld (n + if counts op then 1 else 0) w' := by
  cases op with
  | find lt env det =>
    simp only [World.step, Outcome.ok.injEq] at h
    subst h
    intro t
    rw [find_maps _ _ _ _ _ order_nodup, if_pos (mem_order t)]
    obtain ⟨x1, x2, -⟩ := getMatches_core (k t) env (det t) (w.maps t)
    exact ⟨nearStore_core x1 (hw t).1, nearStore_core x2 (hw t).2⟩
  | update fuel env det out =>
    simp only [World.step] at h
    cases hu : World.update k cov fuel env det out w with
    | ok r =>
      rw [hu] at h
      simp only [Outcome.map, Outcome.bind_ok, Outcome.ok.injEq] at h
      subst h
      exact near_update hc (b := r.2) hw hu
    | _ => rw [hu] at h; cases h
  | noPose =>
    simp only [World.step, Outcome.ok.injEq] at h
    subst h
    have gen : ∀ (ts : List FType), ts.Nodup → ∀ v : World P, (∀ t, NearMap (n + 1) (v.maps t)) →
        (∀ t ∈ ts, NearMap n (v.maps t)) → NearWorld (n + 1) (v.noPose k ts) := by
      intro ts
      induction ts with
      | nil => exact fun _ v hv _ => hv
      | cons t ts ih =>
        intro hn v hv hq
        rw [List.nodup_cons] at hn
        refine ih hn.2 _ (near_put hv (near_noTracking (s := v.view t) (hq t List.mem_cons_self)))
          fun u hu => ?_
        have hne : u ≠ t := fun e => hn.1 (e ▸ hu)
        have : (v.put t (updateNoTracking (k t) (v.view t))).maps u = v.maps u := by simp [World.put, hne]
        rw [this]; exact hq u (List.mem_cons_of_mem _ hu)
    exact gen order order_nodup w (fun t => (hw t).mono (by omega)) fun t _ => hw t
  | addAll env det =>
    simp only [World.step] at h
    cases hu : World.addAll k cov env det w with
    | ok r =>
      rw [hu] at h
      simp only [Outcome.map, Outcome.bind_ok, Outcome.ok.injEq] at h
      subst h
      exact near_addAll (b := r.2) hw hu
    | _ => rw [hu] at h; cases h
  | reset =>
    simp only [World.step, Outcome.ok.injEq] at h
    subst h
    have gen : ∀ (ts : List FType) (v : World P), NearWorld n v → NearWorld n (v.reset ts) := by
      intro ts
      induction ts with
      | nil => exact fun v hv => hv
      | cons t ts ih =>
        intro v hv
        refine ih _ (near_put hv ?_)
        simp only [Map.reset]
        split
        · exact hv t
        · exact ⟨fun p hp => absurd hp (by simp), fun p hp => absurd hp (by simp)⟩
    exact gen order w hw
  | rehash t a b =>
    simp only [World.step, Map.step, Outcome.map, Outcome.bind_ok, Outcome.ok.injEq] at h
    subst h
    exact near_put hw ⟨fun p hp => (hw t).1 p ((a.perm _).subset hp),
      fun p hp => (hw t).2 p ((b.perm _).subset hp)⟩

theorem near_run {k : FType → Kind P D Env} (hc : ∀ t f, ∃ b, (k t).promote f = some b) {cov : Env → Bool}
    {ops : List (WOp D Env)} {n : Nat} {w w' : World P} (hw : NearWorld n w)
    (h : World.run k cov ops w = .ok w') : NearWorld (n + updates ops) w' := by
  induction ops generalizing n w with
  | nil =>
    simp only [World.run, Outcome.ok.injEq] at h
    subst h; exact hw
  | cons op ops ih =>
    simp only [World.run] at h
    obtain ⟨w1, h1, h⟩ := Outcome.bind_eq_ok h
    have := ih (near_step hc hw h1) h
    have e : n + (if counts op then 1 else 0) + updates ops = n + updates (op :: ops) := by
      simp only [updates, List.countP_cons]; omega
    rwa [e] at this

/-- After any history of calls with `n` updates, the count of matches of a feature is between `-n` and `n`
and its count of misses at most `n`.  (Copying a candidate into the map does not throw.) -/
theorem C209_counters (o2 o1 : PointOps P D Env) (op : PlaneOps P D Env)
    (c2 : ∀ b, ∃ b', o2.copy b = some b') (c1 : ∀ b, ∃ b', o1.copy b = some b')
    (cp : ∀ b, ∃ b', op.copy b = some b') (cov : Env → Bool) (ops : List (WOp D Env)) (w : World P)
    (h : World.run (programKinds o2 o1 op) cov ops World.init = .ok w) (t : FType) :
    ∀ f ∈ Spec.features w t, -(updates ops : Int) ≤ f.succ ∧ f.succ ≤ updates ops ∧ f.failed ≤ updates ops := by
  have hc : ∀ t (f : Feat P), ∃ b, (programKinds o2 o1 op t).promote f = some b := by
    intro t f
    cases t
    · exact c2 f.body
    · exact c1 f.body
    · exact cp f.body
  have h0 : NearWorld 0 (World.init : World P) :=
    fun t => ⟨fun p hp => absurd hp (by simp [World.init, FMap.empty]),
      fun p hp => absurd hp (by simp [World.init, FMap.empty])⟩
  have hn := near_run hc h0 h t
  rw [Nat.zero_add] at hn
  intro f hf
  obtain ⟨p, hp, rfl⟩ := List.mem_map.1 hf
  rcases List.mem_append.1 hp with hp | hp
  · exact hn.1 p hp
  · exact hn.2 p hp

/-- In a run with at most 2147483647 updates no counter of the map overflows: just before an update, one more
match and one more miss of any feature still fit in its counters. -/
theorem C209_no_overflow (o2 o1 : PointOps P D Env) (op : PlaneOps P D Env)
    (c2 : ∀ b, ∃ b', o2.copy b = some b') (c1 : ∀ b, ∃ b', o1.copy b = some b')
    (cp : ∀ b, ∃ b', op.copy b = some b') (cov : Env → Bool) (past next : List (WOp D Env)) (call : WOp D Env)
    (hcall : counts call = true) (hn : updates (past ++ call :: next) ≤ 2 ^ 31 - 1) (w : World P)
    (h : World.run (programKinds o2 o1 op) cov past World.init = .ok w) (t : FType) (f : Feat P)
    (hf : f ∈ Spec.features w t) :
    FitsInt (f.succ + 1) ∧ FitsInt (f.succ - 1) ∧ FitsSize (f.failed + 1) := by
  obtain ⟨h1, h2, h3⟩ := C209_counters o2 o1 op c2 c1 cp cov past w h t f hf
  have e : updates (past ++ call :: next) = updates past + (updates next + 1) := by
    simp [updates, List.countP_append, hcall]
  rw [e] at hn
  refine ⟨⟨?_, ?_⟩, ⟨?_, ?_⟩, (?_ : f.failed + 1 < 2 ^ 64)⟩ <;> omega

/-! ### One point seen in every frame -/

namespace Seen

/-- Geometry where the only keypoint is the point of the map. -/
def o : PointOps Unit Unit Unit where
  isMoving _ := false
  isVisible _ _ := true
  trackIndex _ _ _ := some 0
  onScreen _ _ := true
  window _ _ _ _ _ := []
  update _ _ _ := .ok ((), true)
  hasDescriptor _ := true
  depthValid _ := true
  build _ _ := some ()
  copy _ := some ()
  upgrade _ _ := none
  buildUpgraded _ := some ()
  covValid _ := true

def op : PlaneOps Unit Unit Unit where
  isVisible _ _ := true
  projectedArea _ _ := 0
  similar _ _ _ := false
  interArea _ _ _ := 0
  detectedArea _ := 0
  update _ _ _ := .ok ((), true)
  build _ _ := some ()
  copy _ := some ()
  covValid _ := true

/-- One keypoint with depth in each frame, no plane. -/
def dets : FType → List Unit
  | .plane => []
  | _ => [()]

/-- A frame of the run: matching, then update with the pose found. -/
def frame : List (WOp Unit Unit) := [.find (fun _ _ => false) () dets, .update 1 () dets []]

/-- The first frame: the map is empty and gets the keypoint. -/
def first : List (WOp Unit Unit) := [.find (fun _ _ => false) () dets, .addAll () dets]

/-- The whole run. -/
def history : Nat → List (WOp Unit Unit)
  | 0 => first
  | n + 1 => history n ++ frame

def world (loc stg : Store Unit) : World Unit where
  maps
    | .point2d => ⟨true, [], [], [false]⟩
    | .point => ⟨true, loc, stg, [true]⟩
    | .plane => ⟨true, [], [], []⟩
  alloc := ⟨1, 1⟩
  written _ := []

theorem world_ext {w : World Unit} {loc stg : Store Unit}
    (h2 : w.maps .point2d = ⟨true, [], [], [false]⟩) (h1 : w.maps .point = ⟨true, loc, stg, [true]⟩)
    (hp : w.maps .plane = ⟨true, [], [], []⟩) (ha : w.alloc = ⟨1, 1⟩) (hw : ∀ t, w.written t = []) :
    w = world loc stg := by
  cases w
  simp only [world, World.mk.injEq]
  refine ⟨?_, ha, funext hw⟩
  funext t
  cases t
  · exact h2
  · exact h1
  · exact hp

theorem frame_local (n : Int) (idx : List Nat) :
    World.run (programKinds o o op) (fun _ => true) frame (world [(1, ⟨1, 0, n, idx, ()⟩)] []) =
      .ok (world [(1, ⟨1, 0, n + 1, [0], ()⟩)] []) :=
  congrArg Outcome.ok (world_ext rfl rfl rfl rfl fun t => by cases t <;> rfl)

theorem history_three : World.run (programKinds o o op) (fun _ => true) (history 3) World.init =
    .ok (world [(1, ⟨1, 0, 3, [0], ()⟩)] []) := by
  have h : (match World.run (programKinds o o op) (fun _ => true) (history 3) World.init with
      | .ok w => decide (w.maps .point2d = ⟨true, [], [], [false]⟩ ∧
          w.maps .point = ⟨true, [(1, ⟨1, 0, 3, [0], ()⟩)], [], [true]⟩ ∧
          w.maps .plane = ⟨true, [], [], []⟩ ∧ w.alloc = ⟨1, 1⟩ ∧
          w.written .point2d = [] ∧ w.written .point = [] ∧ w.written .plane = [])
      | _ => false) = true := by decide +kernel
  split at h
  · rename_i w hw
    obtain ⟨h2, h1, hp, ha, w2, w1, wp⟩ := of_decide_eq_true h
    rw [hw, world_ext h2 h1 hp ha fun t => by cases t <;> assumption]
  · cases h

theorem run_append {k : FType → Kind P D Env} {cov : Env → Bool} (a b : List (WOp D Env)) (w : World P) :
    World.run k cov (a ++ b) w = (World.run k cov a w).bind (World.run k cov b) := by
  induction a generalizing w with
  | nil => rfl
  | cons x a ih =>
    simp only [List.cons_append, World.run]
    cases World.step k cov x w with
    | ok v => exact ih v
    | _ => rfl

theorem history_run (n : Nat) : World.run (programKinds o o op) (fun _ => true) (history (n + 3)) World.init =
    .ok (world [(1, ⟨1, 0, (n + 3 : Nat), [0], ()⟩)] []) := by
  induction n with
  | zero => exact history_three
  | succ n ih =>
    show World.run _ _ (history (n + 3) ++ frame) _ = _
    rw [run_append, ih, Outcome.bind_ok, frame_local]
    congr 5

theorem updates_history (n : Nat) : updates (history n) = n := by
  induction n with
  | zero => decide
  | succ n ih =>
    have : updates frame = 1 := by decide
    simp only [updates] at ih this ⊢
    simp only [history, List.countP_append, ih, this]

end Seen

/-- The bound is the best one: when a point is matched in each of 2147483647 frames, its count of matches is the
greatest value of `int`, and the next match overflows it (undefined behaviour). -/
theorem C209_overflow :
    ∃ (past : List (WOp Unit Unit)) (w : World Unit) (f : Feat Unit),
      updates past = 2 ^ 31 - 1 ∧
      World.run (programKinds Seen.o Seen.o Seen.op) (fun _ => true) past World.init = .ok w ∧
      f ∈ Spec.features w .point ∧ ¬ FitsInt (f.succ + 1) ∧
      ∃ w' f', World.run (programKinds Seen.o Seen.o Seen.op) (fun _ => true) Seen.frame w = .ok w' ∧
        f' ∈ Spec.features w' .point ∧ f'.succ = f.succ + 1 := by
  refine ⟨Seen.history (2147483644 + 3), _, ⟨1, 0, ((2147483644 + 3 : Nat) : Int), [0], ()⟩, ?_,
    Seen.history_run 2147483644, ?_, ?_, _, ⟨1, 0, ((2147483644 + 3 : Nat) : Int) + 1, [0], ()⟩,
    Seen.frame_local _ _, ?_, rfl⟩
  · rw [Seen.updates_history]
  · exact List.mem_cons_self
  · rintro ⟨-, h⟩; revert h; decide
  · exact List.mem_cons_self

/-- Non-vacuity: three frames seen, one candidate that became a map point, three matches. -/
example : ∃ w, World.run (programKinds Seen.o Seen.o Seen.op) (fun _ => true) (Seen.history 3) World.init = .ok w ∧
    (Spec.features w .point).map (·.succ) = [3] ∧ updates (Seen.history 3) = 3 :=
  ⟨_, Seen.history_three, rfl, Seen.updates_history 3⟩

end RgbdSlam.Map.LongRuns
