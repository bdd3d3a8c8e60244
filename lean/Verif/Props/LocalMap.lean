import Verif.Lemmas.System
import Verif.Spec.LocalMap
import Verif.Props.MapMatching
/-
The local map as a whole: C12 (rejected updates), C21 (upgrades), C62 (ids over all maps, each map on its
own), C63 (the match list), C64 (a keypoint matched in one map can be a new candidate in another), C65
(the frame loop never leaves the detections nor dies in the map).
-/
namespace RgbdSlam.Map

variable {P D Env : Type}

theorem programKinds_type (o2 o1 : PointOps P D Env) (op : PlaneOps P D Env) (t : FType) :
    (programKinds o2 o1 op t).type = t := by cases t <;> rfl

theorem holds_ok {α : Type} {x : Outcome α} {p : α → Bool} (h : x.holds p = true) :
    ∃ a, x = .ok a ∧ p a = true := by
  cases x with
  | ok a => exact ⟨a, rfl, h⟩
  | _ => cases h

/-! ### A small concrete world for the examples -/

def demoPlaneOps : PlaneOps Nat Nat Unit where
  isVisible := fun _ _ => true
  projectedArea := fun _ _ => 1
  similar := fun _ b d => b == d
  interArea := fun _ _ _ => 1
  detectedArea := fun _ => 1
  update := fun _ _ b => .ok (b, true)
  build := fun _ d => some d
  copy := fun b => some b
  covValid := fun _ => true

/-- Detections from 100 on have no valid depth. -/
def demoOps2 : PointOps Nat Nat Unit :=
  { demoOps with
    depthValid := fun d => decide (d < 100)
    upgrade := fun _ b => if b = 150 then some 51 else none }

def demoKinds : FType → Kind Nat Nat Unit :=
  programKinds demoOps2 { demoOps with depthValid := fun d => decide (d < 100) } demoPlaneOps

def demoDets : FType → List Nat
  | .plane => [3, 4]
  | _ => [7, 8, 150, 160]

def demoTurn : List (WOp Nat Unit) :=
  [.find (fun _ _ => false) () demoDets, .update 100 () demoDets []]

/-- A history of the demonstration: the first frame fills the map. -/
def demoStart : List (WOp Nat Unit) :=
  [.find (fun _ _ => false) () demoDets, .noPose, .addAll () demoDets]

def demoRun (n : Nat) : Outcome (World Nat) :=
  World.run demoKinds (fun _ => true) (demoStart ++ (List.replicate n demoTurn).flatten) World.init

/-! ### C12 -/

theorem stage_throws {k : Kind P D Env} {env : Env} {det : List D} {used : List Nat} {s : State P}
    (hc : k.covValid env = true) : stage k env det used s ≠ .throws := by
  unfold stage
  simp only [hc, Bool.not_true, Bool.false_eq_true, if_false]
  split
  · simp
  · split <;> simp

theorem bind_throws {α β : Type} {x : Outcome α} {f : α → Outcome β} (hx : x ≠ .throws)
    (hf : ∀ a, f a ≠ .throws) : x.bind f ≠ .throws := by
  cases x with
  | ok a => exact hf a
  | throws => exact absurd rfl hx
  | _ => simp [Outcome.bind]

theorem applyMatches_throws {k : Kind P D Env} (env : Env) (det : List D) (all : Bool) (is : List Nat)
    (f : Feat P) : applyMatches k env det all is f ≠ .throws := by
  induction is generalizing f with
  | nil => simp [applyMatches]
  | cons i is ih =>
    simp only [applyMatches]
    split
    · simp
    · rename_i d _
      refine bind_throws ?_ fun r => bind_throws (ih _) fun q => by simp
      cases hu : k.updateWith env d f <;> simp [Outcome.noexcept]

theorem updateLocal_throws {k : Kind P D Env} (env : Env) (det : List D) (l : Store P) :
    updateLocal k env det l ≠ .throws := by
  induction l with
  | nil => simp [updateLocal]
  | cons p l ih =>
    obtain ⟨key, f⟩ := p
    simp only [updateLocal]
    refine bind_throws (applyMatches_throws _ _ _ _ _) fun r => bind_throws ih fun q => ?_
    split <;> simp

theorem updateStaged_throws {k : Kind P D Env} (env : Env) (det : List D) (n : Nat) (l loc : Store P) :
    updateStaged k env det n l loc ≠ .throws := by
  induction n generalizing l loc with
  | zero => cases l <;> simp [updateStaged]
  | succ n ih =>
    cases l with
    | nil => simp [updateStaged]
    | cons p l =>
      obtain ⟨key, f⟩ := p
      simp only [updateStaged]
      refine bind_throws (applyMatches_throws _ _ _ _ _) fun r => ?_
      split
      · split
        · exact bind_throws (ih _ _) fun q => by simp
        · exact bind_throws (ih _ _) fun q => by simp
      · refine bind_throws (ih _ _) fun q => ?_
        split <;> simp

theorem updateMap_throws {k : Kind P D Env} {fuel : Nat} {env : Env} {det : List D} {s : State P}
    (hc : k.covValid env = true) : updateMap k fuel env det s ≠ .throws := by
  unfold updateMap
  simp only [hc, Bool.not_true, Bool.false_eq_true, if_false]
  split
  · simp
  · exact bind_throws (updateLocal_throws _ _ _) fun r => bind_throws (updateStaged_throws _ _ _ _ _)
      fun q => by simp

theorem eachMap_quiet {f : FType → World P → Outcome (World P × Bool)}
    (hf : ∀ t w r, f t w = .ok r → r.2 = false) (ts : List FType) (w : World P) {r : World P × Bool}
    (h : eachMap f ts w = .ok r) : r.2 = false := by
  induction ts generalizing w with
  | nil => injection h with h; rw [← h]
  | cons t ts ih =>
    obtain ⟨⟨w', b⟩, h1, h⟩ := Outcome.bind_eq_ok h
    have : b = false := hf _ _ _ h1
    subst this
    exact ih w' h

theorem updateOne_quiet {k : FType → Kind P D Env} {fuel : Nat} {env : Env} {det : FType → List D}
    (hc : ∀ t, (k t).covValid env = true) (t : FType) (w : World P) {r : World P × Bool}
    (h : World.updateOne k fuel env det t w = .ok r) : r.2 = false := by
  unfold World.updateOne at h
  cases hu : updateMap (k t) fuel env (det t) (w.view t) with
  | ok q =>
    obtain ⟨s, used⟩ := q
    simp only [hu] at h
    cases hs : stage (k t) env (det t) used s with
    | ok s' => simp only [hs] at h; injection h with h; rw [← h]
    | throws => exact absurd hs (stage_throws (hc t))
    | _ => simp only [hs] at h; cases h
  | throws => exact absurd hu (updateMap_throws (hc t))
  | _ => simp only [hu] at h; cases h

/-- Rejected for an invalid covariance of the pose, `update` throws and nothing at all has changed:
features, matches, flags, ids and what was written. -/
theorem C12_update_rejected_unchanged (k : FType → Kind P D Env) (cov : Env → Bool) (fuel : Nat) (env : Env)
    (det : FType → List D) (outliers : List Match) (w : World P) (hc : cov env = false) :
    w.update k cov fuel env det outliers = .ok (w, true) := by
  simp [World.update, hc]

/-- The same for `add_all_features_to_map`. -/
theorem C12_add_all_rejected_unchanged (k : FType → Kind P D Env) (cov : Env → Bool) (env : Env)
    (det : FType → List D) (w : World P) (hc : cov env = false) :
    w.addAll k cov env det = .ok (w, true) := by
  simp [World.addAll, hc]

/-- `add_all_features_to_map` throws for no other reason. -/
theorem C12_add_all_throws_iff (k : FType → Kind P D Env) (cov : Env → Bool)
    (hk : ∀ t env, (k t).covValid env = cov env) (env : Env) (det : FType → List D) (w w' : World P)
    (threw : Bool) (h : w.addAll k cov env det = .ok (w', threw)) :
    threw = true ↔ cov env = false := by
  cases hc : cov env with
  | false => rw [C12_add_all_rejected_unchanged k cov env det w hc] at h; simp_all
  | true =>
    simp only [World.addAll, hc, Bool.not_true, Bool.false_eq_true, if_false] at h
    have := eachMap_quiet (f := World.addOne k env det) (by
      intro t w r h
      unfold World.addOne at h
      cases hs : stageAll (k t) env (det t) (w.view t) with
      | ok s' => simp only [hs] at h; injection h with h; rw [← h]
      | throws => exact absurd hs (stage_throws (by rw [hk]; exact hc))
      | _ => simp only [hs] at h; cases h) order w h
    simp only at this
    simp [this]

/-- If the covariance is valid, the only other exception of `update` comes from the construction of an
upgraded point: when none fails, `update` does not throw. -/
theorem C12_update_no_other_exception (k : FType → Kind P D Env) (cov : Env → Bool)
    (hk : ∀ t env, (k t).covValid env = cov env) (hb : ∀ t u, (k t).accept u ≠ .throws)
    (fuel : Nat) (env : Env) (det : FType → List D) (outliers : List Match) (w w' : World P)
    (threw : Bool) (h : w.update k cov fuel env det outliers = .ok (w', threw)) :
    threw = true ↔ cov env = false := by
  cases hc : cov env with
  | false => rw [C12_update_rejected_unchanged k cov fuel env det outliers w hc] at h; simp_all
  | true =>
    simp only [World.update, hc, Bool.not_true, Bool.false_eq_true, if_false] at h
    obtain ⟨⟨w1, b⟩, h1, h⟩ := Outcome.bind_eq_ok h
    have hq := eachMap_quiet (fun t w r => updateOne_quiet (fun t => by rw [hk]; exact hc) t w) order _ h1
    simp only at hq
    subst hq
    have hup : ∀ (k : Kind P D Env), (∀ u, k.accept u ≠ .throws) → ∀ us (s : State P),
        (addUpgraded k us s).2.2 = false := by
      intro k hk us
      induction us with
      | nil => intro s; rfl
      | cons u us ih =>
        intro s
        simp only [addUpgraded]
        split
        · split
          · exact ih s
          · rename_i ha; exact absurd ha (hk u)
          · exact ih _
        · exact ih s
    have := eachMap_quiet (f := World.upgradeOne k env order) (by
      intro t w r h
      refine eachMap_quiet (f := World.offer k _) (fun t w r h => ?_) order _ h
      injection h with h
      rw [← h]
      exact hup (k t) (hb t) _ _) order w1 h
    simp only at this
    simp [this]


/-- The kinds of the demonstration, but no 3D point can be built from an upgrade. -/
def brokenKinds : FType → Kind Nat Nat Unit :=
  programKinds demoOps2 { demoOps with buildUpgraded := fun _ => none } demoPlaneOps

/-- Sizes of the maps: map features, candidates, written. -/
def sizes (w : World Nat) : List (List Nat) :=
  order.map fun t => [(w.maps t).localMap.length, (w.maps t).staged.length, (w.written t).length]

/-- When building an upgraded point throws in the middle of `update`, the exception leaves a half done
update: the 2D point that converged is gone, no 3D point has come, and the other features have been
updated. -/
theorem C12_late_exception_leaves_changes :
    ∃ (ops : List (WOp Nat Unit)) (w w' : World Nat),
      World.run brokenKinds (fun _ => true) ops World.init = .ok w ∧
      w.update brokenKinds (fun _ => true) 100 () demoDets [] = .ok (w', true) ∧
      150 ∈ (features (w.view .point2d)).map (·.body) ∧
      150 ∉ (features (w'.view .point2d)).map (·.body) ∧
      (features (w'.view .point)).map (·.body) = (features (w.view .point)).map (·.body) ∧
      (features (w'.view .point)).map (·.succ) ≠ (features (w.view .point)).map (·.succ) := by
  have h : ((World.run brokenKinds (fun _ => true)
      (demoStart ++ [.find (fun _ _ => false) () demoDets]) World.init).holds fun w =>
      (w.update brokenKinds (fun _ => true) 100 () demoDets []).holds fun r => r.2 && decide
        (150 ∈ (features (w.view .point2d)).map (·.body) ∧
        150 ∉ (features (r.1.view .point2d)).map (·.body) ∧
        (features (r.1.view .point)).map (·.body) = (features (w.view .point)).map (·.body) ∧
        (features (r.1.view .point)).map (·.succ) ≠ (features (w.view .point)).map (·.succ))) = true := by
    decide +kernel
  obtain ⟨w, hw, h⟩ := holds_ok h
  obtain ⟨⟨w', b⟩, hu, h⟩ := holds_ok h
  rw [Bool.and_eq_true, decide_eq_true_eq] at h
  obtain ⟨rfl, h⟩ := h
  exact ⟨_, w, w', hw, hu, h⟩

example : ((demoRun 0).holds fun w => sizes w == [[0, 2, 0], [0, 2, 0], [0, 2, 0]]) = true := by
  decide +kernel

example : ((demoRun 4).holds fun w => sizes w == [[1, 0, 0], [6, 0, 0], [1, 2, 0]]) = true := by
  decide +kernel

/-! ### C21 -/

theorem addUpgraded_skip {k : Kind P D Env} {us : List (Upgrade P)} (h : ∀ u ∈ us, u.type ≠ k.type)
    (s : State P) : addUpgraded k us s = (s, 0, false) := by
  induction us with
  | nil => rfl
  | cons u us ih =>
    rw [addUpgraded, if_neg (h u List.mem_cons_self), ih fun v hv => h v (List.mem_cons_of_mem _ hv)]

theorem takeUpgraded_nothing {k : Kind P D Env} {env : Env} (h : ∀ f, k.upgrade env f = none) (l : Store P) :
    takeUpgraded k env l = (l, []) := by
  induction l with
  | nil => rfl
  | cons p l ih =>
    obtain ⟨key, f⟩ := p
    simp [takeUpgraded, h, ih]

theorem takeUpgraded_spec (o2 : PointOps P D Env) (env : Env) (l : Store P) :
    takeUpgraded (point2dKind o2) env l = (staying o2 env l,
      l.filterMap fun p => (o2.upgrade env p.2.body).map fun b => ⟨.point, b, p.2.matched⟩) := by
  induction l with
  | nil => rfl
  | cons p l ih =>
    obtain ⟨key, f⟩ := p
    have hk : (point2dKind o2).upgrade env f =
        (o2.upgrade env f.body).map fun b => ⟨.point, b, f.matched⟩ := rfl
    simp only [takeUpgraded, ih, hk]
    cases hb : o2.upgrade env f.body with
    | none => simp [staying, hb]
    | some b => simp [staying, hb]

theorem converged_append (o2 o1 : PointOps P D Env) (env : Env) (a b : List (Feat P)) :
    converged o2 o1 env (a ++ b) = converged o2 o1 env a ++ converged o2 o1 env b := by
  simp [converged]

/-- The point map after the upgrades of some 2D points were offered to it. -/
theorem addUpgraded_points (o2 o1 : PointOps P D Env) (env : Env) (fs : List (Feat P))
    (hb : UpgradesBuild o2 o1 env fs) (s : State P) (hi : Inv s)
    (hlt : s.alloc.given + (converged o2 o1 env fs).length < 2 ^ 64) :
    let r := addUpgraded (pointKind o1)
      (fs.filterMap fun f => (o2.upgrade env f.body).map fun b => ⟨.point, b, f.matched⟩) s
    r.1.map = { s.map with
      localMap := s.map.localMap ++ freshFrom (s.alloc.given + 1) (converged o2 o1 env fs) } ∧
    r.1.alloc.given = s.alloc.given + (converged o2 o1 env fs).length ∧
    r.1.written = s.written ∧ r.2.2 = false := by
  induction fs generalizing s with
  | nil => simp [addUpgraded, converged, freshFrom]
  | cons f fs ih =>
    have hb' : UpgradesBuild o2 o1 env fs := fun g hg => hb g (List.mem_cons_of_mem _ hg)
    cases hu : o2.upgrade env f.body with
    | none =>
      have : converged o2 o1 env (f :: fs) = converged o2 o1 env fs := by simp [converged, hu]
      rw [this] at hlt ⊢
      simp only [List.filterMap_cons, hu, Option.map_none]
      exact ih hb' s hi hlt
    | some b =>
      cases hc : o1.buildUpgraded b with
      | none => exact absurd hc (hb f List.mem_cons_self b hu)
      | some c =>
        have : converged o2 o1 env (f :: fs) = (c, f.matched) :: converged o2 o1 env fs := by
          simp [converged, hu, hc]
        rw [this] at hlt ⊢
        simp only [List.length_cons] at hlt ⊢
        simp only [List.filterMap_cons, hu, Option.map_some]
        have hlast : s.alloc.next.last = s.alloc.given + 1 := by
          have h1 := Alloc.ok_next hi.alloc (by rw [Alloc.given_next]; omega)
          rw [h1, Alloc.given_next]
        have hfresh : s.alloc.next.last ∉ keys s.map.localMap := by
          intro h
          have := (hi.range _ (List.mem_append_left _ h)).2
          omega
        have hstep : step (pointKind o1) (.addUpgrades [⟨.point, b, f.matched⟩]) s = .ok
            { s with alloc := s.alloc.next,
                     map := { s.map with
                       localMap := s.map.localMap ++
                         [(s.alloc.given + 1, ⟨s.alloc.given + 1, 0, 1, f.matched, c⟩)] } } := by
          simp only [step, addUpgraded, pointKind, if_true, hc]
          rw [emplace_of_not_mem hfresh, hlast]
        have hi' := inv_step hi hstep (by simp only [Alloc.next]; omega)
        obtain ⟨h1, h2, h3, h4⟩ := ih hb' _ hi' (by simp only [Alloc.next]; omega)
        simp only [addUpgraded, pointKind, if_true, hc] at h1 h2 h3 h4 ⊢
        rw [emplace_of_not_mem hfresh, hlast]
        refine ⟨?_, ?_, ?_, ?_⟩
        · rw [h1]; simp [freshFrom, Alloc.next]
        · rw [h2]; simp [Alloc.next]; omega
        · rw [h3]
        · rw [h4]

/-- Every converged point leaves its map and one new 3D map point comes for it: sizes add up. -/
theorem staying_length (o2 o1 : PointOps P D Env) (env : Env) (l : Store P)
    (hb : UpgradesBuild o2 o1 env (l.map (·.2))) :
    (staying o2 env l).length + (converged o2 o1 env (l.map (·.2))).length = l.length := by
  induction l with
  | nil => rfl
  | cons p l ih =>
    have ih := ih fun f hf => hb f (List.mem_cons_of_mem _ hf)
    cases hu : o2.upgrade env p.2.body with
    | none =>
      simp only [staying, converged, List.filter_cons, List.map_cons, List.filterMap_cons, hu,
        Option.isNone_none, if_true, List.length_cons, Option.bind_none, Option.map_none] at ih ⊢
      omega
    | some b =>
      cases hc : o1.buildUpgraded b with
      | none => exact absurd hc (hb p.2 List.mem_cons_self b hu)
      | some c =>
        simp [staying, converged, hu, hc]
          at ih ⊢
        omega

theorem offer_skip {k : FType → Kind P D Env} {us : List (Upgrade P)} {t : FType}
    (h : ∀ u ∈ us, u.type ≠ (k t).type) (w : World P) :
    World.offer k us t w = .ok (w, false) := by
  simp only [World.offer, addUpgraded_skip h, put_view]

/-- From any reachable state, in the upgrade phase of an update whose upgrades can all be built: the 2D
points that converge, and only these, leave the 2D map; for each one a 3D map point appears, with the
next fresh id, one match and the detections of the 2D point; nothing else changes. -/
theorem C21_upgraded_points_move_partial (o2 o1 : PointOps P D Env) (op : PlaneOps P D Env) (cov : Env → Bool)
    (ops : List (WOp D Env)) (w : World P)
    (hr : World.run (programKinds o2 o1 op) cov ops World.init = .ok w) (env : Env)
    (hb : UpgradesBuild o2 o1 env (features (w.view .point2d)))
    (hlt : w.alloc.given + (converged o2 o1 env (features (w.view .point2d))).length < 2 ^ 64) :
    ∃ w', World.upgrade (programKinds o2 o1 op) env w = .ok (w', false) ∧
      w'.maps .point2d = { w.maps .point2d with
        localMap := staying o2 env (w.maps .point2d).localMap
        staged := staying o2 env (w.maps .point2d).staged } ∧
      w'.maps .point = { w.maps .point with
        localMap := (w.maps .point).localMap ++
          freshFrom (w.alloc.given + 1) (converged o2 o1 env (features (w.view .point2d))) } ∧
      w'.maps .plane = w.maps .plane ∧ w'.written = w.written ∧
      (features (w'.view .point2d)).length +
        (converged o2 o1 env (features (w.view .point2d))).length =
        (features (w.view .point2d)).length := by
  have hm := run_micros (programKinds_type o2 o1 op) hr
  have hi := (winv_micros hm winv_init (by omega)).each .point
  generalize hk : programKinds o2 o1 op = k at hm hr ⊢
  have k2 : k .point2d = point2dKind o2 := by rw [← hk]; rfl
  have k1 : k .point = pointKind o1 := by rw [← hk]; rfl
  have kp : k .plane = planeKind op := by rw [← hk]; rfl
  -- the 2D map gives its upgrades
  generalize hus : ((w.maps .point2d).localMap.map (·.2) ++ (w.maps .point2d).staged.map (·.2)).filterMap
    (fun f => (o2.upgrade env f.body).map fun b => (⟨.point, b, f.matched⟩ : Upgrade P)) = us
  have hg : getUpgraded (k .point2d) env (w.maps .point2d) = ({ w.maps .point2d with
        localMap := staying o2 env (w.maps .point2d).localMap
        staged := staying o2 env (w.maps .point2d).staged }, us) := by
    simp only [getUpgraded, k2, takeUpgraded_spec]
    rw [← hus, List.filterMap_append, List.filterMap_map, List.filterMap_map]
    rfl
  have hty : ∀ u ∈ us, u.type = .point := by
    intro u hu
    rw [← hus, List.mem_filterMap] at hu
    obtain ⟨f, -, h⟩ := hu
    cases hf : o2.upgrade env f.body with
    | none => rw [hf] at h; cases h
    | some b => rw [hf] at h; injection h with h; rw [← h]
  generalize hw1 : w.put .point2d { w.view .point2d with map := { w.maps .point2d with
        localMap := staying o2 env (w.maps .point2d).localMap
        staged := staying o2 env (w.maps .point2d).staged } } = w1
  have hv1 : w1.view .point = w.view .point := by rw [← hw1]; exact view_put_other (by decide) _ _
  obtain ⟨a1, a2, a3, a4⟩ := addUpgraded_points o2 o1 env (features (w.view .point2d)) hb (w.view .point)
    hi hlt
  have hus' : (features (w.view .point2d)).filterMap
      (fun f => (o2.upgrade env f.body).map fun b => (⟨.point, b, f.matched⟩ : Upgrade P)) = us := hus
  rw [hus'] at a1 a2 a3 a4
  generalize hs : addUpgraded (pointKind o1) us (w.view .point) = r at a1 a2 a3 a4
  have e1 : World.upgradeOne k env order .point2d w = .ok (w1.put .point r.1, false) := by
    simp only [World.upgradeOne, hg, hw1, order, eachMap]
    rw [offer_skip (by rw [k2]; intro u hu; rw [hty u hu]; exact FType.noConfusion)]
    simp only [Outcome.bind_ok, Bool.false_eq_true, if_false]
    have : World.offer k us .point w1 = .ok (w1.put .point r.1, false) := by
      simp only [World.offer, k1, hv1, hs, a4]
    rw [this]
    simp only [Outcome.bind_ok, Bool.false_eq_true, if_false]
    rw [offer_skip (by rw [kp]; intro u hu; rw [hty u hu]; exact FType.noConfusion)]
    rfl
  have quiet : ∀ t, (∀ f, (k t).upgrade env f = none) → ∀ v : World P,
      World.upgradeOne k env order t v = .ok (v, false) := by
    intro t ht v
    have : getUpgraded (k t) env (v.maps t) = (v.maps t, []) := by
      unfold getUpgraded
      rw [takeUpgraded_nothing ht, takeUpgraded_nothing ht]
      rfl
    simp only [World.upgradeOne, this, order, eachMap]
    rw [show ({ v.view t with map := v.maps t } : State P) = v.view t from rfl, put_view]
    simp [offer_skip]
  have e2 : World.upgrade k env w = .ok (w1.put .point r.1, false) := by
    simp only [World.upgrade]
    rw [show eachMap (World.upgradeOne k env order) order w =
      eachMap (World.upgradeOne k env order) [.point2d, .point, .plane] w from rfl]
    simp only [eachMap, e1, Outcome.bind_ok, Bool.false_eq_true, if_false]
    rw [quiet .point (by rw [k1]; intro f; rfl)]
    simp only [Outcome.bind_ok, Bool.false_eq_true, if_false]
    rw [quiet .plane (by rw [kp]; intro f; rfl)]
    rfl
  have m2 : (w1.put .point r.1).maps .point2d = { w.maps .point2d with
        localMap := staying o2 env (w.maps .point2d).localMap
        staged := staying o2 env (w.maps .point2d).staged } := by
    rw [← hw1]; simp [World.put]
  refine ⟨w1.put .point r.1, e2, m2, ?_, ?_, ?_, ?_⟩
  · simp only [World.put, if_true]
    exact a1
  · rw [← hw1]; simp [World.put]
  · funext u
    rw [← hw1]
    cases u <;> simp [World.put, a3] <;> rfl
  · have h1 := staying_length o2 o1 env (w.maps .point2d).localMap fun f hf => hb f (List.mem_append_left _ hf)
    have h2 := staying_length o2 o1 env (w.maps .point2d).staged fun f hf => hb f (List.mem_append_right _ hf)
    have : (features ((w1.put .point r.1).view .point2d)).length =
        (staying o2 env (w.maps .point2d).localMap).length + (staying o2 env (w.maps .point2d).staged).length := by
      simp [features, World.view, m2]
    rw [this]
    have : features (w.view .point2d) = (w.maps .point2d).localMap.map (·.2) ++ (w.maps .point2d).staged.map (·.2) := rfl
    rw [this, converged_append, List.length_append, List.length_append, List.length_map, List.length_map]
    omega

/-- What is missing: if a 3D point cannot be built from a converged point, the latter is lost, and so
are all converged points after it. -/
theorem C21_upgraded_points_lost_false :
    ∃ (ops : List (WOp Nat Unit)) (w w' : World Nat),
      World.run brokenKinds (fun _ => true) ops World.init = .ok w ∧
      World.upgrade brokenKinds () w = .ok (w', true) ∧
      (converged demoOps2 demoOps () (features (w.view .point2d))).length = 1 ∧
      (features (w'.view .point2d)).length + 1 = (features (w.view .point2d)).length ∧
      (features (w'.view .point)).length = (features (w.view .point)).length := by
  refine ⟨demoStart, _, _, rfl, rfl, ?_, ?_, ?_⟩ <;> decide +kernel

example : ((demoRun 0).holds fun w =>
    (converged demoOps2 demoOps () (features (w.view .point2d))).length == 1 &&
    (World.upgrade demoKinds () w).holds fun r =>
      sizes w == [[0, 2, 0], [0, 2, 0], [0, 2, 0]] &&
      sizes r.1 == [[0, 1, 0], [1, 2, 0], [0, 2, 0]] && r.2 == false) = true := by decide +kernel

/-! ### C62 -/

/-- In every reachable state, no two features of the program have the same id, even in different maps:
stored features and those already written to the output. -/
theorem C62_ids_unique_over_all_maps (o2 o1 : PointOps P D Env) (op : PlaneOps P D Env) (cov : Env → Bool)
    (ops : List (WOp D Env)) (w : World P)
    (hr : World.run (programKinds o2 o1 op) cov ops World.init = .ok w)
    (hlt : w.alloc.given < 2 ^ 64) :
    ((order.flatMap fun t => features (w.view t) ++ w.written t).map (·.id)).Nodup := by
  have hi := winv_micros (run_micros (programKinds_type o2 o1 op) hr) winv_init hlt
  have key : ∀ t, (features (w.view t) ++ w.written t).map (·.id) = idsOf (w.view t) := by
    intro t
    have h1 := keys_eq_ids (hi.each t).keyedL
    have h2 := keys_eq_ids (hi.each t).keyedS
    simp only [features, idsOf, List.map_append, List.map_map, h1, h2]
    rfl
  have nd : ∀ t, (idsOf (w.view t)).Nodup := by
    intro t
    have h := hi.each t
    unfold idsOf
    rw [List.nodup_append]
    exact ⟨h.nodup, h.wnodup, fun a ha b hb hab => h.wfresh b hb (hab ▸ ha)⟩
  have : (order.flatMap fun t => features (w.view t) ++ w.written t).map (·.id) =
      idsOf (w.view .point2d) ++ (idsOf (w.view .point) ++ idsOf (w.view .plane)) := by
    simp only [order, List.flatMap_cons, List.flatMap_nil, List.append_nil, List.map_append, ← key]
  rw [this, List.nodup_append, List.nodup_append]
  refine ⟨nd _, ⟨nd _, nd _, ?_⟩, ?_⟩
  · rintro a ha b hb rfl
    exact hi.apart _ _ (by decide) a ha hb
  · rintro a ha b hb rfl
    rcases List.mem_append.1 hb with hb | hb
    · exact hi.apart .point2d .point (by decide) a ha hb
    · exact hi.apart .point2d .plane (by decide) a ha hb

/-- Whatever is done with the local map, each of its maps goes through a history of its own operations:
all that holds of every history of one feature map (C06 to C20) holds of the maps of the program. -/
theorem C62_each_map_has_a_history (o2 o1 : PointOps P D Env) (op : PlaneOps P D Env) (cov : Env → Bool)
    (ops : List (WOp D Env)) (w : World P)
    (hr : World.run (programKinds o2 o1 op) cov ops World.init = .ok w) (t : FType) :
    ∃ ops' : List (Op P D Env), .deactivate ∉ ops' ∧
      run (programKinds o2 o1 op t) ops' (State.init Alloc.start) = .ok ⟨w.maps t, w.alloc, w.written t⟩ :=
  micros_view (run_micros (programKinds_type o2 o1 op) hr) t

/-- As an instance: what is written to the output over the life of the program, the destructor
included, contains every feature at most once, over all types. -/
theorem C62_exported_once (o2 o1 : PointOps P D Env) (op : PlaneOps P D Env) (cov : Env → Bool)
    (ops : List (WOp D Env)) (w : World P)
    (hr : World.run (programKinds o2 o1 op) cov ops World.init = .ok w)
    (hlt : w.alloc.given < 2 ^ 64) :
    ((order.flatMap fun t => w.written t ++ w.destroyed t).map (·.id)).Nodup := by
  refine List.Nodup.perm (List.Nodup.sublist (List.Sublist.map _ ?_)
    (C62_ids_unique_over_all_maps o2 o1 op cov ops w hr hlt)) (List.Perm.map _ (?_ : List.Perm
      (order.flatMap fun t => w.destroyed t ++ w.written t) _))
  · simp only [order, List.flatMap_cons, List.flatMap_nil, List.append_nil]
    have h : ∀ t, (w.destroyed t ++ w.written t).Sublist (features (w.view t) ++ w.written t) := by
      intro t
      refine List.Sublist.append ?_ (List.Sublist.refl _)
      unfold World.destroyed Map.destroyed features
      split
      · exact List.nil_sublist _
      · exact List.sublist_append_left _ _
    exact (h _).append ((h _).append (h _))
  · simp only [order, List.flatMap_cons, List.flatMap_nil, List.append_nil]
    exact (List.perm_append_comm).append ((List.perm_append_comm).append List.perm_append_comm)

example : ((demoRun 5).holds fun w =>
    ((order.flatMap fun t => features (w.view t) ++ w.written t).map (·.id)).length == 11) = true := by
  decide +kernel

/-! ### C63 -/

theorem mergeBy_perm {α : Type} (lt : α → α → Bool) (a b : List α) : (mergeBy lt a b).Perm (a ++ b) := by
  induction a generalizing b with
  | nil => simp [mergeBy]
  | cons x xs iha =>
    induction b with
    | nil => simp [mergeBy]
    | cons y ys ihb =>
      rw [mergeBy]
      split
      · exact (List.Perm.cons _ ihb).trans (List.perm_middle (a := y) (l₁ := x :: xs)).symm
      · exact List.Perm.cons _ (iha _)

theorem find_perm (k : FType → Kind P D Env) (lt : Match → Match → Bool) (env : Env)
    (det : FType → List D) (ts : List FType) (hn : ts.Nodup) (w : World P) (ms : List Match) :
    (w.find k lt env det ts ms).2.Perm
      (ms ++ ts.flatMap fun t => (getMatches (k t) env (det t) (w.maps t)).2) := by
  induction ts generalizing w ms with
  | nil => simp [World.find]
  | cons t ts ih =>
    rw [List.nodup_cons] at hn
    simp only [World.find, List.flatMap_cons]
    refine (ih hn.2 _ _).trans ?_
    have : ts.flatMap (fun u => (getMatches (k u) env (det u)
        ((w.put t { w.view t with map := (getMatches (k t) env (det t) (w.maps t)).1 }).maps u)).2) =
        ts.flatMap fun u => (getMatches (k u) env (det u) (w.maps u)).2 := by
      rw [List.flatMap_def, List.flatMap_def]
      congr 1
      apply List.map_congr_left
      intro u hu
      have : u ≠ t := fun h => hn.1 (h ▸ hu)
      simp [World.put, this]
    rw [this, ← List.append_assoc]
    exact (mergeBy_perm lt ms _).append_right _

/-- Whatever the order used to merge the lists, the matches handed to the pose optimisation are, as a
multiset, exactly the matches each map finds on its own: none is lost, invented or doubled. -/
theorem C63_matches_complete (k : FType → Kind P D Env) (lt : Match → Match → Bool) (env : Env)
    (det : FType → List D) (w : World P) :
    (w.find k lt env det order []).2.Perm
      (order.flatMap fun t => (getMatches (k t) env (det t) (w.maps t)).2) := by
  have := find_perm k lt env det order order_nodup w []
  simpa using this

theorem found_in_maps (o2 o1 : PointOps P D Env) (op : PlaneOps P D Env) (lt : Match → Match → Bool)
    {w : World P} (hact : ∀ t, (w.maps t).active = true) (env : Env)
    (det : FType → List D) (w' : World P) (ms : List Match)
    (hf : w.find (programKinds o2 o1 op) lt env det order [] = (w', ms)) (m : Match) (hm : m ∈ ms) :
    m.type ≠ .point2d ∧
      ∃ f ∈ features (w'.view m.type), f.id = m.idInMap ∧ m.detected ∈ f.matched := by
  have hp := C63_matches_complete (programKinds o2 o1 op) lt env det w
  rw [hf] at hp
  have hm' := hp.mem_iff.1 hm
  obtain ⟨t, -, ht⟩ := List.mem_flatMap.1 hm'
  have key : ∀ t, Pushes (programKinds o2 o1 op t) →
      m ∈ (getMatches (programKinds o2 o1 op t) env (det t) (w.maps t)).2 →
      m.type = t ∧ ∃ f ∈ features (w'.view t), f.id = m.idInMap ∧ m.detected ∈ f.matched := by
    intro t hpush ht
    have hg := getMatches_matches hpush env (det t) (w.maps t) (hact t)
    simp only at hg
    rw [hg, programKinds_type] at ht
    have hw' : w'.maps t = (getMatches (programKinds o2 o1 op t) env (det t) (w.maps t)).1 := by
      have := find_maps (programKinds o2 o1 op) lt env det order order_nodup w [] t
      rw [hf, if_pos (mem_order t)] at this
      exact this
    have sub : ∀ l : Store P, m ∈ matchesOf t l → m.type = t ∧ ∃ p ∈ l, p.2.id = m.idInMap ∧ m.detected ∈ p.2.matched := by
      intro l hl
      obtain ⟨p, hp, hl⟩ := List.mem_flatMap.1 hl
      obtain ⟨i, hi, rfl⟩ := List.mem_map.1 hl
      exact ⟨rfl, p, hp, rfl, hi⟩
    have fin : ∀ l : Store P, (∀ p ∈ l, p.2 ∈ features (w'.view t)) → m ∈ matchesOf t l →
        m.type = t ∧ ∃ f ∈ features (w'.view t), f.id = m.idInMap ∧ m.detected ∈ f.matched := by
      intro l hl hm
      obtain ⟨h1, p, hp, h2, h3⟩ := sub l hm
      exact ⟨h1, p.2, hl p hp, h2, h3⟩
    rcases List.mem_append.1 ht with ht | ht
    · refine fin _ (fun p hp => List.mem_append_left _ (List.mem_map_of_mem ?_)) ht
      change p ∈ (w'.maps t).localMap
      rw [hw']; exact hp
    · split at ht
      · refine fin _ (fun p hp => List.mem_append_right _ (List.mem_map_of_mem ?_)) ht
        change p ∈ (w'.maps t).staged
        rw [hw']; exact hp
      · cases ht
  cases t with
  | point2d =>
    rw [show programKinds o2 o1 op .point2d = point2dKind o2 from rfl,
      C20_2d_points_never_contribute_false] at ht
    cases ht
  | point =>
    obtain ⟨h1, h2⟩ := key .point (pushes_point o1) ht
    rw [h1]; exact ⟨FType.noConfusion, h2⟩
  | plane =>
    obtain ⟨h1, h2⟩ := key .plane (pushes_plane op) ht
    rw [h1]; exact ⟨FType.noConfusion, h2⟩

/-- With the maps of the program: the list contains the matches of 3D points and planes that the maps
hold after the search, and nothing else (2D points never contribute, C20); no (type, feature) pair
appears twice, and none for a feature that is not in the map. -/
theorem C63_matches_of_the_map (o2 o1 : PointOps P D Env) (op : PlaneOps P D Env) (cov : Env → Bool)
    (lt : Match → Match → Bool) (ops : List (WOp D Env)) (w : World P)
    (hr : World.run (programKinds o2 o1 op) cov ops World.init = .ok w) (env : Env)
    (det : FType → List D) (w' : World P) (ms : List Match)
    (hf : w.find (programKinds o2 o1 op) lt env det order [] = (w', ms)) (m : Match) (hm : m ∈ ms) :
    m.type ≠ .point2d ∧
      ∃ f ∈ features (w'.view m.type), f.id = m.idInMap ∧ m.detected ∈ f.matched :=
  found_in_maps o2 o1 op lt (fun t => micros_active (run_micros (programKinds_type o2 o1 op) hr) t) env det w' ms
    hf m hm

example : ((demoRun 3).holds fun w =>
    ((w.find demoKinds (fun _ _ => false) () demoDets order []).2.map fun m => (m.idInMap, m.detected))
      == [(3, 0), (4, 1), (6, 1)]) = true := by decide +kernel

/-! ### C64 -/

/-- The demonstration points with keypoints; planes without any content. -/
def shapeKinds : FType → Kind Keypoints.Pt (Keypoints.Detected Nat ⊕ Unit) (Unit × Keypoints.Handler Nat) :=
  programKinds (withShapes (handlerOps demoGeo)) (withShapes (handlerOps demoGeo))
    { isVisible := fun _ _ => true, projectedArea := fun _ _ => 0, similar := fun _ _ _ => false,
      interArea := fun _ _ _ => 0, detectedArea := fun _ => 0, update := fun _ _ b => .ok (b, true),
      build := fun _ _ => none, copy := fun b => some b, covValid := fun _ => true }

/-- One keypoint seen at the same place, with a depth or without. -/
def seen (depth : Rat) : Outcome (Keypoints.Handler Nat) :=
  Keypoints.set ⟨640, 480, fun _ _ => depth⟩ [⟨100, 100⟩] [0] [] (Keypoints.create 640 480)

/-- First frame with a depth, second frame without: how many features the point maps hold and which are
matched, after the search and after the update of the second frame. -/
def seenTwice : Outcome (List (List (List Nat))) :=
  (seen 1000).bind fun h1 => (seen 0).bind fun h2 =>
    let d1 := frameDets (h1, ([] : List Unit))
    let d2 := frameDets (h2, ([] : List Unit))
    (World.run shapeKinds (fun _ => true) [.find (fun _ _ => false) ((), h1) d1, .noPose,
      .addAll ((), h1) d1, .find (fun _ _ => false) ((), h2) d2] World.init).bind fun w =>
    (World.step shapeKinds (fun _ => true) (.update 100 ((), h2) d2 []) w).bind fun w' =>
    .ok [(features (w.view .point)).map (·.matched), (features (w.view .point2d)).map (·.matched),
      (features (w'.view .point)).map (·.matched), (features (w'.view .point2d)).map (·.matched)]

/-- Each map decides alone which detections are used, so a keypoint without valid depth that is matched
to a 3D point (detection 0, matched to the only 3D point before and after the update) is, in the same
frame, staged as a new 2D candidate (none before, one after): the same physical point is then in both
maps. -/
theorem C64_matched_keypoint_staged_elsewhere_false :
    seenTwice = .ok [[[0]], [], [[0]], [[]]] := by
  have : (seenTwice.holds fun r => r == [[[0]], [], [[0]], [[]]]) = true := by decide +kernel
  revert this
  cases seenTwice <;> simp [Outcome.holds]

/-- Detections kept as matches by a feature after `applyMatches` and `settle` were used. -/
theorem settled_used {k : Kind P D Env} {env : Env} {det : List D} {all : Bool} {f f1 : Feat P} {hit : Bool}
    {used : List Nat} (hone : f.matched.length ≤ 1)
    (h : applyMatches k env det all f.matched f = .ok (f1, hit, used)) :
    (settle hit f1).matched.length ≤ 1 ∧ ∀ i ∈ (settle hit f1).matched, i ∈ used := by
  match hm : f.matched, hone with
  | [], _ =>
    rw [hm] at h
    simp only [applyMatches, Outcome.ok.injEq, Prod.mk.injEq] at h
    obtain ⟨rfl, rfl, rfl⟩ := h
    simp [settle]
  | [i], _ =>
    rw [hm] at h
    simp only [applyMatches] at h
    split at h
    · cases h
    · obtain ⟨⟨body, good⟩, -, h⟩ := Outcome.bind_eq_ok h
      simp only [Outcome.bind_ok, Outcome.ok.injEq, Prod.mk.injEq] at h
      obtain ⟨rfl, rfl, rfl⟩ := h
      cases good <;> simp [settle, hm]

theorem updateLocal_used {k : Kind P D Env} {env : Env} {det : List D} {l kept : Store P} {used : List Nat}
    {wr : List (Feat P)} (hone : ∀ p ∈ l, p.2.matched.length ≤ 1)
    (h : updateLocal k env det l = .ok (kept, used, wr)) :
    ∀ p ∈ kept, ∀ i ∈ p.2.matched, i ∈ used := by
  induction l generalizing kept used wr with
  | nil =>
    simp only [updateLocal, Outcome.ok.injEq, Prod.mk.injEq] at h
    obtain ⟨rfl, -, -⟩ := h
    intro p hp; cases hp
  | cons q l ih =>
    obtain ⟨key, f⟩ := q
    simp only [updateLocal] at h
    obtain ⟨⟨f1, hit, u1⟩, e1, h⟩ := Outcome.bind_eq_ok h
    obtain ⟨⟨kept', u2, wr'⟩, e2, h⟩ := Outcome.bind_eq_ok h
    have hf := settled_used (hone (key, f) (by simp)) e1
    have hl := ih (fun p hp => hone p (by simp [hp])) e2
    dsimp only at h
    split at h
    · simp only [Outcome.ok.injEq, Prod.mk.injEq] at h
      obtain ⟨rfl, rfl, -⟩ := h
      intro p hp i hi
      exact List.mem_append.2 (.inr (hl p hp i hi))
    · simp only [Outcome.ok.injEq, Prod.mk.injEq] at h
      obtain ⟨rfl, rfl, -⟩ := h
      intro p hp i hi
      rcases List.mem_cons.1 hp with rfl | hp
      · exact List.mem_append.2 (.inl (hf.2 i hi))
      · exact List.mem_append.2 (.inr (hl p hp i hi))

theorem updateStaged_used {k : Kind P D Env} {env : Env} {det : List D} {fuel : Nat} {l loc stg loc' : Store P}
    {used : List Nat} (hone : ∀ p ∈ l, p.2.matched.length ≤ 1)
    (h : updateStaged k env det fuel l loc = .ok (stg, loc', used)) :
    (∀ p ∈ stg, ∀ i ∈ p.2.matched, i ∈ used) ∧
    ∀ p ∈ loc', p ∈ loc ∨ ∀ i ∈ p.2.matched, i ∈ used := by
  induction fuel generalizing l loc stg loc' used with
  | zero =>
    match l with
    | [] =>
      simp only [updateStaged, Outcome.ok.injEq, Prod.mk.injEq] at h
      obtain ⟨rfl, rfl, -⟩ := h
      exact ⟨fun p hp => (by cases hp), fun p hp => .inl hp⟩
    | _ :: _ => simp [updateStaged] at h
  | succ n ih =>
    match l with
    | [] =>
      simp only [updateStaged, Outcome.ok.injEq, Prod.mk.injEq] at h
      obtain ⟨rfl, rfl, -⟩ := h
      exact ⟨fun p hp => (by cases hp), fun p hp => .inl hp⟩
    | (key, f) :: rest =>
      simp only [updateStaged] at h
      obtain ⟨⟨f1, hit, u1⟩, e1, h⟩ := Outcome.bind_eq_ok h
      have hf := settled_used (hone (key, f) (by simp)) e1
      have hrest : ∀ p ∈ rest, p.2.matched.length ≤ 1 := fun p hp => hone p (by simp [hp])
      dsimp only at h
      split at h
      · split at h
        · rename_i body _
          obtain ⟨⟨stg', l', u2⟩, e2, h⟩ := Outcome.bind_eq_ok h
          simp only [Outcome.ok.injEq, Prod.mk.injEq] at h
          obtain ⟨rfl, rfl, rfl⟩ := h
          obtain ⟨h1, h2⟩ := ih hrest e2
          refine ⟨fun p hp i hi => List.mem_append.2 (.inr (h1 p hp i hi)), fun p hp => ?_⟩
          rcases h2 p hp with h3 | h3
          · unfold emplace at h3
            split at h3
            · exact .inl h3
            · rcases List.mem_append.1 h3 with h3 | h3
              · exact .inl h3
              · rw [List.mem_singleton] at h3
                subst h3
                exact .inr fun i hi => List.mem_append.2 (.inl (hf.2 i hi))
          · exact .inr fun i hi => List.mem_append.2 (.inr (h3 i hi))
        · obtain ⟨⟨stg', l', u2⟩, e2, h⟩ := Outcome.bind_eq_ok h
          simp only [Outcome.ok.injEq, Prod.mk.injEq] at h
          obtain ⟨rfl, rfl, rfl⟩ := h
          obtain ⟨h1, h2⟩ := ih (by
            intro p hp
            rcases List.mem_cons.1 hp with rfl | hp
            · exact hf.1
            · exact hrest p hp) e2
          exact ⟨fun p hp i hi => List.mem_append.2 (.inr (h1 p hp i hi)), fun p hp =>
            (h2 p hp).imp id fun h3 i hi => List.mem_append.2 (.inr (h3 i hi))⟩
      · obtain ⟨⟨stg', l', u2⟩, e2, h⟩ := Outcome.bind_eq_ok h
        obtain ⟨h1, h2⟩ := ih hrest e2
        dsimp only at h
        split at h
        · simp only [Outcome.ok.injEq, Prod.mk.injEq] at h
          obtain ⟨rfl, rfl, rfl⟩ := h
          exact ⟨fun p hp i hi => List.mem_append.2 (.inr (h1 p hp i hi)), fun p hp =>
            (h2 p hp).imp id fun h3 i hi => List.mem_append.2 (.inr (h3 i hi))⟩
        · simp only [Outcome.ok.injEq, Prod.mk.injEq] at h
          obtain ⟨rfl, rfl, rfl⟩ := h
          refine ⟨fun p hp i hi => ?_, fun p hp =>
            (h2 p hp).imp id fun h3 i hi => List.mem_append.2 (.inr (h3 i hi))⟩
          rcases List.mem_cons.1 hp with rfl | hp
          · exact List.mem_append.2 (.inl (hf.2 i hi))
          · exact List.mem_append.2 (.inr (h1 p hp i hi))

theorem stageFrom_origin {k : Kind P D Env} {env : Env} {used : List Nat} {i : Nat} {det : List D} {s : State P}
    {p : Nat × Feat P} (hp : p ∈ (stageFrom k env used i det s).map.staged) :
    p ∈ s.map.staged ∨ ∃ j d, i ≤ j ∧ det[j - i]? = some d ∧ j ∉ used ∧ k.build env d = some p.2.body := by
  induction det generalizing i s with
  | nil => exact .inl hp
  | cons d ds ih =>
    have shift : ∀ {s' : State P}, p ∈ (stageFrom k env used (i + 1) ds s').map.staged →
        p ∈ s'.map.staged ∨ ∃ j e, i ≤ j ∧ (d :: ds)[j - i]? = some e ∧ j ∉ used ∧
          k.build env e = some p.2.body := by
      intro s' h
      rcases ih h with h | ⟨j, e, h1, h2, h3, h4⟩
      · exact .inl h
      · refine .inr ⟨j, e, by omega, ?_, h3, h4⟩
        rw [show j - i = (j - (i + 1)) + 1 by omega, List.getElem?_cons_succ]
        exact h2
    simp only [stageFrom] at hp
    split at hp
    · exact shift hp
    · rename_i hu
      rcases shift hp with h | h
      · unfold stageOne at h
        split at h
        · dsimp only at h
          split at h
          · rename_i body hb
            dsimp only at h
            unfold emplace at h
            split at h
            · exact .inl h
            · rcases List.mem_append.1 h with h | h
              · exact .inl h
              · rw [List.mem_singleton] at h
                subst h
                exact .inr ⟨i, d, Nat.le_refl _, by simp, by simpa using hu, hb⟩
          · split at h <;> exact .inl h
        · exact .inl h
      · exact .inr h

/-- C64 (partial: inside one map, whose features have at most one match each): after the update of a map and the
staging that follows, every candidate that was not there after the update comes from a detection that is the
match of no feature of the map. -/
theorem C64_same_map_partial (k : Kind P D Env) (fuel : Nat) (env : Env) (det : List D) (s s1 s2 : State P)
    (used : List Nat) (hone : ∀ f ∈ features s, f.matched.length ≤ 1) (hact : s.map.active = true)
    (hu : updateMap k fuel env det s = .ok (s1, used)) (hs : step k (.stage env det used) s1 = .ok s2) :
    ∀ p ∈ s2.map.staged, p ∈ s1.map.staged ∨
      ∃ j d, det[j]? = some d ∧ k.build env d = some p.2.body ∧ ∀ f ∈ features s1, j ∉ f.matched := by
  unfold updateMap at hu
  rw [if_neg (by simp [hact])] at hu
  split at hu
  · cases hu
  obtain ⟨⟨loc, u1, wr⟩, e1, hu⟩ := Outcome.bind_eq_ok hu
  obtain ⟨⟨stg, loc', u2⟩, e2, hu⟩ := Outcome.bind_eq_ok hu
  simp only [Outcome.ok.injEq, Prod.mk.injEq] at hu
  obtain ⟨hs1, rfl⟩ := hu
  have eloc : s1.map.localMap = loc' := by rw [← hs1]
  have estg : s1.map.staged = stg := by rw [← hs1]
  have hl := updateLocal_used (fun p hp => hone p.2 (by
    simp only [features, List.mem_append, List.mem_map]; exact .inl ⟨p, hp, rfl⟩)) e1
  have hst := updateStaged_used (fun p hp => hone p.2 (by
    simp only [features, List.mem_append, List.mem_map]; exact .inr ⟨p, hp, rfl⟩)) e2
  have all : ∀ f ∈ features s1, ∀ i ∈ f.matched, i ∈ u1 ++ u2 := by
    intro f hf i hi
    simp only [features, List.mem_append, List.mem_map, eloc, estg] at hf
    rcases hf with ⟨p, hp, rfl⟩ | ⟨p, hp, rfl⟩
    · rcases hst.2 p hp with h | h
      · exact List.mem_append.2 (.inl (hl p h i hi))
      · exact List.mem_append.2 (.inr (h i hi))
    · exact List.mem_append.2 (.inr (hst.1 p hp i hi))
  intro p hp
  simp only [step] at hs
  split at hs
  · rw [← Outcome.ok.inj hs] at hp; exact .inl hp
  · simp only [stage] at hs
    split at hs
    · rw [← Outcome.ok.inj hs] at hp; exact .inl hp
    · split at hs
      · cases hs
      · rw [← Outcome.ok.inj hs] at hp
        rcases stageFrom_origin hp with h | ⟨j, d, -, h2, h3, h4⟩
        · exact .inl h
        · exact .inr ⟨j, d, by simpa using h2, h4, fun f hf hi => h3 (all f hf j hi)⟩

/-- Two detections, the first one matched: only the second one is staged. -/
example : ((run demo (demoFrame [7] [] ++ [.find () [7, 8]]) (State.init Alloc.start)).holds fun s =>
    (features s).all (fun f => decide (f.matched.length ≤ 1)) && s.map.active &&
    (updateMap demo 10 () [7, 8] s).holds fun (s1, used) =>
      (step demo (.stage () [7, 8] used) s1).holds fun s2 =>
        (features s1).map (·.matched) == [[0]] && s1.map.staged.length + 1 == s2.map.staged.length &&
        (s2.map.staged.map fun p => p.2.body) == [7, 8]) = true := by decide +kernel

end RgbdSlam.Map
