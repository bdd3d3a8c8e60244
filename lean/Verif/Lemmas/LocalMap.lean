import Verif.Model.LocalMap
import Verif.Props.FeatureMap
import Verif.Lemmas.Matching
/-
Every call of the local map is a sequence of calls of its feature maps.
-/
namespace RgbdSlam.Map

variable {P D Env : Type}

@[simp] theorem view_put_same (t : FType) (s : State P) (w : World P) : (w.put t s).view t = s := by
  simp [World.view, World.put]

theorem view_put_other {t u : FType} (h : u ≠ t) (s : State P) (w : World P) :
    (w.put t s).view u = { w.view u with alloc := s.alloc } := by
  simp [World.view, World.put, h]

@[simp] theorem put_view (t : FType) (w : World P) : w.put t (w.view t) = w := by
  cases w
  simp only [World.put, World.view, World.mk.injEq, true_and]
  constructor <;> funext u <;> split <;> simp_all

theorem put_put (t : FType) (s s' : State P) (w : World P) : (w.put t s).put t s' = w.put t s' := by
  simp only [World.put, World.mk.injEq, true_and]
  constructor <;> funext u <;> split <;> simp_all

theorem skip_add (n m : Nat) (a : Alloc) : (a.skip n).skip m = a.skip (n + m) := by
  induction n generalizing a with
  | zero => simp [Alloc.skip]
  | succ n ih => rw [Nat.succ_add]; exact ih a.next

theorem stageOne_alloc (k : Kind P D Env) (env : Env) (d : D) (s : State P) :
    ∃ n, (stageOne k env d s).alloc = s.alloc.skip n := by
  unfold stageOne
  split
  · simp only
    split
    · exact ⟨1, rfl⟩
    · split
      · exact ⟨1, rfl⟩
      · exact ⟨0, rfl⟩
  · exact ⟨0, rfl⟩

theorem stageFrom_alloc (k : Kind P D Env) (env : Env) (used : List Nat) (i : Nat) (ds : List D)
    (s : State P) : ∃ n, (stageFrom k env used i ds s).alloc = s.alloc.skip n := by
  induction ds generalizing i s with
  | nil => exact ⟨0, rfl⟩
  | cons d ds ih =>
    simp only [stageFrom]
    split
    · exact ih _ _
    · obtain ⟨n, hn⟩ := ih (i + 1) (stageOne k env d s)
      obtain ⟨m, hm⟩ := stageOne_alloc k env d s
      exact ⟨m + n, by rw [hn, hm, skip_add]⟩

theorem addUpgraded_alloc (k : Kind P D Env) (us : List (Upgrade P)) (s : State P) :
    ∃ n, (addUpgraded k us s).1.alloc = s.alloc.skip n := by
  induction us generalizing s with
  | nil => exact ⟨0, rfl⟩
  | cons u us ih =>
    simp only [addUpgraded]
    split
    · split
      · exact ih s
      · exact ⟨0, rfl⟩
      · rename_i body _
        obtain ⟨n, hn⟩ := ih
          { s with
            alloc := s.alloc.next
            map := { s.map with
              localMap := emplace s.alloc.next.last
                ⟨s.alloc.next.last, 0, 1, u.matched, body⟩ s.map.localMap } }
        exact ⟨n + 1, hn⟩
    · exact ih s

theorem updateMap_alloc {k : Kind P D Env} {fuel : Nat} {env : Env} {det : List D} {s : State P}
    {r : State P × List Nat} (h : updateMap k fuel env det s = .ok r) : r.1.alloc = s.alloc := by
  unfold updateMap at h
  split at h
  · injection h with h; rw [← h]
  · split at h
    · cases h
    · obtain ⟨a, -, h⟩ := Outcome.bind_eq_ok h
      obtain ⟨b, -, h⟩ := Outcome.bind_eq_ok h
      injection h with h; rw [← h]

theorem step_alloc {k : Kind P D Env} {op : Op P D Env} {s s' : State P} (h : step k op s = .ok s') :
    ∃ n, s'.alloc = s.alloc.skip n := by
  cases op with
  | find env det => injection h with h; exact ⟨0, by rw [← h]; rfl⟩
  | update fuel env det =>
    simp only [step] at h
    split at h
    · injection h with h; exact ⟨0, by rw [← h]; rfl⟩
    · obtain ⟨r, h1, h⟩ := Outcome.bind_eq_ok h
      injection h with h
      exact ⟨0, by rw [← h]; exact updateMap_alloc h1⟩
  | noTracking =>
    injection h with h
    refine ⟨0, ?_⟩
    rw [← h]
    unfold updateNoTracking
    split <;> rfl
  | stage env det used =>
    simp only [step] at h
    split at h
    · injection h with h; exact ⟨0, by rw [← h]; rfl⟩
    · rcases stage_cases h with rfl | rfl
      · exact ⟨0, rfl⟩
      · exact stageFrom_alloc ..
  | outliers ms => injection h with h; exact ⟨0, by rw [← h]; rfl⟩
  | takeUpgrades env => injection h with h; exact ⟨0, by rw [← h]; rfl⟩
  | addUpgrades us => injection h with h; rw [← h]; exact addUpgraded_alloc ..
  | reset => injection h with h; exact ⟨0, by rw [← h]; rfl⟩
  | deactivate => injection h with h; exact ⟨0, by rw [← h]; rfl⟩
  | foreignIds n => injection h with h; exact ⟨n, by rw [← h]⟩
  | rehash a b => injection h with h; exact ⟨0, by rw [← h]; rfl⟩

/-- `w'` is reached from `w` by calls on single feature maps, none of which is in `No`. -/
inductive Micros (k : FType → Kind P D Env) : World P → World P → Prop
  | refl (w : World P) : Micros k w w
  | step {w w1 : World P} (t : FType) (op : Op P D Env) {s : State P} : Micros k w w1 →
      op ≠ .deactivate → Map.step (k t) op (w1.view t) = .ok s → Micros k w (w1.put t s)

theorem Micros.trans {k : FType → Kind P D Env} {a b c : World P} (h1 : Micros k a b)
    (h2 : Micros k b c) : Micros k a c := by
  induction h2 with
  | refl => exact h1
  | step t op _ hd hs ih => exact .step t op ih hd hs

theorem Micros.one {k : FType → Kind P D Env} {w : World P} (t : FType) (op : Op P D Env) {s : State P}
    (hd : op ≠ .deactivate)
    (h : Map.step (k t) op (w.view t) = .ok s) : Micros k w (w.put t s) := .step t op (.refl w) hd h

theorem find_micros (k : FType → Kind P D Env) (lt : Match → Match → Bool) (env : Env)
    (det : FType → List D) (ts : List FType) (w : World P) (ms : List Match) :
    Micros k w (w.find k lt env det ts ms).1 := by
  induction ts generalizing w ms with
  | nil => exact .refl w
  | cons t ts ih => exact (Micros.one t (.find env (det t)) nofun rfl).trans (ih _ _)

theorem markOutliers_micros {k : FType → Kind P D Env} (hk : ∀ t, (k t).type = t) (ms : List Match)
    (ts : List FType) (w : World P) : Micros k w (w.markOutliers ms ts) := by
  induction ts generalizing w with
  | nil => exact .refl w
  | cons t ts ih =>
    refine (Micros.one t (.outliers ms) nofun ?_).trans (ih _)
    simp only [Map.step, hk t]
    rfl

theorem noPose_micros (k : FType → Kind P D Env) (ts : List FType) (w : World P) :
    Micros k w (w.noPose k ts) := by
  induction ts generalizing w with
  | nil => exact .refl w
  | cons t ts ih => exact (Micros.one t .noTracking nofun rfl).trans (ih _)

theorem reset_micros (k : FType → Kind P D Env) (ts : List FType) (w : World P) :
    Micros k w (w.reset ts) := by
  induction ts generalizing w with
  | nil => exact .refl w
  | cons t ts ih => exact (Micros.one t .reset nofun rfl).trans (ih _)

theorem eachMap_micros {k : FType → Kind P D Env} {f : FType → World P → Outcome (World P × Bool)}
    (hf : ∀ t w w' b, f t w = .ok (w', b) → Micros k w w') (ts : List FType) (w : World P)
    {r : World P × Bool} (h : eachMap f ts w = .ok r) : Micros k w r.1 := by
  induction ts generalizing w with
  | nil => injection h with h; rw [← h]; exact .refl w
  | cons t ts ih =>
    simp only [eachMap] at h
    obtain ⟨⟨w', b⟩, h1, h⟩ := Outcome.bind_eq_ok h
    have := hf t w w' b h1
    simp only at h
    split at h
    · injection h with h; rw [← h]; exact this
    · exact this.trans (ih w' h)

theorem updateOne_micros {k : FType → Kind P D Env} {fuel : Nat} {env : Env} {det : FType → List D}
    (t : FType) (w w' : World P) (b : Bool) (h : World.updateOne k fuel env det t w = .ok (w', b)) :
    Micros k w w' := by
  unfold World.updateOne at h
  split at h
  · rename_i s used hu
    have h1 : Map.step (k t) (.update fuel env (det t)) (w.view t) = .ok s := by
      simp [Map.step, hu, Outcome.map]
    have m1 := Micros.one t (.update fuel env (det t)) nofun h1
    split at h
    · rename_i s' hs
      injection h with h; injection h with h _
      rw [← h, ← put_put t s s' w]
      refine m1.trans (Micros.one t (.stage env (det t) used) nofun ?_)
      simp [Map.step, hs]
    · injection h with h; injection h with h _; rw [← h]; exact m1
    all_goals cases h
  · injection h with h; injection h with h _; rw [← h]; exact .refl w
  all_goals cases h

theorem offer_micros {k : FType → Kind P D Env} {us : List (Upgrade P)}
    (t : FType) (w w' : World P) (b : Bool) (h : World.offer k us t w = .ok (w', b)) :
    Micros k w w' := by
  unfold World.offer at h
  injection h with h; injection h with h _
  rw [← h]
  exact Micros.one t (.addUpgrades us) nofun rfl

theorem upgradeOne_micros {k : FType → Kind P D Env} {env : Env} {ts : List FType}
    (t : FType) (w w' : World P) (b : Bool) (h : World.upgradeOne k env ts t w = .ok (w', b)) :
    Micros k w w' := by
  unfold World.upgradeOne at h
  exact (Micros.one t (.takeUpgrades env) nofun rfl).trans (eachMap_micros offer_micros ts _ h)

theorem addOne_micros {k : FType → Kind P D Env} {env : Env} {det : FType → List D}
    (t : FType) (w w' : World P) (b : Bool) (h : World.addOne k env det t w = .ok (w', b)) :
    Micros k w w' := by
  unfold World.addOne at h
  split at h
  · rename_i s hs
    injection h with h; injection h with h _
    rw [← h]
    refine Micros.one t (.stage env (det t) []) nofun ?_
    have : stage (k t) env (det t) [] (w.view t) = .ok s := hs
    simp [Map.step, this]
  · injection h with h; injection h with h _; rw [← h]; exact .refl w
  all_goals cases h

theorem update_micros {k : FType → Kind P D Env} (hk : ∀ t, (k t).type = t) {cov : Env → Bool}
    {fuel : Nat} {env : Env} {det : FType → List D} {outliers : List Match} {w : World P}
    {r : World P × Bool} (h : w.update k cov fuel env det outliers = .ok r) : Micros k w r.1 := by
  unfold World.update at h
  split at h
  · injection h with h; rw [← h]; exact .refl w
  · obtain ⟨⟨w1, b⟩, h1, h⟩ := Outcome.bind_eq_ok h
    have m1 := (markOutliers_micros hk outliers order w).trans
      (eachMap_micros updateOne_micros order _ h1)
    simp only at h
    split at h
    · injection h with h; rw [← h]; exact m1
    · exact m1.trans (eachMap_micros upgradeOne_micros order _ h)

theorem addAll_micros {k : FType → Kind P D Env} {cov : Env → Bool}
    {env : Env} {det : FType → List D} {w : World P}
    {r : World P × Bool} (h : w.addAll k cov env det = .ok r) : Micros k w r.1 := by
  unfold World.addAll at h
  split at h
  · injection h with h; rw [← h]; exact .refl w
  · exact eachMap_micros addOne_micros order _ h

theorem step_micros {k : FType → Kind P D Env} (hk : ∀ t, (k t).type = t) {cov : Env → Bool}
    {op : WOp D Env} {w w' : World P} (h : World.step k cov op w = .ok w') : Micros k w w' := by
  cases op with
  | find lt env det => injection h with h; rw [← h]; exact find_micros ..
  | update fuel env det outliers =>
    obtain ⟨r, h1, h⟩ := Outcome.bind_eq_ok h
    injection h with h; rw [← h]; exact update_micros hk h1
  | noPose => injection h with h; rw [← h]; exact noPose_micros ..
  | addAll env det =>
    obtain ⟨r, h1, h⟩ := Outcome.bind_eq_ok h
    injection h with h; rw [← h]; exact addAll_micros h1
  | reset => injection h with h; rw [← h]; exact reset_micros ..
  | rehash t a b =>
    simp only [World.step, Map.step, Outcome.map, Outcome.bind_ok] at h
    injection h with h; rw [← h]; exact Micros.one t (.rehash a b) nofun rfl

theorem run_micros {k : FType → Kind P D Env} (hk : ∀ t, (k t).type = t) {cov : Env → Bool}
    {ops : List (WOp D Env)} {w w' : World P} (h : World.run k cov ops w = .ok w') : Micros k w w' := by
  induction ops generalizing w with
  | nil => injection h with h; rw [h]; exact .refl _
  | cons op ops ih =>
    obtain ⟨w1, h1, h⟩ := Outcome.bind_eq_ok h
    exact (step_micros hk h1).trans (ih h)

/-! ### One map inside the world -/

theorem run_snoc {k : Kind P D Env} {ops : List (Op P D Env)} {op : Op P D Env} {s s1 s' : State P}
    (h : run k ops s = .ok s1) (h' : step k op s1 = .ok s') : run k (ops ++ [op]) s = .ok s' := by
  induction ops generalizing s with
  | nil =>
    injection h with h; subst h
    simp [run, h']
  | cons o ops ih =>
    obtain ⟨s2, h1, h⟩ := Outcome.bind_eq_ok h
    simp only [List.cons_append, run, h1, Outcome.bind_ok]
    exact ih h

theorem micros_view {k : FType → Kind P D Env} {w w' : World P} (h : Micros k w w') (t : FType) :
    ∃ ops : List (Op P D Env), .deactivate ∉ ops ∧ run (k t) ops (w.view t) = .ok (w'.view t) := by
  induction h with
  | refl => exact ⟨[], by simp, rfl⟩
  | @step w1 u op s _ hd hs ih =>
    obtain ⟨ops, hn, hr⟩ := ih
    by_cases hu : t = u
    · subst hu
      refine ⟨ops ++ [op], ?_, ?_⟩
      · rw [List.mem_append, List.mem_singleton]; rintro (h | h)
        · exact hn h
        · exact hd h.symm
      · rw [view_put_same]; exact run_snoc hr hs
    · obtain ⟨n, ha⟩ := step_alloc hs
      refine ⟨ops ++ [.foreignIds n], ?_, ?_⟩
      · rw [List.mem_append, List.mem_singleton]; rintro (h | h)
        · exact hn h
        · cases h
      · rw [view_put_other hu, ha]
        exact run_snoc hr rfl

theorem micros_given {k : FType → Kind P D Env} {w w' : World P} (h : Micros k w w') :
    w.alloc.given ≤ w'.alloc.given := by
  induction h with
  | refl => exact Nat.le_refl _
  | step t op _ _ hs ih =>
    have := given_step hs
    exact Nat.le_trans ih this

/-! ### Ids over all maps -/

/-- The ids of a map: stored and written. -/
def idsOf (s : State P) : List Nat :=
  keys s.map.localMap ++ keys s.map.staged ++ s.written.map (·.id)

theorem step_idsOf {k : Kind P D Env} {op : Op P D Env} {s s' : State P} (h : Inv s)
    (hr : step k op s = .ok s') (hlt : s'.alloc.given < 2 ^ 64) {x : Nat} (hx : x ≤ s.alloc.given)
    (hm : x ∈ idsOf s') : x ∈ idsOf s := by
  unfold idsOf at hm ⊢
  rcases List.mem_append.1 hm with hm | hm
  · rw [List.mem_append]
    refine .inl (Classical.byContradiction fun hn => ?_)
    exact observe_absent.1 (step_ids h hr hlt hx (observe_absent.2 hn)) hm
  · obtain ⟨wr, e, hw⟩ := step_written h hr
    rw [e, List.map_append, List.mem_append] at hm
    rcases hm with hm | hm
    · exact List.mem_append.2 (.inr hm)
    · obtain ⟨g, hg, rfl⟩ := List.mem_map.1 hm
      exact List.mem_append.2 (.inl (List.mem_append.2 (.inl (hw g hg).2.1)))

structure WInv (w : World P) : Prop where
  each : ∀ t, Inv (w.view t)
  apart : ∀ t u, t ≠ u → ∀ x ∈ idsOf (w.view t), x ∉ idsOf (w.view u)

theorem winv_init : WInv (World.init : World P) where
  each _ := inv_init
  apart _ _ _ x hx := by simp [idsOf, World.view, World.init, FMap.empty] at hx

theorem idsOf_le {s : State P} (h : Inv s) {x : Nat} (hx : x ∈ idsOf s) : x ≤ s.alloc.given := by
  rcases List.mem_append.1 hx with hx | hx
  · exact (h.range x hx).2
  · exact (h.wrange x hx).2

theorem winv_micros {k : FType → Kind P D Env} {w w' : World P} (h : Micros k w w') (hi : WInv w)
    (hlt : w'.alloc.given < 2 ^ 64) : WInv w' := by
  induction h with
  | refl => exact hi
  | @step w1 t op s hm hd hs ih =>
    have hg := given_step hs
    have hlt' : s.alloc.given < 2 ^ 64 := hlt
    have ih := ih (Nat.lt_of_le_of_lt hg hlt')
    obtain ⟨n, ha⟩ := step_alloc hs
    have other : ∀ u, u ≠ t → idsOf ((w1.put t s).view u) = idsOf (w1.view u) := by
      intro u hu; rw [view_put_other hu]; rfl
    have key : ∀ u, u ≠ t → ∀ x, x ∈ idsOf s → x ∈ idsOf (w1.view u) → False := by
      intro u hu x hx hx'
      have := idsOf_le (ih.each u) hx'
      exact ih.apart t u (fun h => hu h.symm) x (step_idsOf (ih.each t) hs hlt' this hx) hx'
    constructor
    · intro u
      by_cases hu : u = t
      · subst hu; rw [view_put_same]; exact inv_step (ih.each u) hs hlt'
      · rw [view_put_other hu, ha]
        have : Map.step (k u) (.foreignIds n) (w1.view u) =
            .ok { w1.view u with alloc := w1.alloc.skip n } := rfl
        refine inv_step (ih.each u) this ?_
        change (w1.alloc.skip n).given < 2 ^ 64
        have e : (w1.view t).alloc = w1.alloc := rfl
        rw [e] at ha
        rw [← ha]; exact hlt'
    · intro u v huv x hx hx'
      by_cases hu : u = t
      · subst hu
        rw [view_put_same] at hx
        rw [other v (fun h => huv h.symm)] at hx'
        exact key v (fun h => huv h.symm) x hx hx'
      · rw [other u hu] at hx
        by_cases hv : v = t
        · subst hv; rw [view_put_same] at hx'; exact key u hu x hx' hx
        · rw [other v hv] at hx'
          exact ih.apart u v huv x hx hx'

end RgbdSlam.Map
