import Verif.Lemmas.FeatureMapRefine
/-
Closed forms of the life of a feature.
-/
namespace RgbdSlam.Map

variable {P D Env : Type}

/-- misses since the last match -/
def trail (es : List Bool) : Nat := (es.reverse.takeWhile (! ·)).length

@[simp] theorem trail_nil : trail [] = 0 := rfl
@[simp] theorem trail_true (es : List Bool) : trail (es ++ [true]) = 0 := by simp [trail]
@[simp] theorem trail_false (es : List Bool) : trail (es ++ [false]) = trail es + 1 := by
  simp [trail]

theorem net_append (a b : List Bool) : net (a ++ b) = net a + net b := by
  simp only [net, List.count_append]; omega

@[simp] theorem net_nil : net [] = 0 := rfl
@[simp] theorem net_true : net [true] = 1 := rfl
@[simp] theorem net_false : net [false] = -1 := rfl

theorem suffix_trail (k : Nat) (es : List Bool) : List.replicate k false <:+ es ↔ k ≤ trail es := by
  rw [← List.reverse_prefix, List.reverse_replicate]
  unfold trail
  generalize es.reverse = l
  induction l generalizing k with
  | nil =>
    cases k with
    | zero => simp
    | succ k => simp [List.replicate_succ]
  | cons b l ih =>
    cases k with
    | zero => simp
    | succ k =>
      rw [List.replicate_succ, List.cons_prefix_cons, ih]
      cases b <;> simp

theorem missesInARow_concat {k : Nat} {es : List Bool} {b : Bool} :
    MissesInARow k (es ++ [b]) ↔ MissesInARow k es ∨ k ≤ trail (es ++ [b]) := by
  unfold MissesInARow
  rw [List.infix_concat_iff, suffix_trail]
  exact Or.comm

theorem missesInARow_nil {k : Nat} : MissesInARow k [] ↔ k = 0 := by
  unfold MissesInARow
  rw [List.infix_nil, List.replicate_eq_nil_iff]

/-- induction from the end -/
theorem snoc_induction {motive : List Bool → Prop} (nil : motive [])
    (snoc : ∀ es b, motive es → motive (es ++ [b])) (es : List Bool) : motive es := by
  rw [← es.reverse_reverse]
  generalize es.reverse = l
  induction l with
  | nil => exact nil
  | cons b l ih => rw [List.reverse_cons]; exact snoc _ _ ih

theorem foldl_absent (r : Rule) (es : List Bool) : es.foldl (lifeStep r) .absent = .absent := by
  induction es with
  | nil => rfl
  | cons b es ih => simpa [lifeStep] using ih

/-- a rule that loses map features after `k` misses in a row -/
def LosesAt (r : Rule) (k : Nat) : Prop := 0 < k ∧ ∀ m, r.lost m = decide (k ≤ m)

theorem foldl_mapped {r : Rule} {k : Nat} (hk : LosesAt r k) (es : List Bool) :
    (MissesInARow k es → es.foldl (lifeStep r) (.mapped 0) = .absent) ∧
    (¬ MissesInARow k es → es.foldl (lifeStep r) (.mapped 0) = .mapped (trail es) ∧ trail es < k) := by
  induction es using snoc_induction with
  | nil =>
    rw [missesInARow_nil]
    have := hk.1
    constructor
    · intro h; omega
    · intro _; exact ⟨rfl, by simpa using this⟩
  | snoc es b ih =>
    rw [List.foldl_append, missesInARow_concat]
    simp only [List.foldl_cons, List.foldl_nil]
    by_cases hm : MissesInARow k es
    · rw [ih.1 hm]
      simp [hm, lifeStep]
    · obtain ⟨e, hlt⟩ := ih.2 hm
      rw [e]
      have hk0 := hk.1
      cases b with
      | true =>
        have : r.lost 0 = false := by rw [hk.2]; simp; omega
        simp only [hm, trail_true, false_or, lifeStep, this, Bool.false_eq_true, if_false]
        constructor
        · intro; omega
        · intro; exact ⟨trivial, hk0⟩
      | false =>
        simp only [hm, trail_false, false_or, lifeStep, hk.2]
        constructor
        · intro h; simp [h]
        · intro h; exact ⟨by simp [h], by omega⟩

/-- the decision predicates of a rule -/
structure Decides (r : Rule) (U : List Bool → Prop) (A : List Bool → Prop) : Prop where
  nil : U []
  snoc : ∀ es b, U (es ++ [b]) ↔ U es ∧ r.add (net (es ++ [b])) (trail (es ++ [b])) = false ∧
    r.remove (net (es ++ [b])) (trail (es ++ [b])) = false
  add : ∀ es b, U es → (A (es ++ [b]) ↔ r.add (net (es ++ [b])) (trail (es ++ [b])) = true)

def PromAt (U A : List Bool → Prop) (n : Nat) (es : List Bool) : Prop :=
  0 < n ∧ n ≤ es.length ∧ A (es.take n) ∧ U (es.take (n - 1))

theorem foldl_staged {r : Rule} {U A : List Bool → Prop} (h : Decides r U A) (es : List Bool) :
    (U es → es.foldl (lifeStep r) (.staged 0 0) = .staged (net es) (trail es)) ∧
    (∀ n, PromAt U A n es →
      es.foldl (lifeStep r) (.staged 0 0) = (es.drop n).foldl (lifeStep r) (.mapped 0)) ∧
    (¬ U es → (∀ n, ¬ PromAt U A n es) → es.foldl (lifeStep r) (.staged 0 0) = .absent) := by
  induction es using snoc_induction with
  | nil =>
    refine ⟨fun _ => rfl, ?_, fun hu => absurd h.nil hu⟩
    rintro n ⟨h1, h2, -⟩
    simp at h2; omega
  | snoc es b ih =>
    rw [List.foldl_append]
    simp only [List.foldl_cons, List.foldl_nil]
    have hnext : U es → lifeStep r (es.foldl (lifeStep r) (.staged 0 0)) b =
        stagedNext r (net (es ++ [b])) (trail (es ++ [b])) := by
      intro hu
      rw [ih.1 hu]
      cases b with
      | true => simp [lifeStep, net_append]
      | false => simp [lifeStep, net_append, Int.sub_eq_add_neg]
    refine ⟨?_, ?_, ?_⟩
    · intro hu
      obtain ⟨hu', ha, hr⟩ := (h.snoc es b).1 hu
      rw [hnext hu']
      simp [stagedNext, ha, hr]
    · rintro n ⟨h1, h2, h3, h4⟩
      simp only [List.length_append, List.length_singleton] at h2
      by_cases hn : n ≤ es.length
      · rw [List.take_append_of_le_length hn] at h3
        rw [List.take_append_of_le_length (by omega)] at h4
        rw [ih.2.1 n ⟨h1, hn, h3, h4⟩, List.drop_append_of_le_length hn, List.foldl_append]
        rfl
      · have hn2 : n = es.length + 1 := by omega
        subst hn2
        have hu : U es := by simpa using h4
        have ha : A (es ++ [b]) := by
          rw [List.take_of_length_le (by simp)] at h3; exact h3
        rw [hnext hu]
        rw [h.add es b hu] at ha
        simp [stagedNext, ha]
    · intro hu hp
      by_cases hu' : U es
      · rw [hnext hu']
        have ha : r.add (net (es ++ [b])) (trail (es ++ [b])) = false := by
          cases hc : r.add (net (es ++ [b])) (trail (es ++ [b])) with
          | false => rfl
          | true =>
            exfalso
            refine hp (es.length + 1) ⟨by omega, by simp, ?_, by simpa using hu'⟩
            rw [List.take_of_length_le (by simp)]
            exact (h.add es b hu').2 hc
        have hr : r.remove (net (es ++ [b])) (trail (es ++ [b])) = true := by
          cases hc : r.remove (net (es ++ [b])) (trail (es ++ [b])) with
          | true => rfl
          | false => exact absurd ((h.snoc es b).2 ⟨hu', ha, hc⟩) hu
        simp [stagedNext, ha, hr]
      · rw [ih.2.2 hu' ?_]
        · rfl
        · rintro n ⟨h1, h2, h3, h4⟩
          refine hp n ⟨h1, by simp; omega, ?_, ?_⟩
          · rw [List.take_append_of_le_length h2]; exact h3
          · rw [List.take_append_of_le_length (by omega)]; exact h4

/-- where a new candidate ends up -/
theorem place_of_events {r : Rule} {U A : List Bool → Prop} (h : Decides r U A) {k : Nat}
    (hk : LosesAt r k) (es : List Bool) :
    ((es.foldl (lifeStep r) (.staged 0 0)).place = .staged ↔ U es) ∧
    ((es.foldl (lifeStep r) (.staged 0 0)).place = .mapped ↔
      ∃ n, PromAt U A n es ∧ ¬ MissesInARow k (es.drop n)) := by
  obtain ⟨a1, a2, a3⟩ := foldl_staged h es
  by_cases hp : ∃ n, PromAt U A n es
  · obtain ⟨n, hn⟩ := hp
    classical
    have key : ∀ n, PromAt U A n es → (es.foldl (lifeStep r) (.staged 0 0)).place =
        if MissesInARow k (es.drop n) then Place.absent else Place.mapped := by
      intro n hn
      rw [a2 n hn]
      by_cases hm : MissesInARow k (es.drop n)
      · rw [(foldl_mapped hk _).1 hm]; simp [Status.place, hm]
      · rw [((foldl_mapped hk _).2 hm).1]; simp [Status.place, hm]
    have hns : (es.foldl (lifeStep r) (.staged 0 0)).place ≠ .staged := by
      rw [key n hn]; split <;> simp
    constructor
    · constructor
      · intro hc; exact absurd hc hns
      · intro hu; rw [a1 hu] at hns; exact absurd rfl hns
    · constructor
      · intro hc
        refine ⟨n, hn, fun hm => ?_⟩
        rw [key n hn, if_pos hm] at hc; cases hc
      · rintro ⟨n', hn', hm⟩
        rw [key n' hn', if_neg hm]
  · have hp' : ∀ n, ¬ PromAt U A n es := fun n hn => hp ⟨n, hn⟩
    by_cases hu : U es
    · rw [a1 hu]
      simp only [Status.place, hu, reduceCtorEq, false_iff]
      exact ⟨trivial, fun ⟨n, hn, _⟩ => hp' n hn⟩
    · rw [a3 hu hp']
      simp only [Status.place, hu, reduceCtorEq, false_iff]
      exact ⟨trivial, fun ⟨n, hn, _⟩ => hp' n hn⟩

/-! ### points -/

theorem confidence_nonpos (n : Int) : confidence n ≤ 0 ↔ n ≤ 0 := by
  unfold confidence
  rcases Int.lt_or_le 0 n with h | h
  · have h2 : ((1 : Int) : Rat) ≤ (n : Rat) := Rat.intCast_le_intCast.2 h
    simp only [Rat.intCast_one] at h2
    grind
  · have h2 : (n : Rat) ≤ ((0 : Int) : Rat) := Rat.intCast_le_intCast.2 h
    simp only [Rat.intCast_zero] at h2
    grind

theorem confidence_enough (n : Int) : minimumConfidence < confidence n ↔ 3 ≤ n := by
  unfold confidence minimumConfidence
  rcases Int.lt_or_le n 3 with h | h
  · have h2 : (n : Rat) ≤ ((2 : Int) : Rat) := Rat.intCast_le_intCast.2 (by omega)
    have h3 : ((2 : Int) : Rat) = 2 := rfl
    rw [h3] at h2
    grind
  · have h2 : ((3 : Int) : Rat) ≤ (n : Rat) := Rat.intCast_le_intCast.2 h
    have h3 : ((3 : Int) : Rat) = 3 := rfl
    rw [h3] at h2
    grind

def pointRule : Rule where
  add n _ := decide (3 ≤ n)
  remove n _ := decide (n ≤ 0)
  lost m := decide (11 ≤ m)
  addMiss n m h := by simp at h ⊢; omega
  addNew := by decide

def planeRule : Rule where
  add n _ := decide (4 ≤ n)
  remove _ m := decide (2 ≤ m)
  lost m := decide (10 ≤ m)
  addMiss n m h := by simp at h ⊢; omega
  addNew := by decide

theorem point_follows (o : PointOps P D Env) (hc : ∀ b, o.copy b ≠ none) :
    Follows (pointKind o) pointRule where
  add f := by simp [pointKind, pointRule, confidence_enough]
  remove f := by simp [pointKind, pointRule, confidence_nonpos]
  lost f := by simp [pointKind, pointRule]; omega
  promote f := hc f.body

theorem point2d_follows (o : PointOps P D Env) (hc : ∀ b, o.copy b ≠ none) :
    Follows (point2dKind o) pointRule where
  add f := by simp [point2dKind, pointRule, confidence_enough]
  remove f := by simp [point2dKind, pointRule, confidence_nonpos]
  lost f := by simp [point2dKind, pointRule]; omega
  promote f := hc f.body

theorem plane_follows (o : PlaneOps P D Env) (hc : ∀ b, o.copy b ≠ none) :
    Follows (planeKind o) planeRule where
  add f := by simp [planeKind, planeRule]
  remove f := by simp [planeKind, planeRule]
  lost f := by simp [planeKind, planeRule]
  promote f := hc f.body

theorem point_loses : LosesAt pointRule 11 := ⟨by omega, fun _ => rfl⟩
theorem plane_loses : LosesAt planeRule 10 := ⟨by omega, fun _ => rfl⟩

theorem pointUndecided_snoc (es : List Bool) (b : Bool) :
    PointUndecided (es ++ [b]) ↔
      PointUndecided es ∧ 0 < net (es ++ [b]) ∧ net (es ++ [b]) < 3 := by
  unfold PointUndecided
  constructor
  · intro h
    refine ⟨fun m h0 hm => ?_, ?_⟩
    · have := h m h0 (by simp; omega)
      rwa [List.take_append_of_le_length hm] at this
    · have := h (es.length + 1) (by omega) (by simp)
      rwa [List.take_of_length_le (by simp)] at this
  · rintro ⟨h1, h2⟩ m h0 hm
    by_cases hm2 : m ≤ es.length
    · rw [List.take_append_of_le_length hm2]; exact h1 m h0 hm2
    · simp only [List.length_append, List.length_singleton] at hm
      rw [List.take_of_length_le (by simp; omega)]; exact h2

theorem net_snoc_le (es : List Bool) (b : Bool) : net (es ++ [b]) ≤ net es + 1 := by
  rw [net_append]; cases b <;> simp

theorem point_net_lt {es : List Bool} (h : PointUndecided es) : net es < 3 := by
  by_cases h0 : es.length = 0
  · rw [List.length_eq_zero_iff] at h0; subst h0; decide
  · have := (h es.length (by omega) (Nat.le_refl _)).2
    rwa [List.take_length] at this

theorem point_decides : Decides pointRule PointUndecided (fun es => net es = 3) where
  nil := by intro m h1 h2; simp at h2; omega
  snoc es b := by
    rw [pointUndecided_snoc]
    simp only [pointRule, decide_eq_false_iff_not, Int.not_le]
    constructor
    · rintro ⟨a, b, c⟩; exact ⟨a, c, b⟩
    · rintro ⟨a, b, c⟩; exact ⟨a, c, b⟩
  add es b hu := by
    have h1 := net_snoc_le es b
    have h2 := point_net_lt hu
    simp only [pointRule, decide_eq_true_eq]
    omega

theorem planeUndecided_snoc (es : List Bool) (b : Bool) :
    PlaneUndecided (es ++ [b]) ↔
      PlaneUndecided es ∧ net (es ++ [b]) < 4 ∧ trail (es ++ [b]) < 2 := by
  unfold PlaneUndecided
  rw [missesInARow_concat, not_or, Nat.not_le]
  constructor
  · rintro ⟨h, h3, h4⟩
    refine ⟨⟨fun m hm => ?_, h3⟩, ?_, h4⟩
    · have := h m (by simp; omega)
      rwa [List.take_append_of_le_length hm] at this
    · have := h (es.length + 1) (by simp)
      rwa [List.take_of_length_le (by simp)] at this
  · rintro ⟨⟨h1, h3⟩, h2, h4⟩
    refine ⟨fun m hm => ?_, h3, h4⟩
    by_cases hm2 : m ≤ es.length
    · rw [List.take_append_of_le_length hm2]; exact h1 m hm2
    · simp only [List.length_append, List.length_singleton] at hm
      rw [List.take_of_length_le (by simp; omega)]; exact h2

theorem plane_decides : Decides planeRule PlaneUndecided (fun es => net es = 4) where
  nil := by
    refine ⟨fun m h => ?_, ?_⟩
    · simp
    · rw [missesInARow_nil]; omega
  snoc es b := by
    rw [planeUndecided_snoc]
    simp only [planeRule, decide_eq_false_iff_not, Int.not_le, Nat.not_le]
  add es b hu := by
    have h1 := net_snoc_le es b
    have h2 : net es < 4 := by
      have := hu.1 es.length (Nat.le_refl _)
      rwa [List.take_length] at this
    simp only [planeRule, decide_eq_true_eq]
    omega

/-! ### how features enter -/

theorem stageOne_mem {k : Kind P D Env} {env : Env} {d : D} {s : State P} {p : Nat × Feat P}
    (hp : p ∈ (stageOne k env d s).map.staged) :
    p ∈ s.map.staged ∨ (p.2.succ = 0 ∧ p.2.failed = 0) := by
  unfold stageOne at hp
  split at hp
  · split at hp
    · simp only [emplace] at hp
      split at hp
      · exact .inl hp
      · rcases List.mem_append.1 hp with hp | hp
        · exact .inl hp
        · simp only [List.mem_singleton] at hp
          subst hp
          exact .inr ⟨rfl, rfl⟩
    · split at hp <;> exact .inl hp
  · exact .inl hp

theorem stageFrom_mem {k : Kind P D Env} {env : Env} {used : List Nat} {i : Nat} {ds : List D}
    {s : State P} {p : Nat × Feat P} (hp : p ∈ (stageFrom k env used i ds s).map.staged) :
    p ∈ s.map.staged ∨ (p.2.succ = 0 ∧ p.2.failed = 0) := by
  induction ds generalizing i s with
  | nil => exact .inl hp
  | cons d ds ih =>
    simp only [stageFrom] at hp
    split at hp
    · exact ih hp
    · rcases ih hp with hp | hp
      · exact stageOne_mem hp
      · exact .inr hp

theorem stageFrom_local {k : Kind P D Env} {env : Env} {used : List Nat} {i : Nat} {ds : List D}
    {s : State P} : (stageFrom k env used i ds s).map.localMap = s.map.localMap := by
  induction ds generalizing i s with
  | nil => rfl
  | cons d ds ih =>
    simp only [stageFrom]
    split
    · exact ih
    · rw [ih]
      unfold stageOne
      split
      · split
        · rfl
        · split <;> rfl
      · rfl

theorem addUpgraded_mem {k : Kind P D Env} {us : List (Upgrade P)} {s : State P} {p : Nat × Feat P}
    (hp : p ∈ (addUpgraded k us s).1.map.localMap) : p ∈ s.map.localMap ∨ p.2.failed = 0 := by
  induction us generalizing s with
  | nil => exact .inl hp
  | cons u us ih =>
    simp only [addUpgraded] at hp
    split at hp
    · split at hp
      · exact ih hp
      · exact .inl hp
      · rcases ih hp with hp | hp
        · simp only [emplace] at hp
          split at hp
          · exact .inl hp
          · rcases List.mem_append.1 hp with hp | hp
            · exact .inl hp
            · simp only [List.mem_singleton] at hp
              subst hp
              exact .inr rfl
        · exact .inr hp
    · exact ih hp

theorem step_keys {k : Kind P D Env} {op : Op P D Env} {s s' : State P} (h : Inv s)
    (hr : step k op s = .ok s') :
    (∀ p ∈ s'.map.staged, p.1 ∈ keys s.map.staged ∨ (p.2.succ = 0 ∧ p.2.failed = 0)) ∧
    (∀ p ∈ s'.map.localMap, p.1 ∈ keys s.map.localMap ++ keys s.map.staged ∨ p.2.failed = 0) := by
  have self : ∀ {l : Store P} {p : Nat × Feat P}, p ∈ l → p.1 ∈ keys l :=
    fun hp => List.mem_map_of_mem hp
  have same : (∀ p ∈ s.map.staged, p.1 ∈ keys s.map.staged ∨ (p.2.succ = 0 ∧ p.2.failed = 0)) ∧
      (∀ p ∈ s.map.localMap, p.1 ∈ keys s.map.localMap ++ keys s.map.staged ∨ p.2.failed = 0) :=
    ⟨fun p hp => .inl (self hp), fun p hp => .inl (List.mem_append.2 (.inl (self hp)))⟩
  have sub : ∀ {a b : Store P}, (keys a).Sublist (keys s.map.localMap) →
      (keys b).Sublist (keys s.map.staged) →
      (∀ p ∈ b, p.1 ∈ keys s.map.staged ∨ (p.2.succ = 0 ∧ p.2.failed = 0)) ∧
      (∀ p ∈ a, p.1 ∈ keys s.map.localMap ++ keys s.map.staged ∨ p.2.failed = 0) :=
    fun ha hb => ⟨fun p hp => .inl (hb.subset (self hp)),
      fun p hp => .inl (List.mem_append.2 (.inl (ha.subset (self hp))))⟩
  cases op with
  | find env det =>
    simp [step] at hr; subst hr
    have hc := getMatches_core k env det s.map
    exact sub (by rw [keys_of_core hc.1]; exact List.Sublist.refl _)
      (by rw [keys_of_core hc.2.1]; exact List.Sublist.refl _)
  | update fuel env det =>
    simp only [step] at hr
    split at hr
    · simp at hr; subst hr; exact same
    · simp only [Outcome.map] at hr
      obtain ⟨⟨s2, used⟩, h1, hr⟩ := Outcome.bind_eq_ok hr
      simp only [Outcome.ok.injEq] at hr
      subst hr
      unfold updateMap at h1
      split at h1
      · simp at h1; rw [← h1.1]; exact same
      · split at h1
        · simp at h1
        · obtain ⟨⟨loc, used1, wr⟩, h2, h1⟩ := Outcome.bind_eq_ok h1
          obtain ⟨⟨stg, loc', used2⟩, h3, h1⟩ := Outcome.bind_eq_ok h1
          simp at h1
          rw [← h1.1]
          obtain ⟨a1, a2, a3, a4⟩ := updateLocal_sub h2
          have hnd := h.nodup
          rw [List.nodup_append] at hnd
          have hn2 : (keys s.map.staged ++ keys loc).Nodup := by
            rw [List.nodup_append]
            refine ⟨hnd.2.1, hnd.1.sublist a1, ?_⟩
            intro x hx y hy hxy
            exact hnd.2.2 y (a1.subset hy) x hx hxy.symm
          obtain ⟨b1, b2, b3, b4, b5, b6⟩ := updateStaged_sub h3 h.keyedS (a2 h.keyedL) hn2
          refine ⟨fun p hp => .inl (b1.subset (self hp)), fun p hp => .inl ?_⟩
          rcases b5 _ (self hp) with hx | hx
          · exact List.mem_append.2 (.inr hx)
          · exact List.mem_append.2 (.inl (a1.subset hx))
  | noTracking =>
    simp [step] at hr; subst hr
    unfold updateNoTracking
    split
    · exact same
    · exact sub (missLocal_sub k _).1 (missStaged_sub k _).1
  | stage env det used =>
    simp only [step] at hr
    split at hr
    · simp at hr; subst hr; exact same
    · rcases stage_cases hr with rfl | rfl
      · exact same
      · refine ⟨fun p hp => ?_, fun p hp => ?_⟩
        · rcases stageFrom_mem hp with hp | hp
          · exact .inl (self hp)
          · exact .inr hp
        · rw [stageFrom_local] at hp
          exact .inl (List.mem_append.2 (.inl (self hp)))
  | outliers ms =>
    simp [step] at hr; subst hr
    have hc := markOutliers_core k.type ms s.map
    exact sub (by rw [keys_of_core hc.1]; exact List.Sublist.refl _)
      (by rw [keys_of_core hc.2.1]; exact List.Sublist.refl _)
  | takeUpgrades env =>
    simp [step] at hr; subst hr
    exact sub (keys_sublist (takeUpgraded_sub k env _)) (keys_sublist (takeUpgraded_sub k env _))
  | addUpgrades us =>
    simp [step] at hr; subst hr
    refine ⟨fun p hp => ?_, fun p hp => ?_⟩
    · rw [addUpgraded_staged] at hp; exact .inl (self hp)
    · rcases addUpgraded_mem hp with hp | hp
      · exact .inl (List.mem_append.2 (.inl (self hp)))
      · exact .inr hp
  | reset =>
    simp [step] at hr; subst hr
    unfold reset
    split
    · exact same
    · exact sub (by simp) (by simp)
  | deactivate => simp [step] at hr; subst hr; exact same
  | foreignIds n => simp [step] at hr; subst hr; exact same
  | rehash a b =>
    simp [step] at hr; subst hr
    exact ⟨fun p hp => .inl (self ((b.perm _).mem_iff.1 hp)),
      fun p hp => .inl (List.mem_append.2 (.inl (self ((a.perm _).mem_iff.1 hp))))⟩

theorem observe_new {k : Kind P D Env} {op : Op P D Env} {s s' : State P} (h : Inv s)
    (hr : step k op s = .ok s') {x : Nat} (hx : observe s x = .absent) :
    (∀ n m, observe s' x = .staged n m → n = 0 ∧ m = 0) ∧
    (∀ m, observe s' x = .mapped m → m = 0) := by
  rw [observe_absent] at hx
  obtain ⟨h1, h2⟩ := step_keys h hr
  unfold observe
  constructor
  · intro n m ho
    split at ho
    · cases ho
    · split at ho
      · rename_i f hf
        simp only [Status.staged.injEq] at ho
        rcases h1 _ (lookup_mem hf) with hc | hc
        · exact absurd (List.mem_append.2 (.inr hc)) hx
        · exact ⟨ho.1 ▸ hc.1, ho.2 ▸ hc.2⟩
      · cases ho
  · intro m ho
    split at ho
    · rename_i f hf
      simp only [Status.mapped.injEq] at ho
      rcases h2 _ (lookup_mem hf) with hc | hc
      · exact absurd hc hx
      · exact ho ▸ hc
    · split at ho <;> cases ho

end RgbdSlam.Map
