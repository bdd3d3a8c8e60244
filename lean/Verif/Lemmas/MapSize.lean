import Verif.Props.MapMatching
import Verif.Lemmas.System
import Mathlib.Data.List.Perm.Subperm
/-
Counting the features of a map by the number of frames since they were last seen.
-/
namespace RgbdSlam.Map

variable {P D Env : Type}

/-- Number of features not seen for exactly `j` frames. -/
def unseen (j : Nat) (l : Store P) : Nat := l.countP fun p => p.2.failed == j

@[simp] theorem unseen_nil (j : Nat) : unseen j ([] : Store P) = 0 := rfl

theorem unseen_cons (j : Nat) (p : Nat × Feat P) (l : Store P) :
    unseen j (p :: l) = unseen j l + if p.2.failed = j then 1 else 0 := by
  simp [unseen, List.countP_cons]

theorem unseen_append (j : Nat) (a b : Store P) : unseen j (a ++ b) = unseen j a + unseen j b := by
  simp [unseen]

theorem unseen_core {a b : Store P} (h : a.map core = b.map core) (j : Nat) : unseen j a = unseen j b := by
  have e : ∀ l : Store P, unseen j l = (l.map core).countP fun c => c.2.2.1 == j := by
    intro l
    simp only [unseen, List.countP_map]
    rfl
  rw [e, e, h]

theorem unseen_sublist {a b : Store P} (h : a.Sublist b) (j : Nat) : unseen j a ≤ unseen j b :=
  h.countP_le

/-- A store whose features were all seen less than `n` frames ago. -/
theorem length_le_of_unseen {l : Store P} {n M : Nat} (h : ∀ p ∈ l, p.2.failed < n)
    (hM : ∀ j, unseen j l ≤ M) : l.length ≤ n * M := by
  have key : ∀ n, (l.countP fun p => decide (p.2.failed < n)) ≤ n * M := by
    intro n
    induction n with
    | zero => simp
    | succ n ih =>
      have : (l.countP fun p => decide (p.2.failed < n + 1)) ≤
          (l.countP fun p => decide (p.2.failed < n)) + unseen n l := by
        clear ih hM h
        induction l with
        | nil => simp
        | cons p l ih =>
          rw [unseen_cons, List.countP_cons, List.countP_cons]
          by_cases h1 : p.2.failed < n
          · simp only [h1, decide_true, if_true, show p.2.failed < n + 1 by omega]; omega
          · by_cases h2 : p.2.failed = n
            · simp only [h2, decide_true, if_true, show n < n + 1 by omega]; omega
            · simp only [h1, h2, decide_false, if_false, show ¬ p.2.failed < n + 1 by omega]; simpa using ih
      have := hM n
      rw [Nat.succ_mul]; omega
  have h2 := key n
  rwa [List.countP_eq_length.2 (by simpa using h)] at h2

/-- What the counters of a feature type obey: map features are lost before `L + 1` misses, candidates satisfy
`S` (counts of matches and misses) as long as they are candidates, a miss does not promote a candidate and
copying a candidate into the map does not throw. -/
structure Counters (k : Kind P D Env) (L : Nat) (S : Int → Nat → Prop) : Prop where
  lost : ∀ f, k.isLost f = false → f.failed ≤ L
  start : S 0 0
  small : ∀ s n, S s n → n ≤ L
  keeps : ∀ f hit, S f.succ f.failed → k.shouldAdd (settle hit f) = false →
    k.shouldRemove (settle hit f) = false → S (settle hit f).succ (settle hit f).failed
  miss : ∀ f, S f.succ f.failed → k.shouldAdd (settle false f) = false
  copy : ∀ f, ∃ b, k.promote f = some b

/-- At most `M` features were last seen `j` frames ago, for every `j`. -/
structure Bounded (L M : Nat) (S : Int → Nat → Prop) (m : FMap P) : Prop where
  few : ∀ j, unseen j m.localMap + unseen j m.staged ≤ M
  loc : ∀ p ∈ m.localMap, p.2.failed ≤ L
  stg : ∀ p ∈ m.staged, S p.2.succ p.2.failed

theorem Bounded.size {k : Kind P D Env} {L M : Nat} {S : Int → Nat → Prop} {m : FMap P} (hk : Counters k L S)
    (h : Bounded L M S m) : m.localMap.length + m.staged.length ≤ (L + 1) * M := by
  rw [← List.length_append]
  apply length_le_of_unseen
  · intro p hp
    rcases List.mem_append.1 hp with hp | hp
    · have := h.loc p hp; omega
    · have := hk.small _ _ (h.stg p hp); omega
  · intro j; rw [unseen_append]; exact h.few j

theorem bounded_core {L M : Nat} {S : Int → Nat → Prop} {m m' : FMap P}
    (hl : m'.localMap.map core = m.localMap.map core) (hs : m'.staged.map core = m.staged.map core)
    (h : Bounded L M S m) : Bounded L M S m' where
  few j := by rw [unseen_core hl, unseen_core hs]; exact h.few j
  loc p hp := by
    have : core p ∈ m.localMap.map core := hl ▸ List.mem_map_of_mem hp
    obtain ⟨q, hq, e⟩ := List.mem_map.1 this
    have := h.loc q hq
    simp only [core, Prod.mk.injEq] at e
    omega
  stg p hp := by
    have : core p ∈ m.staged.map core := hs ▸ List.mem_map_of_mem hp
    obtain ⟨q, hq, e⟩ := List.mem_map.1 this
    have := h.stg q hq
    simp only [core, Prod.mk.injEq] at e
    rw [← e.2.2.1, ← e.2.2.2.1]; exact this

/-! ### Outliers -/

theorem eraseMatch_sublist (key d : Nat) (l : Store P) :
    ((eraseMatch key d l).flatMap (·.2.matched)).Sublist (l.flatMap (·.2.matched)) := by
  induction l with
  | nil => exact List.Sublist.refl _
  | cons p l ih =>
    obtain ⟨a, f⟩ := p
    have e : eraseMatch key d ((a, f) :: l) =
        (if a = key then (a, { f with matched := f.matched.filter (· ≠ d) }) else (a, f)) ::
          eraseMatch key d l := rfl
    rw [e, List.flatMap_cons, List.flatMap_cons]
    refine List.Sublist.append ?_ ih
    split
    · exact List.filter_sublist
    · exact List.Sublist.refl _

def allMatched (m : FMap P) : List Nat := (m.localMap ++ m.staged).flatMap (·.2.matched)

theorem markUnmatched_sublist (id d : Nat) (m : FMap P) :
    (allMatched (markUnmatched id d m).1).Sublist (allMatched m) := by
  unfold markUnmatched allMatched
  split
  · exact List.Sublist.refl _
  split
  · exact List.Sublist.refl _
  split
  · split
    · exact List.Sublist.refl _
    · simp only [List.flatMap_append]
      exact (eraseMatch_sublist _ _ _).append (List.Sublist.refl _)
  · split
    · split
      · exact List.Sublist.refl _
      · simp only [List.flatMap_append]
        exact (List.Sublist.refl _).append (eraseMatch_sublist _ _ _)
    · exact List.Sublist.refl _

theorem markOutliers_sublist (t : FType) (ms : List Match) (m : FMap P) :
    (allMatched (markOutliers t ms m)).Sublist (allMatched m) := by
  induction ms generalizing m with
  | nil => exact List.Sublist.refl _
  | cons o os ih =>
    simp only [markOutliers]
    split
    · exact (ih _).trans (markUnmatched_sublist _ _ _)
    · exact ih _

/-! ### Update with a pose -/

theorem applyMatches_count {k : Kind P D Env} {env : Env} {det : List D} {all : Bool} {is : List Nat}
    {f f' : Feat P} {hit : Bool} {used : List Nat}
    (h : applyMatches k env det all is f = .ok (f', hit, used)) :
    (hit = true → 1 ≤ used.length) ∧ used.Sublist is ∧ ∀ i ∈ used, i < det.length := by
  induction is generalizing f f' hit used with
  | nil =>
    simp only [applyMatches, Outcome.ok.injEq, Prod.mk.injEq] at h
    obtain ⟨-, rfl, rfl⟩ := h
    simp
  | cons i is ih =>
    simp only [applyMatches] at h
    split at h
    · cases h
    · rename_i d hd
      obtain ⟨⟨body, good⟩, -, h⟩ := Outcome.bind_eq_ok h
      obtain ⟨⟨f2, good', used'⟩, h2, h⟩ := Outcome.bind_eq_ok h
      simp only [Outcome.ok.injEq, Prod.mk.injEq] at h
      obtain ⟨-, rfl, rfl⟩ := h
      obtain ⟨h3, h4, h5⟩ := ih h2
      have hi : i < det.length := (List.getElem?_eq_some_iff.1 hd).1
      split
      · refine ⟨fun _ => by simp, h4.cons_cons i, fun j hj => ?_⟩
        rcases List.mem_cons.1 hj with rfl | hj
        · exact hi
        · exact h5 j hj
      · rename_i hg
        refine ⟨fun hh => h3 ?_, h4.cons i, h5⟩
        cases good
        · simpa using hh
        · simp at hg

theorem updateLocal_count {k : Kind P D Env} {L : Nat} {S : Int → Nat → Prop} (hk : Counters k L S) {env : Env}
    {det : List D} {l kept : Store P} {used : List Nat} {wr : List (Feat P)}
    (h : updateLocal k env det l = .ok (kept, used, wr)) :
    unseen 0 kept ≤ used.length ∧ (∀ j, unseen (j + 1) kept ≤ unseen j l) ∧
    (∀ p ∈ kept, p.2.failed ≤ L) ∧ used.Sublist (l.flatMap (·.2.matched)) ∧ ∀ i ∈ used, i < det.length := by
  induction l generalizing kept used wr with
  | nil =>
    simp only [updateLocal, Outcome.ok.injEq, Prod.mk.injEq] at h
    obtain ⟨rfl, rfl, -⟩ := h
    simp
  | cons q l ih =>
    obtain ⟨key, f⟩ := q
    simp only [updateLocal] at h
    obtain ⟨⟨f1, hit, u1⟩, e1, h⟩ := Outcome.bind_eq_ok h
    obtain ⟨⟨kept', u2, wr'⟩, e2, h⟩ := Outcome.bind_eq_ok h
    obtain ⟨a1, a2, a3⟩ := applyMatches_count e1
    obtain ⟨-, s2, -, -⟩ := applyMatches_spec e1
    obtain ⟨b1, b2, b3, b4, b5⟩ := ih e2
    have sub : (u1 ++ u2).Sublist (((key, f) :: l).flatMap (·.2.matched)) := by
      rw [List.flatMap_cons]; exact a2.append b4
    have rng : ∀ i ∈ u1 ++ u2, i < det.length := fun i hi =>
      (List.mem_append.1 hi).elim (a3 i) (b5 i)
    dsimp only at h
    split at h
    · simp only [Outcome.ok.injEq, Prod.mk.injEq] at h
      obtain ⟨rfl, rfl, -⟩ := h
      refine ⟨by rw [List.length_append]; omega, fun j => ?_, b3, sub, rng⟩
      have := b2 j
      rw [unseen_cons]; omega
    · rename_i hlost
      simp only [Outcome.ok.injEq, Prod.mk.injEq] at h
      obtain ⟨rfl, rfl, -⟩ := h
      have hL : (settle hit f1).failed ≤ L := hk.lost _ (by simpa using hlost)
      refine ⟨?_, fun j => ?_, ?_, sub, rng⟩
      · rw [unseen_cons, List.length_append]
        cases hit
        · simp only [settle, Bool.false_eq_true, if_false, Nat.succ_ne_zero]; omega
        · have := a1 rfl
          split <;> omega
      · rw [unseen_cons, unseen_cons]
        have := b2 j
        cases hit
        · simp only [settle, Bool.false_eq_true, if_false, s2, Nat.add_right_cancel_iff]
          split <;> omega
        · simp only [settle, if_true]
          rw [if_neg (by omega)]; omega
      · intro p hp
        rcases List.mem_cons.1 hp with rfl | hp
        · exact hL
        · exact b3 p hp

theorem unseen_emplace (j key : Nat) (f : Feat P) (l : Store P) :
    unseen j (emplace key f l) ≤ unseen j l + if f.failed = j then 1 else 0 := by
  unfold emplace
  split
  · omega
  · rw [unseen_append, unseen_cons]; simp

theorem mem_emplace {key : Nat} {f : Feat P} {l : Store P} {p : Nat × Feat P} (h : p ∈ emplace key f l) :
    p ∈ l ∨ p = (key, f) := by
  unfold emplace at h
  split at h
  · exact .inl h
  · simpa using h

theorem updateStaged_count {k : Kind P D Env} {L : Nat} {S : Int → Nat → Prop} (hk : Counters k L S) {env : Env}
    {det : List D} {n : Nat} {l loc stg loc' : Store P} {used : List Nat}
    (hS : ∀ p ∈ l, S p.2.succ p.2.failed)
    (h : updateStaged k env det n l loc = .ok (stg, loc', used)) :
    unseen 0 loc' + unseen 0 stg ≤ unseen 0 loc + used.length ∧
    (∀ j, unseen (j + 1) loc' + unseen (j + 1) stg ≤ unseen (j + 1) loc + unseen j l) ∧
    ((∀ p ∈ loc, p.2.failed ≤ L) → ∀ p ∈ loc', p.2.failed ≤ L) ∧
    (∀ p ∈ stg, S p.2.succ p.2.failed) ∧
    used.Sublist (l.flatMap (·.2.matched)) ∧ ∀ i ∈ used, i < det.length := by
  induction n generalizing l loc stg loc' used with
  | zero =>
    match l with
    | [] =>
      simp only [updateStaged, Outcome.ok.injEq, Prod.mk.injEq] at h
      obtain ⟨rfl, rfl, rfl⟩ := h
      simp
    | _ :: _ => simp [updateStaged] at h
  | succ n ih =>
    match l with
    | [] =>
      simp only [updateStaged, Outcome.ok.injEq, Prod.mk.injEq] at h
      obtain ⟨rfl, rfl, rfl⟩ := h
      simp
    | (key, f) :: rest =>
      simp only [updateStaged] at h
      obtain ⟨⟨f1, hit, u1⟩, e1, h⟩ := Outcome.bind_eq_ok h
      obtain ⟨a1, a2, a3⟩ := applyMatches_count e1
      obtain ⟨-, s2, s3, -⟩ := applyMatches_spec e1
      have hSf : S f1.succ f1.failed := by rw [s2, s3]; exact hS (key, f) (by simp)
      have hSr : ∀ p ∈ rest, S p.2.succ p.2.failed := fun p hp => hS p (by simp [hp])
      dsimp only at h
      split at h
      · rename_i hadd
        have hhit : hit = true := by
          cases hit
          · rw [hk.miss f1 hSf] at hadd; cases hadd
          · rfl
        subst hhit
        split at h
        · rename_i body _
          obtain ⟨⟨stg', l', u2⟩, e2, h⟩ := Outcome.bind_eq_ok h
          simp only [Outcome.ok.injEq, Prod.mk.injEq] at h
          obtain ⟨rfl, rfl, rfl⟩ := h
          obtain ⟨b1, b2, b3, b4, b5, b6⟩ := ih hSr e2
          refine ⟨?_, fun j => ?_, fun hl => b3 fun p hp => ?_, b4, ?_, ?_⟩
          · have := unseen_emplace 0 (settle true f1).id (promoted (settle true f1) body) loc
            have h1 := a1 rfl
            rw [List.length_append]
            have h2 : (if (promoted (settle true f1) body).failed = 0 then 1 else 0) = 1 := rfl
            omega
          · have := unseen_emplace (j + 1) (settle true f1).id (promoted (settle true f1) body) loc
            have h2 : (if (promoted (settle true f1) body).failed = j + 1 then 1 else 0) = 0 := by
              rw [if_neg]; simp [promoted]
            have := b2 j
            rw [unseen_cons]
            omega
          · rcases mem_emplace hp with hp | rfl
            · exact hl p hp
            · simp [promoted]
          · rw [List.flatMap_cons]; exact a2.append b5
          · exact fun i hi => (List.mem_append.1 hi).elim (a3 i) (b6 i)
        · rename_i hnone
          obtain ⟨b, hb⟩ := hk.copy (settle true f1)
          rw [hb] at hnone; cases hnone
      · rename_i hadd
        obtain ⟨⟨stg', l', u2⟩, e2, h⟩ := Outcome.bind_eq_ok h
        obtain ⟨b1, b2, b3, b4, b5, b6⟩ := ih hSr e2
        have sub : (u1 ++ u2).Sublist (((key, f) :: rest).flatMap (·.2.matched)) := by
          rw [List.flatMap_cons]; exact a2.append b5
        have rng : ∀ i ∈ u1 ++ u2, i < det.length := fun i hi =>
          (List.mem_append.1 hi).elim (a3 i) (b6 i)
        dsimp only at h
        split at h
        · simp only [Outcome.ok.injEq, Prod.mk.injEq] at h
          obtain ⟨rfl, rfl, rfl⟩ := h
          refine ⟨by rw [List.length_append]; omega, fun j => ?_, b3, b4, sub, rng⟩
          have := b2 j
          rw [unseen_cons]; omega
        · rename_i hrem
          simp only [Outcome.ok.injEq, Prod.mk.injEq] at h
          obtain ⟨rfl, rfl, rfl⟩ := h
          refine ⟨?_, fun j => ?_, b3, ?_, sub, rng⟩
          · rw [unseen_cons, List.length_append]
            cases hit
            · simp only [settle, Bool.false_eq_true, if_false, Nat.succ_ne_zero]; omega
            · have := a1 rfl
              split <;> omega
          · rw [unseen_cons, unseen_cons]
            have := b2 j
            cases hit
            · simp only [settle, Bool.false_eq_true, if_false, s2, Nat.add_right_cancel_iff]
              split <;> omega
            · simp only [settle, if_true]
              rw [if_neg (by omega)]; omega
          · intro p hp
            rcases List.mem_cons.1 hp with rfl | hp
            · exact hk.keeps f1 hit hSf (by simpa using hadd) (by simpa using hrem)
            · exact b4 p hp

/-! ### New candidates -/

/-- The detections not used, from index `i` on. -/
def leftOver (used : List Nat) (i n : Nat) : List Nat := (List.range' i n).filter fun j => !used.contains j

theorem stageOne_count (k : Kind P D Env) (env : Env) (d : D) (s : State P) :
    (stageOne k env d s).map.localMap = s.map.localMap ∧
    (∀ p ∈ (stageOne k env d s).map.staged, p ∈ s.map.staged ∨ (p.2.succ = 0 ∧ p.2.failed = 0)) ∧
    unseen 0 (stageOne k env d s).map.staged ≤ unseen 0 s.map.staged + 1 ∧
    ∀ j, unseen (j + 1) (stageOne k env d s).map.staged ≤ unseen (j + 1) s.map.staged := by
  unfold stageOne
  split
  · dsimp only
    split
    · rename_i body _
      refine ⟨rfl, fun p hp => ?_, ?_, fun j => ?_⟩
      · rcases mem_emplace hp with h | rfl
        · exact .inl h
        · exact .inr ⟨rfl, rfl⟩
      · exact unseen_emplace 0 _ _ _
      · have := unseen_emplace (j + 1) s.alloc.next.last ⟨s.alloc.next.last, 0, 0, [], body⟩ s.map.staged
        simpa using this
    · split <;> exact ⟨rfl, fun p hp => .inl hp, by simp, fun j => Nat.le_refl _⟩
  · exact ⟨rfl, fun p hp => .inl hp, by simp, fun j => Nat.le_refl _⟩

theorem stageFrom_count (k : Kind P D Env) (env : Env) (used : List Nat) (i : Nat) (ds : List D) (s : State P) :
    (stageFrom k env used i ds s).map.localMap = s.map.localMap ∧
    (∀ p ∈ (stageFrom k env used i ds s).map.staged, p ∈ s.map.staged ∨ (p.2.succ = 0 ∧ p.2.failed = 0)) ∧
    unseen 0 (stageFrom k env used i ds s).map.staged ≤
      unseen 0 s.map.staged + (leftOver used i ds.length).length ∧
    ∀ j, unseen (j + 1) (stageFrom k env used i ds s).map.staged ≤ unseen (j + 1) s.map.staged := by
  induction ds generalizing i s with
  | nil => exact ⟨rfl, fun p hp => .inl hp, by simp [stageFrom], fun j => Nat.le_refl _⟩
  | cons d ds ih =>
    have e : leftOver used i (d :: ds).length =
        if used.contains i then leftOver used (i + 1) ds.length
        else i :: leftOver used (i + 1) ds.length := by
      simp only [leftOver, List.length_cons, List.range'_succ, List.filter_cons]
      cases used.contains i <;> simp
    simp only [stageFrom]
    rw [e]
    split
    · exact ih _ _
    · obtain ⟨a1, a2, a3, a4⟩ := ih (i + 1) (stageOne k env d s)
      obtain ⟨b1, b2, b3, b4⟩ := stageOne_count k env d s
      refine ⟨a1.trans b1, fun p hp => ?_, ?_, fun j => Nat.le_trans (a4 j) (b4 j)⟩
      · rcases a2 p hp with h | h
        · exact b2 p h
        · exact .inr h
      · rw [List.length_cons]; omega

theorem leftOver_length {used : List Nat} {n : Nat} (hn : used.Nodup) (hr : ∀ i ∈ used, i < n) :
    used.length + (leftOver used 0 n).length ≤ n := by
  have h1 : (used ++ leftOver used 0 n).Nodup := by
    rw [List.nodup_append]
    refine ⟨hn, List.Nodup.sublist List.filter_sublist List.nodup_range', ?_⟩
    intro a ha b hb hab
    subst hab
    simp [leftOver] at hb
    exact hb.2 ha
  have h2 : (used ++ leftOver used 0 n) ⊆ List.range n := by
    intro i hi
    rcases List.mem_append.1 hi with hi | hi
    · simpa using hr i hi
    · simp [leftOver] at hi
      simpa using hi.1
  have := (h1.subperm h2).length_le
  simpa using this

theorem leftOver_le (used : List Nat) (i n : Nat) : (leftOver used i n).length ≤ n := by
  have := List.length_filter_le (fun j => !used.contains j) (List.range' i n)
  simpa [leftOver] using this

/-! ### The steps of a frame on one map -/

theorem updateMap_bounded {k : Kind P D Env} {L M : Nat} {S : Int → Nat → Prop} (hk : Counters k L S)
    {fuel : Nat} {env : Env} {det : List D} {s s' : State P} {used : List Nat} (hd : det.length ≤ M)
    (ha : s.map.active = true) (hB : Bounded L M S s.map) (hn : (allMatched s.map).Nodup)
    (h : updateMap k fuel env det s = .ok (s', used)) :
    Bounded L M S s'.map ∧ unseen 0 s'.map.localMap + unseen 0 s'.map.staged ≤ used.length ∧
    used.Nodup ∧ ∀ i ∈ used, i < det.length := by
  unfold updateMap at h
  rw [if_neg (by simp [ha])] at h
  split at h
  · cases h
  obtain ⟨⟨loc, u1, wr⟩, e1, h⟩ := Outcome.bind_eq_ok h
  obtain ⟨⟨stg, loc', u2⟩, e2, h⟩ := Outcome.bind_eq_ok h
  simp only [Outcome.ok.injEq, Prod.mk.injEq] at h
  obtain ⟨rfl, rfl⟩ := h
  obtain ⟨a1, a2, a3, a4, a5⟩ := updateLocal_count hk e1
  obtain ⟨b1, b2, b3, b4, b5, b6⟩ := updateStaged_count hk hB.stg e2
  have hsub : (u1 ++ u2).Sublist (allMatched s.map) := by
    unfold allMatched
    rw [List.flatMap_append]
    exact a4.append b5
  have hnd := hn.sublist hsub
  have hr : ∀ i ∈ u1 ++ u2, i < det.length := fun i hi => (List.mem_append.1 hi).elim (a5 i) (b6 i)
  have hlen : (u1 ++ u2).length ≤ det.length := by
    have := leftOver_length hnd hr
    omega
  have h0 : unseen 0 loc' + unseen 0 stg ≤ (u1 ++ u2).length := by
    rw [List.length_append]; omega
  refine ⟨⟨fun j => ?_, b3 a3, b4⟩, h0, hnd, hr⟩
  cases j with
  | zero => exact Nat.le_trans h0 (Nat.le_trans hlen hd)
  | succ j =>
    have h1 := a2 j
    have h2 := b2 j
    have h3 := hB.few j
    simp only
    omega

theorem stage_bounded {k : Kind P D Env} {L M : Nat} {S : Int → Nat → Prop} (hk : Counters k L S)
    {env : Env} {det : List D} {s s' : State P} {used : List Nat}
    (hB : Bounded L M S s.map)
    (h0 : unseen 0 s.map.localMap + unseen 0 s.map.staged + (leftOver used 0 det.length).length ≤ M)
    (h : stage k env det used s = .ok s') :
    Bounded L M S s'.map ∧ unseen 0 s'.map.localMap + unseen 0 s'.map.staged ≤
      unseen 0 s.map.localMap + unseen 0 s.map.staged + (leftOver used 0 det.length).length := by
  unfold stage at h
  split at h
  · injection h with h; subst h; exact ⟨hB, by omega⟩
  split at h
  · cases h
  split at h
  · cases h
  · injection h with h
    obtain ⟨a1, a2, a3, a4⟩ := stageFrom_count k env used 0 det s
    rw [h] at a1 a2 a3 a4
    refine ⟨⟨fun j => ?_, by rw [a1]; exact hB.loc, fun p hp => ?_⟩, by rw [a1]; omega⟩
    · cases j with
      | zero => rw [a1]; omega
      | succ j => rw [a1]; have := a4 j; have := hB.few (j + 1); omega
    · rcases a2 p hp with hp | ⟨h1, h2⟩
      · exact hB.stg p hp
      · rw [h1, h2]; exact hk.start

theorem missLocal_count {k : Kind P D Env} {L : Nat} {S : Int → Nat → Prop} (hk : Counters k L S) (l : Store P) :
    unseen 0 (missLocal k l).1 = 0 ∧ (∀ j, unseen (j + 1) (missLocal k l).1 ≤ unseen j l) ∧
    ∀ p ∈ (missLocal k l).1, p.2.failed ≤ L := by
  induction l with
  | nil => simp [missLocal]
  | cons q l ih =>
    obtain ⟨key, f⟩ := q
    obtain ⟨a1, a2, a3⟩ := ih
    simp only [missLocal]
    split
    · exact ⟨a1, fun j => by rw [unseen_cons]; exact Nat.le_trans (a2 j) (by omega), a3⟩
    · rename_i hl
      refine ⟨?_, fun j => ?_, fun p hp => ?_⟩
      · rw [unseen_cons, a1]; simp [settle]
      · rw [unseen_cons, unseen_cons]
        have := a2 j
        simp only [settle, Bool.false_eq_true, if_false, Nat.add_right_cancel_iff]
        split <;> omega
      · rcases List.mem_cons.1 hp with rfl | hp
        · exact hk.lost _ (by simpa using hl)
        · exact a3 p hp

theorem missStaged_count {k : Kind P D Env} {L : Nat} {S : Int → Nat → Prop} (hk : Counters k L S) (l : Store P)
    (hS : ∀ p ∈ l, S p.2.succ p.2.failed) :
    unseen 0 (missStaged k l) = 0 ∧ (∀ j, unseen (j + 1) (missStaged k l) ≤ unseen j l) ∧
    ∀ p ∈ missStaged k l, S p.2.succ p.2.failed := by
  induction l with
  | nil => simp [missStaged]
  | cons q l ih =>
    obtain ⟨key, f⟩ := q
    obtain ⟨a1, a2, a3⟩ := ih fun p hp => hS p (List.mem_cons_of_mem _ hp)
    simp only [missStaged]
    split
    · exact ⟨a1, fun j => by rw [unseen_cons]; exact Nat.le_trans (a2 j) (by omega), a3⟩
    · rename_i hl
      have hf : S f.succ f.failed := hS (key, f) List.mem_cons_self
      refine ⟨?_, fun j => ?_, fun p hp => ?_⟩
      · rw [unseen_cons, a1]; simp [settle]
      · rw [unseen_cons, unseen_cons]
        have := a2 j
        simp only [settle, Bool.false_eq_true, if_false, Nat.add_right_cancel_iff]
        split <;> omega
      · rcases List.mem_cons.1 hp with rfl | hp
        · exact hk.keeps f false hf (hk.miss f hf) (by simpa using hl)
        · exact a3 p hp

theorem miss_bounded {k : Kind P D Env} {L M : Nat} {S : Int → Nat → Prop} (hk : Counters k L S)
    {s : State P} (ha : s.map.active = true) (hB : Bounded L M S s.map) :
    Bounded L M S (updateNoTracking k s).map ∧
    unseen 0 (updateNoTracking k s).map.localMap + unseen 0 (updateNoTracking k s).map.staged = 0 := by
  unfold updateNoTracking
  rw [if_neg (by simp [ha])]
  obtain ⟨a1, a2, a3⟩ := missLocal_count hk s.map.localMap
  obtain ⟨b1, b2, b3⟩ := missStaged_count hk s.map.staged hB.stg
  refine ⟨⟨fun j => ?_, a3, b3⟩, by simp only [a1, b1]⟩
  cases j with
  | zero => simp only [a1, b1]; omega
  | succ j => have := a2 j; have := b2 j; have := hB.few j; simp only; omega

theorem takeUpgraded_length (k : Kind P D Env) (env : Env) (l : Store P) :
    (takeUpgraded k env l).1.Sublist l ∧
    (takeUpgraded k env l).1.length + (takeUpgraded k env l).2.length = l.length := by
  induction l with
  | nil => simp [takeUpgraded]
  | cons q l ih =>
    obtain ⟨key, f⟩ := q
    simp only [takeUpgraded]
    cases k.upgrade env f with
    | none => exact ⟨ih.1.cons_cons _, by simp only [List.length_cons]; omega⟩
    | some u => exact ⟨ih.1.cons _, by simp only [List.length_cons]; omega⟩

theorem getUpgraded_bounded (k : Kind P D Env) (env : Env) {L M : Nat} {S : Int → Nat → Prop} {m : FMap P}
    (hB : Bounded L M S m) : Bounded L M S (getUpgraded k env m).1 ∧
    (getUpgraded k env m).2.length ≤ m.localMap.length + m.staged.length := by
  obtain ⟨a1, a2⟩ := takeUpgraded_length k env m.localMap
  obtain ⟨b1, b2⟩ := takeUpgraded_length k env m.staged
  simp only [getUpgraded]
  refine ⟨⟨fun j => ?_, fun p hp => hB.loc p (a1.subset hp), fun p hp => hB.stg p (b1.subset hp)⟩, ?_⟩
  · have := unseen_sublist a1 j
    have := unseen_sublist b1 j
    have := hB.few j
    simp only
    omega
  · rw [List.length_append]; omega

theorem addUpgraded_bounded (k : Kind P D Env) {L M : Nat} {S : Int → Nat → Prop} (us : List (Upgrade P))
    {s : State P} (hB : Bounded L M S s.map)
    (h0 : unseen 0 s.map.localMap + unseen 0 s.map.staged + us.length ≤ M) :
    Bounded L M S (addUpgraded k us s).1.map := by
  induction us generalizing s with
  | nil => exact hB
  | cons u us ih =>
    rw [List.length_cons] at h0
    simp only [addUpgraded]
    split
    · split
      · exact ih hB (by omega)
      · exact hB
      · rename_i body _
        have e : ∀ j, unseen j (emplace s.alloc.next.last ⟨s.alloc.next.last, 0, 1, u.matched, body⟩
            s.map.localMap) ≤ unseen j s.map.localMap + if 0 = j then 1 else 0 :=
          fun j => unseen_emplace j _ _ _
        refine ih ⟨fun j => ?_, fun p hp => ?_, hB.stg⟩ ?_
        · have := e j
          have := hB.few j
          simp only
          cases j with
          | zero => rw [if_pos rfl] at *; omega
          | succ j => rw [if_neg (by omega)] at *; omega
        · rcases mem_emplace hp with hp | rfl
          · exact hB.loc p hp
          · exact Nat.zero_le _
        · have := e 0
          simp only [if_true] at this
          simp only
          omega
    · exact ih hB (by omega)

/-! ### The steps of a frame on all maps -/

theorem updateOne_bounded {k : FType → Kind P D Env} {t : FType} {L M N : Nat} {S : Int → Nat → Prop}
    (hk : Counters (k t) L S) {fuel : Nat} {env : Env} {det : FType → List D} {w w' : World P} {threw : Bool}
    (hd : (det t).length ≤ N) (hNM : N ≤ M) (ha : (w.maps t).active = true) (hB : Bounded L M S (w.maps t))
    (hn : (allMatched (w.maps t)).Nodup)
    (h : World.updateOne k fuel env det t w = .ok (w', threw)) :
    Bounded L M S (w'.maps t) ∧
    (threw = false → unseen 0 (w'.maps t).localMap + unseen 0 (w'.maps t).staged ≤ N) ∧
    ∀ u, u ≠ t → w'.maps u = w.maps u := by
  have put_same : ∀ s : State P, (w.put t s).maps t = s.map := fun s => by simp [World.put]
  have put_other : ∀ (s : State P) u, u ≠ t → (w.put t s).maps u = w.maps u := fun s u hu => by
    simp [World.put, hu]
  unfold World.updateOne at h
  split at h
  · rename_i s used hu
    obtain ⟨a1, a2, a3, a4⟩ := updateMap_bounded (s := w.view t) hk (Nat.le_trans hd hNM) ha hB hn hu
    have hl := leftOver_length a3 a4
    split at h
    · rename_i s' hs
      simp only [Outcome.ok.injEq, Prod.mk.injEq] at h
      obtain ⟨rfl, rfl⟩ := h
      obtain ⟨b1, b2⟩ := stage_bounded hk a1 (by omega) hs
      rw [put_same]
      exact ⟨b1, fun _ => by omega, put_other s'⟩
    · simp only [Outcome.ok.injEq, Prod.mk.injEq] at h
      obtain ⟨rfl, rfl⟩ := h
      rw [put_same]
      exact ⟨a1, nofun, put_other s⟩
    all_goals cases h
  · simp only [Outcome.ok.injEq, Prod.mk.injEq] at h
    obtain ⟨rfl, rfl⟩ := h
    exact ⟨hB, nofun, fun _ _ => rfl⟩
  all_goals cases h

/-- A loop over the maps whose body only touches its own map. -/
theorem eachMap_each {f : FType → World P → Outcome (World P × Bool)} {Q R R' : FType → FMap P → Prop}
    (hf : ∀ t w w' b, Q t (w.maps t) → f t w = .ok (w', b) →
      R t (w'.maps t) ∧ (b = false → R' t (w'.maps t)) ∧ ∀ u, u ≠ t → w'.maps u = w.maps u)
    (hQR : ∀ t m, Q t m → R t m)
    (ts : List FType) (hn : ts.Nodup) (w w' : World P) (b : Bool) (hq : ∀ t ∈ ts, Q t (w.maps t))
    (h : eachMap f ts w = .ok (w', b)) :
    (∀ t ∈ ts, R t (w'.maps t)) ∧ (b = false → ∀ t ∈ ts, R' t (w'.maps t)) ∧
    ∀ t, t ∉ ts → w'.maps t = w.maps t := by
  induction ts generalizing w with
  | nil =>
    simp only [eachMap, Outcome.ok.injEq, Prod.mk.injEq] at h
    obtain ⟨rfl, rfl⟩ := h
    simp
  | cons t ts ih =>
    rw [List.nodup_cons] at hn
    obtain ⟨⟨w1, b1⟩, h1, h⟩ := Outcome.bind_eq_ok h
    obtain ⟨a1, a2, a3⟩ := hf t w w1 b1 (hq t List.mem_cons_self) h1
    have ne : ∀ u ∈ ts, u ≠ t := fun u hu e => hn.1 (e ▸ hu)
    dsimp only at h
    split at h
    · simp only [Outcome.ok.injEq, Prod.mk.injEq] at h
      obtain ⟨rfl, rfl⟩ := h
      refine ⟨fun u hu => ?_, nofun, fun u hu => a3 u fun e => hu (e ▸ List.mem_cons_self)⟩
      rcases List.mem_cons.1 hu with rfl | hu'
      · exact a1
      · rw [a3 u (ne u hu')]; exact hQR u _ (hq u hu)
    · rename_i hb1
      obtain ⟨c1, c2, c3⟩ := ih hn.2 w1 (fun u hu => by
        rw [a3 u (ne u hu)]; exact hq u (List.mem_cons_of_mem _ hu)) h
      refine ⟨fun u hu => ?_, fun hb u hu => ?_, fun u hu => ?_⟩
      · rcases List.mem_cons.1 hu with rfl | hu'
        · rw [c3 u hn.1]; exact a1
        · exact c1 u hu'
      · rcases List.mem_cons.1 hu with rfl | hu'
        · rw [c3 u hn.1]; exact a2 (by simpa using hb1)
        · exact c2 hb u hu'
      · rw [c3 u fun e => hu (List.mem_cons_of_mem _ e), a3 u fun e => hu (e ▸ List.mem_cons_self)]

end RgbdSlam.Map
