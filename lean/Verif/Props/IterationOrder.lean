import Verif.Lemmas.FeatureMapInv
import Verif.Lemmas.FeatureMapRefine
import Verif.Lemmas.Keypoints
import Verif.Lemmas.Matching
import Verif.Props.MapMatching
import Verif.Model.MapPoints
import Mathlib.Data.List.Perm.Basic
import Mathlib.Data.List.Forall2
import Mathlib.Tactic.Linarith
import Mathlib.Tactic.NormNum
/-
C184: what depends on the iteration order of the hash tables that hold the features of a map.
-/
namespace RgbdSlam.Map

variable {P D Env : Type}

/-! ## Specification -/

/-- The feature `f` can be matched with detection `i`. -/
def Spec.Wants (k : Kind P D Env) (env : Env) (det : List D) (f : Feat P) (i : Nat) : Prop :=
  ∃ flags toMatches advanced, i ∈ (k.findMatches env det { f with matched := [] } flags toMatches advanced).1

/-- What the feature `f` is matched with depends on whether detection `i` is taken already. -/
def Spec.Minds (k : Kind P D Env) (env : Env) (det : List D) (f : Feat P) (i : Nat) : Prop :=
  ∃ flags toMatches advanced, k.findMatches env det { f with matched := [] } (flags.set i true) toMatches advanced ≠
    k.findMatches env det { f with matched := [] } flags toMatches advanced

/-- The features do not compete for a detection. -/
def Spec.Apart (k : Kind P D Env) (env : Env) (det : List D) (f g : Feat P) : Prop :=
  ∀ i, ¬ (Spec.Wants k env det f i ∧ Spec.Minds k env det g i) ∧ ¬ (Spec.Wants k env det g i ∧ Spec.Minds k env det f i)

/-- No two features of the map compete for a detection. -/
def Spec.NoCompetition (k : Kind P D Env) (env : Env) (det : List D) (m : FMap P) : Prop :=
  (m.localMap ++ m.staged).Pairwise fun a b => Spec.Apart k env det a.2 b.2

/-- The same map, with its features in another order. -/
structure Spec.SameMap (m m' : FMap P) : Prop where
  active : m'.active = m.active
  flags : m'.flags = m.flags
  localMap : m'.localMap.Perm m.localMap
  staged : m'.staged.Perm m.staged

/-- The same map, ids and exported features, in another order. -/
structure Spec.Same (s s' : State P) : Prop where
  map : Spec.SameMap s.map s'.map
  alloc : s'.alloc = s.alloc
  written : s'.written.Perm s.written

theorem Spec.Apart.symm {k : Kind P D Env} {env : Env} {det : List D} {f g : Feat P} (h : Spec.Apart k env det f g) :
    Spec.Apart k env det g f := fun i => ⟨(h i).2, (h i).1⟩

/-! ## Searching matches -/

theorem setFlags_append (fl : List Bool) (a b : List Nat) : setFlags fl (a ++ b) = setFlags (setFlags fl a) b := by
  simp [setFlags, List.foldl_append]

theorem setFlags_perm (fl : List Bool) {a b : List Nat} (h : a.Perm b) : setFlags fl a = setFlags fl b := by
  unfold setFlags
  refine h.foldl_eq' ?_ fl
  intro x _ y _ z
  by_cases hxy : x = y
  · rw [hxy]
  · exact List.set_comm _ _ hxy

/-- What a feature finds, from given flags. -/
def found (k : Kind P D Env) (env : Env) (det : List D) (toMatches advanced : Bool) (flags : List Bool)
    (a : Nat × Feat P) : List Nat × List Nat :=
  if k.isMoving a.2.body || !k.isVisible env a.2.body then ([], [])
  else k.findMatches env det { a.2 with matched := [] } flags toMatches advanced

theorem found_wants {k : Kind P D Env} {env : Env} {det : List D} {tm adv : Bool} {flags : List Bool} {a : Nat × Feat P}
    {i : Nat} (h : i ∈ (found k env det tm adv flags a).1) : Spec.Wants k env det a.2 i := by
  unfold found at h
  split at h
  · simp at h
  · exact ⟨flags, tm, adv, h⟩

theorem found_setFlags {k : Kind P D Env} {env : Env} {det : List D} {tm adv : Bool} {a : Nat × Feat P} :
    ∀ (idx : List Nat) (flags : List Bool), (∀ i ∈ idx, ¬ Spec.Minds k env det a.2 i) →
      found k env det tm adv (setFlags flags idx) a = found k env det tm adv flags a := by
  intro idx
  induction idx with
  | nil => intro flags _; rfl
  | cons i idx ih =>
    intro flags h
    have e : setFlags flags (i :: idx) = setFlags (flags.set i true) idx := rfl
    rw [e, ih _ fun j hj => h j (by simp [hj])]
    unfold found
    split
    · rfl
    · by_contra hne
      exact h i (by simp) ⟨flags, tm, adv, hne⟩

theorem matchPass_cons (k : Kind P D Env) (env : Env) (det : List D) (tm adv : Bool) (key : Nat) (f : Feat P) (l : Store P)
    (flags : List Bool) (idx pushed : List Nat) (h : found k env det tm adv flags (key, f) = (idx, pushed)) :
    matchPass k env det tm adv ((key, f) :: l) flags =
      ((key, { f with matched := idx }) :: (matchPass k env det tm adv l (setFlags flags idx)).1,
        (matchPass k env det tm adv l (setFlags flags idx)).2.1,
        pushed.map (⟨k.type, f.id, ·⟩) ++ (matchPass k env det tm adv l (setFlags flags idx)).2.2) := by
  unfold found at h
  rw [matchPass]
  simp only at h
  split at h
  · rename_i hc
    simp only [Prod.mk.injEq] at h
    obtain ⟨h1, h2⟩ := h
    simp only [hc, if_true, ← h1, ← h2]
    simp [setFlags]
  · rename_i hc
    simp only [if_neg hc]
    cases k
    simp only at h ⊢
    rw [h]

/-- The pass over the map, when no two features compete. -/
theorem matchPass_eq {k : Kind P D Env} {env : Env} {det : List D} {tm adv : Bool} :
    ∀ (l : Store P) (before : List Nat) (flags : List Bool),
      (∀ a ∈ l, ∀ i ∈ before, ¬ Spec.Minds k env det a.2 i) →
      l.Pairwise (fun a b => Spec.Apart k env det a.2 b.2) →
      matchPass k env det tm adv l (setFlags flags before) =
        (l.map fun a => (a.1, { a.2 with matched := (found k env det tm adv flags a).1 }),
          setFlags flags (before ++ l.flatMap fun a => (found k env det tm adv flags a).1),
          l.flatMap fun a => (found k env det tm adv flags a).2.map (⟨k.type, a.2.id, ·⟩)) := by
  intro l
  induction l with
  | nil => intro before flags _ _; simp [matchPass]
  | cons a l ih =>
    intro before flags hb hp
    rw [List.pairwise_cons] at hp
    obtain ⟨key, f⟩ := a
    have hfound := found_setFlags (k := k) (env := env) (det := det) (tm := tm) (adv := adv) (a := (key, f)) before flags
      (hb _ (by simp))
    have hnext : ∀ b ∈ l, ∀ i ∈ before ++ (found k env det tm adv flags (key, f)).1, ¬ Spec.Minds k env det b.2 i := by
      intro b hbl i hi
      rcases List.mem_append.1 hi with hi | hi
      · exact hb b (by simp [hbl]) i hi
      · exact fun hm => ((hp.1 b hbl) i).1 ⟨found_wants hi, hm⟩
    have hrec := ih (before ++ (found k env det tm adv flags (key, f)).1) flags hnext hp.2
    obtain ⟨⟨idx, pushed⟩, hr⟩ : ∃ r, found k env det tm adv flags (key, f) = r := ⟨_, rfl⟩
    rw [hr] at hfound hrec
    rw [matchPass_cons k env det tm adv key f l _ idx pushed hfound, ← setFlags_append]
    dsimp only at hrec
    rw [hrec]
    simp [hr]

theorem matchPass_perm {k : Kind P D Env} {env : Env} {det : List D} {tm adv : Bool} {l l' : Store P}
    (before before' : List Nat) (flags : List Bool) (hperm : l'.Perm l) (hbefore : before'.Perm before)
    (hb : ∀ a ∈ l, ∀ i ∈ before, ¬ Spec.Minds k env det a.2 i)
    (hp : l.Pairwise fun a b => Spec.Apart k env det a.2 b.2) :
    let r := matchPass k env det tm adv l (setFlags flags before)
    let r' := matchPass k env det tm adv l' (setFlags flags before')
    r'.1.Perm r.1 ∧ r'.2.1 = r.2.1 ∧ r'.2.2.Perm r.2.2 := by
  have hp' : l'.Pairwise fun a b => Spec.Apart k env det a.2 b.2 :=
    (hperm.pairwise_iff fun h => h.symm).2 hp
  have hb' : ∀ a ∈ l', ∀ i ∈ before', ¬ Spec.Minds k env det a.2 i := fun a ha i hi =>
    hb a (hperm.mem_iff.1 ha) i (hbefore.mem_iff.1 hi)
  intro r r'
  have e : r = _ := matchPass_eq l before flags hb hp
  have e' : r' = _ := matchPass_eq l' before' flags hb' hp'
  rw [e, e']
  refine ⟨hperm.map _, setFlags_perm _ (hbefore.append (hperm.flatMap_right _)), hperm.flatMap_right _⟩

/-- The features only change by their matches. -/
theorem apart_of_core {k : Kind P D Env} {env : Env} {det : List D} {a b a' b' : Nat × Feat P} (ha : core a' = core a)
    (hb : core b' = core b) (h : Spec.Apart k env det a.2 b.2) : Spec.Apart k env det a'.2 b'.2 := by
  have e : ∀ x y : Nat × Feat P, core x = core y → { x.2 with matched := [] } = { y.2 with matched := [] } := by
    intro x y hxy
    simp only [core, Prod.mk.injEq] at hxy
    obtain ⟨-, h1, h2, h3, h4⟩ := hxy
    simp only [h1, h2, h3, h4]
  have ea := e _ _ ha
  have eb := e _ _ hb
  intro i
  have := h i
  unfold Spec.Wants Spec.Minds at this ⊢
  rw [ea, eb]
  exact this

theorem noCompetition_of_core {k : Kind P D Env} {env : Env} {det : List D} {l l' : Store P} (hc : l'.map core = l.map core)
    (h : l.Pairwise fun a b => Spec.Apart k env det a.2 b.2) : l'.Pairwise fun a b => Spec.Apart k env det a.2 b.2 := by
  rw [List.pairwise_iff_getElem] at h ⊢
  have hl : l'.length = l.length := by simpa using congrArg List.length hc
  have hg : ∀ (i : Nat) (h1 : i < l'.length), core l'[i] = core (l[i]'(hl ▸ h1)) := by
    intro i h1
    have := congrArg (fun x => x[i]?) hc
    simpa [h1, hl ▸ h1] using this
  intro i j hi hj hij
  exact apart_of_core (hg i hi) (hg j hj) (h i j (hl ▸ hi) (hl ▸ hj) hij)

theorem matchOnce_perm {k : Kind P D Env} {env : Env} {det : List D} (adv : Bool) {old old' : List Match} {m m' : FMap P}
    (hm : Spec.SameMap m m') (ho : old'.Perm old) (h : Spec.NoCompetition k env det m) :
    Spec.SameMap (matchOnce k env det adv old m).1 (matchOnce k env det adv old' m').1 ∧
      (matchOnce k env det adv old' m').2.Perm (matchOnce k env det adv old m).2 := by
  unfold matchOnce
  rw [hm.active]
  by_cases ha : m.active = true
  · simp only [ha, Bool.not_true, Bool.false_eq_true, if_false]
    have h' := List.pairwise_append.1 h
    set fl := List.replicate det.length false
    have e0 : fl = setFlags fl [] := rfl
    obtain ⟨a1, a2, a3⟩ := matchPass_perm (tm := true) (adv := adv) [] [] fl hm.localMap (List.Perm.refl _) (by simp) h'.1
    rw [← e0] at a1 a2 a3
    have hlen := a3.length_eq
    have e1 := matchPass_eq (k := k) (env := env) (det := det) (tm := true) (adv := adv) m.localMap [] fl (by simp) h'.1
    rw [← e0, List.nil_append] at e1
    have hb : ∀ a ∈ m.staged, ∀ i ∈ m.localMap.flatMap fun a => (found k env det true adv fl a).1,
        ¬ Spec.Minds k env det a.2 i := by
      intro a ha i hi hmind
      obtain ⟨b, hb, hbi⟩ := List.mem_flatMap.1 hi
      exact (h'.2.2 b hb a ha i).1 ⟨found_wants hbi, hmind⟩
    obtain ⟨b1, b2, b3⟩ := matchPass_perm
      (tm := decide ((matchPass k env det true adv m.localMap fl).2.2.length < k.minFeatures * 3)) (adv := adv) _ _ fl hm.staged
      (List.Perm.refl _) hb h'.2.1
    have e2 : (matchPass k env det true adv m.localMap fl).2.1 =
        setFlags fl (m.localMap.flatMap fun a => (found k env det true adv fl a).1) := by rw [e1]
    rw [← e2] at b1 b2 b3
    rw [hlen, a2]
    exact ⟨⟨rfl, b2, a1, b1⟩, a3.append b3⟩
  · rw [Bool.not_eq_true] at ha
    simp only [ha, Bool.not_false, if_true]
    exact ⟨hm, ho⟩

/-- C184: when no two features of a map compete for a detection, the matches that are found do not depend on the order in which
the features are visited. -/
theorem C184_matches_partial (k : Kind P D Env) (env : Env) (det : List D) {m m' : FMap P} (hm : Spec.SameMap m m')
    (h : Spec.NoCompetition k env det m) :
    Spec.SameMap (getMatches k env det m).1 (getMatches k env det m').1 ∧
      (getMatches k env det m').2.Perm (getMatches k env det m).2 := by
  obtain ⟨h1, h2⟩ := matchOnce_perm false hm (List.Perm.refl []) h
  obtain ⟨c1, c2, c3⟩ := matchOnce_core k env det false [] m
  have hn : Spec.NoCompetition k env det (matchOnce k env det false [] m).1 :=
    noCompetition_of_core (by rw [List.map_append, List.map_append, c1, c2]) h
  obtain ⟨h3, h4⟩ := matchOnce_perm true h1 h2 hn
  simp only [getMatches]
  rw [h2.length_eq]
  split
  · exact ⟨h3, h4⟩
  · exact ⟨h1, h2⟩


/-! ## The other calls -/

theorem emplace_perm {l l' : Store P} (h : l'.Perm l) (x : Nat) (f : Feat P) : (emplace x f l').Perm (emplace x f l) := by
  have e : (lookup x l').isSome = (lookup x l).isSome := by
    rw [Bool.eq_iff_iff, lookup_isSome, lookup_isSome]
    exact (h.map _).mem_iff
  unfold emplace
  rw [e]
  split
  · exact h
  · exact h.append_right _

theorem updateLocal_perm {k : Kind P D Env} {env : Env} {det : List D} {l l' : Store P} (h : l.Perm l') :
    ∀ {kept : Store P} {used : List Nat} {wr : List (Feat P)}, updateLocal k env det l = .ok (kept, used, wr) →
      ∃ kept' used' wr', updateLocal k env det l' = .ok (kept', used', wr') ∧ kept'.Perm kept ∧ used'.Perm used ∧
        wr'.Perm wr := by
  induction h with
  | nil => intro kept used wr h; exact ⟨_, _, _, h, .refl _, .refl _, .refl _⟩
  | cons a _ ih =>
    obtain ⟨key, f⟩ := a
    intro kept used wr h
    simp only [updateLocal] at h ⊢
    obtain ⟨⟨f1, hit, u⟩, h1, h⟩ := Outcome.bind_eq_ok h
    obtain ⟨⟨kp, us, w⟩, h2, h⟩ := Outcome.bind_eq_ok h
    obtain ⟨kp', us', w', e, p1, p2, p3⟩ := ih h2
    rw [h1, Outcome.bind_ok]
    simp only
    rw [e, Outcome.bind_ok]
    dsimp only at h ⊢
    split at h
    · rename_i hl
      rw [if_pos hl]
      simp only [Outcome.ok.injEq, Prod.mk.injEq] at h ⊢
      obtain ⟨rfl, rfl, rfl⟩ := h
      refine ⟨_, _, _, ⟨rfl, rfl, rfl⟩, p1, p2.append_left _, ?_⟩
      split
      · exact p3
      · exact p3.cons _
    · rename_i hl
      rw [if_neg hl]
      simp only [Outcome.ok.injEq, Prod.mk.injEq] at h ⊢
      obtain ⟨rfl, rfl, rfl⟩ := h
      exact ⟨_, _, _, ⟨rfl, rfl, rfl⟩, p1.cons _, p2.append_left _, p3⟩
  | swap a b l =>
    obtain ⟨ka, fa⟩ := a
    obtain ⟨kb, fb⟩ := b
    intro kept used wr h
    simp only [updateLocal] at h ⊢
    obtain ⟨⟨f1, hit, u⟩, h1, h⟩ := Outcome.bind_eq_ok h
    obtain ⟨⟨kp, us, w⟩, h2, h⟩ := Outcome.bind_eq_ok h
    obtain ⟨⟨g1, hit', u'⟩, h3, h2⟩ := Outcome.bind_eq_ok h2
    obtain ⟨⟨kp', us', w'⟩, h4, h2⟩ := Outcome.bind_eq_ok h2
    rw [h1, h3, h4]
    simp only [Outcome.bind_ok] at h h2 ⊢
    by_cases hb : k.isLost (settle hit f1) = true <;> by_cases ha : k.isLost (settle hit' g1) = true <;>
      simp only [ha, hb, if_true, if_false, Bool.false_eq_true, Outcome.ok.injEq, Prod.mk.injEq, Outcome.bind_ok] at h h2 ⊢ <;>
      obtain ⟨rfl, rfl, rfl⟩ := h2 <;> obtain ⟨rfl, rfl, rfl⟩ := h <;>
      refine ⟨_, _, _, ⟨rfl, rfl, rfl⟩, ?_, ?_, ?_⟩
    all_goals first
      | exact .refl _
      | exact List.Perm.swap _ _ _
      | (rw [← List.append_assoc, ← List.append_assoc]; exact List.Perm.append_right _ List.perm_append_comm)
      | (split <;> split <;> first | exact .refl _ | exact List.Perm.swap _ _ _)
  | trans _ _ ih1 ih2 =>
    intro kept used wr h
    obtain ⟨a, b, c, e, p1, p2, p3⟩ := ih1 h
    obtain ⟨a', b', c', e', q1, q2, q3⟩ := ih2 e
    exact ⟨a', b', c', e', q1.trans p1, q2.trans p2, q3.trans p3⟩

/-- The visits of one candidate: what is left of the budget, the candidate if it is kept, its local feature if it is promoted,
and the used detections. -/
def visit (k : Kind P D Env) (env : Env) (det : List D) : Nat → Nat × Feat P → Outcome (Nat × Store P × Store P × List Nat)
  | 0, _ => .outOfFuel
  | n + 1, (key, f) =>
    (applyMatches k env det true f.matched f).bind fun (f1, hit, used) =>
      let f2 := settle hit f1
      if k.shouldAdd f2 then
        match k.promote f2 with
        | some body => .ok (n, [], [(f2.id, promoted f2 body)], used)
        | none => (visit k env det n (key, f2)).bind fun (n', kept, prom, u) => .ok (n', kept, prom, used ++ u)
      else .ok (n, if k.shouldRemove f2 then [] else [(key, f2)], [], used)

def emplaceAll (ps : Store P) (l : Store P) : Store P := ps.foldl (fun l p => emplace p.1 p.2 l) l

theorem bind_assoc' {α β γ : Type} (x : Outcome α) (f : α → Outcome β) (g : β → Outcome γ) :
    (x.bind f).bind g = x.bind fun a => (f a).bind g := by cases x <;> rfl

theorem updateStaged_cons (k : Kind P D Env) (env : Env) (det : List D) :
    ∀ (n : Nat) (a : Nat × Feat P) (rest loc : Store P),
      updateStaged k env det n (a :: rest) loc = (visit k env det n a).bind fun v =>
        (updateStaged k env det v.1 rest (emplaceAll v.2.2.1 loc)).bind fun r =>
          .ok (v.2.1 ++ r.1, r.2.1, v.2.2.2 ++ r.2.2) := by
  intro n
  induction n with
  | zero => intro a rest loc; rfl
  | succ n ih =>
    intro a rest loc
    obtain ⟨key, f⟩ := a
    simp only [updateStaged, visit, bind_assoc']
    congr 1
    funext r
    obtain ⟨f1, hit, used⟩ := r
    dsimp only
    by_cases ha : k.shouldAdd (settle hit f1) = true
    · simp only [ha, if_true]
      cases hp : k.promote (settle hit f1) with
      | some body => simp only [Outcome.bind_ok, emplaceAll, List.foldl_cons, List.foldl_nil, List.nil_append]
      | none =>
        simp only [ih, bind_assoc', Outcome.bind_ok, List.append_assoc]
    · simp only [ha, Bool.false_eq_true, if_false, Outcome.bind_ok, emplaceAll, List.foldl_nil]
      congr 1
      funext r
      by_cases hr : k.shouldRemove (settle hit f1) = true <;> simp [hr]

theorem visit_cost {k : Kind P D Env} {env : Env} {det : List D} :
    ∀ {n : Nat} {a : Nat × Feat P} {n' : Nat} {r : Store P × Store P × List Nat}, visit k env det n a = .ok (n', r) →
      ∃ c, n = n' + c ∧ ∀ m, visit k env det (m + c) a = .ok (m, r) := by
  intro n
  induction n with
  | zero => intro a n' r h; simp [visit] at h
  | succ n ih =>
    intro a n' r h
    obtain ⟨key, f⟩ := a
    simp only [visit] at h
    obtain ⟨⟨f1, hit, used⟩, h1, h⟩ := Outcome.bind_eq_ok h
    dsimp only at h
    by_cases ha : k.shouldAdd (settle hit f1) = true
    · simp only [ha, if_true] at h
      cases hp : k.promote (settle hit f1) with
      | some body =>
        simp only [hp, Outcome.ok.injEq, Prod.mk.injEq] at h
        obtain ⟨rfl, rfl⟩ := h
        refine ⟨1, rfl, fun m => ?_⟩
        simp only [visit, h1, Outcome.bind_ok, ha, if_true, hp]
      | none =>
        simp only [hp] at h
        obtain ⟨⟨n1, kp, pr, u⟩, h2, h⟩ := Outcome.bind_eq_ok h
        simp only [Outcome.ok.injEq, Prod.mk.injEq] at h
        obtain ⟨rfl, rfl⟩ := h
        obtain ⟨c, rfl, hc⟩ := ih h2
        refine ⟨c + 1, by omega, fun m => ?_⟩
        have := hc m
        rw [show m + (c + 1) = (m + c) + 1 by omega]
        simp only [visit, h1, Outcome.bind_ok, ha, if_true, hp, this]
    · simp only [ha, Bool.false_eq_true, if_false, Outcome.ok.injEq, Prod.mk.injEq] at h
      obtain ⟨rfl, rfl⟩ := h
      refine ⟨1, rfl, fun m => ?_⟩
      simp only [visit, h1, Outcome.bind_ok, ha, Bool.false_eq_true, if_false]

theorem visit_id {k : Kind P D Env} {env : Env} {det : List D} :
    ∀ {n : Nat} {a : Nat × Feat P} {n' : Nat} {kp pr : Store P} {u : List Nat}, visit k env det n a = .ok (n', kp, pr, u) →
      a.1 = a.2.id → keys pr = [] ∨ keys pr = [a.1] := by
  intro n
  induction n with
  | zero => intro a n' kp pr u h; simp [visit] at h
  | succ n ih =>
    intro a n' kp pr u h hid
    obtain ⟨key, f⟩ := a
    simp only [visit] at h
    obtain ⟨⟨f1, hit, used⟩, h1, h⟩ := Outcome.bind_eq_ok h
    have e := (applyMatches_spec h1).1
    dsimp only at h hid
    by_cases ha : k.shouldAdd (settle hit f1) = true
    · simp only [ha, if_true] at h
      cases hp : k.promote (settle hit f1) with
      | some body =>
        simp only [hp, Outcome.ok.injEq, Prod.mk.injEq] at h
        obtain ⟨-, -, rfl, -⟩ := h
        right
        simp [e, hid]
      | none =>
        simp only [hp] at h
        obtain ⟨⟨n1, kp', pr', u'⟩, h2, h⟩ := Outcome.bind_eq_ok h
        simp only [Outcome.ok.injEq, Prod.mk.injEq] at h
        obtain ⟨-, -, rfl, -⟩ := h
        simpa using ih h2 (by simp [e, hid])
    · simp only [ha, Bool.false_eq_true, if_false, Outcome.ok.injEq, Prod.mk.injEq] at h
      obtain ⟨-, -, rfl, -⟩ := h
      left; rfl

theorem emplaceAll_perm (ps : Store P) {l l' : Store P} (h : l'.Perm l) : (emplaceAll ps l').Perm (emplaceAll ps l) := by
  induction ps generalizing l l' with
  | nil => exact h
  | cons p ps ih => exact ih (emplace_perm h _ _)

theorem emplaceAll_fresh {pr loc : Store P} {x : Nat} (h : keys pr = [] ∨ keys pr = [x]) (hx : x ∉ keys loc) :
    emplaceAll pr loc = loc ++ pr := by
  rcases h with h | h
  · have : pr = [] := by simpa [keys] using h
    subst this
    simp [emplaceAll]
  · obtain ⟨⟨y, f⟩, rfl⟩ : ∃ p, pr = [p] := by
      have : pr.length = 1 := by simpa [keys] using congrArg List.length h
      exact List.length_eq_one_iff.1 this
    simp only [keys_cons, keys_nil, List.cons.injEq, and_true] at h
    subst h
    simp only [emplaceAll, List.foldl_cons, List.foldl_nil]
    exact emplace_of_not_mem hx

theorem updateStaged_loc {k : Kind P D Env} {env : Env} {det : List D} :
    ∀ (l : Store P) {n : Nat} {loc loc' stg lo : Store P} {used : List Nat}, loc'.Perm loc →
      updateStaged k env det n l loc = .ok (stg, lo, used) →
      ∃ lo', updateStaged k env det n l loc' = .ok (stg, lo', used) ∧ lo'.Perm lo := by
  intro l
  induction l with
  | nil =>
    intro n loc loc' stg lo used hp h
    cases n <;> simp only [updateStaged, Outcome.ok.injEq, Prod.mk.injEq] at h ⊢ <;> obtain ⟨rfl, rfl, rfl⟩ := h <;>
      exact ⟨loc', ⟨rfl, rfl, rfl⟩, hp⟩
  | cons a l ih =>
    intro n loc loc' stg lo used hp h
    rw [updateStaged_cons] at h ⊢
    obtain ⟨⟨n1, kp, pr, u⟩, h1, h⟩ := Outcome.bind_eq_ok h
    obtain ⟨⟨stg1, lo1, u1⟩, h2, h⟩ := Outcome.bind_eq_ok h
    simp only [Outcome.ok.injEq, Prod.mk.injEq] at h
    obtain ⟨rfl, rfl, rfl⟩ := h
    obtain ⟨lo', e, p⟩ := ih (emplaceAll_perm pr hp) h2
    refine ⟨lo', ?_, p⟩
    rw [h1, Outcome.bind_ok]
    simp only
    rw [e, Outcome.bind_ok]

theorem updateStaged_perm {k : Kind P D Env} {env : Env} {det : List D} {l l' : Store P} (h : l.Perm l') :
    ∀ {n : Nat} {loc loc' stg lo : Store P} {used : List Nat}, loc'.Perm loc → Keyed l → (keys l ++ keys loc).Nodup →
      updateStaged k env det n l loc = .ok (stg, lo, used) →
      ∃ stg' lo' used', updateStaged k env det n l' loc' = .ok (stg', lo', used') ∧ stg'.Perm stg ∧ lo'.Perm lo ∧
        used'.Perm used := by
  induction h with
  | nil =>
    intro n loc loc' stg lo used hp _ _ h
    obtain ⟨lo', e, p⟩ := updateStaged_loc [] hp h
    exact ⟨_, _, _, e, .refl _, p, .refl _⟩
  | @cons a l₁ l₂ _ ih =>
    intro n loc loc' stg lo used hp hk hn h
    rw [updateStaged_cons] at h ⊢
    obtain ⟨⟨n1, kp, pr, u⟩, h1, h⟩ := Outcome.bind_eq_ok h
    obtain ⟨⟨stg1, lo1, u1⟩, h2, h⟩ := Outcome.bind_eq_ok h
    simp only [Outcome.ok.injEq, Prod.mk.injEq] at h
    obtain ⟨rfl, rfl, rfl⟩ := h
    rw [keyed_cons] at hk
    have hid := visit_id h1 hk.1
    simp only [keys_cons, List.cons_append, List.nodup_cons, List.mem_append, not_or] at hn
    have hfresh := emplaceAll_fresh hid hn.1.2
    have hn' : (keys l₁ ++ keys (emplaceAll pr loc)).Nodup := by
      rw [hfresh, keys_append]
      rcases hid with hid | hid
      · rw [hid, List.append_nil]; exact hn.2
      · rw [hid, ← List.append_assoc]
        rw [List.nodup_append]
        refine ⟨hn.2, by simp, ?_⟩
        intro x hx y hy hxy
        rw [List.mem_singleton] at hy
        rw [hxy, hy, List.mem_append] at hx
        exact hx.elim hn.1.1 hn.1.2
    obtain ⟨stg', lo', used', e, p1, p2, p3⟩ := ih (emplaceAll_perm pr hp) hk.2 hn' h2
    rw [h1, Outcome.bind_ok]
    simp only
    rw [e, Outcome.bind_ok]
    exact ⟨_, _, _, rfl, p1.append_left _, p2, p3.append_left _⟩
  | swap a b l =>
    intro n loc loc' stg lo used hp hk hn h
    rw [updateStaged_cons] at h ⊢
    obtain ⟨⟨n1, kp, pr, u⟩, h1, h⟩ := Outcome.bind_eq_ok h
    obtain ⟨⟨stg1, lo1, u1⟩, h2, h⟩ := Outcome.bind_eq_ok h
    simp only [Outcome.ok.injEq, Prod.mk.injEq] at h
    obtain ⟨rfl, rfl, rfl⟩ := h
    rw [updateStaged_cons] at h2
    obtain ⟨⟨n2, kp', pr', u'⟩, h3, h2⟩ := Outcome.bind_eq_ok h2
    obtain ⟨⟨stg2, lo2, u2⟩, h4, h⟩ := Outcome.bind_eq_ok h2
    simp only [Outcome.ok.injEq, Prod.mk.injEq] at h
    obtain ⟨rfl, rfl, rfl⟩ := h
    simp only [keyed_cons] at hk
    obtain ⟨c1, e1, hc1⟩ := visit_cost h1
    obtain ⟨c2, e2, hc2⟩ := visit_cost h3
    dsimp only at h3 h4 e1 e2
    have v1 : visit k env det n a = .ok (n2 + c1, kp', pr', u') := by
      rw [show n = (n2 + c1) + c2 by omega]; exact hc2 _
    have v2 : visit k env det (n2 + c1) b = .ok (n2, kp, pr, u) := hc1 _
    have i1 := visit_id h1 hk.1
    have i2 := visit_id h3 hk.2.1
    simp only [keys_cons, List.cons_append, List.nodup_cons, List.mem_cons, List.mem_append, not_or] at hn
    have hloc : (emplaceAll pr (emplaceAll pr' loc')).Perm (emplaceAll pr' (emplaceAll pr loc)) := by
      refine (emplaceAll_perm pr (emplaceAll_perm pr' hp)).trans ?_
      have q1 : a.1 ∉ keys (loc ++ pr) := by
        rw [keys_append, List.mem_append, not_or]
        refine ⟨hn.2.1.2, ?_⟩
        rcases i1 with i | i <;> rw [i] <;> simp [Ne.symm hn.1.1]
      have q2 : b.1 ∉ keys (loc ++ pr') := by
        rw [keys_append, List.mem_append, not_or]
        refine ⟨hn.1.2.2, ?_⟩
        rcases i2 with i | i <;> rw [i] <;> simp [hn.1.1]
      rw [emplaceAll_fresh i1 hn.1.2.2, emplaceAll_fresh i2 hn.2.1.2, emplaceAll_fresh i1 q2, emplaceAll_fresh i2 q1,
        List.append_assoc, List.append_assoc]
      exact List.Perm.append_left _ List.perm_append_comm
    obtain ⟨lo', e, p⟩ := updateStaged_loc l hloc h4
    rw [v1, Outcome.bind_ok]
    simp only
    rw [updateStaged_cons, v2, Outcome.bind_ok]
    simp only
    rw [e, Outcome.bind_ok, Outcome.bind_ok]
    refine ⟨_, _, _, rfl, ?_, p, ?_⟩
    · rw [← List.append_assoc, ← List.append_assoc]; exact List.Perm.append_right _ List.perm_append_comm
    · rw [← List.append_assoc, ← List.append_assoc]; exact List.Perm.append_right _ List.perm_append_comm
  | trans p12 _ ih1 ih2 =>
    intro n loc loc' stg lo used hp hk hn h
    obtain ⟨a, b, c, e, p1, p2, p3⟩ := ih1 (List.Perm.refl loc) hk hn h
    obtain ⟨a', b', c', e', q1, q2, q3⟩ := ih2 hp (fun x hx => hk x (p12.mem_iff.2 hx))
      (((List.Perm.map _ p12).append_right _).nodup_iff.1 hn) e
    exact ⟨a', b', c', e', q1.trans p1, q2.trans p2, q3.trans p3⟩

theorem missLocal_perm (k : Kind P D Env) {l l' : Store P} (h : l'.Perm l) :
    (missLocal k l').1.Perm (missLocal k l).1 ∧ (missLocal k l').2.Perm (missLocal k l).2 := by
  induction h with
  | nil => exact ⟨.refl _, .refl _⟩
  | cons a _ ih =>
    obtain ⟨key, f⟩ := a
    simp only [missLocal]
    split
    · exact ⟨ih.1, ih.2.cons _⟩
    · exact ⟨ih.1.cons _, ih.2⟩
  | swap a b l =>
    obtain ⟨ka, fa⟩ := a
    obtain ⟨kb, fb⟩ := b
    simp only [missLocal]
    split <;> split <;> first
      | exact ⟨.refl _, .refl _⟩
      | exact ⟨.refl _, .swap _ _ _⟩
      | exact ⟨.swap _ _ _, .refl _⟩
  | trans _ _ ih1 ih2 => exact ⟨ih1.1.trans ih2.1, ih1.2.trans ih2.2⟩

theorem missStaged_perm (k : Kind P D Env) {l l' : Store P} (h : l'.Perm l) : (missStaged k l').Perm (missStaged k l) := by
  induction h with
  | nil => exact .refl _
  | cons a _ ih =>
    obtain ⟨key, f⟩ := a
    simp only [missStaged]
    split
    · exact ih
    · exact ih.cons _
  | swap a b l =>
    obtain ⟨ka, fa⟩ := a
    obtain ⟨kb, fb⟩ := b
    simp only [missStaged]
    split <;> split <;> first
      | exact .refl _
      | exact .swap _ _ _
  | trans _ _ ih1 ih2 => exact ih1.trans ih2

theorem takeUpgraded_perm (k : Kind P D Env) (env : Env) {l l' : Store P} (h : l'.Perm l) :
    (takeUpgraded k env l').1.Perm (takeUpgraded k env l).1 ∧ (takeUpgraded k env l').2.Perm (takeUpgraded k env l).2 := by
  induction h with
  | nil => exact ⟨.refl _, .refl _⟩
  | cons a _ ih =>
    obtain ⟨key, f⟩ := a
    simp only [takeUpgraded]
    split
    · exact ⟨ih.1, ih.2.cons _⟩
    · exact ⟨ih.1.cons _, ih.2⟩
  | swap a b l =>
    obtain ⟨ka, fa⟩ := a
    obtain ⟨kb, fb⟩ := b
    simp only [takeUpgraded]
    split <;> split <;> first
      | exact ⟨.refl _, .refl _⟩
      | exact ⟨.refl _, .swap _ _ _⟩
      | exact ⟨.swap _ _ _, .refl _⟩
  | trans _ _ ih1 ih2 => exact ⟨ih1.1.trans ih2.1, ih1.2.trans ih2.2⟩

theorem eraseMatch_perm (x d : Nat) {l l' : Store P} (h : l'.Perm l) : (eraseMatch x d l').Perm (eraseMatch x d l) := h.map _

theorem markUnmatched_same (id det : Nat) {m m' : FMap P} (h : Spec.SameMap m m')
    (hn : (keys m.localMap ++ keys m.staged).Nodup) :
    Spec.SameMap (markUnmatched id det m).1 (markUnmatched id det m').1 ∧
      (markUnmatched id det m').2 = (markUnmatched id det m).2 := by
  have hn' := List.nodup_append.1 hn
  unfold markUnmatched
  rw [h.active, lookup_perm h.localMap hn'.1, lookup_perm h.staged hn'.2.1]
  split
  · exact ⟨h, rfl⟩
  split
  · exact ⟨h, rfl⟩
  split
  · split
    · exact ⟨h, rfl⟩
    · exact ⟨⟨rfl, congrArg (·.set det false) h.flags, eraseMatch_perm _ _ h.localMap, h.staged⟩, rfl⟩
  · split
    · split
      · exact ⟨h, rfl⟩
      · exact ⟨⟨rfl, congrArg (·.set det false) h.flags, h.localMap, eraseMatch_perm _ _ h.staged⟩, rfl⟩
    · exact ⟨h, rfl⟩

theorem markOutliers_same (t : FType) (os : List Match) {m m' : FMap P} (h : Spec.SameMap m m')
    (hn : (keys m.localMap ++ keys m.staged).Nodup) : Spec.SameMap (markOutliers t os m) (markOutliers t os m') := by
  induction os generalizing m m' with
  | nil => exact h
  | cons o os ih =>
    simp only [markOutliers]
    split
    · have hc := markUnmatched_core o.idInMap o.detected m
      refine ih (markUnmatched_same _ _ h hn).1 ?_
      rw [keys_of_core hc.1, keys_of_core hc.2.1]
      exact hn
    · exact ih h hn

theorem stageOne_same (k : Kind P D Env) (env : Env) (d : D) {s s' : State P} (h : Spec.Same s s') :
    Spec.Same (stageOne k env d s) (stageOne k env d s') := by
  unfold stageOne
  rw [h.alloc]
  split
  · dsimp only
    split
    · exact ⟨⟨h.map.active, h.map.flags, h.map.localMap, emplace_perm h.map.staged _ _⟩, rfl, h.written⟩
    · split
      · exact ⟨h.map, rfl, h.written⟩
      · exact h
  · exact h

theorem stageFrom_same (k : Kind P D Env) (env : Env) (used : List Nat) (ds : List D) :
    ∀ (i : Nat) {s s' : State P}, Spec.Same s s' → Spec.Same (stageFrom k env used i ds s) (stageFrom k env used i ds s') := by
  induction ds with
  | nil => intro i s s' h; exact h
  | cons d ds ih =>
    intro i s s' h
    simp only [stageFrom]
    split
    · exact ih _ h
    · exact ih _ (stageOne_same k env d h)

theorem addUpgraded_same (k : Kind P D Env) (us : List (Upgrade P)) : ∀ {s s' : State P}, Spec.Same s s' →
    Spec.Same (addUpgraded k us s).1 (addUpgraded k us s').1 := by
  induction us with
  | nil => intro s s' h; exact h
  | cons u us ih =>
    intro s s' h
    simp only [addUpgraded]
    split
    · split
      · exact ih h
      · exact h
      · refine ih ?_
        rw [h.alloc]
        exact ⟨⟨h.map.active, h.map.flags, emplace_perm h.map.localMap _ _, h.map.staged⟩, rfl, h.written⟩
    · exact ih h

theorem updateMap_same {k : Kind P D Env} {fuel : Nat} {env : Env} {det : List D} {s s' t : State P} {used : List Nat}
    (hi : Inv s) (h : Spec.Same s s') (hr : updateMap k fuel env det s = .ok (t, used)) :
    ∃ t' used', updateMap k fuel env det s' = .ok (t', used') ∧ Spec.Same t t' ∧ used'.Perm used := by
  unfold updateMap at hr ⊢
  rw [h.map.active]
  split at hr
  · rename_i ha
    rw [if_pos ha]
    simp only [Outcome.ok.injEq, Prod.mk.injEq] at hr
    obtain ⟨rfl, rfl⟩ := hr
    exact ⟨_, _, rfl, h, .refl _⟩
  · rename_i ha
    rw [if_neg ha]
    split at hr
    · simp at hr
    · rename_i hc
      rw [if_neg hc]
      obtain ⟨⟨loc, used1, wr⟩, h1, hr⟩ := Outcome.bind_eq_ok hr
      obtain ⟨⟨stg, loc', used2⟩, h2, hr⟩ := Outcome.bind_eq_ok hr
      simp only [Outcome.ok.injEq, Prod.mk.injEq] at hr
      obtain ⟨rfl, rfl⟩ := hr
      obtain ⟨l1, u1, w1, e1, p1, p2, p3⟩ := updateLocal_perm h.map.localMap.symm h1
      obtain ⟨a1, -, -, -⟩ := updateLocal_sub h1
      have hnd := List.nodup_append.1 hi.nodup
      have hn2 : (keys s.map.staged ++ keys loc).Nodup := by
        rw [List.nodup_append]
        refine ⟨hnd.2.1, hnd.1.sublist a1, ?_⟩
        intro x hx y hy hxy
        exact hnd.2.2 y (a1.subset hy) x hx hxy.symm
      obtain ⟨s2, l2, u2, e2, q1, q2, q3⟩ := updateStaged_perm h.map.staged.symm p1 hi.keyedS hn2 h2
      rw [e1, Outcome.bind_ok]
      simp only
      rw [e2, Outcome.bind_ok]
      exact ⟨_, _, rfl, ⟨⟨h.map.active, h.map.flags, q2, q1⟩, h.alloc, h.written.append p3⟩, p2.append q3⟩

theorem Spec.SameMap.refl (m : FMap P) : Spec.SameMap m m := ⟨rfl, rfl, .refl _, .refl _⟩
theorem Spec.Same.refl (s : State P) : Spec.Same s s := ⟨.refl _, rfl, .refl _⟩

theorem same_rehash {s s' : State P} (h : Spec.Same s s') (a b : Shuffle) :
    Spec.Same s { s' with map := { s'.map with localMap := a.app s'.map.localMap, staged := b.app s'.map.staged } } :=
  ⟨⟨h.map.active, h.map.flags, (a.perm _).trans h.map.localMap, (b.perm _).trans h.map.staged⟩, h.alloc, h.written⟩

theorem same_rehash_left {s s' : State P} (h : Spec.Same s s') (a b : Shuffle) :
    Spec.Same { s with map := { s.map with localMap := a.app s.map.localMap, staged := b.app s.map.staged } } s' :=
  ⟨⟨h.map.active, h.map.flags, h.map.localMap.trans (a.perm _).symm, h.map.staged.trans (b.perm _).symm⟩, h.alloc, h.written⟩

/-- The search of matches that the call makes, if it makes one, finds no two features that compete. -/
def Spec.Calm (k : Kind P D Env) : Op P D Env → State P → Prop
  | .find env det, s => Spec.NoCompetition k env det s.map
  | _, _ => True

theorem step_same {k : Kind P D Env} {op : Op P D Env} {s s' t : State P} (hi : Inv s) (h : Spec.Same s s')
    (hcalm : Spec.Calm k op s) (hr : step k op s = .ok t) : ∃ t', step k op s' = .ok t' ∧ Spec.Same t t' := by
  cases op with
  | find env det =>
    simp only [step, Outcome.ok.injEq] at hr ⊢
    subst hr
    exact ⟨_, rfl, (C184_matches_partial k env det h.map hcalm).1, h.alloc, h.written⟩
  | update fuel env det =>
    simp only [step] at hr ⊢
    cases hu : updateMap k fuel env det s with
    | ok r =>
      obtain ⟨t0, used⟩ := r
      obtain ⟨t', used', e, hs, -⟩ := updateMap_same hi h hu
      rw [hu] at hr
      rw [e]
      simp only [Outcome.map, Outcome.bind_ok, Outcome.ok.injEq] at hr ⊢
      subst hr
      exact ⟨_, rfl, hs⟩
    | throws =>
      have hcov : k.covValid env ≠ true := fun hc => updateMap_noThrow hc _ _ _ hu
      have ha : s.map.active = true := by
        by_contra ha
        unfold updateMap at hu
        rw [if_pos (by simpa using ha)] at hu
        cases hu
      have e : updateMap k fuel env det s' = .throws := by
        unfold updateMap
        rw [h.map.active, ha]
        simp [hcov]
      rw [hu] at hr
      rw [e]
      simp only [Outcome.ok.injEq] at hr ⊢
      subst hr
      exact ⟨_, rfl, h⟩
    | exit => rw [hu] at hr; simp [Outcome.map, Outcome.bind] at hr
    | terminate => rw [hu] at hr; simp [Outcome.map, Outcome.bind] at hr
    | ub => rw [hu] at hr; simp [Outcome.map, Outcome.bind] at hr
    | outOfFuel => rw [hu] at hr; simp [Outcome.map, Outcome.bind] at hr
  | noTracking =>
    simp only [step, Outcome.ok.injEq] at hr ⊢
    subst hr
    refine ⟨_, rfl, ?_⟩
    unfold updateNoTracking
    rw [h.map.active]
    split
    · exact h
    · obtain ⟨p1, p2⟩ := missLocal_perm k h.map.localMap
      exact ⟨⟨h.map.active, h.map.flags, p1, missStaged_perm k h.map.staged⟩, h.alloc, h.written.append p2⟩
  | stage env det used =>
    simp only [step, stage] at hr ⊢
    rw [h.map.active, h.map.flags]
    by_cases h1 : (!s.map.active) = true
    · simp only [h1, if_true, Outcome.ok.injEq] at hr ⊢
      subst hr
      exact ⟨_, rfl, h⟩
    by_cases h2 : (!k.covValid env) = true
    · simp only [h1, h2, if_true, if_false, Bool.false_eq_true, Outcome.ok.injEq] at hr ⊢
      subst hr
      exact ⟨_, rfl, h⟩
    by_cases h3 : det.length ≠ s.map.flags.length
    · rw [if_neg h1, if_neg h2, if_pos h3] at hr
      simp at hr
    · rw [if_neg h1, if_neg h2, if_neg h3] at hr ⊢
      simp only [Outcome.ok.injEq] at hr ⊢
      subst hr
      exact ⟨_, rfl, stageFrom_same k env used det 0 h⟩
  | outliers ms =>
    simp only [step, Outcome.ok.injEq] at hr ⊢
    subst hr
    exact ⟨_, rfl, markOutliers_same _ _ h.map hi.nodup, h.alloc, h.written⟩
  | takeUpgrades env =>
    simp only [step, Outcome.ok.injEq] at hr ⊢
    subst hr
    exact ⟨_, rfl, ⟨h.map.active, h.map.flags, (takeUpgraded_perm k env h.map.localMap).1,
      (takeUpgraded_perm k env h.map.staged).1⟩, h.alloc, h.written⟩
  | addUpgrades us =>
    simp only [step, Outcome.ok.injEq] at hr ⊢
    subst hr
    exact ⟨_, rfl, addUpgraded_same k us h⟩
  | reset =>
    simp only [step, Outcome.ok.injEq] at hr ⊢
    subst hr
    refine ⟨_, rfl, ?_, h.alloc, h.written⟩
    unfold reset
    rw [h.map.active]
    split
    · exact h.map
    · exact ⟨rfl, h.map.flags, .refl _, .refl _⟩
  | deactivate =>
    simp only [step, Outcome.ok.injEq] at hr ⊢
    subst hr
    exact ⟨_, rfl, ⟨rfl, h.map.flags, h.map.localMap, h.map.staged⟩, h.alloc, h.written⟩
  | foreignIds n =>
    simp only [step, Outcome.ok.injEq] at hr ⊢
    subst hr
    exact ⟨_, rfl, h.map, by rw [h.alloc], h.written⟩
  | rehash a b =>
    simp only [step, Outcome.ok.injEq] at hr ⊢
    subst hr
    exact ⟨_, rfl, same_rehash (same_rehash_left h a b) a b⟩

/-! ## Histories -/

/-- A change of the iteration order. -/
def Spec.isRehash : Op P D Env → Bool
  | .rehash _ _ => true
  | _ => false

/-- The calls of the history, without the changes of the iteration order. -/
def Spec.calls (ops : List (Op P D Env)) : List (Op P D Env) := ops.filter fun o => !Spec.isRehash o

/-- Throughout the history, no two features compete for a detection. -/
def Spec.CalmHistory (k : Kind P D Env) : List (Op P D Env) → State P → Prop
  | [], _ => True
  | op :: ops, s => Spec.Calm k op s ∧ ∀ t, step k op s = .ok t → Spec.CalmHistory k ops t

theorem run_rehashes {k : Kind P D Env} : ∀ (ops : List (Op P D Env)) {s s' : State P}, Spec.calls ops = [] →
    Spec.Same s s' → ∃ t', run k ops s' = .ok t' ∧ Spec.Same s t' := by
  intro ops
  induction ops with
  | nil => intro s s' _ h; exact ⟨s', rfl, h⟩
  | cons op ops ih =>
    intro s s' hc h
    cases op <;> try simp [Spec.calls, Spec.isRehash] at hc
    rename_i a b
    have hc' : Spec.calls ops = [] := by simpa [Spec.calls, Spec.isRehash] using hc
    obtain ⟨t', e, hs⟩ := ih hc' (same_rehash h a b)
    exact ⟨t', by simp only [run, step, Outcome.bind_ok]; exact e, hs⟩

theorem run_split {k : Kind P D Env} : ∀ (ops : List (Op P D Env)) {o : Op P D Env} {rest : List (Op P D Env)} {s s' : State P},
    Spec.calls ops = o :: rest → Spec.Same s s' →
    ∃ s2 ops2, Spec.Same s s2 ∧ Spec.calls ops2 = rest ∧ run k ops s' = (step k o s2).bind (run k ops2) := by
  intro ops
  induction ops with
  | nil => intro o rest s s' hc _; simp [Spec.calls] at hc
  | cons op ops ih =>
    intro o rest s s' hc h
    by_cases hr : Spec.isRehash op = true
    · cases op <;> simp [Spec.isRehash] at hr
      rename_i a b
      have hc' : Spec.calls ops = o :: rest := by simpa [Spec.calls, Spec.isRehash] using hc
      obtain ⟨s2, ops2, h1, h2, h3⟩ := ih hc' (same_rehash h a b)
      exact ⟨s2, ops2, h1, h2, by simp only [run, step, Outcome.bind_ok]; exact h3⟩
    · have hc' : op = o ∧ Spec.calls ops = rest := by
        simpa [Spec.calls, hr] using hc
      obtain ⟨rfl, hc'⟩ := hc'
      exact ⟨s', ops, h, hc', rfl⟩

theorem run_same {k : Kind P D Env} : ∀ (ops ops' : List (Op P D Env)) {s s' t : State P}, Spec.calls ops = Spec.calls ops' →
    Inv s → Spec.Same s s' → Spec.CalmHistory k ops s → run k ops s = .ok t → t.alloc.given < 2 ^ 64 →
    ∃ t', run k ops' s' = .ok t' ∧ Spec.Same t t' := by
  intro ops
  induction ops with
  | nil =>
    intro ops' s s' t hc _ h _ hr _
    simp only [run, Outcome.ok.injEq] at hr
    subst hr
    exact run_rehashes ops' hc.symm h
  | cons op ops ih =>
    intro ops' s s' t hc hi h hcalm hr hlt
    simp only [run] at hr
    obtain ⟨u, h1, hr2⟩ := Outcome.bind_eq_ok hr
    have hiu : Inv u := inv_step hi h1 (Nat.lt_of_le_of_lt (given_run hr2) hlt)
    by_cases hrh : Spec.isRehash op = true
    · cases op <;> simp [Spec.isRehash] at hrh
      rename_i a b
      have hc' : Spec.calls ops = Spec.calls ops' := by simpa [Spec.calls, Spec.isRehash] using hc
      have hu : Spec.Same u s' := by
        simp only [step, Outcome.ok.injEq] at h1
        subst h1
        exact same_rehash_left h a b
      exact ih ops' hc' hiu hu (hcalm.2 u h1) hr2 hlt
    · have hc' : Spec.calls ops' = op :: Spec.calls ops := by
        rw [← hc]; simp [Spec.calls, hrh]
      obtain ⟨s2, ops2, e1, e2, e3⟩ := run_split (k := k) ops' hc' h
      obtain ⟨u', h2, hs⟩ := step_same hi e1 hcalm.1 h1
      obtain ⟨t', h3, ht⟩ := ih ops2 e2.symm hiu hs (hcalm.2 u h1) hr2 hlt
      exact ⟨t', by rw [e3, h2, Outcome.bind_ok]; exact h3, ht⟩

/-- C184: two histories of the same calls, whose maps iterate over their features in different orders, give the same features
with the same ids, the same states and the same exported features, as long as no two features compete for a detection. -/
theorem C184_history_partial (k : Kind P D Env) (ops ops' : List (Op P D Env)) (hsame : Spec.calls ops = Spec.calls ops')
    {t : State P} (hrun : run k ops (State.init Alloc.start) = .ok t) (hids : t.alloc.given < 2 ^ 64)
    (hcalm : Spec.CalmHistory k ops (State.init Alloc.start)) :
    ∃ t', run k ops' (State.init Alloc.start) = .ok t' ∧ Spec.Same t t' :=
  run_same ops ops' hsame inv_init (.refl _) hcalm hrun hids

/-- C184: the update of the map with a pose never depends on the order. -/
theorem C184_update {k : Kind P D Env} {fuel : Nat} {env : Env} {det : List D} {ops : List (Op P D Env)} {s s' t : State P}
    {used : List Nat} (hrun : run k ops (State.init Alloc.start) = .ok s) (hids : s.alloc.given < 2 ^ 64) (h : Spec.Same s s')
    (hr : updateMap k fuel env det s = .ok (t, used)) :
    ∃ t' used', updateMap k fuel env det s' = .ok (t', used') ∧ Spec.Same t t' ∧ used'.Perm used :=
  updateMap_same (inv_run inv_init hrun hids) h hr

/-! ## Map points that are far apart on the screen do not compete -/

open Keypoints (Handler Detected Pt Tracked Filled dist2 fillMask fillCells)

variable {Desc Cam : Type}

theorem fillMask_far {h : Handler Desc} {p : Pt} {i : Nat} :
    ∀ (is : List Nat) (flags m : List Bool), (i ∈ is → ∃ k, h.keypoints[i]? = some k ∧ 900 < dist2 k.pt p) →
      fillMask h p (flags.set i true) is m = fillMask h p flags is m := by
  have e900 : ((Keypoints.searchRadius * Keypoints.searchRadius : Nat) : Rat) = 900 := by simp [Keypoints.searchRadius]
  intro is
  induction is with
  | nil => intro flags m _; rfl
  | cons j js ih =>
    intro flags m hfar
    have ih' := fun m => ih flags m fun hi => hfar (by simp [hi])
    simp only [fillMask, ih', List.getElem?_set]
    by_cases hij : i = j
    · subst hij
      obtain ⟨k, hk, hd⟩ := hfar (by simp)
      by_cases hl : i < flags.length
      · rw [if_pos rfl, if_pos hl, hk, List.getElem?_eq_getElem hl]
        cases flags[i]
        · simp only [e900, if_neg (not_le.2 hd)]
        · rfl
      · have e : flags[i]? = none := List.getElem?_eq_none (by omega)
        rw [if_pos rfl, if_neg hl, e]
    · simp only [hij, if_false]

theorem mask_far {h : Handler Desc} {detected : List Pt} {tracked : List Tracked} (hf : Filled h detected tracked) {p : Pt}
    {i : Nat} (hfar : ∀ q, detected[i]? = some q → 900 < dist2 q p) (flags : List Bool) (r : Nat) :
    Keypoints.mask h p (flags.set i true) r = Keypoints.mask h p flags r := by
  have key : ∀ (cs : List Nat) (m : List Bool), fillCells h p (flags.set i true) cs m = fillCells h p flags cs m := by
    intro cs
    induction cs with
    | nil => intro m; rfl
    | cons c cs ih =>
      intro m
      simp only [fillCells]
      split
      · rfl
      · rename_i l hl
        rw [fillMask_far l flags m]
        · congr 1
          funext m'
          exact ih m'
        · intro hi
          obtain ⟨q, hq, -⟩ := (hf.cells c i).1 (by simpa [hl] using hi)
          obtain ⟨k, hk, hkp⟩ := Keypoints.kpt hf hq
          exact ⟨k, hk, by rw [hkp]; exact hfar q hq⟩
  exact key _ _

theorem window_far {g : PointGeo P Desc Cam} {c : Cam} {h : Handler Desc} {detected : List Pt} {tracked : List Tracked}
    (hf : Filled h detected tracked) {b : P} {i : Nat}
    (hfar : ∀ p q, g.project c b = some p → detected[i]? = some q → 900 < dist2 q p) (det : List (Detected Desc))
    (flags : List Bool) (r : Nat) :
    (handlerOps g).window (c, h) det b (flags.set i true) r = (handlerOps g).window (c, h) det b flags r := by
  simp only [handlerOps]
  split
  · rfl
  · rename_i p hp
    have e := mask_far hf (fun q hq => hfar p q hp hq) flags (Keypoints.cellRadius r)
    simp only [Keypoints.matchIndexes, e]

theorem window_near {g : PointGeo P Desc Cam} {c : Cam} {h : Handler Desc} {detected : List Pt} {tracked : List Tracked}
    (hf : Filled h detected tracked) {det : List (Detected Desc)} {b : P} {fl : List Bool} {r i : Nat}
    (hi : i ∈ (handlerOps g).window (c, h) det b fl r) :
    ∃ p q, g.project c b = some p ∧ detected[i]? = some q ∧ dist2 q p ≤ 900 := by
  simp only [handlerOps] at hi
  split at hi
  · cases hi
  · rename_i p hp
    split at hi
    · rename_i l hr
      obtain ⟨-, q, hq, hd⟩ := (matchIndexes_cand hf hr).2 i hi
      exact ⟨p, q, hp, hq, hd⟩
    · cases hi

/-- The features project to pixels more than 60 pixels apart. -/
def Spec.FarApart (g : PointGeo P Desc Cam) (c : Cam) (f f' : Feat P) : Prop :=
  ∀ p p', g.project c f.body = some p → g.project c f'.body = some p' →
    60 * 60 < (p.x - p'.x) * (p.x - p'.x) + (p.y - p'.y) * (p.y - p'.y)

theorem Spec.FarApart.symm {g : PointGeo P Desc Cam} {c : Cam} {f f' : Feat P} (h : Spec.FarApart g c f f') :
    Spec.FarApart g c f' f := by
  intro p p' hp hp'
  have := h p' p hp' hp
  linarith

theorem far_of_near {g : PointGeo P Desc Cam} {c : Cam} {f f' : Feat P} (h : Spec.FarApart g c f f') {p q : Pt}
    (hp : g.project c f.body = some p) (hq : dist2 q p ≤ 900) {p' : Pt} (hp' : g.project c f'.body = some p') :
    900 < dist2 q p' := by
  have h1 := h p p' hp hp'
  by_contra hc
  unfold dist2 at hq hc
  nlinarith [sq_nonneg (2 * q.x - p.x - p'.x), sq_nonneg (2 * q.y - p.y - p'.y)]

theorem apart_half_point {g : PointGeo P Desc Cam} {c : Cam} {h : Handler Desc} {detected : List Pt} {tracked : List Tracked}
    (hf : Filled h detected tracked) (det : List (Detected Desc)) {f f' : Feat P}
    (hfar : Keypoints.trackIndex h f.id = none → Keypoints.trackIndex h f'.id = none → Spec.FarApart g c f f') (i : Nat) :
    ¬ (Spec.Wants (pointKind (handlerOps g)) (c, h) det f i ∧ Spec.Minds (pointKind (handlerOps g)) (c, h) det f' i) := by
  rintro ⟨⟨fl, b, adv, hw⟩, fl', b', adv', hm⟩
  apply hm
  have e : ∀ x, (handlerOps g).trackIndex (c, h) det x = Keypoints.trackIndex h x := fun _ => rfl
  simp only [pointKind, pointFind, e] at hw ⊢
  cases ht' : Keypoints.trackIndex h f'.id with
  | some j => rfl
  | none =>
    simp only
    have hw' : ∀ p q, g.project c f'.body = some p → detected[i]? = some q → 900 < dist2 q p := by
      intro p' q hp' hq
      cases ht : Keypoints.trackIndex h f.id with
      | some j =>
        rw [ht] at hw
        simp only [List.mem_singleton] at hw
        subst hw
        obtain ⟨t, -, h2, -⟩ := trackIndex_spec hf ht
        have := (List.getElem?_eq_some_iff.1 hq).1
        omega
      | none =>
        rw [ht] at hw
        simp only at hw
        split at hw
        · obtain ⟨p, q', hp, hq', hd⟩ := window_near hf hw
          rw [hq] at hq'
          injection hq' with hq'
          subst hq'
          exact far_of_near (hfar ht ht') hp hd hp'
        · cases hw
    rw [window_far hf hw' det fl']

/-- C184: two map points do not compete for a detection when one of them is tracked, or when they project to pixels more than 60
pixels apart. -/
theorem C184_points_partial (g : PointGeo P Desc Cam) (c : Cam) (im : Keypoints.DepthImage) (detected : List Pt)
    (descs : List Desc) (tracked : List Tracked) (h0 h : Handler Desc) (hset : Keypoints.set im detected descs tracked h0 = .ok h)
    (f f' : Feat P)
    (hfar : Keypoints.trackIndex h f.id = none → Keypoints.trackIndex h f'.id = none → Spec.FarApart g c f f') :
    Spec.Apart (pointKind (handlerOps g)) (c, h) (Keypoints.detections h) f f' := by
  obtain ⟨hf, -⟩ := Keypoints.set_spec hset
  exact fun i => ⟨apart_half_point hf _ hfar i, apart_half_point hf _ (fun h1 h2 => (hfar h2 h1).symm) i⟩

theorem apart_half_point2d {g : PointGeo P Desc Cam} {c : Cam} {h : Handler Desc} {detected : List Pt}
    {tracked : List Tracked} (hf : Filled h detected tracked) (det : List (Detected Desc)) {f f' : Feat P}
    (hfar : Spec.FarApart g c f f') (i : Nat) :
    ¬ (Spec.Wants (point2dKind (handlerOps g)) (c, h) det f i ∧
      Spec.Minds (point2dKind (handlerOps g)) (c, h) det f' i) := by
  rintro ⟨⟨fl, b, adv, hw⟩, fl', b', adv', hm⟩
  apply hm
  have e : ∀ x, (handlerOps g).trackIndex (c, h) det x = Keypoints.trackIndex h x := fun _ => rfl
  have hnear : ∃ p q, g.project c f.body = some p ∧ detected[i]? = some q ∧ dist2 q p ≤ 900 := by
    simp only [point2dKind, point2dFind] at hw
    split at hw
    · dsimp only at hw
      split at hw
      · exact window_near hf hw
      · cases hw
    · cases hw
  obtain ⟨p, q, hp, hq, hd⟩ := hnear
  have hlt := (List.getElem?_eq_some_iff.1 hq).1
  have hw' : ∀ p' q', g.project c f'.body = some p' → detected[i]? = some q' → 900 < dist2 q' p' := by
    intro p' q' hp' hq'
    rw [hq] at hq'
    injection hq' with hq'
    subst hq'
    exact far_of_near hfar hp hd hp'
  simp only [point2dKind, point2dFind, e]
  rw [window_far hf hw' det fl']
  cases ht' : Keypoints.trackIndex h f'.id with
  | none => rfl
  | some j =>
    obtain ⟨t, -, h2, -⟩ := trackIndex_spec hf ht'
    simp only
    rw [List.getElem?_set_ne (by omega)]

/-- C184: two map points of unknown depth do not compete when they project to pixels more than 60 pixels apart. -/
theorem C184_points2d_partial (g : PointGeo P Desc Cam) (c : Cam) (im : Keypoints.DepthImage) (detected : List Pt)
    (descs : List Desc) (tracked : List Tracked) (h0 h : Handler Desc) (hset : Keypoints.set im detected descs tracked h0 = .ok h)
    (f f' : Feat P) (hfar : Spec.FarApart g c f f') :
    Spec.Apart (point2dKind (handlerOps g)) (c, h) (Keypoints.detections h) f f' := by
  obtain ⟨hf, -⟩ := Keypoints.set_spec hset
  exact fun i => ⟨apart_half_point2d hf _ hfar i, apart_half_point2d hf _ hfar.symm i⟩

/-! ## The order matters when two points compete -/

/-- A handler with the given detected keypoints. -/
def frameOf (ps : List Pt) : Handler Nat :=
  match Keypoints.set demoImage ps (ps.map fun _ => 0) [] (Keypoints.create 640 480) with
  | .ok h => h
  | _ => Keypoints.create 640 480

def backwards : Shuffle := ⟨List.reverse, List.reverse_perm⟩

/-- Two points 8 pixels apart, then a frame with a single keypoint between them. -/
def rivals (between : List (Op Pt (Detected Nat) (Unit × Handler Nat))) : List (Op Pt (Detected Nat) (Unit × Handler Nat)) :=
  let a := frameOf [⟨100, 100⟩, ⟨108, 100⟩]
  let b := frameOf [⟨104, 100⟩]
  [.find ((), a) (Keypoints.detections a), .stage ((), a) (Keypoints.detections a) []] ++ between ++
    [.find ((), b) (Keypoints.detections b)]

theorem holds_elim {α : Type} {x : Outcome α} {p : α → Bool} (h : x.holds p = true) : ∃ a, x = .ok a ∧ p a = true := by
  cases x <;> simp_all [Outcome.holds]

theorem rivals_run : ((run (pointKind (handlerOps demoGeo)) (rivals []) (State.init Alloc.start)).holds fun s =>
      s.map.staged.map (fun p => (p.2.id, p.2.matched)) = [(1, [0]), (2, [])]) ∧
    (run (pointKind (handlerOps demoGeo)) (rivals [.rehash backwards backwards]) (State.init Alloc.start)).holds fun s =>
      s.map.staged.map (fun p => (p.2.id, p.2.matched)) = [(2, [0]), (1, [])] := by
  decide +kernel

/-- C184 is false in general: two histories of the same calls, that only differ by the order in which the map iterates over its
features, give the only keypoint of the last frame to different features. -/
theorem C184_order_matters_false : ¬ ∀ (ops ops' : List (Op Pt (Detected Nat) (Unit × Handler Nat))) (t t' : State Pt),
    Spec.calls ops = Spec.calls ops' →
    run (pointKind (handlerOps demoGeo)) ops (State.init Alloc.start) = .ok t →
    run (pointKind (handlerOps demoGeo)) ops' (State.init Alloc.start) = .ok t' → Spec.Same t t' := by
  intro h
  obtain ⟨h1, h2⟩ := rivals_run
  obtain ⟨t, e, h1⟩ := holds_elim h1
  obtain ⟨t', e', h2⟩ := holds_elim h2
  simp only [decide_eq_true_eq] at h1 h2
  have hs := h _ _ t t' (by rfl) e e'
  have hp := hs.map.staged.map (fun p => (p.2.id, p.2.matched))
  rw [h1, h2] at hp
  revert hp
  decide

/-- Two points 200 pixels apart, then a frame with two keypoints near them. -/
def strangers : List (Op Pt (Detected Nat) (Unit × Handler Nat)) :=
  let a := frameOf [⟨100, 100⟩, ⟨300, 100⟩]
  let b := frameOf [⟨304, 100⟩, ⟨104, 100⟩]
  [.find ((), a) (Keypoints.detections a), .stage ((), a) (Keypoints.detections a) [],
    .find ((), b) (Keypoints.detections b)]

theorem strangers_calm : Spec.CalmHistory (pointKind (handlerOps demoGeo)) strangers (State.init Alloc.start) := by
  refine ⟨List.Pairwise.nil, fun t ht => ⟨trivial, fun t2 ht2 => ⟨?_, fun _ _ => trivial⟩⟩⟩
  have hr : run (pointKind (handlerOps demoGeo)) (strangers.take 2) (State.init Alloc.start) = .ok t2 := by
    simp only [strangers, List.take, run]
    rw [ht, Outcome.bind_ok, ht2, Outcome.bind_ok]
  have hd : (run (pointKind (handlerOps demoGeo)) (strangers.take 2) (State.init Alloc.start)).holds fun s =>
      s.map.localMap.map (fun p => p.2.body) = [] ∧ s.map.staged.map (fun p => p.2.body) = [⟨100, 100⟩, ⟨300, 100⟩] := by
    decide +kernel
  obtain ⟨s, e, hd⟩ := holds_elim hd
  rw [hr] at e
  injection e with e
  subst e
  simp only [decide_eq_true_eq, List.map_eq_nil_iff] at hd
  obtain ⟨h1, h2⟩ := hd
  simp only [Spec.Calm, Spec.NoCompetition]
  rw [h1, List.nil_append]
  obtain ⟨x, y, e, hx, hy⟩ : ∃ x y, t2.map.staged = [x, y] ∧ x.2.body = ⟨100, 100⟩ ∧ y.2.body = ⟨300, 100⟩ := by
    have hl : t2.map.staged.length = 2 := by simpa using congrArg List.length h2
    obtain ⟨x, y, e⟩ := List.length_eq_two.1 hl
    rw [e] at h2
    exact ⟨x, y, e, by simpa using h2⟩
  rw [e]
  refine List.Pairwise.cons ?_ (List.Pairwise.cons (by simp) List.Pairwise.nil)
  intro z hz
  rw [List.mem_singleton] at hz
  subst hz
  obtain ⟨h, hset⟩ : ∃ h, Keypoints.set demoImage [⟨304, 100⟩, ⟨104, 100⟩] [0, 0] [] (Keypoints.create 640 480) = .ok h ∧
      frameOf [⟨304, 100⟩, ⟨104, 100⟩] = h := by
    obtain ⟨h, e, -⟩ := holds_elim (p := fun _ => true) (x := Keypoints.set demoImage [⟨304, 100⟩, ⟨104, 100⟩] [0, 0] []
      (Keypoints.create 640 480)) (by decide +kernel)
    exact ⟨h, e, by simp only [frameOf, List.map]; rw [e]⟩
  obtain ⟨hset, hfr⟩ := hset
  rw [hfr]
  refine C184_points_partial demoGeo () _ _ _ _ _ h hset _ _ fun _ _ => ?_
  intro p p' hp hp'
  simp only [demoGeo, Option.some.injEq] at hp hp'
  rw [← hp, ← hp', hx, hy]
  norm_num

example : ∃ t t', run (pointKind (handlerOps demoGeo)) strangers (State.init Alloc.start) = .ok t ∧
    run (pointKind (handlerOps demoGeo)) (strangers.take 2 ++ .rehash backwards backwards :: strangers.drop 2)
      (State.init Alloc.start) = .ok t' ∧ Spec.Same t t' ∧
    t.map.staged.map (fun p => (p.2.id, p.2.matched)) = [(1, [1]), (2, [0])] := by
  have hd : (run (pointKind (handlerOps demoGeo)) strangers (State.init Alloc.start)).holds fun s =>
      s.map.staged.map (fun p => (p.2.id, p.2.matched)) = [(1, [1]), (2, [0])] ∧ s.alloc.given < 2 ^ 64 := by
    decide +kernel
  obtain ⟨t, e, hd⟩ := holds_elim hd
  simp only [decide_eq_true_eq] at hd
  obtain ⟨t', e', hs⟩ := C184_history_partial _ strangers
    (strangers.take 2 ++ .rehash backwards backwards :: strangers.drop 2) rfl e hd.2 strangers_calm
  exact ⟨t, t', e, e', hs, hd.1⟩

end RgbdSlam.Map
