import Verif.Props.Recovery
import Mathlib.Data.List.Perm.Subperm
/-
C203: a scene point is once in the map.

The camera moves as it likes, and scene points come into sight and leave it.  Every keypoint shows one scene point, `who` tells which
scene point a map point stands for, and every feature of the map is recognised in the keypoint of its scene point, if there is one, and
in no other.
-/
namespace RgbdSlam.Map.Once

variable {α P D Env : Type}

/-! ## Specification -/

/-- The scene points of the features of a map. -/
def Spec.shown (who : P → α) (l : Store P) : List α := l.map fun a => who a.2.body

/-- Keypoint `i` shows the scene point `names[i]`, no scene point is shown twice, and each feature of `l` is recognised: if its scene
point is shown, it is visible, does not move and is found in that keypoint; if not, it is found nowhere. -/
structure Spec.Recognised (k : Kind P D Env) (who : P → α) (env : Env) (det : List D) (names : List α) (l : Store P) : Prop where
  length : names.length = det.length
  nodup : names.Nodup
  sees : ∀ i a, a ∈ l → names[i]? = some (who a.2.body) → k.isMoving a.2.body = false ∧ k.isVisible env a.2.body = true ∧
    ∀ flags : List Bool, flags.length = det.length → flags[i]? = some false → ∀ toMatches advanced,
      k.findMatches env det { a.2 with matched := [] } flags toMatches advanced = ([i], if toMatches then [i] else [])
  absent : ∀ a, a ∈ l → who a.2.body ∉ names → k.isMoving a.2.body = true ∨ k.isVisible env a.2.body = false ∨
    ∀ flags : List Bool, flags.length = det.length → ∀ toMatches advanced,
      k.findMatches env det { a.2 with matched := [] } flags toMatches advanced = ([], [])

/-- A keypoint makes a map point of its scene point, and what is merged or copied stands for the same scene point as before. -/
structure Spec.Faithful (k : Kind P D Env) (who : P → α) (env : Env) (det : List D) (names : List α) : Prop where
  cov : k.covValid env = true
  builds : ∀ (i : Nat) d, det[i]? = some d → k.canAdd d = true ∧ ∃ b, k.build env d = some b ∧ names[i]? = some (who b)
  merges : ∀ (i : Nat) d (f : Feat P), det[i]? = some d → names[i]? = some (who f.body) → f.matched = [i] →
    ∃ b, k.updateWith env d f = .ok (b, true) ∧ who b = who f.body
  copies : ∀ f : Feat P, ∃ b, k.promote f = some b ∧ who b = who f.body

/-! ## The search -/

/-- A feature that was found in the keypoint of its scene point, and nowhere else. -/
def Found (who : P → α) (names : List α) (a : Nat × Feat P) : Prop :=
  (∀ i, names[i]? = some (who a.2.body) → a.2.matched = [i]) ∧ (who a.2.body ∉ names → a.2.matched = [])

theorem shown_of_core (who : P → α) {a b : Store P} (h : a.map core = b.map core) : Spec.shown who a = Spec.shown who b := by
  have : (a.map core).map (fun q => who q.2.2.2.2) = (b.map core).map (fun q => who q.2.2.2.2) := by rw [h]
  simpa [Spec.shown, core, List.map_map, Function.comp_def] using this

theorem mem_of_core {a b : Store P} (h : a.map core = b.map core) {x : Nat × Feat P} (hx : x ∈ a) :
    ∃ y ∈ b, y.1 = x.1 ∧ ({ y.2 with matched := [] } : Feat P) = { x.2 with matched := [] } := by
  have : core x ∈ b.map core := by rw [← h]; exact List.mem_map_of_mem hx
  obtain ⟨y, hy, e⟩ := List.mem_map.1 this
  refine ⟨y, hy, ?_⟩
  simp only [core, Prod.mk.injEq] at e
  obtain ⟨e1, e2, e3, e4, e5⟩ := e
  exact ⟨e1, by simp [e2, e3, e4, e5]⟩

theorem Spec.Recognised.of_core {k : Kind P D Env} {who : P → α} {env : Env} {det : List D} {names : List α} {l l' : Store P}
    (h : Spec.Recognised k who env det names l) (e : l'.map core = l.map core) : Spec.Recognised k who env det names l' := by
  refine ⟨h.length, h.nodup, fun i a ha hi => ?_, fun a ha hi => ?_⟩
  · obtain ⟨b, hb, -, hbe⟩ := mem_of_core e ha
    have hbody : b.2.body = a.2.body := by simp only [Feat.mk.injEq] at hbe; exact hbe.2.2.2.2
    have := h.sees i b hb (by rw [hbody]; exact hi)
    rw [hbe, hbody] at this
    exact this
  · obtain ⟨b, hb, -, hbe⟩ := mem_of_core e ha
    have hbody : b.2.body = a.2.body := by simp only [Feat.mk.injEq] at hbe; exact hbe.2.2.2.2
    have := h.absent b hb (by rw [hbody]; exact hi)
    rw [hbe, hbody] at this
    exact this

theorem Spec.Recognised.mono {k : Kind P D Env} {who : P → α} {env : Env} {det : List D} {names : List α} {l l' : Store P}
    (h : Spec.Recognised k who env det names l) (e : ∀ a ∈ l', a ∈ l) : Spec.Recognised k who env det names l' :=
  ⟨h.length, h.nodup, fun i a ha => h.sees i a (e a ha), fun a ha => h.absent a (e a ha)⟩

theorem matchPass_found {k : Kind P D Env} {who : P → α} {env : Env} {det : List D} {names : List α} (tm adv : Bool) {l : Store P} :
    ∀ {flags : List Bool}, Spec.Recognised k who env det names l → (Spec.shown who l).Nodup → flags.length = det.length →
      (∀ (i : Nat) x, names[i]? = some x → x ∈ Spec.shown who l → flags[i]? = some false) →
      (∀ a ∈ (matchPass k env det tm adv l flags).1, Found who names a) ∧
      (matchPass k env det tm adv l flags).2.1.length = det.length ∧
      ∀ i : Nat, (∀ x, names[i]? = some x → x ∉ Spec.shown who l) → (matchPass k env det tm adv l flags).2.1[i]? = flags[i]? := by
  induction l with
  | nil => intro flags _ _ hl _; exact ⟨by simp [matchPass], hl, fun _ _ => rfl⟩
  | cons a l ih =>
    intro flags hr hn hl hfree
    obtain ⟨key, f⟩ := a
    have hr' := hr.mono (l' := l) fun a ha => by simp [ha]
    rw [Spec.shown, List.map_cons, List.nodup_cons] at hn
    obtain ⟨hnew, hn⟩ := hn
    have hsub : ∀ x, x ∈ Spec.shown who l → x ∈ Spec.shown who ((key, f) :: l) := fun x hx => by simp [Spec.shown] at hx ⊢; exact .inr hx
    rw [matchPass]
    by_cases hin : who f.body ∈ names
    · obtain ⟨i, hi⟩ := List.getElem?_of_mem hin
      obtain ⟨h1, h2, h3⟩ := hr.sees i (key, f) (by simp) hi
      have hfl : flags[i]? = some false := hfree i _ hi (by simp [Spec.shown])
      have e := h3 flags hl hfl tm adv
      simp only at e h1 h2
      simp only [h1, h2, Bool.not_true, Bool.or_self, Bool.false_eq_true, if_false, e, setFlags_one]
      obtain ⟨g1, g2, g3⟩ := ih (flags := flags.set i true) hr' hn (by simpa using hl) (by
        intro j x hj hx
        rw [List.getElem?_set_ne]
        · exact hfree j x hj (hsub x hx)
        · rintro rfl
          rw [hi] at hj
          injection hj with hj
          exact hnew (hj ▸ hx))
      refine ⟨?_, g2, ?_⟩
      · intro b hb
        rcases List.mem_cons.1 hb with rfl | hb
        · refine ⟨fun j hj => ?_, fun h => absurd hin h⟩
          have : i = j := by
            have h1 := (List.getElem?_eq_some_iff.1 hi).1
            exact (List.getElem?_inj h1 hr.nodup).1 (hi.trans hj.symm)
          simp [this]
        · exact g1 b hb
      · intro j hj
        rw [g3 j fun x hx hx' => hj x hx (hsub x hx'), List.getElem?_set_ne]
        rintro rfl
        exact hj _ hi (by simp [Spec.shown])
    · have hf0 : Found who names (key, { f with matched := ([] : List Nat) }) :=
        ⟨fun i hi => absurd (List.mem_of_getElem? hi) hin, fun _ => rfl⟩
      obtain ⟨g1, g2, g3⟩ := ih (flags := flags) hr' hn hl fun i x hi hx => hfree i x hi (hsub x hx)
      have rest : ∀ j, (∀ x, names[j]? = some x → x ∉ Spec.shown who ((key, f) :: l)) →
          (matchPass k env det tm adv l flags).2.1[j]? = flags[j]? := fun j hj => g3 j fun x hx hx' => hj x hx (hsub x hx')
      by_cases hv : (k.isMoving f.body || !k.isVisible env f.body) = true
      · simp only [hv, if_true]
        refine ⟨fun b hb => ?_, g2, rest⟩
        rcases List.mem_cons.1 hb with rfl | hb
        · exact hf0
        · exact g1 b hb
      · have e : k.findMatches env det { f with matched := [] } flags tm adv = ([], []) := by
          rcases hr.absent (key, f) (by simp) hin with h | h | h
          · simp only at h; simp [h] at hv
          · simp only at h; simp [h] at hv
          · exact h flags hl tm adv
        simp only [hv, e, setFlags, List.foldl_nil, Bool.false_eq_true, if_false]
        refine ⟨fun b hb => ?_, g2, rest⟩
        rcases List.mem_cons.1 hb with rfl | hb
        · exact hf0
        · exact g1 b hb

theorem matchOnce_found {k : Kind P D Env} {who : P → α} {env : Env} {det : List D} {names : List α} (adv : Bool) (old : List Match)
    {m : FMap P} (ha : m.active = true) (hr : Spec.Recognised k who env det names (m.localMap ++ m.staged))
    (hn : (Spec.shown who (m.localMap ++ m.staged)).Nodup) :
    (∀ a ∈ (matchOnce k env det adv old m).1.localMap ++ (matchOnce k env det adv old m).1.staged, Found who names a) ∧
    (matchOnce k env det adv old m).1.flags.length = det.length := by
  rw [Spec.shown, List.map_append, List.nodup_append] at hn
  obtain ⟨n1, n2, n3⟩ := hn
  have hfree : ∀ (i : Nat) x, names[i]? = some x → (List.replicate det.length false)[i]? = some false := by
    intro i x hi
    have := (List.getElem?_eq_some_iff.1 hi).1
    rw [hr.length] at this
    simp [this]
  obtain ⟨a1, a2, a3⟩ := matchPass_found (tm := true) (adv := adv) (hr.mono (l' := m.localMap) fun a ha => by simp [ha]) n1
    (flags := List.replicate det.length false) (by simp) (fun i x hi _ => hfree i x hi)
  rw [matchOnce, ha]
  simp only [Bool.not_true, Bool.false_eq_true, if_false]
  obtain ⟨b1, b2, -⟩ := matchPass_found (adv := adv)
    (tm := decide ((matchPass k env det true adv m.localMap (List.replicate det.length false)).2.2.length < k.minFeatures * 3))
    (hr.mono (l' := m.staged) fun a ha => by simp [ha]) n2
    (flags := (matchPass k env det true adv m.localMap (List.replicate det.length false)).2.1) a2 (by
      intro i x hi hx
      rw [a3 i, hfree i x hi]
      intro y hy hy'
      rw [hi] at hy
      injection hy with hy
      subst hy
      exact n3 x hy' x hx rfl)
  refine ⟨fun a ha => ?_, b2⟩
  rcases List.mem_append.1 ha with ha | ha
  · exact a1 a ha
  · exact b1 a ha

theorem getMatches_found {k : Kind P D Env} {who : P → α} {env : Env} {det : List D} {names : List α}
    {m : FMap P} (ha : m.active = true) (hr : Spec.Recognised k who env det names (m.localMap ++ m.staged))
    (hn : (Spec.shown who (m.localMap ++ m.staged)).Nodup) :
    (∀ a ∈ (getMatches k env det m).1.localMap ++ (getMatches k env det m).1.staged, Found who names a) ∧
    (getMatches k env det m).1.flags.length = det.length := by
  have h1 := matchOnce_found (k := k) false [] ha hr hn
  simp only [getMatches]
  split
  · obtain ⟨c1, c2, c3⟩ := matchOnce_core k env det false [] m
    have e : ((matchOnce k env det false [] m).1.localMap ++ (matchOnce k env det false [] m).1.staged).map core =
        (m.localMap ++ m.staged).map core := by simp [c1, c2]
    exact matchOnce_found true _ (c3.trans ha) (hr.of_core e) (by rw [shown_of_core who e]; exact hn)
  · exact h1

/-! ## The update -/

theorem applyMatches_found {k : Kind P D Env} {who : P → α} {env : Env} {det : List D} {names : List α}
    (hf : Spec.Faithful k who env det names) (hlen : names.length = det.length) (all : Bool) {a : Nat × Feat P} (ha : Found who names a) :
    ∃ b, who b = who a.2.body ∧
      ((∃ i, names[i]? = some (who a.2.body) ∧ applyMatches k env det all a.2.matched a.2 = .ok ({ a.2 with body := b }, true, [i])) ∨
       (who a.2.body ∉ names ∧ applyMatches k env det all a.2.matched a.2 = .ok ({ a.2 with body := b }, false, []))) := by
  by_cases hin : who a.2.body ∈ names
  · obtain ⟨i, hi⟩ := List.getElem?_of_mem hin
    have hm := ha.1 i hi
    have hlt : i < det.length := by rw [← hlen]; exact (List.getElem?_eq_some_iff.1 hi).1
    have hd : det[i]? = some det[i] := List.getElem?_eq_getElem hlt
    obtain ⟨b, e, hb⟩ := hf.merges i _ a.2 hd hi hm
    refine ⟨b, hb, .inl ⟨i, hi, ?_⟩⟩
    rw [hm]
    simp [applyMatches, hd, e, Outcome.noexcept, Outcome.bind_ok]
  · exact ⟨a.2.body, rfl, .inr ⟨hin, by rw [ha.2 hin]; rfl⟩⟩

/-- What an update does to the scene points of a list of features: none is new, a keypoint is used exactly if its scene point is there,
and the scene points that are seen stay. -/
structure Updated (names : List α) (before after : List α) (used : List Nat) : Prop where
  fewer : List.Subperm after before
  uses : ∀ (i : Nat) x, names[i]? = some x → x ∈ before → i ∈ used
  used : ∀ i ∈ used, ∃ x ∈ before, names[i]? = some x

theorem Updated.nil (names : List α) : Updated names [] [] [] := ⟨List.Subperm.refl _, by simp, by simp⟩

/-- One feature more, found and kept. -/
theorem Updated.found {names : List α} (hn : names.Nodup) {before after : List α} {used : List Nat} (h : Updated names before after used)
    {x : α} {i : Nat} (hi : names[i]? = some x) : Updated names (x :: before) (x :: after) (i :: used) := by
  refine ⟨(List.subperm_cons _).2 h.fewer, ?_, ?_⟩
  · intro j y hj hy
    rcases List.mem_cons.1 hy with rfl | hy
    · have : i = j := (List.getElem?_inj (List.getElem?_eq_some_iff.1 hi).1 hn).1 (hi.trans hj.symm)
      simp [this]
    · exact List.mem_cons_of_mem _ (h.uses j y hj hy)
  · intro j hj
    rcases List.mem_cons.1 hj with rfl | hj
    · exact ⟨x, by simp, hi⟩
    · obtain ⟨y, hy, e⟩ := h.used j hj
      exact ⟨y, List.mem_cons_of_mem _ hy, e⟩

/-- One feature more, not found and dropped. -/
theorem Updated.dropped {names : List α} {before after : List α} {used : List Nat} (h : Updated names before after used)
    {x : α} (hx : x ∉ names) : Updated names (x :: before) after used := by
  refine ⟨h.fewer.trans (List.sublist_cons_self _ _).subperm, ?_, ?_⟩
  · intro j y hj hy
    rcases List.mem_cons.1 hy with rfl | hy
    · exact absurd (List.mem_of_getElem? hj) hx
    · exact h.uses j y hj hy
  · intro j hj
    obtain ⟨y, hy, e⟩ := h.used j hj
    exact ⟨y, List.mem_cons_of_mem _ hy, e⟩

/-- One feature more, not found and kept. -/
theorem Updated.missed {names : List α} {before after : List α} {used : List Nat} (h : Updated names before after used)
    {x : α} (hx : x ∉ names) : Updated names (x :: before) (x :: after) used :=
  ⟨(List.subperm_cons _).2 h.fewer, (h.dropped hx).uses, (h.dropped hx).used⟩

theorem Updated.perm {names : List α} {before before' after after' : List α} {used : List Nat} (h : Updated names before after used)
    (hb : before.Perm before') (ha : after.Perm after') : Updated names before' after' used :=
  ⟨(ha.symm.subperm).trans (h.fewer.trans hb.subperm), fun i x hi hx => h.uses i x hi (hb.mem_iff.2 hx),
    fun i hi => by obtain ⟨x, hx, e⟩ := h.used i hi; exact ⟨x, hb.mem_iff.1 hx, e⟩⟩

theorem updateLocal_found {k : Kind P D Env} {who : P → α} {env : Env} {det : List D} {names : List α}
    (hf : Spec.Faithful k who env det names) (hlen : names.length = det.length) (hnn : names.Nodup)
    (hlost : ∀ f : Feat P, f.failed = 0 → k.isLost f = false)
    {l : Store P} : (∀ a ∈ l, Found who names a) →
      ∃ l' used wr, updateLocal k env det l = .ok (l', used, wr) ∧ Updated names (Spec.shown who l) (Spec.shown who l') used ∧
        ∀ x ∈ Spec.shown who l, x ∈ names → x ∈ Spec.shown who l' := by
  induction l with
  | nil =>
    intro _
    exact ⟨[], [], [], rfl, Updated.nil names, by simp [Spec.shown]⟩
  | cons a l ih =>
    intro h
    obtain ⟨l', used, wr, e, hu, hst⟩ := ih fun a ha => h a (by simp [ha])
    obtain ⟨b, hb, hap⟩ := applyMatches_found hf hlen false (h a (by simp))
    obtain ⟨key, f⟩ := a
    simp only at hb hap
    have hsh : ∀ g : Feat P, g.body = b → Spec.shown who ((key, g) :: l') = who f.body :: Spec.shown who l' := by
      intro g hg; simp [Spec.shown, hg, hb]
    rcases hap with ⟨i, hi, ea⟩ | ⟨hin, ea⟩
    · refine ⟨(key, settle true { f with body := b }) :: l', i :: used, wr, ?_, ?_, ?_⟩
      · rw [updateLocal, ea]
        simp only [Outcome.bind_ok, e]
        rw [if_neg (by rw [hlost _ (by simp [settle])]; simp)]
        rfl
      · rw [hsh _ (by simp [settle])]
        exact hu.found hnn hi
      · intro x hx hxn
        rw [hsh _ (by simp [settle])]
        simp only [Spec.shown, List.map_cons, List.mem_cons] at hx ⊢
        exact hx.imp id fun hx => hst x hx hxn
    · rw [updateLocal, ea]
      simp only [Outcome.bind_ok, e, List.nil_append]
      have hst' : ∀ x ∈ Spec.shown who ((key, f) :: l), x ∈ names → x ∈ Spec.shown who l' := by
        intro x hx hxn
        simp only [Spec.shown, List.map_cons, List.mem_cons] at hx
        rcases hx with rfl | hx
        · exact absurd hxn hin
        · exact hst x hx hxn
      split
      · exact ⟨_, _, _, rfl, hu.dropped hin, hst'⟩
      · refine ⟨_, _, _, rfl, ?_, fun x hx hxn => ?_⟩
        · rw [hsh _ (by simp [settle])]
          exact hu.missed hin
        · rw [hsh _ (by simp [settle])]
          exact List.mem_cons_of_mem _ (hst' x hx hxn)

/-- The counters of a feature type: a feature just found is not lost; a candidate that was found is not removed. -/
structure Spec.Counted (k : Kind P D Env) : Prop where
  lost : ∀ f : Feat P, f.failed = 0 → k.isLost f = false
  remove : ∀ f : Feat P, f.failed = 0 → 0 < f.succ → k.shouldRemove f = false
  keep : ∀ f : Feat P, f.succ < 0 → k.shouldAdd f = false ∧ k.shouldRemove f = true

theorem updateStaged_found {k : Kind P D Env} {who : P → α} {env : Env} {det : List D} {names : List α}
    (hf : Spec.Faithful k who env det names) (hlen : names.length = det.length) (hnn : names.Nodup) (hk : Spec.Counted k)
    {l : Store P} : ∀ (fuel : Nat) (loc : Store P), (∀ a ∈ l, Found who names a) → l.length ≤ fuel → (∀ a ∈ l, 0 ≤ a.2.succ) →
      Keyed l → (keys l ++ keys loc).Nodup →
      ∃ stg loc' used, updateStaged k env det fuel l loc = .ok (stg, loc', used) ∧ (∃ new, loc' = loc ++ new ∧
        Updated names (Spec.shown who l) (Spec.shown who new ++ Spec.shown who stg) used ∧
        ∀ x ∈ Spec.shown who l, x ∈ names → x ∈ Spec.shown who new ++ Spec.shown who stg) ∧ ∀ a ∈ stg, 0 ≤ a.2.succ := by
  induction l with
  | nil =>
    intro fuel loc _ _ _ _ _
    refine ⟨[], loc, [], by cases fuel <;> rfl, ⟨[], by simp, Updated.nil names, by simp [Spec.shown]⟩, by simp⟩
  | cons a l ih =>
    intro fuel loc h hfu hs hkey hkn
    obtain ⟨fuel, rfl⟩ : ∃ m, fuel = m + 1 := ⟨fuel - 1, by simp at hfu; omega⟩
    obtain ⟨b, hb, hap⟩ := applyMatches_found hf hlen true (h a (by simp))
    obtain ⟨key, f⟩ := a
    have hkf : key = f.id := hkey (key, f) (by simp)
    have hsf : 0 ≤ f.succ := hs (key, f) (by simp)
    simp only at hb hap
    have hkn' : (keys l ++ keys loc).Nodup := by
      rw [keys_cons, List.cons_append, List.nodup_cons] at hkn; exact hkn.2
    have hnew : key ∉ keys loc := by
      rw [keys_cons, List.cons_append, List.nodup_cons, List.mem_append, not_or] at hkn; exact hkn.1.2
    have hnewl : key ∉ keys l := by
      rw [keys_cons, List.cons_append, List.nodup_cons, List.mem_append, not_or] at hkn; exact hkn.1.1
    have go := fun loc h2 => ih fuel loc (fun a ha => h a (by simp [ha])) (by simpa using hfu) (fun a ha => hs a (by simp [ha]))
      (fun a ha => hkey a (by simp [ha])) h2
    obtain ⟨hit, used0, ea, hor⟩ : ∃ hit used0, applyMatches k env det true f.matched f = .ok ({ f with body := b }, hit, used0) ∧
        ((hit = true ∧ ∃ i, names[i]? = some (who f.body) ∧ used0 = [i]) ∨ (hit = false ∧ who f.body ∉ names ∧ used0 = [])) := by
      rcases hap with ⟨i, hi, ea⟩ | ⟨hin, ea⟩
      · exact ⟨true, [i], ea, .inl ⟨rfl, i, hi, rfl⟩⟩
      · exact ⟨false, [], ea, .inr ⟨rfl, hin, rfl⟩⟩
    generalize hf2 : settle hit { f with body := b } = f2
    have hf2b : f2.body = b := by rw [← hf2]; cases hit <;> simp [settle]
    have hf2i : f2.id = key := by rw [← hf2, settle_id, hkf]
    have keepL : ∀ {after : List α} {used : List Nat}, Updated names (Spec.shown who l) after used →
        Updated names (Spec.shown who ((key, f) :: l)) (who f.body :: after) (used0 ++ used) := by
      intro after used hu
      rcases hor with ⟨-, i, hi, rfl⟩ | ⟨-, hin, rfl⟩
      · exact hu.found hnn hi
      · exact hu.missed hin
    rw [updateStaged, ea]
    simp only [Outcome.bind_ok, hf2]
    by_cases hadd : k.shouldAdd f2 = true
    · obtain ⟨b2, eb, hb2⟩ := hf.copies f2
      rw [if_pos hadd, eb]
      simp only
      rw [emplace_of_not_mem (by rw [hf2i]; exact hnew)]
      obtain ⟨stg, loc', used, e, ⟨new, rfl, hu, hall⟩, hsu⟩ := go (loc ++ [(f2.id, promoted f2 b2)]) (by
        rw [keys_append, ← List.append_assoc, List.nodup_append]
        refine ⟨hkn', by simp [keys], ?_⟩
        intro x hx y hy hxy
        simp only [keys, List.map_cons, List.map_nil, List.mem_singleton, hf2i] at hy
        subst hy hxy
        rcases List.mem_append.1 hx with hx | hx
        · exact hnewl hx
        · exact hnew hx)
      have hsh : Spec.shown who ((f2.id, promoted f2 b2) :: new) = who f.body :: Spec.shown who new := by
        simp [Spec.shown, promoted, hb2, hf2b, hb]
      refine ⟨stg, _, used0 ++ used, by rw [e]; rfl, ⟨(f2.id, promoted f2 b2) :: new, by simp, ?_, ?_⟩, hsu⟩
      · rw [hsh]
        exact keepL hu
      · intro x hx hxn
        rw [hsh]
        simp only [Spec.shown, List.map_cons, List.mem_cons, List.cons_append] at hx ⊢
        exact hx.imp id fun hx => hall x hx hxn
    · obtain ⟨stg, loc', used, e, ⟨new, rfl, hu, hall⟩, hsu⟩ := go loc hkn'
      rw [if_neg hadd, e]
      simp only [Outcome.bind_ok]
      by_cases hrem : k.shouldRemove f2 = true
      · rw [if_pos hrem]
        have hmiss : who f.body ∉ names ∧ used0 = [] := by
          rcases hor with ⟨rfl, i, hi, rfl⟩ | ⟨rfl, hin, rfl⟩
          · exfalso
            have := hk.remove f2 (by rw [← hf2]; simp [settle]) (by rw [← hf2]; simp [settle]; omega)
            rw [this] at hrem
            exact absurd hrem (by simp)
          · exact ⟨hin, rfl⟩
        obtain ⟨hin, rfl⟩ := hmiss
        refine ⟨stg, _, used, rfl, ⟨new, rfl, hu.dropped hin, ?_⟩, hsu⟩
        intro x hx hxn
        simp only [Spec.shown, List.map_cons, List.mem_cons] at hx
        rcases hx with rfl | hx
        · exact absurd hxn hin
        · exact hall x hx hxn
      · rw [if_neg hrem]
        have hsh : Spec.shown who ((key, f2) :: stg) = who f.body :: Spec.shown who stg := by
          simp [Spec.shown, hf2b, hb]
        refine ⟨_, _, used0 ++ used, rfl, ⟨new, rfl, ?_, ?_⟩, ?_⟩
        · rw [hsh]
          exact (keepL hu).perm (List.Perm.refl _) List.perm_middle.symm
        · intro x hx hxn
          rw [hsh]
          simp only [Spec.shown, List.map_cons, List.mem_cons] at hx
          rw [List.mem_append, List.mem_cons]
          rcases hx with rfl | hx
          · exact .inr (.inl rfl)
          · exact (List.mem_append.1 (hall x hx hxn)).imp id .inr
        · intro a ha
          rcases List.mem_cons.1 ha with rfl | ha
          · by_contra hneg
            simp only at hneg
            exact hrem (hk.keep f2 (by omega)).2
          · exact hsu a ha

/-- The scene points of a map, and that none is there twice. -/
def Spec.sceneOf (who : P → α) (m : FMap P) : List α := Spec.shown who m.localMap ++ Spec.shown who m.staged

/-- Adding the keypoints from number `i` on that were not used. -/
theorem stageFrom_found {k : Kind P D Env} {who : P → α} {env : Env} {det : List D} {names : List α}
    (hf : Spec.Faithful k who env det names) (hnn : names.Nodup) (used : List Nat) :
    ∀ (ds : List D) (i : Nat) (s : State P), det.drop i = ds → Inv s → s.alloc.given + ds.length < 2 ^ 64 →
      (Spec.sceneOf who s.map).Nodup → (∀ a ∈ s.map.staged, 0 ≤ a.2.succ) →
      (∀ (j : Nat) x, i ≤ j → names[j]? = some x → (x ∈ Spec.sceneOf who s.map ↔ j ∈ used)) →
      ∃ s', stageFrom k env used i ds s = s' ∧ Inv s' ∧ s'.alloc.given ≤ s.alloc.given + ds.length ∧ s'.map.active = s.map.active ∧
        s'.map.flags = s.map.flags ∧ (Spec.sceneOf who s'.map).Nodup ∧ (∀ a ∈ s'.map.staged, 0 ≤ a.2.succ) ∧
        (∀ x ∈ Spec.sceneOf who s.map, x ∈ Spec.sceneOf who s'.map) ∧
        ∀ (j : Nat) x, i ≤ j → j < det.length → names[j]? = some x → x ∈ Spec.sceneOf who s'.map := by
  intro ds
  induction ds with
  | nil =>
    intro i s hd hi hg hn hs hu
    have hle : det.length ≤ i := by
      have := congrArg List.length hd
      simp at this
      omega
    exact ⟨s, rfl, hi, by simp, rfl, rfl, hn, hs, fun x hx => hx, fun j x h1 h2 => by omega⟩
  | cons d ds ih =>
    intro i s hd hi hg hn hs hu
    have hdi : det[i]? = some d := by
      have := congrArg (·[0]?) hd
      simpa using this
    have hd' : det.drop (i + 1) = ds := by
      have := congrArg List.tail hd
      simpa [List.tail_drop] using this
    simp only [List.length_cons] at hg
    obtain ⟨hca, b, eb, hb⟩ := hf.builds i d hdi
    rw [stageFrom]
    by_cases hui : used.contains i = true
    · rw [if_pos hui]
      obtain ⟨s', e, g1, g2, g3, g4, g5, g6, g7, g8⟩ := ih (i + 1) s hd' hi (by omega) hn hs fun j x hj hx => hu j x (by omega) hx
      refine ⟨s', e, g1, by simp only [List.length_cons]; omega, g3, g4, g5, g6, g7, ?_⟩
      intro j x h1 h2 h3
      by_cases hj : j = i
      · subst hj
        exact g7 x ((hu j x (Nat.le_refl _) h3).2 (by simpa using hui))
      · exact g8 j x (by omega) h2 h3
    · rw [if_neg hui]
      obtain ⟨f1, f2, f3⟩ := fresh_not_mem hi (by omega)
      have f2' := f2
      rw [List.mem_append, not_or] at f2'
      have hone : stageOne k env d s = { s with alloc := s.alloc.next, map := { s.map with staged :=
          s.map.staged ++ [(s.alloc.next.last, ⟨s.alloc.next.last, 0, 0, [], b⟩)] } } := by
        simp only [stageOne, hca, if_true, eb, emplace_of_not_mem f2'.2]
      have hsc : Spec.sceneOf who (stageOne k env d s).map = Spec.sceneOf who s.map ++ [who b] := by
        rw [hone]; simp [Spec.sceneOf, Spec.shown]
      have hbn : who b ∉ Spec.sceneOf who s.map := fun hc =>
        hui (by simpa using (hu i _ (Nat.le_refl _) hb).1 hc)
      have hgiv : (stageOne k env d s).alloc.given = s.alloc.given + 1 := by rw [hone]; rfl
      obtain ⟨s', e, g1, g2, g3, g4, g5, g6, g7, g8⟩ := ih (i + 1) (stageOne k env d s) hd'
        (inv_stageOne k env d hi (by omega)) (by omega) (by
          rw [hsc, List.nodup_append]
          refine ⟨hn, by simp, ?_⟩
          intro x hx y hy hxy
          rw [List.mem_singleton] at hy
          subst hxy hy
          exact hbn hx) (by
          rw [hone]
          intro a ha
          rcases List.mem_append.1 ha with ha | ha
          · exact hs a ha
          · rw [List.mem_singleton] at ha; subst ha; exact Int.le_refl 0) (by
          intro j x hj hx
          rw [hsc, List.mem_append, List.mem_singleton]
          rw [← hu j x (by omega) hx]
          constructor
          · rintro (h | rfl)
            · exact h
            · have : i = j := (List.getElem?_inj (List.getElem?_eq_some_iff.1 hb).1 hnn).1 (hb.trans hx.symm)
              omega
          · exact .inl)
      refine ⟨s', e, g1, by simp only [List.length_cons]; omega, ?_, ?_, g5, g6, ?_, ?_⟩
      · rw [g3, hone]
      · rw [g4, hone]
      · intro x hx
        exact g7 x (by rw [hsc]; exact List.mem_append_left _ hx)
      · intro j x h1 h2 h3
        by_cases hj : j = i
        · subst hj
          rw [hb] at h3
          injection h3 with h3
          subst h3
          exact g7 _ (by rw [hsc]; simp)
        · exact g8 j x (by omega) h2 h3

theorem counted_point (o : PointOps P D Env) : Spec.Counted (pointKind o) := by
  refine ⟨fun f h => by simp [pointKind, h], fun f _ h => ?_, fun f h => ?_⟩
  · have : (0 : Rat) < f.succ := by exact_mod_cast h
    refine decide_eq_false ?_
    rw [confidence_of, not_le, lt_max_iff, lt_min_iff]
    exact .inr ⟨by linarith, by norm_num⟩
  · have h' : (f.succ : Rat) < 0 := by exact_mod_cast h
    have hd : (f.succ : Rat) / 3 < 0 := by linarith
    have hc : confidence f.succ ≤ 0 := by rw [confidence_of]; exact max_le (by norm_num) ((min_le_left _ _).trans hd.le)
    exact ⟨decide_eq_false (by rw [minimumConfidence]; linarith), decide_eq_true hc⟩

/-! ## Without a pose -/

theorem missLocal_shown (k : Kind P D Env) (who : P → α) (l : Store P) : (Spec.shown who (missLocal k l).1).Sublist (Spec.shown who l) := by
  induction l with
  | nil => exact List.Sublist.refl _
  | cons a l ih =>
    obtain ⟨key, f⟩ := a
    simp only [missLocal]
    split
    · exact ih.trans (List.sublist_cons_self _ _)
    · exact ih.cons_cons _

theorem missStaged_shown {k : Kind P D Env} (hk : Spec.Counted k) (who : P → α) (l : Store P) :
    (Spec.shown who (missStaged k l)).Sublist (Spec.shown who l) ∧ ∀ a ∈ missStaged k l, 0 ≤ a.2.succ := by
  induction l with
  | nil => exact ⟨List.Sublist.refl _, by simp [missStaged]⟩
  | cons a l ih =>
    obtain ⟨key, f⟩ := a
    simp only [missStaged]
    split
    · exact ⟨ih.1.trans (List.sublist_cons_self _ _), ih.2⟩
    · rename_i hr
      refine ⟨ih.1.cons_cons _, fun a ha => ?_⟩
      rcases List.mem_cons.1 ha with rfl | ha
      · by_contra hneg
        exact hr (hk.keep _ (by simpa using hneg)).2
      · exact ih.2 a ha

/-! ## The local map -/

/-- No scene point is twice in the point map; the other maps are empty. -/
structure Ready (who : P → α) (w : World P) : Prop where
  active : ∀ u, (w.maps u).active = true
  others : ∀ u, u ≠ .point → (w.maps u).localMap = [] ∧ (w.maps u).staged = []
  inv : Inv (w.view .point)
  counts : ∀ a ∈ (w.maps .point).staged, 0 ≤ a.2.succ
  once : (Spec.sceneOf who (w.maps .point)).Nodup

/-- The same after the search for matches. -/
structure Sought (who : P → α) (names : List α) (dets : FType → List D) (w : World P) : Prop extends Ready who w where
  found : ∀ a ∈ (w.maps .point).localMap ++ (w.maps .point).staged, Found who names a
  flags : ∀ u, (w.maps u).flags.length = (dets u).length

theorem sceneOf_eq (who : P → α) (m : FMap P) : Spec.sceneOf who m = Spec.shown who (m.localMap ++ m.staged) := by
  simp [Spec.sceneOf, Spec.shown]

theorem find_found {o2 o : PointOps P D Env} {op : PlaneOps P D Env} {env : Env} {dets : FType → List D} {who : P → α}
    {names : List α} (lt : Match → Match → Bool) {w : World P} (hw : Ready who w)
    (hr : Spec.Recognised (pointKind o) who env (dets .point) names ((w.maps .point).localMap ++ (w.maps .point).staged)) :
    Sought who names dets (w.find (programKinds o2 o op) lt env dets order []).1 ∧
    Spec.sceneOf who ((w.find (programKinds o2 o op) lt env dets order []).1.maps .point) = Spec.sceneOf who (w.maps .point) ∧
    (w.find (programKinds o2 o op) lt env dets order []).1.alloc = w.alloc := by
  have hm : ∀ t, (w.find (programKinds o2 o op) lt env dets order []).1.maps t =
      (getMatches (programKinds o2 o op t) env (dets t) (w.maps t)).1 := by
    intro t; rw [find_maps _ _ _ _ _ order_nodup, if_pos (mem_order t)]
  obtain ⟨ha, hwr⟩ := find_rest (k := programKinds o2 o op) lt env dets order w []
  have hcore := fun t => getMatches_core (programKinds o2 o op t) env (dets t) (w.maps t)
  generalize (w.find (programKinds o2 o op) lt env dets order []).1 = w' at hm ha hwr
  obtain ⟨f1, f2⟩ := getMatches_found (hw.active .point) hr (by rw [← sceneOf_eq]; exact hw.once)
  have hsc : Spec.sceneOf who (w'.maps .point) = Spec.sceneOf who (w.maps .point) := by
    rw [hm]
    simp only [Spec.sceneOf, shown_of_core who (hcore .point).1, shown_of_core who (hcore .point).2.1]
  have he : ∀ u, u ≠ .point → (w'.maps u).localMap = [] ∧ (w'.maps u).staged = [] ∧ (w'.maps u).flags.length = (dets u).length := by
    intro u hu
    rw [hm, getMatches_empty _ _ _ (hw.active u) (hw.others u hu).1 (hw.others u hu).2]
    exact ⟨(hw.others u hu).1, (hw.others u hu).2, by simp⟩
  refine ⟨⟨⟨?_, fun u hu => ⟨(he u hu).1, (he u hu).2.1⟩, ?_, ?_, by rw [hsc]; exact hw.once⟩, by rw [hm]; exact f1, ?_⟩, hsc, ha⟩
  · intro u; rw [hm, (hcore u).2.2]; exact hw.active u
  · exact inv_core hw.inv ha (by rw [World.view, World.view, hwr]) (by simp only [World.view, hm]; exact (hcore .point).1)
      (by simp only [World.view, hm]; exact (hcore .point).2.1)
  · intro a hmem
    rw [hm] at hmem
    have : core a ∈ (w.maps .point).staged.map core := (hcore .point).2.1 ▸ List.mem_map_of_mem hmem
    obtain ⟨q, hq, e⟩ := List.mem_map.1 this
    simp only [core, Prod.mk.injEq] at e
    rw [← e.2.2.2.1]
    exact hw.counts q hq
  · intro u
    by_cases hu : u = .point
    · subst hu; rw [hm]; exact f2
    · exact (he u hu).2.2

theorem noPose_found {o2 o : PointOps P D Env} {op : PlaneOps P D Env} {dets : FType → List D} {who : P → α}
    {names : List α} {w : World P} (hw : Sought who names dets w) :
    Ready who (w.noPose (programKinds o2 o op) order) ∧
    (∀ u, ((w.noPose (programKinds o2 o op) order).maps u).flags.length = (dets u).length) ∧
    (∀ x ∈ Spec.sceneOf who ((w.noPose (programKinds o2 o op) order).maps .point), x ∈ Spec.sceneOf who (w.maps .point)) ∧
    (w.noPose (programKinds o2 o op) order).alloc = w.alloc := by
  have hno := noPose_view (k := programKinds o2 o op) w
  generalize w.noPose (programKinds o2 o op) order = w' at hno
  have hmap : ∀ u, w'.maps u = ⟨(w.maps u).active, (missLocal (programKinds o2 o op u) (w.maps u).localMap).1,
      missStaged (programKinds o2 o op u) (w.maps u).staged, (w.maps u).flags⟩ := by
    intro u
    rw [(hno u).1, updateNoTracking]
    simp [World.view, hw.active u]
  obtain ⟨b1, b2⟩ := missStaged_shown (counted_point o) who (w.maps .point).staged
  have hsub : (Spec.sceneOf who (w'.maps .point)).Sublist (Spec.sceneOf who (w.maps .point)) := by
    rw [hmap]
    exact (missLocal_shown _ _ _).append b1
  refine ⟨⟨?_, ?_, ?_, ?_, hw.once.sublist hsub⟩, ?_, fun x hx => hsub.subset hx, (hno .point).2.2⟩
  · intro u; rw [hmap]; exact hw.active u
  · intro u hu; rw [hmap]; simp [(hw.others u hu).1, (hw.others u hu).2, missLocal, missStaged]
  · have := (inv_noTracking (programKinds o2 o op .point) hw.inv).1
    have e : w'.view .point = updateNoTracking (programKinds o2 o op .point) (w.view .point) := by
      rw [World.view, (hno .point).1, (hno .point).2.1, (hno .point).2.2]
      simp only [updateNoTracking]
      split <;> rfl
    rw [e]
    exact this
  · rw [hmap]; exact b2
  · intro u; rw [hmap]; exact hw.flags u

theorem update_found {o2 o : PointOps P D Env} {op : PlaneOps P D Env} {env : Env} {dets : FType → List D} {who : P → α}
    {names : List α} (hs : Spec.PlainFrame o2 o op env dets) (hf : Spec.Faithful (pointKind o) who env (dets .point) names)
    (hlen : names.length = (dets .point).length) (hnn : names.Nodup)
    (cov : Env → Bool) (hcov : cov env = true) {w : World P} (hw : Sought who names dets w)
    (hroom : w.alloc.given + (dets .point).length < 2 ^ 64) :
    ∃ w', w.update (programKinds o2 o op) cov w.budget env dets [] = .ok (w', false) ∧ Ready who w' ∧
      w'.alloc.given ≤ w.alloc.given + (dets .point).length ∧ ∀ x ∈ names, x ∈ Spec.sceneOf who (w'.maps .point) := by
  have hmark : w.markOutliers [] order = w := by
    have : ∀ (ts : List FType), w.markOutliers [] ts = w := by
      intro ts
      induction ts with
      | nil => rfl
      | cons u ts ih =>
        rw [World.markOutliers, markOutliers]
        exact (congrArg _ (putView_same u w)).trans ih
    exact this order
  have hfuel : (w.maps .point).staged.length ≤ w.budget := by
    simp only [World.budget, order, List.map_cons, List.map_nil, List.foldl]
    omega
  have hk := counted_point o
  obtain ⟨loc, used1, wr, el, hu1, hst1⟩ := updateLocal_found (k := pointKind o) hf hlen hnn hk.lost (l := (w.maps .point).localMap)
    fun a ha => hw.found a (List.mem_append_left _ ha)
  have hkeyn : (keys (w.maps .point).staged ++ keys loc).Nodup := by
    have h1 := (updateLocal_sub el).1
    have hnd : (keys (w.maps .point).localMap ++ keys (w.maps .point).staged).Nodup := hw.inv.nodup
    exact (List.perm_append_comm.nodup_iff).1 (hnd.sublist (h1.append (List.Sublist.refl _)))
  obtain ⟨stg, loc', used2, es, ⟨new, rfl, hu2, hst2⟩, hsu⟩ := updateStaged_found (k := pointKind o) hf hlen hnn hk
    (l := (w.maps .point).staged) w.budget loc (fun a ha => hw.found a (List.mem_append_right _ ha)) hfuel hw.counts hw.inv.keyedS hkeyn
  have hact := hw.active .point
  have hc : (pointKind o).covValid env = true := hs.cov1
  generalize hs1 : (⟨⟨(w.maps .point).active, loc ++ new, stg, (w.maps .point).flags⟩, w.alloc, w.written .point ++ wr⟩ : State P) = s1
  have e : updateMap (pointKind o) w.budget env (dets .point) (w.view .point) = .ok (s1, used1 ++ used2) := by
    simp [updateMap, World.view, hact, hc, el, es, ← hs1]
  obtain ⟨hi1, ha1⟩ := inv_updateMap hw.inv e
  have hscene : Spec.sceneOf who s1.map = Spec.shown who loc ++ (Spec.shown who new ++ Spec.shown who stg) := by
    rw [← hs1]; simp [Spec.sceneOf, Spec.shown]
  have hbefore := hw.once
  rw [Spec.sceneOf] at hbefore
  have hsp : List.Subperm (Spec.sceneOf who s1.map) (Spec.shown who (w.maps .point).localMap ++ Spec.shown who (w.maps .point).staged) := by
    rw [hscene]
    exact List.Subperm.append hu1.fewer hu2.fewer
  have honce : (Spec.sceneOf who s1.map).Nodup := by
    obtain ⟨l, hp, hsb⟩ := hsp
    exact hp.nodup_iff.1 (hbefore.sublist hsb)
  obtain ⟨s2, e2, g1, g2, g3, g4, g5, g6, g7, g8⟩ := stageFrom_found (k := pointKind o) hf hnn (used1 ++ used2) (dets .point) 0 s1 (by simp)
    hi1 (by rw [ha1]; exact hroom) honce (by rw [← hs1]; exact hsu) (by
      intro j x _ hj
      rw [List.mem_append]
      constructor
      · intro hx
        rcases List.mem_append.1 (hsp.subset hx) with hx | hx
        · exact .inl (hu1.uses j x hj hx)
        · exact .inr (hu2.uses j x hj hx)
      · rw [hscene, List.mem_append]
        rintro (h | h)
        · obtain ⟨y, hy, ey⟩ := hu1.used j h
          rw [hj] at ey
          injection ey with ey
          subst ey
          exact .inl (hst1 x hy (List.mem_of_getElem? hj))
        · obtain ⟨y, hy, ey⟩ := hu2.used j h
          rw [hj] at ey
          injection ey with ey
          subst ey
          exact .inr (hst2 x hy (List.mem_of_getElem? hj)))
  have e2d := updateOne_empty (k := programKinds o2 o op) (fuel := w.budget) (env := env) (dets := dets) (u := .point2d)
    (hw.active _) (hw.others _ (by decide)).1 (hw.others _ (by decide)).2 (hw.flags _) hs.cov2 hs.known
  generalize hw1 : w.put .point s2 = w1
  have m2 : w1.maps .point2d = w.maps .point2d := by rw [← hw1]; rfl
  have mp : w1.maps .plane = w.maps .plane := by rw [← hw1]; rfl
  have m1 : w1.maps .point = s2.map := by rw [← hw1]; rfl
  have v1 : w1.view .point = s2 := by rw [← hw1]; rfl
  have hflag1 : s1.map.flags = (w.maps .point).flags ∧ s1.map.active = true := by rw [← hs1]; exact ⟨rfl, hact⟩
  have e1 : World.updateOne (programKinds o2 o op) w.budget env dets .point w = .ok (w1, false) := by
    rw [World.updateOne]
    simp only [programKinds, e]
    rw [stage, e2]
    simp [hflag1.2, hc, hflag1.1, hw.flags .point, hw1]
  have ep := updateOne_empty (k := programKinds o2 o op) (fuel := w.budget) (env := env) (dets := dets) (u := .plane) (w := w1)
    (by rw [mp]; exact hw.active _) (by rw [mp]; exact (hw.others _ (by decide)).1)
    (by rw [mp]; exact (hw.others _ (by decide)).2) (by rw [mp]; exact hw.flags _) hs.covP (by rw [hs.planes]; simp)
  have hupg : World.upgrade (programKinds o2 o op) env w1 = .ok (w1, false) := by
    have g2 : getUpgraded (programKinds o2 o op .point2d) env (w1.maps .point2d) = (w1.maps .point2d, []) := by
      rw [m2]
      obtain ⟨a, b⟩ := hw.others .point2d (by decide)
      generalize w.maps .point2d = m at *
      cases m
      simp only at a b
      subst a b
      rfl
    have g1 : getUpgraded (programKinds o2 o op .point) env (w1.maps .point) = (w1.maps .point, []) := by
      simp only [getUpgraded, takeUpgraded_keeps (k := programKinds o2 o op .point) (env := env) (fun _ => rfl)]
      rfl
    have g3 : getUpgraded (programKinds o2 o op .plane) env (w1.maps .plane) = (w1.maps .plane, []) := by
      simp only [getUpgraded, takeUpgraded_keeps (k := programKinds o2 o op .plane) (env := env) (fun _ => rfl)]
      rfl
    rw [World.upgrade]
    conv_lhs => arg 2; rw [order]
    simp [eachMap, upgradeOne_none g2, upgradeOne_none g1, upgradeOne_none g3]
  refine ⟨w1, ?_, ⟨?_, ?_, ?_, ?_, ?_⟩, ?_, ?_⟩
  · rw [World.update, hmark]
    simp [hcov, order, eachMap, e2d, e1, ep, hupg]
  · intro u
    cases u
    · rw [m2]; exact hw.active _
    · rw [m1, g3]; exact hflag1.2
    · rw [mp]; exact hw.active _
  · intro u hu
    cases u
    · rw [m2]; exact hw.others _ hu
    · exact absurd rfl hu
    · rw [mp]; exact hw.others _ hu
  · rw [v1]; exact g1
  · rw [m1]; exact g6
  · rw [m1]; exact g5
  · have : w1.alloc = s2.alloc := by rw [← hw1]; rfl
    rw [this]
    rw [ha1] at g2
    exact g2
  · intro x hx
    rw [m1]
    obtain ⟨j, hj⟩ := List.getElem?_of_mem hx
    exact g8 j x (Nat.zero_le _) (by rw [← hlen]; exact (List.getElem?_eq_some_iff.1 hj).1) hj

theorem addAll_found {o2 o : PointOps P D Env} {op : PlaneOps P D Env} {env : Env} {dets : FType → List D} {who : P → α}
    {names : List α} (hs : Spec.PlainFrame o2 o op env dets) (hf : Spec.Faithful (pointKind o) who env (dets .point) names)
    (hlen : names.length = (dets .point).length) (hnn : names.Nodup)
    (cov : Env → Bool) (hcov : cov env = true) {w : World P} (hw : Ready who w)
    (hfl : ∀ u, (w.maps u).flags.length = (dets u).length) (hdis : ∀ x ∈ names, x ∉ Spec.sceneOf who (w.maps .point))
    (hroom : w.alloc.given + (dets .point).length < 2 ^ 64) :
    ∃ w', w.addAll (programKinds o2 o op) cov env dets = .ok (w', false) ∧ Ready who w' ∧
      w'.alloc.given ≤ w.alloc.given + (dets .point).length ∧ ∀ x ∈ names, x ∈ Spec.sceneOf who (w'.maps .point) := by
  obtain ⟨s2, e2, g1, g2, g3, g4, g5, g6, g7, g8⟩ := stageFrom_found (k := pointKind o) hf hnn [] (dets .point) 0 (w.view .point) (by simp)
    hw.inv hroom hw.once hw.counts (by
      intro j x _ hj
      simp only [List.not_mem_nil, iff_false]
      exact hdis x (List.mem_of_getElem? hj))
  have quiet : ∀ (u : FType) (v : World P), v.maps u = w.maps u → u ≠ .point →
      World.addOne (programKinds o2 o op) env dets u v = .ok (v, false) := by
    intro u v hv hu
    have hc : (programKinds o2 o op u).covValid env = true := by
      cases u
      · exact hs.cov2
      · exact hs.cov1
      · exact hs.covP
    have hd : ∀ d ∈ dets u, (programKinds o2 o op u).canAdd d = false := by
      cases u
      · exact hs.known
      · exact absurd rfl hu
      · rw [hs.planes]; simp
    have : stageAll (programKinds o2 o op u) env (dets u) (v.view u) = .ok (v.view u) := by
      rw [stageAll, stage, stageFrom_refused [] _ _ _ hd]
      simp [World.view, hv, hw.active u, hc, hfl u]
    rw [World.addOne, this]
    simp only [putView_same]
  generalize hw1 : w.put .point s2 = w1
  have m2 : w1.maps .point2d = w.maps .point2d := by rw [← hw1]; rfl
  have mp : w1.maps .plane = w.maps .plane := by rw [← hw1]; rfl
  have m1 : w1.maps .point = s2.map := by rw [← hw1]; rfl
  have v1 : w1.view .point = s2 := by rw [← hw1]; rfl
  have a1 : World.addOne (programKinds o2 o op) env dets .point w = .ok (w1, false) := by
    have hc : (pointKind o).covValid env = true := hs.cov1
    have : stageAll (programKinds o2 o op .point) env (dets .point) (w.view .point) = .ok s2 := by
      rw [stageAll, stage]
      simp only [programKinds, e2]
      simp [World.view, hw.active .point, hc, hfl .point]
    rw [World.addOne, this]
    simp only [hw1]
  refine ⟨w1, ?_, ⟨?_, ?_, ?_, ?_, ?_⟩, ?_, ?_⟩
  · rw [World.addAll]
    simp [hcov, order, eachMap, quiet .point2d w rfl (by decide), a1, quiet .plane w1 mp (by decide)]
  · intro u
    cases u
    · rw [m2]; exact hw.active _
    · rw [m1, g3]; exact hw.active .point
    · rw [mp]; exact hw.active _
  · intro u hu
    cases u
    · rw [m2]; exact hw.others _ hu
    · exact absurd rfl hu
    · rw [mp]; exact hw.others _ hu
  · rw [v1]; exact g1
  · rw [m1]; exact g6
  · rw [m1]; exact g5
  · have : w1.alloc = s2.alloc := by rw [← hw1]; rfl
    rw [this]
    exact g2
  · intro x hx
    rw [m1]
    obtain ⟨j, hj⟩ := List.getElem?_of_mem hx
    exact g8 j x (Nat.zero_le _) (by rw [← hlen]; exact (List.getElem?_eq_some_iff.1 hj).1) hj

/-! ## The frame loop -/

variable {Pose Det : Type}

/-- The frame `f` with the detections `det`, taken when the map is `w` and the camera is thought to be at `p`: every feature of the map is
recognised, no match is an outlier, keypoints have a depth and there are no planes. -/
structure Spec.Clear (o2 o : PointOps P D Env) (op : PlaneOps P D Env) (cov : Env → Bool) (env : Pose → Det → Env)
    (dets : Det → FType → List D) (who : P → α) (names : Det → List α) (w : World P) (p : Pose)
    (f : Slam.Frame (Outcome (World P)) Det Pose Match) (det : Det) : Prop where
  recognised : Spec.Recognised (pointKind o) who (env p det) (dets det .point) (names det) ((w.maps .point).localMap ++ (w.maps .point).staged)
  inliers : ∀ ms q out, f.optimize p ms = some (q, out) → out = []
  plain : ∀ q, q = p ∨ (∃ ms out, f.optimize p ms = some (q, out)) → Spec.PlainFrame o2 o op (env q det) (dets det)
  faithful : ∀ q, q = p ∨ (∃ ms out, f.optimize p ms = some (q, out)) →
    Spec.Faithful (pointKind o) who (env q det) (dets det .point) (names det)
  cov : ∀ q, q = p ∨ (∃ ms out, f.optimize p ms = some (q, out)) → cov (env q det) = true

theorem step_forced {L M : Type} {ops : Slam.MapOps L Det Pose M} {po : Slam.PoseOps Pose} {f : Slam.Frame L Det Pose M}
    {s s1 : Slam.State L Pose} {o1 : Slam.Out Pose} (h : Slam.step ops po f s = .ok (s1, o1)) :
    o1.forcedDetection = (s.isTrackingLost || (s.computeKeypointCount % Slam.keypointRefreshFrequency + 1 == 1)) := by
  rw [Slam.step] at h
  split at h
  case isFalse => cases h
  simp only at h
  split at h
  · split at h <;> (simp only [Outcome.ok.injEq, Prod.mk.injEq] at h; rw [← h.2])
  · simp only [Outcome.ok.injEq, Prod.mk.injEq] at h; rw [← h.2]

theorem clear_step {o2 o : PointOps P D Env} {op : PlaneOps P D Env} {cov : Env → Bool} {lt : Match → Match → Bool}
    {env : Pose → Det → Env} {dets : Det → FType → List D} {po : Slam.PoseOps Pose} {who : P → α} {names : Det → List α} {n : Nat}
    {w : World P} (hw : Ready who w) {s s1 : Slam.State (Outcome (World P)) Pose} {o1 : Slam.Out Pose} (hl : s.localMap = .ok w)
    {f : Slam.Frame (Outcome (World P)) Det Pose Match}
    (hc : ∀ forced, Spec.Clear o2 o op cov env dets who names w s.currentPose f (f.detect s.localMap s.currentPose forced))
    (hn : ∀ forced, (dets (f.detect s.localMap s.currentPose forced) .point).length ≤ n) (hroom : w.alloc.given + n < 2 ^ 64)
    (hstep : Slam.step (localMapOps (programKinds o2 o op) cov lt env dets) po f s = .ok (s1, o1))
    (hseed : o1.reseeded = true → ∀ x ∈ names (f.detect s.localMap s.currentPose o1.forcedDetection), x ∉ Spec.sceneOf who (w.maps .point)) :
    ∃ w1, s1.localMap = .ok w1 ∧ Ready who w1 ∧ w1.alloc.given ≤ w.alloc.given + n ∧
      (o1.tracked = true ∨ o1.reseeded = true →
        ∀ x ∈ names (f.detect s.localMap s.currentPose o1.forcedDetection), x ∈ Spec.sceneOf who (w1.maps .point)) := by
  have hfo := step_forced hstep
  rw [hfo] at hseed ⊢
  rw [hl] at hc hn hseed ⊢
  have hcl := hc (s.isTrackingLost || (s.computeKeypointCount % Slam.keypointRefreshFrequency + 1 == 1))
  have hnd := hn (s.isTrackingLost || (s.computeKeypointCount % Slam.keypointRefreshFrequency + 1 == 1))
  generalize hdet : f.detect (.ok w) s.currentPose (s.isTrackingLost || (s.computeKeypointCount % Slam.keypointRefreshFrequency + 1 == 1)) = det at hcl hnd hseed ⊢
  obtain ⟨hs1, hsc, hal⟩ := find_found (o2 := o2) (op := op) lt hw hcl.recognised
  generalize hfw : (w.find (programKinds o2 o op) lt (env s.currentPose det) (dets det) order []) = fw at hs1 hsc hal
  have hfind : (localMapOps (programKinds o2 o op) cov lt env dets).find s.currentPose det (.ok w) = (.ok fw.1, fw.2) := by
    simp only [localMapOps, alive, hfw]
  rw [Slam.step] at hstep
  split at hstep
  case isFalse => cases hstep
  have hlen := hcl.recognised.length
  have hnn := hcl.recognised.nodup
  rcases hopt : (if s.isFirstTrackingCall = true then none else f.optimize s.currentPose fw.2) with _ | ⟨opt, out⟩
  case some =>
    have hopt' := hopt
    split at hopt
    · cases hopt
    have hq : opt = s.currentPose ∨ (∃ ms out, f.optimize s.currentPose ms = some (opt, out)) := .inr ⟨_, _, hopt⟩
    have hout := hcl.inliers _ _ _ hopt
    subst hout
    obtain ⟨w1, e1, r1, g1, c1⟩ := update_found (hcl.plain _ hq) (hcl.faithful _ hq) hlen hnn cov (hcl.cov _ hq) hs1
      (by rw [hal]; omega)
    have hupd : (localMapOps (programKinds o2 o op) cov lt env dets).update opt det [] (.ok fw.1) = (.ok w1, false) := by
      simp only [localMapOps, alive, e1]
      rfl
    simp only [hl, hdet, hfind, hopt', hupd] at hstep
    simp only [Bool.false_eq_true, if_false, Outcome.ok.injEq, Prod.mk.injEq] at hstep
    obtain ⟨rfl, rfl⟩ := hstep
    exact ⟨w1, rfl, r1, by rw [hal] at g1; omega, fun _ => c1⟩
  case none =>
    simp only [hl, hdet, hfind, hopt] at hstep
    simp only [Outcome.ok.injEq, Prod.mk.injEq] at hstep
    obtain ⟨rfl, rfl⟩ := hstep
    simp only [ops_noPose] at hseed ⊢
    obtain ⟨r2, fl2, sub2, al2⟩ := noPose_found (o2 := o2) (o := o) (op := op) hs1
    generalize fw.1.noPose (programKinds o2 o op) order = w2 at r2 fl2 sub2 al2
    by_cases hre : (s.isTrackingLost && po.posCovValid s.currentPose) = true
    · have hsd := hseed hre
      obtain ⟨w3, e3, r3, g3, c3⟩ := addAll_found (hcl.plain _ (.inl rfl)) (hcl.faithful _ (.inl rfl)) hlen hnn cov (hcl.cov _ (.inl rfl)) r2 fl2
        (fun x hx hx' => hsd x hx (hsc ▸ sub2 x hx')) (by rw [al2, hal]; omega)
      refine ⟨w3, ?_, r3, by rw [al2, hal] at g3; omega, fun _ => c3⟩
      rw [if_pos hre, ops_addAll, e3]
      rfl
    · refine ⟨w2, ?_, r2, by rw [al2, hal]; omega, fun h => ?_⟩
      · rw [if_neg hre]
      · simp only [Bool.false_eq_true, false_or] at h
        exact absurd h hre

theorem ready_init (who : P → α) : Ready who (World.init : World P) where
  active u := rfl
  others u _ := ⟨rfl, rfl⟩
  inv := inv_init
  counts := by simp [World.init, FMap.empty]
  once := by simp [World.init, FMap.empty, Spec.sceneOf, Spec.shown]

/-- **C203** (partial: as long as no keypoint is added by a frame without pose while its scene point is in the map).  If every frame is
clear when it is taken, no scene point is ever twice in the map, and after a frame that is tracked every scene point it shows is in the map. -/
theorem C203_once_in_the_map_partial (o2 o : PointOps P D Env) (op : PlaneOps P D Env) (cov : Env → Bool) (lt : Match → Match → Bool)
    (env : Pose → Det → Env) (dets : Det → FType → List D) (po : Slam.PoseOps Pose) (who : P → α) (names : Det → List α) (start : Pose)
    (n : Nat) (fs : List (Slam.Frame (Outcome (World P)) Det Pose Match)) (hroom : fs.length * n < 2 ^ 64)
    (hclear : ∀ pre f post s outs w, fs = pre ++ f :: post →
      Slam.run (localMapOps (programKinds o2 o op) cov lt env dets) po pre (Slam.init start (.ok World.init)) = .ok (s, outs) →
      s.localMap = .ok w → ∀ forced, Spec.Clear o2 o op cov env dets who names w s.currentPose f (f.detect s.localMap s.currentPose forced) ∧
        (dets (f.detect s.localMap s.currentPose forced) .point).length ≤ n)
    (hseed : ∀ pre f post s outs w s1 o1, fs = pre ++ f :: post →
      Slam.run (localMapOps (programKinds o2 o op) cov lt env dets) po pre (Slam.init start (.ok World.init)) = .ok (s, outs) →
      s.localMap = .ok w → Slam.step (localMapOps (programKinds o2 o op) cov lt env dets) po f s = .ok (s1, o1) → o1.reseeded = true →
      ∀ x ∈ names (f.detect s.localMap s.currentPose o1.forcedDetection), x ∉ Spec.sceneOf who (w.maps .point))
    (s' : Slam.State (Outcome (World P)) Pose) (outs' : List (Slam.Out Pose))
    (hrun : Slam.run (localMapOps (programKinds o2 o op) cov lt env dets) po fs (Slam.init start (.ok World.init)) = .ok (s', outs')) :
    ∃ w', s'.localMap = .ok w' ∧ (Spec.sceneOf who (w'.maps .point)).Nodup ∧
      ∀ pre f s outs o1, fs = pre ++ [f] →
        Slam.run (localMapOps (programKinds o2 o op) cov lt env dets) po pre (Slam.init start (.ok World.init)) = .ok (s, outs) →
        Slam.step (localMapOps (programKinds o2 o op) cov lt env dets) po f s = .ok (s', o1) → o1.tracked = true ∨ o1.reseeded = true →
        ∀ x ∈ names (f.detect s.localMap s.currentPose o1.forcedDetection), x ∈ Spec.sceneOf who (w'.maps .point) := by
  suffices h : ∃ w', s'.localMap = .ok w' ∧ Ready who w' ∧ w'.alloc.given ≤ fs.length * n ∧
      ∀ pre f s outs o1, fs = pre ++ [f] →
        Slam.run (localMapOps (programKinds o2 o op) cov lt env dets) po pre (Slam.init start (.ok World.init)) = .ok (s, outs) →
        Slam.step (localMapOps (programKinds o2 o op) cov lt env dets) po f s = .ok (s', o1) → o1.tracked = true ∨ o1.reseeded = true →
        ∀ x ∈ names (f.detect s.localMap s.currentPose o1.forcedDetection), x ∈ Spec.sceneOf who (w'.maps .point) by
    obtain ⟨w', h1, h2, -, h4⟩ := h
    exact ⟨w', h1, h2.once, h4⟩
  induction fs using List.reverseRecOn generalizing s' outs' with
  | nil =>
    simp only [Slam.run, Outcome.ok.injEq, Prod.mk.injEq] at hrun
    obtain ⟨rfl, -⟩ := hrun
    exact ⟨_, rfl, ready_init who, by simp [World.init, Alloc.start], fun pre f s outs o1 h => by simp at h⟩
  | append_singleton pre f ih =>
    obtain ⟨s, outs, o2', e1, e3, -⟩ := Slam.run_snoc _ _ _ _ _ _ _ hrun
    simp only [List.length_append, List.length_singleton] at hroom
    have hle : pre.length * n + n < 2 ^ 64 := by rw [Nat.add_mul, Nat.one_mul] at hroom; exact hroom
    obtain ⟨w, hw, hr, hg, -⟩ := ih (by omega)
      (fun pre' f' post s outs w h => hclear pre' f' (post ++ [f]) s outs w (by rw [h]; simp))
      (fun pre' f' post s outs w s1 o1 h => hseed pre' f' (post ++ [f]) s outs w s1 o1 (by rw [h]; simp)) s outs e1
    have hc := hclear pre f [] s outs w rfl e1 hw
    obtain ⟨w1, g1, g2, g3, g4⟩ := clear_step hr hw (fun fo => (hc fo).1) (fun fo => (hc fo).2) (by omega) e3
      (fun h => hseed pre f [] s outs w _ _ rfl e1 hw e3 h)
    refine ⟨w1, g1, g2, by rw [List.length_append, List.length_singleton, Nat.add_mul, Nat.one_mul]; omega, ?_⟩
    intro pre' f' sp os o1 he hp hst ht
    obtain ⟨rfl, rfl⟩ : pre = pre' ∧ f = f' := by
      have := List.append_inj' he rfl
      exact ⟨this.1, by simpa using this.2⟩
    rw [e1] at hp
    simp only [Outcome.ok.injEq, Prod.mk.injEq] at hp
    obtain ⟨rfl, rfl⟩ := hp
    rw [e3] at hst
    simp only [Outcome.ok.injEq, Prod.mk.injEq, true_and] at hst
    subst hst
    exact g4 ht

/-! ## An instance -/

/-- Scene points are numbers; a keypoint and a map point are the number of their scene point, and a map point is found in the keypoints
with its number. -/
def numberOps : PointOps Nat Nat Unit where
  isMoving _ := false
  isVisible _ _ := true
  trackIndex _ _ _ := none
  onScreen _ _ := true
  window _ det b flags _ := (List.range det.length).filter fun i => det[i]? == some b && flags[i]? == some false
  update _ _ b := .ok (b, true)
  hasDescriptor _ := true
  depthValid _ := true
  build _ d := some d
  copy b := some b
  upgrade _ _ := none
  buildUpgraded _ := none
  covValid _ := true

/-- No planes. -/
def noPlaneOps : PlaneOps Nat Nat Unit where
  isVisible _ _ := true
  projectedArea _ _ := 0
  similar _ _ _ := false
  interArea _ _ _ := 0
  detectedArea _ := 0
  update _ _ b := .ok (b, true)
  build _ _ := none
  copy b := some b
  covValid _ := true

/-- A frame that shows the scene points `l`, with a pose if `ok`. -/
def numberFrame (l : List Nat) (ok : Bool) : Slam.Frame (Outcome (World Nat)) (List Nat) Unit Match where
  detect _ _ _ := l
  optimize p _ := if ok then some (p, []) else none

def numberDets (l : List Nat) : FType → List Nat
  | .plane => []
  | _ => l

/-- The frame loop on such frames. -/
def numberRun (fs : List (Slam.Frame (Outcome (World Nat)) (List Nat) Unit Match)) :
    Outcome (Slam.State (Outcome (World Nat)) Unit × List (Slam.Out Unit)) :=
  Slam.run (localMapOps (programKinds numberOps numberOps noPlaneOps) (fun _ => true) (fun _ _ => false) (fun _ _ => ()) numberDets)
    ⟨fun _ => true, fun _ => true⟩ fs (Slam.init () (.ok World.init))

theorem number_clear {l : List Nat} (hl : l.Nodup) (ok : Bool) (w : World Nat) (p : Unit) :
    Spec.Clear numberOps numberOps noPlaneOps (fun _ => true) (fun _ _ => ()) numberDets id id w p (numberFrame l ok) l where
  recognised := by
    refine ⟨rfl, hl, fun i a _ hi => ⟨rfl, rfl, fun flags hfl hf tm adv => ?_⟩, fun a _ hx => .inr (.inr fun flags hfl tm adv => ?_)⟩
    · have hlt : i < l.length := (List.getElem?_eq_some_iff.1 hi).1
      have e : ((List.range l.length).filter fun j => l[j]? == some a.2.body && flags[j]? == some false) = [i] := by
        have : ((List.range l.length).filter fun j => l[j]? == some a.2.body && flags[j]? == some false) =
            (List.range l.length).filter (· == i) := by
          refine List.filter_congr fun j hj => ?_
          by_cases hji : j = i
          · subst hji
            have hi' : l[j]? = some a.2.body := hi
            simp [hi', hf]
          · have : l[j]? ≠ some a.2.body := fun h => hji ((List.getElem?_inj (by simpa using hj) hl).1 (h.trans hi.symm))
            rw [beq_eq_false_iff_ne.2 this, beq_eq_false_iff_ne.2 hji, Bool.false_and]
        rw [this, List.filter_beq, List.count_eq_one_of_mem List.nodup_range (by simpa using hlt)]
        rfl
      simp only [pointKind, pointFind, numberOps, numberDets, if_true, e]
    · have e : ((List.range l.length).filter fun j => l[j]? == some a.2.body && flags[j]? == some false) = [] := by
        rw [List.filter_eq_nil_iff]
        intro j hj
        have : l[j]? ≠ some a.2.body := fun h => hx (List.mem_of_getElem? h)
        simp [this]
      simp only [pointKind, pointFind, numberOps, numberDets, if_true, e]
      simp
  inliers ms q out h := by
    simp only [numberFrame] at h
    split at h
    · simp only [Option.some.injEq, Prod.mk.injEq] at h; exact h.2.symm
    · cases h
  plain q _ := ⟨by simp [numberOps], rfl, rfl, rfl, rfl⟩
  faithful q _ := by
    refine ⟨rfl, fun i d hd => ⟨rfl, d, rfl, hd⟩, fun i d f _ _ hm => ⟨f.body, ?_, rfl⟩, fun f => ⟨f.body, rfl, rfl⟩⟩
    simp [pointKind, guardedUpdate, hm, numberOps]
  cov q _ := rfl

/-- The hypotheses are met: scene points come and go, and some come back. -/
example : (numberRun [numberFrame [1, 2, 3] true, numberFrame [2, 3, 4] true, numberFrame [3, 4, 5, 1] true, numberFrame [] true,
    numberFrame [9, 3] true, numberFrame [4, 2, 3] true]).holds (fun r => r.1.localMap.holds fun w =>
      (Spec.sceneOf id (w.maps .point)) == [3, 4, 2]) = true := by decide +kernel

example (fs : List (List Nat)) (hfs : ∀ l ∈ fs, l.Nodup ∧ l.length ≤ 1000) (hlen : fs.length * 1000 < 2 ^ 64)
    (s : Slam.State (Outcome (World Nat)) Unit) (outs : List (Slam.Out Unit))
    (hrun : numberRun (fs.map fun l => numberFrame l true) = .ok (s, outs)) :
    ∃ w, s.localMap = .ok w ∧ (Spec.sceneOf id (w.maps .point)).Nodup := by
  have nodup : ∀ f ∈ fs.map fun l => numberFrame l true, ∃ l : List Nat, l.Nodup ∧ l.length ≤ 1000 ∧ f = numberFrame l true := by
    intro f hf
    obtain ⟨l, hl, rfl⟩ := List.mem_map.1 hf
    exact ⟨l, (hfs l hl).1, (hfs l hl).2, rfl⟩
  obtain ⟨w, h1, h2, -⟩ := C203_once_in_the_map_partial numberOps numberOps noPlaneOps (fun _ => true) (fun _ _ => false) (fun _ _ => ())
    numberDets ⟨fun _ => true, fun _ => true⟩ id id () 1000 (fs.map fun l => numberFrame l true) (by simpa using hlen)
    (by
      intro pre f post s outs w he _ _ forced
      obtain ⟨l, hl, hl', rfl⟩ := nodup f (by rw [he]; simp)
      exact ⟨number_clear hl true w _, hl'⟩)
    (by
      intro pre f post s outs w s1 o1 he hpre hw hst hre
      -- only the first frame has no pose
      obtain ⟨l, hl, hl', rfl⟩ := nodup f (by rw [he]; simp)
      have hfirst : s.isFirstTrackingCall = true := by
        by_contra hc
        rw [Slam.step] at hst
        simp only [numberFrame, hc, Bool.false_eq_true, if_true, if_false] at hst
        split at hst <;> (simp only [Outcome.ok.injEq, Prod.mk.injEq] at hst; rw [← hst.2] at hre; cases hre)
      cases pre using List.reverseRecOn with
      | nil =>
        simp only [Slam.run, Outcome.ok.injEq, Prod.mk.injEq] at hpre
        obtain ⟨rfl, -⟩ := hpre
        simp only [Slam.init, Outcome.ok.injEq] at hw
        subst hw
        intro x _
        simp [Spec.sceneOf, World.init, FMap.empty, Spec.shown]
      | append_singleton pre g =>
        obtain ⟨s0, os, oo, -, e3, -⟩ := Slam.run_snoc _ _ _ _ _ _ _ hpre
        rw [Slam.step] at e3
        split at e3
        case isFalse => cases e3
        simp only at e3
        have : s.isFirstTrackingCall = false := by
          split at e3
          · split at e3 <;> (simp only [Outcome.ok.injEq, Prod.mk.injEq] at e3; rw [← e3.1])
          · simp only [Outcome.ok.injEq, Prod.mk.injEq] at e3; rw [← e3.1]
        rw [this] at hfirst
        cases hfirst) s outs hrun
  exact ⟨w, h1, h2⟩

/-- C203 fails without that condition: when the tracking is lost while the map is still there, every keypoint becomes a new candidate,
and its scene point is twice in the map. -/
theorem C203_once_in_the_map_false : ¬ ∀ (fs : List (List Nat × Bool)), (∀ l ∈ fs, l.1.Nodup) →
    ∀ (s : Slam.State (Outcome (World Nat)) Unit) (outs : List (Slam.Out Unit)) (w : World Nat),
      numberRun (fs.map fun l => numberFrame l.1 l.2) = .ok (s, outs) → s.localMap = .ok w → (Spec.sceneOf id (w.maps .point)).Nodup := by
  intro h
  obtain ⟨⟨s, outs⟩, e, hr⟩ := holds_elim (show (numberRun ((List.replicate 4 ([1, 2, 3, 4, 5], true) ++
    List.replicate 5 ([1, 2, 3, 4, 5], false)).map fun l : List Nat × Bool => numberFrame l.1 l.2)).holds (fun r => r.1.localMap.holds fun w =>
      decide (¬ (Spec.sceneOf id (w.maps .point)).Nodup)) = true by decide +kernel)
  obtain ⟨w, e2, hr⟩ := holds_elim hr
  exact absurd (h _ (by decide) s outs w e e2) (by simpa using hr)

/-- The frame of `numberFrame` with a pose, for which the optimiser rejects the first `k` matches as outliers. -/
def outlierFrame (l : List Nat) (k : Nat) : Slam.Frame (Outcome (World Nat)) (List Nat) Unit Match where
  detect _ _ _ := l
  optimize p ms := some (p, ms.take k)

/-- C203 fails if a right match is taken for an outlier: the keypoint becomes a new candidate beside the feature that it was matched with. -/
theorem C203_outlier_false : ¬ ∀ (fs : List (List Nat × Nat)), (∀ l ∈ fs, l.1.Nodup) →
    ∀ (s : Slam.State (Outcome (World Nat)) Unit) (outs : List (Slam.Out Unit)) (w : World Nat),
      numberRun (fs.map fun l => outlierFrame l.1 l.2) = .ok (s, outs) → (∀ o ∈ outs.tail, o.tracked = true) → s.localMap = .ok w →
      (Spec.sceneOf id (w.maps .point)).Nodup := by
  intro h
  obtain ⟨⟨s, outs⟩, e, hr⟩ := holds_elim (show (numberRun ((List.replicate 4 ([1, 2, 3, 4, 5], 0) ++
    [([1, 2, 3, 4, 5], 1)]).map fun l : List Nat × Nat => outlierFrame l.1 l.2)).holds (fun r => (r.2.tail.all (·.tracked)) &&
      r.1.localMap.holds fun w => decide (¬ (Spec.sceneOf id (w.maps .point)).Nodup)) = true by decide +kernel)
  rw [Bool.and_eq_true] at hr
  obtain ⟨ht, hr⟩ := hr
  obtain ⟨w, e2, hr⟩ := holds_elim hr
  exact absurd (h _ (by decide) s outs w e (fun o ho => List.all_eq_true.1 ht o ho) e2) (by simpa using hr)

end RgbdSlam.Map.Once
