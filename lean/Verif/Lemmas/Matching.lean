import Verif.Lemmas.FeatureMapInv
import Verif.Lemmas.Knn
import Verif.Model.MapPoints
import Verif.Spec.FeatureMap
/-
One detection is given to at most one feature of a map.
-/
namespace RgbdSlam.Map

variable {P D Env : Type}

/-- A detection is found either because it is free and nobody's, or because it belongs to the feature. -/
structure Exclusive (k : Kind P D Env) (env : Env) (det : List D) (Owner : Nat → Nat → Prop) : Prop where
  unique : ∀ {x y i}, Owner x i → Owner y i → x = y
  find : ∀ f fl b adv, fl.length = det.length → ∀ i ∈ (k.findMatches env det f fl b adv).1,
    (fl[i]? = some false ∧ ∀ x, ¬ Owner x i) ∨ Owner f.id i
  single : ∀ f fl b adv, (k.findMatches env det f fl b adv).1.length ≤ 1

/-- What is pushed for the optimisation is what was found, if asked. -/
def Pushes (k : Kind P D Env) : Prop :=
  ∀ env det f fl b adv, (k.findMatches env det f fl b adv).2 =
    if b then (k.findMatches env det f fl b adv).1 else []

theorem setFlags_false (idx : List Nat) (fl : List Bool) (i : Nat) :
    (setFlags fl idx)[i]? = some false ↔ fl[i]? = some false ∧ i ∉ idx := by
  induction idx generalizing fl with
  | nil => simp [setFlags]
  | cons j js ih =>
    have : setFlags fl (j :: js) = setFlags (fl.set j true) js := rfl
    rw [this, ih, List.getElem?_set]
    by_cases hij : j = i
    · subst hij
      simp only [if_true, List.mem_cons, not_or]
      constructor
      · rintro ⟨h, -⟩; split at h <;> simp at h
      · rintro ⟨-, h, -⟩; exact absurd trivial h
    · simp only [if_neg hij, List.mem_cons, not_or]
      constructor
      · rintro ⟨a, b⟩; exact ⟨a, fun h => hij h.symm, b⟩
      · rintro ⟨a, -, b⟩; exact ⟨a, b⟩

theorem setFlags_length (idx : List Nat) (fl : List Bool) : (setFlags fl idx).length = fl.length := by
  induction idx generalizing fl with
  | nil => rfl
  | cons j js ih => exact (ih (fl.set j true)).trans (by simp)

theorem matchPass_flags_length (k : Kind P D Env) (env : Env) (det : List D) (b adv : Bool)
    (l : Store P) (fl : List Bool) : (matchPass k env det b adv l fl).2.1.length = fl.length := by
  induction l generalizing fl with
  | nil => rfl
  | cons p l ih =>
    obtain ⟨key, f⟩ := p
    simp only [matchPass]
    split
    · exact ih fl
    · exact (ih _).trans (setFlags_length _ _)

theorem matchPass_ids (k : Kind P D Env) (env : Env) (det : List D) (b adv : Bool) (l : Store P)
    (fl : List Bool) : (matchPass k env det b adv l fl).1.map (·.2.id) = l.map (·.2.id) := by
  induction l generalizing fl with
  | nil => rfl
  | cons p l ih =>
    obtain ⟨key, f⟩ := p
    simp only [matchPass]
    split <;> simp [ih]

theorem matchPass_single {k : Kind P D Env} {env : Env} {det : List D} {Owner : Nat → Nat → Prop}
    (he : Exclusive k env det Owner) (b adv : Bool) (l : Store P) (fl : List Bool) :
    ∀ p ∈ (matchPass k env det b adv l fl).1, p.2.matched.length ≤ 1 := by
  induction l generalizing fl with
  | nil => intro p hp; cases hp
  | cons p l ih =>
    obtain ⟨key, f⟩ := p
    simp only [matchPass]
    split
    · intro p hp
      rcases List.mem_cons.1 hp with rfl | hp
      · simp
      · exact ih fl p hp
    · intro p hp
      rcases List.mem_cons.1 hp with rfl | hp
      · exact he.single _ _ _ _
      · exact ih _ p hp

/-- The indexes found in a pass. -/
theorem matchPass_excl {k : Kind P D Env} {env : Env} {det : List D} {Owner : Nat → Nat → Prop}
    (he : Exclusive k env det Owner) (b adv : Bool) (l : Store P) (fl : List Bool)
    (hfl : fl.length = det.length) (hn : (l.map (·.2.id)).Nodup) :
    (∀ p ∈ (matchPass k env det b adv l fl).1, ∀ i ∈ p.2.matched,
      (fl[i]? = some false ∧ ∀ x, ¬ Owner x i) ∨ Owner p.2.id i) ∧
    ((matchPass k env det b adv l fl).1.flatMap (·.2.matched)).Nodup ∧
    ∀ i, (matchPass k env det b adv l fl).2.1[i]? = some false →
      fl[i]? = some false ∧ ∀ p ∈ (matchPass k env det b adv l fl).1, i ∉ p.2.matched := by
  induction l generalizing fl with
  | nil => simp [matchPass]
  | cons p l ih =>
    obtain ⟨key, f⟩ := p
    rw [List.map_cons, List.nodup_cons] at hn
    simp only [matchPass]
    split
    · obtain ⟨a1, a2, a3⟩ := ih fl hfl hn.2
      refine ⟨?_, ?_, ?_⟩
      · intro p hp i hi
        rcases List.mem_cons.1 hp with rfl | hp
        · simp at hi
        · exact a1 p hp i hi
      · simpa using a2
      · intro i hi
        obtain ⟨b1, b2⟩ := a3 i hi
        refine ⟨b1, fun p hp => ?_⟩
        rcases List.mem_cons.1 hp with rfl | hp
        · simp
        · exact b2 p hp
    · generalize hidx : (k.findMatches env det { f with matched := [] } fl b adv).1 = idx
      have hsing := he.single { f with matched := [] } fl b adv
      have hfind := he.find { f with matched := [] } fl b adv hfl
      rw [hidx] at hsing hfind
      obtain ⟨a1, a2, a3⟩ := ih (setFlags fl idx) ((setFlags_length _ _).trans hfl) hn.2
      have hids : (matchPass k env det b adv l (setFlags fl idx)).1.map (·.2.id) = l.map (·.2.id) := matchPass_ids ..
      refine ⟨?_, ?_, ?_⟩
      · intro p hp i hi
        rcases List.mem_cons.1 hp with rfl | hp
        · exact hfind i hi
        · rcases a1 p hp i hi with ⟨h1, h2⟩ | h
          · exact .inl ⟨((setFlags_false _ _ _).1 h1).1, h2⟩
          · exact .inr h
      · rw [List.flatMap_cons, List.nodup_append]
        refine ⟨?_, a2, ?_⟩
        · match idx, hsing with
          | [], _ => exact List.nodup_nil
          | [x], _ => simp
          | _ :: _ :: _, h => simp at h
        · rintro i hi j hj rfl
          obtain ⟨p, hp, hj⟩ := List.mem_flatMap.1 hj
          have hne : p.2.id ≠ f.id := fun heq => hn.1 (by
            rw [← hids, ← heq]
            exact List.mem_map_of_mem hp)
          rcases hfind i hi with ⟨h1, h2⟩ | h
          · rcases a1 p hp i hj with ⟨h3, -⟩ | h3
            · exact ((setFlags_false _ _ _).1 h3).2 hi
            · exact h2 _ h3
          · rcases a1 p hp i hj with ⟨-, h3⟩ | h3
            · exact h3 _ h
            · exact hne (he.unique h3 h)
      · intro i hi
        obtain ⟨b1, b2⟩ := a3 i hi
        obtain ⟨b3, b4⟩ := (setFlags_false _ _ _).1 b1
        refine ⟨b3, fun p hp => ?_⟩
        rcases List.mem_cons.1 hp with rfl | hp
        · exact b4
        · exact b2 p hp

theorem matchPass_pushed {k : Kind P D Env} (hk : Pushes k) (env : Env) (det : List D) (b adv : Bool)
    (l : Store P) (fl : List Bool) :
    (matchPass k env det b adv l fl).2.2 =
      if b then matchesOf k.type (matchPass k env det b adv l fl).1 else [] := by
  induction l generalizing fl with
  | nil => simp [matchPass, matchesOf]
  | cons p l ih =>
    obtain ⟨key, f⟩ := p
    simp only [matchPass]
    split
    · rw [ih]; simp [matchesOf]
    · rw [ih, hk]
      cases b <;> simp [matchesOf]

theorem matchPass_none {k : Kind P D Env}
    (hk : ∀ env det f fl b adv, (k.findMatches env det f fl b adv).2 = []) (env : Env) (det : List D)
    (b adv : Bool) (l : Store P) (fl : List Bool) : (matchPass k env det b adv l fl).2.2 = [] := by
  induction l generalizing fl with
  | nil => rfl
  | cons p l ih =>
    obtain ⟨key, f⟩ := p
    simp only [matchPass]
    split
    · exact ih fl
    · rw [hk]; exact ih _

/-- Matching does not depend on earlier matches. -/
theorem matchPass_forget (k : Kind P D Env) (env : Env) (det : List D) (b adv : Bool) (l l' : Store P)
    (fl : List Bool) (h : l.map core = l'.map core) :
    matchPass k env det b adv l fl = matchPass k env det b adv l' fl := by
  induction l generalizing l' fl with
  | nil => cases l' with
    | nil => rfl
    | cons => simp at h
  | cons p l ih =>
    cases l' with
    | nil => simp at h
    | cons q l' =>
      obtain ⟨key, f⟩ := p
      obtain ⟨key', f'⟩ := q
      simp only [List.map_cons, List.cons.injEq] at h
      obtain ⟨h1, h2⟩ := h
      have hb : key = key' ∧ ({ f with matched := [] } : Feat P) = { f' with matched := [] } := by
        obtain ⟨a, b, c, d, e⟩ := f
        obtain ⟨a', b', c', d', e'⟩ := f'
        simp [core] at h1
        simp [h1]
      obtain ⟨rfl, hb⟩ := hb
      obtain ⟨a, b, c, d, e⟩ := f
      obtain ⟨a', b', c', d', e'⟩ := f'
      simp only [Feat.mk.injEq, true_and] at hb
      obtain ⟨rfl, rfl, rfl, rfl⟩ := hb
      simp only [matchPass, ih l' _ h2]

theorem matchOnce_forget (k : Kind P D Env) (env : Env) (det : List D) (adv : Bool) (o o' : List Match)
    (m m' : FMap P) (hm : m.active = true) (hm' : m'.active = true)
    (hl : m.localMap.map core = m'.localMap.map core) (hs : m.staged.map core = m'.staged.map core) :
    matchOnce k env det adv o m = matchOnce k env det adv o' m' := by
  unfold matchOnce
  rw [matchPass_forget k env det true adv m.localMap m'.localMap _ hl]
  simp only [hm, hm', Bool.not_true, Bool.false_eq_true, if_false]
  rw [matchPass_forget k env det _ adv m.staged m'.staged _ hs]

theorem getMatches_eq (k : Kind P D Env) (env : Env) (det : List D) (m : FMap P) (h : m.active = true) :
    getMatches k env det m =
      if (matchOnce k env det false [] m).2.length < k.minFeatures then matchOnce k env det true [] m
      else matchOnce k env det false [] m := by
  have h1 := matchOnce_core k env det false [] m
  simp only [getMatches]
  split
  · exact matchOnce_forget k env det true _ _ _ _ (h1.2.2.trans h) h h1.1 h1.2.1
  · rfl

/-- The indexes found by one search over both stores. -/
theorem matchOnce_excl {k : Kind P D Env} {env : Env} {det : List D} {Owner : Nat → Nat → Prop}
    (he : Exclusive k env det Owner) (adv : Bool) (m : FMap P) (ha : m.active = true)
    (hn : ((m.localMap ++ m.staged).map (·.2.id)).Nodup) :
    let r := (matchOnce k env det adv [] m).1
    ((r.localMap ++ r.staged).flatMap (·.2.matched)).Nodup ∧
    (∀ p ∈ r.localMap ++ r.staged, p.2.matched.length ≤ 1) ∧
    ∀ p ∈ r.localMap ++ r.staged, ∀ i ∈ p.2.matched, i < det.length ∨ Owner p.2.id i := by
  simp only [matchOnce, ha, Bool.not_true, Bool.false_eq_true, if_false]
  generalize hfl0 : List.replicate det.length false = fl0
  generalize hr1 : matchPass k env det true adv m.localMap fl0 = r1
  generalize hus : decide (r1.2.2.length < k.minFeatures * 3) = us
  generalize hr2 : matchPass k env det us adv m.staged r1.2.1 = r2
  rw [List.map_append, List.nodup_append] at hn
  obtain ⟨a1, a2, a3⟩ := matchPass_excl he true adv m.localMap fl0 (by rw [← hfl0]; simp) hn.1
  obtain ⟨b1, b2, b3⟩ := matchPass_excl he us adv m.staged r1.2.1
    (by rw [← hr1, matchPass_flags_length, ← hfl0]; simp) hn.2.1
  have s1 := matchPass_single he true adv m.localMap fl0
  have s2 := matchPass_single he us adv m.staged r1.2.1
  have i1 : r1.1.map (·.2.id) = m.localMap.map (·.2.id) := by rw [← hr1]; exact matchPass_ids ..
  have i2 : r2.1.map (·.2.id) = m.staged.map (·.2.id) := by rw [← hr2]; exact matchPass_ids ..
  rw [hr1] at a1 a2 a3 s1
  rw [hr2] at b1 b2 b3 s2
  have inr : ∀ i, fl0[i]? = some false → i < det.length := by
    intro i hi
    rw [← hfl0, List.getElem?_replicate] at hi
    split at hi
    · assumption
    · cases hi
  refine ⟨?_, ?_, ?_⟩
  · rw [List.flatMap_append, List.nodup_append]
    refine ⟨a2, b2, ?_⟩
    rintro i hi j hj rfl
    obtain ⟨p, hp, hi⟩ := List.mem_flatMap.1 hi
    obtain ⟨q, hq, hj⟩ := List.mem_flatMap.1 hj
    have hne : p.2.id ≠ q.2.id := hn.2.2 _ (i1 ▸ List.mem_map_of_mem hp) _ (i2 ▸ List.mem_map_of_mem hq)
    rcases b1 q hq i hj with ⟨h1, h2⟩ | h
    · exact (a3 i h1).2 p hp hi
    · rcases a1 p hp i hi with ⟨h3, h4⟩ | h3
      · exact h4 _ h
      · exact hne (he.unique h3 h)
  · intro p hp
    rcases List.mem_append.1 hp with hp | hp
    · exact s1 p hp
    · exact s2 p hp
  · intro p hp i hi
    rcases List.mem_append.1 hp with hp | hp
    · rcases a1 p hp i hi with h | h
      · exact .inl (inr i h.1)
      · exact .inr h
    · rcases b1 p hp i hi with h | h
      · exact .inl (inr i (a3 i h.1).1)
      · exact .inr h

theorem getMatches_excl {k : Kind P D Env} {env : Env} {det : List D} {Owner : Nat → Nat → Prop}
    (he : Exclusive k env det Owner) (m : FMap P) (ha : m.active = true)
    (hn : ((m.localMap ++ m.staged).map (·.2.id)).Nodup) :
    let r := (getMatches k env det m).1
    ((r.localMap ++ r.staged).flatMap (·.2.matched)).Nodup ∧
    (∀ p ∈ r.localMap ++ r.staged, p.2.matched.length ≤ 1) ∧
    ∀ p ∈ r.localMap ++ r.staged, ∀ i ∈ p.2.matched, i < det.length ∨ Owner p.2.id i := by
  rw [getMatches_eq k env det m ha]
  split
  · exact matchOnce_excl he true m ha hn
  · exact matchOnce_excl he false m ha hn

/-- The matches given out by one search are those of the features, candidates only if needed. -/
theorem matchOnce_matches {k : Kind P D Env} (hk : Pushes k) (env : Env) (det : List D) (adv : Bool)
    (m : FMap P) (ha : m.active = true) :
    let r := matchOnce k env det adv [] m
    r.2 = matchesOf k.type r.1.localMap ++
      if (matchesOf k.type r.1.localMap).length < k.minFeatures * 3 then matchesOf k.type r.1.staged
      else [] := by
  simp only [matchOnce, ha, Bool.not_true, Bool.false_eq_true, if_false]
  rw [matchPass_pushed hk, matchPass_pushed hk]
  simp

theorem getMatches_matches {k : Kind P D Env} (hk : Pushes k) (env : Env) (det : List D)
    (m : FMap P) (ha : m.active = true) :
    let r := getMatches k env det m
    r.2 = matchesOf k.type r.1.localMap ++
      if (matchesOf k.type r.1.localMap).length < k.minFeatures * 3 then matchesOf k.type r.1.staged
      else [] := by
  rw [getMatches_eq k env det m ha]
  split
  · exact matchOnce_matches hk env det true m ha
  · exact matchOnce_matches hk env det false m ha

theorem matchesOf_detected (t : FType) (l : Store P) :
    (matchesOf t l).map (·.detected) = l.flatMap (·.2.matched) := by
  induction l with
  | nil => rfl
  | cons p l ih =>
    simp only [matchesOf, List.flatMap_cons, List.map_append, List.map_map, Function.comp_def,
      List.map_id'] at ih ⊢
    rw [ih]

theorem matches_sub {k : Kind P D Env} (hk : Pushes k) (env : Env) (det : List D)
    (m : FMap P) (ha : m.active = true) :
    ((getMatches k env det m).2.map (·.detected)).Sublist
      (((getMatches k env det m).1.localMap ++ (getMatches k env det m).1.staged).flatMap
        (·.2.matched)) := by
  have h := getMatches_matches hk env det m ha
  simp only at h
  rw [h, List.map_append, matchesOf_detected, List.flatMap_append]
  apply List.Sublist.append (List.Sublist.refl _)
  split
  · rw [matchesOf_detected]; exact List.Sublist.refl _
  · exact List.nil_sublist _

theorem pushes_point (o : PointOps P D Env) : Pushes (pointKind o) := by
  intro env det f fl b adv
  rfl

theorem pushes_plane (o : PlaneOps P D Env) : Pushes (planeKind o) := by
  intro env det f fl b adv
  simp only [planeKind, planeFind]
  generalize (if adv = true then minimumPlaneOverlap / 2 else minimumPlaneOverlap) = th
  split
  · cases b <;> rfl
  · split <;> cases b <;> rfl

/-! ### Planes -/

theorem planeSearch_spec (o : PlaneOps P D Env) (env : Env) (body : P) (flags : List Bool)
    (threshold : Rat) (i : Nat) (ds : List D) (sel : Int) (best : Rat) :
    planeSearch o env body flags threshold i ds sel best = sel ∨
    ∃ j : Nat, planeSearch o env body flags threshold i ds sel best = j ∧ i ≤ j ∧ j < i + ds.length ∧
      flags[j]? ≠ some true ∧ ∃ d, ds[j - i]? = some d ∧ o.similar env body d = true ∧
        best < o.interArea env body d ∧
        (o.detectedArea d = 0 ∨ threshold ≤ o.interArea env body d / o.detectedArea d) := by
  induction ds generalizing i sel best with
  | nil => exact .inl rfl
  | cons d ds ih =>
    have skip : ∀ sel' best', best ≤ best' →
        planeSearch o env body flags threshold (i + 1) ds sel' best' = sel' ∨
        ∃ j : Nat, planeSearch o env body flags threshold (i + 1) ds sel' best' = j ∧ i ≤ j ∧
          j < i + (d :: ds).length ∧ flags[j]? ≠ some true ∧
          ∃ e, (d :: ds)[j - i]? = some e ∧ o.similar env body e = true ∧
          best < o.interArea env body e ∧
          (o.detectedArea e = 0 ∨ threshold ≤ o.interArea env body e / o.detectedArea e) := by
      intro sel' best' hb
      rcases ih (i + 1) sel' best' with h | ⟨j, h1, h2, h3, h4, e, h5, h6, h7, h8⟩
      · exact .inl h
      · refine .inr ⟨j, h1, by omega, by simp only [List.length_cons]; omega, h4, e, ?_, h6, ?_, h8⟩
        · have : j - i = (j - (i + 1)) + 1 := by omega
          rw [this, List.getElem?_cons_succ]; exact h5
        · grind
    simp only [planeSearch]
    split
    · exact skip sel best Rat.le_refl
    · rename_i hfl
      split
      · exact skip sel best Rat.le_refl
      · rename_i hsim
        split
        · rename_i hb
          rcases skip i (o.interArea env body d) (by grind) with h | h
          · exact .inr ⟨i, h, Nat.le_refl _, by simp, hfl, d, by simp, by simpa using hsim, hb.1, hb.2⟩
          · exact .inr h
        · exact skip sel best Rat.le_refl

theorem planeFind_spec (o : PlaneOps P D Env) (env : Env) (det : List D) (f : Feat P) (fl : List Bool)
    (b adv : Bool) :
    (planeFind o env det f fl b adv).1 = [] ∨
    ∃ j : Nat, (planeFind o env det f fl b adv).1 = [j] ∧ 0 < j ∧ j < det.length ∧ fl[j]? ≠ some true ∧
      ∃ d, det[j]? = some d ∧ o.similar env f.body d = true := by
  simp only [planeFind]
  generalize (if adv = true then minimumPlaneOverlap / 2 else minimumPlaneOverlap) = th
  split
  · exact .inl rfl
  · split
    · exact .inl rfl
    · rename_i h1 h2
      rcases planeSearch_spec o env f.body fl th 0 det (-1) 0 with
        h | ⟨j, e1, e2, e3, e4, d, e5, e6, e7⟩
      · rw [h] at h2; omega
      · refine .inr ⟨j, ?_, ?_, by omega, e4, d, by simpa using e5, e6⟩
        · rw [e1]; simp
        · rw [e1] at h2; omega

/-! ### Points -/

open Keypoints in
theorem assoc_mem (x : Nat) (l : List (Nat × Nat)) (i : Nat) (h : l.lookup x = some i) : (x, i) ∈ l := by
  induction l with
  | nil => simp at h
  | cons a l ih =>
    rw [List.lookup_cons] at h
    split at h
    · rename_i hb
      injection h with h
      have : x = a.1 := by simpa using hb
      rw [this, ← h]; exact List.mem_cons_self
    · exact List.mem_cons_of_mem _ (ih h)

open Keypoints in
theorem trackIndex_spec {Desc : Type} {h : Handler Desc} {detected : List Pt} {tracked : List Tracked}
    (hf : Filled h detected tracked) {x i : Nat} (hi : trackIndex h x = some i) :
    ∃ t, tracked[i - detected.length]? = some t ∧ detected.length ≤ i ∧ t.id = x := by
  unfold trackIndex at hi
  split at hi
  · cases hi
  · split at hi
    · obtain ⟨t, h1, h2, h3, -⟩ := hf.ids x i (assoc_mem x _ _ hi)
      exact ⟨t, h1, h2, h3⟩
    · cases hi

open Keypoints in
theorem keypoints_length {Desc : Type} {h : Handler Desc} {detected : List Pt} {tracked : List Tracked}
    (hf : Filled h detected tracked) : (detections h).length = detected.length + tracked.length := by
  have := congrArg List.length hf.pts
  simpa [detections] using this

open Keypoints in
theorem matchIndexes_cand {Desc : Type} {h : Handler Desc} {detected : List Pt} {tracked : List Tracked}
    (hf : Filled h detected tracked) {dist : Desc → Desc → Nat} {p : Pt} {desc : Desc}
    {flags : List Bool} {radius : Nat} {res : List Nat}
    (hr : matchIndexes dist h p desc flags radius = .ok res) :
    res.length ≤ 1 ∧ ∀ i ∈ res, Candidate detected flags p i := by
  obtain ⟨h1, h2⟩ := matchIndexes_spec hf hr
  rcases h1 with rfl | ⟨i, rfl⟩
  · simp
  · obtain ⟨m, hm, h3, -⟩ := (h2 i).1 rfl
    refine ⟨by simp, fun j hj => ?_⟩
    rw [List.mem_singleton] at hj; subst hj
    exact ((mask_spec hf hm j).1 h3).1

open Keypoints in
theorem window_spec {Desc Cam : Type} {g : PointGeo P Desc Cam} {c : Cam} {h : Handler Desc}
    {detected : List Pt} {tracked : List Tracked} (hf : Filled h detected tracked)
    {det : List (Detected Desc)} {b : P} {fl : List Bool} {r : Nat} :
    ((handlerOps g).window (c, h) det b fl r).length ≤ 1 ∧
    ∀ i ∈ (handlerOps g).window (c, h) det b fl r, fl[i]? = some false ∧ i < detected.length := by
  simp only [handlerOps]
  split
  · simp
  · split
    · rename_i hr
      obtain ⟨h1, h2⟩ := matchIndexes_cand hf hr
      refine ⟨h1, fun i hi => ?_⟩
      obtain ⟨h3, q, hq, -⟩ := h2 i hi
      exact ⟨h3, (List.getElem?_eq_some_iff.1 hq).1⟩
    · simp

open Keypoints in
theorem exclusive_point {Desc Cam : Type} (g : PointGeo P Desc Cam) (c : Cam) {h : Handler Desc}
    {detected : List Pt} {tracked : List Tracked} (hf : Filled h detected tracked)
    (det : List (Detected Desc)) :
    Exclusive (pointKind (handlerOps g)) (c, h) det (fun x i => trackIndex h x = some i) where
  unique := by
    intro x y i hx hy
    obtain ⟨t, h1, -, h2⟩ := trackIndex_spec hf hx
    obtain ⟨t', h1', -, h2'⟩ := trackIndex_spec hf hy
    rw [h1] at h1'; injection h1' with e
    rw [← h2, ← h2', e]
  find := by
    intro f fl b adv _ i hi
    simp only [pointKind, pointFind] at hi
    split at hi
    · rename_i j hj
      rw [List.mem_singleton] at hi; subst hi
      exact .inr hj
    · split at hi
      · obtain ⟨h1, h2⟩ := (window_spec hf).2 i hi
        refine .inl ⟨h1, fun x hx => ?_⟩
        obtain ⟨t, -, h3, -⟩ := trackIndex_spec hf hx
        omega
      · cases hi
  single := by
    intro f fl b adv
    simp only [pointKind, pointFind]
    split
    · simp
    · split
      · exact (window_spec hf).1
      · simp

open Keypoints in
theorem exclusive_point2d {Desc Cam : Type} (g : PointGeo P Desc Cam) (c : Cam) {h : Handler Desc}
    {detected : List Pt} {tracked : List Tracked} (hf : Filled h detected tracked)
    (det : List (Detected Desc)) :
    Exclusive (point2dKind (handlerOps g)) (c, h) det (fun _ _ => False) where
  unique := fun hx => hx.elim
  find := by
    intro f fl b adv _ i hi
    simp only [point2dKind, point2dFind] at hi
    split at hi
    · simp only at hi
      split at hi
      · exact .inl ⟨((window_spec hf).2 i hi).1, fun _ h => h⟩
      · cases hi
    · cases hi
  single := by
    intro f fl b adv
    simp only [point2dKind, point2dFind]
    split
    · simp only
      split
      · exact (window_spec hf).1
      · simp
    · simp

end RgbdSlam.Map
