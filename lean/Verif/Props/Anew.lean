import Verif.Props.GivenUp
import Verif.Props.Blackout
/-
C201: a camera that lost everything finds itself again.

The map after the loss is that of C185 and C187, with ids that start after those given so far and with what was written before.
-/
namespace RgbdSlam.Map.Anew

open Keypoints (Handler Detected Pt Tracked)

variable {P D Env Pose Det : Type} {base : Nat} {old : FType → List (Feat P)}

/-! ## The map -/

/-- The map point of a detection is visible, does not move, and is found in that detection (its feature has the id `base + i + 1`). -/
structure Spec.Sees (base : Nat) (o : PointOps P D Env) (env : Env) (det : List D) (Stands : Nat → P → Prop) : Prop where
  sees : ∀ i b, Stands i b → o.isMoving b = false ∧ o.isVisible env b = true ∧
    ∀ f : Feat P, f.id = base + i + 1 → f.body = b → Spec.Recognises (pointKind o) env det f i

/-- The feature of detection `i` after `c` recognitions: it has the id `base + i + 1`. -/
def Spec.Row (base : Nat) (Stands : Nat → P → Prop) (c : Int) (i : Nat) (a : Nat × Feat P) : Prop :=
  a.1 = base + i + 1 ∧ a.2.id = base + i + 1 ∧ a.2.failed = 0 ∧ a.2.succ = c ∧ Stands i a.2.body

/-- The features of the detections `0, 1, …, n - 1` in this order, each recognised `c` times. -/
def Spec.Rows (base : Nat) (Stands : Nat → P → Prop) (n : Nat) (c : Int) (l : Store P) : Prop :=
  List.Forall₂ (Spec.Row base Stands c) (List.range n) l

/-- The local map after `t + 1` frames of an unchanging scene with `n` keypoints: one feature per keypoint and nothing else, a
candidate that was found `t` times or, from the third time on, a map feature. -/
structure Spec.Settled (base : Nat) (old : FType → List (Feat P)) (Stands : Nat → P → Prop) (n t : Nat) (w : World P) : Prop where
  active : ∀ u, (w.maps u).active = true
  others : ∀ u, u ≠ .point → (w.maps u).localMap = [] ∧ (w.maps u).staged = []
  points : if t < 3 then (w.maps .point).localMap = [] ∧ Spec.Rows base Stands n t (w.maps .point).staged
    else (w.maps .point).staged = [] ∧ Spec.Rows base Stands n t (w.maps .point).localMap
  ids : w.alloc = ⟨base + n, base + n⟩
  written : ∀ u, w.written u = old u

/-- The match of each of the `n` features with its keypoint. -/
def Spec.allFound (base n : Nat) : List Match := (List.range n).map fun i => ⟨.point, base + i + 1, i⟩

/-- A feature of detection `i`, matched with it. -/
def Matched (base : Nat) (Stands : Nat → P → Prop) (c : Int) (i : Nat) (a : Nat × Feat P) : Prop :=
  Spec.Row base Stands c i a ∧ a.2.matched = [i]

theorem matchPass_rows {o : PointOps P D Env} {env : Env} {det : List D} {Stands : Nat → P → Prop}
    (hs : Spec.Sees base o env det Stands) (tm : Bool) {c : Int} {is : List Nat} {l : Store P}
    (h : List.Forall₂ (Spec.Row base Stands c) is l) :
    ∀ flags : List Bool, flags.length = det.length → is.Nodup → (∀ i ∈ is, flags[i]? = some false) →
      ∃ l' flags', matchPass (pointKind o) env det tm false l flags =
          (l', flags', if tm then is.map fun i => ⟨.point, base + i + 1, i⟩ else []) ∧
        List.Forall₂ (Matched base Stands c) is l' ∧ flags'.length = det.length := by
  induction h with
  | nil => intro flags hl _ _; exact ⟨[], flags, by cases tm <;> rfl, .nil, hl⟩
  | @cons i a is l hr _ ih =>
    intro flags hl hn hfl
    obtain ⟨key, f⟩ := a
    obtain ⟨h1, h2, h3, h4, h5⟩ := hr
    simp only at h1 h2 h3 h4 h5
    obtain ⟨hm, hv, hrec⟩ := hs.sees i f.body h5
    rw [List.nodup_cons] at hn
    obtain ⟨l', flags', e, hf, hl'⟩ := ih (flags.set i true) (by simpa using hl) hn.2 (by
      intro j hj
      rw [List.getElem?_set_ne (by rintro rfl; exact hn.1 hj)]
      exact hfl j (by simp [hj]))
    have hfind := hrec f h2 rfl flags hl (hfl i (by simp)) tm
    have hmv : ((pointKind o).isMoving f.body || !(pointKind o).isVisible env f.body) = false := by
      simp [pointKind, hm, hv]
    refine ⟨(key, { f with matched := [i] }) :: l', flags', ?_, .cons ⟨⟨h1, h2, h3, h4, h5⟩, rfl⟩ hf, hl'⟩
    rw [matchPass]
    simp only [hmv, hfind, setFlags_one, e]
    cases tm <;> simp [pointKind, h2]

theorem applyMatches_one {o : PointOps P D Env} {env : Env} {det : List D} {Stands : Nat → P → Prop}
    (hs : Spec.Merges o env det Stands) {c : Int} {i : Nat} {a : Nat × Feat P} (ha : Matched base Stands c i a)
    (hi : i < det.length) (all : Bool) :
    ∃ b', applyMatches (pointKind o) env det all a.2.matched a.2 = .ok ({ a.2 with body := b' }, true, [i]) ∧ Stands i b' := by
  obtain ⟨⟨-, -, -, -, hst⟩, hm⟩ := ha
  have hd : det[i]? = some det[i] := List.getElem?_eq_getElem hi
  obtain ⟨b', e, hb⟩ := hs.merges i _ _ hst hd
  refine ⟨b', ?_, hb⟩
  have hg : (pointKind o).updateWith env det[i] a.2 = .ok (b', true) := by
    simp [pointKind, guardedUpdate, hm, e]
  rw [hm]
  simp only [applyMatches, hd, hg, Outcome.noexcept, Outcome.bind_ok]
  simp

theorem updateLocal_rows {o : PointOps P D Env} {env : Env} {det : List D} {Stands : Nat → P → Prop}
    (hs : Spec.Merges o env det Stands) {c : Int} {is : List Nat} {l : Store P}
    (h : List.Forall₂ (Matched base Stands c) is l) (hr : ∀ i ∈ is, i < det.length) :
    ∃ l', updateLocal (pointKind o) env det l = .ok (l', is, []) ∧ List.Forall₂ (Spec.Row base Stands (c + 1)) is l' := by
  induction h with
  | nil => exact ⟨[], rfl, .nil⟩
  | @cons i a is l ha _ ih =>
    obtain ⟨l', e, hl'⟩ := ih fun j hj => hr j (by simp [hj])
    obtain ⟨b', ea, hb⟩ := applyMatches_one hs ha (hr i (by simp)) false
    obtain ⟨⟨h1, h2, h3, h4, h5⟩, hm⟩ := ha
    obtain ⟨key, f⟩ := a
    simp only at h1 h2 h3 h4 ea
    refine ⟨(key, { f with body := b', failed := 0, succ := f.succ + 1 }) :: l', ?_, .cons ⟨h1, h2, rfl, by simp [h4], hb⟩ hl'⟩
    rw [updateLocal, ea]
    simp only [Outcome.bind_ok, e, settle, if_true]
    have hlost : (pointKind o).isLost { id := f.id, failed := 0, succ := f.succ + 1, matched := f.matched, body := b' } = false := by
      simp [pointKind]
    simp [hlost]

theorem updateStaged_young {o : PointOps P D Env} {env : Env} {det : List D} {Stands : Nat → P → Prop}
    (hs : Spec.Merges o env det Stands) {c : Int} (hc1 : 0 < c + 1) (hc2 : c + 1 ≤ 2) (loc : Store P) {is : List Nat} {l : Store P}
    (h : List.Forall₂ (Matched base Stands c) is l) (hr : ∀ i ∈ is, i < det.length) :
    ∀ fuel, l.length ≤ fuel → ∃ l', updateStaged (pointKind o) env det fuel l loc = .ok (l', loc, is) ∧
      List.Forall₂ (Spec.Row base Stands (c + 1)) is l' := by
  induction h with
  | nil => intro fuel _; exact ⟨[], by cases fuel <;> rfl, .nil⟩
  | @cons i a is l ha _ ih =>
    intro fuel hfu
    obtain ⟨fuel, rfl⟩ : ∃ m, fuel = m + 1 := ⟨fuel - 1, by simp at hfu; omega⟩
    obtain ⟨l', e, hl'⟩ := ih (fun j hj => hr j (by simp [hj])) fuel (by simpa using hfu)
    obtain ⟨b', ea, hb⟩ := applyMatches_one hs ha (hr i (by simp)) true
    obtain ⟨⟨h1, h2, h3, h4, h5⟩, hm⟩ := ha
    obtain ⟨key, f⟩ := a
    simp only at h1 h2 h3 h4 ea
    refine ⟨(key, { f with body := b', failed := 0, succ := f.succ + 1 }) :: l', ?_, .cons ⟨h1, h2, rfl, by simp [h4], hb⟩ hl'⟩
    obtain ⟨n1, n2⟩ := not_added (o := o) (f := { id := f.id, failed := 0, succ := f.succ + 1, matched := f.matched, body := b' })
      (by simpa [h4] using hc1) (by simpa [h4] using hc2)
    rw [updateStaged, ea]
    simp only [Outcome.bind_ok, e, settle, if_true, n1, n2]
    simp

theorem updateStaged_grown {o : PointOps P D Env} {env : Env} {det : List D} {Stands : Nat → P → Prop}
    (hs : Spec.Merges o env det Stands) {c : Int} (hc : 3 ≤ c + 1) {is : List Nat} {l : Store P}
    (h : List.Forall₂ (Matched base Stands c) is l) (hr : ∀ i ∈ is, i < det.length) :
    ∀ (loc : Store P) (fuel : Nat), l.length ≤ fuel → is.Nodup → (∀ a ∈ loc, ∀ i ∈ is, a.1 ≠ base + i + 1) →
      ∃ l', updateStaged (pointKind o) env det fuel l loc = .ok ([], loc ++ l', is) ∧
        List.Forall₂ (Spec.Row base Stands (c + 1)) is l' := by
  induction h with
  | nil => intro loc fuel _ _ _; exact ⟨[], by cases fuel <;> simp [updateStaged], .nil⟩
  | @cons i a is l ha _ ih =>
    intro loc fuel hfu hn hloc
    obtain ⟨fuel, rfl⟩ : ∃ m, fuel = m + 1 := ⟨fuel - 1, by simp at hfu; omega⟩
    obtain ⟨b', ea, hb⟩ := applyMatches_one hs ha (hr i (by simp)) true
    obtain ⟨⟨h1, h2, h3, h4, h5⟩, hm⟩ := ha
    obtain ⟨key, f⟩ := a
    simp only at h1 h2 h3 h4 ea
    obtain ⟨b2, ec, hb2⟩ := hs.copies i b' hb
    rw [List.nodup_cons] at hn
    let g : Feat P := { id := f.id, failed := 0, succ := f.succ + 1, matched := f.matched, body := b2 }
    have hem : emplace f.id g loc = loc ++ [(f.id, g)] := by
      rw [emplace, lookup_none (fun a ha => by rw [h2]; exact hloc a ha i (by simp))]
      simp
    obtain ⟨l', e, hl'⟩ := ih (fun j hj => hr j (by simp [hj])) (loc ++ [(f.id, g)]) fuel (by simpa using hfu) hn.2 (by
      intro a ha j hj
      rcases List.mem_append.1 ha with ha | ha
      · exact hloc a ha j (by simp [hj])
      · rw [List.mem_singleton] at ha
        subst ha
        simp only [h2]
        rintro he
        have : i = j := by omega
        exact hn.1 (this ▸ hj))
    refine ⟨(f.id, g) :: l', ?_, .cons ⟨h2, h2, rfl, by simp [g, h4], hb2⟩ hl'⟩
    have n1 := added (o := o) (f := { id := f.id, failed := 0, succ := f.succ + 1, matched := f.matched, body := b' })
      (by simpa [h4] using hc)
    have hp : (pointKind o).promote { id := f.id, failed := 0, succ := f.succ + 1, matched := f.matched, body := b' } = some b2 := ec
    rw [updateStaged, ea]
    simp only [Outcome.bind_ok, settle, if_true, n1, hp, promoted]
    change (updateStaged (pointKind o) env det fuel l (emplace f.id g loc)).bind _ = _
    rw [hem, e]
    simp

/-- Adding the detections from number `i` on to a map that has the features of the detections before. -/
theorem stageFrom_rows {o : PointOps P D Env} {env : Env} {det : List D} {Stands : Nat → P → Prop}
    (hs : Spec.Builds o env det Stands) (hlen : base + det.length < 2 ^ 64) :
    ∀ (ds : List D) (i : Nat) (s : State P), det.drop i = ds → i ≤ det.length → s.alloc = ⟨base + i, base + i⟩ →
      List.Forall₂ (Spec.Row base Stands 0) (List.range i) s.map.staged →
      ∃ l, stageFrom (pointKind o) env [] i ds s =
          { s with alloc := ⟨base + det.length, base + det.length⟩, map := { s.map with staged := l } } ∧
        Spec.Rows base Stands det.length 0 l := by
  intro ds
  induction ds with
  | nil =>
    intro i s hd hi ha hl
    have : i = det.length := by
      have := congrArg List.length hd
      simp at this
      omega
    subst this
    exact ⟨s.map.staged, by rw [stageFrom]; cases s; simp_all, hl⟩
  | cons d ds ih =>
    intro i s hd hi ha hl
    have hlt : i < det.length := by
      have := congrArg List.length hd
      simp at this
      omega
    have hdi : det[i]? = some d := by
      have := congrArg (·[0]?) hd
      simpa using this
    obtain ⟨c1, c2, b, eb, hb⟩ := hs.builds i d hdi
    have hnext : s.alloc.next = ⟨base + i + 1, base + i + 1⟩ := by
      rw [ha]
      simp only [Alloc.next]
      rw [Nat.mod_eq_of_lt (by omega)]
      congr 1
      omega
    have hkeys : ∀ a ∈ s.map.staged, a.1 ≠ base + i + 1 := by
      have : ∀ (is : List Nat) (l : Store P), List.Forall₂ (Spec.Row base Stands 0) is l → (∀ j ∈ is, j < i) → ∀ a ∈ l, a.1 ≠ base + i + 1 := by
        intro is l hf
        induction hf with
        | nil => intro _ a ha; cases ha
        | @cons j a' is l hr _ ih =>
          intro hj a ha
          rcases List.mem_cons.1 ha with rfl | ha
          · have := hj j (by simp)
            have := hr.1
            omega
          · exact ih (fun j hj' => hj j (by simp [hj'])) a ha
      exact this _ _ hl fun j hj => by simpa using hj
    have hone : stageOne (pointKind o) env d s =
        { s with alloc := ⟨base + i + 1, base + i + 1⟩, map := { s.map with staged := s.map.staged ++ [(base + i + 1, ⟨base + i + 1, 0, 0, [], b⟩)] } } := by
      have hc : (pointKind o).canAdd d = true := by simp [pointKind, c1, c2]
      have hb' : (pointKind o).build env d = some b := eb
      simp only [stageOne, hc, if_true, hb', hnext, emplace, lookup_none hkeys]
      simp
    obtain ⟨l, e, hl'⟩ := ih (i + 1) (stageOne (pointKind o) env d s) (by
        have := congrArg List.tail hd
        simpa [List.tail_drop] using this) (by omega) (by rw [hone]; rfl) (by
        rw [hone, List.range_succ]
        exact List.rel_append hl (.cons ⟨rfl, rfl, rfl, rfl, hb⟩ .nil))
    refine ⟨l, ?_, hl'⟩
    rw [stageFrom, if_neg (by simp), e, hone]

/-- The map after the search for matches. -/
structure Seen (base : Nat) (old : FType → List (Feat P)) (Stands : Nat → P → Prop) (n t : Nat) (dets : FType → List D) (w : World P) : Prop where
  active : ∀ u, (w.maps u).active = true
  others : ∀ u, u ≠ .point → (w.maps u).localMap = [] ∧ (w.maps u).staged = []
  points : if t < 3 then (w.maps .point).localMap = [] ∧ List.Forall₂ (Matched base Stands t) (List.range n) (w.maps .point).staged
    else (w.maps .point).staged = [] ∧ List.Forall₂ (Matched base Stands t) (List.range n) (w.maps .point).localMap
  ids : w.alloc = ⟨base + n, base + n⟩
  written : ∀ u, w.written u = old u
  flags : ∀ u, (w.maps u).flags.length = (dets u).length

theorem getMatches_rows {o : PointOps P D Env} {env : Env} {det : List D} {Stands : Nat → P → Prop}
    (hs : Spec.Sees base o env det Stands) (h5 : 5 ≤ det.length) {t : Nat} {m : FMap P} (ha : m.active = true)
    (hp : if t < 3 then m.localMap = [] ∧ Spec.Rows base Stands det.length t m.staged
      else m.staged = [] ∧ Spec.Rows base Stands det.length t m.localMap) :
    ∃ loc stg fl, getMatches (pointKind o) env det m = (⟨true, loc, stg, fl⟩, Spec.allFound base det.length) ∧
      fl.length = det.length ∧
      if t < 3 then loc = [] ∧ List.Forall₂ (Matched base Stands t) (List.range det.length) stg
      else stg = [] ∧ List.Forall₂ (Matched base Stands t) (List.range det.length) loc := by
  have hfree : ∀ i ∈ List.range det.length, (List.replicate det.length false)[i]? = some false := by
    intro i hi
    simp at hi
    simp [hi]
  have hmin : (pointKind o).minFeatures = 5 := rfl
  by_cases ht : t < 3
  · rw [if_pos ht] at hp
    obtain ⟨hl, hr⟩ := hp
    obtain ⟨l', fl', e, hf, hlen⟩ := matchPass_rows hs true hr _ (List.length_replicate ..) List.nodup_range hfree
    refine ⟨[], l', fl', ?_, hlen, by rw [if_pos ht]; exact ⟨rfl, hf⟩⟩
    have hlt : ¬ (List.map (fun i => (⟨.point, base + i + 1, i⟩ : Match)) (List.range det.length)).length < 5 := by simp; omega
    simp only [getMatches, matchOnce, ha, hl, matchPass, hmin]
    simp only [List.length_nil, Nat.zero_lt_succ, decide_true, e, Bool.not_true, if_true, List.nil_append, Nat.reduceMul]
    simp only [Bool.false_eq_true, if_false, hlt]
    rfl
  · rw [if_neg ht] at hp
    obtain ⟨hl, hr⟩ := hp
    obtain ⟨l', fl', e, hf, hlen⟩ := matchPass_rows hs true hr _ (List.length_replicate ..) List.nodup_range hfree
    refine ⟨l', [], fl', ?_, hlen, by rw [if_neg ht]; exact ⟨rfl, hf⟩⟩
    have hlt : ¬ (List.map (fun i => (⟨.point, base + i + 1, i⟩ : Match)) (List.range det.length)).length < 5 := by simp; omega
    simp only [getMatches, matchOnce, ha, hl, matchPass, hmin, e]
    simp only [Bool.not_true, if_true, List.append_nil]
    simp only [Bool.false_eq_true, if_false, hlt]
    rfl

theorem find_settled {o2 o : PointOps P D Env} {op : PlaneOps P D Env} {env : Env} {dets : FType → List D}
    {Stands : Nat → P → Prop} (hs : Spec.Sees base o env (dets .point) Stands) (h5 : 5 ≤ (dets .point).length)
    (lt : Match → Match → Bool) {t : Nat} {w : World P} (hw : Spec.Settled base old Stands (dets .point).length t w) :
    ∃ w', w.find (programKinds o2 o op) lt env dets order [] = (w', Spec.allFound base (dets .point).length) ∧
      Seen base old Stands (dets .point).length t dets w' := by
  obtain ⟨loc, stg, fl, e, hfl, hp⟩ := getMatches_rows hs h5 (hw.active .point) hw.points
  have e2 := getMatches_empty (point2dKind o2) env (dets .point2d) (hw.active .point2d) (hw.others .point2d (by decide)).1
    (hw.others .point2d (by decide)).2
  have e3 := getMatches_empty (planeKind op) env (dets .plane) (hw.active .plane) (hw.others .plane (by decide)).1
    (hw.others .plane (by decide)).2
  have em : ∀ X : List Match, mergeBy lt [] X = X := fun X => by rw [mergeBy]
  have em' : ∀ X : List Match, mergeBy lt X [] = X := fun X => by cases X <;> simp [mergeBy]
  simp only [World.find, order, programKinds, World.put, World.view, e2, e, e3, em, em', reduceCtorEq, if_false]
  refine ⟨_, rfl, ?_, ?_, ?_, ?_, ?_, ?_⟩
  · intro u; cases u <;> simp [hw.active]
  · intro u hu; cases u <;> simp_all [hw.others]
  · simpa using hp
  · exact hw.ids
  · intro u; cases u <;> simp [hw.written]
  · intro u; cases u <;> simp [hfl]

theorem update_seen {o2 o : PointOps P D Env} {op : PlaneOps P D Env} {env : Env} {dets : FType → List D}
    {Stands : Nat → P → Prop} (hs : Spec.PlainFrame o2 o op env dets) (hm' : Spec.Merges o env (dets .point) Stands)
    (cov : Env → Bool) (hcov : cov env = true) {t : Nat} {w : World P} (hw : Seen base old Stands (dets .point).length t dets w) :
    ∃ w', w.update (programKinds o2 o op) cov w.budget env dets [] = .ok (w', false) ∧
      Spec.Settled base old Stands (dets .point).length (t + 1) w' := by
  have hr : ∀ i ∈ List.range (dets .point).length, i < (dets .point).length := fun i hi => by simpa using hi
  have hmark : w.markOutliers [] order = w := by
    have : ∀ (ts : List FType), w.markOutliers [] ts = w := by
      intro ts
      induction ts with
      | nil => rfl
      | cons u ts ih =>
        rw [World.markOutliers, markOutliers]
        exact (congrArg _ (putView_same u w)).trans ih
    exact this order
  have hfuel : (w.maps .point).staged.length ≤ w.budget := by
    simp only [World.budget, order, List.map_cons, List.map_nil, List.foldl]
    omega
  -- the point map
  obtain ⟨loc, stg, e, hp⟩ : ∃ loc stg, updateMap (pointKind o) w.budget env (dets .point) (w.view .point) =
      .ok ({ w.view .point with map := { w.maps .point with localMap := loc, staged := stg } },
        List.range (dets .point).length) ∧
      if t + 1 < 3 then loc = [] ∧ Spec.Rows base Stands (dets .point).length (t + 1) stg
      else stg = [] ∧ Spec.Rows base Stands (dets .point).length (t + 1) loc := by
    have hc : (pointKind o).covValid env = true := hs.cov1
    have hact := hw.active .point
    have hpt := hw.points
    by_cases ht : t < 3
    · rw [if_pos ht] at hpt
      obtain ⟨hl, hm⟩ := hpt
      by_cases ht' : t + 1 < 3
      · obtain ⟨l', e, hl'⟩ := updateStaged_young hm' (by omega) (by omega) [] hm hr w.budget hfuel
        refine ⟨[], l', ?_, by rw [if_pos ht']; exact ⟨rfl, hl'⟩⟩
        simp [updateMap, World.view, hact, hc, hl, updateLocal, e]
      · obtain ⟨l', e, hl'⟩ := updateStaged_grown hm' (by omega) hm hr [] w.budget hfuel List.nodup_range
          (fun a ha => by cases ha)
        refine ⟨l', [], ?_, by rw [if_neg ht']; exact ⟨rfl, hl'⟩⟩
        simp [updateMap, World.view, hact, hc, hl, updateLocal, e]
    · rw [if_neg ht] at hpt
      obtain ⟨hl, hm⟩ := hpt
      obtain ⟨l', e, hl'⟩ := updateLocal_rows hm' hm hr
      refine ⟨l', [], ?_, by rw [if_neg (by omega)]; exact ⟨rfl, hl'⟩⟩
      cases hb : w.budget <;> simp [updateMap, World.view, hact, hc, hl, e, updateStaged]
  have e2 := updateOne_empty (k := programKinds o2 o op) (fuel := w.budget) (env := env) (dets := dets) (u := .point2d)
    (hw.active _) (hw.others _ (by decide)).1 (hw.others _ (by decide)).2 (hw.flags _) hs.cov2 hs.known
  generalize hw1 : w.put .point { w.view .point with map := { w.maps .point with localMap := loc, staged := stg } } = w1
  have e1 : World.updateOne (programKinds o2 o op) w.budget env dets .point w = .ok (w1, false) := by
    rw [World.updateOne]
    simp only [programKinds, e]
    rw [stage, stageFrom_used _ _ _ _ (fun j _ h2 => by simpa using h2)]
    have hc : (pointKind o).covValid env = true := hs.cov1
    simp [World.view, hw.active .point, hc, hw.flags .point, ← hw1]
  have m2 : w1.maps .point2d = w.maps .point2d := by rw [← hw1]; rfl
  have mp : w1.maps .plane = w.maps .plane := by rw [← hw1]; rfl
  have m1 : w1.maps .point = { w.maps .point with localMap := loc, staged := stg } := by rw [← hw1]; rfl
  have ep := updateOne_empty (k := programKinds o2 o op) (fuel := w.budget) (env := env) (dets := dets) (u := .plane) (w := w1)
    (by rw [mp]; exact hw.active _) (by rw [mp]; exact (hw.others _ (by decide)).1)
    (by rw [mp]; exact (hw.others _ (by decide)).2) (by rw [mp]; exact hw.flags _) hs.covP (by rw [hs.planes]; simp)
  have hupg : World.upgrade (programKinds o2 o op) env w1 = .ok (w1, false) := by
    have g2 : getUpgraded (programKinds o2 o op .point2d) env (w1.maps .point2d) = (w1.maps .point2d, []) := by
      rw [m2]
      obtain ⟨a, b⟩ := hw.others .point2d (by decide)
      generalize w.maps .point2d = m at *
      cases m
      simp only at a b
      subst a b
      rfl
    have g1 : getUpgraded (programKinds o2 o op .point) env (w1.maps .point) = (w1.maps .point, []) := by
      simp only [getUpgraded, takeUpgraded_keeps (k := programKinds o2 o op .point) (env := env) (fun _ => rfl)]
      rfl
    have g3 : getUpgraded (programKinds o2 o op .plane) env (w1.maps .plane) = (w1.maps .plane, []) := by
      simp only [getUpgraded, takeUpgraded_keeps (k := programKinds o2 o op .plane) (env := env) (fun _ => rfl)]
      rfl
    rw [World.upgrade]
    conv_lhs => arg 2; rw [order]
    simp [eachMap, upgradeOne_none g2, upgradeOne_none g1, upgradeOne_none g3]
  refine ⟨w1, ?_, ?_, ?_, ?_, ?_, ?_⟩
  · rw [World.update, hmark]
    simp [hcov, order, eachMap, e2, e1, ep, hupg]
  · intro u
    cases u
    · rw [m2]; exact hw.active _
    · rw [m1]; exact hw.active _
    · rw [mp]; exact hw.active _
  · intro u hu
    cases u
    · rw [m2]; exact hw.others _ hu
    · exact absurd rfl hu
    · rw [mp]; exact hw.others _ hu
  · rw [m1]
    exact_mod_cast hp
  · rw [← hw1]; exact hw.ids
  · intro u
    rw [← hw1]
    cases u <;> exact hw.written _

/-- The first frame after the loss: nothing is found, and every detection becomes a candidate. -/
theorem first_settled {o2 o : PointOps P D Env} {op : PlaneOps P D Env} {env : Env} {dets : FType → List D}
    {Stands : Nat → P → Prop} (hs : Spec.PlainFrame o2 o op env dets) (hb : Spec.Builds o env (dets .point) Stands)
    {v : World P} (hv : Spec.EmptyMap v) (ha : v.alloc = ⟨base, base⟩) (hlen : base + (dets .point).length < 2 ^ 64)
    (cov : Env → Bool) (hcov : cov env = true) (lt : Match → Match → Bool) :
    ∃ w1 w2, v.find (programKinds o2 o op) lt env dets order [] = (w1, []) ∧
      (w1.noPose (programKinds o2 o op) order).addAll (programKinds o2 o op) cov env dets = .ok (w2, false) ∧
      Spec.Settled base v.written Stands (dets .point).length 0 w2 := by
  have e := fun u => getMatches_empty (programKinds o2 o op u) env (dets u) (hv.active u) (hv.empty u).1 (hv.empty u).2
  have em : mergeBy lt [] [] = [] := by rw [mergeBy]
  let w1 : World P := ⟨fun u => ⟨true, [], [], List.replicate (dets u).length false⟩, ⟨base, base⟩, v.written⟩
  have hfind : v.find (programKinds o2 o op) lt env dets order [] = (w1, []) := by
    have em2 : ∀ u, ({ v.maps u with flags := List.replicate (dets u).length false } : FMap P) =
        ⟨true, [], [], List.replicate (dets u).length false⟩ := by
      intro u
      have h1 := hv.active u
      have h2 := hv.empty u
      generalize v.maps u = m at h1 h2
      cases m
      simp only at h1 h2
      simp [h1, h2.1, h2.2]
    simp only [World.find, order, World.put, World.view, e, em, em2, reduceCtorEq, if_false, ha]
    simp only [Prod.mk.injEq, and_true, w1, World.mk.injEq, true_and]
    constructor
    · funext u; cases u <;> simp
    · funext u; cases u <;> simp
  have hno : w1.noPose (programKinds o2 o op) order = w1 := by
    have : ∀ (ts : List FType), w1.noPose (programKinds o2 o op) ts = w1 := by
      intro ts
      induction ts with
      | nil => rfl
      | cons u ts ih =>
        rw [World.noPose]
        have : updateNoTracking (programKinds o2 o op u) (w1.view u) = w1.view u := by
          simp [updateNoTracking, World.view, w1, missLocal, missStaged]
        rw [this, putView_same]
        exact ih
    exact this order
  obtain ⟨l, el, hl⟩ := stageFrom_rows hb hlen (dets .point) 0 (w1.view .point) (by simp) (by omega) rfl .nil
  have a2 : World.addOne (programKinds o2 o op) env dets .point2d w1 = .ok (w1, false) := by
    have : stageAll (programKinds o2 o op .point2d) env (dets .point2d) (w1.view .point2d) = .ok (w1.view .point2d) := by
      have hc : (programKinds o2 o op .point2d).covValid env = true := hs.cov2
      rw [stageAll, stage, stageFrom_refused (k := programKinds o2 o op .point2d) [] _ _ _ hs.known]
      simp [World.view, w1, hc]
    rw [World.addOne, this]
    simp only [putView_same]
  generalize hw2 : w1.put .point { w1.view .point with
    alloc := ⟨base + (dets .point).length, base + (dets .point).length⟩, map := { w1.maps .point with staged := l } } = w2
  have a1 : World.addOne (programKinds o2 o op) env dets .point w1 = .ok (w2, false) := by
    have : stageAll (programKinds o2 o op .point) env (dets .point) (w1.view .point) = .ok { w1.view .point with
        alloc := ⟨base + (dets .point).length, base + (dets .point).length⟩, map := { w1.maps .point with staged := l } } := by
      have hc : (programKinds o2 o op .point).covValid env = true := hs.cov1
      rw [stageAll, stage]
      have el' : stageFrom (programKinds o2 o op .point) env [] 0 (dets .point) (w1.view .point) = _ := el
      rw [el']
      simp [World.view, w1, hc]
    rw [World.addOne, this]
    simp only [← hw2]
  have ap : World.addOne (programKinds o2 o op) env dets .plane w2 = .ok (w2, false) := by
    have hc : (programKinds o2 o op .plane).covValid env = true := hs.covP
    have : stageAll (programKinds o2 o op .plane) env (dets .plane) (w2.view .plane) = .ok (w2.view .plane) := by
      rw [stageAll, stage, hs.planes]
      have hm : w2.maps .plane = ⟨true, [], [], []⟩ := by
        rw [← hw2]
        simp [World.put, w1, hs.planes]
      simp [World.view, hm, hc, stageFrom]
    rw [World.addOne, this]
    simp only [putView_same]
  refine ⟨w1, w2, hfind, ?_, ?_, ?_, ?_, ?_, ?_⟩
  · rw [hno, World.addAll]
    simp [hcov, order, eachMap, a2, a1, ap]
  · intro u; rw [← hw2]; cases u <;> rfl
  · intro u hu; rw [← hw2]; cases u <;> first | exact ⟨rfl, rfl⟩ | exact absurd rfl hu
  · rw [if_pos (by omega), ← hw2]
    exact ⟨rfl, hl⟩
  · rw [← hw2]; rfl
  · intro u; rw [← hw2]; cases u <;> rfl

end RgbdSlam.Map.Anew
