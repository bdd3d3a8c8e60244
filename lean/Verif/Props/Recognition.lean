import Verif.Props.System
import Verif.Props.Keypoints
import Verif.Lemmas.Knn
import Verif.Props.IterationOrder
import Mathlib.Tactic.IntervalCases
import Mathlib.Data.List.Forall2
import Mathlib.Data.List.Nodup
import Mathlib.Tactic.Linarith
import Mathlib.Tactic.NormNum
/-
C185: a camera that does not move recognises its map: the frame loop in front of an unchanging scene.
-/
namespace RgbdSlam.Map

open Keypoints (Handler Detected Pt)

variable {P D Env : Type}

/-! ## Specification -/

/-- A search finds the feature `f` in detection `i`, whatever other detections are taken already. -/
def Spec.Recognises (k : Kind P D Env) (env : Env) (det : List D) (f : Feat P) (i : Nat) : Prop :=
  ∀ flags : List Bool, flags.length = det.length → flags[i]? = some false → ∀ toMatches,
    k.findMatches env det { f with matched := [] } flags toMatches false = ([i], if toMatches then [i] else [])

/-- Every detection makes a map point.  `Stands i b`: `b` is the map point of detection `i`. -/
structure Spec.Builds (o : PointOps P D Env) (env : Env) (det : List D) (Stands : Nat → P → Prop) : Prop where
  builds : ∀ i d, det[i]? = some d → o.hasDescriptor d = true ∧ o.depthValid d = true ∧ ∃ b, o.build env d = some b ∧ Stands i b

/-- The map point of a detection is visible, does not move, and is found in that detection (its feature has the id `i + 1`). -/
structure Spec.Sees (o : PointOps P D Env) (env : Env) (det : List D) (Stands : Nat → P → Prop) : Prop where
  sees : ∀ i b, Stands i b → o.isMoving b = false ∧ o.isVisible env b = true ∧
    ∀ f : Feat P, f.id = i + 1 → f.body = b → Spec.Recognises (pointKind o) env det f i

/-- Merging the detection again succeeds, and leaves its map point; a copy is the map point of the same detection. -/
structure Spec.Merges (o : PointOps P D Env) (env : Env) (det : List D) (Stands : Nat → P → Prop) : Prop where
  merges : ∀ i b d, Stands i b → det[i]? = some d → ∃ b', o.update env d b = .ok (b', true) ∧ Stands i b'
  copies : ∀ i b, Stands i b → ∃ b', o.copy b = some b' ∧ Stands i b'

/-- A scene that does not change, seen by a camera that does not move. -/
structure Spec.Still (o : PointOps P D Env) (env : Env) (det : List D) (Stands : Nat → P → Prop) : Prop extends
  Spec.Builds o env det Stands, Spec.Sees o env det Stands, Spec.Merges o env det Stands

/-- The feature of detection `i` after `c` recognitions: it has the id `i + 1`. -/
def Spec.Row (Stands : Nat → P → Prop) (c : Int) (i : Nat) (a : Nat × Feat P) : Prop :=
  a.1 = i + 1 ∧ a.2.id = i + 1 ∧ a.2.failed = 0 ∧ a.2.succ = c ∧ Stands i a.2.body

/-- The features of the detections `0, 1, …, n - 1` in this order, each recognised `c` times. -/
def Spec.Rows (Stands : Nat → P → Prop) (n : Nat) (c : Int) (l : Store P) : Prop :=
  List.Forall₂ (Spec.Row Stands c) (List.range n) l

/-- The local map after `t + 1` frames of an unchanging scene with `n` keypoints: one feature per keypoint and nothing else, a
candidate that was found `t` times or, from the third time on, a map feature. -/
structure Spec.Settled (Stands : Nat → P → Prop) (n t : Nat) (w : World P) : Prop where
  active : ∀ u, (w.maps u).active = true
  others : ∀ u, u ≠ .point → (w.maps u).localMap = [] ∧ (w.maps u).staged = []
  points : if t < 3 then (w.maps .point).localMap = [] ∧ Spec.Rows Stands n t (w.maps .point).staged
    else (w.maps .point).staged = [] ∧ Spec.Rows Stands n t (w.maps .point).localMap
  ids : w.alloc = ⟨n, n⟩
  written : ∀ u, w.written u = []

/-- The match of each of the `n` features with its keypoint. -/
def Spec.allFound (n : Nat) : List Match := (List.range n).map fun i => ⟨.point, i + 1, i⟩

/-! ## One map -/

/-- A feature of detection `i`, matched with it. -/
def Matched (Stands : Nat → P → Prop) (c : Int) (i : Nat) (a : Nat × Feat P) : Prop :=
  Spec.Row Stands c i a ∧ a.2.matched = [i]

theorem setFlags_one (flags : List Bool) (i : Nat) : setFlags flags [i] = flags.set i true := rfl

theorem matchPass_rows {o : PointOps P D Env} {env : Env} {det : List D} {Stands : Nat → P → Prop}
    (hs : Spec.Sees o env det Stands) (tm : Bool) {c : Int} {is : List Nat} {l : Store P}
    (h : List.Forall₂ (Spec.Row Stands c) is l) :
    ∀ flags : List Bool, flags.length = det.length → is.Nodup → (∀ i ∈ is, flags[i]? = some false) →
      ∃ l' flags', matchPass (pointKind o) env det tm false l flags =
          (l', flags', if tm then is.map fun i => ⟨.point, i + 1, i⟩ else []) ∧
        List.Forall₂ (Matched Stands c) is l' ∧ flags'.length = det.length := by
  induction h with
  | nil => intro flags hl _ _; exact ⟨[], flags, by cases tm <;> rfl, .nil, hl⟩
  | @cons i a is l hr _ ih =>
    intro flags hl hn hfl
    obtain ⟨key, f⟩ := a
    obtain ⟨h1, h2, h3, h4, h5⟩ := hr
    simp only at h1 h2 h3 h4 h5
    obtain ⟨hm, hv, hrec⟩ := hs.sees i f.body h5
    rw [List.nodup_cons] at hn
    obtain ⟨l', flags', e, hf, hl'⟩ := ih (flags.set i true) (by simpa using hl) hn.2 (by
      intro j hj
      rw [List.getElem?_set_ne (by rintro rfl; exact hn.1 hj)]
      exact hfl j (by simp [hj]))
    have hfind := hrec f h2 rfl flags hl (hfl i (by simp)) tm
    have hmv : ((pointKind o).isMoving f.body || !(pointKind o).isVisible env f.body) = false := by
      simp [pointKind, hm, hv]
    refine ⟨(key, { f with matched := [i] }) :: l', flags', ?_, .cons ⟨⟨h1, h2, h3, h4, h5⟩, rfl⟩ hf, hl'⟩
    rw [matchPass]
    simp only [hmv, hfind, setFlags_one, e]
    cases tm <;> simp [pointKind, h2]

theorem applyMatches_one {o : PointOps P D Env} {env : Env} {det : List D} {Stands : Nat → P → Prop}
    (hs : Spec.Merges o env det Stands) {c : Int} {i : Nat} {a : Nat × Feat P} (ha : Matched Stands c i a)
    (hi : i < det.length) (all : Bool) :
    ∃ b', applyMatches (pointKind o) env det all a.2.matched a.2 = .ok ({ a.2 with body := b' }, true, [i]) ∧ Stands i b' := by
  obtain ⟨⟨-, -, -, -, hst⟩, hm⟩ := ha
  have hd : det[i]? = some det[i] := List.getElem?_eq_getElem hi
  obtain ⟨b', e, hb⟩ := hs.merges i _ _ hst hd
  refine ⟨b', ?_, hb⟩
  have hg : (pointKind o).updateWith env det[i] a.2 = .ok (b', true) := by
    simp [pointKind, guardedUpdate, hm, e]
  rw [hm]
  simp only [applyMatches, hd, hg, Outcome.noexcept, Outcome.bind_ok]
  simp

theorem updateLocal_rows {o : PointOps P D Env} {env : Env} {det : List D} {Stands : Nat → P → Prop}
    (hs : Spec.Merges o env det Stands) {c : Int} {is : List Nat} {l : Store P}
    (h : List.Forall₂ (Matched Stands c) is l) (hr : ∀ i ∈ is, i < det.length) :
    ∃ l', updateLocal (pointKind o) env det l = .ok (l', is, []) ∧ List.Forall₂ (Spec.Row Stands (c + 1)) is l' := by
  induction h with
  | nil => exact ⟨[], rfl, .nil⟩
  | @cons i a is l ha _ ih =>
    obtain ⟨l', e, hl'⟩ := ih fun j hj => hr j (by simp [hj])
    obtain ⟨b', ea, hb⟩ := applyMatches_one hs ha (hr i (by simp)) false
    obtain ⟨⟨h1, h2, h3, h4, h5⟩, hm⟩ := ha
    obtain ⟨key, f⟩ := a
    simp only at h1 h2 h3 h4 ea
    refine ⟨(key, { f with body := b', failed := 0, succ := f.succ + 1 }) :: l', ?_, .cons ⟨h1, h2, rfl, by simp [h4], hb⟩ hl'⟩
    rw [updateLocal, ea]
    simp only [Outcome.bind_ok, e, settle, if_true]
    have hlost : (pointKind o).isLost { id := f.id, failed := 0, succ := f.succ + 1, matched := f.matched, body := b' } = false := by
      simp [pointKind]
    simp [hlost]

theorem confidence_of {n : Int} : confidence n = max (-1) (min ((n : Rat) / 3) 1) := rfl

theorem not_added {o : PointOps P D Env} {f : Feat P} (h1 : 0 < f.succ) (h2 : f.succ ≤ 2) :
    (pointKind o).shouldAdd f = false ∧ (pointKind o).shouldRemove f = false := by
  have h1' : (1 : Rat) ≤ (f.succ : Rat) := by exact_mod_cast h1
  have h2' : (f.succ : Rat) ≤ 2 := by exact_mod_cast h2
  constructor
  · refine decide_eq_false (not_lt.2 ?_)
    rw [confidence_of, minimumConfidence, max_le_iff]
    exact ⟨by norm_num, (min_le_left _ _).trans (by linarith)⟩
  · refine decide_eq_false (not_le.2 ?_)
    rw [confidence_of, lt_max_iff, lt_min_iff]
    right
    exact ⟨by linarith, by norm_num⟩

theorem added {o : PointOps P D Env} {f : Feat P} (h : 3 ≤ f.succ) : (pointKind o).shouldAdd f = true := by
  have h' : (3 : Rat) ≤ (f.succ : Rat) := by exact_mod_cast h
  refine decide_eq_true ?_
  rw [confidence_of, minimumConfidence, lt_max_iff, lt_min_iff]
  right
  exact ⟨by linarith, by norm_num⟩

theorem updateStaged_young {o : PointOps P D Env} {env : Env} {det : List D} {Stands : Nat → P → Prop}
    (hs : Spec.Merges o env det Stands) {c : Int} (hc1 : 0 < c + 1) (hc2 : c + 1 ≤ 2) (loc : Store P) {is : List Nat} {l : Store P}
    (h : List.Forall₂ (Matched Stands c) is l) (hr : ∀ i ∈ is, i < det.length) :
    ∀ fuel, l.length ≤ fuel → ∃ l', updateStaged (pointKind o) env det fuel l loc = .ok (l', loc, is) ∧
      List.Forall₂ (Spec.Row Stands (c + 1)) is l' := by
  induction h with
  | nil => intro fuel _; exact ⟨[], by cases fuel <;> rfl, .nil⟩
  | @cons i a is l ha _ ih =>
    intro fuel hfu
    obtain ⟨fuel, rfl⟩ : ∃ m, fuel = m + 1 := ⟨fuel - 1, by simp at hfu; omega⟩
    obtain ⟨l', e, hl'⟩ := ih (fun j hj => hr j (by simp [hj])) fuel (by simpa using hfu)
    obtain ⟨b', ea, hb⟩ := applyMatches_one hs ha (hr i (by simp)) true
    obtain ⟨⟨h1, h2, h3, h4, h5⟩, hm⟩ := ha
    obtain ⟨key, f⟩ := a
    simp only at h1 h2 h3 h4 ea
    refine ⟨(key, { f with body := b', failed := 0, succ := f.succ + 1 }) :: l', ?_, .cons ⟨h1, h2, rfl, by simp [h4], hb⟩ hl'⟩
    obtain ⟨n1, n2⟩ := not_added (o := o) (f := { id := f.id, failed := 0, succ := f.succ + 1, matched := f.matched, body := b' })
      (by simpa [h4] using hc1) (by simpa [h4] using hc2)
    rw [updateStaged, ea]
    simp only [Outcome.bind_ok, e, settle, if_true, n1, n2]
    simp

theorem lookup_none {x : Nat} {l : Store P} (h : ∀ a ∈ l, a.1 ≠ x) : lookup x l = none := by
  induction l with
  | nil => rfl
  | cons a l ih =>
    obtain ⟨k, f⟩ := a
    rw [lookup, if_neg (h (k, f) (by simp)), ih fun b hb => h b (by simp [hb])]

theorem updateStaged_grown {o : PointOps P D Env} {env : Env} {det : List D} {Stands : Nat → P → Prop}
    (hs : Spec.Merges o env det Stands) {c : Int} (hc : 3 ≤ c + 1) {is : List Nat} {l : Store P}
    (h : List.Forall₂ (Matched Stands c) is l) (hr : ∀ i ∈ is, i < det.length) :
    ∀ (loc : Store P) (fuel : Nat), l.length ≤ fuel → is.Nodup → (∀ a ∈ loc, ∀ i ∈ is, a.1 ≠ i + 1) →
      ∃ l', updateStaged (pointKind o) env det fuel l loc = .ok ([], loc ++ l', is) ∧
        List.Forall₂ (Spec.Row Stands (c + 1)) is l' := by
  induction h with
  | nil => intro loc fuel _ _ _; exact ⟨[], by cases fuel <;> simp [updateStaged], .nil⟩
  | @cons i a is l ha _ ih =>
    intro loc fuel hfu hn hloc
    obtain ⟨fuel, rfl⟩ : ∃ m, fuel = m + 1 := ⟨fuel - 1, by simp at hfu; omega⟩
    obtain ⟨b', ea, hb⟩ := applyMatches_one hs ha (hr i (by simp)) true
    obtain ⟨⟨h1, h2, h3, h4, h5⟩, hm⟩ := ha
    obtain ⟨key, f⟩ := a
    simp only at h1 h2 h3 h4 ea
    obtain ⟨b2, ec, hb2⟩ := hs.copies i b' hb
    rw [List.nodup_cons] at hn
    let g : Feat P := { id := f.id, failed := 0, succ := f.succ + 1, matched := f.matched, body := b2 }
    have hem : emplace f.id g loc = loc ++ [(f.id, g)] := by
      rw [emplace, lookup_none (fun a ha => by rw [h2]; exact hloc a ha i (by simp))]
      simp
    obtain ⟨l', e, hl'⟩ := ih (fun j hj => hr j (by simp [hj])) (loc ++ [(f.id, g)]) fuel (by simpa using hfu) hn.2 (by
      intro a ha j hj
      rcases List.mem_append.1 ha with ha | ha
      · exact hloc a ha j (by simp [hj])
      · rw [List.mem_singleton] at ha
        subst ha
        simp only [h2]
        rintro he
        have : i = j := by omega
        exact hn.1 (this ▸ hj))
    refine ⟨(f.id, g) :: l', ?_, .cons ⟨h2, h2, rfl, by simp [g, h4], hb2⟩ hl'⟩
    have n1 := added (o := o) (f := { id := f.id, failed := 0, succ := f.succ + 1, matched := f.matched, body := b' })
      (by simpa [h4] using hc)
    have hp : (pointKind o).promote { id := f.id, failed := 0, succ := f.succ + 1, matched := f.matched, body := b' } = some b2 := ec
    rw [updateStaged, ea]
    simp only [Outcome.bind_ok, settle, if_true, n1, hp, promoted]
    change (updateStaged (pointKind o) env det fuel l (emplace f.id g loc)).bind _ = _
    rw [hem, e]
    simp

theorem stageFrom_used {k : Kind P D Env} {env : Env} (used : List Nat) :
    ∀ (ds : List D) (i : Nat) (s : State P), (∀ j, i ≤ j → j < i + ds.length → j ∈ used) → stageFrom k env used i ds s = s := by
  intro ds
  induction ds with
  | nil => intro i s _; rfl
  | cons d ds ih =>
    intro i s h
    rw [stageFrom, if_pos (by simpa using h i (by omega) (by simp))]
    exact ih (i + 1) s fun j h1 h2 => h j (by omega) (by simp; omega)

theorem stageFrom_refused {k : Kind P D Env} {env : Env} (used : List Nat) :
    ∀ (ds : List D) (i : Nat) (s : State P), (∀ d ∈ ds, k.canAdd d = false) → stageFrom k env used i ds s = s := by
  intro ds
  induction ds with
  | nil => intro i s _; rfl
  | cons d ds ih =>
    intro i s h
    have e : stageOne k env d s = s := by simp [stageOne, h d (by simp)]
    rw [stageFrom, e]
    have := ih (i + 1) s fun d hd => h d (by simp [hd])
    split <;> exact this

/-- Adding the detections from number `i` on to a map that has the features of the detections before. -/
theorem stageFrom_rows {o : PointOps P D Env} {env : Env} {det : List D} {Stands : Nat → P → Prop}
    (hs : Spec.Builds o env det Stands) (hlen : det.length < 2 ^ 64) :
    ∀ (ds : List D) (i : Nat) (s : State P), det.drop i = ds → i ≤ det.length → s.alloc = ⟨i, i⟩ →
      List.Forall₂ (Spec.Row Stands 0) (List.range i) s.map.staged →
      ∃ l, stageFrom (pointKind o) env [] i ds s =
          { s with alloc := ⟨det.length, det.length⟩, map := { s.map with staged := l } } ∧
        Spec.Rows Stands det.length 0 l := by
  intro ds
  induction ds with
  | nil =>
    intro i s hd hi ha hl
    have : i = det.length := by
      have := congrArg List.length hd
      simp at this
      omega
    subst this
    exact ⟨s.map.staged, by rw [stageFrom]; cases s; simp_all, hl⟩
  | cons d ds ih =>
    intro i s hd hi ha hl
    have hlt : i < det.length := by
      have := congrArg List.length hd
      simp at this
      omega
    have hdi : det[i]? = some d := by
      have := congrArg (·[0]?) hd
      simpa using this
    obtain ⟨c1, c2, b, eb, hb⟩ := hs.builds i d hdi
    have hnext : s.alloc.next = ⟨i + 1, i + 1⟩ := by
      rw [ha]
      simp only [Alloc.next]
      rw [Nat.mod_eq_of_lt (by omega)]
      congr 1
      omega
    have hkeys : ∀ a ∈ s.map.staged, a.1 ≠ i + 1 := by
      have : ∀ (is : List Nat) (l : Store P), List.Forall₂ (Spec.Row Stands 0) is l → (∀ j ∈ is, j < i) → ∀ a ∈ l, a.1 ≠ i + 1 := by
        intro is l hf
        induction hf with
        | nil => intro _ a ha; cases ha
        | @cons j a' is l hr _ ih =>
          intro hj a ha
          rcases List.mem_cons.1 ha with rfl | ha
          · have := hj j (by simp)
            have := hr.1
            omega
          · exact ih (fun j hj' => hj j (by simp [hj'])) a ha
      exact this _ _ hl fun j hj => by simpa using hj
    have hone : stageOne (pointKind o) env d s =
        { s with alloc := ⟨i + 1, i + 1⟩, map := { s.map with staged := s.map.staged ++ [(i + 1, ⟨i + 1, 0, 0, [], b⟩)] } } := by
      have hc : (pointKind o).canAdd d = true := by simp [pointKind, c1, c2]
      have hb' : (pointKind o).build env d = some b := eb
      simp only [stageOne, hc, if_true, hb', hnext, emplace, lookup_none hkeys]
      simp
    obtain ⟨l, e, hl'⟩ := ih (i + 1) (stageOne (pointKind o) env d s) (by
        have := congrArg List.tail hd
        simpa [List.tail_drop] using this) (by omega) (by rw [hone]) (by
        rw [hone, List.range_succ]
        exact List.rel_append hl (.cons ⟨rfl, rfl, rfl, rfl, hb⟩ .nil))
    refine ⟨l, ?_, hl'⟩
    rw [stageFrom, if_neg (by simp), e, hone]

/-! ## The local map -/

/-- The frame: keypoints of valid depth, no planes, a pose with valid covariance. -/
structure Spec.PlainFrame (o2 o : PointOps P D Env) (op : PlaneOps P D Env) (env : Env) (dets : FType → List D) : Prop where
  known : ∀ d ∈ dets .point2d, (o2.hasDescriptor d && !o2.depthValid d) = false
  planes : dets .plane = []
  cov2 : o2.covValid env = true
  cov1 : o.covValid env = true
  covP : op.covValid env = true

/-- Such a frame, of a scene that does not change. -/
structure Spec.StillFrame (o2 o : PointOps P D Env) (op : PlaneOps P D Env) (env : Env) (dets : FType → List D)
    (Stands : Nat → P → Prop) : Prop extends Spec.PlainFrame o2 o op env dets where
  still : Spec.Still o env (dets .point) Stands

/-- The map after the search for matches. -/
structure Seen (Stands : Nat → P → Prop) (n t : Nat) (dets : FType → List D) (w : World P) : Prop where
  active : ∀ u, (w.maps u).active = true
  others : ∀ u, u ≠ .point → (w.maps u).localMap = [] ∧ (w.maps u).staged = []
  points : if t < 3 then (w.maps .point).localMap = [] ∧ List.Forall₂ (Matched Stands t) (List.range n) (w.maps .point).staged
    else (w.maps .point).staged = [] ∧ List.Forall₂ (Matched Stands t) (List.range n) (w.maps .point).localMap
  ids : w.alloc = ⟨n, n⟩
  written : ∀ u, w.written u = []
  flags : ∀ u, (w.maps u).flags.length = (dets u).length

theorem putView_same (t : FType) (w : World P) : w.put t (w.view t) = w := by
  cases w with
  | mk maps alloc written =>
    simp only [World.put, World.view, World.mk.injEq, true_and]
    constructor
    · funext u; split <;> simp_all
    · funext u; split <;> simp_all

theorem getMatches_empty (k : Kind P D Env) (env : Env) (det : List D) {m : FMap P} (ha : m.active = true)
    (hl : m.localMap = []) (hs : m.staged = []) :
    getMatches k env det m = ({ m with flags := List.replicate det.length false }, []) := by
  cases m
  simp only at ha hl hs
  subst ha hl hs
  by_cases h : 0 < k.minFeatures <;> simp [getMatches, matchOnce, matchPass, h]

theorem getMatches_rows {o : PointOps P D Env} {env : Env} {det : List D} {Stands : Nat → P → Prop}
    (hs : Spec.Sees o env det Stands) (h5 : 5 ≤ det.length) {t : Nat} {m : FMap P} (ha : m.active = true)
    (hp : if t < 3 then m.localMap = [] ∧ Spec.Rows Stands det.length t m.staged
      else m.staged = [] ∧ Spec.Rows Stands det.length t m.localMap) :
    ∃ loc stg fl, getMatches (pointKind o) env det m = (⟨true, loc, stg, fl⟩, Spec.allFound det.length) ∧
      fl.length = det.length ∧
      if t < 3 then loc = [] ∧ List.Forall₂ (Matched Stands t) (List.range det.length) stg
      else stg = [] ∧ List.Forall₂ (Matched Stands t) (List.range det.length) loc := by
  have hfree : ∀ i ∈ List.range det.length, (List.replicate det.length false)[i]? = some false := by
    intro i hi
    simp at hi
    simp [hi]
  have hmin : (pointKind o).minFeatures = 5 := rfl
  by_cases ht : t < 3
  · rw [if_pos ht] at hp
    obtain ⟨hl, hr⟩ := hp
    obtain ⟨l', fl', e, hf, hlen⟩ := matchPass_rows hs true hr _ (List.length_replicate ..) List.nodup_range hfree
    refine ⟨[], l', fl', ?_, hlen, by rw [if_pos ht]; exact ⟨rfl, hf⟩⟩
    have hlt : ¬ (List.map (fun i => (⟨.point, i + 1, i⟩ : Match)) (List.range det.length)).length < 5 := by simp; omega
    simp only [getMatches, matchOnce, ha, hl, matchPass, hmin]
    simp only [List.length_nil, Nat.zero_lt_succ, decide_true, e, Bool.not_true, if_true, List.nil_append, Nat.reduceMul]
    simp only [Bool.false_eq_true, if_false, hlt]
    rfl
  · rw [if_neg ht] at hp
    obtain ⟨hl, hr⟩ := hp
    obtain ⟨l', fl', e, hf, hlen⟩ := matchPass_rows hs true hr _ (List.length_replicate ..) List.nodup_range hfree
    refine ⟨l', [], fl', ?_, hlen, by rw [if_neg ht]; exact ⟨rfl, hf⟩⟩
    have hlt : ¬ (List.map (fun i => (⟨.point, i + 1, i⟩ : Match)) (List.range det.length)).length < 5 := by simp; omega
    simp only [getMatches, matchOnce, ha, hl, matchPass, hmin, e]
    simp only [Bool.not_true, if_true, List.append_nil]
    simp only [Bool.false_eq_true, if_false, hlt]
    rfl

theorem find_settled {o2 o : PointOps P D Env} {op : PlaneOps P D Env} {env : Env} {dets : FType → List D}
    {Stands : Nat → P → Prop} (hs : Spec.Sees o env (dets .point) Stands) (h5 : 5 ≤ (dets .point).length)
    (lt : Match → Match → Bool) {t : Nat} {w : World P} (hw : Spec.Settled Stands (dets .point).length t w) :
    ∃ w', w.find (programKinds o2 o op) lt env dets order [] = (w', Spec.allFound (dets .point).length) ∧
      Seen Stands (dets .point).length t dets w' := by
  obtain ⟨loc, stg, fl, e, hfl, hp⟩ := getMatches_rows hs h5 (hw.active .point) hw.points
  have e2 := getMatches_empty (point2dKind o2) env (dets .point2d) (hw.active .point2d) (hw.others .point2d (by decide)).1
    (hw.others .point2d (by decide)).2
  have e3 := getMatches_empty (planeKind op) env (dets .plane) (hw.active .plane) (hw.others .plane (by decide)).1
    (hw.others .plane (by decide)).2
  have em : ∀ X : List Match, mergeBy lt [] X = X := fun X => by rw [mergeBy]
  have em' : ∀ X : List Match, mergeBy lt X [] = X := fun X => by cases X <;> simp [mergeBy]
  simp only [World.find, order, programKinds, World.put, World.view, e2, e, e3, em, em', reduceCtorEq, if_false]
  refine ⟨_, rfl, ?_, ?_, ?_, ?_, ?_, ?_⟩
  · intro u; cases u <;> simp [hw.active]
  · intro u hu; cases u <;> simp_all [hw.others]
  · simpa using hp
  · exact hw.ids
  · intro u; cases u <;> simp [hw.written]
  · intro u; cases u <;> simp [hfl]

theorem updateOne_empty {k : FType → Kind P D Env} {fuel : Nat} {env : Env} {dets : FType → List D} {u : FType} {w : World P}
    (ha : (w.maps u).active = true) (hl : (w.maps u).localMap = []) (hs : (w.maps u).staged = [])
    (hf : (w.maps u).flags.length = (dets u).length) (hc : (k u).covValid env = true)
    (hd : ∀ d ∈ dets u, (k u).canAdd d = false) :
    World.updateOne k fuel env dets u w = .ok (w, false) := by
  have e : updateMap (k u) fuel env (dets u) (w.view u) = .ok (w.view u, []) := by
    have : w.view u = ⟨⟨true, [], [], (w.maps u).flags⟩, w.alloc, w.written u⟩ := by
      rw [World.view]
      congr 1
      generalize w.maps u = m at *
      cases m
      simp_all
    rw [this]
    cases fuel <;> simp [updateMap, hc, updateLocal, updateStaged]
  have e2 : stage (k u) env (dets u) [] (w.view u) = .ok (w.view u) := by
    rw [stage, stageFrom_refused [] _ _ _ hd]
    simp [World.view, ha, hc, hf]
  rw [World.updateOne, e]
  simp only [e2, putView_same]

theorem takeUpgraded_keeps {k : Kind P D Env} {env : Env} (h : ∀ f, k.upgrade env f = none) (l : Store P) :
    takeUpgraded k env l = (l, []) := by
  induction l with
  | nil => rfl
  | cons a l ih => obtain ⟨key, f⟩ := a; simp [takeUpgraded, ih, h]

theorem upgradeOne_none {k : FType → Kind P D Env} {env : Env} {t : FType} {w : World P}
    (h : getUpgraded (k t) env (w.maps t) = (w.maps t, [])) : ∀ ts, World.upgradeOne k env ts t w = .ok (w, false) := by
  have hv : w.put t { w.view t with map := w.maps t } = w := putView_same t w
  intro ts
  rw [World.upgradeOne, h]
  simp only [hv]
  induction ts with
  | nil => rfl
  | cons u ts ih =>
    rw [eachMap]
    simp only [World.offer, addUpgraded, putView_same, Outcome.bind_ok]
    exact ih

theorem update_seen {o2 o : PointOps P D Env} {op : PlaneOps P D Env} {env : Env} {dets : FType → List D}
    {Stands : Nat → P → Prop} (hs : Spec.PlainFrame o2 o op env dets) (hm' : Spec.Merges o env (dets .point) Stands)
    (cov : Env → Bool) (hcov : cov env = true) {t : Nat} {w : World P} (hw : Seen Stands (dets .point).length t dets w) :
    ∃ w', w.update (programKinds o2 o op) cov w.budget env dets [] = .ok (w', false) ∧
      Spec.Settled Stands (dets .point).length (t + 1) w' := by
  have hr : ∀ i ∈ List.range (dets .point).length, i < (dets .point).length := fun i hi => by simpa using hi
  have hmark : w.markOutliers [] order = w := by
    have : ∀ (ts : List FType), w.markOutliers [] ts = w := by
      intro ts
      induction ts with
      | nil => rfl
      | cons u ts ih =>
        rw [World.markOutliers, markOutliers]
        exact (congrArg _ (putView_same u w)).trans ih
    exact this order
  have hfuel : (w.maps .point).staged.length ≤ w.budget := by
    simp only [World.budget, order, List.map_cons, List.map_nil, List.foldl]
    omega
  -- the point map
  obtain ⟨loc, stg, e, hp⟩ : ∃ loc stg, updateMap (pointKind o) w.budget env (dets .point) (w.view .point) =
      .ok ({ w.view .point with map := { w.maps .point with localMap := loc, staged := stg } },
        List.range (dets .point).length) ∧
      if t + 1 < 3 then loc = [] ∧ Spec.Rows Stands (dets .point).length (t + 1) stg
      else stg = [] ∧ Spec.Rows Stands (dets .point).length (t + 1) loc := by
    have hc : (pointKind o).covValid env = true := hs.cov1
    have hact := hw.active .point
    have hpt := hw.points
    by_cases ht : t < 3
    · rw [if_pos ht] at hpt
      obtain ⟨hl, hm⟩ := hpt
      by_cases ht' : t + 1 < 3
      · obtain ⟨l', e, hl'⟩ := updateStaged_young hm' (by omega) (by omega) [] hm hr w.budget hfuel
        refine ⟨[], l', ?_, by rw [if_pos ht']; exact ⟨rfl, hl'⟩⟩
        simp [updateMap, World.view, hact, hc, hl, updateLocal, e]
      · obtain ⟨l', e, hl'⟩ := updateStaged_grown hm' (by omega) hm hr [] w.budget hfuel List.nodup_range
          (fun a ha => by cases ha)
        refine ⟨l', [], ?_, by rw [if_neg ht']; exact ⟨rfl, hl'⟩⟩
        simp [updateMap, World.view, hact, hc, hl, updateLocal, e]
    · rw [if_neg ht] at hpt
      obtain ⟨hl, hm⟩ := hpt
      obtain ⟨l', e, hl'⟩ := updateLocal_rows hm' hm hr
      refine ⟨l', [], ?_, by rw [if_neg (by omega)]; exact ⟨rfl, hl'⟩⟩
      cases hb : w.budget <;> simp [updateMap, World.view, hact, hc, hl, e, updateStaged]
  have e2 := updateOne_empty (k := programKinds o2 o op) (fuel := w.budget) (env := env) (dets := dets) (u := .point2d)
    (hw.active _) (hw.others _ (by decide)).1 (hw.others _ (by decide)).2 (hw.flags _) hs.cov2 hs.known
  generalize hw1 : w.put .point { w.view .point with map := { w.maps .point with localMap := loc, staged := stg } } = w1
  have e1 : World.updateOne (programKinds o2 o op) w.budget env dets .point w = .ok (w1, false) := by
    rw [World.updateOne]
    simp only [programKinds, e]
    rw [stage, stageFrom_used _ _ _ _ (fun j _ h2 => by simpa using h2)]
    have hc : (pointKind o).covValid env = true := hs.cov1
    simp [World.view, hw.active .point, hc, hw.flags .point, ← hw1]
  have m2 : w1.maps .point2d = w.maps .point2d := by rw [← hw1]; rfl
  have mp : w1.maps .plane = w.maps .plane := by rw [← hw1]; rfl
  have m1 : w1.maps .point = { w.maps .point with localMap := loc, staged := stg } := by rw [← hw1]; rfl
  have ep := updateOne_empty (k := programKinds o2 o op) (fuel := w.budget) (env := env) (dets := dets) (u := .plane) (w := w1)
    (by rw [mp]; exact hw.active _) (by rw [mp]; exact (hw.others _ (by decide)).1)
    (by rw [mp]; exact (hw.others _ (by decide)).2) (by rw [mp]; exact hw.flags _) hs.covP (by rw [hs.planes]; simp)
  have hupg : World.upgrade (programKinds o2 o op) env w1 = .ok (w1, false) := by
    have g2 : getUpgraded (programKinds o2 o op .point2d) env (w1.maps .point2d) = (w1.maps .point2d, []) := by
      rw [m2]
      obtain ⟨a, b⟩ := hw.others .point2d (by decide)
      generalize w.maps .point2d = m at *
      cases m
      simp only at a b
      subst a b
      rfl
    have g1 : getUpgraded (programKinds o2 o op .point) env (w1.maps .point) = (w1.maps .point, []) := by
      simp only [getUpgraded, takeUpgraded_keeps (k := programKinds o2 o op .point) (env := env) (fun _ => rfl)]
      rfl
    have g3 : getUpgraded (programKinds o2 o op .plane) env (w1.maps .plane) = (w1.maps .plane, []) := by
      simp only [getUpgraded, takeUpgraded_keeps (k := programKinds o2 o op .plane) (env := env) (fun _ => rfl)]
      rfl
    rw [World.upgrade]
    conv_lhs => arg 2; rw [order]
    simp [eachMap, upgradeOne_none g2, upgradeOne_none g1, upgradeOne_none g3]
  refine ⟨w1, ?_, ?_, ?_, ?_, ?_, ?_⟩
  · rw [World.update, hmark]
    simp [hcov, order, eachMap, e2, e1, ep, hupg]
  · intro u
    cases u
    · rw [m2]; exact hw.active _
    · rw [m1]; exact hw.active _
    · rw [mp]; exact hw.active _
  · intro u hu
    cases u
    · rw [m2]; exact hw.others _ hu
    · exact absurd rfl hu
    · rw [mp]; exact hw.others _ hu
  · rw [m1]
    exact_mod_cast hp
  · rw [← hw1]; exact hw.ids
  · intro u
    rw [← hw1]
    cases u <;> exact hw.written _

/-- The first frame: nothing is found, and every detection becomes a candidate. -/
theorem first_settled {o2 o : PointOps P D Env} {op : PlaneOps P D Env} {env : Env} {dets : FType → List D}
    {Stands : Nat → P → Prop} (hs : Spec.PlainFrame o2 o op env dets) (hb : Spec.Builds o env (dets .point) Stands)
    (hlen : (dets .point).length < 2 ^ 64)
    (cov : Env → Bool) (hcov : cov env = true) (lt : Match → Match → Bool) :
    ∃ w1 w2, (World.init : World P).find (programKinds o2 o op) lt env dets order [] = (w1, []) ∧
      (w1.noPose (programKinds o2 o op) order).addAll (programKinds o2 o op) cov env dets = .ok (w2, false) ∧
      Spec.Settled Stands (dets .point).length 0 w2 := by
  have e : ∀ (k : Kind P D Env) (det : List D), getMatches k env det FMap.empty = (⟨true, [], [], List.replicate det.length false⟩, []) :=
    fun k det => getMatches_empty k env det rfl rfl rfl
  have em : mergeBy lt [] [] = [] := by rw [mergeBy]
  let w1 : World P := ⟨fun u => ⟨true, [], [], List.replicate (dets u).length false⟩, Alloc.start, fun _ => []⟩
  have hfind : (World.init : World P).find (programKinds o2 o op) lt env dets order [] = (w1, []) := by
    simp only [World.find, order, World.put, World.view, World.init, e, em, reduceCtorEq, if_false]
    simp only [Prod.mk.injEq, and_true, w1, World.mk.injEq, true_and]
    constructor
    · funext u; cases u <;> simp
    · funext u; cases u <;> simp
  have hno : w1.noPose (programKinds o2 o op) order = w1 := by
    have : ∀ (ts : List FType), w1.noPose (programKinds o2 o op) ts = w1 := by
      intro ts
      induction ts with
      | nil => rfl
      | cons u ts ih =>
        rw [World.noPose]
        have : updateNoTracking (programKinds o2 o op u) (w1.view u) = w1.view u := by
          simp [updateNoTracking, World.view, w1, missLocal, missStaged]
        rw [this, putView_same]
        exact ih
    exact this order
  obtain ⟨l, el, hl⟩ := stageFrom_rows hb hlen (dets .point) 0 (w1.view .point) (by simp) (by omega) rfl .nil
  have a2 : World.addOne (programKinds o2 o op) env dets .point2d w1 = .ok (w1, false) := by
    have : stageAll (programKinds o2 o op .point2d) env (dets .point2d) (w1.view .point2d) = .ok (w1.view .point2d) := by
      have hc : (programKinds o2 o op .point2d).covValid env = true := hs.cov2
      rw [stageAll, stage, stageFrom_refused (k := programKinds o2 o op .point2d) [] _ _ _ hs.known]
      simp [World.view, w1, hc]
    rw [World.addOne, this]
    simp only [putView_same]
  generalize hw2 : w1.put .point { w1.view .point with
    alloc := ⟨(dets .point).length, (dets .point).length⟩, map := { w1.maps .point with staged := l } } = w2
  have a1 : World.addOne (programKinds o2 o op) env dets .point w1 = .ok (w2, false) := by
    have : stageAll (programKinds o2 o op .point) env (dets .point) (w1.view .point) = .ok { w1.view .point with
        alloc := ⟨(dets .point).length, (dets .point).length⟩, map := { w1.maps .point with staged := l } } := by
      have hc : (programKinds o2 o op .point).covValid env = true := hs.cov1
      rw [stageAll, stage]
      have el' : stageFrom (programKinds o2 o op .point) env [] 0 (dets .point) (w1.view .point) = _ := el
      rw [el']
      simp [World.view, w1, hc]
    rw [World.addOne, this]
    simp only [← hw2]
  have ap : World.addOne (programKinds o2 o op) env dets .plane w2 = .ok (w2, false) := by
    have hc : (programKinds o2 o op .plane).covValid env = true := hs.covP
    have : stageAll (programKinds o2 o op .plane) env (dets .plane) (w2.view .plane) = .ok (w2.view .plane) := by
      rw [stageAll, stage, hs.planes]
      have hm : w2.maps .plane = ⟨true, [], [], []⟩ := by
        rw [← hw2]
        simp [World.put, w1, hs.planes]
      simp [World.view, hm, hc, stageFrom]
    rw [World.addOne, this]
    simp only [putView_same]
  refine ⟨w1, w2, hfind, ?_, ?_, ?_, ?_, ?_, ?_⟩
  · rw [hno, World.addAll]
    simp [hcov, order, eachMap, a2, a1, ap]
  · intro u; rw [← hw2]; cases u <;> rfl
  · intro u hu; rw [← hw2]; cases u <;> first | exact ⟨rfl, rfl⟩ | exact absurd rfl hu
  · rw [if_pos (by omega), ← hw2]
    exact ⟨rfl, hl⟩
  · rw [← hw2]; rfl
  · intro u; rw [← hw2]; cases u <;> rfl

/-! ## The frame loop -/

variable {Pose Det : Type}

/-- What the frames show: nothing on the first frame, which adds everything to the map; a successful tracking on every other. -/
def Spec.stillOuts (start : Pose) : Nat → Nat → List (Slam.Out Pose) → Prop
  | _, 0, outs => outs = []
  | t, n + 1, outs => ∃ o os, outs = o :: os ∧ o.returned = start ∧ o.tracked = decide (0 < t) ∧ o.reseeded = decide (t = 0) ∧
      (0 < t → o.lostAfter = false) ∧ Spec.stillOuts start (t + 1) n os

theorem still_steps {o2 o : PointOps P D Env} {op : PlaneOps P D Env} (cov : Env → Bool) (lt : Match → Match → Bool)
    (env : Pose → Det → Env) (dets : Det → FType → List D) (po : Slam.PoseOps Pose) (start : Pose) (det : Det)
    {Stands : Nat → P → Prop} (hs : Spec.StillFrame o2 o op (env start det) (dets det) Stands)
    (h5 : 5 ≤ (dets det .point).length) (hcov : cov (env start det) = true) (hpo : po.covValid start = true) :
    ∀ (fs : List (Slam.Frame (Outcome (World P)) Det Pose Match)) (t : Nat) (w : World P) (s : Slam.State (Outcome (World P)) Pose),
      (∀ f ∈ fs, (∀ L pose forced, f.detect L pose forced = det) ∧
        f.optimize start (Spec.allFound (dets det .point).length) = some (start, [])) →
      Spec.Settled Stands (dets det .point).length t w → s.localMap = .ok w → s.currentPose = start →
      s.isFirstTrackingCall = false → s.failedTrackingCount = 0 →
      ∃ s' outs w', Slam.run (localMapOps (programKinds o2 o op) cov lt env dets) po fs s = .ok (s', outs) ∧
        s'.localMap = .ok w' ∧ Spec.Settled Stands (dets det .point).length (t + fs.length) w' ∧ s'.currentPose = start ∧
        s'.failedTrackingCount = 0 ∧ Spec.stillOuts start (t + 1) fs.length outs := by
  intro fs
  induction fs with
  | nil =>
    intro t w s _ hw hl hp _ hc
    exact ⟨s, [], w, rfl, hl, hw, hp, hc, rfl⟩
  | cons f fs ih =>
    intro t w s hf hw hl hp hfirst hc
    obtain ⟨hdet, hopt⟩ := hf f (by simp)
    obtain ⟨w1, e1, hw1⟩ := find_settled (o2 := o2) (op := op) hs.still.toSees h5 lt hw
    obtain ⟨w2, e2, hw2⟩ := update_seen hs.toPlainFrame hs.still.toMerges cov hcov hw1
    have hfind : (localMapOps (programKinds o2 o op) cov lt env dets).find start det (.ok w) =
        (.ok w1, Spec.allFound (dets det .point).length) := by
      simp only [localMapOps, alive, e1]
    have hupd : (localMapOps (programKinds o2 o op) cov lt env dets).update start det [] (.ok w1) = (.ok w2, false) := by
      simp only [localMapOps, alive, e2]
      rfl
    obtain ⟨s1, o1, hstep, i1, i2, i3, i4, i5, i6, i7, i8⟩ : ∃ s1 o1,
        Slam.step (localMapOps (programKinds o2 o op) cov lt env dets) po f s = .ok (s1, o1) ∧ s1.localMap = .ok w2 ∧
          s1.currentPose = start ∧ s1.isFirstTrackingCall = false ∧ s1.failedTrackingCount = 0 ∧ o1.returned = start ∧
          o1.tracked = true ∧ o1.reseeded = false ∧ o1.lostAfter = false := by
      rw [Slam.step, hp, hl]
      simp only [hpo, if_true, hdet, hfind, hfirst, Bool.false_eq_true, if_false, hopt, hupd]
      exact ⟨_, _, rfl, rfl, rfl, rfl, rfl, rfl, rfl, rfl, rfl⟩
    obtain ⟨s', outs, w', er, g1, g2, g3, g4, g5⟩ := ih (t + 1) w2 s1 (fun f' hf' => hf f' (by simp [hf'])) hw2 i1 i2 i3 i4
    refine ⟨s', o1 :: outs, w', ?_, g1, by rw [List.length_cons, show t + (fs.length + 1) = t + 1 + fs.length by omega]; exact g2, g3, g4,
      _, _, rfl, i5, by simp [i6], by simp [i7], fun _ => i8, g5⟩
    rw [Slam.run, hstep]
    simp only [Outcome.bind_ok]
    rw [er]
    rfl

theorem still_run {o2 o : PointOps P D Env} {op : PlaneOps P D Env} (cov : Env → Bool) (lt : Match → Match → Bool)
    (env : Pose → Det → Env) (dets : Det → FType → List D) (po : Slam.PoseOps Pose) (start : Pose) (det : Det)
    {Stands : Nat → P → Prop} (hs : Spec.StillFrame o2 o op (env start det) (dets det) Stands)
    (h5 : 5 ≤ (dets det .point).length) (hlen : (dets det .point).length < 2 ^ 64) (hcov : cov (env start det) = true)
    (hpo : po.covValid start = true) (hpos : po.posCovValid start = true)
    (f : Slam.Frame (Outcome (World P)) Det Pose Match) (fs : List (Slam.Frame (Outcome (World P)) Det Pose Match))
    (hf : ∀ f' ∈ f :: fs, (∀ L pose forced, f'.detect L pose forced = det) ∧
      f'.optimize start (Spec.allFound (dets det .point).length) = some (start, [])) :
    ∃ s' outs w', Slam.run (localMapOps (programKinds o2 o op) cov lt env dets) po (f :: fs) (Slam.init start (.ok World.init)) =
        .ok (s', outs) ∧
      s'.localMap = .ok w' ∧ Spec.Settled Stands (dets det .point).length fs.length w' ∧ s'.currentPose = start ∧
      s'.failedTrackingCount = 0 ∧ Spec.stillOuts start 0 (fs.length + 1) outs := by
  obtain ⟨w1, w2, e1, e2, hw2⟩ := first_settled hs.toPlainFrame hs.still.toBuilds hlen cov hcov lt
  obtain ⟨hdet, -⟩ := hf f (by simp)
  have hfind : (localMapOps (programKinds o2 o op) cov lt env dets).find start det (.ok World.init) = (.ok w1, []) := by
    simp only [localMapOps, alive, e1]
  have hno : (localMapOps (programKinds o2 o op) cov lt env dets).addAll start det
      ((localMapOps (programKinds o2 o op) cov lt env dets).updateNoPose (.ok w1)) = .ok w2 := by
    simp only [localMapOps, alive, e2]
    rfl
  obtain ⟨s1, o1, hstep, i1, i2, i3, i4, i5, i6, i7⟩ : ∃ s1 o1,
      Slam.step (localMapOps (programKinds o2 o op) cov lt env dets) po f (Slam.init start (.ok World.init)) = .ok (s1, o1) ∧
        s1.localMap = .ok w2 ∧ s1.currentPose = start ∧ s1.isFirstTrackingCall = false ∧ s1.failedTrackingCount = 0 ∧
        o1.returned = start ∧ o1.tracked = false ∧ o1.reseeded = true := by
    rw [Slam.step, Slam.init]
    simp only [hpo, if_true, hdet, hfind, hpos, hno, Bool.and_true]
    exact ⟨_, _, rfl, rfl, rfl, rfl, rfl, rfl, rfl, rfl⟩
  obtain ⟨s', outs, w', er, g1, g2, g3, g4, g5⟩ := still_steps cov lt env dets po start det hs h5 hcov hpo fs 0 w2 s1
    (fun f' hf' => hf f' (by simp [hf'])) hw2 i1 i2 i3 i4
  refine ⟨s', o1 :: outs, w', ?_, g1, by simpa using g2, g3, g4, _, _, rfl, i5, by simp [i6], by simp [i7], by simp, g5⟩
  rw [Slam.run, hstep]
  simp only [Outcome.bind_ok]
  rw [er]
  rfl

/-! ## Keypoints -/

variable {Desc Cam Shape : Type}

/-- The map point `b` is seen as keypoint `i` of the frame: it is visible, does not move, and projects at most 30 pixels from the
keypoint and at least 31 pixels from the left and the top border of the image; its descriptor is closer to the descriptor of that
keypoint than 0.7 times to that of any other keypoint at most 30 pixels away. -/
structure Spec.SeenAs (g : PointGeo P Desc Cam) (c : Cam) (detected : List Pt) (descs : List Desc) (i : Nat) (b : P) : Prop where
  static : g.isMoving b = false
  visible : g.isVisible c b = true
  near : ∃ p q d, g.project c b = some p ∧ detected[i]? = some q ∧ descs[i]? = some d ∧ 31 ≤ p.x ∧ 31 ≤ p.y ∧
    (q.x - p.x) * (q.x - p.x) + (q.y - p.y) * (q.y - p.y) ≤ 30 * 30 ∧
    ∀ j q' d', j ≠ i → detected[j]? = some q' → descs[j]? = some d' →
      (q'.x - p.x) * (q'.x - p.x) + (q'.y - p.y) * (q'.y - p.y) ≤ 30 * 30 →
      10 * g.distance (g.descriptor b) d < 7 * g.distance (g.descriptor b) d'

theorem seenAs_recognised {g : PointGeo P Desc Cam} {c : Cam} {cols rows : Nat} (hc : cols < 2 ^ 31) (hr : rows < 2 ^ 31)
    (hcx : 31 < cols) (hry : 31 < rows) (hw : Keypoints.cellsFor rows ≤ Keypoints.cellsFor cols)
    {h0 h : Handler Desc} (hh : Keypoints.Reached cols rows h0) {im : Keypoints.DepthImage} {detected : List Pt} {descs : List Desc}
    (hd : descs.length = detected.length) (e : Keypoints.set im detected descs [] h0 = .ok h) {i : Nat} {b : P}
    (hb : Spec.SeenAs g c detected descs i b) {flags : List Bool} (hfl : flags.length = h.keypoints.length)
    (hi : flags[i]? = some false) (det : List (Detected Desc)) :
    (handlerOps g).window (c, h) det b flags 30 = [i] := by
  obtain ⟨p, q, d, hp, hq, hdi, hx, hy, hn, hratio⟩ := hb.near
  obtain ⟨hf, -, -, -, hde⟩ := Keypoints.set_spec e
  obtain ⟨h', e', hall⟩ := Keypoints.C49_no_grid_overrun_partial (by omega) (by omega) hw h0 hh im detected descs [] hd
  rw [e] at e'
  injection e' with e'
  subst e'
  obtain ⟨-, hres⟩ := hall flags hfl p 30
  obtain ⟨res, hres⟩ := hres g.distance (g.descriptor b)
  obtain ⟨⟨m, hm⟩, -⟩ := hall flags hfl p (Keypoints.cellRadius 30)
  have h1 : Keypoints.cellRadius 30 = 1 := by decide
  have hmi : m[i]? = some true := by
    refine Keypoints.C49_all_candidates_partial hc hr h0 h hh im detected descs [] e p flags (Keypoints.cellRadius 30)
      (by rw [h1]) (by rw [h1]; simpa using hx) (by rw [h1]; simpa using hy) (by rw [h1]; exact hcx) (by rw [h1]; exact hry) m hm i
      ⟨hi, q, hq, by linarith⟩
  have : res = [i] := by
    refine ((Keypoints.matchIndexes_spec hf hres).2 i).2 ⟨m, hm, hmi, d, by rw [hde]; exact hdi, ?_⟩
    intro j d' hmj hdj hji
    obtain ⟨-, q', hq', hn'⟩ := Keypoints.C49_only_candidates h0 h im detected descs [] e p flags _ m hm j hmj
    exact hratio j q' d' hji hq' (by rw [← hde]; exact hdj) (by linarith)
  simp only [handlerOps, hp, hres, this]

theorem detections_get {h : Handler Desc} {detected : List Pt} (hf : Keypoints.Filled h detected [])
    {i : Nat} {d : Detected Desc} (hd : (Keypoints.detections h)[i]? = some d) :
    i < detected.length ∧ d.desc = h.descs[i]? ∧ (Keypoints.detections h).length = detected.length := by
  have hl : h.keypoints.length = detected.length := by
    have := congrArg List.length hf.pts
    simpa using this
  have hlen : (Keypoints.detections h).length = detected.length := by simp [Keypoints.detections, hl]
  have hi := (List.getElem?_eq_some_iff.1 hd).1
  refine ⟨by omega, ?_, hlen⟩
  simp only [Keypoints.detections, List.getElem?_map, List.getElem?_zipIdx, Option.map_map, Option.map_eq_some_iff] at hd
  obtain ⟨k, -, rfl⟩ := hd
  simp

/-- C185: a camera that does not move, in front of a scene that does not change, with at least 5 keypoints, all of known depth, in
which it can recognise the map points it makes (`Spec.SeenAs`, kept by merging and copying), and no plane.  However many frames
are seen: the first frame adds one candidate per keypoint, every other frame finds all of them in their own keypoint and is
tracked, the pose does not change, and the map holds exactly one feature per keypoint, with the ids 1, 2, …: a candidate at first, a
map feature from the fourth frame on.  No other id is ever given and nothing is written to the exported map. -/
theorem C185_still_camera_partial (g2 g : PointGeo P Desc Cam) (op : PlaneOps P (Detected Desc ⊕ Shape) (Cam × Handler Desc))
    (cam : Pose → Cam) (start : Pose) {cols rows : Nat} (hc : cols < 2 ^ 31) (hr : rows < 2 ^ 31)
    (hcx : 31 < cols) (hry : 31 < rows) (hw : Keypoints.cellsFor rows ≤ Keypoints.cellsFor cols)
    (h0 h : Handler Desc) (hh : Keypoints.Reached cols rows h0) (im : Keypoints.DepthImage) (detected : List Pt) (descs : List Desc)
    (hd : descs.length = detected.length) (e : Keypoints.set im detected descs [] h0 = .ok h)
    (h5 : 5 ≤ detected.length) (hlen : detected.length < 2 ^ 64)
    (hdepth : ∀ d ∈ Keypoints.detections h, depthValid d.kp.depth = true)
    (hbuild : ∀ i d, (Keypoints.detections h)[i]? = some d → ∃ b, g.build (cam start) d = some b ∧
      Spec.SeenAs g (cam start) detected descs i b)
    (hmerge : ∀ i d b, (Keypoints.detections h)[i]? = some d → Spec.SeenAs g (cam start) detected descs i b →
      ∃ b', g.update (cam start) d b = .ok (b', true) ∧ Spec.SeenAs g (cam start) detected descs i b')
    (hcopy : ∀ i b, Spec.SeenAs g (cam start) detected descs i b → ∃ b', g.copy b = some b' ∧ Spec.SeenAs g (cam start) detected descs i b')
    (cov : Cam × Handler Desc → Bool) (hcov : cov (cam start, h) = true) (hcov2 : g2.covValid (cam start) = true)
    (hcov1 : g.covValid (cam start) = true) (hcovP : op.covValid (cam start, h) = true)
    (lt : Match → Match → Bool) (po : Slam.PoseOps Pose) (hpo : po.covValid start = true) (hpos : po.posCovValid start = true)
    (f : Slam.Frame (Outcome (World P)) (Handler Desc × List Shape) Pose Match)
    (fs : List (Slam.Frame (Outcome (World P)) (Handler Desc × List Shape) Pose Match))
    (hf : ∀ f' ∈ f :: fs, (∀ L pose forced, f'.detect L pose forced = (h, [])) ∧
      f'.optimize start (Spec.allFound detected.length) = some (start, [])) :
    ∃ s outs w, Slam.run (localMapOps (programKinds (withShapes (handlerOps g2)) (withShapes (handlerOps g)) op) cov lt
        (fun pose d => (cam pose, d.1)) frameDets) po (f :: fs) (Slam.init start (.ok World.init)) = .ok (s, outs) ∧
      s.localMap = .ok w ∧ Spec.Settled (Spec.SeenAs g (cam start) detected descs) detected.length fs.length w ∧
      s.currentPose = start ∧ s.failedTrackingCount = 0 ∧ Spec.stillOuts start 0 (fs.length + 1) outs := by
  obtain ⟨hfl, -, -, -, hde⟩ := Keypoints.set_spec e
  have hkl : h.keypoints.length = detected.length := by
    have := congrArg List.length hfl.pts
    simpa using this
  have hn : (frameDets (Shape := Shape) (h, []) .point).length = detected.length := by
    simp [frameDets, Keypoints.detections, hkl]
  have hget : ∀ (i : Nat) x, (frameDets (Shape := Shape) (h, []) .point)[i]? = some x →
      ∃ d : Detected Desc, x = Sum.inl d ∧ (Keypoints.detections h)[i]? = some d := by
    intro i x hx
    simp only [frameDets, List.getElem?_map, Option.map_eq_some_iff] at hx
    obtain ⟨d, hd, rfl⟩ := hx
    exact ⟨d, rfl, hd⟩
  have hno : ∀ id, Keypoints.trackIndex h id = none := by
    intro id
    cases ht : Keypoints.trackIndex h id with
    | none => rfl
    | some j =>
      obtain ⟨t, h1, -⟩ := trackIndex_spec hfl ht
      simp at h1
  have hs : Spec.StillFrame (withShapes (handlerOps g2)) (withShapes (handlerOps g)) op (cam start, h)
      (frameDets (Shape := Shape) (h, [])) (Spec.SeenAs g (cam start) detected descs) := by
    refine ⟨⟨?_, rfl, hcov2, hcov1, hcovP⟩, ⟨⟨?_⟩, ⟨?_⟩, ⟨?_, ?_⟩⟩⟩
    · intro x hx
      simp only [frameDets, List.mem_map] at hx
      obtain ⟨d, hd', rfl⟩ := hx
      have := hdepth d hd'
      change (d.desc.isSome && !depthValid d.kp.depth) = false
      rw [this]
      simp
    · intro i x hx
      obtain ⟨d, rfl, hd'⟩ := hget i x hx
      obtain ⟨hi, hdesc, -⟩ := detections_get hfl hd'
      refine ⟨?_, hdepth d (List.mem_of_getElem? hd'), hbuild i d hd'⟩
      change d.desc.isSome = true
      rw [hdesc, hde, List.getElem?_eq_getElem (by omega)]
      rfl
    · intro i b hb
      refine ⟨hb.static, hb.visible, ?_⟩
      intro f _ hfb flags hflen hfi tm
      obtain ⟨p, q, d, hp, -⟩ := hb.near
      have hwin := seenAs_recognised hc hr hcx hry hw hh hd e hb (flags := flags) (by rw [hflen, hn, hkl]) hfi []
      change pointFind (withShapes (handlerOps g)) _ _ _ _ _ _ = _
      have htr : ∀ id, (withShapes (Shape := Shape) (handlerOps g)).trackIndex (cam start, h) (frameDets (h, []) .point) id = none := hno
      have hon : (withShapes (Shape := Shape) (handlerOps g)).onScreen (cam start, h) f.body = true := by
        change (g.project (cam start) f.body).isSome = true
        rw [hfb, hp]
        rfl
      have hwi : (withShapes (Shape := Shape) (handlerOps g)).window (cam start, h) (frameDets (h, []) .point) f.body flags 30 = [i] := by
        rw [hfb]
        exact hwin
      simp only [pointFind, htr, hon, if_true, matchSearchRadius, Bool.false_eq_true, if_false, hwi]
    · intro i b x hb hx
      obtain ⟨d, rfl, hd'⟩ := hget i x hx
      exact hmerge i d b hd' hb
    · exact hcopy
  have := still_run cov lt (fun (pose : Pose) (d : Handler Desc × List Shape) => (cam pose, d.1)) frameDets po start (h, [])
    hs (by rw [hn]; exact h5) (by rw [hn]; exact hlen) hcov hpo hpos f fs (by rw [hn]; exact hf)
  rw [hn] at this
  exact this

/-- Five keypoints far from each other and from the borders. -/
def spread : List Pt := [⟨100, 100⟩, ⟨300, 100⟩, ⟨500, 100⟩, ⟨100, 300⟩, ⟨300, 300⟩]

/-- The frame loop with the demonstration points, on `n` equal frames. -/
def stillRun (h : Handler Nat) (n : Nat) : Outcome (Slam.State (Outcome (World Pt)) Nat × List (Slam.Out Nat)) :=
  Slam.run (localMapOps (programKinds (withShapes (handlerOps demoGeo)) (withShapes (handlerOps demoGeo)) noPlanes)
    (fun _ => true) (fun _ _ => false) (fun (_ : Nat) d => ((), d.1)) frameDets)
    ⟨fun _ => true, fun _ => true⟩ (List.replicate n (sameFrame h)) (Slam.init 0 (.ok World.init))

theorem spread_seen {i : Nat} {q : Pt} (hq : spread[i]? = some q) : Spec.SeenAs demoGeo () spread [0, 0, 0, 0, 0] i q := by
  have hi : i < 5 := (List.getElem?_eq_some_iff.1 hq).1
  refine ⟨rfl, rfl, q, q, 0, rfl, hq, ?_, ?_⟩
  · interval_cases i <;> rfl
  · have key : ∀ i < 5, ∀ j < 5, ∀ q ∈ spread[i]?, ∀ q' ∈ spread[j]?, 31 ≤ q.x ∧ 31 ≤ q.y ∧
        (j ≠ i → ¬ (q'.x - q.x) * (q'.x - q.x) + (q'.y - q.y) * (q'.y - q.y) ≤ 30 * 30) := by decide +kernel
    refine ⟨(key i hi i hi q hq q hq).1, (key i hi i hi q hq q hq).2.1, by norm_num, ?_⟩
    intro j q' d' hji hq' _ hn
    exact absurd hn ((key i hi j (List.getElem?_eq_some_iff.1 hq').1 q hq q' hq').2.2 hji)

/-- The hypotheses are met: five keypoints, seen as often as one likes. -/
example : ∃ h, Keypoints.set demoImage spread [0, 0, 0, 0, 0] [] (Keypoints.create 640 480) = .ok h ∧ ∀ n,
    ∃ s outs w, stillRun h (n + 1) = .ok (s, outs) ∧ s.localMap = .ok w ∧
      Spec.Settled (Spec.SeenAs demoGeo () spread [0, 0, 0, 0, 0]) 5 n w := by
  obtain ⟨h, e, hdep⟩ := holds_elim (show ((Keypoints.set demoImage spread [0, 0, 0, 0, 0] []
    (Keypoints.create 640 480)).holds fun h => (Keypoints.detections h).all fun d => depthValid d.kp.depth) = true by decide +kernel)
  obtain ⟨hfl, -⟩ := Keypoints.set_spec e
  have hpt : ∀ (i : Nat) (d : Detected Nat), (Keypoints.detections h)[i]? = some d → spread[i]? = some d.kp.pt := by
    intro i d hd
    obtain ⟨hi, -, -⟩ := detections_get hfl hd
    obtain ⟨k, hk, hkp⟩ := Keypoints.kpt hfl (List.getElem?_eq_getElem hi)
    simp only [Keypoints.detections, List.getElem?_map, List.getElem?_zipIdx, hk, Option.map_some, Option.some.injEq] at hd
    subst hd
    rw [List.getElem?_eq_getElem hi]
    exact congrArg some hkp.symm
  refine ⟨h, e, fun n => ?_⟩
  obtain ⟨s, outs, w, h1, h2, h3, -⟩ := C185_still_camera_partial demoGeo demoGeo noPlanes (fun _ : Nat => ()) 0 (cols := 640) (rows := 480)
    (by norm_num) (by norm_num) (by norm_num) (by norm_num) (by decide) (Keypoints.create 640 480) h .create demoImage spread
    [0, 0, 0, 0, 0] rfl e (by decide) (by decide) (by simpa using hdep) (fun i d hd => ⟨_, rfl, spread_seen (hpt i d hd)⟩)
    (fun i d b hd _ => ⟨_, rfl, spread_seen (hpt i d hd)⟩) (fun i b hb => ⟨b, rfl, hb⟩) (fun _ => true) rfl rfl rfl rfl
    (fun _ _ => false) ⟨fun _ => true, fun _ => true⟩ rfl rfl (sameFrame h) (List.replicate n (sameFrame h)) (by
      intro f' hf'
      rw [← List.replicate_succ] at hf'
      rw [List.eq_of_mem_replicate hf']
      exact ⟨fun _ _ _ => rfl, rfl⟩)
  rw [List.length_replicate] at h3
  exact ⟨s, outs, w, h1, h2, h3⟩

/-- C185 fails next to the left and the top border: a keypoint less than 31 pixels away from them is not recognised on the next
frame, and becomes a new candidate with a new id. -/
theorem C185_border_false : ¬ ∀ (detected : List Pt) (h : Handler Nat),
    Keypoints.set demoImage detected (detected.map fun _ => 0) [] (Keypoints.create 640 480) = .ok h → 5 ≤ detected.length →
    ∀ (n : Nat) (s : Slam.State (Outcome (World Pt)) Nat) (outs : List (Slam.Out Nat)) (w : World Pt),
      stillRun h n = .ok (s, outs) → s.localMap = .ok w → w.alloc.given ≤ detected.length := by
  intro hall
  obtain ⟨h, e, hr⟩ := holds_elim (show ((Keypoints.set demoImage (spread ++ [⟨10, 200⟩]) ((spread ++ [(⟨10, 200⟩ : Pt)]).map fun _ => 0) []
    (Keypoints.create 640 480)).holds fun h => (stillRun h 2).holds fun r => r.1.localMap.holds fun w => w.alloc.given == 7) = true
    by decide +kernel)
  obtain ⟨⟨s, outs⟩, e2, hr⟩ := holds_elim hr
  obtain ⟨w, e3, hr⟩ := holds_elim hr
  have := hall _ h e (by decide) 2 s outs w e2 e3
  simp [spread] at this
  simp at hr
  omega

end RgbdSlam.Map
