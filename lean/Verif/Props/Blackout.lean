import Verif.Props.NoDrift

/-! # C195: frames without any detection

C187 and C193 are about frames that all see the scene.  Here the camera is blinded now and then: the lens is covered, the light goes off, or
the image is too blurred to find a keypoint in it.  The map has to survive this, and the camera has to be found again afterwards.

The map drops a point after eleven failures in a row (map_point.cpp 303-307 and feature_map.hpp 835-859), and writes it to the file. -/

namespace RgbdSlam.Map

open Keypoints (Handler Detected Pt Tracked)

section loop

variable {P D Env Pose Det : Type}

/-! ## Specification -/

/-- The feature of scene point `i`, with the id `i + 1`, that was not found in the last `c` frames. -/
def Spec.Kept (Stands : Nat → P → Prop) (c : Nat) (i : Nat) (a : Nat × Feat P) : Prop :=
  a.1 = i + 1 ∧ a.2.id = i + 1 ∧ a.2.failed = c ∧ Stands i a.2.body

/-- The local map holds one feature per scene point and nothing else; none was found in the last `c` frames; nothing was ever dropped. -/
structure Spec.InMap (Stands : Nat → P → Prop) (n c : Nat) (w : World P) : Prop where
  active : ∀ u, (w.maps u).active = true
  others : ∀ u, u ≠ .point → (w.maps u).localMap = []
  staged : ∀ u, (w.maps u).staged = []
  points : List.Forall₂ (Spec.Kept Stands c) (List.range n) (w.maps .point).localMap
  ids : w.alloc = ⟨n, n⟩
  written : ∀ u, w.written u = []

/-- The local map is empty, and each feature was written once, in order. -/
structure Spec.GivenUp (Stands : Nat → P → Prop) (n : Nat) (w : World P) : Prop where
  active : ∀ u, (w.maps u).active = true
  empty : ∀ u, (w.maps u).localMap = [] ∧ (w.maps u).staged = []
  points : List.Forall₂ (fun i f => f.id = i + 1 ∧ Stands i f.body) (List.range n) (w.written .point)
  others : ∀ u, u ≠ .point → w.written u = []

/-- A frame in which nothing is detected, while the camera is thought to be at `p`: no search finds anything, and an optimiser without
matches fails. -/
structure Spec.Dark (o2 o : PointOps P D Env) (op : PlaneOps P D Env) (cov : Env → Bool) (env : Pose → Det → Env)
    (dets : Det → FType → List D) (p : Pose)
    (f : Slam.Frame (Outcome (World P)) Det Pose Match) (det : Det) : Prop where
  detect : ∀ L pose forced, f.detect L pose forced = det
  nothing : ∀ u, dets det u = []
  blind : ∀ g flags tm adv, pointFind o (env p det) [] g flags tm adv = ([], [])
  optimize : f.optimize p [] = none
  plain : Spec.PlainFrame o2 o op (env p det) (dets det)
  cov : cov (env p det) = true

/-- Successive frames.  A `leg` sees the scene and goes to a new pose, a `dark` frame stays at the pose and there are at most `limit` of
them in a row; `c` of them come right before this journey and `c'` right before its end.  The flags tell which frames are dark. -/
inductive Spec.Journey {F : Type} (leg : Pose → Pose → F → Prop) (dark : Pose → F → Prop) (limit : Nat) :
    Nat → Pose → List (Pose × Bool) → List F → Nat → Prop
  | home (c : Nat) (p : Pose) : Spec.Journey leg dark limit c p [] [] c
  | go {c c' : Nat} {p q : Pose} {qs : List (Pose × Bool)} {f : F} {fs : List F} : leg p q f →
      Spec.Journey leg dark limit 0 q qs fs c' → Spec.Journey leg dark limit c p ((q, false) :: qs) (f :: fs) c'
  | wait {c c' : Nat} {p : Pose} {qs : List (Pose × Bool)} {f : F} {fs : List F} : dark p f → c < limit →
      Spec.Journey leg dark limit (c + 1) p qs fs c' → Spec.Journey leg dark limit c p ((p, true) :: qs) (f :: fs) c'

/-! ## One map -/

theorem settled_inMap {Stands : Nat → P → Prop} {n t : Nat} (ht : 3 ≤ t) {w : World P} (h : Spec.Settled Stands n t w) :
    Spec.InMap Stands n 0 w := by
  have hp := h.points
  rw [if_neg (by omega)] at hp
  refine ⟨h.active, fun u hu => (h.others u hu).1, fun u => ?_, ?_, h.ids, h.written⟩
  · by_cases hu : u = .point
    · subst hu; exact hp.1
    · exact (h.others u hu).2
  · exact List.Forall₂.imp (fun i a hr => ⟨hr.1, hr.2.1, hr.2.2.1, hr.2.2.2.2⟩) hp.2

/-- Kept, and matched with its detection. -/
def KeptMatched (Stands : Nat → P → Prop) (c : Nat) (i : Nat) (a : Nat × Feat P) : Prop := Spec.Kept Stands c i a ∧ a.2.matched = [i]

theorem matchPass_kept {o : PointOps P D Env} {env : Env} {det : List D} {Stands : Nat → P → Prop}
    (hs : Spec.Sees o env det Stands) {c : Nat} {is : List Nat} {l : Store P}
    (h : List.Forall₂ (Spec.Kept Stands c) is l) :
    ∀ flags : List Bool, flags.length = det.length → is.Nodup → (∀ i ∈ is, flags[i]? = some false) →
      ∃ l' flags', matchPass (pointKind o) env det true false l flags =
          (l', flags', is.map fun i => ⟨.point, i + 1, i⟩) ∧
        List.Forall₂ (KeptMatched Stands c) is l' ∧ flags'.length = det.length := by
  induction h with
  | nil => intro flags hl _ _; exact ⟨[], flags, rfl, .nil, hl⟩
  | @cons i a is l hr _ ih =>
    intro flags hl hn hfl
    obtain ⟨key, f⟩ := a
    obtain ⟨h1, h2, h3, h5⟩ := hr
    simp only at h1 h2 h3 h5
    obtain ⟨hm, hv, hrec⟩ := hs.sees i f.body h5
    rw [List.nodup_cons] at hn
    obtain ⟨l', flags', e, hf, hl'⟩ := ih (flags.set i true) (by simpa using hl) hn.2 (by
      intro j hj
      rw [List.getElem?_set_ne (by rintro rfl; exact hn.1 hj)]
      exact hfl j (by simp [hj]))
    have hfind := hrec f h2 rfl flags hl (hfl i (by simp)) true
    have hmv : ((pointKind o).isMoving f.body || !(pointKind o).isVisible env f.body) = false := by
      simp [pointKind, hm, hv]
    refine ⟨(key, { f with matched := [i] }) :: l', flags', ?_, .cons ⟨⟨h1, h2, h3, h5⟩, rfl⟩ hf, hl'⟩
    rw [matchPass]
    simp only [hmv, hfind, setFlags_one, e]
    simp [pointKind, h2]

theorem applyMatches_kept {o : PointOps P D Env} {env : Env} {det : List D} {Stands : Nat → P → Prop}
    (hs : Spec.Merges o env det Stands) {c : Nat} {i : Nat} {a : Nat × Feat P} (ha : KeptMatched Stands c i a)
    (hi : i < det.length) (all : Bool) :
    ∃ b', applyMatches (pointKind o) env det all a.2.matched a.2 = .ok ({ a.2 with body := b' }, true, [i]) ∧ Stands i b' := by
  obtain ⟨⟨-, -, -, hst⟩, hm⟩ := ha
  have hd : det[i]? = some det[i] := List.getElem?_eq_getElem hi
  obtain ⟨b', e, hb⟩ := hs.merges i _ _ hst hd
  refine ⟨b', ?_, hb⟩
  have hg : (pointKind o).updateWith env det[i] a.2 = .ok (b', true) := by
    simp [pointKind, guardedUpdate, hm, e]
  rw [hm]
  simp only [applyMatches, hd, hg, Outcome.noexcept, Outcome.bind_ok]
  simp

theorem updateLocal_kept {o : PointOps P D Env} {env : Env} {det : List D} {Stands : Nat → P → Prop}
    (hs : Spec.Merges o env det Stands) {c : Nat} {is : List Nat} {l : Store P}
    (h : List.Forall₂ (KeptMatched Stands c) is l) (hr : ∀ i ∈ is, i < det.length) :
    ∃ l', updateLocal (pointKind o) env det l = .ok (l', is, []) ∧ List.Forall₂ (Spec.Kept Stands 0) is l' := by
  induction h with
  | nil => exact ⟨[], rfl, .nil⟩
  | @cons i a is l ha _ ih =>
    obtain ⟨l', e, hl'⟩ := ih fun j hj => hr j (by simp [hj])
    obtain ⟨b', ea, hb⟩ := applyMatches_kept hs ha (hr i (by simp)) false
    obtain ⟨⟨h1, h2, h3, h5⟩, hm⟩ := ha
    obtain ⟨key, f⟩ := a
    simp only at h1 h2 h3 ea
    refine ⟨(key, { f with body := b', failed := 0, succ := f.succ + 1 }) :: l', ?_, .cons ⟨h1, h2, rfl, hb⟩ hl'⟩
    rw [updateLocal, ea]
    simp only [Outcome.bind_ok, e, settle, if_true]
    have hlost : (pointKind o).isLost { id := f.id, failed := 0, succ := f.succ + 1, matched := f.matched, body := b' } = false := by
      simp [pointKind]
    simp [hlost]

/-! ### A frame that sees the scene -/

theorem getMatches_kept {o : PointOps P D Env} {env : Env} {det : List D} {Stands : Nat → P → Prop}
    (hs : Spec.Sees o env det Stands) (h5 : 5 ≤ det.length) {c : Nat} {m : FMap P} (ha : m.active = true) (hst : m.staged = [])
    (hp : List.Forall₂ (Spec.Kept Stands c) (List.range det.length) m.localMap) :
    ∃ loc fl, getMatches (pointKind o) env det m = (⟨true, loc, [], fl⟩, Spec.allFound det.length) ∧
      fl.length = det.length ∧ List.Forall₂ (KeptMatched Stands c) (List.range det.length) loc := by
  have hfree : ∀ i ∈ List.range det.length, (List.replicate det.length false)[i]? = some false := by
    intro i hi
    simp at hi
    simp [hi]
  have hmin : (pointKind o).minFeatures = 5 := rfl
  obtain ⟨l', fl', e, hf, hlen⟩ := matchPass_kept hs hp _ (List.length_replicate ..) List.nodup_range hfree
  refine ⟨l', fl', ?_, hlen, hf⟩
  have hlt : ¬ (List.map (fun i => (⟨.point, i + 1, i⟩ : Match)) (List.range det.length)).length < 5 := by simp; omega
  simp only [getMatches, matchOnce, ha, hst, matchPass, hmin, e]
  simp only [Bool.not_true, List.append_nil]
  simp only [Bool.false_eq_true, if_false, hlt]
  rfl

theorem find_inMap {o2 o : PointOps P D Env} {op : PlaneOps P D Env} {env : Env} {dets : FType → List D}
    {Stands : Nat → P → Prop} (hs : Spec.Sees o env (dets .point) Stands) (h5 : 5 ≤ (dets .point).length)
    (lt : Match → Match → Bool) {c : Nat} {w : World P} (hw : Spec.InMap Stands (dets .point).length c w) :
    ∃ w', w.find (programKinds o2 o op) lt env dets order [] = (w', Spec.allFound (dets .point).length) ∧
      (∀ u, (w'.maps u).active = true) ∧ (∀ u, u ≠ .point → (w'.maps u).localMap = []) ∧ (∀ u, (w'.maps u).staged = []) ∧
      List.Forall₂ (KeptMatched Stands c) (List.range (dets .point).length) (w'.maps .point).localMap ∧
      w'.alloc = ⟨(dets .point).length, (dets .point).length⟩ ∧ (∀ u, w'.written u = []) ∧
      ∀ u, (w'.maps u).flags.length = (dets u).length := by
  obtain ⟨loc, fl, e, hfl, hp⟩ := getMatches_kept hs h5 (hw.active .point) (hw.staged .point) hw.points
  have e2 := getMatches_empty (point2dKind o2) env (dets .point2d) (hw.active .point2d) (hw.others .point2d (by decide))
    (hw.staged .point2d)
  have e3 := getMatches_empty (planeKind op) env (dets .plane) (hw.active .plane) (hw.others .plane (by decide)) (hw.staged .plane)
  have em : ∀ X : List Match, mergeBy lt [] X = X := fun X => by rw [mergeBy]
  have em' : ∀ X : List Match, mergeBy lt X [] = X := fun X => by cases X <;> simp [mergeBy]
  simp only [World.find, order, programKinds, World.put, World.view, e2, e, e3, em, em', reduceCtorEq, if_false]
  refine ⟨_, rfl, ?_, ?_, ?_, ?_, ?_, ?_, ?_⟩
  · intro u; cases u <;> simp [hw.active]
  · intro u hu; cases u <;> simp_all [hw.others]
  · intro u; cases u <;> simp [hw.staged]
  · simpa using hp
  · exact hw.ids
  · intro u; cases u <;> simp [hw.written]
  · intro u; cases u <;> simp [hfl]

theorem update_inMap {o2 o : PointOps P D Env} {op : PlaneOps P D Env} {env : Env} {dets : FType → List D}
    {Stands : Nat → P → Prop} (hs : Spec.PlainFrame o2 o op env dets) (hm' : Spec.Merges o env (dets .point) Stands)
    (cov : Env → Bool) (hcov : cov env = true) {c : Nat} {w : World P}
    (h1 : ∀ u, (w.maps u).active = true) (h2 : ∀ u, u ≠ .point → (w.maps u).localMap = []) (h3 : ∀ u, (w.maps u).staged = [])
    (h4 : List.Forall₂ (KeptMatched Stands c) (List.range (dets .point).length) (w.maps .point).localMap)
    (h5 : w.alloc = ⟨(dets .point).length, (dets .point).length⟩) (h6 : ∀ u, w.written u = [])
    (h7 : ∀ u, (w.maps u).flags.length = (dets u).length) :
    ∃ w', w.update (programKinds o2 o op) cov w.budget env dets [] = .ok (w', false) ∧
      Spec.InMap Stands (dets .point).length 0 w' := by
  have hr : ∀ i ∈ List.range (dets .point).length, i < (dets .point).length := fun i hi => by simpa using hi
  have hmark : w.markOutliers [] order = w := by
    have : ∀ (ts : List FType), w.markOutliers [] ts = w := by
      intro ts
      induction ts with
      | nil => rfl
      | cons u ts ih =>
        rw [World.markOutliers, markOutliers]
        exact (congrArg _ (putView_same u w)).trans ih
    exact this order
  have hc : (pointKind o).covValid env = true := hs.cov1
  obtain ⟨loc, e, hp⟩ : ∃ loc, updateMap (pointKind o) w.budget env (dets .point) (w.view .point) =
      .ok ({ w.view .point with map := { w.maps .point with localMap := loc, staged := [] } },
        List.range (dets .point).length) ∧ List.Forall₂ (Spec.Kept Stands 0) (List.range (dets .point).length) loc := by
    obtain ⟨l', e, hl'⟩ := updateLocal_kept hm' h4 hr
    refine ⟨l', ?_, hl'⟩
    cases hb : w.budget <;> simp [updateMap, World.view, h1, hc, h3, e, updateStaged]
  have e2 := updateOne_empty (k := programKinds o2 o op) (fuel := w.budget) (env := env) (dets := dets) (u := .point2d)
    (h1 _) (h2 _ (by decide)) (h3 _) (h7 _) hs.cov2 hs.known
  generalize hw1 : w.put .point { w.view .point with map := { w.maps .point with localMap := loc, staged := [] } } = w1
  have e1 : World.updateOne (programKinds o2 o op) w.budget env dets .point w = .ok (w1, false) := by
    rw [World.updateOne]
    simp only [programKinds, e]
    rw [stage, stageFrom_used _ _ _ _ (fun j _ h2 => by simpa using h2)]
    simp [World.view, h1, hc, h7, ← hw1]
  have m2 : w1.maps .point2d = w.maps .point2d := by rw [← hw1]; rfl
  have mp : w1.maps .plane = w.maps .plane := by rw [← hw1]; rfl
  have m1 : w1.maps .point = { w.maps .point with localMap := loc, staged := [] } := by rw [← hw1]; rfl
  have ep := updateOne_empty (k := programKinds o2 o op) (fuel := w.budget) (env := env) (dets := dets) (u := .plane) (w := w1)
    (by rw [mp]; exact h1 _) (by rw [mp]; exact h2 _ (by decide))
    (by rw [mp]; exact h3 _) (by rw [mp]; exact h7 _) hs.covP (by rw [hs.planes]; simp)
  have hupg : World.upgrade (programKinds o2 o op) env w1 = .ok (w1, false) := by
    have g2 : getUpgraded (programKinds o2 o op .point2d) env (w1.maps .point2d) = (w1.maps .point2d, []) := by
      rw [m2]
      have a := h2 .point2d (by decide)
      have b := h3 .point2d
      generalize w.maps .point2d = m at *
      cases m
      simp only at a b
      subst a b
      rfl
    have g1 : getUpgraded (programKinds o2 o op .point) env (w1.maps .point) = (w1.maps .point, []) := by
      simp only [getUpgraded, takeUpgraded_keeps (k := programKinds o2 o op .point) (env := env) (fun _ => rfl)]
      rfl
    have g3 : getUpgraded (programKinds o2 o op .plane) env (w1.maps .plane) = (w1.maps .plane, []) := by
      simp only [getUpgraded, takeUpgraded_keeps (k := programKinds o2 o op .plane) (env := env) (fun _ => rfl)]
      rfl
    rw [World.upgrade]
    conv_lhs => arg 2; rw [order]
    simp [eachMap, upgradeOne_none g2, upgradeOne_none g1, upgradeOne_none g3]
  refine ⟨w1, ?_, ?_, ?_, ?_, ?_, ?_, ?_⟩
  · rw [World.update, hmark]
    simp [hcov, order, eachMap, e2, e1, ep, hupg]
  · intro u
    cases u
    · rw [m2]; exact h1 _
    · rw [m1]; exact h1 _
    · rw [mp]; exact h1 _
  · intro u hu
    cases u
    · rw [m2]; exact h2 _ hu
    · exact absurd rfl hu
    · rw [mp]; exact h2 _ hu
  · intro u
    cases u
    · rw [m2]; exact h3 _
    · rw [m1]
    · rw [mp]; exact h3 _
  · rw [m1]; exact hp
  · rw [← hw1]; exact h5
  · intro u
    rw [← hw1]
    cases u <;> exact h6 _

/-! ### A dark frame -/

theorem matchPass_dark {o : PointOps P D Env} {env : Env} (hb : ∀ g flags tm adv, pointFind o env [] g flags tm adv = ([], []))
    (tm adv : Bool) (l : Store P) : matchPass (pointKind o) env [] tm adv l [] = (l.map fun a => (a.1, { a.2 with matched := [] }), [], []) := by
  induction l with
  | nil => rfl
  | cons a l ih =>
    obtain ⟨key, f⟩ := a
    have hf : ∀ g : Feat P, (pointKind o).findMatches env [] g [] tm adv = ([], []) := fun g => hb g [] tm adv
    rw [matchPass]
    simp only [hf, ih, setFlags, List.foldl_nil]
    split <;> simp

theorem find_dark {o2 o : PointOps P D Env} {op : PlaneOps P D Env} {env : Env} {dets : FType → List D}
    (hb : ∀ g flags tm adv, pointFind o env [] g flags tm adv = ([], [])) (hd : ∀ u, dets u = []) {Stands : Nat → P → Prop}
    (lt : Match → Match → Bool) {n c : Nat} {w : World P} (hw : Spec.InMap Stands n c w) :
    ∃ w', w.find (programKinds o2 o op) lt env dets order [] = (w', []) ∧ Spec.InMap Stands n c w' ∧ ∀ u, (w'.maps u).flags = [] := by
  have e : getMatches (pointKind o) env (dets .point) (w.maps .point) =
      (⟨true, (w.maps .point).localMap.map fun a => (a.1, { a.2 with matched := [] }), [], []⟩, []) := by
    have hmin : (pointKind o).minFeatures = 5 := rfl
    rw [hd]
    simp only [getMatches, matchOnce, hw.active, hw.staged, hmin, List.length_nil, List.replicate_zero, matchPass_dark hb, Bool.not_true,
      Bool.false_eq_true, if_false, List.append_nil, List.map_nil]
    rw [if_pos (by norm_num)]
    simp [Function.comp_def]
  have e2 := getMatches_empty (point2dKind o2) env (dets .point2d) (hw.active .point2d) (hw.others .point2d (by decide))
    (hw.staged .point2d)
  have e3 := getMatches_empty (planeKind op) env (dets .plane) (hw.active .plane) (hw.others .plane (by decide)) (hw.staged .plane)
  have em : mergeBy lt [] [] = [] := by rw [mergeBy]
  simp only [World.find, order, programKinds, World.put, World.view, e2, e, e3, em, reduceCtorEq, if_false]
  refine ⟨_, rfl, ⟨?_, ?_, ?_, ?_, ?_, ?_⟩, ?_⟩
  · intro u; cases u <;> simp [hw.active]
  · intro u hu; cases u <;> simp_all [hw.others]
  · intro u; cases u <;> simp [hw.staged]
  · simp only [reduceCtorEq, if_false, if_true]
    exact List.forall₂_map_right_iff.2 (List.Forall₂.imp (fun i a h => h) hw.points)
  · exact hw.ids
  · intro u; cases u <;> simp [hw.written]
  · intro u; cases u <;> simp [hd]

theorem missLocal_kept {o : PointOps P D Env} {Stands : Nat → P → Prop} {c : Nat} (hc : c < 10) {is : List Nat} {l : Store P}
    (h : List.Forall₂ (Spec.Kept Stands c) is l) :
    ∃ l', missLocal (pointKind o) l = (l', []) ∧ List.Forall₂ (Spec.Kept Stands (c + 1)) is l' := by
  induction h with
  | nil => exact ⟨[], rfl, .nil⟩
  | @cons i a is l ha _ ih =>
    obtain ⟨l', e, hl'⟩ := ih
    obtain ⟨key, f⟩ := a
    obtain ⟨h1, h2, h3, h4⟩ := ha
    simp only at h1 h2 h3 h4
    refine ⟨(key, settle false f) :: l', ?_, .cons ⟨h1, h2, by simp [settle, h3], h4⟩ hl'⟩
    have hlost : (pointKind o).isLost (settle false f) = false := by
      simp only [pointKind, settle, h3, decide_eq_false_iff_not, Bool.false_eq_true, if_false]
      omega
    simp only [missLocal, e, hlost]
    simp

theorem missLocal_lost {o : PointOps P D Env} {Stands : Nat → P → Prop} {is : List Nat} {l : Store P}
    (h : List.Forall₂ (Spec.Kept Stands 10) is l) :
    ∃ wr, missLocal (pointKind o) l = ([], wr) ∧ List.Forall₂ (fun i f => f.id = i + 1 ∧ Stands i f.body) is wr := by
  induction h with
  | nil => exact ⟨[], rfl, .nil⟩
  | @cons i a is l ha _ ih =>
    obtain ⟨wr, e, hwr⟩ := ih
    obtain ⟨key, f⟩ := a
    obtain ⟨h1, h2, h3, h4⟩ := ha
    simp only at h1 h2 h3 h4
    refine ⟨settle false f :: wr, ?_, .cons ⟨h2, h4⟩ hwr⟩
    have hlost : (pointKind o).isLost (settle false f) = true := by
      simp [pointKind, settle, h3]
    simp only [missLocal, e, hlost, if_true]

theorem updateNoTracking_empty (k : Kind P D Env) {s : State P} (hl : s.map.localMap = []) (hs : s.map.staged = []) :
    updateNoTracking k s = s := by
  obtain ⟨⟨act, loc, stg, fl⟩, a, wr⟩ := s
  simp only at hl hs
  subst hl hs
  cases act <;> simp [updateNoTracking, missLocal, missStaged]

theorem noPose_one {o2 o : PointOps P D Env} {op : PlaneOps P D Env} {w : World P}
    (h2 : ∀ u, u ≠ .point → (w.maps u).localMap = []) (h3 : ∀ u, (w.maps u).staged = []) :
    w.noPose (programKinds o2 o op) order = w.put .point (updateNoTracking (pointKind o) (w.view .point)) := by
  rw [order, World.noPose, updateNoTracking_empty _ (h2 .point2d (by decide)) (h3 .point2d), putView_same, World.noPose, World.noPose,
    World.noPose]
  change World.put .plane (updateNoTracking _ (World.view .plane (w.put .point (updateNoTracking (pointKind o) (w.view .point))))) _ = _
  rw [updateNoTracking_empty _ (h2 .plane (by decide)) (h3 .plane)]
  exact putView_same _ _

theorem addAll_dark {o2 o : PointOps P D Env} {op : PlaneOps P D Env} {env : Env} {dets : FType → List D} (cov : Env → Bool)
    (hcov : cov env = true) (hs : Spec.PlainFrame o2 o op env dets) (hd : ∀ u, dets u = []) {w : World P}
    (h1 : ∀ u, (w.maps u).active = true) (h7 : ∀ u, (w.maps u).flags = []) :
    w.addAll (programKinds o2 o op) cov env dets = .ok (w, false) := by
  have e : ∀ u, World.addOne (programKinds o2 o op) env dets u w = .ok (w, false) := by
    intro u
    have hc : (programKinds o2 o op u).covValid env = true := by
      cases u
      · exact hs.cov2
      · exact hs.cov1
      · exact hs.covP
    have : stageAll (programKinds o2 o op u) env (dets u) (w.view u) = .ok (w.view u) := by
      rw [stageAll, stage, hd]
      simp [World.view, h1, hc, h7, stageFrom]
    rw [World.addOne, this]
    simp only [putView_same]
  rw [World.addAll, hcov]
  simp [order, eachMap, e]

/-- What a dark frame does to the frame loop. -/
theorem dark_step {o2 o : PointOps P D Env} {op : PlaneOps P D Env} (cov : Env → Bool) (lt : Match → Match → Bool)
    (env : Pose → Det → Env) (dets : Det → FType → List D) (po : Slam.PoseOps Pose) {p : Pose}
    {f : Slam.Frame (Outcome (World P)) Det Pose Match} {det : Det} (hf : Spec.Dark o2 o op cov env dets p f det)
    {Stands : Nat → P → Prop} {n c : Nat} {w : World P} (hw : Spec.InMap Stands n c w) {s : Slam.State (Outcome (World P)) Pose}
    (hl : s.localMap = .ok w) (hp : s.currentPose = p) (hpv : po.covValid p = true) (hfirst : s.isFirstTrackingCall = false)
    (hk : s.failedTrackingCount = c) (hc : c < 2 ^ 32 - 1) :
    ∃ s1 o1 w1, Slam.step (localMapOps (programKinds o2 o op) cov lt env dets) po f s = .ok (s1, o1) ∧ s1.currentPose = p ∧
      s1.isFirstTrackingCall = false ∧ s1.failedTrackingCount = c + 1 ∧ o1.returned = p ∧ o1.tracked = false ∧
      o1.lostAfter = decide (3 < c + 1) ∧ Spec.InMap Stands n c w1 ∧
      s1.localMap = .ok (w1.put .point (updateNoTracking (pointKind o) (w1.view .point))) := by
  obtain ⟨w1, e1, hw1, hfl⟩ := find_dark (o2 := o2) (op := op) hf.blind hf.nothing lt hw
  have hno := noPose_one (o2 := o2) (o := o) (op := op) hw1.others hw1.staged
  generalize hw2 : w1.put .point (updateNoTracking (pointKind o) (w1.view .point)) = w2 at hno
  have hkeep : (updateNoTracking (pointKind o) (w1.view .point)).map.active = true ∧
      (updateNoTracking (pointKind o) (w1.view .point)).map.flags = [] := by
    have h1 : (w1.view .point).map.active = true := hw1.active .point
    rw [updateNoTracking, h1]
    exact ⟨h1, hfl .point⟩
  have hadd : w2.addAll (programKinds o2 o op) cov (env p det) (dets det) = .ok (w2, false) := by
    refine addAll_dark cov hf.cov hf.plain hf.nothing ?_ ?_
    · intro u
      rw [← hw2]
      cases u
      · exact hw1.active _
      · exact hkeep.1
      · exact hw1.active _
    · intro u
      rw [← hw2]
      cases u
      · exact hfl _
      · exact hkeep.2
      · exact hfl _
  have hfind : (localMapOps (programKinds o2 o op) cov lt env dets).find p det (.ok w) = (.ok w1, []) := by
    simp only [localMapOps, alive, e1]
  have hnp : (localMapOps (programKinds o2 o op) cov lt env dets).updateNoPose (.ok w1) = .ok w2 := by
    simp only [localMapOps, alive, hno]
  have had : (localMapOps (programKinds o2 o op) cov lt env dets).addAll p det (.ok w2) = .ok w2 := by
    simp only [localMapOps, alive, hadd]
    rfl
  have hinc : Slam.incr c = c + 1 := by
    rw [Slam.incr, Slam.uintSize]
    exact Nat.mod_eq_of_lt (by omega)
  rw [Slam.step, hp, hl]
  simp only [hpv, if_true, hf.detect, hfind, hfirst, Bool.false_eq_true, if_false, hf.optimize, hnp, had, ite_self, hk, hinc]
  exact ⟨_, _, w1, rfl, rfl, rfl, rfl, rfl, rfl, rfl, hw1, hw2 ▸ rfl⟩

theorem miss_inMap {o : PointOps P D Env} {Stands : Nat → P → Prop} {n c : Nat} (hc : c < 10) {w : World P} (hw : Spec.InMap Stands n c w) :
    Spec.InMap Stands n (c + 1) (w.put .point (updateNoTracking (pointKind o) (w.view .point))) := by
  obtain ⟨l', e, hl'⟩ := missLocal_kept (o := o) hc hw.points
  have hv : updateNoTracking (pointKind o) (w.view .point) =
      ⟨{ w.maps .point with localMap := l', staged := [] }, w.alloc, []⟩ := by
    have h1 : (w.view .point).map.active = true := hw.active .point
    have h2 : missLocal (pointKind o) (w.view .point).map.localMap = (l', []) := e
    have h3 : (w.view .point).map.staged = [] := hw.staged .point
    have h4 : (w.view .point).written = [] := hw.written .point
    rw [updateNoTracking, h1]
    simp only [Bool.not_true, Bool.false_eq_true, if_false, h2, h3, h4, missStaged, List.append_nil]
    rfl
  rw [hv]
  refine ⟨?_, ?_, ?_, ?_, hw.ids, ?_⟩
  · intro u; cases u <;> simp [World.put, hw.active]
  · intro u hu; cases u <;> simp_all [World.put, hw.others]
  · intro u; cases u <;> simp [World.put, hw.staged]
  · simpa [World.put] using hl'
  · intro u; cases u <;> simp [World.put, hw.written]

theorem miss_givenUp {o : PointOps P D Env} {Stands : Nat → P → Prop} {n : Nat} {w : World P} (hw : Spec.InMap Stands n 10 w) :
    Spec.GivenUp Stands n (w.put .point (updateNoTracking (pointKind o) (w.view .point))) := by
  obtain ⟨wr, e, hwr⟩ := missLocal_lost (o := o) hw.points
  have hv : updateNoTracking (pointKind o) (w.view .point) =
      ⟨{ w.maps .point with localMap := [], staged := [] }, w.alloc, wr⟩ := by
    have h1 : (w.view .point).map.active = true := hw.active .point
    have h2 : missLocal (pointKind o) (w.view .point).map.localMap = ([], wr) := e
    have h3 : (w.view .point).map.staged = [] := hw.staged .point
    have h4 : (w.view .point).written = [] := hw.written .point
    rw [updateNoTracking, h1]
    simp only [Bool.not_true, Bool.false_eq_true, if_false, h2, h3, h4, missStaged, List.nil_append]
    rfl
  rw [hv]
  refine ⟨?_, ?_, ?_, ?_⟩
  · intro u; cases u <;> simp [World.put, hw.active]
  · intro u; cases u <;> simp [World.put, hw.staged, hw.others]
  · simpa [World.put] using hwr
  · intro u hu; cases u <;> simp_all [World.put, hw.written]

/-! ## The frame loop -/

theorem journey_steps {o2 o : PointOps P D Env} {op : PlaneOps P D Env} (cov : Env → Bool) (lt : Match → Match → Bool)
    (env : Pose → Det → Env) (dets : Det → FType → List D) (po : Slam.PoseOps Pose) {Stands : Nat → P → Prop} {n : Nat} (h5 : 5 ≤ n)
    {c c' : Nat} {p : Pose} {qs : List (Pose × Bool)} {fs : List (Slam.Frame (Outcome (World P)) Det Pose Match)}
    (htrip : Spec.Journey (fun prev next f => ∃ det, Spec.Leg o2 o op cov env dets po Stands n prev next f det)
      (fun p f => ∃ det, Spec.Dark o2 o op cov env dets p f det) 10 c p qs fs c') :
    ∀ (w : World P) (s : Slam.State (Outcome (World P)) Pose), Spec.InMap Stands n c w → s.localMap = .ok w →
      s.currentPose = p → po.covValid p = true → s.isFirstTrackingCall = false → s.failedTrackingCount = c →
      ∃ s' outs w', Slam.run (localMapOps (programKinds o2 o op) cov lt env dets) po fs s = .ok (s', outs) ∧
        s'.localMap = .ok w' ∧ Spec.InMap Stands n c' w' ∧ s'.currentPose = (p :: qs.map (·.1)).getLast (by simp) ∧
        po.covValid s'.currentPose = true ∧ s'.isFirstTrackingCall = false ∧
        s'.failedTrackingCount = c' ∧ outs.map (fun o => (o.returned, !o.tracked)) = qs ∧
        ∀ out ∈ outs, out.tracked = true → out.lostAfter = false := by
  induction htrip with
  | home c p =>
    intro w s hw hl hp hv hf hc
    exact ⟨s, [], w, rfl, hl, hw, hp, hp ▸ hv, hf, hc, rfl, by simp⟩
  | @go c c' p q qs f fs hleg _ ih =>
    intro w s hw hl hp hpv hfirst hc
    obtain ⟨det, hleg⟩ := hleg
    have hlen := hleg.len
    obtain ⟨w1, e1, a1, a2, a3, a4, a5, a6, a7⟩ := find_inMap (o2 := o2) (op := op) hleg.sees (by rw [hlen]; exact h5) lt
      (by rw [hlen]; exact hw)
    obtain ⟨w2, e2, hw2⟩ := update_inMap hleg.plain hleg.merges cov hleg.cov a1 a2 a3 a4 a5 a6 a7
    rw [hlen] at e1 hw2
    have hfind : (localMapOps (programKinds o2 o op) cov lt env dets).find p det (.ok w) = (.ok w1, Spec.allFound n) := by
      simp only [localMapOps, alive, e1]
    have hupd : (localMapOps (programKinds o2 o op) cov lt env dets).update q det [] (.ok w1) = (.ok w2, false) := by
      simp only [localMapOps, alive, e2]
      rfl
    obtain ⟨s1, o1, hstep, i1, i2, i3, i4, i5, i6, i8⟩ : ∃ s1 o1,
        Slam.step (localMapOps (programKinds o2 o op) cov lt env dets) po f s = .ok (s1, o1) ∧ s1.localMap = .ok w2 ∧
          s1.currentPose = q ∧ s1.isFirstTrackingCall = false ∧ s1.failedTrackingCount = 0 ∧ o1.returned = q ∧
          o1.tracked = true ∧ o1.lostAfter = false := by
      rw [Slam.step, hp, hl]
      simp only [hpv, if_true, hleg.detect, hfind, hfirst, Bool.false_eq_true, if_false, hleg.optimize, hupd]
      exact ⟨_, _, rfl, rfl, rfl, rfl, rfl, rfl, rfl, rfl⟩
    obtain ⟨s', outs, w', er, g1, g2, g3, g4, g5, g6, g7, g8⟩ := ih w2 s1 hw2 i1 i2 hleg.valid i3 i4
    refine ⟨s', o1 :: outs, w', ?_, g1, g2, ?_, g4, g5, g6, by simp [i5, i6, g7], ?_⟩
    · rw [Slam.run, hstep]
      simp only [Outcome.bind_ok]
      rw [er]
      rfl
    · rw [g3]; simp
    · intro out ho
      rcases List.mem_cons.1 ho with rfl | ho
      · exact fun _ => i8
      · exact g8 out ho
  | @wait c c' p qs f fs hdark hlim _ ih =>
    intro w s hw hl hp hpv hfirst hc
    obtain ⟨det, hdark⟩ := hdark
    obtain ⟨s1, o1, w1, hstep, i2, i3, i4, i5, i6, i7, hw1, i1⟩ := dark_step cov lt env dets po hdark hw hl hp hpv hfirst hc (by omega)
    obtain ⟨s', outs, w', er, g1, g2, g3, g4, g5, g6, g7, g8⟩ := ih _ s1 (miss_inMap hlim hw1) i1 i2 hpv i3 i4
    refine ⟨s', o1 :: outs, w', ?_, g1, g2, ?_, g4, g5, g6, by simp [i5, i6, g7], ?_⟩
    · rw [Slam.run, hstep]
      simp only [Outcome.bind_ok]
      rw [er]
      rfl
    · rw [g3]; simp
    · intro out ho
      rcases List.mem_cons.1 ho with rfl | ho
      · intro h; rw [i6] at h; cases h
      · exact g8 out ho

/-! ### Too early -/

/-- Nothing in any map. -/
structure Spec.EmptyMap (w : World P) : Prop where
  active : ∀ u, (w.maps u).active = true
  empty : ∀ u, (w.maps u).localMap = [] ∧ (w.maps u).staged = []

theorem find_empty {k : FType → Kind P D Env} {env : Env} {dets : FType → List D} (lt : Match → Match → Bool) {w : World P}
    (hw : Spec.EmptyMap w) :
    ∃ w', w.find k lt env dets order [] = (w', []) ∧ Spec.EmptyMap w' := by
  have e := fun u => getMatches_empty (k u) env (dets u) (hw.active u) (hw.empty u).1 (hw.empty u).2
  have em : mergeBy lt [] [] = [] := by rw [mergeBy]
  simp only [World.find, order, World.put, World.view, e, em, reduceCtorEq, if_false]
  refine ⟨_, rfl, ?_, ?_⟩
  · intro u; cases u <;> simp [hw.active]
  · intro u; cases u <;> simp [hw.empty]

theorem noPose_empty {k : FType → Kind P D Env} {w : World P} (hw : Spec.EmptyMap w) : ∀ ts, w.noPose k ts = w
  | [] => rfl
  | u :: ts => by
    rw [World.noPose, updateNoTracking_empty _ (hw.empty u).1 (hw.empty u).2, putView_same]
    exact noPose_empty hw ts

/-- A frame in front of an empty map fails, and adds nothing as long as the tracking does not count as lost. -/
theorem empty_step {k : FType → Kind P D Env} (cov : Env → Bool) (lt : Match → Match → Bool)
    (env : Pose → Det → Env) (dets : Det → FType → List D) (po : Slam.PoseOps Pose) {p : Pose}
    {f : Slam.Frame (Outcome (World P)) Det Pose Match} (hf : ∀ p, f.optimize p [] = none)
    {w : World P} (hw : Spec.EmptyMap w) {s : Slam.State (Outcome (World P)) Pose}
    (hl : s.localMap = .ok w) (hp : s.currentPose = p) (hpv : po.covValid p = true) (hfirst : s.isFirstTrackingCall = false)
    (hlost : s.isTrackingLost = false) {c : Nat} (hk : s.failedTrackingCount = c) (hc : c < 2 ^ 32 - 1) :
    ∃ s1 o1 w1, Slam.step (localMapOps k cov lt env dets) po f s = .ok (s1, o1) ∧ s1.currentPose = p ∧
      s1.isFirstTrackingCall = false ∧ s1.failedTrackingCount = c + 1 ∧ o1.returned = p ∧ o1.tracked = false ∧
      s1.isTrackingLost = decide (3 < c + 1) ∧ Spec.EmptyMap w1 ∧ s1.localMap = .ok w1 := by
  obtain ⟨w1, e1, hw1⟩ := find_empty (k := k) (env := env p (f.detect (.ok w) p (s.isTrackingLost || (s.computeKeypointCount %
    Slam.keypointRefreshFrequency + 1 == 1)))) (dets := dets (f.detect (.ok w) p (s.isTrackingLost || (s.computeKeypointCount %
    Slam.keypointRefreshFrequency + 1 == 1)))) lt hw
  have hfind : (localMapOps k cov lt env dets).find p (f.detect (.ok w) p (s.isTrackingLost || (s.computeKeypointCount %
    Slam.keypointRefreshFrequency + 1 == 1))) (.ok w) = (.ok w1, []) := by
    simp only [localMapOps, alive, e1]
  have hnp : (localMapOps k cov lt env dets).updateNoPose (.ok w1) = .ok w1 := by
    simp only [localMapOps, alive, noPose_empty hw1]
  have hinc : Slam.incr c = c + 1 := by
    rw [Slam.incr, Slam.uintSize]
    exact Nat.mod_eq_of_lt (by omega)
  rw [Slam.step, hp, hl]
  simp only [hpv, if_true, hfind, hfirst, Bool.false_eq_true, if_false, hf, hnp]
  simp only [hlost, Bool.false_and, Bool.false_eq_true, if_false, hk, hinc]
  exact ⟨_, _, w1, rfl, rfl, rfl, rfl, rfl, rfl, rfl, hw1, rfl⟩

/-- Candidates found less than twice do not survive a dark frame. -/
theorem dark_early {o2 o : PointOps P D Env} {op : PlaneOps P D Env} (cov : Env → Bool) (lt : Match → Match → Bool)
    (env : Pose → Det → Env) (dets : Det → FType → List D) (po : Slam.PoseOps Pose) {p : Pose}
    {f : Slam.Frame (Outcome (World P)) Det Pose Match} {det : Det} (hf : Spec.Dark o2 o op cov env dets p f det)
    {Stands : Nat → P → Prop} {n t : Nat} (ht : t < 2) {w : World P} (hw : Spec.Settled Stands n t w)
    {s : Slam.State (Outcome (World P)) Pose}
    (hl : s.localMap = .ok w) (hp : s.currentPose = p) (hpv : po.covValid p = true) (hfirst : s.isFirstTrackingCall = false)
    (hk : s.failedTrackingCount = 0) :
    ∃ s1 o1 w1, Slam.step (localMapOps (programKinds o2 o op) cov lt env dets) po f s = .ok (s1, o1) ∧ s1.currentPose = p ∧
      s1.isFirstTrackingCall = false ∧ s1.failedTrackingCount = 1 ∧ o1.returned = p ∧ o1.tracked = false ∧
      s1.isTrackingLost = false ∧ Spec.EmptyMap w1 ∧ s1.localMap = .ok w1 := by
  have hpt := hw.points
  rw [if_pos (by omega)] at hpt
  obtain ⟨hloc, hrows⟩ := hpt
  have hd := hf.nothing
  have e : getMatches (pointKind o) (env p det) (dets det .point) (w.maps .point) =
      (⟨true, [], (w.maps .point).staged.map fun a => (a.1, { a.2 with matched := [] }), []⟩, []) := by
    have hmin : (pointKind o).minFeatures = 5 := rfl
    rw [hd]
    simp only [getMatches, matchOnce, hw.active, hloc, hmin, List.length_nil, List.replicate_zero, matchPass_dark hf.blind, Bool.not_true,
      Bool.false_eq_true, if_false, List.append_nil, List.map_nil]
    rw [if_pos (by norm_num)]
    simp [Function.comp_def]
  have e2 := getMatches_empty (point2dKind o2) (env p det) (dets det .point2d) (hw.active .point2d) (hw.others .point2d (by decide)).1
    (hw.others .point2d (by decide)).2
  have e3 := getMatches_empty (planeKind op) (env p det) (dets det .plane) (hw.active .plane) (hw.others .plane (by decide)).1
    (hw.others .plane (by decide)).2
  have em : mergeBy lt [] [] = [] := by rw [mergeBy]
  obtain ⟨w1, e1, a1, a2, a3, a4, a5⟩ : ∃ w1, w.find (programKinds o2 o op) lt (env p det) (dets det) order [] = (w1, []) ∧
      (∀ u, (w1.maps u).active = true) ∧ (∀ u, (w1.maps u).localMap = []) ∧ (∀ u, u ≠ .point → (w1.maps u).staged = []) ∧
      (∀ u, (w1.maps u).flags = []) ∧
      (w1.maps .point).staged = (w.maps .point).staged.map fun a => (a.1, { a.2 with matched := [] }) := by
    simp only [World.find, order, programKinds, World.put, World.view, e2, e, e3, em, reduceCtorEq, if_false]
    refine ⟨_, rfl, ?_, ?_, ?_, ?_, ?_⟩
    · intro u; cases u <;> simp [hw.active]
    · intro u; cases u <;> simp [hw.others]
    · intro u hu; cases u <;> simp_all [hw.others]
    · intro u; cases u <;> simp [hd]
    · simp
  have hmiss : missStaged (pointKind o) (w1.maps .point).staged = [] := by
    rw [a5]
    revert hrows
    generalize (w.maps .point).staged = l
    intro hrows
    simp only [Spec.Rows] at hrows
    generalize List.range n = is at hrows
    induction hrows with
    | nil => rfl
    | @cons i a is l ha _ ih =>
      obtain ⟨key, g⟩ := a
      have hs : g.succ = t := ha.2.2.2.1
      have hrem : (pointKind o).shouldRemove (settle false { g with matched := [] }) = true := by
        refine decide_eq_true ?_
        have : (settle false { g with matched := [] }).succ = (t : Int) - 1 := by simp [settle, hs]
        rw [this, confidence_of]
        refine max_le (by norm_num) ((min_le_left _ _).trans ?_)
        have : (t : Rat) ≤ 1 := by exact_mod_cast (by omega : t ≤ 1)
        push_cast
        linarith
      simp only [List.map_cons, missStaged, hrem, if_true]
      exact ih
  have hno : ∃ w2, w1.noPose (programKinds o2 o op) order = w2 ∧ Spec.EmptyMap w2 ∧ ∀ u, (w2.maps u).flags = [] := by
    refine ⟨_, rfl, ?_⟩
    have h1 : ∀ u, missLocal (programKinds o2 o op u) [] = ([], []) := fun u => rfl
    have h2 : ∀ u, missStaged (programKinds o2 o op u) [] = [] := fun u => rfl
    have h3 : missStaged (programKinds o2 o op .point) (w1.maps .point).staged = [] := hmiss
    simp only [order, World.noPose, updateNoTracking, World.view, World.put, a1, a2, reduceCtorEq, if_false, Bool.not_true,
      Bool.false_eq_true, h1]
    refine ⟨⟨?_, ?_⟩, ?_⟩
    · intro u; cases u <;> simp
    · intro u; cases u <;> simp [h2, h3, a3]
    · intro u; cases u <;> simp [a4]
  obtain ⟨w2, e4, hw2, hfl2⟩ := hno
  have hadd : w2.addAll (programKinds o2 o op) cov (env p det) (dets det) = .ok (w2, false) :=
    addAll_dark cov hf.cov hf.plain hf.nothing hw2.active hfl2
  have hfind : (localMapOps (programKinds o2 o op) cov lt env dets).find p det (.ok w) = (.ok w1, []) := by
    simp only [localMapOps, alive, e1]
  have hnp : (localMapOps (programKinds o2 o op) cov lt env dets).updateNoPose (.ok w1) = .ok w2 := by
    simp only [localMapOps, alive, e4]
  have had : (localMapOps (programKinds o2 o op) cov lt env dets).addAll p det (.ok w2) = .ok w2 := by
    simp only [localMapOps, alive, hadd]
    rfl
  have hinc : Slam.incr 0 = 1 := rfl
  rw [Slam.step, hp, hl]
  simp only [hpv, if_true, hf.detect, hfind, hfirst, Bool.false_eq_true, if_false, hf.optimize, hnp, had, ite_self, hk, hinc]
  exact ⟨_, _, w2, rfl, rfl, rfl, rfl, rfl, rfl, rfl, hw2, rfl⟩

end loop

/-! ## C195 -/

open Geometry Geometry.Spec Covariance Covariance.Spec Updates Matrix
open Optimizer (PoseVar)

theorem step_not_first {L Det Pose M : Type} {ops : Slam.MapOps L Det Pose M} {po : Slam.PoseOps Pose} {f : Slam.Frame L Det Pose M}
    {s s' : Slam.State L Pose} {o : Slam.Out Pose} (h : Slam.step ops po f s = .ok (s', o)) : s'.isFirstTrackingCall = false := by
  simp only [Slam.step] at h
  repeat' split at h
  all_goals first
    | (cases h; rfl)
    | cases h

theorem run_not_first {L Det Pose M : Type} {ops : Slam.MapOps L Det Pose M} {po : Slam.PoseOps Pose} :
    ∀ {fs : List (Slam.Frame L Det Pose M)} {s s' : Slam.State L Pose} {os : List (Slam.Out Pose)},
      Slam.run ops po fs s = .ok (s', os) → fs ≠ [] ∨ s.isFirstTrackingCall = false → s'.isFirstTrackingCall = false
  | [], s, s', os, h, hn => by
    cases h
    simpa using hn
  | f :: fs, s, s', os, h, _ => by
    rw [Slam.run] at h
    obtain ⟨⟨s1, o1⟩, e1, h⟩ := Outcome.bind_eq_ok h
    obtain ⟨⟨s2, o2⟩, e2, h⟩ := Outcome.bind_eq_ok h
    cases h
    exact run_not_first e2 (.inr (step_not_first e1))

theorem slam_run_append {L Det Pose M : Type} {ops : Slam.MapOps L Det Pose M} {po : Slam.PoseOps Pose} {gs : List (Slam.Frame L Det Pose M)} :
    ∀ {fs : List (Slam.Frame L Det Pose M)} {s s1 s2 : Slam.State L Pose} {os os' : List (Slam.Out Pose)},
      Slam.run ops po fs s = .ok (s1, os) → Slam.run ops po gs s1 = .ok (s2, os') → Slam.run ops po (fs ++ gs) s = .ok (s2, os ++ os')
  | [], s, s1, s2, os, os', h, h' => by cases h; exact h'
  | f :: fs, s, s1, s2, os, os', h, h' => by
    rw [Slam.run] at h
    obtain ⟨⟨t1, o1⟩, e1, h⟩ := Outcome.bind_eq_ok h
    obtain ⟨⟨t2, o2⟩, e2, h⟩ := Outcome.bind_eq_ok h
    cases h
    rw [List.cons_append, Slam.run, e1, Outcome.bind_ok]
    simp only
    rw [slam_run_append e2 h']
    rfl

noncomputable section

variable {Desc S Shape : Type}

/-- Nothing is detected in the frame: neither keypoints nor planes.  Without matches there is no pose. -/
def Spec.Blind {W : Type} (f : Slam.Frame W (Handler Desc × List Shape) PoseVar Match) : Prop :=
  (∃ h : Handler Desc, h.keypoints = [] ∧ ∀ L pose forced, f.detect L pose forced = (h, [])) ∧ ∀ p, f.optimize p [] = none

theorem pointFind_blind {P Cam : Type} (g : PointGeo P Desc Cam) (c : Cam) {h : Handler Desc} (hk : h.keypoints = []) (q : Feat P)
    (flags : List Bool) (tm adv : Bool) :
    pointFind (withShapes (Shape := Shape) (handlerOps g)) (c, h) [] q flags tm adv = ([], []) := by
  have htr : (withShapes (Shape := Shape) (handlerOps g)).trackIndex (c, h) [] q.id = none := by
    change Keypoints.trackIndex h q.id = none
    rw [Keypoints.trackIndex, hk]
    rfl
  have hwi : ∀ r, (withShapes (Shape := Shape) (handlerOps g)).window (c, h) [] q.body flags r = [] := by
    intro r
    change (match g.project c q.body with
      | none => []
      | some p => match Keypoints.matchIndexes g.distance h p (g.descriptor q.body) flags r with
        | .ok l => l
        | _ => []) = []
    cases g.project c q.body with
    | none => rfl
    | some p => simp [Keypoints.matchIndexes, hk]
  simp [pointFind, htr, hwi]

theorem blind_dark [Inhabited Desc] (sight2 sight : Sight Desc S) {pinv : Sq 3 → Sq 3} {fx fy cx cy : ℝ}
    {op : PlaneOps (Body Desc S) (Detected Desc ⊕ Shape) (Camera × Handler Desc)} (hop : ∀ c h, op.covValid (c, h) = isValid c.pose)
    {p : PoseVar} (hp : IsCovariance p.variance) {f : Slam.Frame (Outcome (World (Body Desc S))) (Handler Desc × List Shape) PoseVar Match}
    (hf : Spec.Blind f) :
    ∃ det, Spec.Dark (withShapes (handlerOps (geo2 sight2 pinv))) (withShapes (handlerOps (geo1 sight pinv))) op (fun e => isValid e.1.pose)
      (fun pose d => (Spec.cameraAt fx fy cx cy pose, d.1)) frameDets p f det := by
  obtain ⟨⟨h, hk, hdet⟩, hopt⟩ := hf
  have hpose : isValid (Spec.cameraAt fx fy cx cy p).pose = true := (firstPoseBlock_isCovariance hp).valid
  have hd : Keypoints.detections h = [] := by simp [Keypoints.detections, hk]
  have hnone : ∀ u, frameDets (Shape := Shape) (h, []) u = [] := by
    intro u; cases u <;> simp [frameDets, hd]
  refine ⟨(h, []), hdet, hnone, fun g flags tm adv => pointFind_blind _ _ hk g flags tm adv, hopt p, ⟨?_, hnone _, hpose, hpose, ?_⟩, hpose⟩
  · rw [hnone]; simp
  · rw [hop]; exact hpose

theorem exact_journey [Inhabited Desc] (sight2 sight : Sight Desc S) {pinv : Sq 3 → Sq 3}
    (hpinv : ∀ A, IsCovariance A → IsPseudoInverse A (pinv A)) {fx fy cx cy : ℝ} (hfx : fx ≠ 0) (hfy : fy ≠ 0) {cols rows : Nat}
    (hc : cols < 2 ^ 31) (hr : rows < 2 ^ 31) (hcx : 31 < cols) (hry : 31 < rows) (hw : Keypoints.cellsFor rows ≤ Keypoints.cellsFor cols)
    {X : Nat → V3} {look : Nat → Desc} {n : Nat} {op : PlaneOps (Body Desc S) (Detected Desc ⊕ Shape) (Camera × Handler Desc)}
    (hop : ∀ c h, op.covValid (c, h) = isValid c.pose) {limit c c' : Nat} {T0 : M4} {Ts : List (M4 × Bool)}
    {fs : List (Slam.Frame (Outcome (World (Body Desc S))) (Handler Desc × List Shape) PoseVar Match)}
    (hj : Spec.Journey (fun T U f => ∃ h, Spec.ExactFrame sight pinv fx fy cx cy cols rows X look n T U f h) (fun _ f => Spec.Blind f)
      limit c T0 Ts fs c') :
    ∀ prev, Spec.place prev = T0 → IsCovariance prev.variance → ∃ poses : List (PoseVar × Bool),
      poses.map (fun a => (Spec.place a.1, a.2)) = Ts ∧ (∀ a ∈ poses, IsCovariance a.1.variance) ∧
      Spec.Journey (fun prev next f => ∃ det, Spec.Leg (withShapes (handlerOps (geo2 sight2 pinv))) (withShapes (handlerOps (geo1 sight pinv)))
          op (fun e => isValid e.1.pose) (fun pose d => (Spec.cameraAt fx fy cx cy pose, d.1)) frameDets
          ⟨fun p => isValid p.variance, fun p => isValid (firstPoseBlock p.variance)⟩ (Spec.At X look n) n prev next f det)
        (fun p f => ∃ det, Spec.Dark (withShapes (handlerOps (geo2 sight2 pinv))) (withShapes (handlerOps (geo1 sight pinv))) op
          (fun e => isValid e.1.pose) (fun pose d => (Spec.cameraAt fx fy cx cy pose, d.1)) frameDets p f det) limit c prev poses fs c' := by
  induction hj with
  | home c T => exact fun prev _ _ => ⟨[], rfl, by simp, .home c prev⟩
  | @go c c' T U Us f fs hf _ ih =>
    intro prev hprev _
    obtain ⟨h, hf⟩ := hf
    obtain ⟨next, e, hC, hq, hre⟩ := hf.optimised prev hprev
    have hplace : Spec.place next = U := hf.determined _ _ hq hre
    obtain ⟨poses, hmap, hcs, ht⟩ := ih next hplace hC
    have hpose : isValid (Spec.cameraAt fx fy cx cy next).pose = true := (firstPoseBlock_isCovariance hC).valid
    refine ⟨(next, false) :: poses, by rw [List.map_cons, hplace, hmap], by
      intro a ha
      rcases List.mem_cons.1 ha with rfl | ha
      · exact hC
      · exact hcs a ha, .go ⟨(h, []), ?_⟩ ht⟩
    refine stage_leg hc hr hcx hry hw (fun i b hb => hb.1) (fun i b hb => exact_copy sight pinv hb)
      ⟨hf.detect, e, hf.found prev hprev, ?_, hpose, hpose, hpose, ?_, hC.valid⟩
    · intro i d b hd hb
      exact exact_merges sight hpinv hfx hfy hC (hplace ▸ hf.view) hd hb
    · rw [hop]; exact hpose
  | @wait c c' T Us f fs hf hlim _ ih =>
    intro prev hprev hC
    obtain ⟨poses, hmap, hcs, ht⟩ := ih prev hprev hC
    refine ⟨(prev, true) :: poses, by rw [List.map_cons, hprev, hmap], by
      intro a ha
      rcases List.mem_cons.1 ha with rfl | ha
      · exact hC
      · exact hcs a ha, .wait (blind_dark sight2 sight hop hC hf) hlim ht⟩

theorem kept_points {X : Nat → V3} {look : Nat → Desc} {n c : Nat} {w : World (Body Desc S)} (hw : Spec.InMap (Spec.At X look n) n c w) :
    (w.maps .point).localMap.length = n ∧ ∀ i < n, ∃ a ∈ (w.maps .point).localMap, ∃ q, a.2.id = i + 1 ∧ a.2.body = .point q ∧
      q.tracked.coordinates = X i := by
  have hp := hw.points
  refine ⟨by simpa using hp.length_eq.symm, fun i hi => ?_⟩
  have hlen : i < (w.maps .point).localMap.length := by rw [← hp.length_eq]; simpa using hi
  have := (List.forall₂_iff_get.1 hp).2 i (by simpa using hi) hlen
  simp only [List.get_eq_getElem, List.getElem_range] at this
  obtain ⟨-, hid, -, -, q, hq, hx, -⟩ := this
  exact ⟨_, List.getElem_mem hlen, q, hid, hq, hx⟩

theorem trip_state [Inhabited Desc] (sight2 sight : Sight Desc S) {pinv : Sq 3 → Sq 3}
    (hpinv : ∀ A, IsCovariance A → IsPseudoInverse A (pinv A)) {fx fy cx cy : ℝ} (hfx : fx ≠ 0) (hfy : fy ≠ 0)
    (op : PlaneOps (Body Desc S) (Detected Desc ⊕ Shape) (Camera × Handler Desc)) (hop : ∀ c h, op.covValid (c, h) = isValid c.pose)
    (lt : Match → Match → Bool) {cols rows : Nat} (hc : cols < 2 ^ 31) (hr : rows < 2 ^ 31) (hcx : 31 < cols) (hry : 31 < rows)
    (hw : Keypoints.cellsFor rows ≤ Keypoints.cellsFor cols) {X : Nat → V3} {look : Nat → Desc} {n : Nat} (h5 : 5 ≤ n) (hn : n < 2 ^ 64)
    {start : PoseVar} (hstart : IsCovariance start.variance)
    {f : Slam.Frame (Outcome (World (Body Desc S))) (Handler Desc × List Shape) PoseVar Match} {h : Handler Desc}
    (hdet : ∀ L pose forced, f.detect L pose forced = (h, [])) (hview : Spec.ExactView fx fy cx cy X look (Spec.place start) h)
    (hfirst : Spec.Redetected (geo1 sight pinv) cols rows (Spec.At X look n) n (Spec.cameraAt fx fy cx cy start) h) {Ts : List M4}
    {fs : List (Slam.Frame (Outcome (World (Body Desc S))) (Handler Desc × List Shape) PoseVar Match)}
    (hroute : Spec.Route (fun T U f => ∃ h, Spec.ExactFrame sight pinv fx fy cx cy cols rows X look n T U f h) (Spec.place start) Ts fs) :
    ∃ s outs w, Slam.run (localMapOps (programKinds (withShapes (handlerOps (geo2 sight2 pinv))) (withShapes (handlerOps (geo1 sight pinv)))
          op) (fun e => isValid e.1.pose) lt (fun pose d => (Spec.cameraAt fx fy cx cy pose, d.1)) frameDets)
        ⟨fun p => isValid p.variance, fun p => isValid (firstPoseBlock p.variance)⟩ (f :: fs) (Slam.init start (.ok World.init)) =
        .ok (s, outs) ∧ outs.map (fun o => (Spec.place o.returned, !o.tracked)) = (Spec.place start, true) :: Ts.map (·, false) ∧
      s.localMap = .ok w ∧ Spec.Settled (Spec.At X look n) n Ts.length w ∧
      Spec.place s.currentPose = (Spec.place start :: Ts).getLast (by simp) ∧ IsCovariance s.currentPose.variance ∧
      s.isFirstTrackingCall = false ∧ s.failedTrackingCount = 0 := by
  obtain ⟨poses, hmap, hcs, ht⟩ := exact_trip sight2 sight hpinv hfx hfy hop hroute start rfl
  obtain ⟨-, hlen, hdd⟩ := redetected_sees (Shape := Shape) hc hr hcx hry hw hfirst
  have hpose : isValid (Spec.cameraAt fx fy cx cy start).pose = true := (firstPoseBlock_isCovariance hstart).valid
  obtain ⟨s, out, outs, w, r1, r2, r3, r7, r8, r4, r9, -, r5, r6⟩ := C187_moving_camera_partial (geo2 sight2 pinv) (geo1 sight pinv) op
    (Spec.cameraAt fx fy cx cy) (fun e => isValid e.1.pose) lt
    ⟨fun p => isValid p.variance, fun p => isValid (firstPoseBlock p.variance)⟩ hc hr hcx hry hw (Spec.At X look n) h5 hn
    (fun i b hb => hb.1) (fun i b hb => exact_copy sight pinv hb) start f h hdet hfirst
    (fun i d hd => exact_build sight hfx hfy hstart hview hd (by
      have := (List.getElem?_eq_some_iff.1 hd).1
      have e : (frameDets (Shape := Shape) (h, []) .point).length = (Keypoints.detections h).length := by simp [frameDets]
      omega) (hdd d (List.mem_of_getElem? hd)).1)
    hpose hpose hpose (by rw [hop]; exact hpose) hstart.valid hpose poses fs ht
  have hlen : Ts.length = poses.length := by rw [← hmap, List.length_map]
  refine ⟨s, _, w, r1, ?_, r2, hlen ▸ r3, ?_, ?_, run_not_first r1 (.inl (by simp)), r8⟩
  · rw [List.map_cons, r4, r9]
    congr 1
    rw [← hmap, ← r5, List.map_map, List.map_map]
    refine List.map_congr_left fun o ho => ?_
    simp [(r6 o ho).1]
  · subst hmap
    rw [r7]
    simp only [← List.map_cons (f := Spec.place), List.getLast_map]
  · rw [r7]
    have := List.getLast_mem (l := start :: poses) (by simp)
    rcases List.mem_cons.1 this with e | e
    · rw [e]; exact hstart
    · exact hcs _ e

/-- The state after the journey. -/
theorem journey_state [Inhabited Desc] (sight2 sight : Sight Desc S) {pinv : Sq 3 → Sq 3}
    (hpinv : ∀ A, IsCovariance A → IsPseudoInverse A (pinv A)) {fx fy cx cy : ℝ} (hfx : fx ≠ 0) (hfy : fy ≠ 0)
    (op : PlaneOps (Body Desc S) (Detected Desc ⊕ Shape) (Camera × Handler Desc)) (hop : ∀ c h, op.covValid (c, h) = isValid c.pose)
    (lt : Match → Match → Bool) {cols rows : Nat} (hc : cols < 2 ^ 31) (hr : rows < 2 ^ 31) (hcx : 31 < cols) (hry : 31 < rows)
    (hw : Keypoints.cellsFor rows ≤ Keypoints.cellsFor cols) {X : Nat → V3} {look : Nat → Desc} {n : Nat} (h5 : 5 ≤ n) (hn : n < 2 ^ 64)
    {start : PoseVar} (hstart : IsCovariance start.variance)
    {f : Slam.Frame (Outcome (World (Body Desc S))) (Handler Desc × List Shape) PoseVar Match} {h : Handler Desc}
    (hdet : ∀ L pose forced, f.detect L pose forced = (h, [])) (hview : Spec.ExactView fx fy cx cy X look (Spec.place start) h)
    (hfirst : Spec.Redetected (geo1 sight pinv) cols rows (Spec.At X look n) n (Spec.cameraAt fx fy cx cy start) h) {Ts : List M4}
    {fs : List (Slam.Frame (Outcome (World (Body Desc S))) (Handler Desc × List Shape) PoseVar Match)}
    (hroute : Spec.Route (fun T U f => ∃ h, Spec.ExactFrame sight pinv fx fy cx cy cols rows X look n T U f h) (Spec.place start) Ts fs)
    (h3 : 3 ≤ Ts.length) {Us : List (M4 × Bool)} {c : Nat}
    {gs : List (Slam.Frame (Outcome (World (Body Desc S))) (Handler Desc × List Shape) PoseVar Match)}
    (hjourney : Spec.Journey (fun T U f => ∃ h, Spec.ExactFrame sight pinv fx fy cx cy cols rows X look n T U f h) (fun _ f => Spec.Blind f)
      10 0 ((Spec.place start :: Ts).getLast (by simp)) Us gs c) :
    ∃ s outs w, Slam.run (localMapOps (programKinds (withShapes (handlerOps (geo2 sight2 pinv))) (withShapes (handlerOps (geo1 sight pinv)))
          op) (fun e => isValid e.1.pose) lt (fun pose d => (Spec.cameraAt fx fy cx cy pose, d.1)) frameDets)
        ⟨fun p => isValid p.variance, fun p => isValid (firstPoseBlock p.variance)⟩ (f :: fs ++ gs) (Slam.init start (.ok World.init)) =
        .ok (s, outs) ∧
      outs.map (fun o => (Spec.place o.returned, !o.tracked)) = (Spec.place start, true) :: Ts.map (·, false) ++ Us ∧
      s.localMap = .ok w ∧ Spec.InMap (Spec.At X look n) n c w ∧ IsCovariance s.currentPose.variance ∧ s.isFirstTrackingCall = false ∧
      s.failedTrackingCount = c := by
  obtain ⟨s, outs, w, r1, r4, r2, r3, hlast, hcov, r7, r8⟩ := trip_state sight2 sight hpinv hfx hfy op hop lt hc hr hcx hry hw h5 hn hstart hdet hview hfirst hroute
  obtain ⟨poses', hmap', hcs, hj⟩ := exact_journey sight2 sight hpinv hfx hfy hc hr hcx hry hw hop hjourney s.currentPose hlast hcov
  obtain ⟨s', outs', w', q1, q2, q3, q4, -, q5, q6, q7, -⟩ := journey_steps (fun e : Camera × Handler Desc => isValid e.1.pose) lt
    (fun pose (d : Handler Desc × List Shape) => (Spec.cameraAt fx fy cx cy pose, d.1)) frameDets
    ⟨fun p => isValid p.variance, fun p => isValid (firstPoseBlock p.variance)⟩ h5 hj w s (settled_inMap h3 r3) r2 rfl hcov.valid r7 r8
  refine ⟨s', _, w', slam_run_append r1 q1, ?_, q2, q3, ?_, q5, q6⟩
  · rw [List.map_append, r4]
    congr 1
    rw [← hmap', ← q7, List.map_map]
    rfl
  · rw [q4]
    have := List.getLast_mem (l := s.currentPose :: poses'.map (·.1)) (by simp)
    rcases List.mem_cons.1 this with e | e
    · rw [e]; exact hcov
    · obtain ⟨a, ha, e⟩ := List.mem_map.1 e
      rw [← e]; exact hcs _ ha

/-- C195: the setting of C193, with at least three frames after the first one; then a journey `gs` of frames that see the scene from the
places `Us`, and blind frames, at most ten of them in a row.  A camera that sees again is not too far from where it was last seen
(the frame is found from there).  Then no frame fails but the blind ones, which return the last place; the pose of every other one is
the true place.  At the end, as all along, the map holds one feature per scene point, where this point is, and nothing was dropped.

Missing, and false (`C195_early_false`): the same before the fourth frame. -/
theorem C195_blackout_partial [Inhabited Desc] (sight2 sight : Sight Desc S) {pinv : Sq 3 → Sq 3}
    (hpinv : ∀ A, IsCovariance A → IsPseudoInverse A (pinv A)) {fx fy cx cy : ℝ} (hfx : fx ≠ 0) (hfy : fy ≠ 0)
    (op : PlaneOps (Body Desc S) (Detected Desc ⊕ Shape) (Camera × Handler Desc)) (hop : ∀ c h, op.covValid (c, h) = isValid c.pose)
    (lt : Match → Match → Bool) {cols rows : Nat} (hc : cols < 2 ^ 31) (hr : rows < 2 ^ 31) (hcx : 31 < cols) (hry : 31 < rows)
    (hw : Keypoints.cellsFor rows ≤ Keypoints.cellsFor cols) {X : Nat → V3} {look : Nat → Desc} {n : Nat} (h5 : 5 ≤ n) (hn : n < 2 ^ 64)
    {start : PoseVar} (hstart : IsCovariance start.variance)
    {f : Slam.Frame (Outcome (World (Body Desc S))) (Handler Desc × List Shape) PoseVar Match} {h : Handler Desc}
    (hdet : ∀ L pose forced, f.detect L pose forced = (h, [])) (hview : Spec.ExactView fx fy cx cy X look (Spec.place start) h)
    (hfirst : Spec.Redetected (geo1 sight pinv) cols rows (Spec.At X look n) n (Spec.cameraAt fx fy cx cy start) h) {Ts : List M4}
    {fs : List (Slam.Frame (Outcome (World (Body Desc S))) (Handler Desc × List Shape) PoseVar Match)}
    (hroute : Spec.Route (fun T U f => ∃ h, Spec.ExactFrame sight pinv fx fy cx cy cols rows X look n T U f h) (Spec.place start) Ts fs)
    (h3 : 3 ≤ Ts.length) {Us : List (M4 × Bool)} {c : Nat}
    {gs : List (Slam.Frame (Outcome (World (Body Desc S))) (Handler Desc × List Shape) PoseVar Match)}
    (hjourney : Spec.Journey (fun T U f => ∃ h, Spec.ExactFrame sight pinv fx fy cx cy cols rows X look n T U f h) (fun _ f => Spec.Blind f)
      10 0 ((Spec.place start :: Ts).getLast (by simp)) Us gs c) :
    ∃ s outs w, Slam.run (localMapOps (programKinds (withShapes (handlerOps (geo2 sight2 pinv))) (withShapes (handlerOps (geo1 sight pinv)))
          op) (fun e => isValid e.1.pose) lt (fun pose d => (Spec.cameraAt fx fy cx cy pose, d.1)) frameDets)
        ⟨fun p => isValid p.variance, fun p => isValid (firstPoseBlock p.variance)⟩ (f :: fs ++ gs) (Slam.init start (.ok World.init)) =
        .ok (s, outs) ∧
      outs.map (fun o => (Spec.place o.returned, !o.tracked)) = (Spec.place start, true) :: Ts.map (·, false) ++ Us ∧
      s.localMap = .ok w ∧ Spec.InMap (Spec.At X look n) n c w ∧ (w.maps .point).localMap.length = n ∧
      ∀ i < n, ∃ a ∈ (w.maps .point).localMap, ∃ q, a.2.id = i + 1 ∧ a.2.body = .point q ∧ q.tracked.coordinates = X i := by
  obtain ⟨s, outs, w, r1, r2, r3, r4, -⟩ := journey_state sight2 sight hpinv hfx hfy op hop lt hc hr hcx hry hw h5 hn hstart hdet hview hfirst hroute h3 hjourney
  exact ⟨s, outs, w, r1, r2, r3, r4, kept_points r4⟩

/-- C195, the limit: after such a journey that ends with ten blind frames in a row, one more blind frame and the map is empty.  Every feature was
written once to the output, with its place. -/
theorem C195_given_up [Inhabited Desc] (sight2 sight : Sight Desc S) {pinv : Sq 3 → Sq 3}
    (hpinv : ∀ A, IsCovariance A → IsPseudoInverse A (pinv A)) {fx fy cx cy : ℝ} (hfx : fx ≠ 0) (hfy : fy ≠ 0)
    (op : PlaneOps (Body Desc S) (Detected Desc ⊕ Shape) (Camera × Handler Desc)) (hop : ∀ c h, op.covValid (c, h) = isValid c.pose)
    (lt : Match → Match → Bool) {cols rows : Nat} (hc : cols < 2 ^ 31) (hr : rows < 2 ^ 31) (hcx : 31 < cols) (hry : 31 < rows)
    (hw : Keypoints.cellsFor rows ≤ Keypoints.cellsFor cols) {X : Nat → V3} {look : Nat → Desc} {n : Nat} (h5 : 5 ≤ n) (hn : n < 2 ^ 64)
    {start : PoseVar} (hstart : IsCovariance start.variance)
    {f : Slam.Frame (Outcome (World (Body Desc S))) (Handler Desc × List Shape) PoseVar Match} {h : Handler Desc}
    (hdet : ∀ L pose forced, f.detect L pose forced = (h, [])) (hview : Spec.ExactView fx fy cx cy X look (Spec.place start) h)
    (hfirst : Spec.Redetected (geo1 sight pinv) cols rows (Spec.At X look n) n (Spec.cameraAt fx fy cx cy start) h) {Ts : List M4}
    {fs : List (Slam.Frame (Outcome (World (Body Desc S))) (Handler Desc × List Shape) PoseVar Match)}
    (hroute : Spec.Route (fun T U f => ∃ h, Spec.ExactFrame sight pinv fx fy cx cy cols rows X look n T U f h) (Spec.place start) Ts fs)
    (h3 : 3 ≤ Ts.length) {Us : List (M4 × Bool)}
    {gs : List (Slam.Frame (Outcome (World (Body Desc S))) (Handler Desc × List Shape) PoseVar Match)}
    (hjourney : Spec.Journey (fun T U f => ∃ h, Spec.ExactFrame sight pinv fx fy cx cy cols rows X look n T U f h) (fun _ f => Spec.Blind f)
      10 0 ((Spec.place start :: Ts).getLast (by simp)) Us gs 10)
    {last : Slam.Frame (Outcome (World (Body Desc S))) (Handler Desc × List Shape) PoseVar Match} (hlast : Spec.Blind last) :
    ∃ s outs w, Slam.run (localMapOps (programKinds (withShapes (handlerOps (geo2 sight2 pinv))) (withShapes (handlerOps (geo1 sight pinv)))
          op) (fun e => isValid e.1.pose) lt (fun pose d => (Spec.cameraAt fx fy cx cy pose, d.1)) frameDets)
        ⟨fun p => isValid p.variance, fun p => isValid (firstPoseBlock p.variance)⟩ (f :: fs ++ gs ++ [last]) (Slam.init start (.ok World.init)) =
        .ok (s, outs) ∧ s.localMap = .ok w ∧ Spec.GivenUp (Spec.At X look n) n w := by
  obtain ⟨s, outs, w, r1, -, r3, r4, r5, r6, r7⟩ := journey_state sight2 sight hpinv hfx hfy op hop lt hc hr hcx hry hw h5 hn hstart hdet hview hfirst hroute h3 hjourney
  obtain ⟨det, hd⟩ := blind_dark (fx := fx) (fy := fy) (cx := cx) (cy := cy) (pinv := pinv) sight2 sight hop r5 hlast
  obtain ⟨s1, o1, w1, e, -, -, -, -, -, -, hw1, hl⟩ := dark_step (fun e : Camera × Handler Desc => isValid e.1.pose) lt
    (fun pose (d : Handler Desc × List Shape) => (Spec.cameraAt fx fy cx cy pose, d.1)) frameDets
    ⟨fun p => isValid p.variance, fun p => isValid (firstPoseBlock p.variance)⟩ hd r4 r3 rfl r5.valid r6 r7 (by norm_num)
  refine ⟨s1, _, _, slam_run_append r1 (os' := [o1]) ?_, hl, miss_givenUp hw1⟩
  rw [Slam.run, e]
  rfl

/-- C195 is false before the fourth frame: after one or two frames a single blind frame empties the map.  The next three frames see the
scene as well as one likes, but nothing can be matched; nothing enters the map either, since the tracking does not count as lost yet. -/
theorem C195_early_false [Inhabited Desc] (sight2 sight : Sight Desc S) {pinv : Sq 3 → Sq 3}
    (hpinv : ∀ A, IsCovariance A → IsPseudoInverse A (pinv A)) {fx fy cx cy : ℝ} (hfx : fx ≠ 0) (hfy : fy ≠ 0)
    (op : PlaneOps (Body Desc S) (Detected Desc ⊕ Shape) (Camera × Handler Desc)) (hop : ∀ c h, op.covValid (c, h) = isValid c.pose)
    (lt : Match → Match → Bool) {cols rows : Nat} (hc : cols < 2 ^ 31) (hr : rows < 2 ^ 31) (hcx : 31 < cols) (hry : 31 < rows)
    (hw : Keypoints.cellsFor rows ≤ Keypoints.cellsFor cols) {X : Nat → V3} {look : Nat → Desc} {n : Nat} (h5 : 5 ≤ n) (hn : n < 2 ^ 64)
    {start : PoseVar} (hstart : IsCovariance start.variance)
    {f : Slam.Frame (Outcome (World (Body Desc S))) (Handler Desc × List Shape) PoseVar Match} {h : Handler Desc}
    (hdet : ∀ L pose forced, f.detect L pose forced = (h, [])) (hview : Spec.ExactView fx fy cx cy X look (Spec.place start) h)
    (hfirst : Spec.Redetected (geo1 sight pinv) cols rows (Spec.At X look n) n (Spec.cameraAt fx fy cx cy start) h) {Ts : List M4}
    {fs : List (Slam.Frame (Outcome (World (Body Desc S))) (Handler Desc × List Shape) PoseVar Match)}
    (hroute : Spec.Route (fun T U f => ∃ h, Spec.ExactFrame sight pinv fx fy cx cy cols rows X look n T U f h) (Spec.place start) Ts fs)
    (h2 : Ts.length < 2) {b g1 g2 g3 : Slam.Frame (Outcome (World (Body Desc S))) (Handler Desc × List Shape) PoseVar Match} (hb : Spec.Blind b)
    (hg : ∀ g ∈ [g1, g2, g3], ∀ p, g.optimize p [] = none) :
    ∃ s outs o0 o1 o2 o3 w, Slam.run (localMapOps (programKinds (withShapes (handlerOps (geo2 sight2 pinv))) (withShapes (handlerOps (geo1 sight pinv)))
          op) (fun e => isValid e.1.pose) lt (fun pose d => (Spec.cameraAt fx fy cx cy pose, d.1)) frameDets)
        ⟨fun p => isValid p.variance, fun p => isValid (firstPoseBlock p.variance)⟩ (f :: fs ++ [b, g1, g2, g3]) (Slam.init start (.ok World.init)) =
        .ok (s, outs ++ [o0, o1, o2, o3]) ∧ (∀ o ∈ [o0, o1, o2, o3], o.tracked = false) ∧ s.localMap = .ok w ∧ Spec.EmptyMap w := by
  obtain ⟨s, outs, w, r1, -, r3, r4, -, r5, r6, r7⟩ := trip_state sight2 sight hpinv hfx hfy op hop lt hc hr hcx hry hw h5 hn hstart hdet hview hfirst hroute
  obtain ⟨det, hd⟩ := blind_dark (fx := fx) (fy := fy) (cx := cx) (cy := cy) (pinv := pinv) sight2 sight hop r5 hb
  obtain ⟨s0, o0, w0, e0, a1, a2, a3, -, a4, a5, a6, a7⟩ := dark_early (fun e : Camera × Handler Desc => isValid e.1.pose) lt
    (fun pose (d : Handler Desc × List Shape) => (Spec.cameraAt fx fy cx cy pose, d.1)) frameDets
    ⟨fun p => isValid p.variance, fun p => isValid (firstPoseBlock p.variance)⟩ hd h2 r4 r3 rfl r5.valid r6 r7
  obtain ⟨s1, o1, w1, e1, b1, b2, b3, -, b4, b5, b6, b7⟩ := empty_step (k := programKinds (withShapes (handlerOps (geo2 sight2 pinv)))
      (withShapes (handlerOps (geo1 sight pinv))) op) (fun e : Camera × Handler Desc => isValid e.1.pose) lt
    (fun pose (d : Handler Desc × List Shape) => (Spec.cameraAt fx fy cx cy pose, d.1)) frameDets
    ⟨fun p => isValid p.variance, fun p => isValid (firstPoseBlock p.variance)⟩ (hg g1 (by simp)) a6 a7 a1 r5.valid a2 a5 a3 (by norm_num)
  obtain ⟨s2, o2, w2, e2, c1, c2, c3, -, c4, c5, c6, c7⟩ := empty_step (k := programKinds (withShapes (handlerOps (geo2 sight2 pinv)))
      (withShapes (handlerOps (geo1 sight pinv))) op) (fun e : Camera × Handler Desc => isValid e.1.pose) lt
    (fun pose (d : Handler Desc × List Shape) => (Spec.cameraAt fx fy cx cy pose, d.1)) frameDets
    ⟨fun p => isValid p.variance, fun p => isValid (firstPoseBlock p.variance)⟩ (hg g2 (by simp)) b6 b7 b1 r5.valid b2 b5 b3 (by norm_num)
  obtain ⟨s3, o3, w3, e3, d1, d2, d3, -, d4, d5, d6, d7⟩ := empty_step (k := programKinds (withShapes (handlerOps (geo2 sight2 pinv)))
      (withShapes (handlerOps (geo1 sight pinv))) op) (fun e : Camera × Handler Desc => isValid e.1.pose) lt
    (fun pose (d : Handler Desc × List Shape) => (Spec.cameraAt fx fy cx cy pose, d.1)) frameDets
    ⟨fun p => isValid p.variance, fun p => isValid (firstPoseBlock p.variance)⟩ (hg g3 (by simp)) c6 c7 c1 r5.valid c2 c5 c3 (by norm_num)
  refine ⟨s3, outs, o0, o1, o2, o3, w3, slam_run_append r1 ?_, by simp [a4, b4, c4, d4], d7, d6⟩
  simp only [Slam.run, e0, e1, e2, e3, Outcome.bind_ok]

/-! ## The swinging camera, blinded -/

/-- The lens is covered. -/
def coveredFrame : Slam.Frame (Outcome (World (Body Nat Unit))) (Handler Nat × List Unit) PoseVar Match :=
  ⟨fun _ _ _ => (Keypoints.create 640 480, []), fun _ _ => none⟩

theorem coveredFrame_blind : Spec.Blind coveredFrame := ⟨⟨Keypoints.create 640 480, rfl, fun _ _ _ => rfl⟩, fun _ => rfl⟩

/-- Frames of the swinging camera of C193. -/
theorem swing_frames : ∃ h0 h1 h2 : Handler Nat, newView 0 = .ok h0 ∧ newView 1 = .ok h1 ∧ flowView 0 = .ok h2 ∧
    (∀ k0, Spec.ExactFrame wallSight (examplePinv 3) 1000 1000 0 0 640 480 wallPoint (fun _ => 0) 5 (wallPlace k0) (wallPlace 1)
      (exactFrame h1 1) h1) ∧
    (∀ k0, Spec.ExactFrame wallSight (examplePinv 3) 1000 1000 0 0 640 480 wallPoint (fun _ => 0) 5 (wallPlace k0) (wallPlace 0)
      (exactFrame h2 0) h2) ∧
    Spec.ExactView 1000 1000 0 0 wallPoint (fun _ => 0) (wallPlace 0) h0 ∧
    Spec.Redetected (geo1 wallSight (examplePinv 3)) 640 480 (Spec.At wallPoint (fun _ => 0) 5) 5
      (Spec.cameraAt 1000 1000 0 0 (wallPose 0)) h0 := by
  obtain ⟨h0, e0, g0⟩ := holds_elim (show ((newView 0).holds fun h =>
    (Keypoints.detections h).all (fun d => decide (d.kp.depth = 1000 ∧ (d.desc = some 0 ∨ d.desc = none))) &&
      decide ((Keypoints.detections h).map (·.kp.pt) = shifted 0)) = true by decide +kernel)
  obtain ⟨h1, e1, g1⟩ := holds_elim (show ((newView 1).holds fun h =>
    (Keypoints.detections h).all (fun d => decide (d.kp.depth = 1000 ∧ (d.desc = some 0 ∨ d.desc = none))) &&
      decide ((Keypoints.detections h).map (·.kp.pt) = shifted 1)) = true by decide +kernel)
  obtain ⟨h2, e2, g2⟩ := holds_elim (show ((flowView 0).holds fun h =>
    (Keypoints.detections h).all (fun d => decide (d.kp.depth = 1000 ∧ (d.desc = some 0 ∨ d.desc = none))) &&
      decide ((Keypoints.detections h).map (·.kp.pt) = shifted 0)) = true by decide +kernel)
  simp only [Bool.and_eq_true, List.all_eq_true, decide_eq_true_eq] at g0 g1 g2
  exact ⟨h0, h1, h2, e0, e1, e2, fun k0 => exactFrame_spec g1.2 g1.1 (.inl e1), fun k0 => exactFrame_spec g2.2 g2.1 (.inr e2),
    wall_view g0.2 g0.1,
    ⟨⟨Keypoints.create 640 480, demoImage, shifted 0, [0, 0, 0, 0, 0], .create, by simp [shifted, spread],
        by simp [shifted, spread], e0, fun i b hb => wall_seenAs rfl hb⟩, fun d hd => by rw [(g0.1 d hd).1]; decide +kernel⟩⟩

/-- The hypotheses are met: the camera swings to and fro, and is blinded for ten frames after each turn, as often as one likes. -/
example : ∀ k, ∃ h h1 h2 : Handler Nat, newView 0 = .ok h ∧ newView 1 = .ok h1 ∧ flowView 0 = .ok h2 ∧
    ∃ s outs w, Slam.run (localMapOps (programKinds (withShapes (handlerOps (geo2 wallSight (examplePinv 3))))
        (withShapes (handlerOps (geo1 wallSight (examplePinv 3)))) wallOps) (fun e => isValid e.1.pose) (fun _ _ => false)
        (fun pose d => (Spec.cameraAt 1000 1000 0 0 pose, d.1)) frameDets)
      ⟨fun p => isValid p.variance, fun p => isValid (firstPoseBlock p.variance)⟩
      (exactFrame h 0 :: [exactFrame h1 1, exactFrame h2 0, exactFrame h1 1, exactFrame h2 0] ++
        (List.replicate k (List.replicate 10 coveredFrame ++ [exactFrame h1 1, exactFrame h2 0])).flatten)
      (Slam.init (wallPose 0) (.ok World.init)) = .ok (s, outs) ∧ s.localMap = .ok w ∧ (w.maps .point).localMap.length = 5 := by
  obtain ⟨h, h1, h2, e0, e1, e2, x1, x2, hv, hf⟩ := swing_frames
  intro k
  have hj : ∀ k, ∃ Us, Spec.Journey (fun T U f => ∃ h, Spec.ExactFrame wallSight (examplePinv 3) 1000 1000 0 0 640 480 wallPoint (fun _ => 0) 5
      T U (f : Slam.Frame _ (Handler Nat × List Unit) PoseVar Match) h) (fun _ f => Spec.Blind f) 10 0 (wallPlace 0) Us
      (List.replicate k (List.replicate 10 coveredFrame ++ [exactFrame h1 1, exactFrame h2 0])).flatten 0 := by
    intro k
    induction k with
    | zero => exact ⟨[], .home _ _⟩
    | succ k ih =>
      obtain ⟨Us, hU⟩ := ih
      have hgo : Spec.Journey (fun T U f => ∃ h, Spec.ExactFrame wallSight (examplePinv 3) 1000 1000 0 0 640 480 wallPoint (fun _ => 0) 5
          T U (f : Slam.Frame _ (Handler Nat × List Unit) PoseVar Match) h) (fun _ f => Spec.Blind f) 10 10 (wallPlace 0)
          ((wallPlace 1, false) :: (wallPlace 0, false) :: Us)
          (exactFrame h1 1 :: exactFrame h2 0 ::
            (List.replicate k (List.replicate 10 coveredFrame ++ [exactFrame h1 1, exactFrame h2 0])).flatten) 0 :=
        .go ⟨h1, x1 0⟩ (.go ⟨h2, x2 1⟩ hU)
      have hd : ∀ {c : Nat}, c < 10 → ∀ {Vs gs}, Spec.Journey (fun T U f => ∃ h, Spec.ExactFrame wallSight (examplePinv 3) 1000 1000 0 0 640 480
          wallPoint (fun _ => 0) 5 T U (f : Slam.Frame _ (Handler Nat × List Unit) PoseVar Match) h) (fun _ f => Spec.Blind f) 10 (c + 1)
          (wallPlace 0) Vs gs 0 → Spec.Journey (fun T U f => ∃ h, Spec.ExactFrame wallSight (examplePinv 3) 1000 1000 0 0 640 480
          wallPoint (fun _ => 0) 5 T U (f : Slam.Frame _ (Handler Nat × List Unit) PoseVar Match) h) (fun _ f => Spec.Blind f) 10 c
          (wallPlace 0) ((wallPlace 0, true) :: Vs) (coveredFrame :: gs) 0 := fun hc _ _ hj => .wait coveredFrame_blind hc hj
      refine ⟨List.replicate 10 (wallPlace 0, true) ++ ((wallPlace 1, false) :: (wallPlace 0, false) :: Us), ?_⟩
      rw [List.replicate_succ (n := k), List.flatten_cons, List.append_assoc]
      exact hd (c := 0) (by norm_num) <| hd (by norm_num) <| hd (by norm_num) <| hd (by norm_num) <| hd (by norm_num) <| hd (by norm_num) <|
        hd (by norm_num) <| hd (by norm_num) <| hd (by norm_num) <| hd (by norm_num) hgo
  obtain ⟨Us, hU⟩ := hj k
  obtain ⟨s, outs, w, r1, -, r3, -, r4, -⟩ := C195_blackout_partial wallSight wallSight examplePinv_spec (by norm_num) (by norm_num) wallOps
    (fun _ _ => rfl) (fun _ _ => false) (cols := 640) (rows := 480) (by norm_num) (by norm_num) (by norm_num) (by norm_num) (by decide)
    (n := 5) (by norm_num) (by norm_num) (start := wallPose 0) isCovariance_one (f := exactFrame h 0) (fun _ _ _ => rfl)
    hv hf (Ts := [wallPlace 1, wallPlace 0, wallPlace 1, wallPlace 0])
    (.go ⟨h1, x1 0⟩ (.go ⟨h2, x2 1⟩ (.go ⟨h1, x1 0⟩ (.go ⟨h2, x2 1⟩ (.home _))))) (by simp) hU
  exact ⟨h, h1, h2, e0, e1, e2, s, outs, w, r1, r3, r4⟩

/-- Of the limit: eleven covered frames. -/
example : ∃ h h1 h2 : Handler Nat, newView 0 = .ok h ∧ newView 1 = .ok h1 ∧ flowView 0 = .ok h2 ∧
    ∃ s outs w, Slam.run (localMapOps (programKinds (withShapes (handlerOps (geo2 wallSight (examplePinv 3))))
        (withShapes (handlerOps (geo1 wallSight (examplePinv 3)))) wallOps) (fun e => isValid e.1.pose) (fun _ _ => false)
        (fun pose d => (Spec.cameraAt 1000 1000 0 0 pose, d.1)) frameDets)
      ⟨fun p => isValid p.variance, fun p => isValid (firstPoseBlock p.variance)⟩
      (exactFrame h 0 :: [exactFrame h1 1, exactFrame h2 0, exactFrame h1 1, exactFrame h2 0] ++
        List.replicate 10 coveredFrame ++ [coveredFrame])
      (Slam.init (wallPose 0) (.ok World.init)) = .ok (s, outs) ∧ s.localMap = .ok w ∧ (w.maps .point).localMap = [] ∧
      (w.written .point).length = 5 := by
  obtain ⟨h, h1, h2, e0, e1, e2, x1, x2, hv, hf⟩ := swing_frames
  have hU : Spec.Journey (fun T U f => ∃ h, Spec.ExactFrame wallSight (examplePinv 3) 1000 1000 0 0 640 480 wallPoint (fun _ => 0) 5
      T U (f : Slam.Frame _ (Handler Nat × List Unit) PoseVar Match) h) (fun _ f => Spec.Blind f) 10 0 (wallPlace 0)
      (List.replicate 10 (wallPlace 0, true)) (List.replicate 10 coveredFrame) 10 := by
    simp only [List.replicate]
    repeat' refine .wait coveredFrame_blind (by norm_num) ?_
    exact .home _ _
  obtain ⟨s, outs, w, r1, r3, r4⟩ := C195_given_up wallSight wallSight examplePinv_spec (by norm_num) (by norm_num) wallOps
    (fun _ _ => rfl) (fun _ _ => false) (cols := 640) (rows := 480) (by norm_num) (by norm_num) (by norm_num) (by norm_num) (by decide)
    (n := 5) (by norm_num) (by norm_num) (start := wallPose 0) isCovariance_one (f := exactFrame h 0) (fun _ _ _ => rfl)
    hv hf (Ts := [wallPlace 1, wallPlace 0, wallPlace 1, wallPlace 0])
    (.go ⟨h1, x1 0⟩ (.go ⟨h2, x2 1⟩ (.go ⟨h1, x1 0⟩ (.go ⟨h2, x2 1⟩ (.home _))))) (by simp) hU coveredFrame_blind
  exact ⟨h, h1, h2, e0, e1, e2, s, outs, w, r1, r3, (r4.empty _).1, by simpa using r4.points.length_eq.symm⟩

/-- Of the early failure: the second frame is covered. -/
example : ∃ h h1 : Handler Nat, newView 0 = .ok h ∧ newView 1 = .ok h1 ∧
    ∃ s outs w, Slam.run (localMapOps (programKinds (withShapes (handlerOps (geo2 wallSight (examplePinv 3))))
        (withShapes (handlerOps (geo1 wallSight (examplePinv 3)))) wallOps) (fun e => isValid e.1.pose) (fun _ _ => false)
        (fun pose d => (Spec.cameraAt 1000 1000 0 0 pose, d.1)) frameDets)
      ⟨fun p => isValid p.variance, fun p => isValid (firstPoseBlock p.variance)⟩
      (exactFrame h 0 :: [] ++ [coveredFrame, ⟨fun _ _ _ => (h1, []), fun _ _ => none⟩, ⟨fun _ _ _ => (h, []), fun _ _ => none⟩,
        ⟨fun _ _ _ => (h1, []), fun _ _ => none⟩])
      (Slam.init (wallPose 0) (.ok World.init)) = .ok (s, outs) ∧ s.localMap = .ok w ∧ Spec.EmptyMap w := by
  obtain ⟨h, h1, h2, e0, e1, e2, x1, x2, hv, hf⟩ := swing_frames
  obtain ⟨s, outs, o0, o1, o2, o3, w, r1, -, r3, r4⟩ := C195_early_false wallSight wallSight examplePinv_spec (by norm_num) (by norm_num) wallOps
    (fun _ _ => rfl) (fun _ _ => false) (cols := 640) (rows := 480) (by norm_num) (by norm_num) (by norm_num) (by norm_num) (by decide)
    (n := 5) (by norm_num) (by norm_num) (start := wallPose 0) isCovariance_one (f := exactFrame h 0) (fun _ _ _ => rfl)
    hv hf (Ts := []) (.home _) (by simp) (b := coveredFrame) coveredFrame_blind
    (g1 := ⟨fun _ _ _ => (h1, []), fun _ _ => none⟩) (g2 := ⟨fun _ _ _ => (h, []), fun _ _ => none⟩)
    (g3 := ⟨fun _ _ _ => (h1, []), fun _ _ => none⟩) (by simp)
  exact ⟨h, h1, e0, e1, s, _, w, r1, r3, r4⟩

end

end RgbdSlam.Map
