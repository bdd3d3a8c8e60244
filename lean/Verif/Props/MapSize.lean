import Verif.Lemmas.MapSize
import Verif.Props.System
import Verif.Lemmas.FeatureMapClosed
/-
C199: the number of features of the map stays bounded, however long the run.
-/
namespace RgbdSlam.Map

open Keypoints (Handler Detected)

variable {P D Env Pose Det Desc Cam Shape : Type}

namespace Spec

/-- Number of features of one type in the map: map features and candidates
(`Feature_Map::size`, src/map_management/feature_map.hpp:591). -/
def size (w : World P) (t : FType) : Nat := (w.maps t).localMap.length + (w.maps t).staged.length

/-- The detectors never give more than `n` keypoints and `m` planes in a frame. -/
def AtMost (n m : Nat) (f : Slam.Frame (Outcome (World P)) (Handler Desc × List Shape) Pose Match) : Prop :=
  ∀ L p b, (f.detect L p b).1.keypoints.length ≤ n ∧ (f.detect L p b).2.length ≤ m

end Spec

/-! ### The counters of the three feature types -/

/-- Candidate points: at most 2 matches, one of them lost at each miss. -/
def PointStaged (s : Int) (n : Nat) : Prop := 0 ≤ s ∧ s + n ≤ 2

theorem counters_point (o : PointOps P D Env) (hc : ∀ b, ∃ b', o.copy b = some b') :
    Counters (pointKind o) 10 PointStaged where
  lost f h := by simpa [pointKind] using h
  start := by simp [PointStaged]
  small s n h := by obtain ⟨h1, h2⟩ := h; omega
  keeps f hit hS ha hr := by
    simp only [pointKind, decide_eq_false_iff_not, confidence_enough, confidence_nonpos] at ha hr
    obtain ⟨h1, h2⟩ := hS
    cases hit <;> simp only [settle, Bool.false_eq_true, if_false, if_true] at ha hr ⊢ <;>
      constructor <;> omega
  miss f hS := by
    simp only [pointKind, decide_eq_false_iff_not, confidence_enough]
    obtain ⟨h1, h2⟩ := hS
    simp only [settle, Bool.false_eq_true, if_false]; omega
  copy f := hc f.body

theorem counters_point2d (o : PointOps P D Env) (hc : ∀ b, ∃ b', o.copy b = some b') :
    Counters (point2dKind o) 10 PointStaged where
  lost f h := by simpa [point2dKind] using h
  start := by simp [PointStaged]
  small s n h := by obtain ⟨h1, h2⟩ := h; omega
  keeps f hit hS ha hr := by
    simp only [point2dKind, decide_eq_false_iff_not, confidence_enough, confidence_nonpos] at ha hr
    obtain ⟨h1, h2⟩ := hS
    cases hit <;> simp only [settle, Bool.false_eq_true, if_false, if_true] at ha hr ⊢ <;>
      constructor <;> omega
  miss f hS := by
    simp only [point2dKind, decide_eq_false_iff_not, confidence_enough]
    obtain ⟨h1, h2⟩ := hS
    simp only [settle, Bool.false_eq_true, if_false]; omega
  copy f := hc f.body

/-- Candidate planes: at most 3 matches, missed at most once. -/
def PlaneStaged (s : Int) (n : Nat) : Prop := s ≤ 3 ∧ n ≤ 1

theorem counters_plane (o : PlaneOps P D Env) (hc : ∀ b, ∃ b', o.copy b = some b') :
    Counters (planeKind o) 9 PlaneStaged where
  lost f h := by
    simp only [planeKind, decide_eq_false_iff_not] at h; omega
  start := by simp [PlaneStaged]
  small s n h := by obtain ⟨h1, h2⟩ := h; omega
  keeps f hit hS ha hr := by
    simp only [planeKind, decide_eq_false_iff_not] at ha hr
    obtain ⟨h1, h2⟩ := hS
    cases hit <;> simp only [settle, Bool.false_eq_true, if_false, if_true] at ha hr ⊢ <;>
      constructor <;> omega
  miss f hS := by
    simp only [planeKind, decide_eq_false_iff_not]
    obtain ⟨h1, h2⟩ := hS
    simp only [settle, Bool.false_eq_true, if_false]; omega
  copy f := hc f.body

/-! ### All maps -/

/-- Misses after which nothing is left, by type. -/
def missLimit : FType → Nat
  | .plane => 9
  | _ => 10

/-- The counters of the candidates, by type. -/
def candidate : FType → Int → Nat → Prop
  | .plane => PlaneStaged
  | _ => PointStaged

/-- Detections of one type in a frame. -/
def perFrame (n m : Nat) : FType → Nat
  | .plane => m
  | _ => n

/-- Features last seen at the same frame; a 2D point that becomes a 3D point counts as seen. -/
def quota (n m : Nat) : FType → Nat
  | .plane => m
  | .point2d => n
  | .point => n + 11 * n

def WBounded (n m : Nat) (w : World P) : Prop :=
  ∀ t, Bounded (missLimit t) (quota n m t) (candidate t) (w.maps t)

theorem perFrame_le (n m : Nat) (t : FType) : perFrame n m t ≤ quota n m t := by
  cases t <;> simp only [perFrame, quota] <;> omega

section
variable {o2 o1 : PointOps P D Env} {op : PlaneOps P D Env}

theorem counters_program (c2 : ∀ b, ∃ b', o2.copy b = some b') (c1 : ∀ b, ∃ b', o1.copy b = some b')
    (cp : ∀ b, ∃ b', op.copy b = some b') (t : FType) :
    Counters (programKinds o2 o1 op t) (missLimit t) (candidate t) := by
  cases t
  · exact counters_point2d o2 c2
  · exact counters_point o1 c1
  · exact counters_plane op cp

theorem offer_nothing (k : FType → Kind P D Env) (ts : List FType) (w : World P) :
    eachMap (World.offer k []) ts w = .ok (w, false) := by
  induction ts with
  | nil => rfl
  | cons t ts ih =>
    simp only [eachMap, offer_skip (k := k) (us := []) (t := t) (by simp), Outcome.bind_ok]
    simpa using ih

theorem upgradeOne_nothing {k : FType → Kind P D Env} {env : Env} {t : FType}
    (h : ∀ f, (k t).upgrade env f = none) (ts : List FType) (w : World P) :
    World.upgradeOne k env ts t w = .ok (w, false) := by
  simp only [World.upgradeOne, getUpgraded, takeUpgraded_nothing h, List.append_nil]
  have : w.put t { w.view t with map :=
      { w.maps t with localMap := (w.maps t).localMap, staged := (w.maps t).staged } } = w := put_view t w
  rw [this]
  exact offer_nothing k ts w

theorem upgrade_bounded {env : Env} {n m : Nat} {w w' : World P} {b : Bool}
    (c2 : ∀ b, ∃ b', o2.copy b = some b')
    (hw : WBounded n m w) (h0 : unseen 0 (w.maps .point).localMap + unseen 0 (w.maps .point).staged ≤ n)
    (h : World.upgrade (programKinds o2 o1 op) env w = .ok (w', b)) : WBounded n m w' := by
  generalize hk : programKinds o2 o1 op = k at h
  have hnp : ∀ f, (k .point).upgrade env f = none := by rw [← hk]; exact fun _ => rfl
  have hnl : ∀ f, (k .plane).upgrade env f = none := by rw [← hk]; exact fun _ => rfl
  have hmid : ∃ b1, World.upgradeOne k env order .point2d w = .ok (w', b1) := by
    simp only [World.upgrade] at h
    rw [show (order : List FType) = [.point2d, .point, .plane] from rfl] at h ⊢
    rw [eachMap] at h
    obtain ⟨⟨w1, b1⟩, h1, h⟩ := Outcome.bind_eq_ok h
    dsimp only at h
    split at h
    · simp only [Outcome.ok.injEq, Prod.mk.injEq] at h
      obtain ⟨rfl, rfl⟩ := h
      exact ⟨_, h1⟩
    · simp only [eachMap, upgradeOne_nothing hnp, upgradeOne_nothing hnl, Outcome.bind_ok,
        Bool.false_eq_true, if_false, Outcome.ok.injEq, Prod.mk.injEq] at h
      obtain ⟨rfl, rfl⟩ := h
      exact ⟨_, h1⟩
  obtain ⟨b1, h1⟩ := hmid
  obtain ⟨g1, g2⟩ := getUpgraded_bounded (k .point2d) env (hw .point2d)
  have hus : (getUpgraded (k .point2d) env (w.maps .point2d)).2.length ≤ 11 * n :=
    Nat.le_trans g2 ((hw .point2d).size (counters_point2d o2 c2))
  have hty : ∀ u ∈ (getUpgraded (k .point2d) env (w.maps .point2d)).2, u.type = .point := by
    rw [← hk]
    intro u hu
    simp only [programKinds, getUpgraded, takeUpgraded_spec, List.mem_append, List.mem_filterMap,
      Option.map_eq_some_iff] at hu
    rcases hu with ⟨_, -, _, -, rfl⟩ | ⟨_, -, _, -, rfl⟩ <;> rfl
  simp only [World.upgradeOne] at h1
  generalize hm : getUpgraded (k .point2d) env (w.maps .point2d) = r at h1 g1 g2 hus hty
  obtain ⟨m2, us⟩ := r
  simp only at h1 g1 g2 hus hty
  generalize hw1 : w.put .point2d { w.view .point2d with map := m2 } = w1 at h1
  have e2 : w1.maps .point2d = m2 := by rw [← hw1]; simp [World.put]
  have eo : ∀ t, t ≠ .point2d → w1.maps t = w.maps t := by
    intro t ht; rw [← hw1]; simp [World.put, ht]
  have skip : ∀ t, t ≠ .point → ∀ v, World.offer k us t v = .ok (v, false) := by
    intro t ht v
    refine offer_skip (fun u hu => ?_) v
    rw [hty u hu, ← hk, programKinds_type]
    exact fun h => ht h.symm
  have hfin : w' = w1.put .point (addUpgraded (k .point) us (w1.view .point)).1 := by
    rw [show (order : List FType) = [.point2d, .point, .plane] from rfl] at h1
    simp only [eachMap, skip .point2d nofun, skip .plane nofun, Outcome.bind_ok, Bool.false_eq_true,
      if_false] at h1
    simp only [World.offer, Outcome.bind_ok] at h1
    split at h1 <;> simp only [Outcome.ok.injEq, Prod.mk.injEq] at h1 <;> exact h1.1.symm
  have hb := hw .point
  intro t
  rw [hfin]
  cases t with
  | point2d =>
    have : (w1.put .point (addUpgraded (k .point) us (w1.view .point)).1).maps .point2d = m2 := by
      simp [World.put, e2]
    rw [this]; exact g1
  | point =>
    have : (w1.put .point (addUpgraded (k .point) us (w1.view .point)).1).maps .point =
        (addUpgraded (k .point) us (w1.view .point)).1.map := by simp [World.put]
    rw [this]
    have e1 : (w1.view .point).map = w.maps .point := eo .point nofun
    refine addUpgraded_bounded _ us (by rw [e1]; exact hb) ?_
    rw [e1]
    simp only [quota]
    omega
  | plane =>
    have : (w1.put .point (addUpgraded (k .point) us (w1.view .point)).1).maps .plane = w.maps .plane := by
      simp [World.put, eo]
    rw [this]; exact hw .plane

theorem update_bounded {cov : Env → Bool} {fuel : Nat} {env : Env} {det : FType → List D} {outliers : List Match}
    {n m : Nat} {w w' : World P} {b : Bool}
    (c2 : ∀ b, ∃ b', o2.copy b = some b') (c1 : ∀ b, ∃ b', o1.copy b = some b')
    (cp : ∀ b, ∃ b', op.copy b = some b')
    (hd : ∀ t, (det t).length ≤ perFrame n m t) (ha : ∀ t, (w.maps t).active = true)
    (hw : WBounded n m w) (hn : ∀ t, (allMatched (w.maps t)).Nodup)
    (h : World.update (programKinds o2 o1 op) cov fuel env det outliers w = .ok (w', b)) :
    WBounded n m w' := by
  unfold World.update at h
  split at h
  · simp only [Outcome.ok.injEq, Prod.mk.injEq] at h
    obtain ⟨rfl, -⟩ := h; exact hw
  obtain ⟨⟨w1, b1⟩, h1, h⟩ := Outcome.bind_eq_ok h
  have hm : ∀ t, (w.markOutliers outliers order).maps t = Map.markOutliers t outliers (w.maps t) := by
    intro t; rw [markOutliers_maps _ _ order_nodup, if_pos (mem_order t)]
  obtain ⟨a1, a2, -⟩ := eachMap_each
    (Q := fun t m' => m'.active = true ∧ Bounded (missLimit t) (quota n m t) (candidate t) m' ∧
      (allMatched m').Nodup)
    (R := fun t m' => Bounded (missLimit t) (quota n m t) (candidate t) m')
    (R' := fun t m' => unseen 0 m'.localMap + unseen 0 m'.staged ≤ perFrame n m t)
    (fun t v v' b' hq hv => updateOne_bounded (counters_program c2 c1 cp t) (hd t) (perFrame_le n m t)
      hq.1 hq.2.1 hq.2.2 hv)
    (fun t m' hq => hq.2.1) order order_nodup _ w1 b1 (fun t _ => by
      rw [hm]
      obtain ⟨x1, x2, -⟩ := markOutliers_core t outliers (w.maps t)
      exact ⟨by rw [markOutliers_active]; exact ha t, bounded_core x1 x2 (hw t),
        (hn t).sublist (markOutliers_sublist _ _ _)⟩) h1
  dsimp only at h
  split at h
  · simp only [Outcome.ok.injEq, Prod.mk.injEq] at h
    obtain ⟨rfl, -⟩ := h
    exact fun t => a1 t (mem_order t)
  · rename_i hb1
    exact upgrade_bounded c2 (fun t => a1 t (mem_order t)) (a2 (by simpa using hb1) .point (mem_order _)) h

theorem addAll_bounded {cov : Env → Bool} {env : Env} {det : FType → List D}
    {n m : Nat} {w w' : World P} {b : Bool}
    (c2 : ∀ b, ∃ b', o2.copy b = some b') (c1 : ∀ b, ∃ b', o1.copy b = some b')
    (cp : ∀ b, ∃ b', op.copy b = some b')
    (hd : ∀ t, (det t).length ≤ perFrame n m t) (hw : WBounded n m w)
    (h0 : ∀ t, unseen 0 (w.maps t).localMap + unseen 0 (w.maps t).staged = 0)
    (h : World.addAll (programKinds o2 o1 op) cov env det w = .ok (w', b)) : WBounded n m w' := by
  unfold World.addAll at h
  split at h
  · simp only [Outcome.ok.injEq, Prod.mk.injEq] at h
    obtain ⟨rfl, -⟩ := h; exact hw
  obtain ⟨a1, -, -⟩ := eachMap_each
    (Q := fun t m' => Bounded (missLimit t) (quota n m t) (candidate t) m' ∧
      unseen 0 m'.localMap + unseen 0 m'.staged = 0)
    (R := fun t m' => Bounded (missLimit t) (quota n m t) (candidate t) m')
    (R' := fun _ _ => True)
    (fun t v v' b' hq hv => by
      unfold World.addOne at hv
      split at hv
      · rename_i s hs
        simp only [Outcome.ok.injEq, Prod.mk.injEq] at hv
        obtain ⟨rfl, rfl⟩ := hv
        have hl := leftOver_le [] 0 (det t).length
        have := hd t
        have := perFrame_le n m t
        have hq2 : unseen 0 (v.view t).map.localMap + unseen 0 (v.view t).map.staged = 0 := hq.2
        obtain ⟨b1, -⟩ := stage_bounded (counters_program c2 c1 cp t) (s := v.view t) (M := quota n m t)
          hq.1 (by omega) hs
        refine ⟨?_, fun _ => trivial, fun u hu => by simp [World.put, hu]⟩
        have : (v.put t s).maps t = s.map := by simp [World.put]
        rw [this]; exact b1
      · simp only [Outcome.ok.injEq, Prod.mk.injEq] at hv
        obtain ⟨rfl, rfl⟩ := hv
        exact ⟨hq.1, fun _ => trivial, fun _ _ => rfl⟩
      all_goals cases hv)
    (fun t m' hq => hq.1) order order_nodup w w' b (fun t _ => ⟨hw t, h0 t⟩) h
  exact fun t => a1 t (mem_order t)

theorem miss_congr (k : Kind P D Env) {s s' : State P} (h : s.map = s'.map) :
    (updateNoTracking k s).map = (updateNoTracking k s').map := by
  unfold updateNoTracking
  rw [h]
  split
  · exact h
  · rfl

theorem noPose_bounded {n m : Nat} {w : World P}
    (c2 : ∀ b, ∃ b', o2.copy b = some b') (c1 : ∀ b, ∃ b', o1.copy b = some b')
    (cp : ∀ b, ∃ b', op.copy b = some b') (ha : ∀ t, (w.maps t).active = true) (hw : WBounded n m w) :
    WBounded n m (w.noPose (programKinds o2 o1 op) order) ∧
    ∀ t, unseen 0 ((w.noPose (programKinds o2 o1 op) order).maps t).localMap +
      unseen 0 ((w.noPose (programKinds o2 o1 op) order).maps t).staged = 0 := by
  have key : ∀ t, (w.noPose (programKinds o2 o1 op) order).maps t =
      (updateNoTracking (programKinds o2 o1 op t) (w.view t)).map := by
    intro t
    have gen : ∀ (ts : List FType), ts.Nodup → ∀ v : World P, (v.noPose (programKinds o2 o1 op) ts).maps t =
        if t ∈ ts then (updateNoTracking (programKinds o2 o1 op t) (v.view t)).map else v.maps t := by
      intro ts
      induction ts with
      | nil => intro _ v; rfl
      | cons u ts ih =>
        intro hn v
        rw [List.nodup_cons] at hn
        simp only [World.noPose]
        rw [ih hn.2]
        by_cases hu : t = u
        · subst hu
          rw [if_neg hn.1, if_pos List.mem_cons_self]
          simp [World.put]
        · have hne : ∀ s, (v.put u s).maps t = v.maps t := fun s => by simp [World.put, hu]
          by_cases ht : t ∈ ts
          · rw [if_pos ht, if_pos (List.mem_cons_of_mem _ ht)]
            exact miss_congr _ (hne _)
          · rw [if_neg ht, if_neg (by simp [hu, ht]), hne]
    rw [gen order order_nodup, if_pos (mem_order t)]
  constructor
  · intro t
    rw [key]
    exact (miss_bounded (counters_program c2 c1 cp t) (s := w.view t) (ha t) (hw t)).1
  · intro t
    rw [key]
    exact (miss_bounded (counters_program c2 c1 cp t) (s := w.view t) (ha t) (hw t)).2
end

/-- The searches of the program give a detection to one feature only. -/
theorem exclusive_program (g2 g1 : PointGeo P Desc Cam)
    (op : PlaneOps P (Detected Desc ⊕ Shape) (Cam × Handler Desc)) (c : Cam) {h : Handler Desc}
    {detected : List Keypoints.Pt} {tracked : List Keypoints.Tracked} (hf : Keypoints.Filled h detected tracked)
    (shapes : List Shape) (t : FType) :
    ∃ Owner, Exclusive (programKinds (withShapes (handlerOps g2)) (withShapes (handlerOps g1)) op t) (c, h)
      (frameDets (h, shapes) t) Owner := by
  cases t with
  | point2d =>
    have he := exclusive_point2d g2 c hf (Keypoints.detections h)
    exact ⟨fun _ _ => False, fun hx => hx.elim,
      fun f fl b adv hfl => he.find f fl b adv (by simpa [frameDets] using hfl), he.single⟩
  | point =>
    have he := exclusive_point g1 c hf (Keypoints.detections h)
    exact ⟨fun x i => Keypoints.trackIndex h x = some i, fun hx hy => he.unique hx hy,
      fun f fl b adv hfl => he.find f fl b adv (by simpa [frameDets] using hfl), he.single⟩
  | plane => exact ⟨_, exclusive_plane op (c, h) _⟩

/-- However long the run, whatever the camera sees and whatever the pose optimisation answers: if a frame never
has more than `n` keypoints and `m` planes, the map never holds more than 11 `n` 2D points, 132 `n` points and
10 `m` planes, candidates included. -/
theorem C199_map_size_bounded (g2 g1 : PointGeo P Desc Cam)
    (op : PlaneOps P (Detected Desc ⊕ Shape) (Cam × Handler Desc))
    (c2 : ∀ b, ∃ b', g2.copy b = some b') (c1 : ∀ b, ∃ b', g1.copy b = some b')
    (cp : ∀ b, ∃ b', op.copy b = some b')
    (cov : Cam × Handler Desc → Bool) (lt : Match → Match → Bool) (cam : Pose → Cam) (po : Slam.PoseOps Pose)
    (start : Pose) (frames : List (Slam.Frame (Outcome (World P)) (Handler Desc × List Shape) Pose Match))
    (hf : ∀ f ∈ frames, Handled f) (n m : Nat) (hnm : ∀ f ∈ frames, Spec.AtMost n m f)
    (s : Slam.State (Outcome (World P)) Pose) (outs : List (Slam.Out Pose))
    (h : Slam.run (localMapOps
        (programKinds (withShapes (handlerOps g2)) (withShapes (handlerOps g1)) op) cov lt
        (fun pose d => (cam pose, d.1)) frameDets) po frames (Slam.init start (.ok World.init)) =
      .ok (s, outs))
    (w : World P) (hw : s.localMap = .ok w) (hlt : w.alloc.given < 2 ^ 64) :
    Spec.size w .point2d ≤ 11 * n ∧ Spec.size w .point ≤ 132 * n ∧ Spec.size w .plane ≤ 10 * m := by
  have d2 : ∀ b, ∃ b', (withShapes (Shape := Shape) (handlerOps g2)).copy b = some b' := c2
  have d1 : ∀ b, ∃ b', (withShapes (Shape := Shape) (handlerOps g1)).copy b = some b' := c1
  let k := programKinds (withShapes (handlerOps g2)) (withShapes (handlerOps g1)) op
  have hty : ∀ t, (k t).type = t := programKinds_type _ _ _
  let I : Outcome (World P) → Prop := fun L => ∀ w, L = .ok w →
    Micros k World.init w ∧ (w.alloc.given < 2 ^ 64 → WBounded n m w)
  let O := localMapOps k cov lt (fun (pose : Pose) (d : Handler Desc × List Shape) => (cam pose, d.1)) frameDets
  have hact : ∀ v : World P, Micros k World.init v → ∀ t, (v.maps t).active = true := by
    intro v hv t; rw [micros_active hv t]; rfl
  have hfin := run_keeps (I := I) (ops := O) (frames := frames) (fun f hfm s s' o h0 hstep => by
    obtain ⟨det, ⟨b, hdet⟩, hcase⟩ := step_map hstep
    obtain ⟨hh0, im, detected, descs, tracked, hset⟩ := hf f hfm s.localMap s.currentPose b
    have hmost := hnm f hfm s.localMap s.currentPose b
    rw [← hdet] at hset hmost
    obtain ⟨hfill, -⟩ := Keypoints.set_spec hset
    have hlen : ∀ t, (frameDets det t).length ≤ perFrame n m t := by
      intro t
      cases t with
      | point2d => simpa [frameDets, detections_length, perFrame] using hmost.1
      | point => simpa [frameDets, detections_length, perFrame] using hmost.1
      | plane => simpa [frameDets, perFrame] using hmost.2
    have dead : ∀ L : Outcome (World P), (∀ v, L ≠ .ok v) →
        ((∃ opt out, s'.localMap = (O.update opt det out (O.find s.currentPose det L).1).1 ∨
          s'.localMap = O.updateNoPose (O.update opt det out (O.find s.currentPose det L).1).1) ∨
        s'.localMap = O.updateNoPose (O.find s.currentPose det L).1 ∨
        s'.localMap = O.addAll s.currentPose det (O.updateNoPose (O.find s.currentPose det L).1)) →
        I s'.localMap := by
      intro L hd hc
      have e : s'.localMap = L := by
        cases L with
        | ok v => exact absurd rfl (hd v)
        | _ => rcases hc with ⟨_, _, hc | hc⟩ | hc | hc <;> exact hc
      intro v hv
      exact absurd (e.symm.trans hv) (hd v)
    cases hL : s.localMap with
    | ok w0 =>
      obtain ⟨hm0, hb0⟩ := h0 w0 hL
      rw [hL] at hcase
      generalize hw1 : (w0.find k lt (cam s.currentPose, det.1) (frameDets det) order []).1 = w1
      have hfind : (O.find s.currentPose det (.ok w0)).1 = .ok w1 := by rw [← hw1]; rfl
      have hm1 : Micros k w0 w1 := by rw [← hw1]; exact find_micros ..
      have hmi1 : Micros k World.init w1 := hm0.trans hm1
      -- after matching: still bounded, and every detection is given to one feature
      have hb1 : w1.alloc.given < 2 ^ 64 → WBounded n m w1 ∧ ∀ t, (allMatched (w1.maps t)).Nodup := by
        intro hg
        have hg0 : w0.alloc.given < 2 ^ 64 := Nat.lt_of_le_of_lt (micros_given hm1) hg
        have hinv := winv_micros hm0 winv_init hg0
        have hwb := hb0 hg0
        have hmap : ∀ t, w1.maps t = (getMatches (k t) (cam s.currentPose, det.1) (frameDets det t) (w0.maps t)).1 := by
          intro t; rw [← hw1, find_maps _ _ _ _ _ order_nodup, if_pos (mem_order t)]
        constructor
        · intro t
          rw [hmap]
          obtain ⟨x1, x2, -⟩ := getMatches_core (k t) (cam s.currentPose, det.1) (frameDets det t) (w0.maps t)
          exact bounded_core x1 x2 (hwb t)
        · intro t
          rw [hmap]
          obtain ⟨Owner, he⟩ := exclusive_program g2 g1 op (cam s.currentPose) hfill det.2 t
          exact (getMatches_excl he (w0.maps t) (hact w0 hm0 t) (ids_nodup (hinv.each t))).1
      have hupd : ∀ opt out, I (O.update opt det out (.ok w1)).1 := by
        intro opt out v hv
        obtain ⟨⟨v', b'⟩, h2, e⟩ := Outcome.bind_eq_ok (f := fun x => .ok x.1)
          (x := w1.update k cov w1.budget (cam opt, det.1) (frameDets det) out) (by
            rw [← hv]
            change _ = (w1.update k cov w1.budget (cam opt, det.1) (frameDets det) out).map (·.1)
            cases w1.update k cov w1.budget (cam opt, det.1) (frameDets det) out <;> rfl)
        injection e with e
        subst e
        have hmu := update_micros hty h2
        refine ⟨hmi1.trans hmu, fun hg => ?_⟩
        obtain ⟨y1, y2⟩ := hb1 (Nat.lt_of_le_of_lt (micros_given hmu) hg)
        exact update_bounded d2 d1 cp hlen (hact w1 hmi1) y1 y2 h2
      have hno : ∀ L, I L → I (O.updateNoPose L) := by
        intro L hIL v hv
        cases L with
        | ok u =>
          obtain ⟨z1, z2⟩ := hIL u rfl
          have : O.updateNoPose (.ok u) = .ok (u.noPose k order) := rfl
          rw [this] at hv
          injection hv with hv
          subst hv
          refine ⟨z1.trans (noPose_micros k order u), fun hg => ?_⟩
          exact (noPose_bounded d2 d1 cp (hact u z1)
            (z2 (Nat.lt_of_le_of_lt (micros_given (noPose_micros k order u)) hg))).1
        | throws => cases hv
        | exit => cases hv
        | terminate => cases hv
        | ub => cases hv
        | outOfFuel => cases hv
      have hI1 : I (.ok w1) := by
        intro v hv
        injection hv with hv
        subst hv
        exact ⟨hmi1, fun hg => (hb1 hg).1⟩
      simp only at hcase
      rw [hfind] at hcase
      rcases hcase with ⟨opt, out, hc | hc⟩ | hc | hc <;> rw [hc]
      · exact hupd opt out
      · exact hno _ (hupd opt out)
      · exact hno _ hI1
      · intro v hv
        have hmn := noPose_micros k order w1
        obtain ⟨⟨v', b'⟩, h2, e⟩ := Outcome.bind_eq_ok (f := fun x => .ok x.1)
          (x := (w1.noPose k order).addAll k cov (cam s.currentPose, det.1) (frameDets det)) (by
            rw [← hv]
            change _ = ((w1.noPose k order).addAll k cov (cam s.currentPose, det.1) (frameDets det)).map (·.1)
            cases (w1.noPose k order).addAll k cov (cam s.currentPose, det.1) (frameDets det) <;> rfl)
        injection e with e
        subst e
        have hma := addAll_micros h2
        refine ⟨(hmi1.trans hmn).trans hma, fun hg => ?_⟩
        have hgn := Nat.lt_of_le_of_lt (micros_given hma) hg
        obtain ⟨y1, y2⟩ := noPose_bounded d2 d1 cp (hact w1 hmi1)
          ((hb1 (Nat.lt_of_le_of_lt (micros_given hmn) hgn)).1)
        exact addAll_bounded d2 d1 cp hlen y1 y2 h2
    | throws => rw [hL] at hcase; exact dead .throws nofun hcase
    | exit => rw [hL] at hcase; exact dead .exit nofun hcase
    | terminate => rw [hL] at hcase; exact dead .terminate nofun hcase
    | ub => rw [hL] at hcase; exact dead .ub nofun hcase
    | outOfFuel => rw [hL] at hcase; exact dead .outOfFuel nofun hcase) (fun v hv => by
      injection hv with hv
      subst hv
      refine ⟨.refl _, fun _ t => ⟨fun j => ?_, fun p hp => ?_, fun p hp => ?_⟩⟩
      · simp [World.init, FMap.empty]
      · simp [World.init, FMap.empty] at hp
      · simp [World.init, FMap.empty] at hp) h
  have hb := (hfin w hw).2 hlt
  refine ⟨(hb .point2d).size (counters_point2d (D := Detected Desc) (handlerOps g2) c2), ?_,
    (hb .plane).size (counters_plane op cp)⟩
  have := (hb .point).size (counters_point (D := Detected Desc) (handlerOps g1) c1)
  simp only [quota] at this
  unfold Spec.size
  omega

/-- The hypotheses are met by the run of `demoSystem`, frame after frame one keypoint: a map of one point. -/
example (h : Handler Nat) (hs : seen 1000 = .ok h) : Spec.AtMost 1 0 (sameFrame h) := by
  intro L p b
  have : ((seen 1000).holds fun h => decide (h.keypoints.length ≤ 1)) = true := by decide +kernel
  rw [hs] at this
  exact ⟨of_decide_eq_true this, Nat.le_refl 0⟩

example : ((demoSystem demoGeo 30).holds fun L => L.holds fun w =>
    Spec.size w .point == 1 && Spec.size w .point2d == 0 && Spec.size w .plane == 0 &&
    decide (w.alloc.given < 2 ^ 64)) = true := by
  decide +kernel

/-- Four frames of a keypoint, then four of another one far from it: the map holds both, more than a frame. -/
def twoPlaces : Outcome (Outcome (World Keypoints.Pt)) :=
  (seen 1000).bind fun h =>
    (Keypoints.set demoImage [⟨400, 400⟩] [0] [] (Keypoints.create 640 480)).bind fun h' =>
      (Slam.run (localMapOps (programKinds (withShapes (handlerOps demoGeo)) (withShapes (handlerOps demoGeo))
          noPlanes) (fun _ => true) (fun _ _ => false) (fun (_ : Nat) d => ((), d.1)) frameDets)
        ⟨fun _ => true, fun _ => true⟩ (List.replicate 4 (sameFrame h) ++ List.replicate 4 (sameFrame h'))
        (Slam.init 0 (.ok World.init))).map fun r => r.1.localMap

example : (twoPlaces.holds fun L => L.holds fun w => Spec.size w .point == 2) = true := by decide +kernel

end RgbdSlam.Map
