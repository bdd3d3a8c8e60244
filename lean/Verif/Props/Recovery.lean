import Verif.Props.Anew

/-! # C201: a camera that lost everything finds itself again

After any run of the program the camera sees nothing for eleven frames or more: the map is given up (C200) and the tracking is lost.  Then it
sees again at least 5 scene points.  The first such frame has no pose, and makes candidates of all it sees around the last pose.  From the
second such frame on every frame is tracked. -/

namespace RgbdSlam.Map.Anew

open Keypoints (Handler Detected Pt Tracked)

section loop

variable {P D Env Pose Det : Type} {base : Nat} {old : FType → List (Feat P)}

/-! ## Frames in which nothing is detected, on any map -/

/-- A frame in which nothing is detected, while the camera is thought to be at `p`: no feature of any map finds anything, and the
optimiser fails without matches. -/
structure Spec.Night (k : FType → Kind P D Env) (cov : Env → Bool) (env : Pose → Det → Env) (dets : Det → FType → List D) (p : Pose)
    (f : Slam.Frame (Outcome (World P)) Det Pose Match) (det : Det) : Prop where
  detect : ∀ L pose forced, f.detect L pose forced = det
  nothing : ∀ u, dets det u = []
  blind : ∀ u g flags tm adv, (k u).findMatches (env p det) [] g flags tm adv = ([], [])
  optimize : f.optimize p [] = none
  kcov : ∀ u, (k u).covValid (env p det) = true
  cov : cov (env p det) = true

theorem matchPass_night {k : Kind P D Env} {env : Env} (hb : ∀ g flags tm adv, k.findMatches env [] g flags tm adv = ([], []))
    (tm adv : Bool) (l : Store P) : (matchPass k env [] tm adv l []).2 = ([], []) := by
  induction l with
  | nil => rfl
  | cons a l ih =>
    obtain ⟨key, f⟩ := a
    rw [matchPass]
    simp only [hb, setFlags, List.foldl_nil]
    split
    · rw [ih]
    · simp [ih]

theorem matchOnce_night {k : Kind P D Env} {env : Env} (hb : ∀ g flags tm adv, k.findMatches env [] g flags tm adv = ([], []))
    (adv : Bool) (m : FMap P) (hm : m.active = true) :
    (matchOnce k env [] adv [] m).2 = [] ∧ (matchOnce k env [] adv [] m).1.active = true ∧ (matchOnce k env [] adv [] m).1.flags = [] := by
  have h1 := matchPass_night hb true adv m.localMap
  rw [matchOnce, hm]
  simp only [Bool.not_true, Bool.false_eq_true, if_false, List.length_nil, List.replicate_zero, h1]
  have h2 := matchPass_night hb (decide (0 < k.minFeatures * 3)) adv m.staged
  simp only [h2]
  simp

theorem getMatches_night {k : Kind P D Env} {env : Env} (hb : ∀ g flags tm adv, k.findMatches env [] g flags tm adv = ([], []))
    (m : FMap P) (hm : m.active = true) :
    (getMatches k env [] m).2 = [] ∧ (getMatches k env [] m).1.active = true ∧ (getMatches k env [] m).1.flags = [] := by
  obtain ⟨a1, a2, a3⟩ := matchOnce_night hb false m hm
  rw [getMatches]
  simp only [a1]
  split
  · exact matchOnce_night hb true _ a2
  · exact ⟨rfl, a2, a3⟩

theorem find_night {k : FType → Kind P D Env} {env : Env} {dets : FType → List D} (hd : ∀ u, dets u = [])
    (hb : ∀ u g flags tm adv, (k u).findMatches env [] g flags tm adv = ([], [])) (lt : Match → Match → Bool) {w : World P}
    (hw : ∀ u, (w.maps u).active = true) :
    ∃ w', w.find k lt env dets order [] = (w', []) ∧ (∀ u, (w'.maps u).active = true) ∧ (∀ u, (w'.maps u).flags = []) ∧
      w'.alloc = w.alloc := by
  have e : ∀ u, getMatches (k u) env (dets u) (w.maps u) = ((getMatches (k u) env (dets u) (w.maps u)).1, []) := by
    intro u
    have := (getMatches_night (hb u) (w.maps u) (hw u)).1
    rw [← hd u] at this
    exact Prod.ext rfl this
  have hm : ∀ t, (w.find k lt env dets order []).1.maps t = (getMatches (k t) env (dets t) (w.maps t)).1 := by
    intro t; rw [find_maps _ _ _ _ _ order_nodup, if_pos (mem_order t)]
  have hs : (w.find k lt env dets order []).2 = [] := by
    have em : mergeBy lt [] [] = [] := by rw [mergeBy]
    have f2 : ∀ u, (getMatches (k u) env (dets u) (w.maps u)).2 = [] := fun u => by rw [e u]
    simp only [World.find, order, World.put, World.view, reduceCtorEq, if_false, f2, em]
  refine ⟨_, Prod.ext rfl hs, fun u => ?_, fun u => ?_, (find_rest lt env dets order w []).1⟩
  · rw [hm, hd]; exact (getMatches_night (hb u) (w.maps u) (hw u)).2.1
  · rw [hm, hd]; exact (getMatches_night (hb u) (w.maps u) (hw u)).2.2

theorem addAll_night {k : FType → Kind P D Env} {env : Env} {dets : FType → List D} (cov : Env → Bool) (hcov : cov env = true)
    (hk : ∀ u, (k u).covValid env = true) (hd : ∀ u, dets u = []) {w : World P}
    (h1 : ∀ u, (w.maps u).active = true) (h7 : ∀ u, (w.maps u).flags = []) : w.addAll k cov env dets = .ok (w, false) := by
  have e : ∀ u, World.addOne k env dets u w = .ok (w, false) := by
    intro u
    have : stageAll (k u) env (dets u) (w.view u) = .ok (w.view u) := by
      rw [stageAll, stage, hd]
      simp [World.view, h1, hk, h7, stageFrom]
    rw [World.addOne, this]
    simp only [putView_same]
  rw [World.addAll, hcov]
  simp [order, eachMap, e]

theorem night_step {k : FType → Kind P D Env} (cov : Env → Bool) (lt : Match → Match → Bool)
    (env : Pose → Det → Env) (dets : Det → FType → List D) (po : Slam.PoseOps Pose) {p : Pose}
    {f : Slam.Frame (Outcome (World P)) Det Pose Match} {det : Det} (hf : Spec.Night k cov env dets p f det)
    {w : World P} (hw : ∀ u, (w.maps u).active = true) {s : Slam.State (Outcome (World P)) Pose}
    (hl : s.localMap = .ok w) (hp : s.currentPose = p) (hpv : po.covValid p = true) :
    ∃ s1 o1 w1, Slam.step (localMapOps k cov lt env dets) po f s = .ok (s1, o1) ∧ s1.currentPose = p ∧ s1.isFirstTrackingCall = false ∧
      o1.optimized = none ∧ s1.localMap = .ok w1 ∧ w1.alloc = w.alloc ∧ ∀ u, (w1.maps u).active = true := by
  obtain ⟨w1, e1, hact, hfl, hal⟩ := find_night hf.nothing hf.blind lt hw
  have hno := noPose_view (k := k) w1
  generalize hw2 : w1.noPose k order = w2 at hno
  have hkeep : ∀ u, (w2.maps u).active = true ∧ (w2.maps u).flags = [] := by
    intro u
    rw [(hno u).1, updateNoTracking]
    have h1 : (w1.view u).map.active = true := hact u
    rw [h1]
    exact ⟨h1, hfl u⟩
  have hadd := addAll_night cov hf.cov hf.kcov hf.nothing (fun u => (hkeep u).1) (fun u => (hkeep u).2)
  have hfind : (localMapOps k cov lt env dets).find p det (.ok w) = (.ok w1, []) := by
    simp only [localMapOps, alive, e1]
  have hnp : (localMapOps k cov lt env dets).updateNoPose (.ok w1) = .ok w2 := by
    rw [ops_noPose, hw2]
  have had : (localMapOps k cov lt env dets).addAll p det (.ok w2) = .ok w2 := by
    rw [ops_addAll, hadd]; rfl
  have hopt : (if s.isFirstTrackingCall = true then none else f.optimize p []) = none := by
    rw [hf.optimize]; split <;> rfl
  rw [Slam.step, hp, hl]
  simp only [hpv, if_true, hf.detect, hfind, hopt, hnp, had, ite_self]
  exact ⟨_, _, w2, rfl, rfl, rfl, rfl, rfl, (hno .point).2.2.trans hal, fun u => (hkeep u).1⟩

theorem night_steps {k : FType → Kind P D Env} (cov : Env → Bool) (lt : Match → Match → Bool)
    (env : Pose → Det → Env) (dets : Det → FType → List D) (po : Slam.PoseOps Pose) {p : Pose} (hpv : po.covValid p = true)
    (gs : List (Slam.Frame (Outcome (World P)) Det Pose Match)) (hg : ∀ f ∈ gs, ∃ det, Spec.Night k cov env dets p f det)
    {w : World P} (hw : ∀ u, (w.maps u).active = true) {s : Slam.State (Outcome (World P)) Pose}
    (hl : s.localMap = .ok w) (hp : s.currentPose = p) :
    ∃ s' outs w', Slam.run (localMapOps k cov lt env dets) po gs s = .ok (s', outs) ∧ s'.localMap = .ok w' ∧ w'.alloc = w.alloc ∧
      (∀ u, (w'.maps u).active = true) ∧ (∀ o ∈ outs, o.optimized = none) ∧ s'.currentPose = p ∧
      (gs ≠ [] → s'.isFirstTrackingCall = false) ∧ outs.length = gs.length := by
  induction gs generalizing w s with
  | nil => exact ⟨s, [], w, rfl, hl, rfl, hw, nofun, hp, fun h => absurd rfl h, rfl⟩
  | cons f gs ih =>
    obtain ⟨det, hf⟩ := hg f List.mem_cons_self
    obtain ⟨s1, o1, w1, e1, a1, a2, a3, a4, a5, a6⟩ := night_step cov lt env dets po hf hw hl hp hpv
    obtain ⟨s', outs, w', e, b1, b2, b3, b4, b5, b6, b7⟩ := ih (fun f hf => hg f (List.mem_cons_of_mem _ hf)) a6 a4 a1
    refine ⟨s', o1 :: outs, w', ?_, b1, b2.trans a5, b3, ?_, b5, fun _ => ?_, by simp [b7]⟩
    · rw [Slam.run, e1]
      simp only [Outcome.bind_ok]
      rw [e]
      rfl
    · intro o ho
      rcases List.mem_cons.1 ho with rfl | ho
      · exact a3
      · exact b4 o ho
    · cases gs with
      | nil =>
        simp only [Slam.run] at e
        injection e with e
        injection e with e
        rw [← e]
        exact a2
      | cons _ _ => exact b6 (by simp)

/-- After the night nothing is left in the maps. -/
theorem night_over {o2 o1 : PointOps P D Env} {op : PlaneOps P D Env} (cov : Env → Bool) (lt : Match → Match → Bool)
    (env : Pose → Det → Env) (dets : Det → FType → List D) (po : Slam.PoseOps Pose) (start : Pose)
    (fs gs : List (Slam.Frame (Outcome (World P)) Det Pose Match)) (s : Slam.State (Outcome (World P)) Pose) (outs : List (Slam.Out Pose))
    (h : Slam.run (localMapOps (programKinds o2 o1 op) cov lt env dets) po fs (Slam.init start (.ok World.init)) = .ok (s, outs))
    (w : World P) (hw : s.localMap = .ok w) (hlt : w.alloc.given < 2 ^ 64) (hpv : po.covValid s.currentPose = true)
    (hg : ∀ f ∈ gs, ∃ det, Spec.Night (programKinds o2 o1 op) cov env dets s.currentPose f det) (h11 : 11 ≤ gs.length)
    (hc : s.failedTrackingCount + gs.length < 2 ^ 32) :
    ∃ s' outs' w', Slam.run (localMapOps (programKinds o2 o1 op) cov lt env dets) po gs s = .ok (s', outs') ∧ s'.localMap = .ok w' ∧
      w'.alloc = ⟨w.alloc.given, w.alloc.given⟩ ∧ Spec.EmptyMap w' ∧ s'.currentPose = s.currentPose ∧
      (∀ o ∈ outs', o.returned = s.currentPose ∧ o.optimized = none) ∧ s'.isTrackingLost = true ∧ s'.isFirstTrackingCall = false ∧
      outs'.length = gs.length ∧
      ∀ t, ((w'.written t).map Spec.content).Perm ((w.written t).map Spec.content ++ (w.maps t).localMap.map (Spec.content ·.2)) := by
  have hty := programKinds_type o2 o1 op
  obtain ⟨w0, e0, hm⟩ := frames_micros hty fs _ _ _ h w hw
  injection e0 with e0
  subst e0
  have hact : ∀ u, (w.maps u).active = true := fun u => by rw [micros_active hm u]; rfl
  obtain ⟨s', outs', w', e, b1, b2, b3, b4, b5, b6, b7⟩ := night_steps cov lt env dets po hpv gs hg hact hw rfl
  have hlt' : w'.alloc.given < 2 ^ 64 := by rw [b2]; exact hlt
  obtain ⟨h1, h2⟩ := C200_map_given_up o2 o1 op cov lt env dets po start fs gs s s' outs outs' h e b4 w w' hw b1 hlt'
  obtain ⟨-, h3, h4⟩ := h2 hc
  obtain ⟨w1, e1, hm1⟩ := frames_micros hty gs _ _ _ e w' b1
  rw [hw] at e1
  injection e1 with e1
  subst e1
  have hinv := winv_micros hm1 (winv_micros hm winv_init hlt) hlt'
  have hok := ((winv_micros hm winv_init hlt).each .point).alloc hlt
  have hpat : ∀ t, Spec.patience t ≤ gs.length := fun t => by cases t <;> simp only [Spec.patience] <;> omega
  refine ⟨s', outs', w', e, b1, ?_, ⟨b3, fun u => ⟨(h1 u (hpat u)).1, ?_⟩⟩, b5, fun o ho => ⟨h3 o ho, b4 o ho⟩, h4 (by omega),
    b6 (by rintro rfl; simp at h11), b7, fun t => (h1 t (hpat t)).2.2⟩
  · rw [b2]
    have hok' : w.alloc.last = w.alloc.given := hok
    cases ha : w.alloc with
    | mk l g => rw [ha] at hok'; simp only at hok'; rw [hok']
  · cases hl : (w'.maps u).staged with
    | nil => rfl
    | cons a l =>
      have ha : a ∈ (w'.maps u).staged := hl ▸ List.mem_cons_self
      have hgt := (h1 u (hpat u)).2.1 a ha
      have hle : a.1 ≤ w'.alloc.given := idsOf_le (hinv.each u) (by
        simp only [idsOf, List.mem_append]
        exact .inl (.inr (List.mem_map_of_mem ha)))
      have hk : a.1 = a.2.id := (hinv.each u).keyedS a ha
      rw [b2] at hle
      omega

/-- A frame of the trip after `prev`: it detects `det`, and the optimiser moves the camera from `prev` to `next` and rejects nothing. -/
structure Spec.Leg (base : Nat) (o2 o : PointOps P D Env) (op : PlaneOps P D Env) (cov : Env → Bool) (env : Pose → Det → Env)
    (dets : Det → FType → List D) (po : Slam.PoseOps Pose) (Stands : Nat → P → Prop) (n : Nat) (prev next : Pose)
    (f : Slam.Frame (Outcome (World P)) Det Pose Match) (det : Det) : Prop where
  detect : ∀ L pose forced, f.detect L pose forced = det
  optimize : f.optimize prev (Spec.allFound base n) = some (next, [])
  len : (dets det .point).length = n
  sees : Spec.Sees base o (env prev det) (dets det .point) Stands
  merges : Spec.Merges o (env next det) (dets det .point) Stands
  plain : Spec.PlainFrame o2 o op (env next det) (dets det)
  cov : cov (env next det) = true
  valid : po.covValid next = true

theorem moving_steps {o2 o : PointOps P D Env} {op : PlaneOps P D Env} (cov : Env → Bool) (lt : Match → Match → Bool)
    (env : Pose → Det → Env) (dets : Det → FType → List D) (po : Slam.PoseOps Pose) {Stands : Nat → P → Prop} {n : Nat} (h5 : 5 ≤ n)
    {p : Pose} {qs : List Pose} {fs : List (Slam.Frame (Outcome (World P)) Det Pose Match)}
    (htrip : Spec.Trip (fun prev next f => ∃ det, Spec.Leg base o2 o op cov env dets po Stands n prev next f det) p qs fs) :
    ∀ (t : Nat) (w : World P) (s : Slam.State (Outcome (World P)) Pose), Spec.Settled base old Stands n t w → s.localMap = .ok w →
      s.currentPose = p → po.covValid p = true → s.isFirstTrackingCall = false →
      ∃ s' outs w', Slam.run (localMapOps (programKinds o2 o op) cov lt env dets) po fs s = .ok (s', outs) ∧
        s'.localMap = .ok w' ∧ Spec.Settled base old Stands n (t + qs.length) w' ∧ s'.currentPose = (p :: qs).getLast (by simp) ∧
        (qs ≠ [] → s'.failedTrackingCount = 0 ∧ s'.isTrackingLost = false) ∧ outs.map (·.returned) = qs ∧
        ∀ out ∈ outs, out.tracked = true ∧ out.reseeded = false ∧ out.lostAfter = false := by
  induction htrip with
  | home p =>
    intro t w s hw hl hp _ _
    exact ⟨s, [], w, rfl, hl, hw, hp, fun h => absurd rfl h, rfl, by simp⟩
  | @go p q qs f fs hleg htail ih =>
    intro t w s hw hl hp hpv hfirst
    obtain ⟨det, hleg⟩ := hleg
    have hlen := hleg.len
    obtain ⟨w1, e1, hw1⟩ := find_settled (o2 := o2) (op := op) hleg.sees (by rw [hlen]; exact h5) lt (by rw [hlen]; exact hw)
    obtain ⟨w2, e2, hw2⟩ := update_seen hleg.plain hleg.merges cov hleg.cov hw1
    rw [hlen] at e1 hw2
    have hfind : (localMapOps (programKinds o2 o op) cov lt env dets).find p det (.ok w) = (.ok w1, Spec.allFound base n) := by
      simp only [localMapOps, alive, e1]
    have hupd : (localMapOps (programKinds o2 o op) cov lt env dets).update q det [] (.ok w1) = (.ok w2, false) := by
      simp only [localMapOps, alive, e2]
      rfl
    obtain ⟨s1, o1, hstep, i1, i2, i3, i4, i5, i6, i7, i8⟩ : ∃ s1 o1,
        Slam.step (localMapOps (programKinds o2 o op) cov lt env dets) po f s = .ok (s1, o1) ∧ s1.localMap = .ok w2 ∧
          s1.currentPose = q ∧ s1.isFirstTrackingCall = false ∧ (s1.failedTrackingCount = 0 ∧ s1.isTrackingLost = false) ∧ o1.returned = q ∧
          o1.tracked = true ∧ o1.reseeded = false ∧ o1.lostAfter = false := by
      rw [Slam.step, hp, hl]
      simp only [hpv, if_true, hleg.detect, hfind, hfirst, Bool.false_eq_true, if_false, hleg.optimize, hupd]
      exact ⟨_, _, rfl, rfl, rfl, rfl, ⟨rfl, rfl⟩, rfl, rfl, rfl, rfl⟩
    obtain ⟨s', outs, w', er, g1, g2, g3, g4, g5, g6⟩ := ih (t + 1) w2 s1 hw2 i1 i2 hleg.valid i3
    refine ⟨s', o1 :: outs, w', ?_, g1, ?_, ?_, fun _ => ?_, by simp [i5, g5], ?_⟩
    · rw [Slam.run, hstep]
      simp only [Outcome.bind_ok]
      rw [er]
      rfl
    · rw [List.length_cons, show t + (qs.length + 1) = t + 1 + qs.length by omega]
      exact g2
    · rw [g3, List.getLast_cons_cons]
    · cases qs with
      | nil =>
        cases htail
        simp only [Slam.run] at er
        injection er with er
        injection er with er
        rw [← er]
        exact i4
      | cons _ _ => exact g4 (by simp)
    · intro out ho
      rcases List.mem_cons.1 ho with rfl | ho
      · exact ⟨i6, i7, i8⟩
      · exact g6 out ho


/-- The first frame that sees the scene again: without a pose, it makes candidates of all it sees. -/
theorem dawn_step {o2 o : PointOps P D Env} {op : PlaneOps P D Env} (cov : Env → Bool) (lt : Match → Match → Bool)
    (env : Pose → Det → Env) (dets : Det → FType → List D) (po : Slam.PoseOps Pose) {Stands : Nat → P → Prop} {n : Nat}
    (hn : base + n < 2 ^ 64) {p : Pose} {f : Slam.Frame (Outcome (World P)) Det Pose Match} {det : Det}
    (hdet : ∀ L pose forced, f.detect L pose forced = det) (hopt : f.optimize p [] = none) (hlen : (dets det .point).length = n)
    (hb : Spec.Builds o (env p det) (dets det .point) Stands) (hplain : Spec.PlainFrame o2 o op (env p det) (dets det))
    (hcov : cov (env p det) = true) (hpo : po.covValid p = true) (hpos : po.posCovValid p = true)
    {s : Slam.State (Outcome (World P)) Pose} {v : World P} (hl : s.localMap = .ok v) (hv : Spec.EmptyMap v) (ha : v.alloc = ⟨base, base⟩)
    (hp : s.currentPose = p) (hlost : s.isTrackingLost = true) (hfirst : s.isFirstTrackingCall = false) :
    ∃ s1 o1 w1, Slam.step (localMapOps (programKinds o2 o op) cov lt env dets) po f s = .ok (s1, o1) ∧ s1.localMap = .ok w1 ∧
      Spec.Settled base v.written Stands n 0 w1 ∧ s1.currentPose = p ∧ s1.isFirstTrackingCall = false ∧
      o1.returned = p ∧ o1.tracked = false ∧ o1.reseeded = true := by
  obtain ⟨w1, w2, e1, e2, hw2⟩ := first_settled hplain hb hv ha (by rw [hlen]; exact hn) cov hcov lt
  rw [hlen] at hw2
  have hfind : (localMapOps (programKinds o2 o op) cov lt env dets).find p det (.ok v) = (.ok w1, []) := by
    simp only [localMapOps, alive, e1]
  have hno : (localMapOps (programKinds o2 o op) cov lt env dets).addAll p det
      ((localMapOps (programKinds o2 o op) cov lt env dets).updateNoPose (.ok w1)) = .ok w2 := by
    rw [ops_noPose, ops_addAll, e2]
    rfl
  rw [Slam.step, hp, hl]
  simp only [hpo, if_true, hdet, hfind, hfirst, Bool.false_eq_true, if_false, hopt, hlost, hpos, hno, Bool.and_true]
  exact ⟨_, _, w2, rfl, rfl, hw2, rfl, rfl, rfl, rfl, rfl⟩

end loop

/-! ## Keypoints -/

variable {P Desc Cam Shape Pose : Type} {base : Nat}

/-- A frame whose keypoints are all followed by the optical flow from the map features `base + 1`, …, `base + n`; the scene points stay visible. -/
structure Spec.Followed (base : Nat) (g : PointGeo P Desc Cam) (Point : Nat → P → Prop) (n : Nat) (c : Cam) (h : Handler Desc) : Prop where
  flow : ∃ h0 im tracked, tracked.map (·.id) = (List.range n).map (base + · + 1) ∧ Keypoints.set im [] [] tracked h0 = .ok h
  visible : ∀ i b, Point i b → g.isMoving b = false ∧ g.isVisible c b = true

theorem redetected_sees {g : PointGeo P Desc Cam} {cols rows : Nat} (hc : cols < 2 ^ 31) (hr : rows < 2 ^ 31)
    (hcx : 31 < cols) (hry : 31 < rows) (hw : Keypoints.cellsFor rows ≤ Keypoints.cellsFor cols) {Point : Nat → P → Prop} {n : Nat} {c : Cam}
    {h : Handler Desc} (hv : Spec.Redetected g cols rows Point n c h) :
    Spec.Sees base (withShapes (Shape := Shape) (handlerOps g)) (c, h) (frameDets (h, []) .point) Point ∧
      (frameDets (Shape := Shape) (h, []) .point).length = n ∧
      ∀ d ∈ Keypoints.detections h, d.desc.isSome = true ∧ depthValid d.kp.depth = true := by
  obtain ⟨⟨h0, im, detected, descs, hh, hd, hn, e, hp⟩, hdepth⟩ := hv
  obtain ⟨hfl, -, -, -, hde⟩ := Keypoints.set_spec e
  have hkl : h.keypoints.length = detected.length := by
    have := congrArg List.length hfl.pts
    simpa using this
  have hlen : (frameDets (Shape := Shape) (h, []) .point).length = n := by
    simp [frameDets, Keypoints.detections, hkl, hn]
  have hno : ∀ id, Keypoints.trackIndex h id = none := by
    intro id
    cases ht : Keypoints.trackIndex h id with
    | none => rfl
    | some j =>
      obtain ⟨t, h1, -⟩ := trackIndex_spec hfl ht
      simp at h1
  refine ⟨⟨?_⟩, hlen, ?_⟩
  · intro i b hb
    have hb := hp i b hb
    refine ⟨hb.static, hb.visible, ?_⟩
    intro f _ hfb flags hflen hfi tm
    obtain ⟨p, q, d, hpr, -⟩ := hb.near
    have hwin := seenAs_recognised hc hr hcx hry hw hh hd e hb (flags := flags) (by rw [hflen, hlen, hkl, hn]) hfi []
    change pointFind (withShapes (handlerOps g)) _ _ _ _ _ _ = _
    have htr : ∀ id, (withShapes (Shape := Shape) (handlerOps g)).trackIndex (c, h) (frameDets (h, []) .point) id = none := hno
    have hon : (withShapes (Shape := Shape) (handlerOps g)).onScreen (c, h) f.body = true := by
      change (g.project c f.body).isSome = true
      rw [hfb, hpr]
      rfl
    have hwi : (withShapes (Shape := Shape) (handlerOps g)).window (c, h) (frameDets (h, []) .point) f.body flags 30 = [i] := by
      rw [hfb]
      exact hwin
    simp only [pointFind, htr, hon, if_true, matchSearchRadius, Bool.false_eq_true, if_false, hwi]
  · intro d hd'
    obtain ⟨i, hi⟩ := List.mem_iff_getElem?.1 hd'
    obtain ⟨hi', hdesc, -⟩ := detections_get hfl hi
    refine ⟨?_, hdepth d hd'⟩
    rw [hdesc, hde, List.getElem?_eq_getElem (by omega)]
    rfl

theorem followed_sees {g : PointGeo P Desc Cam} {Point : Nat → P → Prop} {n : Nat} {c : Cam} {h : Handler Desc}
    (hv : Spec.Followed base g Point n c h) (hpt : ∀ i b, Point i b → i < n) :
    Spec.Sees base (withShapes (Shape := Shape) (handlerOps g)) (c, h) (frameDets (h, []) .point) Point ∧
      (frameDets (Shape := Shape) (h, []) .point).length = n ∧ ∀ d ∈ Keypoints.detections h, d.desc = none := by
  obtain ⟨⟨h0, im, tracked, hids, e⟩, hvis⟩ := hv
  obtain ⟨hfl, -, -, -, hde⟩ := Keypoints.set_spec e
  have htl : tracked.length = n := by
    have := congrArg List.length hids
    simpa using this
  have hkl : h.keypoints.length = n := by
    have := congrArg List.length hfl.pts
    simpa [htl] using this
  have hid : ∀ (j : Nat) t, tracked[j]? = some t → t.id = base + j + 1 := by
    intro j t ht
    have hj := (List.getElem?_eq_some_iff.1 ht).1
    have := congrArg (·[j]?) hids
    simp only [List.getElem?_map, ht, Option.map_some] at this
    rw [List.getElem?_range (by omega)] at this
    simpa using this
  have hlen : (frameDets (Shape := Shape) (h, []) .point).length = n := by
    simp [frameDets, Keypoints.detections, hkl]
  have htrack : ∀ i < n, Keypoints.trackIndex h (base + i + 1) = some i := by
    intro i hi
    obtain ⟨j, hj⟩ := hfl.known tracked[i] (List.getElem_mem (by omega))
      (by rw [hid i _ (List.getElem?_eq_getElem (by omega))]; omega)
    rw [hid i _ (List.getElem?_eq_getElem (by omega))] at hj
    have hsome : ∃ k, h.ids.lookup (base + i + 1) = some k := by
      cases hk : h.ids.lookup (base + i + 1) with
      | some k => exact ⟨k, rfl⟩
      | none =>
        rw [List.lookup_eq_none_iff] at hk
        have := hk _ hj
        simp at this
    obtain ⟨k, hk⟩ := hsome
    have ht : Keypoints.trackIndex h (base + i + 1) = some k := by
      rw [Keypoints.trackIndex, if_neg, if_pos (by omega), hk]
      rw [List.isEmpty_iff]
      rintro h'
      rw [h'] at hkl
      simp at hkl
      omega
    obtain ⟨t, h1, -, h3⟩ := trackIndex_spec hfl ht
    simp only [List.length_nil, Nat.sub_zero] at h1
    have := hid k t h1
    rw [ht]
    congr 1
    omega
  refine ⟨⟨?_⟩, hlen, ?_⟩
  · intro i b hb
    refine ⟨(hvis i b hb).1, (hvis i b hb).2, ?_⟩
    intro f hfi _ flags _ _ tm
    change pointFind (withShapes (handlerOps g)) _ _ _ _ _ _ = _
    have htr : (withShapes (Shape := Shape) (handlerOps g)).trackIndex (c, h) (frameDets (h, []) .point) f.id = some i := by
      rw [hfi]
      exact htrack i (hpt i b hb)
    simp only [pointFind, htr]
  · intro d hd
    simp only [Keypoints.detections, List.mem_map] at hd
    obtain ⟨a, -, rfl⟩ := hd
    simp only [hde]
    rfl

/-- A frame of the trip: from the pose `prev`, the handler `h` sees the scene points, detected anew or followed; the optimiser
gives the pose `next` and rejects nothing; the detection of each point can be merged in its map point with that pose. -/
structure Spec.Stage (base : Nat) (g2 g : PointGeo P Desc Cam) (op : PlaneOps P (Detected Desc ⊕ Shape) (Cam × Handler Desc)) (cam : Pose → Cam)
    (cov : Cam × Handler Desc → Bool) (po : Slam.PoseOps Pose) (cols rows : Nat) (Point : Nat → P → Prop) (n : Nat) (prev next : Pose)
    (f : Slam.Frame (Outcome (World P)) (Handler Desc × List Shape) Pose Match) (h : Handler Desc) : Prop where
  detect : ∀ L pose forced, f.detect L pose forced = (h, [])
  optimize : f.optimize prev (Spec.allFound base n) = some (next, [])
  sees : Spec.Redetected g cols rows Point n (cam prev) h ∨ Spec.Followed base g Point n (cam prev) h
  merges : ∀ i d b, (Keypoints.detections h)[i]? = some d → Point i b → ∃ b', g.update (cam next) d b = .ok (b', true) ∧ Point i b'
  cov : cov (cam next, h) = true
  cov2 : g2.covValid (cam next) = true
  cov1 : g.covValid (cam next) = true
  covP : op.covValid (cam next, h) = true
  valid : po.covValid next = true

theorem stage_leg {g2 g : PointGeo P Desc Cam} {op : PlaneOps P (Detected Desc ⊕ Shape) (Cam × Handler Desc)} {cam : Pose → Cam}
    {cov : Cam × Handler Desc → Bool} {po : Slam.PoseOps Pose} {cols rows : Nat} (hc : cols < 2 ^ 31) (hr : rows < 2 ^ 31)
    (hcx : 31 < cols) (hry : 31 < rows) (hw : Keypoints.cellsFor rows ≤ Keypoints.cellsFor cols) {Point : Nat → P → Prop} {n : Nat}
    (hpt : ∀ i b, Point i b → i < n) (hcopy : ∀ i b, Point i b → ∃ b', g.copy b = some b' ∧ Point i b') {prev next : Pose}
    {f : Slam.Frame (Outcome (World P)) (Handler Desc × List Shape) Pose Match} {h : Handler Desc}
    (hs : Spec.Stage base g2 g op cam cov po cols rows Point n prev next f h) :
    Spec.Leg base (withShapes (handlerOps g2)) (withShapes (handlerOps g)) op cov (fun pose d => (cam pose, d.1)) frameDets po Point n prev next f
      (h, []) := by
  have hsee : Spec.Sees base (withShapes (Shape := Shape) (handlerOps g)) (cam prev, h) (frameDets (h, []) .point) Point ∧
      (frameDets (Shape := Shape) (h, []) .point).length = n ∧
      ∀ d ∈ Keypoints.detections h, (d.desc.isSome && !depthValid d.kp.depth) = false := by
    rcases hs.sees with hv | hv
    · obtain ⟨h1, h2, h3⟩ := redetected_sees (base := base) (Shape := Shape) hc hr hcx hry hw hv
      exact ⟨h1, h2, fun d hd => by simp [(h3 d hd).2]⟩
    · obtain ⟨h1, h2, h3⟩ := followed_sees (base := base) (Shape := Shape) hv hpt
      exact ⟨h1, h2, fun d hd => by simp [h3 d hd]⟩
  refine ⟨hs.detect, hs.optimize, hsee.2.1, hsee.1, ⟨?_, hcopy⟩, ⟨?_, rfl, hs.cov2, hs.cov1, hs.covP⟩, hs.cov, hs.valid⟩
  · intro i b x hb hx
    obtain ⟨d, rfl, hd'⟩ := frameDets_get hx
    exact hs.merges i d b hd' hb
  · intro x hx
    simp only [frameDets, List.mem_map] at hx
    obtain ⟨d, hd', rfl⟩ := hx
    exact hsee.2.2 d hd'


theorem Slam.run_append {L Det Match : Type} {ops : Slam.MapOps L Det Pose Match} {po : Slam.PoseOps Pose}
    {a b : List (Slam.Frame L Det Pose Match)} {s s1 s2 : Slam.State L Pose} {x y : List (Slam.Out Pose)}
    (h1 : Slam.run ops po a s = .ok (s1, x)) (h2 : Slam.run ops po b s1 = .ok (s2, y)) :
    Slam.run ops po (a ++ b) s = .ok (s2, x ++ y) := by
  induction a generalizing s x with
  | nil =>
    injection h1 with h1
    injection h1 with h1 h3
    subst h1 h3
    exact h2
  | cons f a ih =>
    obtain ⟨⟨s3, o⟩, h3, h1⟩ := Outcome.bind_eq_ok h1
    obtain ⟨⟨s4, os⟩, h4, h1⟩ := Outcome.bind_eq_ok h1
    injection h1 with h1
    injection h1 with h1 h5
    subst h1 h5
    rw [List.cons_append, Slam.run, h3]
    simp only [Outcome.bind_ok]
    rw [ih h4]
    rfl

/-- Nothing is detected in the frame: neither keypoints nor planes.  Without matches there is no pose. -/
def Spec.Blind {W : Type} (f : Slam.Frame W (Handler Desc × List Shape) Pose Match) : Prop :=
  (∃ h : Handler Desc, h.keypoints = [] ∧ ∀ L pose forced, f.detect L pose forced = (h, [])) ∧ ∀ p, f.optimize p [] = none

theorem find_blind (g : PointGeo P Desc Cam) (c : Cam) {h : Handler Desc} (hk : h.keypoints = []) (q : Feat P)
    (flags : List Bool) (tm adv : Bool) :
    point2dFind (withShapes (Shape := Shape) (handlerOps g)) (c, h) [] q flags tm adv = ([], []) := by
  have htr : (withShapes (Shape := Shape) (handlerOps g)).trackIndex (c, h) [] q.id = none := by
    change Keypoints.trackIndex h q.id = none
    rw [Keypoints.trackIndex, hk]
    rfl
  have hwi : ∀ r, (withShapes (Shape := Shape) (handlerOps g)).window (c, h) [] q.body flags r = [] := by
    intro r
    change (match g.project c q.body with
      | none => []
      | some p => match Keypoints.matchIndexes g.distance h p (g.descriptor q.body) flags r with
        | .ok l => l
        | _ => []) = []
    cases g.project c q.body with
    | none => rfl
    | some p => simp [Keypoints.matchIndexes, hk]
  simp [point2dFind, htr, hwi]

theorem blind_night {g2 g : PointGeo P Desc Cam} {op : PlaneOps P (Detected Desc ⊕ Shape) (Cam × Handler Desc)} {cam : Pose → Cam}
    {cov : Cam × Handler Desc → Bool} {p : Pose} (hcov : ∀ h, cov (cam p, h) = true) (hcov2 : g2.covValid (cam p) = true)
    (hcov1 : g.covValid (cam p) = true) (hcovP : ∀ h, op.covValid (cam p, h) = true)
    {f : Slam.Frame (Outcome (World P)) (Handler Desc × List Shape) Pose Match} (hf : Spec.Blind f) :
    ∃ det, Spec.Night (programKinds (withShapes (handlerOps g2)) (withShapes (handlerOps g)) op) cov
      (fun (pose : Pose) (d : Handler Desc × List Shape) => (cam pose, d.1)) frameDets p f det := by
  obtain ⟨⟨h, hk, hdet⟩, hopt⟩ := hf
  have hd : Keypoints.detections h = [] := by simp [Keypoints.detections, hk]
  refine ⟨(h, []), hdet, fun u => ?_, fun u q flags tm adv => ?_, hopt p, fun u => ?_, hcov h⟩
  · cases u <;> simp [frameDets, hd]
  · cases u
    · exact find_blind g2 _ hk q flags tm adv
    · exact pointFind_blind g _ hk q flags tm adv
    · change planeFind op _ [] q flags tm adv = _
      simp [planeFind, planeSearch]
  · cases u
    · exact hcov2
    · exact hcov1
    · exact hcovP h

/-- C201.  Take any run of the program, with any detections, poses and map.  Then the camera sees nothing for eleven frames or more.  Then it
sees at least 5 scene points again: `Point i b` says that `b` is a map point of the scene point `i`.  A first frame detects them, all of
known depth, and makes map points of them around the last pose; every later frame detects them again less than 30
pixels from where the previous pose puts them, or follows them, and the optimiser finds a pose with no outlier.

Then nothing goes wrong on the way: all dark frames and the first frame that sees return the last pose, the first frame that sees starts a new
map, and every later frame is tracked and returns the pose of the optimiser, however many there are.  The map holds one feature per
scene point, with the first ids that were never given before, and nothing else.  The map from before the loss was written to the output, each of its features
exactly once, and the new map did not change anything in the output. -/
theorem C201_found_again (g2 g : PointGeo P Desc Cam) (op : PlaneOps P (Detected Desc ⊕ Shape) (Cam × Handler Desc))
    (cam : Pose → Cam) (cov : Cam × Handler Desc → Bool) (lt : Match → Match → Bool) (po : Slam.PoseOps Pose)
    {cols rows : Nat} (hc : cols < 2 ^ 31) (hr : rows < 2 ^ 31)
    (hcx : 31 < cols) (hry : 31 < rows) (hw : Keypoints.cellsFor rows ≤ Keypoints.cellsFor cols)
    -- any run
    (start : Pose) (before : List (Slam.Frame (Outcome (World P)) (Handler Desc × List Shape) Pose Match))
    (s : Slam.State (Outcome (World P)) Pose) (outs : List (Slam.Out Pose))
    (hrun : Slam.run (localMapOps (programKinds (withShapes (handlerOps g2)) (withShapes (handlerOps g)) op) cov lt
        (fun pose d => (cam pose, d.1)) frameDets) po before (Slam.init start (.ok World.init)) = .ok (s, outs))
    (w : World P) (hmap : s.localMap = .ok w)
    (hpo : po.covValid s.currentPose = true) (hpos : po.posCovValid s.currentPose = true)
    (hcov : ∀ h, cov (cam s.currentPose, h) = true) (hcov2 : g2.covValid (cam s.currentPose) = true)
    (hcov1 : g.covValid (cam s.currentPose) = true) (hcovP : ∀ h, op.covValid (cam s.currentPose, h) = true)
    -- nothing is seen
    (dark : List (Slam.Frame (Outcome (World P)) (Handler Desc × List Shape) Pose Match)) (hdark : ∀ f ∈ dark, Spec.Blind f)
    (h11 : 11 ≤ dark.length) (hcount : s.failedTrackingCount + dark.length < 2 ^ 32)
    -- the scene is seen
    (Point : Nat → P → Prop) {n : Nat} (h5 : 5 ≤ n) (hn : w.alloc.given + n < 2 ^ 64) (hpt : ∀ i b, Point i b → i < n)
    (hcopy : ∀ i b, Point i b → ∃ b', g.copy b = some b' ∧ Point i b')
    (f : Slam.Frame (Outcome (World P)) (Handler Desc × List Shape) Pose Match) (h : Handler Desc)
    (hdet : ∀ L pose forced, f.detect L pose forced = (h, [])) (hopt : f.optimize s.currentPose [] = none)
    (hfirst : Spec.Redetected g cols rows Point n (cam s.currentPose) h)
    (hbuild : ∀ i d, (Keypoints.detections h)[i]? = some d → ∃ b, g.build (cam s.currentPose) d = some b ∧ Point i b)
    (poses : List Pose) (fs : List (Slam.Frame (Outcome (World P)) (Handler Desc × List Shape) Pose Match))
    (htrip : Spec.Trip (fun prev next f => ∃ h, Spec.Stage w.alloc.given g2 g op cam cov po cols rows Point n prev next f h)
      s.currentPose poses fs) :
    ∃ s' outs1 out outs2 w' old, Slam.run (localMapOps (programKinds (withShapes (handlerOps g2)) (withShapes (handlerOps g)) op) cov lt
        (fun pose d => (cam pose, d.1)) frameDets) po (dark ++ f :: fs) s = .ok (s', outs1 ++ out :: outs2) ∧
      outs1.length = dark.length ∧ (∀ o ∈ outs1, o.returned = s.currentPose ∧ o.optimized = none) ∧
      out.returned = s.currentPose ∧ out.tracked = false ∧ out.reseeded = true ∧
      outs2.map (·.returned) = poses ∧ (∀ o ∈ outs2, o.tracked = true ∧ o.reseeded = false ∧ o.lostAfter = false) ∧
      s'.currentPose = (s.currentPose :: poses).getLast (by simp) ∧
      (poses ≠ [] → s'.failedTrackingCount = 0 ∧ s'.isTrackingLost = false) ∧
      s'.localMap = .ok w' ∧ Spec.Settled w.alloc.given old Point n poses.length w' ∧
      ∀ t, ((old t).map Spec.content).Perm ((w.written t).map Spec.content ++ (w.maps t).localMap.map (Spec.content ·.2)) := by
  have hlt : w.alloc.given < 2 ^ 64 := by omega
  obtain ⟨s1, outs1, w1, e1, a1, a2, a3, a4, a5, a6, a7, a8, a9⟩ := night_over cov lt _ frameDets po start before dark s outs hrun w hmap hlt hpo
    (fun f hf => blind_night hcov hcov2 hcov1 hcovP (hdark f hf)) h11 hcount
  obtain ⟨-, hlen, hdd⟩ := redetected_sees (base := w.alloc.given) (Shape := Shape) hc hr hcx hry hw hfirst
  obtain ⟨s2, out, w2, e2, b1, b2, b3, b4, b5, b6, b7⟩ := dawn_step (o2 := withShapes (handlerOps g2)) (o := withShapes (handlerOps g)) (op := op)
    (Stands := Point) (p := s.currentPose) cov lt (fun (pose : Pose) (d : Handler Desc × List Shape) => (cam pose, d.1)) frameDets po hn hdet hopt hlen
    ⟨by
      intro i x hx
      obtain ⟨d, rfl, hd'⟩ := frameDets_get hx
      obtain ⟨h1, h2⟩ := hdd d (List.mem_of_getElem? hd')
      exact ⟨h1, h2, hbuild i d hd'⟩⟩
    ⟨by
      intro x hx
      simp only [frameDets, List.mem_map] at hx
      obtain ⟨d, hd', rfl⟩ := hx
      change (d.desc.isSome && !depthValid d.kp.depth) = false
      simp [(hdd d hd').2], rfl, hcov2, hcov1, hcovP h⟩ (hcov h) hpo hpos a1 a3 a2 a4 a6 a7
  have htrip' : Spec.Trip (fun prev next f => ∃ det, Spec.Leg w.alloc.given (withShapes (handlerOps g2)) (withShapes (handlerOps g)) op cov
      (fun (pose : Pose) (d : Handler Desc × List Shape) => (cam pose, d.1)) frameDets po Point n prev next f det) s.currentPose poses fs := by
    generalize hp0 : s.currentPose = p0 at htrip
    clear * - htrip hc hr hcx hry hw hpt hcopy
    induction htrip with
    | home p => exact .home p
    | go hs _ ih =>
      obtain ⟨h, hs⟩ := hs
      exact .go ⟨(h, []), stage_leg hc hr hcx hry hw hpt hcopy hs⟩ ih
  obtain ⟨s3, outs2, w3, e3, c1, c2, c3, c4, c5, c6⟩ := moving_steps cov lt _ frameDets po h5 htrip' 0 w2 s2 b2 b1 b3 hpo b4
  refine ⟨s3, outs1, out, outs2, w3, w1.written, Slam.run_append e1 ?_, a8, a5, b5, b6, b7, c5, c6, c3, c4, c1, by simpa using c2, a9⟩
  rw [Slam.run, e2]
  simp only [Outcome.bind_ok]
  rw [e3]
  rfl

/-! ## A camera that swings to and fro, is covered, and swings again -/

/-- The optimiser fails without matches, else it gives the pose `next`. -/
def wakeFrame (h : Handler Nat) (next : Nat) : Slam.Frame (Outcome (World Pt)) (Handler Nat × List Unit) Nat Match :=
  ⟨fun _ _ _ => (h, []), fun _ ms => if ms = [] then none else some (next, [])⟩

/-- The points of the wall, followed from the features 6 to 10. -/
def laterView (pose : Nat) : Outcome (Handler Nat) :=
  Keypoints.set demoImage [] [] ((shifted pose).zipIdx.map fun (q, i) => ⟨5 + i + 1, q⟩) (Keypoints.create 640 480)

/-- The hypotheses are met: a frame makes candidates of the five points of the wall, the camera is covered for eleven frames or more, and then
swings as often as one likes. -/
example : ∀ m n, 11 ≤ m → m < 2 ^ 32 → ∃ h before s outs w dark fs, newView 0 = .ok h ∧ dark.length = m ∧
    Slam.run (localMapOps (programKinds (withShapes (handlerOps wallGeo)) (withShapes (handlerOps wallGeo)) noWalls)
      (fun _ => true) (fun _ _ => false) (fun (pose : Nat) d => (shiftOf pose, d.1)) frameDets)
      ⟨fun _ => true, fun _ => true⟩ before (Slam.init 0 (.ok World.init)) = .ok (s, outs) ∧ s.localMap = .ok w ∧ w.alloc.given = 5 ∧
    ∃ s' outs1 out outs2 w' old, Slam.run (localMapOps (programKinds (withShapes (handlerOps wallGeo)) (withShapes (handlerOps wallGeo)) noWalls)
      (fun _ => true) (fun _ _ => false) (fun (pose : Nat) d => (shiftOf pose, d.1)) frameDets)
      ⟨fun _ => true, fun _ => true⟩ (dark ++ wakeFrame h 0 :: fs) s = .ok (s', outs1 ++ out :: outs2) ∧
      outs2.map (·.returned) = swing 0 n ∧ s'.localMap = .ok w' ∧ Spec.Settled 5 old OnWall 5 n w' := by
  obtain ⟨h0, e0, g0⟩ := holds_elim (show ((newView 0).holds fun h =>
    (Keypoints.detections h).all (fun d => depthValid d.kp.depth) && decide ((Keypoints.detections h).map (·.kp.pt) = shifted 0)) = true
    by decide +kernel)
  obtain ⟨h1, e1, g1⟩ := holds_elim (show ((newView 1).holds fun h =>
    (Keypoints.detections h).all (fun d => depthValid d.kp.depth) && decide ((Keypoints.detections h).map (·.kp.pt) = shifted 1)) = true
    by decide +kernel)
  obtain ⟨h2, e2, g2⟩ := holds_elim (show ((laterView 0).holds fun h =>
    decide ((Keypoints.detections h).map (·.kp.pt) = shifted 0)) = true by decide +kernel)
  simp only [Bool.and_eq_true, List.all_eq_true, decide_eq_true_eq] at g0 g1 g2
  have hmerge : ∀ (h : Handler Nat) (pose : Nat), (Keypoints.detections h).map (·.kp.pt) = shifted pose → ∀ (i : Nat) d b,
      (Keypoints.detections h)[i]? = some d → OnWall i b →
      (⟨d.kp.pt.x - shiftOf pose, d.kp.pt.y⟩ : Pt) = b := by
    intro h pose hp i d b hd hb
    have := congrArg (·[i]?) hp
    have hb' : spread[i]? = some b := hb
    simp only [List.getElem?_map, hd, shifted, hb', Option.map_some, Option.some.injEq] at this
    rw [this]
    cases b
    simp
  have hred : ∀ (h : Handler Nat) (prev next : Nat), newView next = .ok h → (∀ d ∈ Keypoints.detections h, depthValid d.kp.depth = true) →
      Spec.Redetected wallGeo 640 480 OnWall 5 (shiftOf prev) h := fun h prev next e g =>
    ⟨⟨Keypoints.create 640 480, demoImage, shifted next, [0, 0, 0, 0, 0], .create, by simp [shifted, spread], by simp [shifted, spread], e,
      fun i b hb => wall_seen hb⟩, g⟩
  have hbuild : ∀ (i : Nat) d, (Keypoints.detections h0)[i]? = some d → ∃ b, wallGeo.build (shiftOf 0) d = some b ∧ OnWall i b := by
    intro i d hd
    have hi : i < 5 := by
      have h1 := (List.getElem?_eq_some_iff.1 hd).1
      have h2 := congrArg List.length g0.2
      simp [shifted, spread] at h2
      omega
    refine ⟨_, rfl, ?_⟩
    have := hmerge h0 0 g0.2 i d spread[i] hd (List.getElem?_eq_getElem hi)
    change OnWall i ⟨d.kp.pt.x - shiftOf 0, d.kp.pt.y⟩
    rw [this]
    exact List.getElem?_eq_getElem hi
  have hfound : Spec.allFound 5 5 ≠ [] := by decide
  have htrip : ∀ n pose, (pose = 0 ∨ pose = 1) → ∃ fs,
      Spec.Trip (fun prev next f => ∃ h, Spec.Stage 5 wallGeo wallGeo noWalls shiftOf (fun _ => true) ⟨fun _ => true, fun _ => true⟩
        640 480 OnWall 5 prev next f h) pose (swing pose n) fs := by
    intro n
    induction n with
    | zero => exact fun pose _ => ⟨[], .home pose⟩
    | succ n ih =>
      intro pose hp
      rcases hp with rfl | rfl
      · obtain ⟨fs, ht⟩ := ih 1 (.inr rfl)
        refine ⟨wakeFrame h1 1 :: fs, .go ⟨h1, ⟨fun _ _ _ => rfl, by simp [wakeFrame, hfound], .inl (hred h1 0 1 e1 g1.1), ?_, rfl, rfl, rfl, rfl, rfl⟩⟩ ht⟩
        intro i d b hd hb
        refine ⟨_, rfl, ?_⟩
        have := hmerge h1 1 g1.2 i d b hd hb
        change OnWall i ⟨d.kp.pt.x - shiftOf 1, d.kp.pt.y⟩
        rw [this]
        exact hb
      · obtain ⟨fs, ht⟩ := ih 0 (.inl rfl)
        refine ⟨wakeFrame h2 0 :: fs, .go ⟨h2, ⟨fun _ _ _ => rfl, by simp [wakeFrame, hfound], .inr ⟨⟨Keypoints.create 640 480, demoImage, _, ?_, e2⟩,
          fun _ _ _ => ⟨rfl, rfl⟩⟩, ?_, rfl, rfl, rfl, rfl, rfl⟩⟩ ht⟩
        · decide +kernel
        · intro i d b hd hb
          refine ⟨_, rfl, ?_⟩
          have := hmerge h2 0 g2 i d b hd hb
          change OnWall i ⟨d.kp.pt.x - shiftOf 0, d.kp.pt.y⟩
          rw [this]
          exact hb
  intro m n hm hm32
  obtain ⟨fs, ht⟩ := htrip n 0 (.inl rfl)
  have hsw : ∀ n pose, (swing pose n).length = n := by
    intro n
    induction n with
    | zero => exact fun _ => rfl
    | succ n ih => exact fun pose => by rw [swing, List.length_cons, ih]
  obtain ⟨s, out, outs, w, r1, r2, r3, r4, r5, -⟩ := C187_moving_camera_partial wallGeo wallGeo noWalls shiftOf (fun _ => true)
    (fun _ _ => false) ⟨fun _ => true, fun _ => true⟩ (cols := 640) (rows := 480) (by norm_num) (by norm_num) (by norm_num) (by norm_num)
    (by decide) OnWall (n := 5) (by norm_num) (by norm_num) (fun i b hb => (List.getElem?_eq_some_iff.1 hb).1) (fun i b hb => ⟨b, rfl, hb⟩)
    0 (wallFrame h0 0) h0 (fun _ _ _ => rfl) (hred h0 0 0 e0 g0.1) hbuild rfl rfl rfl rfl rfl rfl [] [] (.home 0)
  have hg : w.alloc.given = 5 := by rw [r3.ids]
  have hp : s.currentPose = 0 := r4
  obtain ⟨s', outs1, out', outs2, w', old, q1, -, -, -, -, -, q2, -, -, -, q3, q4, -⟩ := C201_found_again wallGeo wallGeo noWalls shiftOf
    (fun _ => true) (fun _ _ => false) ⟨fun _ => true, fun _ => true⟩ (cols := 640) (rows := 480) (by norm_num) (by norm_num) (by norm_num)
    (by norm_num) (by decide) 0 _ s _ r1 w r2 rfl rfl (fun _ => rfl) rfl rfl (fun _ => rfl)
    (List.replicate m (wakeFrame (Keypoints.create 640 480) 0))
    (fun f hf => by
      rw [List.eq_of_mem_replicate hf]
      exact ⟨⟨_, rfl, fun _ _ _ => rfl⟩, fun _ => rfl⟩) (by simpa using hm) (by simpa [r5] using hm32)
    OnWall (n := 5) (by norm_num) (by rw [hg]; norm_num) (fun i b hb => (List.getElem?_eq_some_iff.1 hb).1) (fun i b hb => ⟨b, rfl, hb⟩)
    (wakeFrame h0 0) h0 (fun _ _ _ => rfl) rfl (by rw [hp]; exact hred h0 0 0 e0 g0.1) (by rw [hp]; exact hbuild) (swing 0 n) fs
    (by rw [hp, hg]; exact ht)
  rw [hsw, hg] at q4
  exact ⟨h0, _, s, _, w, _, fs, e0, List.length_replicate, r1, r2, hg, s', outs1, out', outs2, w', old, q1, q2, q3, q4⟩

end RgbdSlam.Map.Anew
