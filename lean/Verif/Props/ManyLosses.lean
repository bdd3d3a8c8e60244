import Verif.Props.ExportAfterLoss

/-! # C217: many losses

C202 and C216 are about one loss.  Here the camera is lost any number of times: the displacements add up, and the file holds one more copy of the
scene each time. -/

namespace RgbdSlam.Map.Anew

open Keypoints (Handler Detected Pt Tracked)
open Geometry Geometry.Spec Covariance Covariance.Spec Updates Matrix Writer
open Optimizer (PoseVar)

noncomputable section

variable {Desc S Shape : Type}

/-! ## Specification -/

/-- Frames with any number of losses.  At first the camera is at the true place `T`, and the program takes it for `E * T`; `base` is the number of
features made so far.  Each time, nothing is seen for eleven frames or more while the camera moves to a place `Q`, with `T = D * Q`; then the scene is seen
without measurement error, from `Q` and from the places `Ts`.  The last three arguments are the frames, the places that the program should
return, and the motions `D` that it did not see. -/
inductive Spec.Losses [Inhabited Desc] (sight : Sight Desc S) (pinv : Sq 3 → Sq 3) (fx fy cx cy : ℝ) (cols rows : Nat) (X : Nat → V3)
    (look : Nat → Desc) (n : Nat) :
    M4 → M4 → Nat → List (Slam.Frame (Outcome (World (Body Desc S))) (Handler Desc × List Shape) PoseVar Match) → List M4 → List M4 → Prop
  | none (E T : M4) (base : Nat) : Spec.Losses sight pinv fx fy cx cy cols rows X look n E T base [] [] []
  | again {E T D Q : M4} {base : Nat} {dark fs gs : List (Slam.Frame (Outcome (World (Body Desc S))) (Handler Desc × List Shape) PoseVar Match)}
      {f : Slam.Frame (Outcome (World (Body Desc S))) (Handler Desc × List Shape) PoseVar Match} {h : Handler Desc} {Ts places Ds : List M4}
      (blind : ∀ f ∈ dark, Spec.Blind f) (lost : 11 ≤ dark.length) (short : dark.length < 2 ^ 32)
      (motion : Spec.Rigid D) (there : Spec.Rigid Q) (moved : T = D * Q)
      (detect : ∀ L pose forced, f.detect L pose forced = (h, [])) (nothing : ∀ prev, f.optimize prev [] = none)
      (view : Spec.ExactView fx fy cx cy X look Q h)
      (found : ∀ prev, Spec.place prev = E * T →
        Spec.Redetected (geo1 sight pinv) cols rows (Spec.At (fun i => pointToWorld (E * D) (X i)) look n) n (Spec.cameraAt fx fy cx cy prev) h)
      (route : Spec.Route (fun T U f => ∃ h, Spec.TrueFrame base sight pinv fx fy cx cy cols rows X look n (E * D) T U f h) Q Ts fs)
      (enough : 3 ≤ Ts.length)
      (rest : Spec.Losses sight pinv fx fy cx cy cols rows X look n (E * D) ((Q :: Ts).getLast (by simp)) (base + n) gs places Ds) :
      Spec.Losses sight pinv fx fy cx cy cols rows X look n E T base (dark ++ f :: fs ++ gs)
        (List.replicate dark.length (E * T) ++ (Q :: Ts).map (E * D * ·) ++ places) (D :: Ds)

/-- The displacements after each loss: the products of the motions that were not seen. -/
def Spec.displacements (E : M4) : List M4 → List M4
  | [] => []
  | D :: Ds => E * D :: Spec.displacements (E * D) Ds

/-! ## One loss -/

theorem displaced_state [Inhabited Desc] (sight2 sight : Sight Desc S) {pinv : Sq 3 → Sq 3}
    (hpinv : ∀ A, IsCovariance A → IsPseudoInverse A (pinv A)) {fx fy cx cy : ℝ} (hfx : fx ≠ 0) (hfy : fy ≠ 0)
    (op : PlaneOps (Body Desc S) (Detected Desc ⊕ Shape) (Camera × Handler Desc)) (hop : ∀ c h, op.covValid (c, h) = isValid c.pose)
    (lt : Match → Match → Bool) {cols rows : Nat} (hc : cols < 2 ^ 31) (hr : rows < 2 ^ 31) (hcx : 31 < cols) (hry : 31 < rows)
    (hw : Keypoints.cellsFor rows ≤ Keypoints.cellsFor cols)
    -- any run
    {start : PoseVar} {before : List (Slam.Frame (Outcome (World (Body Desc S))) (Handler Desc × List Shape) PoseVar Match)}
    {s : Slam.State (Outcome (World (Body Desc S))) PoseVar} {outs : List (Slam.Out PoseVar)}
    (hrun : Slam.run (localMapOps (programKinds (withShapes (handlerOps (geo2 sight2 pinv))) (withShapes (handlerOps (geo1 sight pinv)))
          op) (fun e => isValid e.1.pose) lt (fun pose d => (Spec.cameraAt fx fy cx cy pose, d.1)) frameDets)
        ⟨fun p => isValid p.variance, fun p => isValid (firstPoseBlock p.variance)⟩ before (Slam.init start (.ok World.init)) = .ok (s, outs))
    {w : World (Body Desc S)} (hmap : s.localMap = .ok w) (hcov : IsCovariance s.currentPose.variance)
    -- nothing is seen
    {dark : List (Slam.Frame (Outcome (World (Body Desc S))) (Handler Desc × List Shape) PoseVar Match)} (hdark : ∀ f ∈ dark, Spec.Blind f)
    (h11 : 11 ≤ dark.length) (hcount : s.failedTrackingCount + dark.length < 2 ^ 32)
    -- the camera has moved
    {E Q : M4} (hE : Spec.Rigid E) (hQ : Spec.Rigid Q) (hlast : Spec.place s.currentPose = E * Q)
    -- the scene is seen
    {X : Nat → V3} {look : Nat → Desc} {n : Nat} (h5 : 5 ≤ n) (hn : w.alloc.given + n < 2 ^ 64)
    {f : Slam.Frame (Outcome (World (Body Desc S))) (Handler Desc × List Shape) PoseVar Match} {h : Handler Desc}
    (hdet : ∀ L pose forced, f.detect L pose forced = (h, [])) (hopt : f.optimize s.currentPose [] = none)
    (hview : Spec.ExactView fx fy cx cy X look Q h)
    (hfirst : Spec.Redetected (geo1 sight pinv) cols rows (Spec.At (fun i => pointToWorld E (X i)) look n) n
      (Spec.cameraAt fx fy cx cy s.currentPose) h) {Ts : List M4}
    {fs : List (Slam.Frame (Outcome (World (Body Desc S))) (Handler Desc × List Shape) PoseVar Match)}
    (hroute : Spec.Route (fun T U f => ∃ h, Spec.TrueFrame w.alloc.given sight pinv fx fy cx cy cols rows X look n E T U f h) Q Ts fs) (h3 : 3 ≤ Ts.length)
    {fmt : ℝ → List Char} (hf : OneWord fmt) (outline : S → List V3 × V3) :
    ∃ s' outs' w', Slam.run (localMapOps (programKinds (withShapes (handlerOps (geo2 sight2 pinv)))
          (withShapes (handlerOps (geo1 sight pinv))) op) (fun e => isValid e.1.pose) lt (fun pose d => (Spec.cameraAt fx fy cx cy pose, d.1)) frameDets)
        ⟨fun p => isValid p.variance, fun p => isValid (firstPoseBlock p.variance)⟩ (dark ++ f :: fs) s = .ok (s', outs') ∧
      outs'.map (fun o => Spec.place o.returned) = List.replicate dark.length (Spec.place s.currentPose) ++ (Q :: Ts).map (E * ·) ∧
      s'.localMap = .ok w' ∧ IsCovariance s'.currentPose.variance ∧ s'.failedTrackingCount = 0 ∧
      Spec.place s'.currentPose = E * (Q :: Ts).getLast (by simp) ∧ w'.alloc.given = w.alloc.given + n ∧
      (objVertices (exportedFile fmt outline w')).Perm
        (objVertices (exportedFile fmt outline w) ++ Spec.printed fmt (fun i => pointToWorld E (X i)) n) := by
  obtain ⟨poses, hmapP, hcs, ht⟩ := true_trip sight2 sight hpinv hfx hfy hop hE hroute s.currentPose hlast
  obtain ⟨-, hlen, hdd⟩ := redetected_sees (base := w.alloc.given) (Shape := Shape) hc hr hcx hry hw hfirst
  have hpose : isValid (Spec.cameraAt fx fy cx cy s.currentPose).pose = true := (firstPoseBlock_isCovariance hcov).valid
  obtain ⟨s', outs1, out, outs2, w', old, r1, r2, r3, r4, r5, r6, r7, r8, r9, r10, r11, r12, r13⟩ :=
    C201_found_again (geo2 sight2 pinv) (geo1 sight pinv) op
    (Spec.cameraAt fx fy cx cy) (fun e => isValid e.1.pose) lt
    ⟨fun p => isValid p.variance, fun p => isValid (firstPoseBlock p.variance)⟩ hc hr hcx hry hw start before s outs hrun w hmap hcov.valid hpose
    (fun _ => hpose) hpose hpose (fun _ => by rw [hop]; exact hpose) dark hdark h11 hcount
    (Spec.At (fun i => pointToWorld E (X i)) look n) h5 hn (fun i b hb => hb.1) (fun i b hb => exact_copy sight pinv hb) f h hdet hopt hfirst
    (fun i d hd => exact_build sight hfx hfy hcov (hlast ▸ view_moved hE hQ hview) hd (by
      have := (List.getElem?_eq_some_iff.1 hd).1
      have e : (frameDets (Shape := Shape) (h, []) .point).length = (Keypoints.detections h).length := by simp [frameDets]
      omega) (hdd d (List.mem_of_getElem? hd)).1) poses fs ht
  obtain ⟨s2, outs', w2, q1, q2, q3⟩ := C216_old_and_new sight2 sight hpinv hfx hfy op hop lt hc hr hcx hry hw hrun hmap hcov hdark h11 hcount hE hQ
    hlast h5 hn hdet hopt hview hfirst hroute hf outline
  rw [r1] at q1
  injection q1 with q1
  injection q1 with q1 q1'
  subst q1
  rw [r11] at q2
  injection q2 with q2
  subst q2
  rw [if_neg (by omega)] at q3
  have hl : poses.length = Ts.length := by simpa using congrArg List.length hmapP
  have hne : poses ≠ [] := by
    rintro rfl
    simp at hl
    omega
  refine ⟨s', _, w', r1, ?_, r11, ?_, (r10 hne).1, ?_, by rw [r12.ids], q3⟩
  · rw [List.map_append, List.map_cons, List.map_cons, r4, hlast, ← hmapP, ← r7, List.map_map]
    congr 1
    rw [List.eq_replicate_iff]
    refine ⟨by rw [List.length_map, r2], fun b hb => ?_⟩
    obtain ⟨o, ho, rfl⟩ := List.mem_map.1 hb
    rw [(r3 o ho).1, hlast]
  · rw [r9, List.getLast_cons hne]
    exact hcs _ (List.getLast_mem hne)
  · have e : (E * (Q :: Ts).getLast (by simp)) = ((Q :: Ts).map (E * ·)).getLast (by simp) := by rw [List.getLast_map]
    rw [r9, e, ← List.getLast_map (f := Spec.place) (by simp)]
    congr 1
    rw [List.map_cons, hmapP, hlast, List.map_cons]

theorem copies_length (fmt : ℝ → List Char) (X : Nat → V3) (n : Nat) (E : M4) (Ds : List M4) :
    ((Spec.displacements E Ds).flatMap fun E' => Spec.printed fmt (fun i => pointToWorld E' (X i)) n).length = n * Ds.length := by
  induction Ds generalizing E with
  | nil => simp [Spec.displacements]
  | cons D Ds ih => rw [Spec.displacements, List.flatMap_cons, List.length_append, ih, List.length_cons]; simp [Spec.printed]; ring

/-! ## C217 -/

/-- C217.  After any run that ends with a tracked frame, at a place that the program knows up to a rigid motion `E`, the camera is lost any number of times, and moves
each time while it sees nothing.  All measurements after the losses are exact.  Then every frame returns a pose, and the poses are the true places moved by `E` and by all
motions that were not seen so far: nothing ever corrects them.  At the end the file holds what it would have held before the first loss, and one copy of
the scene per loss, each moved by the motions that were not seen until then. -/
theorem C217_losses_add_up [Inhabited Desc] (sight2 sight : Sight Desc S) {pinv : Sq 3 → Sq 3}
    (hpinv : ∀ A, IsCovariance A → IsPseudoInverse A (pinv A)) {fx fy cx cy : ℝ} (hfx : fx ≠ 0) (hfy : fy ≠ 0)
    (op : PlaneOps (Body Desc S) (Detected Desc ⊕ Shape) (Camera × Handler Desc)) (hop : ∀ c h, op.covValid (c, h) = isValid c.pose)
    (lt : Match → Match → Bool) {cols rows : Nat} (hc : cols < 2 ^ 31) (hr : rows < 2 ^ 31) (hcx : 31 < cols) (hry : 31 < rows)
    (hw : Keypoints.cellsFor rows ≤ Keypoints.cellsFor cols) {X : Nat → V3} {look : Nat → Desc} {n : Nat} (h5 : 5 ≤ n)
    {fmt : ℝ → List Char} (hf : OneWord fmt) (outline : S → List V3 × V3) {E T : M4} (hE : Spec.Rigid E) {base : Nat}
    {fs : List (Slam.Frame (Outcome (World (Body Desc S))) (Handler Desc × List Shape) PoseVar Match)} {places Ds : List M4}
    (hlosses : Spec.Losses sight pinv fx fy cx cy cols rows X look n E T base fs places Ds) (hn : base + n * Ds.length < 2 ^ 64)
    -- any run
    {start : PoseVar} {before : List (Slam.Frame (Outcome (World (Body Desc S))) (Handler Desc × List Shape) PoseVar Match)}
    {s : Slam.State (Outcome (World (Body Desc S))) PoseVar} {outs : List (Slam.Out PoseVar)}
    (hrun : Slam.run (localMapOps (programKinds (withShapes (handlerOps (geo2 sight2 pinv)))
          (withShapes (handlerOps (geo1 sight pinv))) op) (fun e => isValid e.1.pose) lt (fun pose d => (Spec.cameraAt fx fy cx cy pose, d.1)) frameDets)
        ⟨fun p => isValid p.variance, fun p => isValid (firstPoseBlock p.variance)⟩ before (Slam.init start (.ok World.init)) = .ok (s, outs))
    {w : World (Body Desc S)} (hmap : s.localMap = .ok w) (hcov : IsCovariance s.currentPose.variance) (htracked : s.failedTrackingCount = 0)
    (hids : w.alloc.given = base) (hplace : Spec.place s.currentPose = E * T) :
    ∃ s' outs' w', Slam.run (localMapOps (programKinds (withShapes (handlerOps (geo2 sight2 pinv)))
          (withShapes (handlerOps (geo1 sight pinv))) op) (fun e => isValid e.1.pose) lt (fun pose d => (Spec.cameraAt fx fy cx cy pose, d.1)) frameDets)
        ⟨fun p => isValid p.variance, fun p => isValid (firstPoseBlock p.variance)⟩ fs s = .ok (s', outs') ∧
      outs'.map (fun o => Spec.place o.returned) = places ∧ s'.localMap = .ok w' ∧
      (objVertices (exportedFile fmt outline w')).Perm (objVertices (exportedFile fmt outline w) ++
        (Spec.displacements E Ds).flatMap fun E' => Spec.printed fmt (fun i => pointToWorld E' (X i)) n) := by
  induction hlosses generalizing before s outs w with
  | none E T base => exact ⟨s, [], w, rfl, rfl, hmap, by simp [Spec.displacements]⟩
  | @again E T D Q base dark fs gs f h Ts places Ds blind lost short motion there moved detect nothing view found route enough _ ih =>
    subst hids
    rw [List.length_cons, Nat.mul_add, Nat.mul_one] at hn
    have hlast : Spec.place s.currentPose = E * D * Q := by rw [hplace, moved, Matrix.mul_assoc]
    obtain ⟨s1, outs1, w1, r1, r2, r3, r4, r5, r6, r7, r8⟩ := displaced_state sight2 sight hpinv hfx hfy op hop lt hc hr hcx hry hw hrun hmap hcov
      blind lost (by rw [htracked, Nat.zero_add]; exact short) (rigid_mul hE motion) there hlast h5 (by omega) detect (nothing _) view (found _ hplace)
      route enough hf outline
    obtain ⟨s2, outs2, w2, q1, q2, q3, q4⟩ := ih (rigid_mul hE motion) (by omega) (Slam.run_append hrun r1) r3 r4 r5 r7 r6
    refine ⟨s2, outs1 ++ outs2, w2, Slam.run_append r1 q1, by rw [List.map_append, r2, q2, hplace], q3, q4.trans ?_⟩
    rw [Spec.displacements, List.flatMap_cons, ← List.append_assoc]
    exact r8.append_right _

/-- C217, the size of the file: with every loss it grows by the number of scene points, without bound. -/
theorem C217_file_grows [Inhabited Desc] (sight2 sight : Sight Desc S) {pinv : Sq 3 → Sq 3}
    (hpinv : ∀ A, IsCovariance A → IsPseudoInverse A (pinv A)) {fx fy cx cy : ℝ} (hfx : fx ≠ 0) (hfy : fy ≠ 0)
    (op : PlaneOps (Body Desc S) (Detected Desc ⊕ Shape) (Camera × Handler Desc)) (hop : ∀ c h, op.covValid (c, h) = isValid c.pose)
    (lt : Match → Match → Bool) {cols rows : Nat} (hc : cols < 2 ^ 31) (hr : rows < 2 ^ 31) (hcx : 31 < cols) (hry : 31 < rows)
    (hw : Keypoints.cellsFor rows ≤ Keypoints.cellsFor cols) {X : Nat → V3} {look : Nat → Desc} {n : Nat} (h5 : 5 ≤ n)
    {fmt : ℝ → List Char} (hf : OneWord fmt) (outline : S → List V3 × V3) {E T : M4} (hE : Spec.Rigid E) {base : Nat}
    {fs : List (Slam.Frame (Outcome (World (Body Desc S))) (Handler Desc × List Shape) PoseVar Match)} {places Ds : List M4}
    (hlosses : Spec.Losses sight pinv fx fy cx cy cols rows X look n E T base fs places Ds) (hn : base + n * Ds.length < 2 ^ 64)
    -- any run
    {start : PoseVar} {before : List (Slam.Frame (Outcome (World (Body Desc S))) (Handler Desc × List Shape) PoseVar Match)}
    {s : Slam.State (Outcome (World (Body Desc S))) PoseVar} {outs : List (Slam.Out PoseVar)}
    (hrun : Slam.run (localMapOps (programKinds (withShapes (handlerOps (geo2 sight2 pinv)))
          (withShapes (handlerOps (geo1 sight pinv))) op) (fun e => isValid e.1.pose) lt (fun pose d => (Spec.cameraAt fx fy cx cy pose, d.1)) frameDets)
        ⟨fun p => isValid p.variance, fun p => isValid (firstPoseBlock p.variance)⟩ before (Slam.init start (.ok World.init)) = .ok (s, outs))
    {w : World (Body Desc S)} (hmap : s.localMap = .ok w) (hcov : IsCovariance s.currentPose.variance) (htracked : s.failedTrackingCount = 0)
    (hids : w.alloc.given = base) (hplace : Spec.place s.currentPose = E * T) :
    ∃ s' outs' w', Slam.run (localMapOps (programKinds (withShapes (handlerOps (geo2 sight2 pinv)))
          (withShapes (handlerOps (geo1 sight pinv))) op) (fun e => isValid e.1.pose) lt (fun pose d => (Spec.cameraAt fx fy cx cy pose, d.1)) frameDets)
        ⟨fun p => isValid p.variance, fun p => isValid (firstPoseBlock p.variance)⟩ fs s = .ok (s', outs') ∧
      s'.localMap = .ok w' ∧ (objVertices (exportedFile fmt outline w')).length =
        (objVertices (exportedFile fmt outline w)).length + n * Ds.length := by
  obtain ⟨s', outs', w', r1, -, r3, r4⟩ := C217_losses_add_up sight2 sight hpinv hfx hfy op hop lt hc hr hcx hry hw h5 hf outline hE hlosses hn hrun hmap
    hcov htracked hids hplace
  exact ⟨s', outs', w', r1, r3, by rw [r4.length_eq, List.length_append, copies_length]⟩

/-! ## The camera that is pushed aside once, and covered again and again -/

theorem pushed_true {h1 : Handler Nat} (e1 : newView 1 = .ok h1) (base : Nat) :
    Spec.ExactView 1000 1000 0 0 wallPoint (fun _ => 0) (wallPlace 1) h1 ∧
    (∀ prev, Spec.place prev = wallPlace 0 → Spec.Redetected (geo1 wallSight (examplePinv 3)) 640 480
      (Spec.At (fun i => pointToWorld pushed (wallPoint i)) (fun _ => 0) 5) 5 (Spec.cameraAt 1000 1000 0 0 prev) h1) ∧
    Spec.TrueFrame base wallSight (examplePinv 3) 1000 1000 0 0 640 480 wallPoint (fun _ => 0) 5 pushed (wallPlace 1) (wallPlace 1)
      (dawnFrame h1 0) h1 := by
  obtain ⟨h1', e1', g1⟩ := holds_elim (show ((newView 1).holds fun h =>
    (Keypoints.detections h).all (fun d => decide (d.kp.depth = 1000 ∧ (d.desc = some 0 ∨ d.desc = none))) &&
      decide ((Keypoints.detections h).map (·.kp.pt) = shifted 1)) = true by decide +kernel)
  rw [e1] at e1'
  injection e1' with e1'
  subst e1'
  simp only [Bool.and_eq_true, List.all_eq_true, decide_eq_true_eq] at g1
  have hv1 := wall_view g1.2 g1.1
  have hagain : ∀ prev, Spec.place prev = wallPlace 0 → Spec.Redetected (geo1 wallSight (examplePinv 3)) 640 480
      (Spec.At (fun i => pointToWorld pushed (wallPoint i)) (fun _ => 0) 5) 5 (Spec.cameraAt 1000 1000 0 0 prev) h1 := fun prev hp =>
    ⟨⟨Keypoints.create 640 480, demoImage, shifted 1, [0, 0, 0, 0, 0], .create, by simp [shifted, spread],
        by simp [shifted, spread], e1, fun i b hb => pushed_seenAs hp hb⟩, fun d hd => by rw [(g1.1 d hd).1]; decide +kernel⟩
  refine ⟨hv1, hagain, fun _ _ _ => rfl, wallPlace_rigid 1, hv1, fun prev hprev => .inl (hagain prev (hprev.trans pushed_place.symm)),
    fun prev _ => ⟨wallPose 0, ?_, isCovariance_one, by simp [UnitQuat, wallPose], ?_⟩, ?_⟩
  · have hfound : Spec.allFound base 5 ≠ [] := by simp [Spec.allFound]
    simp [dawnFrame, hfound]
  · intro i d hd
    have := sees_moved pushed_rigid (wallPlace_rigid 1) (hv1 i d hd).1
    rw [← pushed_place] at this
    exact ⟨_, this⟩
  · rintro M ⟨R, t, hR, hRd, rfl⟩ hre
    exact wall_only_rigid g1.2 hR hRd hre

/-- Eleven covered frames and four frames in front of the wall. -/
def darkAndDawn (h1 : Handler Nat) : List (Slam.Frame (Outcome (World (Body Nat Unit))) (Handler Nat × List Unit) PoseVar Match) :=
  List.replicate 11 coveredFrame ++ dawnFrame h1 0 :: [dawnFrame h1 0, dawnFrame h1 0, dawnFrame h1 0]

theorem wall_losses {h1 : Handler Nat} (e1 : newView 1 = .ok h1) : ∀ k base, ∃ places,
    Spec.Losses wallSight (examplePinv 3) 1000 1000 0 0 640 480 wallPoint (fun _ => 0) 5 pushed (wallPlace 1) base
      (List.replicate k (darkAndDawn h1)).flatten places (List.replicate k 1)
  | 0, base => ⟨[], .none _ _ _⟩
  | k + 1, base => by
    obtain ⟨places, ih⟩ := wall_losses e1 k (base + 5)
    obtain ⟨hv, hagain, ht⟩ := pushed_true e1 base
    refine ⟨_, .again (E := pushed) (T := wallPlace 1) (D := 1) (Q := wallPlace 1) (dark := List.replicate 11 coveredFrame) (f := dawnFrame h1 0)
      (fs := [dawnFrame h1 0, dawnFrame h1 0, dawnFrame h1 0]) (places := places) (Ts := [wallPlace 1, wallPlace 1, wallPlace 1])
      (fun f hf => by
        rw [List.eq_of_mem_replicate hf]
        exact ⟨⟨Keypoints.create 640 480, rfl, fun _ _ _ => rfl⟩, fun _ => rfl⟩) (by simp) (by simp)
      ⟨1, 0, by simp, by simp, transformation_one.symm⟩ (wallPlace_rigid 1) (Matrix.one_mul _).symm (fun _ _ _ => rfl) (fun _ => rfl) hv ?_ ?_ (by simp) ?_⟩
    · intro prev hp
      rw [Matrix.mul_one]
      exact hagain prev (hp.trans pushed_place.symm)
    · rw [Matrix.mul_one]
      exact .go ⟨h1, ht⟩ (.go ⟨h1, ht⟩ (.go ⟨h1, ht⟩ (.home _)))
    · rw [Matrix.mul_one]
      exact ih

/-- The hypotheses are met, for any number of losses: the swinging camera of C193 sees the wall, is covered and pushed aside, and is covered again `k` times.  The file holds the wall
once where it is, and `k + 1` times beside it. -/
example (k : Nat) (hk : k < 2 ^ 32) : ∃ h h1 h2 : Handler Nat, newView 0 = .ok h ∧ newView 1 = .ok h1 ∧ flowView 0 = .ok h2 ∧
    ∃ s s' outs outs' w', Slam.run (localMapOps (programKinds (withShapes (handlerOps (geo2 wallSight (examplePinv 3))))
          (withShapes (handlerOps (geo1 wallSight (examplePinv 3)))) wallOps) (fun e => isValid e.1.pose) (fun _ _ => false)
          (fun pose d => (Spec.cameraAt 1000 1000 0 0 pose, d.1)) frameDets)
        ⟨fun p => isValid p.variance, fun p => isValid (firstPoseBlock p.variance)⟩
        (exactFrame h 0 :: [exactFrame h1 1, exactFrame h2 0, exactFrame h1 1, exactFrame h2 0])
        (Slam.init (wallPose 0) (.ok World.init)) = .ok (s, outs) ∧
      Slam.run (localMapOps (programKinds (withShapes (handlerOps (geo2 wallSight (examplePinv 3))))
          (withShapes (handlerOps (geo1 wallSight (examplePinv 3)))) wallOps) (fun e => isValid e.1.pose) (fun _ _ => false)
          (fun pose d => (Spec.cameraAt 1000 1000 0 0 pose, d.1)) frameDets)
        ⟨fun p => isValid p.variance, fun p => isValid (firstPoseBlock p.variance)⟩
        (darkAndDawn h1 ++ (List.replicate k (darkAndDawn h1)).flatten) s = .ok (s', outs') ∧
      s'.localMap = .ok w' ∧
      (objVertices (exportedFile wholeFmt (fun _ => ([], 0)) w')).length = 5 + 5 * (k + 1) := by
  obtain ⟨h, h1, h2, e0, e1, e2, x1, x2, hv, hf⟩ := swing_frames
  obtain ⟨s, outs, w, r1, -, r2, r3, r4, r5, -, r6⟩ := trip_state wallSight wallSight examplePinv_spec (by norm_num) (by norm_num) wallOps
    (fun _ _ => rfl) (fun _ _ => false) (cols := 640) (rows := 480) (by norm_num) (by norm_num) (by norm_num) (by norm_num) (by decide)
    (n := 5) (by norm_num) (by norm_num) (start := wallPose 0) isCovariance_one (f := exactFrame h 0) (fun _ _ _ => rfl)
    hv hf (Ts := [wallPlace 1, wallPlace 0, wallPlace 1, wallPlace 0])
    (.go ⟨h1, x1 0⟩ (.go ⟨h2, x2 1⟩ (.go ⟨h1, x1 0⟩ (.go ⟨h2, x2 1⟩ (.home _)))))
  obtain ⟨s0, outs0, w0, q1, q2, q3⟩ := C196_file_is_scene_partial wallSight wallSight examplePinv_spec (by norm_num) (by norm_num) wallOps
    (fun _ _ => rfl) (fun _ _ => false) (cols := 640) (rows := 480) (by norm_num) (by norm_num) (by norm_num) (by norm_num) (by decide)
    (n := 5) (by norm_num) (by norm_num) (start := wallPose 0) isCovariance_one (f := exactFrame h 0) (fun _ _ _ => rfl)
    hv hf (Ts := [wallPlace 1, wallPlace 0, wallPlace 1, wallPlace 0])
    (.go ⟨h1, x1 0⟩ (.go ⟨h2, x2 1⟩ (.go ⟨h1, x1 0⟩ (.go ⟨h2, x2 1⟩ (.home _))))) (by simp) (.home _ _) wholeFmt_oneWord (fun _ => ([], 0))
  rw [List.append_nil, r1] at q1
  injection q1 with q1
  injection q1 with q1 q1'
  rw [← q1, r2] at q2
  injection q2 with q2
  subst q2
  have hpl : Spec.place s.currentPose = 1 * wallPlace 0 := by rw [r4, Matrix.one_mul]; rfl
  have hg : w.alloc.given = 5 := by rw [r3.ids]
  obtain ⟨hv1, hagain, ht⟩ := pushed_true e1 5
  obtain ⟨places, hrest⟩ := wall_losses e1 k (5 + 5)
  obtain ⟨s', outs', w', p1, p2, p3⟩ := C217_file_grows wallSight wallSight examplePinv_spec (by norm_num) (by norm_num)
    wallOps (fun _ _ => rfl) (fun _ _ => false) (cols := 640) (rows := 480) (by norm_num) (by norm_num) (by norm_num) (by norm_num) (by decide)
    (n := 5) (by norm_num) wholeFmt_oneWord (fun _ => ([], 0)) (E := 1) (T := wallPlace 0) ⟨1, 0, by simp, by simp, transformation_one.symm⟩
    (Spec.Losses.again (E := 1) (T := wallPlace 0) (D := pushed) (Q := wallPlace 1) (dark := List.replicate 11 coveredFrame) (f := dawnFrame h1 0)
      (fs := [dawnFrame h1 0, dawnFrame h1 0, dawnFrame h1 0]) (places := places) (Ts := [wallPlace 1, wallPlace 1, wallPlace 1])
      (fun f hf => by
        rw [List.eq_of_mem_replicate hf]
        exact ⟨⟨Keypoints.create 640 480, rfl, fun _ _ _ => rfl⟩, fun _ => rfl⟩) (by simp) (by simp)
      pushed_rigid (wallPlace_rigid 1) pushed_place (fun _ _ _ => rfl) (fun _ => rfl) hv1
      (fun prev hp => by rw [Matrix.one_mul] at hp ⊢; exact hagain prev hp)
      (by rw [Matrix.one_mul]; exact .go ⟨h1, ht⟩ (.go ⟨h1, ht⟩ (.go ⟨h1, ht⟩ (.home _)))) (by simp)
      (by rw [Matrix.one_mul]; exact hrest))
    (by rw [List.length_cons, List.length_replicate]; omega) r1 r2 r5 r6 hg hpl
  rw [q3, List.length_cons, List.length_replicate] at p3
  exact ⟨h, h1, h2, e0, e1, e2, s, s', outs, outs', w', r1, p1, p2, by rw [p3]; simp [Spec.printed]⟩

end

end RgbdSlam.Map.Anew
