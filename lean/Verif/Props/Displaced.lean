import Verif.Props.Recovery

/-! # C202: what a movement in the dark does to the map

After a loss the program starts a new map around the last pose it knows (C201).  If the camera moved meanwhile, everything after the loss is
displaced by that movement: the poses and the map are those of the true scene moved by one and the same rigid motion. -/

namespace RgbdSlam.Map.Anew

open Keypoints (Handler Detected Pt Tracked)
open Geometry Geometry.Spec Covariance Covariance.Spec Updates Matrix
open Optimizer (PoseVar)

noncomputable section

variable {Desc S Shape : Type}

/-! ## Specification -/

/-- A rotation and a translation. -/
def Spec.Rigid (T : M4) : Prop := ∃ R t, Rᵀ * R = 1 ∧ R.det = 1 ∧ T = transformation R t

/-- A frame after a loss, taken from the place `T` after one taken from the place `T0`, without measurement error: the keypoints are the scene
points `X i` as seen from the true place `T`.  The program takes every place for the place moved by `E`, and has the scene points, moved by `E`, in its
map.  It finds them again from where it thinks it was, and its optimiser finds a pose without reprojection error.  From the true scene, only the
true place has none. -/
structure Spec.TrueFrame [Inhabited Desc] (base : Nat) (sight : Sight Desc S) (pinv : Sq 3 → Sq 3) (fx fy cx cy : ℝ) (cols rows : Nat)
    (X : Nat → V3) (look : Nat → Desc) (n : Nat) (E T0 T : M4)
    (f : Slam.Frame (Outcome (World (Body Desc S))) (Handler Desc × List Shape) PoseVar Match) (h : Handler Desc) : Prop where
  detect : ∀ L pose forced, f.detect L pose forced = (h, [])
  rigid : Spec.Rigid T
  view : Spec.ExactView fx fy cx cy X look T h
  found : ∀ prev, Spec.place prev = E * T0 →
    Spec.Redetected (geo1 sight pinv) cols rows (Spec.At (fun i => pointToWorld E (X i)) look n) n (Spec.cameraAt fx fy cx cy prev) h ∨
      Spec.Followed base (geo1 sight pinv) (Spec.At (fun i => pointToWorld E (X i)) look n) n (Spec.cameraAt fx fy cx cy prev) h
  optimised : ∀ prev, Spec.place prev = E * T0 → ∃ next, f.optimize prev (Spec.allFound base n) = some (next, []) ∧
    IsCovariance next.variance ∧ UnitQuat next.pose.orientation ∧
    Spec.Reprojects fx fy cx cy (fun i => pointToWorld E (X i)) (Spec.place next) h
  determined : ∀ M, Spec.Rigid M → Spec.Reprojects fx fy cx cy X M h → M = T

/-! ## Moving the scene and the camera together changes no pixel -/

theorem rigid_mul {A B : M4} (hA : Spec.Rigid A) (hB : Spec.Rigid B) : Spec.Rigid (A * B) := by
  obtain ⟨R, t, h1, h2, rfl⟩ := hA
  obtain ⟨R', t', h3, h4, rfl⟩ := hB
  exact ⟨R * R', R *ᵥ t' + t, orthogonal_mul h1 h3, by rw [det_mul, h2, h4, one_mul], transformation_mul ..⟩

theorem rigid_inv {A : M4} (hA : Spec.Rigid A) : Spec.Rigid A⁻¹ ∧ A⁻¹ * A = 1 ∧ A * A⁻¹ = 1 := by
  obtain ⟨R, t, h1, h2, rfl⟩ := hA
  have hu := transformation_det h1 t
  refine ⟨⟨Rᵀ, -(Rᵀ *ᵥ t), ?_, by rw [det_transpose, h2], transformation_inv h1 t⟩, nonsing_inv_mul _ hu, mul_nonsing_inv _ hu⟩
  rw [transpose_transpose]
  exact mul_eq_one_comm.1 h1

theorem rigid_point {A B : M4} (hA : Spec.Rigid A) (hB : Spec.Rigid B) (x : V3) :
    pointToWorld (A * B) x = pointToWorld A (pointToWorld B x) := by
  obtain ⟨R, t, -, -, rfl⟩ := hA
  obtain ⟨R', t', -, -, rfl⟩ := hB
  rw [transformation_mul, pointToWorld_transformation, pointToWorld_transformation, pointToWorld_transformation, mulVec_add, mulVec_mulVec,
    add_assoc]

theorem place_rigid {p : PoseVar} (hq : UnitQuat p.pose.orientation) : Spec.Rigid (Spec.place p) :=
  ⟨_, _, orthogonal_mul axesRotation_orthogonal (rotationMatrix_orthogonal hq),
    by rw [det_mul, axesRotation_det, Angles.toRotationMatrix_det hq, one_mul], cameraToWorld_eq _ _⟩

theorem sees_moved {fx fy cx cy : ℝ} {E T : M4} (hE : Spec.Rigid E) (hT : Spec.Rigid T) {x : V3} {u : V2} {z : ℝ}
    (h : Spec.SeesAt fx fy cx cy T x u z) : Spec.SeesAt fx fy cx cy (E * T) (pointToWorld E x) u z := by
  obtain ⟨y, rfl, h⟩ := h
  exact ⟨y, rigid_point hE hT y, h⟩

theorem view_moved {fx fy cx cy : ℝ} {E T : M4} (hE : Spec.Rigid E) (hT : Spec.Rigid T) {X : Nat → V3} {look : Nat → Desc} {h : Handler Desc}
    (hv : Spec.ExactView fx fy cx cy X look T h) : Spec.ExactView fx fy cx cy (fun i => pointToWorld E (X i)) look (E * T) h :=
  fun i d hd => ⟨sees_moved hE hT (hv i d hd).1, (hv i d hd).2⟩

/-- A place without reprojection error in the moved scene is the moved true place. -/
theorem determined_moved {fx fy cx cy : ℝ} {E T : M4} (hE : Spec.Rigid E) {X : Nat → V3} {h : Handler Desc}
    (hd : ∀ M, Spec.Rigid M → Spec.Reprojects fx fy cx cy X M h → M = T) {M : M4} (hM : Spec.Rigid M)
    (hre : Spec.Reprojects fx fy cx cy (fun i => pointToWorld E (X i)) M h) : M = E * T := by
  obtain ⟨hI, e1, e2⟩ := rigid_inv hE
  have := hd (E⁻¹ * M) (rigid_mul hI hM) (fun i d hid => by
    obtain ⟨z, hz⟩ := hre i d hid
    refine ⟨z, ?_⟩
    have hs := sees_moved hI hM hz
    have hone : pointToWorld (1 : M4) (X i) = X i := by
      rw [← transformation_one, pointToWorld_transformation]; simp
    rw [← rigid_point hI hE, e1, hone] at hs
    exact hs)
  rw [← this, ← Matrix.mul_assoc, e2, Matrix.one_mul]

theorem true_trip [Inhabited Desc] {base : Nat} (sight2 sight : Sight Desc S) {pinv : Sq 3 → Sq 3}
    (hpinv : ∀ A, IsCovariance A → IsPseudoInverse A (pinv A)) {fx fy cx cy : ℝ} (hfx : fx ≠ 0) (hfy : fy ≠ 0) {cols rows : Nat}
    {X : Nat → V3} {look : Nat → Desc} {n : Nat} {op : PlaneOps (Body Desc S) (Detected Desc ⊕ Shape) (Camera × Handler Desc)}
    (hop : ∀ c h, op.covValid (c, h) = isValid c.pose) {E : M4} (hE : Spec.Rigid E) {T0 : M4} {Ts : List M4}
    {fs : List (Slam.Frame (Outcome (World (Body Desc S))) (Handler Desc × List Shape) PoseVar Match)}
    (hr : Spec.Route (fun T U f => ∃ h, Spec.TrueFrame base sight pinv fx fy cx cy cols rows X look n E T U f h) T0 Ts fs) :
    ∀ prev, Spec.place prev = E * T0 → ∃ poses, poses.map Spec.place = Ts.map (E * ·) ∧ (∀ p ∈ poses, IsCovariance p.variance) ∧
      Spec.Trip (fun prev next f => ∃ h, Spec.Stage base (geo2 sight2 pinv) (geo1 sight pinv) op (Spec.cameraAt fx fy cx cy)
        (fun e => isValid e.1.pose) ⟨fun p => isValid p.variance, fun p => isValid (firstPoseBlock p.variance)⟩ cols rows
        (Spec.At (fun i => pointToWorld E (X i)) look n) n prev next f h) prev poses fs := by
  induction hr with
  | home T => exact fun prev _ => ⟨[], rfl, by simp, .home prev⟩
  | @go T U Us f fs hf _ ih =>
    intro prev hprev
    obtain ⟨h, hf⟩ := hf
    obtain ⟨next, e, hC, hq, hre⟩ := hf.optimised prev hprev
    have hplace : Spec.place next = E * U := determined_moved hE hf.determined (place_rigid hq) hre
    obtain ⟨poses, hmap, hcs, ht⟩ := ih next hplace
    have hpose : isValid (Spec.cameraAt fx fy cx cy next).pose = true := (firstPoseBlock_isCovariance hC).valid
    refine ⟨next :: poses, by rw [List.map_cons, hplace, hmap, List.map_cons],
      List.forall_mem_cons.2 ⟨hC, hcs⟩,
      .go ⟨h, ⟨hf.detect, e, hf.found prev hprev, ?_, hpose, hpose, hpose, ?_, hC.valid⟩⟩ ht⟩
    · intro i d b hd hb
      exact exact_merges sight hpinv hfx hfy hC (hplace ▸ view_moved hE hf.rigid hf.view) hd hb
    · rw [hop]; exact hpose

/-! ## C202 -/

/-- C202, in general.  After any run the camera sees nothing for eleven frames or more, and moves meanwhile to the place `Q`, from which it sees at
least 5 scene points.  The program thinks the camera still is at its last pose, which is `E * Q` for some rigid motion `E`.  From then on
measurements are exact.  Then, however long the trip is, every frame but the first is tracked, but every pose returned is the true place moved by `E`,
and every map point is the scene point moved by `E`.  A pose is the true one exactly when the camera had not moved. -/
theorem C202_displaced [Inhabited Desc] (sight2 sight : Sight Desc S) {pinv : Sq 3 → Sq 3}
    (hpinv : ∀ A, IsCovariance A → IsPseudoInverse A (pinv A)) {fx fy cx cy : ℝ} (hfx : fx ≠ 0) (hfy : fy ≠ 0)
    (op : PlaneOps (Body Desc S) (Detected Desc ⊕ Shape) (Camera × Handler Desc)) (hop : ∀ c h, op.covValid (c, h) = isValid c.pose)
    (lt : Match → Match → Bool) {cols rows : Nat} (hc : cols < 2 ^ 31) (hr : rows < 2 ^ 31) (hcx : 31 < cols) (hry : 31 < rows)
    (hw : Keypoints.cellsFor rows ≤ Keypoints.cellsFor cols)
    -- any run
    {start : PoseVar} {before : List (Slam.Frame (Outcome (World (Body Desc S))) (Handler Desc × List Shape) PoseVar Match)}
    {s : Slam.State (Outcome (World (Body Desc S))) PoseVar} {outs : List (Slam.Out PoseVar)}
    (hrun : Slam.run (localMapOps (programKinds (withShapes (handlerOps (geo2 sight2 pinv))) (withShapes (handlerOps (geo1 sight pinv)))
          op) (fun e => isValid e.1.pose) lt (fun pose d => (Spec.cameraAt fx fy cx cy pose, d.1)) frameDets)
        ⟨fun p => isValid p.variance, fun p => isValid (firstPoseBlock p.variance)⟩ before (Slam.init start (.ok World.init)) = .ok (s, outs))
    {w : World (Body Desc S)} (hmap : s.localMap = .ok w) (hcov : IsCovariance s.currentPose.variance)
    -- nothing is seen
    {dark : List (Slam.Frame (Outcome (World (Body Desc S))) (Handler Desc × List Shape) PoseVar Match)} (hdark : ∀ f ∈ dark, Spec.Blind f)
    (h11 : 11 ≤ dark.length) (hcount : s.failedTrackingCount + dark.length < 2 ^ 32)
    -- the camera has moved
    {E Q : M4} (hE : Spec.Rigid E) (hQ : Spec.Rigid Q) (hlast : Spec.place s.currentPose = E * Q)
    -- the scene is seen
    {X : Nat → V3} {look : Nat → Desc} {n : Nat} (h5 : 5 ≤ n) (hn : w.alloc.given + n < 2 ^ 64)
    {f : Slam.Frame (Outcome (World (Body Desc S))) (Handler Desc × List Shape) PoseVar Match} {h : Handler Desc}
    (hdet : ∀ L pose forced, f.detect L pose forced = (h, [])) (hopt : f.optimize s.currentPose [] = none)
    (hview : Spec.ExactView fx fy cx cy X look Q h)
    (hfirst : Spec.Redetected (geo1 sight pinv) cols rows (Spec.At (fun i => pointToWorld E (X i)) look n) n
      (Spec.cameraAt fx fy cx cy s.currentPose) h) {Ts : List M4}
    {fs : List (Slam.Frame (Outcome (World (Body Desc S))) (Handler Desc × List Shape) PoseVar Match)}
    (hroute : Spec.Route (fun T U f => ∃ h, Spec.TrueFrame w.alloc.given sight pinv fx fy cx cy cols rows X look n E T U f h) Q Ts fs) :
    ∃ s' outs1 out outs2 w', Slam.run (localMapOps (programKinds (withShapes (handlerOps (geo2 sight2 pinv)))
          (withShapes (handlerOps (geo1 sight pinv))) op) (fun e => isValid e.1.pose) lt (fun pose d => (Spec.cameraAt fx fy cx cy pose, d.1)) frameDets)
        ⟨fun p => isValid p.variance, fun p => isValid (firstPoseBlock p.variance)⟩ (dark ++ f :: fs) s = .ok (s', outs1 ++ out :: outs2) ∧
      outs1.length = dark.length ∧ s'.localMap = .ok w' ∧
      (out :: outs2).map (fun o => Spec.place o.returned) = (Q :: Ts).map (E * ·) ∧
      (∀ T ∈ Q :: Ts, E * T = T ↔ Spec.place s.currentPose = Q) ∧
      (∀ o ∈ outs2, o.tracked = true ∧ o.lostAfter = false) ∧
      (w'.maps .point).localMap.length + (w'.maps .point).staged.length = n ∧
      ∀ p ∈ (w'.maps .point).localMap ++ (w'.maps .point).staged, ∃ i q, p.2.body = .point q ∧ p.2.id = w.alloc.given + i + 1 ∧ i < n ∧
        q.tracked.coordinates = pointToWorld E (X i) := by
  obtain ⟨poses, hmapP, -, ht⟩ := true_trip sight2 sight hpinv hfx hfy hop hE hroute s.currentPose hlast
  obtain ⟨-, hlen, hdd⟩ := redetected_sees (base := w.alloc.given) (Shape := Shape) hc hr hcx hry hw hfirst
  have hpose : isValid (Spec.cameraAt fx fy cx cy s.currentPose).pose = true := (firstPoseBlock_isCovariance hcov).valid
  obtain ⟨s', outs1, out, outs2, w', old, r1, r2, r3, r4, r5, r6, r7, r8, r9, r10, r11, r12, r13⟩ :=
    C201_found_again (geo2 sight2 pinv) (geo1 sight pinv) op
    (Spec.cameraAt fx fy cx cy) (fun e => isValid e.1.pose) lt
    ⟨fun p => isValid p.variance, fun p => isValid (firstPoseBlock p.variance)⟩ hc hr hcx hry hw start before s outs hrun w hmap hcov.valid hpose
    (fun _ => hpose) hpose hpose (fun _ => by rw [hop]; exact hpose) dark hdark h11 hcount
    (Spec.At (fun i => pointToWorld E (X i)) look n) h5 hn (fun i b hb => hb.1) (fun i b hb => exact_copy sight pinv hb) f h hdet hopt hfirst
    (fun i d hd => exact_build sight hfx hfy hcov (hlast ▸ view_moved hE hQ hview) hd (by
      have := (List.getElem?_eq_some_iff.1 hd).1
      have e : (frameDets (Shape := Shape) (h, []) .point).length = (Keypoints.detections h).length := by simp [frameDets]
      omega) (hdd d (List.mem_of_getElem? hd)).1) poses fs ht
  have hrow : ∀ {t : Int} {l : Store (Body Desc S)}, Spec.Rows w.alloc.given (Spec.At (fun i => pointToWorld E (X i)) look n) n t l →
      l.length = n ∧ ∀ p ∈ l, ∃ i q, p.2.body = .point q ∧
        p.2.id = w.alloc.given + i + 1 ∧ i < n ∧ q.tracked.coordinates = pointToWorld E (X i) := by
    intro t l hl
    refine ⟨?_, ?_⟩
    · rw [← List.Forall₂.length_eq hl, List.length_range]
    intro p hp
    obtain ⟨j, hj, hjp⟩ := List.mem_iff_getElem.1 hp
    have := (List.forall₂_iff_get.1 hl).2 j (by rw [(List.forall₂_iff_get.1 hl).1]; exact hj) hj
    rw [List.get_eq_getElem, List.get_eq_getElem, hjp] at this
    obtain ⟨-, hid, -, -, hi, q, hq, hx, -⟩ := this
    exact ⟨_, q, hq, hid, hi, hx⟩
  have hone : ∀ T, Spec.Rigid T → (E * T = T ↔ E = 1) := by
    intro T hT
    obtain ⟨-, -, e2⟩ := rigid_inv hT
    refine ⟨fun h => ?_, fun h => by rw [h, Matrix.one_mul]⟩
    have := congrArg (· * T⁻¹) h
    simpa only [Matrix.mul_assoc, e2, Matrix.mul_one] using this
  have hrig : ∀ T ∈ Ts, Spec.Rigid T := by
    clear * - hroute
    induction hroute with
    | home => simp
    | go hf _ ih =>
      obtain ⟨h, hf⟩ := hf
      intro T hT
      rcases List.mem_cons.1 hT with rfl | hT
      · exact hf.rigid
      · exact ih T hT
  refine ⟨s', outs1, out, outs2, w', r1, r2, r11, ?_, ?_, fun o ho => ⟨(r8 o ho).1, (r8 o ho).2.2⟩, ?_, ?_⟩
  · rw [List.map_cons, List.map_cons, r4, hlast, ← hmapP, ← r7, List.map_map]
    rfl
  · intro T hT
    have hT' : Spec.Rigid T := by
      rcases List.mem_cons.1 hT with rfl | hT
      · exact hQ
      · exact hrig T hT
    rw [hone T hT', hlast, hone Q hQ]
  · have hp := r12.points
    split at hp
    · rw [hp.1, (hrow hp.2).1]; simp
    · rw [hp.1, (hrow hp.2).1]; simp
  · have hp := r12.points
    intro p hm
    split at hp
    · rw [hp.1, List.nil_append] at hm
      exact (hrow hp.2).2 p hm
    · rw [hp.1, List.append_nil] at hm
      exact (hrow hp.2).2 p hm

/-- C202, for a camera that did not move in the dark: every pose after the loss is the true place, and the map is the scene.  Missing: the camera
that moved (`C202_moved_in_the_dark_false`), for which `C202_displaced` says what the poses and the map are. -/
theorem C202_true_after_loss_partial [Inhabited Desc] (sight2 sight : Sight Desc S) {pinv : Sq 3 → Sq 3}
    (hpinv : ∀ A, IsCovariance A → IsPseudoInverse A (pinv A)) {fx fy cx cy : ℝ} (hfx : fx ≠ 0) (hfy : fy ≠ 0)
    (op : PlaneOps (Body Desc S) (Detected Desc ⊕ Shape) (Camera × Handler Desc)) (hop : ∀ c h, op.covValid (c, h) = isValid c.pose)
    (lt : Match → Match → Bool) {cols rows : Nat} (hc : cols < 2 ^ 31) (hr : rows < 2 ^ 31) (hcx : 31 < cols) (hry : 31 < rows)
    (hw : Keypoints.cellsFor rows ≤ Keypoints.cellsFor cols)
    {start : PoseVar} {before : List (Slam.Frame (Outcome (World (Body Desc S))) (Handler Desc × List Shape) PoseVar Match)}
    {s : Slam.State (Outcome (World (Body Desc S))) PoseVar} {outs : List (Slam.Out PoseVar)}
    (hrun : Slam.run (localMapOps (programKinds (withShapes (handlerOps (geo2 sight2 pinv))) (withShapes (handlerOps (geo1 sight pinv)))
          op) (fun e => isValid e.1.pose) lt (fun pose d => (Spec.cameraAt fx fy cx cy pose, d.1)) frameDets)
        ⟨fun p => isValid p.variance, fun p => isValid (firstPoseBlock p.variance)⟩ before (Slam.init start (.ok World.init)) = .ok (s, outs))
    {w : World (Body Desc S)} (hmap : s.localMap = .ok w) (hcov : IsCovariance s.currentPose.variance)
    {dark : List (Slam.Frame (Outcome (World (Body Desc S))) (Handler Desc × List Shape) PoseVar Match)} (hdark : ∀ f ∈ dark, Spec.Blind f)
    (h11 : 11 ≤ dark.length) (hcount : s.failedTrackingCount + dark.length < 2 ^ 32)
    (hlast : Spec.Rigid (Spec.place s.currentPose))
    {X : Nat → V3} {look : Nat → Desc} {n : Nat} (h5 : 5 ≤ n) (hn : w.alloc.given + n < 2 ^ 64)
    {f : Slam.Frame (Outcome (World (Body Desc S))) (Handler Desc × List Shape) PoseVar Match} {h : Handler Desc}
    (hdet : ∀ L pose forced, f.detect L pose forced = (h, [])) (hopt : f.optimize s.currentPose [] = none)
    (hview : Spec.ExactView fx fy cx cy X look (Spec.place s.currentPose) h)
    (hfirst : Spec.Redetected (geo1 sight pinv) cols rows (Spec.At X look n) n (Spec.cameraAt fx fy cx cy s.currentPose) h) {Ts : List M4}
    {fs : List (Slam.Frame (Outcome (World (Body Desc S))) (Handler Desc × List Shape) PoseVar Match)}
    (hroute : Spec.Route (fun T U f => ∃ h, Spec.TrueFrame w.alloc.given sight pinv fx fy cx cy cols rows X look n 1 T U f h)
      (Spec.place s.currentPose) Ts fs) :
    ∃ s' outs1 out outs2 w', Slam.run (localMapOps (programKinds (withShapes (handlerOps (geo2 sight2 pinv)))
          (withShapes (handlerOps (geo1 sight pinv))) op) (fun e => isValid e.1.pose) lt (fun pose d => (Spec.cameraAt fx fy cx cy pose, d.1)) frameDets)
        ⟨fun p => isValid p.variance, fun p => isValid (firstPoseBlock p.variance)⟩ (dark ++ f :: fs) s = .ok (s', outs1 ++ out :: outs2) ∧
      outs1.length = dark.length ∧ s'.localMap = .ok w' ∧
      (out :: outs2).map (fun o => Spec.place o.returned) = Spec.place s.currentPose :: Ts ∧
      (∀ o ∈ outs2, o.tracked = true ∧ o.lostAfter = false) ∧
      (w'.maps .point).localMap.length + (w'.maps .point).staged.length = n ∧
      ∀ p ∈ (w'.maps .point).localMap ++ (w'.maps .point).staged, ∃ i q, p.2.body = .point q ∧ p.2.id = w.alloc.given + i + 1 ∧ i < n ∧
        q.tracked.coordinates = X i := by
  have hone : ∀ x, pointToWorld (1 : M4) x = x := by
    intro x
    rw [← transformation_one, pointToWorld_transformation]; simp
  obtain ⟨s', outs1, out, outs2, w', r1, r2, r3, r4, -, r5, r6, r7⟩ := C202_displaced sight2 sight hpinv hfx hfy op hop lt hc hr hcx hry hw hrun hmap
    hcov hdark h11 hcount (E := 1) ⟨1, 0, by simp, by simp, transformation_one.symm⟩ hlast (by rw [Matrix.one_mul]) h5 hn hdet hopt hview
    (by simpa only [hone] using hfirst) hroute
  refine ⟨s', outs1, out, outs2, w', r1, r2, r3, by simpa using r4, r5, r6, fun p hp => ?_⟩
  obtain ⟨i, q, h1, h2, h3, h4⟩ := r7 p hp
  exact ⟨i, q, h1, h2, h3, by rw [h4, hone]⟩

/-! ## A camera that is pushed aside while it is covered -/

/-- The movement from the second place in front of the wall to the first one. -/
def pushed : M4 := transformation 1 (axesRotation *ᵥ ![20, 0, 0])

theorem pushed_rigid : Spec.Rigid pushed := ⟨1, _, by simp, by simp, rfl⟩

theorem wallPlace_rigid (k : Nat) : Spec.Rigid (wallPlace k) :=
  ⟨_, _, axesRotation_orthogonal, axesRotation_det, wallPlace_eq k⟩

theorem pushed_place : wallPlace 0 = pushed * wallPlace 1 := by
  rw [wallPlace_eq, wallPlace_eq, pushed, transformation_mul, Matrix.one_mul, one_mulVec, ← mulVec_add]
  congr 2
  ext i
  fin_cases i <;> simp [shiftOf]

/-- The projection of a point is the pixel that sees it. -/
theorem wallSight_sees {c : Camera} (hc : Spec.Rigid c.c2w) {p : Pt} {z : ℝ} {q : PointBody Nat}
    (h : Spec.SeesAt 1000 1000 0 0 c.c2w q.tracked.coordinates ![(p.x : ℝ), (p.y : ℝ)] z) : wallSight.project c (.point q) = some p := by
  have hex : ∃ p : Pt, ∃ z, Spec.SeesAt 1000 1000 0 0 c.c2w q.tracked.coordinates ![(p.x : ℝ), (p.y : ℝ)] z := ⟨_, _, h⟩
  simp only [wallSight, dif_pos hex]
  congr 1
  obtain ⟨z', hz⟩ := hex.choose_spec
  generalize hex.choose = p' at hz ⊢
  obtain ⟨R, t, hR, -, e⟩ := hc
  rw [e] at h hz
  have := seesAt_unique hR hz h
  have h0 := congrFun this 0
  have h1 := congrFun this 1
  simp only [cons_val_zero, cons_val_one, Rat.cast_inj] at h0 h1
  cases p
  cases p'
  simp only at h0 h1
  rw [h0, h1]

theorem pushed_seenAs {i : Nat} {c : Camera} (hc : c.c2w = wallPlace 0) {b : Body Nat Unit}
    (hb : Spec.At (fun i => pointToWorld pushed (wallPoint i)) (fun _ => 0) 5 i b) :
    Spec.SeenAs (geo1 wallSight (examplePinv 3)) c (shifted 1) [0, 0, 0, 0, 0] i b := by
  obtain ⟨hi, q, rfl, hx, -, hm, hq⟩ := hb
  have hs : spread[i]? = some spread[i] := List.getElem?_eq_getElem hi
  obtain ⟨-, -, p, r, d, e1, e2, e3, e4, e5, e6, e7⟩ := wall_seen (prev := 1) (next := 1) hs
  refine ⟨hm, rfl, p, r, d, ?_, e2, e3, e4, e5, e6, ?_⟩
  · rw [← e1]
    refine wallSight_sees (p := ⟨spread[i].x + shiftOf 1, spread[i].y⟩) (z := 1000) (hc ▸ wallPlace_rigid 0) ?_
    have := sees_moved pushed_rigid (wallPlace_rigid 1) (wall_pixel 1 i)
    rw [← pushed_place, hs] at this
    rw [hc, hx]
    simpa using this
  · intro j q' d' h1 h2 h3 h4
    have := e7 j q' d' h1 h2 h3 h4
    have hd : (geo1 wallSight (examplePinv 3)).descriptor (Body.point q) = 0 := by
      change q.desc.getD default = 0
      rw [hq]; rfl
    rw [hd]
    exact this

/-- The frame of a handler; the optimiser fails without matches, else it finds the pose `k`. -/
def dawnFrame (h : Handler Nat) (k : Nat) : Slam.Frame (Outcome (World (Body Nat Unit))) (Handler Nat × List Unit) PoseVar Match :=
  ⟨fun _ _ _ => (h, []), fun _ ms => if ms = [] then none else some (wallPose k, [])⟩

theorem first_frame {L Det Match Pose : Type} {ops : Slam.MapOps L Det Pose Match} {po : Slam.PoseOps Pose} {f : Slam.Frame L Det Pose Match}
    {start : Pose} {m : L} {s : Slam.State L Pose} {outs : List (Slam.Out Pose)}
    (h : Slam.run ops po [f] (Slam.init start m) = .ok (s, outs)) : s.currentPose = start ∧ s.failedTrackingCount = 0 := by
  obtain ⟨⟨s1, o⟩, h1, h⟩ := Outcome.bind_eq_ok h
  injection h with h
  injection h with h2 h3
  subst h2
  unfold Slam.step at h1
  split at h1
  · simp only [Slam.init, if_true] at h1
    injection h1 with h1
    injection h1 with h1 h4
    rw [← h1]
    exact ⟨rfl, rfl⟩
  · cases h1

/-- Without the assumption that the camera did not move, C202 is false of the code: the camera sees the wall, is covered for eleven frames,
and is pushed aside meanwhile.  All measurements are exact.  Afterwards it is tracked, but the pose returned is the one it had before, and no point
of the new map is where the point of the wall is. -/
theorem C202_moved_in_the_dark_false : ∃ h0 h1 : Handler Nat,
    Spec.ExactView 1000 1000 0 0 wallPoint (fun _ => 0) (wallPlace 0) h0 ∧ Spec.ExactView 1000 1000 0 0 wallPoint (fun _ => 0) (wallPlace 1) h1 ∧
    ∃ s s' outs w' out o, ∃ outs1 : List (Slam.Out PoseVar),
      Slam.run (localMapOps (programKinds (withShapes (handlerOps (geo2 wallSight (examplePinv 3))))
          (withShapes (handlerOps (geo1 wallSight (examplePinv 3)))) wallOps) (fun e => isValid e.1.pose) (fun _ _ => false)
          (fun pose d => (Spec.cameraAt 1000 1000 0 0 pose, d.1)) frameDets)
        ⟨fun p => isValid p.variance, fun p => isValid (firstPoseBlock p.variance)⟩ [dawnFrame h0 0] (Slam.init (wallPose 0) (.ok World.init)) =
        .ok (s, outs) ∧
      Slam.run (localMapOps (programKinds (withShapes (handlerOps (geo2 wallSight (examplePinv 3))))
          (withShapes (handlerOps (geo1 wallSight (examplePinv 3)))) wallOps) (fun e => isValid e.1.pose) (fun _ _ => false)
          (fun pose d => (Spec.cameraAt 1000 1000 0 0 pose, d.1)) frameDets)
        ⟨fun p => isValid p.variance, fun p => isValid (firstPoseBlock p.variance)⟩
        (List.replicate 11 coveredFrame ++ [dawnFrame h1 0, dawnFrame h1 0]) s = .ok (s', outs1 ++ [out, o]) ∧
      o.tracked = true ∧ Spec.place o.returned = wallPlace 0 ∧ Spec.place o.returned ≠ wallPlace 1 ∧ s'.localMap = .ok w' ∧
      (w'.maps .point).localMap.length + (w'.maps .point).staged.length = 5 ∧
      ∀ p ∈ (w'.maps .point).localMap ++ (w'.maps .point).staged, ∃ i q, p.2.body = .point q ∧ p.2.id = 5 + i + 1 ∧
        q.tracked.coordinates ≠ wallPoint i := by
  obtain ⟨h0, e0, g0⟩ := holds_elim (show ((newView 0).holds fun h =>
    (Keypoints.detections h).all (fun d => decide (d.kp.depth = 1000 ∧ (d.desc = some 0 ∨ d.desc = none))) &&
      decide ((Keypoints.detections h).map (·.kp.pt) = shifted 0)) = true by decide +kernel)
  obtain ⟨h1, e1, g1⟩ := holds_elim (show ((newView 1).holds fun h =>
    (Keypoints.detections h).all (fun d => decide (d.kp.depth = 1000 ∧ (d.desc = some 0 ∨ d.desc = none))) &&
      decide ((Keypoints.detections h).map (·.kp.pt) = shifted 1)) = true by decide +kernel)
  simp only [Bool.and_eq_true, List.all_eq_true, decide_eq_true_eq] at g0 g1
  have hv0 := wall_view g0.2 g0.1
  have hv1 := wall_view g1.2 g1.1
  have hfirst : Spec.Redetected (geo1 wallSight (examplePinv 3)) 640 480 (Spec.At wallPoint (fun _ => 0) 5) 5
      (Spec.cameraAt 1000 1000 0 0 (wallPose 0)) h0 :=
    ⟨⟨Keypoints.create 640 480, demoImage, shifted 0, [0, 0, 0, 0, 0], .create, by simp [shifted, spread],
        by simp [shifted, spread], e0, fun i b hb => wall_seenAs rfl hb⟩, fun d hd => by rw [(g0.1 d hd).1]; decide +kernel⟩
  have hagain : ∀ prev, Spec.place prev = wallPlace 0 → Spec.Redetected (geo1 wallSight (examplePinv 3)) 640 480
      (Spec.At (fun i => pointToWorld pushed (wallPoint i)) (fun _ => 0) 5) 5 (Spec.cameraAt 1000 1000 0 0 prev) h1 := fun prev hp =>
    ⟨⟨Keypoints.create 640 480, demoImage, shifted 1, [0, 0, 0, 0, 0], .create, by simp [shifted, spread],
        by simp [shifted, spread], e1, fun i b hb => pushed_seenAs hp hb⟩, fun d hd => by rw [(g1.1 d hd).1]; decide +kernel⟩
  obtain ⟨s, out0, outs0, w, r1, r2, -, -, r4, -⟩ := C193_no_drift wallSight wallSight examplePinv_spec (by norm_num) (by norm_num) wallOps
    (fun _ _ => rfl) (fun _ _ => false) (cols := 640) (rows := 480) (by norm_num) (by norm_num) (by norm_num) (by norm_num) (by decide)
    (n := 5) (by norm_num) (by norm_num) (start := wallPose 0) isCovariance_one (f := dawnFrame h0 0) (fun _ _ _ => rfl)
    hv0 hfirst (.home _)
  obtain ⟨hp, hf⟩ := first_frame r1
  have hg : w.alloc.given = 5 := by rw [r4.ids]
  have htrue : Spec.TrueFrame 5 wallSight (examplePinv 3) 1000 1000 0 0 640 480 wallPoint (fun _ => 0) 5 pushed (wallPlace 1) (wallPlace 1)
      (dawnFrame h1 0) h1 := by
    refine ⟨fun _ _ _ => rfl, wallPlace_rigid 1, hv1, fun prev hprev => .inl (hagain prev (hprev.trans pushed_place.symm)),
      fun prev _ => ⟨wallPose 0, ?_, isCovariance_one, by simp [UnitQuat, wallPose], ?_⟩, ?_⟩
    · have hfound : Spec.allFound 5 5 ≠ [] := by decide
      simp [dawnFrame, hfound]
    · intro i d hd
      have := sees_moved pushed_rigid (wallPlace_rigid 1) (hv1 i d hd).1
      rw [← pushed_place] at this
      exact ⟨_, this⟩
    · rintro M ⟨R, t, hR, hRd, rfl⟩ hre
      exact wall_only_rigid g1.2 hR hRd hre
  obtain ⟨s', outs1, out, outs2, w', q1, -, q3, q4, -, q5, q6, q7⟩ := C202_displaced wallSight wallSight examplePinv_spec (by norm_num) (by norm_num)
    wallOps (fun _ _ => rfl) (fun _ _ => false) (cols := 640) (rows := 480) (by norm_num) (by norm_num) (by norm_num) (by norm_num) (by decide)
    r1 r2 (by rw [hp]; exact isCovariance_one) (dark := List.replicate 11 coveredFrame)
    (fun f hf => by
      rw [List.eq_of_mem_replicate hf]
      exact ⟨⟨Keypoints.create 640 480, rfl, fun _ _ _ => rfl⟩, fun _ => rfl⟩) (by simp) (by rw [hf]; simp)
    pushed_rigid (wallPlace_rigid 1) (by rw [hp]; exact pushed_place) (n := 5) (by norm_num) (by rw [hg]; norm_num)
    (f := dawnFrame h1 0) (h := h1) (fun _ _ _ => rfl) rfl hv1 (by rw [hp]; exact hagain _ rfl) (Ts := [wallPlace 1]) (fs := [dawnFrame h1 0])
    (.go ⟨h1, by rw [hg]; exact htrue⟩ (.home _))
  cases outs2 with
  | nil => simp at q4
  | cons o outs2 =>
    cases outs2 with
    | cons a l => simp at q4
    | nil =>
      simp only [List.map_cons, List.map_nil, ← pushed_place, List.cons.injEq, and_true] at q4
      have hne : wallPlace 0 ≠ wallPlace 1 := by
        intro h
        have h' := congrArg (fun T => pointToWorld T 0 1) h
        simp only [wallPlace_eq, pointToWorld_transformation] at h'
        norm_num [axesRotation, shiftOf, mulVec, dotProduct, Fin.sum_univ_three, Matrix.of_apply] at h'
      refine ⟨h0, h1, hv0, hv1, s, s', _, w', out, o, outs1, r1, q1, (q5 o (by simp)).1, q4.2, by rw [q4.2]; exact hne, q3, q6, fun p hp => ?_⟩
      obtain ⟨i, q, a1, a2, -, a4⟩ := q7 p hp
      refine ⟨i, q, a1, by rw [a2, hg], fun h => ?_⟩
      rw [h, pushed, pointToWorld_transformation, one_mulVec] at a4
      have := congrFun (left_eq_add.1 a4) 1
      norm_num [axesRotation, mulVec, dotProduct, Fin.sum_univ_three] at this
      simp at this

/-- The hypotheses of `C202_true_after_loss_partial` are met: the camera stays where it is while it is covered. -/
example : ∃ h0 s s' outs w', ∃ outs1 outs2 : List (Slam.Out PoseVar), newView 0 = .ok h0 ∧
    Slam.run (localMapOps (programKinds (withShapes (handlerOps (geo2 wallSight (examplePinv 3))))
        (withShapes (handlerOps (geo1 wallSight (examplePinv 3)))) wallOps) (fun e => isValid e.1.pose) (fun _ _ => false)
        (fun pose d => (Spec.cameraAt 1000 1000 0 0 pose, d.1)) frameDets)
      ⟨fun p => isValid p.variance, fun p => isValid (firstPoseBlock p.variance)⟩ [dawnFrame h0 0] (Slam.init (wallPose 0) (.ok World.init)) =
      .ok (s, outs) ∧
    Slam.run (localMapOps (programKinds (withShapes (handlerOps (geo2 wallSight (examplePinv 3))))
        (withShapes (handlerOps (geo1 wallSight (examplePinv 3)))) wallOps) (fun e => isValid e.1.pose) (fun _ _ => false)
        (fun pose d => (Spec.cameraAt 1000 1000 0 0 pose, d.1)) frameDets)
      ⟨fun p => isValid p.variance, fun p => isValid (firstPoseBlock p.variance)⟩
      (List.replicate 11 coveredFrame ++ [dawnFrame h0 0, dawnFrame h0 0]) s = .ok (s', outs1 ++ outs2) ∧
    outs2.map (fun o => Spec.place o.returned) = [wallPlace 0, wallPlace 0] ∧ s'.localMap = .ok w' ∧
    (w'.maps .point).localMap.length + (w'.maps .point).staged.length = 5 := by
  obtain ⟨h0, e0, g0⟩ := holds_elim (show ((newView 0).holds fun h =>
    (Keypoints.detections h).all (fun d => decide (d.kp.depth = 1000 ∧ (d.desc = some 0 ∨ d.desc = none))) &&
      decide ((Keypoints.detections h).map (·.kp.pt) = shifted 0)) = true by decide +kernel)
  simp only [Bool.and_eq_true, List.all_eq_true, decide_eq_true_eq] at g0
  have hv0 := wall_view g0.2 g0.1
  have hone : ∀ x, pointToWorld (1 : M4) x = x := by
    intro x
    rw [← transformation_one, pointToWorld_transformation]; simp
  have hfirst : ∀ prev, Spec.place prev = wallPlace 0 → Spec.Redetected (geo1 wallSight (examplePinv 3)) 640 480
      (Spec.At wallPoint (fun _ => 0) 5) 5 (Spec.cameraAt 1000 1000 0 0 prev) h0 := fun prev hp =>
    ⟨⟨Keypoints.create 640 480, demoImage, shifted 0, [0, 0, 0, 0, 0], .create, by simp [shifted, spread],
        by simp [shifted, spread], e0, fun i b hb => wall_seenAs hp hb⟩, fun d hd => by rw [(g0.1 d hd).1]; decide +kernel⟩
  obtain ⟨s, out0, outs0, w, r1, r2, -, -, r4, -⟩ := C193_no_drift wallSight wallSight examplePinv_spec (by norm_num) (by norm_num) wallOps
    (fun _ _ => rfl) (fun _ _ => false) (cols := 640) (rows := 480) (by norm_num) (by norm_num) (by norm_num) (by norm_num) (by decide)
    (n := 5) (by norm_num) (by norm_num) (start := wallPose 0) isCovariance_one (f := dawnFrame h0 0) (fun _ _ _ => rfl)
    hv0 (hfirst _ rfl) (.home _)
  obtain ⟨hp, hf⟩ := first_frame r1
  have hg : w.alloc.given = 5 := by rw [r4.ids]
  have hpl : Spec.place s.currentPose = wallPlace 0 := by rw [hp]; rfl
  have htrue : Spec.TrueFrame 5 wallSight (examplePinv 3) 1000 1000 0 0 640 480 wallPoint (fun _ => 0) 5 1 (wallPlace 0) (wallPlace 0)
      (dawnFrame h0 0) h0 := by
    refine ⟨fun _ _ _ => rfl, wallPlace_rigid 0, hv0, fun prev hprev => .inl ?_,
      fun prev _ => ⟨wallPose 0, ?_, isCovariance_one, by simp [UnitQuat, wallPose], ?_⟩, ?_⟩
    · simpa only [hone] using hfirst prev (hprev.trans (Matrix.one_mul _))
    · have hfound : Spec.allFound 5 5 ≠ [] := by decide
      simp [dawnFrame, hfound]
    · intro i d hd
      simp only [hone]
      exact ⟨_, (hv0 i d hd).1⟩
    · rintro M ⟨R, t, hR, hRd, rfl⟩ hre
      exact wall_only_rigid g0.2 hR hRd hre
  obtain ⟨s', outs1, out, outs2, w', q1, -, q3, q4, -, q6, -⟩ := C202_true_after_loss_partial wallSight wallSight examplePinv_spec
    (by norm_num) (by norm_num)
    wallOps (fun _ _ => rfl) (fun _ _ => false) (cols := 640) (rows := 480) (by norm_num) (by norm_num) (by norm_num) (by norm_num) (by decide)
    r1 r2 (by rw [hp]; exact isCovariance_one) (dark := List.replicate 11 coveredFrame)
    (fun f hf => by
      rw [List.eq_of_mem_replicate hf]
      exact ⟨⟨Keypoints.create 640 480, rfl, fun _ _ _ => rfl⟩, fun _ => rfl⟩) (by simp) (by rw [hf]; simp)
    (by rw [hpl]; exact wallPlace_rigid 0) (n := 5) (by norm_num) (by rw [hg]; norm_num)
    (f := dawnFrame h0 0) (h := h0) (fun _ _ _ => rfl) rfl (by rw [hpl]; exact hv0) (hfirst _ hpl) (Ts := [wallPlace 0])
    (fs := [dawnFrame h0 0]) (by rw [hpl, hg]; exact .go ⟨h0, htrue⟩ (.home _))
  exact ⟨h0, s, s', _, w', outs1, _, e0, r1, q1, by rw [q4, hpl], q3, q6⟩

end
end RgbdSlam.Map.Anew
