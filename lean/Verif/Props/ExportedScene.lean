import Verif.Model.Export
import Verif.Props.Blackout
import Verif.Props.MapWriter

/-! # C196: the exported map of a run without measurement error

C193 and C195 say where the map features are in a run without error.  Here the program ends and the file is read: it has to contain the
scene. -/

namespace RgbdSlam.Map

open Keypoints (Handler Detected Pt Tracked)
open Geometry Geometry.Spec Covariance Covariance.Spec Updates Matrix Writer
open Optimizer (PoseVar)

variable {Desc S Shape : Type}

/-- The scene points as words of a file: three printed coordinates each. -/
def Spec.printed (fmt : ℝ → List Char) (X : Nat → V3) (n : Nat) : List (List (List Char)) :=
  (List.range n).map fun i => [fmt (X i 0), fmt (X i 1), fmt (X i 2)]

/-- What a viewer should show for the scene: one point per scene point. -/
def Spec.displayed (fmt : ℝ → List Char) (X : Nat → V3) (n : Nat) : List (Char × List (Option (List (List Char)))) :=
  (Spec.printed fmt X n).map fun v => ('p', [some v])

theorem calls_scene {X : Nat → V3} {look : Nat → Desc} {n : Nat} (outline : S → List V3 × V3) {is : List Nat}
    {l : List (Feat (Body Desc S))} (h : List.Forall₂ (fun i f => Spec.At X look n i f.body) is l) :
    (l.flatMap fun f => writeToFile outline f.body) = is.map fun i => .point (toVec (X i)) := by
  induction h with
  | nil => rfl
  | @cons i f is l hf _ ih =>
    obtain ⟨-, p, e, hx, -⟩ := hf
    rw [List.flatMap_cons, ih, List.map_cons, e, writeToFile, hx]
    rfl

theorem inMap_calls {X : Nat → V3} {look : Nat → Desc} {n c : Nat} (outline : S → List V3 × V3) {w : World (Body Desc S)}
    (h : Spec.InMap (Spec.At X look n) n c w) : fileCalls outline w = (List.range n).map fun i => .point (toVec (X i)) := by
  have hp : List.Forall₂ (fun i (f : Feat (Body Desc S)) => Spec.At X look n i f.body) (List.range n)
      ((w.maps .point).localMap.map (·.2)) := by
    rw [List.forall₂_map_right_iff]
    exact List.Forall₂.imp (fun i a hr => hr.2.2.2) h.points
  have h2 := h.others .point2d (by decide)
  have h3 := h.others .plane (by decide)
  have e : order.flatMap w.written ++ order.flatMap (fun t => w.destroyed t) = (w.maps .point).localMap.map (·.2) := by
    simp [order, h.written, World.destroyed, destroyed, h.active, h2, h3]
  rw [fileCalls, e]
  exact calls_scene outline hp

theorem givenUp_calls {X : Nat → V3} {look : Nat → Desc} {n : Nat} (outline : S → List V3 × V3) {w : World (Body Desc S)}
    (h : Spec.GivenUp (Spec.At X look n) n w) : fileCalls outline w = (List.range n).map fun i => .point (toVec (X i)) := by
  have hp : List.Forall₂ (fun i (f : Feat (Body Desc S)) => Spec.At X look n i f.body) (List.range n) (w.written .point) :=
    List.Forall₂.imp (fun i a hr => hr.2) h.points
  have e : order.flatMap w.written ++ order.flatMap (fun t => w.destroyed t) = w.written .point := by
    simp [order, h.others .point2d (by decide), h.others .plane (by decide), World.destroyed, destroyed, h.active, (h.empty _).1]
  rw [fileCalls, e]
  exact calls_scene outline hp

theorem vertices_scene {fmt : ℝ → List Char} (hf : OneWord fmt) (X : Nat → V3) (n : Nat) :
    objVertices (objFile fmt ((List.range n).map fun i => .point (toVec (X i)))) = Spec.printed fmt X n := by
  rw [objVertices_file hf, List.flatMap_map]
  simp [callVertices, Spec.printed, words, toVec, ← List.map_eq_flatMap]

theorem elements_points {R : Type} : ∀ (ps : List (Vec R)) (k : Nat),
    allElements k (ps.map .point) = (List.range' k ps.length).map fun j => ('p', [j + 1])
  | [], _ => rfl
  | p :: ps, k => by
    rw [List.map_cons, allElements, elements_points ps]
    simp [callElements, callVertices, List.range'_succ]

theorem shown_scene {fmt : ℝ → List Char} (hf : OneWord fmt) (X : Nat → V3) (n : Nat) :
    objShown (objFile fmt ((List.range n).map fun i => .point (toVec (X i)))) =
      (List.range n).map fun i => ('p', [if i + 1 < n then some [fmt (X (i + 1) 0), fmt (X (i + 1) 1), fmt (X (i + 1) 2)] else none]) := by
  have hc : ((List.range n).map fun i => (Call.point (toVec (X i)) : Call ℝ)) = ((List.range n).map fun i => toVec (X i)).map .point := by
    rw [List.map_map]; rfl
  have hv := vertices_scene hf X n
  rw [objShown, objElements_file hf]
  have hov : objVertex (objFile fmt ((List.range n).map fun i => .point (toVec (X i)))) = fun k =>
      if k = 0 then none else (Spec.printed fmt X n)[k - 1]? := by
    funext k; rw [objVertex, hv]
  rw [hov, hc, elements_points]
  simp only [List.length_map, List.length_range]
  rw [List.range'_eq_map_range (s := 1)]
  simp only [List.map_map]
  refine List.map_congr_left fun i hi => ?_
  simp only [Function.comp, List.map_cons, List.map_nil, Spec.printed]
  by_cases h : i + 1 < n
  · simp [h, Nat.add_comm 1 i]
  · simp [h, Nat.add_comm 1 i]

/-- C196: the setting of C195, and the program ends after any of these frames.  The vertices of the exported file are the scene points:
each of them once, at its place, and nothing else.

Missing, and false: what a viewer shows (`C196_display_false`), and the same with fewer than four frames (`C196_short_false`). -/
theorem C196_file_is_scene_partial [Inhabited Desc] (sight2 sight : Sight Desc S) {pinv : Sq 3 → Sq 3}
    (hpinv : ∀ A, IsCovariance A → IsPseudoInverse A (pinv A)) {fx fy cx cy : ℝ} (hfx : fx ≠ 0) (hfy : fy ≠ 0)
    (op : PlaneOps (Body Desc S) (Detected Desc ⊕ Shape) (Camera × Handler Desc)) (hop : ∀ c h, op.covValid (c, h) = isValid c.pose)
    (lt : Match → Match → Bool) {cols rows : Nat} (hc : cols < 2 ^ 31) (hr : rows < 2 ^ 31) (hcx : 31 < cols) (hry : 31 < rows)
    (hw : Keypoints.cellsFor rows ≤ Keypoints.cellsFor cols) {X : Nat → V3} {look : Nat → Desc} {n : Nat} (h5 : 5 ≤ n) (hn : n < 2 ^ 64)
    {start : PoseVar} (hstart : IsCovariance start.variance)
    {f : Slam.Frame (Outcome (World (Body Desc S))) (Handler Desc × List Shape) PoseVar Match} {h : Handler Desc}
    (hdet : ∀ L pose forced, f.detect L pose forced = (h, [])) (hview : Spec.ExactView fx fy cx cy X look (Spec.place start) h)
    (hfirst : Spec.Redetected (geo1 sight pinv) cols rows (Spec.At X look n) n (Spec.cameraAt fx fy cx cy start) h) {Ts : List M4}
    {fs : List (Slam.Frame (Outcome (World (Body Desc S))) (Handler Desc × List Shape) PoseVar Match)}
    (hroute : Spec.Route (fun T U f => ∃ h, Spec.ExactFrame sight pinv fx fy cx cy cols rows X look n T U f h) (Spec.place start) Ts fs)
    (h3 : 3 ≤ Ts.length) {Us : List (M4 × Bool)} {c : Nat}
    {gs : List (Slam.Frame (Outcome (World (Body Desc S))) (Handler Desc × List Shape) PoseVar Match)}
    (hjourney : Spec.Journey (fun T U f => ∃ h, Spec.ExactFrame sight pinv fx fy cx cy cols rows X look n T U f h) (fun _ f => Spec.Blind f)
      10 0 ((Spec.place start :: Ts).getLast (by simp)) Us gs c)
    {fmt : ℝ → List Char} (hf : OneWord fmt) (outline : S → List V3 × V3) :
    ∃ s outs w, Slam.run (localMapOps (programKinds (withShapes (handlerOps (geo2 sight2 pinv))) (withShapes (handlerOps (geo1 sight pinv)))
          op) (fun e => isValid e.1.pose) lt (fun pose d => (Spec.cameraAt fx fy cx cy pose, d.1)) frameDets)
        ⟨fun p => isValid p.variance, fun p => isValid (firstPoseBlock p.variance)⟩ (f :: fs ++ gs) (Slam.init start (.ok World.init)) =
        .ok (s, outs) ∧ s.localMap = .ok w ∧ objVertices (exportedFile fmt outline w) = Spec.printed fmt X n := by
  obtain ⟨s, outs, w, r1, -, r3, r4, -⟩ := journey_state sight2 sight hpinv hfx hfy op hop lt hc hr hcx hry hw h5 hn hstart hdet hview hfirst hroute h3 hjourney
  exact ⟨s, outs, w, r1, r3, by rw [exportedFile, inMap_calls outline r4, vertices_scene hf]⟩

/-- C196, when the map was given up: the camera is blinded for eleven frames, so that every feature is dropped.  The file is the same. -/
theorem C196_file_after_loss_partial [Inhabited Desc] (sight2 sight : Sight Desc S) {pinv : Sq 3 → Sq 3}
    (hpinv : ∀ A, IsCovariance A → IsPseudoInverse A (pinv A)) {fx fy cx cy : ℝ} (hfx : fx ≠ 0) (hfy : fy ≠ 0)
    (op : PlaneOps (Body Desc S) (Detected Desc ⊕ Shape) (Camera × Handler Desc)) (hop : ∀ c h, op.covValid (c, h) = isValid c.pose)
    (lt : Match → Match → Bool) {cols rows : Nat} (hc : cols < 2 ^ 31) (hr : rows < 2 ^ 31) (hcx : 31 < cols) (hry : 31 < rows)
    (hw : Keypoints.cellsFor rows ≤ Keypoints.cellsFor cols) {X : Nat → V3} {look : Nat → Desc} {n : Nat} (h5 : 5 ≤ n) (hn : n < 2 ^ 64)
    {start : PoseVar} (hstart : IsCovariance start.variance)
    {f : Slam.Frame (Outcome (World (Body Desc S))) (Handler Desc × List Shape) PoseVar Match} {h : Handler Desc}
    (hdet : ∀ L pose forced, f.detect L pose forced = (h, [])) (hview : Spec.ExactView fx fy cx cy X look (Spec.place start) h)
    (hfirst : Spec.Redetected (geo1 sight pinv) cols rows (Spec.At X look n) n (Spec.cameraAt fx fy cx cy start) h) {Ts : List M4}
    {fs : List (Slam.Frame (Outcome (World (Body Desc S))) (Handler Desc × List Shape) PoseVar Match)}
    (hroute : Spec.Route (fun T U f => ∃ h, Spec.ExactFrame sight pinv fx fy cx cy cols rows X look n T U f h) (Spec.place start) Ts fs)
    (h3 : 3 ≤ Ts.length) {Us : List (M4 × Bool)}
    {gs : List (Slam.Frame (Outcome (World (Body Desc S))) (Handler Desc × List Shape) PoseVar Match)}
    (hjourney : Spec.Journey (fun T U f => ∃ h, Spec.ExactFrame sight pinv fx fy cx cy cols rows X look n T U f h) (fun _ f => Spec.Blind f)
      10 0 ((Spec.place start :: Ts).getLast (by simp)) Us gs 10)
    {last : Slam.Frame (Outcome (World (Body Desc S))) (Handler Desc × List Shape) PoseVar Match} (hlast : Spec.Blind last)
    {fmt : ℝ → List Char} (hf : OneWord fmt) (outline : S → List V3 × V3) :
    ∃ s outs w, Slam.run (localMapOps (programKinds (withShapes (handlerOps (geo2 sight2 pinv))) (withShapes (handlerOps (geo1 sight pinv)))
          op) (fun e => isValid e.1.pose) lt (fun pose d => (Spec.cameraAt fx fy cx cy pose, d.1)) frameDets)
        ⟨fun p => isValid p.variance, fun p => isValid (firstPoseBlock p.variance)⟩ (f :: fs ++ gs ++ [last]) (Slam.init start (.ok World.init)) =
        .ok (s, outs) ∧ s.localMap = .ok w ∧ objVertices (exportedFile fmt outline w) = Spec.printed fmt X n := by
  obtain ⟨s, outs, w, r1, r3, r4⟩ := C195_given_up sight2 sight hpinv hfx hfy op hop lt hc hr hcx hry hw h5 hn hstart hdet hview hfirst hroute h3 hjourney hlast
  exact ⟨s, outs, w, r1, r3, by rw [exportedFile, givenUp_calls outline r4, vertices_scene hf]⟩

/-- C196 is false of what a viewer shows: the element of each scene point shows the place of the next one, and that of the last one shows
nothing.  The first scene point is not shown, unless another one has the same place. -/
theorem C196_display_false [Inhabited Desc] (sight2 sight : Sight Desc S) {pinv : Sq 3 → Sq 3}
    (hpinv : ∀ A, IsCovariance A → IsPseudoInverse A (pinv A)) {fx fy cx cy : ℝ} (hfx : fx ≠ 0) (hfy : fy ≠ 0)
    (op : PlaneOps (Body Desc S) (Detected Desc ⊕ Shape) (Camera × Handler Desc)) (hop : ∀ c h, op.covValid (c, h) = isValid c.pose)
    (lt : Match → Match → Bool) {cols rows : Nat} (hc : cols < 2 ^ 31) (hr : rows < 2 ^ 31) (hcx : 31 < cols) (hry : 31 < rows)
    (hw : Keypoints.cellsFor rows ≤ Keypoints.cellsFor cols) {X : Nat → V3} {look : Nat → Desc} {n : Nat} (h5 : 5 ≤ n) (hn : n < 2 ^ 64)
    {start : PoseVar} (hstart : IsCovariance start.variance)
    {f : Slam.Frame (Outcome (World (Body Desc S))) (Handler Desc × List Shape) PoseVar Match} {h : Handler Desc}
    (hdet : ∀ L pose forced, f.detect L pose forced = (h, [])) (hview : Spec.ExactView fx fy cx cy X look (Spec.place start) h)
    (hfirst : Spec.Redetected (geo1 sight pinv) cols rows (Spec.At X look n) n (Spec.cameraAt fx fy cx cy start) h) {Ts : List M4}
    {fs : List (Slam.Frame (Outcome (World (Body Desc S))) (Handler Desc × List Shape) PoseVar Match)}
    (hroute : Spec.Route (fun T U f => ∃ h, Spec.ExactFrame sight pinv fx fy cx cy cols rows X look n T U f h) (Spec.place start) Ts fs)
    (h3 : 3 ≤ Ts.length) {Us : List (M4 × Bool)} {c : Nat}
    {gs : List (Slam.Frame (Outcome (World (Body Desc S))) (Handler Desc × List Shape) PoseVar Match)}
    (hjourney : Spec.Journey (fun T U f => ∃ h, Spec.ExactFrame sight pinv fx fy cx cy cols rows X look n T U f h) (fun _ f => Spec.Blind f)
      10 0 ((Spec.place start :: Ts).getLast (by simp)) Us gs c)
    {fmt : ℝ → List Char} (hf : OneWord fmt) (outline : S → List V3 × V3) :
    ∃ s outs w, Slam.run (localMapOps (programKinds (withShapes (handlerOps (geo2 sight2 pinv))) (withShapes (handlerOps (geo1 sight pinv)))
          op) (fun e => isValid e.1.pose) lt (fun pose d => (Spec.cameraAt fx fy cx cy pose, d.1)) frameDets)
        ⟨fun p => isValid p.variance, fun p => isValid (firstPoseBlock p.variance)⟩ (f :: fs ++ gs) (Slam.init start (.ok World.init)) =
        .ok (s, outs) ∧ s.localMap = .ok w ∧ objShown (exportedFile fmt outline w) =
        ((List.range n).map fun i => ('p', [if i + 1 < n then some [fmt (X (i + 1) 0), fmt (X (i + 1) 1), fmt (X (i + 1) 2)] else none])) ∧
      objShown (exportedFile fmt outline w) ≠ Spec.displayed fmt X n := by
  obtain ⟨s, outs, w, r1, -, r3, r4, -⟩ := journey_state sight2 sight hpinv hfx hfy op hop lt hc hr hcx hry hw h5 hn hstart hdet hview hfirst hroute h3 hjourney
  have e := shown_scene hf X n
  rw [← inMap_calls outline r4, ← exportedFile] at e
  refine ⟨s, outs, w, r1, r3, e, ?_⟩
  rw [e]
  intro hh
  have := congrArg (fun l => l[n - 1]?) hh
  simp [Spec.displayed, Spec.printed, show n - 1 < n by omega, show ¬ n - 1 + 1 < n by omega] at this

/-- C196 is false of short runs: after one, two or three frames the file is empty, whatever the camera saw. -/
theorem C196_short_false [Inhabited Desc] (sight2 sight : Sight Desc S) {pinv : Sq 3 → Sq 3}
    (hpinv : ∀ A, IsCovariance A → IsPseudoInverse A (pinv A)) {fx fy cx cy : ℝ} (hfx : fx ≠ 0) (hfy : fy ≠ 0)
    (op : PlaneOps (Body Desc S) (Detected Desc ⊕ Shape) (Camera × Handler Desc)) (hop : ∀ c h, op.covValid (c, h) = isValid c.pose)
    (lt : Match → Match → Bool) {cols rows : Nat} (hc : cols < 2 ^ 31) (hr : rows < 2 ^ 31) (hcx : 31 < cols) (hry : 31 < rows)
    (hw : Keypoints.cellsFor rows ≤ Keypoints.cellsFor cols) {X : Nat → V3} {look : Nat → Desc} {n : Nat} (h5 : 5 ≤ n) (hn : n < 2 ^ 64)
    {start : PoseVar} (hstart : IsCovariance start.variance)
    {f : Slam.Frame (Outcome (World (Body Desc S))) (Handler Desc × List Shape) PoseVar Match} {h : Handler Desc}
    (hdet : ∀ L pose forced, f.detect L pose forced = (h, [])) (hview : Spec.ExactView fx fy cx cy X look (Spec.place start) h)
    (hfirst : Spec.Redetected (geo1 sight pinv) cols rows (Spec.At X look n) n (Spec.cameraAt fx fy cx cy start) h) {Ts : List M4}
    {fs : List (Slam.Frame (Outcome (World (Body Desc S))) (Handler Desc × List Shape) PoseVar Match)}
    (hroute : Spec.Route (fun T U f => ∃ h, Spec.ExactFrame sight pinv fx fy cx cy cols rows X look n T U f h) (Spec.place start) Ts fs)
    (h2 : Ts.length < 3) (fmt : ℝ → List Char) (outline : S → List V3 × V3) :
    ∃ s outs w, Slam.run (localMapOps (programKinds (withShapes (handlerOps (geo2 sight2 pinv))) (withShapes (handlerOps (geo1 sight pinv)))
          op) (fun e => isValid e.1.pose) lt (fun pose d => (Spec.cameraAt fx fy cx cy pose, d.1)) frameDets)
        ⟨fun p => isValid p.variance, fun p => isValid (firstPoseBlock p.variance)⟩ (f :: fs) (Slam.init start (.ok World.init)) =
        .ok (s, outs) ∧ s.localMap = .ok w ∧ exportedFile fmt outline w = [] := by
  obtain ⟨s, outs, w, r1, -, r3, r4, -⟩ := trip_state sight2 sight hpinv hfx hfy op hop lt hc hr hcx hry hw h5 hn hstart hdet hview hfirst hroute
  refine ⟨s, outs, w, r1, r3, ?_⟩
  have hp := r4.points
  rw [if_pos h2] at hp
  have e : fileCalls outline w = [] := by
    simp [fileCalls, order, r4.written, World.destroyed, destroyed, hp.1, (r4.others .point2d (by decide)).1, (r4.others .plane (by decide)).1]
  rw [exportedFile, e]
  rfl

/-! ## The swinging camera -/

/-- A printed form: the whole millimetres. -/
noncomputable def wholeFmt (r : ℝ) : List Char := number ⌊r⌋₊

theorem wholeFmt_oneWord : OneWord wholeFmt := fun _ => number_noblank _

/-- The hypotheses are met, and those of `C196_display_false`: the swinging camera of C193, five frames. -/
example : ∃ h h1 h2 : Handler Nat, newView 0 = .ok h ∧ newView 1 = .ok h1 ∧ flowView 0 = .ok h2 ∧
    ∃ s outs w, Slam.run (localMapOps (programKinds (withShapes (handlerOps (geo2 wallSight (examplePinv 3))))
        (withShapes (handlerOps (geo1 wallSight (examplePinv 3)))) wallOps) (fun e => isValid e.1.pose) (fun _ _ => false)
        (fun pose d => (Spec.cameraAt 1000 1000 0 0 pose, d.1)) frameDets)
      ⟨fun p => isValid p.variance, fun p => isValid (firstPoseBlock p.variance)⟩
      (exactFrame h 0 :: [exactFrame h1 1, exactFrame h2 0, exactFrame h1 1, exactFrame h2 0] ++ [])
      (Slam.init (wallPose 0) (.ok World.init)) = .ok (s, outs) ∧ s.localMap = .ok w ∧
      objVertices (exportedFile wholeFmt (fun _ => ([], 0)) w) = Spec.printed wholeFmt wallPoint 5 := by
  obtain ⟨h, h1, h2, e0, e1, e2, x1, x2, hv, hf⟩ := swing_frames
  obtain ⟨s, outs, w, r1, r3, r4⟩ := C196_file_is_scene_partial wallSight wallSight examplePinv_spec (by norm_num) (by norm_num) wallOps
    (fun _ _ => rfl) (fun _ _ => false) (cols := 640) (rows := 480) (by norm_num) (by norm_num) (by norm_num) (by norm_num) (by decide)
    (n := 5) (by norm_num) (by norm_num) (start := wallPose 0) isCovariance_one (f := exactFrame h 0) (fun _ _ _ => rfl)
    hv hf (Ts := [wallPlace 1, wallPlace 0, wallPlace 1, wallPlace 0])
    (.go ⟨h1, x1 0⟩ (.go ⟨h2, x2 1⟩ (.go ⟨h1, x1 0⟩ (.go ⟨h2, x2 1⟩ (.home _))))) (by simp) (.home _ _) wholeFmt_oneWord (fun _ => ([], 0))
  exact ⟨h, h1, h2, e0, e1, e2, s, outs, w, r1, r3, r4⟩

/-- Of `C196_file_after_loss_partial`: eleven covered frames. -/
example : ∃ h h1 h2 : Handler Nat, newView 0 = .ok h ∧ newView 1 = .ok h1 ∧ flowView 0 = .ok h2 ∧
    ∃ s outs w, Slam.run (localMapOps (programKinds (withShapes (handlerOps (geo2 wallSight (examplePinv 3))))
        (withShapes (handlerOps (geo1 wallSight (examplePinv 3)))) wallOps) (fun e => isValid e.1.pose) (fun _ _ => false)
        (fun pose d => (Spec.cameraAt 1000 1000 0 0 pose, d.1)) frameDets)
      ⟨fun p => isValid p.variance, fun p => isValid (firstPoseBlock p.variance)⟩
      (exactFrame h 0 :: [exactFrame h1 1, exactFrame h2 0, exactFrame h1 1, exactFrame h2 0] ++
        List.replicate 10 coveredFrame ++ [coveredFrame])
      (Slam.init (wallPose 0) (.ok World.init)) = .ok (s, outs) ∧ s.localMap = .ok w ∧
      objVertices (exportedFile wholeFmt (fun _ => ([], 0)) w) = Spec.printed wholeFmt wallPoint 5 := by
  obtain ⟨h, h1, h2, e0, e1, e2, x1, x2, hv, hf⟩ := swing_frames
  have hU : Spec.Journey (fun T U f => ∃ h, Spec.ExactFrame wallSight (examplePinv 3) 1000 1000 0 0 640 480 wallPoint (fun _ => 0) 5
      T U (f : Slam.Frame _ (Handler Nat × List Unit) PoseVar Match) h) (fun _ f => Spec.Blind f) 10 0 (wallPlace 0)
      (List.replicate 10 (wallPlace 0, true)) (List.replicate 10 coveredFrame) 10 := by
    simp only [List.replicate]
    repeat' refine .wait coveredFrame_blind (by norm_num) ?_
    exact .home _ _
  obtain ⟨s, outs, w, r1, r3, r4⟩ := C196_file_after_loss_partial wallSight wallSight examplePinv_spec (by norm_num) (by norm_num) wallOps
    (fun _ _ => rfl) (fun _ _ => false) (cols := 640) (rows := 480) (by norm_num) (by norm_num) (by norm_num) (by norm_num) (by decide)
    (n := 5) (by norm_num) (by norm_num) (start := wallPose 0) isCovariance_one (f := exactFrame h 0) (fun _ _ _ => rfl)
    hv hf (Ts := [wallPlace 1, wallPlace 0, wallPlace 1, wallPlace 0])
    (.go ⟨h1, x1 0⟩ (.go ⟨h2, x2 1⟩ (.go ⟨h1, x1 0⟩ (.go ⟨h2, x2 1⟩ (.home _))))) (by simp) hU coveredFrame_blind wholeFmt_oneWord
    (fun _ => ([], 0))
  exact ⟨h, h1, h2, e0, e1, e2, s, outs, w, r1, r3, r4⟩

/-- Of `C196_short_false`: two frames. -/
example : ∃ h h1 : Handler Nat, newView 0 = .ok h ∧ newView 1 = .ok h1 ∧
    ∃ s outs w, Slam.run (localMapOps (programKinds (withShapes (handlerOps (geo2 wallSight (examplePinv 3))))
        (withShapes (handlerOps (geo1 wallSight (examplePinv 3)))) wallOps) (fun e => isValid e.1.pose) (fun _ _ => false)
        (fun pose d => (Spec.cameraAt 1000 1000 0 0 pose, d.1)) frameDets)
      ⟨fun p => isValid p.variance, fun p => isValid (firstPoseBlock p.variance)⟩ [exactFrame h 0, exactFrame h1 1]
      (Slam.init (wallPose 0) (.ok World.init)) = .ok (s, outs) ∧ s.localMap = .ok w ∧
      exportedFile wholeFmt (fun _ => ([], 0)) w = [] := by
  obtain ⟨h, h1, h2, e0, e1, e2, x1, x2, hv, hf⟩ := swing_frames
  obtain ⟨s, outs, w, r1, r3, r4⟩ := C196_short_false wallSight wallSight examplePinv_spec (by norm_num) (by norm_num) wallOps
    (fun _ _ => rfl) (fun _ _ => false) (cols := 640) (rows := 480) (by norm_num) (by norm_num) (by norm_num) (by norm_num) (by decide)
    (n := 5) (by norm_num) (by norm_num) (start := wallPose 0) isCovariance_one (f := exactFrame h 0) (fun _ _ _ => rfl)
    hv hf (Ts := [wallPlace 1]) (.go ⟨h1, x1 0⟩ (.home _)) (by simp) wholeFmt (fun _ => ([], 0))
  exact ⟨h, h1, e0, e1, s, outs, w, r1, r3, r4⟩

end RgbdSlam.Map
