import Verif.Props.Moving
import Verif.Props.Updates
import Verif.Props.KalmanFusion
import Verif.Props.Angles
import Verif.Lemmas.Covariance2
import Verif.Model.Optimizer

/-! # C193: measurements without error give no drift

C187 says that a moving camera makes one map feature per scene point, whatever the map features are made of.  Here they are the 3D
points of Model/Updates.lean, with their Kalman filter, and the pixels and the depths of the keypoints are exact. -/

namespace RgbdSlam.Map

open Keypoints (Handler Detected Pt Tracked)
open Geometry Geometry.Spec Covariance Covariance.Spec Updates Matrix
open Optimizer (PoseVar)

noncomputable section

variable {Desc S Shape : Type}

/-! ## Specification -/

/-- Where the pose puts the camera: its camera to world matrix. -/
def Spec.place (p : PoseVar) : M4 := cameraToWorld p.pose.orientation p.pose.position

/-- The camera of a pose: the intrinsics, the place, and the covariance of the position. -/
def Spec.cameraAt (fx fy cx cy : ℝ) (p : PoseVar) : Camera := ⟨fx, fy, cx, cy, Spec.place p, firstPoseBlock p.variance⟩

/-- A camera at the place `T` sees the point `x` of the world at the pixel `u`, at the depth `z` (`y` are the coordinates of the point for the
camera). -/
def Spec.SeesAt (fx fy cx cy : ℝ) (T : M4) (x : V3) (u : V2) (z : ℝ) : Prop :=
  ∃ y : V3, pointToWorld T y = x ∧ y 2 = z ∧ 0 < z ∧ u 0 = fx * y 0 / z + cx ∧ u 1 = fy * y 1 / z + cy

/-- The keypoints of a frame taken from the place `T` are the scene points, in order: pixel and measured depth are exact, the depth is
in the range of the sensor, and the descriptor, if any, is that of the point. -/
def Spec.ExactView (fx fy cx cy : ℝ) (X : Nat → V3) (look : Nat → Desc) (T : M4) (h : Handler Desc) : Prop :=
  ∀ i d, (Keypoints.detections h)[i]? = some d → Spec.SeesAt fx fy cx cy T (X i) (screenPoint2 d.kp) d.kp.depth ∧
    depthValid d.kp.depth = true ∧ 0 ≤ d.kp.pt.x ∧ 0 ≤ d.kp.pt.y ∧ (d.desc = some (look i) ∨ d.desc = none)

/-- The pose sees every scene point at the pixel of its keypoint. -/
def Spec.Reprojects (fx fy cx cy : ℝ) (X : Nat → V3) (T : M4) (h : Handler Desc) : Prop :=
  ∀ i d, (Keypoints.detections h)[i]? = some d → ∃ z, Spec.SeesAt fx fy cx cy T (X i) (screenPoint2 d.kp) z

/-- A map point of the scene point `i`, without error: its coordinates are those of the scene point. -/
def Spec.At (X : Nat → V3) (look : Nat → Desc) (n : Nat) (i : Nat) (b : Body Desc S) : Prop :=
  i < n ∧ ∃ p : PointBody Desc, b = .point p ∧ p.tracked.coordinates = X i ∧ IsCovariance p.tracked.covariance ∧
    p.tracked.moving = false ∧ p.desc = some (look i)

/-- A frame taken from the place `T` after one taken from the place `T0`, without measurement error.  The scene points are found again
from `T0`: detected anew not too far away, or followed.  The optimiser finds a pose without reprojection error (it rejects nothing
then, C186), and only the true place has none. -/
structure Spec.ExactFrame [Inhabited Desc] (sight : Sight Desc S) (pinv : Sq 3 → Sq 3) (fx fy cx cy : ℝ) (cols rows : Nat) (X : Nat → V3)
    (look : Nat → Desc) (n : Nat) (T0 T : M4) (f : Slam.Frame (Outcome (World (Body Desc S))) (Handler Desc × List Shape) PoseVar Match)
    (h : Handler Desc) : Prop where
  detect : ∀ L pose forced, f.detect L pose forced = (h, [])
  view : Spec.ExactView fx fy cx cy X look T h
  found : ∀ prev, Spec.place prev = T0 →
    Spec.Redetected (geo1 sight pinv) cols rows (Spec.At X look n) n (Spec.cameraAt fx fy cx cy prev) h ∨
      Spec.Followed (geo1 sight pinv) (Spec.At X look n) n (Spec.cameraAt fx fy cx cy prev) h
  optimised : ∀ prev, Spec.place prev = T0 → ∃ next, f.optimize prev (Spec.allFound n) = some (next, []) ∧ IsCovariance next.variance ∧
    UnitQuat next.pose.orientation ∧ Spec.Reprojects fx fy cx cy X (Spec.place next) h
  determined : ∀ q t, UnitQuat q → Spec.Reprojects fx fy cx cy X (cameraToWorld q t) h → cameraToWorld q t = T

/-- Successive frames taken from the given places. -/
inductive Spec.Route {F : Type} (leg : M4 → M4 → F → Prop) : M4 → List M4 → List F → Prop
  | home (T : M4) : Spec.Route leg T [] []
  | go {T U : M4} {Us : List M4} {f : F} {fs : List F} : leg T U f → Spec.Route leg U Us fs → Spec.Route leg T (U :: Us) (f :: fs)

/-! ## The map points do not move -/

theorem exact_worldPoint {fx fy cx cy : ℝ} (hfx : fx ≠ 0) (hfy : fy ≠ 0) {c : Camera} (hc : c.K = intrinsics fx fy cx cy) {x : V3}
    {k : Keypoints.Kp} (h : Spec.SeesAt fx fy cx cy c.c2w x (screenPoint2 k) k.depth) (hd : depthValid k.depth = true)
    (hx : 0 ≤ k.pt.x) (hy : 0 ≤ k.pt.y) : worldPoint c k = .ok x := by
  obtain ⟨y, rfl, hz, hpos, hu, hv⟩ := h
  have h40 : (40 : ℝ) < (k.depth : ℝ) := by
    simp only [depthValid, decide_eq_true_eq] at hd
    exact_mod_cast hd.1
  have he : doubleEqual (screenPoint k 2) 0 = false := doubleEqual_zero.2 (by
    have e : screenPoint k 2 = (k.depth : ℝ) := rfl
    rw [e, abs_of_pos (by linarith)]
    have : doubleEps < 40 := by norm_num [doubleEps]
    linarith)
  have e0 : ¬ screenPoint k 0 < 0 := by
    have : (0 : ℝ) ≤ (k.pt.x : ℝ) := by exact_mod_cast hx
    exact not_lt.2 this
  have e1 : ¬ screenPoint k 1 < 0 := by
    have : (0 : ℝ) ≤ (k.pt.y : ℝ) := by exact_mod_cast hy
    exact not_lt.2 this
  rw [worldPoint, hc, screenToCamera, if_neg e0, if_neg e1, he]
  simp only [Bool.false_eq_true, if_false, Outcome.map, Outcome.bind]
  congr 2
  rw [screenToCamera2_eq hfx hfy]
  change (k.pt.x : ℝ) = _ at hu
  change (k.pt.y : ℝ) = _ at hv
  ext i
  fin_cases i
  · change (k.depth : ℝ) * (((k.pt.x : ℝ) - cx) / fx) = y 0
    rw [hu]; field_simp; ring
  · change (k.depth : ℝ) * (((k.pt.y : ℝ) - cy) / fy) = y 1
    rw [hv]; field_simp; ring
  · exact hz.symm

/-- A detection exactly where the map point is leaves it there. -/
theorem exact_update {pinv : Sq 3 → Sq 3} (hpinv : ∀ A, IsCovariance A → IsPseudoInverse A (pinv A)) {c : Camera} (hc : IsCovariance c.pose)
    {d : Detected Desc} (hd : depthValid d.kp.depth = true) {b : PointBody Desc} (hb : IsCovariance b.tracked.covariance)
    (hx : worldPoint c d.kp = .ok b.tracked.coordinates) :
    ∃ b', updatePoint pinv c d b = .ok (b', true) ∧ b'.tracked.coordinates = b.tracked.coordinates ∧
      IsCovariance b'.tracked.covariance ∧ b'.tracked.moving = false ∧ b'.desc = newest d.desc b.desc := by
  obtain ⟨R, eR, hR⟩ := worldPointCovariance_ok hc d.kp
  obtain ⟨x', C', G, h1, h2, -, h3, -⟩ := static_step (by norm_num : (0 : ℝ) ≤ 1 / 1000) pinv hpinv b.tracked.coordinates
    b.tracked.coordinates hb hR
  rw [sub_self, mulVec_zero, add_zero] at h3
  have ht := track_ok pinv b.tracked b.tracked.coordinates hb hR h1
  have hm : movedBeyond b.tracked.coordinates b.tracked.coordinates R = false := by
    simp only [movedBeyond, decide_eq_false_iff_not, not_exists, not_lt, sub_self]
    exact fun i => Real.sqrt_nonneg _
  have hn : ¬ Geometry.norm (b.tracked.coordinates - x') < 0 := by
    rw [h3, sub_self]
    simp [Geometry.norm]
  refine ⟨⟨⟨x', C', false⟩, newest d.desc b.desc⟩, ?_, h3, h2, rfl, rfl⟩
  rw [updatePoint, if_pos hd, hx, Outcome.bind_ok, eR, Outcome.bind_ok, PointBody.merge, ht]
  simp only [Outcome.noexcept, Outcome.map, Outcome.bind, if_neg hn, hm]

theorem exact_merges [Inhabited Desc] (sight : Sight Desc S) {pinv : Sq 3 → Sq 3}
    (hpinv : ∀ A, IsCovariance A → IsPseudoInverse A (pinv A)) {fx fy cx cy : ℝ} (hfx : fx ≠ 0) (hfy : fy ≠ 0) {X : Nat → V3}
    {look : Nat → Desc} {n : Nat} {p : PoseVar} (hp : IsCovariance p.variance) {h : Handler Desc}
    (hv : Spec.ExactView fx fy cx cy X look (Spec.place p) h) {i : Nat} {d : Detected Desc} {b : Body Desc S}
    (hd : (Keypoints.detections h)[i]? = some d) (hb : Spec.At X look n i b) :
    ∃ b', (geo1 sight pinv).update (Spec.cameraAt fx fy cx cy p) d b = .ok (b', true) ∧ Spec.At X look n i b' := by
  obtain ⟨hi, q, rfl, hx, hC, -, hq⟩ := hb
  obtain ⟨h1, h2, h3, h4, h5⟩ := hv i d hd
  have hw : worldPoint (Spec.cameraAt fx fy cx cy p) d.kp = .ok q.tracked.coordinates := by
    rw [hx]
    exact exact_worldPoint hfx hfy rfl h1 h2 h3 h4
  obtain ⟨q', e, g1, g2, g3, g4⟩ := exact_update hpinv (firstPoseBlock_isCovariance hp : IsCovariance (Spec.cameraAt fx fy cx cy p).pose)
    h2 hC hw
  refine ⟨.point q', ?_, hi, q', rfl, by rw [g1, hx], g2, g3, ?_⟩
  · simp only [geo1, e, Outcome.map, Outcome.bind]
  · rw [g4, hq]
    rcases h5 with h5 | h5 <;> rw [h5] <;> rfl

theorem exact_build [Inhabited Desc] (sight : Sight Desc S) {pinv : Sq 3 → Sq 3} {fx fy cx cy : ℝ} (hfx : fx ≠ 0) (hfy : fy ≠ 0) {X : Nat → V3}
    {look : Nat → Desc} {n : Nat} {p : PoseVar} (hp : IsCovariance p.variance) {h : Handler Desc}
    (hv : Spec.ExactView fx fy cx cy X look (Spec.place p) h) {i : Nat} {d : Detected Desc}
    (hd : (Keypoints.detections h)[i]? = some d) (hi : i < n) (hs : d.desc.isSome = true) :
    ∃ b, (geo1 sight pinv).build (Spec.cameraAt fx fy cx cy p) d = some b ∧ Spec.At X look n i b := by
  obtain ⟨h1, h2, h3, h4, h5⟩ := hv i d hd
  have hdesc : d.desc = some (look i) := by
    rcases h5 with h5 | h5
    · exact h5
    · rw [h5] at hs; cases hs
  obtain ⟨R, eR, hR⟩ := worldPointCovariance_ok (c := Spec.cameraAt fx fy cx cy p) (firstPoseBlock_isCovariance hp) d.kp
  refine ⟨.point ⟨⟨X i, R, false⟩, some (look i)⟩, ?_, hi, _, rfl, rfl, hR, rfl, rfl⟩
  simp only [geo1, newPoint, exact_worldPoint (c := Spec.cameraAt fx fy cx cy p) hfx hfy rfl h1 h2 h3 h4, eR, makePoint, hdesc, hR.valid]
  rfl

theorem exact_copy [Inhabited Desc] (sight : Sight Desc S) (pinv : Sq 3 → Sq 3) {X : Nat → V3} {look : Nat → Desc} {n i : Nat}
    {b : Body Desc S} (hb : Spec.At X look n i b) : ∃ b', (geo1 sight pinv).copy b = some b' ∧ Spec.At X look n i b' := by
  obtain ⟨hi, q, rfl, hx, hC, hm, hq⟩ := hb
  refine ⟨.point ⟨⟨q.tracked.coordinates, q.tracked.covariance, false⟩, q.desc⟩, ?_, hi, _, rfl, hx, hC, rfl, hq⟩
  simp only [geo1, copyPoint, makePoint, hq, hC.valid]
  rfl

/-! ## C193 -/

theorem exact_trip [Inhabited Desc] (sight2 sight : Sight Desc S) {pinv : Sq 3 → Sq 3}
    (hpinv : ∀ A, IsCovariance A → IsPseudoInverse A (pinv A)) {fx fy cx cy : ℝ} (hfx : fx ≠ 0) (hfy : fy ≠ 0) {cols rows : Nat}
    {X : Nat → V3} {look : Nat → Desc} {n : Nat} {op : PlaneOps (Body Desc S) (Detected Desc ⊕ Shape) (Camera × Handler Desc)}
    (hop : ∀ c h, op.covValid (c, h) = isValid c.pose) {T0 : M4} {Ts : List M4}
    {fs : List (Slam.Frame (Outcome (World (Body Desc S))) (Handler Desc × List Shape) PoseVar Match)}
    (hr : Spec.Route (fun T U f => ∃ h, Spec.ExactFrame sight pinv fx fy cx cy cols rows X look n T U f h) T0 Ts fs) :
    ∀ prev, Spec.place prev = T0 → ∃ poses, poses.map Spec.place = Ts ∧ (∀ p ∈ poses, IsCovariance p.variance) ∧
      Spec.Trip (fun prev next f => ∃ h, Spec.Stage (geo2 sight2 pinv) (geo1 sight pinv) op (Spec.cameraAt fx fy cx cy)
        (fun e => isValid e.1.pose) ⟨fun p => isValid p.variance, fun p => isValid (firstPoseBlock p.variance)⟩ cols rows
        (Spec.At X look n) n prev next f h) prev poses fs := by
  induction hr with
  | home T => exact fun prev _ => ⟨[], rfl, by simp, .home prev⟩
  | @go T U Us f fs hf _ ih =>
    intro prev hprev
    obtain ⟨h, hf⟩ := hf
    obtain ⟨next, e, hC, hq, hre⟩ := hf.optimised prev hprev
    have hplace : Spec.place next = U := hf.determined _ _ hq hre
    obtain ⟨poses, hmap, hcs, ht⟩ := ih next hplace
    have hpose : isValid (Spec.cameraAt fx fy cx cy next).pose = true := (firstPoseBlock_isCovariance hC).valid
    refine ⟨next :: poses, by rw [List.map_cons, hplace, hmap],
      by simpa using ⟨hC, hcs⟩, .go ⟨h, ⟨hf.detect, e, hf.found prev hprev, ?_, hpose, hpose, hpose, ?_,
      hC.valid⟩⟩ ht⟩
    · intro i d b hd hb
      exact exact_merges sight hpinv hfx hfy hC (hplace ▸ hf.view) hd hb
    · rw [hop]; exact hpose

/-- C193: the camera starts at its true place and moves in front of at least 5 scene points `X i`; the pixels and the depths of the keypoints are
exact.  However long the trip is, every pose returned is at the true place, every frame but the first is tracked, and the map
holds exactly one feature per scene point, whose coordinates are those of the scene point. -/
theorem C193_no_drift [Inhabited Desc] (sight2 sight : Sight Desc S) {pinv : Sq 3 → Sq 3}
    (hpinv : ∀ A, IsCovariance A → IsPseudoInverse A (pinv A)) {fx fy cx cy : ℝ} (hfx : fx ≠ 0) (hfy : fy ≠ 0)
    (op : PlaneOps (Body Desc S) (Detected Desc ⊕ Shape) (Camera × Handler Desc)) (hop : ∀ c h, op.covValid (c, h) = isValid c.pose)
    (lt : Match → Match → Bool) {cols rows : Nat} (hc : cols < 2 ^ 31) (hr : rows < 2 ^ 31) (hcx : 31 < cols) (hry : 31 < rows)
    (hw : Keypoints.cellsFor rows ≤ Keypoints.cellsFor cols) {X : Nat → V3} {look : Nat → Desc} {n : Nat} (h5 : 5 ≤ n) (hn : n < 2 ^ 64)
    {start : PoseVar} (hstart : IsCovariance start.variance)
    {f : Slam.Frame (Outcome (World (Body Desc S))) (Handler Desc × List Shape) PoseVar Match} {h : Handler Desc}
    (hdet : ∀ L pose forced, f.detect L pose forced = (h, [])) (hview : Spec.ExactView fx fy cx cy X look (Spec.place start) h)
    (hfirst : Spec.Redetected (geo1 sight pinv) cols rows (Spec.At X look n) n (Spec.cameraAt fx fy cx cy start) h) {Ts : List M4}
    {fs : List (Slam.Frame (Outcome (World (Body Desc S))) (Handler Desc × List Shape) PoseVar Match)}
    (hroute : Spec.Route (fun T U f => ∃ h, Spec.ExactFrame sight pinv fx fy cx cy cols rows X look n T U f h) (Spec.place start) Ts fs) :
    ∃ s out outs w, Slam.run (localMapOps (programKinds (withShapes (handlerOps (geo2 sight2 pinv))) (withShapes (handlerOps (geo1 sight pinv)))
          op) (fun e => isValid e.1.pose) lt (fun pose d => (Spec.cameraAt fx fy cx cy pose, d.1)) frameDets)
        ⟨fun p => isValid p.variance, fun p => isValid (firstPoseBlock p.variance)⟩ (f :: fs) (Slam.init start (.ok World.init)) =
        .ok (s, out :: outs) ∧
      s.localMap = .ok w ∧ (out :: outs).map (fun o => Spec.place o.returned) = Spec.place start :: Ts ∧
      (∀ o ∈ outs, o.tracked = true ∧ o.lostAfter = false) ∧ Spec.Settled (Spec.At X look n) n Ts.length w ∧
      ∀ p ∈ (w.maps .point).localMap ++ (w.maps .point).staged, ∃ i q, p.2.body = .point q ∧ p.2.id = i + 1 ∧ i < n ∧
        q.tracked.coordinates = X i := by
  obtain ⟨poses, hmap, -, ht⟩ := exact_trip sight2 sight hpinv hfx hfy hop hroute start rfl
  obtain ⟨-, hlen, hdd⟩ := redetected_sees (Shape := Shape) hc hr hcx hry hw hfirst
  have hpose : isValid (Spec.cameraAt fx fy cx cy start).pose = true := (firstPoseBlock_isCovariance hstart).valid
  obtain ⟨s, out, outs, w, r1, r2, r3, -, -, r4, -, -, r5, r6⟩ := C187_moving_camera_partial (geo2 sight2 pinv) (geo1 sight pinv) op
    (Spec.cameraAt fx fy cx cy) (fun e => isValid e.1.pose) lt
    ⟨fun p => isValid p.variance, fun p => isValid (firstPoseBlock p.variance)⟩ hc hr hcx hry hw (Spec.At X look n) h5 hn
    (fun i b hb => hb.1) (fun i b hb => exact_copy sight pinv hb) start f h hdet hfirst
    (fun i d hd => exact_build sight hfx hfy hstart hview hd (by
      have := (List.getElem?_eq_some_iff.1 hd).1
      have e : (frameDets (Shape := Shape) (h, []) .point).length = (Keypoints.detections h).length := by simp [frameDets]
      omega) (hdd d (List.mem_of_getElem? hd)).1)
    hpose hpose hpose (by rw [hop]; exact hpose) hstart.valid hpose poses fs ht
  have hlen : Ts.length = poses.length := by rw [← hmap, List.length_map]
  refine ⟨s, out, outs, w, r1, r2, ?_, fun o ho => ⟨(r6 o ho).1, (r6 o ho).2.2⟩, hlen ▸ r3, ?_⟩
  · rw [List.map_cons, r4, ← hmap, ← r5, List.map_map]
    rfl
  · have rows : ∀ {t : Int} {l : Store (Body Desc S)}, Spec.Rows (Spec.At X look n) n t l → ∀ p ∈ l, ∃ i q, p.2.body = .point q ∧
        p.2.id = i + 1 ∧ i < n ∧ q.tracked.coordinates = X i := by
      intro t l hl p hp
      obtain ⟨j, hj, hjp⟩ := List.mem_iff_getElem.1 hp
      have := (List.forall₂_iff_get.1 hl).2 j (by rw [(List.forall₂_iff_get.1 hl).1]; exact hj) hj
      rw [List.get_eq_getElem, List.get_eq_getElem, hjp] at this
      obtain ⟨-, hid, -, -, hi, q, hq, hx, -⟩ := this
      exact ⟨_, q, hq, hid, hi, hx⟩
    have hp := r3.points
    intro p hm
    split at hp
    · rw [hp.1, List.nil_append] at hm
      exact rows hp.2 p hm
    · rw [hp.1, List.append_nil] at hm
      exact rows hp.2 p hm

/-! ## A camera that swings in front of a wall -/

/-- The five points of a wall one metre in front of the camera, in the world. -/
def wallPoint (i : Nat) : V3 :=
  axesRotation *ᵥ ![(((spread[i]?).getD ⟨0, 0⟩).x : ℝ), (((spread[i]?).getD ⟨0, 0⟩).y : ℝ), 1000]

/-- The camera with its axes along those of the world, moved sideways so that everything is seen `shiftOf k` pixels further to the right. -/
def wallPose (k : Nat) : PoseVar := ⟨⟨![-(shiftOf k : ℝ), 0, 0], ⟨1, 0, 0, 0⟩⟩, 1⟩

def wallPlace (k : Nat) : M4 := Spec.place (wallPose k)

theorem wallPlace_eq (k : Nat) : wallPlace k = transformation axesRotation (axesRotation *ᵥ ![-(shiftOf k : ℝ), 0, 0]) := by
  have h1 : (⟨1, 0, 0, 0⟩ : Quat).toRotationMatrix = 1 := by
    ext i j; fin_cases i <;> fin_cases j <;> simp [Quat.toRotationMatrix]
  rw [wallPlace, Spec.place, cameraToWorld_eq, wallPose, h1, Matrix.mul_one]

theorem wall_pixel (k i : Nat) : Spec.SeesAt 1000 1000 0 0 (wallPlace k) (wallPoint i)
    ![(((spread[i]?).getD ⟨0, 0⟩).x : ℝ) + shiftOf k, (((spread[i]?).getD ⟨0, 0⟩).y : ℝ)] 1000 := by
  refine ⟨![(((spread[i]?).getD ⟨0, 0⟩).x : ℝ) + shiftOf k, (((spread[i]?).getD ⟨0, 0⟩).y : ℝ), 1000], ?_, rfl, by norm_num, ?_, ?_⟩
  · rw [wallPlace_eq, pointToWorld_transformation, wallPoint, ← mulVec_add]
    congr 1
    ext j
    fin_cases j <;> simp
  · simp
  · simp

/-- A point is seen at one pixel only. -/
theorem seesAt_unique {fx fy cx cy : ℝ} {R : M3} (hR : Rᵀ * R = 1) {t x : V3} {u u' : V2} {z z' : ℝ}
    (h : Spec.SeesAt fx fy cx cy (transformation R t) x u z) (h' : Spec.SeesAt fx fy cx cy (transformation R t) x u' z') : u = u' := by
  obtain ⟨y, hy, hz, -, h0, h1⟩ := h
  obtain ⟨y', hy', hz', -, h0', h1'⟩ := h'
  rw [pointToWorld_transformation] at hy hy'
  have e : y = y' := by
    have := congrArg (Rᵀ *ᵥ ·) (add_right_cancel (hy.trans hy'.symm))
    simpa only [mulVec_mulVec, hR, one_mulVec] using this
  subst e
  subst hz
  subst hz'
  ext i
  fin_cases i
  · exact h0.trans h0'.symm
  · exact h1.trans h1'.symm

open Classical in
/-- Everything is visible, and the projection of a point is the pixel that sees it. -/
def wallSight : Sight Nat Unit where
  isVisible _ _ := true
  project c b := match b with
    | .point q => if h : ∃ p : Pt, ∃ z, Spec.SeesAt 1000 1000 0 0 c.c2w q.tracked.coordinates ![(p.x : ℝ), (p.y : ℝ)] z then
        some h.choose else none
    | _ => none
  distance := wallGeo.distance

theorem wallSight_project {k i : Nat} {c : Camera} (hc : c.c2w = wallPlace k) {b : Pt} (hb : spread[i]? = some b) {q : PointBody Nat}
    (hq : q.tracked.coordinates = wallPoint i) : wallSight.project c (.point q) = some ⟨b.x + shiftOf k, b.y⟩ := by
  have hs : Spec.SeesAt 1000 1000 0 0 c.c2w q.tracked.coordinates
      ![(((⟨b.x + shiftOf k, b.y⟩ : Pt).x : Rat) : ℝ), (((⟨b.x + shiftOf k, b.y⟩ : Pt).y : Rat) : ℝ)] 1000 := by
    have := wall_pixel k i
    rw [hb] at this
    rw [hc, hq]
    simpa using this
  have hex : ∃ p : Pt, ∃ z, Spec.SeesAt 1000 1000 0 0 c.c2w q.tracked.coordinates ![(p.x : ℝ), (p.y : ℝ)] z := ⟨_, _, hs⟩
  simp only [wallSight, dif_pos hex]
  congr 1
  obtain ⟨z, hz⟩ := hex.choose_spec
  generalize hex.choose = p at hz ⊢
  rw [hc, wallPlace_eq] at hs hz
  have := seesAt_unique axesRotation_orthogonal hz hs
  have h0 := congrFun this 0
  have h1 := congrFun this 1
  simp only [cons_val_zero, cons_val_one, Rat.cast_inj] at h0 h1
  cases p
  simp only at h0 h1
  rw [h0, h1]

/-- Only one place of the camera sees the five points where it does. -/
theorem wall_determined (s : ℝ) {R : M3} (hR : Rᵀ * R = 1) (hdet : R.det = 1) (t : V3)
    (h : ∀ u v : ℝ, (u, v) ∈ [((100 : ℝ) + s, (100 : ℝ)), (300 + s, 100), (500 + s, 100), (100 + s, 300), (300 + s, 300)] →
      ∃ y : V3, y = R *ᵥ ![u - s, v, 1000] + t ∧ 0 < y 2 ∧ u * y 2 = 1000 * y 0 ∧ v * y 2 = 1000 * y 1) :
    R = 1 ∧ t = ![s, 0, 0] := by
  have hy : ∀ (u v : ℝ) (j : Fin 3), (R *ᵥ ![u - s, v, 1000] + t) j = u * R j 0 + v * R j 1 + (1000 * R j 2 + t j - s * R j 0) := by
    intro u v j
    simp only [Pi.add_apply, mulVec, dotProduct, Fin.sum_univ_three, cons_val_zero, cons_val_one, cons_val]
    ring
  have key : ∀ u v : ℝ, (u, v) ∈ [((100 : ℝ) + s, (100 : ℝ)), (300 + s, 100), (500 + s, 100), (100 + s, 300), (300 + s, 300)] →
      0 < u * R 2 0 + v * R 2 1 + (1000 * R 2 2 + t 2 - s * R 2 0) ∧
      u * (u * R 2 0 + v * R 2 1 + (1000 * R 2 2 + t 2 - s * R 2 0)) = 1000 * (u * R 0 0 + v * R 0 1 + (1000 * R 0 2 + t 0 - s * R 0 0)) ∧
      v * (u * R 2 0 + v * R 2 1 + (1000 * R 2 2 + t 2 - s * R 2 0)) = 1000 * (u * R 1 0 + v * R 1 1 + (1000 * R 1 2 + t 1 - s * R 1 0)) := by
    intro u v huv
    obtain ⟨y, rfl, h0, h1, h2⟩ := h u v huv
    rw [hy, hy] at h1 h2
    rw [hy] at h0
    exact ⟨h0, h1, h2⟩
  generalize hc0 : 1000 * R 0 2 + t 0 - s * R 0 0 = c0 at key
  generalize hc1 : 1000 * R 1 2 + t 1 - s * R 1 0 = c1 at key
  generalize hc2 : 1000 * R 2 2 + t 2 - s * R 2 0 = c2 at key
  obtain ⟨p1, e1, f1⟩ := key (100 + s) 100 (by simp)
  obtain ⟨-, e2, f2⟩ := key (300 + s) 100 (by simp)
  obtain ⟨-, e3, f3⟩ := key (500 + s) 100 (by simp)
  obtain ⟨-, e4, f4⟩ := key (100 + s) 300 (by simp)
  obtain ⟨-, e5, f5⟩ := key (300 + s) 300 (by simp)
  have a2 : R 2 0 = 0 := by linear_combination (e1 - 2 * e2 + e3) / 80000
  rw [a2] at e1 e2 e3 e4 e5 f1 f2 f3 f4 f5 p1
  have b2 : R 2 1 = 0 := by linear_combination (e5 - e4 - e2 + e1) / 40000
  rw [b2] at e1 e2 e3 e4 e5 f1 f2 f3 f4 f5 p1
  have a1 : R 1 0 = 0 := by linear_combination (f1 - f2) / 200000
  have b1 : 1000 * R 1 1 = c2 := by linear_combination (f1 - f4) / 200
  have d1 : c1 = 0 := by rw [a1] at f1; linarith
  have a0 : 1000 * R 0 0 = c2 := by linear_combination (e1 - e2) / 200
  have b0 : R 0 1 = 0 := by linear_combination (e1 - e4) / 200000
  have d0 : 1000 * c0 = 0 := by rw [b0] at e1; linear_combination -e1 - (100 + s) * a0
  have col : ∀ i j : Fin 3, R 0 i * R 0 j + R 1 i * R 1 j + R 2 i * R 2 j = (1 : M3) i j := by
    intro i j
    rw [← hR]
    simp [Matrix.mul_apply, Fin.sum_univ_three]
  have n0 := col 0 0
  simp only [a1, a2, one_apply_eq] at n0
  have r00 : R 0 0 = 1 := by nlinarith
  have r11 : R 1 1 = 1 := by linarith
  have o1 := col 0 2
  have o2 := col 1 2
  simp only [a1, a2, b0, b2, r00, r11] at o1 o2
  have r02 : R 0 2 = 0 := by simpa using o1
  have r12 : R 1 2 = 0 := by simpa using o2
  have r22 : R 2 2 = 1 := by
    rw [det_fin_three, a1, a2, b0, b2, r00, r11, r02, r12] at hdet
    linarith
  refine ⟨?_, ?_⟩
  · ext i j
    fin_cases i <;> fin_cases j <;> simp [a1, a2, b0, b2, r00, r11, r02, r12, r22]
  · ext i
    fin_cases i
    · simp only [r02, r00] at hc0; simp; linarith
    · simp only [r12, a1] at hc1; simp; linarith
    · simp only [r22, a2] at hc2; simp; linarith

theorem shifted_get {k i : Nat} {h : Handler Nat} (hpt : (Keypoints.detections h).map (·.kp.pt) = shifted k) {d : Detected Nat}
    (hd : (Keypoints.detections h)[i]? = some d) : ∃ b, spread[i]? = some b ∧ d.kp.pt = ⟨b.x + shiftOf k, b.y⟩ := by
  have := congrArg (·[i]?) hpt
  simp only [List.getElem?_map, hd, shifted, Option.map_some] at this
  obtain ⟨b, hb, e⟩ := Option.map_eq_some_iff.1 this.symm
  exact ⟨b, hb, e.symm⟩

theorem wall_view {k : Nat} {h : Handler Nat} (hpt : (Keypoints.detections h).map (·.kp.pt) = shifted k)
    (hz : ∀ d ∈ Keypoints.detections h, d.kp.depth = 1000 ∧ (d.desc = some 0 ∨ d.desc = none)) :
    Spec.ExactView 1000 1000 0 0 wallPoint (fun _ => 0) (wallPlace k) h := by
  intro i d hd
  obtain ⟨b, hb, e⟩ := shifted_get hpt hd
  obtain ⟨h1, h2⟩ := hz d (List.mem_of_getElem? hd)
  have hs := wall_pixel k i
  have hpos : ∀ b ∈ spread, 0 ≤ b.x ∧ 0 ≤ b.y := by decide +kernel
  have hsh : 0 ≤ shiftOf k := by rw [shiftOf]; split <;> norm_num
  refine ⟨?_, by rw [h1]; decide +kernel, ?_, ?_, h2⟩
  · rw [hb] at hs
    rw [h1, screenPoint2, e]
    simpa using hs
  · rw [e]
    exact add_nonneg (hpos b (List.mem_of_getElem? hb)).1 hsh
  · rw [e]
    exact (hpos b (List.mem_of_getElem? hb)).2

theorem axesRotation_det : axesRotation.det = 1 := by
  simp [axesRotation, det_fin_three]

theorem wall_only_rigid {k : Nat} {h : Handler Nat} (hpt : (Keypoints.detections h).map (·.kp.pt) = shifted k) {M : M3} {τ : V3}
    (hM : Mᵀ * M = 1) (hMd : M.det = 1) (hre : Spec.Reprojects 1000 1000 0 0 wallPoint (transformation M τ) h) :
    transformation M τ = wallPlace k := by
  have hM' : M * Mᵀ = 1 := mul_eq_one_comm.1 hM
  have hA' : axesRotation * axesRotationᵀ = 1 := mul_eq_one_comm.1 axesRotation_orthogonal
  obtain ⟨h1, h2⟩ := wall_determined (shiftOf k : ℝ) (R := Mᵀ * axesRotation) (by
      rw [transpose_mul, transpose_transpose, Matrix.mul_assoc, ← Matrix.mul_assoc M, hM', Matrix.one_mul, axesRotation_orthogonal])
    (by rw [det_mul, det_transpose, hMd, axesRotation_det, one_mul]) (-(Mᵀ *ᵥ τ)) (by
      have hcase : ∀ (i : Nat) (b : Pt), spread[i]? = some b → ∃ y : V3, y = (Mᵀ * axesRotation) *ᵥ
          ![((b.x : ℝ) + shiftOf k) - shiftOf k, (b.y : ℝ), 1000] + -(Mᵀ *ᵥ τ) ∧ 0 < y 2 ∧ ((b.x : ℝ) + shiftOf k) * y 2 = 1000 * y 0 ∧
          (b.y : ℝ) * y 2 = 1000 * y 1 := by
        intro i b hb
        have hd : ∃ d, (Keypoints.detections h)[i]? = some d := by
          have := congrArg (·[i]?) hpt
          simp only [List.getElem?_map, shifted, hb, Option.map_some] at this
          obtain ⟨d, hd, -⟩ := Option.map_eq_some_iff.1 this
          exact ⟨d, hd⟩
        obtain ⟨d, hd⟩ := hd
        obtain ⟨b', hb', e⟩ := shifted_get hpt hd
        rw [hb] at hb'
        obtain rfl := Option.some.inj hb'
        obtain ⟨z, y, hy, rfl, hz, hu, hv⟩ := hre i d hd
        refine ⟨y, ?_, hz, ?_, ?_⟩
        · rw [pointToWorld_transformation, wallPoint, hb] at hy
          have := congrArg (Mᵀ *ᵥ ·) (eq_sub_of_add_eq hy)
          simp only [mulVec_mulVec, hM, one_mulVec, mulVec_sub] at this
          rw [this, sub_eq_add_neg, add_sub_cancel_right]
          rfl
        · simp only [screenPoint2, e, cons_val_zero] at hu
          push_cast at hu
          rw [hu]
          field_simp
          ring
        · rw [screenPoint2, e] at hv
          change (b.y : ℝ) = _ at hv
          rw [hv]
          field_simp
          ring
      intro u v huv
      simp only [List.mem_cons, Prod.mk.injEq, List.not_mem_nil, or_false] at huv
      rcases huv with ⟨rfl, rfl⟩ | ⟨rfl, rfl⟩ | ⟨rfl, rfl⟩ | ⟨rfl, rfl⟩ | ⟨rfl, rfl⟩
      · exact_mod_cast hcase 0 _ rfl
      · exact_mod_cast hcase 1 _ rfl
      · exact_mod_cast hcase 2 _ rfl
      · exact_mod_cast hcase 3 _ rfl
      · exact_mod_cast hcase 4 _ rfl)
  have e1 : M = axesRotation := by
    have := congrArg (M * ·) h1
    simpa only [← Matrix.mul_assoc, hM', Matrix.one_mul, Matrix.mul_one] using this.symm
  rw [wallPlace_eq, e1]
  congr 1
  have := congrArg (fun v => -(M *ᵥ v)) h2
  simp only [mulVec_neg, neg_neg, mulVec_mulVec, hM', one_mulVec] at this
  rw [this, e1, ← mulVec_neg]
  congr 1
  ext i
  fin_cases i <;> simp

theorem wall_only {k : Nat} {h : Handler Nat} (hpt : (Keypoints.detections h).map (·.kp.pt) = shifted k) (q : Quat) (t : V3)
    (hq : UnitQuat q) (hre : Spec.Reprojects 1000 1000 0 0 wallPoint (cameraToWorld q t) h) : cameraToWorld q t = wallPlace k := by
  rw [cameraToWorld_eq] at hre ⊢
  exact wall_only_rigid hpt (orthogonal_mul axesRotation_orthogonal (rotationMatrix_orthogonal hq))
    (by rw [det_mul, axesRotation_det, Angles.toRotationMatrix_det hq, one_mul]) hre

theorem wall_seenAs {k0 k i : Nat} {c : Camera} (hc : c.c2w = wallPlace k0) {b : Body Nat Unit}
    (hb : Spec.At wallPoint (fun _ => 0) 5 i b) :
    Spec.SeenAs (geo1 wallSight (examplePinv 3)) c (shifted k) [0, 0, 0, 0, 0] i b := by
  obtain ⟨hi, q, rfl, hx, -, hm, hq⟩ := hb
  have hs : spread[i]? = some spread[i] := List.getElem?_eq_getElem hi
  obtain ⟨-, -, p, r, d, e1, e2, e3, e4, e5, e6, e7⟩ := wall_seen (prev := k0) (next := k) hs
  refine ⟨hm, rfl, p, r, d, ?_, e2, e3, e4, e5, e6, ?_⟩
  · rw [← e1]
    exact wallSight_project hc hs hx
  · intro j q' d' h1 h2 h3 h4
    have := e7 j q' d' h1 h2 h3 h4
    have hd : (geo1 wallSight (examplePinv 3)).descriptor (Body.point q) = 0 := by
      change q.desc.getD default = 0
      rw [hq]; rfl
    rw [hd]
    exact this

def wallOps : PlaneOps (Body Nat Unit) (Detected Nat ⊕ Unit) (Camera × Handler Nat) where
  isVisible := fun _ _ => true
  projectedArea := fun _ _ => 0
  similar := fun _ _ _ => false
  interArea := fun _ _ _ => 0
  detectedArea := fun _ => 0
  update := fun _ _ b => .ok (b, true)
  build := fun _ _ => none
  copy := fun b => some b
  covValid := fun e => isValid e.1.pose

/-- The frame of a handler, with an optimiser that finds the pose `k`. -/
def exactFrame (h : Handler Nat) (k : Nat) :
    Slam.Frame (Outcome (World (Body Nat Unit))) (Handler Nat × List Unit) PoseVar Match :=
  ⟨fun _ _ _ => (h, []), fun _ _ => some (wallPose k, [])⟩

theorem exactFrame_spec {k0 k : Nat} {h : Handler Nat} (hpt : (Keypoints.detections h).map (·.kp.pt) = shifted k)
    (hz : ∀ d ∈ Keypoints.detections h, d.kp.depth = 1000 ∧ (d.desc = some 0 ∨ d.desc = none))
    (hfound : newView k = .ok h ∨ flowView k = .ok h) :
    Spec.ExactFrame wallSight (examplePinv 3) 1000 1000 0 0 640 480 wallPoint (fun _ => 0) 5 (wallPlace k0) (wallPlace k)
      (exactFrame h k) h := by
  have hview := wall_view hpt hz
  refine ⟨fun _ _ _ => rfl, hview, fun prev hprev => ?_, fun prev _ => ⟨wallPose k, rfl, isCovariance_one, ?_, ?_⟩, wall_only hpt⟩
  · rcases hfound with e | e
    · refine .inl ⟨⟨Keypoints.create 640 480, demoImage, shifted k, [0, 0, 0, 0, 0], .create, by simp [shifted, spread],
        by simp [shifted, spread], e, fun i b hb => wall_seenAs hprev hb⟩, fun d hd => ?_⟩
      rw [(hz d hd).1]
      decide +kernel
    · refine .inr ⟨⟨Keypoints.create 640 480, demoImage, _, ?_, e⟩, fun i b hb => ?_⟩
      · simp only [shifted, spread, List.map_cons, List.map_nil, List.zipIdx_cons, List.zipIdx_nil]
        rfl
      · obtain ⟨-, q, rfl, -, -, hm, -⟩ := hb
        exact ⟨hm, rfl⟩
  · simp [UnitQuat, wallPose]
  · intro i d hd
    exact ⟨_, (hview i d hd).1⟩

/-- The hypotheses are met: the camera swings in front of the wall as often as one likes, to the right with new keypoints and back with
followed ones; it ends at its true place and the map has the five points of the wall where they are. -/
example : ∀ n, ∃ h fs, newView 0 = .ok h ∧
    ∃ s out outs w, Slam.run (localMapOps (programKinds (withShapes (handlerOps (geo2 wallSight (examplePinv 3))))
        (withShapes (handlerOps (geo1 wallSight (examplePinv 3)))) wallOps) (fun e => isValid e.1.pose) (fun _ _ => false)
        (fun pose d => (Spec.cameraAt 1000 1000 0 0 pose, d.1)) frameDets)
      ⟨fun p => isValid p.variance, fun p => isValid (firstPoseBlock p.variance)⟩ (exactFrame h 0 :: fs)
      (Slam.init (wallPose 0) (.ok World.init)) = .ok (s, out :: outs) ∧
      s.localMap = .ok w ∧ (out :: outs).map (fun o => Spec.place o.returned) = wallPlace 0 :: (swing 0 n).map wallPlace ∧
      Spec.Settled (Spec.At wallPoint (fun _ => 0) 5) 5 n w := by
  obtain ⟨h0, e0, g0⟩ := holds_elim (show ((newView 0).holds fun h =>
    (Keypoints.detections h).all (fun d => decide (d.kp.depth = 1000 ∧ (d.desc = some 0 ∨ d.desc = none))) &&
      decide ((Keypoints.detections h).map (·.kp.pt) = shifted 0)) = true by decide +kernel)
  obtain ⟨h1, e1, g1⟩ := holds_elim (show ((newView 1).holds fun h =>
    (Keypoints.detections h).all (fun d => decide (d.kp.depth = 1000 ∧ (d.desc = some 0 ∨ d.desc = none))) &&
      decide ((Keypoints.detections h).map (·.kp.pt) = shifted 1)) = true by decide +kernel)
  obtain ⟨h2, e2, g2⟩ := holds_elim (show ((flowView 0).holds fun h =>
    (Keypoints.detections h).all (fun d => decide (d.kp.depth = 1000 ∧ (d.desc = some 0 ∨ d.desc = none))) &&
      decide ((Keypoints.detections h).map (·.kp.pt) = shifted 0)) = true by decide +kernel)
  simp only [Bool.and_eq_true, List.all_eq_true, decide_eq_true_eq] at g0 g1 g2
  have hroute : ∀ n pose, (pose = 0 ∨ pose = 1) → ∃ fs, Spec.Route (fun T U f => ∃ h, Spec.ExactFrame wallSight (examplePinv 3) 1000 1000 0 0
      640 480 wallPoint (fun _ => 0) 5 T U (f : Slam.Frame _ (Handler Nat × List Unit) PoseVar Match) h) (wallPlace pose) ((swing pose n).map wallPlace) fs := by
    intro n
    induction n with
    | zero => exact fun pose _ => ⟨[], .home _⟩
    | succ n ih =>
      intro pose hp
      rcases hp with rfl | rfl
      · obtain ⟨fs, ht⟩ := ih 1 (.inr rfl)
        exact ⟨exactFrame h1 1 :: fs, .go ⟨h1, exactFrame_spec g1.2 g1.1 (.inl e1)⟩ ht⟩
      · obtain ⟨fs, ht⟩ := ih 0 (.inl rfl)
        exact ⟨exactFrame h2 0 :: fs, .go ⟨h2, exactFrame_spec g2.2 g2.1 (.inr e2)⟩ ht⟩
  intro n
  obtain ⟨fs, ht⟩ := hroute n 0 (.inl rfl)
  have hsw : ∀ n pose, (swing pose n).length = n := by
    intro n
    induction n with
    | zero => exact fun _ => rfl
    | succ n ih => exact fun pose => by rw [swing, List.length_cons, ih]
  have hfirst : Spec.Redetected (geo1 wallSight (examplePinv 3)) 640 480 (Spec.At wallPoint (fun _ => 0) 5) 5
      (Spec.cameraAt 1000 1000 0 0 (wallPose 0)) h0 :=
    ⟨⟨Keypoints.create 640 480, demoImage, shifted 0, [0, 0, 0, 0, 0], .create, by simp [shifted, spread],
        by simp [shifted, spread], e0, fun i b hb => wall_seenAs rfl hb⟩, fun d hd => by rw [(g0.1 d hd).1]; decide +kernel⟩
  obtain ⟨s, out, outs, w, r1, r2, r3, -, r4, -⟩ := C193_no_drift wallSight wallSight examplePinv_spec (by norm_num) (by norm_num) wallOps
    (fun _ _ => rfl) (fun _ _ => false) (cols := 640) (rows := 480) (by norm_num) (by norm_num) (by norm_num) (by norm_num) (by decide)
    (n := 5) (by norm_num) (by norm_num) (start := wallPose 0) isCovariance_one (f := exactFrame h0 0) (fun _ _ _ => rfl)
    (wall_view g0.2 g0.1) hfirst ht
  rw [List.length_map, hsw] at r4
  exact ⟨h0, fs, e0, s, out, outs, w, r1, r2, r3, r4⟩

end

end RgbdSlam.Map
