import Verif.Props.TumExact
import Verif.Lemmas.Optimizer

/-! # C219: the pose error shown for an exact dataset

The tracker is exact (C218), the ground truth is right, in metres as in the files of the TUM datasets.  The error that the program shows at its end is
0 degrees, but not 0 centimetres. -/

namespace RgbdSlam.Map.Exact

open Keypoints (Handler Detected Pt Tracked)
open Geometry Geometry.Spec Covariance Covariance.Spec Updates Matrix
open Optimizer (PoseVar)
open TumRun (Program Input Image Colour Key Loop Line lineOf startPose)
open TumRun.Spec (kept UntilQuit)

noncomputable section

variable {Desc S Shape : Type}

/-- The place of the camera in the ground truth: the files give metres, the scene is in millimetres. -/
def Spec.truePlace (g : V3 × Quat) : M4 := cameraToWorld g.2.normalized (fun i => 1000 * g.1 i)

/-! ## Rotations -/

theorem unit_or_trivial {q : Quat} (h : q.toRotationMatrixᵀ * q.toRotationMatrix = 1) : UnitQuat q ∨ q.x = 0 ∧ q.y = 0 ∧ q.z = 0 := by
  have h0 := congrFun (congrFun h 0) 0
  have h1 := congrFun (congrFun h 1) 1
  have h2 := congrFun (congrFun h 2) 2
  simp [Quat.toRotationMatrix, Matrix.mul_apply, Fin.sum_univ_three] at h0 h1 h2
  have key : (q.x ^ 2 + q.y ^ 2 + q.z ^ 2) * (q.w ^ 2 + q.x ^ 2 + q.y ^ 2 + q.z ^ 2 - 1) = 0 := by
    linear_combination (h0 + h1 + h2) / 8
  rcases mul_eq_zero.1 key with e | e
  · have := sq_nonneg q.x
    have := sq_nonneg q.y
    have := sq_nonneg q.z
    exact .inr ⟨pow_eq_zero_iff two_ne_zero |>.1 (by linarith), pow_eq_zero_iff two_ne_zero |>.1 (by linarith), pow_eq_zero_iff two_ne_zero |>.1 (by linarith)⟩
  · refine .inl ?_
    unfold UnitQuat
    linarith

theorem no_rotation_error {p q : Pose} (hq : UnitQuat q.orientation) (e : p.orientation.toRotationMatrix = q.orientation.toRotationMatrix) :
    Angles.rotationError p q = 0 := by
  have ho := rotationMatrix_orthogonal hq
  rw [← e] at ho
  rcases unit_or_trivial ho with h | ⟨hx, hy, hz⟩
  · exact (Angles.C139_rotation_error_distance p q h hq).2.2.2.2 e
  · have e0 := congrFun (congrFun e 0) 0
    have e1 := congrFun (congrFun e 1) 1
    simp [Quat.toRotationMatrix, hx, hy, hz] at e0 e1
    have zx : q.orientation.x = 0 := mul_self_eq_zero.1 (by nlinarith [mul_self_nonneg q.orientation.x, mul_self_nonneg q.orientation.y, mul_self_nonneg q.orientation.z])
    have zy : q.orientation.y = 0 := mul_self_eq_zero.1 (by nlinarith [mul_self_nonneg q.orientation.x, mul_self_nonneg q.orientation.y, mul_self_nonneg q.orientation.z])
    have zz : q.orientation.z = 0 := mul_self_eq_zero.1 (by nlinarith [mul_self_nonneg q.orientation.x, mul_self_nonneg q.orientation.y, mul_self_nonneg q.orientation.z])
    simp [Angles.rotationError, Angles.angularDistance, Quat.mul, Angles.conjugate, hx, hy, hz, zx, zy, zz, Geometry.norm, atan2]
    exact Complex.arg_ofReal_of_nonneg (by positivity)

theorem transformation_inj {R R' : M3} {t t' : V3} (h : transformation R t = transformation R' t') : R = R' ∧ t = t' := by
  rw [transformation, transformation, fromBlocks_inj] at h
  exact ⟨h.1, funext fun i => congrFun (congrFun h.2.1 i) 0⟩

theorem axes_cancel {v w : V3} (h : axesRotation *ᵥ v = axesRotation *ᵥ w) : v = w := by
  have := congrArg (axesRotationᵀ *ᵥ ·) h
  simpa only [mulVec_mulVec, axesRotation_orthogonal, one_mulVec] using this

theorem axes_cancel_mul {A B : M3} (h : axesRotation * A = axesRotation * B) : A = B := by
  have := congrArg (axesRotationᵀ * ·) h
  simpa only [← Matrix.mul_assoc, axesRotation_orthogonal, Matrix.one_mul] using this

/-- The tracker starts at the numbers of the file, taken for millimetres: it is where it believes to be up to a shift. -/
theorem end_pose {g0 g : V3 × Quat} (h0 : UnitQuat g0.2.normalized) {E : M4} (hE : Anew.Spec.Rigid E)
    (hs : E * Spec.truePlace g0 = cameraToWorld g0.2.normalized g0.1) {p : Pose}
    (he : cameraToWorld p.orientation p.position = E * Spec.truePlace g) :
    p.orientation.toRotationMatrix = g.2.normalized.toRotationMatrix ∧ ∀ i, p.position i = 1000 * g.1 i - 999 * g0.1 i := by
  obtain ⟨R, t, h1, h2, rfl⟩ := hE
  rw [Spec.truePlace, cameraToWorld_eq, cameraToWorld_eq, transformation_mul] at hs he
  obtain ⟨s1, s2⟩ := transformation_inj hs
  obtain ⟨e1, e2⟩ := transformation_inj he
  have hR : R = 1 := by
    have ho := orthogonal_comm (orthogonal_mul axesRotation_orthogonal (rotationMatrix_orthogonal h0))
    have := congrArg (· * (axesRotation * g0.2.normalized.toRotationMatrix)ᵀ) s1
    simpa only [Matrix.mul_assoc R, ho, Matrix.mul_one] using this
  subst hR
  rw [Matrix.one_mul] at e1
  rw [one_mulVec] at s2 e2
  refine ⟨axes_cancel_mul e1, fun i => ?_⟩
  have ht : t = axesRotation *ᵥ (g0.1 - fun i => 1000 * g0.1 i) := by
    rw [mulVec_sub, ← s2]
    abel
  rw [ht, ← mulVec_add] at e2
  rw [axes_cancel e2]
  simp only [Pi.add_apply, Pi.sub_apply]
  ring

/-! ## C219 -/

theorem untilQuit_unique {keys : ℕ → Key} {inputs t t' : List Input} (h : UntilQuit keys inputs t) (h' : UntilQuit keys inputs t') : t = t' := by
  have key : ∀ {t t' : List Input}, UntilQuit keys inputs t → UntilQuit keys inputs t' → t'.length ≤ t.length := by
    intro t t' h h'
    by_contra hl
    rw [not_le] at hl
    obtain ⟨i, hi, hk⟩ := h.2.2 (lt_of_lt_of_le hl h'.1.length_le)
    exact h'.2.1 i (by omega) hk
  exact (List.prefix_of_prefix_length_le h.1 h'.1 (key h' h)).eq_of_length_le (key h h')

/-- What the program shows when its end pose is the true place of the last image, in the frame in which the first image is taken from the start pose. -/
theorem shown_error {T : Type} {prog : Program T} {create : Pose → T} {first : ℕ} {keys : ℕ → Key}
    {inputs treated : List Input} (hquit : UntilQuit keys (kept prog.jump first inputs) treated) (hhead : treated.head? = inputs.head?) {report : TumRun.Report} (h : TumRun.run prog create first keys inputs = .ok (some report))
    {g0 g : V3 × Quat} (hg0 : (treated.head?).bind (·.truth) = some g0) (hg : (treated.getLast?).bind (·.truth) = some g)
    (u0 : UnitQuat g0.2.normalized) (u : UnitQuat g.2.normalized) {E : M4} (hE : Anew.Spec.Rigid E)
    (htrue0 : E * Spec.truePlace g0 = cameraToWorld (startPose inputs).orientation (startPose inputs).position)
    (htrue : cameraToWorld report.endPose.orientation report.endPose.position = E * Spec.truePlace g) :
    report.error = some (999 / 10 * Geometry.norm (g.1 - g0.1), 0) := by
  have hs : startPose inputs = Pose.ofParameters g0.1 g0.2 := by
    obtain ⟨i, hi, ht⟩ := Option.bind_eq_some_iff.1 hg0
    obtain ⟨a, b, c⟩ := i
    obtain rfl : c = some g0 := ht
    rw [startPose, ← hhead, hi]
  rw [hs] at htrue0
  obtain ⟨t, poses, s, out, -, -, -, -, hu, hd, rfl⟩ := TumRun.run_spec h
  rw [untilQuit_unique hu hquit] at hd
  obtain ⟨i, hi, ht⟩ := Option.bind_eq_some_iff.1 hg
  obtain ⟨l1, l2⟩ := hd.last i hi
  obtain ⟨l3, l4⟩ := l2 g ht
  obtain ⟨p1, p2⟩ := end_pose u0 hE htrue0 htrue
  dsimp only at p1 p2 ⊢
  rw [l1, ht, Option.isSome_some, if_pos rfl, l3, l4, no_rotation_error (q := Pose.ofParameters g.1 g.2) u p1]
  congr 2
  have e : Angles.positionError out.pose (Pose.ofParameters g.1 g.2) = 999 * Geometry.norm (g.1 - g0.1) := by
    have hp : (Pose.ofParameters g.1 g.2).position - out.pose.position = (-999 : ℝ) • (g.1 - g0.1) := by
      ext i
      simp only [Pose.ofParameters, Pi.sub_apply, Pi.smul_apply, smul_eq_mul, p2 i]
      ring
    rw [Angles.positionError, hp, Geometry.norm, Geometry.norm, smul_dotProduct, dotProduct_smul, smul_eq_mul, smul_eq_mul, ← mul_assoc,
      Real.sqrt_mul (by norm_num), show (-999 : ℝ) * -999 = 999 * 999 by norm_num, Real.sqrt_mul_self (by norm_num)]
  rw [e]
  ring

/-- C219, the part that holds.  The dataset is exact as in C218, its first image is not skipped, and the first and last treated images have a ground
truth, in metres, which is right: `E` is the change
of frame from the ground truth to the frame in which the first image is taken from the start pose.  The error that the program shows is exactly 0
degrees; in centimetres it is 99.9 times the distance in metres between the first and the last place, instead of 0. -/
theorem C219_shown_error_partial [Inhabited Desc] (sight2 sight : Sight Desc S) {pinv : Sq 3 → Sq 3}
    (hpinv : ∀ A, IsCovariance A → IsPseudoInverse A (pinv A)) {fx fy cx cy : ℝ} (hfx : fx ≠ 0) (hfy : fy ≠ 0)
    (op : PlaneOps (Body Desc S) (Detected Desc ⊕ Shape) (Camera × Handler Desc)) (hop : ∀ c h, op.covValid (c, h) = isValid c.pose)
    (lt : Match → Match → Bool) {cols rows : Nat} (hc : cols < 2 ^ 31) (hr : rows < 2 ^ 31) (hcx : 31 < cols) (hry : 31 < rows)
    (hw : Keypoints.cellsFor rows ≤ Keypoints.cellsFor cols) {X : Nat → V3} {look : Nat → Desc} {n : Nat} (h5 : 5 ≤ n) (hn : n < 2 ^ 64)
    -- the program
    {frameOf : Image Colour × Image ℚ → Slam.Frame (Outcome (World (Body Desc S))) (Handler Desc × List Shape) PoseVar Match}
    {prog : Program (Slam.State (Outcome (World (Body Desc S))) PoseVar)}
    (htrack : prog.track = slamTrack (localMapOps (programKinds (withShapes (handlerOps (geo2 sight2 pinv))) (withShapes (handlerOps (geo1 sight pinv)))
          op) (fun e => isValid e.1.pose) lt (fun pose d => (Spec.cameraAt fx fy cx cy pose, d.1)) frameDets)
        ⟨fun p => isValid p.variance, fun p => isValid (firstPoseBlock p.variance)⟩ frameOf)
    (hxyz : Angles.Spec.IsXyz prog.xyz) {keys : ℕ → Key} {first : ℕ} {variance : Sq 6} (hstart : IsCovariance variance)
    -- the dataset
    {inputs treated : List Input} (hquit : UntilQuit keys (kept prog.jump first inputs) treated) {f : Slam.Frame (Outcome (World (Body Desc S))) (Handler Desc × List Shape) PoseVar Match} {fs : List (Slam.Frame (Outcome (World (Body Desc S))) (Handler Desc × List Shape) PoseVar Match)}
    (himages : List.Forall₂ (fun i g => ∃ images, TumRun.prepare prog.width prog.height i = .ok images ∧ frameOf images = g) treated (f :: fs))
    {h : Handler Desc} (hdet : ∀ L pose forced, f.detect L pose forced = (h, []))
    (hview : Spec.ExactView fx fy cx cy X look (Spec.place ⟨startPose inputs, variance⟩) h)
    (hfirst : Spec.Redetected (geo1 sight pinv) cols rows (Spec.At X look n) n (Spec.cameraAt fx fy cx cy ⟨startPose inputs, variance⟩) h)
    {Ts : List M4} (hrigid : ∀ T ∈ Spec.place ⟨startPose inputs, variance⟩ :: Ts, Anew.Spec.Rigid T)
    (hroute : Spec.Route (fun T U f => ∃ h, Spec.ExactFrame sight pinv fx fy cx cy cols rows X look n T U f h)
      (Spec.place ⟨startPose inputs, variance⟩) Ts fs)
    -- the ground truth
    (hhead : treated.head? = inputs.head?) {g0 g : V3 × Quat} (hg0 : (treated.head?).bind (·.truth) = some g0)
    (hg : (treated.getLast?).bind (·.truth) = some g)
    (u0 : UnitQuat g0.2.normalized) (u : UnitQuat g.2.normalized) {E : M4} (hE : Anew.Spec.Rigid E)
    (htrue0 : E * Spec.truePlace g0 = Spec.place ⟨startPose inputs, variance⟩)
    (htrue : E * Spec.truePlace g = (Spec.place ⟨startPose inputs, variance⟩ :: Ts).getLast (by simp)) :
    ∃ report, TumRun.run prog (fun p => Slam.init ⟨p, variance⟩ (.ok World.init)) first keys inputs = .ok (some report) ∧
      report.error = some (999 / 10 * Geometry.norm (g.1 - g0.1), 0) := by
  obtain ⟨report, r1, -, r2⟩ := C218_saved_trajectory sight2 sight hpinv hfx hfy op hop lt hc hr hcx hry hw h5 hn htrack hxyz hstart hquit
    himages hdet hview hfirst hrigid hroute
  exact ⟨report, r1, shown_error hquit hhead r1 hg0 hg u0 u hE htrue0 (r2.trans htrue.symm)⟩

/-! ## A dataset -/

/-- The images of the wall, with the ground truth in metres. -/
def truePicture (k : ℕ) : Input := { picture k with truth := some (![-(shiftOf k : ℝ) / 1000, 0, 0], ⟨1, 0, 0, 0⟩) }

theorem truePicture_place (k : ℕ) : Spec.truePlace (![-(shiftOf k : ℝ) / 1000, 0, 0], ⟨1, 0, 0, 0⟩) = wallPlace k := by
  have e : (fun i => 1000 * ![-(shiftOf k : ℝ) / 1000, 0, 0] i) = ![-(shiftOf k : ℝ), 0, 0] := by
    ext i
    fin_cases i
    · show 1000 * (-(shiftOf k : ℝ) / 1000) = -(shiftOf k : ℝ)
      ring
    · simp
    · simp
  rw [Spec.truePlace, Optimizer.normalized_of_unitQuat (by simp [UnitQuat])]
  dsimp only
  rw [e]
  rfl

/-- C219 is false of the code: the camera moves by two centimetres in front of the wall, the images are exact, the ground truth is right, and the saved trajectory
too, but the program shows an error of 1.998 cm. -/
theorem C219_shown_error_false : ∃ h0 h1 h2 report,
    TumRun.run (wallProgram h0 h1 h2) (fun p => Slam.init ⟨p, 1⟩ (.ok World.init)) 0 (fun _ => .other) [truePicture 0, truePicture 1] =
      .ok (some report) ∧
    report.trajectory.map Spec.placeOf = [truePicture 0, truePicture 1].filterMap (fun i => i.truth.map Spec.truePlace) ∧
    report.error = some (1998 / 1000, 0) := by
  obtain ⟨h0, h1, h2, e0, e1, e2, x1, x2, hv, hf⟩ := swing_frames
  have hs : (⟨startPose [truePicture 0, truePicture 1], 1⟩ : PoseVar) = wallPose 0 := by
    have : ![-((shiftOf 0 : ℚ) : ℝ) / 1000, 0, 0] = ![-((shiftOf 0 : ℚ) : ℝ), 0, 0] := by
      ext i; fin_cases i <;> simp [shiftOf]
    simp only [startPose, truePicture, picture, List.head?_cons, Pose.ofParameters, wallPose, this]
    rw [Optimizer.normalized_of_unitQuat (by simp [UnitQuat])]
  have hp : Spec.place ⟨startPose [truePicture 0, truePicture 1], 1⟩ = wallPlace 0 := by rw [hs]; rfl
  have hpre : ∀ k, TumRun.prepare 640 480 (truePicture k) = .ok (⟨480, 640, fun _ _ => (k, 0, 0)⟩, ⟨480, 640, fun _ _ => 0 * (1 / 5)⟩) := fun k => by
    rw [← prepare_picture k]
    rfl
  have himages : List.Forall₂ (fun i g => ∃ images, TumRun.prepare (wallProgram h0 h1 h2).width (wallProgram h0 h1 h2).height i = .ok images ∧
      viewOf h0 h1 h2 images = g) [truePicture 0, truePicture 1] [exactFrame h0 0, exactFrame h1 1] :=
    .cons ⟨_, hpre 0, rfl⟩ (.cons ⟨_, hpre 1, rfl⟩ .nil)
  have hrigid : ∀ T ∈ Spec.place ⟨startPose [truePicture 0, truePicture 1], 1⟩ :: [wallPlace 1], Anew.Spec.Rigid T := by
    rw [hp]
    intro T hT
    rcases List.mem_cons.1 hT with rfl | hT
    · exact Anew.wallPlace_rigid 0
    · rw [List.mem_singleton.1 hT]
      exact Anew.wallPlace_rigid 1
  have hroute : Spec.Route (fun T U f => ∃ h, Spec.ExactFrame wallSight (examplePinv 3) 1000 1000 0 0 640 480 wallPoint (fun _ => 0) 5 T U
        (f : Slam.Frame _ (Handler Nat × List Unit) PoseVar Match) h) (Spec.place ⟨startPose [truePicture 0, truePicture 1], 1⟩) [wallPlace 1]
        [exactFrame h1 1] := by
    rw [hp]
    exact .go ⟨h1, x1 0⟩ (.home _)
  obtain ⟨report, r1, r2, -⟩ := C218_saved_trajectory wallSight wallSight examplePinv_spec (by norm_num) (by norm_num) wallOps
    (fun _ _ => rfl) (fun _ _ => false) (cols := 640) (rows := 480) (by norm_num) (by norm_num) (by norm_num) (by norm_num) (by decide)
    (n := 5) (by norm_num) (by norm_num) (prog := wallProgram h0 h1 h2) rfl Optimizer.PoseVector.C215_angles.1 (keys := fun _ => .other)
    (first := 0) (variance := 1) isCovariance_one (all_treated rfl (fun _ => by decide)) himages (h := h0) (fun _ _ _ => rfl) (by rw [hp]; exact hv) (by rw [hs]; exact hf)
    hrigid hroute
  obtain ⟨report', r1', r3⟩ := C219_shown_error_partial wallSight wallSight examplePinv_spec (by norm_num) (by norm_num) wallOps
    (fun _ _ => rfl) (fun _ _ => false) (cols := 640) (rows := 480) (by norm_num) (by norm_num) (by norm_num) (by norm_num) (by decide)
    (n := 5) (by norm_num) (by norm_num) (prog := wallProgram h0 h1 h2) rfl Optimizer.PoseVector.C215_angles.1 (keys := fun _ => .other)
    (first := 0) (variance := 1) isCovariance_one (all_treated rfl (fun _ => by decide)) himages (h := h0) (fun _ _ _ => rfl) (by rw [hp]; exact hv) (by rw [hs]; exact hf)
    hrigid hroute rfl (g0 := (![-(shiftOf 0 : ℝ) / 1000, 0, 0], ⟨1, 0, 0, 0⟩)) (g := (![-(shiftOf 1 : ℝ) / 1000, 0, 0], ⟨1, 0, 0, 0⟩)) rfl rfl
    (by rw [Optimizer.normalized_of_unitQuat] <;> simp [UnitQuat]) (by rw [Optimizer.normalized_of_unitQuat] <;> simp [UnitQuat]) (E := 1)
    ⟨1, 0, by simp, by simp, by
      rw [transformation, ← fromBlocks_one]
      congr 1⟩
    (by rw [Matrix.one_mul, truePicture_place, hp]) (by rw [Matrix.one_mul, truePicture_place]; rfl)
  obtain rfl : report = report' := Option.some.inj (Outcome.ok.inj (r1.symm.trans r1'))
  refine ⟨h0, h1, h2, report, r1, ?_, ?_⟩
  · rw [r2 rfl, hp, ← truePicture_place, ← truePicture_place]
    rfl
  · rw [r3]
    congr 2
    have : Geometry.norm (![-((shiftOf 1 : ℚ) : ℝ) / 1000, 0, 0] - ![-((shiftOf 0 : ℚ) : ℝ) / 1000, 0, 0]) = 20 / 1000 := by
      rw [Geometry.norm, Real.sqrt_eq_iff_mul_self_eq (dot_self_nonneg _) (by norm_num)]
      simp [dotProduct, Fin.sum_univ_three, shiftOf]
      try norm_num
    rw [this]
    norm_num

end

end RgbdSlam.Map.Exact
