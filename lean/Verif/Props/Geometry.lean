import Verif.Lemmas.Geometry3

/-
Properties of the changes of frame, planes, screen projection, inverse depth points, polygon bases
and lines (exact real arithmetic).
-/
set_option linter.unusedSectionVars false
set_option linter.unusedSimpArgs false

namespace RgbdSlam.Geometry

open Matrix Spec

/-- A rotation used in the examples: 3/5, 4/5 around x. -/
noncomputable def exampleQuat : Quat := { w := 3 / 5, x := 4 / 5, y := 0, z := 0 }

theorem exampleQuat_unit : UnitQuat exampleQuat := by norm_num [UnitQuat, exampleQuat]

/-! ## C71: axes -/

/-- C71: at the identity pose the camera axes (x right, y down, z forward) are mapped to the
documented world axes (x forward, y left, z up): forward is world x, right is world -y, down is
world -z. -/
theorem C71_camera_axes (p : V3) :
    pointToWorld (cameraToWorld { w := 1, x := 0, y := 0, z := 0 } 0) p = ![p 2, -p 0, -p 1] := by
  rw [cameraToWorld_eq, pointToWorld_transformation]
  ext i
  fin_cases i <;>
    simp [axesRotation, Quat.toRotationMatrix, Matrix.mulVec, dotProduct, Fin.sum_univ_three,
      Matrix.mul_apply]

/-- C71: the camera centre is placed at the position of the pose, with the same change of axes. -/
theorem C71_camera_centre (q : Quat) (p : V3) :
    pointToWorld (cameraToWorld q p) 0 = ![p 2, -p 0, -p 1] := by
  rw [cameraToWorld_eq, pointToWorld_transformation]
  ext i
  fin_cases i <;> simp [axesRotation, Matrix.mulVec, dotProduct, Fin.sum_univ_three]

/-! ## C29: points -/

/-- C29: camera to world and back. -/
theorem C29_camera_round_trip {q : Quat} (h : UnitQuat q) (p x : V3) :
    pointToCamera (worldToCamera q p) (pointToWorld (cameraToWorld q p) x) = x := by
  obtain ⟨R, t, hR, e⟩ := cameraToWorld_rigid h p
  rw [worldToCamera, worldToCameraOf, e]
  exact toCamera_toWorld hR t x

/-- C29: world to camera and back. -/
theorem C29_world_round_trip {q : Quat} (h : UnitQuat q) (p x : V3) :
    pointToWorld (cameraToWorld q p) (pointToCamera (worldToCamera q p) x) = x := by
  obtain ⟨R, t, hR, e⟩ := cameraToWorld_rigid h p
  rw [worldToCamera, worldToCameraOf, e]
  exact toWorld_toCamera hR t x

/-- C29: distances are preserved from camera to world. -/
theorem C29_distances_to_world {q : Quat} (h : UnitQuat q) (p x y : V3) :
    sqDist (pointToWorld (cameraToWorld q p) x) (pointToWorld (cameraToWorld q p) y) = sqDist x y := by
  obtain ⟨R, t, hR, e⟩ := cameraToWorld_rigid h p
  rw [e]
  exact sqDist_toWorld hR t x y

/-- C29: distances are preserved from world to camera. -/
theorem C29_distances_to_camera {q : Quat} (h : UnitQuat q) (p x y : V3) :
    sqDist (pointToCamera (worldToCamera q p) x) (pointToCamera (worldToCamera q p) y) =
      sqDist x y := by
  rw [← C29_distances_to_world h p, C29_world_round_trip h, C29_world_round_trip h]

/-- C29: the camera to world matrix is recovered from the world to camera one. -/
theorem C29_matrix_round_trip {q : Quat} (h : UnitQuat q) (p : V3) :
    cameraToWorldOf (worldToCamera q p) = cameraToWorld q p := by
  obtain ⟨R, t, hR, e⟩ := cameraToWorld_rigid h p
  rw [worldToCamera, worldToCameraOf, cameraToWorldOf, e]
  exact Matrix.nonsing_inv_nonsing_inv _ (transformation_det hR t)

example : pointToCamera (worldToCamera exampleQuat ![1, 2, 3])
    (pointToWorld (cameraToWorld exampleQuat ![1, 2, 3]) ![4, 5, 6]) = ![4, 5, 6] :=
  C29_camera_round_trip exampleQuat_unit _ _

/-! ## C30: planes -/

/-- C30: the signed distance of a point to a plane is the same in both frames. -/
theorem C30_signed_distance {q : Quat} (h : UnitQuat q) (p : V3) {P : Plane}
    (hP : UnitVec P.normal) (x : V3) :
    signedDistance (P.transform (planeCameraToWorld (cameraToWorld q p)))
      (pointToWorld (cameraToWorld q p) x) = signedDistance P x := by
  obtain ⟨R, t, hR, e⟩ := cameraToWorld_rigid h p
  rw [e, plane_toWorld hR t ((unitVec_iff _).1 hP), pointToWorld_transformation, signedDistance_eq,
    signedDistance_eq, Plane.distance, Plane.distance]
  simp only [dotProduct_add]
  rw [orthogonal_dot hR, dotProduct_comm t]
  ring

/-- C30: a camera point is on a camera plane exactly when its world image is on the world image of
the plane. -/
theorem C30_on_plane {q : Quat} (h : UnitQuat q) (p : V3) {P : Plane}
    (hP : UnitVec P.normal) (x : V3) :
    OnPlane (P.transform (planeCameraToWorld (cameraToWorld q p)))
      (pointToWorld (cameraToWorld q p) x) ↔ OnPlane P x := by
  have := C30_signed_distance h p hP x
  unfold OnPlane
  unfold signedDistance at this
  rw [this]

/-- C30: the image of a plane has a unit normal. -/
theorem C30_unit_normal {q : Quat} (h : UnitQuat q) (p : V3) {P : Plane} (hP : UnitVec P.normal) :
    UnitVec (P.transform (planeCameraToWorld (cameraToWorld q p))).normal := by
  obtain ⟨R, t, hR, e⟩ := cameraToWorld_rigid h p
  rw [e, plane_toWorld hR t ((unitVec_iff _).1 hP), unitVec_iff, orthogonal_dot hR]
  exact (unitVec_iff _).1 hP

/-- C30: camera to world and back is the identity on planes. -/
theorem C30_camera_round_trip {q : Quat} (h : UnitQuat q) (p : V3) {P : Plane}
    (hP : UnitVec P.normal) :
    (P.transform (planeCameraToWorld (cameraToWorld q p))).transform
      (planeWorldToCamera (worldToCamera q p)) = P := by
  have hu := (unitVec_iff _).1 (C30_unit_normal h p hP)
  obtain ⟨R, t, hR, e⟩ := cameraToWorld_rigid h p
  rw [worldToCamera, worldToCameraOf]
  rw [e] at hu ⊢
  rw [plane_toCamera hR t hu, plane_toWorld hR t ((unitVec_iff _).1 hP)]
  simp only [Matrix.mulVec_mulVec, hR, Matrix.one_mulVec]
  cases P; simp

/-- C30: world to camera and back is the identity on planes. -/
theorem C30_world_round_trip {q : Quat} (h : UnitQuat q) (p : V3) {P : Plane}
    (hP : UnitVec P.normal) :
    (P.transform (planeWorldToCamera (worldToCamera q p))).transform
      (planeCameraToWorld (cameraToWorld q p)) = P := by
  have hu := (unitVec_iff _).1 hP
  obtain ⟨R, t, hR, e⟩ := cameraToWorld_rigid h p
  have hR' : R * Rᵀ = 1 := orthogonal_comm hR
  rw [worldToCamera, worldToCameraOf, e, plane_toCamera hR t hu, plane_toWorld hR t]
  · simp only [Matrix.mulVec_mulVec, hR', Matrix.one_mulVec]
    cases P; simp
  · simp only
    rw [orthogonal_dot (R := Rᵀ) (by rw [Matrix.transpose_transpose]; exact hR'), hu]

example : UnitVec (Plane.normal { normal := ![0, 3 / 5, 4 / 5], d := -100 }) := by
  simp [UnitVec, Fin.sum_univ_three]; norm_num

/-! ## C72: the plane residual -/

/-- C72: a detected plane equal to the image of the map plane has a zero residual. -/
theorem C72_zero_on_match (world : Plane) (M : M4) :
    (world.reducedDistance (world.transform M) M) = 0 := by
  simp [Plane.reducedDistance]

/-- C72 (partial: planes away from the camera centre only): a zero residual means that the detected
plane and the image of the map plane are the same set of points. -/
theorem C72_zero_means_same_plane_partial {q : Quat} (h : UnitQuat q) (p : V3) {world camera : Plane}
    (hw : UnitVec world.normal) (hc : UnitVec camera.normal) (hd : camera.d ≠ 0)
    (h0 : world.reducedDistance camera (planeWorldToCamera (worldToCamera q p)) = 0) (x : V3) :
    OnPlane camera x ↔ OnPlane (world.transform (planeWorldToCamera (worldToCamera q p))) x := by
  obtain ⟨R, t, hR, e⟩ := cameraToWorld_rigid h p
  have hu := (unitVec_iff _).1 hw
  have hc' := (unitVec_iff _).1 hc
  have hM : planeWorldToCamera (worldToCamera q p) = planeWorldToCamera (transformation R t)⁻¹ := by
    rw [worldToCamera, worldToCameraOf, e]
  rw [hM] at h0 ⊢
  unfold Plane.reducedDistance at h0
  rw [plane_toCamera hR t hu] at h0 ⊢
  have hn' : (Rᵀ *ᵥ world.normal) ⬝ᵥ (Rᵀ *ᵥ world.normal) = 1 := by
    rw [orthogonal_dot (R := Rᵀ) (by rw [Matrix.transpose_transpose]; exact orthogonal_comm hR), hu]
  simp only at h0
  set n := camera.normal
  set m := Rᵀ *ᵥ world.normal
  set d' := world.d + t ⬝ᵥ world.normal
  have heq : camera.d • n = d' • m := sub_eq_zero.1 h0
  -- the two offsets have the same square
  have hsq : camera.d * camera.d = d' * d' := by
    have := congrArg (fun v : V3 => v ⬝ᵥ v) heq
    simp only [smul_dotProduct, dotProduct_smul, smul_eq_mul, hc', hn'] at this
    linarith
  have key : ∀ y : V3, camera.d * (n ⬝ᵥ y + camera.d) = d' * (m ⬝ᵥ y + d') := by
    intro y
    have := congrArg (fun v : V3 => v ⬝ᵥ y) heq
    simp only [smul_dotProduct, smul_eq_mul] at this
    linear_combination this + hsq
  have hd' : d' ≠ 0 := by
    intro h1
    rw [h1] at hsq
    simp at hsq
    exact hd hsq
  show n ⬝ᵥ x + camera.d = 0 ↔ m ⬝ᵥ x + d' = 0
  constructor
  · intro h2
    have := key x
    rw [h2, mul_zero] at this
    exact (mul_eq_zero.1 this.symm).resolve_left hd'
  · intro h2
    have := key x
    rw [h2, mul_zero] at this
    exact (mul_eq_zero.1 this).resolve_left hd

example : ∃ world camera : Plane, UnitVec world.normal ∧ UnitVec camera.normal ∧ camera.d ≠ 0 ∧
    world.reducedDistance camera
      (planeWorldToCamera (worldToCamera exampleQuat 0)) = 0 := by
  refine ⟨({ normal := ![1, 0, 0], d := 5 } : Plane).transform
    (planeCameraToWorld (cameraToWorld exampleQuat 0)), { normal := ![1, 0, 0], d := 5 }, ?_, ?_, ?_, ?_⟩
  · exact C30_unit_normal exampleQuat_unit _ (by simp [UnitVec, Fin.sum_univ_three])
  · simp [UnitVec, Fin.sum_univ_three]
  · norm_num
  · rw [Plane.reducedDistance, C30_camera_round_trip exampleQuat_unit _
      (by simp [UnitVec, Fin.sum_univ_three])]
    simp

/-- C72 is false for planes through the camera centre: their residual is zero whatever their
orientations. -/
theorem C72_through_centre_false :
    ∃ world camera : Plane, UnitVec world.normal ∧ UnitVec camera.normal ∧
      world.reducedDistance camera (planeWorldToCamera (worldToCamera exampleQuat 0)) = 0 ∧
      ∃ x, OnPlane camera x ∧
        ¬ OnPlane (world.transform (planeWorldToCamera (worldToCamera exampleQuat 0))) x := by
  have hu : UnitVec (![0, 1, 0] : V3) := by simp [UnitVec, Fin.sum_univ_three]
  have hrt := C30_camera_round_trip (P := { normal := ![0, 1, 0], d := 0 }) exampleQuat_unit 0 hu
  refine ⟨({ normal := ![0, 1, 0], d := 0 } : Plane).transform
    (planeCameraToWorld (cameraToWorld exampleQuat 0)), { normal := ![1, 0, 0], d := 0 }, ?_, ?_, ?_,
    ![0, 1, 0], ?_, ?_⟩
  · exact C30_unit_normal exampleQuat_unit _ hu
  · simp [UnitVec, Fin.sum_univ_three]
  · rw [Plane.reducedDistance, hrt]; simp
  · simp [OnPlane, Fin.sum_univ_three]
  · rw [hrt]; simp [OnPlane, Fin.sum_univ_three]

/-! ## C31: screen -/

/-- C31: back-projecting a screen point and projecting it again. -/
theorem C31_screen_round_trip {fx fy : ℝ} (hx : fx ≠ 0) (hy : fy ≠ 0) (cx cy : ℝ) {s : V3}
    (h0 : 0 ≤ s 0) (h1 : 0 ≤ s 1) (h2 : doubleEps < s 2) :
    ∃ c, screenToCamera (intrinsics fx fy cx cy) s = .ok c ∧
      cameraToScreen (intrinsics fx fy cx cy) c = some s := by
  have hz : 0 < s 2 := lt_of_le_of_lt doubleEps_nonneg h2
  have he : doubleEqual (s 2) 0 = false := doubleEqual_zero.2 (by rwa [abs_of_pos hz])
  refine ⟨_, by
    rw [screenToCamera, if_neg (not_lt.2 h0), if_neg (not_lt.2 h1), he]; rfl, ?_⟩
  rw [cameraToScreen, cameraToScreen2_eq, screenToCamera2_eq hx hy]
  simp [hz.ne']
  ext i
  fin_cases i <;> simp <;> field_simp <;> ring

/-- C31 (partial: the projection must not be left of or above the image): a camera point in front of
the camera is recovered from its projection and depth. -/
theorem C31_camera_round_trip_partial {fx fy : ℝ} (hx : fx ≠ 0) (hy : fy ≠ 0) (cx cy : ℝ) {p : V3}
    (h2 : doubleEps < p 2) :
    ∃ s, cameraToScreen (intrinsics fx fy cx cy) p = some s ∧
      (0 ≤ s 0 → 0 ≤ s 1 → screenToCamera (intrinsics fx fy cx cy) s = .ok p) := by
  have hz : 0 < p 2 := lt_of_le_of_lt doubleEps_nonneg h2
  have he : doubleEqual (p 2) 0 = false := doubleEqual_zero.2 (by rwa [abs_of_pos hz])
  refine ⟨_, by rw [cameraToScreen, if_neg hz.ne'], fun h0 h1 => ?_⟩
  rw [screenToCamera, if_neg (not_lt.2 h0), if_neg (not_lt.2 h1)]
  simp only [cameraToScreen2_eq, screenToCamera2_eq hx hy]
  simp [he]
  ext i
  fin_cases i <;> simp <;> field_simp <;> ring

/-- C31 is false for the other camera points in front of the camera: their projection is computed,
but it cannot be back-projected. -/
theorem C31_left_of_image_false :
    ∃ (K : M3) (p s : V3), K = intrinsics 1 1 0 0 ∧ 0 < p 2 ∧ cameraToScreen K p = some s ∧
      screenToCamera K s = .throws := by
  refine ⟨_, ![-1, 0, 1], ![-1, 0, 1], rfl, by simp, ?_, ?_⟩
  · rw [cameraToScreen, cameraToScreen2_eq]
    simp
  · simp [screenToCamera]

/-- C31: a screen point is refused exactly when it is left of or above the image, or its depth is
zero (up to the double precision). -/
theorem C31_refused (K : M3) (s : V3) :
    screenToCamera K s = .throws ↔ s 0 < 0 ∨ s 1 < 0 ∨ |s 2| ≤ doubleEps := by
  unfold screenToCamera
  by_cases h0 : s 0 < 0
  · simp [h0]
  · by_cases h1 : s 1 < 0
    · simp [h0, h1]
    · by_cases h2 : |s 2| ≤ doubleEps <;> simp [h0, h1, h2, doubleEqual]

example : doubleEps < (![3, 4, 1000] : V3) 2 := by simp [doubleEps]; norm_num

/-! ## C32: inverse depth -/

/-- C32: a point distinct from the observer is recovered from its inverse depth form. -/
theorem C32_cartesian_round_trip {point origin : V3} (h : point ≠ origin) :
    ∃ p, InverseDepth.fromCartesian point origin = .ok p ∧ p.first = origin ∧
      p.inverseDepth = 1 / Real.sqrt (sqDist point origin) ∧ p.toWorld = .ok point := by
  set v := point - origin with hv
  have hv0 : v ≠ 0 := fun h0 => h (sub_eq_zero.1 h0)
  have hn : 0 < norm v := norm_pos hv0
  have hth := atan2_nonneg (x := v 2) (Real.sqrt_nonneg (v 0 * v 0 + v 1 * v 1))
  have hth' := atan2_le_pi (v 2) (Real.sqrt (v 0 * v 0 + v 1 * v 1))
  have hph := neg_pi_lt_atan2 (v 0) (v 1)
  have hph' := atan2_le_pi (v 0) (v 1)
  refine ⟨_, by
    simp only [InverseDepth.fromCartesian, InverseDepth.make, ← hv, Spherical.ofCartesian]
    rw [if_neg (not_lt.2 (by positivity)), if_neg (by
      rintro (h1 | h1)
      · exact absurd hth (not_le.2 h1)
      · exact absurd hth' (not_le.2 h1)), if_neg (by
      rintro (h1 | h1)
      · exact absurd hph.le (not_le.2 h1)
      · exact absurd hph' (not_le.2 h1))]
    rfl, rfl, ?_, ?_⟩
  · simp only [sqDist_eq, ← hv]; rfl
  · have h1 : (1 / norm v) ≠ 0 := by positivity
    simp only [InverseDepth.toWorld, if_neg h1]
    congr 1
    have hc := toCartesian_ofCartesian v
    have : point = origin + v := by rw [hv]; abel
    rw [this]
    congr 1
    rw [one_div, inv_inv]
    conv_rhs => rw [← hc]
    ext i
    fin_cases i <;> simp [Spherical.toCartesian, Spherical.ofCartesian] <;> ring

/-- C32: the cartesian image is on the ray, at distance one over the inverse depth. -/
theorem C32_on_ray_partial {first : V3} {inv theta phi : ℝ} {p : InverseDepth}
    (hp : InverseDepth.make first inv theta phi = .ok p) (hi : 0 < inv) :
    ∃ x, p.toWorld = .ok x ∧ UnitVec p.bearing ∧ p.first = first ∧
      (∀ i, x i = first i + (1 / inv) * p.bearing i) ∧ sqDist x first = (1 / inv) ^ 2 := by
  have hpe : p = { first := first, inverseDepth := inv, theta := theta, phi := phi, bearing :=
      Spherical.toCartesian { p := 1, theta := theta, phi := phi } } := by
    unfold InverseDepth.make at hp
    split at hp
    · cases hp
    · split at hp
      · cases hp
      · split at hp
        · cases hp
        · exact (Outcome.ok.inj hp).symm
  subst hpe
  have hb := bearing_unit theta phi
  refine ⟨_, by rw [InverseDepth.toWorld, if_neg hi.ne'], (unitVec_iff _).2 hb, rfl, ?_, ?_⟩
  · intro i; simp
  · rw [sqDist_eq]
    simp only [add_sub_cancel_left, smul_dotProduct, dotProduct_smul, hb, smul_eq_mul]
    field_simp

/-- C32: converting the point back recovers the bearing and the inverse depth, for bearings that are
not vertical. -/
theorem C32_back_partial {first : V3} {inv theta phi : ℝ} {p : InverseDepth}
    (hp : InverseDepth.make first inv theta phi = .ok p) (hi : 0 < inv) (h0 : 0 < theta)
    (h1 : theta < Real.pi) (h2 : -Real.pi < phi) :
    ∃ x, p.toWorld = .ok x ∧ InverseDepth.fromCartesian x first = .ok p := by
  have hpe : p = { first := first, inverseDepth := inv, theta := theta, phi := phi, bearing :=
      Spherical.toCartesian { p := 1, theta := theta, phi := phi } } ∧ phi ≤ Real.pi := by
    unfold InverseDepth.make at hp
    split at hp
    · cases hp
    · split at hp
      · cases hp
      · split at hp
        · cases hp
        · rename_i h3
          exact ⟨(Outcome.ok.inj hp).symm, not_lt.1 fun h4 => h3 (Or.inr h4)⟩
  obtain ⟨hpe, h3⟩ := hpe
  refine ⟨first + inv⁻¹ • p.bearing, by rw [hpe, InverseDepth.toWorld, if_neg hi.ne'], ?_⟩
  have hs := ofCartesian_toCartesian (s := { p := inv⁻¹, theta := theta, phi := phi })
    (inv_pos.2 hi) h0 h1 h2 h3
  have hv : first + inv⁻¹ • p.bearing - first =
      Spherical.toCartesian { p := inv⁻¹, theta := theta, phi := phi } := by
    rw [hpe]
    rw [add_sub_cancel_left]
    ext i
    fin_cases i <;> simp [Spherical.toCartesian] <;> ring
  rw [InverseDepth.fromCartesian, hv, hs]
  simp only [one_div, inv_inv]
  rw [hp, hpe]
  simp [Outcome.noexcept, Outcome.map, hi.ne']

example : ∃ p, InverseDepth.make ![1, 2, 3] (1 / 500) 1 2 = .ok p := by
  refine ⟨_, by
  unfold InverseDepth.make
  rw [if_neg (by norm_num), if_neg (by
    have := Real.two_le_pi
    rintro (h | h) <;> linarith), if_neg (by
    have := Real.two_le_pi
    rintro (h | h) <;> linarith)]⟩

/-- C32: a pixel seen for the first time is placed on the ray of the camera through that pixel, with
half of the baseline as inverse depth. -/
theorem C32_first_observation {q : Quat} (h : UnitQuat q) (p : V3) (K : M3) (s : V2) :
    ∃ ip, InverseDepth.ofScreen K s (cameraToWorld q p) = .ok ip ∧
      ip.first = pointToWorld (cameraToWorld q p) 0 ∧ ip.inverseDepth = 1 / 2000 ∧
      ∃ t : ℝ, 0 < t ∧ pointToWorld (cameraToWorld q p)
        ![screenToCamera2 K s 0, screenToCamera2 K s 1, 1] = ip.first + t • ip.bearing := by
  set c : V3 := ![screenToCamera2 K s 0, screenToCamera2 K s 1, 1] with hc
  obtain ⟨R, t, hR, e⟩ := cameraToWorld_rigid h p
  have h0 : pointToWorld (cameraToWorld q p) 0 = translation (cameraToWorld q p) := by
    rw [e, pointToWorld_transformation, translation_transformation]; simp
  have hne : pointToWorld (cameraToWorld q p) c ≠ translation (cameraToWorld q p) := by
    intro heq
    have hd := C29_distances_to_world h p c 0
    rw [heq, h0] at hd
    have : (c - 0) ⬝ᵥ (c - 0) = 0 := by
      rw [← sqDist_eq, ← hd]; simp [sqDist]
    rw [sub_zero] at this
    have := congrFun (dot_self_eq_zero this) 2
    simp [hc] at this
  obtain ⟨ip, h1, h2, h3, h4⟩ := C32_cartesian_round_trip hne
  refine ⟨{ ip with inverseDepth := (1 / 1000) / 2, infinite := false }, ?_, ?_, by norm_num, (ip.inverseDepth)⁻¹, ?_, ?_⟩
  · simp only [InverseDepth.ofScreen, InverseDepth.ofCamera]
    rw [← hc, h1]; rfl
  · simp only [h2, h0]
  · have : 0 < sqDist (pointToWorld (cameraToWorld q p) c) (translation (cameraToWorld q p)) := by
      rw [sqDist_eq]; exact dot_self_pos (sub_ne_zero.2 hne)
    rw [h3]
    have := Real.sqrt_pos.2 this
    positivity
  · simp only
    unfold InverseDepth.toWorld at h4
    have h0 : 0 < sqDist (pointToWorld (cameraToWorld q p) c) (translation (cameraToWorld q p)) := by
      rw [sqDist_eq]; exact dot_self_pos (sub_ne_zero.2 hne)
    rw [if_neg (by rw [h3]; exact (one_div_pos.2 (Real.sqrt_pos.2 h0)).ne')] at h4
    exact (Outcome.ok.inj h4).symm

/-- C32 is false for the confidence interval: as soon as both bounds of the inverse depth are above
1e-9, the closest and the farthest point are the same point, at 10^9 mm of the observer, whatever the
estimate. -/
theorem C32_interval_false :
    ∃ p : InverseDepth, InverseDepth.make 0 (1 / 1000) 1 1 = .ok p ∧ ∃ std : ℝ, 0 < std ∧
      p.closest std = p.furthest std ∧ sqDist (p.closest std) p.first = (10 ^ 9) ^ 2 ∧
      ∃ x, p.toWorld = .ok x ∧ sqDist x p.first < sqDist (p.closest std) p.first := by
  have hpi := Real.two_le_pi
  have hb := bearing_unit 1 1
  refine ⟨{ first := 0, inverseDepth := 1 / 1000, theta := 1, phi := 1, bearing :=
      Spherical.toCartesian { p := 1, theta := 1, phi := 1 } }, ?_, 1 / 10000, by norm_num, ?_, ?_, ?_⟩
  · unfold InverseDepth.make
    rw [if_neg (by norm_num), if_neg (by rintro (h | h) <;> linarith),
      if_neg (by rintro (h | h) <;> linarith)]
  · simp only [InverseDepth.closest, InverseDepth.furthest]
    norm_num
  · rw [sqDist_eq]
    simp only [InverseDepth.closest, add_sub_cancel_left, smul_dotProduct, dotProduct_smul, hb,
      smul_eq_mul]
    norm_num
  · refine ⟨_, by rw [InverseDepth.toWorld, if_neg (by norm_num)], ?_⟩
    rw [sqDist_eq, sqDist_eq]
    simp only [InverseDepth.closest, add_sub_cancel_left, smul_dotProduct, dotProduct_smul, hb,
      smul_eq_mul]
    norm_num

/-! ## C52: plane bases -/

/-- C52: every unit normal gets two unit axes, at right angle to each other and to it, and the
computation never throws. -/
theorem C52_basis {n : V3} (h : UnitVec n) :
    ∃ x y, planeBasis n = .ok (x, y) ∧ Orthonormal x y ∧ Orthogonal x n ∧ Orthogonal y n ∧
      x ⨯₃ y = n := by
  obtain ⟨x, y, h0, hx, hy, hxy, hxn, hyn, hc⟩ := planeBasis_spec ((unitVec_iff n).1 h)
  exact ⟨x, y, h0, ⟨(unitVec_iff x).2 hx, (unitVec_iff y).2 hy, hxy⟩, hxn, hyn, hc⟩

example : UnitVec (![2 / 3, 2 / 3, 1 / 3] : V3) := by
  simp [UnitVec, Fin.sum_univ_three]; norm_num

/-- C52: projecting a point and lifting the result gives its orthogonal projection. -/
theorem C52_orthogonal_projection {x y : V3} (h : Orthonormal x y) (p center : V3) :
    ∃ c q, projectOnBasis p center x y = .ok c ∧ liftFromBasis c center x y = .ok q ∧
      IsProjection p q center x y := by
  refine ⟨_, _, projectOnBasis_ok h p center, liftFromBasis_ok h _ center, ⟨_, _, rfl⟩, ?_, ?_⟩
  all_goals
    have hx := (unitVec_iff x).1 h.unitX
    have hy := (unitVec_iff y).1 h.unitY
    have hxy : x ⬝ᵥ y = 0 := h.right
    rw [dot3] at hx hy hxy
    rw [orthogonal_iff]
    simp only [dot3, spanPoint, Pi.sub_apply, cons_val_zero, cons_val_one]
  · linear_combination (-(x 0 * (p 0 - center 0) + x 1 * (p 1 - center 1) + x 2 * (p 2 - center 2))) * hx -
      (y 0 * (p 0 - center 0) + y 1 * (p 1 - center 1) + y 2 * (p 2 - center 2)) * hxy
  · linear_combination (-(x 0 * (p 0 - center 0) + x 1 * (p 1 - center 1) + x 2 * (p 2 - center 2))) * hxy -
      (y 0 * (p 0 - center 0) + y 1 * (p 1 - center 1) + y 2 * (p 2 - center 2)) * hy

/-- C52: points of the plane are recovered, and so are plane coordinates. -/
theorem C52_recovered {x y : V3} (h : Orthonormal x y) (center : V3) (c : V2) :
    ∃ q, liftFromBasis c center x y = .ok q ∧ projectOnBasis q center x y = .ok c := by
  refine ⟨_, liftFromBasis_ok h c center, ?_⟩
  rw [projectOnBasis_ok h, (project_span h _ _ _).1, (project_span h _ _ _).2]
  congr 1
  ext i; fin_cases i <;> rfl

/-- C52: distances inside the plane are the distances of the coordinates. -/
theorem C52_distances {x y : V3} (h : Orthonormal x y) (center : V3) (c c' : V2) :
    ∃ q q', liftFromBasis c center x y = .ok q ∧ liftFromBasis c' center x y = .ok q' ∧
      sqDist q q' = sqDist c c' := by
  refine ⟨_, _, liftFromBasis_ok h c center, liftFromBasis_ok h c' center, ?_⟩
  have hx := (unitVec_iff x).1 h.unitX
  have hy := (unitVec_iff y).1 h.unitY
  have hxy : x ⬝ᵥ y = 0 := h.right
  rw [dot3] at hx hy hxy
  simp only [sqDist, Fin.sum_univ_three, Fin.sum_univ_two, spanPoint]
  linear_combination (c 0 - c' 0) ^ 2 * hx + (c 1 - c' 1) ^ 2 * hy +
    2 * (c 0 - c' 0) * (c 1 - c' 1) * hxy

example : Orthonormal ![1, 0, 0] ![0, 3 / 5, 4 / 5] := by
  constructor <;> simp [UnitVec, Orthogonal, Fin.sum_univ_three]
  norm_num

/-! ## C73, C74, C75: polygons -/

/-- C73: projecting a polygon on another plane moves each point of its boundary to its orthogonal
projection, unless the two placements are approximately equal, in which case the polygon is returned
unchanged. -/
theorem C73_projection {P : Polygon} {x y center : V3} (hP : Orthonormal P.xAxis P.yAxis)
    (h : Orthonormal x y)
    (hne : (isApprox P.center center && isApprox P.xAxis x && isApprox P.yAxis y) = false) :
    ∃ P', P.project x y center = .ok P' ∧ P'.center = center ∧ P'.xAxis = x ∧ P'.yAxis = y ∧
      ∃ before after, P.unprojected = .ok before ∧ P'.unprojected = .ok after ∧
        List.Forall₂ (fun p q => IsProjection p q center x y) before after := by
  set f : V2 → V3 := fun c => spanPoint P.center P.xAxis P.yAxis (c 0) (c 1) with hf
  set g : V2 → V2 := fun c => ![x ⬝ᵥ (f c - center), y ⬝ᵥ (f c - center)] with hg
  have hb : mapOutcome (fun p => (liftFromBasis p P.center P.xAxis P.yAxis).bind fun q =>
      projectOnBasis q center x y) P.boundary = .ok (P.boundary.map g) := by
    apply mapOutcome_ok
    intro c _
    rw [liftFromBasis_ok hP, Outcome.bind_ok, projectOnBasis_ok h]
  refine ⟨{ boundary := P.boundary.map g, center := center, xAxis := x, yAxis := y }, ?_, rfl, rfl, rfl,
    P.boundary.map f, P.boundary.map fun c => spanPoint center x y (g c 0) (g c 1),
    polygon_unprojected hP, ?_, ?_⟩
  · have hxn := norm_of_unit ((unitVec_iff x).1 h.unitX)
    have hxy : x ⬝ᵥ y = 0 := h.right
    unfold Polygon.project
    rw [hne, hb]
    simp [hxn, hxy, doubleEqual_self _ doubleEps_nonneg, Polygon.make, axesOk_of h]
  · rw [polygon_unprojected (P := { boundary := P.boundary.map g, center := center, xAxis := x, yAxis := y }) h]
    simp [List.map_map, Function.comp_def]
  · generalize P.boundary = l
    induction l with
    | nil => exact List.Forall₂.nil
    | cons c l ih =>
      refine List.Forall₂.cons ?_ ih
      obtain ⟨c', q, h1, h2, h3⟩ := C52_orthogonal_projection h (f c) center
      rw [projectOnBasis_ok h] at h1
      cases h1
      rw [liftFromBasis_ok h] at h2
      cases h2
      exact h3

/-- C73: in the other case the polygon is returned unchanged. -/
theorem C73_same_place {P : Polygon} {x y center : V3} (h : Orthonormal x y)
    (he : (isApprox P.center center && isApprox P.xAxis x && isApprox P.yAxis y) = true) :
    P.project x y center = .ok P := by
  have hxn := norm_of_unit ((unitVec_iff x).1 h.unitX)
  have hxy : x ⬝ᵥ y = 0 := h.right
  unfold Polygon.project
  simp [hxn, hxy, doubleEqual_self _ doubleEps_nonneg, he]

/-- The polygon used in the examples: a triangle in the plane z = 0 around (1, 0, 0). -/
noncomputable def examplePolygon : Polygon :=
  { boundary := [![0, 0], ![1, 0], ![0, 1]], center := ![1, 0, 0], xAxis := ![1, 0, 0]
    yAxis := ![0, 1, 0] }

theorem examplePolygon_axes : Orthonormal examplePolygon.xAxis examplePolygon.yAxis := by
  constructor <;> simp [examplePolygon, UnitVec, Orthogonal, Fin.sum_univ_three]

example : (isApprox examplePolygon.center ![1, 0, 0] && isApprox examplePolygon.xAxis ![0, 1, 0] &&
    isApprox examplePolygon.yAxis ![-1, 0, 0]) = false := by
  simp [examplePolygon, isApprox]
  norm_num

/-- C74: moving a camera polygon to the world moves every point of its boundary as a point. -/
theorem C74_to_world {q : Quat} (h : UnitQuat q) (p : V3) {P : Polygon}
    (hP : Orthonormal P.xAxis P.yAxis) :
    ∃ P' before after, P.toWorld (cameraToWorld q p) = .ok P' ∧ Orthonormal P'.xAxis P'.yAxis ∧
      P.unprojected = .ok before ∧ P'.unprojected = .ok after ∧
      after = before.map (pointToWorld (cameraToWorld q p)) := by
  obtain ⟨R, t, hR, e⟩ := cameraToWorld_rigid h p
  rw [e]
  refine ⟨_, _, _, polygon_changeFrame hR t hP (pointToWorld_transformation R t P.center),
    changed_axes hR hP, polygon_unprojected hP, polygon_unprojected (changed_axes hR hP), ?_⟩
  rw [List.map_map]
  apply List.map_congr_left
  intro c _
  rw [Function.comp_apply, pointToWorld_transformation, mulVec_span]

/-- C74: the same from the world to the camera. -/
theorem C74_to_camera {q : Quat} (h : UnitQuat q) (p : V3) {P : Polygon}
    (hP : Orthonormal P.xAxis P.yAxis) :
    ∃ P' before after, P.toCamera (worldToCamera q p) = .ok P' ∧ Orthonormal P'.xAxis P'.yAxis ∧
      P.unprojected = .ok before ∧ P'.unprojected = .ok after ∧
      after = before.map (pointToCamera (worldToCamera q p)) := by
  obtain ⟨R, t, hR, e⟩ := cameraToWorld_rigid h p
  rw [worldToCamera, worldToCameraOf, e, transformation_inv hR]
  have hR' : Rᵀᵀ * Rᵀ = 1 := by rw [Matrix.transpose_transpose]; exact orthogonal_comm hR
  refine ⟨_, _, _, polygon_changeFrame hR' _ hP (pointToCamera_transformation _ _ P.center),
    changed_axes hR' hP, polygon_unprojected hP, polygon_unprojected (changed_axes hR' hP), ?_⟩
  rw [List.map_map]
  apply List.map_congr_left
  intro c _
  rw [Function.comp_apply, pointToCamera_transformation, mulVec_span]

/-- C74: a polygon taken to the world and back is the same polygon. -/
theorem C74_round_trip {q : Quat} (h : UnitQuat q) (p : V3) {P : Polygon}
    (hP : Orthonormal P.xAxis P.yAxis) :
    (P.toWorld (cameraToWorld q p)).bind (fun P' => P'.toCamera (worldToCamera q p)) = .ok P := by
  obtain ⟨R, t, hR, e⟩ := cameraToWorld_rigid h p
  have hR' : Rᵀᵀ * Rᵀ = 1 := by rw [Matrix.transpose_transpose]; exact orthogonal_comm hR
  rw [worldToCamera, worldToCameraOf, e, transformation_inv hR]
  rw [Polygon.toWorld, polygon_changeFrame hR t hP (pointToWorld_transformation R t P.center),
    Outcome.bind_ok, Polygon.toCamera,
    polygon_changeFrame hR' _ (changed_axes hR hP) (pointToCamera_transformation _ _ _)]
  simp only [Matrix.mulVec_mulVec, Matrix.mulVec_add, hR, Matrix.one_mulVec]
  cases P
  simp

example : Orthonormal examplePolygon.xAxis examplePolygon.yAxis := examplePolygon_axes

/-- C75 (partial: it adds the offset the code has): `transform` keeps the plane coordinates of every
boundary point, shifted by the displacement of the old centre under the rotation. -/
theorem C75_offset_partial {P : Polygon} {x y center : V3} (hP : Orthonormal P.xAxis P.yAxis)
    (h : Orthonormal x y)
    (hne : (isApprox P.center center && isApprox P.xAxis x && isApprox P.yAxis y) = false) :
    ∃ (R : M3) (P' : Polygon), Rᵀ * R = 1 ∧ R *ᵥ P.xAxis = x ∧ R *ᵥ P.yAxis = y ∧
      P.transform x y center = .ok P' ∧ P'.center = center ∧ P'.xAxis = x ∧ P'.yAxis = y ∧
      P'.boundary = P.boundary.map fun c =>
        ![c 0 + x ⬝ᵥ (R *ᵥ P.center - P.center), c 1 + y ⬝ᵥ (R *ᵥ P.center - P.center)] := by
  obtain ⟨hR, hRx, hRy, hfc⟩ := frameChange_spec hP h P.center center
  set R := axesMatrix x y * (axesMatrix P.xAxis P.yAxis)⁻¹ with hRdef
  have hxx := (unitVec_iff x).1 h.unitX
  have hyy := (unitVec_iff y).1 h.unitY
  have hxy : x ⬝ᵥ y = 0 := h.right
  refine ⟨R, { boundary := _, center := center, xAxis := x, yAxis := y }, hR, hRx, hRy, ?_, rfl, rfl,
    rfl, rfl⟩
  have hb : P.transformBoundary (transformation R (center - P.center)) x y center = .ok (P.boundary.map fun c =>
        ![c 0 + x ⬝ᵥ (R *ᵥ P.center - P.center), c 1 + y ⬝ᵥ (R *ᵥ P.center - P.center)]) := by
    apply mapOutcome_ok
    intro c _
    have hd : R *ᵥ P.center + (center - P.center) + c 0 • x + c 1 • y - center =
        (R *ᵥ P.center - P.center) + c 0 • x + c 1 • y := by abel
    rw [liftFromBasis_ok hP, Outcome.bind_ok, projectOnBasis_ok h, pointToWorld_transformation,
      mulVec_span, hRx, hRy]
    simp only [show ∀ a b : ℝ, spanPoint (R *ᵥ P.center + (center - P.center)) x y a b =
      R *ᵥ P.center + (center - P.center) + a • x + b • y from fun a b => rfl, hd, dotProduct_add,
      dotProduct_smul, hxx, hyy, hxy, dotProduct_comm y x, smul_eq_mul]
    congr 1
    ext i; fin_cases i <;> simp <;> ring
  have hxn := norm_of_unit hxx
  unfold Polygon.transform
  rw [hne, hfc, Outcome.bind_ok, hb]
  simp [hxn, hxy, doubleEqual_self _ doubleEps_nonneg, Polygon.make, axesOk_of h]

/-- C75 (partial: centre at the origin): then the polygon keeps its plane coordinates. -/
theorem C75_centre_at_origin_partial {P : Polygon} {x y center : V3}
    (hP : Orthonormal P.xAxis P.yAxis) (h : Orthonormal x y) (h0 : P.center = 0)
    (hne : (isApprox P.center center && isApprox P.xAxis x && isApprox P.yAxis y) = false) :
    ∃ P', P.transform x y center = .ok P' ∧ P'.center = center ∧ P'.xAxis = x ∧ P'.yAxis = y ∧
      P'.boundary = P.boundary := by
  obtain ⟨R, P', -, -, -, h1, h2, h3, h4, h5⟩ := C75_offset_partial hP h hne
  refine ⟨P', h1, h2, h3, h4, ?_⟩
  rw [h5, h0]
  conv_rhs => rw [← List.map_id P.boundary]
  apply List.map_congr_left
  intro c _
  ext i; fin_cases i <;> simp

/-- C75 is false: a triangle turned by a quarter turn around its own centre does not keep its plane
coordinates, it is also moved. -/
theorem C75_moved_false :
    ∃ (P P' : Polygon) (x y : V3), Orthonormal P.xAxis P.yAxis ∧ Orthonormal x y ∧
      P.transform x y P.center = .ok P' ∧ P'.center = P.center ∧ P'.boundary ≠ P.boundary := by
  have h : Orthonormal (![0, 1, 0] : V3) ![-1, 0, 0] := by
    constructor <;> simp [UnitVec, Orthogonal, Fin.sum_univ_three]
  obtain ⟨R, P', hR, hRx, hRy, hP', hc, -, -, hb⟩ :=
    C75_offset_partial (P := examplePolygon) (center := ![1, 0, 0])
      examplePolygon_axes h (by simp [examplePolygon, isApprox]; norm_num)
  refine ⟨examplePolygon, P', _, _, examplePolygon_axes, h, hP', hc, ?_⟩
  rw [hb]
  simp only [examplePolygon] at hRx ⊢
  simp [hRx]

/-! ## C53: closest point on a line -/

/-- C53: the closest point of a segment's line, whatever the two points. -/
theorem C53_segment_partial {n : ℕ} (start stop point : Fin n → ℝ) :
    OnLine start (stop - start) (closestOnLine start (segmentNormal start stop) point) ∧
      ∀ q, OnLine start (stop - start) q →
        sqDist point (closestOnLine start (segmentNormal start stop) point) ≤ sqDist point q := by
  by_cases h : stop - start = 0
  · have hz : segmentNormal start stop = 0 := by simp [segmentNormal, h, normalized]
    rw [hz, closest_zero, h]
    refine ⟨⟨0, by simp⟩, fun q ⟨t, hq⟩ => ?_⟩
    have : q = start := by funext i; simp [hq i]
    rw [this]
  · have hu : segmentNormal start stop ⬝ᵥ segmentNormal start stop = 1 := normalized_unit h
    have hpos := norm_pos h
    have hseg : segmentNormal start stop = (norm (stop - start))⁻¹ • (stop - start) := by
      rw [segmentNormal, normalized, if_pos (dot_self_pos h)]
    refine ⟨⟨((point - start) ⬝ᵥ segmentNormal start stop) * (norm (stop - start))⁻¹, fun i => ?_⟩,
      fun q ⟨t, hq⟩ => ?_⟩
    · rw [closestOnLine]
      conv_lhs => rw [hseg]
      rw [hseg]
      simp [mul_assoc]
    · have : q = start + (t * norm (stop - start)) • segmentNormal start stop := by
        rw [hseg, smul_smul, mul_assoc, mul_inv_cancel₀ hpos.ne', mul_one]
        funext i; rw [hq i]; rfl
      rw [this, sqDist_closest hu]
      linarith [sq_nonneg ((point - start) ⬝ᵥ segmentNormal start stop - t * norm (stop - start))]

/-- C53: the same for a line built from a point and a direction. -/
theorem C53_line_partial {n : ℕ} (start normal point : Fin n → ℝ) :
    OnLine start normal (closestOnLine (Line.make start normal).start (Line.make start normal).normal point) ∧
      ∀ q, OnLine start normal q →
        sqDist point (closestOnLine (Line.make start normal).start (Line.make start normal).normal point) ≤
          sqDist point q := by
  have := C53_segment_partial start (start + normal) point
  simpa [segmentNormal, Line.make] using this

/-- C53: the reported distance vector leads from the closest point of a segment's line to the query: its length
is the distance to that line. -/
theorem C53_distance_partial {n : ℕ} (start stop point : Fin n → ℝ) :
    ∃ c, OnLine start (stop - start) c ∧
      (∀ i, c i + lineDistance start (segmentNormal start stop) point i = point i) ∧
      ∀ q, OnLine start (stop - start) q →
        ∑ i, lineDistance start (segmentNormal start stop) point i ^ 2 ≤ sqDist point q := by
  obtain ⟨h1, h2⟩ := C53_segment_partial start stop point
  refine ⟨_, h1, fun i => by simp [lineDistance], fun q hq => ?_⟩
  refine le_trans (le_of_eq ?_) (h2 q hq)
  simp [lineDistance, sqDist]

/-- C53 is false after `set_normal` with a direction that is not of length one: the point returned is
not the closest. -/
theorem C53_set_normal_false :
    ∃ (l : Line 2) (normal point q : Fin 2 → ℝ), OnLine l.start normal q ∧
      sqDist point q <
        sqDist point (closestOnLine (l.setNormal normal).start (l.setNormal normal).normal point) := by
  refine ⟨Line.make 0 ![1, 0], ![2, 0], ![1, 0], ![1, 0], ⟨1 / 2, ?_⟩, ?_⟩
  · intro i; fin_cases i <;> simp [Line.make]
  · simp [sqDist, closestOnLine, Line.setNormal, Line.make, Fin.sum_univ_two]
    norm_num

/-! ## C76: two lines -/

/-- C76 (partial: lines that are not parallel): the vector returned joins two points of the lines, and
no two points of the lines are nearer. -/
theorem C76_skew_partial {p1 d1 p2 d2 : V3} (h : d1 ⨯₃ d2 ≠ 0) :
    ∃ a b, OnLine p1 d1 a ∧ OnLine p2 d2 b ∧ signedLineDistance p1 d1 p2 d2 = a - b ∧
      ∀ a' b', OnLine p1 d1 a' → OnLine p2 d2 b' → sqDist a b ≤ sqDist a' b' := by
  obtain ⟨t1, t2, e, h1, h2⟩ := closestPoints_some (p1 := p1) (p2 := p2) h
  refine ⟨p1 + t1 • d1, p2 + t2 • d2, ⟨t1, fun i => rfl⟩, ⟨t2, fun i => rfl⟩,
    by rw [signedLineDistance, e], ?_⟩
  rintro a' b' ⟨s, hs⟩ ⟨u, hu⟩
  have ea : a' = p1 + s • d1 := by funext i; exact hs i
  have eb : b' = p2 + u • d2 := by funext i; exact hu i
  rw [ea, eb]
  exact sqDist_lines h1 h2 s u

/-- C76: for parallel lines with a unit direction, the length of the vector returned is the distance
between the lines. -/
theorem C76_parallel_length_partial {p1 d1 p2 d2 : V3} (hu : UnitVec d1) (h : d1 ⨯₃ d2 = 0) :
    (∀ a b, OnLine p1 d1 a → OnLine p2 d2 b →
      sqDist (signedLineDistance p1 d1 p2 d2) 0 ≤ sqDist a b) ∧
    ∃ a b, OnLine p1 d1 a ∧ OnLine p2 d2 b ∧ sqDist (signedLineDistance p1 d1 p2 d2) 0 = sqDist a b := by
  have h1 := (unitVec_iff d1).1 hu
  have e : signedLineDistance p1 d1 p2 d2 = d1 ⨯₃ (p1 - p2) := by
    simp [signedLineDistance, closestPoints, h]
  have hd : d2 = (d1 ⬝ᵥ d2) • d1 := parallel_of_cross h1 h
  set w := p1 - p2 with hw
  have hlen : sqDist (signedLineDistance p1 d1 p2 d2) 0 = w ⬝ᵥ w - (d1 ⬝ᵥ w) * (d1 ⬝ᵥ w) := by
    rw [sqDist_eq, sub_zero, e, cross_dot_self, h1]; ring
  have key : ∀ s : ℝ, sqDist (w + s • d1) 0 = w ⬝ᵥ w - (d1 ⬝ᵥ w) * (d1 ⬝ᵥ w) + (s + d1 ⬝ᵥ w) ^ 2 := by
    intro s
    rw [sqDist_eq, sub_zero]
    simp only [add_dotProduct, dotProduct_add, smul_dotProduct, dotProduct_smul, smul_eq_mul, h1,
      dotProduct_comm w d1]
    ring
  have diff : ∀ a b : V3, sqDist a b = sqDist (a - b) 0 := by
    intro a b; rw [sqDist_eq, sqDist_eq, sub_zero]
  refine ⟨?_, p1 + (-(d1 ⬝ᵥ w)) • d1, p2, ⟨_, fun i => rfl⟩, ⟨0, by simp⟩, ?_⟩
  · rintro a b ⟨s, hs⟩ ⟨u, hub⟩
    have ea : a = p1 + s • d1 := by funext i; exact hs i
    have eb : b = p2 + (u * (d1 ⬝ᵥ d2)) • d1 := by
      funext i
      have := congrFun hd i
      rw [Pi.smul_apply, smul_eq_mul] at this
      rw [hub i, Pi.add_apply, Pi.smul_apply, smul_eq_mul, mul_assoc, ← this]
    rw [diff a b, show a - b = w + (s - u * (d1 ⬝ᵥ d2)) • d1 by
      rw [ea, eb, hw, sub_smul]; abel, key, hlen]
    linarith [sq_nonneg (s - u * (d1 ⬝ᵥ d2) + d1 ⬝ᵥ w)]
  · rw [diff (p1 + _), show p1 + (-(d1 ⬝ᵥ w)) • d1 - p2 = w + (-(d1 ⬝ᵥ w)) • d1 by rw [hw]; abel, key, hlen]
    ring

/-- C76 is false for parallel lines: the vector returned does not join the two lines. -/
theorem C76_parallel_direction_false :
    ∃ p1 d1 p2 d2 : V3, UnitVec d1 ∧ UnitVec d2 ∧
      ¬ ∃ a b, OnLine p1 d1 a ∧ OnLine p2 d2 b ∧ signedLineDistance p1 d1 p2 d2 = a - b := by
  refine ⟨![0, 1, 0], ![1, 0, 0], 0, ![1, 0, 0], by simp [UnitVec, Fin.sum_univ_three],
    by simp [UnitVec, Fin.sum_univ_three], ?_⟩
  rintro ⟨a, b, ⟨s, hs⟩, ⟨u, hu⟩, e⟩
  have h : (![1, 0, 0] : V3) ⨯₃ ![1, 0, 0] = 0 := by simp
  have e1 := congrFun e 1
  rw [signedLineDistance] at e1
  simp only [closestPoints, h] at e1
  simp [cross_apply, hs, hu] at e1

example : (![1, 0, 0] : V3) ⨯₃ ![0, 1, 1] ≠ 0 := by
  intro h
  have := congrFun h 1
  simp [cross_apply] at this

/-! ## C77: angles -/

/-- C77: the difference of two angles is congruent to their difference modulo a turn. -/
theorem C77_congruent (a b : ℝ) : ∃ k : ℤ, angleDistance a b = a - b + k * (2 * Real.pi) := by
  have hs := sin_atan2 (Real.cos (a - b)) (Real.sin (a - b))
  have hc := cos_atan2 (Real.cos (a - b)) (Real.sin (a - b))
  have h1 : Real.sqrt (Real.cos (a - b) * Real.cos (a - b) + Real.sin (a - b) * Real.sin (a - b)) = 1 := by
    rw [show Real.cos (a - b) * Real.cos (a - b) + Real.sin (a - b) * Real.sin (a - b) = 1 by
      linarith [Real.sin_sq_add_cos_sq (a - b)]]
    exact Real.sqrt_one
  rw [h1, one_mul] at hs hc
  have := (Real.Angle.cos_sin_inj (θ := angleDistance a b) (ψ := a - b) hc hs)
  obtain ⟨k, hk⟩ := Real.Angle.angle_eq_iff_two_pi_dvd_sub.1 this
  exact ⟨k, by linarith⟩

/-- C77: it is at most half a turn. -/
theorem C77_range (a b : ℝ) : -Real.pi < angleDistance a b ∧ angleDistance a b ≤ Real.pi :=
  ⟨neg_pi_lt_atan2 _ _, atan2_le_pi _ _⟩

/-- C77: it is zero exactly for equal angles modulo a turn. -/
theorem C77_zero (a b : ℝ) : angleDistance a b = 0 ↔ ∃ k : ℤ, a = b + k * (2 * Real.pi) := by
  obtain ⟨k, hk⟩ := C77_congruent a b
  constructor
  · intro h
    exact ⟨-k, by push_cast; linarith⟩
  · rintro ⟨j, hj⟩
    have hab : a - b = (j : ℝ) * (2 * Real.pi) := by linarith
    unfold angleDistance
    have hs : Real.sin ((j : ℝ) * (2 * Real.pi)) = 0 := by
      have := Real.sin_add_int_mul_two_pi 0 j
      simpa using this
    rw [hab, hs, Real.cos_int_mul_two_pi]
    have : (⟨1, 0⟩ : ℂ) = 1 := rfl
    rw [atan2, this, Complex.arg_one]

/-! ## C78: poses -/

/-- The public ways to change a pose. -/
inductive PoseOp where
  | set (position : V3) (orientation : Quat)
  | update (position : V3) (orientation : Quat)

noncomputable def PoseOp.run : PoseOp → Pose → Pose
  | .set p q, _ => Pose.ofParameters p q
  | .update p q, pose => pose.update p q

/-- C78: after any sequence of settings with non zero quaternions and updates with unit quaternions,
the orientation is a rotation. -/
theorem C78_unit_orientation_partial (ops : List PoseOp)
    (hset : ∀ p q, PoseOp.set p q ∈ ops → q.normSq ≠ 0)
    (hupd : ∀ p q, PoseOp.update p q ∈ ops → UnitQuat q) :
    UnitQuat (ops.foldl (fun pose op => op.run pose) Pose.default).orientation := by
  have : ∀ (l : List PoseOp) (pose : Pose), (∀ op ∈ l, op ∈ ops) → UnitQuat pose.orientation →
      UnitQuat (l.foldl (fun pose op => op.run pose) pose).orientation := by
    intro l
    induction l with
    | nil => intro pose _ h; exact h
    | cons op l ih =>
      intro pose hl h
      refine ih _ (fun o ho => hl o (by simp [ho])) ?_
      have hop := hl op (by simp)
      cases op with
      | set p q =>
        have hq := hset p q hop
        have hpos : 0 < q.normSq := lt_of_le_of_ne
          (by unfold Quat.normSq; nlinarith [mul_self_nonneg q.w, mul_self_nonneg q.x,
                mul_self_nonneg q.y, mul_self_nonneg q.z]) (Ne.symm hq)
        have hs : Real.sqrt q.normSq ^ 2 = q.normSq := Real.sq_sqrt hpos.le
        simp only [PoseOp.run, Pose.ofParameters, Quat.normalized, if_pos hpos, UnitQuat, div_pow, hs]
        unfold Quat.normSq at hpos ⊢
        rw [← add_div, ← add_div, ← add_div, div_eq_one_iff_eq hpos.ne']
        ring
      | update p q => exact mul_unit h (hupd p q hop)
  exact this ops Pose.default (fun _ h => h) (by norm_num [Pose.default, UnitQuat])

/-- C78 is false for updates with other quaternions: they scale the orientation. -/
theorem C78_update_false :
    ∃ (p : V3) (q : Quat), q.normSq ≠ 0 ∧ ¬ UnitQuat (Pose.default.update p q).orientation := by
  refine ⟨0, { w := 2, x := 0, y := 0, z := 0 }, by norm_num [Quat.normSq], ?_⟩
  norm_num [Pose.default, Pose.update, Quat.mul, UnitQuat]

end RgbdSlam.Geometry
