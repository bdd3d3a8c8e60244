import Verif.Lemmas.Jacobian
import Verif.Lemmas.Geometry2

/-
Properties of the jacobians through which covariances are propagated.
-/
set_option linter.unusedSimpArgs false

namespace RgbdSlam.Covariance

open Matrix Spec Geometry

/-! ## C81: the jacobians that are the derivatives -/

/-- C81: spherical to cartesian. -/
theorem C81_spherical_to_cartesian (s : Spherical) :
    (∀ v : V3, fromSpherical v = Spherical.toCartesian ⟨v 0, v 1, v 2⟩) ∧
    IsJacobian fromSpherical ![s.p, s.theta, s.phi] (cartesianJacobian s) := by
  refine ⟨fun v => rfl, ?_⟩
  exact isJacobian_fromSpherical ![s.p, s.theta, s.phi]

/-- C81: cartesian to spherical, except on the half plane where the angle jumps. -/
theorem C81_cartesian_to_spherical {v : V3} (h : 0 < v 0 ∨ v 1 ≠ 0) :
    (∀ w : V3, toSpherical w =
      ![(Spherical.ofCartesian w).p, (Spherical.ofCartesian w).theta, (Spherical.ofCartesian w).phi]) ∧
    IsJacobian toSpherical v (sphericalJacobian v) := by
  refine ⟨fun w => ?_, isJacobian_toSpherical h⟩
  simp [toSpherical, Spherical.ofCartesian, Geometry.norm, dotProduct, Fin.sum_univ_three, sq]

/-- C81: inverse depth parameters to world point. -/
theorem C81_inverse_depth_to_world {first : V3} {inv theta phi : ℝ} {p : InverseDepth}
    (h : InverseDepth.make first inv theta phi = .ok p) (hd : inv ≠ 0) :
    (∀ (s : Fin 6 → ℝ) q, s 3 ≠ 0 → InverseDepth.make ![s 0, s 1, s 2] (s 3) (s 4) (s 5) = .ok q →
      q.toWorld = .ok (inverseToWorld s)) ∧
    IsJacobian inverseToWorld ![first 0, first 1, first 2, inv, theta, phi] (worldJacobian p) := by
  have key : ∀ {first : V3} {inv theta phi : ℝ} {p : InverseDepth},
      InverseDepth.make first inv theta phi = .ok p →
      p = { first := first, inverseDepth := inv, theta := theta, phi := phi
            bearing := Spherical.toCartesian ⟨1, theta, phi⟩ } := by
    intro first inv theta phi p h
    unfold InverseDepth.make at h
    split_ifs at h
    exact (Outcome.ok.inj h).symm
  constructor
  · intro s q hs hq
    rw [key hq, InverseDepth.toWorld, if_neg hs]
    congr 1
    ext i
    fin_cases i <;> simp [inverseToWorld, Spherical.toCartesian] <;> ring
  · have hp := key h
    subst hp
    exact isJacobian_inverseToWorld
      (p := { first := first, inverseDepth := inv, theta := theta, phi := phi
              bearing := Spherical.toCartesian ⟨1, theta, phi⟩ }) hd

/-- C81: world point to inverse depth parameters, for a fixed first observation. -/
theorem C81_world_to_inverse_depth {point origin : V3}
    (h : 0 < (point - origin) 0 ∨ (point - origin) 1 ≠ 0) :
    (∀ x q, InverseDepth.fromCartesian x origin = .ok q →
      worldToInverse origin x = ![q.first 0, q.first 1, q.first 2, q.inverseDepth, q.theta, q.phi]) ∧
    ∃ J, inverseJacobian point origin = some J ∧ IsJacobian (worldToInverse origin) point J := by
  constructor
  · intro x q hq
    have hq' : ∃ a b c, q.first = origin ∧ q.inverseDepth = a ∧ q.theta = b ∧ q.phi = c ∧
        a = 1 / Geometry.norm (x - origin) ∧ b = (Spherical.ofCartesian (x - origin)).theta ∧
        c = (Spherical.ofCartesian (x - origin)).phi := by
      simp only [InverseDepth.fromCartesian] at hq
      generalize hm : InverseDepth.make origin _ _ _ = m at hq
      cases m <;> simp only [Outcome.noexcept, Outcome.map, Outcome.bind, Outcome.ok.injEq, reduceCtorEq] at hq
      subst hq
      unfold InverseDepth.make at hm
      split_ifs at hm
      rw [← Outcome.ok.inj hm]
      exact ⟨_, _, _, rfl, rfl, rfl, rfl, rfl, rfl, rfl⟩
    obtain ⟨a, b, c, h1, h2, h3, h4, rfl, rfl, rfl⟩ := hq'
    rw [h1, h2, h3, h4]
    simp only [Spherical.ofCartesian]
    simp [worldToInverse, Geometry.norm, dotProduct, Fin.sum_univ_three, sq]
  · have h1 := pos_of_off_cut h
    have hs : ∃ J, inverseJacobian point origin = some J := by
      rw [inverseJacobian, if_neg h1.ne']; exact ⟨_, rfl⟩
    obtain ⟨J, hJ⟩ := hs
    exact ⟨J, hJ, isJacobian_worldToInverse h hJ⟩

/-- C81: camera point to screen. -/
theorem C81_camera_to_screen (fx fy cx cy : ℝ) {p : V3} (h : p 2 ≠ 0) :
    (∀ x : V3, x 2 ≠ 0 → cameraToScreen (intrinsics fx fy cx cy) x = some (pinhole fx fy cx cy x)) ∧
    IsJacobian (pinhole fx fy cx cy) p (screenJacobian fx fy p) := by
  refine ⟨fun x hx => ?_, isJacobian_pinhole fx fy cx cy h⟩
  rw [cameraToScreen, if_neg hx, Option.some.injEq]
  ext i
  fin_cases i <;>
    simp [pinhole, cameraToScreen2, intrinsics, mulVec, dotProduct, Fin.sum_univ_three] <;>
    field_simp

/-- C81: plane parameters to the reduced parameters. -/
theorem C81_plane_reduction (P : Plane) :
    reducePlane (planeVector P) = P.d • P.normal ∧
    IsJacobian reducePlane (planeVector P) (reduceJacobian P) := by
  refine ⟨?_, isJacobian_reducePlane P⟩
  ext i
  fin_cases i <;> simp [reducePlane, planeVector]

/-- A point in front of the first observation meets the hypotheses of the theorems above. -/
example : (0 : ℝ) < ((![2, 1, 1] : V3) - (![0, 0, 1] : V3) : V3) 0 := by norm_num

/-! ## C82: the jacobians that are not -/

theorem backProject_model {fx fy : ℝ} (hx : fx ≠ 0) (hy : fy ≠ 0) (cx cy : ℝ) {s : V3} (h0 : 0 ≤ s 0)
    (h1 : 0 ≤ s 1) (h2 : doubleEps < |s 2|) :
    screenToCamera (intrinsics fx fy cx cy) s = .ok (backProject fx fy cx cy s) := by
  have : doubleEqual (s 2) 0 = false := by simp [doubleEqual, h2]
  rw [screenToCamera, if_neg (not_lt.2 h0), if_neg (not_lt.2 h1), this]
  simp only [Bool.false_eq_true, if_false, Outcome.ok.injEq]
  ext i
  fin_cases i <;>
    simp [backProject, screenToCamera2, intrinsics_inv hx hy, mulVec, dotProduct,
      Fin.sum_univ_three] <;> field_simp <;> ring

/-- C82: the jacobian of the conversion from screen to camera is right for the pixels right of and
below the principal point. -/
theorem C82_screen_to_camera_partial {fx fy : ℝ} (hx : fx ≠ 0) (hy : fy ≠ 0) {cx cy : ℝ} {s : V3}
    (h0 : cx ≤ s 0) (h1 : cy ≤ s 1) :
    (∀ x : V3, 0 ≤ x 0 → 0 ≤ x 1 → doubleEps < |x 2| →
      screenToCamera (intrinsics fx fy cx cy) x = .ok (backProject fx fy cx cy x)) ∧
    IsJacobian (backProject fx fy cx cy) s (cameraJacobian fx fy cx cy s) := by
  refine ⟨fun x => backProject_model hx hy cx cy, ?_⟩
  have : cameraJacobian fx fy cx cy s = backProjectJacobian fx fy cx cy s := by
    unfold cameraJacobian backProjectJacobian
    rw [abs_of_nonneg (sub_nonneg.2 h0), abs_of_nonneg (sub_nonneg.2 h1)]
  rw [this]
  exact isJacobian_backProject fx fy cx cy s

/-- C82 is false: left of or above the principal point the jacobian has the wrong sign. -/
theorem C82_screen_to_camera_false {fx fy : ℝ} (hx : fx ≠ 0) (hy : fy ≠ 0) {cx cy : ℝ} {s : V3}
    (h : s 0 < cx ∨ s 1 < cy) :
    ¬ IsJacobian (backProject fx fy cx cy) s (cameraJacobian fx fy cx cy s) := by
  intro hJ
  have e := IsJacobian_unique hJ (isJacobian_backProject fx fy cx cy s)
  rcases h with h | h
  · have := congrFun (congrFun e 0) 2
    simp [cameraJacobian, backProjectJacobian] at this
    rw [abs_of_neg (by linarith)] at this
    field_simp at this
    linarith
  · have := congrFun (congrFun e 1) 2
    simp [cameraJacobian, backProjectJacobian] at this
    rw [abs_of_neg (by linarith)] at this
    field_simp at this
    linarith

/-- C82: the conversion from reduced to full plane parameters undoes the reduction for planes with a
positive distance, and the rows of its jacobian for the normal are right. -/
theorem C82_plane_normal_partial :
    (∀ P : Plane, Geometry.Spec.UnitVec P.normal → 0 < P.d →
      expandPlane (reducePlane (planeVector P)) = planeVector P) ∧
    ∀ v : V3, v ≠ 0 → ∀ i : Fin 4, i.val < 3 → ∀ j,
      HasDerivAt (fun t => expandPlane (Function.update v j t) i) (expandJacobian v i j) (v j) := by
  constructor
  · intro P hn hd
    have hs : Real.sqrt ((P.d * P.normal 0) ^ 2 + (P.d * P.normal 1) ^ 2 + (P.d * P.normal 2) ^ 2) = P.d := by
      have : (P.d * P.normal 0) ^ 2 + (P.d * P.normal 1) ^ 2 + (P.d * P.normal 2) ^ 2 = P.d ^ 2 := by
        unfold Geometry.Spec.UnitVec at hn
        rw [Fin.sum_univ_three] at hn
        linear_combination P.d ^ 2 * hn
      rw [this, Real.sqrt_sq hd.le]
    ext i
    fin_cases i <;> simp [expandPlane, reducePlane, planeVector, hs, hd.ne']
  · intro v hv i hi j
    have h : 0 < v 0 ^ 2 + v 1 ^ 2 + v 2 ^ 2 := by
      by_contra h
      apply hv
      ext k
      have h0 := sq_nonneg (v 0)
      have h1 := sq_nonneg (v 1)
      have h2 := sq_nonneg (v 2)
      fin_cases k <;> simp <;> apply pow_eq_zero_iff (two_ne_zero) |>.1 <;> linarith
    have := isJacobian_expandPlane h i j
    simpa [expandPlaneJacobian, hi] using this

/-- C82 is false for the last row (the distance): it is the derivative of the inverse of the distance,
so it is wrong for every plane. -/
theorem C82_plane_distance_false (v : V3) (hv : v ≠ 0) :
    ¬ IsJacobian expandPlane v (expandJacobian v) := by
  intro hJ
  have h0 := sq_nonneg (v 0)
  have h1 := sq_nonneg (v 1)
  have h2 := sq_nonneg (v 2)
  have h : 0 < v 0 ^ 2 + v 1 ^ 2 + v 2 ^ 2 := by
    by_contra h
    apply hv
    ext k
    fin_cases k <;> simp <;> apply pow_eq_zero_iff (two_ne_zero) |>.1 <;> linarith
  have e := IsJacobian_unique hJ (isJacobian_expandPlane h)
  have hs := Real.sqrt_pos.2 h
  have z : ∀ x : ℝ, -x / ((v 0 ^ 2 + v 1 ^ 2 + v 2 ^ 2) * Real.sqrt (v 0 ^ 2 + v 1 ^ 2 + v 2 ^ 2)) =
      x / Real.sqrt (v 0 ^ 2 + v 1 ^ 2 + v 2 ^ 2) → x = 0 := by
    intro x hx
    generalize Real.sqrt (v 0 ^ 2 + v 1 ^ 2 + v 2 ^ 2) = N at *
    generalize v 0 ^ 2 + v 1 ^ 2 + v 2 ^ 2 = S at *
    field_simp at hx
    have : x * (S + 1) = 0 := by linarith
    rcases mul_eq_zero.1 this with h | h
    · exact h
    · linarith
  apply hv
  ext k
  fin_cases k
  · exact z _ (congrFun (congrFun e 3) 0)
  · exact z _ (congrFun (congrFun e 3) 1)
  · exact z _ (congrFun (congrFun e 3) 2)

end RgbdSlam.Covariance
