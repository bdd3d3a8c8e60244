import Verif.Lemmas.Covariance2
import Verif.Props.Geometry

/-
Properties of covariances, the Kalman filter and the tracking of points and planes (exact real
arithmetic).
-/
set_option linter.unusedSectionVars false
set_option linter.unusedSimpArgs false

namespace RgbdSlam.Covariance

open Matrix Spec Geometry
open Geometry.Spec (UnitVec UnitQuat)

variable {n m : ℕ}

open Classical in
/-- A pseudo inverse for every covariance, to show that the hypotheses on it can be met. -/
noncomputable def examplePinv (n : ℕ) (S : Sq n) : Sq n :=
  if h : IsCovariance S then (exists_pseudoInverse h).choose else 0

theorem examplePinv_spec (S : Sq n) (h : IsCovariance S) : IsPseudoInverse S (examplePinv n S) := by
  rw [examplePinv, dif_pos h]
  exact (exists_pseudoInverse h).choose_spec

/-! ## C35: the Kalman update -/

/-- C35: with covariances as inputs, the update returns a result.  The new state is the predicted
state moved by a gain times the innovation, the gain is the optimal one (gain times innovation
covariance = predicted covariance times output), the new covariance is the error covariance of that
estimate, it is a covariance, it is not larger than the predicted one, and no other gain gives a
smaller one. -/
theorem C35_update (f : Filter n m) (pinv : Sq m → Sq m) (x : Fin n → ℝ) (z : Fin m → ℝ)
    {C : Sq n} {R : Sq m} (hC : IsCovariance C) (hR : IsCovariance R) (hQ : IsCovariance f.noise)
    (hpinv : ∀ S, IsCovariance S → IsPseudoInverse S (pinv S)) :
    ∃ (x' : Fin n → ℝ) (C' : Sq n) (G : Matrix (Fin n) (Fin m) ℝ),
      f.newState pinv x C z R = .ok (x', C') ∧
      x' = f.dynamics *ᵥ x + G *ᵥ (z - f.output *ᵥ (f.dynamics *ᵥ x)) ∧
      G * (f.output * (f.dynamics * C * f.dynamicsᵀ + f.noise) * f.outputᵀ + R) =
        (f.dynamics * C * f.dynamicsᵀ + f.noise) * f.outputᵀ ∧
      C' = errorCovariance (f.dynamics * C * f.dynamicsᵀ + f.noise) f.output R G ∧
      IsCovariance C' ∧
      NotLarger C' (f.dynamics * C * f.dynamicsᵀ + f.noise) ∧
      ∀ L, NotLarger C' (errorCovariance (f.dynamics * C * f.dynamicsᵀ + f.noise) f.output R L) := by
  obtain ⟨S', hS', e⟩ := newState_eq (f := f) (state := x) (z := z) hC hR hQ hpinv
  set P := f.dynamics * C * f.dynamicsᵀ + f.noise with hP
  have cP : IsCovariance P := (hC.conj f.dynamics).add hQ
  have cS : IsCovariance (f.output * P * f.outputᵀ + R) := (cP.conj f.output).add hR
  have hgain := gain_spec cP hR hS'
  have herr := fun L => errorCovariance_eq cP.transpose_eq hR.transpose_eq hgain L
  have h0 := herr (P * f.outputᵀ * S')
  rw [sub_self, Matrix.zero_mul, Matrix.zero_mul, add_zero] at h0
  have hbest : ∀ L, NotLarger ((1 - P * f.outputᵀ * S' * f.output) * P) (errorCovariance P f.output R L) :=
    fun L => notLarger_of_add (herr L) (cS.conj _)
  refine ⟨_, _, P * f.outputᵀ * S', e, rfl, hgain, h0.symm, ?_, ?_, hbest⟩
  · rw [← h0]
    exact (cP.conj _).add (hR.conj _)
  · have := hbest 0
    rwa [errorCovariance, Matrix.zero_mul, Matrix.zero_mul, Matrix.zero_mul, sub_zero, transpose_one,
      Matrix.one_mul, Matrix.mul_one, add_zero] at this

/-- The hypotheses of `C35_update` are met by the filter of the map points. -/
example : ∃ x' C' G, (staticFilter 3 (1 / 1000)).newState (examplePinv 3) ![1, 2, 3] 1 ![2, 2, 2] 1 =
      .ok (x', C') ∧ x' = ![1, 2, 3] + (G : Matrix (Fin 3) (Fin 3) ℝ) *ᵥ (![2, 2, 2] - ![1, 2, 3]) := by
  obtain ⟨x', C', G, h, h', _⟩ := C35_update (staticFilter 3 (1 / 1000)) (examplePinv 3) ![1, 2, 3]
    ![2, 2, 2] isCovariance_one isCovariance_one (isCovariance_smul_one (by norm_num)) examplePinv_spec
  refine ⟨x', C', G, h, ?_⟩
  rw [h']
  simp [staticFilter]

/-- C35: an invalid covariance is rejected, whichever of the two it is. -/
theorem C35_invalid_rejected (f : Filter n m) (pinv : Sq m → Sq m) (x : Fin n → ℝ) (z : Fin m → ℝ)
    {C : Sq n} {R : Sq m} (hs : Cᵀ = C) (hs' : Rᵀ = R) (h : ¬ IsCovariance C ∨ ¬ IsCovariance R) :
    f.newState pinv x C z R = .throws := by
  rw [← isValid_iff hs, ← isValid_iff hs'] at h
  simp only [Filter.newState]
  rcases h with h | h
  · rw [if_pos (by simpa using h)]
  · have h' : isValid R = false := by simpa using h
    rw [h']
    simp

/-- A negative variance is such a matrix. -/
example : (staticFilter 1 1).newState (examplePinv 1) 0 (-1) 0 1 = .throws := by
  refine C35_invalid_rejected _ _ _ _ (by simp) (by simp) (Or.inl fun h => ?_)
  have := h.nonneg 1
  simp [variance] at this
  linarith

/-- The measurements given to the filter, in order. -/
noncomputable def Kalman.run (pinv : Sq m → Sq m) : Kalman n m → List ((Fin m → ℝ) × Sq m) → Outcome (Kalman n m)
  | k, [] => .ok k
  | k, (z, R) :: l => (k.update pinv z R).bind fun k' => Kalman.run pinv k' l

/-- C35: an initialised filter accepts every sequence of measurements with valid covariances, and
always holds a valid covariance. -/
theorem C35_sequence (pinv : Sq m → Sq m) (hpinv : ∀ S, IsCovariance S → IsPseudoInverse S (pinv S))
    (l : List ((Fin m → ℝ) × Sq m)) (hl : ∀ a ∈ l, IsCovariance a.2) (k : Kalman n m)
    (hQ : IsCovariance k.filter.noise) {C : Sq n} (hC : IsCovariance C) (x : Fin n → ℝ) :
    ∃ k' x' C', (k.init C x).run pinv l = .ok k' ∧ k'.state = some (x', C') ∧ IsCovariance C' := by
  suffices H : ∀ (k : Kalman n m) x C, k.state = some (x, C) → IsCovariance C →
      IsCovariance k.filter.noise →
      ∃ k' x' C', k.run pinv l = .ok k' ∧ k'.state = some (x', C') ∧ IsCovariance C' from
    H _ x C rfl hC hQ
  clear hC x hQ
  induction l with
  | nil => intro k x C hs hC _; exact ⟨k, x, C, rfl, hs, hC⟩
  | cons a l ih =>
    obtain ⟨z, R⟩ := a
    intro k x C hs hC hQ
    obtain ⟨x', C', _, e, _, _, _, hC', _⟩ :=
      C35_update k.filter pinv x z hC (hl _ (List.mem_cons_self ..)) hQ hpinv
    obtain ⟨k', x'', C'', h1, h2, h3⟩ := ih (fun a ha => hl a (List.mem_cons_of_mem _ ha))
      { k with state := some (x', C') } x' C' rfl hC' hQ
    refine ⟨k', x'', C'', ?_, h2, h3⟩
    simp only [Kalman.run, Kalman.update, hs]
    rw [e]
    exact h1

/-- Two measurements of a point. -/
example : ∃ k' x' C', ((⟨staticFilter 3 1, none⟩ : Kalman 3 3).init 1 0).run (examplePinv 3)
    [(![1, 0, 0], 1), (![1, 1, 0], (2 : ℝ) • 1)] = .ok k' ∧ k'.state = some (x', C') ∧ IsCovariance C' := by
  refine C35_sequence _ examplePinv_spec _ ?_ _ (isCovariance_smul_one zero_le_one) isCovariance_one _
  intro a ha
  simp only [List.mem_cons, List.not_mem_nil, or_false] at ha
  rcases ha with rfl | rfl
  · exact isCovariance_one
  · exact isCovariance_smul_one (by norm_num)

/-- C35: an update before the initialisation is refused. -/
theorem C35_uninitialised (k : Kalman n m) (h : k.state = none) (pinv : Sq m → Sq m)
    (z : Fin m → ℝ) (R : Sq m) : k.update pinv z R = .throws := by
  simp [Kalman.update, h]

/-! ## C36: propagation -/

/-- C36: the check accepts exactly the covariances among the symmetric matrices. -/
theorem C36_check {C : Sq n} (h : ∀ i j, C i j = C j i) : isValid C = true ↔ IsCovariance C :=
  isValid_iff (by ext i j; exact h j i)

/-- C36: what the check accepts is symmetric, but for a millionth of a millionth of the size of the matrix. -/
theorem C36_accepted_symmetric {C : Sq n} (h : isValid C = true) (i j : Fin n) :
    |C i j - C j i| ≤ Real.sqrt (∑ a, ∑ b, C a b ^ 2) / 10 ^ 12 := by
  simp only [isValid, decide_eq_true_eq] at h
  have h1 := h.1
  unfold approxSymmetric at h1
  have h2 : (C i j - C j i) ^ 2 ≤ ∑ a, ∑ b, (C a b - C b a) ^ 2 :=
    (Finset.single_le_sum (f := fun b => (C i b - C b i) ^ 2) (fun b _ => sq_nonneg _) (Finset.mem_univ j)).trans
      (Finset.single_le_sum (f := fun a => ∑ b, (C a b - C b a) ^ 2)
        (fun a _ => Finset.sum_nonneg fun b _ => sq_nonneg _) (Finset.mem_univ i))
  refine abs_le_of_sq_le_sq (a := C i j - C j i) ?_ (by positivity)
  have h0 : 0 ≤ ∑ a, ∑ b, C a b ^ 2 := Finset.sum_nonneg fun a _ => Finset.sum_nonneg fun b _ => sq_nonneg _
  rw [div_pow, Real.sq_sqrt h0]
  refine (h2.trans h1).trans (le_of_eq ?_)
  ring

/-- C36: propagation through any jacobian, with any non negative term on the diagonal. -/
theorem C36_propagate {C : Sq n} (h : IsCovariance C) (J : Matrix (Fin m) (Fin n) ℝ) {e : ℝ}
    (he : 0 ≤ e) : IsCovariance (propagate C J e) := h.propagate J he

/-- C36: propagation is first order propagation: `J C Jᵀ` and the term on the diagonal. -/
theorem C36_first_order {C : Sq n} (h : IsCovariance C) (J : Matrix (Fin m) (Fin n) ℝ) (e : ℝ)
    (x : Fin m → ℝ) :
    variance (propagate C J e) x = variance C (fun j => ∑ i, x i * J i j) + e * ∑ i, x i ^ 2 := by
  rw [propagate_eq h.transpose_eq, variance_eq, variance_eq, add_mulVec, dotProduct_add]
  congr 1
  · rw [← mulVec_mulVec, ← mulVec_mulVec, dotProduct_mulVec x J]
    have : (fun j => ∑ i, x i * J i j) = x ᵥ* J := by
      funext j; rfl
    rw [this, mulVec_transpose]
  · simp [dotProduct, Finset.mul_sum, smul_mulVec]
    exact Finset.sum_congr rfl fun i _ => by ring

example : IsCovariance (!![2, 1; 1, 2] : Sq 2) := by
  refine ⟨fun i j => by fin_cases i <;> fin_cases j <;> simp, fun x => ?_⟩
  simp [variance, Fin.sum_univ_two]
  nlinarith [sq_nonneg (x 0 + x 1), sq_nonneg (x 0), sq_nonneg (x 1)]

/-- C36 needs the exact symmetry: a matrix that the check accepts as approximately symmetric may stop
being accepted after propagation through the identity, because the check reads the upper triangle
and the propagation the lower one. -/
theorem C36_approximate_symmetry_counterexample :
    ∃ C : Sq 2, isValid C = true ∧ isValid (propagate C (1 : Sq 2)) = false := by
  have e2 : ∀ {D : Sq 2}, symLower D = !![D 0 0, D 1 0; D 1 0, D 1 1] := by
    intro D; ext i j; fin_cases i <;> fin_cases j <;> simp [symLower]
  refine ⟨!![1, 1; 1 + 1 / 10 ^ 13, 1], ?_, ?_⟩
  · simp only [isValid, decide_eq_true_eq]
    constructor
    · norm_num [approxSymmetric, Fin.sum_univ_two]
    · have : symUpper (!![1, 1; 1 + 1 / 10 ^ 13, 1] : Sq 2) = !![1, 1; 1, 1] := by
        ext i j; fin_cases i <;> fin_cases j <;> simp [symUpper]
      rw [this, ← isCovariance_iff]
      refine ⟨fun i j => by fin_cases i <;> fin_cases j <;> simp, fun x => ?_⟩
      simp [variance, Fin.sum_univ_two]
      nlinarith [sq_nonneg (x 0 + x 1)]
  · have e : propagate (!![1, 1; 1 + 1 / 10 ^ 13, 1] : Sq 2) (1 : Sq 2) =
        !![1, 1 + 1 / 10 ^ 13; 1 + 1 / 10 ^ 13, 1] := by
      simp only [propagate, zero_smul, add_zero, transpose_one, Matrix.one_mul, Matrix.mul_one, e2]
      simp
    rw [e, Bool.eq_false_iff]
    intro h
    rw [isValid_iff (by ext i j; fin_cases i <;> fin_cases j <;> simp)] at h
    have := h.nonneg ![1, -1]
    norm_num [variance, Fin.sum_univ_two] at this

/-- C36: points, from camera to screen, between camera and world, and from screen to camera. -/
theorem C36_points {C pose : Sq 3} (h : IsCovariance C) (hp : IsCovariance pose) (M : M4)
    (fx fy cx cy : ℝ) (p : V3) :
    IsCovariance (screenPointCovariance fx fy p C) ∧
    IsCovariance (movedPointCovariance C M pose) ∧
    IsCovariance (cameraPointCovariance fx fy cx cy p C) :=
  ⟨h.propagate' _, (h.propagate' _).add hp, h.propagate' _⟩

/-- C36: the covariance given to a screen point is valid for every depth. -/
theorem C36_screen_point (depth : ℝ) :
    (∃ C, screenCovariance (depthQuantization depth) = .ok C ∧ IsCovariance C) ∧
    (∃ C, screenCovariance 1000 = .ok C ∧ IsCovariance C) := by
  have key : ∀ v : ℝ, 0 < v → ∃ C, screenCovariance v = .ok C ∧ IsCovariance C := by
    intro v hv
    have hc : IsCovariance (!![1 / 100, 0, 0; 0, 1 / 100, 0; 0, 0, v] : Sq 3) := by
      refine ⟨fun i j => by fin_cases i <;> fin_cases j <;> simp, fun x => ?_⟩
      simp [variance, Fin.sum_univ_three]
      nlinarith [sq_nonneg (x 0), sq_nonneg (x 1), mul_nonneg hv.le (sq_nonneg (x 2))]
    refine ⟨_, ?_, hc⟩
    rw [screenCovariance, if_neg (not_le.2 hv)]
    simp only
    rw [hc.valid]
    simp
  refine ⟨key _ ?_, key _ (by norm_num)⟩
  have : (1 : ℝ) / 2 ≤ depthQuantization depth := le_max_right _ _
  linarith

/-- C36: planes.  For a plane with a unit normal that does not pass through the origin the conversion
of its covariance to the reduced form, and of a reduced covariance to the full form, succeed and give
covariances. -/
theorem C36_planes {P : Plane} (hn : UnitVec P.normal) (hd : doubleEps < |P.d|) {C : Sq 3}
    (hC : IsCovariance C) {K : Sq 4} (hK : IsCovariance K) :
    (∃ R, planeCovariance P C = .ok R ∧ IsCovariance R) ∧
    (∃ R, reducedPlaneCovariance P K = .ok R ∧ IsCovariance R) := by
  have h1 : doubleEqual P.d 0 = false := by
    simp [doubleEqual, hd]
  have h2 : doubleEqual (Geometry.norm P.normal) 1 = true := by
    have : P.normal ⬝ᵥ P.normal = 1 := by
      rw [← hn]; simp [dotProduct, sq]
    simp [doubleEqual, Geometry.norm, this, doubleEps]
  constructor
  · have c := hC.propagate (expandJacobian (P.d • P.normal)) (e := 1 / 100) (by norm_num)
    exact ⟨_, by simp only [planeCovariance]; rw [hC.valid, h1, h2, c.valid]; simp, c⟩
  · have c := hK.propagate (reduceJacobian P) (e := 1 / 100) (by norm_num)
    exact ⟨_, by simp only [reducedPlaneCovariance]; rw [hK.valid, h1, h2, c.valid]; simp, c⟩

/-- C36: the covariance of a detected plane in world space is a covariance, when the plane passes
through the origin of neither frame. -/
theorem C36_world_plane {P : Plane} (hn : UnitVec P.normal) (hd : doubleEps < |P.d|) {q : Quat}
    (hq : UnitQuat q) (p : V3)
    (hd' : doubleEps < |(P.transform (planeCameraToWorld (cameraToWorld q p))).d|)
    {pose : Sq 3} (hp : IsCovariance pose) {K : Sq 4} (hK : IsCovariance K) :
    ∃ R, worldPlaneCovariance P (cameraToWorld q p) (planeCameraToWorld (cameraToWorld q p)) K pose = .ok R ∧
      IsCovariance R := by
  obtain ⟨R, hR, cR⟩ := (C36_planes hn hd isCovariance_one hK).2
  have cW := (cR.propagate' (rotation (cameraToWorld q p))).add hp
  have hn' : UnitVec (P.transform (planeCameraToWorld (cameraToWorld q p))).normal := by
    exact C30_unit_normal hq p hn
  obtain ⟨W, hW, cW'⟩ := (C36_planes hn' hd' cW hK).1
  refine ⟨W, ?_, cW'⟩
  simp only [worldPlaneCovariance, hK.valid, hR, Outcome.bind_ok]
  rw [cW.valid]
  simpa using hW

/-- The plane z = 2 seen from the origin without rotation meets the hypotheses. -/
example : doubleEps < |(({ normal := ![0, 0, 1], d := -2 } : Plane).transform
    (planeCameraToWorld (cameraToWorld ⟨1, 0, 0, 0⟩ 0))).d| := by
  obtain ⟨R, t, h, e⟩ := cameraToWorld_rigid (q := ⟨1, 0, 0, 0⟩) (by norm_num [UnitQuat]) 0
  have ht : t = 0 := by
    rw [cameraToWorld_eq] at e
    have := congrArg translation e
    simpa using this.symm
  rw [e, plane_toWorld h t (by simp [dotProduct, Fin.sum_univ_three]), ht]
  norm_num [doubleEps]

/-- C36: a new inverse depth point, its cartesian covariance and the way back. -/
theorem C36_inverse_depth {B C : Sq 3} (hB : IsCovariance B) (hC : IsCovariance C) {v a : ℝ}
    (hv : 0 ≤ v) (ha : 0 ≤ a) (p : InverseDepth) {K : Sq 6} (hK : IsCovariance K) {x o : V3}
    (hx : (x - o) 0 ≠ 0 ∨ (x - o) 1 ≠ 0) :
    IsCovariance (initialInverseCovariance B v a) ∧
    (∃ R, cartesianCovariance p K = .ok R ∧ IsCovariance R) ∧
    (∃ R, inverseCovariance C B (inverseJacobian x o) = .ok R ∧ IsCovariance R) := by
  refine ⟨initialInverseCovariance_isCovariance hB hv ha,
    ⟨_, cartesianCovariance_ok hK, hK.propagate' _⟩, ?_⟩
  have h0 : ¬ ((x - o) 0 ^ 2 + (x - o) 1 ^ 2 = 0) := by
    intro h
    have h1 : (x - o) 0 ^ 2 = 0 := by nlinarith [sq_nonneg ((x - o) 0), sq_nonneg ((x - o) 1)]
    have h2 : (x - o) 1 ^ 2 = 0 := by nlinarith [sq_nonneg ((x - o) 0), sq_nonneg ((x - o) 1)]
    rcases hx with h' | h'
    · exact h' (pow_eq_zero_iff (two_ne_zero) |>.1 h1)
    · exact h' (pow_eq_zero_iff (two_ne_zero) |>.1 h2)
  obtain ⟨J, hJ⟩ : ∃ J, inverseJacobian x o = some J := by
    rw [inverseJacobian, if_neg h0]; exact ⟨_, rfl⟩
  rw [hJ]
  obtain ⟨R, hR, cR, _⟩ := inverseCovariance_some hC hB hJ
  exact ⟨R, hR, cR⟩

end RgbdSlam.Covariance
