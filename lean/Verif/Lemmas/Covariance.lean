import Verif.Spec.Covariance
import Mathlib.Analysis.Matrix.Order
import Mathlib.Analysis.Matrix.Spectrum
import Mathlib.Tactic.NoncommRing
import Mathlib.Tactic.Abel

/-
Lemmas on covariances and the Kalman filter.
-/
set_option linter.unusedSectionVars false
set_option linter.unusedSimpArgs false

namespace RgbdSlam.Covariance

open Matrix Spec

variable {n m : ℕ}

theorem variance_eq (C : Sq n) (x : Fin n → ℝ) : variance C x = x ⬝ᵥ (C *ᵥ x) := by
  simp only [variance, dotProduct, mulVec, Finset.mul_sum, mul_assoc]

theorem isCovariance_iff {C : Sq n} : IsCovariance C ↔ C.PosSemidef := by
  rw [posSemidef_iff_dotProduct_mulVec]
  constructor
  · intro h
    refine ⟨?_, fun x => ?_⟩
    · ext i j
      simp [h.symm i j]
    · rw [show star x = x from by ext i; simp, ← variance_eq]
      exact h.nonneg x
  · rintro ⟨h, h'⟩
    refine ⟨fun i j => ?_, fun x => ?_⟩
    · have := congrFun (congrFun h j) i
      simpa using this
    · have := h' x
      rw [show star x = x from by ext i; simp, ← variance_eq] at this
      exact this

theorem Spec.IsCovariance.transpose_eq {C : Sq n} (h : IsCovariance C) : Cᵀ = C := by
  ext i j
  simp [h.symm i j]

theorem isCovariance_of {C : Sq n} (h : Cᵀ = C) (h' : ∀ x, 0 ≤ x ⬝ᵥ (C *ᵥ x)) : IsCovariance C :=
  ⟨fun i j => by have := congrFun (congrFun h j) i; simpa using this,
   fun x => by rw [variance_eq]; exact h' x⟩

theorem symLower_of_symm {C : Sq n} (h : Cᵀ = C) : symLower C = C := by
  ext i j
  simp only [symLower, of_apply]
  split_ifs with hij
  · rfl
  · have := congrFun (congrFun h i) j
    simpa using this

theorem symUpper_of_symm {C : Sq n} (h : Cᵀ = C) : symUpper C = C := by
  ext i j
  simp only [symUpper, of_apply]
  split_ifs with hij
  · rfl
  · have := congrFun (congrFun h i) j
    simpa using this

theorem symLower_transpose (C : Sq n) : (symLower C)ᵀ = symLower C := by
  ext i j
  simp only [symLower, of_apply, transpose_apply]
  rcases lt_trichotomy i j with h | h | h
  · rw [if_pos h.le, if_neg (not_le.2 h)]
  · subst h; simp
  · rw [if_neg (not_le.2 h), if_pos h.le]

theorem isValid_iff {C : Sq n} (h : Cᵀ = C) : isValid C = true ↔ IsCovariance C := by
  simp only [isValid, decide_eq_true_eq]
  rw [symUpper_of_symm h, isCovariance_iff]
  refine ⟨fun h' => h'.2, fun h' => ⟨?_, h'⟩⟩
  have e : ∀ i j, C i j = C j i := fun i j => by
    have := congrFun (congrFun h j) i
    simpa using this
  unfold approxSymmetric
  have z : ∑ i, ∑ j, (C i j - C j i) ^ 2 = 0 := by
    refine Finset.sum_eq_zero fun i _ => Finset.sum_eq_zero fun j _ => ?_
    rw [e i j]; simp
  rw [z]
  exact mul_nonneg (by norm_num) (Finset.sum_nonneg fun i _ => Finset.sum_nonneg fun j _ => sq_nonneg _)

theorem Spec.IsCovariance.valid {C : Sq n} (h : IsCovariance C) : isValid C = true :=
  (isValid_iff h.transpose_eq).2 h

theorem Spec.IsCovariance.add {A B : Sq n} (hA : IsCovariance A) (hB : IsCovariance B) :
    IsCovariance (A + B) :=
  isCovariance_iff.2 ((isCovariance_iff.1 hA).add (isCovariance_iff.1 hB))

theorem Spec.IsCovariance.conj {C : Sq n} (h : IsCovariance C) (J : Matrix (Fin m) (Fin n) ℝ) :
    IsCovariance (J * C * Jᵀ) := by
  have := (isCovariance_iff.1 h).mul_mul_conjTranspose_same J
  rw [conjTranspose_eq_transpose_of_trivial] at this
  exact isCovariance_iff.2 this

theorem isCovariance_smul_one {a : ℝ} (h : 0 ≤ a) : IsCovariance (a • (1 : Sq n)) :=
  isCovariance_iff.2 (PosSemidef.one.smul h)

theorem isCovariance_one : IsCovariance (1 : Sq n) := isCovariance_iff.2 PosSemidef.one

theorem propagate_eq {C : Sq n} (h : Cᵀ = C) (J : Matrix (Fin m) (Fin n) ℝ) (e : ℝ) :
    propagate C J e = J * C * Jᵀ + e • 1 := by
  have : (J * C * Jᵀ)ᵀ = J * C * Jᵀ := by
    rw [transpose_mul, transpose_mul, transpose_transpose, h, Matrix.mul_assoc]
  rw [propagate, symLower_of_symm h, symLower_of_symm this]

theorem propagate_eq' {C : Sq n} (h : Cᵀ = C) (J : Matrix (Fin m) (Fin n) ℝ) :
    propagate C J = J * C * Jᵀ := by
  rw [propagate_eq h]; simp

theorem Spec.IsCovariance.propagate {C : Sq n} (h : IsCovariance C) (J : Matrix (Fin m) (Fin n) ℝ)
    {e : ℝ} (he : 0 ≤ e) : IsCovariance (propagate C J e) := by
  rw [propagate_eq h.transpose_eq]
  exact (h.conj J).add (isCovariance_smul_one he)

theorem Spec.IsCovariance.propagate' {C : Sq n} (h : IsCovariance C) (J : Matrix (Fin m) (Fin n) ℝ) :
    IsCovariance (Covariance.propagate C J) := h.propagate J le_rfl

theorem Spec.IsCovariance.kernel {C : Sq n} (h : IsCovariance C) {x : Fin n → ℝ}
    (hx : x ⬝ᵥ (C *ᵥ x) = 0) : C *ᵥ x = 0 := by
  have := (isCovariance_iff.1 h).dotProduct_mulVec_zero_iff x
  rw [show star x = x from by ext i; simp] at this
  exact this.1 hx

theorem Spec.IsPseudoInverse.unique {A P Q : Sq n} (hP : IsPseudoInverse A P) (hQ : IsPseudoInverse A Q) :
    P = Q := by
  have h1 : A * P = A * Q := by
    calc A * P = (A * P)ᵀ := hP.ap_symm.symm
      _ = ((A * Q) * (A * P))ᵀ := by rw [← Matrix.mul_assoc, hQ.apa]
      _ = (A * P)ᵀ * (A * Q)ᵀ := by rw [transpose_mul]
      _ = (A * P) * (A * Q) := by rw [hP.ap_symm, hQ.ap_symm]
      _ = A * Q := by rw [← Matrix.mul_assoc, hP.apa]
  have h2 : P * A = Q * A := by
    calc P * A = (P * A)ᵀ := hP.pa_symm.symm
      _ = ((P * A) * (Q * A))ᵀ := by
        rw [Matrix.mul_assoc P A, ← Matrix.mul_assoc A Q, hQ.apa]
      _ = (Q * A)ᵀ * (P * A)ᵀ := by rw [transpose_mul]
      _ = (Q * A) * (P * A) := by rw [hP.pa_symm, hQ.pa_symm]
      _ = Q * A := by rw [Matrix.mul_assoc Q A, ← Matrix.mul_assoc A P, hP.apa]
  calc P = P * A * P := hP.pap.symm
    _ = Q * (A * P) := by rw [h2, Matrix.mul_assoc]
    _ = Q * A * Q := by rw [h1, ← Matrix.mul_assoc]
    _ = Q := hQ.pap

theorem Spec.IsPseudoInverse.symm {A P : Sq n} (h : IsPseudoInverse A P) (hA : Aᵀ = A) : Pᵀ = P := by
  refine IsPseudoInverse.unique (A := A) ⟨?_, ?_, ?_, ?_⟩ h
  · have := congrArg transpose h.apa
    rw [transpose_mul, transpose_mul, hA, ← Matrix.mul_assoc] at this
    exact this
  · have := congrArg transpose h.pap
    rw [transpose_mul, transpose_mul, hA, ← Matrix.mul_assoc] at this
    exact this
  · rw [transpose_mul, transpose_transpose, hA, ← h.pa_symm, transpose_mul, hA]
  · rw [transpose_mul, transpose_transpose, hA, ← h.ap_symm, transpose_mul, hA]

theorem isPseudoInverse_inv {A : Sq n} (h : A.det ≠ 0) : IsPseudoInverse A A⁻¹ := by
  have hu : IsUnit A.det := isUnit_iff_ne_zero.2 h
  have e1 : A * A⁻¹ = 1 := mul_nonsing_inv A hu
  have e2 : A⁻¹ * A = 1 := nonsing_inv_mul A hu
  exact ⟨by rw [e1, one_mul], by rw [e2, one_mul], by rw [e1, transpose_one],
    by rw [e2, transpose_one]⟩

theorem innovationInverse_spec {pinv : Sq m → Sq m} {S : Sq m} (h : IsPseudoInverse S (pinv S)) :
    IsPseudoInverse S (innovationInverse pinv S) := by
  unfold innovationInverse
  split_ifs with hd
  · exact h
  · refine isPseudoInverse_inv fun h0 => hd ?_
    rw [h0, Geometry.doubleEqual, decide_eq_true_iff]
    norm_num [Geometry.doubleEps]

/-- Every symmetric matrix has a pseudo inverse. -/
theorem exists_pseudoInverse {A : Sq n} (h : IsCovariance A) : ∃ P, IsPseudoInverse A P := by
  have hA : A.IsHermitian := (isCovariance_iff.1 h).1
  set U : Sq n := (hA.eigenvectorUnitary : Sq n) with hU
  have u1 : star U * U = 1 := by
    have := (Matrix.mem_unitaryGroup_iff').1 hA.eigenvectorUnitary.2
    exact this
  have sp : A = U * diagonal (fun i => hA.eigenvalues i) * star U := by
    have := hA.spectral_theorem
    rw [Unitary.conjStarAlgAut_apply] at this
    exact this
  have us : star U = Uᵀ := by rw [star_eq_conjTranspose, conjTranspose_eq_transpose_of_trivial]
  rw [us] at u1 sp
  generalize (fun i => hA.eigenvalues i) = d at sp
  have key : ∀ a b : Fin n → ℝ, U * diagonal a * Uᵀ * (U * diagonal b * Uᵀ)
      = U * diagonal (a * b) * Uᵀ := by
    intro a b
    calc U * diagonal a * Uᵀ * (U * diagonal b * Uᵀ)
        = U * diagonal a * (Uᵀ * U) * diagonal b * Uᵀ := by simp only [Matrix.mul_assoc]
      _ = U * (diagonal a * diagonal b) * Uᵀ := by rw [u1]; simp only [Matrix.mul_assoc, one_mul, Matrix.one_mul]
      _ = _ := by rw [diagonal_mul_diagonal]; rfl
  have tr : ∀ a : Fin n → ℝ, (U * diagonal a * Uᵀ)ᵀ = U * diagonal a * Uᵀ := by
    intro a
    rw [transpose_mul, transpose_mul, transpose_transpose, diagonal_transpose, Matrix.mul_assoc]
  have dd : ∀ x : ℝ, x * x⁻¹ * x = x := fun x => by
    by_cases hx : x = 0
    · simp [hx]
    · field_simp
  refine ⟨U * diagonal (d⁻¹) * Uᵀ, ?_, ?_, ?_, ?_⟩
  · rw [sp, key, key]
    congr 3; ext i; exact dd (d i)
  · rw [sp, key, key]
    congr 3; ext i
    have := dd (d i)⁻¹
    rw [inv_inv] at this
    simpa using this
  · rw [sp, key, tr]
  · rw [sp, key, tr]

/-- The optimal gain equation holds for the gain of the filter. -/
theorem gain_spec {P : Sq n} {H : Matrix (Fin m) (Fin n) ℝ} {R S' : Sq m} (hP : IsCovariance P)
    (hR : IsCovariance R) (hS : IsPseudoInverse (H * P * Hᵀ + R) S') :
    P * Hᵀ * S' * (H * P * Hᵀ + R) = P * Hᵀ := by
  set S := H * P * Hᵀ + R with hSdef
  have z : ∀ v : Fin m → ℝ, S *ᵥ v = 0 → (P * Hᵀ) *ᵥ v = 0 := by
    intro v hv
    have h1 : v ⬝ᵥ (S *ᵥ v) = 0 := by rw [hv]; simp
    rw [hSdef, add_mulVec, dotProduct_add] at h1
    have h2 : 0 ≤ v ⬝ᵥ ((H * P * Hᵀ) *ᵥ v) := by
      have := (hP.conj H).nonneg v
      rwa [variance_eq] at this
    have h3 : 0 ≤ v ⬝ᵥ (R *ᵥ v) := by
      have := hR.nonneg v
      rwa [variance_eq] at this
    have h4 : v ⬝ᵥ ((H * P * Hᵀ) *ᵥ v) = 0 := le_antisymm (by linarith) h2
    have h5 : (Hᵀ *ᵥ v) ⬝ᵥ (P *ᵥ (Hᵀ *ᵥ v)) = 0 := by
      rw [← h4, ← mulVec_mulVec, ← mulVec_mulVec, dotProduct_mulVec v H, mulVec_transpose]
    rw [← mulVec_mulVec]
    exact hP.kernel h5
  have h6 : ∀ v, (P * Hᵀ * (1 - S' * S)) *ᵥ v = 0 := by
    intro v
    rw [← mulVec_mulVec]
    apply z
    rw [mulVec_mulVec, Matrix.mul_sub, Matrix.mul_one, ← Matrix.mul_assoc, hS.apa, sub_self, zero_mulVec]
  have h7 : P * Hᵀ * (1 - S' * S) = 0 := by
    ext i j
    have := congrFun (h6 (Pi.single j 1)) i
    simpa using this
  rw [Matrix.mul_sub, Matrix.mul_one, ← Matrix.mul_assoc, sub_eq_zero] at h7
  exact h7.symm

/-- Completing the square: every other gain adds a covariance. -/
theorem errorCovariance_eq {P : Sq n} {H : Matrix (Fin m) (Fin n) ℝ} {R : Sq m} (hP : Pᵀ = P)
    (hR : Rᵀ = R) {G : Matrix (Fin n) (Fin m) ℝ} (hG : G * (H * P * Hᵀ + R) = P * Hᵀ)
    (L : Matrix (Fin n) (Fin m) ℝ) :
    errorCovariance P H R L = (1 - G * H) * P + (L - G) * (H * P * Hᵀ + R) * (L - G)ᵀ := by
  set S := H * P * Hᵀ + R with hS
  have hSt : Sᵀ = S := by
    rw [hS, transpose_add, transpose_mul, transpose_mul, transpose_transpose, hP, hR, Matrix.mul_assoc]
  have hG' : S * Gᵀ = H * P := by
    have := congrArg transpose hG
    rw [transpose_mul, transpose_mul, transpose_transpose, hP, hSt] at this
    exact this
  have e1 : errorCovariance P H R L = P - L * (H * P) - P * Hᵀ * Lᵀ + L * S * Lᵀ := by
    rw [errorCovariance, transpose_sub, transpose_one, transpose_mul, hS]
    simp only [Matrix.sub_mul, Matrix.mul_sub, Matrix.one_mul, Matrix.mul_one, Matrix.mul_add,
      Matrix.add_mul, Matrix.mul_assoc]
    abel
  have e2 : (L - G) * S * (L - G)ᵀ = L * S * Lᵀ - P * Hᵀ * Lᵀ - L * (H * P) + G * (H * P) := by
    rw [transpose_sub, Matrix.sub_mul, hG]
    simp only [Matrix.sub_mul, Matrix.mul_sub]
    have a1 : L * S * Gᵀ = L * (H * P) := by rw [Matrix.mul_assoc, hG']
    have a2 : P * Hᵀ * Gᵀ = G * (H * P) := by
      rw [← hG, Matrix.mul_assoc, hG']
    rw [a1, a2]
    abel
  rw [e1, e2, Matrix.sub_mul, Matrix.one_mul, Matrix.mul_assoc G H P]
  abel

theorem notLarger_of_add {A B D : Sq n} (h : B = A + D) (hD : IsCovariance D) : NotLarger A B := by
  intro x
  have := hD.nonneg x
  rw [variance_eq] at this
  rw [h, variance_eq, variance_eq, add_mulVec, dotProduct_add]
  linarith

end RgbdSlam.Covariance
