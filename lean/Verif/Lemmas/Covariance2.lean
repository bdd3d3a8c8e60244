import Verif.Lemmas.Covariance
import Verif.Lemmas.Geometry3
import Mathlib.Tactic.FinCases

/-
Lemmas on the filter applied to diagonal covariances, inverse depth covariances and planes.
-/
set_option linter.unusedSectionVars false
set_option linter.unusedSimpArgs false

namespace RgbdSlam.Covariance

open Matrix Spec Geometry

variable {n m : ℕ}

/-- What the filter computes, for symmetric inputs. -/
theorem newState_eq {f : Filter n m} {pinv : Sq m → Sq m} {state : Fin n → ℝ} {C : Sq n}
    {z : Fin m → ℝ} {R : Sq m} (hC : IsCovariance C) (hR : IsCovariance R)
    (hQ : IsCovariance f.noise)
    (hpinv : ∀ S, IsCovariance S → IsPseudoInverse S (pinv S)) :
    ∃ S', IsPseudoInverse
        (f.output * (f.dynamics * C * f.dynamicsᵀ + f.noise) * f.outputᵀ + R) S' ∧
      f.newState pinv state C z R = .ok
        (f.dynamics *ᵥ state +
          ((f.dynamics * C * f.dynamicsᵀ + f.noise) * f.outputᵀ * S') *ᵥ
            (z - f.output *ᵥ (f.dynamics *ᵥ state)),
          (1 - (f.dynamics * C * f.dynamicsᵀ + f.noise) * f.outputᵀ * S' * f.output) *
            (f.dynamics * C * f.dynamicsᵀ + f.noise)) := by
  set P := f.dynamics * C * f.dynamicsᵀ + f.noise with hP
  have cP : IsCovariance P := (hC.conj f.dynamics).add hQ
  set S := f.output * P * f.outputᵀ + R with hS
  have cS : IsCovariance S := (cP.conj f.output).add hR
  have hinv := innovationInverse_spec (hpinv S cS)
  refine ⟨innovationInverse pinv S, hinv, ?_⟩
  have hgain := gain_spec cP hR hinv
  have herr := errorCovariance_eq cP.transpose_eq hR.transpose_eq hgain
    (P * f.outputᵀ * innovationInverse pinv S)
  rw [sub_self, Matrix.zero_mul, Matrix.zero_mul, add_zero] at herr
  have cN : IsCovariance ((1 - P * f.outputᵀ * innovationInverse pinv S * f.output) * P) := by
    rw [← herr]
    exact (cP.conj _).add (hR.conj _)
  simp only [Filter.newState]
  rw [hC.valid, hR.valid]
  simp only [Bool.not_true, Bool.false_eq_true, if_false]
  rw [propagate_eq' hC.transpose_eq, ← hP, propagate_eq' cP.transpose_eq, ← hS,
    symLower_of_symm cP.transpose_eq, symLower_of_symm cN.transpose_eq, cN.valid]
  simp

theorem isCovariance_diagonal {d : Fin n → ℝ} (h : ∀ i, 0 ≤ d i) : IsCovariance (diagonal d) :=
  isCovariance_iff.2 (PosSemidef.diagonal h)

theorem isPseudoInverse_diagonal {d : Fin n → ℝ} (h : ∀ i, d i ≠ 0) :
    IsPseudoInverse (diagonal d) (diagonal fun i => (d i)⁻¹) := by
  have e1 : diagonal d * diagonal (fun i => (d i)⁻¹) = 1 := by
    rw [diagonal_mul_diagonal, ← diagonal_one]
    congr 1; funext i; exact mul_inv_cancel₀ (h i)
  have e2 : diagonal (fun i => (d i)⁻¹) * diagonal d = 1 := by
    rw [diagonal_mul_diagonal, ← diagonal_one]
    congr 1; funext i; exact inv_mul_cancel₀ (h i)
  exact ⟨by rw [e1, one_mul], by rw [e2, one_mul], by rw [e1, transpose_one],
    by rw [e2, transpose_one]⟩

/-- The static filter on diagonal covariances: each coordinate on its own. -/
theorem newState_diagonal {q : ℝ} (hq : 0 < q) {pinv : Sq n → Sq n} {x z c r : Fin n → ℝ}
    (hc : ∀ i, 0 ≤ c i) (hr : ∀ i, 0 ≤ r i)
    (hpinv : ∀ S, IsCovariance S → IsPseudoInverse S (pinv S)) :
    ∃ K, (staticFilter n q).newState pinv x (diagonal c) z (diagonal r) = .ok
      (fun i => x i + (c i + q) / (c i + q + r i) * (z i - x i), K) ∧ IsCovariance K := by
  have cC := isCovariance_diagonal hc
  have cR := isCovariance_diagonal hr
  have cQ : IsCovariance (staticFilter n q).noise := isCovariance_smul_one hq.le
  obtain ⟨S', hS', e⟩ := newState_eq (f := staticFilter n q) (state := x) (z := z) cC cR cQ hpinv
  have hP : (staticFilter n q).dynamics * diagonal c * (staticFilter n q).dynamicsᵀ
      + (staticFilter n q).noise = diagonal fun i => c i + q := by
    show (1 : Sq n) * diagonal c * (1 : Sq n)ᵀ + q • (1 : Sq n) = _
    rw [transpose_one, one_mul, mul_one, ← diagonal_one, ← diagonal_smul, diagonal_add]
    congr 1; funext i; simp
  rw [hP] at hS' e
  have hO : (staticFilter n q).output = 1 := rfl
  have hD : (staticFilter n q).dynamics = 1 := rfl
  rw [hO] at hS'
  rw [hO, hD] at e
  rw [transpose_one, one_mul, mul_one, diagonal_add] at hS'
  have hne : ∀ i, c i + q + r i ≠ 0 := fun i => by
    have := hc i; have := hr i
    positivity
  have hS'' := hS'.unique (isPseudoInverse_diagonal hne)
  subst hS''
  have cP : IsCovariance (diagonal fun i => c i + q) :=
    isCovariance_diagonal fun i => by have := hc i; positivity
  have e2 : (1 - (diagonal fun i => c i + q) * (1 : Sq n)ᵀ *
      (diagonal fun i => (c i + q + r i)⁻¹) * 1) * (diagonal fun i => c i + q)
      = diagonal fun i => (c i + q) * r i / (c i + q + r i) := by
    rw [transpose_one, mul_one, mul_one, diagonal_mul_diagonal, ← diagonal_one, diagonal_sub,
      diagonal_mul_diagonal]
    congr 1; funext i
    have := hne i
    field_simp
    ring
  rw [e2] at e
  refine ⟨diagonal fun i => (c i + q) * r i / (c i + q + r i), ?_, ?_⟩
  · rw [e, Outcome.ok.injEq, Prod.mk.injEq]
    refine ⟨?_, rfl⟩
    funext i
    rw [transpose_one, mul_one, diagonal_mul_diagonal, one_mulVec, one_mulVec]
    simp only [Pi.add_apply, mulVec_diagonal, Pi.sub_apply]
    rw [div_eq_mul_inv]
  · refine isCovariance_diagonal fun i => ?_
    have := hc i; have := hr i
    positivity

/-- The embedding of the three pose coordinates in the six parameters. -/
def poseEmbedding : Matrix (Fin 6) (Fin 3) ℝ := Matrix.of fun i j => if i.val = j.val then 1 else 0

theorem embed_block (B : Sq 3) (i j : Fin 6) :
    (poseEmbedding * B * poseEmbeddingᵀ) i j =
      if h : i.val < 3 ∧ j.val < 3 then B ⟨i.val, h.1⟩ ⟨j.val, h.2⟩ else 0 := by
  fin_cases i <;> fin_cases j <;>
    simp [poseEmbedding, Matrix.mul_apply, Fin.sum_univ_three, transpose_apply]

theorem setFirstPoseBlock_eq {C : Sq 6} (h : ∀ i j : Fin 6, i.val < 3 ∧ j.val < 3 → C i j = 0) (B : Sq 3) :
    setFirstPoseBlock C B = C + poseEmbedding * B * poseEmbeddingᵀ := by
  ext i j
  rw [Matrix.add_apply, embed_block]
  simp only [setFirstPoseBlock, of_apply]
  split_ifs with hij
  · rw [h i j hij, zero_add]
  · rw [add_zero]

theorem initialInverseCovariance_isCovariance {B : Sq 3} (hB : IsCovariance B) {v a : ℝ} (hv : 0 ≤ v)
    (ha : 0 ≤ a) : IsCovariance (initialInverseCovariance B v a) := by
  rw [initialInverseCovariance, setFirstPoseBlock_eq]
  · refine (isCovariance_diagonal fun i => ?_).add (hB.conj _)
    fin_cases i <;> simp [hv, ha]
  · rintro i j ⟨hi, hj⟩
    by_cases e : i = j
    · subst e
      rw [diagonal_apply_eq]
      have : i = 0 ∨ i = 1 ∨ i = 2 := by
        rcases i with ⟨i, h⟩
        simp only [Fin.ext_iff]
        simp only at hi
        show i = 0 ∨ i = 1 ∨ i = 2
        omega
      rcases this with h | h | h <;> subst h <;> simp
    · rw [diagonal_apply_ne _ e]

theorem propagate_inverse_block {C : Sq 3} (hC : Cᵀ = C) {J : Matrix (Fin 6) (Fin 3) ℝ}
    (hJ : ∀ i : Fin 6, i.val < 3 → ∀ j, J i j = 0) (i j : Fin 6) (h : i.val < 3 ∧ j.val < 3) :
    (propagate C J 0) i j = 0 := by
  rw [propagate_eq' hC, Matrix.mul_assoc, Matrix.mul_apply]
  exact Finset.sum_eq_zero fun k _ => by rw [hJ i h.1 k, zero_mul]

theorem inverseJacobian_rows {x o : V3} {J : Matrix (Fin 6) (Fin 3) ℝ}
    (h : inverseJacobian x o = some J) (i : Fin 6) (hi : i.val < 3) (j : Fin 3) : J i j = 0 := by
  rw [inverseJacobian] at h
  split_ifs at h with h0
  rw [Option.some.injEq] at h
  subst h
  simp [hi]

theorem inverseCovariance_some {C B : Sq 3} (hC : IsCovariance C) (hB : IsCovariance B) {x o : V3}
    {J : Matrix (Fin 6) (Fin 3) ℝ} (h : inverseJacobian x o = some J) :
    ∃ K, inverseCovariance C B (some J) = .ok K ∧ IsCovariance K ∧ firstPoseBlock K = B := by
  have e := setFirstPoseBlock_eq (C := propagate C J)
    (fun i j => propagate_inverse_block hC.transpose_eq (inverseJacobian_rows h) i j) B
  have cK : IsCovariance (setFirstPoseBlock (propagate C J) B) := by
    rw [e]
    exact (hC.propagate' J).add (hB.conj _)
  refine ⟨setFirstPoseBlock (propagate C J) B, ?_, cK, ?_⟩
  · simp [inverseCovariance, hC.valid, hB.valid, cK.valid]
  · ext i j
    simp [firstPoseBlock, setFirstPoseBlock, i.isLt, j.isLt]

theorem firstPoseBlock_isCovariance {C : Sq 6} (h : IsCovariance C) : IsCovariance (firstPoseBlock C) := by
  have := (isCovariance_iff.1 h).submatrix (fun i : Fin 3 => (⟨i.val, by omega⟩ : Fin 6))
  exact isCovariance_iff.2 this

theorem cartesianCovariance_ok {p : InverseDepth} {C : Sq 6} (h : IsCovariance C) :
    cartesianCovariance p C = .ok (propagate C (worldJacobian p)) := by
  have := (h.propagate' (worldJacobian p)).valid
  simp [cartesianCovariance, h.valid, this]

theorem norm_nonneg' {k : ℕ} (v : Fin k → ℝ) : 0 ≤ Geometry.norm v := Real.sqrt_nonneg _

theorem isApprox_self {k : ℕ} (v : Fin k → ℝ) : Geometry.isApprox v v = true := by
  unfold Geometry.isApprox
  rw [decide_eq_true_eq]
  simp
  have : 0 ≤ v ⬝ᵥ v := Finset.sum_nonneg fun i _ => mul_self_nonneg _
  positivity

end RgbdSlam.Covariance
