import Verif.Spec.Jacobian
import Mathlib.Analysis.SpecialFunctions.Trigonometric.Deriv
import Mathlib.Analysis.SpecialFunctions.Complex.LogDeriv
import Mathlib.Analysis.SpecialFunctions.Sqrt
import Mathlib.Tactic.FinCases
import Mathlib.Tactic.FieldSimp
import Mathlib.Tactic.LinearCombination

/-
Derivatives of the conversions between parametrisations.
-/
set_option linter.unusedSectionVars false
set_option linter.unusedSimpArgs false

namespace RgbdSlam.Covariance

open Matrix Spec Geometry

theorem isJacobian3 {m : ℕ} {f : V3 → Fin m → ℝ} {x : V3} {J : Matrix (Fin m) (Fin 3) ℝ}
    (h0 : ∀ i, HasDerivAt (fun t => f ![t, x 1, x 2] i) (J i 0) (x 0))
    (h1 : ∀ i, HasDerivAt (fun t => f ![x 0, t, x 2] i) (J i 1) (x 1))
    (h2 : ∀ i, HasDerivAt (fun t => f ![x 0, x 1, t] i) (J i 2) (x 2)) : IsJacobian f x J := by
  have e0 : ∀ t, Function.update x 0 t = ![t, x 1, x 2] := fun t => by
    ext k; fin_cases k <;> simp
  have e1 : ∀ t, Function.update x 1 t = ![x 0, t, x 2] := fun t => by
    ext k; fin_cases k <;> simp
  have e2 : ∀ t, Function.update x 2 t = ![x 0, x 1, t] := fun t => by
    ext k; fin_cases k <;> simp
  intro i j
  fin_cases j
  · show HasDerivAt (fun t => f (Function.update x 0 t) i) (J i 0) (x 0)
    simpa only [e0] using h0 i
  · show HasDerivAt (fun t => f (Function.update x 1 t) i) (J i 1) (x 1)
    simpa only [e1] using h1 i
  · show HasDerivAt (fun t => f (Function.update x 2 t) i) (J i 2) (x 2)
    simpa only [e2] using h2 i

/-- Derivative of the argument of a moving point. -/
theorem hasDerivAt_atan2 {a b : ℝ → ℝ} {a' b' t : ℝ} (ha : HasDerivAt a a' t)
    (hb : HasDerivAt b b' t) (h : 0 < b t ∨ a t ≠ 0) :
    HasDerivAt (fun s => atan2 (a s) (b s)) ((a' * b t - a t * b') / (a t ^ 2 + b t ^ 2)) t := by
  have hf : HasDerivAt (fun s => ((b s : ℂ) + (a s : ℂ) * Complex.I)) ((b' : ℂ) + (a' : ℂ) * Complex.I) t :=
    hb.ofReal_comp.add (ha.ofReal_comp.mul_const _)
  have hs : ((b t : ℂ) + (a t : ℂ) * Complex.I) ∈ Complex.slitPlane := by
    rw [Complex.mem_slitPlane_iff]
    simpa using h
  have hl := Complex.imCLM.hasFDerivAt.comp_hasDerivAt t (hf.clog_real hs)
  have e : (fun s => atan2 (a s) (b s)) =
      (Complex.imCLM ∘ fun s => Complex.log ((b s : ℂ) + (a s : ℂ) * Complex.I)) := by
    funext s
    simp only [Function.comp, Complex.imCLM_apply, Complex.log_im, atan2]
    congr 1
    apply Complex.ext <;> simp
  rw [e]
  refine hl.congr_deriv ?_
  simp only [Complex.imCLM_apply]
  rw [Complex.div_im]
  simp [Complex.normSq_apply]
  have e3 : b t * b t + a t * a t = a t ^ 2 + b t ^ 2 := by ring
  rw [e3]
  have h2 : a t ^ 2 + b t ^ 2 ≠ 0 := by
    rcases h with h | h
    · nlinarith [mul_pos h h, mul_self_nonneg (a t)]
    · have := mul_self_pos.2 h
      nlinarith [mul_self_nonneg (b t)]
  field_simp

theorem hasDerivAt_sqrt_sq {c t : ℝ} (h : 0 < t ^ 2 + c) :
    HasDerivAt (fun s => Real.sqrt (s ^ 2 + c)) (t / Real.sqrt (t ^ 2 + c)) t := by
  have h1 : HasDerivAt (fun s : ℝ => s ^ 2 + c) (2 * t) t := by
    simpa using (hasDerivAt_pow 2 t).add_const c
  refine (h1.sqrt h.ne').congr_deriv ?_
  have := (Real.sqrt_pos.2 h).ne'
  field_simp

theorem hasDerivAt_inv_sqrt_sq {c t : ℝ} (h : 0 < t ^ 2 + c) :
    HasDerivAt (fun s => 1 / Real.sqrt (s ^ 2 + c)) (-t * (1 / ((t ^ 2 + c) * Real.sqrt (t ^ 2 + c)))) t := by
  have hs := (Real.sqrt_pos.2 h).ne'
  have h1 := (hasDerivAt_sqrt_sq h).inv hs
  simp only [one_div]
  refine h1.congr_deriv ?_
  have e : Real.sqrt (t ^ 2 + c) ^ 2 = t ^ 2 + c := Real.sq_sqrt h.le
  rw [e]
  field_simp

theorem sum_sq_pos {v : V3} (h : 0 < v 0 ^ 2 + v 1 ^ 2) : 0 < v 0 ^ 2 + v 1 ^ 2 + v 2 ^ 2 := by
  nlinarith [sq_nonneg (v 2)]

/-- The polar angle. -/
theorem theta_deriv {a b c : ℝ} (h : 0 < a ^ 2 + b ^ 2) :
    HasDerivAt (fun t => atan2 (Real.sqrt (t ^ 2 + b ^ 2)) c)
      (a * c * (1 / (Real.sqrt (a ^ 2 + b ^ 2) * (a ^ 2 + b ^ 2 + c ^ 2)))) a := by
  have hs := Real.sqrt_pos.2 h
  have hp : 0 < a ^ 2 + b ^ 2 + c ^ 2 := by nlinarith [sq_nonneg c]
  have := hasDerivAt_atan2 (hasDerivAt_sqrt_sq h) (hasDerivAt_const a c) (Or.inr hs.ne')
  refine this.congr_deriv ?_
  rw [Real.sq_sqrt h.le]
  field_simp
  ring

theorem theta_deriv' {a b c : ℝ} (h : 0 < a ^ 2 + b ^ 2) :
    HasDerivAt (fun t => atan2 (Real.sqrt (a ^ 2 + t ^ 2)) c)
      (b * c * (1 / (Real.sqrt (a ^ 2 + b ^ 2) * (a ^ 2 + b ^ 2 + c ^ 2)))) b := by
  have := theta_deriv (a := b) (b := a) (c := c) (by linarith)
  simpa only [add_comm] using this

theorem theta_deriv_z {a b c : ℝ} (h : 0 < a ^ 2 + b ^ 2) :
    HasDerivAt (fun t => atan2 (Real.sqrt (a ^ 2 + b ^ 2)) t)
      (-Real.sqrt (a ^ 2 + b ^ 2) / (a ^ 2 + b ^ 2 + c ^ 2)) c := by
  have hs := Real.sqrt_pos.2 h
  have := hasDerivAt_atan2 (hasDerivAt_const c (Real.sqrt (a ^ 2 + b ^ 2))) (hasDerivAt_id c)
    (Or.inr hs.ne')
  refine this.congr_deriv ?_
  simp only [id]
  rw [Real.sq_sqrt h.le]
  ring

theorem phi_deriv_x {a b : ℝ} (h : 0 < a ∨ b ≠ 0) :
    HasDerivAt (fun t => atan2 b t) (-b / (a ^ 2 + b ^ 2)) a := by
  have := hasDerivAt_atan2 (hasDerivAt_const a b) (hasDerivAt_id a) h
  refine this.congr_deriv ?_
  simp only [id]
  rw [add_comm]
  ring

theorem phi_deriv_y {a b : ℝ} (h : 0 < a ∨ b ≠ 0) :
    HasDerivAt (fun t => atan2 t a) (a / (a ^ 2 + b ^ 2)) b := by
  have := hasDerivAt_atan2 (hasDerivAt_id b) (hasDerivAt_const b a) h
  refine this.congr_deriv ?_
  simp only [id]
  rw [add_comm]
  ring

theorem pos_of_off_cut {a b : ℝ} (h : 0 < a ∨ b ≠ 0) : 0 < a ^ 2 + b ^ 2 := by
  rcases h with h | h
  · nlinarith [sq_nonneg b]
  · have := sq_pos_of_ne_zero h
    nlinarith [sq_nonneg a]

theorem norm_deriv_x {a b c : ℝ} (h : 0 < a ^ 2 + b ^ 2 + c ^ 2) :
    HasDerivAt (fun t => Real.sqrt (t ^ 2 + b ^ 2 + c ^ 2)) (a / Real.sqrt (a ^ 2 + b ^ 2 + c ^ 2)) a := by
  have := hasDerivAt_sqrt_sq (c := b ^ 2 + c ^ 2) (t := a) (by linarith)
  simpa only [← add_assoc] using this

theorem norm_deriv_y {a b c : ℝ} (h : 0 < a ^ 2 + b ^ 2 + c ^ 2) :
    HasDerivAt (fun t => Real.sqrt (a ^ 2 + t ^ 2 + c ^ 2)) (b / Real.sqrt (a ^ 2 + b ^ 2 + c ^ 2)) b := by
  have := hasDerivAt_sqrt_sq (c := a ^ 2 + c ^ 2) (t := b) (by linarith)
  have e : ∀ t : ℝ, a ^ 2 + t ^ 2 + c ^ 2 = t ^ 2 + (a ^ 2 + c ^ 2) := fun t => by ring
  simpa only [e] using this

theorem norm_deriv_z {a b c : ℝ} (h : 0 < a ^ 2 + b ^ 2 + c ^ 2) :
    HasDerivAt (fun t => Real.sqrt (a ^ 2 + b ^ 2 + t ^ 2)) (c / Real.sqrt (a ^ 2 + b ^ 2 + c ^ 2)) c := by
  have := hasDerivAt_sqrt_sq (c := a ^ 2 + b ^ 2) (t := c) (by linarith)
  have e : ∀ t : ℝ, a ^ 2 + b ^ 2 + t ^ 2 = t ^ 2 + (a ^ 2 + b ^ 2) := fun t => by ring
  simpa only [e] using this

theorem invNorm_deriv_x {a b c : ℝ} (h : 0 < a ^ 2 + b ^ 2 + c ^ 2) :
    HasDerivAt (fun t => 1 / Real.sqrt (t ^ 2 + b ^ 2 + c ^ 2))
      (-a * (1 / ((a ^ 2 + b ^ 2 + c ^ 2) * Real.sqrt (a ^ 2 + b ^ 2 + c ^ 2)))) a := by
  have := hasDerivAt_inv_sqrt_sq (c := b ^ 2 + c ^ 2) (t := a) (by linarith)
  simpa only [← add_assoc] using this

theorem invNorm_deriv_y {a b c : ℝ} (h : 0 < a ^ 2 + b ^ 2 + c ^ 2) :
    HasDerivAt (fun t => 1 / Real.sqrt (a ^ 2 + t ^ 2 + c ^ 2))
      (-b * (1 / ((a ^ 2 + b ^ 2 + c ^ 2) * Real.sqrt (a ^ 2 + b ^ 2 + c ^ 2)))) b := by
  have := hasDerivAt_inv_sqrt_sq (c := a ^ 2 + c ^ 2) (t := b) (by linarith)
  have e : ∀ t : ℝ, a ^ 2 + t ^ 2 + c ^ 2 = t ^ 2 + (a ^ 2 + c ^ 2) := fun t => by ring
  simpa only [e] using this

theorem invNorm_deriv_z {a b c : ℝ} (h : 0 < a ^ 2 + b ^ 2 + c ^ 2) :
    HasDerivAt (fun t => 1 / Real.sqrt (a ^ 2 + b ^ 2 + t ^ 2))
      (-c * (1 / ((a ^ 2 + b ^ 2 + c ^ 2) * Real.sqrt (a ^ 2 + b ^ 2 + c ^ 2)))) c := by
  have := hasDerivAt_inv_sqrt_sq (c := a ^ 2 + b ^ 2) (t := c) (by linarith)
  have e : ∀ t : ℝ, a ^ 2 + b ^ 2 + t ^ 2 = t ^ 2 + (a ^ 2 + b ^ 2) := fun t => by ring
  simpa only [e] using this

theorem forall_fin3 {p : Fin 3 → Prop} (h0 : p 0) (h1 : p 1) (h2 : p 2) : ∀ i, p i := by
  intro i; fin_cases i
  · exact h0
  · exact h1
  · exact h2

theorem forall_fin4 {p : Fin 4 → Prop} (h0 : p 0) (h1 : p 1) (h2 : p 2) (h3 : p 3) : ∀ i, p i := by
  intro i; fin_cases i
  · exact h0
  · exact h1
  · exact h2
  · exact h3

theorem forall_fin6 {p : Fin 6 → Prop} (h0 : p 0) (h1 : p 1) (h2 : p 2) (h3 : p 3) (h4 : p 4)
    (h5 : p 5) : ∀ i, p i := by
  intro i; fin_cases i
  · exact h0
  · exact h1
  · exact h2
  · exact h3
  · exact h4
  · exact h5

theorem isJacobian_toSpherical {v : V3} (h : 0 < v 0 ∨ v 1 ≠ 0) :
    IsJacobian toSpherical v (sphericalJacobian v) := by
  have h1 : 0 < v 0 ^ 2 + v 1 ^ 2 := pos_of_off_cut h
  have h2 : 0 < v 0 ^ 2 + v 1 ^ 2 + v 2 ^ 2 := sum_sq_pos h1
  refine isJacobian3 (forall_fin3 ?_ ?_ ?_) (forall_fin3 ?_ ?_ ?_) (forall_fin3 ?_ ?_ ?_)
  · exact norm_deriv_x h2
  · exact theta_deriv h1
  · exact phi_deriv_x h
  · exact norm_deriv_y h2
  · exact theta_deriv' h1
  · exact phi_deriv_y h
  · exact norm_deriv_z h2
  · exact theta_deriv_z h1
  · exact (hasDerivAt_const (v 2) (atan2 (v 1) (v 0)) :)

theorem isJacobian_fromSpherical (s : V3) :
    IsJacobian fromSpherical s (cartesianJacobian { p := s 0, theta := s 1, phi := s 2 }) := by
  have hs := Real.hasDerivAt_sin (s 1)
  have hc := Real.hasDerivAt_cos (s 1)
  have hs' := Real.hasDerivAt_sin (s 2)
  have hc' := Real.hasDerivAt_cos (s 2)
  have hi : HasDerivAt (fun t : ℝ => t) 1 (s 0) := hasDerivAt_id (s 0)
  refine isJacobian3 (forall_fin3 ?_ ?_ ?_) (forall_fin3 ?_ ?_ ?_) (forall_fin3 ?_ ?_ ?_)
  · refine ((hi.mul_const (Real.sin (s 1))).mul_const (Real.cos (s 2))).congr_deriv ?_
    simp [cartesianJacobian]; ring
  · refine ((hi.mul_const (Real.sin (s 1))).mul_const (Real.sin (s 2))).congr_deriv ?_
    simp [cartesianJacobian]; ring
  · refine (hi.mul_const (Real.cos (s 1))).congr_deriv ?_
    simp [cartesianJacobian]
  · refine ((hs.const_mul (s 0)).mul_const (Real.cos (s 2))).congr_deriv ?_
    simp [cartesianJacobian]
  · refine ((hs.const_mul (s 0)).mul_const (Real.sin (s 2))).congr_deriv ?_
    simp [cartesianJacobian]
  · refine (hc.const_mul (s 0)).congr_deriv ?_
    simp [cartesianJacobian]
  · refine (hc'.const_mul (s 0 * Real.sin (s 1))).congr_deriv ?_
    simp [cartesianJacobian]; ring
  · refine (hs'.const_mul (s 0 * Real.sin (s 1))).congr_deriv ?_
    simp [cartesianJacobian]; ring
  · exact (hasDerivAt_const (s 2) (s 0 * Real.cos (s 1)) :)

theorem isJacobian_pinhole (fx fy cx cy : ℝ) {p : V3} (h : p 2 ≠ 0) :
    IsJacobian (pinhole fx fy cx cy) p (screenJacobian fx fy p) := by
  have hi : ∀ x : ℝ, HasDerivAt (fun t : ℝ => t) 1 x := fun x => hasDerivAt_id x
  refine isJacobian3 (forall_fin3 ?_ ?_ ?_) (forall_fin3 ?_ ?_ ?_) (forall_fin3 ?_ ?_ ?_)
  · refine ((((hi (p 0)).const_mul fx).div_const (p 2)).add_const cx).congr_deriv ?_
    simp [screenJacobian]
  · exact (hasDerivAt_const (p 0) (fy * p 1 / p 2 + cy) :)
  · exact (hasDerivAt_const (p 0) (p 2) :)
  · exact (hasDerivAt_const (p 1) (fx * p 0 / p 2 + cx) :)
  · refine ((((hi (p 1)).const_mul fy).div_const (p 2)).add_const cy).congr_deriv ?_
    simp [screenJacobian]
  · exact (hasDerivAt_const (p 1) (p 2) :)
  · refine (((hasDerivAt_const (p 2) (fx * p 0)).div (hi (p 2)) h).add_const cx).congr_deriv ?_
    simp [screenJacobian]
  · refine (((hasDerivAt_const (p 2) (fy * p 1)).div (hi (p 2)) h).add_const cy).congr_deriv ?_
    simp [screenJacobian]
  · exact hi _

/-- The true jacobian of the back projection. -/
noncomputable def backProjectJacobian (fx fy cx cy : ℝ) (s : V3) : Matrix (Fin 3) (Fin 3) ℝ :=
  !![s 2 / fx, 0, (s 0 - cx) / fx;
     0, s 2 / fy, (s 1 - cy) / fy;
     0, 0, 1]

theorem isJacobian_backProject (fx fy cx cy : ℝ) (s : V3) :
    IsJacobian (backProject fx fy cx cy) s (backProjectJacobian fx fy cx cy s) := by
  have hi : ∀ x : ℝ, HasDerivAt (fun t : ℝ => t) 1 x := fun x => hasDerivAt_id x
  refine isJacobian3 (forall_fin3 ?_ ?_ ?_) (forall_fin3 ?_ ?_ ?_) (forall_fin3 ?_ ?_ ?_)
  · refine ((((hi (s 0)).sub_const cx).const_mul (s 2)).div_const fx).congr_deriv ?_
    simp [backProjectJacobian]
  · exact (hasDerivAt_const (s 0) (s 2 * (s 1 - cy) / fy) :)
  · exact (hasDerivAt_const (s 0) (s 2) :)
  · exact (hasDerivAt_const (s 1) (s 2 * (s 0 - cx) / fx) :)
  · refine ((((hi (s 1)).sub_const cy).const_mul (s 2)).div_const fy).congr_deriv ?_
    simp [backProjectJacobian]
  · exact (hasDerivAt_const (s 1) (s 2) :)
  · refine (((hi (s 2)).mul_const (s 0 - cx)).div_const fx).congr_deriv ?_
    simp [backProjectJacobian]
  · refine (((hi (s 2)).mul_const (s 1 - cy)).div_const fy).congr_deriv ?_
    simp [backProjectJacobian]
  · exact hi _

/-- A jacobian is unique. -/
theorem IsJacobian_unique {n m : ℕ} {f : (Fin n → ℝ) → Fin m → ℝ} {x : Fin n → ℝ}
    {J K : Matrix (Fin m) (Fin n) ℝ} (hJ : IsJacobian f x J) (hK : IsJacobian f x K) : J = K := by
  ext i j
  exact (hJ i j).unique (hK i j)

theorem update6 (x : Fin 6 → ℝ) (t : ℝ) :
    Function.update x 0 t = ![t, x 1, x 2, x 3, x 4, x 5] ∧
    Function.update x 1 t = ![x 0, t, x 2, x 3, x 4, x 5] ∧
    Function.update x 2 t = ![x 0, x 1, t, x 3, x 4, x 5] ∧
    Function.update x 3 t = ![x 0, x 1, x 2, t, x 4, x 5] ∧
    Function.update x 4 t = ![x 0, x 1, x 2, x 3, t, x 5] ∧
    Function.update x 5 t = ![x 0, x 1, x 2, x 3, x 4, t] := by
  refine ⟨?_, ?_, ?_, ?_, ?_, ?_⟩ <;> (ext k; fin_cases k <;> simp [Function.update])

theorem isJacobian6 {m : ℕ} {f : (Fin 6 → ℝ) → Fin m → ℝ} {x : Fin 6 → ℝ} {J : Matrix (Fin m) (Fin 6) ℝ}
    (h0 : ∀ i, HasDerivAt (fun t => f ![t, x 1, x 2, x 3, x 4, x 5] i) (J i 0) (x 0))
    (h1 : ∀ i, HasDerivAt (fun t => f ![x 0, t, x 2, x 3, x 4, x 5] i) (J i 1) (x 1))
    (h2 : ∀ i, HasDerivAt (fun t => f ![x 0, x 1, t, x 3, x 4, x 5] i) (J i 2) (x 2))
    (h3 : ∀ i, HasDerivAt (fun t => f ![x 0, x 1, x 2, t, x 4, x 5] i) (J i 3) (x 3))
    (h4 : ∀ i, HasDerivAt (fun t => f ![x 0, x 1, x 2, x 3, t, x 5] i) (J i 4) (x 4))
    (h5 : ∀ i, HasDerivAt (fun t => f ![x 0, x 1, x 2, x 3, x 4, t] i) (J i 5) (x 5)) :
    IsJacobian f x J := by
  intro i
  refine forall_fin6 ?_ ?_ ?_ ?_ ?_ ?_
  · simpa only [(update6 x _).1] using h0 i
  · simpa only [(update6 x _).2.1] using h1 i
  · simpa only [(update6 x _).2.2.1] using h2 i
  · simpa only [(update6 x _).2.2.2.1] using h3 i
  · simpa only [(update6 x _).2.2.2.2.1] using h4 i
  · simpa only [(update6 x _).2.2.2.2.2] using h5 i

theorem isJacobian_inverseToWorld {p : InverseDepth} (h : p.inverseDepth ≠ 0) :
    IsJacobian inverseToWorld
      ![p.first 0, p.first 1, p.first 2, p.inverseDepth, p.theta, p.phi] (worldJacobian p) := by
  have hi : ∀ x : ℝ, HasDerivAt (fun t : ℝ => t) 1 x := fun x => hasDerivAt_id x
  have hs := Real.hasDerivAt_sin p.theta
  have hc := Real.hasDerivAt_cos p.theta
  have hs' := Real.hasDerivAt_sin p.phi
  have hc' := Real.hasDerivAt_cos p.phi
  have hd : ∀ a b : ℝ, HasDerivAt (fun t : ℝ => a + b / t) (-b / p.inverseDepth ^ 2) p.inverseDepth := by
    intro a b
    refine (((hasDerivAt_const _ b).div (hi _) h).const_add a).congr_deriv ?_
    simp
  have z : ∀ x a : ℝ, HasDerivAt (fun _ : ℝ => x) 0 a := fun x a => hasDerivAt_const a x
  refine isJacobian6 (forall_fin3 ?_ ?_ ?_) (forall_fin3 ?_ ?_ ?_) (forall_fin3 ?_ ?_ ?_)
    (forall_fin3 ?_ ?_ ?_) (forall_fin3 ?_ ?_ ?_) (forall_fin3 ?_ ?_ ?_)
  · exact (hi (p.first 0)).add_const (Real.sin p.theta * Real.cos p.phi / p.inverseDepth)
  · exact z (p.first 1 + Real.sin p.theta * Real.sin p.phi / p.inverseDepth) (p.first 0)
  · exact z (p.first 2 + Real.cos p.theta / p.inverseDepth) (p.first 0)
  · exact z (p.first 0 + Real.sin p.theta * Real.cos p.phi / p.inverseDepth) (p.first 1)
  · exact (hi (p.first 1)).add_const (Real.sin p.theta * Real.sin p.phi / p.inverseDepth)
  · exact z (p.first 2 + Real.cos p.theta / p.inverseDepth) (p.first 1)
  · exact z (p.first 0 + Real.sin p.theta * Real.cos p.phi / p.inverseDepth) (p.first 2)
  · exact z (p.first 1 + Real.sin p.theta * Real.sin p.phi / p.inverseDepth) (p.first 2)
  · exact (hi (p.first 2)).add_const (Real.cos p.theta / p.inverseDepth)
  · refine (hd (p.first 0) (Real.sin p.theta * Real.cos p.phi)).congr_deriv ?_
    simp [worldJacobian, worldJacobianBlock]; ring
  · refine (hd (p.first 1) (Real.sin p.theta * Real.sin p.phi)).congr_deriv ?_
    simp [worldJacobian, worldJacobianBlock]; ring
  · refine (hd (p.first 2) (Real.cos p.theta)).congr_deriv ?_
    simp [worldJacobian, worldJacobianBlock]; ring
  · refine (((hs.mul_const (Real.cos p.phi)).div_const p.inverseDepth).const_add
      (p.first 0)).congr_deriv ?_
    simp [worldJacobian, worldJacobianBlock]; ring
  · refine (((hs.mul_const (Real.sin p.phi)).div_const p.inverseDepth).const_add
      (p.first 1)).congr_deriv ?_
    simp [worldJacobian, worldJacobianBlock]; ring
  · refine ((hc.div_const p.inverseDepth).const_add (p.first 2)).congr_deriv ?_
    simp [worldJacobian, worldJacobianBlock]; ring
  · refine (((hc'.const_mul (Real.sin p.theta)).div_const p.inverseDepth).const_add
      (p.first 0)).congr_deriv ?_
    simp [worldJacobian, worldJacobianBlock]; ring
  · refine (((hs'.const_mul (Real.sin p.theta)).div_const p.inverseDepth).const_add
      (p.first 1)).congr_deriv ?_
    simp [worldJacobian, worldJacobianBlock]; ring
  · exact z (p.first 2 + Real.cos p.theta / p.inverseDepth) p.phi

theorem hasDerivAt_shift {f : ℝ → ℝ} {f' x c : ℝ} (h : HasDerivAt f f' (x - c)) :
    HasDerivAt (fun t => f (t - c)) f' x := by
  have := h.comp x ((hasDerivAt_id x).sub_const c)
  rw [mul_one] at this
  exact this

theorem isJacobian_worldToInverse {point origin : V3}
    (h : 0 < (point - origin) 0 ∨ (point - origin) 1 ≠ 0) {J : Matrix (Fin 6) (Fin 3) ℝ}
    (hJ : inverseJacobian point origin = some J) :
    IsJacobian (worldToInverse origin) point J := by
  have h1 : 0 < (point - origin) 0 ^ 2 + (point - origin) 1 ^ 2 := pos_of_off_cut h
  have h2 : 0 < (point - origin) 0 ^ 2 + (point - origin) 1 ^ 2 + (point - origin) 2 ^ 2 := sum_sq_pos h1
  rw [inverseJacobian, if_neg h1.ne', Option.some.injEq] at hJ
  subst hJ
  have z : ∀ x a : ℝ, HasDerivAt (fun _ : ℝ => x) 0 a := fun x a => hasDerivAt_const a x
  refine isJacobian3 (forall_fin6 ?_ ?_ ?_ ?_ ?_ ?_) (forall_fin6 ?_ ?_ ?_ ?_ ?_ ?_)
    (forall_fin6 ?_ ?_ ?_ ?_ ?_ ?_)
  · exact z (origin 0) (point 0)
  · exact z (origin 1) (point 0)
  · exact z (origin 2) (point 0)
  · exact hasDerivAt_shift (invNorm_deriv_x h2)
  · exact hasDerivAt_shift (theta_deriv (c := (point - origin) 2) h1)
  · refine (hasDerivAt_shift (phi_deriv_x h)).congr_deriv ?_
    simp [inverseJacobianBlock]; ring
  · exact z (origin 0) (point 1)
  · exact z (origin 1) (point 1)
  · exact z (origin 2) (point 1)
  · exact hasDerivAt_shift (invNorm_deriv_y h2)
  · exact hasDerivAt_shift (theta_deriv' (c := (point - origin) 2) h1)
  · refine (hasDerivAt_shift (phi_deriv_y h)).congr_deriv ?_
    simp [inverseJacobianBlock]; ring
  · exact z (origin 0) (point 2)
  · exact z (origin 1) (point 2)
  · exact z (origin 2) (point 2)
  · exact hasDerivAt_shift (invNorm_deriv_z h2)
  · exact hasDerivAt_shift (theta_deriv_z h1)
  · exact z (atan2 ((point - origin) 1) ((point - origin) 0)) (point 2)

theorem update4 (x : Fin 4 → ℝ) (t : ℝ) :
    Function.update x 0 t = ![t, x 1, x 2, x 3] ∧
    Function.update x 1 t = ![x 0, t, x 2, x 3] ∧
    Function.update x 2 t = ![x 0, x 1, t, x 3] ∧
    Function.update x 3 t = ![x 0, x 1, x 2, t] := by
  refine ⟨?_, ?_, ?_, ?_⟩ <;> (ext k; fin_cases k <;> simp [Function.update])

theorem isJacobian_reducePlane (P : Plane) :
    IsJacobian reducePlane (planeVector P) (reduceJacobian P) := by
  have hi : ∀ x : ℝ, HasDerivAt (fun t : ℝ => t) 1 x := fun x => hasDerivAt_id x
  have z : ∀ x a : ℝ, HasDerivAt (fun _ : ℝ => x) 0 a := fun x a => hasDerivAt_const a x
  have l : ∀ a x : ℝ, HasDerivAt (fun t : ℝ => a * t) a x := fun a x => by
    simpa using (hi x).const_mul a
  have r : ∀ a x : ℝ, HasDerivAt (fun t : ℝ => t * a) a x := fun a x => by
    simpa using (hi x).mul_const a
  intro i j
  revert i
  revert j
  refine forall_fin4 ?_ ?_ ?_ ?_
  · simp only [(update4 _ _).1]
    exact forall_fin3 (l P.d (P.normal 0)) (z (P.d * P.normal 1) (P.normal 0))
      (z (P.d * P.normal 2) (P.normal 0))
  · simp only [(update4 _ _).2.1]
    exact forall_fin3 (z (P.d * P.normal 0) (P.normal 1)) (l P.d (P.normal 1))
      (z (P.d * P.normal 2) (P.normal 1))
  · simp only [(update4 _ _).2.2.1]
    exact forall_fin3 (z (P.d * P.normal 0) (P.normal 2)) (z (P.d * P.normal 1) (P.normal 2))
      (l P.d (P.normal 2))
  · simp only [(update4 _ _).2.2.2]
    exact forall_fin3 (r (P.normal 0) P.d) (r (P.normal 1) P.d) (r (P.normal 2) P.d)

/-- The true jacobian of `expandPlane`. -/
noncomputable def expandPlaneJacobian (v : V3) : Matrix (Fin 4) (Fin 3) ℝ :=
  let N := Real.sqrt (v 0 ^ 2 + v 1 ^ 2 + v 2 ^ 2)
  Matrix.of fun i j => if i.val < 3 then expandJacobian v i j else v j / N

theorem isJacobian_expandPlane {v : V3} (h : 0 < v 0 ^ 2 + v 1 ^ 2 + v 2 ^ 2) :
    IsJacobian expandPlane v (expandPlaneJacobian v) := by
  have hs := (Real.sqrt_pos.2 h).ne'
  have hi : ∀ x : ℝ, HasDerivAt (fun t : ℝ => t) 1 x := fun x => hasDerivAt_id x
  have sq := Real.sq_sqrt h.le
  have dx := norm_deriv_x h
  have dy := norm_deriv_y h
  have dz := norm_deriv_z h
  have dc : ∀ (c : ℝ) {f : ℝ → ℝ} {f' x : ℝ}, HasDerivAt f f' x → f x ≠ 0 →
      HasDerivAt (fun t => c / f t) (-c * f' / f x ^ 2) x := by
    intro c f f' x hf hx
    refine ((hasDerivAt_const x c).div hf hx).congr_deriv ?_
    simp
  have dv : ∀ {f : ℝ → ℝ} {f' x : ℝ}, HasDerivAt f f' x → f x ≠ 0 →
      HasDerivAt (fun t => t / f t) ((f x - x * f') / f x ^ 2) x := by
    intro f f' x hf hx
    refine ((hi x).div hf hx).congr_deriv ?_
    simp
  refine isJacobian3 (forall_fin4 ?_ ?_ ?_ ?_) (forall_fin4 ?_ ?_ ?_ ?_) (forall_fin4 ?_ ?_ ?_ ?_)
  · refine (dv dx hs).congr_deriv ?_
    simp [expandPlaneJacobian, expandJacobian]
    rw [sq]; field_simp; rw [sq]
  · refine (dc (v 1) dx hs).congr_deriv ?_
    simp [expandPlaneJacobian, expandJacobian]
    rw [sq]; field_simp
  · refine (dc (v 2) dx hs).congr_deriv ?_
    simp [expandPlaneJacobian, expandJacobian]
    rw [sq]; field_simp
  · exact dx
  · refine (dc (v 0) dy hs).congr_deriv ?_
    simp [expandPlaneJacobian, expandJacobian]
    rw [sq]; field_simp
  · refine (dv dy hs).congr_deriv ?_
    simp [expandPlaneJacobian, expandJacobian]
    rw [sq]; field_simp; rw [sq]
  · refine (dc (v 2) dy hs).congr_deriv ?_
    simp [expandPlaneJacobian, expandJacobian]
    rw [sq]; field_simp
  · exact dy
  · refine (dc (v 0) dz hs).congr_deriv ?_
    simp [expandPlaneJacobian, expandJacobian]
    rw [sq]; field_simp
  · refine (dc (v 1) dz hs).congr_deriv ?_
    simp [expandPlaneJacobian, expandJacobian]
    rw [sq]; field_simp
  · refine (dv dz hs).congr_deriv ?_
    simp [expandPlaneJacobian, expandJacobian]
    rw [sq]; field_simp; rw [sq]
  · exact dz

end RgbdSlam.Covariance
