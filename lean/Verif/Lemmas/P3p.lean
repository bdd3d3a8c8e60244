import Verif.Spec.P3p
import Mathlib.Tactic.Ring
import Mathlib.Tactic.LinearCombination
import Mathlib.Tactic.FieldSimp
import Mathlib.Tactic.Linarith
import Mathlib.Tactic.NormNum
import Mathlib.Tactic.Positivity
import Mathlib.Tactic.FinCases
import Mathlib.Tactic.Abel
import Mathlib.LinearAlgebra.Matrix.Determinant.Basic
import Mathlib.LinearAlgebra.Matrix.DotProduct
/-
Lemmas about the solver of the pose from three points.
-/
namespace RgbdSlam.P3p

open Geometry Matrix

theorem div?_eq_some {x y z : ℝ} : div? x y = some z ↔ y ≠ 0 ∧ z = x / y := by
  unfold div?
  split <;> simp [*, eq_comm]

theorem sqrt?_eq_some {x z : ℝ} : sqrt? x = some z ↔ 0 ≤ x ∧ z = Real.sqrt x := by
  unfold sqrt?
  split <;> simp_all [eq_comm]

theorem acos?_eq_some {x z : ℝ} : acos? x = some z ↔ (-1 ≤ x ∧ x ≤ 1) ∧ z = Real.arccos x := by
  unfold acos?
  split
  · rename_i h
    simp only [reduceCtorEq, false_iff, not_and]
    rintro ⟨h1, h2⟩
    rcases h with h | h <;> linarith
  · rename_i h
    push Not at h
    simp [h, eq_comm]

theorem cbrt_pow (x : ℝ) : cbrt x ^ 3 = x := by
  have key : ∀ y : ℝ, 0 ≤ y → (y ^ (1 / 3 : ℝ)) ^ 3 = y := fun y hy => by
    rw [← Real.rpow_natCast, ← Real.rpow_mul hy]
    norm_num
  unfold cbrt
  split
  · rename_i h; exact key x h
  · rename_i h
    rw [Odd.neg_pow (by decide), key _ (by linarith), neg_neg]

theorem cube_inj {x y : ℝ} (h : x ^ 3 = y ^ 3) : x = y := (Odd.pow_inj (by decide : Odd 3)).1 h

/-- The closed formula gives a root of the cubic. -/
theorem cubicRoot_spec {c2 c1 c0 y : ℝ} (h : cubicRoot c2 c1 c0 = some y) :
    y ^ 3 + c2 * y ^ 2 + c1 * y + c0 = 0 := by
  unfold cubicRoot at h
  dsimp only at h
  set a := c1 - c2 * c2 / 3 with ha
  set b := (2 * c2 * c2 * c2 - 9 * c2 * c1) / 27 + c0 with hb
  -- the depressed cubic
  have key : ∀ z, z ^ 3 + a * z + b = 0 → (z - c2 / 3) ^ 3 + c2 * (z - c2 / 3) ^ 2 + c1 * (z - c2 / 3) + c0 = 0 := by
    intro z hz
    rw [ha, hb] at hz
    linear_combination hz
  split at h
  · rename_i hc
    cases h
    apply key
    set r := Real.sqrt (b * b / 4 + a * a * a / 27) with hr
    have hr2 : r ^ 2 = b * b / 4 + a * a * a / 27 := Real.sq_sqrt hc.le
    set u := cbrt (b * (-1 / 2) + r) with hu
    set v := cbrt (b * (-1 / 2) - r) with hv
    have hu3 : u ^ 3 = b * (-1 / 2) + r := cbrt_pow _
    have hv3 : v ^ 3 = b * (-1 / 2) - r := cbrt_pow _
    have huv : u * v = -a / 3 := by
      apply cube_inj
      rw [mul_pow, hu3, hv3]
      linear_combination -hr2
    linear_combination hu3 + hv3 + 3 * (u + v) * huv
  · rename_i hc
    simp only [Option.bind_eq_some_iff, Option.map_eq_some_iff, div?_eq_some, sqrt?_eq_some, acos?_eq_some] at h
    obtain ⟨q, ⟨hq, rfl⟩, m, ⟨ha0, rfl⟩, m', ⟨hm, rfl⟩, t, ⟨⟨h1, h2⟩, rfl⟩, k, ⟨hk, rfl⟩, rfl⟩ := h
    apply key
    set k := Real.sqrt (-a / 3) with hkd
    have hk2 : k ^ 2 = -a / 3 := Real.sq_sqrt hk
    have hk0 : k ≠ 0 := by
      intro e
      rw [e] at hk2
      apply ha0; linarith
    have hkpos : 0 < k := lt_of_le_of_ne (Real.sqrt_nonneg _) (Ne.symm hk0)
    have hm' : Real.sqrt (-3 / a) = 1 / k := by
      rw [Real.sqrt_eq_iff_mul_self_eq hm (by positivity)]
      have : a = -3 * k ^ 2 := by rw [hk2]; ring
      rw [this]; field_simp
    have hcos := Real.cos_three_mul (Real.arccos (3 * b / (2 * a) * Real.sqrt (-3 / a)) / 3)
    rw [show 3 * (Real.arccos (3 * b / (2 * a) * Real.sqrt (-3 / a)) / 3) =
      Real.arccos (3 * b / (2 * a) * Real.sqrt (-3 / a)) by ring, Real.cos_arccos h1 h2] at hcos
    set w := Real.cos (Real.arccos (3 * b / (2 * a) * Real.sqrt (-3 / a)) / 3) with hw
    rw [hm'] at hcos
    have ha2 : a = -3 * k ^ 2 := by rw [hk2]; ring
    have hcos2 : b = -2 * k ^ 3 * (4 * w ^ 3 - 3 * w) := by
      rw [← hcos, ha2]; field_simp
    rw [hcos2, ha2]
    ring

theorem newton_spec {c2 c1 c0 y z : ℝ} (h : newton c2 c1 c0 y = some z)
    (hy : y ^ 3 + c2 * y ^ 2 + c1 * y + c0 = 0) : z = y := by
  unfold newton at h
  simp only [Option.map_eq_some_iff, div?_eq_some] at h
  obtain ⟨q, ⟨-, rfl⟩, rfl⟩ := h
  rw [show y * y * y + c2 * y * y + c1 * y + c0 = 0 by linear_combination hy]
  simp

theorem det_pencil (D1 D2 : M3) (y : ℝ) :
    (D1 + y • D2).det = (coefficients D1 D2).1 * y ^ 3 + (coefficients D1 D2).2.1 * y ^ 2 +
      (coefficients D1 D2).2.2.1 * y + (coefficients D1 D2).2.2.2 := by
  simp [det_fin_three, coefficients, adj, columns, crossProduct, dotProduct, Fin.sum_univ_three, Matrix.col]
  ring

theorem gamma_spec {D1 D2 : M3} {y : ℝ} (h : gamma D1 D2 = some y) : (D1 + y • D2).det = 0 := by
  rw [det_pencil]
  unfold gamma at h
  generalize coefficients D1 D2 = q at h ⊢
  obtain ⟨c3, c2, c1, c0⟩ := q
  simp only [Option.bind_eq_some_iff, div?_eq_some] at h
  obtain ⟨i, ⟨h3, rfl⟩, z, hz, hn⟩ := h
  have h0 := cubicRoot_spec hz
  rw [newton_spec hn h0]
  dsimp only
  field_simp at h0
  linear_combination h0

/-! ## Eigenvectors -/

theorem eigenvector_spec {M : M3} (hM : Mᵀ = M) (hd : M.det = 0) {s : ℝ}
    (hs : s ^ 2 + (-M 0 0 - M 1 1 - M 2 2) * s +
      (-M 0 1 * M 0 1 - M 0 2 * M 0 2 - M 1 2 * M 1 2 + M 0 0 * (M 1 1 + M 2 2) + M 1 1 * M 2 2) = 0)
    {e : V3} (h : eigenvector M s = some e) : M *ᵥ e = s • e ∧ e ⬝ᵥ e = 1 := by
  unfold eigenvector at h
  simp only [Option.bind_eq_some_iff, Option.map_eq_some_iff, div?_eq_some] at h
  obtain ⟨a1, ⟨hc, ha1⟩, a2, ⟨-, ha2⟩, n, ⟨hn0, hn⟩, rfl⟩ := h
  set c := s * s + M 0 0 * M 1 1 - s * (M 0 0 + M 1 1) - M 0 1 * M 0 1 with hcd
  have e1 : M 1 0 = M 0 1 := by conv_lhs => rw [← hM]
                                rfl
  have e2 : M 2 0 = M 0 2 := by conv_lhs => rw [← hM]
                                rfl
  have e3 : M 2 1 = M 1 2 := by conv_lhs => rw [← hM]
                                rfl
  have g1 : a1 * c = s * M 0 2 + M 0 1 * M 1 2 - M 0 2 * M 1 1 := by rw [ha1]; field_simp
  have g2 : a2 * c = s * M 1 2 + M 0 1 * M 0 2 - M 0 0 * M 1 2 := by rw [ha2]; field_simp
  have hdet : M 0 0 * M 1 1 * M 2 2 - M 0 0 * M 1 2 * M 1 2 - M 0 1 * M 0 1 * M 2 2 + M 0 1 * M 1 2 * M 0 2
      + M 0 2 * M 0 1 * M 1 2 - M 0 2 * M 1 1 * M 0 2 = 0 := by
    rw [det_fin_three, e1, e2, e3] at hd
    exact hd
  have r0 : M 0 0 * a1 + M 0 1 * a2 + M 0 2 = s * a1 := by
    apply mul_right_cancel₀ hc
    rw [hcd] at g1 g2 ⊢
    linear_combination (M 0 0 - s) * g1 + M 0 1 * g2
  have r1 : M 0 1 * a1 + M 1 1 * a2 + M 1 2 = s * a2 := by
    apply mul_right_cancel₀ hc
    rw [hcd] at g1 g2 ⊢
    linear_combination M 0 1 * g1 + (M 1 1 - s) * g2
  have r2 : M 0 2 * a1 + M 1 2 * a2 + M 2 2 = s := by
    apply mul_right_cancel₀ hc
    rw [hcd] at g1 g2 ⊢
    linear_combination M 0 2 * g1 + M 1 2 * g2 + hdet - s * hs
  refine ⟨?_, ?_⟩
  · funext i
    fin_cases i
    · simp only [mulVec, dotProduct, Fin.sum_univ_three, Pi.smul_apply, smul_eq_mul]
      change M 0 0 * (a1 * n) + M 0 1 * (a2 * n) + M 0 2 * n = s * (a1 * n)
      linear_combination n * r0
    · simp only [mulVec, dotProduct, Fin.sum_univ_three, Pi.smul_apply, smul_eq_mul]
      change M 1 0 * (a1 * n) + M 1 1 * (a2 * n) + M 1 2 * n = s * (a2 * n)
      rw [e1]
      linear_combination n * r1
    · simp only [mulVec, dotProduct, Fin.sum_univ_three, Pi.smul_apply, smul_eq_mul]
      change M 2 0 * (a1 * n) + M 2 1 * (a2 * n) + M 2 2 * n = s * n
      rw [e2, e3]
      linear_combination n * r2
  · have hp : 0 < 1 + a1 * a1 + a2 * a2 := by nlinarith [mul_self_nonneg a1, mul_self_nonneg a2]
    have hq : Real.sqrt (1 + a1 * a1 + a2 * a2) ^ 2 = 1 + a1 * a1 + a2 * a2 := Real.sq_sqrt hp.le
    have hn2 : n ^ 2 * (1 + a1 * a1 + a2 * a2) = 1 := by
      rw [hn, div_pow, one_pow, hq, one_div, inv_mul_cancel₀ hp.ne']
    simp only [dotProduct, Fin.sum_univ_three]
    change a1 * n * (a1 * n) + a2 * n * (a2 * n) + n * n = 1
    linear_combination hn2

/-- A singular symmetric matrix is the sum of two squares along the two eigenvectors. -/
theorem two_squares {M : M3} (hM : Mᵀ = M) {e1 e2 : V3} {s1 s2 : ℝ} (h1 : M *ᵥ e1 = s1 • e1) (u1 : e1 ⬝ᵥ e1 = 1)
    (h2 : M *ᵥ e2 = s2 • e2) (u2 : e2 ⬝ᵥ e2 = 1) (hne : s1 ≠ s2) (htr : M 0 0 + M 1 1 + M 2 2 = s1 + s2) (l : V3) :
    l ⬝ᵥ (M *ᵥ l) = s1 * (e1 ⬝ᵥ l) ^ 2 + s2 * (e2 ⬝ᵥ l) ^ 2 := by
  have hsym : ∀ v w : V3, v ⬝ᵥ (M *ᵥ w) = w ⬝ᵥ (M *ᵥ v) := fun v w => by
    rw [dotProduct_mulVec, ← mulVec_transpose, hM, dotProduct_comm]
  have h12 : e1 ⬝ᵥ e2 = 0 := by
    have h := hsym e1 e2
    rw [h1, h2, dotProduct_smul, dotProduct_smul, dotProduct_comm e2 e1, smul_eq_mul, smul_eq_mul] at h
    have : (s2 - s1) * (e1 ⬝ᵥ e2) = 0 := by linear_combination h
    rcases mul_eq_zero.1 this with h | h
    · exact absurd (by linarith) hne
    · exact h
  set e3 := crossProduct e1 e2 with he3
  have h31 : e1 ⬝ᵥ e3 = 0 := dot_self_cross e1 e2
  have h32 : e2 ⬝ᵥ e3 = 0 := dot_cross_self e1 e2
  have u3 : e3 ⬝ᵥ e3 = 1 := by
    rw [he3, cross_dot_cross, u1, u2, h12, dotProduct_comm e2 e1, h12]; norm_num
  set Q : M3 := columns e1 e2 e3 with hQ
  have hQQ : Qᵀ * Q = 1 := by
    have h21 : e2 ⬝ᵥ e1 = 0 := by rw [dotProduct_comm]; exact h12
    have h13 : e3 ⬝ᵥ e1 = 0 := by rw [dotProduct_comm]; exact h31
    have h23 : e3 ⬝ᵥ e2 = 0 := by rw [dotProduct_comm]; exact h32
    have : ∀ i j, (Qᵀ * Q) i j = ![e1, e2, e3] i ⬝ᵥ ![e1, e2, e3] j := fun i j => rfl
    ext i j
    rw [this]
    fin_cases i <;> fin_cases j <;> simp [u1, u2, u3, h12, h21, h31, h13, h32, h23]
  have hQQ' : Q * Qᵀ = 1 := mul_eq_one_comm.1 hQQ
  -- the matrix in the basis of the eigenvectors
  have hent : ∀ i j, (Qᵀ * M * Q) i j = ![e1, e2, e3] i ⬝ᵥ (M *ᵥ ![e1, e2, e3] j) := by
    intro i j
    rw [Matrix.mul_assoc]
    rfl
  set k := e3 ⬝ᵥ (M *ᵥ e3) with hk
  have hD : Qᵀ * M * Q = Matrix.diagonal ![s1, s2, k] := by
    have a13 : e1 ⬝ᵥ (M *ᵥ e3) = 0 := by
      rw [hsym, h1, dotProduct_smul, dotProduct_comm, h31, smul_zero]
    have a23 : e2 ⬝ᵥ (M *ᵥ e3) = 0 := by
      rw [hsym, h2, dotProduct_smul, dotProduct_comm, h32, smul_zero]
    have h21 : e2 ⬝ᵥ e1 = 0 := by rw [dotProduct_comm]; exact h12
    have h13 : e3 ⬝ᵥ e1 = 0 := by rw [dotProduct_comm]; exact h31
    have h23 : e3 ⬝ᵥ e2 = 0 := by rw [dotProduct_comm]; exact h32
    ext i j
    rw [hent]
    fin_cases i <;> fin_cases j <;>
      simp [h1, h2, u1, u2, h12, h21, h13, h23, a13, a23, dotProduct_smul, hk]
  have hk0 : k = 0 := by
    have ht : (Qᵀ * M * Q).trace = M.trace := by
      rw [Matrix.trace_mul_comm, ← Matrix.mul_assoc, hQQ', Matrix.one_mul]
    rw [hD, trace_diagonal, Fin.sum_univ_three, Matrix.trace, Fin.sum_univ_three] at ht
    simp only [diag_apply] at ht
    change s1 + s2 + k = _ at ht
    linarith
  have hMQ : M = Q * Matrix.diagonal ![s1, s2, 0] * Qᵀ := by
    rw [← hk0, ← hD, ← Matrix.mul_assoc, ← Matrix.mul_assoc, hQQ', Matrix.one_mul, Matrix.mul_assoc, hQQ',
      Matrix.mul_one]
  have hv : Qᵀ *ᵥ l = ![e1 ⬝ᵥ l, e2 ⬝ᵥ l, e3 ⬝ᵥ l] := by
    funext i; fin_cases i <;> rfl
  rw [hMQ, ← mulVec_mulVec, ← mulVec_mulVec, dotProduct_mulVec, ← mulVec_transpose, hv]
  simp [dotProduct, Fin.sum_univ_three, mulVec_diagonal]
  ring

theorem eig_spec {M : M3} (hM : Mᵀ = M) (hd : M.det = 0) {e1 e2 : V3} {s1 s2 : ℝ}
    (h : eig3x3known0 M = some (e1, e2, s1, s2)) :
    (M *ᵥ e1 = s1 • e1 ∧ e1 ⬝ᵥ e1 = 1) ∧ (M *ᵥ e2 = s2 • e2 ∧ e2 ⬝ᵥ e2 = 1) ∧
      M 0 0 + M 1 1 + M 2 2 = s1 + s2 := by
  unfold eig3x3known0 at h
  dsimp only at h
  simp only [Option.bind_eq_some_iff, sqrt?_eq_some] at h
  obtain ⟨disc, ⟨hd0, hdisc⟩, h⟩ := h
  have hsq := Real.sq_sqrt hd0
  rw [← hdisc] at hsq
  split at h
  · simp only [Option.map_eq_some_iff, Prod.mk.injEq] at h
    obtain ⟨f1, g1, f2, g2, rfl, rfl, rfl, rfl⟩ := h
    refine ⟨eigenvector_spec hM hd ?_ g1, eigenvector_spec hM hd ?_ g2, by ring⟩
    · linear_combination hsq
    · linear_combination hsq
  · simp only [Option.map_eq_some_iff, Prod.mk.injEq] at h
    obtain ⟨f1, g1, f2, g2, rfl, rfl, rfl, rfl⟩ := h
    refine ⟨eigenvector_spec hM hd ?_ g1, eigenvector_spec hM hd ?_ g2, by ring⟩
    · linear_combination hsq
    · linear_combination hsq

/-! ## The three distances -/

theorem residuals_zero_iff (g : Scene) (l : V3) : residuals g l = 0 ↔
    l 0 ^ 2 - 2 * l 0 * l 1 * g.b12 + l 1 ^ 2 = g.a12 ∧
    l 0 ^ 2 - 2 * l 0 * l 2 * g.b13 + l 2 ^ 2 = g.a13 ∧
    l 1 ^ 2 - 2 * l 1 * l 2 * g.b23 + l 2 ^ 2 = g.a23 := by
  constructor
  · intro h
    have h0 := congrFun h 0
    have h1 := congrFun h 1
    have h2 := congrFun h 2
    simp only [residuals, Pi.zero_apply] at h0 h1 h2
    change l 0 * l 0 - 2 * l 0 * l 1 * g.b12 + l 1 * l 1 - g.a12 = 0 at h0
    change l 0 * l 0 - 2 * l 0 * l 2 * g.b13 + l 2 * l 2 - g.a13 = 0 at h1
    change l 1 * l 1 - 2 * l 1 * l 2 * g.b23 + l 2 * l 2 - g.a23 = 0 at h2
    exact ⟨by linear_combination h0, by linear_combination h1, by linear_combination h2⟩
  · rintro ⟨h0, h1, h2⟩
    funext i
    fin_cases i
    · change l 0 * l 0 - 2 * l 0 * l 1 * g.b12 + l 1 * l 1 - g.a12 = 0
      linear_combination h0
    · change l 0 * l 0 - 2 * l 0 * l 2 * g.b13 + l 2 * l 2 - g.a13 = 0
      linear_combination h1
    · change l 1 * l 1 - 2 * l 1 * l 2 * g.b23 + l 2 * l 2 - g.a23 = 0
      linear_combination h2

theorem refine_of_zero {g : Scene} {l : V3} (h : residuals g l = 0) (n : ℕ) : refine g n l = some l := by
  cases n with
  | zero => rfl
  | succ n =>
    rw [refine]
    dsimp only
    rw [h, if_pos]
    simp

theorem D1_form (g : Scene) (l : V3) : l ⬝ᵥ (g.D1 *ᵥ l) =
    g.a23 * (l 0 ^ 2 - 2 * l 0 * l 1 * g.b12 + l 1 ^ 2) - g.a12 * (l 1 ^ 2 - 2 * l 1 * l 2 * g.b23 + l 2 ^ 2) := by
  simp [Scene.D1, dotProduct, mulVec, Fin.sum_univ_three]
  ring

theorem D2_form (g : Scene) (l : V3) : l ⬝ᵥ (g.D2 *ᵥ l) =
    g.a23 * (l 0 ^ 2 - 2 * l 0 * l 2 * g.b13 + l 2 ^ 2) - g.a13 * (l 1 ^ 2 - 2 * l 1 * l 2 * g.b23 + l 2 ^ 2) := by
  simp [Scene.D2, dotProduct, mulVec, Fin.sum_univ_three]
  ring

theorem D1_symm (g : Scene) : g.D1ᵀ = g.D1 := by
  ext i j; fin_cases i <;> fin_cases j <;> rfl

theorem D2_symm (g : Scene) : g.D2ᵀ = g.D2 := by
  ext i j; fin_cases i <;> fin_cases j <;> rfl

theorem D0_form (g : Scene) (y : ℝ) (l : V3) : l ⬝ᵥ ((g.D1 + y • g.D2) *ᵥ l) =
    g.a23 * (l 0 ^ 2 - 2 * l 0 * l 1 * g.b12 + l 1 ^ 2) - g.a12 * (l 1 ^ 2 - 2 * l 1 * l 2 * g.b23 + l 2 ^ 2) +
    y * (g.a23 * (l 0 ^ 2 - 2 * l 0 * l 2 * g.b13 + l 2 ^ 2) -
      g.a13 * (l 1 ^ 2 - 2 * l 1 * l 2 * g.b23 + l 2 ^ 2)) := by
  rw [add_mulVec, dotProduct_add, smul_mulVec, dotProduct_smul, D1_form, D2_form, smul_eq_mul]

theorem mem_push {disc d : ℝ} {p : Option Pose} {q : Pose} (h : (d, q) ∈ push disc p) : d = disc ∧ p = some q := by
  cases p with
  | none => cases h
  | some p => simpa [push, and_comm, eq_comm] using h

theorem mem_secondTurn {disc a c tau d : ℝ} {cand : ℝ → Candidate} {q : Pose}
    (h : (d, q) ∈ secondTurn disc a c cand tau) :
    d = disc ∧ a * tau ≠ 0 ∧ 0 < c / (a * tau) ∧ cand (c / (a * tau)) = .pose (some q) := by
  unfold secondTurn at h
  cases hd : div? c (a * tau) with
  | none => rw [hd] at h; cases h
  | some tau' =>
    obtain ⟨hne, rfl⟩ := div?_eq_some.1 hd
    rw [hd] at h
    dsimp only at h
    split at h
    · rename_i hpos
      cases hc : cand (c / (a * tau)) with
      | behind => rw [hc] at h; cases h
      | pose p =>
        rw [hc] at h
        obtain ⟨rfl, rfl⟩ := mem_push h
        exact ⟨rfl, hne, hpos, rfl⟩
    · cases h

/-- The first value of `tau` is a root, and the equation is not empty, when the discriminant is not clipped. -/
theorem firstRoot_spec {a b c tau : ℝ} (h : firstRoot a b c = some tau) (h0 : 0 ≤ b * b - 4 * a * c) :
    a * tau ^ 2 + b * tau + c = 0 ∧ ¬ (a = 0 ∧ b = 0 ∧ c = 0) := by
  unfold firstRoot at h
  dsimp only at h
  rw [max_eq_right h0] at h
  have hs := Real.sq_sqrt h0
  refine ⟨?_, ?_⟩
  · have key : ∀ r : ℝ, r ^ 2 = b * b - 4 * a * c → -b + r ≠ 0 →
        a * (2 * c / (-b + r)) ^ 2 + b * (2 * c / (-b + r)) + c = 0 := by
      intro r hr hne
      have e : a * (2 * c / (-b + r)) ^ 2 + b * (2 * c / (-b + r)) + c =
          c * (r ^ 2 - (b * b - 4 * a * c)) / (-b + r) ^ 2 := by
        rw [eq_div_iff (pow_ne_zero 2 hne)]
        have h1 : 2 * c / (-b + r) * (-b + r) = 2 * c := div_mul_cancel₀ _ hne
        linear_combination (a * (2 * c / (-b + r) * (-b + r) + 2 * c) + b * (-b + r)) * h1
      rw [e, hr, sub_self, mul_zero, zero_div]
    split at h
    · obtain ⟨hne, rfl⟩ := div?_eq_some.1 h
      rw [sub_eq_add_neg] at hne ⊢
      exact key _ (by rw [neg_sq, hs]) hne
    · obtain ⟨hne, rfl⟩ := div?_eq_some.1 h
      exact key _ hs hne
  · rintro ⟨rfl, rfl, rfl⟩
    simp [div?] at h

/-- A pose of the loop over the roots comes from a positive root of the quadratic equation, when the
discriminant was not clipped; and the equation is not empty. -/
theorem mem_roots {a b c : ℝ} {cand : ℝ → Candidate} {disc : ℝ} {p : Pose} (h : (disc, p) ∈ roots a b c cand)
    (h0 : 0 ≤ disc) : ¬ (a = 0 ∧ b = 0 ∧ c = 0) ∧
      ∃ tau, 0 < tau ∧ a * tau ^ 2 + b * tau + c = 0 ∧ cand tau = .pose (some p) := by
  unfold roots at h
  dsimp only at h
  split at h
  · cases h
  cases hf : firstRoot a b c with
  | none => rw [hf] at h; cases h
  | some tau =>
    rw [hf] at h
    dsimp only at h
    have second : (disc, p) ∈ secondTurn (b * b - 4 * a * c) a c cand tau → ¬ (a = 0 ∧ b = 0 ∧ c = 0) ∧
        ∃ tau, 0 < tau ∧ a * tau ^ 2 + b * tau + c = 0 ∧ cand tau = .pose (some p) := by
      intro h
      obtain ⟨rfl, hne, hpos, hc⟩ := mem_secondTurn h
      obtain ⟨hr, hz⟩ := firstRoot_spec hf h0
      have ha := left_ne_zero_of_mul hne
      have ht := right_ne_zero_of_mul hne
      refine ⟨hz, _, hpos, ?_, hc⟩
      field_simp
      linear_combination c * hr
    split at h
    · rename_i hpos
      cases hc : cand tau with
      | behind => rw [hc] at h; exact second h
      | pose q =>
        rw [hc] at h
        dsimp only at h
        rcases List.mem_append.1 h with h | h
        · obtain ⟨rfl, rfl⟩ := mem_push h
          obtain ⟨hr, hz⟩ := firstRoot_spec hf h0
          exact ⟨hz, tau, hpos, hr, hc⟩
        · split at h
          · cases h
          · exact second h
    · split at h
      · cases h
      · exact second h

/-- The lengths of the first kind of candidate satisfy the equations. -/
theorem candidate12_spec {x X : Fin 3 → V3} {w0 w1 tau : ℝ} {p : Pose}
    (h : candidate12 x X w0 w1 tau = .pose (some p)) (ht : 0 < tau) (h13 : 0 < (scene x X).a13) :
    ∃ l : V3, 0 < l 0 ∧ 0 ≤ l 1 ∧ 0 < l 2 ∧ l 1 = w0 * l 0 + w1 * l 2 ∧ l 2 = tau * l 0 ∧
      l 0 ^ 2 - 2 * l 0 * l 2 * (scene x X).b13 + l 2 ^ 2 = (scene x X).a13 ∧ finish x X l = some p := by
  unfold candidate12 at h
  dsimp only at h
  cases hd : (div? (scene x X).a13 (tau * (tau - 2 * (scene x X).b13) + 1)).bind sqrt? with
  | none => rw [hd] at h; cases h
  | some l1 =>
    rw [hd] at h
    simp only [Option.bind_eq_some_iff, div?_eq_some, sqrt?_eq_some] at hd
    obtain ⟨q, ⟨hne, rfl⟩, hq, rfl⟩ := hd
    have hs := Real.sq_sqrt hq
    have hpos : 0 < Real.sqrt ((scene x X).a13 / (tau * (tau - 2 * (scene x X).b13) + 1)) := by
      rw [Real.sqrt_pos]
      exact lt_of_le_of_ne hq (Ne.symm (div_ne_zero h13.ne' hne))
    set l1 := Real.sqrt ((scene x X).a13 / (tau * (tau - 2 * (scene x X).b13) + 1)) with hl1
    dsimp only at h
    split at h
    · cases h
    · rename_i hneg
      injection h with h
      refine ⟨_, hpos, not_lt.1 hneg, mul_pos ht hpos, rfl, rfl, ?_, h⟩
      change l1 ^ 2 - 2 * l1 * (tau * l1) * (scene x X).b13 + (tau * l1) ^ 2 = _
      rw [eq_div_iff hne] at hs
      linear_combination hs

theorem candidate21_spec {x X : Fin 3 → V3} {w0 w1 tau : ℝ} {p : Pose}
    (h : candidate21 x X w0 w1 tau = .pose (some p)) (ht : 0 < tau) (h23 : 0 < (scene x X).a23) :
    ∃ l : V3, 0 ≤ l 0 ∧ 0 < l 1 ∧ 0 < l 2 ∧ l 0 = w0 * l 1 + w1 * l 2 ∧ l 2 = tau * l 1 ∧
      l 1 ^ 2 - 2 * l 1 * l 2 * (scene x X).b23 + l 2 ^ 2 = (scene x X).a23 ∧ finish x X l = some p := by
  unfold candidate21 at h
  dsimp only at h
  cases hd : (div? (scene x X).a23 (tau * (tau - 2 * (scene x X).b23) + 1)).bind sqrt? with
  | none => rw [hd] at h; cases h
  | some l1 =>
    rw [hd] at h
    simp only [Option.bind_eq_some_iff, div?_eq_some, sqrt?_eq_some] at hd
    obtain ⟨q, ⟨hne, rfl⟩, hq, rfl⟩ := hd
    have hs := Real.sq_sqrt hq
    have hpos : 0 < Real.sqrt ((scene x X).a23 / (tau * (tau - 2 * (scene x X).b23) + 1)) := by
      rw [Real.sqrt_pos]
      exact lt_of_le_of_ne hq (Ne.symm (div_ne_zero h23.ne' hne))
    set l1 := Real.sqrt ((scene x X).a23 / (tau * (tau - 2 * (scene x X).b23) + 1)) with hl1
    dsimp only at h
    split at h
    · cases h
    · rename_i hneg
      injection h with h
      refine ⟨_, not_lt.1 hneg, hpos, mul_pos ht hpos, rfl, rfl, ?_, h⟩
      change l1 ^ 2 - 2 * l1 * (tau * l1) * (scene x X).b23 + (tau * l1) ^ 2 = _
      rw [eq_div_iff hne] at hs
      linear_combination hs

/-- A pose of one sign of `s`: the lengths of the rays satisfy the three equations. -/
theorem mem_branch {x X : Fin 3 → V3} {u : V3} {disc : ℝ} {p : Pose} (h : (disc, p) ∈ branch x X u) (h0 : 0 ≤ disc)
    (h12 : 0 < (scene x X).a12) (h13 : 0 < (scene x X).a13) (h23 : 0 < (scene x X).a23) {y : ℝ}
    (hu : ∀ l : V3, u ⬝ᵥ l = 0 → l ⬝ᵥ (((scene x X).D1 + y • (scene x X).D2) *ᵥ l) = 0) :
    ∃ l : V3, 0 ≤ l 0 ∧ 0 ≤ l 1 ∧ 0 < l 2 ∧ residuals (scene x X) l = 0 ∧ finish x X l = some p := by
  unfold branch at h
  dsimp only at h
  split at h
  · rename_i hlt
    have hu1 : u 1 ≠ 0 := fun e => by
      rw [e, abs_zero] at hlt
      exact absurd hlt (not_lt.2 (abs_nonneg _))
    obtain ⟨-, tau, ht, hroot, hc⟩ := mem_roots h h0
    obtain ⟨l, p0, p1, p2, e1, e2, q13, hfin⟩ := candidate12_spec hc ht h13
    refine ⟨l, p0.le, p1, p2, ?_, hfin⟩
    have hline : u ⬝ᵥ l = 0 := by
      rw [dotProduct, Fin.sum_univ_three, e1]
      field_simp
      ring
    have hD := hu l hline
    rw [D0_form, q13] at hD
    set g := scene x X with hg
    -- the quadratic equation is the second form
    have hq : g.a23 * g.a13 - g.a13 * (l 1 ^ 2 - 2 * l 1 * l 2 * g.b23 + l 2 ^ 2) = 0 := by
      have hq' : g.a23 * (l 0 ^ 2 - 2 * l 0 * l 2 * g.b13 + l 2 ^ 2) -
          g.a13 * (l 1 ^ 2 - 2 * l 1 * l 2 * g.b23 + l 2 ^ 2) = 0 := by
        rw [e1, e2]
        linear_combination l 0 ^ 2 * hroot
      rwa [q13] at hq'
    have q23 : l 1 ^ 2 - 2 * l 1 * l 2 * g.b23 + l 2 ^ 2 = g.a23 := by
      have : g.a13 * (l 1 ^ 2 - 2 * l 1 * l 2 * g.b23 + l 2 ^ 2 - g.a23) = 0 := by linear_combination -hq
      rcases mul_eq_zero.1 this with e | e
      · exact absurd e h13.ne'
      · linarith
    rw [q23] at hD
    have q12 : l 0 ^ 2 - 2 * l 0 * l 1 * g.b12 + l 1 ^ 2 = g.a12 := by
      have : g.a23 * (l 0 ^ 2 - 2 * l 0 * l 1 * g.b12 + l 1 ^ 2 - g.a12) = 0 := by linear_combination hD
      rcases mul_eq_zero.1 this with e | e
      · exact absurd e h23.ne'
      · linarith
    exact (residuals_zero_iff g l).2 ⟨q12, q13, q23⟩
  · split at h
    · cases h
    · rename_i hu0
      obtain ⟨hz, tau, ht, hroot, hc⟩ := mem_roots h h0
      obtain ⟨l, p0, p1, p2, e1, e2, q23, hfin⟩ := candidate21_spec hc ht h23
      refine ⟨l, p0, p1.le, p2, ?_, hfin⟩
      have hline : ∀ m : V3, m 0 = -u 1 / u 0 * m 1 + -u 2 / u 0 * m 2 → u ⬝ᵥ m = 0 := by
        intro m e1
        rw [dotProduct, Fin.sum_univ_three, e1]
        field_simp
        ring
      have hD := hu l (hline l e1)
      rw [D0_form, q23] at hD
      set g := scene x X with hg
      set w0 := -u 1 / u 0 with hw0
      set w1 := -u 2 / u 0 with hw1
      -- the quadratic equation is a combination of the two forms
      have hcomb : ∀ m : V3, m 0 = w0 * m 1 + w1 * m 2 →
          g.a13 * (m 0 ^ 2 - 2 * m 0 * m 1 * g.b12 + m 1 ^ 2) - g.a12 * (m 0 ^ 2 - 2 * m 0 * m 2 * g.b13 + m 2 ^ 2) =
          ((g.a13 - g.a12) * w1 * w1 + 2 * g.a12 * g.b13 * w1 - g.a12) * m 2 ^ 2 +
          (-2 * g.a13 * g.b12 * w1 + 2 * g.a12 * g.b13 * w0 - 2 * w0 * w1 * (g.a12 - g.a13)) * (m 1 * m 2) +
          ((g.a13 - g.a12) * w0 * w0 - 2 * g.a13 * g.b12 * w0 + g.a13) * m 1 ^ 2 := by
        intro m hm
        rw [hm]
        ring
      have hq : g.a13 * (l 0 ^ 2 - 2 * l 0 * l 1 * g.b12 + l 1 ^ 2) =
          g.a12 * (l 0 ^ 2 - 2 * l 0 * l 2 * g.b13 + l 2 ^ 2) := by
        have := hcomb l e1
        rw [e2] at this ⊢
        linear_combination this + l 1 ^ 2 * hroot
      by_cases hy : g.a12 + y * g.a13 = 0
      · -- the two conics are the same, so the quadratic equation is empty
        exfalso
        have hall : ∀ m : V3, m 0 = w0 * m 1 + w1 * m 2 →
            ((g.a13 - g.a12) * w1 * w1 + 2 * g.a12 * g.b13 * w1 - g.a12) * m 2 ^ 2 +
            (-2 * g.a13 * g.b12 * w1 + 2 * g.a12 * g.b13 * w0 - 2 * w0 * w1 * (g.a12 - g.a13)) * (m 1 * m 2) +
            ((g.a13 - g.a12) * w0 * w0 - 2 * g.a13 * g.b12 * w0 + g.a13) * m 1 ^ 2 = 0 := by
          intro m hm
          have h1 := hu m (hline m hm)
          rw [D0_form] at h1
          rw [← hcomb m hm]
          have : g.a23 * (g.a13 * (m 0 ^ 2 - 2 * m 0 * m 1 * g.b12 + m 1 ^ 2) -
              g.a12 * (m 0 ^ 2 - 2 * m 0 * m 2 * g.b13 + m 2 ^ 2)) = 0 := by
            linear_combination g.a13 * h1 + (g.a13 * (m 1 ^ 2 - 2 * m 1 * m 2 * g.b23 + m 2 ^ 2) -
              g.a23 * (m 0 ^ 2 - 2 * m 0 * m 2 * g.b13 + m 2 ^ 2)) * hy
          rcases mul_eq_zero.1 this with e | e
          · exact absurd e h23.ne'
          · exact e
        have hA := hall ![w1, 0, 1] (by change w1 = w0 * 0 + w1 * 1; ring)
        have hC := hall ![w0, 1, 0] (by change w0 = w0 * 1 + w1 * 0; ring)
        have hB := hall ![w0 + w1, 1, 1] (by change w0 + w1 = w0 * 1 + w1 * 1; ring)
        simp only [Matrix.cons_val] at hA hB hC
        refine hz ⟨by linear_combination hA, ?_, by linear_combination hC⟩
        linear_combination hB - hA - hC
      · have e12 : (g.a12 + y * g.a13) * (l 0 ^ 2 - 2 * l 0 * l 1 * g.b12 + l 1 ^ 2 - g.a12) = 0 := by
          have : g.a23 * ((g.a12 + y * g.a13) * (l 0 ^ 2 - 2 * l 0 * l 1 * g.b12 + l 1 ^ 2 - g.a12)) = 0 := by
            linear_combination g.a12 * hD + g.a23 * y * hq
          rcases mul_eq_zero.1 this with e | e
          · exact absurd e h23.ne'
          · exact e
        have q12 : l 0 ^ 2 - 2 * l 0 * l 1 * g.b12 + l 1 ^ 2 = g.a12 := by
          rcases mul_eq_zero.1 e12 with e | e
          · exact absurd e hy
          · linarith
        have q13 : l 0 ^ 2 - 2 * l 0 * l 2 * g.b13 + l 2 ^ 2 = g.a13 := by
          rw [q12] at hq
          have : g.a12 * (l 0 ^ 2 - 2 * l 0 * l 2 * g.b13 + l 2 ^ 2 - g.a13) = 0 := by linear_combination -hq
          rcases mul_eq_zero.1 this with e | e
          · exact absurd e h12.ne'
          · linarith
        exact (residuals_zero_iff g l).2 ⟨q12, q13, q23⟩

/-! ## The pose -/

theorem columns_mulVec (a b c v : V3) : columns a b c *ᵥ v = v 0 • a + v 1 • b + v 2 • c := by
  funext i
  simp [columns, mulVec, dotProduct, Fin.sum_univ_three]
  ring

theorem gram_columns (a b c : V3) (i j : Fin 3) :
    ((columns a b c)ᵀ * columns a b c) i j = ![a, b, c] i ⬝ᵥ ![a, b, c] j := rfl

theorem gram_axes {a b a' b' : V3} (h1 : a ⬝ᵥ a = a' ⬝ᵥ a') (h2 : b ⬝ᵥ b = b' ⬝ᵥ b') (h3 : a ⬝ᵥ b = a' ⬝ᵥ b') :
    (columns a b (crossProduct a b))ᵀ * columns a b (crossProduct a b) =
      (columns a' b' (crossProduct a' b'))ᵀ * columns a' b' (crossProduct a' b') := by
  have hx : crossProduct a b ⬝ᵥ crossProduct a b = crossProduct a' b' ⬝ᵥ crossProduct a' b' := by
    rw [cross_dot_cross, cross_dot_cross, h1, h2, h3, dotProduct_comm b a, h3, dotProduct_comm b' a']
  have k1 : ∀ a b : V3, crossProduct a b ⬝ᵥ a = 0 := fun a b => by rw [dotProduct_comm, dot_self_cross]
  have k2 : ∀ a b : V3, crossProduct a b ⬝ᵥ b = 0 := fun a b => by rw [dotProduct_comm, dot_cross_self]
  ext i j
  rw [gram_columns, gram_columns]
  fin_cases i <;> fin_cases j <;>
    simp [h1, h2, h3, hx, k1, k2, dot_self_cross, dot_cross_self, dotProduct_comm b a, dotProduct_comm b' a']

theorem det_axes (a b : V3) :
    (columns a b (crossProduct a b)).det = crossProduct a b ⬝ᵥ crossProduct a b := by
  simp [columns, det_fin_three, crossProduct, dotProduct, Fin.sum_univ_three]
  ring

/-- The pose built from lengths that satisfy the equations is a solution. -/
theorem finish_spec {x X : Fin 3 → V3} (hx : ∀ i, x i ⬝ᵥ x i = 1) {l : V3} (hl : residuals (scene x X) l = 0)
    {p : Pose} (h : finish x X l = some p) : Spec.Solves x X p l := by
  unfold finish at h
  rw [refine_of_zero hl] at h
  simp only [Option.bind_some] at h
  split at h
  · cases h
  rename_i hdet
  cases h
  obtain ⟨q12, q13, q23⟩ := (residuals_zero_iff _ _).1 hl
  set v1 := l 0 • x 0 - l 1 • x 1 with hv1
  set v2 := l 0 • x 0 - l 2 • x 2 with hv2
  set d12 := X 0 - X 1 with hd12
  set d13 := X 0 - X 2 with hd13
  have h1 : v1 ⬝ᵥ v1 = d12 ⬝ᵥ d12 := by
    change _ = (scene x X).a12
    rw [← q12]
    simp only [hv1, sub_dotProduct, dotProduct_sub, smul_dotProduct, dotProduct_smul, smul_eq_mul, hx,
      dotProduct_comm (x 1) (x 0)]
    change _ = l 0 ^ 2 - 2 * l 0 * l 1 * (x 0 ⬝ᵥ x 1) + l 1 ^ 2
    ring
  have h2 : v2 ⬝ᵥ v2 = d13 ⬝ᵥ d13 := by
    change _ = (scene x X).a13
    rw [← q13]
    simp only [hv2, sub_dotProduct, dotProduct_sub, smul_dotProduct, dotProduct_smul, smul_eq_mul, hx,
      dotProduct_comm (x 2) (x 0)]
    change _ = l 0 ^ 2 - 2 * l 0 * l 2 * (x 0 ⬝ᵥ x 2) + l 2 ^ 2
    ring
  have h23 : (v2 - v1) ⬝ᵥ (v2 - v1) = (d13 - d12) ⬝ᵥ (d13 - d12) := by
    have e : d13 - d12 = X 1 - X 2 := by rw [hd12, hd13]; abel
    rw [e]
    change _ = (scene x X).a23
    rw [← q23]
    have e' : v2 - v1 = l 1 • x 1 - l 2 • x 2 := by rw [hv1, hv2]; abel
    rw [e']
    simp only [sub_dotProduct, dotProduct_sub, smul_dotProduct, dotProduct_smul, smul_eq_mul, hx,
      dotProduct_comm (x 2) (x 1)]
    change _ = l 1 ^ 2 - 2 * l 1 * l 2 * (x 1 ⬝ᵥ x 2) + l 2 ^ 2
    ring
  have h3 : v1 ⬝ᵥ v2 = d12 ⬝ᵥ d13 := by
    simp only [sub_dotProduct, dotProduct_sub, dotProduct_comm v2 v1, dotProduct_comm d13 d12] at h23
    linear_combination -1 / 2 * h23 + 1 / 2 * h1 + 1 / 2 * h2
  have hgram := gram_axes h1 h2 h3
  have hA : axes X = columns d12 d13 (crossProduct d12 d13) := rfl
  set A := axes X with hAd
  set B := columns v1 v2 (crossProduct v1 v2) with hB
  have hAi : A * A⁻¹ = 1 := Matrix.mul_nonsing_inv _ (isUnit_iff_ne_zero.2 hdet)
  have hAi' : A⁻¹ * A = 1 := Matrix.nonsing_inv_mul _ (isUnit_iff_ne_zero.2 hdet)
  rw [← hA] at hgram
  have hRA : (B * A⁻¹) * A = B := by rw [Matrix.mul_assoc, hAi', Matrix.mul_one]
  have hR1 : (B * A⁻¹) *ᵥ d12 = v1 := by
    have e : d12 = A *ᵥ ![1, 0, 0] := by rw [hA, columns_mulVec]; simp
    rw [e, mulVec_mulVec, hRA, hB, columns_mulVec]; simp
  have hR2 : (B * A⁻¹) *ᵥ d13 = v2 := by
    have e : d13 = A *ᵥ ![0, 1, 0] := by rw [hA, columns_mulVec]; simp
    rw [e, mulVec_mulVec, hRA, hB, columns_mulVec]; simp
  refine ⟨?_, ?_, fun i => ?_⟩
  · change (B * A⁻¹)ᵀ * (B * A⁻¹) = 1
    rw [transpose_mul, Matrix.mul_assoc, ← Matrix.mul_assoc Bᵀ, hgram, Matrix.mul_assoc Aᵀ, hAi, Matrix.mul_one,
      ← transpose_mul, hAi, transpose_one]
  · change (B * A⁻¹).det = 1
    have hdetB : B.det = A.det := by
      rw [hA, hB, det_axes, det_axes, cross_dot_cross, cross_dot_cross, h1, h2, h3, dotProduct_comm v2 v1, h3,
        dotProduct_comm d13 d12]
    rw [det_mul, hdetB, ← det_mul, hAi, det_one]
  · change l i • x i = (B * A⁻¹) *ᵥ X i + (l 0 • x 0 - (B * A⁻¹) *ᵥ X 0)
    fin_cases i
    · change l 0 • x 0 = (B * A⁻¹) *ᵥ X 0 + (l 0 • x 0 - (B * A⁻¹) *ᵥ X 0)
      abel
    · change l 1 • x 1 = (B * A⁻¹) *ᵥ X 1 + (l 0 • x 0 - (B * A⁻¹) *ᵥ X 0)
      rw [hd12, mulVec_sub, hv1] at hR1
      rw [show l 1 • x 1 = l 0 • x 0 - (l 0 • x 0 - l 1 • x 1) by abel, ← hR1]
      abel
    · change l 2 • x 2 = (B * A⁻¹) *ᵥ X 2 + (l 0 • x 0 - (B * A⁻¹) *ᵥ X 0)
      rw [hd13, mulVec_sub, hv2] at hR2
      rw [show l 2 • x 2 = l 0 • x 0 - (l 0 • x 0 - l 2 • x 2) by abel, ← hR2]
      abel

/-! ## Every pose is found -/

theorem firstRoot_some {a b c : ℝ} (hc : c ≠ 0) (hab : ¬ (a = 0 ∧ b = 0)) (h0 : 0 ≤ b * b - 4 * a * c) :
    ∃ t, firstRoot a b c = some t := by
  unfold firstRoot
  dsimp only
  rw [max_eq_right h0]
  have hs := Real.sq_sqrt h0
  have hn := Real.sqrt_nonneg (b * b - 4 * a * c)
  set r := Real.sqrt (b * b - 4 * a * c) with hr
  split
  · rename_i hb
    exact ⟨_, div?_eq_some.2 ⟨by linarith, rfl⟩⟩
  · rename_i hb
    refine ⟨_, div?_eq_some.2 ⟨fun e => ?_, rfl⟩⟩
    have hb0 : b = 0 := by linarith
    have hr0 : r = 0 := by linarith
    have hac : a * c = 0 := by rw [hr0, hb0] at hs; linarith
    rcases mul_eq_zero.1 hac with ha | ha
    · exact hab ⟨ha, hb0⟩
    · exact hc ha

theorem mem_secondTurn_of {disc a c tau tau' : ℝ} {cand : ℝ → Candidate} {p : Pose} (hne : a * tau ≠ 0)
    (e : c / (a * tau) = tau') (ht : 0 < tau') (hp : cand tau' = .pose (some p)) :
    (disc, p) ∈ secondTurn disc a c cand tau := by
  unfold secondTurn
  rw [div?_eq_some.2 ⟨hne, e.symm⟩]
  simp only [gt_iff_lt, ht, if_true, hp]
  exact List.mem_singleton.2 rfl

theorem disc_nonneg {a b c tau : ℝ} (hroot : a * tau ^ 2 + b * tau + c = 0) : 0 ≤ b * b - 4 * a * c := by
  have h0 : b * b - 4 * a * c = (2 * a * tau + b) ^ 2 := by linear_combination -4 * a * hroot
  rw [h0]; positivity

theorem mem_roots_of {a b c : ℝ} {cand : ℝ → Candidate} {tau : ℝ} {p : Pose} (ht : 0 < tau)
    (hroot : a * tau ^ 2 + b * tau + c = 0) (hc : c ≠ 0)
    (hd : b * b - 4 * a * c ≤ 0 ∨ 1 / 10 ^ 12 ≤ b * b - 4 * a * c) (hp : cand tau = .pose (some p)) :
    (b * b - 4 * a * c, p) ∈ roots a b c cand := by
  have h0 : b * b - 4 * a * c = (2 * a * tau + b) ^ 2 := by linear_combination -4 * a * hroot
  have h0' : 0 ≤ b * b - 4 * a * c := by rw [h0]; positivity
  have hab : ¬ (a = 0 ∧ b = 0) := by
    rintro ⟨rfl, rfl⟩
    apply hc
    linarith
  obtain ⟨t1, hf⟩ := firstRoot_some hc hab h0'
  obtain ⟨hr1, -⟩ := firstRoot_spec hf h0'
  have ht1 : t1 ≠ 0 := by
    rintro rfl
    apply hc
    linarith
  unfold roots
  dsimp only
  rw [if_neg (by rw [not_lt]; exact le_trans (by unfold tolerance; norm_num) h0'), hf]
  dsimp only
  by_cases he : tau = t1
  · subst he
    rw [if_pos ht, hp]
    exact List.mem_append_left _ (List.mem_singleton.2 rfl)
  · -- the other root
    have hb : a * (tau + t1) + b = 0 := by
      have : (tau - t1) * (a * (tau + t1) + b) = 0 := by linear_combination hroot - hr1
      rcases mul_eq_zero.1 this with e | e
      · exact absurd (sub_eq_zero.1 e) he
      · exact e
    have hcv : c = a * tau * t1 := by linear_combination hroot - tau * hb
    have ha : a ≠ 0 := by
      rintro rfl
      apply hc
      rw [hcv]; ring
    have hne : a * t1 ≠ 0 := mul_ne_zero ha ht1
    have e : c / (a * t1) = tau := by
      rw [div_eq_iff hne, hcv]; ring
    have hsecond : (b * b - 4 * a * c, p) ∈ secondTurn (b * b - 4 * a * c) a c cand t1 :=
      mem_secondTurn_of hne e ht hp
    have hbig : ¬ b * b - 4 * a * c < tolerance := by
      rw [not_lt]
      rcases hd with hd | hd
      · exfalso
        have hz : (2 * a * tau + b) ^ 2 = 0 := le_antisymm (h0 ▸ hd) (sq_nonneg _)
        have hz' := pow_eq_zero_iff (two_ne_zero) |>.1 hz
        have : a * (tau - t1) = 0 := by linear_combination hz' - hb
        rcases mul_eq_zero.1 this with e | e
        · exact ha e
        · exact he (sub_eq_zero.1 e)
      · exact hd
    split
    · cases cand t1 with
      | behind => exact hsecond
      | pose q => exact List.mem_append_right _ hsecond
    · exact hsecond

theorem candidate12_of {x X : Fin 3 → V3} {w0 w1 : ℝ} {l : V3} (h0 : 0 < l 0) (h1 : 0 ≤ l 1)
    (h13 : (scene x X).a13 ≠ 0)
    (e1 : l 1 = w0 * l 0 + w1 * l 2)
    (q13 : l 0 ^ 2 - 2 * l 0 * l 2 * (scene x X).b13 + l 2 ^ 2 = (scene x X).a13) :
    candidate12 x X w0 w1 (l 2 / l 0) = .pose (finish x X l) := by
  have hden : (l 2 / l 0 * (l 2 / l 0 - 2 * (scene x X).b13) + 1) * l 0 ^ 2 = (scene x X).a13 := by
    rw [← q13]
    field_simp
    ring
  have hne : l 2 / l 0 * (l 2 / l 0 - 2 * (scene x X).b13) + 1 ≠ 0 := by
    intro e
    rw [e, zero_mul] at hden
    exact h13 hden.symm
  have hq : (scene x X).a13 / (l 2 / l 0 * (l 2 / l 0 - 2 * (scene x X).b13) + 1) = l 0 ^ 2 := by
    rw [div_eq_iff hne, ← hden, mul_comm]
  have hs : (div? (scene x X).a13 (l 2 / l 0 * (l 2 / l 0 - 2 * (scene x X).b13) + 1)).bind sqrt? = some (l 0) := by
    rw [div?_eq_some.2 ⟨hne, rfl⟩, Option.bind_some, hq]
    exact sqrt?_eq_some.2 ⟨by positivity, (Real.sqrt_sq h0.le).symm⟩
  unfold candidate12
  dsimp only
  rw [hs]
  dsimp only
  have e3 : l 2 / l 0 * l 0 = l 2 := div_mul_cancel₀ _ h0.ne'
  rw [e3, ← e1, if_neg (not_lt.2 h1)]
  congr 2
  funext i
  fin_cases i <;> rfl

theorem candidate21_of {x X : Fin 3 → V3} {w0 w1 : ℝ} {l : V3} (h0 : 0 ≤ l 0) (h1 : 0 < l 1)
    (h23 : (scene x X).a23 ≠ 0)
    (e0 : l 0 = w0 * l 1 + w1 * l 2)
    (q23 : l 1 ^ 2 - 2 * l 1 * l 2 * (scene x X).b23 + l 2 ^ 2 = (scene x X).a23) :
    candidate21 x X w0 w1 (l 2 / l 1) = .pose (finish x X l) := by
  have hden : (l 2 / l 1 * (l 2 / l 1 - 2 * (scene x X).b23) + 1) * l 1 ^ 2 = (scene x X).a23 := by
    rw [← q23]
    field_simp
    ring
  have hne : l 2 / l 1 * (l 2 / l 1 - 2 * (scene x X).b23) + 1 ≠ 0 := by
    intro e
    rw [e, zero_mul] at hden
    exact h23 hden.symm
  have hq : (scene x X).a23 / (l 2 / l 1 * (l 2 / l 1 - 2 * (scene x X).b23) + 1) = l 1 ^ 2 := by
    rw [div_eq_iff hne, ← hden, mul_comm]
  have hs : (div? (scene x X).a23 (l 2 / l 1 * (l 2 / l 1 - 2 * (scene x X).b23) + 1)).bind sqrt? = some (l 1) := by
    rw [div?_eq_some.2 ⟨hne, rfl⟩, Option.bind_some, hq]
    exact sqrt?_eq_some.2 ⟨by positivity, (Real.sqrt_sq h1.le).symm⟩
  unfold candidate21
  dsimp only
  rw [hs]
  dsimp only
  have e3 : l 2 / l 1 * l 1 = l 2 := div_mul_cancel₀ _ h1.ne'
  rw [e3, ← e0, if_neg (not_lt.2 h0)]
  congr 2
  funext i
  fin_cases i <;> rfl

/-- Lengths that satisfy the equations, in the plane of a branch, are found by this branch. -/
theorem mem_branch_of {x X : Fin 3 → V3} {u l : V3} {p : Pose} (hu : u ⬝ᵥ l = 0) (hl : ∀ i, 0 < l i)
    (h13 : (scene x X).a13 ≠ 0) (h23 : (scene x X).a23 ≠ 0) (hr : residuals (scene x X) l = 0)
    (hreg : Spec.RegularPlane (scene x X) u) (hf : finish x X l = some p) :
    ∃ disc, 0 ≤ disc ∧ (disc, p) ∈ branch x X u := by
  obtain ⟨q12, q13, q23⟩ := (residuals_zero_iff _ _).1 hr
  have hu' : u 0 * l 0 + u 1 * l 1 + u 2 * l 2 = 0 := by
    rw [dotProduct, Fin.sum_univ_three] at hu; exact hu
  obtain ⟨hplane, hlast, hdisc⟩ := hreg
  unfold Spec.equation at hlast hdisc
  unfold branch
  dsimp only
  have hl0 := hl 0
  have hl1 := hl 1
  have hl2 := hl 2
  by_cases hlt : |u 0| < |u 1|
  · have hu1 : u 1 ≠ 0 := fun e => by
      rw [e, abs_zero] at hlt
      exact absurd hlt (not_lt.2 (abs_nonneg _))
    rw [if_pos hlt] at hlast hdisc ⊢
    have e1 : l 1 = -u 0 / u 1 * l 0 + -u 2 / u 1 * l 2 := by
      field_simp
      linarith
    suffices hroot : (-(scene x X).a13 * (-u 2 / u 1) * (-u 2 / u 1) +
        2 * ((scene x X).a13 * (scene x X).b23) * (-u 2 / u 1) - (scene x X).a13 + (scene x X).a23) * (l 2 / l 0) ^ 2 +
        (2 * ((scene x X).a13 * (scene x X).b23) * (-u 0 / u 1) - 2 * ((scene x X).a23 * (scene x X).b13) -
          2 * (scene x X).a13 * (-u 0 / u 1) * (-u 2 / u 1)) * (l 2 / l 0) +
        (-(scene x X).a13 * (-u 0 / u 1) * (-u 0 / u 1) + (scene x X).a23) = 0 from
      ⟨_, disc_nonneg hroot, mem_roots_of (div_pos hl2 hl0) hroot hlast hdisc
        ((candidate12_of hl0 hl1.le h13 e1 q13).trans (by rw [hf]))⟩
    set w0 := -u 0 / u 1
    set w1 := -u 2 / u 1
    set g := scene x X
    have hq' : g.a23 * (l 0 ^ 2 - 2 * l 0 * l 2 * g.b13 + l 2 ^ 2) -
        g.a13 * (l 1 ^ 2 - 2 * l 1 * l 2 * g.b23 + l 2 ^ 2) = 0 := by
      rw [q13, q23]; ring
    rw [e1] at hq'
    field_simp
    linear_combination hq'
  · have hu0 : u 0 ≠ 0 := by
      intro e
      rw [e, abs_zero] at hlt
      rcases hplane with h | h
      · exact h e
      · exact hlt (abs_pos.2 h)
    rw [if_neg hlt] at hlast hdisc
    rw [if_neg hlt, if_neg hu0]
    have e0 : l 0 = -u 1 / u 0 * l 1 + -u 2 / u 0 * l 2 := by
      field_simp
      linarith
    suffices hroot : (((scene x X).a13 - (scene x X).a12) * (-u 2 / u 0) * (-u 2 / u 0) +
        2 * (scene x X).a12 * (scene x X).b13 * (-u 2 / u 0) - (scene x X).a12) * (l 2 / l 1) ^ 2 +
        (-2 * (scene x X).a13 * (scene x X).b12 * (-u 2 / u 0) + 2 * (scene x X).a12 * (scene x X).b13 * (-u 1 / u 0) -
          2 * (-u 1 / u 0) * (-u 2 / u 0) * ((scene x X).a12 - (scene x X).a13)) * (l 2 / l 1) +
        (((scene x X).a13 - (scene x X).a12) * (-u 1 / u 0) * (-u 1 / u 0) -
          2 * (scene x X).a13 * (scene x X).b12 * (-u 1 / u 0) + (scene x X).a13) = 0 from
      ⟨_, disc_nonneg hroot, mem_roots_of (div_pos hl2 hl1) hroot hlast hdisc
        ((candidate21_of hl0.le hl1 h23 e0 q23).trans (by rw [hf]))⟩
    set w0 := -u 1 / u 0
    set w1 := -u 2 / u 0
    set g := scene x X
    have hq' : g.a13 * (l 0 ^ 2 - 2 * l 0 * l 1 * g.b12 + l 1 ^ 2) -
        g.a12 * (l 0 ^ 2 - 2 * l 0 * l 2 * g.b13 + l 2 ^ 2) = 0 := by
      rw [q12, q13]; ring
    rw [e0] at hq'
    field_simp
    linear_combination hq'

/-- The eigenvectors of the degenerate conic give two planes that contain its points. -/
theorem planes {M : M3} (hM : Mᵀ = M) (hd : M.det = 0) {e1 e2 : V3} {s1 s2 s : ℝ}
    (h : eig3x3known0 M = some (e1, e2, s1, s2)) (hs : (div? (-s2) s1).bind sqrt? = some s) (l : V3) :
    s1 ≠ 0 ∧ l ⬝ᵥ (M *ᵥ l) = s1 * ((e1 - s • e2) ⬝ᵥ l) * ((e1 + s • e2) ⬝ᵥ l) := by
  obtain ⟨⟨h1, n1⟩, ⟨h2, n2⟩, htr⟩ := eig_spec hM hd h
  simp only [Option.bind_eq_some_iff, div?_eq_some, sqrt?_eq_some] at hs
  obtain ⟨q, ⟨hne, rfl⟩, hq, rfl⟩ := hs
  refine ⟨hne, ?_⟩
  have hss := Real.sq_sqrt hq
  have hs12 : s1 ≠ s2 := by
    rintro rfl
    rw [neg_div, div_self hne] at hq
    linarith
  rw [two_squares hM h1 n1 h2 n2 hs12 htr, sub_dotProduct, add_dotProduct, smul_dotProduct, smul_eq_mul]
  set r := Real.sqrt (-s2 / s1)
  rw [eq_div_iff hne] at hss
  linear_combination (e2 ⬝ᵥ l) ^ 2 * hss

theorem rotation_cross {R : M3} (h : Rᵀ * R = 1) (hdet : R.det = 1) (a b : V3) :
    R *ᵥ crossProduct a b = crossProduct (R *ᵥ a) (R *ᵥ b) := by
  have hadj : R.adjugate = Rᵀ := by
    have h1 : R * R.adjugate = 1 := by rw [mul_adjugate, hdet, one_smul]
    calc R.adjugate = (Rᵀ * R) * R.adjugate := by rw [h, Matrix.one_mul]
      _ = Rᵀ := by rw [Matrix.mul_assoc, h1, Matrix.mul_one]
  have key : crossProduct (R *ᵥ a) (R *ᵥ b) = R.adjugateᵀ *ᵥ crossProduct a b := by
    funext i
    fin_cases i <;>
      simp [adjugate_fin_three, crossProduct, mulVec, dotProduct, Fin.sum_univ_three] <;> ring
  rw [key, hadj, transpose_transpose]

theorem residuals_of_solves {x X : Fin 3 → V3} (hx : ∀ i, x i ⬝ᵥ x i = 1) {p : Pose} {l : V3}
    (h : Spec.Solves x X p l) : residuals (scene x X) l = 0 := by
  have hd : ∀ i j, l i • x i - l j • x j = p.R *ᵥ (X i - X j) := fun i j => by
    rw [h.seen i, h.seen j, mulVec_sub]; abel
  have hn : ∀ v : V3, (p.R *ᵥ v) ⬝ᵥ (p.R *ᵥ v) = v ⬝ᵥ v := fun v => by
    rw [dotProduct_mulVec, vecMul_mulVec, ← dotProduct_mulVec, h.orthogonal, one_mulVec]
  have key : ∀ i j, l i ^ 2 - 2 * l i * l j * (x i ⬝ᵥ x j) + l j ^ 2 = (X i - X j) ⬝ᵥ (X i - X j) := fun i j => by
    rw [← hn, ← hd]
    simp only [sub_dotProduct, dotProduct_sub, smul_dotProduct, dotProduct_smul, smul_eq_mul, hx,
      dotProduct_comm (x j) (x i)]
    ring
  exact (residuals_zero_iff _ _).2 ⟨key 0 1, key 0 2, key 1 2⟩

/-- A pose that solves the problem is the one built from its lengths. -/
theorem finish_of_solves {x X : Fin 3 → V3} (hx : ∀ i, x i ⬝ᵥ x i = 1)
    (hX : crossProduct (X 0 - X 1) (X 0 - X 2) ≠ 0) {p : Pose} {l : V3} (h : Spec.Solves x X p l) :
    finish x X l = some p := by
  have hr := residuals_of_solves hx h
  have hdet : (axes X).det ≠ 0 := by
    unfold axes
    rw [det_axes]
    exact fun e => hX (dotProduct_self_eq_zero.1 e)
  have hd : ∀ i j, l i • x i - l j • x j = p.R *ᵥ (X i - X j) := fun i j => by
    rw [h.seen i, h.seen j, mulVec_sub]; abel
  unfold finish
  rw [refine_of_zero hr]
  simp only [Option.bind_some]
  rw [if_neg hdet, hd, hd]
  have hR : columns (p.R *ᵥ (X 0 - X 1)) (p.R *ᵥ (X 0 - X 2))
      (crossProduct (p.R *ᵥ (X 0 - X 1)) (p.R *ᵥ (X 0 - X 2))) * (axes X)⁻¹ = p.R := by
    have e : columns (p.R *ᵥ (X 0 - X 1)) (p.R *ᵥ (X 0 - X 2))
        (crossProduct (p.R *ᵥ (X 0 - X 1)) (p.R *ᵥ (X 0 - X 2))) = p.R * axes X := by
      rw [← rotation_cross h.orthogonal h.direct]
      ext i j
      fin_cases j <;> rfl
    rw [e, Matrix.mul_assoc, Matrix.mul_nonsing_inv _ (isUnit_iff_ne_zero.2 hdet), Matrix.mul_one]
  rw [hR, h.seen 0]
  congr 1
  ext i <;> simp

end RgbdSlam.P3p
