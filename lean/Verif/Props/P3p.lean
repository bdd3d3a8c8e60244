import Verif.Lemmas.P3p
/-
The solver of the pose from three points: the poses it returns solve the problem, and the poses it misses.
-/
namespace RgbdSlam.P3p

open Geometry Matrix Spec

theorem branch_length (x X : Fin 3 → V3) (u : V3) : (branch x X u).length ≤ 2 := by
  have hpush : ∀ d p, (push d p).length ≤ 1 := fun d p => by cases p <;> simp [push]
  have hsecond : ∀ d a c cand tau, (secondTurn d a c cand tau).length ≤ 1 := fun d a c cand tau => by
    unfold secondTurn
    split
    · simp
    · split
      · split
        · simp
        · exact hpush _ _
      · simp
  have hroots : ∀ a b c cand, (roots a b c cand).length ≤ 2 := fun a b c cand => by
    unfold roots
    dsimp only
    split
    · simp
    split
    · simp
    rename_i tau _
    have h2 := hsecond (b * b - 4 * a * c) a c cand tau
    split
    · split
      · omega
      · rename_i p _
        have h1 := hpush (b * b - 4 * a * c) p
        rw [List.length_append]
        split
        · simp; omega
        · omega
    · split
      · simp
      · omega
  unfold branch
  dsimp only
  split
  · exact hroots _ _ _ _
  · split
    · simp
    · exact hroots _ _ _ _

/-- C135: at most four poses are returned. -/
theorem C135_at_most_four (x X : Fin 3 → V3) : (p3p x X).length ≤ 4 := by
  rw [p3p, List.length_map]
  unfold traced
  dsimp only
  split
  · simp
  · split
    · simp
    · rename_i s _
      rw [List.length_append]
      exact Nat.add_le_add (branch_length _ _ _) (branch_length _ _ _)

theorem distance_pos {v w : V3} (h : v ≠ w) : 0 < (v - w) ⬝ᵥ (v - w) := by
  have h0 : 0 ≤ (v - w) ⬝ᵥ (v - w) := by
    rw [dotProduct, Fin.sum_univ_three]
    nlinarith [mul_self_nonneg ((v - w) 0), mul_self_nonneg ((v - w) 1), mul_self_nonneg ((v - w) 2)]
  exact lt_of_le_of_ne h0 fun e => h (sub_eq_zero.1 (dotProduct_self_eq_zero.1 e.symm))

/-- C135: a step of the refinement of the lengths is a Newton step: what is left of each distance is of the second order
in the change `d` of the lengths. -/
theorem C135_refine_step {g : Scene} {l l' : V3} (h : refine g 1 l = some l')
    (hr : 1 / 10 ^ 10 ≤ |residuals g l 0| + |residuals g l 1| + |residuals g l 2|) :
    let d := l' - l
    residuals g l' 0 = d 0 ^ 2 - 2 * d 0 * d 1 * g.b12 + d 1 ^ 2 ∧
    residuals g l' 1 = d 0 ^ 2 - 2 * d 0 * d 2 * g.b13 + d 2 ^ 2 ∧
    residuals g l' 2 = d 1 ^ 2 - 2 * d 1 * d 2 * g.b23 + d 2 ^ 2 := by
  unfold refine at h
  dsimp only at h
  rw [if_neg (not_lt.2 hr)] at h
  unfold div? at h
  split_ifs at h with h0
  · cases h
  rw [Option.bind_some, refine, Option.some.injEq] at h
  subst h
  generalize hR : residuals g l = r
  have r0 : r 0 = l 0 * l 0 - 2 * l 0 * l 1 * g.b12 + l 1 * l 1 - g.a12 := by rw [← hR]; rfl
  have r1 : r 1 = l 0 * l 0 - 2 * l 0 * l 2 * g.b13 + l 2 * l 2 - g.a13 := by rw [← hR]; rfl
  have r2 : r 2 = l 1 * l 1 - 2 * l 1 * l 2 * g.b23 + l 2 * l 2 - g.a23 := by rw [← hR]; rfl
  simp only [residuals, Pi.sub_apply, Matrix.cons_val]
  generalize hD : (l 0 - l 1 * g.b12) * (l 2 - l 0 * g.b13) * (l 1 - l 2 * g.b23) +
    (l 1 - l 0 * g.b12) * (l 0 - l 2 * g.b13) * (l 2 - l 1 * g.b23) = D at h0 ⊢
  have hD' : D * (1 / 2 / D) = 1 / 2 := by field_simp
  generalize 1 / 2 / D = q at hD' ⊢
  rw [← hD] at hD'
  refine ⟨?_, ?_, ?_⟩
  · linear_combination (-2 * r 0) * hD' - r0
  · linear_combination (-2 * r 1) * hD' - r1
  · linear_combination (-2 * r 2) * hD' - r2

/-- The hypotheses of `C135_refine_step` hold for orthogonal rays. -/
example : ∃ l', refine ⟨2, 2, 2, 0, 0, 0⟩ 1 ![2, 2, 2] = some l' ∧
    1 / 10 ^ 10 ≤ |residuals ⟨2, 2, 2, 0, 0, 0⟩ ![2, 2, 2] 0| + |residuals ⟨2, 2, 2, 0, 0, 0⟩ ![2, 2, 2] 1| +
      |residuals ⟨2, 2, 2, 0, 0, 0⟩ ![2, 2, 2] 2| := by
  have e : residuals ⟨2, 2, 2, 0, 0, 0⟩ ![2, 2, 2] = ![6, 6, 6] := by
    simp only [residuals, Matrix.cons_val]
    norm_num
  have hr : (1 / 10 ^ 10 : ℝ) ≤ |residuals ⟨2, 2, 2, 0, 0, 0⟩ ![2, 2, 2] 0| +
      |residuals ⟨2, 2, 2, 0, 0, 0⟩ ![2, 2, 2] 1| + |residuals ⟨2, 2, 2, 0, 0, 0⟩ ![2, 2, 2] 2| := by
    rw [e]
    simp only [Matrix.cons_val]
    norm_num
  refine ⟨![5 / 4, 5 / 4, 5 / 4], ?_, hr⟩
  unfold refine
  dsimp only
  rw [if_neg (not_lt.2 hr), e]
  have hd : ∀ y : ℝ, y = 16 → div? (1 / 2) y = some (1 / 32) := by
    rintro y rfl
    unfold div?
    rw [if_neg (by norm_num)]
    norm_num
  rw [hd _ (by simp only [Matrix.cons_val]; norm_num), Option.bind_some, refine]
  simp only [Matrix.cons_val]
  norm_num

/-- C135, partial: a pose that was not found from a clipped discriminant moves each point onto its ray, in
front of the camera or at its centre, without deforming the scene. -/
theorem C135_sound_partial {x X : Fin 3 → V3} (hx : ∀ i, x i ⬝ᵥ x i = 1) (h01 : X 0 ≠ X 1) (h02 : X 0 ≠ X 2)
    (h12 : X 1 ≠ X 2) {disc : ℝ} {p : Pose} (h : (disc, p) ∈ traced x X) (hd : 0 ≤ disc) :
    ∃ l : V3, (∀ i, 0 ≤ l i) ∧ Solves x X p l := by
  have a12 : 0 < (scene x X).a12 := distance_pos h01
  have a13 : 0 < (scene x X).a13 := distance_pos h02
  have a23 : 0 < (scene x X).a23 := distance_pos h12
  unfold traced at h
  dsimp only at h
  cases hg : gamma (scene x X).D1 (scene x X).D2 with
  | none => rw [hg] at h; cases h
  | some y =>
    rw [hg, Option.bind_some] at h
    have hdet := gamma_spec hg
    have hsymm : ((scene x X).D1 + y • (scene x X).D2)ᵀ = (scene x X).D1 + y • (scene x X).D2 := by
      rw [transpose_add, transpose_smul, D1_symm, D2_symm]
    cases he : eig3x3known0 ((scene x X).D1 + y • (scene x X).D2) with
    | none => rw [he] at h; cases h
    | some e =>
      obtain ⟨e1, e2, s1, s2⟩ := e
      rw [he] at h
      dsimp only at h
      cases hs : (div? (-s2) s1).bind sqrt? with
      | none => rw [hs] at h; cases h
      | some s =>
        rw [hs] at h
        dsimp only at h
        have hpl := planes hsymm hdet he hs
        have finishes : (∃ l : V3, 0 ≤ l 0 ∧ 0 ≤ l 1 ∧ 0 < l 2 ∧ residuals (scene x X) l = 0 ∧
            finish x X l = some p) → ∃ l : V3, (∀ i, 0 ≤ l i) ∧ Solves x X p l := by
          rintro ⟨l, l0, l1, l2, hr, hf⟩
          refine ⟨l, fun i => ?_, finish_spec hx hr hf⟩
          fin_cases i
          · exact l0
          · exact l1
          · exact l2.le
        rcases List.mem_append.1 h with h | h
        · exact finishes (mem_branch h hd a12 a13 a23 fun l hl => by rw [(hpl l).2, hl, mul_zero, zero_mul])
        · rw [neg_smul, sub_neg_eq_add] at h
          exact finishes (mem_branch h hd a12 a13 a23 fun l hl => by rw [(hpl l).2, hl, mul_zero])

/-- A pose that solves the problem is found, and not from a clipped discriminant. -/
theorem found {x X : Fin 3 → V3} (hx : ∀ i, x i ⬝ᵥ x i = 1)
    (hX : crossProduct (X 0 - X 1) (X 0 - X 2) ≠ 0) (hreg : Regular (scene x X)) {p : Pose} {l : V3}
    (hl : ∀ i, 0 < l i) (h : Solves x X p l) : ∃ disc, 0 ≤ disc ∧ (disc, p) ∈ traced x X := by
  have h02 : X 0 ≠ X 2 := by
    intro e
    rw [e, sub_self, map_zero] at hX
    exact hX rfl
  have h12 : X 1 ≠ X 2 := by
    intro e
    rw [e, cross_self] at hX
    exact hX rfl
  have a13 : 0 < (scene x X).a13 := distance_pos h02
  have a23 : 0 < (scene x X).a23 := distance_pos h12
  obtain ⟨y, e1, e2, s1, s2, s, hg, he, hs, hr1, hr2⟩ := hreg
  have hsymm : ((scene x X).D1 + y • (scene x X).D2)ᵀ = (scene x X).D1 + y • (scene x X).D2 := by
    rw [transpose_add, transpose_smul, D1_symm, D2_symm]
  have hr := residuals_of_solves hx h
  obtain ⟨q12, q13, q23⟩ := (residuals_zero_iff _ _).1 hr
  obtain ⟨hs1, hform⟩ := planes hsymm (gamma_spec hg) he hs l
  rw [D0_form, q12, q13, q23] at hform
  have hprod : ((e1 - s • e2) ⬝ᵥ l) * ((e1 + s • e2) ⬝ᵥ l) = 0 := by
    have : s1 * (((e1 - s • e2) ⬝ᵥ l) * ((e1 + s • e2) ⬝ᵥ l)) = 0 := by linear_combination -hform
    exact (mul_eq_zero.1 this).resolve_left hs1
  have hf := finish_of_solves hx hX h
  unfold traced
  dsimp only
  rw [hg, Option.bind_some, he]
  dsimp only
  rw [hs]
  dsimp only
  rcases mul_eq_zero.1 hprod with hu | hu
  · obtain ⟨d, h0, hd⟩ := mem_branch_of hu hl a13.ne' a23.ne' hr hr1 hf
    exact ⟨d, h0, List.mem_append_left _ hd⟩
  · obtain ⟨d, h0, hd⟩ := mem_branch_of hu hl a13.ne' a23.ne' hr hr2 hf
    refine ⟨d, h0, List.mem_append_right _ ?_⟩
    rwa [neg_smul, sub_neg_eq_add]

/-- C136, partial: when no number computed on the way is undefined and no two roots are too close, every pose that
moves the three points in front of the camera onto their rays is returned. -/
theorem C136_complete_partial {x X : Fin 3 → V3} (hx : ∀ i, x i ⬝ᵥ x i = 1)
    (hX : crossProduct (X 0 - X 1) (X 0 - X 2) ≠ 0) (hreg : Regular (scene x X)) {p : Pose} {l : V3}
    (hl : ∀ i, 0 < l i) (h : Solves x X p l) : p ∈ p3p x X := by
  obtain ⟨d, -, hd⟩ := found hx hX hreg hl h
  exact List.mem_map.2 ⟨_, hd, rfl⟩

/-- C136: when the first two points are seen and placed alike with respect to the third, no pose is found. -/
theorem C136_symmetric_missed {x X : Fin 3 → V3} (h1 : (scene x X).a13 = (scene x X).a23)
    (h2 : (scene x X).b13 = (scene x X).b23) : p3p x X = [] := by
  have hc : (coefficients (scene x X).D1 (scene x X).D2).1 = 0 := by
    simp [coefficients, adj, columns, Scene.D2, crossProduct, dotProduct, Fin.sum_univ_three, h1, h2]
    ring
  have hg : gamma (scene x X).D1 (scene x X).D2 = none := by
    unfold gamma
    rw [show coefficients (scene x X).D1 (scene x X).D2 = (0, (coefficients (scene x X).D1 (scene x X).D2).2) from
      Prod.ext hc rfl]
    simp [div?]
  simp [p3p, traced, hg]

theorem dot3 (a b c d e f : ℝ) : (![a, b, c] : V3) ⬝ᵥ ![d, e, f] = a * d + b * e + c * f := by
  simp [dotProduct, Fin.sum_univ_three]

/-- C136: three points in front of the camera, not aligned, seen where they are: no pose is returned. -/
theorem C136_complete_false : ∃ (x X : Fin 3 → V3) (p : Pose) (l : V3), (∀ i, x i ⬝ᵥ x i = 1) ∧
    crossProduct (X 0 - X 1) (X 0 - X 2) ≠ 0 ∧ (∀ i, 0 < l i) ∧ Solves x X p l ∧ p3p x X = [] := by
  refine ⟨![![2 / 3, 2 / 3, 1 / 3], ![-2 / 3, 2 / 3, 1 / 3], ![0, 0, 1]], ![![2, 2, 1], ![-2, 2, 1], ![0, 0, 1]],
    ⟨1, 0⟩, ![3, 3, 1], fun i => ?_, fun e => ?_, fun i => ?_, ⟨by simp, by simp, fun i => ?_⟩, C136_symmetric_missed ?_ ?_⟩
  · fin_cases i <;> simp [dotProduct, Fin.sum_univ_three] <;> norm_num
  · have := congrFun e 2
    simp [crossProduct] at this
  · fin_cases i <;> simp
  · fin_cases i <;> (funext j; fin_cases j <;> simp) <;> norm_num
  · simp [scene, dotProduct, Fin.sum_univ_three]
  · simp [scene, dotProduct, Fin.sum_univ_three]

/-! ## A case computed to the end -/

/-- Three rays; the points are on them at the same distance. -/
noncomputable def rays : Fin 3 → V3 := ![![2 / 7, 3 / 7, 6 / 7], ![0, 0, 1], ![-3 / 7, -2 / 7, 6 / 7]]

noncomputable def points (k : ℝ) : Fin 3 → V3 := fun i => k • rays i

theorem rays_unit (i : Fin 3) : rays i ⬝ᵥ rays i = 1 := by
  fin_cases i <;> simp [rays, dotProduct, Fin.sum_univ_three] <;> norm_num

theorem rays_scene (k : ℝ) : scene rays (points k) =
    { a12 := 2 / 7 * k ^ 2, a13 := 50 / 49 * k ^ 2, a23 := 2 / 7 * k ^ 2, b12 := 6 / 7, b13 := 24 / 49, b23 := 6 / 7 } := by
  simp only [scene, points, rays, dotProduct, Fin.sum_univ_three]
  simp
  refine ⟨?_, ?_, ?_, ?_⟩ <;> ring

theorem rays_coefficients (k : ℝ) : coefficients (scene rays (points k)).D1 (scene rays (points k)).D2 =
    (90000 / 5764801 * k ^ 6, 95000 / 5764801 * k ^ 6, 3800 / 823543 * k ^ 6, 0) := by
  rw [rays_scene]
  simp [coefficients, adj, columns, Scene.D1, Scene.D2, crossProduct, dotProduct, Fin.sum_univ_three]
  refine ⟨?_, ?_, ?_, ?_⟩ <;> ring_nf

theorem rays_gamma {k : ℝ} (hk : k ≠ 0) : gamma (scene rays (points k)).D1 (scene rays (points k)).D2 = some 0 := by
  unfold gamma
  rw [rays_coefficients]
  dsimp only
  have h3 : 90000 / 5764801 * k ^ 6 ≠ 0 := by positivity
  rw [div?_eq_some.2 ⟨h3, rfl⟩, Option.bind_some]
  have e2 : 95000 / 5764801 * k ^ 6 * (1 / (90000 / 5764801 * k ^ 6)) = 19 / 18 := by field_simp; norm_num
  have e1 : 3800 / 823543 * k ^ 6 * (1 / (90000 / 5764801 * k ^ 6)) = 133 / 450 := by field_simp; norm_num
  rw [e2, e1, zero_mul]
  have hroot : cubicRoot (19 / 18) (133 / 450) 0 = some 0 := by
    have hsome : ∃ y, cubicRoot (19 / 18) (133 / 450) 0 = some y := by
      unfold cubicRoot
      dsimp only
      rw [if_pos (by norm_num)]
      exact ⟨_, rfl⟩
    obtain ⟨y, hy⟩ := hsome
    have h := cubicRoot_spec hy
    have : y * ((y + 19 / 36) ^ 2 + (133 / 450 - 361 / 1296)) = 0 := by linear_combination h
    rcases mul_eq_zero.1 this with e | e
    · rw [hy, e]
    · exfalso
      have := sq_nonneg (y + 19 / 36)
      linarith
  rw [hroot, Option.bind_some]
  simp [newton, div?]

theorem eigenvector_of {M : M3} {s c a1 a2 n : ℝ}
    (hc : s * s + M 0 0 * M 1 1 - s * (M 0 0 + M 1 1) - M 0 1 * M 0 1 = c) (hne : c ≠ 0)
    (h1 : s * M 0 2 + M 0 1 * M 1 2 - M 0 2 * M 1 1 = a1 * c)
    (h2 : s * M 1 2 + M 0 1 * M 0 2 - M 0 0 * M 1 2 = a2 * c) (hn : 0 < n) (hn2 : n ^ 2 * (1 + a1 * a1 + a2 * a2) = 1) :
    eigenvector M s = some ![a1 * n, a2 * n, n] := by
  unfold eigenvector
  dsimp only
  rw [hc, h1, h2, div?_eq_some.2 ⟨hne, (mul_div_cancel_right₀ a1 hne).symm⟩, Option.bind_some,
    div?_eq_some.2 ⟨hne, (mul_div_cancel_right₀ a2 hne).symm⟩, Option.bind_some]
  have e : Real.sqrt (1 + a1 * a1 + a2 * a2) = 1 / n := by
    rw [show 1 + a1 * a1 + a2 * a2 = (1 / n) ^ 2 by field_simp; linarith]
    exact Real.sqrt_sq (by positivity)
  rw [e, div?_eq_some.2 ⟨by positivity, (one_div_one_div n).symm⟩]
  rfl

theorem eig_of {M : M3} {d : ℝ} {e1 e2 : V3} (htr : -M 0 0 - M 1 1 - M 2 2 = 0)
    (h0 : -M 0 1 * M 0 1 - M 0 2 * M 0 2 - M 1 2 * M 1 2 + M 0 0 * (M 1 1 + M 2 2) + M 1 1 * M 2 2 = -d ^ 2)
    (hd : 0 < d) (h1 : eigenvector M d = some e1) (h2 : eigenvector M (-d) = some e2) :
    eig3x3known0 M = some (e1, e2, d, -d) := by
  have hs : sqrt? (0 * 0 / 4 - -d ^ 2) = some d := by
    rw [show (0 : ℝ) * 0 / 4 - -d ^ 2 = d ^ 2 by ring]
    exact sqrt?_eq_some.2 ⟨by positivity, (Real.sqrt_sq hd.le).symm⟩
  unfold eig3x3known0
  simp only [htr, h0, hs, Option.bind_some, neg_zero, zero_div, zero_add, zero_sub, abs_neg, lt_irrefl, if_false, h1, h2,
    Option.map_some]

theorem rays_eig {k : ℝ} (hk : k ≠ 0) : eig3x3known0 ((scene rays (points k)).D1 + (0 : ℝ) • (scene rays (points k)).D2) =
    some (![-9 / 11, 6 / 11, 2 / 11], ![-2 / 11, -6 / 11, 9 / 11], 22 / 49 * k ^ 2, -(22 / 49 * k ^ 2)) := by
  rw [zero_smul, add_zero, rays_scene]
  have hk2 : 0 < k ^ 2 := by positivity
  have hk4 : k ^ 4 ≠ 0 := by positivity
  have h1 : (![-9 / 11, 6 / 11, 2 / 11] : V3) = ![-9 / 2 * (2 / 11), 3 * (2 / 11), 2 / 11] := by norm_num
  have h2 : (![-2 / 11, -6 / 11, 9 / 11] : V3) = ![-2 / 9 * (9 / 11), -2 / 3 * (9 / 11), 9 / 11] := by norm_num
  rw [h1, h2]
  refine eig_of ?_ ?_ (by positivity) (eigenvector_of (c := 32 / 2401 * k ^ 4) ?_ ?_ ?_ ?_ (by norm_num) (by norm_num))
    (eigenvector_of (c := 648 / 2401 * k ^ 4) ?_ ?_ ?_ ?_ (by norm_num) (by norm_num)) <;>
    first | positivity | (simp [Scene.D1]; done) | (simp [Scene.D1]; ring)

theorem rays_root {k : ℝ} (hk : k ≠ 0) : (div? (- -(22 / 49 * k ^ 2)) (22 / 49 * k ^ 2)).bind sqrt? = some 1 := by
  have h : 22 / 49 * k ^ 2 ≠ 0 := by positivity
  rw [neg_neg, div?_eq_some.2 ⟨h, (div_self h).symm⟩]
  exact sqrt?_eq_some.2 ⟨by norm_num, by simp⟩

theorem rays_traced {k : ℝ} (hk : k ≠ 0) : traced rays (points k) =
    branch rays (points k) ![-7 / 11, 12 / 11, -7 / 11] ++ branch rays (points k) ![-1, 0, 1] := by
  unfold traced
  dsimp only
  rw [rays_gamma hk, Option.bind_some, rays_eig hk]
  dsimp only
  rw [rays_root hk]
  dsimp only
  congr 2
  · funext i; fin_cases i <;> simp <;> norm_num
  · funext i; fin_cases i <;> simp <;> norm_num

theorem rays_regular : Regular (scene rays (points 1)) := by
  refine ⟨0, _, _, _, _, _, rays_gamma one_ne_zero, rays_eig one_ne_zero, rays_root one_ne_zero, ?_, ?_⟩
  · have e : (![-9 / 11, 6 / 11, 2 / 11] : V3) - (1 : ℝ) • ![-2 / 11, -6 / 11, 9 / 11] = ![-7 / 11, 12 / 11, -7 / 11] := by
      funext i; fin_cases i <;> simp <;> norm_num
    rw [e, rays_scene]
    refine ⟨by norm_num, ?_, ?_⟩
    · simp [Spec.equation, abs_div]
      norm_num
    · simp [Spec.equation, abs_div]
      norm_num
  · have e : (![-9 / 11, 6 / 11, 2 / 11] : V3) + (1 : ℝ) • ![-2 / 11, -6 / 11, 9 / 11] = ![-1, 0, 1] := by
      funext i; fin_cases i <;> simp <;> norm_num
    rw [e, rays_scene]
    refine ⟨by norm_num, ?_, ?_⟩
    · simp [Spec.equation]
      norm_num
    · simp [Spec.equation]
      norm_num

theorem points_apart {k : ℝ} (hk : k ≠ 0) :
    crossProduct (points k 0 - points k 1) (points k 0 - points k 2) ≠ 0 := by
  intro e
  have := congrFun e 0
  simp [crossProduct, points, rays] at this
  apply hk
  rcases this with h | h <;> linarith

theorem rays_solved (k : ℝ) : Solves rays (points k) ⟨1, 0⟩ (fun _ => k) :=
  ⟨by simp, by simp, fun i => by simp [points]⟩

/-- Beside C136: in this case the hypotheses hold, and the pose is returned. -/
example : (⟨1, 0⟩ : Pose) ∈ p3p rays (points 1) :=
  C136_complete_partial rays_unit (points_apart one_ne_zero) rays_regular (fun _ => one_pos) (rays_solved 1)

/-- Beside C135: the hypotheses hold for this pose. -/
example : ∃ disc, 0 ≤ disc ∧ (disc, (⟨1, 0⟩ : Pose)) ∈ traced rays (points 1) :=
  found rays_unit (points_apart one_ne_zero) rays_regular (fun _ => one_pos) (rays_solved 1)

/-! ## A small scene -/

/-- The pose built from lengths close enough to the solution, without any further step. -/
theorem finish_close {x X : Fin 3 → V3} {l : V3}
    (hr : |residuals (scene x X) l 0| + |residuals (scene x X) l 1| + |residuals (scene x X) l 2| < 1 / 10 ^ 10)
    (hX : crossProduct (X 0 - X 1) (X 0 - X 2) ≠ 0) :
    ∃ p, finish x X l = some p ∧ p.R *ᵥ (X 0 - X 1) = l 0 • x 0 - l 1 • x 1 := by
  have hdet : (axes X).det ≠ 0 := by
    unfold axes
    rw [det_axes]
    exact fun e => hX (dotProduct_self_eq_zero.1 e)
  have hrefine : refine (scene x X) 5 l = some l := by
    unfold refine
    dsimp only
    rw [if_pos hr]
  unfold finish
  rw [hrefine, Option.bind_some, if_neg hdet]
  refine ⟨_, rfl, ?_⟩
  · dsimp only
    set v1 := l 0 • x 0 - l 1 • x 1
    set v2 := l 0 • x 0 - l 2 • x 2
    have e : X 0 - X 1 = axes X *ᵥ ![1, 0, 0] := by rw [axes, columns_mulVec]; simp
    rw [e, mulVec_mulVec, Matrix.mul_assoc, Matrix.nonsing_inv_mul _ (isUnit_iff_ne_zero.2 hdet), Matrix.mul_one,
      columns_mulVec]
    simp

theorem candidate12_some {x X : Fin 3 → V3} {w0 w1 tau L : ℝ} {p : Pose}
    (hs : (div? (scene x X).a13 (tau * (tau - 2 * (scene x X).b13) + 1)).bind sqrt? = some L)
    (h0 : 0 ≤ w0 * L + w1 * (tau * L)) (hf : finish x X ![L, w0 * L + w1 * (tau * L), tau * L] = some p) :
    candidate12 x X w0 w1 tau = .pose (some p) := by
  unfold candidate12
  dsimp only
  rw [hs]
  dsimp only
  rw [if_neg (not_lt.2 h0), hf]

/-- C135: on points a micrometre apart (or any unit), a pose is returned whose matrix is not a rotation: the
negative discriminant is clipped and the refinement accepts any lengths. -/
theorem C135_sound_false : ∃ (x X : Fin 3 → V3) (p : Pose), (∀ i, x i ⬝ᵥ x i = 1) ∧
    crossProduct (X 0 - X 1) (X 0 - X 2) ≠ 0 ∧ p ∈ p3p x X ∧ p.Rᵀ * p.R ≠ 1 := by
  have hk : (1 / 10 ^ 6 : ℝ) ≠ 0 := by norm_num
  have hsc := rays_scene (1 / 10 ^ 6)
  set k : ℝ := 1 / 10 ^ 6 with hkd
  set L := Real.sqrt (323761 / 1748761 * k ^ 2) with hL
  have hL2 : L ^ 2 = 323761 / 1748761 * k ^ 2 := Real.sq_sqrt (by positivity)
  have hL0 : 0 ≤ L := Real.sqrt_nonneg _
  set l : V3 := ![L, 7 / 12 * L + 7 / 12 * (1519 / 569 * L), 1519 / 569 * L] with hl
  have r0 : residuals (scene rays (points k)) l 0 = 17081 / 249823 * k ^ 2 := by
    rw [hsc]
    simp only [residuals, hl, Matrix.cons_val]
    ring_nf
    rw [hL2]
    ring
  have r1 : residuals (scene rays (points k)) l 1 = 0 := by
    rw [hsc]
    simp only [residuals, hl, Matrix.cons_val]
    ring_nf
    rw [hL2]
    ring
  have r2 : residuals (scene rays (points k)) l 2 = 17081 / 249823 * k ^ 2 := by
    rw [hsc]
    simp only [residuals, hl, Matrix.cons_val]
    ring_nf
    rw [hL2]
    ring
  obtain ⟨p, hp, hR⟩ := finish_close (x := rays) (X := points k) (l := l) (by
    rw [r0, r1, r2, abs_zero, abs_of_nonneg (by positivity), hkd]
    norm_num) (points_apart hk)
  have hcand : candidate12 rays (points k) (7 / 12) (7 / 12) (1519 / 569) = .pose (some p) := by
    refine candidate12_some (L := L) ?_ (by positivity) hp
    rw [hsc]
    have hne : (1519 / 569 * (1519 / 569 - 2 * (24 / 49)) + 1 : ℝ) ≠ 0 := by norm_num
    rw [div?_eq_some.2 ⟨hne, rfl⟩, Option.bind_some]
    have e : 50 / 49 * k ^ 2 / (1519 / 569 * (1519 / 569 - 2 * (24 / 49)) + 1) = 323761 / 1748761 * k ^ 2 := by
      rw [div_eq_iff hne]; ring
    exact sqrt?_eq_some.2 ⟨by positivity, by rw [e]⟩
  refine ⟨rays, points k, p, rays_unit, points_apart hk, ?_, fun horth => ?_⟩
  · have hbranch : ∃ d, (d, p) ∈ branch rays (points k) ![-7 / 11, 12 / 11, -7 / 11] := by
      unfold branch
      dsimp only
      have hlt : |(![-7 / 11, 12 / 11, -7 / 11] : V3) 0| < |(![-7 / 11, 12 / 11, -7 / 11] : V3) 1| := by
        simp [abs_div]; norm_num
      rw [if_pos hlt]
      have ew : -(![-7 / 11, 12 / 11, -7 / 11] : V3) 0 / (![-7 / 11, 12 / 11, -7 / 11] : V3) 1 = 7 / 12 := by
        simp; norm_num
      have ew' : -(![-7 / 11, 12 / 11, -7 / 11] : V3) 2 / (![-7 / 11, 12 / 11, -7 / 11] : V3) 1 = 7 / 12 := by
        simp; norm_num
      rw [ew, ew', hsc]
      dsimp only
      have ea : -(50 / 49 * k ^ 2) * (7 / 12) * (7 / 12) + 2 * (50 / 49 * k ^ 2 * (6 / 7)) * (7 / 12) - 50 / 49 * k ^ 2 +
          2 / 7 * k ^ 2 = -31 / 504 * k ^ 2 := by ring
      have eb : 2 * (50 / 49 * k ^ 2 * (6 / 7)) * (7 / 12) - 2 * (2 / 7 * k ^ 2 * (24 / 49)) -
          2 * (50 / 49 * k ^ 2) * (7 / 12) * (7 / 12) = 569 / 12348 * k ^ 2 := by ring
      have ec : -(50 / 49 * k ^ 2) * (7 / 12) * (7 / 12) + 2 / 7 * k ^ 2 = -31 / 504 * k ^ 2 := by ring
      rw [ea, eb, ec]
      have hdisc : 569 / 12348 * k ^ 2 * (569 / 12348 * k ^ 2) - 4 * (-31 / 504 * k ^ 2) * (-31 / 504 * k ^ 2) ≤ 0 := by
        rw [hkd]; norm_num
      have hfirst : firstRoot (-31 / 504 * k ^ 2) (569 / 12348 * k ^ 2) (-31 / 504 * k ^ 2) = some (1519 / 569) := by
        unfold firstRoot
        dsimp only
        rw [max_eq_left hdisc, Real.sqrt_zero, if_pos (by positivity)]
        have hne : -(569 / 12348 * k ^ 2) - 0 ≠ 0 := by
          rw [sub_zero]
          exact neg_ne_zero.2 (by positivity)
        refine div?_eq_some.2 ⟨hne, ?_⟩
        rw [eq_div_iff hne]
        ring
      refine ⟨569 / 12348 * k ^ 2 * (569 / 12348 * k ^ 2) - 4 * (-31 / 504 * k ^ 2) * (-31 / 504 * k ^ 2), ?_⟩
      unfold roots
      dsimp only
      rw [if_neg (by rw [hkd]; unfold tolerance; norm_num), hfirst]
      dsimp only
      rw [if_pos (by norm_num), hcand]
      exact List.mem_append_left _ (List.mem_singleton.2 rfl)
    obtain ⟨d, hd⟩ := hbranch
    refine List.mem_map.2 ⟨(d, p), ?_, rfl⟩
    rw [rays_traced hk]
    exact List.mem_append_left _ hd
  · -- the first difference of the points is stretched
    have hn : (p.R *ᵥ (points k 0 - points k 1)) ⬝ᵥ (p.R *ᵥ (points k 0 - points k 1)) =
        (points k 0 - points k 1) ⬝ᵥ (points k 0 - points k 1) := by
      rw [dotProduct_mulVec, vecMul_mulVec, ← dotProduct_mulVec, horth, one_mulVec]
    rw [hR] at hn
    have hr0 : residuals (scene rays (points k)) l 0 = 0 := by
      have ha : (points k 0 - points k 1) ⬝ᵥ (points k 0 - points k 1) = (scene rays (points k)).a12 := rfl
      have hb : rays 0 ⬝ᵥ rays 1 = (scene rays (points k)).b12 := rfl
      simp only [residuals, Matrix.cons_val_zero]
      rw [← ha, ← hn, ← hb]
      simp only [sub_dotProduct, dotProduct_sub, smul_dotProduct, dotProduct_smul, smul_eq_mul, rays_unit,
        dotProduct_comm (rays 1) (rays 0)]
      ring
    rw [r0] at hr0
    have : (17081 / 249823 * k ^ 2 : ℝ) ≠ 0 := by positivity
    exact this hr0

end RgbdSlam.P3p
