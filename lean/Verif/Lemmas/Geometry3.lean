import Verif.Lemmas.Geometry2

set_option linter.unusedSectionVars false

namespace RgbdSlam.Geometry

open Matrix Spec

/-! ## Bases -/

theorem axesOk_of {x y : V3} (h : Orthonormal x y) : axesOk x y = true := by
  have hx := norm_of_unit ((unitVec_iff x).1 h.unitX)
  have hy := norm_of_unit ((unitVec_iff y).1 h.unitY)
  have hxy : y ⬝ᵥ x = 0 := by rw [dotProduct_comm]; exact h.right
  simp [axesOk, hx, hy, hxy, doubleEqual_self _ doubleEps_nonneg]

theorem cross_dot_self (a b : V3) :
    (a ⨯₃ b) ⬝ᵥ (a ⨯₃ b) = (a ⬝ᵥ a) * (b ⬝ᵥ b) - (a ⬝ᵥ b) * (a ⬝ᵥ b) := by
  rw [cross_dot_cross, dotProduct_comm b a]

theorem normalized_smul {n : ℕ} (v : Fin n → ℝ) : ∃ c : ℝ, normalized v = c • v := by
  unfold normalized
  split
  · exact ⟨_, rfl⟩
  · exact ⟨1, by simp⟩

/-- The axis chosen is one of the three unit axes and is not close to the normal. -/
theorem selectTransform_spec {n : V3} (h : n ⬝ᵥ n = 1) :
    selectTransform n ⬝ᵥ selectTransform n = 1 ∧ |n ⬝ᵥ selectTransform n| < 1 := by
  have hx : n ⬝ᵥ ![1, 0, 0] = n 0 := by rw [dot3]; simp
  have hy : n ⬝ᵥ ![0, 1, 0] = n 1 := by rw [dot3]; simp
  have hz : n ⬝ᵥ ![0, 0, 1] = n 2 := by rw [dot3]; simp
  have hn : n 0 ^ 2 + n 1 ^ 2 + n 2 ^ 2 = 1 := by rw [dot3] at h; linarith
  -- the smallest of the three is at most 0.58
  have hmin : min |n 0| (min |n 1| |n 2|) ≤ 6 / 10 := by
    by_contra hc
    simp only [not_le, lt_min_iff] at hc
    obtain ⟨a, b, c⟩ := hc
    have a2 : (6 / 10 : ℝ) ^ 2 < n 0 ^ 2 := by rw [← sq_abs (n 0)]; gcongr
    have b2 : (6 / 10 : ℝ) ^ 2 < n 1 ^ 2 := by rw [← sq_abs (n 1)]; gcongr
    have c2 : (6 / 10 : ℝ) ^ 2 < n 2 ^ 2 := by rw [← sq_abs (n 2)]; gcongr
    norm_num at a2 b2 c2
    linarith
  have close : ∀ t : ℝ, doubleEqual (min |n 0| (min |n 1| |n 2|)) t (1 / 10) = true → t < 1 := by
    intro t ht
    simp only [doubleEqual, decide_eq_true_eq, abs_le] at ht
    linarith [ht.1]
  unfold selectTransform
  simp only [hx, hy, hz]
  split
  · rename_i hc; exact ⟨by simp, by rw [hx]; exact close _ hc⟩
  · split
    · rename_i hc; exact ⟨by simp, by rw [hy]; exact close _ hc⟩
    · split
      · rename_i hc; exact ⟨by simp, by rw [hz]; exact close _ hc⟩
      · rename_i h1 h2 h3
        exfalso
        simp only [doubleEqual, decide_eq_true_eq, not_le] at h1 h2 h3
        rcases min_choice |n 0| (min |n 1| |n 2|) with e | e
        · rw [e] at h1; simp at h1; linarith
        · rcases min_choice |n 1| |n 2| with f | f
          · rw [e, f] at h2; simp at h2; linarith
          · rw [e, f] at h3; simp at h3; linarith

/-- The two axes computed for a unit normal. -/
theorem planeBasis_spec {n : V3} (h : n ⬝ᵥ n = 1) :
    ∃ x y, planeBasis n = .ok (x, y) ∧ x ⬝ᵥ x = 1 ∧ y ⬝ᵥ y = 1 ∧ x ⬝ᵥ y = 0 ∧ x ⬝ᵥ n = 0 ∧
      y ⬝ᵥ n = 0 ∧ x ⨯₃ y = n := by
  obtain ⟨hr, hd⟩ := selectTransform_spec h
  set r := selectTransform n with hrdef
  have hne : n ⨯₃ r ≠ 0 := by
    intro h0
    have := cross_dot_self n r
    rw [h0, h, hr] at this
    simp at this
    have h1 : |n ⬝ᵥ r| * |n ⬝ᵥ r| < 1 := by nlinarith [abs_nonneg (n ⬝ᵥ r)]
    rw [abs_mul_abs_self] at h1
    linarith
  set x := normalized (n ⨯₃ r) with hx
  have hxx : x ⬝ᵥ x = 1 := normalized_unit hne
  have hxn : x ⬝ᵥ n = 0 := by
    obtain ⟨c, hc⟩ := normalized_smul (n ⨯₃ r)
    rw [hx, hc, smul_dotProduct, dotProduct_comm, dot_self_cross]
    simp
  have hyy' : (n ⨯₃ x) ⬝ᵥ (n ⨯₃ x) = 1 := by
    rw [cross_dot_self, h, hxx, dotProduct_comm n x, hxn]; simp
  have hyeq : normalized (n ⨯₃ x) = n ⨯₃ x := normalized_of_unit hyy'
  have hyx : (n ⨯₃ x) ⬝ᵥ x = 0 := by rw [dotProduct_comm, dot_cross_self]
  have hyn : (n ⨯₃ x) ⬝ᵥ n = 0 := by rw [dotProduct_comm, dot_self_cross]
  refine ⟨x, n ⨯₃ x, ?_, hxx, hyy', by rw [dotProduct_comm]; exact hyx, hxn, hyn, ?_⟩
  · unfold planeBasis
    simp only [← hrdef, ← hx, hyeq, norm_of_unit h, norm_of_unit hr, norm_of_unit hxx,
      norm_of_unit hyy', hxn, hyx, hyn, doubleEqual_self _ doubleEps_nonneg]
    norm_num
  · have hc : ∀ i, (x ⨯₃ (n ⨯₃ x)) i = n i * (x ⬝ᵥ x) - x i * (x ⬝ᵥ n) := by
      intro i
      fin_cases i <;> simp [cross_apply, dot3] <;> ring
    funext i
    rw [hc i, hxx, hxn]; ring

theorem projectOnBasis_ok {x y : V3} (h : Orthonormal x y) (p center : V3) :
    projectOnBasis p center x y = .ok ![x ⬝ᵥ (p - center), y ⬝ᵥ (p - center)] := by
  simp [projectOnBasis, axesOk_of h]

theorem liftFromBasis_ok {x y : V3} (h : Orthonormal x y) (c : V2) (center : V3) :
    liftFromBasis c center x y = .ok (spanPoint center x y (c 0) (c 1)) := by
  simp only [liftFromBasis, axesOk_of h, if_true]
  congr 1

theorem project_span {x y : V3} (h : Orthonormal x y) (center : V3) (a b : ℝ) :
    x ⬝ᵥ (spanPoint center x y a b - center) = a ∧ y ⬝ᵥ (spanPoint center x y a b - center) = b := by
  have hx := (unitVec_iff x).1 h.unitX
  have hy := (unitVec_iff y).1 h.unitY
  have hxy : x ⬝ᵥ y = 0 := h.right
  rw [dot3] at hx hy hxy
  constructor <;> rw [dot3] <;> simp only [spanPoint, Pi.sub_apply]
  · linear_combination a * hx + b * hxy
  · linear_combination a * hxy + b * hy

/-! ## Polygons -/

theorem mapOutcome_ok {α β : Type _} {f : α → Outcome β} {g : α → β} {l : List α}
    (h : ∀ a ∈ l, f a = .ok (g a)) : mapOutcome f l = .ok (l.map g) := by
  induction l with
  | nil => rfl
  | cons a l ih =>
    rw [mapOutcome, h a (by simp), ih fun b hb => h b (by simp [hb])]
    rfl

theorem changed_axes {R : M3} (h : Rᵀ * R = 1) {x y : V3} (ho : Orthonormal x y) :
    Orthonormal (R *ᵥ x) (R *ᵥ y) := by
  constructor
  · rw [unitVec_iff, orthogonal_dot h]; exact (unitVec_iff x).1 ho.unitX
  · rw [unitVec_iff, orthogonal_dot h]; exact (unitVec_iff y).1 ho.unitY
  · rw [orthogonal_iff, orthogonal_dot h]; exact ho.right

theorem mulVec_span (R : M3) (t center x y : V3) (a b : ℝ) :
    R *ᵥ spanPoint center x y a b + t = spanPoint (R *ᵥ center + t) (R *ᵥ x) (R *ᵥ y) a b := by
  have : spanPoint center x y a b = center + a • x + b • y := rfl
  rw [this]
  have : spanPoint (R *ᵥ center + t) (R *ᵥ x) (R *ᵥ y) a b =
    (R *ᵥ center + t) + a • (R *ᵥ x) + b • (R *ᵥ y) := rfl
  rw [this, Matrix.mulVec_add, Matrix.mulVec_add, Matrix.mulVec_smul, Matrix.mulVec_smul]
  abel

theorem polygon_unprojected {P : Polygon} (h : Orthonormal P.xAxis P.yAxis) :
    P.unprojected = .ok (P.boundary.map fun c => spanPoint P.center P.xAxis P.yAxis (c 0) (c 1)) :=
  mapOutcome_ok fun c _ => liftFromBasis_ok h c P.center

theorem polygon_changeFrame {R : M3} (h : Rᵀ * R = 1) (t : V3) {P : Polygon}
    (ho : Orthonormal P.xAxis P.yAxis) {toNew : V3 → V3}
    (hnew : toNew P.center = R *ᵥ P.center + t) :
    P.changeFrame toNew (transformation R t) = .ok
      { boundary := P.boundary, center := R *ᵥ P.center + t, xAxis := R *ᵥ P.xAxis
        yAxis := R *ᵥ P.yAxis } := by
  have hn := changed_axes h ho
  have hx := (unitVec_iff _).1 hn.unitX
  have hy := (unitVec_iff _).1 hn.unitY
  simp only [Polygon.changeFrame, rotation_transformation, normalized_of_unit hx,
    normalized_of_unit hy, axesOk_of hn, Bool.not_true, hnew]
  have hb : P.transformBoundary (transformation R t) (R *ᵥ P.xAxis) (R *ᵥ P.yAxis)
      (R *ᵥ P.center + t) = .ok P.boundary := by
    rw [Polygon.transformBoundary, mapOutcome_ok (g := fun c => c)]
    · simp
    · intro c _
      rw [liftFromBasis_ok ho, Outcome.bind_ok, projectOnBasis_ok hn, pointToWorld_transformation,
        mulVec_span, (project_span hn _ _ _).1, (project_span hn _ _ _).2]
      congr 1
      ext i; fin_cases i <;> rfl
  simp [hb, Polygon.make, axesOk_of hn]

theorem axesMatrix_orthogonal {x y : V3} (h : Orthonormal x y) :
    (axesMatrix x y)ᵀ * axesMatrix x y = 1 := by
  have hx := (unitVec_iff x).1 h.unitX
  have hy := (unitVec_iff y).1 h.unitY
  have hxy : x ⬝ᵥ y = 0 := h.right
  have hc := cross_dot_self x y
  rw [hx, hy, hxy] at hc
  have h1 := dot_self_cross x y
  have h2 := dot_cross_self x y
  rw [dot3] at hx hy hxy hc h1 h2
  ext i j
  fin_cases i <;> fin_cases j <;>
    simp only [axesMatrix, Matrix.mul_apply, Fin.sum_univ_three, Matrix.transpose_apply,
      Matrix.of_apply] <;> simp <;> linarith

theorem axesMatrix_columns (x y : V3) :
    axesMatrix x y *ᵥ ![1, 0, 0] = x ∧ axesMatrix x y *ᵥ ![0, 1, 0] = y := by
  constructor <;> ext i <;> simp [axesMatrix, Matrix.mulVec, dotProduct, Fin.sum_univ_three]

theorem frameChange_spec {x1 y1 x2 y2 : V3} (h1 : Orthonormal x1 y1) (h2 : Orthonormal x2 y2)
    (c1 c2 : V3) :
    (axesMatrix x2 y2 * (axesMatrix x1 y1)⁻¹)ᵀ * (axesMatrix x2 y2 * (axesMatrix x1 y1)⁻¹) = 1 ∧
    (axesMatrix x2 y2 * (axesMatrix x1 y1)⁻¹) *ᵥ x1 = x2 ∧
    (axesMatrix x2 y2 * (axesMatrix x1 y1)⁻¹) *ᵥ y1 = y2 ∧
    frameChange x1 y1 c1 x2 y2 c2 =
      .ok (transformation (axesMatrix x2 y2 * (axesMatrix x1 y1)⁻¹) (c2 - c1)) := by
  have o1 := axesMatrix_orthogonal h1
  have o2 := axesMatrix_orthogonal h2
  have hi : (axesMatrix x1 y1)⁻¹ = (axesMatrix x1 y1)ᵀ := Matrix.inv_eq_left_inv o1
  have col := axesMatrix_columns x1 y1
  have col2 := axesMatrix_columns x2 y2
  refine ⟨?_, ?_, ?_, by simp [frameChange, axesOk_of h1, axesOk_of h2]⟩
  · rw [hi]
    exact orthogonal_mul o2 (by rw [Matrix.transpose_transpose]; exact orthogonal_comm o1)
  · rw [hi]
    conv_lhs => rw [← col.1]
    rw [Matrix.mulVec_mulVec, col.1, Matrix.mul_assoc, o1, Matrix.mul_one, col2.1]
  · rw [hi]
    conv_lhs => rw [← col.2]
    rw [Matrix.mulVec_mulVec, col.2, Matrix.mul_assoc, o1, Matrix.mul_one, col2.2]

/-! ## Lines -/

theorem closest_dot {n : ℕ} {start normal point : Fin n → ℝ} (h : normal ⬝ᵥ normal = 1) :
    (point - closestOnLine start normal point) ⬝ᵥ normal = 0 := by
  rw [closestOnLine, ← sub_sub, sub_dotProduct, smul_dotProduct, h]
  simp

/-- Pythagoras. -/
theorem sqDist_closest {n : ℕ} {start normal point : Fin n → ℝ} (h : normal ⬝ᵥ normal = 1) (t : ℝ) :
    sqDist point (start + t • normal) = sqDist point (closestOnLine start normal point) +
      (((point - start) ⬝ᵥ normal) - t) ^ 2 := by
  set s := (point - start) ⬝ᵥ normal with hs
  set v := point - closestOnLine start normal point with hv
  have hv0 : v ⬝ᵥ normal = 0 := closest_dot h
  have e : point - (start + t • normal) = v + (s - t) • normal := by
    rw [hv, closestOnLine, ← hs, sub_smul]; abel
  rw [sqDist_eq, sqDist_eq, e, ← hv]
  simp only [add_dotProduct, dotProduct_add, smul_dotProduct, dotProduct_smul, smul_eq_mul, h,
    dotProduct_comm normal v, hv0]
  ring

theorem closest_zero {n : ℕ} (start point : Fin n → ℝ) : closestOnLine start 0 point = start := by
  simp [closestOnLine]

/-! ## Two lines -/

theorem closestPoints_some {p1 d1 p2 d2 : V3} (h : d1 ⨯₃ d2 ≠ 0) :
    ∃ t1 t2 : ℝ, closestPoints p1 d1 p2 d2 = some (p1 + t1 • d1, p2 + t2 • d2) ∧
      ((p1 + t1 • d1) - (p2 + t2 • d2)) ⬝ᵥ d1 = 0 ∧
      ((p1 + t1 • d1) - (p2 + t2 • d2)) ⬝ᵥ d2 = 0 := by
  set n := d1 ⨯₃ d2 with hn
  have hN : n ⬝ᵥ n ≠ 0 := (dot_self_pos h).ne'
  have hNN : n ⬝ᵥ n = (d1 ⬝ᵥ d1) * (d2 ⬝ᵥ d2) - (d1 ⬝ᵥ d2) * (d1 ⬝ᵥ d2) := cross_dot_self d1 d2
  have hn1 : d1 ⨯₃ n = (d1 ⬝ᵥ d2) • d1 - (d1 ⬝ᵥ d1) • d2 := by
    ext i; fin_cases i <;> simp [hn, cross_apply, dot3] <;> ring
  have hn2 : d2 ⨯₃ n = (d2 ⬝ᵥ d2) • d1 - (d1 ⬝ᵥ d2) • d2 := by
    ext i; fin_cases i <;> simp [hn, cross_apply, dot3] <;> ring
  have e1 : d1 ⬝ᵥ (d2 ⨯₃ n) = n ⬝ᵥ n := by
    rw [hn2, hNN]; simp only [dotProduct_sub, dotProduct_smul, smul_eq_mul]; ring
  have e2 : d2 ⬝ᵥ (d1 ⨯₃ n) = -(n ⬝ᵥ n) := by
    rw [hn1, hNN]; simp only [dotProduct_sub, dotProduct_smul, smul_eq_mul, dotProduct_comm d2 d1]
    ring
  refine ⟨((p2 - p1) ⬝ᵥ (d2 ⨯₃ n)) / (d1 ⬝ᵥ (d2 ⨯₃ n)),
    ((p1 - p2) ⬝ᵥ (d1 ⨯₃ n)) / (d2 ⬝ᵥ (d1 ⨯₃ n)), by simp [closestPoints, ← hn, h], ?_, ?_⟩
  all_goals
    rw [e1, e2, hn1, hn2, show p1 - p2 = -(p2 - p1) by abel]
    set w := p2 - p1 with hw
    have hsub : ∀ a b : ℝ, p1 + a • d1 - (p2 + b • d2) = -w + a • d1 - b • d2 := by
      intro a b; rw [hw]; abel
    rw [hsub]
    simp only [sub_dotProduct, add_dotProduct, neg_dotProduct, smul_dotProduct, dotProduct_sub,
      dotProduct_smul, smul_eq_mul, dotProduct_comm d2 d1]
    generalize n ⬝ᵥ n = N at hN hNN ⊢
    field_simp
    rw [hNN]
    ring

theorem sqDist_lines {p1 d1 p2 d2 : V3} {t1 t2 : ℝ}
    (h1 : ((p1 + t1 • d1) - (p2 + t2 • d2)) ⬝ᵥ d1 = 0)
    (h2 : ((p1 + t1 • d1) - (p2 + t2 • d2)) ⬝ᵥ d2 = 0) (s u : ℝ) :
    sqDist (p1 + t1 • d1) (p2 + t2 • d2) ≤ sqDist (p1 + s • d1) (p2 + u • d2) := by
  set v := (p1 + t1 • d1) - (p2 + t2 • d2) with hv
  set z := (s - t1) • d1 - (u - t2) • d2 with hz
  have e : (p1 + s • d1) - (p2 + u • d2) = v + z := by
    rw [hv, hz, sub_smul, sub_smul]; abel
  have hvz : v ⬝ᵥ z = 0 := by rw [hz, dotProduct_sub, dotProduct_smul, dotProduct_smul, h1, h2]; simp
  rw [sqDist_eq, sqDist_eq, e, ← hv, add_dotProduct, dotProduct_add, dotProduct_add,
    dotProduct_comm z v, hvz]
  linarith [dot_self_nonneg z]

theorem parallel_of_cross {d1 d2 : V3} (h1 : d1 ⬝ᵥ d1 = 1) (h : d1 ⨯₃ d2 = 0) :
    d2 = (d1 ⬝ᵥ d2) • d1 := by
  have hn1 : d1 ⨯₃ (d1 ⨯₃ d2) = (d1 ⬝ᵥ d2) • d1 - (d1 ⬝ᵥ d1) • d2 := by
    ext i; fin_cases i <;> simp [cross_apply, dot3] <;> ring
  rw [h, h1] at hn1
  simp at hn1
  exact (sub_eq_zero.1 hn1.symm).symm

end RgbdSlam.Geometry
