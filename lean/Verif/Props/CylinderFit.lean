import Verif.Lemmas.CylinderFit

/-
The cylinder fit: C127 (least squares, exact cylinders), C128 (distances), C129 (the cylinder shape).
-/
namespace RgbdSlam.CylinderFit

open Matrix Geometry

/-! ### C127 -/

/-- C127: among all circles, the one fitted on patches with unit normals that are not all equal has the
smallest sum of squared residuals. -/
theorem C127_least_squares {l : List Patch} (hu : ∀ p ∈ l, Unit3 p.normal) {p q : Patch} (hp : p ∈ l)
    (hq : q ∈ l) (hne : p.normal ≠ q.normal) (radius : ℝ) (center : V3) :
    cost l (leastSquares l).radius (leastSquares l).center ≤ cost l radius center := by
  obtain ⟨h1, h2⟩ := leastSquares_spec (length_pos_of_mem hp) (ne_of_gt (divisor_pos hu hp hq hne)) hu
  have hs := cost_shift (leastSquares l).radius (radius - (leastSquares l).radius) (leastSquares l).center
    (center - (leastSquares l).center) l
  rw [add_sub_cancel, add_sub_cancel, h1, h2, dotProduct_zero] at hs
  have := sum_sq_nonneg (fun x => (radius - (leastSquares l).radius) • x.normal +
    (center - (leastSquares l).center)) l
  rw [hs]
  linarith

/-- The circle with the smallest cost is the only one. -/
theorem leastSquares_unique {l : List Patch} (hu : ∀ p ∈ l, Unit3 p.normal) {p q : Patch} (hp : p ∈ l)
    (hq : q ∈ l) (hne : p.normal ≠ q.normal) {radius : ℝ} {center : V3} (h : cost l radius center = 0) :
    (leastSquares l).radius = radius ∧ (leastSquares l).center = center := by
  obtain ⟨h1, h2⟩ := leastSquares_spec (length_pos_of_mem hp) (ne_of_gt (divisor_pos hu hp hq hne)) hu
  have hs := cost_shift (leastSquares l).radius (radius - (leastSquares l).radius) (leastSquares l).center
    (center - (leastSquares l).center) l
  rw [add_sub_cancel, add_sub_cancel, h1, h2, dotProduct_zero, h] at hs
  have hnn := sum_sq_nonneg (fun x => (radius - (leastSquares l).radius) • x.normal +
    (center - (leastSquares l).center)) l
  have hnn' := sum_sq_nonneg (residual (leastSquares l).radius (leastSquares l).center) l
  rw [← cost_eq] at hnn'
  have hz := eq_zero_of_sum_sq _ l (show (l.map fun x => ((radius - (leastSquares l).radius) • x.normal +
    (center - (leastSquares l).center)) ⬝ᵥ ((radius - (leastSquares l).radius) • x.normal +
    (center - (leastSquares l).center))).sum = 0 by linarith)
  have hpz := hz p hp
  have hqz := hz q hq
  have hd : (radius - (leastSquares l).radius) • (p.normal - q.normal) = 0 := by
    rw [smul_sub]
    have := congrArg₂ (· - ·) hpz hqz
    simpa using this
  rcases smul_eq_zero.mp hd with hd | hd
  · refine ⟨(sub_eq_zero.mp hd).symm, ?_⟩
    simp only [hd, zero_smul, zero_add] at hpz
    exact (sub_eq_zero.mp hpz).symm
  · exact absurd (sub_eq_zero.mp hd) hne

/-- Projection of a patch tangent to a cylinder. -/
theorem project_tangent {axis origin : V3} (ha : Unit3 axis) {radius side : ℝ} (hs : side = 1 ∨ side = -1)
    {p : Patch} (h : Tangent axis origin radius side p) :
    (projectPatch axis p).normal = p.normal ∧ Unit3 p.normal ∧
      (projectPatch axis p).centroid = projectOut axis origin + (radius * side) • p.normal := by
  obtain ⟨t, u, h1, h2, h3, h4⟩ := h
  have hss : side * side = 1 := by rcases hs with rfl | rfl <;> norm_num
  have ha' : axis ⬝ᵥ axis = 1 := ha
  have hau : axis ⬝ᵥ u = 0 := by rw [dotProduct_comm]; exact h2
  have hunit : Unit3 p.normal := by
    unfold Unit3
    rw [h4]
    simp only [smul_dotProduct, dotProduct_smul, h1, smul_eq_mul, mul_one, hss]
  have hout : projectOut axis p.normal = p.normal := by
    unfold projectOut
    rw [h4, dotProduct_smul, hau, smul_zero, zero_smul, sub_zero]
  refine ⟨?_, hunit, ?_⟩
  · unfold projectPatch
    simp only [hout, norm_of_unit hunit, inv_one, one_smul]
  · unfold projectPatch projectOut
    simp only [h3, h4, dotProduct_add, dotProduct_smul, ha', hau, smul_smul]
    ext i
    simp only [Pi.add_apply, Pi.sub_apply, Pi.smul_apply, smul_eq_mul]
    linear_combination (-(radius * u i)) * hss

theorem cross_smul_axis {axis u : V3} (ha : Unit3 axis) (hu : Unit3 u) (h : u ⬝ᵥ axis = 0) :
    crossProduct axis u ⬝ᵥ crossProduct axis u = 1 := by
  unfold Unit3 at ha hu
  simp only [dot3, cross_apply] at *
  simp only [Matrix.cons_val_zero, Matrix.cons_val_one, Matrix.cons_val]
  linear_combination (u 0 * u 0 + u 1 * u 1 + u 2 * u 2) * ha + hu -
    (u 0 * axis 0 + u 1 * axis 1 + u 2 * axis 2) * h

/-- Distance to a sub-segment of a point given by its coordinates along and around the axis. -/
theorem distance_at {axis c u : V3} (ha : Unit3 axis) (hu : Unit3 u) (h : u ⬝ᵥ axis = 0) (r t d : ℝ) :
    (Sub.mk r c (c + axis)).distance (c + t • axis + d • u) = |d| - r := by
  have hcr : crossProduct (c + axis - c) (c + t • axis + d • u - (c + axis)) = d • crossProduct axis u := by
    ext i
    fin_cases i <;> simp [cross_apply] <;> ring
  unfold Sub.distance
  simp only [hcr]
  rw [add_sub_cancel_left, norm_of_unit ha, div_one]
  unfold Geometry.norm
  rw [smul_dotProduct, dotProduct_smul, cross_smul_axis ha hu h]
  simp only [smul_eq_mul, mul_one]
  rw [Real.sqrt_mul_self_eq_abs]

/-- C127: patches that are tangent to a cylinder, seen all from outside or all from inside, with two
different normals at least: the fit gives the exact radius and axis, and a mean squared error of 0. -/
theorem C127_exact_cylinder {axis origin : V3} (ha : Unit3 axis) {radius side : ℝ} (hr : 0 ≤ radius)
    (hs : side = 1 ∨ side = -1) {l : List Patch} (hl : ∀ p ∈ l, Tangent axis origin radius side p)
    {p q : Patch} (hp : p ∈ l) (hq : q ∈ l) (hne : p.normal ≠ q.normal) :
    let s := subSegment axis (l.map (projectPatch axis))
    s.radius = radius ∧ (∃ t : ℝ, s.p1 = origin + t • axis) ∧ s.p2 = s.p1 + axis ∧
      meanSquaredError s l = 0 := by
  have hpr := fun x hx => project_tangent ha hs (hl x hx)
  have hcost : cost (l.map (projectPatch axis)) (radius * side) (projectOut axis origin) = 0 := by
    have : ∀ m : List Patch, (∀ x ∈ m, Tangent axis origin radius side x) →
        cost (m.map (projectPatch axis)) (radius * side) (projectOut axis origin) = 0 := by
      intro m
      induction m with
      | nil => intro _; simp [cost]
      | cons x m ih =>
        intro hm
        have h1 := ih fun y hy => hm y (by simp [hy])
        obtain ⟨e1, _, e2⟩ := project_tangent ha hs (hm x (by simp))
        unfold cost at h1 ⊢
        rw [List.map_cons, List.map_cons, List.sum_cons, h1, e1, e2, add_sub_cancel_right, sub_self,
          dotProduct_zero, add_zero]
    exact this l hl
  obtain ⟨e1, e2⟩ := leastSquares_unique (l := l.map (projectPatch axis))
    (by
      intro x hx
      obtain ⟨y, hy, rfl⟩ := List.mem_map.mp hx
      rw [(hpr y hy).1]; exact (hpr y hy).2.1)
    (List.mem_map_of_mem hp) (List.mem_map_of_mem hq) (by rw [(hpr p hp).1, (hpr q hq).1]; exact hne) hcost
  have hrad : (if radius * side < 0 then -(radius * side) else radius * side) = radius := by
    rcases hs with rfl | rfl
    · rw [if_neg (by linarith)]; ring
    · by_cases h : 0 < radius
      · rw [if_pos (by linarith)]; ring
      · have : radius = 0 := le_antisymm (not_lt.mp h) hr
        rw [this]; norm_num
  have hseg : subSegment axis (l.map (projectPatch axis)) =
      ⟨radius, projectOut axis origin, projectOut axis origin + axis⟩ := by
    unfold subSegment
    simp only [e1, e2, hrad]
  dsimp only
  rw [hseg]
  refine ⟨rfl, ⟨-(axis ⬝ᵥ origin), ?_⟩, rfl, ?_⟩
  · simp only [projectOut, neg_smul]; rw [sub_eq_add_neg]
  · have : ∀ m : List Patch, (∀ x ∈ m, Tangent axis origin radius side x) →
        (m.map fun x => (Sub.mk radius (projectOut axis origin) (projectOut axis origin + axis)).distance
          x.centroid * (Sub.mk radius (projectOut axis origin) (projectOut axis origin + axis)).distance
          x.centroid).sum = 0 := by
      intro m
      induction m with
      | nil => intro _; simp
      | cons x m ih =>
        intro hm
        obtain ⟨t, u, h1, h2, h3, _⟩ := hm x (by simp)
        rw [List.map_cons, List.sum_cons, ih fun y hy => hm y (by simp [hy])]
        have hx : x.centroid = projectOut axis origin + (t + axis ⬝ᵥ origin) • axis + radius • u := by
          rw [h3, projectOut, add_smul]
          abel
        rw [hx, distance_at ha h1 h2, abs_of_nonneg hr, sub_self]
        ring
    unfold meanSquaredError
    rw [this l hl, zero_div]

/-- C127: the hypothesis drawn from three patches is their least squares circle. -/
theorem C127_hypothesis (p q r : Patch) : hypothesis p q r = leastSquares [p, q, r] := by
  unfold hypothesis leastSquares
  simp only [List.map_cons, List.map_nil, List.sum_cons, List.sum_nil, List.length_cons, List.length_nil,
    add_zero, ← add_assoc]
  push_cast
  norm_num [div_eq_mul_inv]

/-- C127: a hypothesis drawn from patches of an exact cylinder, two of which have different normals, is at a
null distance of every patch of the cylinder, so that all of them are its inliers. -/
theorem C127_all_inliers {axis origin : V3} (ha : Unit3 axis) {radius side : ℝ}
    (hs : side = 1 ∨ side = -1) {p q r x : Patch} (hp : Tangent axis origin radius side p)
    (hq : Tangent axis origin radius side q) (hr : Tangent axis origin radius side r)
    (hx : Tangent axis origin radius side x) (hne : p.normal ≠ q.normal) :
    hypothesisDistance
      (hypothesis (projectPatch axis p) (projectPatch axis q) (projectPatch axis r)) (projectPatch axis x) = 0 := by
  have e := fun y (hy : Tangent axis origin radius side y) => project_tangent ha hs hy
  rw [C127_hypothesis]
  have hcost : cost [projectPatch axis p, projectPatch axis q, projectPatch axis r] (radius * side)
      (projectOut axis origin) = 0 := by
    simp only [cost, List.map_cons, List.map_nil, List.sum_cons, List.sum_nil]
    rw [(e p hp).1, (e p hp).2.2, (e q hq).1, (e q hq).2.2, (e r hr).1, (e r hr).2.2]
    simp
  obtain ⟨e1, e2⟩ := leastSquares_unique (by
      intro y hy
      simp only [List.mem_cons, List.not_mem_nil, or_false] at hy
      rcases hy with rfl | rfl | rfl
      · rw [(e p hp).1]; exact (e p hp).2.1
      · rw [(e q hq).1]; exact (e q hq).2.1
      · rw [(e r hr).1]; exact (e r hr).2.1)
    (p := projectPatch axis p) (q := projectPatch axis q) (by simp) (by simp)
    (by rw [(e p hp).1, (e q hq).1]; exact hne) hcost
  unfold hypothesisDistance
  simp only [e1, e2, (e x hx).1, (e x hx).2.2]
  rw [add_sub_cancel_right, sub_self, dotProduct_zero, zero_mul]

theorem quadratic_sum (v : V3) : ∀ l : List Patch,
    v ⬝ᵥ ((l.map fun p => vecMulVec p.normal p.normal).sum *ᵥ v) = (l.map fun p => (p.normal ⬝ᵥ v) * (p.normal ⬝ᵥ v)).sum ∧
    v ⬝ᵥ ((l.map fun p => vecMulVec (-p.normal) (-p.normal)).sum *ᵥ v) =
      (l.map fun p => (p.normal ⬝ᵥ v) * (p.normal ⬝ᵥ v)).sum
  | [] => by simp
  | p :: l => by
    obtain ⟨h1, h2⟩ := quadratic_sum v l
    simp only [List.map_cons, List.sum_cons, Matrix.add_mulVec, dotProduct_add, h1, h2]
    constructor <;>
    · congr 1
      simp only [dot3, Matrix.mulVec, vecMulVec_apply, Pi.neg_apply]
      ring

theorem sum_squares_zero (v : V3) : ∀ l : List Patch, 0 ≤ (l.map fun p => (p.normal ⬝ᵥ v) * (p.normal ⬝ᵥ v)).sum ∧
    ((l.map fun p => (p.normal ⬝ᵥ v) * (p.normal ⬝ᵥ v)).sum = 0 → ∀ p ∈ l, p.normal ⬝ᵥ v = 0)
  | [] => by simp
  | p :: l => by
    obtain ⟨h1, h2⟩ := sum_squares_zero v l
    have := mul_self_nonneg (p.normal ⬝ᵥ v)
    simp only [List.map_cons, List.sum_cons]
    refine ⟨by linarith, ?_⟩
    intro h x hx
    rcases List.mem_cons.mp hx with rfl | hx
    · exact mul_self_eq_zero.mp (by linarith)
    · exact h2 (by linarith) x hx

/-- C127: the covariance of the normals has no negative direction; on an exact cylinder its null directions
are those of the axis when two normals are not parallel.  The direction of its smallest eigenvalue is then
the axis of the cylinder. -/
theorem C127_axis {axis origin : V3} (ha : Unit3 axis) {radius side : ℝ}
    {l : List Patch} (hl : ∀ p ∈ l, Tangent axis origin radius side p) {p q : Patch} (hp : p ∈ l) (hq : q ∈ l)
    (hne : crossProduct p.normal q.normal ≠ 0) :
    (∀ v, 0 ≤ v ⬝ᵥ (covariance l *ᵥ v)) ∧ covariance l *ᵥ axis = 0 ∧
      ∀ v, Unit3 v → v ⬝ᵥ (covariance l *ᵥ v) = 0 → v = axis ∨ v = -axis := by
  have hn := length_pos_of_mem hp
  have hlen : (1 : ℝ) ≤ l.length := by
    have : 0 < l.length := by exact_mod_cast hn
    exact_mod_cast this
  have hk : (0 : ℝ) < 1 / ((2 * l.length : ℕ) - 1 : ℝ) := by
    push_cast
    have : (0 : ℝ) < 2 * l.length - 1 := by linarith
    positivity
  have hquad : ∀ v, v ⬝ᵥ (covariance l *ᵥ v) = (1 / ((2 * l.length : ℕ) - 1 : ℝ)) *
      (2 * (l.map fun p => (p.normal ⬝ᵥ v) * (p.normal ⬝ᵥ v)).sum) := by
    intro v
    obtain ⟨h1, h2⟩ := quadratic_sum v l
    unfold covariance
    rw [Matrix.smul_mulVec, dotProduct_smul, Matrix.add_mulVec, dotProduct_add, h1, h2, smul_eq_mul]
    ring
  have hperp : ∀ x ∈ l, x.normal ⬝ᵥ axis = 0 := by
    intro x hx
    obtain ⟨_, u, _, h2, _, h4⟩ := hl x hx
    rw [h4, smul_dotProduct, h2, smul_zero]
  refine ⟨?_, ?_, ?_⟩
  · intro v
    rw [hquad v]
    have := (sum_squares_zero v l).1
    positivity
  · have key : ∀ m : List Patch, (∀ x ∈ m, x.normal ⬝ᵥ axis = 0) →
        (m.map fun p => vecMulVec p.normal p.normal).sum *ᵥ axis = 0 ∧
        (m.map fun p => vecMulVec (-p.normal) (-p.normal)).sum *ᵥ axis = 0 := by
      intro m
      induction m with
      | nil => intro _; simp
      | cons x m ih =>
        intro hm
        obtain ⟨h1, h2⟩ := ih fun y hy => hm y (by simp [hy])
        have hx := hm x (by simp)
        have hv : ∀ w : V3, w ⬝ᵥ axis = 0 → vecMulVec w w *ᵥ axis = 0 := by
          intro w hw
          ext i
          simp only [dot3, Matrix.mulVec, vecMulVec_apply] at hw ⊢
          simp only [Pi.zero_apply]
          linear_combination w i * hw
        simp only [List.map_cons, List.sum_cons, Matrix.add_mulVec, h1, h2, add_zero]
        exact ⟨hv _ hx, hv _ (by rw [neg_dotProduct, hx, neg_zero])⟩
    unfold covariance
    rw [Matrix.smul_mulVec, Matrix.add_mulVec, (key l hperp).1, (key l hperp).2, add_zero, smul_zero]
  · intro v hv h0
    rw [hquad v] at h0
    have hz : (l.map fun p => (p.normal ⬝ᵥ v) * (p.normal ⬝ᵥ v)).sum = 0 := by
      rcases mul_eq_zero.mp h0 with h | h
      · exact absurd h (ne_of_gt hk)
      · linarith
    have hzero := (sum_squares_zero v l).2 hz
    have hpv := hzero p hp
    have hqv := hzero q hq
    have hpa := hperp p hp
    have hqa := hperp q hq
    -- both are orthogonal to the two normals, hence parallel to their cross product
    have par : crossProduct v axis = 0 := by
      have hc : ∀ w : V3, p.normal ⬝ᵥ w = 0 → q.normal ⬝ᵥ w = 0 → ∀ i j,
          crossProduct p.normal q.normal i * w j = crossProduct p.normal q.normal j * w i := by
        intro w h1 h2 i j
        simp only [dot3] at h1 h2
        fin_cases i <;> fin_cases j <;>
          simp only [cross_apply, Fin.zero_eta, Fin.mk_one, Fin.reduceFinMk, Matrix.cons_val_zero,
            Matrix.cons_val_one, Matrix.cons_val]
        · linear_combination q.normal 2 * h1 - p.normal 2 * h2
        · linear_combination (-(q.normal 1)) * h1 + p.normal 1 * h2
        · linear_combination (-(q.normal 2)) * h1 + p.normal 2 * h2
        · linear_combination q.normal 0 * h1 - p.normal 0 * h2
        · linear_combination q.normal 1 * h1 - p.normal 1 * h2
        · linear_combination (-(q.normal 0)) * h1 + p.normal 0 * h2
      have hne' : ∃ k, crossProduct p.normal q.normal k ≠ 0 := by
        by_contra hno
        push Not at hno
        exact hne (funext hno)
      obtain ⟨k, hk0⟩ := hne'
      have hij : ∀ i j, v i * axis j = v j * axis i := by
        intro i j
        have a1 := hc v hpv hqv k i
        have a2 := hc v hpv hqv k j
        have b1 := hc axis hpa hqa k i
        have b2 := hc axis hpa hqa k j
        have : crossProduct p.normal q.normal k * crossProduct p.normal q.normal k *
            (v i * axis j - v j * axis i) = 0 := by
          linear_combination (crossProduct p.normal q.normal k * axis j) * a1 -
            (crossProduct p.normal q.normal k * axis i) * a2 +
            (crossProduct p.normal q.normal i * v k) * b2 - (crossProduct p.normal q.normal j * v k) * b1
        rcases mul_eq_zero.mp this with h | h
        · exact absurd (mul_self_eq_zero.mp h) hk0
        · linarith
      rw [cross_apply]
      ext i
      fin_cases i <;> simp <;> linarith [hij 1 2, hij 2 0, hij 0 1]
    have ha' := ha
    unfold Unit3 at hv ha'
    have hdd : (v ⬝ᵥ axis) * (v ⬝ᵥ axis) = 1 := by
      have h0 := congrFun par 0
      have h1 := congrFun par 1
      have h2 := congrFun par 2
      simp only [cross_apply, Pi.zero_apply, Matrix.cons_val_zero, Matrix.cons_val_one, Matrix.cons_val] at h0 h1 h2
      simp only [dot3] at hv ha' ⊢
      linear_combination (axis 0 * axis 0 + axis 1 * axis 1 + axis 2 * axis 2) * hv + ha' -
        (v 1 * axis 2 - v 2 * axis 1) * h0 - (v 2 * axis 0 - v 0 * axis 2) * h1 -
        (v 0 * axis 1 - v 1 * axis 0) * h2
    have hfac : (v ⬝ᵥ axis - 1) * (v ⬝ᵥ axis + 1) = 0 := by linear_combination hdd
    rcases mul_eq_zero.mp hfac with h | h
    · left
      have : (v - axis) ⬝ᵥ (v - axis) = 0 := by
        simp only [sub_dotProduct, dotProduct_sub, dotProduct_comm axis v, hv, ha']
        linarith
      exact sub_eq_zero.mp (dot_self_eq_zero this)
    · right
      have : (v + axis) ⬝ᵥ (v + axis) = 0 := by
        simp only [add_dotProduct, dotProduct_add, dotProduct_comm axis v, hv, ha']
        linarith
      exact eq_neg_of_add_eq_zero_left (dot_self_eq_zero this)

theorem vec2 (a b c : ℝ) : (![a, b, c] : V3) 2 = c := rfl

/-- Four patches around the cylinder of axis `z`, through `(3, 0, 0)`, of radius 2, seen from inside. -/
noncomputable def ring : List Patch :=
  [⟨![1, 0, 0], ![5, 0, 4]⟩, ⟨![0, 1, 0], ![3, 2, 1]⟩, ⟨![-1, 0, 0], ![1, 0, 0]⟩, ⟨![3/5, 4/5, 0], ![3 + 6/5, 8/5, 7]⟩]

theorem ring_tangent : ∀ p ∈ ring, Tangent ![0, 0, 1] ![3, 0, 0] 2 1 p := by
  intro p hp
  simp only [ring, List.mem_cons, List.not_mem_nil, or_false] at hp
  have hd : ∀ a b : V3, a ⬝ᵥ b = a 0 * b 0 + a 1 * b 1 + a 2 * b 2 := dot3
  rcases hp with rfl | rfl | rfl | rfl
  · refine ⟨4, ![1, 0, 0], by norm_num [hd, vec2], by norm_num [hd, vec2], ?_, by simp⟩
    ext i; fin_cases i <;> norm_num
  · refine ⟨1, ![0, 1, 0], by norm_num [hd, vec2], by norm_num [hd, vec2], ?_, by simp⟩
    ext i; fin_cases i <;> norm_num
  · refine ⟨0, ![-1, 0, 0], by norm_num [hd, vec2], by norm_num [hd, vec2], ?_, by simp⟩
    ext i; fin_cases i <;> norm_num
  · refine ⟨7, ![3/5, 4/5, 0], by norm_num [hd, vec2], by norm_num [hd, vec2], ?_, by simp⟩
    ext i; fin_cases i <;> norm_num

theorem z_unit : Unit3 ![0, 0, 1] := by unfold Unit3; rw [dot3]; norm_num [vec2]

theorem ring_normals : (![1, 0, 0] : V3) ≠ ![0, 1, 0] := by
  intro h
  have := congrFun h 0
  norm_num at this

/-- The hypotheses of `C127_exact_cylinder` hold for the ring: the fit gives its radius. -/
example : (subSegment ![0, 0, 1] (ring.map (projectPatch ![0, 0, 1]))).radius = 2 :=
  (C127_exact_cylinder z_unit (by norm_num) (Or.inl rfl) ring_tangent
    (p := ⟨![1, 0, 0], ![5, 0, 4]⟩) (q := ⟨![0, 1, 0], ![3, 2, 1]⟩) (by simp [ring]) (by simp [ring])
    ring_normals).1

/-- Those of `C127_axis`. -/
example : ∀ v, Unit3 v → v ⬝ᵥ (covariance ring *ᵥ v) = 0 → v = ![0, 0, 1] ∨ v = -![0, 0, 1] :=
  (C127_axis z_unit ring_tangent (p := ⟨![1, 0, 0], ![5, 0, 4]⟩) (q := ⟨![0, 1, 0], ![3, 2, 1]⟩)
    (by simp [ring]) (by simp [ring]) (by
      intro h
      have := congrFun h 2
      simp [cross_apply] at this)).2.2

/-- Those of `C127_all_inliers`. -/
example : hypothesisDistance (hypothesis (projectPatch ![0, 0, 1] ⟨![1, 0, 0], ![5, 0, 4]⟩)
    (projectPatch ![0, 0, 1] ⟨![0, 1, 0], ![3, 2, 1]⟩) (projectPatch ![0, 0, 1] ⟨![-1, 0, 0], ![1, 0, 0]⟩))
    (projectPatch ![0, 0, 1] ⟨![3/5, 4/5, 0], ![3 + 6/5, 8/5, 7]⟩) = 0 :=
  C127_all_inliers z_unit (Or.inl rfl) (ring_tangent _ (by simp [ring])) (ring_tangent _ (by simp [ring]))
    (ring_tangent _ (by simp [ring])) (ring_tangent _ (by simp [ring])) ring_normals

/-- Those of `C127_least_squares`, for patches on no common circle. -/
example (radius : ℝ) (center : V3) :
    let l : List Patch := [⟨![1, 0, 0], ![5, 0, 0]⟩, ⟨![0, 1, 0], ![3, 4, 0]⟩, ⟨![-1, 0, 0], ![1, 1, 0]⟩]
    cost l (leastSquares l).radius (leastSquares l).center ≤ cost l radius center := by
  intro l
  refine C127_least_squares ?_ (p := ⟨![1, 0, 0], ![5, 0, 0]⟩) (q := ⟨![0, 1, 0], ![3, 4, 0]⟩) (by simp [l])
    (by simp [l]) ring_normals radius center
  intro p hp
  simp only [l, List.mem_cons, List.not_mem_nil, or_false] at hp
  rcases hp with rfl | rfl | rfl <;> (unfold Unit3; rw [dot3]; norm_num [vec2])

/-! ### C128 -/

/-- C128: the distance of a point to a sub-segment is its distance to the axis, minus the radius.  It is
negative inside of the cylinder. -/
theorem C128_distance (s : Sub) (point : V3) (hne : s.p2 ≠ s.p1) :
    DistanceToLine (s.p2 - s.p1) s.p1 point (s.distance point + s.radius) := by
  set a := s.p2 - s.p1 with ha
  have hane : a ≠ 0 := sub_ne_zero.mpr hne
  have haa : 0 < a ⬝ᵥ a := lt_of_le_of_ne (dot_self_nonneg a) (fun h => hane (dot_self_eq_zero h.symm))
  have hn : 0 < Geometry.norm a := Real.sqrt_pos.mpr haa
  have hd : s.distance point + s.radius = Geometry.norm (crossProduct a (point - s.p2)) / Geometry.norm a := by
    unfold Sub.distance; rw [← ha]; ring
  rw [hd]
  have hsq : Geometry.norm a * Geometry.norm a = a ⬝ᵥ a := Real.mul_self_sqrt haa.le
  have hp2 : s.p2 = s.p1 + a := by rw [ha]; abel
  -- Lagrange: |a|² |w|² = |a × w|² + (a·w)²
  have hlag : ∀ t : ℝ, crossProduct a (point - s.p2) ⬝ᵥ crossProduct a (point - s.p2) +
      (a ⬝ᵥ (point - (s.p1 + t • a))) * (a ⬝ᵥ (point - (s.p1 + t • a))) =
      (a ⬝ᵥ a) * ((point - (s.p1 + t • a)) ⬝ᵥ (point - (s.p1 + t • a))) := by
    intro t
    rw [hp2]
    simp only [cross_apply, dot3, Matrix.cons_val_zero, Matrix.cons_val_one, Matrix.cons_val, Pi.sub_apply,
      Pi.add_apply, Pi.smul_apply, smul_eq_mul]
    ring
  have hle : ∀ t : ℝ, Geometry.norm (crossProduct a (point - s.p2)) / Geometry.norm a ≤
      Geometry.norm (point - (s.p1 + t • a)) := by
    intro t
    rw [div_le_iff₀ hn]
    unfold Geometry.norm
    rw [← Real.sqrt_mul (dot_self_nonneg _)]
    apply Real.sqrt_le_sqrt
    have := hlag t
    have h2 := mul_self_nonneg (a ⬝ᵥ (point - (s.p1 + t • a)))
    linarith
  refine ⟨⟨a ⬝ᵥ (point - s.p1) / (a ⬝ᵥ a), ?_⟩, hle⟩
  have hz : a ⬝ᵥ (point - (s.p1 + (a ⬝ᵥ (point - s.p1) / (a ⬝ᵥ a)) • a)) = 0 := by
    rw [← sub_sub, dotProduct_sub, dotProduct_smul, smul_eq_mul, div_mul_cancel₀ _ (ne_of_gt haa), sub_self]
  have hl := hlag (a ⬝ᵥ (point - s.p1) / (a ⬝ᵥ a))
  rw [hz, mul_zero, add_zero] at hl
  rw [div_eq_iff (ne_of_gt hn)]
  unfold Geometry.norm
  rw [hl, Real.sqrt_mul haa.le, mul_comm]

/-- C128: over several sub-segments, the distance is the smallest of theirs. -/
theorem C128_smallest (first : Sub) (rest : List Sub) (point : V3) :
    (∃ s ∈ first :: rest, distance first rest point = s.distance point) ∧
      ∀ s ∈ first :: rest, distance first rest point ≤ s.distance point := by
  unfold distance
  suffices h : ∀ (l : List Sub) (m : ℝ),
      (l.foldl (fun m s => if m > s.distance point then s.distance point else m) m = m ∨
        ∃ s ∈ l, l.foldl (fun m s => if m > s.distance point then s.distance point else m) m =
          s.distance point) ∧
      l.foldl (fun m s => if m > s.distance point then s.distance point else m) m ≤ m ∧
      ∀ s ∈ l, l.foldl (fun m s => if m > s.distance point then s.distance point else m) m ≤
        s.distance point by
    obtain ⟨h1, h2, h3⟩ := h rest (first.distance point)
    refine ⟨?_, ?_⟩
    · rcases h1 with h1 | ⟨s, hs, h1⟩
      · exact ⟨first, by simp, h1⟩
      · exact ⟨s, by simp [hs], h1⟩
    · intro s hs
      rcases List.mem_cons.mp hs with rfl | hs
      · exact h2
      · exact h3 s hs
  intro l
  induction l with
  | nil => intro m; simp
  | cons x l ih =>
    intro m
    simp only [List.foldl_cons]
    obtain ⟨h1, h2, h3⟩ := ih (if m > x.distance point then x.distance point else m)
    have hm : (if m > x.distance point then x.distance point else m) ≤ m ∧
        (if m > x.distance point then x.distance point else m) ≤ x.distance point := by
      split_ifs with h
      · exact ⟨h.le, le_refl _⟩
      · exact ⟨le_refl _, not_lt.mp h⟩
    refine ⟨?_, h2.trans hm.1, ?_⟩
    · rcases h1 with h1 | ⟨s, hs, h1⟩
      · rw [h1]
        split_ifs with h
        · exact Or.inr ⟨x, by simp, rfl⟩
        · exact Or.inl rfl
      · exact Or.inr ⟨s, by simp [hs], h1⟩
    · intro s hs
      rcases List.mem_cons.mp hs with rfl | hs
      · exact h2.trans hm.2
      · exact h3 s hs

/-- A point on the axis of a cylinder of radius 2 is at the distance -2. -/
example : (Sub.mk 2 ![0, 0, 0] (![0, 0, 0] + ![0, 0, 1])).distance
    (![0, 0, 0] + (5 : ℝ) • ![0, 0, 1] + (0 : ℝ) • ![1, 0, 0]) = -2 := by
  rw [distance_at z_unit (by unfold Unit3; rw [dot3]; norm_num [vec2]) (by rw [dot3]; norm_num [vec2])]
  norm_num

/-- The hypothesis of `C128_distance` holds for a sub-segment built from the fit. -/
example (l : List Patch) (point : V3) :
    let s := subSegment ![0, 0, 1] l
    DistanceToLine (s.p2 - s.p1) s.p1 point (s.distance point + s.radius) := by
  refine C128_distance _ point ?_
  intro h
  have := congrFun h 2
  simp only [subSegment, Pi.add_apply, vec2] at this
  linarith

/-! ### C129 -/

/-- C129 is false for the distance: a cylinder shape answers 0 for every point. -/
theorem C129_distance_false : ¬ ∀ (axis origin point : V3) (radius d : ℝ), Unit3 axis → 0 < radius →
    DistanceToLine axis origin point d → cylinderDistance axis radius point = d - radius := by
  intro h
  have := h ![0, 0, 1] 0 0 1 0 z_unit one_pos ⟨⟨0, by simp [Geometry.norm]⟩, fun t => Real.sqrt_nonneg _⟩
  norm_num [cylinderDistance] at this

/-- C129, for similarity: it does not depend on the order of the two cylinders nor on the directions chosen on
their axes, a cylinder with a unit axis is similar to itself, and cylinders with orthogonal axes are not similar. -/
theorem C129_similar_partial (a b : V3) :
    (cylinderSimilar a b = cylinderSimilar b a) ∧ (cylinderSimilar a (-b) = cylinderSimilar a b) ∧
      (Unit3 a → cylinderSimilar a a = true) ∧ (a ⬝ᵥ b = 0 → cylinderSimilar a b = false) := by
  unfold cylinderSimilar
  refine ⟨by rw [dotProduct_comm], by rw [dotProduct_neg, abs_neg], ?_, ?_⟩
  · intro h
    rw [show a ⬝ᵥ a = 1 from h, abs_one]
    have hpi := Real.pi_pos
    have h1 : Real.cos (20 * Real.pi / 180) < 1 := by
      rw [← Real.cos_zero]
      apply Real.cos_lt_cos_of_nonneg_of_le_pi_div_two <;> linarith
    have h2 : 0 < Real.cos (20 * Real.pi / 180) := by
      apply Real.cos_pos_of_mem_Ioo
      constructor <;> linarith
    rw [abs_of_pos h2]
    exact decide_eq_true h1
  · intro h
    rw [h, abs_zero]
    exact decide_eq_false (not_lt.mpr (abs_nonneg _))

/-- C129, for similarity: for unit axes, it says that the angle between the two lines is below 20 degrees. -/
theorem C129_angle_partial (a b : V3) (ha : Unit3 a) (hb : Unit3 b) :
    cylinderSimilar a b = true ↔ Real.arccos |a ⬝ᵥ b| < 20 * Real.pi / 180 := by
  have hpi := Real.pi_pos
  have h2 : 0 < Real.cos (20 * Real.pi / 180) := by
    apply Real.cos_pos_of_mem_Ioo
    constructor <;> linarith
  have hle : |a ⬝ᵥ b| ≤ 1 := by
    have e : 0 ≤ (a - b) ⬝ᵥ (a - b) := dot_self_nonneg _
    have e' : 0 ≤ (a + b) ⬝ᵥ (a + b) := dot_self_nonneg _
    unfold Unit3 at ha hb
    simp only [sub_dotProduct, dotProduct_sub, add_dotProduct, dotProduct_add, dotProduct_comm b a, ha, hb] at e e'
    exact abs_le.mpr ⟨by linarith, by linarith⟩
  have hge : 0 ≤ |a ⬝ᵥ b| := abs_nonneg _
  unfold cylinderSimilar
  rw [decide_eq_true_eq, abs_of_pos h2]
  constructor
  · intro h
    by_contra hc
    have := Real.cos_le_cos_of_nonneg_of_le_pi (by linarith) (Real.arccos_le_pi _) (not_lt.mp hc)
    rw [Real.cos_arccos (by linarith) hle] at this
    linarith
  · intro h
    have := Real.cos_lt_cos_of_nonneg_of_le_pi (Real.arccos_nonneg _) (by linarith) h
    rwa [Real.cos_arccos (by linarith) hle] at this

/-- Cylinders with the axes `(1, 0, 0)` and `(0, 1, 0)` are not similar, opposite axes are. -/
example : cylinderSimilar ![1, 0, 0] ![0, 1, 0] = false ∧ cylinderSimilar ![0, 0, 1] (-![0, 0, 1]) = true :=
  ⟨(C129_similar_partial _ _).2.2.2 (by rw [dot3]; norm_num [vec2]),
    (C129_similar_partial _ _).2.1.trans ((C129_similar_partial ![0, 0, 1] ![0, 0, 1]).2.2.1 z_unit)⟩

end RgbdSlam.CylinderFit
