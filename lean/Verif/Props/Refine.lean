import Verif.Lemmas.Refine
import Mathlib.Analysis.SpecialFunctions.Trigonometric.Inverse
import Mathlib.Data.Set.Card
import Mathlib.Tactic.FieldSimp
import Mathlib.Tactic.Positivity
/-
Properties of the end of the primitive detection.

C113: boundary points of a plane; C114: cylinders kept; C115: similar planes; C116: mergeable planes.
-/
namespace RgbdSlam.Refine

open Geometry Spec Matrix
open DepthMap.Spec (Pinhole measured InImage)

/-! ### C113 -/

theorem distance_eq (p : Plane) (x : V3) : |p.distance x| = offPlane p.normal p.d x := by
  simp [Plane.distance, offPlane, dotProduct, Fin.sum_univ_three]

theorem screenToCamera_measured {cam : Pinhole} (hcam : cam.Valid) {x y : ℕ} {z : ℝ} (hz : doubleEps < z) :
    screenToCamera cam.matrix ![(x : ℝ), (y : ℝ), z] = .ok (measured cam y x z) := by
  have h0 : 0 < z := lt_of_le_of_lt (by unfold doubleEps; positivity) hz
  have hne : doubleEqual z 0 = false := by rw [doubleEqual_zero, abs_of_pos h0]; exact hz
  unfold screenToCamera Pinhole.matrix
  rw [if_neg (by simp), if_neg (by simp), if_neg (by simp [hne]), screenToCamera2_eq hcam.1 hcam.2]
  congr 1
  funext i
  fin_cases i <;> simp [measured] <;> ring

open Classical in
theorem cellPoint_eq {cam : Pinhole} (hcam : cam.Valid) {g : Grid}
    (hd : ∀ p, InImage g.width g.height p → g.depth p.1 p.2 ≤ 0 ∨ doubleEps < g.depth p.1 p.2)
    (plane : Plane) (mse : ℝ) (m : Mask) {c : ℕ × ℕ} (hc : InGrid g.rows g.cols c) :
    cellPoint cam.matrix g plane mse m c = .ok
      (if Gives cam g.width g.height g.cell g.depth plane.normal plane.d (Real.sqrt mse) (fun d => m d.1 d.2 = true) c then
        some (measured cam (centre g.cell c).1 (centre g.cell c).2
          (g.depth (centre g.cell c).1 (centre g.cell c).2))
      else none) := by
  unfold cellPoint
  by_cases hb : boundaryMask g.rows g.cols m c.1 c.2 = true
  swap
  · have hb' : boundaryMask g.rows g.cols m c.1 c.2 = false := by simpa using hb
    rw [if_pos (by simp [hb']), if_neg]
    intro h; exact hb (boundaryMask_iff.2 h.2.1)
  rw [if_neg (by simp [hb])]
  dsimp only
  have hx : c.2 * g.cell + g.cell / 2 < g.width := centre_lt hc.2
  have hy : c.1 * g.cell + g.cell / 2 < g.height := centre_lt hc.1
  rw [if_pos ⟨hx, hy⟩]
  rcases hd (c.1 * g.cell + g.cell / 2, c.2 * g.cell + g.cell / 2) ⟨hy, hx⟩ with h | h
  · rw [if_neg (not_lt.2 h), if_neg]
    intro hg; exact absurd hg.2.2.1 (not_lt.2 h)
  · have h0 : 0 < g.depth (c.1 * g.cell + g.cell / 2) (c.2 * g.cell + g.cell / 2) :=
      lt_of_le_of_lt (by unfold doubleEps; positivity) h
    rw [if_pos h0, screenToCamera_measured hcam h, Outcome.bind_ok, distance_eq]
    have key : Gives cam g.width g.height g.cell g.depth plane.normal plane.d (Real.sqrt mse) (fun d => m d.1 d.2 = true) c ↔
        offPlane plane.normal plane.d (measured cam (c.1 * g.cell + g.cell / 2) (c.2 * g.cell + g.cell / 2)
          (g.depth (c.1 * g.cell + g.cell / 2) (c.2 * g.cell + g.cell / 2))) < 3 * Real.sqrt mse :=
      ⟨fun hg => hg.2.2.2, fun ho => ⟨hc, boundaryMask_iff.1 hb, h0, ho⟩⟩
    simp only [key, centre]
    split_ifs <;> rfl

theorem pointsOf_eq {K : M3} {g : Grid} {plane : Plane} {mse : ℝ} {m : Mask} {f : ℕ × ℕ → Option V3} :
    ∀ {order : List (ℕ × ℕ)}, (∀ c ∈ order, cellPoint K g plane mse m c = .ok (f c)) →
      pointsOf K g plane mse m order = .ok (order.filterMap f)
  | [], _ => rfl
  | c :: cs, h => by
    rw [pointsOf, h c (by simp), Outcome.bind_ok, pointsOf_eq fun d hd => h d (by simp [hd]), Outcome.bind_ok]
    cases hf : f c <;> simp [hf]

theorem measured_inj {cam : Pinhole} (hcam : cam.Valid) {r c r' c' : ℕ} {z z' : ℝ} (hz : 0 < z)
    (h : measured cam r c z = measured cam r' c' z') : r = r' ∧ c = c' := by
  have h2 : z = z' := by simpa [measured] using congrFun h 2
  subst h2
  have h0 : ((c : ℝ) - cam.cx) * z / cam.fx = ((c' : ℝ) - cam.cx) * z / cam.fx := by
    simpa [measured] using congrFun h 0
  have h1 : ((r : ℝ) - cam.cy) * z / cam.fy = ((r' : ℝ) - cam.cy) * z / cam.fy := by
    simpa [measured] using congrFun h 1
  rw [div_left_inj' hcam.1] at h0
  rw [div_left_inj' hcam.2] at h1
  have e0 := mul_right_cancel₀ hz.ne' h0
  have e1 := mul_right_cancel₀ hz.ne' h1
  exact ⟨by exact_mod_cast (sub_left_inj.1 e1), by exact_mod_cast (sub_left_inj.1 e0)⟩

theorem centre_inj {size : ℕ} (hs : 0 < size) {c d : ℕ × ℕ} (h : centre size c = centre size d) : c = d := by
  simp only [centre, Prod.mk.injEq, Nat.add_right_cancel_iff] at h
  exact Prod.ext (Nat.eq_of_mul_eq_mul_right hs h.1) (Nat.eq_of_mul_eq_mul_right hs h.2)

/-- C113: for every image, set of cells, plane and order of the parallel visits, the boundary is computed;
its points are exactly those measured at the centres of the cells of the edge that have a depth and are
near the plane, each once. -/
theorem C113_boundary {cam : Pinhole} (hcam : cam.Valid) {g : Grid}
    (hd : ∀ p, InImage g.width g.height p → g.depth p.1 p.2 ≤ 0 ∨ doubleEps < g.depth p.1 p.2)
    (plane : Plane) (mse : ℝ) (m : Mask) {order : List (ℕ × ℕ)} (ho : order.Perm g.cells) :
    ∃ pts, planeBoundary cam.matrix g plane mse m order = .ok pts ∧ pts.Nodup ∧
      (∀ p, p ∈ pts ↔ ∃ c, Gives cam g.width g.height g.cell g.depth plane.normal plane.d (Real.sqrt mse) (fun d => m d.1 d.2 = true) c ∧
        p = measured cam (centre g.cell c).1 (centre g.cell c).2
          (g.depth (centre g.cell c).1 (centre g.cell c).2)) ∧
      pts.length =
        {c | Gives cam g.width g.height g.cell g.depth plane.normal plane.d (Real.sqrt mse) (fun d => m d.1 d.2 = true) c}.ncard := by
  classical
  have hmem : ∀ c, c ∈ order ↔ InGrid g.rows g.cols c := fun c => by rw [ho.mem_iff, mem_cells]
  have hnd : order.Nodup := ho.nodup_iff.2 (nodup_cells g)
  have heq := fun c (hc : c ∈ order) => cellPoint_eq hcam hd plane mse m ((hmem c).1 hc)
  refine ⟨_, by rw [planeBoundary, pointsOf_eq heq]; rfl, ?_, ?_, ?_⟩
  · refine hnd.filterMap fun a a' b hb hb' => ?_
    simp only [Option.mem_def] at hb hb'
    split_ifs at hb with h1
    split_ifs at hb' with h2
    simp only [Option.some.injEq] at hb hb'
    obtain ⟨e1, e2⟩ := measured_inj hcam h1.2.2.1 (hb.trans hb'.symm)
    have hs : 0 < g.cell := by
      rcases Nat.eq_zero_or_pos g.cell with h | h
      · have := h1.1.1; rw [h] at this; simp at this
      · exact h
    exact centre_inj hs (Prod.ext e1 e2)
  · intro p
    rw [List.mem_filterMap]
    constructor
    · rintro ⟨c, -, hp⟩
      split_ifs at hp with h
      exact ⟨c, h, (Option.some.inj hp).symm⟩
    · rintro ⟨c, h, rfl⟩
      exact ⟨c, (hmem c).2 h.1, by rw [if_pos h]⟩
  · have : {c | Gives cam g.width g.height g.cell g.depth plane.normal plane.d (Real.sqrt mse) (fun d => m d.1 d.2 = true) c} =
        ↑((order.filter fun c =>
          decide (Gives cam g.width g.height g.cell g.depth plane.normal plane.d (Real.sqrt mse) (fun d => m d.1 d.2 = true) c)).toFinset) := by
      ext c
      simp only [Set.mem_ofPred_eq, List.coe_toFinset, List.mem_filter, decide_eq_true_eq]
      exact ⟨fun h => ⟨(hmem c).2 h.1, h⟩, fun h => h.2⟩
    rw [this, Set.ncard_coe_finset, List.toFinset_card_of_nodup (hnd.filter _)]
    clear heq this hmem ho hnd
    induction order with
    | nil => rfl
    | cons c cs ih =>
      rw [List.filterMap_cons, List.filter_cons]
      by_cases h : Gives cam g.width g.height g.cell g.depth plane.normal plane.d (Real.sqrt mse) (fun d => m d.1 d.2 = true) c
      · simp [h, ih]
      · simp [h, ih]

/-- C113: the plane is given up exactly when less than three cells give a point. -/
theorem C113_kept {cam : Pinhole} (hcam : cam.Valid) {g : Grid}
    (hd : ∀ p, InImage g.width g.height p → g.depth p.1 p.2 ≤ 0 ∨ doubleEps < g.depth p.1 p.2)
    (plane : Plane) (mse : ℝ) (m : Mask) {order : List (ℕ × ℕ)} (ho : order.Perm g.cells) :
    (∃ pts, keptBoundary cam.matrix g plane mse m order = .ok (some pts) ∧
        planeBoundary cam.matrix g plane mse m order = .ok pts) ↔
      3 ≤ {c | Gives cam g.width g.height g.cell g.depth plane.normal plane.d (Real.sqrt mse) (fun d => m d.1 d.2 = true) c}.ncard := by
  obtain ⟨pts, h1, -, -, h2⟩ := C113_boundary hcam hd plane mse m ho
  unfold keptBoundary
  rw [h1, Outcome.bind_ok, ← h2]
  split_ifs with h
  · simp only [Outcome.ok.injEq, reduceCtorEq, false_and, exists_false, false_iff]; omega
  · simp only [Outcome.ok.injEq, Option.some.injEq]; exact ⟨fun _ => by omega, fun _ => ⟨pts, rfl, rfl⟩⟩

/-- C113: another scheduling of the visits gives the same points, in another order. -/
theorem C113_schedule {cam : Pinhole} (hcam : cam.Valid) {g : Grid}
    (hd : ∀ p, InImage g.width g.height p → g.depth p.1 p.2 ≤ 0 ∨ doubleEps < g.depth p.1 p.2)
    (plane : Plane) (mse : ℝ) (m : Mask) {order order' : List (ℕ × ℕ)} (ho : order.Perm g.cells)
    (ho' : order'.Perm g.cells) {pts pts' : List V3}
    (h : planeBoundary cam.matrix g plane mse m order = .ok pts)
    (h' : planeBoundary cam.matrix g plane mse m order' = .ok pts') : pts.Perm pts' := by
  obtain ⟨q, h1, n1, m1, -⟩ := C113_boundary hcam hd plane mse m ho
  obtain ⟨q', h2, n2, m2, -⟩ := C113_boundary hcam hd plane mse m ho'
  obtain rfl := Outcome.ok.inj (h.symm.trans h1)
  obtain rfl := Outcome.ok.inj (h'.symm.trans h2)
  rw [List.perm_ext_iff_of_nodup n1 n2]
  intro p
  rw [m1, m2]

/-- The hypotheses of `C113_boundary` hold for a wall at two metres seen by a 640 × 480 camera, and a cell
beside a corner of the image then gives a point. -/
example : ∃ (cam : Pinhole) (g : Grid) (m : Mask), cam.Valid ∧
    (∀ p, InImage g.width g.height p → g.depth p.1 p.2 ≤ 0 ∨ doubleEps < g.depth p.1 p.2) ∧
    Gives cam g.width g.height g.cell g.depth ![0, 0, -1] 2000 1 (fun d => m d.1 d.2 = true) (0, 3) := by
  refine ⟨⟨550, 550, 320, 240⟩, ⟨640, 480, 20, fun _ _ => 2000⟩, fun _ _ => true, ⟨by norm_num, by norm_num⟩,
    fun _ _ => Or.inr (by dsimp [doubleEps]; norm_num), ⟨by norm_num, by norm_num⟩,
    ⟨⟨(0, 3), ⟨by norm_num, by norm_num⟩, rfl, by simp [Around]⟩, fun h => absurd h.1.1 (by norm_num)⟩,
    by dsimp; norm_num, ?_⟩
  simp [offPlane, measured]

/-! ### C114 -/

/-- C114 (partial): a cylinder is returned exactly when its cells, once the gaps of one cell are filled, hold
a cell with all its neighbours and leave a cell of the grid out.  Missing: the cylinders that cover the whole
grid. -/
theorem C114_kept_partial (rows cols : ℕ) (m : Mask) :
    cylinderKept rows cols m = true ↔
      (∃ c, Core rows cols (Filled rows cols fun d => m d.1 d.2 = true) c) ∧
        ∃ c, InGrid rows cols c ∧ ¬ Filled rows cols (fun d => m d.1 d.2 = true) c := by
  have her : ∀ c : ℕ × ℕ, InGrid rows cols c →
      (erode rows cols true crossKernel (closing rows cols m) c.1 c.2 = true ↔
        Core rows cols (Filled rows cols fun d => m d.1 d.2 = true) c) := by
    intro c hc
    rw [erode_true_iff, Core]
    simp only [← beside_iff, closing_iff]
    exact ⟨fun h => ⟨hc, h⟩, fun h => h.2⟩
  have hmem : ∀ c : ℕ × ℕ, c ∈ ((List.range rows).flatMap fun r => (List.range cols).map fun k => (r, k)) ↔
      InGrid rows cols c := fun c => by
    simp only [List.mem_flatMap, List.mem_range, List.mem_map, InGrid]
    constructor
    · rintro ⟨r, hr, k, hk, rfl⟩; exact ⟨hr, hk⟩
    · rintro ⟨h1, h2⟩; exact ⟨c.1, h1, c.2, h2, rfl⟩
  unfold cylinderKept
  dsimp only
  generalize hcells : ((List.range rows).flatMap fun r => (List.range cols).map fun k => (r, k)) = cells at hmem ⊢
  have hmax : (cells.any fun c => erode rows cols true crossKernel (closing rows cols m) c.1 c.2) = true ↔
      ∃ c, Core rows cols (Filled rows cols fun d => m d.1 d.2 = true) c := by
    rw [List.any_eq_true]
    exact ⟨fun ⟨c, h1, h2⟩ => ⟨c, (her c ((hmem c).1 h1)).1 h2⟩,
      fun ⟨c, h⟩ => ⟨c, (hmem c).2 h.1, (her c h.1).2 h⟩⟩
  have hmin : (cells.any fun c => !erode rows cols true crossKernel (closing rows cols m) c.1 c.2) = true ↔
      ∃ c, InGrid rows cols c ∧ ¬ Filled rows cols (fun d => m d.1 d.2 = true) c := by
    rw [List.any_eq_true]
    constructor
    · rintro ⟨c, h1, h2⟩
      by_contra hn
      push Not at hn
      rw [Bool.not_eq_true', ← Bool.not_eq_true, her c ((hmem c).1 h1)] at h2
      exact h2 ⟨(hmem c).1 h1, fun d hd _ => hn d hd⟩
    · rintro ⟨c, h1, h2⟩
      refine ⟨c, (hmem c).2 h1, ?_⟩
      rw [Bool.not_eq_true', ← Bool.not_eq_true, her c h1]
      exact fun h => h2 (h.2 c h1 (Or.inl ⟨rfl, Or.inl rfl⟩))
  rw [← hmax, ← hmin]
  by_cases a : (cells.any fun c => erode rows cols true crossKernel (closing rows cols m) c.1 c.2) = true <;>
  by_cases b : (cells.any fun c => !erode rows cols true crossKernel (closing rows cols m) c.1 c.2) = true <;>
  simp [a, b]

/-- C114 (partial): a cylinder that holds a cell with all its neighbours is returned, if a cell of the grid is
left out once the gaps are filled. -/
theorem C114_core_kept_partial {rows cols : ℕ} {m : Mask} {c d : ℕ × ℕ}
    (hc : Core rows cols (fun d => m d.1 d.2 = true) c) (hd : InGrid rows cols d)
    (hn : ¬ Filled rows cols (fun d => m d.1 d.2 = true) d) : cylinderKept rows cols m = true := by
  rw [C114_kept_partial]
  refine ⟨⟨c, hc.1, fun e he hb f hf hbf => ?_⟩, d, hd, hn⟩
  refine ⟨e, he, ?_, hc.2 e he hb⟩
  unfold Beside at hbf ⊢; omega

/-- C114 (false as a whole): a cylinder that covers the whole image has cells with all their neighbours, but
it is thrown away as if it had been completely eroded. -/
theorem C114_whole_image_false {rows cols : ℕ} (h : 0 < rows) (h' : 0 < cols) :
    (∃ c, Core rows cols (fun d => (fun _ _ => true : Mask) d.1 d.2 = true) c) ∧
      cylinderKept rows cols (fun _ _ => true) = false := by
  refine ⟨⟨(0, 0), ⟨h, h'⟩, fun _ _ _ => rfl⟩, ?_⟩
  rw [← Bool.not_eq_true, C114_kept_partial]
  rintro ⟨-, c, hc, hn⟩
  exact hn fun d hd _ => ⟨d, hd, Or.inl ⟨rfl, Or.inl rfl⟩, rfl⟩

/-- A cylinder of 3 × 3 cells in a grid of 10 × 10 cells is returned, a cylinder of one cell is not. -/
example : cylinderKept 10 10 (fun r c => decide (3 ≤ r ∧ r ≤ 5 ∧ 3 ≤ c ∧ c ≤ 5)) = true ∧
    cylinderKept 10 10 (fun r c => decide (r = 3 ∧ c = 3)) = false := by decide +kernel

/-! ### C115 and C116 -/

theorem dot_eq (u v : V3) : u ⬝ᵥ v = u 0 * v 0 + u 1 * v 1 + u 2 * v 2 := by
  simp [dotProduct, Fin.sum_univ_three]

/-- Cauchy-Schwarz for two unit vectors. -/
theorem abs_dot_le {u v : V3} (hu : UnitLength u) (hv : UnitLength v) :
    |u 0 * v 0 + u 1 * v 1 + u 2 * v 2| ≤ 1 := by
  unfold UnitLength at hu hv
  rw [abs_le]
  constructor <;>
    nlinarith [sq_nonneg (u 0 + v 0), sq_nonneg (u 1 + v 1), sq_nonneg (u 2 + v 2), sq_nonneg (u 0 - v 0),
      sq_nonneg (u 1 - v 1), sq_nonneg (u 2 - v 2)]

theorem cos_lt_iff {t x : ℝ} (h0 : 0 ≤ t) (h1 : t ≤ Real.pi) (hx : |x| ≤ 1) :
    Real.cos t < x ↔ Real.arccos x < t := by
  obtain ⟨hx1, hx2⟩ := abs_le.1 hx
  have := Real.strictAntiOn_arccos.lt_iff_gt (a := x) (b := Real.cos t)
    ⟨hx1, hx2⟩ ⟨Real.neg_one_le_cos t, Real.cos_le_one t⟩
  rw [Real.arccos_cos h0 h1] at this
  exact this.symm

theorem mergeAngle_bounds : 0 ≤ mergeAngle * Real.pi / 180 ∧ mergeAngle * Real.pi / 180 ≤ Real.pi := by
  unfold mergeAngle
  constructor <;> linarith [Real.pi_pos]

theorem cos_matchAngle : |Real.cos (matchAngle * Real.pi / 180)| = Real.cos (degrees 20) := by
  unfold matchAngle degrees
  exact abs_of_nonneg (Real.cos_nonneg_of_neg_pi_div_two_le_of_le (by linarith [Real.pi_pos])
    (by linarith [Real.pi_pos]))

/-- C115: two planes have similar directions exactly when their normals make an angle below 20 degrees, up
to the sign of the normals. -/
theorem C115_directions {a b : Plane} (ha : UnitLength a.normal) (hb : UnitLength b.normal) :
    normalSimilar a b = true ↔
      angle a.normal b.normal < degrees 20 ∨ Real.pi - degrees 20 < angle a.normal b.normal := by
  have h20 : 0 ≤ degrees 20 ∧ degrees 20 ≤ Real.pi := by
    unfold degrees; constructor <;> linarith [Real.pi_pos]
  have h160 : 0 ≤ Real.pi - degrees 20 ∧ Real.pi - degrees 20 ≤ Real.pi := by
    constructor <;> linarith [h20.1, h20.2]
  have hd := abs_dot_le ha hb
  unfold normalSimilar
  rw [decide_eq_true_eq, cos_matchAngle, dot_eq, lt_abs]
  refine or_congr (cos_lt_iff h20.1 h20.2 hd) ?_
  rw [cos_lt_iff h20.1 h20.2 (by rwa [abs_neg]), Real.arccos_neg, angle]
  constructor <;> intro h <;> linarith

/-- C115: the distance test compares the distances of the planes to the camera, with their signs. -/
theorem C115_distances (a b : Plane) :
    distanceSimilar a b = true ↔ |a.d - b.d| < 100 := by
  unfold distanceSimilar matchDistance; rw [decide_eq_true_eq]

/-- C115 (partial): planes whose normals point to the same side, at the same side of the camera, and that are
similar are near each other: their normals make less than 20 degrees and the points of the planes nearest to
the camera are within the stated distance. Missing: normals that point to opposite sides, for which the
test is wrong both ways. -/
theorem C115_similar_partial {a b : Plane} (ha : UnitLength a.normal) (hb : UnitLength b.normal)
    (hside : angle a.normal b.normal ≤ Real.pi / 2) (hda : 0 ≤ a.d) (hdb : 0 ≤ b.d)
    (hn : normalSimilar a b = true) (hs : distanceSimilar a b = true) :
    angle a.normal b.normal < degrees 20 ∧
      dist3 (foot a.normal a.d) (foot b.normal b.d) ^ 2 ≤
        100 ^ 2 + 2 * a.d * b.d * (1 - Real.cos (degrees 20)) := by
  have h1 : angle a.normal b.normal < degrees 20 := by
    rcases (C115_directions ha hb).1 hn with h | h
    · exact h
    · unfold degrees at h; linarith [Real.pi_pos]
  refine ⟨h1, ?_⟩
  have h20 : 0 ≤ degrees 20 ∧ degrees 20 ≤ Real.pi := by
    unfold degrees; constructor <;> linarith [Real.pi_pos]
  have hc : Real.cos (degrees 20) <
      a.normal 0 * b.normal 0 + a.normal 1 * b.normal 1 + a.normal 2 * b.normal 2 :=
    (cos_lt_iff h20.1 h20.2 (abs_dot_le ha hb)).2 h1
  rw [C115_distances, abs_lt] at hs
  unfold dist3
  rw [Real.sq_sqrt (by positivity)]
  have e : (foot a.normal a.d 0 - foot b.normal b.d 0) ^ 2 + (foot a.normal a.d 1 - foot b.normal b.d 1) ^ 2 +
      (foot a.normal a.d 2 - foot b.normal b.d 2) ^ 2 =
      (a.d - b.d) ^ 2 + 2 * (a.d * b.d) *
        (1 - (a.normal 0 * b.normal 0 + a.normal 1 * b.normal 1 + a.normal 2 * b.normal 2)) := by
    unfold UnitLength at ha hb
    simp only [foot, cons_val_zero, cons_val_one, cons_val]
    linear_combination a.d ^ 2 * ha + b.d ^ 2 * hb
  rw [e]
  have hp : 0 ≤ a.d * b.d := mul_nonneg hda hdb
  have hsq : (a.d - b.d) ^ 2 ≤ 100 ^ 2 := by nlinarith [hs.1, hs.2]
  nlinarith [mul_le_mul_of_nonneg_left hc.le hp]

/-- C115 (false as a whole): planes at opposite sides of the camera, as far apart as wanted, are similar. -/
theorem C115_opposite_sides_false {D : ℝ} (hD : 0 < D) :
    ∃ a b : Plane, UnitLength a.normal ∧ UnitLength b.normal ∧ normalSimilar a b = true ∧
      distanceSimilar a b = true ∧ dist3 (foot a.normal a.d) (foot b.normal b.d) = 2 * D := by
  have hua : UnitLength (![0, 0, -1] : V3) := by simp [UnitLength]
  have hub : UnitLength (![0, 0, 1] : V3) := by simp [UnitLength]
  refine ⟨⟨![0, 0, -1], D⟩, ⟨![0, 0, 1], D⟩, hua, hub, ?_, ?_, ?_⟩
  · rw [C115_directions hua hub]
    right
    have : angle ![0, 0, -1] ![0, 0, 1] = Real.pi := by simp [angle]
    rw [this]; unfold degrees; linarith [Real.pi_pos]
  · rw [C115_distances]; simp
  · unfold dist3 foot
    simp only [cons_val_zero, cons_val_one, cons_val]
    have : (-D * 0 - -D * 0) ^ 2 + (-D * 0 - -D * 0) ^ 2 + (-D * -1 - -D * 1) ^ 2 = (2 * D) ^ 2 := by ring
    rw [this, Real.sqrt_sq (by linarith)]

/-- C115 (false as a whole): the same plane described with the opposite normal (seen from its other side) is
not similar to itself when the camera is at fifty millimetres of it or more. -/
theorem C115_same_plane_false {a b : Plane} (hab : b.normal = -a.normal ∧ b.d = -a.d) (hd : 50 ≤ |a.d|) :
    (∀ p : V3, a.normal ⬝ᵥ p + a.d = 0 ↔ b.normal ⬝ᵥ p + b.d = 0) ∧ distanceSimilar a b = false := by
  constructor
  · intro p
    rw [hab.1, hab.2, neg_dotProduct]
    constructor <;> intro h <;> linarith
  · rw [← Bool.not_eq_true, C115_distances, hab.2, not_lt]
    have : a.d - -a.d = 2 * a.d := by ring
    rw [this, abs_mul]
    norm_num; linarith

/-- The hypotheses of `C115_similar_partial` hold for two walls at 2000 and 2050 millimetres. -/
example : UnitLength (![0, 0, -1] : V3) ∧ angle ![0, 0, -1] ![0, 0, -1] ≤ Real.pi / 2 ∧
    normalSimilar ⟨![0, 0, -1], 2000⟩ ⟨![0, 0, -1], 2050⟩ = true ∧
    distanceSimilar ⟨![0, 0, -1], 2000⟩ ⟨![0, 0, -1], 2050⟩ = true := by
  have hu : UnitLength (![0, 0, -1] : V3) := by simp [UnitLength]
  have ha : angle ![0, 0, -1] ![0, 0, -1] = 0 := by simp [angle]
  refine ⟨hu, by rw [ha]; positivity, ?_, ?_⟩
  · rw [C115_directions hu hu]; left
    dsimp only; rw [ha]; unfold degrees; positivity
  · rw [C115_distances]; norm_num

/-- C116: two segments may be merged exactly when their normals make an angle below 18 degrees and the mean
point of the second is nearer to the plane of the first than the distance given. -/
theorem C116_merge {a b : Plane} (ha : UnitLength a.normal) (hb : UnitLength b.normal) (mean : V3)
    (maxDistance : ℝ) :
    canBeMerged a b mean maxDistance = true ↔
      angle a.normal b.normal < degrees 18 ∧ offPlane a.normal a.d mean < maxDistance := by
  unfold canBeMerged
  rw [Bool.and_eq_true, decide_eq_true_eq, decide_eq_true_eq, distance_eq, dot_eq,
    cos_lt_iff mergeAngle_bounds.1 mergeAngle_bounds.2 (abs_dot_le ha hb)]
  rfl

/-- C116: the distance given for a cell is between 0 and 50 millimetres, and 0 for a cell that is not planar. -/
theorem C116_tolerance (planar : Bool) (first last : V3) (count : ℕ) :
    0 ≤ cellTolerance planar first last count ∧ cellTolerance planar first last count ≤ 50 ∧
      (planar = false → cellTolerance planar first last count = 0) := by
  unfold cellTolerance
  cases planar
  · simp
  · refine ⟨?_, ?_, by simp⟩
    · rw [if_pos rfl]
      refine le_min (by norm_num [mergeDistance]) (mul_nonneg (mul_nonneg (Real.sqrt_nonneg _) ?_)
        (Real.sqrt_nonneg _))
      exact Real.sin_nonneg_of_nonneg_of_le_pi mergeAngle_bounds.1 mergeAngle_bounds.2
    · rw [if_pos rfl]; exact min_le_left _ _

/-- C116: a cell merged with another one is planar, and its mean point is at less than 50 millimetres of the
plane of the other. -/
theorem C116_cells {a b : Plane} (ha : UnitLength a.normal) (hb : UnitLength b.normal) {mean first last : V3}
    {planar : Bool} {count : ℕ}
    (h : canBeMerged a b mean (cellTolerance planar first last count) = true) :
    planar = true ∧ angle a.normal b.normal < degrees 18 ∧ offPlane a.normal a.d mean < 50 ∧
      offPlane a.normal a.d mean < dist3 last first * Real.sin (degrees 18) * Real.sqrt count := by
  rw [C116_merge ha hb] at h
  have ht := C116_tolerance planar first last count
  cases planar
  · exfalso
    rw [ht.2.2 rfl] at h
    exact absurd h.2 (not_lt.2 (abs_nonneg _))
  · refine ⟨rfl, h.1, lt_of_lt_of_le h.2 ht.2.1, lt_of_lt_of_le h.2 ?_⟩
    unfold cellTolerance
    rw [if_pos rfl]
    refine (min_le_right _ _).trans (le_of_eq ?_)
    have : Geometry.norm (last - first) = dist3 last first := by
      unfold Geometry.norm dist3
      congr 1
      simp only [dotProduct, Fin.sum_univ_three, Pi.sub_apply]
      ring
    rw [this]; rfl

/-- The hypotheses of `C116_cells` hold for two cells of the same wall. -/
example : UnitLength (![0, 0, -1] : V3) ∧
    canBeMerged ⟨![0, 0, -1], 1000⟩ ⟨![0, 0, -1], 1000⟩ ![30, 0, 1000]
      (cellTolerance true ![0, 0, 1000] ![40, 40, 1000] 400) = true := by
  have hu : UnitLength (![0, 0, -1] : V3) := by simp [UnitLength]
  refine ⟨hu, (C116_merge hu hu _ _).2 ⟨?_, ?_⟩⟩
  · have ha : angle ![0, 0, -1] ![0, 0, -1] = 0 := by simp [angle]
    dsimp only; rw [ha]; unfold degrees; positivity
  · unfold cellTolerance
    rw [if_pos rfl]
    refine lt_of_eq_of_lt (b := 0) (by simp [offPlane]) (lt_min (by norm_num [mergeDistance]) ?_)
    refine mul_pos (mul_pos (Real.sqrt_pos.2 ?_) (Real.sin_pos_of_pos_of_lt_pi ?_ ?_)) (by simp)
    · simp [dotProduct, Fin.sum_univ_three]
    · unfold mergeAngle; positivity
    · unfold mergeAngle; linarith [Real.pi_pos]

/-! ### C117 -/

/-- C117 (false as a whole): whether two segments may be merged depends on which one is asked: the first
accepts the second while the second refuses the first. -/
theorem C117_symmetric_false :
    ∃ (a b : Plane) (meanA meanB : V3), UnitLength a.normal ∧ UnitLength b.normal ∧
      offPlane a.normal a.d meanA = 0 ∧ offPlane b.normal b.d meanB = 0 ∧
      canBeMerged a b meanB 50 = true ∧ canBeMerged b a meanA 50 = false := by
  have hs : 0 < Real.sin (Real.pi / 18) := Real.sin_pos_of_pos_of_lt_pi (by positivity) (by
    linarith [Real.pi_pos])
  have hua : UnitLength (![0, 0, -1] : V3) := by simp [UnitLength]
  have hub : UnitLength (![Real.sin (Real.pi / 18), 0, -Real.cos (Real.pi / 18)] : V3) := by
    simp only [UnitLength, cons_val_zero, cons_val_one, cons_val]
    linarith [Real.sin_sq_add_cos_sq (Real.pi / 18), sq (Real.sin (Real.pi / 18)), sq (Real.cos (Real.pi / 18))]
  refine ⟨⟨![0, 0, -1], 1000⟩,
    ⟨![Real.sin (Real.pi / 18), 0, -Real.cos (Real.pi / 18)], 1000 * Real.cos (Real.pi / 18) - 50⟩,
    ![0, 0, 1000], ![50 / Real.sin (Real.pi / 18), 0, 1000], hua, hub, by simp [offPlane], ?_, ?_, ?_⟩
  · simp only [offPlane, cons_val_zero, cons_val_one, cons_val]
    rw [abs_eq_zero]; field_simp; ring
  · rw [C116_merge hua hub]
    constructor
    · simp only [angle, cons_val_zero, cons_val_one, cons_val]
      rw [show (0 : ℝ) * Real.sin (Real.pi / 18) + 0 * 0 + -1 * -Real.cos (Real.pi / 18) =
        Real.cos (Real.pi / 18) by ring, Real.arccos_cos (by positivity) (by linarith [Real.pi_pos])]
      unfold degrees; linarith [Real.pi_pos]
    · simp only [offPlane, cons_val_zero, cons_val_one, cons_val]
      norm_num
  · rw [← Bool.not_eq_true, C116_merge hub hua]
    rintro ⟨-, h⟩
    simp only [offPlane, cons_val_zero, cons_val_one, cons_val] at h
    rw [show Real.sin (Real.pi / 18) * 0 + 0 * 0 + -Real.cos (Real.pi / 18) * 1000 +
      (1000 * Real.cos (Real.pi / 18) - 50) = -50 by ring] at h
    norm_num at h

/-- Cauchy-Schwarz in dimension three. -/
theorem abs_dot_le_mul (u v : V3) :
    |u 0 * v 0 + u 1 * v 1 + u 2 * v 2| ≤
      Real.sqrt (u 0 ^ 2 + u 1 ^ 2 + u 2 ^ 2) * Real.sqrt (v 0 ^ 2 + v 1 ^ 2 + v 2 ^ 2) := by
  rw [← Real.sqrt_mul (by positivity)]
  refine Real.abs_le_sqrt ?_
  nlinarith [sq_nonneg (u 0 * v 1 - u 1 * v 0), sq_nonneg (u 0 * v 2 - u 2 * v 0),
    sq_nonneg (u 1 * v 2 - u 2 * v 1)]

/-- C117 (partial): the two distances compared to the tolerance, when one segment or the other is asked, differ
by at most the distance of the normals times the distance of the mean points; they are equal for parallel
planes.  Each plane goes through the mean point of its segment (C69). -/
theorem C117_symmetric_partial {a b : Plane} {meanA meanB : V3} (hA : offPlane a.normal a.d meanA = 0)
    (hB : offPlane b.normal b.d meanB = 0) :
    |offPlane a.normal a.d meanB - offPlane b.normal b.d meanA| ≤
      dist3 a.normal b.normal * dist3 meanA meanB := by
  unfold offPlane at *
  rw [abs_eq_zero] at hA hB
  have h1 : a.normal 0 * meanB 0 + a.normal 1 * meanB 1 + a.normal 2 * meanB 2 + a.d =
      a.normal 0 * (meanB 0 - meanA 0) + a.normal 1 * (meanB 1 - meanA 1) + a.normal 2 * (meanB 2 - meanA 2) := by
    linear_combination hA
  have h2 : b.normal 0 * meanA 0 + b.normal 1 * meanA 1 + b.normal 2 * meanA 2 + b.d =
      -(b.normal 0 * (meanB 0 - meanA 0) + b.normal 1 * (meanB 1 - meanA 1) +
        b.normal 2 * (meanB 2 - meanA 2)) := by
    linear_combination hB
  rw [h1, h2, abs_neg]
  refine (abs_abs_sub_abs_le_abs_sub _ _).trans ?_
  have := abs_dot_le_mul (a.normal - b.normal) (meanA - meanB)
  simp only [Pi.sub_apply] at this
  unfold dist3
  refine le_trans (le_of_eq ?_) this
  rw [← abs_neg]
  congr 1
  ring

/-- The hypotheses of `C117_symmetric_partial` hold for two parallel walls, 10 millimetres apart. -/
example : offPlane ![0, 0, -1] 1000 ![0, 0, 1000] = 0 ∧ offPlane ![0, 0, -1] 1010 ![50, 0, 1010] = 0 := by
  simp [offPlane]

end RgbdSlam.Refine
