import Verif.Props.Detector
import Verif.Props.PlaneMasks
import Verif.Props.PlaneSegment

/-
C204: a wall that fills the image is found as one plane.
-/
namespace RgbdSlam.PlaneSegment

variable {K : Type*} [Field K] [LinearOrder K]

/-- The points lie in one plane. -/
def Spec.Flat (pts : List (Pt K)) : Prop :=
  ∃ (n : Pt K) (d : K), (n.x ≠ 0 ∨ n.y ≠ 0 ∨ n.z ≠ 0) ∧ ∀ p ∈ pts, Spec.offset n d p = 0

open Spec

variable [IsStrictOrderedRing K]

omit [LinearOrder K] [IsStrictOrderedRing K] in
theorem total_zero {f : Pt K → K} {pts : List (Pt K)} (h : ∀ p ∈ pts, f p = 0) : total f pts = 0 := by
  induction pts with
  | nil => rfl
  | cons p ps ih =>
    rw [total_cons, h p List.mem_cons_self, ih fun q hq => h q (List.mem_cons_of_mem _ hq), add_zero]

omit [LinearOrder K] [IsStrictOrderedRing K] in
theorem total_lin (a b c : K) (f g k : Pt K → K) (pts : List (Pt K)) :
    a * total f pts + b * total g pts + c * total k pts = total (fun p => a * f p + b * g p + c * k p) pts := by
  induction pts with
  | nil => simp
  | cons p ps ih => simp only [total_cons]; rw [← ih]; ring

/-- The mean of points of a plane is in the plane. -/
theorem mean_flat {pts : List (Pt K)} (hne : pts ≠ []) {n : Pt K} {d : K} (h : ∀ p ∈ pts, offset n d p = 0) :
    offset n d (mean pts) = 0 := by
  have hl : (pts.length : K) ≠ 0 := Nat.cast_ne_zero.mpr (by simpa using hne)
  have hs : n.x * total (fun p => p.x) pts + n.y * total (fun p => p.y) pts + n.z * total (fun p => p.z) pts =
      -d * pts.length := by
    rw [total_lin]
    clear hne hl
    induction pts with
    | nil => simp
    | cons p ps ih =>
      rw [total_cons, ih fun q hq => h q (List.mem_cons_of_mem _ hq)]
      have := h p List.mem_cons_self
      simp only [offset, Pt.dot] at this
      push_cast [List.length_cons]
      linear_combination this
  simp only [offset, Pt.dot, mean]
  field_simp
  linear_combination hs

/-- The covariance of points that lie in a plane has a null determinant. -/
theorem flat_det {s : Stats K} {pts : List (Pt K)} (h : HasStats s pts) (hne : pts ≠ []) (hf : Flat pts) :
    s.covariance.det = 0 := by
  obtain ⟨n, d, hn, hp⟩ := hf
  have hm := mean_flat hne hp
  have hd : ∀ p ∈ pts, n.x * (p.x - (mean pts).x) + n.y * (p.y - (mean pts).y) + n.z * (p.z - (mean pts).z) = 0 := by
    intro p hpp
    have h1 := hp p hpp
    simp only [offset, Pt.dot] at h1 hm
    linear_combination h1 - hm
  have row : ∀ f : Pt K → K, n.x * total (fun p => f p * (p.x - (mean pts).x)) pts +
      n.y * total (fun p => f p * (p.y - (mean pts).y)) pts +
      n.z * total (fun p => f p * (p.z - (mean pts).z)) pts = 0 := by
    intro f
    rw [total_lin]
    refine total_zero fun p hpp => ?_
    linear_combination f p * hd p hpp
  have r1 := row fun p => p.x - (mean pts).x
  have r2 := row fun p => p.y - (mean pts).y
  have r3 := row fun p => p.z - (mean pts).z
  have sym : ∀ f g : Pt K → K, total (fun p => f p * g p) pts = total (fun p => g p * f p) pts := by
    intro f g; congr 1; funext p; ring
  rw [sym (fun p => p.y - (mean pts).y) (fun p => p.x - (mean pts).x)] at r2
  rw [sym (fun p => p.z - (mean pts).z) (fun p => p.x - (mean pts).x),
    sym (fun p => p.z - (mean pts).z) (fun p => p.y - (mean pts).y)] at r3
  rw [covariance_eq h hne]
  simp only [Sym3.det]
  generalize total (fun p => (p.x - (mean pts).x) * (p.x - (mean pts).x)) pts = xx at *
  generalize total (fun p => (p.y - (mean pts).y) * (p.y - (mean pts).y)) pts = yy at *
  generalize total (fun p => (p.z - (mean pts).z) * (p.z - (mean pts).z)) pts = zz at *
  generalize total (fun p => (p.x - (mean pts).x) * (p.y - (mean pts).y)) pts = xy at *
  generalize total (fun p => (p.x - (mean pts).x) * (p.z - (mean pts).z)) pts = xz at *
  generalize total (fun p => (p.y - (mean pts).y) * (p.z - (mean pts).z)) pts = yz at *
  rcases hn with hn | hn | hn <;> refine (mul_eq_zero.mp ?_).resolve_left hn
  · linear_combination (yy * zz - yz * yz) * r1 + (xz * yz - xy * zz) * r2 + (xy * yz - xz * yy) * r3
  · linear_combination (xz * yz - xy * zz) * r1 + (xx * zz - xz * xz) * r2 + (xy * xz - xx * yz) * r3
  · linear_combination (xy * yz - xz * yy) * r1 + (xy * xz - xx * yz) * r2 + (xx * yy - xy * xy) * r3

/-- No plane is fitted to points that lie in a plane. -/
theorem flat_fit {solve : Sym3 K → Eigen3 K} {eps : K} (heps : 0 ≤ eps) {s : Stats K} {pts : List (Pt K)}
    (h : HasStats s pts) (hne : pts ≠ []) (hf : Flat pts) : s.fit solve eps = none := by
  unfold Stats.fit
  simp only
  rw [if_pos]
  rw [flat_det h hne hf]
  simpa using heps

end RgbdSlam.PlaneSegment

namespace RgbdSlam.PlaneSegment

/-! ### The cells of a noisy wall -/

variable {K : Type*} [Field K] [LinearOrder K] [IsStrictOrderedRing K]

open Spec

omit [IsStrictOrderedRing K] in
theorem scan_close {S : K → Prop} (hS : ∀ a b, S a → S b → |b - a| ≤ 4 * depthQuantization b) :
    ∀ (zs : List K) (last : K), (∀ z ∈ zs, S z) → S last → scan zs last = true := by
  intro zs
  induction zs with
  | nil => intro _ _ _; rfl
  | cons z zs ih =>
    intro last hz hl
    have hz0 := hz z List.mem_cons_self
    have hr := fun x hx => hz x (List.mem_cons_of_mem _ hx)
    rw [scan]
    unfold continuous
    split
    · rename_i heq
      split at heq
      · rw [if_pos (hS last z hl hz0)] at heq
        cases heq
      · cases heq
    · rename_i l heq
      split at heq
      · rw [if_pos (hS last z hl hz0)] at heq
        cases heq
        exact ih _ hr hz0
      · cases heq
        exact ih _ hr hl

omit [IsStrictOrderedRing K] in
/-- A line of a cell whose depths are measured and close to each other is continuous. -/
theorem line_close {cell : List (Pt K)} (hz : ∀ p ∈ cell, 0 < p.z)
    (hc : ∀ p ∈ cell, ∀ q ∈ cell, |q.z - p.z| ≤ 4 * depthQuantization q.z) {a b : ℕ} {places : List ℕ} {r : Bool}
    (h : lineContinuous cell a b places = .ok r) : r = true := by
  have hread : ∀ {i : ℕ} {z : K}, depthAt cell i = .ok z → ∃ p ∈ cell, p.z = z := by
    intro i z h
    unfold depthAt at h
    split at h
    · rename_i p hp
      cases h
      exact ⟨p, List.mem_of_getElem? hp, rfl⟩
    · cases h
  have hreads : ∀ (places : List ℕ) (zs : List K), depthsAt cell places = .ok zs → ∀ z ∈ zs, ∃ p ∈ cell, p.z = z := by
    intro places
    induction places with
    | nil => intro zs h z hz; cases h; cases hz
    | cons i is ih =>
      intro zs h z hz
      rw [depthsAt] at h
      obtain ⟨z0, h0, h⟩ := Outcome.bind_eq_ok h
      obtain ⟨zs', h1, h⟩ := Outcome.bind_eq_ok h
      cases h
      rcases List.mem_cons.mp hz with rfl | hz
      · exact hread h0
      · exact ih _ h1 z hz
  unfold lineContinuous at h
  obtain ⟨za, ha, h⟩ := Outcome.bind_eq_ok h
  obtain ⟨zb, hb, h⟩ := Outcome.bind_eq_ok h
  have hlast : ∃ p ∈ cell, p.z = max za zb := by
    rcases max_choice za zb with e | e <;> rw [e]
    · exact hread ha
    · exact hread hb
  dsimp only at h
  split at h
  · rename_i hneg
    obtain ⟨p, hp, e⟩ := hlast
    have := hz p hp
    rw [e] at this
    exact absurd hneg (not_le.mpr this)
  · obtain ⟨zs, h1, h⟩ := Outcome.bind_eq_ok h
    cases h
    refine scan_close (S := fun z => ∃ p ∈ cell, p.z = z) ?_ zs _ (hreads _ _ h1) hlast
    rintro a b ⟨p, hp, rfl⟩ ⟨q, hq, rfl⟩
    exact hc p hp q hq

/-- The spread around the mean is the smallest sum of squared deviations. -/
theorem spread_le {pts : List (Pt K)} (hne : pts ≠ []) (v : Pt K) (d : K) :
    spread pts v ≤ total (fun p => offset v d p * offset v d p) pts := by
  have hl := len_ne_zero (K := K) hne
  have hlp : (0 : K) < pts.length := Nat.cast_pos.mpr (List.length_pos_iff.mpr hne)
  have hm : v.dot (mean pts) = total (fun p => v.dot p) pts / pts.length := by
    have := total_lin v.x v.y v.z (fun p => p.x) (fun p => p.y) (fun p => p.z) pts
    have e : total (fun p => v.dot p) pts = total (fun p => v.x * p.x + v.y * p.y + v.z * p.z) pts := rfl
    rw [e, ← this]
    simp only [Pt.dot, mean]
    field_simp
  have h1 := total_dev (fun p => v.dot p) (fun p => v.dot p) (v.dot (mean pts)) (v.dot (mean pts)) pts
  have h2 := total_dev (fun p => v.dot p) (fun p => v.dot p) (-d) (-d) pts
  have e2 : total (fun p => offset v d p * offset v d p) pts = total (fun p => (v.dot p - -d) * (v.dot p - -d)) pts := by
    unfold offset
    simp only [sub_neg_eq_add]
  unfold spread
  rw [e2, h1, h2]
  have e3 : total (fun p => v.dot p) pts = v.dot (mean pts) * pts.length := by
    rw [hm]; field_simp
  rw [e3]
  generalize v.dot (mean pts) = m
  have : (0 : K) ≤ pts.length * ((m + d) * (m + d)) := mul_nonneg hlp.le (mul_self_nonneg _)
  nlinarith

theorem total_le {f : Pt K → K} {b : K} {pts : List (Pt K)} (h : ∀ p ∈ pts, f p ≤ b) :
    total f pts ≤ pts.length * b := by
  induction pts with
  | nil => simp
  | cons p ps ih =>
    rw [total_cons, List.length_cons]
    have h1 := h p List.mem_cons_self
    have h2 := ih fun q hq => h q (List.mem_cons_of_mem _ hq)
    push_cast
    linarith

/-- **C204**, a cell of a noisy wall: when all the points of a cell are measured, their depths differ by at most four
times the depth quantisation, and they lie around a plane, within the depth quantisation at their mean, then the cell
is found planar, unless the determinant of their covariance is null for the code (at most `eps`).  The solver gives an
eigenvector of the smallest eigenvalue; the cell has an even number of rows and columns, and points with a coordinate
that is not null in both directions. -/
theorem C204_noisy_cell (solve : Sym3 K → Eigen3 K) (eps : K) (minCount k m : ℕ) (hk : 0 < k) (hm : 0 < m)
    (cell : List (Pt K)) (hlen : cell.length = 2 * k * (2 * m)) (hcount : minCount ≤ cell.length)
    (hz : ∀ p ∈ cell, 0 < p.z) (hclose : ∀ p ∈ cell, ∀ q ∈ cell, |q.z - p.z| ≤ 4 * depthQuantization q.z)
    (hx : ∃ p ∈ cell, p.x ≠ 0) (hy : ∃ p ∈ cell, p.y ≠ 0)
    (hplane : ∃ (n : Pt K) (d : K), n.dot n = 1 ∧ ∀ p ∈ cell, |offset n d p| ≤ depthQuantization (mean cell).z)
    (hsolve : IsEigen (Stats.ofCell cell).covariance (solve (Stats.ofCell cell).covariance) ∧
      ∀ v : Pt K, v.dot v = 1 → (solve (Stats.ofCell cell).covariance).l0 ≤ v.dot ((Stats.ofCell cell).covariance.mul v))
    (hdet : eps < |(Stats.ofCell cell).covariance.det|) :
    ∃ c, init solve eps (2 * k) minCount cell = .ok c ∧ c.planar = true := by
  have hmeas : measured cell = cell := List.filter_eq_self.mpr fun p hp => by simpa using hz p hp
  have hne : cell ≠ [] := by
    obtain ⟨p, hp, -⟩ := hx
    exact List.ne_nil_of_mem hp
  have hst : HasStats (Stats.ofCell cell) cell := by
    have := ofCell_stats cell
    rwa [hmeas] at this
  obtain ⟨c, hc⟩ := C70_no_out_of_bounds solve eps minCount k m hk hm cell hlen (by rw [hmeas]; exact hx)
    (by rw [hmeas]; exact hy)
  refine ⟨c, hc, ?_⟩
  unfold init at hc
  obtain ⟨a, ha, hc⟩ := Outcome.bind_eq_ok hc
  have := line_close hz hclose ha
  subst this
  simp only [Bool.not_true, Bool.false_eq_true, if_false] at hc
  obtain ⟨b, hb, hc⟩ := Outcome.bind_eq_ok hc
  have := line_close hz hclose hb
  subst this
  have h1 : ¬ (cell.filter fun p => decide (0 < p.z)).length < cell.length / 2 := by
    have : (cell.filter fun p => decide (0 < p.z)) = cell := hmeas
    rw [this]
    omega
  have h2 : ¬ (Stats.ofCell cell).n < minCount := by
    rw [hst.n]
    omega
  simp only [Bool.not_true, Bool.false_eq_true, if_false, if_neg h1, if_neg h2] at hc
  split at hc
  · cases hc
  obtain ⟨n, d, hn, hoff⟩ := hplane
  have hl0 : 0 ≤ (solve (Stats.ofCell cell).covariance).l0 := by
    have h3 := ((C46_covariance _ _ hst hne).2.2.2.2.2.2 (solve (Stats.ofCell cell).covariance).v0).2
    rw [hsolve.1.eq] at h3
    have h4 := hsolve.1.unit
    unfold Pt.dot at h3 h4
    dsimp only at h3
    generalize solve (Stats.ofCell cell).covariance = e at h3 h4 ⊢
    have : e.l0 * (e.v0.x * e.v0.x + e.v0.y * e.v0.y + e.v0.z * e.v0.z) ≥ 0 := by linarith
    rw [h4] at this
    linarith
  have hle : (solve (Stats.ofCell cell).covariance).l0 ≤
      cell.length * (depthQuantization (mean cell).z * depthQuantization (mean cell).z) := by
    refine le_trans (hsolve.2 n hn) ?_
    rw [quad_spread hst hne]
    refine le_trans (spread_le hne n d) (total_le ?_)
    intro p hp
    have := hoff p hp
    have h0 : (0 : K) ≤ |offset n d p| := abs_nonneg _
    calc offset n d p * offset n d p = |offset n d p| * |offset n d p| := (abs_mul_abs_self _).symm
      _ ≤ _ := mul_self_le_mul_self h0 this
  have hfit : (Stats.ofCell cell).fit solve eps ≠ none := by
    unfold Stats.fit
    dsimp only
    rw [if_neg (by rw [sub_zero]; exact not_le.mpr hdet)]
    simp
  split at hc
  · rename_i hf
    exact absurd hf hfit
  rename_i p hf
  cases hc
  dsimp only
  rw [decide_eq_true_eq]
  unfold Stats.fit at hf
  dsimp only at hf
  rw [if_neg (by rw [sub_zero]; exact not_le.mpr hdet)] at hf
  cases hf
  dsimp only
  rw [centroid_eq hst, abs_of_nonneg hl0, hst.n]
  have hlp : (0 : K) < cell.length := Nat.cast_pos.mpr (List.length_pos_iff.mpr hne)
  rw [mul_one_div, div_le_iff₀ hlp]
  linarith

/-- Four points within half a millimetre of a wall at three millimetres. -/
def noisyCell : List (Pt ℚ) := [⟨2, 0, 7 / 2⟩, ⟨-2, 0, 7 / 2⟩, ⟨0, 4, 5 / 2⟩, ⟨0, -4, 5 / 2⟩]

/-- Non-vacuity: the noisy cell meets all the hypotheses. -/
example : ∃ c, init (fun m => ⟨m.zz, m.xx, ⟨0, 0, 1⟩⟩) (1 / 1000000000) (2 * 1) 4 noisyCell = .ok c ∧ c.planar = true := by
  have hcov : (Stats.ofCell noisyCell).covariance = ⟨8, 32, 1, 0, 0, 0⟩ := by decide +kernel
  refine C204_noisy_cell _ _ 4 1 1 (by omega) (by omega) noisyCell (by decide) (by decide) (by decide +kernel)
    (by decide +kernel) ⟨_, List.mem_cons_self, by simp⟩ ⟨⟨0, 4, 5 / 2⟩, by decide +kernel, by simp⟩
    ⟨⟨0, 0, 1⟩, -3, by decide +kernel, by decide +kernel⟩ ⟨⟨by rw [hcov]; decide +kernel, by decide +kernel⟩, ?_⟩
    (by rw [hcov]; decide +kernel)
  intro v hv
  rw [hcov]
  simp only [Pt.dot, Sym3.mul] at hv ⊢
  nlinarith [mul_self_nonneg v.x, mul_self_nonneg v.y]

end RgbdSlam.PlaneSegment

namespace RgbdSlam.Detector

open RgbdSlam PlaneSegment PlaneSegment.Spec Primitives Primitives.Spec Cylinder

variable {V : Type}

/-- A cell whose points lie in a plane is not planar. -/
theorem init_flat {solve : Sym3 ℚ → Eigen3 ℚ} {eps : ℚ} (heps : 0 ≤ eps) {width minCount : ℕ} {cell : List (Pt ℚ)}
    {p q : Patch} (hf : Flat (measured cell)) (h : p.init solve eps width minCount cell = .ok q) : q.planar = false := by
  unfold Patch.init at h
  dsimp only at h
  obtain ⟨a, -, h⟩ := Outcome.bind_eq_ok h
  split at h
  · cases h; rfl
  obtain ⟨b, -, h⟩ := Outcome.bind_eq_ok h
  split at h
  · cases h; rfl
  split at h
  · cases h; rfl
  split at h
  · cases h; rfl
  split at h
  · cases h
  rename_i hpos
  have hs : HasStats (cell.foldl Stats.add { p.clear.stats with n := 0 }) (measured cell) := ofCell_stats cell
  have hne : measured cell ≠ [] := by
    intro h0
    apply hpos
    intro hp
    have h1 := hs.sxs
    rw [h0, total_nil] at h1
    exact absurd hp.1 (by rw [h1]; exact lt_irrefl _)
  have hfit := flat_fit (solve := solve) heps hs hne hf
  cases h
  simp only [Patch.fit, hfit]
  rfl

/-- What the initialisation of the grid leaves in cell `j`. -/
theorem initCells_cell (num : Numerics V) (cloud : ℕ → List (Pt ℚ)) : ∀ (n i : ℕ) (m m' : Members),
    initCells num cloud n i m = .ok m' →
    (∀ j, j < i → m'.planeGrid[j]? = m.planeGrid[j]? ∧ m'.cellDistanceTols[j]? = m.cellDistanceTols[j]?) ∧
    ∀ j, i ≤ j → j < i + n → ∃ p, Patch.new.init num.solve num.eps num.width num.minCount (cloud j) = .ok p ∧
      m'.planeGrid[j]? = some p ∧ (j < m.cellDistanceTols.length →
        m'.cellDistanceTols[j]? = some (if p.planar then num.tolerance p (cloud j) else 0)) := by
  intro n
  induction n with
  | zero =>
    intro i m m' h
    simp only [initCells] at h
    cases h
    exact ⟨fun _ _ => ⟨rfl, rfl⟩, fun j h1 h2 => absurd h2 (by omega)⟩
  | succ n ih =>
    intro i m m' h
    simp only [initCells] at h
    split at h
    · cases h
    rename_i p0 hp0
    obtain ⟨p, hp, h⟩ := Outcome.bind_eq_ok h
    obtain ⟨h1, h2⟩ := ih _ _ _ h
    have hi : i < m.planeGrid.length := (List.getElem?_eq_some_iff.mp hp0).1
    refine ⟨fun j hj => ?_, fun j hj hj' => ?_⟩
    · obtain ⟨a, b⟩ := h1 j (by omega)
      dsimp only at a b
      rw [List.getElem?_set_ne (by omega)] at a b
      exact ⟨a, b⟩
    · rcases Nat.eq_or_lt_of_le hj with rfl | hlt
      · obtain ⟨a, b⟩ := h1 i (by omega)
        dsimp only at a b
        refine ⟨p, (init_eq _ _ _ _ _ _ _).trans hp, ?_, fun hl => ?_⟩
        · rw [a, List.getElem?_set_self hi]
        · rw [b, List.getElem?_set_self hl]
      · obtain ⟨q, a, b, c⟩ := h2 j hlt (by omega)
        refine ⟨q, a, b, fun hl => c ?_⟩
        dsimp only
        rwa [List.length_set]

/-- On a grid without planar cell nothing is found. -/
theorem detect_none {g : Scene} (hg : ∀ i, i < g.total → g.planar i = false) {fuel : ℕ} {s : St}
    (h : detect g fuel = .ok s) : s.planes = [] ∧ s.regions = [] := by
  obtain ⟨s0, h0, h1⟩ := Outcome.bind_eq_ok h
  unfold start at h0
  obtain ⟨hist, -, h0⟩ := Outcome.bind_eq_ok h0
  have hfree : (List.range g.total).filter g.planar = [] := by
    rw [List.filter_eq_nil_iff]
    intro i hi
    rw [hg i (List.mem_range.mp hi)]
    decide
  cases h0
  cases fuel with
  | zero => cases h1
  | succ fuel =>
    rw [growLoop] at h1
    rw [hfree] at h1
    simp only [List.length_nil, if_true] at h1
    cases h1
    exact ⟨rfl, rfl⟩

/-- The cylinders found are those of the regions of `Primitives.detect`; without region there is none. -/
theorem findPrimitives_regions (num : Numerics V) (closing : List ℕ → List ℕ) (survives : List ℕ → Bool) (fuel : ℕ)
    (cloud : ℕ → List (Pt ℚ)) (random : ℕ → V) {w h : ℕ} {m m1 : Members} {r : Members × Found} (hm : Shape w h m)
    (e1 : initPlanarCellFitting num cloud (resetData m) = .ok m1)
    (e : findPrimitives num closing survives fuel cloud random m = .ok r) {s : St}
    (hs : detect (scene num random m1) fuel = .ok s) (hreg : s.regions = []) : r.2.cylinders = [] := by
  have hst := initHistogram_start num random cloud hm e1
  unfold findPrimitives at e
  rw [e1, Outcome.bind_ok] at e
  dsimp only at e
  obtain ⟨r2, e2, e⟩ := Outcome.bind_eq_ok e
  obtain ⟨r3, e3, e⟩ := Outcome.bind_eq_ok e
  cases e
  rw [e2] at hst
  unfold growPlanesAndCylinders at e3
  obtain ⟨s', e4, e5⟩ := Outcome.bind_eq_ok e3
  have : s' = s := by
    have h2 : detect (scene num random m1) fuel = .ok s' := by
      unfold detect
      rw [← hst]
      exact e4
    rw [hs] at h2
    cases h2; rfl
  subst this
  cases e5
  dsimp only
  rw [hreg]
  rfl

/-- **C204 is false of the code** for a perfect wall: when the points of each cell of the image lie in a plane, the
covariance of their coordinates has a null determinant, no cell is planar, and neither a plane nor a cylinder is
found, whatever the solver, the thresholds and the frames treated before.  -/
theorem C204_perfect_wall_false (num : Numerics V) (heps : 0 ≤ num.eps) (closing : List ℕ → List ℕ)
    (survives : List ℕ → Bool) (fuel w h : ℕ) (garbage : List ℕ)
    (frames : List ((ℕ → List (Pt ℚ)) × (ℕ → V))) (m : Members)
    (hrun : treat num closing survives fuel frames (new w h garbage) = .ok m) (cloud : ℕ → List (Pt ℚ))
    (random : ℕ → V) (hflat : ∀ i, i < w * h → Flat (measured (cloud i))) (r : Members × Found)
    (hfind : findPrimitives num closing survives fuel cloud random m = .ok r) :
    r.2.planes = [] ∧ r.2.cylinders = [] := by
  have hm := treat_shape num closing survives fuel frames _ _ (new_shape w h garbage) hrun
  have hfind0 := hfind
  unfold findPrimitives at hfind0
  obtain ⟨m1, e1, -⟩ := Outcome.bind_eq_ok hfind0
  obtain ⟨s, hd, hpl⟩ := findPrimitives_detect num closing survives fuel cloud random hm e1 hfind
  have hsh := resetData_shape hm
  have hs1 := initCells_shape num cloud _ _ _ _ hsh e1
  have hcell := (initCells_cell num cloud _ _ _ _ e1).2
  have hplanar : ∀ i, i < (scene num random m1).total → (scene num random m1).planar i = false := by
    intro i hi
    have hi' : i < w * h := by simpa [Scene.total, scene, hs1.width, hs1.height] using hi
    obtain ⟨p, hp, hg, -⟩ := hcell i (by omega) (by
      have := hsh.grid
      omega)
    have : (scene num random m1).planar i = p.planar := by
      simp only [scene, List.getD_eq_getElem?_getD, hg, Option.getD_some]
    rw [this]
    exact init_flat heps (hflat i hi') hp
  obtain ⟨h1, h2⟩ := detect_none hplanar hd
  refine ⟨?_, findPrimitives_regions num closing survives fuel cloud random hm e1 hfind hd h2⟩
  rw [hpl, h1]
  rfl

/-! ### A wall whose cells are accepted -/

/-- Every cell of the grid is planar and may be merged with its neighbours, some direction holds 0.8 % of the cells at
least, and the plane fitted on the whole grid is accepted as a plane. -/
structure Spec.Wall (g : Scene) : Prop where
  planar : ∀ i, i < g.total → g.planar i = true
  error : ∀ i, i < g.total → ∃ e, g.mse i = some e
  angles : ValidScene g
  direction : ∃ (k : ℕ) (l : List ℕ), l.Nodup ∧ l ≠ [] ∧ g.total * 8 / 1000 ≤ l.length ∧
    ∀ i ∈ l, i < g.total ∧ Quantised (g.direction i).1 (g.direction i).2 k
  merge : ∀ a b, (a = b ∧ a < g.total) ∨ Neighbour g.w g.h a b → g.cellMerge a b = true
  fit : ∀ seed, seed < g.total → g.planarFit (seed :: List.range g.total) = true ∧
    g.highScore (seed :: List.range g.total) = true

/-- From any cell of the grid, every cell is reached. -/
theorem reach_all {w h : ℕ} {usable : ℕ → Prop} {merge : ℕ → ℕ → Prop} (hu : ∀ i, i < w * h → usable i)
    (hm : ∀ a b, (a = b ∧ a < w * h) ∨ Neighbour w h a b → merge a b) {seed : ℕ} (hs : seed < w * h) {c : ℕ}
    (hc : c < w * h) : Reachable w h usable merge seed c := by
  have hw : 0 < w := by
    rcases Nat.eq_zero_or_pos w with h0 | h0
    · simp [h0] at hs
    · exact h0
  have lt : ∀ {x y : ℕ}, x < w → y < h → x + w * y < w * h := by
    intro x y hx hy
    calc x + w * y < w + w * y := by omega
      _ = w * (y + 1) := by ring
      _ ≤ w * h := Nat.mul_le_mul_left _ hy
  have split : ∀ {i : ℕ}, i < w * h → i % w < w ∧ i / w < h ∧ i = i % w + w * (i / w) := by
    intro i hi
    exact ⟨Nat.mod_lt _ hw, Nat.div_lt_of_lt_mul hi, (Nat.mod_add_div i w).symm⟩
  obtain ⟨hx0, hy0, e0⟩ := split hs
  obtain ⟨hx1, hy1, e1⟩ := split hc
  generalize seed % w = x0 at *
  generalize seed / w = y0 at *
  generalize c % w = x1 at *
  generalize c / w = y1 at *
  have go : ∀ {x y x' y' : ℕ}, x < w → y < h → x' < w → y' < h →
      ((y = y' ∧ (x = x' + 1 ∨ x' = x + 1)) ∨ (x = x' ∧ (y = y' + 1 ∨ y' = y + 1))) →
      Reachable w h usable merge seed (x + w * y) → Reachable w h usable merge seed (x' + w * y') := by
    intro x y x' y' h1 h2 h3 h4 h5 hr
    have hn : Neighbour w h (x + w * y) (x' + w * y') := ⟨x, y, x', y', h1, h2, h3, h4, rfl, rfl, h5⟩
    exact .step hr hn (hu _ (lt h3 h4)) (hm _ _ (.inr hn))
  have r0 : Reachable w h usable merge seed (x0 + w * y0) := by
    rw [← e0]; exact .seed (hu _ hs) (hm _ _ (.inl ⟨rfl, hs⟩))
  have right : ∀ k, x0 + k < w → Reachable w h usable merge seed (x0 + k + w * y0) := by
    intro k
    induction k with
    | zero => intro _; exact r0
    | succ k ih =>
      intro hk
      exact go (by omega) hy0 (by omega) hy0 (.inl ⟨rfl, .inr (by omega)⟩) (ih (by omega))
  have leftw : ∀ k, k ≤ x0 → Reachable w h usable merge seed (x0 - k + w * y0) := by
    intro k
    induction k with
    | zero => intro _; exact r0
    | succ k ih =>
      intro hk
      exact go (by omega) hy0 (by omega) hy0 (.inl ⟨rfl, .inl (by omega)⟩) (ih (by omega))
  have row : Reachable w h usable merge seed (x1 + w * y0) := by
    rcases Nat.le_total x0 x1 with hle | hle
    · have := right (x1 - x0) (by omega)
      rwa [show x0 + (x1 - x0) = x1 by omega] at this
    · have := leftw (x0 - x1) (by omega)
      rwa [show x0 - (x0 - x1) = x1 by omega] at this
  have down : ∀ k, y0 + k < h → Reachable w h usable merge seed (x1 + w * (y0 + k)) := by
    intro k
    induction k with
    | zero => intro _; exact row
    | succ k ih =>
      intro hk
      exact go hx1 (by omega) hx1 (by omega) (.inr ⟨rfl, .inr (by omega)⟩) (ih (by omega))
  have up : ∀ k, k ≤ y0 → Reachable w h usable merge seed (x1 + w * (y0 - k)) := by
    intro k
    induction k with
    | zero => intro _; exact row
    | succ k ih =>
      intro hk
      exact go hx1 (by omega) hx1 (by omega) (.inr ⟨rfl, .inl (by omega)⟩) (ih (by omega))
  rw [e1]
  rcases Nat.le_total y0 y1 with hle | hle
  · have := down (y1 - y0) (by omega)
    rwa [show y0 + (y1 - y0) = y1 by omega] at this
  · have := up (y0 - y1) (by omega)
    rwa [show y0 - (y0 - y1) = y1 by omega] at this

/-- A seed is found on a wall. -/
theorem wall_seed {g : Scene} (hg : Spec.Wall g) {s : St} (hst : start g = .ok s) :
    ∃ seed e, seed < g.total ∧ g.minSeeds ≤ (Histogram.candidates s.hist).length ∧
      pickSeed g.mse (Histogram.candidates s.hist) none = some (seed, e) := by
  unfold start at hst
  obtain ⟨hist, hh, hst⟩ := Outcome.bind_eq_ok hst
  cases hst
  dsimp only
  have hpts : ((List.range g.total).map fun i => if g.planar i then some (g.direction i) else none) =
      (List.range g.total).map fun i => some (g.direction i) := by
    apply List.map_congr_left
    intro i hi
    rw [if_pos (hg.planar i (List.mem_range.mp hi))]
  rw [hpts] at hh
  have hvd : ValidDirections ((List.range g.total).map fun i => some (g.direction i)) := by
    intro u v hm
    obtain ⟨i, hi, he⟩ := List.mem_map.mp hm
    have hi := List.mem_range.mp hi
    have := hg.angles i hi (hg.planar i hi)
    rw [Option.some.inj he] at this
    exact this
  obtain ⟨hist', hh', hfull⟩ := C41_seeds_initial _ hvd
  rw [hh] at hh'
  cases hh'
  have hin : ∀ k i, InBin ((List.range g.total).map fun i => some (g.direction i)) k i ↔
      i < g.total ∧ Quantised (g.direction i).1 (g.direction i).2 k := by
    intro k i
    unfold InBin
    constructor
    · rintro ⟨u, v, h1, h2⟩
      rw [List.getElem?_map] at h1
      by_cases hi : i < g.total
      · rw [List.getElem?_range hi] at h1
        have h3 : g.direction i = (u, v) := by simpa using h1
        exact ⟨hi, by rw [h3]; exact h2⟩
      · rw [List.getElem?_eq_none (by simpa using hi)] at h1
        cases h1
    · rintro ⟨hi, hq⟩
      refine ⟨_, _, ?_, hq⟩
      rw [List.getElem?_map, List.getElem?_range hi]
      rfl
  obtain ⟨k, l, hl, hne, hlen, hk⟩ := hg.direction
  have hlpos : 0 < l.length := List.length_pos_iff.mpr hne
  classical
  have hcand : (∀ i ∈ Histogram.candidates hist, i < g.total) ∧ l.length ≤ (Histogram.candidates hist).length := by
    rcases hfull with ⟨-, hno⟩ | ⟨k', hlists, hmost⟩
    · obtain ⟨i, hi⟩ := List.exists_mem_of_ne_nil l hne
      have := hno k i ((hin k i).mpr (hk i hi))
      simp at this
    · refine ⟨fun i hi => ((hin k' i).mp ((hlists.2 i).mp hi).1).1, ?_⟩
      have hb : Lists ((List.range g.total).filter fun i => decide (Quantised (g.direction i).1 (g.direction i).2 k))
          (fun i => InBin ((List.range g.total).map fun i => some (g.direction i)) k i ∧ i ∉ ([] : List ℕ)) := by
        refine ⟨List.pairwise_lt_range.filter _, fun i => ?_⟩
        rw [List.mem_filter, List.mem_range]
        show _ ↔ InBin _ k i ∧ _
        rw [hin]
        simp
      refine Nat.le_trans ?_ (hmost k trivial _ _ hlists hb)
      apply List.Nodup.length_le_of_subset hl
      intro i hi
      rw [List.mem_filter, List.mem_range]
      exact ⟨(hk i hi).1, by simpa using (hk i hi).2⟩
  have hmin : g.minSeeds ≤ (Histogram.candidates hist).length := Nat.le_trans hlen hcand.2
  rcases hps : pickSeed g.mse (Histogram.candidates hist) none with - | ⟨seed, e⟩
  · have h1 := (pickSeed_none _ _ hps).2
    have h2 : Histogram.candidates hist ≠ [] := by
      intro h0
      rw [h0] at hcand
      have := hcand.2
      simp only [List.length_nil] at this
      omega
    obtain ⟨i, hi⟩ := List.exists_mem_of_ne_nil _ h2
    obtain ⟨e, he⟩ := hg.error i (hcand.1 i hi)
    rw [h1 i hi] at he
    cases he
  · rcases pickSeed_mem _ _ _ _ hps with h1 | h1
    · exact ⟨seed, e, hcand.1 seed h1, hmin, rfl⟩
    · cases h1

/-- The detection on a wall: one plane on all the cells. -/
theorem detect_wall {g : Scene} (hg : Spec.Wall g) {fuel : ℕ} (hf : g.total < fuel) :
    ∃ s seed, detect g fuel = .ok s ∧ seed < g.total ∧
      s.planes = [⟨seed :: List.range g.total, seed :: List.range g.total⟩] ∧ s.regions = [] ∧
      ∀ c, c < g.total → s.planeMap.getD c 0 = 1 := by
  obtain ⟨s0, hst, hI, -, hpl, hreg, hfree⟩ := start_spec hg.angles
  obtain ⟨seed, e, hs, hmin, hpick⟩ := wall_seed hg hst
  have hfree' : s0.free = List.range g.total := by
    rw [hfree]
    exact List.filter_eq_self.mpr fun i hi => hg.planar i (List.mem_range.mp hi)
  obtain ⟨act, hgrow, -, hreach⟩ := C42_region_is_reachable_cells g s0.free seed hs fuel (by
    rw [hfree', List.length_range]; exact hf)
  have hall : ∀ c, c ∈ act ↔ c < g.total := by
    intro c
    rw [hreach c]
    constructor
    · intro h
      have : c ∈ s0.free := by
        cases h with
        | seed hu _ => exact hu
        | step _ _ hu _ => exact hu
      rw [hfree'] at this
      exact List.mem_range.mp this
    · intro hc
      refine reach_all (fun i hi => ?_) (fun a b => hg.merge a b) hs hc
      rw [hfree']
      exact List.mem_range.mpr hi
  have hcells : (List.range g.total).filter act.contains = List.range g.total := by
    apply List.filter_eq_self.mpr
    intro i hi
    simpa using (hall i).mpr (List.mem_range.mp hi)
  obtain ⟨s1, seg1, habs, -, hfree1, hun1, hpl1, -, hreg1, hpm1, -, hparts, -, -⟩ :=
    absorb_spec (g := g) (seed := seed) (List.range g.total) s0 ⟨[seed], [seed]⟩ 0 hI.hist List.nodup_range
      (fun i hi => ⟨by rw [hfree']; exact hi, List.mem_range.mp hi, hg.planar i (List.mem_range.mp hi)⟩)
      hI.freeNodup hI.untried
  have hun0 : s1.untried = 0 := by
    rw [hun1, hfree1, hfree']
    simp
  have hlen0 : s0.planeMap.length = g.total := by
    unfold start at hst
    obtain ⟨hist, -, hst⟩ := Outcome.bind_eq_ok hst
    cases hst
    simp
  have hmc : ¬ (0 + (List.range g.total).length = 0 ∨ 0 + (List.range g.total).length < g.minCells) := by
    rw [List.length_range]
    unfold Scene.minCells
    omega
  have hturn : growAtSeed g fuel s0 seed =
      .ok (addPlane s1 ⟨seed :: List.range g.total, seed :: List.range g.total⟩ (List.range g.total)) := by
    unfold growAtSeed
    rw [hg.planar seed hs, hgrow]
    simp only [Bool.not_true, Bool.false_eq_true, if_false, Outcome.bind, hcells, habs, if_neg hmc, Seg.fit, hparts,
      List.singleton_append, (hg.fit seed hs).1, (hg.fit seed hs).2, if_true]
  have hfuel : ∃ k, fuel = k + 2 := ⟨fuel - 2, by omega⟩
  obtain ⟨k, rfl⟩ := hfuel
  refine ⟨addPlane s1 ⟨seed :: List.range g.total, seed :: List.range g.total⟩ (List.range g.total), seed, ?_, hs, ?_,
    ?_, ?_⟩
  · unfold detect
    rw [hst]
    simp only [Outcome.bind]
    rw [growLoop, if_neg (by rw [hI.untried, hfree', List.length_range]; omega)]
    simp only [if_neg (Nat.not_lt.mpr hmin), hpick, hturn, Outcome.bind]
    rw [growLoop, if_pos (by simpa [addPlane] using hun0)]
  · simp [addPlane, hpl1, hpl]
  · simp [addPlane, hreg1, hreg]
  · intro c hc
    have := paint_getD (List.range g.total) (s1.planes ++ [(⟨seed :: List.range g.total, seed :: List.range g.total⟩ : Seg)]).length
      s1.planeMap c (by
        intro x hx
        rw [hpm1, hlen0]
        exact List.mem_range.mp hx)
    rw [if_pos (List.mem_range.mpr hc)] at this
    simpa [addPlane, hpl1, hpl] using this

/-- A planar cell has an error. -/
theorem init_error {solve : Sym3 ℚ → Eigen3 ℚ} {eps : ℚ} {width minCount : ℕ} {cell : List (Pt ℚ)} {p : Patch}
    (h : Patch.new.init solve eps width minCount cell = .ok p) (hp : p.planar = true) : ∃ e, p.mse = some e := by
  unfold Patch.init at h
  have hno : ∀ {q : Patch}, Outcome.ok (Patch.new.clear) = .ok q → q.planar = true → False := by
    intro q hq hpq
    cases hq
    cases hpq
  obtain ⟨a, -, h⟩ := Outcome.bind_eq_ok h
  split at h
  · exact (hno h hp).elim
  obtain ⟨b, -, h⟩ := Outcome.bind_eq_ok h
  split at h
  · exact (hno h hp).elim
  split at h
  · exact (hno h hp).elim
  dsimp only at h
  split at h
  · cases h
    cases hp
  split at h
  · cases h
  generalize Patch.fit solve eps _ = q at h
  cases h
  rcases hq : q.mse with - | e
  · simp [hq] at hp
  · exact ⟨e, rfl⟩

/-- The grid is initialised when each of its cells is. -/
theorem initCells_ok (num : Numerics V) (cloud : ℕ → List (Pt ℚ)) : ∀ (n i : ℕ) (m : Members),
    i + n ≤ m.planeGrid.length →
    (∀ j, i ≤ j → j < i + n → ∃ p, Patch.new.init num.solve num.eps num.width num.minCount (cloud j) = .ok p) →
    ∃ m', initCells num cloud n i m = .ok m' := by
  intro n
  induction n with
  | zero => intro i m _ _; exact ⟨m, rfl⟩
  | succ n ih =>
    intro i m hl h
    obtain ⟨p, hp⟩ := h i (Nat.le_refl _) (by omega)
    have hi : i < m.planeGrid.length := by omega
    simp only [initCells, List.getElem?_eq_getElem hi]
    rw [init_eq _ _ _ _ _ _ Patch.new, hp, Outcome.bind_ok]
    exact ih _ _ (by simp only [List.length_set]; omega) fun j h1 h2 => h j (by omega) (by omega)

/-- The detection gives a result when `Primitives.detect` does. -/
theorem findPrimitives_ok (num : Numerics V) (closing : List ℕ → List ℕ) (survives : List ℕ → Bool) (fuel : ℕ)
    (cloud : ℕ → List (Pt ℚ)) (random : ℕ → V) {w h : ℕ} {m m1 : Members} (hm : Shape w h m)
    (e1 : initPlanarCellFitting num cloud (resetData m) = .ok m1) {s : St}
    (hs : detect (scene num random m1) fuel = .ok s) :
    ∃ r, findPrimitives num closing survives fuel cloud random m = .ok r := by
  have hst := initHistogram_start num random cloud hm e1
  unfold findPrimitives
  rw [e1, Outcome.bind_ok]
  dsimp only
  unfold detect at hs
  rw [← hst] at hs
  obtain ⟨s0, e2, hs⟩ := Outcome.bind_eq_ok hs
  obtain ⟨r2, e3, e2⟩ := Outcome.bind_eq_ok e2
  cases e2
  rw [e3, Outcome.bind_ok]
  unfold growPlanesAndCylinders
  rw [hs]
  exact ⟨_, rfl⟩

/-- The only plane is left alone by the merge, and its mask is the whole grid. -/
theorem masks_one {g : Scene} {s : St} {seg : Seg} (hp : s.planes = [seg]) (hfit : g.planarFit seg.fitted = true)
    (hmap : ∀ c, c < g.total → s.planeMap.getD c 0 = 1) :
    planeMasks g s (mergePlanes g (s.adj g) s.planes) = [(seg, List.range g.total)] := by
  have hm : mergePlanes g (s.adj g) s.planes = { segs := [seg], labels := [0] } := by
    rw [hp]
    simp [mergePlanes, mergeRow, hfit]
  rw [hm]
  have hfil : ((List.range g.total).filter fun c =>
      (List.range 1).any fun j => decide (0 ≤ j) && ([0] : List ℕ).getD j 0 == 0 && s.planeMap.getD c 0 == j + 1) =
      List.range g.total := by
    apply List.filter_eq_self.mpr
    intro c hc
    have := hmap c (List.mem_range.mp hc)
    rw [List.getD_eq_getElem?_getD] at this
    simp [this]
  simp only [planeMasks, List.length_singleton]
  have h1 : (List.range 1).filter (fun i => ([0] : List ℕ).getD i 0 == i &&
      g.planarFit (([seg] : List Seg).getD i noSeg).fitted) = [0] := by
    simp [hfit]
  rw [h1]
  simp only [List.map_cons, List.map_nil, hfil]
  rfl

/-- **C204** (partial): on a wall that fills the image, whatever the frames treated before, when each cell is found
planar and may be merged with its neighbours, 0.8 % of the cells at least have one direction, and the fit on the
points of all the cells is accepted as a plane, the detector gives one plane made of all the cells, and no cylinder.
`cells i` is what a new patch becomes on the points of cell `i`.  The cell chosen as seed counts twice in the plane.

Missing: that the cells of a wall are found planar, which `C204_perfect_wall_false` refutes. -/
theorem C204_wall_partial (num : Numerics V) (closing : List ℕ → List ℕ) (survives : List ℕ → Bool) (fuel w h : ℕ)
    (garbage : List ℕ) (frames : List ((ℕ → List (Pt ℚ)) × (ℕ → V))) (m : Members)
    (hrun : treat num closing survives fuel frames (new w h garbage) = .ok m) (cloud : ℕ → List (Pt ℚ))
    (random : ℕ → V) (hfuel : w * h < fuel) (cells : ℕ → Patch)
    (hcells : ∀ i, i < w * h →
      Patch.new.init num.solve num.eps num.width num.minCount (cloud i) = .ok (cells i) ∧ (cells i).planar = true)
    (hangles : ∀ i, i < w * h → 0 ≤ (num.direction (cells i)).1 ∧ (num.direction (cells i)).1 ≤ 1 ∧
      0 ≤ (num.direction (cells i)).2 ∧ (num.direction (cells i)).2 ≤ 1)
    (hdir : ∃ (k : ℕ) (l : List ℕ), l.Nodup ∧ l ≠ [] ∧ w * h * 8 / 1000 ≤ l.length ∧
      ∀ i ∈ l, i < w * h ∧ Quantised (num.direction (cells i)).1 (num.direction (cells i)).2 k)
    (hmerge : ∀ a b, (a = b ∧ a < w * h) ∨ Neighbour w h a b →
      num.merge (cells a) (cells b) (num.tolerance (cells b) (cloud b)) = true)
    (hfit : ∀ seed, seed < w * h → num.planarFit (cells seed :: (List.range (w * h)).map cells) = true ∧
      num.highScore (cells seed :: (List.range (w * h)).map cells) = true) :
    ∃ r seed, findPrimitives num closing survives fuel cloud random m = .ok r ∧ seed < w * h ∧
      r.2.planes = [(⟨seed :: List.range (w * h), seed :: List.range (w * h)⟩, List.range (w * h))] ∧
      r.2.cylinders = [] := by
  have hm := treat_shape num closing survives fuel frames _ _ (new_shape w h garbage) hrun
  have hsh := resetData_shape hm
  have hlen : (resetData m).planeGrid.length = w * h := hsh.grid
  obtain ⟨m1, e1⟩ := initCells_ok num cloud (resetData m).planeGrid.length 0 (resetData m) (by omega)
    (fun j _ hj => ⟨_, (hcells j (by omega)).1⟩)
  have hs1 := initCells_shape num cloud _ _ _ _ hsh e1
  have hcell : ∀ i, i < w * h → m1.planeGrid.getD i Patch.new = cells i ∧
      m1.cellDistanceTols.getD i 0 = num.tolerance (cells i) (cloud i) := by
    intro i hi
    obtain ⟨p, hp, hg, ht⟩ := (initCells_cell num cloud _ _ _ _ e1).2 i (by omega) (by omega)
    rw [(hcells i hi).1] at hp
    cases hp
    have htl : i < (resetData m).cellDistanceTols.length := by
      have := hsh.tols
      omega
    rw [List.getD_eq_getElem?_getD, List.getD_eq_getElem?_getD, hg, ht htl, (hcells i hi).2]
    exact ⟨rfl, rfl⟩
  have htot : (scene num random m1).total = w * h := by
    simp [Scene.total, scene, hs1.width, hs1.height]
  have hlist : ∀ seed, seed < w * h → (seed :: List.range (w * h)).map (fun i => m1.planeGrid.getD i Patch.new) =
      cells seed :: (List.range (w * h)).map cells := by
    intro seed hs
    rw [List.map_cons, (hcell seed hs).1]
    congr 1
    apply List.map_congr_left
    intro i hi
    exact (hcell i (List.mem_range.mp hi)).1
  have hnb : ∀ {a b}, Neighbour w h a b → a < w * h ∧ b < w * h := by
    rintro a b ⟨x, y, x', y', h1, h2, h3, h4, rfl, rfl, -⟩
    have lt : ∀ {x y : ℕ}, x < w → y < h → x + w * y < w * h := by
      intro x y hx hy
      calc x + w * y < w + w * y := by omega
        _ = w * (y + 1) := by ring
        _ ≤ w * h := Nat.mul_le_mul_left _ hy
    exact ⟨lt h1 h2, lt h3 h4⟩
  have hwall : Spec.Wall (scene num random m1) := by
    refine ⟨?_, ?_, ?_, ?_, ?_, ?_⟩
    · intro i hi
      rw [htot] at hi
      show (m1.planeGrid.getD i Patch.new).planar = true
      rw [(hcell i hi).1]
      exact (hcells i hi).2
    · intro i hi
      rw [htot] at hi
      show ∃ e, (m1.planeGrid.getD i Patch.new).mse = some e
      rw [(hcell i hi).1]
      exact init_error (hcells i hi).1 (hcells i hi).2
    · intro i hi _
      rw [htot] at hi
      have := hangles i hi
      rw [← (hcell i hi).1] at this
      exact this
    · obtain ⟨k, l, h1, h2, h3, h4⟩ := hdir
      refine ⟨k, l, h1, h2, by rw [htot]; exact h3, fun i hi => ?_⟩
      obtain ⟨h5, h6⟩ := h4 i hi
      rw [htot]
      rw [← (hcell i h5).1] at h6
      exact ⟨h5, h6⟩
    · intro a b hab
      rw [htot] at hab
      have hab : (a = b ∧ a < w * h) ∨ Neighbour w h a b := by
        have e1 : (scene num random m1).w = w := hs1.width
        have e2 : (scene num random m1).h = h := hs1.height
        rwa [e1, e2] at hab
      have hlt : a < w * h ∧ b < w * h := by
        rcases hab with ⟨rfl, h1⟩ | h1
        · exact ⟨h1, h1⟩
        · exact hnb h1
      have := hmerge a b hab
      show num.merge (m1.planeGrid.getD a Patch.new) (m1.planeGrid.getD b Patch.new) (m1.cellDistanceTols.getD b 0) = true
      rw [(hcell a hlt.1).1, (hcell b hlt.2).1, (hcell b hlt.2).2]
      exact this
    · intro seed hs
      rw [htot] at hs ⊢
      have := hfit seed hs
      rw [← hlist seed hs] at this
      exact this
  obtain ⟨s, seed, hd, hs, hpl, hreg, hmap⟩ := detect_wall hwall (by rw [htot]; exact hfuel)
  obtain ⟨r, hr⟩ := findPrimitives_ok num closing survives fuel cloud random hm e1 hd
  obtain ⟨s', hd', hrp⟩ := findPrimitives_detect num closing survives fuel cloud random hm e1 hr
  rw [hd] at hd'
  cases hd'
  refine ⟨r, seed, hr, by rw [← htot]; exact hs, ?_, findPrimitives_regions num closing survives fuel cloud random hm e1
    hr hd hreg⟩
  rw [hrp, masks_one hpl (hwall.fit seed hs).1 hmap, htot]

/-- Non-vacuity of the wall: the cells of the demonstration meet the hypotheses, -/
example : ∃ r seed, findPrimitives demoNumerics id (fun _ => true) 50 (fun _ => demoCell) id (new 2 2 [3]) = .ok r ∧
    seed < 2 * 2 ∧
      r.2.planes = [(⟨seed :: List.range (2 * 2), seed :: List.range (2 * 2)⟩, List.range (2 * 2))] ∧
      r.2.cylinders = [] := by
  have hc : ∃ p, Patch.new.init demoNumerics.solve demoNumerics.eps demoNumerics.width demoNumerics.minCount demoCell =
      .ok p ∧ p.planar = true := by
    have h : (Patch.new.init demoNumerics.solve demoNumerics.eps demoNumerics.width demoNumerics.minCount
        demoCell).holds (fun p => p.planar) = true := by decide +kernel
    rcases hx : Patch.new.init demoNumerics.solve demoNumerics.eps demoNumerics.width demoNumerics.minCount demoCell with
      p | _ | _ | _ | _ | _ <;> rw [hx] at h
    · exact ⟨p, rfl, h⟩
    all_goals cases h
  obtain ⟨p, hp, hpl⟩ := hc
  refine C204_wall_partial demoNumerics id (fun _ => true) 50 2 2 [3] [] _ rfl (fun _ => demoCell) id (by omega)
    (fun _ => p) (fun _ _ => ⟨hp, hpl⟩) (fun _ _ => by simp [demoNumerics]) ⟨0, [0], by simp, by simp, by omega, ?_⟩
    (fun _ _ _ => by simp [demoNumerics]) (fun _ _ => by simp [demoNumerics])
  intro i hi
  simp only [List.mem_singleton] at hi
  subst hi
  refine ⟨by omega, 0, 0, rfl, by simp [demoNumerics], by simp [demoNumerics], .inl ⟨rfl, rfl⟩⟩

/-- and so does the perfect wall: four points at the same depth, and nothing is found. -/
def perfectCell : List (Pt ℚ) := [⟨1, 1, 10⟩, ⟨2, 1, 10⟩, ⟨1, 2, 10⟩, ⟨2, 2, 10⟩]

example : Flat (measured perfectCell) ∧
    (findPrimitives demoNumerics id (fun _ => true) 50 (fun _ => perfectCell) id (new 2 2 [3])).holds
      (fun r => r.2.planes == [] && r.2.cylinders == []) = true := by
  refine ⟨⟨⟨0, 0, 1⟩, -10, by simp, ?_⟩, by decide +kernel⟩
  decide +kernel

/-- A cell found planar is so in the grid of the detector too: `C204_noisy_cell` gives cells as `C204_wall_partial`
takes them. -/
theorem C204_cell_of_the_grid {solve : Sym3 ℚ → Eigen3 ℚ} {eps : ℚ} {width minCount : ℕ} {cell : List (Pt ℚ)} {c : Cell ℚ}
    (h : PlaneSegment.init solve eps width minCount cell = .ok c) (hp : c.planar = true) :
    ∃ p, Patch.new.init solve eps width minCount cell = .ok p ∧ p.planar = true := by
  unfold PlaneSegment.init at h
  unfold Patch.init
  obtain ⟨a, ha, h⟩ := Outcome.bind_eq_ok h
  rw [ha, Outcome.bind_ok]
  split at h
  · cases h; cases hp
  rename_i h1
  rw [if_neg h1]
  obtain ⟨b, hb, h⟩ := Outcome.bind_eq_ok h
  rw [hb, Outcome.bind_ok]
  split at h
  · cases h; cases hp
  rename_i h2
  rw [if_neg h2]
  split at h
  · cases h; cases hp
  rename_i h3
  rw [if_neg h3]
  dsimp only at h ⊢
  have est : (cell.foldl Stats.add { Patch.new.clear.stats with n := 0 }) = Stats.ofCell cell := rfl
  rw [est]
  split at h
  · cases h; cases hp
  rename_i h4
  rw [if_neg h4]
  split at h
  · cases h
  rename_i h5
  rw [if_neg h5]
  split at h
  · cases h; cases hp
  rename_i f hf
  cases h
  refine ⟨_, rfl, ?_⟩
  simp only [Patch.fit, hf]
  have hcf : f.centroid = (Stats.ofCell cell).centroid := by
    unfold Stats.fit at hf
    dsimp only at hf
    split at hf
    · cases hf
    · cases hf; rfl
  rw [← hcf]
  exact hp

end RgbdSlam.Detector
