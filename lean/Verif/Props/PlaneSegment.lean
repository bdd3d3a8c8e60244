import Mathlib.Data.Real.Basic
import Mathlib.Tactic.LinearCombination
import Mathlib.Tactic.Positivity
import Verif.Lemmas.PlaneSegment
import Verif.Props.Primitives

/-
Properties of the plane segments: C37, C46, C69, C70.  The theorems hold in every ordered field, in particular for
the real numbers.
-/
set_option linter.unusedSectionVars false

namespace RgbdSlam.PlaneSegment

open RgbdSlam Spec

variable {K : Type*} [Field K] [LinearOrder K] [IsStrictOrderedRing K]

/-! ### C37: depth quantisation -/

/-- The depth quantisation is at least half a millimetre for every depth. -/
theorem C37_at_least_half (z : K) : 1 / 2 ≤ depthQuantization z := le_max_right _ _

/-- It does not decrease with depth for depths that are not negative. -/
theorem C37_monotone (a b : K) (ha : 0 ≤ a) (hab : a ≤ b) : depthQuantization a ≤ depthQuantization b := by
  unfold depthQuantization
  apply max_le_max _ le_rfl
  have : a * a ≤ b * b := mul_self_le_mul_self ha hab
  nlinarith

/-- It is the quadratic polynomial of the sensor where that exceeds half a millimetre. -/
theorem C37_value (z : K) (h : 1 / 2 ≤ -(53 / 100) + 74 / 100000 * z + 273 / 100000000 * (z * z)) :
    depthQuantization z = -(53 / 100) + 74 / 100000 * z + 273 / 100000000 * (z * z) := by
  have e : -(53 / 100) + 74 / 100 / 1000 * z + 273 / 100 * ((1 / 1000) * (1 / 1000)) * (z * z) =
      -(53 / 100) + 74 / 100000 * z + 273 / 100000000 * (z * z) := by ring
  unfold depthQuantization
  rw [e, max_eq_left h]

/-- Non-vacuity: at four metres the quantisation is 46.11 mm, at 10 cm half a millimetre. -/
example : depthQuantization (4000 : ℚ) = 4611 / 100 ∧ depthQuantization (100 : ℚ) = 1 / 2 := by
  decide +kernel

/-! ### C46: statistics of a union of points -/

/-- The statistics of a cell are those of its measured points. -/
theorem C46_cell_statistics (cell : List (Pt K)) : HasStats (Stats.ofCell cell) (measured cell) :=
  ofCell_stats cell

/-- Expanding a segment by others, one after the other and in any order, gives the statistics of the union (with
multiplicity) of their points. -/
theorem C46_union (a : Stats K) (p : List (Pt K)) (ha : HasStats a p) (parts : List (Stats K × List (Pt K)))
    (hp : ∀ x, x ∈ parts → HasStats x.1 x.2) (order : List (Stats K × List (Pt K))) (ho : order.Perm parts) :
    HasStats ((order.map Prod.fst).foldl Stats.expand a) (p ++ (parts.map Prod.snd).flatten) := by
  have key : ∀ (l : List (Stats K × List (Pt K))) (a : Stats K) (p : List (Pt K)), HasStats a p →
      (∀ x, x ∈ l → HasStats x.1 x.2) →
      HasStats ((l.map Prod.fst).foldl Stats.expand a) (p ++ (l.map Prod.snd).flatten) := by
    intro l
    induction l with
    | nil => intro a p ha _; simpa using ha
    | cons x l ih =>
      intro a p ha hx
      have := ih _ _ (expand_stats ha (hx x List.mem_cons_self)) (fun y hy => hx y (List.mem_cons_of_mem _ hy))
      simpa [List.append_assoc] using this
  have h1 := key order a p ha (fun x hx => hp x (ho.subset hx))
  exact stats_perm h1 (List.Perm.append_left p ((ho.map Prod.snd).flatten))

/-- The centroid is the mean point. -/
theorem C46_centroid (s : Stats K) (pts : List (Pt K)) (h : HasStats s pts) : s.centroid = mean pts :=
  centroid_eq h

/-- The matrix used by the fit is the matrix of sums of products of deviations from the mean; the value clamping on
its diagonal changes nothing; it is positive semi-definite, and its value along `v` is the spread of the points
along `v`. -/
theorem C46_covariance (s : Stats K) (pts : List (Pt K)) (h : HasStats s pts) (hne : pts ≠ []) :
    s.covariance.xx = total (fun p => (p.x - (mean pts).x) * (p.x - (mean pts).x)) pts ∧
    s.covariance.yy = total (fun p => (p.y - (mean pts).y) * (p.y - (mean pts).y)) pts ∧
    s.covariance.zz = total (fun p => (p.z - (mean pts).z) * (p.z - (mean pts).z)) pts ∧
    s.covariance.xy = total (fun p => (p.x - (mean pts).x) * (p.y - (mean pts).y)) pts ∧
    s.covariance.xz = total (fun p => (p.x - (mean pts).x) * (p.z - (mean pts).z)) pts ∧
    s.covariance.yz = total (fun p => (p.y - (mean pts).y) * (p.z - (mean pts).z)) pts ∧
    ∀ v : Pt K, v.dot (s.covariance.mul v) = spread pts v ∧ 0 ≤ v.dot (s.covariance.mul v) := by
  rw [covariance_eq h hne]
  refine ⟨rfl, rfl, rfl, rfl, rfl, rfl, fun v => ?_⟩
  rw [quad_eq]
  exact ⟨rfl, spread_nonneg pts v⟩

/-- Non-vacuity: two cells of two points, one of them without depth. -/
example : let a : List (Pt ℚ) := [⟨1, 2, 3⟩, ⟨5, 5, 0⟩]
    let b : List (Pt ℚ) := [⟨3, 2, 5⟩, ⟨2, 5, 4⟩]
    let s := (Stats.ofCell a).expand (Stats.ofCell b)
    s.centroid = ⟨2, 3, 4⟩ ∧ s.covariance = ⟨2, 6, 2, 0, 2, 0⟩ := by decide +kernel

/-- The last part of the property is false of the code: in a plane grown from a seed the points of the seed are
counted twice, as the seed is a copy of its cell to which all activated cells, itself included, are then
added. -/
theorem C46_seed_counted_twice_false :
    ¬ ∀ (g : Primitives.Scene), Primitives.Spec.ValidScene g → ∀ fuel, g.total < fuel →
      ∀ s, Primitives.detect g fuel = .ok s → ∀ p, p ∈ s.planes → ∀ c, Primitives.Spec.times c p ≤ 1 := by
  intro hall
  have hv : Primitives.Spec.ValidScene (Primitives.sample 3 2 (fun _ => true) true) := by
    intro i _ _
    show (0 : Rat) ≤ 1 / 2 ∧ (1 / 2 : Rat) ≤ 1 ∧ (0 : Rat) ≤ 1 / 2 ∧ (1 / 2 : Rat) ≤ 1
    decide +kernel
  have hr : (Primitives.detect (Primitives.sample 3 2 (fun _ => true) true) 7).holds
      (fun s => s.planes.any fun p => decide (Primitives.Spec.times 0 p = 2)) = true := by decide +kernel
  generalize hx : Primitives.detect (Primitives.sample 3 2 (fun _ => true) true) 7 = x at hr
  match x, hr with
  | .ok s, hr =>
    simp only [Outcome.holds, List.any_eq_true, decide_eq_true_eq] at hr
    obtain ⟨p, hp, h2⟩ := hr
    have := hall _ hv 7 (by decide) s hx p hp 0
    omega

/-- In a plane found by the extraction every cell is accumulated once, except at most one, the seed, which may be there
twice.  What is missing from the full statement: that the seed too is there once
(`C46_seed_counted_twice_false`). -/
theorem C46_counted_once_but_seed_partial (g : Primitives.Scene) (fuel : Nat) (hf : g.total < fuel)
    (s : Primitives.St) (h : Primitives.detect g fuel = .ok s) (p : Primitives.Seg) (hp : p ∈ s.planes) :
    ∃ seed, ∀ c, Primitives.Spec.times c p ≤ if c = seed then 2 else 1 := by
  unfold Primitives.Spec.times
  rcases Primitives.reached_parts hf (Primitives.detect_reached h) p hp with hn | ⟨seed, rest, he, hn⟩
  · refine ⟨0, fun c => ?_⟩
    have := List.nodup_iff_count.mp hn c
    split <;> omega
  · refine ⟨seed, fun c => ?_⟩
    have := List.nodup_iff_count.mp hn c
    rw [he, List.count_cons]
    by_cases hc : c = seed
    · rw [if_pos hc]; split <;> omega
    · rw [if_neg hc, if_neg (by simpa using fun h => hc h.symm)]
      omega

/-! ### C69: the fitted plane -/

/-- The plane fitted to a set of points goes through their mean, its offset is not negative (the normal is turned
to the camera), its normal is a unit vector and its mean square error is the mean of the squared distances of
the points to the plane. -/
theorem C69_fit (solve : Sym3 K → Eigen3 K) (eps : K) (s : Stats K) (pts : List (Pt K)) (h : HasStats s pts)
    (hne : pts ≠ []) (hs : IsEigen s.covariance (solve s.covariance)) (p : Plane K)
    (hp : s.fit solve eps = some p) :
    p.centroid = mean pts ∧ offset p.normal p.d (mean pts) = 0 ∧ 0 ≤ p.d ∧ p.normal.dot p.normal = 1 ∧
    p.mse = total (fun q => offset p.normal p.d q * offset p.normal p.d q) pts / pts.length := by
  unfold Stats.fit at hp
  simp only at hp
  split at hp
  · cases hp
  injection hp with hp
  subst hp
  have hc := centroid_eq h
  have hl : (solve s.covariance).l0 = spread pts (solve s.covariance).v0 := by
    rw [← quad_spread h hne, hs.eq]
    have := hs.unit
    simp only [Pt.dot] at this ⊢
    linear_combination (-(solve s.covariance).l0) * this
  have hl0 : |(solve s.covariance).l0| = (solve s.covariance).l0 := by
    rw [abs_of_nonneg]; rw [hl]; exact spread_nonneg _ _
  generalize hv : (solve s.covariance).v0 = v at *
  have hu := hs.unit
  rw [hv] at hu
  have hmse : ∀ (n : Pt K) (d : K), (∀ q, offset n d q * offset n d q = (v.dot q - v.dot (mean pts)) * (v.dot q - v.dot (mean pts))) →
      |(solve s.covariance).l0| * (1 / (s.n : K)) = total (fun q => offset n d q * offset n d q) pts / pts.length := by
    intro n d hq
    rw [hl0, hl, h.n]
    simp only [hq, spread]
    rw [div_eq_mul_one_div (total _ _)]
  simp only
  rw [hc]
  by_cases hd : -v.dot (mean pts) ≤ 0
  · simp only [hd, decide_true, if_true]
    refine ⟨trivial, ?_, by linarith, ?_, hmse _ _ ?_⟩
    · simp only [offset, Pt.dot]; ring
    · rw [← hu]; simp only [Pt.dot]; ring
    · intro q; simp only [offset, Pt.dot]; ring
  · simp only [hd, decide_false, Bool.false_eq_true, if_false]
    refine ⟨trivial, ?_, by linarith, hu, hmse _ _ ?_⟩
    · simp only [offset]; ring
    · intro q; simp only [offset]; ring

/-- Four points of the plane z = 3 (two of them 1 mm off) and the solution of their eigenproblem. -/
def square : List (Pt ℚ) := [⟨2, 0, 4⟩, ⟨-2, 0, 4⟩, ⟨0, 4, 2⟩, ⟨0, -4, 2⟩]

/-- Non-vacuity: the mean square error of the plane fitted to `square` is 1, and its normal looks to the camera. -/
example : (Stats.ofCell square).fit (fun m => ⟨m.zz, m.xx, ⟨0, 0, 1⟩⟩) (1 / 1000000000) =
    some ⟨⟨0, 0, 3⟩, ⟨0, 0, -1⟩, 3, 1, 2⟩ ∧
    IsEigen (Stats.ofCell square).covariance
      ⟨(Stats.ofCell square).covariance.zz, (Stats.ofCell square).covariance.xx, ⟨0, 0, 1⟩⟩ := by
  refine ⟨by decide +kernel, by decide +kernel, by decide +kernel⟩

/-! ### C70: planar cells -/

/-- In a cell of even dimensions that is declared planar, at least `minCount` and at least half of the pixels are measured, the mean square error of
the fitted plane is at most the squared depth quantisation at the centroid, and there is no jump in the middle
row from its second pixel on, nor in the middle column from its second pixel to the last but one.  What is missing from
the full statement: the first pixel of each line is not compared when it is nearer than the second one,
and the last pixel of the column is never looked at (`C70_first_pixel_false`, `C70_last_pixel_false`). -/
theorem C70_planar_cell_partial (solve : Sym3 K → Eigen3 K) (eps : K) (minCount k m : Nat) (hk : 0 < k)
    (cell : List (Pt K)) (hlen : cell.length = 2 * k * (2 * m)) (c : Cell K)
    (h : init solve eps (2 * k) minCount cell = .ok c) (hp : c.planar = true) :
    minCount ≤ (measured cell).length ∧ cell.length / 2 ≤ (measured cell).length ∧
    (∃ p, c.plane = some p ∧ p.centroid = mean (measured cell) ∧
      p.mse ≤ depthQuantization (mean (measured cell)).z * depthQuantization (mean (measured cell)).z) ∧
    NoJump (rowDepths (2 * k) cell m 1 (2 * k)) ∧
    NoJump (columnDepths (2 * k) cell k 1 (2 * m - 1)) := by
  obtain ⟨hh, hv, hn1, hn2, hst, p, hpl, hfit, hmse⟩ := init_planar h hp
  have hs := ofCell_stats cell
  rw [hst, hs.n] at hn1 hn2
  have hcent : p.centroid = mean (measured cell) := by
    rw [← centroid_eq hs, ← hst]
    unfold Stats.fit at hfit
    simp only at hfit
    split at hfit
    · cases hfit
    · injection hfit with hfit
      rw [← hfit]
  refine ⟨hn1, hn2, ⟨p, hpl, hcent, by rw [← hcent]; exact hmse⟩, ?_, ?_⟩
  · have h1 := lineContinuous_true (width := 2 * k) (by omega) hh
    have hstart : 2 * k * (cell.length / (2 * k)) / 2 = 2 * k * m := by
      rw [hlen, Nat.mul_div_cancel_left _ (by omega : 0 < 2 * k)]
      rw [show 2 * k * (2 * m) = 2 * (2 * k * m) by ring]
      omega
    rw [hstart] at h1
    have h2 := (List.isChain_cons.mp h1).2
    unfold NoJump rowDepths
    convert h2 using 2
    rw [List.map_map]
    apply List.map_congr_left
    intro i hi
    have hi' := List.mem_range.mp hi
    show depthOf (2 * k) cell m (1 + i) = depthOf (2 * k) cell ((2 * k * m + 1 + i) / (2 * k)) ((2 * k * m + 1 + i) % (2 * k))
    rw [show 2 * k * m + 1 + i = (1 + i) + 2 * k * m by ring, Nat.add_mul_div_left _ _ (by omega),
      Nat.add_mul_mod_self_left, Nat.div_eq_of_lt (by omega), Nat.mod_eq_of_lt (by omega), Nat.zero_add]
  · have h1 := lineContinuous_true (width := 2 * k) (by omega) hv
    rw [hlen, columnLoop_eq hk] at h1
    have h2 := (List.isChain_cons.mp h1).2
    unfold NoJump columnDepths
    rw [show 2 * m - 1 - 1 = 2 * m - 2 by omega]
    convert h2 using 2
    rw [List.map_map]
    apply List.map_congr_left
    intro i hi
    show depthOf (2 * k) cell (1 + i) k = depthOf (2 * k) cell ((2 * k * (1 + i) + k) / (2 * k)) ((2 * k * (1 + i) + k) % (2 * k))
    rw [show 2 * k * (1 + i) + k = k + 2 * k * (1 + i) by ring, Nat.add_mul_div_left _ _ (by omega),
      Nat.add_mul_mod_self_left, Nat.div_eq_of_lt (by omega), Nat.mod_eq_of_lt (by omega), Nat.zero_add]

/-- A 4 × 4 cell at 102.01 mm with one pixel at 100 mm, in place `i`. -/
def bump (i : Nat) : List (Pt ℚ) :=
  (List.range 16).map fun j =>
    { x := if j = 0 then 10 else if j = 1 then -10 else 0
      y := if j = 3 then 10 else if j = 4 then -10 else 0
      z := if j = i then 100 else 10201 / 100 }

/-- Solution of the eigenproblem of these cells. -/
def vertical (m : Sym3 ℚ) : Eigen3 ℚ := { l0 := m.zz, l1 := m.xx, v0 := ⟨0, 0, 1⟩ }

/-- The full statement is false: a jump of more than four times the quantisation (2 mm) from the first to the
second pixel of the middle row of a planar cell is not noticed. -/
theorem C70_first_pixel_false :
    ¬ ∀ (solve : Sym3 ℚ → Eigen3 ℚ) (eps : ℚ) (w h minCount : Nat) (cell : List (Pt ℚ)) (c : Cell ℚ),
      cell.length = w * h → IsEigen (Stats.ofCell cell).covariance (solve (Stats.ofCell cell).covariance) →
      init solve eps w minCount cell = .ok c → c.planar = true → NoJump (rowDepths w cell (h / 2) 0 w) := by
  intro hall
  have hr : (init vertical (1 / 1000000000) 4 11 (bump 8)).holds (fun c => c.planar) = true := by decide +kernel
  generalize hx : init vertical (1 / 1000000000) 4 11 (bump 8) = x at hr
  match x, hr with
  | .ok c, hr =>
    have := hall vertical (1 / 1000000000) 4 4 11 (bump 8) c (by decide +kernel)
      ⟨by decide +kernel, by decide +kernel⟩ hx hr
    revert this
    unfold NoJump
    have e : (rowDepths 4 (bump 8) (4 / 2) 0 4).filter (fun z => decide (0 < z)) =
        [100, 10201 / 100, 10201 / 100, 10201 / 100] := by decide +kernel
    rw [e, List.isChain_cons_cons]
    rintro ⟨h1, _⟩
    revert h1
    decide +kernel

/-- The last pixel of the middle column is not looked at. -/
theorem C70_last_pixel_false :
    ¬ ∀ (solve : Sym3 ℚ → Eigen3 ℚ) (eps : ℚ) (w h minCount : Nat) (cell : List (Pt ℚ)) (c : Cell ℚ),
      cell.length = w * h → IsEigen (Stats.ofCell cell).covariance (solve (Stats.ofCell cell).covariance) →
      init solve eps w minCount cell = .ok c → c.planar = true → NoJump (columnDepths w cell (w / 2) 0 h) := by
  intro hall
  have hr : (init vertical (1 / 1000000000) 4 11 (bump 14)).holds (fun c => c.planar) = true := by decide +kernel
  generalize hx : init vertical (1 / 1000000000) 4 11 (bump 14) = x at hr
  match x, hr with
  | .ok c, hr =>
    have := hall vertical (1 / 1000000000) 4 4 11 (bump 14) c (by decide +kernel)
      ⟨by decide +kernel, by decide +kernel⟩ hx hr
    revert this
    unfold NoJump
    have e : (columnDepths 4 (bump 14) (4 / 2) 0 4).filter (fun z => decide (0 < z)) =
        [10201 / 100, 10201 / 100, 10201 / 100, 100] := by decide +kernel
    rw [e, List.isChain_cons_cons, List.isChain_cons_cons, List.isChain_cons_cons]
    rintro ⟨_, _, h1, _⟩
    revert h1
    decide +kernel

/-- Reading the depths of a cell of even dimensions, at least two pixels wide and high, never leaves the
cell, and `init` fails only if all measured points have a null abscissa or a null ordinate. -/
theorem C70_no_out_of_bounds (solve : Sym3 K → Eigen3 K) (eps : K) (minCount k m : Nat) (hk : 0 < k) (hm : 0 < m)
    (cell : List (Pt K)) (hlen : cell.length = 2 * k * (2 * m))
    (hx : ∃ p, p ∈ measured cell ∧ p.x ≠ 0) (hy : ∃ p, p ∈ measured cell ∧ p.y ≠ 0) :
    ∃ c, init solve eps (2 * k) minCount cell = .ok c := by
  have hpos : ∀ (f : Pt K → K), (∃ p, p ∈ measured cell ∧ f p ≠ 0) →
      0 < total (fun p => f p * f p) (measured cell) := by
    intro f
    induction measured cell with
    | nil => rintro ⟨p, hp, _⟩; cases hp
    | cons q qs ih =>
      rintro ⟨p, hp, hne⟩
      rw [total_cons]
      have h0 : 0 ≤ total (fun p => f p * f p) qs := total_nonneg (fun _ => mul_self_nonneg _) qs
      rcases List.mem_cons.mp hp with rfl | hp
      · have : 0 < f p * f p := mul_self_pos.mpr hne
        linarith
      · have := ih ⟨p, hp, hne⟩
        have h1 := mul_self_nonneg (f q)
        linarith
  have hread : ∀ i, i < cell.length → ∃ z, depthAt cell i = .ok z := by
    intro i hi
    unfold depthAt
    rw [List.getElem?_eq_getElem hi]
    exact ⟨_, rfl⟩
  have hreads : ∀ places : List Nat, (∀ i, i ∈ places → i < cell.length) → ∃ zs, depthsAt cell places = .ok zs := by
    intro places
    induction places with
    | nil => intro _; exact ⟨[], rfl⟩
    | cons i is ih =>
      intro h
      obtain ⟨z, hz⟩ := hread i (h i List.mem_cons_self)
      obtain ⟨zs, hzs⟩ := ih (fun j hj => h j (List.mem_cons_of_mem _ hj))
      exact ⟨z :: zs, by rw [depthsAt, hz, Outcome.bind_ok, hzs, Outcome.bind_ok]⟩
  have hline : ∀ (a b : Nat) (places : List Nat), a < cell.length → b < cell.length →
      (∀ i, i ∈ places → i < cell.length) → ∃ r, lineContinuous cell a b places = .ok r := by
    intro a b places ha hb hp
    obtain ⟨za, hza⟩ := hread a ha
    obtain ⟨zb, hzb⟩ := hread b hb
    obtain ⟨zs, hzs⟩ := hreads places hp
    unfold lineContinuous
    rw [hza, Outcome.bind_ok, hzb, Outcome.bind_ok, hzs]
    simp only [Outcome.bind_ok]
    split
    · exact ⟨_, rfl⟩
    · exact ⟨_, rfl⟩
  have hkm : 2 * k * (2 * m) = 2 * (2 * k * m) := by ring
  have hge : 2 * k ≤ 2 * k * m := Nat.le_mul_of_pos_right _ hm
  obtain ⟨rh, hrh⟩ : ∃ r, horizontalContinuous (2 * k) cell = .ok r := by
    unfold horizontalContinuous
    have hstart : 2 * k * (cell.length / (2 * k)) / 2 = 2 * k * m := by
      rw [hlen, Nat.mul_div_cancel_left _ (by omega : 0 < 2 * k)]
      omega
    simp only [hstart]
    apply hline
    · omega
    · omega
    · intro i hi
      obtain ⟨j, hj, rfl⟩ := List.mem_map.mp hi
      have := List.mem_range.mp hj
      omega
  obtain ⟨rv, hrv⟩ : ∃ r, verticalContinuous (2 * k) cell = .ok r := by
    unfold verticalContinuous
    apply hline
    · omega
    · omega
    · intro i hi
      unfold columnLoop at hi
      have := List.mem_range.mp (List.mem_filter.mp hi).1
      omega
  unfold init
  simp only [hrh, hrv, Outcome.bind_ok]
  have hs := ofCell_stats cell
  split
  · exact ⟨_, rfl⟩
  split
  · exact ⟨_, rfl⟩
  split
  · exact ⟨_, rfl⟩
  split
  · exact ⟨_, rfl⟩
  split
  · rename_i hno
    exfalso
    apply hno
    refine ⟨by rw [hs.sxs]; exact hpos _ hx, by rw [hs.sys]; exact hpos _ hy, ?_⟩
    rw [hs.szs]
    obtain ⟨p, hp, _⟩ := hx
    refine hpos (fun p => p.z) ⟨p, hp, ?_⟩
    have := (List.mem_filter.mp hp).2
    simp only [decide_eq_true_eq] at this
    exact ne_of_gt this
  · split
    · exact ⟨_, rfl⟩
    · exact ⟨_, rfl⟩

end RgbdSlam.PlaneSegment
