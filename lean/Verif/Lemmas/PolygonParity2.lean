import Verif.Lemmas.PolygonParity
/- The parity of the edges on the right of a point near a point of the outline, in a direction. -/
namespace RgbdSlam.PolygonRepair

theorem on_lerp {a b : Pt} {s s' : ℚ} (h0 : 0 ≤ s) (h1 : s ≤ 1) (h0' : 0 ≤ s') (h1' : s' ≤ 1) {r : ℚ} (r0 : 0 ≤ r)
    (r1 : r ≤ 1) : On a b (lerp (lerp a b s) (lerp a b s') r) := by
  refine ⟨s + r * (s' - s), by nlinarith, by nlinarith, ?_⟩
  simp only [lerp]
  ext <;> simp only <;> ring

open Classical in
/-- What an edge that contains the point adds near this point, in a direction. -/
noncomputable def tau (a b p d : Pt) : ZMod 2 := if On a b p then ind (LeftOf (a - p) d) + ind (LeftOf (b - p) d) else 0

theorem leftOf_parallel {u v : Pt} (h : cross u v = 0) : ind (LeftOf u v) = 0 := by
  refine ind_false ?_
  unfold LeftOf
  rw [h]
  simp

theorem tau_on {a b p : Pt} (h : On a b p) (d : Pt) : tau a b p d = ind (LeftOf (a - p) d) + ind (LeftOf (b - p) d) :=
  if_pos h

theorem tau_off {a b p : Pt} (h : ¬ On a b p) (d : Pt) : tau a b p d = 0 := if_neg h

theorem chi_on {a b p : Pt} (h : On a b p) (w : Pt) : chi a b p w = tau a b p (w - p) := by
  rw [chi_split h, chi_ends, chi_ends, tau_on h]

/-- The edges that are met at the ends only. -/
theorem chi_tau {a b z w : Pt} (h : ∀ s : ℚ, 0 < s → s < 1 → ¬ On a b (lerp z w s)) :
    chi a b z w = tau a b z (w - z) + tau a b w (z - w) := by
  by_cases hz : On a b z <;> by_cases hw : On a b w
  · exfalso
    obtain ⟨s, h0, h1, hz⟩ := hz
    obtain ⟨s', h0', h1', hw⟩ := hw
    refine h (1 / 2) (by norm_num) (by norm_num) ?_
    rw [hz, hw]
    exact on_lerp h0 h1 h0' h1' (by norm_num) (by norm_num)
  · rw [tau_off hw, add_zero, chi_on hz]
  · rw [tau_off hz, zero_add, ← chi_swap_right, chi_on hw]
  · rw [tau_off hz, tau_off hw, add_zero]
    refine chi_disjoint ?_
    rintro p hp ⟨s, h0, h1, rfl⟩
    rcases h0.eq_or_lt with rfl | h0
    · exact hz (by simpa [lerp] using hp)
    rcases h1.eq_or_lt with rfl | h1
    · exact hw (by simpa [lerp] using hp)
    · exact h s h0 h1 hp

theorem tau_along {a b : Pt} {s : ℚ} {d : Pt} (hd : cross (b - a) d = 0) : tau a b (lerp a b s) d = 0 := by
  by_cases h : On a b (lerp a b s)
  · rw [tau_on h, leftOf_parallel, leftOf_parallel, add_zero]
    · simp only [cross, lerp, Prod.fst_sub, Prod.snd_sub] at hd ⊢
      linear_combination (1 - s) * hd
    · simp only [cross, lerp, Prod.fst_sub, Prod.snd_sub] at hd ⊢
      linear_combination -s * hd
  · exact tau_off h d

/-- The edge along which one goes. -/
theorem chi_own (a b : Pt) (s s' : ℚ) : chi a b (lerp a b s) (lerp a b s') =
    tau a b (lerp a b s) (lerp a b s' - lerp a b s) + tau a b (lerp a b s') (lerp a b s - lerp a b s') := by
  rw [tau_along, tau_along, add_zero]
  · refine chi_collinear ?_ ?_ ?_ ?_ <;> simp only [side, lerp] <;> ring
  · simp only [cross, lerp, Prod.fst_sub, Prod.snd_sub]; ring
  · simp only [cross, lerp, Prod.fst_sub, Prod.snd_sub]; ring

/-- The parity, near `p` in the direction `d`, of the number of edges on the right. -/
noncomputable def germ (q : ℕ → Pt) (n : ℕ) (p d : Pt) : ZMod 2 :=
  ∑ j ∈ Finset.range n, ind (rayR p (q j) (q (j + 1))) + ∑ j ∈ Finset.range n, tau (q j) (q (j + 1)) p d

theorem telescope (f : ℕ → ZMod 2) (n : ℕ) : ∑ j ∈ Finset.range n, (f j + f (j + 1)) = f 0 + f n := by
  induction n with
  | zero => simp [zmod2_add_self]
  | succ n ih =>
    rw [Finset.sum_range_succ, ih]
    linear_combination zmod2_add_self (f n)

/-- It is the same at both ends of a segment that the edges do not meet in between. -/
theorem germ_segment {q : ℕ → Pt} {n : ℕ} (hq : q 0 = q n) {z w : Pt} (h : ∀ j < n,
    (∀ s : ℚ, 0 < s → s < 1 → ¬ On (q j) (q (j + 1)) (lerp z w s)) ∨
      ∃ s s' : ℚ, z = lerp (q j) (q (j + 1)) s ∧ w = lerp (q j) (q (j + 1)) s') :
    germ q n z (w - z) = germ q n w (z - w) := by
  have key : ∀ j ∈ Finset.range n, chi (q j) (q (j + 1)) z w =
      tau (q j) (q (j + 1)) z (w - z) + tau (q j) (q (j + 1)) w (z - w) := by
    intro j hj
    rcases h j (Finset.mem_range.1 hj) with h | ⟨s, s', rfl, rfl⟩
    · exact chi_tau h
    · exact chi_own _ _ _ _
  have hsum := Finset.sum_congr rfl key
  have tele := telescope (fun j => ind (rayL (q j) z w)) n
  rw [← hq, zmod2_add_self] at tele
  have hchi : ∑ j ∈ Finset.range n, chi (q j) (q (j + 1)) z w =
      ∑ j ∈ Finset.range n, ind (rayR z (q j) (q (j + 1))) + ∑ j ∈ Finset.range n, ind (rayR w (q j) (q (j + 1))) := by
    rw [← Finset.sum_add_distrib, ← add_zero (∑ j ∈ Finset.range n, (_ + _)), ← tele, ← Finset.sum_add_distrib]
    refine Finset.sum_congr rfl fun j _ => ?_
    unfold chi
    ring
  rw [hchi, Finset.sum_add_distrib] at hsum
  unfold germ
  have e1 := zmod2_add_self (∑ j ∈ Finset.range n, ind (rayR w (q j) (q (j + 1))))
  have e2 := zmod2_add_self (∑ j ∈ Finset.range n, tau (q j) (q (j + 1)) z (w - z))
  linear_combination hsum - e1 + e2

theorem leftOf_scale_right (u v : Pt) {r : ℚ} (hr : 0 < r) : LeftOf u (r * v.1, r * v.2) ↔ LeftOf u v := by
  have := leftOf_scale (u := u) (v := v) one_pos hr
  rwa [one_mul, one_mul] at this

theorem leftOf_scale_left (u v : Pt) {r : ℚ} (hr : 0 < r) : LeftOf (r * u.1, r * u.2) v ↔ LeftOf u v := by
  have := leftOf_scale (u := u) (v := v) hr one_pos
  rwa [one_mul, one_mul] at this

theorem tau_scale (a b p d : Pt) {r : ℚ} (hr : 0 < r) : tau a b p (r * d.1, r * d.2) = tau a b p d := by
  by_cases h : On a b p
  · rw [tau_on h, tau_on h, ind_congr (leftOf_scale_right _ _ hr), ind_congr (leftOf_scale_right _ _ hr)]
  · rw [tau_off h, tau_off h]

theorem germ_scale (q : ℕ → Pt) (n : ℕ) (p d : Pt) {r : ℚ} (hr : 0 < r) :
    germ q n p (r * d.1, r * d.2) = germ q n p d := by
  unfold germ
  simp only [tau_scale _ _ _ _ hr]

/-- Whether the edge on which one goes is on the right of the points on its left. -/
def Up (d : Pt) : Prop := 0 < d.2 ∨ (d.2 = 0 ∧ d.1 < 0)

theorem up_scale (d : Pt) {r : ℚ} (hr : 0 < r) : Up (r * d.1, r * d.2) ↔ Up d := by
  unfold Up
  have n2 : r * d.1 < 0 ↔ d.1 < 0 := by rw [← not_le, ← not_le, mul_nonneg_iff_of_pos_left hr]
  simp only [mul_pos_iff_of_pos_left hr, n2, mul_eq_zero, hr.ne', false_or]

/-- Nothing changes at a corner. -/
theorem corner_local {e f : Pt} (h : cross e f ≠ 0) :
    ind (LeftOf f (-e)) + ind (Up e) = ind (LeftOf (-e) f) + ind (Up f) := by
  have e1 : cross f (-e) = cross e f := by simp only [cross, Prod.fst_neg, Prod.snd_neg]; ring
  have e2 : cross (-e) f = -cross e f := by simp only [cross, Prod.fst_neg, Prod.snd_neg]; ring
  have h0 : cross e f = e.1 * f.2 - e.2 * f.1 := rfl
  unfold LeftOf Up
  rw [e1, e2]
  simp only [Prod.snd_neg]
  have both : ¬ (e.2 = 0 ∧ f.2 = 0) := by
    rintro ⟨h1, h2⟩
    rw [h0, h1, h2] at h
    simp at h
  rcases lt_or_gt_of_ne h with hc | hc
  · have hc' : ¬ 0 < cross e f := by linarith
    have c1 : e.2 = 0 → 0 < f.2 → e.1 < 0 := by intro h1 h2; by_contra h3; rw [h0, h1] at hc; nlinarith
    have c2 : e.2 = 0 → f.2 < 0 → ¬ e.1 < 0 := by intro h1 h2 h3; rw [h0, h1] at hc; nlinarith
    have c3 : f.2 = 0 → 0 < e.2 → ¬ f.1 < 0 := by intro h1 h2 h3; rw [h0, h1] at hc; nlinarith
    have c4 : f.2 = 0 → e.2 < 0 → f.1 < 0 := by intro h1 h2; by_contra h3; rw [h0, h1] at hc; nlinarith
    simp only [hc, hc', and_false, false_or, or_false, and_true, Left.neg_neg_iff, neg_pos, Left.neg_nonpos_iff,
      Left.nonneg_neg_iff]
    clear h0 h e1 e2 hc hc'
    rcases lt_trichotomy e.2 0 with hu | hu | hu <;> rcases lt_trichotomy f.2 0 with hv | hv | hv
    all_goals
      unfold ind
      split_ifs <;> first | rfl | (exfalso; linarith) | (exfalso; grind)
  · have hc' : ¬ cross e f < 0 := by linarith
    have c1 : e.2 = 0 → f.2 < 0 → e.1 < 0 := by intro h1 h2; by_contra h3; rw [h0, h1] at hc; nlinarith
    have c2 : e.2 = 0 → 0 < f.2 → ¬ e.1 < 0 := by intro h1 h2 h3; rw [h0, h1] at hc; nlinarith
    have c3 : f.2 = 0 → e.2 < 0 → ¬ f.1 < 0 := by intro h1 h2 h3; rw [h0, h1] at hc; nlinarith
    have c4 : f.2 = 0 → 0 < e.2 → f.1 < 0 := by intro h1 h2; by_contra h3; rw [h0, h1] at hc; nlinarith
    simp only [hc, hc', and_false, false_or, or_false, and_true, Left.neg_neg_iff, neg_pos, Left.neg_nonpos_iff,
      Left.nonneg_neg_iff]
    clear h0 h e1 e2 hc hc'
    rcases lt_trichotomy e.2 0 with hu | hu | hu <;> rcases lt_trichotomy f.2 0 with hv | hv | hv
    all_goals
      unfold ind
      split_ifs <;> first | rfl | (exfalso; linarith) | (exfalso; grind)

theorem turn_local {u v : Pt} (h : cross u v ≠ 0) :
    ind (LeftOf (-v) (-u)) + ind (LeftOf v (-u)) + ind (Up u) = ind (LeftOf (-u) v) + ind (LeftOf u v) + ind (Up v) := by
  rw [leftOf_touch v u]
  linear_combination corner_local h

theorem cross_comm (u v : Pt) : cross v u = -cross u v := by simp only [cross]; ring

theorem differ_local {u v : Pt} (h : cross u v ≠ 0) :
    ind (LeftOf (-v) u) + ind (LeftOf v u) + ind (Up u) + 1 = ind (LeftOf (-u) v) + ind (LeftOf u v) + ind (Up v) := by
  have h' : cross v u ≠ 0 := by rw [cross_comm]; exact neg_ne_zero.2 h
  have := leftOf_cross h'
  rw [← turn_local h, ← this]
  linear_combination zmod2_add_self (ind (LeftOf (-v) u)) + zmod2_add_self (ind (LeftOf v u))

theorem leftOf_zero (d : Pt) : ind (LeftOf 0 d) = 0 := leftOf_parallel (by simp [cross])

theorem tau_inside {a b : Pt} {s : ℚ} (h0 : 0 < s) (h1 : s < 1) (d : Pt) :
    tau a b (lerp a b s) d = ind (LeftOf (-(b - a)) d) + ind (LeftOf (b - a) d) := by
  have h2 : 0 < 1 - s := by linarith
  rw [tau_on ⟨s, h0.le, h1.le, rfl⟩, ← ind_congr (leftOf_scale_left (-(b - a)) d h0),
    ← ind_congr (leftOf_scale_left (b - a) d h2)]
  congr 3
  · simp only [lerp]; ext <;> simp <;> ring
  · simp only [lerp]; ext <;> simp <;> ring

theorem tau_start (a b d : Pt) : tau a b a d = ind (LeftOf (b - a) d) := by
  rw [tau_on (on_left a b), sub_self, leftOf_zero, zero_add]

theorem tau_end (a b d : Pt) : tau a b b d = ind (LeftOf (-(b - a)) d) := by
  rw [tau_on (on_right a b), sub_self, leftOf_zero, add_zero, neg_sub]

/-- A point that is on two edges only. -/
theorem germ_two {q : ℕ → Pt} {n : ℕ} {p : Pt} {i j : ℕ} (hi : i < n) (hj : j < n) (hij : i ≠ j)
    (h : ∀ k < n, On (q k) (q (k + 1)) p → k = i ∨ k = j) (d : Pt) :
    germ q n p d = ∑ k ∈ Finset.range n, ind (rayR p (q k) (q (k + 1))) +
      (tau (q i) (q (i + 1)) p d + tau (q j) (q (j + 1)) p d) := by
  unfold germ
  congr 1
  refine Finset.sum_eq_add_of_mem i j (Finset.mem_range.2 hi) (Finset.mem_range.2 hj) hij ?_
  intro k hk hne
  refine tau_off (fun hon => ?_) d
  rcases h k (Finset.mem_range.1 hk) hon with rfl | rfl
  · exact hne.1 rfl
  · exact hne.2 rfl

section

variable {q : ℕ → Pt} {n : ℕ} {i j : ℕ} (hi : i < n) (hj : j < n) (hij : i ≠ j) {p : Pt}
  (h : ∀ k < n, On (q k) (q (k + 1)) p → k = i ∨ k = j)
include hi hj hij h

/-- The way from one edge to the other at a crossing. -/
theorem germ_turn {s s' : ℚ} (hs0 : 0 < s) (hs1 : s < 1) (hs0' : 0 < s') (hs1' : s' < 1)
    (hp : p = lerp (q i) (q (i + 1)) s) (hp' : p = lerp (q j) (q (j + 1)) s')
    (hc : cross (q (i + 1) - q i) (q (j + 1) - q j) ≠ 0) :
    germ q n p (-(q (i + 1) - q i)) + ind (Up (q (i + 1) - q i)) =
      germ q n p (q (j + 1) - q j) + ind (Up (q (j + 1) - q j)) := by
  have hz : ∀ u : Pt, cross u (-u) = 0 := by intro u; simp only [cross, Prod.fst_neg, Prod.snd_neg]; ring
  have hz' : ∀ u : Pt, cross u u = 0 := by intro u; simp only [cross]; ring
  have hz2 : ∀ u : Pt, cross (-u) u = 0 := by intro u; simp only [cross, Prod.fst_neg, Prod.snd_neg]; ring
  rw [germ_two hi hj hij h, germ_two hi hj hij h]
  have t1 : ∀ d, tau (q i) (q (i + 1)) p d = _ := fun d =>
    (congrArg (fun p => tau _ _ p d) hp).trans (tau_inside hs0 hs1 d)
  have t2 : ∀ d, tau (q j) (q (j + 1)) p d = _ := fun d =>
    (congrArg (fun p => tau _ _ p d) hp').trans (tau_inside hs0' hs1' d)
  rw [t1, t1, t2, t2, leftOf_parallel (hz _), leftOf_parallel (hz' _), leftOf_parallel (hz2 _), leftOf_parallel (hz' _)]
  linear_combination turn_local hc

/-- The two edges at a crossing. -/
theorem germ_differ {s s' : ℚ} (hs0 : 0 < s) (hs1 : s < 1) (hs0' : 0 < s') (hs1' : s' < 1)
    (hp : p = lerp (q i) (q (i + 1)) s) (hp' : p = lerp (q j) (q (j + 1)) s')
    (hc : cross (q (i + 1) - q i) (q (j + 1) - q j) ≠ 0) :
    germ q n p (q (i + 1) - q i) + ind (Up (q (i + 1) - q i)) ≠
      germ q n p (q (j + 1) - q j) + ind (Up (q (j + 1) - q j)) := by
  have hz' : ∀ u : Pt, cross u u = 0 := by intro u; simp only [cross]; ring
  have hz2 : ∀ u : Pt, cross (-u) u = 0 := by intro u; simp only [cross, Prod.fst_neg, Prod.snd_neg]; ring
  rw [germ_two hi hj hij h, germ_two hi hj hij h]
  have t1 : ∀ d, tau (q i) (q (i + 1)) p d = _ := fun d =>
    (congrArg (fun p => tau _ _ p d) hp).trans (tau_inside hs0 hs1 d)
  have t2 : ∀ d, tau (q j) (q (j + 1)) p d = _ := fun d =>
    (congrArg (fun p => tau _ _ p d) hp').trans (tau_inside hs0' hs1' d)
  rw [t1, t1, t2, t2, leftOf_parallel (hz' _), leftOf_parallel (hz' _), leftOf_parallel (hz2 _), leftOf_parallel (hz2 _)]
  intro he
  have := differ_local hc
  have h01 : (1 : ZMod 2) = 0 := by linear_combination this - he
  exact absurd h01 (by decide)

/-- The way from one edge to the next at a corner. -/
theorem germ_corner (hp : p = q (i + 1)) (hp' : p = q j)
    (hc : cross (q (i + 1) - q i) (q (j + 1) - q j) ≠ 0 ∨ ∃ r : ℚ, 0 < r ∧
      q (j + 1) - q j = (r * (q (i + 1) - q i).1, r * (q (i + 1) - q i).2)) :
    germ q n p (-(q (i + 1) - q i)) + ind (Up (q (i + 1) - q i)) =
      germ q n p (q (j + 1) - q j) + ind (Up (q (j + 1) - q j)) := by
  have hz' : ∀ u : Pt, cross u u = 0 := by intro u; simp only [cross]; ring
  rw [germ_two hi hj hij h, germ_two hi hj hij h]
  have t1 : ∀ d, tau (q i) (q (i + 1)) p d = _ := fun d =>
    (congrArg (fun p => tau _ _ p d) hp).trans (tau_end _ _ d)
  have t2 : ∀ d, tau (q j) (q (j + 1)) p d = _ := fun d =>
    (congrArg (fun p => tau _ _ p d) hp').trans (tau_start _ _ d)
  rw [t1, t1, t2, t2, leftOf_parallel (hz' _), leftOf_parallel (hz' _)]
  rcases hc with hc | ⟨r, hr, hc⟩
  · linear_combination corner_local hc
  · rw [hc, ind_congr (up_scale _ hr), leftOf_parallel, leftOf_parallel]
    · simp only [cross, Prod.fst_neg, Prod.snd_neg]; ring
    · simp only [cross, Prod.fst_neg, Prod.snd_neg]; ring

end

end RgbdSlam.PolygonRepair
