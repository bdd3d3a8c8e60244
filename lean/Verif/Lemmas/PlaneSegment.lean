import Mathlib.Algebra.BigOperators.Group.List.Basic
import Mathlib.Algebra.Order.BigOperators.Group.List
import Mathlib.Algebra.Order.Field.Basic
import Mathlib.Data.List.Sort
import Mathlib.Tactic.Ring
import Mathlib.Tactic.FieldSimp
import Mathlib.Tactic.Linarith
import Mathlib.Tactic.NormNum
import Verif.Spec.PlaneSegment

/-
Lemmas on the statistics of plane segments.
-/
set_option linter.unusedSectionVars false

namespace RgbdSlam.PlaneSegment

open RgbdSlam Spec

variable {K : Type*} [Field K] [LinearOrder K] [IsStrictOrderedRing K]

omit [LinearOrder K] [IsStrictOrderedRing K] in
@[simp] theorem total_nil (f : Pt K → K) : total f [] = 0 := rfl

omit [LinearOrder K] [IsStrictOrderedRing K] in
@[simp] theorem total_cons (f : Pt K → K) (p : Pt K) (pts : List (Pt K)) :
    total f (p :: pts) = f p + total f pts := by simp [total]

omit [LinearOrder K] [IsStrictOrderedRing K] in
theorem total_append (f : Pt K → K) (a b : List (Pt K)) : total f (a ++ b) = total f a + total f b := by
  simp [total]

omit [LinearOrder K] [IsStrictOrderedRing K] in
theorem total_perm (f : Pt K → K) {a b : List (Pt K)} (h : a.Perm b) : total f a = total f b :=
  (h.map f).sum_eq

omit [IsStrictOrderedRing K] in
theorem foldl_add_stats (cell : List (Pt K)) : ∀ (s : Stats K) (pts : List (Pt K)), HasStats s pts →
    HasStats (cell.foldl Stats.add s) (pts ++ measured cell) := by
  induction cell with
  | nil => intro s pts h; simpa [measured] using h
  | cons p ps ih =>
    intro s pts h
    rw [List.foldl_cons]
    by_cases hz : 0 < p.z
    · have : HasStats (s.add p) (pts ++ [p]) := by
        constructor <;> simp only [Stats.add, hz, if_true] <;>
          first
          | (rw [h.n]; simp)
          | (rw [total_append]; simp [h.sx, h.sy, h.sz, h.sxs, h.sys, h.szs, h.sxy, h.syz, h.szx])
      have := ih _ _ this
      rw [List.append_assoc] at this
      have e : measured (p :: ps) = [p] ++ measured ps := by simp [measured, hz]
      rw [e]
      exact this
    · have e : measured (p :: ps) = measured ps := by simp [measured, hz]
      have e2 : s.add p = s := by simp [Stats.add, hz]
      rw [e, e2]
      exact ih _ _ h

omit [IsStrictOrderedRing K] in
theorem ofCell_stats (cell : List (Pt K)) : HasStats (Stats.ofCell cell) (measured cell) := by
  have h0 : HasStats (Stats.clear : Stats K) [] := by constructor <;> rfl
  have := foldl_add_stats cell _ _ h0
  simpa [Stats.ofCell] using this

omit [LinearOrder K] [IsStrictOrderedRing K] in
theorem expand_stats {a b : Stats K} {p q : List (Pt K)} (ha : HasStats a p) (hb : HasStats b q) :
    HasStats (a.expand b) (p ++ q) := by
  constructor <;> simp only [Stats.expand] <;>
    first
    | (rw [ha.n, hb.n]; simp)
    | (rw [total_append]
       simp [ha.sx, ha.sy, ha.sz, ha.sxs, ha.sys, ha.szs, ha.sxy, ha.syz, ha.szx,
         hb.sx, hb.sy, hb.sz, hb.sxs, hb.sys, hb.szs, hb.sxy, hb.syz, hb.szx])

omit [LinearOrder K] [IsStrictOrderedRing K] in
theorem stats_perm {s : Stats K} {p q : List (Pt K)} (h : HasStats s p) (hpq : p.Perm q) : HasStats s q := by
  constructor
  · rw [h.n, hpq.length_eq]
  · rw [h.sx]; exact total_perm _ hpq
  · rw [h.sy]; exact total_perm _ hpq
  · rw [h.sz]; exact total_perm _ hpq
  · rw [h.sxs]; exact total_perm _ hpq
  · rw [h.sys]; exact total_perm _ hpq
  · rw [h.szs]; exact total_perm _ hpq
  · rw [h.sxy]; exact total_perm _ hpq
  · rw [h.syz]; exact total_perm _ hpq
  · rw [h.szx]; exact total_perm _ hpq

omit [LinearOrder K] [IsStrictOrderedRing K] in
theorem stats_unique {s t : Stats K} {p : List (Pt K)} (h : HasStats s p) (h' : HasStats t p) : s = t := by
  ext
  · rw [h.n, h'.n]
  · rw [h.sx, h'.sx]
  · rw [h.sy, h'.sy]
  · rw [h.sz, h'.sz]
  · rw [h.sxs, h'.sxs]
  · rw [h.sys, h'.sys]
  · rw [h.szs, h'.szs]
  · rw [h.sxy, h'.sxy]
  · rw [h.syz, h'.syz]
  · rw [h.szx, h'.szx]

theorem len_ne_zero {pts : List (Pt K)} (h : pts ≠ []) : (pts.length : K) ≠ 0 := by
  have : 0 < pts.length := List.length_pos_iff.mpr h
  exact_mod_cast this.ne'

omit [LinearOrder K] [IsStrictOrderedRing K] in
theorem centroid_eq {s : Stats K} {pts : List (Pt K)} (h : HasStats s pts) : s.centroid = mean pts := by
  ext <;> simp [Stats.centroid, mean, h.n, h.sx, h.sy, h.sz, div_eq_mul_inv]

omit [LinearOrder K] [IsStrictOrderedRing K] in
/-- Sum of products of deviations from arbitrary values. -/
theorem total_dev (f g : Pt K → K) (a b : K) (pts : List (Pt K)) :
    total (fun p => (f p - a) * (g p - b)) pts =
      total (fun p => f p * g p) pts - b * total f pts - a * total g pts + pts.length * (a * b) := by
  induction pts with
  | nil => simp
  | cons p ps ih =>
    simp only [total_cons, ih, List.length_cons]
    push_cast
    ring

theorem total_nonneg {f : Pt K → K} (hf : ∀ p, 0 ≤ f p) (pts : List (Pt K)) : 0 ≤ total f pts := by
  induction pts with
  | nil => simp
  | cons p ps ih => rw [total_cons]; exact add_nonneg (hf p) ih

omit [LinearOrder K] [IsStrictOrderedRing K] in
/-- The König-Huygens formula. -/
theorem huygens (f g : Pt K → K) (pts : List (Pt K)) (h : (pts.length : K) ≠ 0) :
    total (fun p => (f p - total f pts / pts.length) * (g p - total g pts / pts.length)) pts =
      total (fun p => f p * g p) pts - total f pts * total g pts * (1 / (pts.length : K)) := by
  rw [total_dev]
  field_simp
  ring

theorem covariance_eq {s : Stats K} {pts : List (Pt K)} (h : HasStats s pts) (hne : pts ≠ []) :
    s.covariance =
      { xx := total (fun p => (p.x - (mean pts).x) * (p.x - (mean pts).x)) pts
        yy := total (fun p => (p.y - (mean pts).y) * (p.y - (mean pts).y)) pts
        zz := total (fun p => (p.z - (mean pts).z) * (p.z - (mean pts).z)) pts
        xy := total (fun p => (p.x - (mean pts).x) * (p.y - (mean pts).y)) pts
        xz := total (fun p => (p.x - (mean pts).x) * (p.z - (mean pts).z)) pts
        yz := total (fun p => (p.y - (mean pts).y) * (p.z - (mean pts).z)) pts } := by
  have hn := len_ne_zero hne
  have hx := huygens (fun p => p.x) (fun p => p.x) pts hn
  have hy := huygens (fun p => p.y) (fun p => p.y) pts hn
  have hz := huygens (fun p => p.z) (fun p => p.z) pts hn
  have hxy := huygens (fun p => p.x) (fun p => p.y) pts hn
  have hxz := huygens (fun p => p.x) (fun p => p.z) pts hn
  have hyz := huygens (fun p => p.y) (fun p => p.z) pts hn
  ext
  · simp only [Stats.covariance, mean, h.n, h.sx, h.sxs]
    rw [hx, ← hx, max_eq_right]
    exact total_nonneg (fun p => mul_self_nonneg _) pts
  · simp only [Stats.covariance, mean, h.n, h.sy, h.sys]
    rw [hy, ← hy, max_eq_right]
    exact total_nonneg (fun p => mul_self_nonneg _) pts
  · simp only [Stats.covariance, mean, h.n, h.sz, h.szs]
    rw [hz, ← hz, max_eq_right]
    exact total_nonneg (fun p => mul_self_nonneg _) pts
  · simp only [Stats.covariance, mean, h.n, h.sx, h.sy, h.sxy]
    rw [hxy]
  · simp only [Stats.covariance, mean, h.n, h.sx, h.sz, h.szx]
    rw [hxz]
  · simp only [Stats.covariance, mean, h.n, h.sy, h.sz, h.syz]
    rw [hyz]

omit [LinearOrder K] [IsStrictOrderedRing K] in
theorem quad_eq (m v : Pt K) (pts : List (Pt K)) :
    v.dot (Sym3.mul
      { xx := total (fun p => (p.x - m.x) * (p.x - m.x)) pts
        yy := total (fun p => (p.y - m.y) * (p.y - m.y)) pts
        zz := total (fun p => (p.z - m.z) * (p.z - m.z)) pts
        xy := total (fun p => (p.x - m.x) * (p.y - m.y)) pts
        xz := total (fun p => (p.x - m.x) * (p.z - m.z)) pts
        yz := total (fun p => (p.y - m.y) * (p.z - m.z)) pts } v) =
      total (fun p => (v.dot p - v.dot m) * (v.dot p - v.dot m)) pts := by
  induction pts with
  | nil => simp [Pt.dot, Sym3.mul]
  | cons p ps ih =>
    simp only [total_cons]
    rw [← ih]
    simp only [Pt.dot, Sym3.mul]
    ring

theorem quad_spread {s : Stats K} {pts : List (Pt K)} (h : HasStats s pts) (hne : pts ≠ []) (v : Pt K) :
    v.dot (s.covariance.mul v) = spread pts v := by
  rw [covariance_eq h hne, quad_eq]
  rfl

theorem spread_nonneg (pts : List (Pt K)) (v : Pt K) : 0 ≤ spread pts v :=
  total_nonneg (fun _ => mul_self_nonneg _) pts

/-! ### Scans -/

theorem isChain_cons_cons_iff {α : Type*} {R : α → α → Prop} {a b : α} {l : List α} :
    (a :: b :: l).IsChain R ↔ R a b ∧ (b :: l).IsChain R := by
  simp

omit [IsStrictOrderedRing K] in
theorem scan_iff : ∀ (zs : List K) (last : K),
    scan zs last = true ↔
      (last :: zs.filter fun z => decide (0 < z)).IsChain fun a b => |b - a| ≤ 4 * depthQuantization b := by
  intro zs
  induction zs with
  | nil => intro last; simp [scan]
  | cons z zs ih =>
    intro last
    unfold scan continuous
    by_cases hz : 0 < z
    · rw [if_pos hz]
      have : (z :: zs).filter (fun z => decide (0 < z)) = z :: zs.filter (fun z => decide (0 < z)) := by
        simp [hz]
      rw [this]
      by_cases hj : |z - last| ≤ 4 * depthQuantization z
      · rw [if_pos hj]
        simp only [List.isChain_cons_cons]
        rw [ih z]
        exact ⟨fun h => ⟨hj, h⟩, fun h => h.2⟩
      · rw [if_neg hj]
        simp only [List.isChain_cons_cons]
        exact ⟨fun h => absurd h (by simp), fun h => absurd h.1 hj⟩
    · rw [if_neg hz]
      have : (z :: zs).filter (fun z => decide (0 < z)) = zs.filter (fun z => decide (0 < z)) := by
        simp [hz]
      rw [this]
      exact ih last

omit [Field K] [LinearOrder K] [IsStrictOrderedRing K] in
theorem depthsAt_ok (cell : List (Pt K)) : ∀ (places : List Nat) (zs : List K), depthsAt cell places = .ok zs →
    ∀ (d : Nat → K), (∀ i, depthAt cell i = .ok (d i) ∨ depthAt cell i = .ub) → zs = places.map d := by
  intro places
  induction places with
  | nil => intro zs h d _; rw [depthsAt] at h; injection h with h; exact h.symm
  | cons i is ih =>
    intro zs h d hd
    rw [depthsAt] at h
    obtain ⟨z, h1, h⟩ := Outcome.bind_eq_ok h
    obtain ⟨zs', h2, h⟩ := Outcome.bind_eq_ok h
    injection h with h
    subst h
    rw [ih zs' h2 d hd, List.map_cons]
    rcases hd i with h' | h'
    · rw [h'] at h1; injection h1 with h1; rw [h1]
    · rw [h'] at h1; cases h1

omit [LinearOrder K] [IsStrictOrderedRing K] in
theorem depthAt_spec (width : Nat) (cell : List (Pt K)) (hw : 0 < width) (i : Nat) :
    depthAt cell i = .ok (depthOf width cell (i / width) (i % width)) ∨ depthAt cell i = .ub := by
  unfold depthAt depthOf
  rw [Nat.div_add_mod]
  have := hw
  cases cell[i]? with
  | some p => exact Or.inl rfl
  | none => exact Or.inr rfl

theorem columnLoop_eq {k h : Nat} (hk : 0 < k) :
    columnLoop (2 * k) (2 * k * h) = (List.range (h - 2)).map fun r => 2 * k * (1 + r) + k := by
  have hk2 : 2 * k / 2 = k := by omega
  unfold columnLoop
  rw [hk2]
  apply List.Pairwise.eq_of_mem_iff (r := (· < ·))
  · exact List.Pairwise.filter _ List.pairwise_lt_range
  · rw [List.pairwise_map]
    apply List.pairwise_lt_range.imp
    intro a b hab
    have : 2 * k * (1 + a) < 2 * k * (1 + b) := Nat.mul_lt_mul_of_pos_left (by omega) (by omega)
    omega
  · intro i
    simp only [List.mem_filter, List.mem_range, decide_eq_true_eq, List.mem_map]
    constructor
    · rintro ⟨h1, h2, h3⟩
      obtain ⟨q, hq⟩ := Nat.dvd_of_mod_eq_zero h3
      have hi : i = 2 * k * q + k := by omega
      have hq1 : 1 ≤ q := by
        rcases Nat.eq_zero_or_pos q with h0 | h0
        · subst h0; simp at hi; omega
        · exact h0
      have hq2 : q + 1 < h := by
        apply Nat.lt_of_mul_lt_mul_left (a := 2 * k)
        have : 2 * k * (q + 1) = 2 * k * q + 2 * k := by ring
        omega
      exact ⟨q - 1, by omega, by rw [hi, Nat.add_sub_cancel' hq1]⟩
    · rintro ⟨r, hr, rfl⟩
      have e1 : 2 * k * (1 + r) = 2 * k + 2 * k * r := by ring
      have hlt : 2 * k * (2 + r) < 2 * k * h := Nat.mul_lt_mul_of_pos_left (by omega) (by omega)
      have e2 : 2 * k * (2 + r) = 4 * k + 2 * k * r := by ring
      refine ⟨by omega, by omega, ?_⟩
      rw [e1, show 2 * k + 2 * k * r + k - k = 2 * k * (1 + r) by rw [e1]; omega]
      exact Nat.mul_mod_right _ _

omit [IsStrictOrderedRing K] in
/-- What an accepted line means. -/
theorem lineContinuous_true {cell : List (Pt K)} {a b : Nat} {places : List Nat} {width : Nat} (hw : 0 < width)
    (h : lineContinuous cell a b places = .ok true) :
    (max (depthOf width cell (a / width) (a % width)) (depthOf width cell (b / width) (b % width)) ::
      (places.map fun i => depthOf width cell (i / width) (i % width)).filter fun z => decide (0 < z)).IsChain
        fun a b => |b - a| ≤ 4 * depthQuantization b := by
  unfold lineContinuous at h
  obtain ⟨za, h1, h⟩ := Outcome.bind_eq_ok h
  obtain ⟨zb, h2, h⟩ := Outcome.bind_eq_ok h
  simp only at h
  split at h
  · cases h
  · obtain ⟨zs, h3, h⟩ := Outcome.bind_eq_ok h
    injection h with h
    have hzs := depthsAt_ok cell places zs h3 _ (depthAt_spec width cell hw)
    have ha : za = depthOf width cell (a / width) (a % width) := by
      rcases depthAt_spec width cell hw a with e | e <;> rw [e] at h1
      · injection h1 with h1; exact h1.symm
      · cases h1
    have hb : zb = depthOf width cell (b / width) (b % width) := by
      rcases depthAt_spec width cell hw b with e | e <;> rw [e] at h2
      · injection h2 with h2; exact h2.symm
      · cases h2
    rw [← ha, ← hb, ← hzs]
    exact (scan_iff _ _).mp h

/-- The parts of `init` that lead to a planar cell. -/
theorem init_planar {solve : Sym3 K → Eigen3 K} {eps : K} {width minCount : Nat} {cell : List (Pt K)} {c : Cell K}
    (h : init solve eps width minCount cell = .ok c) (hp : c.planar = true) :
    horizontalContinuous width cell = .ok true ∧ verticalContinuous width cell = .ok true ∧
    minCount ≤ c.stats.n ∧ cell.length / 2 ≤ c.stats.n ∧ c.stats = Stats.ofCell cell ∧
    ∃ p, c.plane = some p ∧ c.stats.fit solve eps = some p ∧
      p.mse ≤ depthQuantization p.centroid.z * depthQuantization p.centroid.z := by
  unfold init at h
  simp only at h
  obtain ⟨hb, h1, h⟩ := Outcome.bind_eq_ok h
  have hbt : hb = true := by
    cases hb
    · simp at h; subst h; cases hp
    · rfl
  subst hbt
  simp only [Bool.not_true, Bool.false_eq_true, if_false] at h
  obtain ⟨vb, h2, h⟩ := Outcome.bind_eq_ok h
  have hvt : vb = true := by
    cases vb
    · simp at h; subst h; cases hp
    · rfl
  subst hvt
  simp only [Bool.not_true, Bool.false_eq_true, if_false] at h
  split at h
  · injection h with h; subst h; cases hp
  rename_i hc
  split at h
  · injection h with h; subst h; cases hp
  rename_i hm
  split at h
  · cases h
  split at h
  · injection h with h; subst h; cases hp
  · rename_i p hfit
    injection h with h
    subst h
    refine ⟨h1, h2, Nat.le_of_not_lt hm, ?_, rfl, p, rfl, hfit, of_decide_eq_true hp⟩
    have := (ofCell_stats cell).n
    unfold measured at this
    simp only
    omega

end RgbdSlam.PlaneSegment
