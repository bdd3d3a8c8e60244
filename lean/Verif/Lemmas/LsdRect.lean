import Mathlib.Tactic.Linarith
import Mathlib.Tactic.LinearCombination
import Mathlib.Tactic.Positivity
import Mathlib.Tactic.NormNum
import Mathlib.Tactic.Ring
import Mathlib.Tactic.FieldSimp
import Mathlib.Algebra.BigOperators.Group.List.Basic
import Mathlib.Algebra.Order.BigOperators.Group.List
import Verif.Lemmas.LsdAngle
/-
Lemmas on the segment of a region.
-/
namespace RgbdSlam.Lsd

open Real

/-- A weighted pixel for the specification. -/
def Weighted.point (p : Weighted) : Spec.Point := (p.x, p.y, p.weight)

/-! ### Sums -/

theorem sums_eq (reg : List Weighted) : sums reg =
    ((reg.map fun p => p.x * p.weight).sum, (reg.map fun p => p.y * p.weight).sum, (reg.map fun p => p.weight).sum) := by
  have gen : ∀ (l : List Weighted) (s : ℝ × ℝ × ℝ),
      l.foldl (fun s p => (s.1 + p.x * p.weight, s.2.1 + p.y * p.weight, s.2.2 + p.weight)) s =
        (s.1 + (l.map fun p => p.x * p.weight).sum, s.2.1 + (l.map fun p => p.y * p.weight).sum,
          s.2.2 + (l.map fun p => p.weight).sum) := by
    intro l
    induction l with
    | nil => intro s; simp
    | cons p l ih =>
      intro s
      rw [List.foldl_cons, ih]
      simp only [List.map_cons, List.sum_cons, Prod.mk.injEq]
      refine ⟨by ring, by ring, by ring⟩
  unfold sums
  rw [gen]
  simp

theorem inertia_eq (reg : List Weighted) (x y : ℝ) : inertia reg x y =
    ((reg.map fun p => (p.y - y) * (p.y - y) * p.weight).sum, (reg.map fun p => (p.x - x) * (p.x - x) * p.weight).sum,
      -(reg.map fun p => (p.x - x) * (p.y - y) * p.weight).sum) := by
  have gen : ∀ (l : List Weighted) (s : ℝ × ℝ × ℝ),
      l.foldl (fun s p => (s.1 + (p.y - y) * (p.y - y) * p.weight, s.2.1 + (p.x - x) * (p.x - x) * p.weight,
        s.2.2 - (p.x - x) * (p.y - y) * p.weight)) s =
      (s.1 + (l.map fun p => (p.y - y) * (p.y - y) * p.weight).sum,
        s.2.1 + (l.map fun p => (p.x - x) * (p.x - x) * p.weight).sum,
        s.2.2 - (l.map fun p => (p.x - x) * (p.y - y) * p.weight).sum) := by
    intro l
    induction l with
    | nil => intro s; simp
    | cons p l ih =>
      intro s
      rw [List.foldl_cons, ih]
      simp only [List.map_cons, List.sum_cons, Prod.mk.injEq]
      refine ⟨by ring, by ring, by ring⟩
  unfold inertia
  rw [gen]
  simp

/-- The deviation from a line is a quadratic form of its direction, given by the inertia. -/
theorem deviation_eq (reg : List Weighted) (x y theta : ℝ) :
    Spec.deviation (reg.map Weighted.point) x y theta =
      (inertia reg x y).1 * cos theta ^ 2 + 2 * (inertia reg x y).2.2 * (sin theta * cos theta)
        + (inertia reg x y).2.1 * sin theta ^ 2 := by
  rw [inertia_eq]
  unfold Spec.deviation
  induction reg with
  | nil => simp
  | cons p l ih =>
    simp only [List.map_cons, List.sum_cons] at ih ⊢
    rw [ih]
    simp only [Weighted.point]
    ring

/-- Moving the line away from the centre adds to the deviation. -/
theorem deviation_shift (reg : List Weighted) (x y u v theta : ℝ)
    (hx : (reg.map fun p => p.x * p.weight).sum = x * (reg.map fun p => p.weight).sum)
    (hy : (reg.map fun p => p.y * p.weight).sum = y * (reg.map fun p => p.weight).sum) :
    Spec.deviation (reg.map Weighted.point) u v theta = Spec.deviation (reg.map Weighted.point) x y theta +
      (reg.map fun p => p.weight).sum * (-(x - u) * sin theta + (y - v) * cos theta) ^ 2 := by
  have gen : Spec.deviation (reg.map Weighted.point) u v theta = Spec.deviation (reg.map Weighted.point) x y theta +
      2 * (-(x - u) * sin theta + (y - v) * cos theta) *
        (-((reg.map fun p => p.x * p.weight).sum - x * (reg.map fun p => p.weight).sum) * sin theta
          + ((reg.map fun p => p.y * p.weight).sum - y * (reg.map fun p => p.weight).sum) * cos theta) +
      (reg.map fun p => p.weight).sum * (-(x - u) * sin theta + (y - v) * cos theta) ^ 2 := by
    clear hx hy
    unfold Spec.deviation
    induction reg with
    | nil => simp
    | cons p l ih =>
      simp only [List.map_cons, List.sum_cons] at ih ⊢
      rw [ih]
      simp only [Weighted.point]
      ring
  rw [gen, hx, hy]
  ring

/-! ### The smallest deviation -/

/-- The direction of an eigenvector for the smallest eigenvalue minimises the quadratic form. -/
theorem eigen_min (a b c l x y u v : ℝ) (hl : l = 1 / 2 * (a + b - √((a - b) * (a - b) + 4 * c * c)))
    (h1 : a * x + c * y = l * x) (h2 : c * x + b * y = l * y) (hxy : x ^ 2 + y ^ 2 = 1) (huv : u ^ 2 + v ^ 2 = 1) :
    a * x ^ 2 + 2 * c * (y * x) + b * y ^ 2 ≤ a * u ^ 2 + 2 * c * (v * u) + b * v ^ 2 := by
  have e1 : a * x ^ 2 + 2 * c * (y * x) + b * y ^ 2 = l := by
    linear_combination x * h1 + y * h2 + l * hxy
  rw [e1]
  have hS : 0 ≤ (a - b) * (a - b) + 4 * c * c := by nlinarith [mul_self_nonneg (a - b), mul_self_nonneg c]
  set r := √((a - b) * (a - b) + 4 * c * c) with hr
  have hr0 : 0 ≤ r := Real.sqrt_nonneg _
  have hr2 : r * r = (a - b) * (a - b) + 4 * c * c := Real.mul_self_sqrt hS
  have key : -r ≤ (a - b) * (u ^ 2 - v ^ 2) + 2 * c * (2 * (v * u)) := by
    have hcs : ((a - b) * (u ^ 2 - v ^ 2) + 2 * c * (2 * (v * u))) ^ 2 ≤ r ^ 2 := by
      have hu : (u ^ 2 - v ^ 2) ^ 2 + (2 * (v * u)) ^ 2 = 1 := by
        linear_combination (u ^ 2 + v ^ 2 + 1) * huv
      have : r ^ 2 = ((a - b) ^ 2 + (2 * c) ^ 2) * ((u ^ 2 - v ^ 2) ^ 2 + (2 * (v * u)) ^ 2) := by
        rw [hu]; linear_combination hr2
      rw [this]
      nlinarith [sq_nonneg ((a - b) * (2 * (v * u)) - 2 * c * (u ^ 2 - v ^ 2))]
    exact (abs_le.1 (abs_le_of_sq_le_sq hcs hr0)).1
  have e2 : a * u ^ 2 + 2 * c * (v * u) + b * v ^ 2 =
      1 / 2 * (a + b) + 1 / 2 * ((a - b) * (u ^ 2 - v ^ 2) + 2 * c * (2 * (v * u))) := by
    linear_combination (1 / 2 * (a + b)) * huv
  rw [e2, hl]
  linarith

/-- The direction of `get_theta` before it is turned is one of smallest deviation. -/
theorem theta_min (atan : ℝ → ℝ → ℝ) (hat : Spec.ExactAtan atan) (a b c l t u v : ℝ) (ha : 0 ≤ a) (hb : 0 ≤ b)
    (hl : l = 1 / 2 * (a + b - √((a - b) * (a - b) + 4 * c * c)))
    (ht : t = (if |b| < |a| then atan (l - a) c else atan c (l - b)) * degree) (huv : u ^ 2 + v ^ 2 = 1) :
    a * cos t ^ 2 + 2 * c * (sin t * cos t) + b * sin t ^ 2 ≤ a * u ^ 2 + 2 * c * (v * u) + b * v ^ 2 := by
  have hS : 0 ≤ (a - b) * (a - b) + 4 * c * c := by nlinarith [mul_self_nonneg (a - b), mul_self_nonneg c]
  have hr2 : √((a - b) * (a - b) + 4 * c * c) * √((a - b) * (a - b) + 4 * c * c) = (a - b) * (a - b) + 4 * c * c :=
    Real.mul_self_sqrt hS
  have hr0 : 0 ≤ √((a - b) * (a - b) + 4 * c * c) := Real.sqrt_nonneg _
  have hchar : (a - l) * (b - l) = c * c := by
    rw [hl]; linear_combination (1 / 4) * hr2
  have hcs : cos t ^ 2 + sin t ^ 2 = 1 := by rw [add_comm]; exact Real.sin_sq_add_cos_sq t
  rw [abs_of_nonneg ha, abs_of_nonneg hb] at ht
  split_ifs at ht with hab
  · obtain ⟨-, -, r, hr, e1, e2⟩ := hat (l - a) c
    change c = r * cos (atan (l - a) c * degree) at e1
    change l - a = r * sin (atan (l - a) c * degree) at e2
    rw [← ht] at e1 e2
    have hr' : r ≠ 0 := by
      rintro rfl
      have hc : c = 0 := by linarith
      have hla : l = a := by linarith
      subst hc
      have : √((a - b) * (a - b) + 4 * 0 * 0) = a - b := by
        rw [show (a - b) * (a - b) + 4 * 0 * 0 = (a - b) * (a - b) by ring, Real.sqrt_mul_self (by linarith)]
      rw [this] at hl
      linarith
    apply eigen_min a b c l _ _ u v hl _ _ hcs huv
    · apply mul_left_cancel₀ hr'
      linear_combination (l - a) * e1 - c * e2
    · apply mul_left_cancel₀ hr'
      linear_combination (-c) * e1 + (l - b) * e2 - hchar
  · obtain ⟨-, -, r, hr, e1, e2⟩ := hat c (l - b)
    change l - b = r * cos (atan c (l - b) * degree) at e1
    change c = r * sin (atan c (l - b) * degree) at e2
    rw [← ht] at e1 e2
    by_cases hr' : r = 0
    · subst hr'
      have hc : c = 0 := by linarith
      have hlb : l = b := by linarith
      subst hc
      have hle : a ≤ b := not_lt.1 hab
      have : √((a - b) * (a - b) + 4 * 0 * 0) = b - a := by
        rw [show (a - b) * (a - b) + 4 * 0 * 0 = (b - a) * (b - a) by ring, Real.sqrt_mul_self (by linarith)]
      rw [this] at hl
      have hab' : a = b := by linarith
      subst hab'
      have e3 : a * u ^ 2 + a * v ^ 2 = a := by linear_combination a * huv
      have e4 : a * cos t ^ 2 + a * sin t ^ 2 = a := by linear_combination a * hcs
      linarith
    · apply eigen_min a b c l _ _ u v hl _ _ hcs huv
      · apply mul_left_cancel₀ hr'
        linear_combination (l - a) * e1 - c * e2 - hchar
      · apply mul_left_cancel₀ hr'
        linear_combination (-c) * e1 + (l - b) * e2

/-! ### Intervals -/

theorem widen_fold (f : Weighted → ℝ) (reg : List Weighted) : ∀ i : ℝ × ℝ, i.1 ≤ i.2 →
    let r := reg.foldl (fun i p => widen i (f p)) i
    r.1 ≤ i.1 ∧ i.2 ≤ r.2 ∧ (∀ p ∈ reg, r.1 ≤ f p ∧ f p ≤ r.2) ∧
      (r.1 = i.1 ∨ ∃ p ∈ reg, r.1 = f p) ∧ (r.2 = i.2 ∨ ∃ p ∈ reg, r.2 = f p) := by
  induction reg with
  | nil => intro i _; simp
  | cons p l ih =>
    intro i hi
    dsimp only
    rw [List.foldl_cons]
    have hw : (widen i (f p)).1 ≤ (widen i (f p)).2 ∧ (widen i (f p)).1 ≤ i.1 ∧ i.2 ≤ (widen i (f p)).2 ∧
        (widen i (f p)).1 ≤ f p ∧ f p ≤ (widen i (f p)).2 ∧
        ((widen i (f p)).1 = i.1 ∨ (widen i (f p)).1 = f p) ∧
        ((widen i (f p)).2 = i.2 ∨ (widen i (f p)).2 = f p) := by
      unfold widen
      split_ifs with h1 h2
      · exact ⟨by linarith, le_refl _, by linarith, by linarith, le_refl _, Or.inl rfl, Or.inr rfl⟩
      · exact ⟨by linarith, by linarith, le_refl _, le_refl _, by linarith, Or.inr rfl, Or.inl rfl⟩
      · exact ⟨hi, le_refl _, le_refl _, by linarith, by linarith, Or.inl rfl, Or.inl rfl⟩
    obtain ⟨w0, w1, w2, w3, w4, w5, w6⟩ := hw
    obtain ⟨a1, a2, a3, a4, a5⟩ := ih (widen i (f p)) w0
    refine ⟨by linarith, by linarith, ?_, ?_, ?_⟩
    · intro q hq
      rw [List.mem_cons] at hq
      rcases hq with rfl | hq
      · exact ⟨by linarith, by linarith⟩
      · exact a3 q hq
    · rcases a4 with e | ⟨q, hq, e⟩
      · rcases w5 with e' | e'
        · left; rw [e, e']
        · right; exact ⟨p, by simp, by rw [e, e']⟩
      · right; exact ⟨q, by simp [hq], e⟩
    · rcases a5 with e | ⟨q, hq, e⟩
      · rcases w6 with e' | e'
        · left; rw [e, e']
        · right; exact ⟨p, by simp, by rw [e, e']⟩
      · right; exact ⟨q, by simp [hq], e⟩

theorem sum_neg (f : Weighted → ℝ) (reg : List Weighted) :
    (reg.map fun p => -f p * p.weight).sum = -(reg.map fun p => f p * p.weight).sum := by
  induction reg with
  | nil => simp
  | cons p l ih =>
    simp only [List.map_cons, List.sum_cons]
    rw [ih]
    ring

theorem sum_centred (reg : List Weighted) (x y a b : ℝ) :
    (reg.map fun p => ((p.x - x) * a + (p.y - y) * b) * p.weight).sum =
      ((reg.map fun p => p.x * p.weight).sum - x * (reg.map fun p => p.weight).sum) * a
        + ((reg.map fun p => p.y * p.weight).sum - y * (reg.map fun p => p.weight).sum) * b := by
  induction reg with
  | nil => simp
  | cons p l ih =>
    simp only [List.map_cons, List.sum_cons]
    rw [ih]
    ring

/-- When the weighted mean is null, the bounds of the interval are both reached. -/
theorem widen_reached (f : Weighted → ℝ) (reg : List Weighted) (hne : reg ≠ []) (hw : ∀ p ∈ reg, 0 < p.weight)
    (h0 : (reg.map fun p => f p * p.weight).sum = 0) :
    let r := reg.foldl (fun i p => widen i (f p)) (0, 0)
    (∃ p ∈ reg, r.1 = f p) ∧ ∃ p ∈ reg, r.2 = f p := by
  have zero_of : ∀ g : Weighted → ℝ, (∀ p ∈ reg, 0 ≤ g p) → (reg.map fun p => g p * p.weight).sum = 0 →
      ∀ p ∈ reg, g p = 0 := by
    intro g hg hs p hp
    have hmem : g p * p.weight ∈ reg.map fun p => g p * p.weight := List.mem_map.2 ⟨p, hp, rfl⟩
    have hall : ∀ z ∈ reg.map (fun p => g p * p.weight), 0 ≤ z := by
      intro z hz
      obtain ⟨q, hq, rfl⟩ := List.mem_map.1 hz
      exact mul_nonneg (hg q hq) (hw q hq).le
    have hle := List.single_le_sum hall _ hmem
    have hge := hall _ hmem
    have : g p * p.weight = 0 := by linarith
    rcases mul_eq_zero.1 this with h | h
    · exact h
    · exact absurd h (hw p hp).ne'
  obtain ⟨q, hq⟩ := List.exists_mem_of_ne_nil reg hne
  obtain ⟨a1, a2, a3, a4, a5⟩ := widen_fold f reg (0, 0) (le_refl _)
  dsimp only at a1 a2 a3 a4 a5 ⊢
  constructor
  · rcases a4 with e | e
    · refine ⟨q, hq, ?_⟩
      rw [e]
      have hpos : ∀ p ∈ reg, 0 ≤ f p := fun p hp => by have := (a3 p hp).1; rwa [e] at this
      exact (zero_of f hpos h0 q hq).symm
    · exact e
  · rcases a5 with e | e
    · refine ⟨q, hq, ?_⟩
      rw [e]
      have hneg : ∀ p ∈ reg, 0 ≤ -f p := fun p hp => by have := (a3 p hp).2; rw [e] at this; linarith
      have h0' : (reg.map fun p => -f p * p.weight).sum = 0 := by
        rw [sum_neg, h0, neg_zero]
      have := zero_of (fun p => -f p) hneg h0' q hq
      linarith
    · exact e

/-! ### `region2rect` -/

theorem tiny_le (n : ℕ) : (1 : ℝ) / 2 ^ n ≤ 1 := by
  rw [div_le_one (by positivity)]
  exact one_le_pow₀ (by norm_num)

theorem isZero_false {a : ℝ} (h : 1 ≤ a) : isZero a = false := by
  unfold isZero
  rw [if_neg (by linarith), decide_eq_false_iff_not, not_le, abs_of_nonneg (by linarith), max_eq_left, div_self (by linarith)]
  · norm_num
  · exact le_trans (tiny_le 1022) h

theorem term_le_sum (f : Weighted → ℝ) (reg : List Weighted) (hf : ∀ p ∈ reg, 0 ≤ f p) (p : Weighted) (hp : p ∈ reg) :
    f p ≤ (reg.map f).sum := by
  refine List.single_le_sum ?_ _ (List.mem_map.2 ⟨p, hp, rfl⟩)
  intro z hz
  obtain ⟨q, hq, rfl⟩ := List.mem_map.1 hz
  exact hf q hq

/-- Two pixels in different places give an inertia. -/
theorem inertia_ne (reg : List Weighted) (x y : ℝ) (hw : ∀ p ∈ reg, 4 ≤ p.weight) (p q : Weighted) (hp : p ∈ reg)
    (hq : q ∈ reg) (hd : 1 ≤ |p.x - q.x| ∨ 1 ≤ |p.y - q.y|) :
    (isZero (inertia reg x y).1 && isZero (inertia reg x y).2.1 && isZero (inertia reg x y).2.2) = false := by
  have far : ∀ a b c : ℝ, 1 ≤ |a - b| → 1 / 4 ≤ (a - c) * (a - c) ∨ 1 / 4 ≤ (b - c) * (b - c) := by
    intro a b c h
    have h1 : 1 ≤ (a - b) * (a - b) := by
      rw [← abs_mul_abs_self (a - b)]; nlinarith
    by_contra hn
    rw [not_or, not_le, not_le] at hn
    nlinarith [mul_self_nonneg ((a - c) + (b - c))]
  have hge : ∀ (g : Weighted → ℝ) (z : Weighted), z ∈ reg → (∀ p ∈ reg, 0 ≤ g p) → 1 / 4 ≤ g z →
      1 ≤ (reg.map fun p => g p * p.weight).sum := by
    intro g z hz hg h
    have h1 := term_le_sum (fun p => g p * p.weight) reg
      (fun p hp => mul_nonneg (hg p hp) (by linarith [hw p hp])) z hz
    have h2 := hw z hz
    have h3 : 1 ≤ g z * z.weight := by nlinarith
    exact le_trans h3 h1
  rw [inertia_eq]
  dsimp only
  rcases hd with hd | hd
  · have : 1 ≤ (reg.map fun p => (p.x - x) * (p.x - x) * p.weight).sum := by
      rcases far p.x q.x x hd with h | h
      · exact hge (fun p => (p.x - x) * (p.x - x)) p hp (fun p _ => mul_self_nonneg _) h
      · exact hge (fun p => (p.x - x) * (p.x - x)) q hq (fun p _ => mul_self_nonneg _) h
    rw [isZero_false this]
    simp
  · have : 1 ≤ (reg.map fun p => (p.y - y) * (p.y - y) * p.weight).sum := by
      rcases far p.y q.y y hd with h | h
      · exact hge (fun p => (p.y - y) * (p.y - y)) p hp (fun p _ => mul_self_nonneg _) h
      · exact hge (fun p => (p.y - y) * (p.y - y)) q hq (fun p _ => mul_self_nonneg _) h
    rw [isZero_false this]
    simp

theorem sum_weights_pos (reg : List Weighted) (hne : reg ≠ []) (hw : ∀ p ∈ reg, 0 < p.weight) :
    0 < (reg.map fun p => p.weight).sum := by
  obtain ⟨q, hq⟩ := List.exists_mem_of_ne_nil reg hne
  exact lt_of_lt_of_le (hw q hq) (term_le_sum (fun p => p.weight) reg (fun p hp => (hw p hp).le) q hq)

/-- The first direction of `get_theta`. -/
noncomputable def axis (atan : ℝ → ℝ → ℝ) (reg : List Weighted) (x y : ℝ) : ℝ :=
  let (ixx, iyy, ixy) := inertia reg x y
  let lambda := 1 / 2 * (ixx + iyy - Real.sqrt ((ixx - iyy) * (ixx - iyy) + 4 * ixy * ixy))
  (if |iyy| < |ixx| then atan (lambda - ixx) ixy else atan ixy (lambda - iyy)) * degree

theorem getTheta_ok (atan : ℝ → ℝ → ℝ) (reg : List Weighted) (x y regAngle prec theta : ℝ)
    (h : getTheta atan reg x y regAngle prec = .ok theta) :
    theta = if prec < angleDiff (axis atan reg x y) regAngle then axis atan reg x y + π else axis atan reg x y := by
  unfold getTheta at h
  change (if _ then _ else Outcome.ok (if prec < angleDiff (axis atan reg x y) regAngle then axis atan reg x y + π
    else axis atan reg x y)) = _ at h
  generalize axis atan reg x y = a at h ⊢
  split at h
  · simp at h
  · simpa using h.symm

theorem axis_min (atan : ℝ → ℝ → ℝ) (hat : Spec.ExactAtan atan) (reg : List Weighted) (hw : ∀ p ∈ reg, 0 < p.weight)
    (x y phi : ℝ) : Spec.deviation (reg.map Weighted.point) x y (axis atan reg x y) ≤
      Spec.deviation (reg.map Weighted.point) x y phi := by
  rw [deviation_eq, deviation_eq]
  have ha : 0 ≤ (inertia reg x y).1 := by
    rw [inertia_eq]
    apply List.sum_nonneg
    intro z hz
    obtain ⟨q, hq, rfl⟩ := List.mem_map.1 hz
    exact mul_nonneg (mul_self_nonneg _) (hw q hq).le
  have hb : 0 ≤ (inertia reg x y).2.1 := by
    rw [inertia_eq]
    apply List.sum_nonneg
    intro z hz
    obtain ⟨q, hq, rfl⟩ := List.mem_map.1 hz
    exact mul_nonneg (mul_self_nonneg _) (hw q hq).le
  have hcs : cos phi ^ 2 + sin phi ^ 2 = 1 := by rw [add_comm]; exact Real.sin_sq_add_cos_sq phi
  exact theta_min atan hat _ _ _ _ (axis atan reg x y) _ _ ha hb rfl rfl hcs

theorem deviation_flip (l : List Spec.Point) (x y theta : ℝ) :
    Spec.deviation l x y (theta + π) = Spec.deviation l x y theta := by
  unfold Spec.deviation
  rw [Real.sin_add_pi, Real.cos_add_pi]
  congr 1
  apply List.map_congr_left
  intro p _
  ring

/-- `region2rect` on pixels with positive weights and an inertia. -/
theorem regionToRect_run (atan : ℝ → ℝ → ℝ) (reg : List Weighted) (regAngle prec : ℝ) (hne : reg ≠ [])
    (hw : ∀ p ∈ reg, 0 < p.weight)
    (hi : ∀ x y, (isZero (inertia reg x y).1 && isZero (inertia reg x y).2.1 && isZero (inertia reg x y).2.2) = false) :
    ∃ r, regionToRect atan reg regAngle prec = .ok r := by
  have hs := sum_weights_pos reg hne hw
  unfold regionToRect
  rw [sums_eq]
  dsimp only
  rw [if_neg (by simpa using hs)]
  have := hi ((reg.map fun p => p.x * p.weight).sum / (reg.map fun p => p.weight).sum)
    ((reg.map fun p => p.y * p.weight).sum / (reg.map fun p => p.weight).sum)
  unfold getTheta
  dsimp only
  rw [this]
  exact ⟨_, rfl⟩

theorem regionToRect_spec (atan : ℝ → ℝ → ℝ) (reg : List Weighted) (regAngle prec : ℝ) (r : Rect)
    (h : regionToRect atan reg regAngle prec = .ok r) (hne : reg ≠ []) (hw : ∀ p ∈ reg, 0 < p.weight) :
    1 ≤ r.width ∧ (∀ p ∈ reg, Spec.Beside r.width (r.x1, r.y1) (r.x2, r.y2) (p.x, p.y) r.theta) ∧
      (∃ p ∈ reg, (p.x - r.x1) * cos r.theta + (p.y - r.y1) * sin r.theta = 0) ∧
      (∃ p ∈ reg, (p.x - r.x2) * cos r.theta + (p.y - r.y2) * sin r.theta = 0) ∧
      (r.theta = if prec < angleDiff (axis atan reg r.x r.y) regAngle then axis atan reg r.x r.y + π
        else axis atan reg r.x r.y) ∧
      (∃ t, r.x = r.x1 + t * cos r.theta ∧ r.y = r.y1 + t * sin r.theta) ∧
      (reg.map fun p => p.x * p.weight).sum = r.x * (reg.map fun p => p.weight).sum ∧
      (reg.map fun p => p.y * p.weight).sum = r.y * (reg.map fun p => p.weight).sum := by
  have hs := sum_weights_pos reg hne hw
  unfold regionToRect at h
  rw [sums_eq] at h
  dsimp only at h
  rw [if_neg (by simpa using hs)] at h
  obtain ⟨theta, ht, h⟩ := Outcome.bind_eq_ok h
  have ht' := getTheta_ok _ _ _ _ _ _ _ ht
  set W := (reg.map fun p => p.weight).sum with hW
  set x := (reg.map fun p => p.x * p.weight).sum / W with hx
  set y := (reg.map fun p => p.y * p.weight).sum / W with hy
  have ex : (reg.map fun p => p.x * p.weight).sum = x * W := by rw [hx]; field_simp
  have ey : (reg.map fun p => p.y * p.weight).sum = y * W := by rw [hy]; field_simp
  have hcs : cos theta ^ 2 + sin theta ^ 2 = 1 := by rw [add_comm]; exact Real.sin_sq_add_cos_sq theta
  have hlin : ∀ a b : ℝ, (reg.map fun p => ((p.x - x) * a + (p.y - y) * b) * p.weight).sum = 0 := by
    intro a b
    rw [sum_centred, ← hW, ex, ey]
    ring
  have hl := widen_fold (fun p => (p.x - x) * cos theta + (p.y - y) * sin theta) reg (0, 0) (le_refl _)
  have hwf := widen_fold (fun p => -(p.x - x) * sin theta + (p.y - y) * cos theta) reg (0, 0) (le_refl _)
  have hreach := widen_reached (fun p => (p.x - x) * cos theta + (p.y - y) * sin theta) reg hne hw (hlin _ _)
  dsimp only at hl hwf hreach
  set L := reg.foldl (fun i p => widen i ((p.x - x) * cos theta + (p.y - y) * sin theta)) (0, 0) with hL
  set V := reg.foldl (fun i p => widen i (-(p.x - x) * sin theta + (p.y - y) * cos theta)) (0, 0) with hV
  obtain ⟨l1, l2, l3, -, -⟩ := hl
  obtain ⟨w1, w2, w3, -, -⟩ := hwf
  simp only [Outcome.ok.injEq] at h
  subst h
  dsimp only
  have hwidth : V.2 - V.1 ≤ (if V.2 - V.1 < 1 then 1 else V.2 - V.1) := by split_ifs <;> linarith
  refine ⟨?_, ?_, ?_, ?_, ht', ⟨-L.1, by ring, by ring⟩, ex, ey⟩
  · split_ifs <;> linarith
  · intro p hp
    refine ⟨(p.x - x) * cos theta + (p.y - y) * sin theta - L.1, -(p.x - x) * sin theta + (p.y - y) * cos theta,
      ?_, ?_, ?_, L.2 - L.1, ?_, ?_, ?_, ?_⟩
    · refine le_trans ?_ hwidth
      rw [abs_le]
      have := w3 p hp
      constructor <;> linarith [this.1, this.2]
    · dsimp only
      linear_combination (-(p.x - x)) * hcs
    · dsimp only
      linear_combination (-(p.y - y)) * hcs
    · linarith [(l3 p hp).1]
    · linarith [(l3 p hp).2]
    · dsimp only; ring
    · dsimp only; ring
  · obtain ⟨p, hp, e⟩ := hreach.1
    refine ⟨p, hp, ?_⟩
    linear_combination (-1) * e - L.1 * hcs
  · obtain ⟨p, hp, e⟩ := hreach.2
    refine ⟨p, hp, ?_⟩
    linear_combination (-1) * e - L.2 * hcs

end RgbdSlam.Lsd
