import Verif.Model.Points2d
import Verif.Spec.Points2d
import Mathlib.Topology.Order.IntermediateValue
import Mathlib.Topology.Instances.Real.Lemmas
import Mathlib.Topology.Algebra.Order.Group
import Mathlib.Tactic.Linarith
import Mathlib.Tactic.FieldSimp
import Mathlib.Tactic.Positivity
import Mathlib.Tactic.Continuity
/-
Lemmas on a segment crossing the frame of the image: the smallest distance to the four sides is a concave
function along the segment.
-/
namespace RgbdSlam.Points2d

open Geometry Spec

/-- Concavity, as used here. -/
def Conc (g : ℝ → ℝ) : Prop :=
  ∀ s t l : ℝ, 0 ≤ l → l ≤ 1 → (1 - l) * g s + l * g t ≤ g ((1 - l) * s + l * t)

theorem exists_coef {s u t : ℝ} (h1 : s ≤ u) (h2 : u ≤ t) (h : s < t) :
    ∃ l : ℝ, 0 ≤ l ∧ l ≤ 1 ∧ u = (1 - l) * s + l * t ∧ (u < t → l < 1) ∧ (s < u → 0 < l) := by
  have hp : 0 < t - s := by linarith
  refine ⟨(u - s) / (t - s), div_nonneg (by linarith) hp.le, (div_le_one hp).2 (by linarith), ?_, ?_, ?_⟩
  · field_simp; ring
  · intro hu; exact (div_lt_one hp).2 (by linarith)
  · intro hu; exact div_pos (by linarith) hp

theorem Conc.between {g : ℝ → ℝ} (hg : Conc g) {s u t : ℝ} (h1 : s ≤ u) (h2 : u ≤ t) (hs : 0 ≤ g s)
    (ht : 0 ≤ g t) : 0 ≤ g u := by
  rcases (h1.trans h2).eq_or_lt with h | h
  · have : u = s := le_antisymm (h2.trans h.ge) h1
    rwa [this]
  · obtain ⟨l, l0, l1, rfl, -, -⟩ := exists_coef h1 h2 h
    have := hg s t l l0 l1
    have h3 := mul_nonneg (sub_nonneg.2 l1) hs
    have h4 := mul_nonneg l0 ht
    linarith

/-- Three zeros: the function is null between the first two. -/
theorem Conc.three {g : ℝ → ℝ} (hg : Conc g) {s u t : ℝ} (_h1 : s < u) (h2 : u < t) (hs : g s = 0)
    (hu : g u = 0) (ht : g t = 0) {v : ℝ} (hv1 : s ≤ v) (hv2 : v ≤ u) : g v = 0 := by
  refine le_antisymm ?_ (hg.between hv1 hv2 hs.ge hu.ge)
  rcases hv2.eq_or_lt with h | h
  · rw [h, hu]
  obtain ⟨l, l0, l1, e, hl, -⟩ := exists_coef hv2 h2.le (h.trans h2)
  have h3 := hg v t l l0 l1
  rw [← e, hu, ht] at h3
  have h4 : 0 < 1 - l := by linarith [hl h2]
  by_contra hn
  push Not at hn
  have := mul_pos h4 hn
  linarith

theorem zero_left {g : ℝ → ℝ} (hc : Continuous g) {a v : ℝ} (hav : a ≤ v) (ha : g a < 0) (hv : 0 ≤ g v) :
    ∃ z, a ≤ z ∧ z ≤ v ∧ g z = 0 := by
  obtain ⟨z, hz, e⟩ := intermediate_value_Icc hav hc.continuousOn (show (0 : ℝ) ∈ Set.Icc (g a) (g v) from
    ⟨ha.le, hv⟩)
  exact ⟨z, hz.1, hz.2, e⟩

theorem zero_right {g : ℝ → ℝ} (hc : Continuous g) {v b : ℝ} (hvb : v ≤ b) (hb : g b < 0) (hv : 0 ≤ g v) :
    ∃ z, v ≤ z ∧ z ≤ b ∧ g z = 0 := by
  obtain ⟨z, hz, e⟩ := intermediate_value_Icc' hvb hc.continuousOn (show (0 : ℝ) ∈ Set.Icc (g b) (g v) from
    ⟨hb.le, hv⟩)
  exact ⟨z, hz.1, hz.2, e⟩

/-- Smallest signed distance to the sides of the frame, along a segment. -/
noncomputable def margin (width height : ℕ) (a b : V2) (t : ℝ) : ℝ :=
  min (min (along a b t 0 - 1) ((width : ℝ) - 1 - along a b t 0))
    (min (along a b t 1 - 1) ((height : ℝ) - 1 - along a b t 1))

theorem along_zero (a b : V2) : along a b 0 = a := by
  funext i; fin_cases i <;> simp [along]

theorem along_one (a b : V2) : along a b 1 = b := by
  funext i; fin_cases i <;> simp [along]

theorem continuous_margin (width height : ℕ) (a b : V2) : Continuous (margin width height a b) := by
  unfold margin along
  simp only [Matrix.cons_val_zero, Matrix.cons_val_one]
  fun_prop

theorem conc_margin (width height : ℕ) (a b : V2) : Conc (margin width height a b) := by
  intro s t l h0 h1
  have hl : 0 ≤ 1 - l := by linarith
  have key : ∀ x y z : ℝ, margin width height a b s ≤ x → margin width height a b t ≤ y →
      z = (1 - l) * x + l * y → (1 - l) * margin width height a b s + l * margin width height a b t ≤ z := by
    rintro x y z hx hy rfl
    linarith [mul_le_mul_of_nonneg_left hx hl, mul_le_mul_of_nonneg_left hy h0]
  have hs1 : ∀ t, margin width height a b t ≤ along a b t 0 - 1 := fun t =>
    (min_le_left _ _).trans (min_le_left _ _)
  have hs2 : ∀ t, margin width height a b t ≤ (width : ℝ) - 1 - along a b t 0 := fun t =>
    (min_le_left _ _).trans (min_le_right _ _)
  have hs3 : ∀ t, margin width height a b t ≤ along a b t 1 - 1 := fun t =>
    (min_le_right _ _).trans (min_le_left _ _)
  have hs4 : ∀ t, margin width height a b t ≤ (height : ℝ) - 1 - along a b t 1 := fun t =>
    (min_le_right _ _).trans (min_le_right _ _)
  conv_rhs => unfold margin
  refine le_min (le_min ?_ ?_) (le_min ?_ ?_)
  · exact key _ _ _ (hs1 s) (hs1 t) (by simp [along]; ring)
  · exact key _ _ _ (hs2 s) (hs2 t) (by simp [along]; ring)
  · exact key _ _ _ (hs3 s) (hs3 t) (by simp [along]; ring)
  · exact key _ _ _ (hs4 s) (hs4 t) (by simp [along]; ring)

theorem inFrame_iff {width height : ℕ} {a b : V2} {t : ℝ} :
    InFrame width height (along a b t) ↔ 0 ≤ margin width height a b t := by
  unfold InFrame margin
  simp only [le_min_iff]
  constructor
  · rintro ⟨h1, h2, h3, h4⟩; exact ⟨⟨by linarith, by linarith⟩, by linarith, by linarith⟩
  · rintro ⟨⟨h1, h2⟩, h3, h4⟩; exact ⟨by linarith, by linarith, by linarith, by linarith⟩

theorem onFrame_iff {width height : ℕ} {a b : V2} {t : ℝ} :
    OnFrame width height (along a b t) ↔ margin width height a b t = 0 := by
  unfold OnFrame
  rw [inFrame_iff]
  constructor
  · rintro ⟨h, h1 | h1 | h1 | h1⟩ <;> refine le_antisymm ?_ h <;> unfold margin
    · exact (min_le_left _ _).trans ((min_le_left _ _).trans (by linarith))
    · exact (min_le_left _ _).trans ((min_le_right _ _).trans (by linarith))
    · exact (min_le_right _ _).trans ((min_le_left _ _).trans (by linarith))
    · exact (min_le_right _ _).trans ((min_le_right _ _).trans (by linarith))
  · intro h
    refine ⟨h.ge, ?_⟩
    unfold margin at h
    rcases min_choice (min (along a b t 0 - 1) ((width : ℝ) - 1 - along a b t 0))
      (min (along a b t 1 - 1) ((height : ℝ) - 1 - along a b t 1)) with e | e <;> rw [e] at h
    · rcases min_choice (along a b t 0 - 1) ((width : ℝ) - 1 - along a b t 0) with e | e <;> rw [e] at h
      · left; linarith
      · right; left; linarith
    · rcases min_choice (along a b t 1 - 1) ((height : ℝ) - 1 - along a b t 1) with e | e <;> rw [e] at h
      · right; right; left; linarith
      · right; right; right; linarith

theorem along_inj {a b : V2} (hab : a ≠ b) {s t : ℝ} (h : along a b s = along a b t) : s = t := by
  have h0 : a 0 + s * (b 0 - a 0) = a 0 + t * (b 0 - a 0) := by simpa [along] using congrFun h 0
  have h1 : a 1 + s * (b 1 - a 1) = a 1 + t * (b 1 - a 1) := by simpa [along] using congrFun h 1
  by_contra hn
  have hst : s - t ≠ 0 := sub_ne_zero.2 hn
  apply hab
  funext i
  fin_cases i
  · have : (s - t) * (b 0 - a 0) = 0 := by linarith
    rcases mul_eq_zero.1 this with h | h
    · exact absurd h hst
    · change a 0 = b 0; linarith
  · have : (s - t) * (b 1 - a 1) = 0 := by linarith
    rcases mul_eq_zero.1 this with h | h
    · exact absurd h hst
    · change a 1 = b 1; linarith

theorem Spec.Crossings.mem_along {width height : ℕ} {a b : V2} {l : List V2} (h : Crossings width height a b l)
    {t : ℝ} (h0 : 0 ≤ t) (h1 : t ≤ 1) (hz : margin width height a b t = 0) : along a b t ∈ l :=
  (h.mem _).2 ⟨⟨t, h0, h1, rfl⟩, onFrame_iff.2 hz⟩

theorem Spec.Crossings.of_mem {width height : ℕ} {a b : V2} {l : List V2} (h : Crossings width height a b l)
    {p : V2} (hp : p ∈ l) : ∃ t, 0 ≤ t ∧ t ≤ 1 ∧ p = along a b t ∧ margin width height a b t = 0 := by
  obtain ⟨⟨t, h0, h1, rfl⟩, h2⟩ := (h.mem p).1 hp
  exact ⟨t, h0, h1, rfl, onFrame_iff.1 h2⟩

/-- Three ordered crossings would make infinitely many. -/
theorem Spec.Crossings.not_three {width height : ℕ} {a b : V2} {l : List V2} (h : Crossings width height a b l)
    (hab : a ≠ b) {s u t : ℝ} (hs : 0 ≤ s) (ht : t ≤ 1) (h1 : s < u) (h2 : u < t)
    (zs : margin width height a b s = 0) (zu : margin width height a b u = 0)
    (zt : margin width height a b t = 0) : False := by
  have hinf : (Set.Icc s u).Infinite := Set.Icc_infinite h1
  refine hinf (Set.Finite.of_finite_image (f := along a b) (Set.Finite.subset (List.finite_toSet l) ?_) ?_)
  · rintro p ⟨v, ⟨v1, v2⟩, rfl⟩
    exact h.mem_along (hs.trans v1) (v2.trans (h2.le.trans ht))
      ((conc_margin width height a b).three h1 h2 zs zu zt v1 v2)
  · intro v _ w _ e
    exact along_inj hab e

/-- A segment meets the border of the frame at most twice, unless it runs along it. -/
theorem Spec.Crossings.length_le {width height : ℕ} {a b : V2} {l : List V2} (h : Crossings width height a b l) :
    l.length ≤ 2 := by
  by_cases hab : a = b
  · subst hab
    have : ∀ p ∈ l, p = a := by
      intro p hp
      obtain ⟨t, -, -, rfl, -⟩ := h.of_mem hp
      funext i; fin_cases i <;> simp [along]
    match l, h.nodup, this with
    | [], _, _ => simp
    | [_], _, _ => simp
    | x :: y :: r, hn, hx =>
      exfalso
      have e1 := hx x (by simp)
      have e2 := hx y (by simp)
      simp [e1, e2] at hn
  · match l, h with
    | [], _ => simp
    | [_], _ => simp
    | [_, _], _ => simp
    | x :: y :: z :: r, h =>
      exfalso
      obtain ⟨s, s0, s1, rfl, zs⟩ := h.of_mem (p := x) (by simp)
      obtain ⟨u, u0, u1, rfl, zu⟩ := h.of_mem (p := y) (by simp)
      obtain ⟨t, t0, t1, rfl, zt⟩ := h.of_mem (p := z) (by simp)
      have hn := h.nodup
      simp only [List.nodup_cons, List.mem_cons, not_or] at hn
      have n1 : s ≠ u := fun e => hn.1.1 (by rw [e])
      have n2 : s ≠ t := fun e => hn.1.2.1 (by rw [e])
      have n3 : u ≠ t := fun e => hn.2.1.1 (by rw [e])
      rcases n1.lt_or_gt with a1 | a1 <;> rcases n2.lt_or_gt with a2 | a2 <;> rcases n3.lt_or_gt with a3 | a3
      · exact h.not_three hab s0 t1 a1 a3 zs zu zt
      · exact h.not_three hab s0 u1 a2 a3 zs zt zu
      · linarith
      · exact h.not_three hab t0 u1 a2 a1 zt zs zu
      · exact h.not_three hab u0 t1 a1 a2 zu zs zt
      · linarith
      · exact h.not_three hab u0 s1 a3 a2 zu zt zs
      · exact h.not_three hab t0 s1 a3 a1 zt zu zs

end RgbdSlam.Points2d
