import Verif.Spec.Crossing
import Mathlib.Tactic.FinCases
import Mathlib.Tactic.Linarith
import Mathlib.Tactic.NormNum
/-
C158: intersections of lines and segments.
-/
namespace RgbdSlam.Crossing

open Spec

/-- C158 for segments (partial: the value returned by boost must tell whether there are points): a point is found when the
segments have one in common, and it is on both. -/
theorem C158_segments_partial {n : ℕ} (cross : (Fin n → ℝ) × (Fin n → ℝ) → (Fin n → ℝ) × (Fin n → ℝ) → Found n)
    (hr : Right cross) (ht : TellsWhether cross) (a b : (Fin n → ℝ) × (Fin n → ℝ)) :
    ((¬ ∃ p, OnSegment a p ∧ OnSegment b p) ∧ segments cross a b = .ok none) ∨
      ∃ p, segments cross a b = .ok (some p) ∧ OnSegment a p ∧ OnSegment b p := by
  unfold segments
  dsimp only
  cases hc : (cross a b).points with
  | nil =>
    have hf : (cross a b).returned = false := by
      rw [← Bool.not_eq_true, ht a b, hc]
      simp
    rw [hf]
    exact Or.inl ⟨fun h => (hr a b).2 h hc, rfl⟩
  | cons p l =>
    rw [(ht a b).2 (by rw [hc]; simp)]
    exact Or.inr ⟨p, rfl, (hr a b).1 p (by rw [hc]; simp)⟩

/-- C158 for lines (partial: the point must be in front of both starts, 100 away at most; and boost as above): a point is
found and it is on both lines. Whatever is found is on both lines. -/
theorem C158_lines_partial {n : ℕ} (cross : (Fin n → ℝ) × (Fin n → ℝ) → (Fin n → ℝ) × (Fin n → ℝ) → Found n)
    (hr : Right cross) (ht : TellsWhether cross) (s1 n1 s2 n2 : Fin n → ℝ) :
    (∀ p, lines cross s1 n1 s2 n2 = .ok (some p) → OnLine s1 n1 p ∧ OnLine s2 n2 p) ∧
    ((∃ t u : ℝ, 0 ≤ t ∧ t ≤ 100 ∧ 0 ≤ u ∧ u ≤ 100 ∧ s1 + t • n1 = s2 + u • n2) →
      ∃ p, lines cross s1 n1 s2 n2 = .ok (some p)) := by
  have key := C158_segments_partial cross hr ht (s1, s1 + (100 : ℝ) • n1) (s2, s2 + (100 : ℝ) • n2)
  constructor
  · intro p hp
    rcases key with ⟨-, e⟩ | ⟨q, e, ⟨t, -, -, hq1⟩, ⟨u, -, -, hq2⟩⟩
    · unfold lines at hp
      rw [e] at hp
      cases hp
    · unfold lines at hp
      rw [e] at hp
      obtain rfl : q = p := by
        injection hp with h
        injection h
      refine ⟨⟨t * 100, ?_⟩, u * 100, ?_⟩
      · rw [hq1]
        simp [mul_smul]
      · rw [hq2]
        simp [mul_smul]
  · rintro ⟨t, u, ht0, ht1, hu0, hu1, e⟩
    rcases key with ⟨h, -⟩ | ⟨p, e, -⟩
    · refine absurd ⟨s1 + t • n1, ⟨t / 100, by positivity, by linarith, ?_⟩, ⟨u / 100, by positivity, by linarith, ?_⟩⟩ h
      · simp [smul_smul]
      · rw [e]
        simp [smul_smul]
    · exact ⟨p, e⟩

/-- C158 is false of the code: the horizontal line through (0, 0) and the vertical line through (-1, 0), given by these
points, meet at (-1, 0), and no point is found, whatever boost gives for segments. -/
theorem C158_lines_false : ∃ s1 n1 s2 n2 : Fin 2 → ℝ, (∃ p, OnLine s1 n1 p ∧ OnLine s2 n2 p) ∧
    ∀ cross, Right cross → ∀ p, lines cross s1 n1 s2 n2 ≠ .ok (some p) := by
  refine ⟨![0, 0], ![1, 0], ![-1, 0], ![0, 1], ⟨![-1, 0], ⟨-1, ?_⟩, 0, ?_⟩, ?_⟩
  · ext i
    fin_cases i <;> simp
  · ext i
    fin_cases i <;> simp
  · intro cross hr p hp
    unfold lines segments at hp
    dsimp only at hp
    split_ifs at hp with hret
    swap
    · cases hp
    cases hc : (cross (![0, 0], ![0, 0] + (100 : ℝ) • ![1, 0]) (![-1, 0], ![-1, 0] + (100 : ℝ) • ![0, 1])).points with
    | nil => rw [hc] at hp; cases hp
    | cons q l =>
      obtain ⟨⟨t, t0, t1, h1⟩, ⟨u, u0, u1, h2⟩⟩ := (hr (![0, 0], ![0, 0] + (100 : ℝ) • ![1, 0])
        (![-1, 0], ![-1, 0] + (100 : ℝ) • ![0, 1])).1 q (by rw [hc]; simp)
      have e1 := congrFun h1 0
      have e2 := congrFun h2 0
      simp at e1 e2
      linarith

/-- C158 is false of the code when boost returns true without a point, which `clamp_to_screen` of the same file provides
for: two segments that do not meet, for which the first of no points is read. -/
theorem C158_empty_false : ∃ a b : (Fin 2 → ℝ) × (Fin 2 → ℝ), (¬ ∃ p, OnSegment a p ∧ OnSegment b p) ∧
    ∀ cross, Right cross → (∀ a b, (cross a b).returned = true) → segments cross a b = .ub := by
  have hno : ¬ ∃ p, OnSegment ((![0, 0], ![1, 0]) : (Fin 2 → ℝ) × (Fin 2 → ℝ)) p ∧ OnSegment (![0, 1], ![1, 1]) p := by
    rintro ⟨p, ⟨t, -, -, h1⟩, ⟨u, -, -, h2⟩⟩
    have e1 := congrFun h1 1
    have e2 := congrFun h2 1
    simp at e1 e2
    linarith
  refine ⟨(![0, 0], ![1, 0]), (![0, 1], ![1, 1]), hno, fun cross hr ht => ?_⟩
  unfold segments
  dsimp only
  rw [ht]
  cases hc : (cross (![0, 0], ![1, 0]) (![0, 1], ![1, 1])).points with
  | nil => rfl
  | cons p l => exact absurd ⟨p, (hr _ _).1 p (by rw [hc]; simp)⟩ hno

open Classical in
/-- Non-vacuity: an intersection as asked, and two segments that cross. -/
example : ∃ cross : (Fin 2 → ℝ) × (Fin 2 → ℝ) → (Fin 2 → ℝ) × (Fin 2 → ℝ) → Found 2, Right cross ∧ TellsWhether cross ∧
    ∃ p, OnSegment ((![0, 0], ![2, 2]) : (Fin 2 → ℝ) × (Fin 2 → ℝ)) p ∧ OnSegment (![0, 2], ![2, 0]) p := by
  refine ⟨fun a b => if h : ∃ p, OnSegment a p ∧ OnSegment b p then ⟨true, [h.choose]⟩ else ⟨false, []⟩, ?_, ?_, ![1, 1],
    ⟨1 / 2, by norm_num, by norm_num, ?_⟩, ⟨1 / 2, by norm_num, by norm_num, ?_⟩⟩
  · intro a b
    by_cases h : ∃ p, OnSegment a p ∧ OnSegment b p
    · simp only [dif_pos h, List.mem_singleton, forall_eq]
      exact ⟨h.choose_spec, fun _ => by simp⟩
    · simp only [dif_neg h]
      exact ⟨by simp, fun h' => absurd h' h⟩
  · intro a b
    by_cases h : ∃ p, OnSegment a p ∧ OnSegment b p
    · simp [dif_pos h]
    · simp [dif_neg h]
  · ext i
    fin_cases i <;> simp
  · ext i
    fin_cases i <;> norm_num

end RgbdSlam.Crossing
