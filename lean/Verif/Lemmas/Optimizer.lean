import Verif.Spec.Optimizer
import Verif.Lemmas.Geometry
import Verif.Lemmas.Covariance
import Mathlib.Tactic.Linarith
import Mathlib.Tactic.LinearCombination
import Mathlib.Tactic.FieldSimp
import Mathlib.Tactic.Positivity
import Mathlib.Tactic.FinCases

/-
Lemmas about the pose optimisation.
-/
set_option linter.unusedSimpArgs false

namespace RgbdSlam.Optimizer

open Matrix Geometry Covariance
open Geometry.Spec (UnitQuat UnitVec)
open Optimizer.Spec

/-! ## Quaternions -/

theorem normalized_of_unitQuat {q : Quat} (h : UnitQuat q) : q.normalized = q := by
  have h1 := Geometry.UnitQuat.normSq h
  unfold Quat.normalized
  rw [h1]
  simp

theorem unitQuat_normalized {q : Quat} (h : 0 < q.normSq) : UnitQuat q.normalized := by
  unfold Quat.normalized UnitQuat
  rw [if_pos h]
  simp only [div_pow, Real.sq_sqrt h.le]
  have h' : q.normSq ≠ 0 := h.ne'
  rw [← add_div, ← add_div, ← add_div, div_eq_one_iff_eq h']
  unfold Quat.normSq
  ring

theorem quatOfCoefficients_unit (c : V3) : UnitQuat (quatOfCoefficients c) := by
  unfold UnitQuat quatOfCoefficients
  have h : c 0 ^ 2 + c 1 ^ 2 + c 2 ^ 2 + 1 ≠ 0 := by positivity
  simp only
  field_simp
  ring

theorem poseOfCoefficients_unit (c : Fin 6 → ℝ) : UnitQuat (poseOfCoefficients c).orientation := by
  unfold poseOfCoefficients Pose.ofParameters
  simp only
  rw [normalized_of_unitQuat (quatOfCoefficients_unit _)]
  exact quatOfCoefficients_unit _

/-! ## Residuals -/

theorem foldl_parts (features : List Feature) (n : ℕ) :
    features.foldl (fun n f => n + f.parts) n = n + (features.map (·.parts)).sum := by
  induction features generalizing n with
  | nil => simp
  | cons f fs ih => rw [List.foldl_cons, ih]; simp; omega

theorem foldl_score (features : List Feature) (x : ℝ) :
    features.foldl (fun x f => x + f.score) x = x + (features.map (·.score)).sum := by
  induction features generalizing x with
  | nil => simp
  | cons f fs ih => rw [List.foldl_cons, ih]; simp; ring

theorem expectedResiduals_length {w2c : M4} {features : List Feature} (h : WellFormed w2c features) :
    (expectedResiduals w2c features).length = (features.map (·.parts)).sum := by
  induction features with
  | nil => simp [expectedResiduals]
  | cons f fs ih =>
    have ih := ih fun g hg => h g (List.mem_cons_of_mem _ hg)
    obtain ⟨d, hd, hl⟩ := h f List.mem_cons_self
    unfold expectedResiduals at *
    rw [List.flatMap_cons, List.length_append, ih, hd]
    simp [hl]

theorem residualLoop_ok {w2c : M4} {features : List Feature} (h : WellFormed w2c features) :
    ∀ (index : ℕ) (out : List ℝ), out.length = index + (features.map (·.parts)).sum →
      residualLoop w2c features index out = .ok (out.take index ++ expectedResiduals w2c features) := by
  induction features with
  | nil =>
    intro index out ho
    simp only [List.map_nil, List.sum_nil, Nat.add_zero] at ho
    simp [residualLoop, expectedResiduals, ← ho]
  | cons f fs ih =>
    intro index out ho
    have ih := ih fun g hg => h g (List.mem_cons_of_mem _ hg)
    obtain ⟨d, hd, hl⟩ := h f List.mem_cons_self
    simp only [List.map_cons, List.sum_cons] at ho
    have hlen : (writeSegment out index (d.map fun x => x * f.alpha / f.parts)).length = out.length := by
      simp [writeSegment, hl]; omega
    rw [residualLoop, hd]
    simp only
    rw [if_neg (by simp [hl]), if_neg (by omega), ih _ _ (by rw [hlen]; omega)]
    congr 1
    have he : expectedResiduals w2c (f :: fs) =
        ((f.distance w2c).getD []).map (fun x => x * f.alpha / f.parts) ++ expectedResiduals w2c fs := by
      simp [expectedResiduals]
    rw [he, ← List.append_assoc]
    congr 1
    rw [hd]
    simp only [Option.getD_some, writeSegment]
    rw [List.take_append_of_le_length (by simp [hl]; omega), List.take_of_length_le (by simp [hl])]

theorem residualLoop_slots {w2c : M4} {features : List Feature}
    (h : ∀ f ∈ features, ∀ d, f.distance w2c = some d → d.length = f.parts) :
    ∀ (index : ℕ) (out : List ℝ), out.length = index + (features.map (·.parts)).sum →
      ∃ out', residualLoop w2c features index out = .ok out' ∧ out'.length = out.length ∧
        out'.take index = out.take index ∧
        ∀ before f after, features = before ++ f :: after →
          slots out' (index + (before.map (·.parts)).sum) f.parts =
            match f.distance w2c with
            | none => slots out (index + (before.map (·.parts)).sum) f.parts
            | some d => d.map fun x => x * f.alpha / f.parts := by
  induction features with
  | nil =>
    intro index out ho
    exact ⟨out, rfl, rfl, rfl, fun before f after he => absurd he (by simp)⟩
  | cons f fs ih =>
    intro index out ho
    have ih := ih fun g hg => h g (List.mem_cons_of_mem _ hg)
    simp only [List.map_cons, List.sum_cons] at ho
    cases hd : f.distance w2c with
    | none =>
      obtain ⟨out', h1, h2, h3, h4⟩ := ih (index + f.parts) out (by omega)
      refine ⟨out', by rw [residualLoop, hd]; exact h1, h2, ?_, ?_⟩
      · have := congrArg (List.take index) h3
        simpa [List.take_take] using this
      · intro before g after he
        cases before with
        | nil =>
          simp only [List.nil_append, List.cons.injEq] at he
          obtain ⟨rfl, rfl⟩ := he
          rw [hd]
          simp only [List.map_nil, List.sum_nil, Nat.add_zero, slots]
          have h5 : ∀ v : List ℝ, (v.drop index).take f.parts = (v.take (index + f.parts)).drop index := by
            intro v
            rw [List.drop_take]; congr 1; omega
          rw [h5, h5, h3]
        | cons b bs =>
          simp only [List.cons_append, List.cons.injEq] at he
          obtain ⟨rfl, rfl⟩ := he
          have := h4 bs g after rfl
          simpa [Nat.add_assoc] using this
    | some d =>
      have hl := h f List.mem_cons_self d hd
      have hlen : (writeSegment out index (d.map fun x => x * f.alpha / f.parts)).length = out.length := by
        simp [writeSegment, hl]; omega
      obtain ⟨out', h1, h2, h3, h4⟩ := ih (index + f.parts)
        (writeSegment out index (d.map fun x => x * f.alpha / f.parts)) (by rw [hlen]; omega)
      refine ⟨out', ?_, h2.trans hlen, ?_, ?_⟩
      · rw [residualLoop, hd]
        simp only
        rw [if_neg (by simp [hl]), if_neg (by omega), h1]
      · have := congrArg (List.take index) h3
        rw [List.take_take, List.take_take, Nat.min_eq_left (by omega)] at this
        rw [this, writeSegment, List.append_assoc, List.take_append_of_le_length (by simp; omega),
          List.take_take, Nat.min_self]
      · intro before g after he
        cases before with
        | nil =>
          simp only [List.nil_append, List.cons.injEq] at he
          obtain ⟨rfl, rfl⟩ := he
          rw [hd]
          simp only [List.map_nil, List.sum_nil, Nat.add_zero, slots]
          have h5 : (out'.drop index).take f.parts = (out'.take (index + f.parts)).drop index := by
            rw [List.drop_take]; congr 1; omega
          rw [h5, h3, writeSegment, List.take_append_of_le_length (by simp [hl]; omega),
            List.take_of_length_le (by simp [hl]), List.drop_append_of_le_length (by simp; omega)]
          simp
        | cons b bs =>
          simp only [List.cons_append, List.cons.injEq] at he
          obtain ⟨rfl, rfl⟩ := he
          have := h4 bs g after rfl
          simp only [List.map_cons, List.sum_cons, ← Nat.add_assoc]
          rw [this]
          cases g.distance w2c with
          | some e => rfl
          | none =>
            simp only [slots]
            congr 1
            rw [writeSegment, List.drop_append, List.drop_of_length_le (by simp [hl]; omega)]
            simp [hl]
            congr 1
            omega

theorem match_wellFormed (K : M3) (w2c : M4) (matches_ : List Match) :
    WellFormed w2c (matches_.map (Match.feature K)) := by
  intro f hf
  obtain ⟨m, -, rfl⟩ := List.mem_map.1 hf
  cases m <;> exact ⟨_, rfl, rfl⟩

theorem match_score_parts (K : M3) (m : Match) :
    6 * (m.feature K).score ≤ (m.feature K).parts := by
  cases m <;> simp only [Match.feature, pointFeature, point2dFeature, planeFeature] <;> norm_num

theorem matches_score_parts (K : M3) (matches_ : List Match) :
    6 * ((matches_.map (Match.feature K)).map (·.score)).sum ≤
      (((matches_.map (Match.feature K)).map (·.parts)).sum : ℕ) := by
  induction matches_ with
  | nil => simp
  | cons m ms ih =>
    simp only [List.map_cons, List.sum_cons, Nat.cast_add]
    have := match_score_parts K m
    linarith

/-! ## Angles -/

theorem arg_cos_sin {x : ℝ} (h1 : -Real.pi < x) (h2 : x ≤ Real.pi) :
    Complex.arg ⟨Real.cos x, Real.sin x⟩ = x := by
  have := Complex.arg_cos_add_sin_mul_I (θ := x) ⟨h1, h2⟩
  rw [← Complex.ofReal_cos, ← Complex.ofReal_sin] at this
  rwa [show (⟨Real.cos x, Real.sin x⟩ : ℂ) = (Real.cos x : ℂ) + (Real.sin x : ℂ) * Complex.I from
    Complex.ext (by simp [-Complex.ofReal_cos, -Complex.ofReal_sin]) (by simp [-Complex.ofReal_cos, -Complex.ofReal_sin])]

theorem angleDistance_eq {a b : ℝ} (h1 : -Real.pi < a - b) (h2 : a - b ≤ Real.pi) :
    angleDistance a b = a - b := by
  unfold angleDistance atan2
  exact arg_cos_sin h1 h2

theorem unit_component {v : V3} (h : UnitVec v) (i : Fin 3) : |v i| ≤ 1 := by
  unfold UnitVec at h
  rw [Fin.sum_univ_three] at h
  rw [← sq_le_one_iff_abs_le_one]
  fin_cases i <;> simp only [Fin.zero_eta, Fin.mk_one, Fin.reduceFinMk] <;> nlinarith [sq_nonneg (v 0), sq_nonneg (v 1), sq_nonneg (v 2)]

end RgbdSlam.Optimizer
