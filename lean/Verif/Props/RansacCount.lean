import Verif.Model.RansacCount
import Verif.Spec.RansacCount
import Mathlib.Algebra.BigOperators.Ring.Finset
import Mathlib.Tactic.Linarith
import Mathlib.Tactic.NormNum
/-
C175: the number of tries of the random searches.
-/
namespace RgbdSlam.RansacCount

open Real Spec

/-- The probability of at least one good try. -/
theorem someGood_eq (q : ℝ) (n : ℕ) : someGood q n = 1 - (1 - q) ^ n := by
  classical
  have hall : ∑ tries : Fin n → Bool, outcomeProbability q tries = 1 := by
    unfold outcomeProbability
    have h := Finset.prod_univ_sum (fun _ => Finset.univ) (fun (_ : Fin n) (b : Bool) => if b then q else 1 - q)
    rw [Fintype.piFinset_univ] at h
    rw [← h]
    simp
  have hnone : ∑ tries : Fin n → Bool, (if ∃ i, tries i = true then 0 else outcomeProbability q tries) =
      (1 - q) ^ n := by
    rw [Finset.sum_eq_single (fun _ => false)]
    · simp [outcomeProbability]
    · intro b _ hb
      have : ∃ i, b i = true := by
        by_contra h
        push Not at h
        exact hb (funext fun i => by simpa using h i)
      rw [if_pos this]
    · simp
  have hsum : someGood q n + ∑ tries : Fin n → Bool,
      (if ∃ i, tries i = true then 0 else outcomeProbability q tries) = 1 := by
    rw [← hall, someGood, ← Finset.sum_add_distrib]
    refine Finset.sum_congr rfl fun t _ => ?_
    split_ifs <;> simp
  rw [hnone] at hsum
  linarith

/-- The quotient of the logarithms, when the parameters are inside their ranges. -/
theorem ratio_fin {p b : ℝ} (hp : 0 < p) (hp1 : p < 1) (hb : 0 < b) (hb1 : b < 1) :
    fdiv (flog (1 - p)) (flog b) = .fin (Real.log (1 - p) / Real.log b) ∧
      0 < Real.log (1 - p) / Real.log b := by
  have h1 : Real.log (1 - p) < 0 := Real.log_neg (by linarith) (by linarith)
  have h2 : Real.log b < 0 := Real.log_neg hb hb1
  refine ⟨?_, div_pos_of_neg_of_neg h1 h2⟩
  unfold flog
  rw [if_neg (by linarith), if_neg (by linarith), if_neg (by linarith), if_neg hb.ne']
  simp only [fdiv]
  rw [if_neg h2.ne]

/-- The number of tries that is enough. -/
theorem enough_iff {p b : ℝ} (hp1 : p < 1) (hb : 0 < b) (hb1 : b < 1) (n : ℕ) :
    p ≤ 1 - b ^ n ↔ Real.log (1 - p) / Real.log b ≤ n := by
  have h2 : Real.log b < 0 := Real.log_neg hb hb1
  rw [div_le_iff_of_neg h2, ← Real.log_pow,
    Real.log_le_log_iff (pow_pos hb n) (by linarith)]
  constructor <;> intro h <;> linarith

/-- C175: with a requested probability, a proportion of inliers and a number of features inside their ranges,
the search of the pose is given the least number of tries with which, when each of the features of a try is an
inlier with this proportion, at least one try is made of inliers with the requested probability. -/
theorem C175_pose_tries {p w k : ℝ} (hp : 0 < p) (hp1 : p < 1) (hw : 0 < w) (hw1 : w < 1) (hk : 0 < k)
    (hmax : p ≤ someGood (w ^ k) (2 ^ 32 - 1)) :
    ∃ n, poseSearch p w k = .ok (some n) ∧ p ≤ someGood (w ^ k) n ∧ ∀ m < n, someGood (w ^ k) m < p := by
  have hq : 0 < w ^ k := Real.rpow_pos_of_pos hw k
  have hq1 : w ^ k < 1 := Real.rpow_lt_one hw.le hw1 hk
  obtain ⟨hr, hpos⟩ := ratio_fin hp hp1 (b := 1 - w ^ k) (by linarith) (by linarith)
  rw [someGood_eq, enough_iff hp1 (by linarith) (by linarith)] at hmax
  set x := Real.log (1 - p) / Real.log (1 - w ^ k) with hx
  refine ⟨⌈x⌉₊, ?_, ?_, ?_⟩
  · have hc : ((⌈x⌉ : ℤ) : ℝ) = (⌈x⌉₊ : ℝ) := by
      rw [natCast_ceil_eq_intCast_ceil hpos.le]
    unfold poseSearch poseIterations
    rw [hr]
    simp only [fceil, toUint, hc]
    have hlt : (⌈x⌉₊ : ℝ) < 2 ^ 32 := by
      have : ⌈x⌉₊ ≤ 2 ^ 32 - 1 := Nat.ceil_le.2 hmax
      have : ⌈x⌉₊ < 2 ^ 32 := by omega
      exact_mod_cast this
    rw [if_pos ⟨by linarith [Nat.cast_nonneg (α := ℝ) ⌈x⌉₊], hlt⟩]
    have h0 : ¬ ⌈x⌉₊ ≤ 0 := by
      have := Nat.ceil_pos.2 hpos
      omega
    simp [Outcome.map, Outcome.bind, h0]
  · rw [someGood_eq, enough_iff hp1 (by linarith) (by linarith)]
    exact Nat.le_ceil x
  · intro m hm
    rw [someGood_eq]
    by_contra hcon
    push Not at hcon
    rw [enough_iff hp1 (by linarith) (by linarith)] at hcon
    exact absurd (Nat.ceil_le.2 hcon) (not_le.2 hm)

/-- C175 (partial): the search of cylinders is given one try less than needed, unless the quotient of the
logarithms is a whole number: its tries succeed with at most the requested probability, and one more would
have been enough. -/
theorem C175_cylinder_tries_partial {p w : ℝ} (hp : 0 < p) (hp1 : p < 1) (hw : 0 < w) (hw1 : w < 1)
    (hmax : p ≤ someGood (w ^ (3 : ℝ)) (2 ^ 32 - 1)) :
    ∃ n, cylinderIterations p w = .ok n ∧ someGood (w ^ (3 : ℝ)) n ≤ p ∧ p < someGood (w ^ (3 : ℝ)) (n + 1) := by
  have hq : 0 < w ^ (3 : ℝ) := Real.rpow_pos_of_pos hw _
  have hq1 : w ^ (3 : ℝ) < 1 := Real.rpow_lt_one hw.le hw1 (by norm_num)
  have hb : 0 < 1 - w ^ (3 : ℝ) := by linarith
  have hb1 : 1 - w ^ (3 : ℝ) < 1 := by linarith
  obtain ⟨hr, hpos⟩ := ratio_fin hp hp1 hb hb1
  rw [someGood_eq, enough_iff hp1 hb hb1] at hmax
  have h2 : Real.log (1 - w ^ (3 : ℝ)) < 0 := Real.log_neg hb hb1
  set x := Real.log (1 - p) / Real.log (1 - w ^ (3 : ℝ)) with hx
  refine ⟨⌊x⌋₊, ?_, ?_, ?_⟩
  · unfold cylinderIterations
    rw [hr]
    simp only [toUint]
    have : x < 2 ^ 32 := by
      refine lt_of_le_of_lt hmax ?_
      push_cast
      norm_num
    rw [if_pos ⟨by linarith, this⟩]
  · rw [someGood_eq]
    have h3 : (⌊x⌋₊ : ℝ) ≤ x := Nat.floor_le hpos.le
    rw [hx, le_div_iff_of_neg h2, ← Real.log_pow, Real.log_le_log_iff (by linarith) (pow_pos hb _)] at h3
    linarith
  · rw [someGood_eq]
    have h3 : x < (⌊x⌋₊ : ℝ) + 1 := Nat.lt_floor_add_one x
    have h4 : x < ((⌊x⌋₊ + 1 : ℕ) : ℝ) := by push_cast; exact h3
    rw [hx, div_lt_iff_of_neg h2, ← Real.log_pow, Real.log_lt_log_iff (pow_pos hb _) (by linarith)] at h4
    linarith

/-- C175: the search of the pose tries at most 119 subsets of features. -/
theorem C175_pose_default : poseSearch defaults.probabilityOfSuccess defaults.inlierProportion
    defaults.featureTrustCount = .ok (some 119) := by
  have hpow : (65 / 100 : ℝ) ^ (10 : ℝ) = (65 / 100) ^ 10 := by
    rw [← Real.rpow_natCast]; norm_num
  have key : ∀ n : ℕ, someGood ((65 / 100 : ℝ) ^ (10 : ℝ)) n = 1 - (1 - (65 / 100 : ℝ) ^ 10) ^ n := by
    intro n
    rw [someGood_eq, hpow]
  have hmono : ∀ m n : ℕ, m ≤ n → someGood ((65 / 100 : ℝ) ^ (10 : ℝ)) m ≤ someGood ((65 / 100 : ℝ) ^ (10 : ℝ)) n := by
    intro m n h
    rw [key, key]
    have := pow_le_pow_of_le_one (a := 1 - (65 / 100 : ℝ) ^ 10) (by norm_num) (by norm_num) h
    linarith
  have h119 : (8 / 10 : ℝ) ≤ someGood ((65 / 100 : ℝ) ^ (10 : ℝ)) 119 := by
    rw [key]; norm_num
  have h118 : someGood ((65 / 100 : ℝ) ^ (10 : ℝ)) 118 < (8 / 10 : ℝ) := by
    rw [key]; norm_num
  obtain ⟨n, h1, h2, h3⟩ := C175_pose_tries (p := 8 / 10) (w := 65 / 100) (k := 10) (by norm_num) (by norm_num)
    (by norm_num) (by norm_num) (by norm_num) (h119.trans (hmono _ _ (by norm_num)))
  have hn : n = 119 := by
    apply le_antisymm
    · by_contra h
      push Not at h
      linarith [h3 119 h]
    · by_contra h
      push Not at h
      have := hmono n 118 (by omega)
      linarith
  rw [hn] at h1
  exact h1

/-- C175 is false of the search of cylinders: with the parameters of the program it tries 43 triplets, with
which the probability of a good one is below the requested probability. -/
theorem C175_cylinder_tries_false :
    cylinderSearch defaults.cylinderProbabilityOfSuccess defaults.cylinderInlierProportions = .ok 43 ∧
      someGood (defaults.cylinderInlierProportions ^ (3 : ℝ)) 43 < defaults.cylinderProbabilityOfSuccess := by
  have hpow : (33 / 100 : ℝ) ^ (3 : ℝ) = (33 / 100) ^ 3 := by
    rw [← Real.rpow_natCast]; norm_num
  have key : ∀ n : ℕ, someGood ((33 / 100 : ℝ) ^ (3 : ℝ)) n = 1 - (1 - (33 / 100 : ℝ) ^ 3) ^ n := by
    intro n
    rw [someGood_eq, hpow]
  have hmono : ∀ m n : ℕ, m ≤ n → someGood ((33 / 100 : ℝ) ^ (3 : ℝ)) m ≤ someGood ((33 / 100 : ℝ) ^ (3 : ℝ)) n := by
    intro m n h
    rw [key, key]
    have := pow_le_pow_of_le_one (a := 1 - (33 / 100 : ℝ) ^ 3) (by norm_num) (by norm_num) h
    linarith
  have h43 : someGood ((33 / 100 : ℝ) ^ (3 : ℝ)) 43 < (8 / 10 : ℝ) := by
    rw [key]; norm_num
  have h44 : (8 / 10 : ℝ) < someGood ((33 / 100 : ℝ) ^ (3 : ℝ)) 44 := by
    rw [key]; norm_num
  obtain ⟨n, h1, h2, h3⟩ := C175_cylinder_tries_partial (p := 8 / 10) (w := 33 / 100) (by norm_num) (by norm_num)
    (by norm_num) (by norm_num) (h44.le.trans (hmono _ _ (by norm_num)))
  have hn : n = 43 := by
    apply le_antisymm
    · by_contra h
      push Not at h
      have := hmono 44 n (by omega)
      linarith
    · by_contra h
      push Not at h
      have := hmono (n + 1) 43 (by omega)
      linarith
  rw [hn] at h1
  refine ⟨?_, h43⟩
  unfold cylinderSearch
  show (cylinderIterations (8 / 10) (33 / 100)).bind _ = _
  rw [h1]
  simp [Outcome.bind]

/-- C175 (partial: the ends of the ranges are left out): parameters accepted when the program is compiled give
the search of the pose the tries that it needs. -/
theorem C175_accepted_partial {s : Settings} (h : compiles s)
    (hp : s.probabilityOfSuccess ≠ 0 ∧ s.probabilityOfSuccess ≠ 1)
    (hw : s.inlierProportion ≠ 0 ∧ s.inlierProportion ≠ 1)
    (hmax : s.probabilityOfSuccess ≤ someGood (s.inlierProportion ^ s.featureTrustCount) (2 ^ 32 - 1)) :
    ∃ n, poseSearch s.probabilityOfSuccess s.inlierProportion s.featureTrustCount = .ok (some n) ∧
      s.probabilityOfSuccess ≤ someGood (s.inlierProportion ^ s.featureTrustCount) n := by
  obtain ⟨⟨h1, h2⟩, ⟨h3, h4⟩, h5, -⟩ := h
  obtain ⟨n, a, b, -⟩ := C175_pose_tries (lt_of_le_of_ne h1 hp.1.symm) (lt_of_le_of_ne h2 hp.2)
    (lt_of_le_of_ne h3 hw.1.symm) (lt_of_le_of_ne h4 hw.2) h5 hmax
  exact ⟨n, a, b⟩

theorem compiles_defaults : compiles defaults := by
  unfold compiles defaults
  norm_num

/-- C175 is false of all the accepted parameters: a requested probability of zero, or only inliers, is accepted,
and then the search of the pose always gives up; a requested probability of one, or no inlier, is accepted,
and then the number of tries is not defined. -/
theorem C175_accepted_false :
    (compiles { defaults with probabilityOfSuccess := 0 } ∧ poseSearch 0 (65 / 100) 10 = .ok none) ∧
    (compiles { defaults with inlierProportion := 1 } ∧ poseSearch (8 / 10) 1 10 = .ok none) ∧
    (compiles { defaults with probabilityOfSuccess := 1 } ∧ poseSearch 1 (65 / 100) 10 = .ub) ∧
    (compiles { defaults with inlierProportion := 0 } ∧ poseSearch (8 / 10) 0 10 = .ub) := by
  have hpow : (65 / 100 : ℝ) ^ (10 : ℝ) = (65 / 100) ^ 10 := by
    rw [← Real.rpow_natCast]; norm_num
  have hneg : Real.log (1 - (65 / 100 : ℝ) ^ 10) < 0 := Real.log_neg (by norm_num) (by norm_num)
  have hf : flog (1 - (65 / 100 : ℝ) ^ 10) = .fin (Real.log (1 - (65 / 100 : ℝ) ^ 10)) := by
    unfold flog
    rw [if_neg (by norm_num), if_neg (by norm_num)]
  have hl : Real.log (1 - 8 / 10) < 0 := Real.log_neg (by norm_num) (by norm_num)
  have hf' : flog (1 - 8 / 10) = .fin (Real.log (1 - 8 / 10)) := by
    unfold flog
    rw [if_neg (by norm_num), if_neg (by norm_num)]
  have z : flog 0 = .negInf := by simp [flog]
  have o : flog 1 = .fin 0 := by simp [flog]
  refine ⟨⟨by unfold compiles defaults; norm_num, ?_⟩, ⟨by unfold compiles defaults; norm_num, ?_⟩,
    ⟨by unfold compiles defaults; norm_num, ?_⟩, ⟨by unfold compiles defaults; norm_num, ?_⟩⟩
  · unfold poseSearch poseIterations
    rw [hpow, hf, sub_zero, o]
    simp [fdiv, hneg.ne, fceil, toUint, Outcome.map, Outcome.bind]
  · unfold poseSearch poseIterations
    rw [Real.one_rpow, sub_self, z, hf']
    simp [fdiv, fceil, toUint, Outcome.map, Outcome.bind]
  · unfold poseSearch poseIterations
    rw [hpow, hf, sub_self, z]
    simp [fdiv, hneg, fceil, toUint, Outcome.map, Outcome.bind]
  · unfold poseSearch poseIterations
    rw [Real.zero_rpow (by norm_num), sub_zero, o, hf']
    simp [fdiv, hl, hl.ne, fceil, toUint, Outcome.map, Outcome.bind]

/-- C175 is false of the parameters of the search of cylinders: its check accepts every requested probability,
for one above one the number of tries is not defined, and a small one inside the range stops the program. -/
theorem C175_cylinder_accepted_false :
    (∀ p, compiles { defaults with cylinderProbabilityOfSuccess := p }) ∧
    cylinderSearch 2 (33 / 100) = .ub ∧ cylinderSearch (1 / 100) (33 / 100) = .terminate := by
  have hpow : (33 / 100 : ℝ) ^ (3 : ℝ) = (33 / 100) ^ 3 := by
    rw [← Real.rpow_natCast]; norm_num
  refine ⟨?_, ?_, ?_⟩
  · intro p
    unfold compiles defaults
    have : p > 0 ∨ p < 1 := by
      by_cases h : p > 0
      · exact Or.inl h
      · exact Or.inr (by linarith [not_lt.1 h])
    norm_num
    simpa using this
  · unfold cylinderSearch cylinderIterations
    have : flog (1 - 2) = .nan := by unfold flog; rw [if_pos (by norm_num)]
    rw [this]
    simp [fdiv, toUint, Outcome.bind]
  · have hmono : ∀ n : ℕ, 1 ≤ n → (33 / 100) ^ 3 ≤ someGood ((33 / 100 : ℝ) ^ (3 : ℝ)) n := by
      intro n hn
      rw [someGood_eq, hpow]
      have := pow_le_pow_of_le_one (a := 1 - (33 / 100 : ℝ) ^ 3) (by norm_num) (by norm_num) hn
      rw [pow_one] at this
      linarith
    obtain ⟨n, a, b, -⟩ := C175_cylinder_tries_partial (p := 1 / 100) (w := 33 / 100) (by norm_num)
      (by norm_num) (by norm_num) (by norm_num) (le_trans (by norm_num) (hmono _ (by norm_num)))
    have hn : n = 0 := by
      by_contra hne
      have := hmono n (by omega)
      norm_num at this
      linarith
    unfold cylinderSearch
    rw [a, hn]
    simp [Outcome.bind]

/-- The hypotheses of C175_pose_tries and C175_cylinder_tries_partial. -/
example : (1 / 2 : ℝ) ≤ someGood ((1 / 2 : ℝ) ^ (2 : ℝ)) 3 := by
  have : (1 / 2 : ℝ) ^ (2 : ℝ) = (1 / 2) ^ 2 := by rw [← Real.rpow_natCast]; norm_num
  rw [someGood_eq, this]; norm_num

end RgbdSlam.RansacCount
