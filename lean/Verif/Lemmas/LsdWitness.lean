import Mathlib.Analysis.SpecialFunctions.Complex.Arg
import Mathlib.Tactic.FinCases
import Verif.Lemmas.LsdSegments
/-
Lemmas for the examples of the detector of segments: images whose edges have one direction.
-/
namespace RgbdSlam.Lsd

open Real

/-! ## An exact arc tangent -/

/-- The arc tangent of (y, x) in degrees, between 0 and 360. -/
noncomputable def exactAtan (y x : ℝ) : ℝ :=
  (if Complex.arg ⟨x, y⟩ < 0 then Complex.arg ⟨x, y⟩ + 2 * π else Complex.arg ⟨x, y⟩) / (π / 180)

theorem exactAtan_exact : Spec.ExactAtan exactAtan := by
  intro y x
  have hpi := Real.pi_pos
  have e : exactAtan y x * (π / 180) =
      if Complex.arg ⟨x, y⟩ < 0 then Complex.arg ⟨x, y⟩ + 2 * π else Complex.arg ⟨x, y⟩ := by
    unfold exactAtan
    rw [div_mul_cancel₀]
    positivity
  have h1 := Complex.neg_pi_lt_arg ⟨x, y⟩
  have h2 := Complex.arg_le_pi ⟨x, y⟩
  rw [e]
  refine ⟨by split_ifs <;> linarith, by split_ifs <;> linarith, ‖(⟨x, y⟩ : ℂ)‖, norm_nonneg _, ?_, ?_⟩
  · have := Complex.norm_mul_cos_arg ⟨x, y⟩
    split_ifs
    · rw [Real.cos_add_two_pi]; exact this.symm
    · exact this.symm
  · have := Complex.norm_mul_sin_arg ⟨x, y⟩
    split_ifs
    · rw [Real.sin_add_two_pi]; exact this.symm
    · exact this.symm

/-- The direction of a vector that is not null is unique. -/
theorem points_unique {a b x y : ℝ} (ha : Spec.Points a x y) {r : ℝ} (hr : 0 < r) (hb : 0 ≤ b ∧ b < 2 * π)
    (hx : x = r * cos b) (hy : y = r * sin b) : a = b := by
  obtain ⟨h0, h1, q, hq, ex, ey⟩ := ha
  have hcs : ∀ t : ℝ, cos t ^ 2 + sin t ^ 2 = 1 := fun t => by rw [add_comm]; exact Real.sin_sq_add_cos_sq t
  have hqr : q = r := by
    have h2 : q ^ 2 = r ^ 2 := by
      have e1 : x ^ 2 + y ^ 2 = q ^ 2 := by rw [ex, ey]; linear_combination q ^ 2 * hcs a
      have e2 : x ^ 2 + y ^ 2 = r ^ 2 := by rw [hx, hy]; linear_combination r ^ 2 * hcs b
      linarith
    nlinarith
  subst hqr
  have hc : cos a = cos b := by
    apply mul_left_cancel₀ hr.ne'
    rw [← ex, hx]
  have hs : sin a = sin b := by
    apply mul_left_cancel₀ hr.ne'
    rw [← ey, hy]
  have h1' : cos (a - b) = 1 := by rw [Real.cos_sub, hc, hs]; linear_combination hcs b
  obtain ⟨k, hk⟩ := (Real.cos_eq_one_iff _).1 h1'
  have hpi := Real.pi_pos
  have hk1 : (k : ℝ) < 1 := by
    by_contra h
    have : (1 : ℝ) ≤ k := not_lt.1 h
    nlinarith [hb.1]
  have hk2 : (-1 : ℝ) < k := by
    by_contra h
    have : (k : ℝ) ≤ -1 := not_lt.1 h
    nlinarith [hb.2]
  have hk1' : k < 1 := by exact_mod_cast hk1
  have hk2' : -1 < k := by exact_mod_cast hk2
  have : k = 0 := by omega
  subst this
  simp at hk
  linarith

/-! ## Images with one direction -/

theorem one_direction (s : Setting) (hat : Spec.ExactAtan s.atan) (c : ℝ) (hc : 0 ≤ c ∧ c < 2 * π)
    (hone : ∀ p a, s.angle threshold p = some a → a = c) (d : Px → Bool)
    (hd : ∀ p, (s.angle threshold p).isSome = d p) (fuel : ℕ) (order : List Px) (rs' : List (Region Unit))
    (h : (flat s.width s.height d).search fuel (minRegionSize s.width s.height) d order (fun _ => false) = .ok rs') :
    ∃ rs, s.regions fuel order = .ok rs ∧ List.Forall₂ (fun g g' => g.points = g'.points ∧ g.angle.theta = c) rs rs' := by
  have hd' : ∀ p, d p = true → s.angle threshold p = some c := by
    intro p hp
    rw [← hd] at hp
    obtain ⟨a, ha⟩ := Option.isSome_iff_exists.1 hp
    rw [ha, hone p a ha]
  let I : Mean → Prop := fun m => m.theta = c ∧ ∃ n : ℝ, 0 < n ∧ m.dx = n * cos c ∧ m.dy = n * sin c
  have ha' : ∀ m p, I m → s.rule.aligned m p = d p := by
    rintro m p ⟨h1, -⟩
    change isAligned (s.angle threshold) s.width s.height p m.theta tolerance = d p
    cases hp : d p with
    | true =>
      have ha := hd' p hp
      obtain ⟨n, hn, -⟩ := angle_some_norm s _ p c ha
      have hin := norm_some_inner s p n hn
      rw [isAligned_iff _ _ _ p _ _ c ⟨by omega, by omega⟩ ha tolerance_pos.le tolerance_lt (h1 ▸ hc) hc, h1]
      exact ⟨0, by simpa using tolerance_pos.le⟩
    | false =>
      rw [← hd] at hp
      by_contra hn
      rw [Bool.not_eq_false] at hn
      obtain ⟨a, ha⟩ := isAligned_some _ _ _ _ _ _ hn
      rw [ha] at hp
      simp at hp
  have hj' : ∀ m p, I m → d p = true → I (s.rule.join m p) := by
    rintro m p ⟨-, n, hn, e1, e2⟩ hp
    have ha := hd' p hp
    have e3 : m.dx + cos c = (n + 1) * cos c := by rw [e1]; ring
    have e4 : m.dy + sin c = (n + 1) * sin c := by rw [e2]; ring
    simp only [Setting.rule, ha, Option.getD_some]
    refine ⟨?_, n + 1, by linarith, e3, e4⟩
    exact points_unique (hat _ _) (r := n + 1) (by linarith) hc e3 e4
  have hs' : ∀ p, d p = true → I (s.rule.start p) := by
    intro p hp
    have ha := hd' p hp
    simp only [Setting.rule, ha, Option.getD_some]
    exact ⟨rfl, 1, by norm_num, by ring, by ring⟩
  obtain ⟨rs, e, hF⟩ := same_search s.rule d
    I ha' hj' hs' fuel
    (minRegionSize s.width s.height) order (fun _ => false) rs' h
  refine ⟨rs, ?_, hF.imp ?_⟩
  · unfold Setting.regions
    simp only [hd]
    exact e
  · rintro g g' ⟨h1, -, h3, -⟩
    exact ⟨h1, h3⟩

/-- The direction of the edges of an image that darkens or lightens along the diagonal. -/
theorem diagonal_atan (atan : ℝ → ℝ → ℝ) (hat : Spec.ExactAtan atan) (g : ℝ) (hg : 0 < g) :
    atan g (-g) * degree = 3 * π / 4 := by
  have hpi := Real.pi_pos
  have hc : cos (3 * π / 4) = -(√2 / 2) := by
    rw [show 3 * π / 4 = π - π / 4 by ring, Real.cos_pi_sub, Real.cos_pi_div_four]
  have hs : sin (3 * π / 4) = √2 / 2 := by
    rw [show 3 * π / 4 = π - π / 4 by ring, Real.sin_pi_sub, Real.sin_pi_div_four]
  have h2 : √2 * √2 = 2 := Real.mul_self_sqrt (by norm_num)
  refine points_unique (hat _ _) (r := g * √2) (by positivity) ⟨by positivity, by linarith⟩ ?_ ?_
  · rw [hc]; linear_combination (g / 2) * h2
  · rw [hs]; linear_combination (-g / 2) * h2

/-- An image `f (x + y)`. -/
noncomputable def diagonal (w h : ℕ) (f : ℕ → ℤ) (atan : ℝ → ℝ → ℝ) : Setting where
  width := w
  height := h
  pixel x y := f (x + y)
  atan := atan

theorem diagonal_norm (w h : ℕ) (f : ℕ → ℤ) (atan : ℝ → ℝ → ℝ) (hf : ∀ n, 0 ≤ f (n + 2) - f n) (p : Px) :
    (diagonal w h f atan).norm p = if p.1 + 1 < w ∧ p.2 + 1 < h then
      some ((f (p.1 + p.2 + 2) - f (p.1 + p.2) : ℤ) * (√2 / 2)) else none := by
  have hin : (diagonal w h f atan).inner p = true ↔ p.1 + 1 < w ∧ p.2 + 1 < h := by
    unfold Setting.inner
    rw [Bool.and_eq_true, decide_eq_true_eq, decide_eq_true_eq]
    rfl
  unfold Setting.norm
  simp only [hin]
  simp only [diagonal, Setting.gradient]
  have e1 : p.1 + 1 + (p.2 + 1) = p.1 + p.2 + 2 := by ring
  have e2 : p.1 + 1 + p.2 = p.1 + (p.2 + 1) := by ring
  rw [e1, e2]
  have h0 := hf (p.1 + p.2)
  generalize f (p.1 + p.2 + 2) - f (p.1 + p.2) = g at h0 ⊢
  have h0' : (0 : ℝ) ≤ g := by exact_mod_cast h0
  have : √(((g + (f (p.1 + (p.2 + 1)) - f (p.1 + (p.2 + 1)))) * (g + (f (p.1 + (p.2 + 1)) - f (p.1 + (p.2 + 1)))) +
      (g - (f (p.1 + (p.2 + 1)) - f (p.1 + (p.2 + 1)))) * (g - (f (p.1 + (p.2 + 1)) - f (p.1 + (p.2 + 1)))) : ℤ) / 4) =
      (g : ℝ) * (√2 / 2) := by
    rw [show ((g + (f (p.1 + (p.2 + 1)) - f (p.1 + (p.2 + 1)))) * (g + (f (p.1 + (p.2 + 1)) - f (p.1 + (p.2 + 1)))) +
      (g - (f (p.1 + (p.2 + 1)) - f (p.1 + (p.2 + 1)))) * (g - (f (p.1 + (p.2 + 1)) - f (p.1 + (p.2 + 1)))) : ℤ)
      = 2 * (g * g) by ring]
    rw [Real.sqrt_eq_iff_mul_self_eq (by push_cast; positivity) (by positivity)]
    have h2 : √2 * √2 = 2 := Real.mul_self_sqrt (by norm_num)
    push_cast
    linear_combination (-(g : ℝ) ^ 2 / 4) * h2
  rw [this]

theorem diagonal_angle (w h : ℕ) (f : ℕ → ℤ) (atan : ℝ → ℝ → ℝ) (hat : Spec.ExactAtan atan)
    (hf : ∀ n, 0 ≤ f (n + 2) - f n) (p : Px) :
    (diagonal w h f atan).angle threshold p =
      if p.1 + 1 < w ∧ p.2 + 1 < h ∧ 8 ≤ f (p.1 + p.2 + 2) - f (p.1 + p.2) then some (3 * π / 4) else none := by
  unfold Setting.angle
  rw [diagonal_norm w h f atan hf]
  by_cases h1 : p.1 + 1 < w ∧ p.2 + 1 < h
  swap
  · rw [if_neg h1, if_neg (fun h => h1 ⟨h.1, h.2.1⟩)]
  rw [if_pos h1]
  have e1 : p.1 + 1 + (p.2 + 1) = p.1 + p.2 + 2 := by ring
  have e2 : p.1 + 1 + p.2 = p.1 + (p.2 + 1) := by ring
  have hgr : (diagonal w h f atan).gradient p =
      (f (p.1 + p.2 + 2) - f (p.1 + p.2), f (p.1 + p.2 + 2) - f (p.1 + p.2)) := by
    simp only [diagonal, Setting.gradient]
    rw [e1, e2]
    simp
  rw [hgr]
  have h0 := hf (p.1 + p.2)
  generalize f (p.1 + p.2 + 2) - f (p.1 + p.2) = g at h0 ⊢
  have h0' : (0 : ℝ) ≤ g := by exact_mod_cast h0
  have h2 : √2 * √2 = 2 := Real.mul_self_sqrt (by norm_num)
  have hsq : ((g : ℝ) * (√2 / 2)) ^ 2 = (g : ℝ) ^ 2 / 2 := by linear_combination ((g : ℝ) ^ 2 / 4) * h2
  have hnn : 0 ≤ (g : ℝ) * (√2 / 2) := by positivity
  have htb := threshold_bounds
  have htp := threshold_pos
  dsimp only
  by_cases h8 : 8 ≤ g
  · have h8' : (8 : ℝ) ≤ g := by exact_mod_cast h8
    have hn : ¬ (g : ℝ) * (√2 / 2) ≤ threshold := by
      rw [not_le]
      refine lt_of_pow_lt_pow_left₀ 2 hnn ?_
      rw [hsq]
      nlinarith
    rw [if_neg hn, if_pos ⟨h1.1, h1.2, h8⟩]
    have : (0 : ℝ) < g := by linarith
    change some (atan _ _ * degree) = _
    rw [diagonal_atan atan hat _ this]
  · have h7 : g ≤ 7 := by omega
    have h7' : (g : ℝ) ≤ 7 := by exact_mod_cast h7
    have hn : (g : ℝ) * (√2 / 2) ≤ threshold := by
      refine le_of_sq_le_sq ?_ htp.le
      rw [hsq]
      nlinarith
    rw [if_pos hn, if_neg (fun h => h8 h.2.2)]

/-- An upper bound of the smallest size of a region. -/
theorem minRegionSize_le (w h k : ℕ) (hw : 0 < w) (hh : 0 < h) (hk : (w * h) ^ 5 * 121 < 8 ^ (2 * (k + 1))) :
    minRegionSize w h ≤ k := by
  unfold minRegionSize
  apply Nat.lt_succ_iff.1
  rw [Nat.succ_eq_add_one]
  have h10 : (1 : ℝ) < 10 := by norm_num
  have hw' : (0 : ℝ) < w := by exact_mod_cast hw
  have hh' : (0 : ℝ) < h := by exact_mod_cast hh
  have e8 : Real.logb 10 (1 / 8) = -Real.logb 10 8 := by rw [one_div, Real.logb_inv]
  have hl8 : 0 < Real.logb 10 8 := Real.logb_pos h10 (by norm_num)
  have hw1 : 0 ≤ Real.logb 10 w := Real.logb_nonneg h10 (by exact_mod_cast hw)
  have hh1 : 0 ≤ Real.logb 10 h := Real.logb_nonneg h10 (by exact_mod_cast hh)
  have h11 : 0 ≤ Real.logb 10 11 := Real.logb_nonneg h10 (by norm_num)
  have key : Real.logb 10 (((w : ℝ) * h) ^ 5 * 11 ^ 2) < Real.logb 10 (8 ^ (2 * (k + 1))) := by
    apply Real.logb_lt_logb h10 (by positivity)
    have : (((w * h) ^ 5 * 121 : ℕ) : ℝ) < ((8 ^ (2 * (k + 1)) : ℕ) : ℝ) := by exact_mod_cast hk
    push_cast at this
    calc ((w : ℝ) * h) ^ 5 * 11 ^ 2 = ((w : ℝ) * h) ^ 5 * 121 := by norm_num
      _ < _ := this
  rw [Real.logb_mul (by positivity) (by norm_num), Real.logb_pow, Real.logb_pow, Real.logb_pow,
    Real.logb_mul hw'.ne' hh'.ne'] at key
  push_cast at key
  rw [e8, neg_div_neg_eq]
  rw [Nat.floor_lt (by positivity), div_lt_iff₀ hl8]
  push_cast
  linarith

/-- The pixels with a direction, in an image `f (x + y)`. -/
def clear (w h : ℕ) (f : ℕ → ℤ) (p : Px) : Bool :=
  decide (p.1 + 1 < w) && (decide (p.2 + 1 < h) && decide (8 ≤ f (p.1 + p.2 + 2) - f (p.1 + p.2)))

/-- The pixels of regions. -/
def pixels {A : Type} (o : Outcome (List (Region A))) : Option (List (List Px)) :=
  match o with
  | .ok l => some (l.map Region.points)
  | _ => none

/-- An image `f (x + y)` with one region, which is kept. -/
theorem diagonal_regions (w h : ℕ) (f : ℕ → ℤ) (atan : ℝ → ℝ → ℝ) (hat : Spec.ExactAtan atan)
    (hf : ∀ n, 0 ≤ f (n + 2) - f n) (fuel : ℕ) (order pts : List Px)
    (hs : pixels ((flat w h (clear w h f)).search fuel 0 (clear w h f) order fun _ => false) = some [pts])
    (hm : minRegionSize w h ≤ pts.length) :
    ∃ g, (diagonal w h f atan).regions fuel order = .ok [g] ∧ g.points = pts ∧ g.angle.theta = 3 * π / 4 := by
  have hpi := Real.pi_pos
  have hang := diagonal_angle w h f atan hat hf
  have hd : ∀ p, ((diagonal w h f atan).angle threshold p).isSome = clear w h f p := by
    intro p
    rw [hang]
    unfold clear
    split_ifs with h1
    · simp [h1]
    · rw [Option.isSome_none]
      symm
      rw [← Bool.not_eq_true, Bool.and_eq_true, Bool.and_eq_true, decide_eq_true_eq, decide_eq_true_eq, decide_eq_true_eq]
      exact h1
  have hone : ∀ p a, (diagonal w h f atan).angle threshold p = some a → a = 3 * π / 4 := by
    intro p a ha
    rw [hang] at ha
    split_ifs at ha
    exact (Option.some.inj ha).symm
  cases e : (flat w h (clear w h f)).search fuel 0 (clear w h f) order fun _ => false with
  | ok rs =>
    rw [e] at hs
    simp only [pixels, Option.some.injEq] at hs
    match rs, hs with
    | [g'], hs =>
      simp only [List.map_cons, List.map_nil, List.cons.injEq, and_true] at hs
      have hk : (flat w h (clear w h f)).search fuel (minRegionSize w h) (clear w h f) order (fun _ => false)
          = .ok [g'] := by
        rw [search_filter, e]
        simp [Outcome.map, Outcome.bind, hs, hm]
      obtain ⟨rs, h1, h2⟩ := one_direction (diagonal w h f atan) hat (3 * π / 4) ⟨by positivity, by linarith⟩ hone
        (clear w h f) hd fuel order [g'] hk
      match rs, h2 with
      | [g], h2 =>
        rw [List.forall₂_cons] at h2
        exact ⟨g, h1, by rw [h2.1.1, hs], h2.1.2⟩
  | _ => rw [e] at hs; simp [pixels] at hs

theorem diagonal_weights (w h : ℕ) (f : ℕ → ℤ) (atan : ℝ → ℝ → ℝ) (hf : ∀ n, 0 ≤ f (n + 2) - f n) (pts : List Px)
    (hp : ∀ p ∈ pts, p.1 + 1 < w ∧ p.2 + 1 < h) :
    weights (diagonal w h f atan) pts =
      pts.map fun p => { x := p.1, y := p.2, weight := (f (p.1 + p.2 + 2) - f (p.1 + p.2) : ℤ) * (√2 / 2) } := by
  unfold weights
  apply List.map_congr_left
  intro p hp'
  rw [diagonal_norm w h f atan hf, if_pos (hp p hp'), Option.getD_some]

end RgbdSlam.Lsd
