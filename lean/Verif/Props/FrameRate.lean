import Verif.Model.FrameRate
import Mathlib.Algebra.Order.Floor.Ring
import Mathlib.Data.Rat.Floor
import Mathlib.Tactic.Linarith
import Mathlib.Tactic.FieldSimp
import Mathlib.Tactic.Ring
import Mathlib.Tactic.NormNum
import Mathlib.Algebra.Order.BigOperators.Group.List

/-
C205: the frame rate of the example programs.
-/
namespace RgbdSlam.FrameRate

open RgbdSlam

/-- The durations of a frame are not negative: a clock does not go back, and `usleep` does not wake up early. -/
def Spec.Possible (f : Frame) : Prop := 0 ≤ f.tracking ∧ 0 ≤ f.rest ∧ 0 ≤ f.late

/-- The time that a frame takes when `usleep` sleeps exactly what is missing. -/
def Spec.ideal (fps : ℕ) (f : Frame) : ℚ := max f.tracking (1 / (fps : ℚ)) + f.rest

/-- How much `usleep` is late for a frame: it is called for those that are tracked faster than the target only. -/
def Spec.lateness (fps : ℕ) (f : Frame) : ℚ := if f.tracking < 1 / (fps : ℚ) then f.late else 0

open Spec

theorem rat_floor (x : ℚ) : x.floor = ⌊x⌋ := rfl

/-- One turn. -/
theorem turn_bounds {fps : ℕ} (hf : 0 < fps) {f : Frame} (hp : Possible f) :
    ∃ t, turn fps f = .ok t ∧ ideal fps f + lateness fps f - 1 / 10 ^ 6 < t ∧
      t ≤ ideal fps f + lateness fps f := by
  obtain ⟨h1, h2, h3⟩ := hp
  have hfq : (1 : ℚ) ≤ fps := by exact_mod_cast hf
  unfold turn sleepTime
  rw [if_neg (by omega)]
  by_cases ht : f.tracking < 1 / (fps : ℚ)
  · rw [if_pos ht]
    have hle : (1 : ℚ) / fps ≤ 1 := by
      rw [div_le_one (by linarith)]
      exact hfq
    have hus0 : 0 ≤ (1 / (fps : ℚ) - f.tracking) * 10 ^ 6 := by
      apply mul_nonneg <;> linarith
    have hus : (1 / (fps : ℚ) - f.tracking) * 10 ^ 6 < 2 ^ 32 := by
      have : (1 / (fps : ℚ) - f.tracking) * 10 ^ 6 ≤ 1 * 10 ^ 6 := by
        apply mul_le_mul_of_nonneg_right <;> linarith
      norm_num at this ⊢
      linarith
    dsimp only
    rw [if_pos hus, Outcome.bind_ok]
    refine ⟨_, rfl, ?_⟩
    rw [if_pos ht]
    unfold ideal lateness
    rw [if_pos ht]
    rw [max_eq_right ht.le]
    generalize hu : (1 / (fps : ℚ) - f.tracking) * 10 ^ 6 = us at hus0 hus
    have hfl : ((us.floor.toNat : ℕ) : ℚ) = (⌊us⌋ : ℤ) := by
      have h0 : 0 ≤ ⌊us⌋ := Int.floor_nonneg.mpr hus0
      rw [rat_floor]
      exact_mod_cast Int.toNat_of_nonneg h0
    rw [hfl]
    have a := Int.floor_le us
    have b := Int.lt_floor_add_one us
    have e : 1 / (fps : ℚ) = f.tracking + us / 10 ^ 6 := by
      rw [← hu]; ring
    rw [e]
    constructor
    · have : us / 10 ^ 6 - 1 / 10 ^ 6 < (⌊us⌋ : ℚ) / 10 ^ 6 := by
        rw [← sub_div]
        apply div_lt_div_of_pos_right _ (by norm_num)
        linarith
      linarith
    · have : (⌊us⌋ : ℚ) / 10 ^ 6 ≤ us / 10 ^ 6 := div_le_div_of_nonneg_right a (by norm_num)
      linarith
  · rw [if_neg ht, Outcome.bind_ok]
    refine ⟨_, rfl, ?_⟩
    rw [if_neg ht]
    unfold ideal lateness
    rw [if_neg ht, max_eq_left (not_lt.mp ht)]
    constructor
    · norm_num
    · linarith

/-- **C205**: with a target of at least one frame per second the loop never breaks, and the time that any number of
frames takes, one after the other, is that of their ideal times, up to a microsecond per frame and to the lateness of
`usleep`. -/
theorem C205_time_of_frames (fps : ℕ) (hf : 0 < fps) (frames : List Frame) (hp : ∀ f ∈ frames, Possible f) :
    ∃ t, turns fps frames = .ok t ∧
      (frames.map (ideal fps)).sum + (frames.map (lateness fps)).sum - frames.length / 10 ^ 6 ≤ t ∧
      t ≤ (frames.map (ideal fps)).sum + (frames.map (lateness fps)).sum := by
  induction frames with
  | nil => exact ⟨0, rfl, by simp, by simp⟩
  | cons f fs ih =>
    obtain ⟨t, ht, h1, h2⟩ := turn_bounds hf (hp f List.mem_cons_self)
    obtain ⟨r, hr, h3, h4⟩ := ih fun g hg => hp g (List.mem_cons_of_mem _ hg)
    refine ⟨t + r, by rw [turns, ht, Outcome.bind_ok, hr, Outcome.bind_ok], ?_, ?_⟩
    · simp only [List.map_cons, List.sum_cons, List.length_cons]
      push_cast
      rw [add_div]
      linarith
    · simp only [List.map_cons, List.sum_cons]
      linarith

/-- **C205** (partial): the treatment is never faster than the target: `n` frames take `n / fps` seconds at least, up to
a microsecond per frame.  Missing: the target zero (`C205_zero_false`), and that the target is reached when the machine
is fast enough (`C205_reached_false`). -/
theorem C205_not_faster_partial (fps : ℕ) (hf : 0 < fps) (frames : List Frame) (hp : ∀ f ∈ frames, Possible f) :
    ∃ t, turns fps frames = .ok t ∧ (frames.length : ℚ) / fps - frames.length / 10 ^ 6 ≤ t := by
  obtain ⟨t, ht, h1, -⟩ := C205_time_of_frames fps hf frames hp
  refine ⟨t, ht, le_trans ?_ h1⟩
  have hl : 0 ≤ (frames.map (lateness fps)).sum := by
    apply List.sum_nonneg
    intro x hx
    obtain ⟨f, hm, rfl⟩ := List.mem_map.1 hx
    unfold lateness
    split_ifs
    · exact (hp f hm).2.2
    · exact le_refl _
  have : (frames.length : ℚ) / fps ≤ (frames.map (ideal fps)).sum := by
    clear hl
    clear h1 ht t
    induction frames with
    | nil => simp
    | cons f fs ih =>
      have h1 := ih fun g hg => hp g (List.mem_cons_of_mem _ hg)
      have h2 : 1 / (fps : ℚ) ≤ ideal fps f := by
        unfold ideal
        have := le_max_right f.tracking (1 / (fps : ℚ))
        have := (hp f List.mem_cons_self).2.1
        linarith
      simp only [List.map_cons, List.sum_cons, List.length_cons]
      push_cast
      rw [add_div]
      linarith
  linarith

/-- Frames that take longer than the target are not delayed. -/
theorem C205_slow_frames (fps : ℕ) (hf : 0 < fps) (frames : List Frame)
    (hs : ∀ f ∈ frames, 1 / (fps : ℚ) ≤ f.tracking) :
    turns fps frames = .ok ((frames.map fun f => f.tracking + f.rest).sum) := by
  induction frames with
  | nil => rfl
  | cons f fs ih =>
    have h := not_lt.mpr (hs f List.mem_cons_self)
    rw [turns, turn, sleepTime, if_neg (by omega), if_neg h, Outcome.bind_ok, if_neg h, Outcome.bind_ok,
      ih fun g hg => hs g (List.mem_cons_of_mem _ hg), Outcome.bind_ok]
    simp

/-- A target of zero converts an infinite duration to an integer at the first frame. -/
theorem C205_zero_false (f : Frame) (fs : List Frame) : turns 0 (f :: fs) = .ub := by
  rw [turns, turn, sleepTime, if_pos rfl]
  rfl

/-- The target is not reached by a machine that is fast enough: the time of the rest of the turn is not taken off the
time to sleep.  Here each frame needs half of its time for the tracking and half for the rest. -/
theorem C205_reached_false :
    ¬ ∀ (fps : ℕ) (frames : List Frame), 0 < fps → (∀ f ∈ frames, Possible f ∧ f.late = 0) →
      (∀ f ∈ frames, f.tracking + f.rest ≤ 1 / (fps : ℚ)) →
      ∃ t, turns fps frames = .ok t ∧ t ≤ (frames.length : ℚ) / fps := by
  intro h
  obtain ⟨t, ht, hle⟩ := h 25 [⟨1 / 50, 1 / 50, 0⟩] (by omega)
    (by intro f hf; simp only [List.mem_singleton] at hf; subst hf; norm_num [Possible])
    (by intro f hf; simp only [List.mem_singleton] at hf; subst hf; norm_num)
  have : turns 25 [⟨1 / 50, 1 / 50, 0⟩] = .ok (3 / 50) := by decide +kernel
  rw [this] at ht
  cases ht
  norm_num at hle

/-- The rate written in the image is the whole number just above the rate of `track`. -/
theorem C205_shown_rate (elapsed : ℚ) :
    (elapsed ≤ 0 → shownRate elapsed = none) ∧
    (0 < elapsed → ∃ n : ℤ, shownRate elapsed = some n ∧ 1 / elapsed < n ∧ (n : ℚ) ≤ 1 / elapsed + 1) := by
  refine ⟨fun h => if_neg (not_lt.mpr h), fun h => ⟨_, if_pos h, ?_⟩⟩
  have h0 : 0 < 1 / elapsed := by positivity
  unfold roundAway
  rw [if_pos (by linarith), rat_floor]
  generalize 1 / elapsed = x at h0
  have a := Int.floor_le (x + 1 / 2 + 1 / 2)
  have b := Int.lt_floor_add_one (x + 1 / 2 + 1 / 2)
  constructor <;> linarith

/-- So a rate that is a whole number is shown one too high. -/
theorem C205_whole_rate_false (n : ℕ) (hn : 0 < n) : shownRate (1 / (n : ℚ)) = some ((n : ℤ) + 1) := by
  have hq : (0 : ℚ) < n := by exact_mod_cast hn
  obtain ⟨m, hm, h1, h2⟩ := (C205_shown_rate (1 / (n : ℚ))).2 (by positivity)
  rw [one_div_one_div] at h1 h2
  rw [hm]
  have a : (n : ℤ) < m := by exact_mod_cast h1
  have b : m ≤ (n : ℤ) + 1 := by exact_mod_cast h2
  congr 1
  omega

/-- Non-vacuity: two frames with the default target of 30, one fast and one slow: the first waits 23333 microseconds;
and the rates shown. -/
example : turns 30 [⟨1 / 100, 1 / 1000, 0⟩, ⟨1 / 20, 1 / 1000, 0⟩] =
      .ok (1 / 100 + 1 / 1000 + 23333 / 10 ^ 6 + 1 / 20 + 1 / 1000) ∧
    (∀ f ∈ [(⟨1 / 100, 1 / 1000, 0⟩ : Frame), ⟨1 / 20, 1 / 1000, 0⟩], Possible f) ∧
    shownRate (1 / 30) = some 31 ∧ shownRate (1 / 40 + 1 / 1000) = some 39 := by
  refine ⟨by decide +kernel, ?_, by decide +kernel, by decide +kernel⟩
  intro f hf
  simp only [List.mem_cons, List.not_mem_nil, or_false] at hf
  rcases hf with rfl | rfl <;> norm_num [Possible]

end RgbdSlam.FrameRate
