import Verif.Model.Fast
import Verif.Props.KeypointDetection
import Mathlib.Tactic.NormNum
import Mathlib.Tactic.Linarith
import Mathlib.Tactic.Positivity
import Mathlib.Algebra.Order.Field.Basic
/-
C206: the second search of keypoints in a window.
-/
namespace RgbdSlam.Fast

open KeypointDetection

/-! ### The thresholds -/

/-- For every maximum number of points the thresholds are valid for the detector and the second one is at least as
sensitive as the first. -/
theorem C206_thresholds (points : Nat) :
    1 ≤ advancedThreshold points ∧ advancedThreshold points ≤ detectorThreshold points ∧
      detectorThreshold points ≤ 42 := by
  have h1 : (0 : Rat) < 99945 / 100000 := by norm_num
  have h2 : (99945 / 100000 : Rat) ≤ 1 := by norm_num
  have hp : ∀ n : Nat, (0 : Rat) < fastThreshold n := fun n => by
    unfold fastThreshold
    exact mul_pos (by norm_num) (pow_pos h1 n)
  refine ⟨?_, ?_, ?_⟩
  · unfold advancedThreshold
    rw [Int.one_le_ceil_iff]
    exact hp _
  · unfold advancedThreshold detectorThreshold
    apply Int.ceil_le_ceil
    unfold fastThreshold
    refine mul_le_mul_of_nonneg_left ?_ (by norm_num)
    exact pow_le_pow_of_le_one h1.le h2 (by omega)
  · unfold detectorThreshold
    rw [Int.ceil_le]
    unfold fastThreshold
    have := pow_le_one₀ (n := 10 * points) h1.le h2
    push_cast
    linarith

/-- With the parameters of the program they are 24 and 8. -/
theorem C206_thresholds_used :
    detectorThreshold maximumPoints = 24 ∧ advancedThreshold maximumPoints = 8 := by
  have key : ∀ (n : Nat) (c : Nat), (c + 1) * 10000 * 100000 ^ n ≥ 412378 * 99945 ^ n →
      c * 10000 * 100000 ^ n < 412378 * 99945 ^ n → ⌈fastThreshold n⌉ = (c : Int) + 1 := by
    intro n c h1 h2
    have q1 : (412378 * 99945 ^ n : Rat) ≤ (c + 1) * 10000 * 100000 ^ n := by exact_mod_cast h1
    have q2 : (c * 10000 * 100000 ^ n : Rat) < 412378 * 99945 ^ n := by exact_mod_cast h2
    have hp : (0 : Rat) < 10000 * 100000 ^ n := by positivity
    have e : fastThreshold n = 412378 * 99945 ^ n / (10000 * 100000 ^ n) := by
      unfold fastThreshold
      rw [div_pow, div_mul_div_comm]
    rw [Int.ceil_eq_iff, e]
    push_cast
    constructor
    · rw [lt_div_iff₀ hp]; linarith
    · rw [div_le_iff₀ hp]; linarith
  constructor
  · exact key _ 23 (by decide +kernel) (by decide +kernel)
  · exact key _ 7 (by decide +kernel) (by decide +kernel)

/-! ### The detector -/

theorem corner_mono {img : Gray} {s t : Nat} (h : s ≤ t) {p : Pixel} (hc : corner img t p = true) :
    corner img s p = true := by
  unfold corner at hc ⊢
  rw [List.any_eq_true] at hc ⊢
  obtain ⟨x, hx, hc⟩ := hc
  refine ⟨x, hx, ?_⟩
  rw [Bool.or_eq_true, List.all_eq_true, List.all_eq_true] at hc ⊢
  refine hc.imp (fun hc i hi => ?_) (fun hc i hi => ?_)
  · have := of_decide_eq_true (hc i hi)
    exact decide_eq_true (by omega)
  · have := of_decide_eq_true (hc i hi)
    exact decide_eq_true (by omega)

/-- A pixel is a corner for the thresholds up to its score. -/
theorem corner_iff {img : Gray} {t : Nat} (h1 : 1 ≤ t) (h2 : t ≤ 255) (p : Pixel) :
    corner img t p = true ↔ t ≤ score img p := by
  unfold score
  constructor
  · intro h
    exact Nat.le_findGreatest h2 h
  · intro h
    have h0 : Nat.findGreatest (fun t => corner img t p = true) 255 ≠ 0 := by omega
    exact corner_mono h (Nat.findGreatest_of_ne_zero rfl h0)

theorem fast_filter (img : Gray) (width height : Nat) {s t : Nat} (h1 : 1 ≤ s) (h2 : s ≤ t) (h3 : t ≤ 255) :
    fast img width height t =
      (fast img width height s).filter fun k => decide ((t : Int) ≤ k.response) := by
  unfold fast
  rw [List.filter_map, List.filter_filter]
  congr 1
  apply List.filter_congr
  intro p hp
  simp only [Function.comp]
  rw [Bool.eq_iff_iff]
  simp only [Bool.and_eq_true, List.all_eq_true, decide_eq_true_eq]
  rw [corner_iff (by omega) h3, corner_iff h1 (by omega)]
  constructor
  · rintro ⟨a, b⟩
    refine ⟨by exact_mod_cast a, by omega, fun q hq => ?_⟩
    have hb := b q hq
    unfold value at hb ⊢
    split_ifs with h
    · by_cases ht : t ≤ score img q
      · rw [if_pos ⟨h.1, (corner_iff (by omega) h3 q).2 ht⟩] at hb
        exact hb
      · omega
    · omega
  · rintro ⟨a, -, b⟩
    have a' : t ≤ score img p := by exact_mod_cast a
    refine ⟨a', fun q hq => ?_⟩
    have hb := b q hq
    unfold value at hb ⊢
    split_ifs with h
    · rw [if_pos ⟨h.1, corner_mono h2 h.2⟩] at hb
      exact hb
    · omega

theorem mem_examined {width height : Nat} {p : Pixel} :
    p ∈ examined width height ↔ 3 ≤ p.x ∧ p.x + 3 < width ∧ 3 ≤ p.y ∧ p.y + 3 < height := by
  unfold examined
  simp only [List.mem_flatMap, List.mem_map, List.mem_range]
  constructor
  · rintro ⟨y, hy, x, hx, rfl⟩
    refine ⟨?_, ?_, ?_, ?_⟩ <;> dsimp only <;> omega
  · rintro ⟨a, b, c, d⟩
    refine ⟨(p.y - 3).toNat, by omega, (p.x - 3).toNat, by omega, ?_⟩
    cases p
    simp only [Pixel.mk.injEq]
    dsimp only at a b c d
    omega

theorem examined_nodup (width height : Nat) : (examined width height).Nodup := by
  unfold examined
  rw [List.nodup_flatMap]
  constructor
  · intro y _
    refine List.Nodup.map ?_ List.nodup_range
    intro a b h
    simp only [Pixel.mk.injEq] at h
    omega
  · refine List.Pairwise.imp_of_mem ?_ List.nodup_range
    intro a b _ _ hab
    simp only [Function.onFun, List.disjoint_left, List.mem_map]
    rintro p ⟨x, -, rfl⟩ ⟨x', -, h⟩
    simp only [Pixel.mk.injEq] at h
    omega

theorem fast_positions (img : Gray) (width height t : Nat) : ((fast img width height t).map (·.pos)).Nodup := by
  unfold fast
  rw [List.map_map]
  have : ((fun k : Key => k.pos) ∘ fun p => (⟨p, score img p⟩ : Key)) = id := rfl
  rw [this, List.map_id]
  exact (examined_nodup width height).filter _

/-! ### The strongest keypoints -/

theorem countP_filter_ge (l : List Key) (t v : Int) (h : t ≤ v) :
    (l.filter fun k => decide (t ≤ k.response)).countP (fun k => decide (v ≤ k.response)) =
      l.countP fun k => decide (v ≤ k.response) := by
  rw [List.countP_filter]
  apply List.countP_congr
  intro k _
  simp only [Bool.and_eq_true, decide_eq_true_eq]
  omega

theorem countP_filter_gt (l : List Key) (t v : Int) (h : t ≤ v) :
    (l.filter fun k => decide (t ≤ k.response)).countP (fun k => decide (v < k.response)) =
      l.countP fun k => decide (v < k.response) := by
  rw [List.countP_filter]
  apply List.countP_congr
  intro k _
  simp only [Bool.and_eq_true, decide_eq_true_eq]
  omega

theorem countP_mono_key (l : List Key) {p q : Key → Bool} (h : ∀ k, p k = true → q k = true) :
    l.countP p ≤ l.countP q := List.countP_mono_left fun k _ => h k

/-- The `n` strongest keypoints are the same among all keypoints and among the strong ones, when there are `n`
strong ones. -/
theorem retainBest_filter (l : List Key) (t : Int) (n : Nat) (hn : 0 < n)
    (h : n ≤ (l.filter fun k => decide (t ≤ k.response)).length) :
    retainBest (l.filter fun k => decide (t ≤ k.response)) n = retainBest l n := by
  have hlen : (l.filter fun k => decide (t ≤ k.response)).length ≤ l.length := List.length_filter_le ..
  by_cases hl : l.length ≤ n
  · have e : (l.filter fun k => decide (t ≤ k.response)) = l :=
      List.filter_sublist.eq_of_length (by omega)
    rw [e]
  · obtain ⟨a1, a2⟩ := nthLargest_spec l n hn (by omega)
    have ht : t ≤ nthLargest l n := by
      by_contra hc
      have := countP_mono_key l (p := fun k => decide (t ≤ k.response))
        (q := fun k => decide (nthLargest l n < k.response)) (by
          intro k hk
          have := of_decide_eq_true hk
          exact decide_eq_true (by omega))
      rw [List.countP_eq_length_filter] at this
      omega
    have er : retainBest l n = l.filter fun k => decide (nthLargest l n ≤ k.response) := by
      unfold retainBest
      rw [if_neg hl, if_neg (by omega)]
    have ef : (l.filter fun k => decide (t ≤ k.response)).filter
        (fun k => decide (nthLargest l n ≤ k.response)) =
        l.filter fun k => decide (nthLargest l n ≤ k.response) := by
      rw [List.filter_filter]
      apply List.filter_congr
      intro k _
      rw [Bool.eq_iff_iff]
      simp only [Bool.and_eq_true, decide_eq_true_eq]
      omega
    rw [er, ← ef]
    by_cases hf : (l.filter fun k => decide (t ≤ k.response)).length ≤ n
    · unfold retainBest
      rw [if_pos hf]
      symm
      rw [List.filter_eq_self]
      have hc : (l.filter fun k => decide (t ≤ k.response)).countP
          (fun k => decide (nthLargest l n ≤ k.response)) =
          (l.filter fun k => decide (t ≤ k.response)).length := by
        apply le_antisymm List.countP_le_length
        rw [countP_filter_ge l t _ ht]
        omega
      exact List.countP_eq_length.1 hc
    · obtain ⟨b1, b2⟩ := nthLargest_spec (l.filter fun k => decide (t ≤ k.response)) n hn (by omega)
      have e : nthLargest (l.filter fun k => decide (t ≤ k.response)) n = nthLargest l n := by
        rw [← countP_filter_gt l t _ ht] at a1
        rw [← countP_filter_ge l t _ ht] at a2
        by_contra hne
        rcases lt_or_gt_of_ne hne with h' | h'
        · have := countP_mono_key (l.filter fun k => decide (t ≤ k.response))
            (p := fun k => decide (nthLargest l n ≤ k.response))
            (q := fun k => decide (nthLargest (l.filter fun k => decide (t ≤ k.response)) n < k.response)) (by
              intro k hk
              have := of_decide_eq_true hk
              exact decide_eq_true (by omega))
          omega
        · have := countP_mono_key (l.filter fun k => decide (t ≤ k.response))
            (p := fun k => decide (nthLargest (l.filter fun k => decide (t ≤ k.response)) n ≤ k.response))
            (q := fun k => decide (nthLargest l n < k.response)) (by
              intro k hk
              have := of_decide_eq_true hk
              exact decide_eq_true (by omega))
          omega
      unfold retainBest
      rw [if_neg hf, if_neg (by omega), e]

/-- All the strong keypoints are among the `n` strongest when there are at most `n`. -/
theorem mem_retainBest_of_few (l : List Key) (t : Int) (n : Nat)
    (h : (l.filter fun k => decide (t ≤ k.response)).length < n) {k : Key} (hk : k ∈ l) (ht : t ≤ k.response) :
    k ∈ retainBest l n := by
  unfold retainBest
  split_ifs with h1 h2
  · exact hk
  · omega
  · rw [List.mem_filter]
    refine ⟨hk, decide_eq_true ?_⟩
    by_contra hc
    have hs := (nthLargest_spec l n (by omega) (by omega)).2
    have := countP_mono_key l (p := fun k => decide (nthLargest l n ≤ k.response))
      (q := fun k => decide (t ≤ k.response)) (by
        intro k hk
        have := of_decide_eq_true hk
        exact decide_eq_true (by omega))
    have e := List.countP_eq_length_filter (p := fun k : Key => decide (t ≤ k.response)) (l := l)
    omega

/-! ### The answers of the two detectors -/

theorem answers_false (img : Gray) (width height i : Nat) :
    answers img width height i false =
      (answers img width height i true).filter fun k => decide ((24 : Int) ≤ k.response) := by
  unfold answers
  cases (windows width height)[i]? with
  | none => rfl
  | some w =>
    simp only [C206_thresholds_used.1, C206_thresholds_used.2, if_true, Bool.false_eq_true, if_false]
    exact fast_filter _ _ _ (s := 8) (t := 24) (by omega) (by omega) (by omega)

theorem detectMasked_filter (w : Window) (free : Pixel → Bool) (l : List Key) (p : Key → Bool) :
    detectMasked w free (l.filter p) = (detectMasked w free l).filter p := by
  unfold detectMasked
  rw [List.filter_filter, List.filter_filter]
  apply List.filter_congr
  intro k _
  rw [Bool.and_comm]

theorem detectInWindow_advanced (img : Gray) (width height i already : Nat) (w : Window) (free : Pixel → Bool) :
    detectInWindow w already free (answers img width height i) =
      detectInWindow w already free fun _ => answers img width height i true := by
  unfold detectInWindow
  split_ifs with h
  · dsimp only
    rw [answers_false, detectMasked_filter]
    split_ifs with h1 h2 h2
    · rfl
    · rfl
    · rw [retainBest_filter _ _ _ (by omega) (by omega)]
    · rw [retainBest_filter _ _ _ (by omega) (by omega)]
  · rfl

/-- **The first search is only a shortcut.**  For every gray image, whatever is tracked and in whatever order the
windows are searched, the new keypoints are those of a program that searches only with the sensitive detector. -/
theorem C206_as_sensitive_search (img : Gray) (width height : Nat) (disc : Pixel → Pixel → Bool)
    (tracked : List Pixel) (order : List Nat) :
    detect width height disc tracked (answers img width height) order =
      detect width height disc tracked (fun i _ => answers img width height i true) order := by
  have e : part width height disc tracked (answers img width height) =
      part width height disc tracked (fun i _ => answers img width height i true) := by
    funext i
    unfold part
    split
    · exact detectInWindow_advanced ..
    · rfl
  rw [detect_eq, detect_eq, e]

/-- The detectors answer with keypoints of their window, each position once. -/
theorem answers_inside (img : Gray) (width height : Nat) : RawInside width height (answers img width height) := by
  intro i w hw b k hk
  unfold answers at hk
  rw [hw] at hk
  dsimp only at hk
  unfold fast at hk
  obtain ⟨p, hp, rfl⟩ := List.mem_map.1 hk
  have := mem_examined.1 (List.mem_filter.1 hp).1
  dsimp only
  omega

theorem answers_positions (img : Gray) (width height i : Nat) (b : Bool) :
    ((answers img width height i b).map (·.pos)).Nodup := by
  unfold answers
  cases (windows width height)[i]? with
  | none => exact List.nodup_nil
  | some w => exact fast_positions ..

/-- **The second search loses nothing.**  When the first search of a window finds too few keypoints, those it found
outside of the masked discs are all among the new keypoints, with the same strength. -/
theorem C206_nothing_lost (img : Gray) (width height : Nat) (disc : Pixel → Pixel → Bool) (tracked : List Pixel)
    (ht : tracked.length < 2 ^ 16) (order : List Nat) (ho : Schedule order) (i : Nat) (w : Window)
    (hw : (windows width height)[i]? = some w)
    (hfew : ((answers img width height i false).filter fun k =>
      decide (∀ t ∈ tracked, disc t (w.toImage k).pos = false)).length < 11 - tracksIn w tracked)
    (k : Key) (hk : k ∈ answers img width height i false)
    (hf : ∀ t ∈ tracked, disc t (w.toImage k).pos = false) :
    w.toImage k ∈ detect width height disc tracked (answers img width height) order := by
  have hfree : ((answers img width height i false).filter fun k =>
      decide (∀ t ∈ tracked, disc t (w.toImage k).pos = false)) =
      detectMasked w (allowed disc tracked) (answers img width height i false) := by
    unfold detectMasked
    apply List.filter_congr
    intro k _
    simp only [allowed]
    rw [Bool.eq_iff_iff]
    simp
  rw [hfree, answers_false, detectMasked_filter] at hfew
  have hm := mem_detect_window (disc := disc) (tracked := tracked) (answers_inside img width height)
    (answers_positions img width height) ho hw (w.toImage k)
  rw [part_eq disc tracked _ hw ht, detectInWindow_advanced] at hm
  have hp : perCell = 11 := rfl
  refine (hm.2 ?_).1
  unfold detectInWindow
  rw [hp, if_pos (by omega)]
  dsimp only
  refine List.mem_map_of_mem ?_
  rw [answers_false, List.mem_filter] at hk
  have hfr : k ∈ detectMasked w (allowed disc tracked) (answers img width height i true) := by
    unfold detectMasked
    rw [List.mem_filter]
    refine ⟨hk.1, ?_⟩
    simp only [allowed, Bool.not_eq_true', List.any_eq_false]
    intro t ht'
    simp [hf t ht']
  split_ifs
  · exact mem_retainBest_of_few _ 24 _ hfew hfr (of_decide_eq_true hk.2)
  · exact mem_retainBest_of_few _ 24 _ hfew hfr (of_decide_eq_true hk.2)

/-! ### The hypotheses can be met -/

/-- A black image with a bright and a dim dot in the first window. -/
def dots : Gray := fun p => if p = ⟨4, 4⟩ then 100 else if p = ⟨12, 4⟩ then 15 else 0

/-- The first search finds the bright dot only, the second one both, and both are given. -/
example : answers dots 60 33 0 false = [⟨⟨4, 4⟩, 99⟩] ∧
    answers dots 60 33 0 true = [⟨⟨4, 4⟩, 99⟩, ⟨⟨12, 4⟩, 14⟩] ∧
    detect 60 33 (fun a b => a == b) [] (answers dots 60 33) [3, 1, 2, 0, 8, 7, 6, 5, 4] =
      [⟨⟨4, 4⟩, 99⟩, ⟨⟨12, 4⟩, 14⟩] := by
  have e1 : answers dots 60 33 = fun i b => match (windows 60 33)[i]? with
      | some w => fast (cut dots w) w.width w.height (if b then 8 else 24)
      | none => [] := by
    funext i b
    unfold answers
    rw [C206_thresholds_used.1, C206_thresholds_used.2]
    cases b <;> rfl
  rw [e1]
  decide +kernel

end RgbdSlam.Fast
