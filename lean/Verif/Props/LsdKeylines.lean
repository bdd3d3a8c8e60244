import Verif.Model.LsdKeylines
import Verif.Spec.LsdKeylines
import Mathlib.Data.Finset.Prod
import Mathlib.Tactic.Linarith
import Mathlib.Tactic.NormNum
import Mathlib.Tactic.Push
/-
C171: lines at several scales.  C172: the comparison of two sets of lines.
-/
namespace RgbdSlam.Lsd

theorem pyrDown_half (w h : ℕ) (hw : 2 ≤ w) (hh : 2 ≤ h) : pyrDown (w, h) (w / 2, h / 2) = .ok (w / 2, h / 2) := by
  unfold pyrDown
  dsimp only
  have hne : ¬ (w / 2 = 0 ∨ h / 2 = 0) := by omega
  simp only [if_neg hne]
  rw [if_pos]
  refine ⟨by omega, by omega, ?_, ?_⟩ <;> (rw [abs_le]; omega)

theorem pyramidRest_two : ∀ (n w h : ℕ), 2 ^ n ≤ w → 2 ^ n ≤ h →
    pyramidRest 2 n (w, h) = .ok ((List.range n).map fun i => (w / 2 ^ (i + 1), h / 2 ^ (i + 1))) := by
  intro n
  induction n with
  | zero => intro w h _ _; rfl
  | succ n ih =>
    intro w h hw hh
    have h2 : 2 ≤ 2 ^ (n + 1) := by
      calc 2 = 2 ^ 1 := rfl
        _ ≤ 2 ^ (n + 1) := Nat.pow_le_pow_right (by norm_num) (by omega)
    rw [pyramidRest]
    dsimp only
    rw [pyrDown_half w h (by omega) (by omega), Outcome.bind_ok,
      ih (w / 2) (h / 2) (by rw [Nat.le_div_iff_mul_le (by norm_num)]; rw [pow_succ] at hw; exact hw)
        (by rw [Nat.le_div_iff_mul_le (by norm_num)]; rw [pow_succ] at hh; exact hh)]
    rw [List.range_succ_eq_map, List.map_cons, List.map_map, Outcome.map, Outcome.bind_ok]
    simp only [Function.comp_def, Nat.div_div_eq_div_mul, zero_add, pow_one, Outcome.ok.injEq, List.cons.injEq, true_and]
    refine List.map_congr_left fun i _ => ?_
    simp only [Nat.succ_eq_add_one]
    rw [pow_succ' 2 (i + 1)]

theorem pyramid_two (n w h : ℕ) (hn : 0 < n) (hw : 2 ^ (n - 1) ≤ w) (hh : 2 ^ (n - 1) ≤ h) :
    pyramid n 2 (w, h) = .ok ((List.range n).map fun i => (w / 2 ^ i, h / 2 ^ i)) := by
  obtain ⟨k, rfl⟩ : ∃ k, n = k + 1 := ⟨n - 1, by omega⟩
  unfold pyramid
  rw [Nat.add_sub_cancel] at *
  rw [pyramidRest_two k w h hw hh, Outcome.map, Outcome.bind_ok, List.range_succ_eq_map, List.map_cons, List.map_map]
  simp [Function.comp_def]

theorem octaveSegments_ok (find : ℕ → Outcome (List Segment)) (ls : ℕ → List Segment) : ∀ (sizes : List (ℕ × ℕ)) (o : ℕ),
    (∀ i < sizes.length, find (o + i) = .ok (ls (o + i))) →
    octaveSegments find o sizes = .ok (sizes.mapIdx fun i size => (size, ls (o + i))) := by
  intro sizes
  induction sizes with
  | nil => intro o _; rfl
  | cons size rest ih =>
    intro o h
    rw [octaveSegments, show find o = .ok (ls o) from h 0 (by simp), Outcome.bind_ok, ih (o + 1) fun i hi => by
      have := h (i + 1) (by simpa using hi)
      rwa [show o + (i + 1) = o + 1 + i by omega] at this]
    rw [Outcome.map, Outcome.bind_ok, List.mapIdx_cons]
    simp only [add_zero, Outcome.ok.injEq, List.cons.injEq, true_and]
    refine congrFun (congrArg _ ?_) rest
    funext i size
    rw [show o + 1 + i = o + (i + 1) by omega]

theorem clampExtreme_mem (n : ℕ) (hn : 0 < n) (v : ℝ) : 0 ≤ clampExtreme n v ∧ clampExtreme n v < n := by
  have : (1 : ℝ) ≤ n := by exact_mod_cast hn
  unfold clampExtreme
  dsimp only
  split_ifs <;> constructor <;> linarith

theorem clampExtreme_eq (n : ℕ) (v : ℝ) (h0 : 0 ≤ v) (h1 : v < n) : clampExtreme n v = v := by
  unfold clampExtreme
  dsimp only
  rw [if_neg (not_lt.2 h0), if_neg (not_le.2 h1)]

theorem clamped (n : ℕ) (hn : 0 < n) (v : ℝ) : Spec.Clamped n v (clampExtreme n v) := by
  have : (1 : ℝ) ≤ n := by exact_mod_cast hn
  refine ⟨fun h => ?_, clampExtreme_eq n v, fun h => ?_⟩
  · unfold clampExtreme
    simp only [if_pos h]
    rw [if_neg (by linarith)]
  · unfold clampExtreme
    have : ¬ v < 0 := by linarith
    simp only [if_neg this, if_pos h]

theorem octaveLines_spec (scale : ℕ) (size : ℕ × ℕ) (o : ℕ) : ∀ (l : List Segment) (next : ℕ),
    (∀ k, k ∈ octaveLines scale size o next l ↔ ∃ j, ∃ s, l[j]? = some s ∧ k = keyLine scale size o (next + j) s) ∧
    (octaveLines scale size o next l).Pairwise fun a b => a.classId < b.classId := by
  intro l
  induction l with
  | nil => intro next; simp [octaveLines]
  | cons s l ih =>
    intro next
    obtain ⟨h1, h2⟩ := ih (next + 1)
    rw [octaveLines]
    refine ⟨fun k => ?_, List.Pairwise.cons (fun k hk => ?_) h2⟩
    · rw [List.mem_cons, h1]
      constructor
      · rintro (rfl | ⟨j, s', hs, rfl⟩)
        · exact ⟨0, s, by simp, rfl⟩
        · exact ⟨j + 1, s', by simpa using hs, by rw [show next + 1 + j = next + (j + 1) by omega]⟩
      · rintro ⟨j, s', hs, rfl⟩
        cases j with
        | zero =>
          simp only [List.getElem?_cons_zero, Option.some.injEq] at hs
          subst hs
          exact Or.inl rfl
        | succ j =>
          exact Or.inr ⟨j, s', by simpa using hs, by rw [show next + 1 + j = next + (j + 1) by omega]⟩
    · obtain ⟨j, s', -, rfl⟩ := (h1 k).1 hk
      simp only [keyLine]
      omega

theorem allLines_spec (scale : ℕ) : ∀ (ls : List ((ℕ × ℕ) × List Segment)) (o next : ℕ),
    (∀ k ∈ allLines scale o next ls, ∃ i id, ∃ x, ∃ s ∈ x.2, ls[i]? = some x ∧ next ≤ id ∧ k = keyLine scale x.1 (o + i) id s) ∧
    (∀ i x, ls[i]? = some x → ∀ s ∈ x.2, ∃ id, keyLine scale x.1 (o + i) id s ∈ allLines scale o next ls) ∧
    (allLines scale o next ls).Pairwise fun a b => a.classId < b.classId ∧ a.octave ≤ b.octave := by
  intro ls
  induction ls with
  | nil => intro o next; simp [allLines]
  | cons x ls ih =>
    intro o next
    obtain ⟨size, l⟩ := x
    obtain ⟨h1, h2, h3⟩ := ih (o + 1) (next + l.length)
    obtain ⟨g1, g2⟩ := octaveLines_spec scale size o l next
    rw [allLines]
    refine ⟨fun k hk => ?_, fun i x hx s hs => ?_, ?_⟩
    · rcases List.mem_append.1 hk with hk | hk
      · obtain ⟨j, s, hs, rfl⟩ := (g1 k).1 hk
        exact ⟨0, next + j, (size, l), s, List.mem_of_getElem? hs, by simp, by omega, rfl⟩
      · obtain ⟨i, id, x, s, hs, hx, hid, rfl⟩ := h1 k hk
        exact ⟨i + 1, id, x, s, hs, by simpa using hx, by omega, by rw [show o + 1 + i = o + (i + 1) by omega]⟩
    · cases i with
      | zero =>
        simp only [List.getElem?_cons_zero, Option.some.injEq] at hx
        subst hx
        obtain ⟨j, hj⟩ := List.getElem?_of_mem hs
        exact ⟨next + j, List.mem_append.2 (Or.inl ((g1 _).2 ⟨j, s, hj, rfl⟩))⟩
      | succ i =>
        obtain ⟨id, hid⟩ := h2 i x (by simpa using hx) s hs
        rw [show o + 1 + i = o + (i + 1) by omega] at hid
        exact ⟨id, List.mem_append.2 (Or.inr hid)⟩
    · rw [List.pairwise_append]
      refine ⟨?_, h3, fun a ha b hb => ?_⟩
      · refine g2.imp_of_mem ?_
        intro a b ha hb hab
        obtain ⟨j, s, -, rfl⟩ := (g1 a).1 ha
        obtain ⟨j', s', -, rfl⟩ := (g1 b).1 hb
        exact ⟨hab, le_rfl⟩
      · obtain ⟨j, s, hj, rfl⟩ := (g1 a).1 ha
        obtain ⟨i, id, x, s', -, -, hid, rfl⟩ := h1 b hb
        have : j < l.length := (List.getElem?_eq_some_iff.1 hj).1
        simp only [keyLine]
        omega

theorem applyMask_ok (m : Mask) : ∀ (l : List KeyLine),
    (∀ k ∈ l, 0 ≤ k.startX ∧ k.startX < m.width ∧ 0 ≤ k.startY ∧ k.startY < m.height ∧
      0 ≤ k.endX ∧ k.endX < m.width ∧ 0 ≤ k.endY ∧ k.endY < m.height) →
    applyMask m l = .ok (l.filter fun k => m.value ⌊k.startX⌋ ⌊k.startY⌋ || m.value ⌊k.endX⌋ ⌊k.endY⌋) := by
  have read : ∀ x y : ℝ, 0 ≤ x → x < m.width → 0 ≤ y → y < m.height →
      readMask m.width m.height m.value (toInt x) (toInt y) = .ok (m.value ⌊x⌋ ⌊y⌋) := by
    intro x y h1 h2 h3 h4
    unfold readMask toInt
    rw [if_pos h1, if_pos h3, if_pos]
    refine ⟨Int.floor_nonneg.2 h1, ?_, Int.floor_nonneg.2 h3, ?_⟩ <;> rw [Int.floor_lt] <;> simpa
  intro l
  induction l with
  | nil => intro _; rfl
  | cons k l ih =>
    intro h
    obtain ⟨h1, h2, h3, h4, h5, h6, h7, h8⟩ := h k (by simp)
    rw [applyMask, read _ _ h1 h2 h3 h4, Outcome.bind_ok, ih fun k hk => h k (by simp [hk]), List.filter_cons]
    cases ha : m.value ⌊k.startX⌋ ⌊k.startY⌋ with
    | true => simp [Outcome.map]
    | false =>
      rw [if_neg (by simp), read _ _ h5 h6 h7 h8, Outcome.bind_ok, Outcome.map, Outcome.bind_ok]
      simp

theorem keyLine_measures (w h octave id : ℕ) (hw : 0 < w) (hh : 0 < h) (s : Segment) :
    let k := keyLine 2 (w, h) octave id s
    k.length = √((k.octaveEndX - k.octaveStartX) ^ 2 + (k.octaveEndY - k.octaveStartY) ^ 2) ∧
      √((k.endX - k.startX) ^ 2 + (k.endY - k.startY) ^ 2) = k.length * 2 ^ octave ∧
      k.startX - k.middleX = k.middleX - k.endX ∧ k.startY - k.middleY = k.middleY - k.endY ∧
      √((k.endX - k.startX) ^ 2 + (k.endY - k.startY) ^ 2) * Real.cos k.angle = k.endX - k.startX ∧
      √((k.endX - k.startX) ^ 2 + (k.endY - k.startY) ^ 2) * Real.sin k.angle = k.endY - k.startY ∧
      k.response * max w h = k.length ∧ 0 ≤ k.response ∧ k.response < √2 := by
  intro k
  have hlen : k.length = √((k.octaveEndX - k.octaveStartX) ^ 2 + (k.octaveEndY - k.octaveStartY) ^ 2) := by
    simp only [k, keyLine]
    congr 1
    ring
  have hm : (0 : ℝ) < (max w h : ℕ) := by
    have : 0 < max w h := lt_max_of_lt_left hw
    exact_mod_cast this
  have hresp : k.response = k.length / (max w h : ℕ) := rfl
  have hnorm : √((k.endX - k.startX) ^ 2 + (k.endY - k.startY) ^ 2) = ‖(⟨k.endX - k.startX, k.endY - k.startY⟩ : ℂ)‖ := by
    rw [Complex.norm_def, Complex.normSq_mk]
    congr 1
    ring
  refine ⟨hlen, ?_, ?_, ?_, ?_, ?_, ?_, ?_, ?_⟩
  · have e : (k.endX - k.startX) ^ 2 + (k.endY - k.startY) ^ 2 =
        ((k.octaveEndX - k.octaveStartX) ^ 2 + (k.octaveEndY - k.octaveStartY) ^ 2) * (2 ^ octave) ^ 2 := by
      simp only [k, keyLine, Nat.cast_ofNat]
      ring
    rw [e, Real.sqrt_mul (by positivity), Real.sqrt_sq (by positivity), hlen]
  · simp only [k, keyLine]
    ring
  · simp only [k, keyLine]
    ring
  · rw [hnorm]
    exact Complex.norm_mul_cos_arg _
  · rw [hnorm]
    exact Complex.norm_mul_sin_arg _
  · rw [hresp]
    push_cast at hm ⊢
    exact div_mul_cancel₀ _ hm.ne'
  · rw [hresp, hlen]
    positivity
  · rw [hresp, div_lt_iff₀ hm, hlen, ← Real.sqrt_sq hm.le, ← Real.sqrt_mul (by norm_num)]
    apply Real.sqrt_lt_sqrt (by positivity)
    have b : ∀ n : ℕ, 0 < n → n ≤ max w h → ∀ u v : ℝ, (clampExtreme n u - clampExtreme n v) ^ 2 < ((max w h : ℕ) : ℝ) ^ 2 := by
      intro n hn hle u v
      obtain ⟨a1, a2⟩ := clampExtreme_mem n hn u
      obtain ⟨a3, a4⟩ := clampExtreme_mem n hn v
      have : (n : ℝ) ≤ (max w h : ℕ) := by exact_mod_cast hle
      rw [sq_lt_sq, abs_of_pos hm, abs_lt]
      constructor <;> linarith
    have b1 := b w hw (le_max_left _ _) s.x2 s.x1
    have b2 := b h hh (le_max_right _ _) s.y2 s.y1
    simp only [k, keyLine]
    linarith

/-- C171 (partial: factor 2, with a mask): lines of an image of `w` by `h` pixels at `n` scales, each half the one before. `lines i` are the segments found in the
image reduced `i` times. With a mask of the size of the image, each key line comes from one of them, with its ends brought into the
reduced image; both ends are in the image, at `2 ^ octave` times their place in the reduced image; one end at least is on a pixel of
the mask that is not 0. The length is that of the segment in the reduced image, the middle is in the image, the direction is that of
the segment, and the response is the part of the longest side of the reduced image that it covers, below the square root of two. The
identifiers increase, and the octaves do not decrease. Each segment in its reduced image with an end on the mask has a key line. -/
theorem C171_keylines_partial (w h n : ℕ) (hn : 0 < n) (hw : 2 ^ (n - 1) ≤ w) (hh : 2 ^ (n - 1) ≤ h) (find : ℕ → Outcome (List Segment))
    (lines : ℕ → List Segment) (hfind : ∀ i < n, find i = .ok (lines i)) (value : ℤ → ℤ → Bool) :
    ∃ out, detectOctaves (w, h) true find [] n 2 (some { width := w, height := h, value := value }) = .ok out ∧
      (∀ k ∈ out, k.octave < n ∧
        (0 ≤ k.startX ∧ k.startX < w ∧ 0 ≤ k.startY ∧ k.startY < h) ∧ (0 ≤ k.endX ∧ k.endX < w ∧ 0 ≤ k.endY ∧ k.endY < h) ∧
        (k.octaveStartX < (w / 2 ^ k.octave : ℕ) ∧ k.octaveStartY < (h / 2 ^ k.octave : ℕ) ∧
          k.octaveEndX < (w / 2 ^ k.octave : ℕ) ∧ k.octaveEndY < (h / 2 ^ k.octave : ℕ)) ∧
        (k.startX = k.octaveStartX * 2 ^ k.octave ∧ k.startY = k.octaveStartY * 2 ^ k.octave ∧
          k.endX = k.octaveEndX * 2 ^ k.octave ∧ k.endY = k.octaveEndY * 2 ^ k.octave) ∧
        (value ⌊k.startX⌋ ⌊k.startY⌋ = true ∨ value ⌊k.endX⌋ ⌊k.endY⌋ = true) ∧
        (k.length = √((k.octaveEndX - k.octaveStartX) ^ 2 + (k.octaveEndY - k.octaveStartY) ^ 2) ∧
          k.startX - k.middleX = k.middleX - k.endX ∧ k.startY - k.middleY = k.middleY - k.endY ∧
          √((k.endX - k.startX) ^ 2 + (k.endY - k.startY) ^ 2) * Real.cos k.angle = k.endX - k.startX ∧
          √((k.endX - k.startX) ^ 2 + (k.endY - k.startY) ^ 2) * Real.sin k.angle = k.endY - k.startY ∧
          k.response * max (w / 2 ^ k.octave : ℕ) (h / 2 ^ k.octave : ℕ) = k.length ∧ 0 ≤ k.response ∧ k.response < √2) ∧
        ∃ s ∈ lines k.octave,
          Spec.Clamped (w / 2 ^ k.octave) s.x1 k.octaveStartX ∧ Spec.Clamped (h / 2 ^ k.octave) s.y1 k.octaveStartY ∧
          Spec.Clamped (w / 2 ^ k.octave) s.x2 k.octaveEndX ∧ Spec.Clamped (h / 2 ^ k.octave) s.y2 k.octaveEndY) ∧
      (out.Pairwise fun a b => a.classId < b.classId ∧ a.octave ≤ b.octave) ∧
      ∀ i < n, ∀ s ∈ lines i, 0 ≤ s.x1 → s.x1 < (w / 2 ^ i : ℕ) → 0 ≤ s.y1 → s.y1 < (h / 2 ^ i : ℕ) →
        0 ≤ s.x2 → s.x2 < (w / 2 ^ i : ℕ) → 0 ≤ s.y2 → s.y2 < (h / 2 ^ i : ℕ) →
        (value ⌊s.x1 * 2 ^ i⌋ ⌊s.y1 * 2 ^ i⌋ = true ∨ value ⌊s.x2 * 2 ^ i⌋ ⌊s.y2 * 2 ^ i⌋ = true) →
        ∃ k ∈ out, k.octave = i ∧ k.octaveStartX = s.x1 ∧ k.octaveStartY = s.y1 ∧ k.octaveEndX = s.x2 ∧ k.octaveEndY = s.y2 := by
  set sizes := (List.range n).map fun i => (w / 2 ^ i, h / 2 ^ i) with hsizes
  have hpyr := pyramid_two n w h hn hw hh
  have hseg := octaveSegments_ok find lines sizes 0 (fun i hi => by
    rw [zero_add]
    exact hfind i (by simpa [hsizes] using hi))
  set ls := sizes.mapIdx fun i size => (size, lines (0 + i)) with hls
  have hget : ∀ i x, ls[i]? = some x ↔ i < n ∧ x = ((w / 2 ^ i, h / 2 ^ i), lines i) := by
    intro i x
    rw [hls, List.getElem?_mapIdx, hsizes, List.getElem?_map]
    by_cases hi : i < n
    · rw [List.getElem?_range hi]
      simp [hi, eq_comm]
    · rw [List.getElem?_eq_none (by simpa using hi)]
      simp [hi]
  have hpos : ∀ i < n, 0 < w / 2 ^ i ∧ 0 < h / 2 ^ i := by
    intro i hi
    have : 2 ^ i ≤ 2 ^ (n - 1) := Nat.pow_le_pow_right (by norm_num) (by omega)
    exact ⟨Nat.div_pos (this.trans hw) (by positivity), Nat.div_pos (this.trans hh) (by positivity)⟩
  have hscale : ∀ (a i : ℕ) (v : ℝ), 0 ≤ v → v < (a / 2 ^ i : ℕ) → 0 ≤ v * 2 ^ i ∧ v * 2 ^ i < a := by
    intro a i v h0 h1
    refine ⟨by positivity, ?_⟩
    have h2 : (a / 2 ^ i : ℕ) * 2 ^ i ≤ a := Nat.div_mul_le_self a (2 ^ i)
    have h3 : ((a / 2 ^ i : ℕ) : ℝ) * 2 ^ i ≤ a := by exact_mod_cast h2
    exact lt_of_lt_of_le (mul_lt_mul_of_pos_right h1 (by positivity)) h3
  obtain ⟨h1, h2, h3⟩ := allLines_spec 2 ls 0 0
  have hin : ∀ k ∈ allLines 2 0 0 ls, 0 ≤ k.startX ∧ k.startX < w ∧ 0 ≤ k.startY ∧ k.startY < h ∧
      0 ≤ k.endX ∧ k.endX < w ∧ 0 ≤ k.endY ∧ k.endY < h := by
    intro k hk
    obtain ⟨i, id, x, s, hs, hx, -, rfl⟩ := h1 k hk
    obtain ⟨hi, rfl⟩ := (hget i x).1 hx
    obtain ⟨p1, p2⟩ := hpos i hi
    have c := fun v => clampExtreme_mem (w / 2 ^ i) p1 v
    have d := fun v => clampExtreme_mem (h / 2 ^ i) p2 v
    simp only [keyLine, zero_add, Nat.cast_ofNat]
    exact ⟨(hscale w i _ (c s.x1).1 (c s.x1).2).1, (hscale w i _ (c s.x1).1 (c s.x1).2).2,
      (hscale h i _ (d s.y1).1 (d s.y1).2).1, (hscale h i _ (d s.y1).1 (d s.y1).2).2,
      (hscale w i _ (c s.x2).1 (c s.x2).2).1, (hscale w i _ (c s.x2).1 (c s.x2).2).2,
      (hscale h i _ (d s.y2).1 (d s.y2).2).1, (hscale h i _ (d s.y2).1 (d s.y2).2).2⟩
  have hmask := applyMask_ok { width := w, height := h, value := value } (allLines 2 0 0 ls) hin
  refine ⟨(allLines 2 0 0 ls).filter fun k => value ⌊k.startX⌋ ⌊k.startY⌋ || value ⌊k.endX⌋ ⌊k.endY⌋, ?_, ?_, h3.filter _, ?_⟩
  · unfold detectOctaves
    rw [if_neg (by omega)]
    dsimp only
    rw [if_neg (by simp), Int.toNat_natCast, show (2 : ℤ).toNat = 2 from rfl, hpyr, Outcome.bind_ok, hseg, Outcome.bind_ok,
      List.nil_append]
    exact hmask
  · intro k hk
    rw [List.mem_filter, Bool.or_eq_true] at hk
    obtain ⟨hk, hv⟩ := hk
    obtain ⟨b1, b2, b3, b4, b5, b6, b7, b8⟩ := hin k hk
    obtain ⟨i, id, x, s, hs, hx, -, rfl⟩ := h1 k hk
    obtain ⟨hi, rfl⟩ := (hget i x).1 hx
    obtain ⟨p1, p2⟩ := hpos i hi
    refine ⟨by simp only [keyLine]; omega, ⟨b1, b2, b3, b4⟩, ⟨b5, b6, b7, b8⟩, ?_, ?_, hv, ?_, s, ?_, ?_⟩
    · simp only [keyLine, zero_add]
      exact ⟨(clampExtreme_mem _ p1 _).2, (clampExtreme_mem _ p2 _).2, (clampExtreme_mem _ p1 _).2, (clampExtreme_mem _ p2 _).2⟩
    · simp [keyLine]
    · obtain ⟨m1, -, m2, m3, m4, m5, m6, m7, m8⟩ := keyLine_measures (w / 2 ^ i) (h / 2 ^ i) (0 + i) id p1 p2 s
      have ho : (keyLine 2 (w / 2 ^ i, h / 2 ^ i) (0 + i) id s).octave = i := by simp [keyLine]
      rw [ho]
      exact ⟨m1, m2, m3, m4, m5, m6, m7, m8⟩
    · simpa [keyLine] using hs
    · simp only [keyLine, zero_add]
      exact ⟨clamped _ p1 _, clamped _ p2 _, clamped _ p1 _, clamped _ p2 _⟩
  · intro i hi s hs a1 a2 a3 a4 a5 a6 a7 a8 hv
    obtain ⟨id, hid⟩ := h2 i _ ((hget i _).2 ⟨hi, rfl⟩) s hs
    refine ⟨_, List.mem_filter.2 ⟨hid, ?_⟩, ?_⟩
    · simp only [keyLine, zero_add, Nat.cast_ofNat, clampExtreme_eq _ _ a1 a2, clampExtreme_eq _ _ a3 a4, clampExtreme_eq _ _ a5 a6,
        clampExtreme_eq _ _ a7 a8, Bool.or_eq_true]
      exact hv
    · simp only [keyLine, zero_add, clampExtreme_eq _ _ a1 a2, clampExtreme_eq _ _ a3 a4, clampExtreme_eq _ _ a5 a6,
        clampExtreme_eq _ _ a7 a8, and_self]

/-- C171: no image of the pyramid is empty, whatever the scale, when the first one is not. -/
theorem C171_not_empty (numOctaves scale : ℕ) (size : ℕ × ℕ) (h : 0 < size.1 ∧ 0 < size.2) (l : List (ℕ × ℕ))
    (hl : pyramid numOctaves scale size = .ok l) : l.length = max numOctaves 1 ∧ ∀ s ∈ l, 0 < s.1 ∧ 0 < s.2 := by
  have key : ∀ (n : ℕ) (size : ℕ × ℕ), 0 < size.1 ∧ 0 < size.2 → ∀ l, pyramidRest scale n size = .ok l →
      l.length = n ∧ ∀ s ∈ l, 0 < s.1 ∧ 0 < s.2 := by
    intro n
    induction n with
    | zero => intro size _ l hl; rw [pyramidRest, Outcome.ok.injEq] at hl; subst hl; simp
    | succ n ih =>
      intro size hs l hl
      rw [pyramidRest] at hl
      obtain ⟨next, h1, h2⟩ := Outcome.bind_eq_ok hl
      have hnext : 0 < next.1 ∧ 0 < next.2 := by
        unfold pyrDown at h1
        dsimp only at h1
        split_ifs at h1 with ha hb hb
        · rw [Outcome.ok.injEq] at h1
          subst h1
          dsimp only
          omega
        · rw [Outcome.ok.injEq] at h1
          subst h1
          push Not at ha
          exact ⟨Nat.pos_of_ne_zero ha.1, Nat.pos_of_ne_zero ha.2⟩
      cases hr : pyramidRest scale n next with
      | ok rest =>
        rw [hr] at h2
        have h2 : next :: rest = l := Outcome.ok.inj h2
        subst h2
        obtain ⟨r1, r2⟩ := ih next hnext rest hr
        exact ⟨by simp [r1], by
          intro s hs
          rcases List.mem_cons.1 hs with rfl | hs
          · exact hnext
          · exact r2 s hs⟩
      | _ => rw [hr] at h2; cases h2
  unfold pyramid at hl
  cases hr : pyramidRest scale (numOctaves - 1) size with
  | ok rest =>
    rw [hr] at hl
    have hl : size :: rest = l := Outcome.ok.inj hl
    subst hl
    obtain ⟨r1, r2⟩ := key _ size h rest hr
    refine ⟨by simp [r1]; omega, ?_⟩
    intro s hs
    rcases List.mem_cons.1 hs with rfl | hs
    · exact h
    · exact r2 s hs
  | _ => rw [hr] at hl; cases hl

/-- Three octaves of an image of 5 pixels by 1: its height stays. -/
example : pyramid 3 2 (5, 1) = .ok [(5, 1), (3, 1), (2, 1)] := by decide +kernel

/-- C171 is false for the mask: it is not optional. Without one the program stops on an assertion. -/
theorem C171_no_mask_false (size : ℕ × ℕ) (byte : Bool) (find : ℕ → Outcome (List Segment)) (before : List KeyLine)
    (numOctaves scale : ℤ) : detectOctaves size byte find before numOctaves scale none = .terminate := by
  unfold detectOctaves
  split_ifs <;> rfl

/-- C171 is false for other scales than 2: with 3 or more, an image of nine pixels or more on one side that is not divided to
nothing cannot be reduced. -/
theorem C171_scale_false (w h : ℕ) (scale : ℕ) (hs : 3 ≤ scale) (hw : 9 ≤ w) (hws : scale ≤ w) (hhs : scale ≤ h) (n : ℕ) (hn : 2 ≤ n)
    (find : ℕ → Outcome (List Segment)) (before : List KeyLine) (m : Mask) :
    detectOctaves (w, h) true find before n scale (some m) = .throws := by
  have hq : pyrDown (w, h) (w / scale, h / scale) = .throws := by
    unfold pyrDown
    have h1 : 0 < w / scale := Nat.div_pos hws (by omega)
    have h2 : 0 < h / scale := Nat.div_pos hhs (by omega)
    have hne : ¬ (w / scale = 0 ∨ h / scale = 0) := by omega
    simp only [if_neg hne]
    rw [if_neg]
    rintro ⟨-, -, h3, -⟩
    rw [abs_le] at h3
    have h4 : w / scale ≤ w / 3 := Nat.div_le_div_left hs (by norm_num)
    omega
  obtain ⟨k, rfl⟩ : ∃ k, n = k + 2 := ⟨n - 2, by omega⟩
  unfold detectOctaves
  rw [if_neg (by push Not; constructor <;> omega)]
  dsimp only
  rw [if_neg (by simp), Int.toNat_natCast, Int.toNat_natCast, pyramid, show k + 2 - 1 = k + 1 by omega, pyramidRest]
  dsimp only
  rw [hq]
  rfl

/-- C171 is false for the size, which is not the area around the line: it is negative for a line that goes up to the right. -/
theorem C171_size_false : (keyLine 2 (640, 480) 0 0 { x1 := 10, y1 := 30, x2 := 20, y2 := 10 }).size = -200 := by
  simp only [keyLine]
  rw [clampExtreme_eq _ _ (by norm_num) (by norm_num), clampExtreme_eq _ _ (by norm_num) (by norm_num),
    clampExtreme_eq _ _ (by norm_num) (by norm_num), clampExtreme_eq _ _ (by norm_num) (by norm_num)]
  norm_num

/-- A line at each of three scales in an image of 640 by 480 pixels, with a mask of its left half: two key lines. -/
example : ∃ out, detectOctaves (640, 480) true
    (fun i => .ok [{ x1 := 100 * (i : ℝ), y1 := 20, x2 := 110 * (i : ℝ), y2 := 40 }]) [] 3 2
    (some { width := 640, height := 480, value := fun x _ => decide (x < 320) }) = .ok out ∧
    (∃ k ∈ out, k.octave = 0) ∧ (∃ k ∈ out, k.octave = 1) ∧ ∀ k ∈ out, k.octave ≠ 2 := by
  obtain ⟨out, h1, h2, -, h4⟩ := C171_keylines_partial 640 480 3 (by norm_num) (by norm_num) (by norm_num)
    (fun i => .ok [{ x1 := 100 * (i : ℝ), y1 := 20, x2 := 110 * (i : ℝ), y2 := 40 }])
    (fun i => [{ x1 := 100 * (i : ℝ), y1 := 20, x2 := 110 * (i : ℝ), y2 := 40 }]) (fun _ _ => rfl) (fun x _ => decide (x < 320))
  refine ⟨out, h1, ?_, ?_, ?_⟩
  · obtain ⟨k, hk, ho, -⟩ := h4 0 (by norm_num) _ (List.mem_singleton.2 rfl) (by norm_num) (by norm_num) (by norm_num) (by norm_num)
      (by norm_num) (by norm_num) (by norm_num) (by norm_num) (Or.inl (by norm_num))
    exact ⟨k, hk, ho⟩
  · obtain ⟨k, hk, ho, -⟩ := h4 1 (by norm_num) _ (List.mem_singleton.2 rfl) (by norm_num) (by norm_num) (by norm_num) (by norm_num)
      (by norm_num) (by norm_num) (by norm_num) (by norm_num) (Or.inl (by norm_num))
    exact ⟨k, hk, ho⟩
  · intro k hk ho
    obtain ⟨-, -, -, -, ⟨h5, -, h6, -⟩, hv, -, s, hs, h7, -, h8, -⟩ := h2 k hk
    rw [ho] at h5 h6 hs h7 h8
    rw [List.mem_singleton] at hs
    subst hs
    have e1 := h7.2.2 (by norm_num)
    have e2 := h8.2.2 (by norm_num)
    rw [e1] at h5
    rw [e2] at h6
    norm_num at h5 h6
    rw [h5, h6] at hv
    norm_num at hv

/-! ### Comparison -/

theorem mismatch_triangle (draw : Segment → ℕ → ℕ → Bool) (size : ℕ × ℕ) (a b c : List Segment) :
    mismatch draw size a c ≤ mismatch draw size a b + mismatch draw size b c := by
  unfold mismatch
  generalize ((List.range size.2).flatMap fun y => (List.range size.1).map fun x => (x, y)) = l
  induction l with
  | nil => simp
  | cons p l ih =>
    simp only [List.countP_cons]
    have : ∀ x y z : Bool, (if (x ^^ z) = true then 1 else 0) ≤ (if (x ^^ y) = true then 1 else 0) + (if (y ^^ z) = true then 1 else 0) := by decide
    have := this (covers draw a p.1 p.2) (covers draw b p.1 p.2) (covers draw c p.1 p.2)
    omega

theorem mismatch_comm (draw : Segment → ℕ → ℕ → Bool) (size : ℕ × ℕ) (a b : List Segment) :
    mismatch draw size a b = mismatch draw size b a := by
  unfold mismatch
  simp only [Bool.xor_comm]

theorem mismatch_eq (draw : Segment → ℕ → ℕ → Bool) (size : ℕ × ℕ) (a b : List Segment) :
    mismatch draw size a b = ((Finset.range size.1 ×ˢ Finset.range size.2).filter fun p =>
      ¬ ((∃ s ∈ a, draw s p.1 p.2 = true) ↔ ∃ s ∈ b, draw s p.1 p.2 = true)).card := by
  have hn : ((List.range size.2).flatMap fun y => (List.range size.1).map fun x => (x, y)).Nodup := by
    rw [List.nodup_flatMap]
    refine ⟨fun y _ => List.nodup_range.map fun i j h => (Prod.mk.inj h).1, ?_⟩
    refine List.nodup_range.imp ?_
    intro y y' hy p hp hq
    obtain ⟨x, -, rfl⟩ := List.mem_map.1 hp
    obtain ⟨x', -, e⟩ := List.mem_map.1 hq
    exact hy (Prod.mk.inj e).2.symm
  unfold mismatch
  rw [List.countP_eq_length_filter, ← List.toFinset_card_of_nodup (hn.filter _)]
  congr 1
  ext ⟨x, y⟩
  have hcov : ∀ l : List Segment, covers draw l x y = true ↔ ∃ s ∈ l, draw s x y = true := by
    intro l
    unfold covers
    rw [List.any_eq_true]
  simp only [List.mem_toFinset, List.mem_filter, List.mem_flatMap, List.mem_map, List.mem_range, Finset.mem_filter, Finset.mem_product,
    Finset.mem_range, ← hcov, Prod.mk.injEq]
  constructor
  · rintro ⟨⟨y', hy, x', hx, rfl, rfl⟩, h⟩
    refine ⟨⟨hx, hy⟩, fun he => ?_⟩
    rw [Bool.eq_iff_iff.2 he] at h
    simp at h
  · rintro ⟨⟨hx, hy⟩, h⟩
    refine ⟨⟨y, hy, x, hx, rfl, rfl⟩, ?_⟩
    cases h1 : covers draw a x y <;> cases h2 : covers draw b x y <;> simp [h1, h2] at h ⊢

/-- C172 (partial: sets with lines): the comparison of two sets of lines, which are not empty, in an image with pixels, is the number of pixels that the lines
of one set cover and those of the other do not. `draw` says which pixels `line` covers. -/
theorem C172_compare_partial (draw : Segment → ℕ → ℕ → Bool) (w h : ℕ) (hw : 0 < w) (hh : 0 < h) (a b : List Segment) (ha : a ≠ [])
    (hb : b ≠ []) :
    compareSegments draw (w, h) a b none = .ok (((Finset.range w ×ˢ Finset.range h).filter fun p =>
      ¬ ((∃ s ∈ a, draw s p.1 p.2 = true) ↔ ∃ s ∈ b, draw s p.1 p.2 = true)).card, none) := by
  unfold compareSegments
  dsimp only
  rw [if_neg (by omega), if_neg (by simp [ha, hb]), mismatch_eq]

/-- C172 (partial: sets with lines): a set of lines has no mismatch with itself, the order of the two sets does not matter, and the mismatch between two sets is
not above the sum of those with a third one. -/
theorem C172_distance_partial (draw : Segment → ℕ → ℕ → Bool) (w h : ℕ) (hw : 0 < w) (hh : 0 < h) (a b c : List Segment) (ha : a ≠ [])
    (hb : b ≠ []) (hc : c ≠ []) :
    ∃ ab bc ac, compareSegments draw (w, h) a b none = .ok (ab, none) ∧ compareSegments draw (w, h) b a none = .ok (ab, none) ∧
      compareSegments draw (w, h) b c none = .ok (bc, none) ∧ compareSegments draw (w, h) a c none = .ok (ac, none) ∧
      ac ≤ ab + bc ∧ compareSegments draw (w, h) a a none = .ok (0, none) := by
  have key : ∀ x y : List Segment, x ≠ [] → y ≠ [] → compareSegments draw (w, h) x y none = .ok (mismatch draw (w, h) x y, none) := by
    intro x y hx hy
    unfold compareSegments
    dsimp only
    rw [if_neg (by omega), if_neg (by simp [hx, hy])]
  refine ⟨_, _, _, key a b ha hb, ?_, key b c hb hc, key a c ha hc, mismatch_triangle draw (w, h) a b c, ?_⟩
  · rw [key b a hb ha, mismatch_comm]
  · rw [key a a ha ha]
    unfold mismatch
    simp

/-- C172 (partial: sets with lines): with an image of three channels in one piece, its size is used. A pixel covered by lines of the first set only becomes
blue, of the second only red, of both magenta; the other pixels are left as they are. -/
theorem C172_canvas_partial (draw : Segment → ℕ → ℕ → Bool) (size : ℕ × ℕ) (a b : List Segment) (ha : a ≠ []) (hb : b ≠ []) (c : Canvas)
    (hw : 0 < c.width) (hh : 0 < c.height) (hc : c.channels = 3) (hcont : c.continuous = true) :
    ∃ n out, compareSegments draw size a b (some c) = .ok (n, some out) ∧
      compareSegments draw (c.width, c.height) a b none = .ok (n, none) ∧
      ∀ x y, x < c.width → y < c.height →
        ((∃ s ∈ a, draw s x y = true) → (¬ ∃ s ∈ b, draw s x y = true) → out x y = (255, 0, 0)) ∧
        ((¬ ∃ s ∈ a, draw s x y = true) → (∃ s ∈ b, draw s x y = true) → out x y = (0, 0, 255)) ∧
        ((∃ s ∈ a, draw s x y = true) → (∃ s ∈ b, draw s x y = true) → out x y = (255, 0, 255)) ∧
        ((¬ ∃ s ∈ a, draw s x y = true) → (¬ ∃ s ∈ b, draw s x y = true) → out x y = c.pixel x y) := by
  have hcov : ∀ (l : List Segment) x y, (∃ s ∈ l, draw s x y = true) ↔ covers draw l x y = true := by
    intro l x y
    unfold covers
    rw [List.any_eq_true]
  refine ⟨mismatch draw (c.width, c.height) a b, fun x y =>
    if x < c.width ∧ y < c.height then compareColour (covers draw a x y) (covers draw b x y) (c.pixel x y) else c.pixel x y,
    ?_, ?_, ?_⟩
  · unfold compareSegments
    dsimp only
    rw [if_neg (by omega), if_neg (by simp [ha, hb]), if_neg (by simp [hc, hcont])]
  · unfold compareSegments
    dsimp only
    rw [if_neg (by omega), if_neg (by simp [ha, hb])]
  · intro x y hx hy
    simp only [hcov, if_pos (And.intro hx hy), compareColour]
    cases covers draw a x y <;> cases covers draw b x y <;> simp

/-- C172 is false when a set has no line: the program stops on an assertion. -/
theorem C172_empty_false (draw : Segment → ℕ → ℕ → Bool) (size : ℕ × ℕ) (a : List Segment) (canvas : Option Canvas) :
    compareSegments draw size a [] canvas = .terminate ∧ compareSegments draw size [] a canvas = .terminate := by
  unfold compareSegments
  constructor <;> (dsimp only; split_ifs <;> simp_all)

/-- Two crossing lines of an image of 4 by 4 pixels: six pixels differ. -/
example : compareSegments (fun s x y => decide ((s.x1 = 0 ∧ y = 1) ∨ (s.x1 = 1 ∧ x = 2))) (4, 4) [⟨0, 1, 3, 1⟩] [⟨1, 2, 1, 3⟩] none =
    .ok (6, none) := by
  unfold compareSegments
  simp [mismatch, covers, List.range_succ]

end RgbdSlam.Lsd
