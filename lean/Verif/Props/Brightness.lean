import Verif.Props.Fast
/-
C208: brightness and contrast of the image.
-/
namespace RgbdSlam.Fast.Brightness

open KeypointDetection Fast

/-! ### What is expected -/

/-- `img'` is `img` with the contrast multiplied by `gain` and the brightness raised by `offset`, and is not saturated:
its gray levels still are bytes. -/
def Spec.Adjusted (gain : Nat) (offset : Int) (img img' : Gray) : Prop :=
  ∀ p, (img' p : Int) = gain * img p + offset ∧ img' p ≤ 255

/-- `img'` is the negative of `img`. -/
def Spec.Negative (img img' : Gray) : Prop := ∀ p, (img' p : Int) = 255 - img p

open Spec

/-! ### Corners of an adjusted image -/

theorem lt_scaled {a : Nat} (ha : 1 ≤ a) (t : Nat) (x : Int) : (t : Int) < a * x ↔ ((t / a : Nat) : Int) < x := by
  have := Int.ediv_lt_iff_lt_mul (a := (t : Int)) (b := x) (c := (a : Int)) (by omega)
  rw [mul_comm] at this
  rw [← this]
  push_cast
  rfl

theorem corner_adjusted {a : Nat} (ha : 1 ≤ a) {b : Int} {img img' : Gray} (h : Adjusted a b img img') (t : Nat)
    (p : Pixel) : corner img' t p = corner img (t / a) p := by
  unfold corner
  congr 1
  funext s
  congr 1
  · congr 1
    funext i
    have e1 := (h p).1
    have e2 : around img' p (s + i) = a * around img p (s + i) + b := (h _).1
    rw [decide_eq_decide, e1, e2]
    have := lt_scaled ha t (around img p (s + i) - img p)
    constructor
    · intro hh
      have := this.1 (by linarith)
      linarith
    · intro hh
      have := this.2 (by linarith)
      linarith
  · congr 1
    funext i
    have e1 := (h p).1
    have e2 : around img' p (s + i) = a * around img p (s + i) + b := (h _).1
    rw [decide_eq_decide, e1, e2]
    have := lt_scaled ha t (img p - around img p (s + i))
    constructor
    · intro hh
      have := this.1 (by linarith)
      linarith
    · intro hh
      have := this.2 (by linarith)
      linarith

theorem corner_lt {img : Gray} (h : ∀ p, img p ≤ 255) {t : Nat} {p : Pixel} (hc : corner img t p = true) : t < 255 := by
  unfold corner at hc
  rw [List.any_eq_true] at hc
  obtain ⟨s, -, hc⟩ := hc
  rw [Bool.or_eq_true, List.all_eq_true, List.all_eq_true] at hc
  have hm : 0 ∈ List.range 9 := by simp
  have h1 := h p
  rcases hc with hc | hc
  · have := of_decide_eq_true (hc 0 hm)
    have h2 : around img p (s + 0) ≤ 255 := by
      unfold around
      have := h ⟨p.x + (circle.getD ((s + 0) % 16) (0, 0)).1, p.y + (circle.getD ((s + 0) % 16) (0, 0)).2⟩
      dsimp only
      omega
    omega
  · have := of_decide_eq_true (hc 0 hm)
    have h2 : 0 ≤ around img p (s + 0) := by
      unfold around
      dsimp only
      omega
    omega

theorem score_le (img : Gray) (p : Pixel) : score img p ≤ 255 := Nat.findGreatest_le 255

section
variable {a : Nat} {b : Int} {img img' : Gray}

theorem le_score_adjusted (ha : 1 ≤ a) (h : Adjusted a b img img') {p : Pixel} (hs : 1 ≤ score img p) :
    a * score img p ≤ score img' p := by
  have hc : corner img' (a * score img p) p = true := by
    rw [corner_adjusted ha h, Nat.mul_div_cancel_left _ (by omega)]
    exact (corner_iff hs (score_le img p) p).2 le_rfl
  have hlt := corner_lt (fun p => (h p).2) hc
  exact (corner_iff (by nlinarith) hlt.le p).1 hc

theorem score_lt_adjusted (ha : 1 ≤ a) (h : Adjusted a b img img') {p q : Pixel} (hs : score img q < score img p) :
    score img' q < score img' p := by
  refine lt_of_lt_of_le ?_ (le_score_adjusted ha h (by omega))
  by_contra hc
  have h1 : 1 ≤ score img' q := by
    have : 1 ≤ a * score img p := Nat.mul_pos ha (by omega)
    omega
  have c1 : corner img' (score img' q) q = true := (corner_iff h1 (score_le img' q) q).2 le_rfl
  have c2 := corner_mono (s := a * score img p) (by omega) c1
  rw [corner_adjusted ha h, Nat.mul_div_cancel_left _ (by omega)] at c2
  have := (corner_iff (by omega) (score_le img p) q).1 c2
  omega

theorem score_le_adjusted (ha : 1 ≤ a) (h : Adjusted a b img img') {p q : Pixel} (hp : 1 ≤ score img p)
    (hs : score img q ≤ score img p) : score img' q ≤ score img' p := by
  by_cases h0 : score img' q = 0
  · omega
  · have c1 : corner img' (score img' q) q = true := (corner_iff (by omega) (score_le img' q) q).2 le_rfl
    have c2 : corner img' (score img' q) p = true := by
      rw [corner_adjusted ha h] at c1 ⊢
      have cp : corner img (score img p) p = true := (corner_iff hp (score_le img p) p).2 le_rfl
      refine corner_mono ?_ cp
      by_cases hd : score img' q / a = 0
      · omega
      · have hle : score img' q / a ≤ 255 := le_trans (Nat.div_le_self _ _) (score_le img' q)
        have := (corner_iff (Nat.one_le_iff_ne_zero.2 hd) hle q).1 c1
        omega
    exact (corner_iff (by omega) (score_le img' q) p).1 c2

end

/-! ### The detector -/

/-- The pixels found by the detector: the corners stronger than their neighbours. -/
def Strong (img : Gray) (width height t : Nat) (p : Pixel) : Prop :=
  t ≤ score img p ∧ ∀ q ∈ neighbours p, q ∈ examined width height → score img q < score img p

instance (img : Gray) (width height t : Nat) (p : Pixel) : Decidable (Strong img width height t p) := by
  unfold Strong
  infer_instance

theorem fast_eq (img : Gray) (width height : Nat) {t : Nat} (h1 : 1 ≤ t) (h2 : t ≤ 255) :
    fast img width height t =
      ((examined width height).filter fun p => decide (Strong img width height t p)).map
        fun p => ⟨p, score img p⟩ := by
  unfold fast
  congr 1
  apply List.filter_congr
  intro p _
  rw [Bool.eq_iff_iff, Bool.and_eq_true, corner_iff h1 h2, List.all_eq_true, decide_eq_true_eq]
  refine and_congr_right fun hp => ?_
  constructor
  · intro h q hq he
    have := of_decide_eq_true (h q hq)
    unfold value at this
    by_cases hc : corner img t q = true
    · rwa [if_pos ⟨he, hc⟩] at this
    · rw [corner_iff h1 h2] at hc
      omega
  · intro h q hq
    apply decide_eq_true
    unfold value
    split_ifs with hc
    · exact h q hq hc.1
    · omega

theorem mem_retainBest (l : List Key) {n : Nat} (hn : 1 ≤ n) (k : Key) :
    k ∈ retainBest l n ↔ k ∈ l ∧ (l.countP fun x => decide (k.response < x.response)) < n := by
  unfold retainBest
  split_ifs with h1 h2
  · refine ⟨fun hk => ⟨hk, ?_⟩, fun hk => hk.1⟩
    refine lt_of_lt_of_le ?_ h1
    refine lt_of_le_of_ne List.countP_le_length fun he => ?_
    have := List.countP_eq_length.1 he k hk
    simp at this
  · omega
  · rw [List.mem_filter, decide_eq_true_eq]
    refine and_congr_right fun _ => ?_
    obtain ⟨a1, a2⟩ := nthLargest_spec l n (by omega) (by omega)
    constructor
    · intro hk
      refine lt_of_le_of_lt (countP_mono_key l ?_) a1
      intro x hx
      have := of_decide_eq_true hx
      exact decide_eq_true (by omega)
    · intro hk
      by_contra hc
      have := countP_mono_key l (p := fun x => decide (nthLargest l n ≤ x.response))
        (q := fun x => decide (k.response < x.response)) (by
          intro x hx
          have := of_decide_eq_true hx
          exact decide_eq_true (by omega))
      omega

theorem strong_adjusted {a : Nat} (ha : 1 ≤ a) {b : Int} {img img' : Gray} (h : Adjusted a b img img')
    {width height t : Nat} (h1 : 1 ≤ t) {p : Pixel} (hp : Strong img width height t p) :
    Strong img' width height t p := by
  obtain ⟨c1, c2⟩ := hp
  refine ⟨?_, fun q hq he => score_lt_adjusted ha h (c2 q hq he)⟩
  have := le_score_adjusted ha h (p := p) (by omega)
  nlinarith

theorem adjusted_cut {a : Nat} {b : Int} {img img' : Gray} (h : Adjusted a b img img') (w : Window) :
    Adjusted a b (cut img w) (cut img' w) := fun _ => h _

/-- The keypoints of one window: positions are not lost. -/
theorem window_adjusted {a : Nat} (ha : 1 ≤ a) {b : Int} {img img' : Gray} (h : Adjusted a b img img')
    (width height t n : Nat) (w : Window) (free : Pixel → Bool) (h1 : 1 ≤ t) (h2 : t ≤ 255) (hn : 1 ≤ n) {p : Pixel}
    (hp : ∃ r, (⟨p, r⟩ : Key) ∈ retainBest (detectMasked w free (fast img width height t)) n) :
    ∃ r, (⟨p, r⟩ : Key) ∈ retainBest (detectMasked w free (fast img' width height t)) n := by
  obtain ⟨r, hr⟩ := hp
  refine ⟨(score img' p : Int), ?_⟩
  rw [mem_retainBest _ hn] at hr ⊢
  obtain ⟨hm, hc⟩ := hr
  have mem : ∀ (im : Gray) (k : Key), k ∈ detectMasked w free (fast im width height t) ↔
      (k.pos ∈ examined width height ∧ Strong im width height t k.pos ∧ k.response = score im k.pos) ∧
        free (w.toImage k).pos = true := by
    intro im k
    rw [detectMasked, List.mem_filter, fast_eq im width height h1 h2, List.mem_map]
    refine and_congr_left fun _ => ?_
    constructor
    · rintro ⟨q, hq, rfl⟩
      obtain ⟨q1, q2⟩ := List.mem_filter.1 hq
      exact ⟨q1, of_decide_eq_true q2, rfl⟩
    · rintro ⟨q1, q2, q3⟩
      refine ⟨k.pos, List.mem_filter.2 ⟨q1, decide_eq_true q2⟩, ?_⟩
      cases k
      simp_all
  have count : ∀ (im : Gray) (v : Int),
      (detectMasked w free (fast im width height t)).countP (fun x => decide (v < x.response)) =
        (examined width height).countP fun q =>
          decide (Strong im width height t q ∧ free ⟨q.x + w.x, q.y + w.y⟩ = true ∧ v < score im q) := by
    intro im v
    rw [detectMasked, fast_eq im width height h1 h2, List.countP_filter, List.countP_map, List.countP_filter]
    apply List.countP_congr
    intro q _
    simp only [Function.comp, Bool.and_eq_true, decide_eq_true_eq, Window.toImage]
    constructor
    · rintro ⟨⟨x, y⟩, z⟩; exact ⟨z, y, x⟩
    · rintro ⟨z, y, x⟩; exact ⟨⟨x, y⟩, z⟩
  rw [mem] at hm
  obtain ⟨⟨m1, m2, m3⟩, m4⟩ := hm
  dsimp only at m1 m2 m3 m4
  refine ⟨(mem img' _).2 ⟨⟨m1, strong_adjusted ha h h1 m2, rfl⟩, m4⟩, ?_⟩
  dsimp only at hc ⊢
  rw [count] at hc ⊢
  subst m3
  refine lt_of_le_of_lt (List.countP_mono_left fun q hq hd => ?_) hc
  obtain ⟨d1, d2, d3⟩ := of_decide_eq_true hd
  have hpos : 1 ≤ score img p := le_trans h1 m2.1
  have hlt : score img p < score img q := by
    by_contra hle
    have := score_le_adjusted ha h hpos (not_lt.1 hle)
    omega
  refine decide_eq_true ⟨⟨?_, fun r hr he => ?_⟩, d2, by exact_mod_cast hlt⟩
  · have := m2.1
    omega
  · have := d1.2 r hr he
    by_contra hle
    rcases Nat.lt_or_ge (score img q) (score img r) with hl | hl
    · have := score_lt_adjusted ha h hl
      omega
    · have := score_le_adjusted ha h (p := r) (q := q) (by omega) (by omega)
      omega

/-! ### The program -/

theorem detect_window_iff (img : Gray) {width height : Nat} (disc : Pixel → Pixel → Bool) (tracked : List Pixel)
    (ht : tracked.length < 2 ^ 16) {order : List Nat} (ho : Schedule order) {i : Nat} {w : Window}
    (hw : (windows width height)[i]? = some w) (k : Key) :
    k ∈ detect width height disc tracked (answers img width height) order ∧ w.contains k.pos = true ↔
      k ∈ detectInWindow w (tracksIn w tracked) (allowed disc tracked) fun _ => fast (cut img w) w.width w.height 8 := by
  rw [mem_detect_window (answers_inside img width height) (answers_positions img width height) ho hw,
    part_eq disc tracked _ hw ht, detectInWindow_advanced]
  have e : answers img width height i true = fast (cut img w) w.width w.height 8 := by
    unfold answers
    rw [hw]
    simp only [C206_thresholds_used.2, if_true]
    rfl
  rw [e]

theorem mem_detect_in_window (img : Gray) {width height : Nat} (disc : Pixel → Pixel → Bool) (tracked : List Pixel)
    {order : List Nat} {k : Key}
    (hk : k ∈ detect width height disc tracked (answers img width height) order) :
    ∃ (i : Nat) (w : Window), (windows width height)[i]? = some w ∧ w.contains k.pos = true := by
  rw [detect_eq] at hk
  obtain ⟨j, -, hk⟩ := List.mem_flatMap.1 ((removeDuplicated_sublist _).subset hk)
  obtain ⟨v, hv, hc⟩ := part_inside (answers_inside img width height) hk
  exact ⟨j, v, hv, hc⟩

/-- **More contrast loses no keypoint.**  When the contrast of the image is multiplied and its brightness changed,
without saturation, every position at which a new keypoint was found still has one, whatever is tracked. -/
theorem C208_more_contrast_partial (gain : Nat) (hg : 1 ≤ gain) (offset : Int) (img img' : Gray)
    (h : Adjusted gain offset img img') (width height : Nat) (disc : Pixel → Pixel → Bool) (tracked : List Pixel)
    (ht : tracked.length < 2 ^ 16) (order : List Nat) (ho : Schedule order) :
    ∀ k ∈ detect width height disc tracked (answers img width height) order,
      ∃ k' ∈ detect width height disc tracked (answers img' width height) order, k'.pos = k.pos := by
  intro k hk
  obtain ⟨i, w, hw, hc⟩ := mem_detect_in_window img disc tracked hk
  have hm := (detect_window_iff img disc tracked ht ho hw k).1 ⟨hk, hc⟩
  unfold detectInWindow at hm
  split_ifs at hm with hl
  · dsimp only at hm
    have e : (if (detectMasked w (allowed disc tracked) (fast (cut img w) w.width w.height 8)).length <
        perCell - tracksIn w tracked then
        detectMasked w (allowed disc tracked) (fast (cut img w) w.width w.height 8) else
        detectMasked w (allowed disc tracked) (fast (cut img w) w.width w.height 8)) =
        detectMasked w (allowed disc tracked) (fast (cut img w) w.width w.height 8) := ite_self _
    rw [e] at hm
    obtain ⟨r, hr, rfl⟩ := List.mem_map.1 hm
    obtain ⟨v, hv⟩ := window_adjusted hg (adjusted_cut h w) w.width w.height 8 (perCell - tracksIn w tracked) w
      (allowed disc tracked) (by omega) (by omega) (by omega) (p := r.pos) ⟨r.response, hr⟩
    refine ⟨w.toImage ⟨r.pos, v⟩, ?_, rfl⟩
    refine ((detect_window_iff img' disc tracked ht ho hw _).2 ?_).1
    unfold detectInWindow
    rw [if_pos hl]
    dsimp only
    rw [ite_self]
    exact List.mem_map_of_mem hv
  · simp at hm

/-- The answers of the detectors depend on the corners only. -/
theorem answers_congr {img img' : Gray}
    (hcut : ∀ (w : Window) t p, corner (cut img' w) t p = corner (cut img w) t p) (width height : Nat) :
    answers img' width height = answers img width height := by
  funext i b
  unfold answers
  cases (windows width height)[i]? with
  | none => rfl
  | some w =>
    dsimp only
    have hs : ∀ p, score (cut img' w) p = score (cut img w) p := by
      intro p
      unfold score
      congr 1
      funext t
      rw [hcut]
    unfold fast value
    simp only [hcut, hs]

/-- **The brightness does not matter**: an image that is uniformly brighter or darker, without saturation, gives the same
keypoints with the same strengths. -/
theorem C208_brightness (offset : Int) (img img' : Gray) (h : Adjusted 1 offset img img') (width height : Nat)
    (disc : Pixel → Pixel → Bool) (tracked : List Pixel) (order : List Nat) :
    detect width height disc tracked (answers img' width height) order =
      detect width height disc tracked (answers img width height) order := by
  rw [answers_congr fun w t p => ?_]
  rw [corner_adjusted le_rfl (adjusted_cut h w), Nat.div_one]

theorem corner_negative {img img' : Gray} (h : Negative img img') (t : Nat) (p : Pixel) :
    corner img' t p = corner img t p := by
  unfold corner
  congr 1
  funext s
  rw [Bool.or_comm]
  congr 1
  · congr 1
    funext i
    have e1 := h p
    have e2 : around img' p (s + i) = 255 - around img p (s + i) := h _
    rw [decide_eq_decide, e1, e2]
    omega
  · congr 1
    funext i
    have e1 := h p
    have e2 : around img' p (s + i) = 255 - around img p (s + i) := h _
    rw [decide_eq_decide, e1, e2]
    omega

/-- The negative of an image gives the same keypoints. -/
theorem C208_negative (img img' : Gray) (h : Negative img img') (width height : Nat) (disc : Pixel → Pixel → Bool)
    (tracked : List Pixel) (order : List Nat) :
    detect width height disc tracked (answers img' width height) order =
      detect width height disc tracked (answers img width height) order := by
  rw [answers_congr fun w t p => corner_negative (fun _ => h _) t p]

/-- **Less contrast loses keypoints**: the image of two dots, with half of its contrast, keeps one of the two, although
the other one still is the only dot around. -/
theorem C208_less_contrast_false : ∃ img img' : Gray, Adjusted 2 0 img img' ∧
    (detect 60 33 (fun a b => a == b) [] (answers img' 60 33) (List.range 9)).map (·.pos) = [⟨4, 4⟩, ⟨12, 4⟩] ∧
    (detect 60 33 (fun a b => a == b) [] (answers img 60 33) (List.range 9)).map (·.pos) = [⟨4, 4⟩] := by
  have e1 : ∀ im : Gray, answers im 60 33 = fun i b => match (windows 60 33)[i]? with
      | some w => fast (cut im w) w.width w.height (if b then 8 else 24)
      | none => [] := by
    intro im
    funext i b
    unfold answers
    rw [C206_thresholds_used.1, C206_thresholds_used.2]
    cases b <;> rfl
  refine ⟨fun p => if p = ⟨4, 4⟩ then 50 else if p = ⟨12, 4⟩ then 7 else 0,
    fun p => if p = ⟨4, 4⟩ then 100 else if p = ⟨12, 4⟩ then 14 else 0, ?_, ?_, ?_⟩
  · intro p
    dsimp only
    split_ifs <;> simp
  · rw [e1]
    decide +kernel
  · rw [e1]
    decide +kernel

end RgbdSlam.Fast.Brightness
