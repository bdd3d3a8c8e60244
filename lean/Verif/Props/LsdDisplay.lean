import Mathlib.Data.List.GetD
import Mathlib.Tactic.NormNum.GCD
import Verif.Props.Lsd
/-
C149: the display of the segments reads the depth at their ends.
-/
namespace RgbdSlam.Lsd

open Real

/-! ## Quarters -/

theorem cvRound_quarter (q r : ℤ) (hr : 0 ≤ r ∧ r < 4) (u : ℤ) (hu : u = 4 * q + r) :
    cvRound (1 / 4 * (u : ℝ)) = if r ≤ 1 then q else if r = 2 then (if Even q then q else q + 1) else q + 1 := by
  have e : (1 / 4 * (u : ℝ)) = (q : ℝ) + (r : ℝ) / 4 := by rw [hu]; push_cast; ring
  obtain ⟨h0, h4⟩ := hr
  have h0' : (0 : ℝ) ≤ r := by exact_mod_cast h0
  have h4' : (r : ℝ) < 4 := by exact_mod_cast h4
  have hfl : ⌊(q : ℝ) + (r : ℝ) / 4⌋ = q := by
    rw [Int.floor_eq_iff]
    constructor <;> linarith
  have hfr : Int.fract ((q : ℝ) + (r : ℝ) / 4) = (r : ℝ) / 4 := by
    rw [Int.fract, hfl]; ring
  rw [e]
  unfold cvRound
  rw [hfr, hfl]
  have hcases : r = 0 ∨ r = 1 ∨ r = 2 ∨ r = 3 := by omega
  rcases hcases with rfl | rfl | rfl | rfl <;> norm_num

theorem cvRound_three_quarters (q r : ℤ) (hr : 0 ≤ r ∧ r < 4) (u : ℤ) (hu : u = 4 * q + r) :
    cvRound (3 / 4 * (u : ℝ)) = if r = 0 then 3 * q else if r = 1 then 3 * q + 1 else
      if r = 2 then (if Even (3 * q + 1) then 3 * q + 1 else 3 * q + 2) else 3 * q + 2 := by
  have e : (3 / 4 * (u : ℝ)) = ((3 * q : ℤ) : ℝ) + 3 * (r : ℝ) / 4 := by rw [hu]; push_cast; ring
  have hcases : r = 0 ∨ r = 1 ∨ r = 2 ∨ r = 3 := by omega
  have hfl : ∀ (a n : ℤ) (f : ℝ), 0 ≤ f → f < 1 → ⌊(a : ℝ) + n + f⌋ = a + n := by
    intro a n f h1 h2
    rw [Int.floor_eq_iff]
    push_cast
    constructor <;> linarith
  have hfr : ∀ (a n : ℤ) (f : ℝ), 0 ≤ f → f < 1 → Int.fract ((a : ℝ) + n + f) = f := by
    intro a n f h1 h2
    rw [Int.fract, hfl a n f h1 h2]
    push_cast
    ring
  rw [e]
  generalize 3 * q = a
  unfold cvRound
  rcases hcases with rfl | rfl | rfl | rfl
  · have e2 : (a : ℝ) + 3 * ((0 : ℤ) : ℝ) / 4 = (a : ℝ) + (0 : ℤ) + 0 := by push_cast; ring
    rw [e2, hfr a 0 0 (by norm_num) (by norm_num), hfl a 0 0 (by norm_num) (by norm_num)]
    norm_num
  · have e2 : (a : ℝ) + 3 * ((1 : ℤ) : ℝ) / 4 = (a : ℝ) + (0 : ℤ) + 3 / 4 := by push_cast; ring
    rw [e2, hfr a 0 (3 / 4) (by norm_num) (by norm_num), hfl a 0 (3 / 4) (by norm_num) (by norm_num)]
    norm_num
  · have e2 : (a : ℝ) + 3 * ((2 : ℤ) : ℝ) / 4 = (a : ℝ) + (1 : ℤ) + 1 / 2 := by push_cast; ring
    rw [e2, hfr a 1 (1 / 2) (by norm_num) (by norm_num), hfl a 1 (1 / 2) (by norm_num) (by norm_num)]
    norm_num
    split_ifs <;> omega
  · have e2 : (a : ℝ) + 3 * ((3 : ℤ) : ℝ) / 4 = (a : ℝ) + (2 : ℤ) + 1 / 4 := by push_cast; ring
    rw [e2, hfr a 2 (1 / 4) (by norm_num) (by norm_num), hfl a 2 (1 / 4) (by norm_num) (by norm_num)]
    norm_num

/-- A point a quarter of the way between two columns of the image is in the image. -/
theorem mix_bounds (u v m : ℤ) (hu : 0 ≤ u ∧ u < m) (hv : 0 ≤ v ∧ v < m) :
    0 ≤ cvRound (1 / 4 * (u : ℝ)) + cvRound (3 / 4 * (v : ℝ)) ∧
      cvRound (1 / 4 * (u : ℝ)) + cvRound (3 / 4 * (v : ℝ)) < m := by
  rw [cvRound_quarter (u / 4) (u % 4) ⟨by omega, by omega⟩ u (by omega),
    cvRound_three_quarters (v / 4) (v % 4) ⟨by omega, by omega⟩ v (by omega)]
  simp only [Int.even_iff]
  split_ifs <;> omega

/-! ## C149 -/

/-- When both ends, truncated, are in the image, the display of a segment reads the depth in the image only.  It
is drawn as having depth at its ends when both have one; when it is drawn as having none, an end and both quarters have none. -/
theorem C149_display_partial (width height : ℕ) (mask : ℤ → ℤ → Bool) (s : Segment)
    (h1 : 0 ≤ toInt s.x1 ∧ toInt s.x1 < width ∧ 0 ≤ toInt s.y1 ∧ toInt s.y1 < height)
    (h2 : 0 ≤ toInt s.x2 ∧ toInt s.x2 < width ∧ 0 ≤ toInt s.y2 ∧ toInt s.y2 < height) :
    ∃ c, colourOf width height mask s = .ok c ∧
      (c = .depthAtEnds ↔ mask (toInt s.x1) (toInt s.y1) = true ∧ mask (toInt s.x2) (toInt s.y2) = true) ∧
      (c = .noDepth → (mask (toInt s.x1) (toInt s.y1) = false ∨ mask (toInt s.x2) (toInt s.y2) = false) ∧
        mask (cvRound (1 / 4 * (toInt s.x1 : ℝ)) + cvRound (3 / 4 * (toInt s.x2 : ℝ)))
          (cvRound (1 / 4 * (toInt s.y1 : ℝ)) + cvRound (3 / 4 * (toInt s.y2 : ℝ))) = false ∧
        mask (cvRound (1 / 4 * (toInt s.x2 : ℝ)) + cvRound (3 / 4 * (toInt s.x1 : ℝ)))
          (cvRound (1 / 4 * (toInt s.y2 : ℝ)) + cvRound (3 / 4 * (toInt s.y1 : ℝ))) = false) := by
  have q1x := mix_bounds (toInt s.x1) (toInt s.x2) width ⟨h1.1, h1.2.1⟩ ⟨h2.1, h2.2.1⟩
  have q1y := mix_bounds (toInt s.y1) (toInt s.y2) height ⟨h1.2.2.1, h1.2.2.2⟩ ⟨h2.2.2.1, h2.2.2.2⟩
  have q2x := mix_bounds (toInt s.x2) (toInt s.x1) width ⟨h2.1, h2.2.1⟩ ⟨h1.1, h1.2.1⟩
  have q2y := mix_bounds (toInt s.y2) (toInt s.y1) height ⟨h2.2.2.1, h2.2.2.2⟩ ⟨h1.2.2.1, h1.2.2.2⟩
  unfold colourOf
  dsimp only
  unfold readMask
  rw [if_pos h1, if_pos h2, if_pos ⟨q1x.1, q1x.2, q1y.1, q1y.2⟩, if_pos ⟨q2x.1, q2x.2, q2y.1, q2y.2⟩]
  generalize mask (toInt s.x1) (toInt s.y1) = ma
  generalize mask (toInt s.x2) (toInt s.y2) = mb
  generalize mask (cvRound (1 / 4 * (toInt s.x1 : ℝ)) + cvRound (3 / 4 * (toInt s.x2 : ℝ))) _ = mc
  generalize mask (cvRound (1 / 4 * (toInt s.x2 : ℝ)) + cvRound (3 / 4 * (toInt s.x1 : ℝ))) _ = md
  cases ma <;> cases mb <;> cases mc <;> cases md <;> simp [Outcome.bind, Outcome.map]

/-- A segment inside the image. -/
example : ∃ c, colourOf 640 480 (fun _ _ => true) { x1 := 10, y1 := 20, x2 := 639.5, y2 := 0 } = .ok c := by
  have t1 : toInt 10 = 10 := by
    unfold toInt; rw [if_pos (by norm_num)]; exact_mod_cast Int.floor_intCast (R := ℝ) 10
  have t2 : toInt 20 = 20 := by
    unfold toInt; rw [if_pos (by norm_num)]; exact_mod_cast Int.floor_intCast (R := ℝ) 20
  have t3 : toInt 639.5 = 639 := by
    unfold toInt; rw [if_pos (by norm_num), Int.floor_eq_iff]; norm_num
  have t4 : toInt 0 = 0 := by
    unfold toInt; simp
  obtain ⟨c, hc, -⟩ := C149_display_partial 640 480 (fun _ _ => true) { x1 := 10, y1 := 20, x2 := 639.5, y2 := 0 }
    (by dsimp only; rw [t1, t2]; norm_num) (by dsimp only; rw [t3, t4]; norm_num)
  exact ⟨c, hc⟩

/-! ### A segment out of the image -/

/-- The brightness of the bands of the image. -/
def bands (n : ℕ) : ℤ := [0, 0, 0, 0, 7, 200, 20, 208, 30, 208, 30].getD n (if n % 2 = 0 then 30 else 208)

theorem bands_step (n : ℕ) : 0 ≤ bands (n + 2) - bands n := by
  by_cases h : n < 11
  · have : ∀ n : Fin 11, 0 ≤ bands (n + 2) - bands n := by decide
    exact this ⟨n, h⟩
  · unfold bands
    rw [List.getD_eq_default _ _ (by simp; omega), List.getD_eq_default _ _ (by simp; omega)]
    have : (n + 2) % 2 = n % 2 := by omega
    rw [this]
    simp

/-- An image of eight by eight pixels: bands along the diagonal. -/
noncomputable def bandsImage : Setting := diagonal 8 8 bands exactAtan

/-- The pixels x + y = t. -/
def band (t : ℕ) : List Px := ((List.range 7).filter fun x => decide (x ≤ t) && decide (t ≤ x + 6)).map fun x => (x, t - x)

/-- The pixels in an order of `std::sort`. -/
def bandsOrder : List Px := [3, 4, 6, 5, 2, 0, 1, 7, 8, 9, 10, 11, 12].flatMap band

/-- The pixels of the only region. -/
def bandsRegion : List Px :=
  [(0, 3), (1, 2), (1, 3), (0, 4), (1, 4), (2, 1), (2, 2), (2, 3), (2, 4), (0, 5), (1, 5), (3, 0), (3, 1), (3, 2),
    (3, 3), (0, 6), (4, 0), (4, 1), (4, 2), (5, 0), (5, 1), (6, 0)]

theorem bands_sorted : Sorted bandsImage bandsOrder := by
  refine ⟨?_, by decide +kernel, ?_⟩
  · rintro ⟨x, y⟩
    change _ ↔ x + 1 < 8 ∧ y + 1 < 8
    constructor
    · intro h
      have : ∀ p ∈ bandsOrder, p.1 + 1 < 8 ∧ p.2 + 1 < 8 := by decide +kernel
      exact this _ h
    · rintro ⟨hx, hy⟩
      have : ∀ (i : Fin 7) (j : Fin 7), ((i : ℕ), (j : ℕ)) ∈ bandsOrder := by decide +kernel
      exact this ⟨x, by omega⟩ ⟨y, by omega⟩
  · have hint : bandsOrder.Pairwise fun p q => bands (q.1 + q.2 + 2) - bands (q.1 + q.2) ≤
        bands (p.1 + p.2 + 2) - bands (p.1 + p.2) := by decide +kernel
    refine hint.imp ?_
    intro p q hpq a b ha hb
    unfold bandsImage at ha hb
    rw [diagonal_norm 8 8 _ exactAtan bands_step] at ha hb
    split_ifs at ha hb
    rw [Option.some.injEq] at ha hb
    rw [← ha, ← hb]
    have : ((bands (q.1 + q.2 + 2) - bands (q.1 + q.2) : ℤ) : ℝ) ≤ ((bands (p.1 + p.2 + 2) - bands (p.1 + p.2) : ℤ) : ℝ) := by
      exact_mod_cast hpq
    have h2 : 0 ≤ √2 / 2 := by positivity
    exact mul_le_mul_of_nonneg_right this h2

theorem bands_regions : ∃ g, bandsImage.regions 65 bandsOrder = .ok [g] ∧ g.points = bandsRegion ∧
    g.angle.theta = 3 * π / 4 := by
  refine diagonal_regions 8 8 bands exactAtan exactAtan_exact bands_step 65 bandsOrder bandsRegion ?_ ?_
  · decide +kernel
  · exact le_trans (minRegionSize_le 8 8 6 (by norm_num) (by norm_num) (by norm_num)) (by decide)

/-- The weights of the pixels, in units of √2 / 2. -/
theorem bands_weights (l : List Px) (hl : ∀ p ∈ l, p.1 + 1 < 8 ∧ p.2 + 1 < 8) : weights bandsImage l =
    l.map fun p => { x := p.1, y := p.2, weight := (bands (p.1 + p.2 + 2) - bands (p.1 + p.2) : ℤ) * (√2 / 2) } :=
  diagonal_weights 8 8 bands exactAtan bands_step l hl

/-- Sums over the region. -/
theorem bands_sum (c : ℕ → ℕ → ℝ) (l : List Px) :
    ((l.map fun p : Px => ({ x := p.1, y := p.2, weight := (bands (p.1 + p.2 + 2) - bands (p.1 + p.2) : ℤ) * (√2 / 2) }
      : Weighted)).map fun p => c 0 0 * p.weight + c 1 0 * (p.x * p.weight) + c 0 1 * (p.y * p.weight)
        + c 1 1 * (p.x * p.y * p.weight) + c 2 0 * (p.x * p.x * p.weight) + c 0 2 * (p.y * p.y * p.weight)).sum =
      (c 0 0 * ((l.map fun p => bands (p.1 + p.2 + 2) - bands (p.1 + p.2)).sum : ℤ)
        + c 1 0 * ((l.map fun p => (p.1 : ℤ) * (bands (p.1 + p.2 + 2) - bands (p.1 + p.2))).sum : ℤ)
        + c 0 1 * ((l.map fun p => (p.2 : ℤ) * (bands (p.1 + p.2 + 2) - bands (p.1 + p.2))).sum : ℤ)
        + c 1 1 * ((l.map fun p => (p.1 : ℤ) * p.2 * (bands (p.1 + p.2 + 2) - bands (p.1 + p.2))).sum : ℤ)
        + c 2 0 * ((l.map fun p => (p.1 : ℤ) * p.1 * (bands (p.1 + p.2 + 2) - bands (p.1 + p.2))).sum : ℤ)
        + c 0 2 * ((l.map fun p => (p.2 : ℤ) * p.2 * (bands (p.1 + p.2 + 2) - bands (p.1 + p.2))).sum : ℤ)) * (√2 / 2) := by
  induction l with
  | nil => simp
  | cons p l ih =>
    simp only [List.map_cons, List.sum_cons] at ih ⊢
    rw [ih]
    push_cast
    ring

/-- The sums of the region. -/
theorem bandsRegion_sums :
    (bandsRegion.map fun p => bands (p.1 + p.2 + 2) - bands (p.1 + p.2)).sum = 983 ∧
    (bandsRegion.map fun p => (p.1 : ℤ) * (bands (p.1 + p.2 + 2) - bands (p.1 + p.2))).sum = 1660 ∧
    (bandsRegion.map fun p => (p.2 : ℤ) * (bands (p.1 + p.2 + 2) - bands (p.1 + p.2))).sum = 1660 ∧
    (bandsRegion.map fun p => (p.1 : ℤ) * p.2 * (bands (p.1 + p.2 + 2) - bands (p.1 + p.2))).sum = 1440 ∧
    (bandsRegion.map fun p => (p.1 : ℤ) * p.1 * (bands (p.1 + p.2 + 2) - bands (p.1 + p.2))).sum = 4540 ∧
    (bandsRegion.map fun p => (p.2 : ℤ) * p.2 * (bands (p.1 + p.2 + 2) - bands (p.1 + p.2))).sum = 4540 := by
  decide +kernel

/-- The coefficients of a polynomial of degree two. -/
def coeffs (a b c d e f : ℝ) : ℕ → ℕ → ℝ
  | 0, 0 => a
  | 1, 0 => b
  | 0, 1 => c
  | 1, 1 => d
  | 2, 0 => e
  | _, _ => f

theorem bandsRegion_sum (F : Weighted → ℝ) (a b c d e f : ℝ)
    (hF : ∀ p, F p = a * p.weight + b * (p.x * p.weight) + c * (p.y * p.weight)
        + d * (p.x * p.y * p.weight) + e * (p.x * p.x * p.weight) + f * (p.y * p.y * p.weight)) :
    ((weights bandsImage bandsRegion).map F).sum =
      (a * 983 + b * 1660 + c * 1660 + d * 1440 + e * 4540 + f * 4540) * (√2 / 2) := by
  have h := bands_sum (coeffs a b c d e f) bandsRegion
  obtain ⟨e1, e2, e3, e4, e5, e6⟩ := bandsRegion_sums
  rw [e1, e2, e3, e4, e5, e6] at h
  rw [bands_weights bandsRegion (by decide +kernel)]
  rw [show F = fun p => a * p.weight + b * (p.x * p.weight) + c * (p.y * p.weight)
        + d * (p.x * p.y * p.weight) + e * (p.x * p.x * p.weight) + f * (p.y * p.y * p.weight) from funext hF]
  refine h.trans ?_
  simp only [coeffs]
  push_cast
  ring

/-- The segment of an image can end out of the image: that of the bands ends above the first row, and its display reads
the depth out of bounds, whatever the size of the displayed image. -/
theorem C149_display_false : ¬ ∀ (s : Setting), Spec.ExactAtan s.atan → ∀ order : List Px, Sorted s order →
    ∀ (fuel : ℕ), s.width * s.height < fuel → ∀ (segments : List Segment),
      s.detect (3 / 10) fuel order = .ok segments →
      ∃ width height, ∀ (mask : ℤ → ℤ → Bool), ∀ seg ∈ segments, ∃ c, colourOf width height mask seg = .ok c := by
  intro h
  have hpi := Real.pi_pos
  have hc : cos (3 * π / 4) = -(√2 / 2) := by
    rw [show 3 * π / 4 = π - π / 4 by ring, Real.cos_pi_sub, Real.cos_pi_div_four]
  have hs : sin (3 * π / 4) = √2 / 2 := by
    rw [show 3 * π / 4 = π - π / 4 by ring, Real.sin_pi_sub, Real.sin_pi_div_four]
  have hq : 0 < √2 := Real.sqrt_pos.2 (by norm_num)
  obtain ⟨g, hg, hp, ht⟩ := bands_regions
  have hord := bands_sorted
  have hang : ∀ p ∈ g.points, bandsImage.angle threshold p = some (3 * π / 4) := by
    intro p hpm
    unfold bandsImage
    rw [diagonal_angle 8 8 _ exactAtan exactAtan_exact bands_step, if_pos]
    rw [hp] at hpm
    have : ∀ p ∈ bandsRegion, p.1 + 1 < 8 ∧ p.2 + 1 < 8 ∧ 8 ≤ bands (p.1 + p.2 + 2) - bands (p.1 + p.2) := by
      decide +kernel
    exact this p hpm
  have hnd : g.points.Nodup := by rw [hp]; decide +kernel
  have hlen : 2 ≤ g.points.length := by rw [hp]; decide
  obtain ⟨l, hl, hF2⟩ := segments_ok bandsImage (3 / 10) [g] (by
    intro g' hg'
    rw [List.mem_singleton] at hg'
    subst hg'
    exact ⟨fun p hpm => ⟨_, hang p hpm⟩, hnd, hlen⟩)
  have hd : bandsImage.detect (3 / 10) 65 bandsOrder = .ok l := by
    unfold Setting.detect
    rw [hg, Outcome.bind_ok, hl]
  obtain ⟨width, height, hall⟩ := h bandsImage exactAtan_exact bandsOrder hord 65 (by decide) l hd
  match l, hF2, hall with
  | [seg], hF2, hall =>
    obtain ⟨c, hcol⟩ := hall (fun _ _ => true) seg (by simp)
    rw [List.forall₂_cons] at hF2
    obtain ⟨r, hr, hseg⟩ := hF2.1
    obtain ⟨-, hne, hwp, -⟩ := rect_of_region bandsImage g.points g.angle.theta (fun p hpm => ⟨_, hang p hpm⟩) hnd hlen
    obtain ⟨-, a2, -, -, a5, ⟨t, t1, t2⟩, a7, a8⟩ := regionToRect_spec _ _ _ _ r hr hne hwp
    rw [hp] at a2 a5 a7 a8
    rw [bandsRegion_sum _ 0 1 0 0 0 0 (fun p => by ring), bandsRegion_sum _ 1 0 0 0 0 0 (fun p => by ring)] at a7
    rw [bandsRegion_sum _ 0 0 1 0 0 0 (fun p => by ring), bandsRegion_sum _ 1 0 0 0 0 0 (fun p => by ring)] at a8
    have hx : r.x = 1660 / 983 := by
      have : (983 * (√2 / 2)) * r.x = (983 * (√2 / 2)) * (1660 / 983) := by linarith
      exact mul_left_cancel₀ (by positivity) this
    have hy : r.y = 1660 / 983 := by
      have : (983 * (√2 / 2)) * r.y = (983 * (√2 / 2)) * (1660 / 983) := by linarith
      exact mul_left_cancel₀ (by positivity) this
    have hin : inertia (weights bandsImage bandsRegion) r.x r.y =
        (1707220 / 983 * (√2 / 2), 1707220 / 983 * (√2 / 2), 1340080 / 983 * (√2 / 2)) := by
      rw [inertia_eq, hx, hy]
      simp only [Prod.mk.injEq]
      refine ⟨?_, ?_, ?_⟩
      · rw [bandsRegion_sum _ ((1660 / 983) ^ 2) 0 (-2 * (1660 / 983)) 0 0 1 (fun p => by ring)]
        ring
      · rw [bandsRegion_sum _ ((1660 / 983) ^ 2) (-2 * (1660 / 983)) 0 0 1 0 (fun p => by ring)]
        ring
      · rw [bandsRegion_sum _ ((1660 / 983) ^ 2) (-(1660 / 983)) (-(1660 / 983)) 1 0 0 (fun p => by ring)]
        ring
    have hax : axis bandsImage.atan (weights bandsImage bandsRegion) r.x r.y = 3 * π / 4 := by
      unfold axis
      rw [hin]
      dsimp only
      generalize hA : (1707220 / 983 * (√2 / 2) : ℝ) = A
      have hBpos : (0 : ℝ) < 1340080 / 983 * (√2 / 2) := by positivity
      generalize (1340080 / 983 * (√2 / 2) : ℝ) = B at hBpos
      rw [show (A - A) * (A - A) + 4 * B * B = (2 * B) * (2 * B) by ring, Real.sqrt_mul_self (by linarith),
        if_neg (lt_irrefl _), show 1 / 2 * (A + A - 2 * B) - A = -B by ring]
      exact diagonal_atan exactAtan exactAtan_exact B hBpos
    rw [hax, ht, angleDiff_of_mem _ _ (by linarith) (by linarith), sub_self, abs_zero,
      if_neg (by rw [not_lt]; exact tolerance_pos.le)] at a5
    rw [a5, hc] at t1
    rw [a5, hs] at t2
    have hmem : ({ x := 6, y := 0, weight := 10 * (√2 / 2) } : Weighted) ∈ weights bandsImage bandsRegion := by
      rw [bands_weights bandsRegion (by decide +kernel), List.mem_map]
      refine ⟨(6, 0), by decide, ?_⟩
      have : bands (6 + 0 + 2) - bands (6 + 0) = 10 := by decide
      simp only [this]
      norm_num
    obtain ⟨u, v, -, b1, b2, len, b3, -, -, -⟩ := a2 _ hmem
    dsimp only at b1 b2
    rw [a5, hc, hs] at b1 b2
    -- x1 - y1 ≥ 6 and x1 + y1 = 2 * 1660 / 983
    have h22 : √2 * √2 = 2 := Real.mul_self_sqrt (by norm_num)
    have hut : 0 ≤ u * √2 := by positivity
    have hy1 : r.y1 ≤ 1660 / 983 - 3 := by
      have e1 : r.x1 + r.y1 = 2 * (1660 / 983) := by linarith
      have e2 : r.x1 - r.y1 = 6 + u * √2 := by linarith
      linarith
    have hseg1 : seg.y1 ≤ -1 := by
      rw [hseg]
      simp only [Rect.segment]
      rw [div_le_iff₀ (by norm_num)]
      linarith
    have hneg : toInt seg.y1 < 0 := by
      unfold toInt
      rw [if_neg (by linarith)]
      have : ⌈seg.y1⌉ ≤ -1 := Int.ceil_le.2 (by push_cast; linarith)
      omega
    unfold colourOf at hcol
    dsimp only at hcol
    unfold readMask at hcol
    rw [if_neg (by omega)] at hcol
    simp [Outcome.bind] at hcol

end RgbdSlam.Lsd
