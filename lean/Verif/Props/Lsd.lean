import Verif.Lemmas.LsdWitness
/-
C147: the regions of aligned pixels found by the detector of line segments.
C148: the segments it returns.
-/
namespace RgbdSlam.Lsd

open Real

/-! ## C147 -/

/-- Which pixels have a direction, and which: those not of the last row or column where the difference of the pixels right
and left, and below and above, in the square of four pixels is large enough. The direction is along the edge: orthogonal to
this difference, with the bright side on the left of
who follows it on the screen. -/
theorem C147_directions (s : Setting) (hat : Spec.ExactAtan s.atan) (p : Px) :
    let right := s.pixel (p.1 + 1) p.2 + s.pixel (p.1 + 1) (p.2 + 1)
    let left := s.pixel p.1 p.2 + s.pixel p.1 (p.2 + 1)
    let below := s.pixel p.1 (p.2 + 1) + s.pixel (p.1 + 1) (p.2 + 1)
    let above := s.pixel p.1 p.2 + s.pixel (p.1 + 1) p.2
    ((s.angle threshold p).isSome ↔ p.1 + 1 < s.width ∧ p.2 + 1 < s.height ∧
      threshold < √((right - left) ^ 2 + (below - above) ^ 2) / 2) ∧
    ∀ a, s.angle threshold p = some a → 0 ≤ a ∧ a < 2 * π ∧
      ((right - left : ℤ) : ℝ) = √((right - left) ^ 2 + (below - above) ^ 2) * sin a ∧
      ((below - above : ℤ) : ℝ) = -√((right - left) ^ 2 + (below - above) ^ 2) * cos a := by
  intro right left below above
  have eg : s.gradient p = (right - left, below - above) := by
    simp only [Setting.gradient, right, left, below, above, Prod.mk.injEq]
    constructor <;> ring
  have en : ∀ u v : ℤ, √((u * u + v * v : ℤ) / 4) = √((u : ℝ) ^ 2 + (v : ℝ) ^ 2) / 2 := by
    intro u v
    rw [Real.sqrt_div' _ (by norm_num), show (4 : ℝ) = 2 ^ 2 by norm_num, Real.sqrt_sq (by norm_num)]
    push_cast
    rw [sq, sq]
  have hnorm : s.norm p = if p.1 + 1 < s.width ∧ p.2 + 1 < s.height then
      some (√(((right - left : ℤ) : ℝ) ^ 2 + ((below - above : ℤ) : ℝ) ^ 2) / 2) else none := by
    unfold Setting.norm
    rw [eg]
    dsimp only
    rw [en]
    simp [Setting.inner]
  have hangle : s.angle threshold p = if p.1 + 1 < s.width ∧ p.2 + 1 < s.height ∧
      threshold < √(((right - left : ℤ) : ℝ) ^ 2 + ((below - above : ℤ) : ℝ) ^ 2) / 2 then
      some (s.atan (right - left : ℤ) (-(below - above : ℤ)) * degree) else none := by
    unfold Setting.angle
    rw [hnorm, eg]
    by_cases h1 : p.1 + 1 < s.width ∧ p.2 + 1 < s.height
    · rw [if_pos h1]
      dsimp only
      by_cases h2 : threshold < √(((right - left : ℤ) : ℝ) ^ 2 + ((below - above : ℤ) : ℝ) ^ 2) / 2
      · rw [if_neg (not_le.2 h2), if_pos ⟨h1.1, h1.2, h2⟩]
      · rw [if_pos (not_lt.1 h2), if_neg (fun h => h2 h.2.2)]
    · rw [if_neg h1, if_neg (fun h => h1 ⟨h.1, h.2.1⟩)]
  push_cast at hangle
  constructor
  · rw [hangle]
    split_ifs with h <;> simp [h]
  · intro a ha
    rw [hangle] at ha
    split_ifs at ha
    rw [Option.some.injEq] at ha
    obtain ⟨h1, h2, r, hr, ex, ey⟩ := hat (right - left : ℝ) (-(below - above) : ℝ)
    change _ = r * cos (_ * degree) at ex
    change _ = r * sin (_ * degree) at ey
    change 0 ≤ _ * degree at h1
    change _ * degree < _ at h2
    rw [ha] at h1 h2 ex ey
    have hsq : √(((right : ℝ) - left) ^ 2 + ((below : ℝ) - above) ^ 2) = r := by
      have : ((right : ℝ) - left) ^ 2 + ((below : ℝ) - above) ^ 2 = r ^ 2 := by
        rw [ey, show ((below : ℝ) - above) = -(r * cos a) by linarith]
        linear_combination r ^ 2 * Real.sin_sq_add_cos_sq a
      rw [this, Real.sqrt_sq hr]
    refine ⟨h1, h2, ?_, ?_⟩
    · rw [hsq]; push_cast; exact ey
    · rw [hsq]; push_cast; linarith

/-- The search ends; `all` are the regions, and those that are kept are the ones of `minRegionSize` pixels or more, at
least two.  A region is made of different pixels with a direction, in one piece; two regions share no pixel; each pixel
with a direction is in one region. -/
theorem C147_regions (s : Setting) (order : List Px)
    (horder : ∀ p : Px, p ∈ order ↔ p.1 + 1 < s.width ∧ p.2 + 1 < s.height) (fuel : ℕ) (hf : s.width * s.height < fuel) :
    ∃ all kept : List (Region Mean), s.regions fuel order = .ok kept ∧
      kept = all.filter (fun g => decide (minRegionSize s.width s.height ≤ g.points.length)) ∧
      (∀ g ∈ kept, 2 ≤ g.points.length) ∧
      (∀ g ∈ all, g.points.Nodup ∧ Spec.InOnePiece g.points) ∧
      (all.Pairwise fun a b => ∀ p, p ∈ a.points → p ∉ b.points) ∧
      ∀ p, (∃ g ∈ all, p ∈ g.points) ↔ (s.angle threshold p).isSome := by
  obtain ⟨all, sp, e⟩ := regions_run s fuel hf order horder
  refine ⟨all, _, e, rfl, ?_, ?_, sp.apart, ?_⟩
  · intro g hg
    exact (kept_ok s order horder all sp g hg).2.2
  · intro g hg
    obtain ⟨u, q, -, -, -, h⟩ := sp.each g hg
    exact ⟨h.nodup, grown_one_piece _ _ _ _ h⟩
  · intro p
    constructor
    · rintro ⟨g, hg, hp⟩
      obtain ⟨u, q, -, hq, -, h⟩ := sp.each g hg
      exact Option.isSome_iff_exists.2 (grown_defined s u q g h hq p hp)
    · intro hp
      obtain ⟨a, ha⟩ := Option.isSome_iff_exists.1 hp
      obtain ⟨n, hn, -⟩ := angle_some_norm s _ p a ha
      rcases sp.cover p ((horder p).2 (norm_some_inner s p n hn)) hp with h | h
      · simp at h
      · exact h

/-- A pixel joins a region when its direction is at most 22.5 degrees away from the mean direction of the pixels that
joined before, up to full turns. -/
theorem C147_aligned (s : Setting) (hat : Spec.ExactAtan s.atan) (order : List Px)
    (horder : ∀ p : Px, p ∈ order ↔ p.1 + 1 < s.width ∧ p.2 + 1 < s.height) (fuel : ℕ) (hf : s.width * s.height < fuel)
    (kept : List (Region Mean)) (hk : s.regions fuel order = .ok kept) :
    ∀ g ∈ kept, ∀ before p after, before ≠ [] → g.points = before ++ p :: after →
      ∃ a mean, s.angle threshold p = some a ∧
        Spec.Points mean (before.map fun q => cos ((s.angle threshold q).getD 0)).sum
          (before.map fun q => sin ((s.angle threshold q).getD 0)).sum ∧
        Spec.Near (π / 8) mean a := by
  obtain ⟨all, sp, e⟩ := regions_run s fuel hf order horder
  rw [e, Outcome.ok.injEq] at hk
  intro g hg before p after hb hp
  rw [← hk, List.mem_filter] at hg
  obtain ⟨u, q, -, hq, -, h⟩ := sp.each g hg.1
  rw [← tolerance_eq]
  exact grown_near s hat u q g h hq before after p hb hp

/-! ## C148 -/

/-- Whatever the image and the arc tangent, the detection returns, without a failing assertion nor reading gradients that
were not written: one segment for each region that is kept. -/
theorem C148_returns (s : Setting) (scale : ℝ) (order : List Px)
    (horder : ∀ p : Px, p ∈ order ↔ p.1 + 1 < s.width ∧ p.2 + 1 < s.height) (fuel : ℕ) (hf : s.width * s.height < fuel) :
    ∃ kept segments, s.regions fuel order = .ok kept ∧ s.detect scale fuel order = .ok segments ∧
      segments.length = kept.length := by
  obtain ⟨all, sp, e⟩ := regions_run s fuel hf order horder
  obtain ⟨l, hl, hf2⟩ := segments_ok s scale _ (kept_ok s order horder all sp)
  refine ⟨_, l, e, ?_, hf2.length_eq.symm⟩
  unfold Setting.detect
  rw [e, Outcome.bind_ok, hl]

/-- The segment of a region: scaled from ends such that each pixel of the region is beside the segment, `width` away at
most, each end is the projection of a pixel, and no line is closer to the pixels than that of the segment, for the sum of the
squares of the distances weighted by the gradients. -/
theorem C148_segments (s : Setting) (hat : Spec.ExactAtan s.atan) (scale : ℝ) (order : List Px)
    (horder : ∀ p : Px, p ∈ order ↔ p.1 + 1 < s.width ∧ p.2 + 1 < s.height) (fuel : ℕ) (hf : s.width * s.height < fuel)
    (kept : List (Region Mean)) (hk : s.regions fuel order = .ok kept) (segments : List Segment)
    (hs : s.detect scale fuel order = .ok segments) :
    List.Forall₂ (fun g seg => ∃ x1 y1 x2 y2 theta width : ℝ,
      seg = { x1 := (x1 + 1 / 2) / scale, y1 := (y1 + 1 / 2) / scale
              x2 := (x2 + 1 / 2) / scale, y2 := (y2 + 1 / 2) / scale } ∧
      1 ≤ width ∧
      (∀ p ∈ g.points, Spec.Beside width (x1, y1) (x2, y2) ((p.1 : ℝ), (p.2 : ℝ)) theta) ∧
      (∃ p ∈ g.points, ((p.1 : ℝ) - x1) * cos theta + ((p.2 : ℝ) - y1) * sin theta = 0) ∧
      (∃ p ∈ g.points, ((p.1 : ℝ) - x2) * cos theta + ((p.2 : ℝ) - y2) * sin theta = 0) ∧
      ∀ u v phi : ℝ,
        Spec.deviation (g.points.map fun p => ((p.1 : ℝ), (p.2 : ℝ), (s.norm p).getD 0)) x1 y1 theta ≤
          Spec.deviation (g.points.map fun p => ((p.1 : ℝ), (p.2 : ℝ), (s.norm p).getD 0)) u v phi) kept segments := by
  obtain ⟨all, sp, e⟩ := regions_run s fuel hf order horder
  have hok := kept_ok s order horder all sp
  obtain ⟨l, hl, hf2⟩ := segments_ok s scale _ hok
  have hd : s.detect scale fuel order = .ok l := by
    unfold Setting.detect
    rw [e, Outcome.bind_ok, hl]
  rw [hd, Outcome.ok.injEq] at hs
  rw [e, Outcome.ok.injEq] at hk
  subst hs
  subst hk
  refine (List.forall₂_iff_get.2 ⟨hf2.length_eq, ?_⟩)
  intro i h1 h2
  obtain ⟨r, hr, hseg⟩ := (List.forall₂_iff_get.1 hf2).2 i h1 h2
  obtain ⟨g1, g2, g3⟩ := hok _ (List.get_mem _ ⟨i, h1⟩)
  generalize (List.get _ ⟨i, h1⟩ : Region Mean) = g at hr g1 g2 g3 ⊢
  obtain ⟨-, hne, hw, -⟩ := rect_of_region s g.points g.angle.theta g1 g2 g3
  obtain ⟨a1, a2, a3, a4, a5, ⟨t, t1, t2⟩, a7, a8⟩ := regionToRect_spec _ _ _ _ r hr hne hw
  have hpts : (g.points.map fun p => ((p.1 : ℝ), (p.2 : ℝ), (s.norm p).getD 0)) =
      (weights s g.points).map Weighted.point := by
    unfold weights
    rw [List.map_map]
    rfl
  refine ⟨r.x1, r.y1, r.x2, r.y2, r.theta, r.width, hseg, a1, ?_, ?_, ?_, ?_⟩
  · intro p hp
    exact a2 { x := p.1, y := p.2, weight := (s.norm p).getD 0 } (List.mem_map.2 ⟨p, hp, rfl⟩)
  · obtain ⟨w, hw1, hw2⟩ := a3
    obtain ⟨p, hp, rfl⟩ := List.mem_map.1 hw1
    exact ⟨p, hp, hw2⟩
  · obtain ⟨w, hw1, hw2⟩ := a4
    obtain ⟨p, hp, rfl⟩ := List.mem_map.1 hw1
    exact ⟨p, hp, hw2⟩
  · intro u v phi
    rw [hpts]
    have h3 := sum_weights_pos _ hne hw
    have e1 : Spec.deviation ((weights s g.points).map Weighted.point) r.x1 r.y1 r.theta =
        Spec.deviation ((weights s g.points).map Weighted.point) r.x r.y r.theta := by
      rw [deviation_shift _ r.x r.y r.x1 r.y1 r.theta a7 a8, t1, t2]
      ring
    have e2 : Spec.deviation ((weights s g.points).map Weighted.point) r.x r.y r.theta =
        Spec.deviation ((weights s g.points).map Weighted.point) r.x r.y (axis s.atan (weights s g.points) r.x r.y) := by
      rw [a5]
      split_ifs
      · exact deviation_flip _ _ _ _
      · rfl
    have e3 := axis_min s.atan hat (weights s g.points) hw r.x r.y phi
    rw [e1, e2, deviation_shift _ r.x r.y u v phi a7 a8]
    have := mul_nonneg h3.le (sq_nonneg (-(r.x - u) * sin phi + (r.y - v) * cos phi))
    linarith

/-- The orders that `std::sort` can give: each pixel but those of the last row and column, once, and by decreasing
gradient. -/
def Sorted (s : Setting) (order : List Px) : Prop :=
  (∀ p : Px, p ∈ order ↔ p.1 + 1 < s.width ∧ p.2 + 1 < s.height) ∧ order.Nodup ∧
    order.Pairwise fun p q => ∀ a b, s.norm p = some a → s.norm q = some b → b ≤ a

/-- A ramp along the diagonal, of seven pixels by two. -/
noncomputable def ramp : Setting := diagonal 7 2 (fun n => 4 * n) exactAtan

/-- Its pixels with a gradient. -/
def rampOrder : List Px := [(0, 0), (1, 0), (2, 0), (3, 0), (4, 0), (5, 0)]

theorem ramp_step (n : ℕ) : (0 : ℤ) ≤ 4 * ((n + 2 : ℕ) : ℤ) - 4 * (n : ℤ) := by push_cast; linarith

theorem ramp_sorted : Sorted ramp rampOrder := by
  refine ⟨?_, by decide, ?_⟩
  · rintro ⟨x, y⟩
    change _ ↔ x + 1 < 7 ∧ y + 1 < 2
    simp only [rampOrder, List.mem_cons, Prod.mk.injEq, List.not_mem_nil, or_false]
    omega
  · rw [List.pairwise_iff_get]
    intro i j _ a b ha hb
    unfold ramp at ha hb
    rw [diagonal_norm 7 2 _ exactAtan ramp_step] at ha hb
    split_ifs at ha hb
    rw [Option.some.injEq] at ha hb
    rw [← ha, ← hb]
    push_cast
    linarith

theorem ramp_regions : ∃ g, ramp.regions 15 rampOrder = .ok [g] ∧ g.points = rampOrder ∧ g.angle.theta = 3 * π / 4 := by
  refine diagonal_regions 7 2 (fun n => 4 * n) exactAtan exactAtan_exact ramp_step 15 rampOrder rampOrder ?_ ?_
  · decide +kernel
  · exact minRegionSize_le 7 2 6 (by norm_num) (by norm_num) (by norm_num)

/-- `angle_diff` when the difference is already within half a turn. -/
theorem angleDiff_of_mem (a b : ℝ) (h1 : -π < a - b) (h2 : a - b ≤ π) : angleDiff a b = |a - b| := by
  unfold angleDiff
  rw [(toIocMod_eq_self Real.two_pi_pos).2]
  exact ⟨h1, by linarith⟩

/-- The segment does not always go the way of the pixels: the line of pixels of the ramp goes from left to right, when
the directions of all its pixels go left and down. -/
theorem C148_direction_false : ¬ ∀ (s : Setting), Spec.ExactAtan s.atan → ∀ order : List Px, Sorted s order →
    ∀ (fuel : ℕ), s.width * s.height < fuel → ∀ (kept : List (Region Mean)) (segments : List Segment),
      s.regions fuel order = .ok kept → s.detect (3 / 10) fuel order = .ok segments →
      List.Forall₂ (fun g seg => ∀ mean, Spec.Points mean
          (g.points.map fun q => cos ((s.angle threshold q).getD 0)).sum
          (g.points.map fun q => sin ((s.angle threshold q).getD 0)).sum →
        0 ≤ (seg.x2 - seg.x1) * cos mean + (seg.y2 - seg.y1) * sin mean) kept segments := by
  intro h
  have hpi := Real.pi_pos
  have hc : cos (3 * π / 4) = -(√2 / 2) := by
    rw [show 3 * π / 4 = π - π / 4 by ring, Real.cos_pi_sub, Real.cos_pi_div_four]
  have hs : sin (3 * π / 4) = √2 / 2 := by
    rw [show 3 * π / 4 = π - π / 4 by ring, Real.sin_pi_sub, Real.sin_pi_div_four]
  have hq : 0 < √2 := Real.sqrt_pos.2 (by norm_num)
  obtain ⟨g, hg, hp, ht⟩ := ramp_regions
  have hord := ramp_sorted
  obtain ⟨kept, segs, e1, e2, e3⟩ := C148_returns ramp (3 / 10) rampOrder hord.1 15 (by decide)
  rw [hg, Outcome.ok.injEq] at e1
  subst e1
  have hF := h ramp exactAtan_exact rampOrder hord 15 (by decide) _ segs hg e2
  -- the rectangle
  have hang : ∀ p ∈ g.points, ramp.angle threshold p = some (3 * π / 4) := by
    intro p hpm
    unfold ramp
    rw [diagonal_angle 7 2 _ exactAtan exactAtan_exact ramp_step, if_pos]
    rw [hp] at hpm
    have := (hord.1 p).1 hpm
    change p.1 + 1 < 7 ∧ p.2 + 1 < 2 at this
    refine ⟨this.1, this.2, ?_⟩
    push_cast
    linarith
  obtain ⟨l, hl, hF2⟩ := segments_ok ramp (3 / 10) [g] (by
    intro g' hg'
    rw [List.mem_singleton] at hg'
    subst hg'
    refine ⟨fun p hpm => ⟨_, hang p hpm⟩, ?_, ?_⟩
    · rw [hp]; decide
    · rw [hp]; decide)
  have hd : ramp.detect (3 / 10) 15 rampOrder = .ok l := by
    unfold Setting.detect
    rw [hg, Outcome.bind_ok, hl]
  rw [hd, Outcome.ok.injEq] at e2
  subst e2
  match l, hF, hF2 with
  | [seg], hF, hF2 =>
    rw [List.forall₂_cons] at hF hF2
    obtain ⟨r, hr, hseg⟩ := hF2.1
    have hwt : weights ramp g.points = rampOrder.map fun p => { x := p.1, y := p.2, weight := 8 * (√2 / 2) } := by
      rw [hp]
      unfold ramp
      rw [diagonal_weights 7 2 _ exactAtan ramp_step rampOrder (fun p hpm => (hord.1 p).1 hpm)]
      apply List.map_congr_left
      intro p _
      push_cast
      congr 1
      ring
    obtain ⟨-, hne, hwp, -⟩ := rect_of_region ramp g.points g.angle.theta (fun p hpm => ⟨_, hang p hpm⟩)
      (by rw [hp]; decide) (by rw [hp]; decide)
    obtain ⟨-, a2, -, -, a5, ⟨t, t1, t2⟩, a7, a8⟩ := regionToRect_spec _ _ _ _ r hr hne hwp
    rw [hwt] at a2 a5 a7 a8
    simp only [rampOrder, List.map_cons, List.map_nil, List.sum_cons, List.sum_nil] at a7 a8
    push_cast at a7 a8
    have hx : r.x = 5 / 2 := by
      have : (48 * (√2 / 2)) * r.x = (48 * (√2 / 2)) * (5 / 2) := by linarith
      exact mul_left_cancel₀ (by positivity) this
    have hy : r.y = 0 := by
      have : (48 * (√2 / 2)) * r.y = (48 * (√2 / 2)) * 0 := by linarith
      exact mul_left_cancel₀ (by positivity) this
    have hax : axis ramp.atan (rampOrder.map fun p => { x := p.1, y := p.2, weight := 8 * (√2 / 2) }) r.x r.y = π := by
      unfold axis
      have hin : inertia (rampOrder.map fun p => { x := p.1, y := p.2, weight := 8 * (√2 / 2) }) r.x r.y =
          (0, 70 * √2, 0) := by
        rw [inertia_eq, hx, hy]
        simp only [rampOrder, List.map_cons, List.map_nil, List.sum_cons, List.sum_nil, Prod.mk.injEq]
        push_cast
        refine ⟨by ring, by ring, by ring⟩
      rw [hin]
      dsimp only
      rw [show (0 - 70 * √2) * (0 - 70 * √2) + 4 * 0 * 0 = (70 * √2) * (70 * √2) by ring,
        Real.sqrt_mul_self (by positivity), if_neg (by rw [abs_zero, not_lt]; positivity)]
      refine points_unique (exactAtan_exact _ _) (r := 70 * √2) (by positivity) ⟨hpi.le, by linarith⟩ ?_ ?_
      · rw [Real.cos_pi]; ring
      · rw [Real.sin_pi]; ring
    rw [hax, ht, angleDiff_of_mem _ _ (by linarith) (by linarith), abs_of_pos (by linarith),
      if_pos (by rw [tolerance_eq]; linarith)] at a5
    have hcos : cos r.theta = 1 := by rw [a5, show π + π = 2 * π by ring, Real.cos_two_pi]
    have hsin : sin r.theta = 0 := by rw [a5, show π + π = 2 * π by ring, Real.sin_two_pi]
    obtain ⟨u, v, -, b1, b2, len, b3, b4, b5, b6⟩ := a2 { x := 0, y := 0, weight := 8 * (√2 / 2) } (by simp [rampOrder])
    obtain ⟨u', v', -, c1, c2, len', c3, c4, c5, c6⟩ := a2 { x := 5, y := 0, weight := 8 * (√2 / 2) } (by simp [rampOrder])
    dsimp only at b1 b2 b5 b6 c1 c2 c5 c6
    simp only [hcos, hsin] at b1 b5 b6 c1 c5
    have hmean := hF.1 (3 * π / 4) ⟨by positivity, by linarith, 6, by norm_num, by
      have : (g.points.map fun q => cos ((ramp.angle threshold q).getD 0)) = g.points.map fun _ => cos (3 * π / 4) := by
        apply List.map_congr_left
        intro q hq'
        rw [hang q hq', Option.getD_some]
      rw [this, hp]
      simp only [rampOrder, List.map_cons, List.map_nil, List.sum_cons, List.sum_nil]
      ring, by
      have : (g.points.map fun q => sin ((ramp.angle threshold q).getD 0)) = g.points.map fun _ => sin (3 * π / 4) := by
        apply List.map_congr_left
        intro q hq'
        rw [hang q hq', Option.getD_some]
      rw [this, hp]
      simp only [rampOrder, List.map_cons, List.map_nil, List.sum_cons, List.sum_nil]
      ring⟩
    rw [hseg, hc, hs] at hmean
    simp only [Rect.segment] at hmean
    have hx1 : r.x1 ≤ 0 := by linarith
    have hx2 : 5 ≤ r.x2 := by linarith
    have hyy : r.y2 = r.y1 := by linarith
    rw [hyy] at hmean
    have e4 : (((r.x2 + 1 / 2) / (3 / 10) - (r.x1 + 1 / 2) / (3 / 10)) * -(√2 / 2) +
        ((r.y1 + 1 / 2) / (3 / 10) - (r.y1 + 1 / 2) / (3 / 10)) * (√2 / 2)) = -((r.x2 - r.x1) * (10 / 3) * (√2 / 2)) := by
      ring
    rw [e4] at hmean
    have : 0 < (r.x2 - r.x1) * (10 / 3) * (√2 / 2) := by
      have : 0 < r.x2 - r.x1 := by linarith
      positivity
    linarith

/-- `angle_diff` is the distance up to full turns. -/
theorem near_of_angleDiff (t a b : ℝ) (h : angleDiff a b ≤ t) : Spec.Near t a b := by
  unfold angleDiff at h
  refine ⟨toIocDiv Real.two_pi_pos (-π) (a - b), ?_⟩
  have e : a - b - toIocDiv Real.two_pi_pos (-π) (a - b) • (2 * π) = toIocMod Real.two_pi_pos (-π) (a - b) :=
    self_sub_toIocDiv_zsmul _ _ _
  rw [zsmul_eq_mul] at e
  rw [e]
  exact h

theorem angleDiff_le_of_near (t a b : ℝ) (ht : t < π) (h : Spec.Near t a b) : angleDiff a b ≤ t := by
  obtain ⟨k, hk⟩ := h
  have hk' := abs_le.1 hk
  unfold angleDiff
  have e : toIocMod Real.two_pi_pos (-π) (a - b) = a - b - k * (2 * π) := by
    rw [toIocMod_eq_iff]
    refine ⟨⟨by linarith, by linarith⟩, k, ?_⟩
    rw [zsmul_eq_mul]
    ring
  rw [e]
  exact hk

/-- What does hold: when the segment is along the mean direction of its pixels, or against, up to 22.5 degrees, it goes
along. -/
theorem C148_direction_partial (s : Setting) (hat : Spec.ExactAtan s.atan) (scale : ℝ) (hscale : 0 < scale)
    (order : List Px) (horder : ∀ p : Px, p ∈ order ↔ p.1 + 1 < s.width ∧ p.2 + 1 < s.height) (fuel : ℕ)
    (hf : s.width * s.height < fuel) (kept : List (Region Mean)) (hk : s.regions fuel order = .ok kept)
    (segments : List Segment) (hs : s.detect scale fuel order = .ok segments) :
    List.Forall₂ (fun g seg => ∃ mean theta len : ℝ,
      Spec.Points mean (g.points.map fun q => cos ((s.angle threshold q).getD 0)).sum
          (g.points.map fun q => sin ((s.angle threshold q).getD 0)).sum ∧
      0 ≤ len ∧ seg.x2 - seg.x1 = len * cos theta ∧ seg.y2 - seg.y1 = len * sin theta ∧
      ((∃ k : ℤ, |theta - mean - k * π| ≤ π / 8) → Spec.Near (π / 8) theta mean)) kept segments := by
  obtain ⟨all, sp, e⟩ := regions_run s fuel hf order horder
  have hok := kept_ok s order horder all sp
  obtain ⟨l, hl, hf2⟩ := segments_ok s scale _ hok
  have hd : s.detect scale fuel order = .ok l := by
    unfold Setting.detect
    rw [e, Outcome.bind_ok, hl]
  rw [hd, Outcome.ok.injEq] at hs
  rw [e, Outcome.ok.injEq] at hk
  subst hs
  subst hk
  refine (List.forall₂_iff_get.2 ⟨hf2.length_eq, ?_⟩)
  intro i h1 h2
  obtain ⟨r, hr, hseg⟩ := (List.forall₂_iff_get.1 hf2).2 i h1 h2
  have hmem := List.get_mem _ ⟨i, h1⟩
  generalize (List.get _ ⟨i, h1⟩ : Region Mean) = g at hr hmem ⊢
  obtain ⟨g1, g2, g3⟩ := hok _ hmem
  rw [List.mem_filter] at hmem
  obtain ⟨u, q, -, hq, -, hgr⟩ := sp.each g hmem.1
  obtain ⟨a0, ha0⟩ := Option.isSome_iff_exists.1 hq
  obtain ⟨lg, eg1, eg2, -⟩ := hgr.head
  obtain ⟨m1, m2, m3⟩ := mean_fold s hat q a0 ha0 lg
  rw [← eg2] at m1 m2 m3
  rw [← eg1] at m1 m2
  obtain ⟨-, hne, hw, -⟩ := rect_of_region s g.points g.angle.theta g1 g2 g3
  obtain ⟨-, a2, -, -, a5, -, -, -⟩ := regionToRect_spec _ _ _ _ r hr hne hw
  obtain ⟨p0, hp0⟩ := List.exists_mem_of_ne_nil _ hne
  obtain ⟨u', v', -, -, -, len, b3, b4, b5, b6⟩ := a2 p0 hp0
  dsimp only at b5 b6
  refine ⟨g.angle.theta, r.theta, len / scale, ?_, div_nonneg (by linarith) hscale.le, ?_, ?_, ?_⟩
  · rw [← m1, ← m2]; exact m3
  · rw [hseg]; simp only [Rect.segment]; rw [b5]; field_simp; ring
  · rw [hseg]; simp only [Rect.segment]; rw [b6]; field_simp; ring
  · rintro ⟨k, hk⟩
    have hpi := Real.pi_pos
    rw [tolerance_eq] at a5
    split_ifs at a5 with hflip
    · -- turned: the axis was against
      rcases Int.even_or_odd k with ⟨j, hj⟩ | ⟨j, hj⟩
      · refine ⟨j, ?_⟩
        rw [hj] at hk
        push_cast at hk
        rwa [show r.theta - g.angle.theta - j * (2 * π) = r.theta - g.angle.theta - (j + j) * π by ring]
      · exfalso
        apply absurd hflip
        rw [not_lt]
        apply angleDiff_le_of_near _ _ _ (by linarith)
        refine ⟨j, ?_⟩
        rw [hj] at hk
        push_cast at hk
        have : axis s.atan (weights s g.points) r.x r.y - g.angle.theta - j * (2 * π) =
            r.theta - g.angle.theta - (2 * j + 1) * π := by rw [a5]; ring
        rwa [this]
    · rw [a5]
      exact near_of_angleDiff _ _ _ (not_lt.1 hflip)

/-- The ramp is an image of the theorems above: one region of six pixels, one segment. -/
example : Spec.ExactAtan ramp.atan ∧ Sorted ramp rampOrder ∧ ramp.width * ramp.height < 15 ∧
    (∃ g, ramp.regions 15 rampOrder = .ok [g] ∧ g.points.length = 6) ∧
    ∃ seg, ramp.detect (3 / 10) 15 rampOrder = .ok [seg] := by
  obtain ⟨g, hg, hp, -⟩ := ramp_regions
  obtain ⟨kept, segs, e1, e2, e3⟩ := C148_returns ramp (3 / 10) rampOrder ramp_sorted.1 15 (by decide)
  rw [hg, Outcome.ok.injEq] at e1
  subst e1
  refine ⟨exactAtan_exact, ramp_sorted, by decide, ⟨g, hg, by rw [hp]; rfl⟩, ?_⟩
  match segs, e3 with
  | [seg], _ => exact ⟨seg, e2⟩

end RgbdSlam.Lsd
