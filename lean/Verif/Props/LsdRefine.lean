import Verif.Props.Lsd
import Verif.Spec.LsdRefine
import Verif.Lemmas.LsdRefine
/-
C159: the segments found with the standard refinement.
-/
namespace RgbdSlam.Lsd

open Real

theorem rect_fits (s : Setting) (hat : Spec.ExactAtan s.atan) (l : List Px) (theta : ℝ)
    (hd : ∀ p ∈ l, ∃ a, s.angle threshold p = some a) (hn : l.Nodup) (hl : 2 ≤ l.length) (r : Rect)
    (hr : s.rectOf l theta = .ok r) :
    Spec.Fits (l.map fun p => ((p.1 : ℝ), (p.2 : ℝ), (s.norm p).getD 0)) (r.x1, r.y1) (r.x2, r.y2) r.theta r.width := by
  have hwt := (rect_of_region s l theta hd hn hl).1
  unfold Setting.rectOf at hr
  rw [hwt] at hr
  obtain ⟨-, hne, hw, -⟩ := rect_of_region s l theta hd hn hl
  obtain ⟨a1, a2, a3, a4, a5, ⟨t, t1, t2⟩, a7, a8⟩ := regionToRect_spec _ _ _ _ r hr hne hw
  have hpts : (l.map fun p => ((p.1 : ℝ), (p.2 : ℝ), (s.norm p).getD 0)) =
      (weights s l).map Weighted.point := by
    unfold weights
    rw [List.map_map]
    rfl
  unfold Spec.Fits
  refine ⟨a1, ?_, ?_, ?_, ?_⟩
  · intro q hq
    obtain ⟨p, hp, rfl⟩ := List.mem_map.1 hq
    exact a2 { x := p.1, y := p.2, weight := (s.norm p).getD 0 } (List.mem_map.2 ⟨p, hp, rfl⟩)
  · obtain ⟨w, hw1, hw2⟩ := a3
    obtain ⟨p, hp, rfl⟩ := List.mem_map.1 hw1
    exact ⟨_, List.mem_map.2 ⟨p, hp, rfl⟩, hw2⟩
  · obtain ⟨w, hw1, hw2⟩ := a4
    obtain ⟨p, hp, rfl⟩ := List.mem_map.1 hw1
    exact ⟨_, List.mem_map.2 ⟨p, hp, rfl⟩, hw2⟩
  · intro u v phi
    rw [hpts]
    have h3 := sum_weights_pos _ hne hw
    have e1 : Spec.deviation ((weights s l).map Weighted.point) r.x1 r.y1 r.theta =
        Spec.deviation ((weights s l).map Weighted.point) r.x r.y r.theta := by
      rw [deviation_shift _ r.x r.y r.x1 r.y1 r.theta a7 a8, t1, t2]
      ring
    have e2 : Spec.deviation ((weights s l).map Weighted.point) r.x r.y r.theta =
        Spec.deviation ((weights s l).map Weighted.point) r.x r.y (axis s.atan (weights s l) r.x r.y) := by
      rw [a5]
      split_ifs
      · exact deviation_flip _ _ _ _
      · rfl
    have e3 := axis_min s.atan hat (weights s l) hw r.x r.y phi
    rw [e1, e2, deviation_shift _ r.x r.y u v phi a7 a8]
    have := mul_nonneg h3.le (sq_nonneg (-(r.x - u) * sin phi + (r.y - v) * cos phi))
    linarith


theorem dense_area (n : ℕ) (r : Rect) (th : ℝ) (hw : 0 < r.width) (h : dense n r th = true) :
    th * (√((r.x2 - r.x1) ^ 2 + (r.y2 - r.y1) ^ 2) * r.width) ≤ n := by
  have hlen : r.length = √((r.x2 - r.x1) ^ 2 + (r.y2 - r.y1) ^ 2) := by
    unfold Rect.length distSq
    congr 1
    ring
  rw [← hlen]
  unfold dense at h
  split_ifs at h with h0
  · rw [h0, mul_zero]
    positivity
  · rw [decide_eq_true_iff] at h
    have hpos : 0 < r.length * r.width :=
      lt_of_le_of_ne (mul_nonneg (Real.sqrt_nonneg _) hw.le) (Ne.symm h0)
    rwa [le_div_iff₀ hpos] at h

/-- C159: with the standard refinement the detection returns, whatever the image, without a failing assertion. Each line
has a group of two pixels or more, of the image and with a clear gradient; the groups have no pixel in common. The segment
of the line is the best one of its group, in a rectangle with enough pixels: a part `th` of its area at least. -/
theorem C159_lines (s : Setting) (hat : Spec.ExactAtan s.atan) (scale th : ℝ) (order : List Px)
    (horder : ∀ p : Px, p ∈ order ↔ p.1 + 1 < s.width ∧ p.2 + 1 < s.height) :
    ∃ n lines, (∀ fuel, n ≤ fuel → s.detectRefined scale th fuel order = .ok lines) ∧
      (∀ x ∈ lines, x.1.Nodup ∧ 2 ≤ x.1.length ∧
        (∀ p ∈ x.1, p.1 < s.width ∧ p.2 < s.height ∧ (s.angle threshold p).isSome) ∧
        ∃ x1 y1 x2 y2 theta width : ℝ,
          x.2 = { x1 := (x1 + 1 / 2) / scale, y1 := (y1 + 1 / 2) / scale
                  x2 := (x2 + 1 / 2) / scale, y2 := (y2 + 1 / 2) / scale } ∧
          Spec.Fits (x.1.map fun p => ((p.1 : ℝ), (p.2 : ℝ), (s.norm p).getD 0)) (x1, y1) (x2, y2) theta width ∧
          th * (√((x2 - x1) ^ 2 + (y2 - y1) ^ 2) * width) ≤ x.1.length) ∧
      lines.Pairwise fun a b => ∀ p ∈ a.1, p ∉ b.1 := by
  by_cases hsize : 1 < s.width ∧ 1 < s.height
  swap
  · have hnil : order = [] := by
      rw [List.eq_nil_iff_forall_not_mem]
      intro p hp
      have := (horder p).1 hp
      omega
    subst hnil
    exact ⟨0, [], fun _ _ => rfl, by simp, List.Pairwise.nil⟩
  obtain ⟨n, ls, e, hl⟩ := searchRefined_ok s (minRegionSize s.width s.height)
    (two_le_minRegionSize _ _ (by omega) (by omega)) th order (fun _ => false) (fun p hp => by
      have := (horder p).1 hp
      omega)
  refine ⟨n, ls.map fun x => (x.1, x.2.segment scale), fun fuel hf => ?_, ?_, ?_⟩
  · unfold Setting.detectRefined
    rw [e fuel hf]
    rfl
  · intro y hy
    obtain ⟨x, hx, rfl⟩ := List.mem_map.1 hy
    obtain ⟨a, b, -, c, d, theta, f⟩ := hl.each x hx
    refine ⟨a, b, fun p hp => ?_, x.2.x1, x.2.y1, x.2.x2, x.2.y2, x.2.theta, x.2.width, rfl, rect_fits s hat x.1 theta c a b x.2 f,
      dense_area _ _ _ (rectOf_width s _ _ _ f) d⟩
    obtain ⟨ang, hang⟩ := c p hp
    obtain ⟨m, hm, -⟩ := angle_some_norm s _ p ang hang
    have := norm_some_inner s p m hm
    exact ⟨by omega, by omega, by rw [hang]; rfl⟩
  · rw [List.pairwise_map]
    exact hl.disjoint

/-- C159: what a refinement drops is free again. `used` are the pixels taken before the group `g` grew from the pixel `p`;
after the refinement of `g` the pixels taken are those and the pixels that remain in the group; when the refinement fails,
this is one pixel at most. -/
theorem C159_released (s : Setting) (th : ℝ) (used : Px → Bool) (p : Px) (hp : p.1 + 1 < s.width ∧ p.2 + 1 < s.height)
    (hu : used p = false) (hd : (s.angle threshold p).isSome) (fuel : ℕ) (g : Region Mean)
    (hg : s.rule.grow fuel used p = .ok g) (hl : 2 ≤ g.points.length) :
    ∃ rec n found group rec', s.rectOf g.points g.angle.theta = .ok rec ∧
      (∀ fuel, n ≤ fuel → s.refine fuel th g rec = .ok (found, group, rec')) ∧
      (∀ q, group.used q = true ↔ used q = true ∨ q ∈ group.points) ∧ (∀ q ∈ group.points, used q = false) ∧
      (found = true ↔ 2 ≤ group.points.length) := by
  obtain ⟨g', hg', hgr⟩ := grow_ok s.rule (s.width * s.height + 1) (Nat.lt_succ_self _) used p
    ⟨by change p.1 < s.width; omega, by change p.2 < s.height; omega⟩ hu
  have hsame : g' = g := by
    have h1 := loop_mono _ _ _ _ _ hg (s.width * s.height + 1)
    have h2 := loop_mono _ _ _ _ _ hg' fuel
    rw [add_comm] at h2
    rw [h1, Outcome.ok.injEq] at h2
    exact h2.symm
  subst hsame
  have hh : Holds s used g'.points g'.used := ⟨hgr.nodup, hgr.fresh, hgr.used, grown_defined s used p g' hgr hd⟩
  obtain ⟨rec, hrec⟩ := rectOf_ok s _ g'.angle.theta hh.defined hh.nodup hl
  obtain ⟨n, ⟨found, group, rec'⟩, e, hr⟩ := refine_ok s th used g' rec hh hl hgr.inside ⟨_, hrec⟩
  refine ⟨rec, n, found, group, rec', hrec, e, hr.holds.used, hr.holds.fresh, fun h => (hr.dense h).1, fun h => ?_⟩
  by_contra hne
  rw [Bool.not_eq_true] at hne
  have := hr.failed hne
  dsimp only at this
  omega

theorem searchRefined_same (s : Setting) (fuel m : ℕ) (th : ℝ) : ∀ (order : List Px) (used : Px → Bool)
    (rs : List (Region Mean)), s.rule.search fuel m (fun p => (s.angle threshold p).isSome) order used = .ok rs →
    (∀ g ∈ rs, ∃ rec, s.rectOf g.points g.angle.theta = .ok rec ∧ dense g.points.length rec th = true) →
    ∃ ls, s.searchRefined fuel m th order used = .ok ls ∧
      List.Forall₂ (fun g x => x.1 = g.points ∧ s.rectOf g.points g.angle.theta = .ok x.2) rs ls := by
  intro order
  induction order with
  | nil =>
    intro used rs h _
    rw [Rule.search, Outcome.ok.injEq] at h
    subst h
    exact ⟨[], rfl, List.Forall₂.nil⟩
  | cons p l ih =>
    intro used rs h hd
    rw [Rule.search] at h
    rw [Setting.searchRefined]
    split_ifs at h ⊢ with hp
    · obtain ⟨g, hg, h⟩ := Outcome.bind_eq_ok_iff.1 h
      obtain ⟨rest, hrest, h⟩ := Outcome.bind_eq_ok_iff.1 h
      rw [hg]
      simp only [Outcome.bind]
      rw [Outcome.ok.injEq] at h
      dsimp only at h
      by_cases hs : g.points.length < m
      · rw [if_pos hs] at h ⊢
        subst h
        exact ih _ _ hrest hd
      · rw [if_neg hs] at h ⊢
        subst h
        obtain ⟨rec, hrec, hden⟩ := hd g (by simp)
        obtain ⟨ls, hls, hf⟩ := ih _ _ hrest fun g' hg' => hd g' (by simp [hg'])
        refine ⟨(g.points, rec) :: ls, ?_, List.Forall₂.cons ⟨rfl, hrec⟩ hf⟩
        rw [hrec]
        simp only [Setting.refine, if_pos hden, if_true, hls, Outcome.map, Outcome.bind]
    · exact ih _ _ h hd

/-- C159: when each group is dense enough, the refinement changes nothing. -/
theorem C159_dense (s : Setting) (scale th : ℝ) (order : List Px)
    (horder : ∀ p : Px, p ∈ order ↔ p.1 + 1 < s.width ∧ p.2 + 1 < s.height) (fuel : ℕ) (hf : s.width * s.height < fuel)
    (kept : List (Region Mean)) (hk : s.regions fuel order = .ok kept)
    (hd : ∀ g ∈ kept, ∀ rec, s.rectOf g.points g.angle.theta = .ok rec →
      th * (√((rec.x2 - rec.x1) ^ 2 + (rec.y2 - rec.y1) ^ 2) * rec.width) ≤ g.points.length) :
    ∃ lines, s.detectRefined scale th fuel order = .ok lines ∧ lines.map (·.1) = kept.map (·.points) ∧
      s.detect scale fuel order = .ok (lines.map (·.2)) := by
  obtain ⟨all, sp, e⟩ := regions_run s fuel hf order horder
  have hok := kept_ok s order horder all sp
  rw [e, Outcome.ok.injEq] at hk
  subst hk
  obtain ⟨ls, h1, h2⟩ := searchRefined_same s fuel _ th order (fun _ => false) _ e (fun g hg => by
    obtain ⟨a, b, c⟩ := hok g hg
    obtain ⟨rec, hrec⟩ := rectOf_ok s _ g.angle.theta a b c
    refine ⟨rec, hrec, ?_⟩
    have hden := hd g hg rec hrec
    have hlen : rec.length = √((rec.x2 - rec.x1) ^ 2 + (rec.y2 - rec.y1) ^ 2) := by
      unfold Rect.length distSq
      congr 1
      ring
    rw [← hlen] at hden
    unfold dense
    split_ifs with h0
    · rfl
    · have hpos : 0 < rec.length * rec.width :=
        lt_of_le_of_ne (mul_nonneg (Real.sqrt_nonneg _) (rectOf_width s _ _ _ hrec).le) (Ne.symm h0)
      rw [decide_eq_true_iff, le_div_iff₀ hpos]
      exact hden)
  refine ⟨ls.map fun x => (x.1, x.2.segment scale), ?_, ?_, ?_⟩
  · unfold Setting.detectRefined
    rw [h1]
    rfl
  · rw [List.map_map]
    clear h1 hd e hok
    generalize all.filter _ = kept at h2 ⊢
    induction h2 with
    | nil => rfl
    | cons h _ ih => rw [List.map_cons, List.map_cons, ih, Function.comp_apply, h.1]
  · unfold Setting.detect
    rw [e, Outcome.bind_ok, List.map_map]
    clear h1 hd e
    generalize all.filter _ = kept at h2 hok ⊢
    induction h2 with
    | nil => rfl
    | @cons g x rs ls h _ ih =>
      obtain ⟨a, b, c⟩ := hok g (by simp)
      rw [Setting.segments]
      have hr := h.2
      unfold Setting.rectOf at hr
      cases hw : s.weighted g.points with
      | none => rw [hw] at hr; cases hr
      | some reg =>
        rw [hw] at hr
        dsimp only at hr ⊢
        rw [hr, Outcome.bind_ok, ih fun g' hg' => hok g' (by simp [hg'])]
        rfl

/-- The ramp of C148 is an image of C159. With a threshold of 0 its six pixels make a line. -/
example : (∀ p : Px, p ∈ rampOrder ↔ p.1 + 1 < ramp.width ∧ p.2 + 1 < ramp.height) ∧ Spec.ExactAtan ramp.atan ∧
    ∃ lines, ramp.detectRefined (3 / 10) 0 15 rampOrder = .ok lines ∧ lines.map (·.1) = [rampOrder] := by
  obtain ⟨g, hg, hp, -⟩ := ramp_regions
  refine ⟨ramp_sorted.1, exactAtan_exact, ?_⟩
  obtain ⟨lines, h1, h2, -⟩ := C159_dense ramp (3 / 10) 0 rampOrder ramp_sorted.1 15 (by decide) [g] hg
    (fun g' _ rec _ => by rw [zero_mul]; positivity)
  refine ⟨lines, h1, ?_⟩
  rw [h2, ← hp]
  rfl

end RgbdSlam.Lsd
