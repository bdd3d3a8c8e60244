import Verif.Props.PolygonRepair
import Verif.Lemmas.PolygonColor
/- C144: the loops that the repair of an outline returns. -/
namespace RgbdSlam.PolygonRepair

open Spec

/-- An outline with seven edges. -/
def zigzag : List Pt := [(4, 2), (3, 4), (1, 3), (3, 5), (3, 3), (0, 4), (5, 3), (4, 2)]

/-- Its crossings. -/
def zigzagTurns : List Turn :=
  [⟨(10 / 3, 10 / 3), 0, 5⟩, ⟨(9 / 5, 17 / 5), 1, 4⟩, ⟨(15 / 7, 25 / 7), 1, 5⟩, ⟨(3 / 2, 7 / 2), 2, 4⟩,
    ⟨(5 / 3, 11 / 3), 2, 5⟩, ⟨(3, 17 / 5), 3, 5⟩]

theorem zigzag_crossings : AllCrossings zigzag zigzagTurns := by
  refine ⟨by decide +kernel, fun t => ⟨fun h => ?_, ?_⟩⟩
  · simp only [zigzagTurns, List.mem_cons, List.not_mem_nil, or_false] at h
    rcases h with rfl | rfl | rfl | rfl | rfl | rfl
    · exact ⟨by norm_num, _, _, _, _, rfl, rfl, rfl, rfl, ⟨2 / 3, by norm_num, by norm_num, by norm_num, by norm_num⟩,
        ⟨2 / 3, by norm_num, by norm_num, by norm_num, by norm_num⟩⟩
    · exact ⟨by norm_num, _, _, _, _, rfl, rfl, rfl, rfl, ⟨3 / 5, by norm_num, by norm_num, by norm_num, by norm_num⟩,
        ⟨2 / 5, by norm_num, by norm_num, by norm_num, by norm_num⟩⟩
    · exact ⟨by norm_num, _, _, _, _, rfl, rfl, rfl, rfl, ⟨3 / 7, by norm_num, by norm_num, by norm_num, by norm_num⟩,
        ⟨3 / 7, by norm_num, by norm_num, by norm_num, by norm_num⟩⟩
    · exact ⟨by norm_num, _, _, _, _, rfl, rfl, rfl, rfl, ⟨1 / 4, by norm_num, by norm_num, by norm_num, by norm_num⟩,
        ⟨1 / 2, by norm_num, by norm_num, by norm_num, by norm_num⟩⟩
    · exact ⟨by norm_num, _, _, _, _, rfl, rfl, rfl, rfl, ⟨1 / 3, by norm_num, by norm_num, by norm_num, by norm_num⟩,
        ⟨1 / 3, by norm_num, by norm_num, by norm_num, by norm_num⟩⟩
    · exact ⟨by norm_num, _, _, _, _, rfl, rfl, rfl, rfl, ⟨4 / 5, by norm_num, by norm_num, by norm_num, by norm_num⟩,
        ⟨3 / 5, by norm_num, by norm_num, by norm_num, by norm_num⟩⟩
  · obtain ⟨⟨x, y⟩, i, j⟩ := t
    rintro ⟨hij, a, b, c, d, e1, e2, e3, e4, ⟨s, s0, s1, x1, y1⟩, ⟨u, u0, u1, x2, y2⟩⟩
    have hj : j + 1 < 8 := (List.getElem?_eq_some_iff.1 e4).1
    simp only at hij hj e1 e2 e3 e4 x1 y1 x2 y2
    have hj' : j < 7 := by omega
    interval_cases j <;> interval_cases i <;>
      (simp only [zigzag, List.getElem?_cons_zero, List.getElem?_cons_succ, Option.some.injEq] at e1 e2 e3 e4
       subst e1 e2 e3 e4
       norm_num at x1 y1 x2 y2
       first
       | (exfalso; linarith)
       | (have hx : x = 10 / 3 := by linarith
          have hy : y = 10 / 3 := by linarith
          simp [hx, hy, zigzagTurns])
       | (have hx : x = 9 / 5 := by linarith
          have hy : y = 17 / 5 := by linarith
          simp [hx, hy, zigzagTurns])
       | (have hx : x = 15 / 7 := by linarith
          have hy : y = 25 / 7 := by linarith
          simp [hx, hy, zigzagTurns])
       | (have hx : x = 3 / 2 := by linarith
          have hy : y = 7 / 2 := by linarith
          simp [hx, hy, zigzagTurns])
       | (have hx : x = 5 / 3 := by linarith
          have hy : y = 11 / 3 := by linarith
          simp [hx, hy, zigzagTurns])
       | (have hx : x = 3 := by linarith
          have hy : y = 17 / 5 := by linarith
          simp [hx, hy, zigzagTurns]))

/-- C144 is false: the starting points of a loop that was cut out are still compared with the points that come after it,
and the repair of this outline returns a list of points that is not closed. -/
theorem C144_open_false :
    AllCrossings zigzag zigzagTurns ∧ orient (close zigzag) = zigzag ∧
    ∃ pieces, correctRing (fun _ => zigzagTurns) 60 zigzag = .ok pieces ∧ ∃ piece ∈ pieces, ¬ Closed piece.1 := by
  refine ⟨zigzag_crossings, by decide +kernel, _, ?_, ([(1, 3), (3 / 2, 7 / 2), (0, 4), (5 / 3, 11 / 3), (3, 5),
    (3, 17 / 5)], 137 / 30), List.mem_cons_of_mem ([(15 / 7, 25 / 7), (3, 17 / 5), (3, 3), (3 / 2, 7 / 2),
    (5 / 3, 11 / 3), (15 / 7, 25 / 7)], 13 / 30) (List.mem_cons_self (l :=
      [([(10 / 3, 10 / 3), (3, 4), (15 / 7, 25 / 7), (3, 17 / 5), (10 / 3, 10 / 3)], -5 / 14),
        ([(10 / 3, 10 / 3), (5, 3), (4, 2), (10 / 3, 10 / 3)], 1)])), ?_⟩
  · decide +kernel
  · rintro ⟨-, h⟩
    simp at h

theorem closed_orient_close {ring : List Pt} (h : ring ≠ []) : Closed (orient (close ring)) := by
  have hc : Closed (close ring) := by
    obtain ⟨a, l, rfl⟩ := List.exists_cons_of_ne_nil h
    obtain ⟨b, hb⟩ : ∃ b, (a :: l).getLast? = some b := ⟨_, List.getLast?_eq_some_getLast (by simp)⟩
    unfold close
    rw [hb]
    simp only [List.head?_cons]
    split_ifs with hab
    · exact ⟨by simp, by rw [hb, ← hab]; rfl⟩
    · exact ⟨by simp, by rw [List.getLast?_append]; simp⟩
  unfold orient
  split_ifs
  · exact ⟨by simpa using hc.1, by rw [List.head?_reverse, List.getLast?_reverse]; exact hc.2.symm⟩
  · exact hc

/-- The loops of an outline in general position. -/
theorem loops_of_outline (selfTurns : List Pt → List Turn) (ring : List Pt) (h3 : 3 ≤ ring.length)
    (hg : GeneralPosition (orient (close ring)) (selfTurns (orient (close ring))))
    (hk : ∀ u ∈ selfTurns (orient (close ring)), Kept (orient (close ring)) u) (fuel : ℕ)
    (hfuel : ring.length + 4 * (selfTurns (orient (close ring))).length + 2 ≤ fuel) :
    ∃ loops, correctRing selfTurns fuel ring = .ok (piecesOf loops) ∧ (∀ r ∈ loops, Closed r) ∧
      ∀ f, Measure f → (loops.map (total f)).sum = total f (orient (close ring)) := by
  have hne : ring ≠ [] := by rintro rfl; simp at h3
  have hc := closed_orient_close hne
  by_cases ht : selfTurns (orient (close ring)) = []
  · refine ⟨[orient (close ring)], ?_, by simpa using hc, by simp⟩
    rw [C144_no_crossing selfTurns fuel ring h3 ht, ← area_orient]
    have h0 : area (close ring) = 0 ↔ area (orient (close ring)) = 0 := by rw [area_orient, abs_eq_zero]
    by_cases h : area (orient (close ring)) = 0
    · rw [if_pos (h0.2 h)]
      simp [piecesOf, h]
    · rw [if_neg fun h' => h (h0.1 h')]
      simp [piecesOf, h]
  · have hlen : (orient (close ring)).length ≤ ring.length + 1 := by
      have : (orient (close ring)).length = (close ring).length := by
        unfold orient
        split_ifs <;> simp
      rw [this]
      unfold close
      split
      · split_ifs <;> simp
      · omega
    obtain ⟨t, out, h1, h2, h3', h4, h5⟩ := pieces_of_crossings (simple_of_general hg) hk
      (fun t hf => no_revisit hg hf hc) hc ht fuel (by omega)
    refine ⟨out, ?_, h4, h5⟩
    unfold correctRing
    rw [if_neg (by omega)]
    simp only [h1, Outcome.bind_ok]
    split
    · rename_i hst
      exact absurd hst h2
    · rename_i k l hst
      exact h3'

theorem area_of_closed {r : List Pt} (h : Closed r) : area r = total edge r := by
  obtain ⟨hn, hc⟩ := h
  obtain ⟨a, l, rfl⟩ := List.exists_cons_of_ne_nil hn
  cases l using List.reverseRecOn with
  | nil => simp [area, total]
  | append_singleton l y _ =>
    have : y = a := by
      rw [← List.cons_append, List.getLast?_append] at hc
      simpa [eq_comm] using hc
    rw [this, total_edge]
    exact area_closed a l

/-- C144: an outline in general position with any number of crossings, all kept, is cut into closed loops whose areas add
up to the area of the outline.  Missing: crossings at the same point or at a corner; the crossings that are not kept, for
which the claim is false. -/
theorem C144_crossings_partial (selfTurns : List Pt → List Turn) (ring : List Pt) (h3 : 3 ≤ ring.length)
    (hg : GeneralPosition (orient (close ring)) (selfTurns (orient (close ring))))
    (hk : ∀ u ∈ selfTurns (orient (close ring)), Kept (orient (close ring)) u) (fuel : ℕ)
    (hfuel : ring.length + 4 * (selfTurns (orient (close ring))).length + 2 ≤ fuel) :
    ∃ pieces, correctRing selfTurns fuel ring = .ok pieces ∧
      (∀ piece ∈ pieces, Closed piece.1 ∧ piece.2 = area piece.1) ∧
      (pieces.map fun piece => area piece.1).sum = |area (close ring)| := by
  have hne : ring ≠ [] := by rintro rfl; simp at h3
  obtain ⟨loops, h1, h2, h3⟩ := loops_of_outline selfTurns ring h3 hg hk fuel hfuel
  refine ⟨_, h1, ?_, ?_⟩
  · intro piece hp
    obtain ⟨r, hr, rfl⟩ := List.mem_map.1 hp
    exact ⟨h2 r (List.mem_filter.1 hr).1, rfl⟩
  · rw [← area_orient, area_of_closed (closed_orient_close hne), ← h3 edge measure_edge]
    clear h1 h3
    induction loops with
    | nil => rfl
    | cons r l ih =>
      have hr := area_of_closed (h2 r List.mem_cons_self)
      have ih := ih fun r hr => h2 r (List.mem_cons_of_mem _ hr)
      unfold piecesOf at ih ⊢
      by_cases h : area r = 0
      · rw [List.filter_cons_of_neg (by simp [h]), ih, List.map_cons, List.sum_cons, ← hr, h, zero_add]
      · rw [List.filter_cons_of_pos (by simp [h])]
        simp only [List.map_cons, List.sum_cons]
        rw [ih, hr]

/-! ## C176: winding numbers -/

/-- Whether a point is above `z`. -/
def above (z a : Pt) : ℤ := if z.2 < a.2 then 1 else 0

theorem crossing_eq {z a b : Pt} {x : ℚ}
    (h : a.2 ≠ b.2 → a.1 + (z.2 - a.2) / (b.2 - a.2) * (b.1 - a.1) = x) :
    crossing z a b = if z.1 < x then above z a - above z b else 0 := by
  unfold crossing above
  by_cases hab : a.2 = b.2
  · rw [if_neg (by rintro ⟨h1, h2, -⟩; linarith), if_neg (by rintro ⟨h1, h2, -⟩; linarith), hab]
    simp
  · rw [h hab]
    by_cases hx : z.1 < x
    · simp only [hx, and_true, if_true]
      rcases lt_or_ge z.2 a.2 with ha | ha <;> rcases lt_or_ge z.2 b.2 with hb | hb <;>
        simp [ha, hb, not_le.2, not_lt.2]
    · simp [hx]

/-- The crossings add up along a line. -/
theorem measure_crossing (z : Pt) : Measure fun a b => (crossing z a b : ℚ) := by
  intro u v P h
  obtain ⟨x, hx⟩ : ∃ x, (u.2 ≠ v.2 → u.1 + (z.2 - u.2) / (v.2 - u.2) * (v.1 - u.1) = x) ∧
      (u.2 ≠ P.2 → u.1 + (z.2 - u.2) / (P.2 - u.2) * (P.1 - u.1) = x) ∧
      (P.2 ≠ v.2 → P.1 + (z.2 - P.2) / (v.2 - P.2) * (v.1 - P.1) = x) := by
    by_cases h1 : u.2 = v.2
    · by_cases h2 : u.2 = P.2
      · exact ⟨0, fun h => absurd h1 h, fun h => absurd h2 h, fun h => absurd (h2.symm.trans h1) h⟩
      · refine ⟨u.1 + (z.2 - u.2) / (P.2 - u.2) * (P.1 - u.1), fun h => absurd h1 h, fun _ => rfl, fun h3 => ?_⟩
        have d : P.2 - u.2 ≠ 0 := sub_ne_zero.2 (Ne.symm h2)
        have e : v.1 = u.1 := by
          rw [h1, sub_self, zero_mul] at h
          rcases mul_eq_zero.1 h with h | h
          · linarith
          · exact absurd (by linarith) h2
        rw [← h1, e]
        have d' : u.2 - P.2 ≠ 0 := sub_ne_zero.2 h2
        field_simp
        ring
    · have d : v.2 - u.2 ≠ 0 := sub_ne_zero.2 (Ne.symm h1)
      have eP : P.1 = u.1 + (P.2 - u.2) / (v.2 - u.2) * (v.1 - u.1) := by
        field_simp
        linarith
      refine ⟨_, fun _ => rfl, fun h2 => ?_, fun h2 => ?_⟩
      · have d' : P.2 - u.2 ≠ 0 := sub_ne_zero.2 (Ne.symm h2)
        rw [eP]
        field_simp
        ring
      · have d' : v.2 - P.2 ≠ 0 := sub_ne_zero.2 (Ne.symm h2)
        rw [eP]
        field_simp
        ring
  simp only [crossing_eq hx.1, crossing_eq hx.2.1, crossing_eq hx.2.2]
  split_ifs <;> push_cast <;> ring

theorem total_crossing (z : Pt) (l : List Pt) : total (fun a b => (crossing z a b : ℚ)) l = (turnsAround z l : ℚ) := by
  induction l with
  | nil => simp [total, turnsAround]
  | cons a l ih =>
    cases l with
    | nil => simp [total, turnsAround]
    | cons b l => rw [total_cons_cons, ih, turnsAround]; push_cast; ring

theorem turnsAround_orient (z : Pt) (l : List Pt) :
    turnsAround z (orient l) = (if area l < 0 then -1 else 1) * turnsAround z l := by
  unfold orient
  split_ifs
  · have := total_reverse (measure_crossing z) l
    rw [total_crossing, total_crossing] at this
    have : turnsAround z l.reverse = -turnsAround z l := by exact_mod_cast this
    rw [this]; ring
  · ring

/-- C176: an outline in general position, whose crossings are all kept, is cut into closed loops that turn around every
point as often, together, as the outline, which is made clockwise before.  The pieces are the loops with an area.  Missing:
crossings at the same point or at a corner; the crossings that are not kept, for which the claim is false
(`C176_dropped_false`); that a loop without area turns around no point. -/
theorem C176_winding_partial (selfTurns : List Pt → List Turn) (ring : List Pt) (h3 : 3 ≤ ring.length)
    (hg : GeneralPosition (orient (close ring)) (selfTurns (orient (close ring))))
    (hk : ∀ u ∈ selfTurns (orient (close ring)), Kept (orient (close ring)) u) (fuel : ℕ)
    (hfuel : ring.length + 4 * (selfTurns (orient (close ring))).length + 2 ≤ fuel) :
    ∃ loops : List (List Pt), (∀ r ∈ loops, Closed r) ∧
      correctRing selfTurns fuel ring = .ok ((loops.filter fun r => decide (area r ≠ 0)).map fun r => (r, area r)) ∧
      ∀ z, (loops.map (turnsAround z)).sum = (if area (close ring) < 0 then -1 else 1) * turnsAround z (close ring) := by
  obtain ⟨loops, h1, h2, h3⟩ := loops_of_outline selfTurns ring h3 hg hk fuel hfuel
  refine ⟨loops, h2, h1, fun z => ?_⟩
  rw [← turnsAround_orient]
  have := h3 _ (measure_crossing z)
  rw [total_crossing] at this
  have e : (loops.map (total fun a b => (crossing z a b : ℚ))) = (loops.map (turnsAround z)).map (Int.cast : ℤ → ℚ) := by
    rw [List.map_map]
    exact List.map_congr_left fun r _ => total_crossing z r
  rw [e] at this
  have e2 : (((loops.map (turnsAround z)).map (Int.cast : ℤ → ℚ)).sum) = (((loops.map (turnsAround z)).sum : ℤ) : ℚ) := by
    generalize loops.map (turnsAround z) = l
    induction l with
    | nil => simp
    | cons a l ih => simp [ih]
  rw [e2] at this
  exact_mod_cast this

/-- An outline with two crossings, and three loops. -/
def bows : List Pt := [(0, 0), (4, -4), (8, 0), (8, -4), (4, 0), (0, -6), (0, 0)]

def bowsTurns : List Turn := [⟨(12 / 5, -12 / 5), 0, 4⟩, ⟨(6, -2), 1, 3⟩]

theorem bows_general : GeneralPosition bows bowsTurns := by
  refine ⟨⟨by decide +kernel, fun t => ⟨fun h => ?_, ?_⟩⟩, by decide +kernel, by decide +kernel, ?_, ?_⟩
  · simp only [bowsTurns, List.mem_cons, List.not_mem_nil, or_false] at h
    rcases h with rfl | rfl
    · exact ⟨by norm_num, _, _, _, _, rfl, rfl, rfl, rfl, ⟨3 / 5, by norm_num, by norm_num, by norm_num, by norm_num⟩,
        ⟨2 / 5, by norm_num, by norm_num, by norm_num, by norm_num⟩⟩
    · exact ⟨by norm_num, _, _, _, _, rfl, rfl, rfl, rfl, ⟨1 / 2, by norm_num, by norm_num, by norm_num, by norm_num⟩,
        ⟨1 / 2, by norm_num, by norm_num, by norm_num, by norm_num⟩⟩
  · obtain ⟨⟨x, y⟩, i, j⟩ := t
    rintro ⟨hij, a, b, c, d, e1, e2, e3, e4, ⟨s, s0, s1, x1, y1⟩, ⟨u, u0, u1, x2, y2⟩⟩
    have hj : j + 1 < 7 := (List.getElem?_eq_some_iff.1 e4).1
    simp only at hij hj e1 e2 e3 e4 x1 y1 x2 y2
    have hj' : j < 6 := by omega
    interval_cases j <;> interval_cases i <;>
      (simp only [bows, List.getElem?_cons_zero, List.getElem?_cons_succ, Option.some.injEq] at e1 e2 e3 e4
       subst e1 e2 e3 e4
       norm_num at x1 y1 x2 y2
       first
       | (exfalso; linarith)
       | (have hx : x = 12 / 5 := by linarith
          have hy : y = -12 / 5 := by linarith
          simp [hx, hy, bowsTurns])
       | (have hx : x = 6 := by linarith
          have hy : y = -2 := by linarith
          simp [hx, hy, bowsTurns]))
  · rintro i a b ⟨x, y⟩ e1 e2 hm ⟨s, s0, s1, x1, y1⟩
    have hi : i + 1 < 7 := (List.getElem?_eq_some_iff.1 e2).1
    have hi' : i < 6 := by omega
    simp only [bows, List.mem_cons, Prod.mk.injEq, List.not_mem_nil, or_false] at hm
    interval_cases i <;>
      (simp only [bows, List.getElem?_cons_zero, List.getElem?_cons_succ, Option.some.injEq] at e1 e2
       subst e1 e2
       norm_num at x1 y1
       rcases hm with ⟨rfl, rfl⟩ | ⟨rfl, rfl⟩ | ⟨rfl, rfl⟩ | ⟨rfl, rfl⟩ | ⟨rfl, rfl⟩ | ⟨rfl, rfl⟩ | ⟨rfl, rfl⟩ <;> linarith)
  · intro t h a b c d e1 e2 e3 e4
    simp only [bowsTurns, List.mem_cons, List.not_mem_nil, or_false] at h
    rcases h with rfl | rfl <;>
      (simp only [bows, List.getElem?_cons_zero, List.getElem?_cons_succ, Option.some.injEq] at e1 e2 e3 e4
       subst e1 e2 e3 e4
       norm_num)

/-- The hypotheses of `C144_crossings_partial` hold for an outline with two crossings, which gives three loops. -/
example : orient (close bows) = bows ∧ GeneralPosition bows bowsTurns ∧ (∀ u ∈ bowsTurns, Kept bows u) ∧
    correctRing (fun _ => bowsTurns) 17 bows = .ok
      [([(12 / 5, -12 / 5), (4, -4), (6, -2), (4, 0), (12 / 5, -12 / 5)], -36 / 5),
        ([(6, -2), (8, 0), (8, -4), (6, -2)], 4),
        ([(12 / 5, -12 / 5), (0, -6), (0, 0), (12 / 5, -12 / 5)], 36 / 5)] := by
  refine ⟨by decide +kernel, bows_general, ?_, by decide +kernel⟩
  intro u hu
  simp only [bowsTurns, List.mem_cons, List.not_mem_nil, or_false] at hu
  rcases hu with rfl | rfl
  · exact ⟨_, _, rfl, rfl, Or.inl (by decide +kernel)⟩
  · exact ⟨_, _, rfl, rfl, Or.inl (by decide +kernel)⟩

/-- The loops of this outline: one turn around a point of each of the three, in the other direction for the middle one. -/
example : turnsAround (1, -2) bows = 1 ∧ turnsAround (4, -2) bows = -1 ∧ turnsAround (7, -2) bows = 1 ∧
    turnsAround (20, 20) bows = 0 := by
  decide +kernel

/-- C176 is false when some crossings are not kept: the star turns twice around its middle, the pieces three times. -/
theorem C176_dropped_false :
    AllCrossings star starTurns ∧ orient (close star) = star ∧ turnsAround (2, 2) star = 2 ∧
    ∃ pieces, correctRing (fun _ => starTurns) 30 star = .ok pieces ∧
      (pieces.map fun p => turnsAround (2, 2) p.1).sum = 3 := by
  refine ⟨star_crossings, by decide +kernel, by decide +kernel, ?_⟩
  have : (correctRing (fun _ => starTurns) 30 star).map (fun l => (l.map fun p => turnsAround (2, 2) p.1).sum) = .ok 3 := by
    decide +kernel
  cases h : correctRing (fun _ => starTurns) 30 star with
  | ok pieces =>
    refine ⟨pieces, rfl, ?_⟩
    rw [h] at this
    exact Outcome.ok.inj this
  | _ => rw [h] at this; cases this

end RgbdSlam.PolygonRepair
