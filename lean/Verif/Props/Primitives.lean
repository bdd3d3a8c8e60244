import Verif.Lemmas.Primitives
import Verif.Lemmas.Merging

/-
Properties of the primitive detection: C41, C42, C43, C44, C45, C47, C48, C68.
-/
namespace RgbdSlam.Primitives

open RgbdSlam Spec Histogram Cylinder

/-! ### C41: seeds are taken in the most populated direction -/

/-- Full statement for the cells returned after removing `removed`: they are the remaining cells of a most
populated bin, if any cell remains. -/
def FullSeeds (points : List (Option (Rat × Rat))) (removed : List Nat) (h : Hist) : Prop :=
  (candidates h = [] ∧ ∀ k i, InBin points k i → i ∈ removed) ∨
  ∃ k, Lists (candidates h) (fun i => InBin points k i ∧ i ∉ removed) ∧
    MostPopulated points removed (fun _ => True) k

theorem lists_marks {points : List (Option (Rat × Rat))} (hv : ValidDirections points) {removed : List Nat}
    {h : Hist} (hi : Histogram.Inv points removed h) {b : Nat} (hb : b ≠ 1) :
    (List.range h.bins.length).filter (fun i => h.bins.getD i (-1) == (b : Int)) = left points removed b := by
  have := hv
  rw [hi.lenB]
  unfold left
  apply List.filter_congr
  intro i hir
  rw [hi.bins i (List.mem_range.mp hir)]
  by_cases hr : i ∈ removed
  · simp [hr]; omega
  · simp only [hr, if_false]
    rw [Bool.eq_iff_iff]
    simp [hr]

/-- Before any removal, the candidates are exactly the cells of a most populated direction. -/
theorem C41_seeds_initial (points : List (Option (Rat × Rat))) (hv : ValidDirections points) :
    ∃ h, init points = .ok h ∧ FullSeeds points [] h := by
  obtain ⟨h, he, hi⟩ := init_inv hv
  have hcount : ∀ b, b < 400 → h.counts.getD b 0 = (left points [] b).length := by
    intro b hb
    by_cases h1 : b = 1
    · subst h1; exact hi.count1eq rfl
    · exact hi.counts b hb h1
  have hbig : ∀ b, 400 ≤ b → left points [] b = [] := by
    intro b hb
    unfold left
    rw [List.filter_eq_nil_iff]
    intro i _
    have := binAt_valid hv i
    simp
    omega
  refine ⟨h, he, ?_⟩
  rcases candidates_spec h with ⟨h1, h2⟩ | ⟨b, hb, _, hmax, hc⟩
  · left
    refine ⟨h1, fun k i hk => ?_⟩
    have hm : i ∈ left points [] k := ((left_lists hv [] k).2 i).mpr ⟨hk, by simp⟩
    by_cases hk4 : k < 400
    · have := hcount k hk4
      rw [h2 k] at this
      rw [List.length_eq_zero_iff.mp this.symm] at hm
      cases hm
    · rw [hbig k (by omega)] at hm; cases hm
  · right
    refine ⟨b, ?_, ?_⟩
    · have : candidates h = left points [] b := by
        rw [hc, hi.lenB]
        apply List.filter_congr
        intro i hir
        rw [hi.bins i (List.mem_range.mp hir), Bool.eq_iff_iff]
        simp
      rw [this]
      exact left_lists hv [] b
    · intro k' _ a a' ha ha'
      rw [lists_unique ha (left_lists hv [] b), lists_unique ha' (left_lists hv [] k')]
      rw [hi.lenC] at hb
      by_cases hk4 : k' < 400
      · rw [← hcount b hb, ← hcount k' hk4]; exact hmax k'
      · rw [hbig k' (by omega)]; simp

/-- After any sequence of removals of cells that were given a direction: either the candidates are exactly the
remaining cells of a bin that is the most populated of all bins but bin 1; or they are the remaining cells of
bin 1 *together with all the cells removed so far*; or there is none, and only cells of bin 1 may remain.
What is missing from the full statement: bin 1, in which the code puts the removed cells, is not treated as
the others (`C41_removed_cell_returned_false`, `C41_not_most_populated_false`). -/
theorem C41_seeds_after_removals_partial (points : List (Option (Rat × Rat))) (hv : ValidDirections points)
    (ids : List Nat) (hids : ∀ i, i ∈ ids → ∃ u v, points[i]? = some (some (u, v))) :
    ∃ h, (init points).bind (removeAll ids) = .ok h ∧
      ((candidates h = [] ∧ ∀ k i, k ≠ 1 → InBin points k i → i ∈ ids) ∨
       (∃ k, k ≠ 1 ∧ Lists (candidates h) (fun i => InBin points k i ∧ i ∉ ids) ∧
          MostPopulated points ids (· ≠ 1) k) ∨
       Lists (candidates h) (fun i => InBin points 1 i ∨ i ∈ ids)) := by
  have hids' : ∀ i, i ∈ ids → i < points.length ∧ binAt points i ≠ -1 := by
    intro i hi
    obtain ⟨u, v, hp⟩ := hids i hi
    refine ⟨(List.getElem?_eq_some_iff.mp hp).1, ?_⟩
    unfold binAt
    rw [hp]
    obtain ⟨h1, h2, h3, h4⟩ := hv u v (List.mem_of_getElem? hp)
    have := (bin_spec h1 h2 h3 h4).1
    simp only
    omega
  obtain ⟨h0, e0, hi0⟩ := init_inv hv
  obtain ⟨h, e1, hi⟩ := removeAll_inv hv hi0 hids'
  rw [List.append_nil] at hi
  have hmem : ∀ i, i ∈ ids.reverse ↔ i ∈ ids := fun i => List.mem_reverse
  have hbig : ∀ b, 400 ≤ b → left points ids.reverse b = [] := by
    intro b hb
    unfold left
    rw [List.filter_eq_nil_iff]
    intro i _
    have := binAt_valid hv i
    simp
    omega
  have hll : ∀ k, Lists (left points ids.reverse k) (fun i => InBin points k i ∧ i ∉ ids) := by
    intro k
    have := left_lists hv ids.reverse k
    refine ⟨this.1, fun i => ?_⟩
    rw [this.2 i]
    show _ ∧ ¬ _ ↔ _ ∧ ¬ _
    rw [hmem]
  refine ⟨h, by rw [e0, Outcome.bind_ok, e1], ?_⟩
  rcases candidates_spec h with ⟨h1, h2⟩ | ⟨b, hb, _, hmax, hc⟩
  · left
    refine ⟨h1, fun k i hk1 hk => Classical.byContradiction fun hno => ?_⟩
    have hm : i ∈ left points ids.reverse k := ((hll k).2 i).mpr ⟨hk, hno⟩
    by_cases hk4 : k < 400
    · have := hi.counts k hk4 hk1
      rw [h2 k] at this
      rw [List.length_eq_zero_iff.mp this.symm] at hm
      cases hm
    · rw [hbig k (by omega)] at hm; cases hm
  · right
    by_cases hb1 : b = 1
    · right
      subst hb1
      rw [hc]
      refine ⟨List.Pairwise.filter _ List.pairwise_lt_range, fun i => ?_⟩
      rw [List.mem_filter, List.mem_range, hi.lenB]
      constructor
      · rintro ⟨hlt, hm⟩
        rw [hi.bins i hlt] at hm
        by_cases hr : i ∈ ids.reverse
        · exact Or.inr ((hmem i).mp hr)
        · rw [if_neg hr] at hm
          left
          apply (binAt_inBin hv).mp
          simpa using hm
      · intro h'
        have hlt : i < points.length := by
          rcases h' with ⟨u, v, hp, _⟩ | h'
          · exact (List.getElem?_eq_some_iff.mp hp).1
          · exact (hids' i h').1
        refine ⟨hlt, ?_⟩
        rw [hi.bins i hlt]
        by_cases hr : i ∈ ids.reverse
        · rw [if_pos hr]; rfl
        · rw [if_neg hr]
          rcases h' with h' | h'
          · rw [(binAt_inBin hv).mpr h']; simp
          · exact absurd ((hmem i).mpr h') hr
    · left
      refine ⟨b, hb1, ?_, ?_⟩
      · rw [hc, lists_marks hv hi hb1]
        exact hll b
      · intro k' hk1 a a' ha ha'
        rw [lists_unique ha (hll b), lists_unique ha' (hll k')]
        rw [hi.lenC] at hb
        by_cases hk4 : k' < 400
        · rw [← hi.counts b hb hb1, ← hi.counts k' hk4 hk1]; exact hmax k'
        · rw [hbig k' (by omega)]; simp

/-- The full statement is false of the code: a removed cell is marked with bin 1, which is an ordinary bin, and
comes back as a candidate.  Here two cells have directions in bin 1 and one of them is removed. -/
theorem C41_removed_cell_returned_false :
    ¬ ∀ (points : List (Option (Rat × Rat))), ValidDirections points →
      ∀ ids : List Nat, (∀ i, i ∈ ids → ∃ u v, points[i]? = some (some (u, v))) →
      ∀ h, (init points).bind (removeAll ids) = .ok h → ∀ i, i ∈ ids → i ∉ candidates h := by
  intro hall
  have hv : ValidDirections [some (1 / 10, 0), some (1 / 10, 0)] := by
    intro u v hm
    simp only [List.mem_cons, List.not_mem_nil, or_false, or_self] at hm
    injection hm with hm
    injection hm with h1 h2
    subst h1; subst h2
    decide +kernel
  have hr : ((init [some (1 / 10, 0), some (1 / 10, 0)]).bind (removeAll [0])).holds
      (fun h => (candidates h).contains 0) = true := by decide +kernel
  generalize hx : (init [some (1 / 10, 0), some (1 / 10, 0)]).bind (removeAll [0]) = x at hr
  match x, hr with
  | .ok h, hr =>
    have := hall _ hv [0] (by
      intro i hi
      rw [List.mem_singleton.mp hi]
      exact ⟨_, _, rfl⟩) h hx 0 (by simp)
    apply this
    simpa [Outcome.holds] using hr

/-- Nor are the candidates always taken in the most populated bin: removing a cell a second time, which the
growing loop does with a seed whose region is too small, takes one from the counter of bin 1.  Here bin 1 still has three cells
and the candidates are the two cells of another bin. -/
theorem C41_not_most_populated_false :
    ¬ ∀ (points : List (Option (Rat × Rat))), ValidDirections points →
      ∀ ids : List Nat, (∀ i, i ∈ ids → ∃ u v, points[i]? = some (some (u, v))) →
      ∀ h, (init points).bind (removeAll ids) = .ok h → ∀ k, InBin points k ((candidates h).headD 0) →
        MostPopulated points ids (fun _ => True) k := by
  intro hall
  let points : List (Option (Rat × Rat)) :=
    [some (1 / 2, 1 / 2), some (1 / 10, 0), some (1 / 10, 0), some (1 / 10, 0), some (2 / 10, 0),
      some (2 / 10, 0)]
  have hv : ValidDirections points := by
    intro u v hm
    simp only [points, List.mem_cons, List.not_mem_nil, or_false] at hm
    rcases hm with hm | hm | hm | hm | hm | hm <;>
    · injection hm with hm
      injection hm with h1 h2
      subst h1; subst h2
      decide +kernel
  have hids : ∀ i, i ∈ [0, 0, 0] → ∃ u v, points[i]? = some (some (u, v)) := by
    intro i hi
    have : i = 0 := by simpa using hi
    subst this
    exact ⟨_, _, rfl⟩
  have hr : ((init points).bind (removeAll [0, 0, 0])).holds (fun h => candidates h == [4, 5]) = true := by
    decide +kernel
  generalize hx : (init points).bind (removeAll [0, 0, 0]) = x at hr
  match x, hr with
  | .ok h, hr =>
    have hc : candidates h = [4, 5] := by simpa [Outcome.holds] using hr
    have hk : InBin points 3 4 :=
      ⟨2 / 10, 0, rfl, 3, 0, rfl, by decide +kernel, by decide +kernel, Or.inr ⟨by omega, by decide +kernel,
        by decide +kernel⟩⟩
    have hmp := hall points hv [0, 0, 0] hids h hx 3 (by rw [hc]; exact hk)
    have h1 := hmp 1 trivial _ _ (left_lists hv [0, 0, 0] 3) (left_lists hv [0, 0, 0] 1)
    have h3 : (left points [0, 0, 0] 3).length = 2 := by decide +kernel
    have h4 : (left points [0, 0, 0] 1).length = 3 := by decide +kernel
    omega

/-- Non-vacuity: five cells in two directions, one removed; the candidates are the two that remain in the most
populated one. -/
example : ((init [some (1 / 2, 1 / 2), none, some (1 / 2, 1 / 2), some (1 / 3, 1 / 2), some (1 / 2, 1 / 2)]).bind
    (removeAll [2])).holds (fun h => candidates h == [0, 4]) = true := by decide +kernel

/-! ### C42: region growing -/

/-- Growing from a seed stops and activates exactly the cells that can be reached from it through neighbouring
unassigned cells whose pairs pass the merge test, each once.  The set does not depend on the order in which the
neighbours are visited, as reachability does not. -/
theorem C42_region_is_reachable_cells (g : Scene) (free : List Nat) (seed : Nat) (hs : seed < g.w * g.h) :
    ∀ fuel, free.length < fuel →
      ∃ act, grow g free fuel (seed % g.w) (seed / g.w) seed [] = .ok act ∧ act.Nodup ∧
        ∀ c, c ∈ act ↔ Reachable g.w g.h (· ∈ free) (fun a b => g.cellMerge a b = true) seed c :=
  fun _ hf => grow_seed hs hf

/-- A scene used in the examples: a grid in which all planar cells point in the same direction. -/
def sample (w h : Nat) (planar : Nat → Bool) (highScore : Bool) : Scene :=
  { w := w, h := h, planar := planar, direction := fun _ => (1 / 2, 1 / 2), cellMerge := fun _ _ => true,
    mse := fun i => some (i + 1), planarFit := fun _ => true, highScore := fun _ => highScore,
    cylinder := fun _ =>
      { axis := true, hyps := fun _ => [fun _ => some (1 / 100)], radius := fun _ => some (-50) },
    planeBetter := fun _ => false, segMerge := fun _ _ => true }

/-- Non-vacuity: on a 3 × 2 grid where the middle column is assigned, growing from the corner takes the first
column. -/
example : (grow (sample 3 2 (fun _ => true) true) [0, 2, 3, 5] 5 0 0 0 []).holds (fun a => a == [3, 0]) = true := by
  decide +kernel

/-! ### C43: termination, and one shape per cell -/

/-- The extraction of planes and cylinders always returns, without failed assertion, exit or undefined
behaviour (the step budget may be any number above the number of cells). -/
theorem C43_terminates (g : Scene) (hv : ValidScene g) :
    ∀ fuel, g.total < fuel → ∃ s, detect g fuel = .ok s := by
  intro fuel hf
  obtain ⟨s, h, _⟩ := detect_spec hf hv
  exact ⟨s, h⟩

/-- In every state of the extraction, a cell belongs to at most one of the planes and cylinders found. -/
theorem C43_one_shape_per_cell (g : Scene) (hv : ValidScene g) (fuel : Nat) (hf : g.total < fuel) (s : St)
    (h : Reached g fuel s) :
    (∀ (a b : Nat) (p q : Seg), s.planes[a]? = some p → s.planes[b]? = some q → ∀ c, c ∈ p.parts → c ∈ q.parts → a = b) ∧
    (∀ (a b : Nat) (p q : Region), s.regions[a]? = some p → s.regions[b]? = some q →
      ∀ c, c ∈ p.cells → c ∈ q.cells → a = b) ∧
    (∀ p, p ∈ s.planes → ∀ r, r ∈ s.regions → ∀ c, c ∈ p.parts → c ∉ r.cells) := by
  have hI := (reached_inv hf hv h).shapes
  refine ⟨?_, ?_, ?_⟩
  · intro a b p q ha hb c hp hq
    have h1 := (hI.plane c a).mpr ⟨p, ha, hp⟩
    have h2 := (hI.plane c b).mpr ⟨q, hb, hq⟩
    omega
  · intro a b p q ha hb c hp hq
    have h1 := (hI.cyl c a).mpr ⟨p, ha, hp⟩
    have h2 := (hI.cyl c b).mpr ⟨q, hb, hq⟩
    omega
  · intro p hp r hr c hcp hcr
    obtain ⟨a, ha⟩ := List.mem_iff_getElem?.mp hp
    obtain ⟨b, hb⟩ := List.mem_iff_getElem?.mp hr
    have h1 := (hI.plane c a).mpr ⟨p, ha, hcp⟩
    have h2 := (hI.cyl c b).mpr ⟨r, hb, hcr⟩
    rcases hI.one c with h0 | h0 <;> omega

/-- The label maps say which shape a cell belongs to, and labelled cells are planar cells of the grid that are
not proposed for growth any more. -/
theorem C43_labels_are_the_shapes (g : Scene) (hv : ValidScene g) (fuel : Nat) (hf : g.total < fuel) (s : St)
    (h : Reached g fuel s) (c k : Nat) :
    (s.planeMap.getD c 0 = k + 1 ↔ ∃ p, s.planes[k]? = some p ∧ c ∈ p.parts) ∧
    (s.cylMap.getD c 0 = k + 1 ↔ ∃ r, s.regions[k]? = some r ∧ c ∈ r.cells) ∧
    (s.planeMap.getD c 0 ≠ 0 ∨ s.cylMap.getD c 0 ≠ 0 → c < g.total ∧ g.planar c = true ∧ c ∉ s.free) := by
  have hI := (reached_inv hf hv h).shapes
  refine ⟨hI.plane c k, hI.cyl c k, fun hne => ?_⟩
  obtain ⟨h1, h2, h3⟩ := hI.used c hne
  exact ⟨h3, h2, h1⟩

/-- The label of a cell never changes once it is given. -/
theorem C43_label_kept (g : Scene) (hv : ValidScene g) (fuel : Nat) (hf : g.total < fuel) (s s' : St) (seed : Nat)
    (h : Reached g fuel s) (hs : seed ∈ candidates s.hist) (hg : growAtSeed g fuel s seed = .ok s') (c : Nat) :
    (s.planeMap.getD c 0 ≠ 0 → s'.planeMap.getD c 0 = s.planeMap.getD c 0) ∧
    (s.cylMap.getD c 0 ≠ 0 → s'.cylMap.getD c 0 = s.cylMap.getD c 0) := by
  have hI := reached_inv hf hv h
  obtain ⟨h1, h2, h3⟩ := candidate_ok hI.hist hs
  obtain ⟨s'', e, _, _, hk⟩ := growAtSeed_spec hI h1 h2 hf h3
  rw [e] at hg
  injection hg with hg
  subst hg
  exact hk c

/-- The result of the extraction is a reached state. -/
theorem C43_result_reached (g : Scene) (fuel : Nat) (s : St) (h : detect g fuel = .ok s) : Reached g fuel s :=
  detect_reached h

/-- Non-vacuity: a 3 × 2 grid whose middle column is not planar gives two planes. -/
example : (detect (sample 3 2 (fun i => i % 3 != 1) true) 7).holds
    (fun s => s.planeMap == [1, 0, 2, 1, 0, 2] && s.planes.length == 2) = true := by decide +kernel

/-- Non-vacuity: six cells that are not flat enough give one cylinder region. -/
example : (detect (sample 6 1 (fun _ => true) false) 7).holds
    (fun s => s.cylMap == [1, 1, 1, 1, 1, 1] && s.planes.length == 0) = true := by decide +kernel

/-! ### C44: labels after merging -/

/-- After merging, every plane is labelled by a plane that labels itself and is not after it. -/
theorem C44_representatives (g : Scene) (adj : Nat → Nat → Bool) (planes : List Seg) (i : Nat)
    (hi : i < planes.length) :
    let labels := (mergePlanes g adj planes).labels
    labels.getD i 0 ≤ i ∧ labels.getD (labels.getD i 0) 0 = labels.getD i 0 := by
  have h := mergePlanes_inv g adj planes
  exact ⟨h.le i hi, h.rep i hi⟩

/-- A plane labelled by another one is adjacent to an earlier plane with the same label, and passed the merge test
against the representative, either as it was found or after it absorbed other planes.  By induction it is linked to its
representative by a chain of merges inside its label class; and a plane that is adjacent to no earlier plane,
or that passes no such test, keeps its own label. -/
theorem C44_linked (g : Scene) (adj : Nat → Nat → Bool) (planes : List Seg) (i : Nat) (hi : i < planes.length) :
    let labels := (mergePlanes g adj planes).labels
    labels.getD i 0 ≠ i →
      ∃ j, j < i ∧ adj j i = true ∧ labels.getD j 0 = labels.getD i 0 ∧
        ∃ f, (f = (planes.getD (labels.getD i 0) noSeg).fitted ∨
            (planes.getD (labels.getD i 0) noSeg).parts <+: f) ∧
          g.segMerge f (planes.getD i noSeg).fitted = true := by
  intro labels hne
  obtain ⟨r, h1, _, h3, h4, _, h6⟩ := (mergePlanes_inv g adj planes).link i hi hne
  exact ⟨r, h1, h3, h4, h6⟩

/-- Two adjacent planes are merged when the second passes the merge test whatever the first one absorbed
before: it does not keep its own label. -/
theorem C44_merges_happen (g : Scene) (adj : Nat → Nat → Bool) (planes : List Seg) (i j : Nat) (hij : i < j)
    (hj : j < planes.length) (hadj : adj i j = true) (hpl : ∀ f, g.planarFit f = true)
    (hmg : ∀ f, g.segMerge f (planes.getD j noSeg).fitted = true) :
    (mergePlanes g adj planes).labels.getD j 0 < j :=
  mergePlanes_merges hij hj hadj hpl hmg

/-- Non-vacuity: four planes in a row; the third is refused, the fourth is adjacent to the third only. -/
example : (mergePlanes { sample 1 1 (fun _ => true) true with segMerge := fun _ b => b != [2] }
    (fun a b => a + 1 == b || b + 1 == a)
    [⟨[0], [0]⟩, ⟨[1], [1]⟩, ⟨[2], [2]⟩, ⟨[3], [3]⟩]).labels = [0, 0, 2, 2] := by decide +kernel

/-! ### C68: merged planes and the points of their parts -/

/-- The cells of every plane are accumulated in its representative.  What is missing from the full statement: they may
be accumulated several times, or in another plane as well (`C68_counted_twice_false`,
`C68_two_planes_false`). -/
theorem C68_all_cells_present_partial (g : Scene) (adj : Nat → Nat → Bool) (planes : List Seg) (i : Nat)
    (hi : i < planes.length) (c : Nat) (hc : c ∈ (planes.getD i noSeg).parts) :
    let m := mergePlanes g adj planes
    c ∈ (m.segs.getD (m.labels.getD i 0) noSeg).parts :=
  (mergePlanes_inv g adj planes).covers i hi c hc

/-- Three planes that touch each other and can be merged: the third one is added twice to the first one. -/
theorem C68_counted_twice_false :
    ¬ ∀ (g : Scene) (adj : Nat → Nat → Bool) (planes : List Seg),
      (∀ c, (planes.map (times c)).sum ≤ 1) → ∀ i, i < planes.length →
      ∀ c, times c ((mergePlanes g adj planes).segs.getD i noSeg) ≤ 1 := by
  intro h
  have := h (sample 1 1 (fun _ => true) true) (fun a b => a != b) [⟨[0], [0]⟩, ⟨[1], [1]⟩, ⟨[2], [2]⟩]
    (by intro c; simp only [List.map, List.sum_cons, List.sum_nil, times]; simp only [List.count_singleton]; grind)
    0 (by decide) 2
  revert this
  decide +kernel

/-- A plane between two others that do not touch each other: it is absorbed by both, which both survive. -/
theorem C68_two_planes_false :
    ¬ ∀ (g : Scene) (adj : Nat → Nat → Bool) (planes : List Seg),
      (∀ c, (planes.map (times c)).sum ≤ 1) →
      ∀ i j, i < planes.length → j < planes.length →
        (mergePlanes g adj planes).labels.getD i 0 = i → (mergePlanes g adj planes).labels.getD j 0 = j →
        ∀ c, c ∈ ((mergePlanes g adj planes).segs.getD i noSeg).parts →
          c ∈ ((mergePlanes g adj planes).segs.getD j noSeg).parts → i = j := by
  intro h
  have := h (sample 1 1 (fun _ => true) true) (fun a b => a == 2 || b == 2) [⟨[0], [0]⟩, ⟨[1], [1]⟩, ⟨[2], [2]⟩]
    (by intro c; simp only [List.map, List.sum_cons, List.sum_nil, times]; simp only [List.count_singleton]; grind)
    0 1 (by decide) (by decide) (by decide +kernel) (by decide +kernel) 2 (by decide +kernel) (by decide +kernel)
  exact absurd this (by decide)

/-! ### C45: adjacency of planes -/

/-- The adjacency is symmetric and irreflexive. -/
theorem C45_symmetric (rows cols : Nat) (label : Nat → Nat → Nat) (p q : Nat) :
    ((p, q) ∈ connected rows cols label ↔ (q, p) ∈ connected rows cols label) ∧
    (p, p) ∉ connected rows cols label := by
  refine ⟨?_, ?_⟩
  · rw [mem_connected, mem_connected]
    constructor <;>
    · rintro ⟨r, c, hr, hc, hp, h⟩
      refine ⟨r, c, hr, hc, hp, ?_⟩
      rcases h with ⟨h1, h2, h3⟩ | ⟨h1, h2, h3⟩
      · exact Or.inl ⟨h1, h2, h3.symm.imp (fun h => ⟨h.2, h.1⟩) (fun h => ⟨h.2, h.1⟩)⟩
      · exact Or.inr ⟨h1, h2, h3.symm.imp (fun h => ⟨h.2, h.1⟩) (fun h => ⟨h.2, h.1⟩)⟩
  · rw [mem_connected]
    rintro ⟨r, c, hr, hc, hp, h⟩
    rcases h with ⟨h1, h2, h3 | h3⟩ | ⟨h1, h2, h3 | h3⟩ <;> omega

/-- Planes reported adjacent do touch each other. -/
theorem C45_sound (rows cols : Nat) (label : Nat → Nat → Nat) (p q : Nat)
    (h : (p, q) ∈ connected rows cols label) : Touch rows cols label p q := by
  rw [mem_connected] at h
  obtain ⟨r, c, hr, hc, hp, h⟩ := h
  rcases h with ⟨h1, h2, ⟨rfl, rfl⟩ | ⟨rfl, rfl⟩⟩ | ⟨h1, h2, ⟨rfl, rfl⟩ | ⟨rfl, rfl⟩⟩
  · exact ⟨by omega, r, c, r, c + 1, by omega, by omega, by omega, by omega, by omega, by omega,
      Or.inl ⟨rfl, Or.inr rfl⟩⟩
  · exact ⟨by omega, r, c + 1, r, c, by omega, by omega, by omega, by omega, by omega, by omega,
      Or.inl ⟨rfl, Or.inl rfl⟩⟩
  · exact ⟨by omega, r, c, r + 1, c, by omega, by omega, by omega, by omega, by omega, by omega,
      Or.inr ⟨rfl, Or.inr rfl⟩⟩
  · exact ⟨by omega, r + 1, c, r, c, by omega, by omega, by omega, by omega, by omega, by omega,
      Or.inr ⟨rfl, Or.inl rfl⟩⟩

/-- Planes that touch each other are reported adjacent, provided that they do so by two cells of which the upper or
left one is neither in the last row nor in the last column.  What is missing: the pairs of cells inside the last row and
inside the last column are not looked at (`C45_last_row_false`). -/
theorem C45_complete_partial (rows cols : Nat) (label : Nat → Nat → Nat) (p q : Nat) (hpq : p ≠ q)
    (r c r' c' : Nat) (hr : r + 1 < rows) (hc : c + 1 < cols) (hp : label r c = p + 1) (hq : label r' c' = q + 1)
    (hn : (r' = r ∧ c' = c + 1) ∨ (r' = r + 1 ∧ c' = c)) :
    (p, q) ∈ connected rows cols label ∧ (q, p) ∈ connected rows cols label := by
  have : (p, q) ∈ connected rows cols label := by
    rw [mem_connected]
    refine ⟨r, c, by omega, by omega, by omega, ?_⟩
    rcases hn with ⟨rfl, rfl⟩ | ⟨rfl, rfl⟩
    · exact Or.inl ⟨by omega, by omega, Or.inl ⟨by omega, by omega⟩⟩
    · exact Or.inr ⟨by omega, by omega, Or.inl ⟨by omega, by omega⟩⟩
  exact ⟨this, (C45_symmetric rows cols label p q).1.mp this⟩

/-- The full statement is false: two planes that touch in the last row only are not reported. -/
theorem C45_last_row_false :
    ¬ ∀ (rows cols : Nat) (label : Nat → Nat → Nat) (p q : Nat), Touch rows cols label p q →
      (p, q) ∈ connected rows cols label := by
  intro h
  have := h 2 2 (fun r c => if r = 1 then c + 1 else 0) 0 1
    ⟨by decide, 1, 0, 1, 1, by decide, by decide, by decide, by decide, rfl, rfl, Or.inl ⟨rfl, Or.inr rfl⟩⟩
  revert this
  decide

/-- Non-vacuity: a 2 × 3 map with three planes. -/
example : connected 2 3 (fun r c => if r = 0 then [1, 2, 2].getD c 0 else [3, 3, 0].getD c 0) =
    [(0, 1), (1, 0), (0, 2), (2, 0), (1, 2), (2, 1)] := by decide

/-! ### C48: cylinder segmentation -/

/-- Splitting a set of patches in cylinders returns, whatever is drawn; each sub-segment has at least six patches of the
set, and no patch is in two sub-segments. -/
theorem C48_disjoint_segments (fit : Cylinder.Fit) (cells : List Nat) (minCells : Nat) :
    ∀ fuel, cells.length < fuel → ∃ seg, fitSegment fit cells minCells fuel = .ok seg ∧
      seg.count = seg.inliers.length ∧
      (∀ l, l ∈ seg.inliers → 6 ≤ l.length ∧ l.Nodup ∧ ∀ i, i ∈ l → i < cells.length) ∧
      ∀ (a b : Nat) (l m : List Nat), seg.inliers[a]? = some l → seg.inliers[b]? = some m →
        ∀ i, i ∈ l → i ∈ m → a = b := by
  intro fuel hf
  obtain ⟨seg, h1, h2, _⟩ := fitSegment_spec fit cells minCells fuel hf
  refine ⟨seg, h1, h2.count, fun l hl => ⟨h2.size l hl, h2.nodup l hl, h2.range l hl⟩, ?_⟩
  intro a b l m ha hb i hi hm
  obtain ⟨ha', rfl⟩ := List.getElem?_eq_some_iff.mp ha
  obtain ⟨hb', rfl⟩ := List.getElem?_eq_some_iff.mp hb
  have hp := List.pairwise_iff_getElem.mp h2.disjoint
  rcases Nat.lt_trichotomy a b with h | h | h
  · exact absurd hm (hp a b ha' hb' h i hi)
  · exact h
  · exact absurd hi (hp b a hb' ha' h i hm)

/-- Non-vacuity: thirteen patches, seven on a first cylinder and six on a second one. -/
example : (fitSegment { axis := true,
                        hyps := fun r => [fun i => if r = 0 ∧ i < 7 then some 0 else if r = 1 then some (1 / 100) else none],
                        radius := fun _ => some 3 } (List.range 13) 0 14).holds
    (fun s => s.inliers == [[0, 1, 2, 3, 4, 5, 6], [7, 8, 9, 10, 11, 12]]) = true := by decide +kernel

/-! ### C47: radius of a cylinder -/

/-- The radius of the cylinder made from a fitted segment with at least one sub-segment, if all radii are numbers, is the mean of the radii,
none of which is negative.  What is missing: the cylinders returned are not made from the fitted segment but from
a copy (`C47_radius_lost_false`). -/
theorem C47_mean_of_original_partial (fit : Cylinder.Fit) (cells : List Nat) (minCells fuel : Nat) (seg : Segment)
    (h : fitSegment fit cells minCells fuel = .ok seg) (hf : cells.length < fuel) (hc : seg.count ≠ 0)
    (rs : List Rat) (hr : seg.radii = rs.map some) :
    cylinderRadius seg = some (rs.sum / seg.count) ∧ ∀ r, r ∈ rs → 0 ≤ r := by
  refine ⟨?_, fun r hrr => fitSegment_radii h r (hr ▸ List.mem_map_of_mem hrr)⟩
  obtain ⟨seg', h1, h2, _⟩ := fitSegment_spec fit cells minCells fuel hf
  rw [h] at h1
  injection h1 with h1
  subst h1
  have hlen : seg.count = rs.length := by
    rw [h2.count, ← h2.radii, hr]; simp
  have key : ∀ (k : Nat), k ≤ rs.length →
      (List.range k).foldl (fun r i => addNum r (seg.radii.getD i none)) (some 0) = some (rs.take k).sum := by
    intro k
    induction k with
    | zero => intro _; simp
    | succ k ih =>
      intro hk
      rw [List.range_succ, List.foldl_append, ih (by omega)]
      have hk' : k < rs.length := by omega
      simp only [List.foldl_cons, List.foldl_nil, hr, List.getD_eq_getElem?_getD, List.getElem?_map,
        List.getElem?_eq_getElem hk', Option.map_some, Option.getD_some, addNum]
      rw [List.take_succ_eq_append_getElem hk', List.sum_append]
      simp [Rat.add_zero]
  unfold cylinderRadius
  rw [hlen, key rs.length (Nat.le_refl _)]
  unfold divNat
  simp only
  rw [if_neg (by omega)]
  simp

/-- The copy constructor resets the number of sub-segments, and every cylinder returned by the detection is made from a copy: its
radius is 0/0, for every depth image. -/
theorem C47_radius_lost_false (g : Scene) (fuel : Nat) (s : St) (h : detect g fuel = .ok s)
    (survives : Nat → Bool) : ∀ r, r ∈ cylinderRadii survives s → r = none := by
  have hcopy := reached_cylinders (detect_reached h)
  intro r hr
  unfold cylinderRadii at hr
  obtain ⟨i, _, rfl⟩ := List.mem_map.mp hr
  simp only
  generalize (s.regions.getD i { cylinder := 0, segId := 0, cells := [] }).cylinder = k
  have : (s.cylinders.getD k { count := 0, radii := [], inliers := [], toGlobal := [] }).count = 0 := by
    rw [List.getD_eq_getElem?_getD]
    cases hk : s.cylinders[k]? with
    | none => rfl
    | some c =>
      obtain ⟨seg, rfl⟩ := hcopy c (List.mem_of_getElem? hk)
      rfl
  unfold cylinderRadius
  rw [this]
  rfl

/-- Non-vacuity: a cylinder of radius 50 is found and returned with an undefined radius. -/
example : (detect (sample 6 1 (fun _ => true) false) 7).holds
    (fun s => cylinderRadii (fun _ => true) s == [none] && (s.cylinders.map (·.radii)) == [[some 50]]) = true := by
  decide +kernel

end RgbdSlam.Primitives
