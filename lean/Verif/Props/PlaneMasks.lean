import Verif.Props.Primitives

/-
More properties of the primitive detection: C41 (removal out of range), C123 (masks of the planes returned),
C124 (choice of the seeds, end of the growth).
-/
namespace RgbdSlam.Primitives

open RgbdSlam Spec Histogram Cylinder

/-! ### C41: a cell that was not given to the histogram -/

/-- Removing a cell that was not given to the histogram ends the program, whatever was removed before. -/
theorem C41_out_of_range (points : List (Option (Rat × Rat))) (hv : ValidDirections points) (ids : List Nat)
    (hids : ∀ i, i ∈ ids → ∃ u v, points[i]? = some (some (u, v))) (i : Nat) (hi : points.length ≤ i) :
    (init points).bind (removeAll (ids ++ [i])) = .exit := by
  obtain ⟨h0, he, hinv⟩ := init_inv hv
  rw [he, Outcome.bind_ok]
  have hids' : ∀ i, i ∈ ids → i < points.length ∧ binAt points i ≠ -1 := by
    intro i hi
    obtain ⟨u, v, hp⟩ := hids i hi
    refine ⟨(List.getElem?_eq_some_iff.mp hp).1, ?_⟩
    unfold binAt
    rw [hp]
    obtain ⟨h1, h2, h3, h4⟩ := hv u v (List.mem_of_getElem? hp)
    have := (bin_spec h1 h2 h3 h4).1
    simp only
    omega
  obtain ⟨h1, he1, hlen⟩ : ∃ h1, removeAll ids h0 = .ok h1 ∧ h1.bins.length = points.length := by
    obtain ⟨h1, he1, hinv1⟩ := removeAll_inv hv hinv hids'
    exact ⟨h1, he1, hinv1.lenB⟩
  clear hids hids'
  have app : ∀ (ids : List Nat) (h h1 : Hist), removeAll ids h = .ok h1 →
      removeAll (ids ++ [i]) h = (removePoint h1 i).bind (removeAll []) := by
    intro ids
    induction ids with
    | nil => intro h h1 e; injection e with e; subst e; rfl
    | cons a ids ih =>
      intro h h1 e
      obtain ⟨h2, e1, e2⟩ := Outcome.bind_eq_ok e
      rw [List.cons_append, removeAll, e1, Outcome.bind_ok]
      exact ih h2 h1 e2
  rw [app ids h0 h1 he1, removePoint, if_pos (by omega)]
  rfl

/-- Non-vacuity: the histogram of two cells; cell 2 does not exist. -/
example : (init [some (1 / 2, 1 / 2), none]).bind (removeAll ([0] ++ [2])) = .exit := by decide +kernel

/-! ### C123: masks of the planes returned -/

/-- The plane (numbered from 0) that a cell was labelled with. -/
def planeOf (s : St) (c : Nat) : Option Nat :=
  match s.planeMap.getD c 0 with
  | 0 => none
  | k + 1 => some k

theorem planeOf_eq {s : St} {c k : Nat} : planeOf s c = some k ↔ s.planeMap.getD c 0 = k + 1 := by
  unfold planeOf
  cases s.planeMap.getD c 0 <;> simp

/-- Two increasing lists with the same elements are equal. -/
theorem sorted_ext : ∀ {a b : List Nat}, a.Pairwise (· < ·) → b.Pairwise (· < ·) → (∀ c, c ∈ a ↔ c ∈ b) → a = b
  | [], [], _, _, _ => rfl
  | [], y :: b, _, _, h => by have := (h y).mpr (by simp); cases this
  | x :: a, [], _, _, h => by have := (h x).mp (by simp); cases this
  | x :: a, y :: b, ha, hb, h => by
    rw [List.pairwise_cons] at ha hb
    have hxy : x = y := by
      rcases List.mem_cons.mp ((h x).mp (by simp)) with h1 | h1
      · exact h1
      · rcases List.mem_cons.mp ((h y).mpr (by simp)) with h2 | h2
        · exact h2.symm
        · have := hb.1 x h1; have := ha.1 y h2; omega
    subst hxy
    rw [sorted_ext ha.2 hb.2]
    intro c
    constructor
    · intro hc
      rcases List.mem_cons.mp ((h c).mp (by simp [hc])) with h1 | h1
      · have := ha.1 c hc; omega
      · exact h1
    · intro hc
      rcases List.mem_cons.mp ((h c).mpr (by simp [hc])) with h1 | h1
      · have := hb.1 c hc; omega
      · exact h1

/-- The entries of `planeMasks`. -/
theorem mem_planeMasks {g : Scene} {s : St} {m : Merge} {seg : Seg} {mask : List Nat} :
    (seg, mask) ∈ planeMasks g s m ↔
      ∃ i, i < m.segs.length ∧ m.labels.getD i 0 = i ∧ seg = m.segs.getD i noSeg ∧
        g.planarFit seg.fitted = true ∧
        mask = (List.range g.total).filter fun c => (List.range m.segs.length).any fun j =>
          decide (i ≤ j) && m.labels.getD j 0 == i && s.planeMap.getD c 0 == j + 1 := by
  unfold planeMasks
  simp only [List.mem_map, List.mem_filter, List.mem_range, Bool.and_eq_true, beq_iff_eq, Prod.mk.injEq]
  constructor
  · rintro ⟨i, ⟨h1, h2, h3⟩, h4, h5⟩
    exact ⟨i, h1, h2, h4.symm, h4 ▸ h3, h5.symm⟩
  · rintro ⟨i, h1, h2, h3, h4, h5⟩
    exact ⟨i, ⟨h1, h2, h3 ▸ h4⟩, h3.symm, h5.symm⟩

/-- What is returned for the planes found in a detection state. -/
def returned (g : Scene) (s : St) : List (Seg × List Nat) :=
  planeMasks g s (mergePlanes g (s.adj g) s.planes)

/-- The representative of plane `k` after the merge. -/
def representative (g : Scene) (s : St) (k : Nat) : Nat :=
  (mergePlanes g (s.adj g) s.planes).labels.getD k 0

theorem returned_mask {g : Scene} (hv : ValidScene g) {fuel : Nat} (hf : g.total < fuel) {s : St}
    (hd : detect g fuel = .ok s) {seg : Seg} {mask : List Nat} :
    (seg, mask) ∈ returned g s ↔
      ∃ i, i < s.planes.length ∧ representative g s i = i ∧
        seg = (mergePlanes g (s.adj g) s.planes).segs.getD i noSeg ∧ g.planarFit seg.fitted = true ∧
        Lists mask (fun c => ∃ k, planeOf s c = some k ∧ representative g s k = i) := by
  have hI := (reached_inv hf hv (detect_reached hd)).shapes
  have hM := mergePlanes_inv g (s.adj g) s.planes
  have hlen : (mergePlanes g (s.adj g) s.planes).segs.length = s.planes.length := hM.lenS
  have hmask : ∀ i, Lists ((List.range g.total).filter fun c =>
      (List.range (mergePlanes g (s.adj g) s.planes).segs.length).any fun j =>
        decide (i ≤ j) && (mergePlanes g (s.adj g) s.planes).labels.getD j 0 == i &&
          s.planeMap.getD c 0 == j + 1) (fun c => ∃ k, planeOf s c = some k ∧ representative g s k = i) := by
    intro i
    refine ⟨List.Pairwise.filter _ List.pairwise_lt_range, ?_⟩
    intro c
    simp only [List.mem_filter, List.mem_range, List.any_eq_true, Bool.and_eq_true, beq_iff_eq,
      decide_eq_true_eq, planeOf_eq, hlen]
    constructor
    · rintro ⟨_, j, _, ⟨_, h2⟩, h3⟩
      exact ⟨j, h3, h2⟩
    · rintro ⟨k, h1, h2⟩
      obtain ⟨_, _, hc⟩ := hI.used c (.inl (by omega))
      obtain ⟨p, hp, _⟩ := (hI.plane c k).mp h1
      have hk : k < s.planes.length := (List.getElem?_eq_some_iff.mp hp).1
      have hle := hM.le k hk
      exact ⟨hc, k, hk, ⟨by rw [← h2]; exact hle, h2⟩, h1⟩
  unfold returned
  rw [mem_planeMasks]
  constructor
  · rintro ⟨i, h1, h2, h3, h4, h5⟩
    exact ⟨i, hlen ▸ h1, h2, h3, h4, h5 ▸ hmask i⟩
  · rintro ⟨i, h1, h2, h3, h4, h5⟩
    refine ⟨i, hlen ▸ h1, h2, h3, h4, ?_⟩
    exact sorted_ext h5.1 (hmask i).1 (fun c => (h5.2 c).trans ((hmask i).2 c).symm)

/-- C123: the planes returned are those that are their own representative and planar after the merge, and
the mask of each consists exactly of the cells of the planes that it represents. -/
theorem C123_masks (g : Scene) (hv : ValidScene g) (fuel : Nat) (hf : g.total < fuel) (s : St)
    (hd : detect g fuel = .ok s) (seg : Seg) (mask : List Nat) :
    (seg, mask) ∈ returned g s ↔
      ∃ i, i < s.planes.length ∧ representative g s i = i ∧
        seg = (mergePlanes g (s.adj g) s.planes).segs.getD i noSeg ∧ g.planarFit seg.fitted = true ∧
        Lists mask (fun c => ∃ k, planeOf s c = some k ∧ representative g s k = i) :=
  returned_mask hv hf hd

/-- C123: the masks of the planes returned have no cell in common, and no cell of a cylinder. -/
theorem C123_disjoint (g : Scene) (hv : ValidScene g) (fuel : Nat) (hf : g.total < fuel) (s : St)
    (hd : detect g fuel = .ok s) :
    (returned g s).Pairwise (fun a b => ∀ c, c ∈ a.2 → c ∉ b.2) ∧
      ∀ a ∈ returned g s, ∀ c ∈ a.2, c < g.total ∧ g.planar c = true ∧ ∀ r ∈ s.regions, c ∉ r.cells := by
  have hI := (reached_inv hf hv (detect_reached hd)).shapes
  constructor
  · unfold returned planeMasks
    rw [List.pairwise_map]
    refine List.Pairwise.filter _ ?_
    refine List.Pairwise.imp ?_ (List.pairwise_lt_range)
    intro a b hab c ha hb
    simp only [List.mem_filter, List.mem_range, List.any_eq_true, Bool.and_eq_true, beq_iff_eq] at ha hb
    obtain ⟨_, j, _, ⟨_, h1⟩, h2⟩ := ha
    obtain ⟨_, k, _, ⟨_, h3⟩, h4⟩ := hb
    have : j = k := by omega
    subst this
    omega
  · rintro ⟨seg, mask⟩ ha c hc
    obtain ⟨i, _, _, _, _, hm⟩ := (returned_mask hv hf hd).mp ha
    obtain ⟨k, hk, _⟩ := (hm.2 c).mp hc
    rw [planeOf_eq] at hk
    obtain ⟨_, h2, h3⟩ := hI.used c (.inl (by omega))
    refine ⟨h3, h2, ?_⟩
    intro r hr hcr
    obtain ⟨n, hn⟩ := List.mem_iff_getElem?.mp hr
    have := (hI.cyl c n).mpr ⟨r, hn, hcr⟩
    rcases hI.one c with h | h <;> omega

/-- C123: a cell of a plane is in the mask of a returned plane, unless the segment of its representative is
not planar after the merge. -/
theorem C123_covered (g : Scene) (hv : ValidScene g) (fuel : Nat) (hf : g.total < fuel) (s : St)
    (hd : detect g fuel = .ok s) (c k : Nat) (hc : planeOf s c = some k) :
    (∃ a ∈ returned g s, c ∈ a.2) ↔
      g.planarFit ((mergePlanes g (s.adj g) s.planes).segs.getD (representative g s k) noSeg).fitted = true := by
  have hI := (reached_inv hf hv (detect_reached hd)).shapes
  have hM := mergePlanes_inv g (s.adj g) s.planes
  have hk : k < s.planes.length := by
    obtain ⟨p, hp, _⟩ := (hI.plane c k).mp (planeOf_eq.mp hc)
    exact (List.getElem?_eq_some_iff.mp hp).1
  constructor
  · rintro ⟨⟨seg, mask⟩, ha, hca⟩
    obtain ⟨i, _, _, h3, h4, hm⟩ := (returned_mask hv hf hd).mp ha
    obtain ⟨k', hk', hr⟩ := (hm.2 c).mp hca
    rw [hc] at hk'
    injection hk' with hk'
    rw [hk', hr, ← h3]
    exact h4
  · intro hp
    have hle : representative g s k ≤ k := hM.le k hk
    have hrep : representative g s (representative g s k) = representative g s k := hM.rep k hk
    refine ⟨(_, _), mem_planeMasks.mpr ⟨representative g s k, ?_, hrep, rfl, hp, rfl⟩, ?_⟩
    · rw [hM.lenS]; omega
    · simp only [List.mem_filter, List.mem_range, List.any_eq_true, Bool.and_eq_true, beq_iff_eq,
        decide_eq_true_eq]
      have hm := planeOf_eq.mp hc
      obtain ⟨_, _, h3⟩ := hI.used c (.inl (by omega))
      exact ⟨h3, k, by rw [hM.lenS]; exact hk, ⟨hle, rfl⟩, hm⟩

/-- Non-vacuity: the 3 × 2 grid whose middle column is not planar gives two planes and their masks. -/
example : (detect (sample 3 2 (fun i => i % 3 != 1) true) 7).holds
    (fun s => (returned (sample 3 2 (fun i => i % 3 != 1) true) s).map (·.2) == [[0, 3], [2, 5]]) = true := by
  decide +kernel

/-! ### C124: seeds -/

/-- The seed chosen is a candidate, and no candidate has a smaller error. -/
theorem pickSeed_min {mse : Nat → Option Rat} (hpos : ∀ c e, mse c = some e → 0 ≤ e) :
    ∀ (cs : List Nat) (best : Option (Nat × Rat)) (s : Nat) (e : Rat),
      pickSeed mse cs best = some (s, e) →
      ((s ∈ cs ∧ mse s = some e) ∨ best = some (s, e)) ∧
      (∀ b, best = some b → e ≤ b.2) ∧ ∀ c ∈ cs, ∀ e', mse c = some e' → e ≤ e' := by
  intro cs
  induction cs with
  | nil =>
    intro best s e h
    refine ⟨.inr h, ?_, by simp⟩
    intro b hb
    rw [show best = some (s, e) from h] at hb
    injection hb with hb
    subst hb; exact Rat.le_refl
  | cons c cs ih =>
    intro best s e h
    rw [pickSeed] at h
    split at h
    · rename_i hn
      obtain ⟨h1, h2, h3⟩ := ih best s e h
      refine ⟨h1.imp (fun h => ⟨by simp [h.1], h.2⟩) id, h2, ?_⟩
      intro d hd e' he'
      rcases List.mem_cons.mp hd with rfl | hd
      · rw [hn] at he'; cases he'
      · exact h3 d hd e' he'
    · rename_i x hx
      have taken : pickSeed mse cs (some (c, x)) = some (s, e) → (∀ b, best = some b → x ≤ b.2) →
          ((s ∈ c :: cs ∧ mse s = some e) ∨ best = some (s, e)) ∧
            (∀ b, best = some b → e ≤ b.2) ∧ ∀ d ∈ c :: cs, ∀ e', mse d = some e' → e ≤ e' := by
        intro h hb
        obtain ⟨h1, h2, h3⟩ := ih _ s e h
        have hex : e ≤ x := h2 _ rfl
        refine ⟨.inl ?_, fun b hb' => Rat.le_trans hex (hb b hb'), ?_⟩
        · rcases h1 with h1 | h1
          · exact ⟨by simp [h1.1], h1.2⟩
          · injection h1 with h1; injection h1 with h1 h1'
            subst h1; subst h1'
            exact ⟨by simp, hx⟩
        · intro d hd e' he'
          rcases List.mem_cons.mp hd with rfl | hd
          · rw [hx] at he'; injection he' with he'; subst he'; exact hex
          · exact h3 d hd e' he'
      have stop : x ≤ 0 → some (c, x) = some (s, e) → (∀ b, best = some b → x ≤ b.2) →
          ((s ∈ c :: cs ∧ mse s = some e) ∨ best = some (s, e)) ∧
            (∀ b, best = some b → e ≤ b.2) ∧ ∀ d ∈ c :: cs, ∀ e', mse d = some e' → e ≤ e' := by
        intro h0 h hb
        injection h with h; injection h with h1 h2
        subst h1; subst h2
        exact ⟨.inl ⟨by simp, hx⟩, hb, fun d _ e' he' => Rat.le_trans h0 (hpos d e' he')⟩
      split at h
      · rename_i b0 m
        split at h
        · rename_i hle
          obtain ⟨h1, h2, h3⟩ := ih _ s e h
          refine ⟨h1.imp (fun h => ⟨by simp [h.1], h.2⟩) id, h2, ?_⟩
          intro d hd e' he'
          rcases List.mem_cons.mp hd with rfl | hd
          · rw [hx] at he'; injection he' with he'; subst he'
            exact Rat.le_trans (h2 _ rfl) hle
          · exact h3 d hd e' he'
        · rename_i hlt
          have hb : ∀ b, some (b0, m) = some b → x ≤ b.2 := by
            intro b hb
            injection hb with hb
            subst hb
            exact Rat.le_of_lt (Rat.not_le.mp hlt)
          split at h
          · rename_i h0; exact stop h0 h hb
          · exact taken h hb
      · split at h
        · rename_i h0; exact stop h0 h (fun b hb => by cases hb)
        · exact taken h (fun b hb => by cases hb)

theorem pickSeed_none {mse : Nat → Option Rat} : ∀ (cs : List Nat) (best : Option (Nat × Rat)),
    pickSeed mse cs best = none → best = none ∧ ∀ c ∈ cs, mse c = none := by
  intro cs
  induction cs with
  | nil => intro best h; exact ⟨h, by simp⟩
  | cons c cs ih =>
    intro best h
    rw [pickSeed] at h
    split at h
    · rename_i hn
      obtain ⟨h1, h2⟩ := ih best h
      refine ⟨h1, ?_⟩
      intro d hd
      rcases List.mem_cons.mp hd with rfl | hd
      · exact hn
      · exact h2 d hd
    · split at h
      · split at h
        · have := (ih _ h).1; cases this
        · split at h
          · cases h
          · have := (ih _ h).1; cases this
      · split at h
        · cases h
        · have := (ih _ h).1; cases this

/-- C124: the extraction only grows cells of a most frequent direction that holds 0.8 % of the cells of the
grid at least, always the one with the smallest error, and stops only when no cell is left to try, when the
most frequent direction holds less than that, or when no candidate has a finite error. -/
theorem C124_seeds (g : Scene) (hpos : ∀ c e, g.mse c = some e → 0 ≤ e) (fuel : Nat) (s : St)
    (hd : detect g fuel = .ok s) :
    (∃ s0, start g = .ok s0 ∧ Turns g fuel s0 s) ∧
      (s.untried = 0 ∨ (candidates s.hist).length < g.total * 8 / 1000 ∨
        ∀ c ∈ candidates s.hist, g.mse c = none) := by
  have key : ∀ (turns : Nat) (s0 a s : St), Turns g fuel s0 a → growLoop g fuel turns a = .ok s →
      Turns g fuel s0 s ∧ (s.untried = 0 ∨ (candidates s.hist).length < g.total * 8 / 1000 ∨
        ∀ c ∈ candidates s.hist, g.mse c = none) := by
    intro turns
    induction turns with
    | zero => intro s0 a s _ h; cases h
    | succ turns ih =>
      intro s0 a s ht h
      rw [growLoop] at h
      split at h
      · rename_i hu; injection h with h; subst h; exact ⟨ht, .inl hu⟩
      · rename_i hu
        simp only at h
        split at h
        · rename_i hc; injection h with h; subst h; exact ⟨ht, .inr (.inl hc)⟩
        · rename_i hc
          split at h
          · rename_i hn; injection h with h; subst h
            exact ⟨ht, .inr (.inr (pickSeed_none _ _ hn).2)⟩
          · rename_i seed e hp
            obtain ⟨h1, _, h3⟩ := pickSeed_min hpos _ _ _ _ hp
            obtain ⟨b, hb, hl⟩ := Outcome.bind_eq_ok h
            rcases h1 with h1 | h1
            · exact ih s0 b s (.turn ht (by omega) (by simpa [Scene.minSeeds] using hc) h1.1 h1.2 h3 hb) hl
            · cases h1
  obtain ⟨s0, h0, h1⟩ := Outcome.bind_eq_ok hd
  obtain ⟨h2, h3⟩ := key fuel s0 s0 s .none h1
  exact ⟨⟨s0, h0, h2⟩, h3⟩

/-- Non-vacuity: on a grid of 250 cells of which only three are planar, the direction needs two cells; the
first turn grows a plane of the first two cells, the last cell alone is not tried. -/
example : (detect (sample 250 1 (fun i => i == 3 || i == 4 || i == 6) true) 300).holds
    (fun s => s.planes.length == 1 && s.untried == 1) = true := by decide +kernel

end RgbdSlam.Primitives
