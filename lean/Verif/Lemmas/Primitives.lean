import Verif.Lemmas.Growing
import Verif.Lemmas.Cylinder

/-
Invariant and termination of the growth of planes and cylinders.
-/
namespace RgbdSlam.Primitives

open RgbdSlam Spec Histogram Cylinder

/-! ### Removing points from the histogram -/

/-- The marks of the histogram can be used for every planar cell, and no other cell has one. -/
structure HistOk (g : Scene) (h : Hist) : Prop where
  lenB : h.bins.length = g.total
  mark : ∀ i, i < g.total → g.planar i = true → ∃ b : Nat, h.bins.getD i (-1) = (b : Int) ∧ b < h.counts.length
  noMark : ∀ i, i < g.total → g.planar i = false → h.bins.getD i (-1) = -1
  len1 : 1 < h.counts.length

theorem sum_set_pred {l : List Nat} {b : Nat} (h : l.getD b 0 ≠ 0) :
    (l.set b (l.getD b 0 - 1)).sum + 1 = l.sum := by
  induction l generalizing b with
  | nil => simp at h
  | cons x xs ih =>
    cases b with
    | zero => simp at h ⊢; omega
    | succ b =>
      rw [List.getD_cons_succ] at h ⊢
      rw [List.set_cons_succ, List.sum_cons, List.sum_cons]
      have := ih h
      omega

theorem remove_ok {g : Scene} {h : Hist} (hh : HistOk g h) {i : Nat} (hi : i < g.total)
    (hp : g.planar i = true) :
    ∃ h', removePoint h i = .ok h' ∧ HistOk g h' ∧ h'.counts.sum ≤ h.counts.sum ∧
      (∀ j, j ≠ i → h'.bins.getD j (-1) = h.bins.getD j (-1)) ∧
      (∀ b : Nat, h.bins.getD i (-1) = (b : Int) → h.counts.getD b 0 ≠ 0 → h'.counts.sum < h.counts.sum) ∧
      (h'.counts.sum = h.counts.sum → h'.counts = h.counts) := by
  obtain ⟨b, hb, hlt⟩ := hh.mark i hi hp
  have hrm : removePoint h i = .ok
      { counts := if h.counts.getD b 0 ≠ 0 then h.counts.set b (h.counts.getD b 0 - 1) else h.counts,
        bins := h.bins.set i 1 } := by
    unfold removePoint
    rw [if_neg (by rw [hh.lenB]; omega)]
    simp only [hb]
    rw [if_neg (by omega)]
    simp
  have hlen : (if h.counts.getD b 0 ≠ 0 then h.counts.set b (h.counts.getD b 0 - 1) else h.counts).length =
      h.counts.length := by split <;> simp
  refine ⟨_, hrm, ⟨by simp [hh.lenB], ?_, ?_, by simp only [hlen]; exact hh.len1⟩, ?_, ?_, ?_, ?_⟩
  · intro j hj hpj
    simp only [hlen]
    rw [getD_set]
    by_cases hji : j = i
    · rw [if_pos ⟨hji, by rw [hh.lenB]; exact hi⟩]
      exact ⟨1, rfl, hh.len1⟩
    · rw [if_neg (fun e => hji e.1)]
      exact hh.mark j hj hpj
  · intro j hj hpj
    have hji : j ≠ i := by
      intro e; subst e; rw [hp] at hpj; cases hpj
    simp only
    rw [getD_set, if_neg (fun e => hji e.1)]
    exact hh.noMark j hj hpj
  · simp only
    split
    · rename_i hne
      have := sum_set_pred hne; omega
    · omega
  · intro j hj
    simp only
    rw [getD_set, if_neg (fun e => hj e.1)]
  · intro b' hb' hne
    have : b' = b := by omega
    subst this
    simp only
    rw [if_pos hne]
    have := sum_set_pred hne; omega
  · simp only
    split
    · rename_i hne
      have := sum_set_pred hne; omega
    · intro _; rfl

/-! ### Absorbing the activated cells -/

theorem absorb_spec {g : Scene} {seed : Nat} : ∀ (cells : List Nat) (s : St) (seg : Seg) (n : Nat),
    HistOk g s.hist → cells.Nodup → (∀ i, i ∈ cells → i ∈ s.free ∧ i < g.total ∧ g.planar i = true) →
    s.free.Nodup → s.untried = s.free.length →
    ∃ s' seg', absorb g cells s seg n = .ok (s', seg', n + cells.length) ∧
      HistOk g s'.hist ∧ s'.free = s.free.filter (fun j => !cells.contains j) ∧
      s'.untried = s'.free.length ∧ s'.planes = s.planes ∧ s'.cylinders = s.cylinders ∧
      s'.regions = s.regions ∧ s'.planeMap = s.planeMap ∧ s'.cylMap = s.cylMap ∧
      seg'.parts = seg.parts ++ cells ∧
      s'.hist.counts.sum ≤ s.hist.counts.sum ∧
      (seed ∈ cells → (∀ b : Nat, s.hist.bins.getD seed (-1) = (b : Int) → s.hist.counts.getD b 0 ≠ 0) →
        s'.hist.counts.sum < s.hist.counts.sum) := by
  intro cells
  induction cells with
  | nil =>
    intro s seg n hh _ _ hn hu
    refine ⟨s, seg, rfl, hh, ?_, hu, rfl, rfl, rfl, rfl, rfl, by simp, Nat.le_refl _, by simp⟩
    exact (List.filter_eq_self.mpr (by simp)).symm
  | cons i is ih =>
    intro s seg n hh hnd hc hn hu
    obtain ⟨hif, hit, hip⟩ := hc i List.mem_cons_self
    obtain ⟨h', hr, hh', hle, hother, hdec, hsame⟩ := remove_ok hh hit hip
    rw [absorb, if_pos hip, hr, Outcome.bind_ok]
    have hpos : s.untried ≠ 0 := by
      rw [hu]
      have := List.length_pos_of_mem hif
      omega
    rw [if_neg hpos]
    have hnd' := List.nodup_cons.mp hnd
    have hlen : s.untried - 1 = (s.free.filter (fun j => j != i)).length := by
      have := length_filter_drop (l := s.free) (p := fun _ => true) (q := fun j => j != i) hn hif rfl (by simp)
        (by intro j hj; simp [hj])
      rw [List.filter_eq_self.mpr (fun _ _ => rfl)] at this
      omega
    obtain ⟨s', seg', e, hh2, hfree, hu2, h1, h2, h3, h4, h5, hparts, hle2, hdec2⟩ :=
      ih { s with hist := h', free := s.free.filter (fun j => j != i), untried := s.untried - 1 }
        (seg.expand { parts := [i], fitted := [i] }) (n + 1) hh' hnd'.2
        (by
          intro j hj
          obtain ⟨a, b, c⟩ := hc j (List.mem_cons_of_mem _ hj)
          refine ⟨List.mem_filter.mpr ⟨a, ?_⟩, b, c⟩
          have : j ≠ i := fun e => hnd'.1 (e ▸ hj)
          simpa using this)
        (hn.filter _) hlen
    refine ⟨s', seg', ?_, hh2, ?_, hu2, h1, h2, h3, h4, h5, ?_, ?_, ?_⟩
    · rw [e, List.length_cons, show n + 1 + is.length = n + (is.length + 1) by omega]
    · rw [hfree, List.filter_filter]
      apply List.filter_congr
      intro j _
      by_cases hji : j = i
      · simp [hji]
      · simp [hji]
    · rw [hparts]
      simp [Seg.expand]
    · exact Nat.le_trans hle2 hle
    · intro hs hb
      simp only at hle2 hdec2
      rcases List.mem_cons.mp hs with rfl | hs'
      · obtain ⟨b, hbe, _⟩ := hh.mark seed hit hip
        have := hdec b hbe (hb b hbe)
        omega
      · have hne : seed ≠ i := fun e => hnd'.1 (e ▸ hs')
        rcases Nat.lt_or_ge h'.counts.sum s.hist.counts.sum with hlt | hge
        · omega
        · have heq := hsame (by omega)
          have := hdec2 hs' (by
            intro b hbe
            rw [heq]
            rw [hother seed hne] at hbe
            exact hb b hbe)
          omega

/-! ### Painting the label maps -/

theorem paint_length (cells : List Nat) (label : Nat) : ∀ (m : List Nat), (paint cells label m).length = m.length := by
  induction cells with
  | nil => intro m; rfl
  | cons c cs ih => intro m; simp only [paint, List.foldl_cons] at ih ⊢; rw [ih]; simp

theorem paint_getD (cells : List Nat) (label : Nat) : ∀ (m : List Nat) (c : Nat),
    (∀ x, x ∈ cells → x < m.length) →
    (paint cells label m).getD c 0 = if c ∈ cells then label else m.getD c 0 := by
  induction cells with
  | nil => intro m c _; simp [paint]
  | cons a cs ih =>
    intro m c hr
    have : paint (a :: cs) label m = paint cs label (m.set a label) := rfl
    rw [this, ih _ _ (by intro x hx; rw [List.length_set]; exact hr x (List.mem_cons_of_mem _ hx)), getD_set]
    have ha := hr a List.mem_cons_self
    by_cases h1 : c ∈ cs
    · simp [h1]
    · by_cases h2 : c = a
      · subst h2; simp [ha]
      · simp [h1, h2]

/-! ### The invariant -/

/-- The shapes found so far and the label maps. -/
structure Shapes (g : Scene) (s : St) : Prop where
  lenP : s.planeMap.length = g.total
  lenC : s.cylMap.length = g.total
  /-- a cell carries label `k + 1` of the plane map exactly when it is a part of plane `k` -/
  plane : ∀ c k, s.planeMap.getD c 0 = k + 1 ↔ ∃ seg, s.planes[k]? = some seg ∧ c ∈ seg.parts
  /-- the same for cylinder regions -/
  cyl : ∀ c k, s.cylMap.getD c 0 = k + 1 ↔ ∃ r, s.regions[k]? = some r ∧ c ∈ r.cells
  /-- no cell is in a plane and in a cylinder -/
  one : ∀ c, s.planeMap.getD c 0 = 0 ∨ s.cylMap.getD c 0 = 0
  /-- a labelled cell is planar and assigned -/
  used : ∀ c, s.planeMap.getD c 0 ≠ 0 ∨ s.cylMap.getD c 0 ≠ 0 → c ∉ s.free ∧ g.planar c = true ∧ c < g.total

theorem shapes_addPlane {g : Scene} {s : St} (h : Shapes g s) {seg : Seg} {cells : List Nat}
    (hc : ∀ c, c ∈ seg.parts ↔ c ∈ cells)
    (hz : ∀ c, c ∈ cells → s.planeMap.getD c 0 = 0 ∧ s.cylMap.getD c 0 = 0 ∧ c ∉ s.free ∧
      g.planar c = true ∧ c < g.total) : Shapes g (addPlane s seg cells) := by
  have hp : ∀ c, (addPlane s seg cells).planeMap.getD c 0 =
      if c ∈ cells then s.planes.length + 1 else s.planeMap.getD c 0 := by
    intro c
    unfold addPlane
    simp only
    rw [paint_getD _ _ _ _ (fun x hx => by rw [h.lenP]; exact (hz x hx).2.2.2.2)]
    simp
  refine ⟨?_, h.lenC, ?_, h.cyl, ?_, ?_⟩
  · unfold addPlane; simp only; rw [paint_length, h.lenP]
  · intro c k
    rw [hp]
    have hpl : (addPlane s seg cells).planes = s.planes ++ [seg] := rfl
    rw [hpl]
    by_cases hcc : c ∈ cells
    · rw [if_pos hcc]
      constructor
      · intro e
        have : k = s.planes.length := by omega
        subst this
        exact ⟨seg, by simp, (hc c).mpr hcc⟩
      · rintro ⟨seg', he, hm⟩
        by_cases hk : k < s.planes.length
        · rw [List.getElem?_append_left hk] at he
          have := (h.plane c k).mpr ⟨seg', he, hm⟩
          rw [(hz c hcc).1] at this
          omega
        · have hk' := (List.getElem?_eq_some_iff.mp he).1
          simp at hk'
          omega
    · rw [if_neg hcc, h.plane c k]
      constructor
      · rintro ⟨seg', he, hm⟩
        exact ⟨seg', by rw [List.getElem?_append_left (List.getElem?_eq_some_iff.mp he).1]; exact he, hm⟩
      · rintro ⟨seg', he, hm⟩
        by_cases hk : k < s.planes.length
        · rw [List.getElem?_append_left hk] at he
          exact ⟨seg', he, hm⟩
        · have hk' := (List.getElem?_eq_some_iff.mp he).1
          simp at hk'
          have : k = s.planes.length := by omega
          subst this
          simp at he
          subst he
          exact absurd ((hc c).mp hm) hcc
  · intro c
    rw [hp]
    by_cases hcc : c ∈ cells
    · right; exact (hz c hcc).2.1
    · rw [if_neg hcc]; exact h.one c
  · intro c
    rw [hp]
    by_cases hcc : c ∈ cells
    · intro _; exact (hz c hcc).2.2
    · rw [if_neg hcc]; exact h.used c

/-- The cells of a sub-segment, before it is added. -/
def Fresh (g : Scene) (s : St) (cells : List Nat) : Prop :=
  ∀ c, c ∈ cells → s.planeMap.getD c 0 = 0 ∧ s.cylMap.getD c 0 = 0 ∧ c ∉ s.free ∧
      g.planar c = true ∧ c < g.total

theorem addPlane_planeMap {g : Scene} {s : St} (h : Shapes g s) {seg : Seg} {cells : List Nat}
    (hz : Fresh g s cells) (c : Nat) : (addPlane s seg cells).planeMap.getD c 0 =
      if c ∈ cells then s.planes.length + 1 else s.planeMap.getD c 0 := by
  unfold addPlane
  simp only
  rw [paint_getD _ _ _ _ (fun x hx => by rw [h.lenP]; exact (hz x hx).2.2.2.2)]
  simp

theorem shapes_addSubSegment {g : Scene} {s : St} (h : Shapes g s) {segId : Nat} {cells : List Nat}
    (hz : Fresh g s cells) :
    Shapes g (addSubSegment g s segId cells) ∧
      (∀ c, c ∉ cells → (addSubSegment g s segId cells).planeMap.getD c 0 = s.planeMap.getD c 0 ∧
        (addSubSegment g s segId cells).cylMap.getD c 0 = s.cylMap.getD c 0) ∧
      (addSubSegment g s segId cells).free = s.free ∧ (addSubSegment g s segId cells).hist = s.hist ∧
      (addSubSegment g s segId cells).untried = s.untried := by
  have hf : cells.filter g.planar = cells := List.filter_eq_self.mpr (fun c hc => (hz c hc).2.2.2.1)
  unfold addSubSegment
  simp only
  rw [hf]
  split
  · exact ⟨h, fun _ _ => ⟨rfl, rfl⟩, rfl, rfl, rfl⟩
  · split
    · refine ⟨shapes_addPlane h (fun _ => Iff.rfl) hz, ?_, rfl, rfl, rfl⟩
      intro c hc
      rw [addPlane_planeMap h hz, if_neg hc]
      exact ⟨rfl, rfl⟩
    · have hp : ∀ c, (paint cells (s.regions ++
          [({ cylinder := s.cylinders.length - 1, segId := segId, cells := cells } : Region)]).length s.cylMap).getD c 0 =
          if c ∈ cells then s.regions.length + 1 else s.cylMap.getD c 0 := by
        intro c
        rw [paint_getD _ _ _ _ (fun x hx => by rw [h.lenC]; exact (hz x hx).2.2.2.2)]
        simp
      refine ⟨⟨h.lenP, by simp only; rw [paint_length, h.lenC], h.plane, ?_, ?_, ?_⟩, ?_, rfl, rfl, rfl⟩
      · intro c k
        simp only
        rw [hp]
        by_cases hcc : c ∈ cells
        · rw [if_pos hcc]
          constructor
          · intro e
            have : k = s.regions.length := by omega
            subst this
            exact ⟨_, by simp; rfl, hcc⟩
          · rintro ⟨r, he, hm⟩
            by_cases hk : k < s.regions.length
            · rw [List.getElem?_append_left hk] at he
              have := (h.cyl c k).mpr ⟨r, he, hm⟩
              rw [(hz c hcc).2.1] at this
              omega
            · have hk' := (List.getElem?_eq_some_iff.mp he).1
              simp at hk'
              omega
        · rw [if_neg hcc, h.cyl c k]
          constructor
          · rintro ⟨r, he, hm⟩
            exact ⟨r, by rw [List.getElem?_append_left (List.getElem?_eq_some_iff.mp he).1]; exact he, hm⟩
          · rintro ⟨r, he, hm⟩
            by_cases hk : k < s.regions.length
            · rw [List.getElem?_append_left hk] at he
              exact ⟨r, he, hm⟩
            · have hk' := (List.getElem?_eq_some_iff.mp he).1
              simp at hk'
              have : k = s.regions.length := by omega
              subst this
              simp at he
              subst he
              exact absurd hm hcc
      · intro c
        simp only
        rw [hp]
        by_cases hcc : c ∈ cells
        · left; exact (hz c hcc).1
        · rw [if_neg hcc]; exact h.one c
      · intro c
        simp only
        rw [hp]
        by_cases hcc : c ∈ cells
        · intro _; exact (hz c hcc).2.2
        · rw [if_neg hcc]; exact h.used c
      · intro c hc
        refine ⟨rfl, ?_⟩
        simp only
        rw [hp, if_neg hc]

theorem shapes_addSubSegments {g : Scene} : ∀ (lists : List (List Nat)) (segId : Nat) (s : St), Shapes g s →
    (∀ l, l ∈ lists → Fresh g s l) → lists.Pairwise (fun a b => ∀ i, i ∈ a → i ∉ b) →
    Shapes g (addSubSegments g lists segId s) ∧
      (∀ c, (∀ l, l ∈ lists → c ∉ l) → (addSubSegments g lists segId s).planeMap.getD c 0 = s.planeMap.getD c 0 ∧
        (addSubSegments g lists segId s).cylMap.getD c 0 = s.cylMap.getD c 0) ∧
      (addSubSegments g lists segId s).free = s.free ∧ (addSubSegments g lists segId s).hist = s.hist ∧
      (addSubSegments g lists segId s).untried = s.untried := by
  intro lists
  induction lists with
  | nil => intro segId s h _ _; exact ⟨h, fun _ _ => ⟨rfl, rfl⟩, rfl, rfl, rfl⟩
  | cons l ls ih =>
    intro segId s h hz hd
    obtain ⟨h1, hk, hfree, hhist, hu⟩ := shapes_addSubSegment (segId := segId) h (hz l List.mem_cons_self)
    have hd' := List.pairwise_cons.mp hd
    obtain ⟨i1, i2, i3, i4, i5⟩ := ih (segId + 1) (addSubSegment g s segId l) h1
      (by
        intro l' hl' c hc
        have hcl : c ∉ l := fun hcl => hd'.1 l' hl' c hcl hc
        obtain ⟨e1, e2⟩ := hk c hcl
        rw [e1, e2, hfree]
        exact hz l' (List.mem_cons_of_mem _ hl') c hc) hd'.2
    refine ⟨i1, ?_, by rw [addSubSegments, i3, hfree], by rw [addSubSegments, i4, hhist],
      by rw [addSubSegments, i5, hu]⟩
    intro c hc
    rw [addSubSegments]
    obtain ⟨e1, e2⟩ := i2 c (fun l' hl' => hc l' (List.mem_cons_of_mem _ hl'))
    obtain ⟨f1, f2⟩ := hk c (hc l List.mem_cons_self)
    rw [e1, e2, f1, f2]
    exact ⟨rfl, rfl⟩

/-! ### One turn of the growing loop -/

structure Inv (g : Scene) (s : St) : Prop where
  hist : HistOk g s.hist
  freeNodup : s.free.Nodup
  freePlanar : ∀ i, i ∈ s.free → i < g.total ∧ g.planar i = true
  untried : s.untried = s.free.length
  shapes : Shapes g s

theorem cells_mem {g : Scene} {act : List Nat} (h : ∀ c, c ∈ act → c < g.total) (c : Nat) :
    c ∈ (List.range g.total).filter act.contains ↔ c ∈ act := by
  rw [List.mem_filter, List.mem_range]
  constructor
  · rintro ⟨_, h2⟩; simpa using h2
  · intro hc; exact ⟨h c hc, by simpa using hc⟩

/-- A label, once given, is kept. -/
def Keeps (s s' : St) : Prop :=
  ∀ c, (s.planeMap.getD c 0 ≠ 0 → s'.planeMap.getD c 0 = s.planeMap.getD c 0) ∧
    (s.cylMap.getD c 0 ≠ 0 → s'.cylMap.getD c 0 = s.cylMap.getD c 0)

theorem growAtSeed_spec {g : Scene} {fuel seed : Nat} {s : St} (hI : Inv g s) (hs : seed < g.total)
    (hp : g.planar seed = true) (hf : g.total < fuel)
    (hb : ∀ b : Nat, s.hist.bins.getD seed (-1) = (b : Int) → s.hist.counts.getD b 0 ≠ 0) :
    ∃ s', growAtSeed g fuel s seed = .ok s' ∧ Inv g s' ∧ s'.hist.counts.sum < s.hist.counts.sum ∧
      Keeps s s' := by
  have hfl : s.free.length ≤ g.total := by
    have hsub : s.free ⊆ List.range g.total := fun i hi => List.mem_range.mpr (hI.freePlanar i hi).1
    have := List.Nodup.length_le_of_subset hI.freeNodup hsub
    simpa using this
  obtain ⟨act, hgrow, hand, hreach⟩ := @grow_seed g s.free fuel seed hs (by omega)
  have hactf : ∀ c, c ∈ act → c ∈ s.free := by
    intro c hc
    cases (hreach c).mp hc with
    | seed hu _ => exact hu
    | step _ _ hu _ => exact hu
  have hactt : ∀ c, c ∈ act → c < g.total := fun c hc => (hI.freePlanar c (hactf c hc)).1
  have hcm := cells_mem hactt
  unfold growAtSeed
  rw [if_neg (by simp [hp]), hgrow, Outcome.bind_ok]
  generalize hcells : (List.range g.total).filter act.contains = cells at *
  have hcn : cells.Nodup := by rw [← hcells]; exact List.nodup_range.filter _
  have hclen : cells.length ≤ g.total := by
    rw [← hcells]
    have := List.length_filter_le act.contains (List.range g.total)
    simpa using this
  obtain ⟨s1, seg, habs, hh1, hfree1, hu1, hpl, hcy, hre, hpm, hcmx, hparts, hle, hdec⟩ :=
    absorb_spec (g := g) (seed := seed) cells s { parts := [seed], fitted := [seed] } 0 hI.hist hcn
      (fun i hi => by
        have := hactf i ((hcm i).mp hi)
        exact ⟨this, hI.freePlanar i this⟩) hI.freeNodup hI.untried
  simp only [habs, Outcome.bind_ok, Nat.zero_add]
  -- facts on the state after absorption
  have hfn1 : s1.free.Nodup := by rw [hfree1]; exact hI.freeNodup.filter _
  have hfp1 : ∀ i, i ∈ s1.free → i < g.total ∧ g.planar i = true := by
    intro i hi; rw [hfree1] at hi; exact hI.freePlanar i (List.mem_filter.mp hi).1
  have hsh1 : Shapes g s1 := by
    refine ⟨by rw [hpm]; exact hI.shapes.lenP, by rw [hcmx]; exact hI.shapes.lenC, ?_, ?_, ?_, ?_⟩
    · rw [hpm, hpl]; exact hI.shapes.plane
    · rw [hcmx, hre]; exact hI.shapes.cyl
    · rw [hpm, hcmx]; exact hI.shapes.one
    · rw [hpm, hcmx]
      intro c hc
      obtain ⟨h1, h2, h3⟩ := hI.shapes.used c hc
      exact ⟨fun h => h1 (by rw [hfree1] at h; exact (List.mem_filter.mp h).1), h2, h3⟩
  have hI1 : Inv g s1 := ⟨hh1, hfn1, hfp1, hu1, hsh1⟩
  have hk1 : Keeps s s1 := by
    intro c; rw [hpm, hcmx]; exact ⟨fun _ => rfl, fun _ => rfl⟩
  have hfresh : Fresh g s1 cells := by
    intro c hc
    have hcf := hactf c ((hcm c).mp hc)
    have hnl : ¬ (s.planeMap.getD c 0 ≠ 0 ∨ s.cylMap.getD c 0 ≠ 0) := fun h => (hI.shapes.used c h).1 hcf
    rw [hpm, hcmx]
    refine ⟨?_, ?_, ?_, (hI.freePlanar c hcf).2, (hI.freePlanar c hcf).1⟩
    · exact Classical.byContradiction (fun h => hnl (Or.inl h))
    · exact Classical.byContradiction (fun h => hnl (Or.inr h))
    · rw [hfree1]
      intro h
      have := (List.mem_filter.mp h).2
      simp [hc] at this
  -- the seed is activated as soon as something is
  have hseed : cells ≠ [] → seed ∈ cells := by
    intro hne
    obtain ⟨c, hc⟩ := List.exists_mem_of_ne_nil _ hne
    have hr := (hreach c).mp ((hcm c).mp hc)
    apply (hcm seed).mpr
    apply (hreach seed).mpr
    clear hc
    induction hr with
    | seed hu hm => exact .seed hu hm
    | step _ _ _ _ ih => exact ih
  split
  · -- too few cells
    obtain ⟨h2, hr2, hh2, hle2, _, hdec2, _⟩ := remove_ok hh1 hs hp
    rw [hr2, Outcome.bind_ok]
    refine ⟨_, rfl, ⟨hh2, hfn1, hfp1, hu1, ⟨hsh1.lenP, hsh1.lenC, hsh1.plane, hsh1.cyl, hsh1.one, hsh1.used⟩⟩, ?_, hk1⟩
    simp only
    by_cases hc0 : cells = []
    · subst hc0
      have hs1 : s1.hist = s.hist := by
        simp only [absorb] at habs
        injection habs with habs
        injection habs with habs
        rw [← habs]
      obtain ⟨b, hbe, _⟩ := hI.hist.mark seed hs hp
      have := hdec2 b (by rw [hs1]; exact hbe) (by rw [hs1]; exact hb b hbe)
      rw [hs1] at this
      exact this
    · have := hdec (hseed hc0) hb
      omega
  · rename_i hn
    have hne : cells ≠ [] := by
      intro e; subst e; simp at hn
    have hlt := hdec (hseed hne) hb
    split
    · exact ⟨s1, rfl, hI1, hlt, hk1⟩
    · split
      · refine ⟨_, rfl, ⟨hh1, hfn1, hfp1, hu1, shapes_addPlane hsh1 ?_ hfresh⟩, hlt, ?_⟩
        · intro c
          simp only [Seg.fit]
          rw [hparts, List.mem_append, List.mem_singleton]
          constructor
          · rintro (rfl | h)
            · exact hseed hne
            · exact h
          · exact Or.inr
        · intro c
          rw [addPlane_planeMap hsh1 hfresh]
          have hcy' : (addPlane s1 seg.fit cells).cylMap = s1.cylMap := rfl
          rw [hcy', hpm, hcmx]
          refine ⟨fun h => ?_, fun _ => rfl⟩
          rw [if_neg]
          intro hc
          have := (hfresh c hc).1
          rw [hpm] at this
          exact h this
      · split
        · -- cylinder
          obtain ⟨cs, hfit, hgood, hglob⟩ := fitSegment_spec (g.cylinder cells) cells g.minCells fuel (by omega)
          unfold cylinderFitting
          rw [hfit, Outcome.bind_ok, hglob]
          have hmap : ∀ l, l ∈ cs.inliers → ∀ c, c ∈ l.map (fun i => cells.getD i 0) → c ∈ cells := by
            intro l hl c hc
            obtain ⟨i, hi, rfl⟩ := List.mem_map.mp hc
            have hlt := hgood.range l hl i hi
            rw [List.getD_eq_getElem?_getD, List.getElem?_eq_getElem hlt]
            exact List.getElem_mem hlt
          have hdis : (cs.inliers.map fun inl => inl.map fun i => cells.getD i 0).Pairwise
              (fun a b => ∀ i, i ∈ a → i ∉ b) := by
            rw [List.pairwise_map]
            refine hgood.disjoint.imp_of_mem ?_
            intro a b ha hb hab c hca hcb
            obtain ⟨i, hi, rfl⟩ := List.mem_map.mp hca
            obtain ⟨j, hj, he⟩ := List.mem_map.mp hcb
            have hi' := hgood.range a ha i hi
            have hj' := hgood.range b hb j hj
            simp only [List.getD_eq_getElem?_getD, List.getElem?_eq_getElem hi', List.getElem?_eq_getElem hj',
              Option.getD_some] at he
            have hij : j = i := (List.getElem_inj hcn).mp he
            subst hij
            exact hab j hi hj
          have hsh2 : Shapes g { s1 with cylinders := s1.cylinders ++ [copy cs] } :=
            ⟨hsh1.lenP, hsh1.lenC, hsh1.plane, hsh1.cyl, hsh1.one, hsh1.used⟩
          obtain ⟨j1, j2, j3, j4, j5⟩ := shapes_addSubSegments
            (cs.inliers.map fun inl => inl.map fun i => cells.getD i 0) 0
            { s1 with cylinders := s1.cylinders ++ [copy cs] } hsh2
            (by
              intro l hl c hc
              obtain ⟨inl, hinl, rfl⟩ := List.mem_map.mp hl
              exact hfresh c (hmap inl hinl c hc)) hdis
          refine ⟨_, rfl, ⟨by rw [j4]; exact hh1, by rw [j3]; exact hfn1, ?_, ?_, j1⟩, by rw [j4]; exact hlt, ?_⟩
          · rw [j3]; exact hfp1
          · rw [j5, j3]; exact hu1
          · intro c
            by_cases hc : c ∈ cells
            · have := hfresh c hc
              rw [hpm, hcmx] at this
              exact ⟨fun h => absurd this.1 h, fun h => absurd this.2.1 h⟩
            · obtain ⟨k1, k2⟩ := j2 c (by
                intro l hl hcl
                obtain ⟨inl, hinl, rfl⟩ := List.mem_map.mp hl
                exact hc (hmap inl hinl c hcl))
              rw [k1, k2]
              simp only
              rw [hpm, hcmx]
              exact ⟨fun _ => rfl, fun _ => rfl⟩
        · exact ⟨s1, rfl, hI1, hlt, hk1⟩

/-! ### The loop -/

theorem pickSeed_mem {mse : Nat → Option Rat} : ∀ (cs : List Nat) (best : Option (Nat × Rat)) (s : Nat) (e : Rat),
    pickSeed mse cs best = some (s, e) → s ∈ cs ∨ best = some (s, e) := by
  intro cs
  induction cs with
  | nil => intro best s e h; exact Or.inr h
  | cons c cs ih =>
    intro best s e h
    rw [pickSeed] at h
    have key : ∀ b, pickSeed mse cs b = some (s, e) → (b = best ∨ ∃ x, b = some (c, x)) →
        s ∈ c :: cs ∨ best = some (s, e) := by
      intro b hb hcase
      rcases ih b s e hb with h1 | h1
      · exact Or.inl (List.mem_cons_of_mem _ h1)
      · rcases hcase with h2 | ⟨x, h2⟩
        · rw [h2] at h1; exact Or.inr h1
        · rw [h2] at h1
          injection h1 with h1
          injection h1 with h1 _
          subst h1
          exact Or.inl List.mem_cons_self
    split at h
    · exact key _ h (Or.inl rfl)
    · split at h
      · split at h
        · exact key _ h (Or.inl rfl)
        · split at h
          · injection h with h; injection h with h _; subst h; exact Or.inl List.mem_cons_self
          · exact key _ h (Or.inr ⟨_, rfl⟩)
      · split at h
        · injection h with h; injection h with h _; subst h; exact Or.inl List.mem_cons_self
        · exact key _ h (Or.inr ⟨_, rfl⟩)

/-- Candidates are planar cells whose mark has a positive counter. -/
theorem candidate_ok {g : Scene} {h : Hist} (hh : HistOk g h) {i : Nat} (hi : i ∈ candidates h) :
    i < g.total ∧ g.planar i = true ∧
      ∀ b : Nat, h.bins.getD i (-1) = (b : Int) → h.counts.getD b 0 ≠ 0 := by
  rcases candidates_spec h with ⟨he, _⟩ | ⟨b, _, hpos, _, he⟩
  · rw [he] at hi; cases hi
  · rw [he, List.mem_filter, List.mem_range, hh.lenB] at hi
    obtain ⟨h1, h2⟩ := hi
    have h2 : h.bins.getD i (-1) = (b : Int) := by simpa using h2
    refine ⟨h1, ?_, ?_⟩
    · by_cases hp : g.planar i = true
      · exact hp
      · have := hh.noMark i h1 (by simpa using hp)
        omega
    · intro b' hb'
      have : b' = b := by omega
      subst this
      omega

theorem Keeps.refl (s : St) : Keeps s s := fun _ => ⟨fun _ => rfl, fun _ => rfl⟩

theorem Keeps.trans {a b c : St} (h1 : Keeps a b) (h2 : Keeps b c) : Keeps a c := by
  intro x
  refine ⟨fun h => ?_, fun h => ?_⟩
  · have e1 := (h1 x).1 h
    rw [← e1] at h ⊢
    exact (h2 x).1 h
  · have e1 := (h1 x).2 h
    rw [← e1] at h ⊢
    exact (h2 x).2 h

theorem growLoop_spec {g : Scene} {fuel : Nat} (hf : g.total < fuel) : ∀ (turns : Nat) (s : St), Inv g s →
    s.hist.counts.sum < turns → ∃ s', growLoop g fuel turns s = .ok s' ∧ Inv g s' ∧ Keeps s s' := by
  intro turns
  induction turns with
  | zero => intro s _ h; omega
  | succ turns ih =>
    intro s hI hlt
    rw [growLoop]
    split
    · exact ⟨s, rfl, hI, Keeps.refl s⟩
    · simp only
      split
      · exact ⟨s, rfl, hI, Keeps.refl s⟩
      · split
        · exact ⟨s, rfl, hI, Keeps.refl s⟩
        · rename_i seed e hpick
          have hmem : seed ∈ candidates s.hist := by
            rcases pickSeed_mem _ _ _ _ hpick with h | h
            · exact h
            · cases h
          obtain ⟨h1, h2, h3⟩ := candidate_ok hI.hist hmem
          obtain ⟨s', hg, hI', hdec, hk⟩ := growAtSeed_spec hI h1 h2 hf h3
          rw [hg, Outcome.bind_ok]
          obtain ⟨s2, e2, hI2, hk2⟩ := ih s' hI' (by omega)
          exact ⟨s2, e2, hI2, hk.trans hk2⟩

theorem sum_set_succ_le (l : List Nat) (b : Nat) : (l.set b (l.getD b 0 + 1)).sum ≤ l.sum + 1 := by
  induction l generalizing b with
  | nil => simp
  | cons x xs ih =>
    cases b with
    | zero => simp; omega
    | succ b =>
      rw [List.getD_cons_succ, List.set_cons_succ, List.sum_cons, List.sum_cons]
      have := ih b
      omega

theorem initLoop_sum : ∀ (ps : List (Option (Rat × Rat))) (h h' : Hist), initLoop ps h = .ok h' →
    h'.counts.sum ≤ h.counts.sum + ps.length := by
  intro ps
  induction ps with
  | nil => intro h h' e; rw [initLoop] at e; injection e with e; subst e; simp
  | cons p ps ih =>
    intro h h' e
    match p with
    | none =>
      rw [initLoop] at e
      have := ih _ _ e
      simp only [List.length_cons] at this ⊢
      omega
    | some (u, v) =>
      rw [initLoop] at e
      split at e
      · cases e
      · have := ih _ _ e
        have h2 := sum_set_succ_le h.counts (bin u v).toNat
        simp only [List.length_cons] at this ⊢
        omega

theorem start_spec {g : Scene}
    (hv : ∀ i, i < g.total → g.planar i = true → 0 ≤ (g.direction i).1 ∧ (g.direction i).1 ≤ 1 ∧
      0 ≤ (g.direction i).2 ∧ (g.direction i).2 ≤ 1) :
    ∃ s, start g = .ok s ∧ Inv g s ∧ s.hist.counts.sum ≤ g.total ∧
      s.planes = [] ∧ s.regions = [] ∧ s.free = (List.range g.total).filter g.planar := by
  let points := (List.range g.total).map fun i => if g.planar i then some (g.direction i) else none
  have hlen : points.length = g.total := by simp [points]
  have hget : ∀ i, i < g.total → points[i]? = some (if g.planar i then some (g.direction i) else none) := by
    intro i hi
    simp [points, hi]
  have hvd : ValidDirections points := by
    intro u v hm
    obtain ⟨i, hi, he⟩ := List.mem_map.mp hm
    split at he
    · rename_i hp
      injection he with he
      have := hv i (List.mem_range.mp hi) hp
      rw [he] at this
      exact this
    · cases he
  obtain ⟨h, hinit, hinv⟩ := init_inv hvd
  have hsum : h.counts.sum ≤ g.total := by
    have := initLoop_sum points reset h hinit
    rw [hlen] at this
    have h0 : reset.counts.sum = 0 := by simp [reset]
    omega
  have hstart : start g = .ok
      { hist := h, free := (List.range g.total).filter g.planar,
        untried := ((List.range g.total).filter g.planar).length, planes := [], cylinders := [], regions := [],
        planeMap := List.replicate g.total 0, cylMap := List.replicate g.total 0 } := by
    unfold start
    rw [show Histogram.init ((List.range g.total).map fun i => if g.planar i then some (g.direction i) else none)
      = .ok h from hinit]
    rfl
  have hz : ∀ c, (List.replicate g.total 0).getD c 0 = 0 := by
    intro c
    rw [List.getD_eq_getElem?_getD, List.getElem?_replicate]
    split <;> rfl
  refine ⟨_, hstart, ⟨⟨?_, ?_, ?_, ?_⟩, List.nodup_range.filter _, ?_, rfl, ⟨by simp, by simp, ?_, ?_, ?_, ?_⟩⟩,
    hsum, rfl, rfl, rfl⟩
  · rw [hinv.lenB, hlen]
  · intro i hi hp
    have hb := hinv.bins i (by rw [hlen]; exact hi)
    simp only [List.not_mem_nil, if_false] at hb
    have hbin : binAt points i = bin (g.direction i).1 (g.direction i).2 := by
      unfold binAt; rw [hget i hi, if_pos hp]
    obtain ⟨a1, a2, a3, a4⟩ := hv i hi hp
    obtain ⟨b1, b2, _⟩ := bin_spec a1 a2 a3 a4
    refine ⟨(binAt points i).toNat, ?_, ?_⟩
    · simp only [hb]; omega
    · simp only [hinv.lenC]; omega
  · intro i hi hp
    have hb := hinv.bins i (by rw [hlen]; exact hi)
    simp only [List.not_mem_nil, if_false] at hb
    simp only [hb]
    unfold binAt
    rw [hget i hi, hp]
    rfl
  · simp only [hinv.lenC]; omega
  · intro i hi
    obtain ⟨a, b⟩ := List.mem_filter.mp hi
    exact ⟨List.mem_range.mp a, b⟩
  · intro c k; simp only [hz]; simp
  · intro c k; simp only [hz]; simp
  · intro c; exact Or.inl (hz c)
  · intro c h
    rcases h with h | h <;> exact absurd (hz c) h

theorem detect_spec {g : Scene} {fuel : Nat} (hf : g.total < fuel)
    (hv : ∀ i, i < g.total → g.planar i = true → 0 ≤ (g.direction i).1 ∧ (g.direction i).1 ≤ 1 ∧
      0 ≤ (g.direction i).2 ∧ (g.direction i).2 ≤ 1) :
    ∃ s, detect g fuel = .ok s ∧ Inv g s := by
  obtain ⟨s0, hs, hI, hsum, _⟩ := start_spec hv
  obtain ⟨s, he, hI', _⟩ := growLoop_spec hf fuel s0 hI (by omega)
  exact ⟨s, by rw [detect, hs, Outcome.bind_ok, he], hI'⟩

end RgbdSlam.Primitives

namespace RgbdSlam.Primitives

open RgbdSlam Spec Histogram Cylinder

theorem reached_inv {g : Scene} {fuel : Nat} (hf : g.total < fuel) (hv : ValidScene g) {s : St}
    (h : Reached g fuel s) : Inv g s := by
  induction h with
  | start e =>
    obtain ⟨s', h1, h2, _⟩ := start_spec hv
    rw [h1] at e
    injection e with e
    subst e
    exact h2
  | turn _ hc he ih =>
    obtain ⟨h1, h2, h3⟩ := candidate_ok ih.hist hc
    obtain ⟨s'', e2, hI, _⟩ := growAtSeed_spec ih h1 h2 hf h3
    rw [e2] at he
    injection he with he
    subst he
    exact hI

theorem growLoop_reached {g : Scene} {fuel : Nat} : ∀ (turns : Nat) (s s' : St), Reached g fuel s →
    growLoop g fuel turns s = .ok s' → Reached g fuel s' := by
  intro turns
  induction turns with
  | zero => intro s s' _ h; cases h
  | succ turns ih =>
    intro s s' hr h
    rw [growLoop] at h
    split at h
    · injection h with h; subst h; exact hr
    · simp only at h
      split at h
      · injection h with h; subst h; exact hr
      · split at h
        · injection h with h; subst h; exact hr
        · rename_i seed e hpick
          obtain ⟨s1, h1, h2⟩ := Outcome.bind_eq_ok h
          have hmem : seed ∈ candidates s.hist := by
            rcases pickSeed_mem _ _ _ _ hpick with h | h
            · exact h
            · cases h
          exact ih s1 s' (.turn hr hmem h1) h2

theorem detect_reached {g : Scene} {fuel : Nat} {s : St} (h : detect g fuel = .ok s) : Reached g fuel s := by
  obtain ⟨s0, h0, h1⟩ := Outcome.bind_eq_ok h
  exact growLoop_reached fuel s0 s (.start h0) h1

/-! ### The stored cylinders are copies -/

theorem absorb_cylinders {g : Scene} : ∀ (cells : List Nat) (s : St) (seg : Seg) (n : Nat) (r : St × Seg × Nat),
    absorb g cells s seg n = .ok r → r.1.cylinders = s.cylinders := by
  intro cells
  induction cells with
  | nil => intro s seg n r h; rw [absorb] at h; injection h with h; subst h; rfl
  | cons i is ih =>
    intro s seg n r h
    rw [absorb] at h
    split at h
    · obtain ⟨h1, e1, e2⟩ := Outcome.bind_eq_ok h
      split at e2
      · cases e2
      · have := ih _ _ _ _ e2
        exact this
    · exact ih _ _ _ _ h

theorem addSubSegments_cylinders {g : Scene} : ∀ (lists : List (List Nat)) (segId : Nat) (s : St),
    (addSubSegments g lists segId s).cylinders = s.cylinders := by
  intro lists
  induction lists with
  | nil => intro _ _; rfl
  | cons l ls ih =>
    intro segId s
    rw [addSubSegments, ih]
    unfold addSubSegment
    simp only
    split
    · rfl
    · split
      · rfl
      · rfl

theorem growAtSeed_cylinders {g : Scene} {fuel seed : Nat} {s s' : St} (h : growAtSeed g fuel s seed = .ok s')
    (hc : ∀ c, c ∈ s.cylinders → ∃ seg, c = copy seg) : ∀ c, c ∈ s'.cylinders → ∃ seg, c = copy seg := by
  unfold growAtSeed at h
  split at h
  · injection h with h; subst h; exact hc
  obtain ⟨act, _, h⟩ := Outcome.bind_eq_ok h
  simp only at h
  obtain ⟨r, hr, h⟩ := Outcome.bind_eq_ok h
  have hcy := absorb_cylinders _ _ _ _ _ hr
  split at h
  · obtain ⟨h2, _, h⟩ := Outcome.bind_eq_ok h
    injection h with h; subst h
    simp only; rw [hcy]; exact hc
  · split at h
    · injection h with h; subst h; rw [hcy]; exact hc
    · split at h
      · injection h with h; subst h
        simp only [addPlane]; rw [hcy]; exact hc
      · split at h
        · unfold cylinderFitting at h
          obtain ⟨cs, _, h⟩ := Outcome.bind_eq_ok h
          injection h with h
          subst h
          rw [addSubSegments_cylinders]
          simp only
          rw [hcy]
          intro c hm
          rcases List.mem_append.mp hm with hm | hm
          · exact hc c hm
          · exact ⟨cs, List.mem_singleton.mp hm⟩
        · injection h with h; subst h; rw [hcy]; exact hc

theorem reached_cylinders {g : Scene} {fuel : Nat} {s : St} (h : Reached g fuel s) :
    ∀ c, c ∈ s.cylinders → ∃ seg, c = copy seg := by
  induction h with
  | start e =>
    unfold start at e
    obtain ⟨_, _, e⟩ := Outcome.bind_eq_ok e
    injection e with e
    subst e
    intro c hc
    cases hc
  | turn _ _ he ih => exact growAtSeed_cylinders he ih

/-! ### How often a cell is accumulated -/

theorem absorb_parts {g : Scene} : ∀ (cells : List Nat) (s : St) (seg : Seg) (n : Nat) (r : St × Seg × Nat),
    absorb g cells s seg n = .ok r → r.2.1.parts = seg.parts ++ cells.filter g.planar ∧ r.1.planes = s.planes := by
  intro cells
  induction cells with
  | nil => intro s seg n r h; rw [absorb] at h; injection h with h; subst h; simp
  | cons i is ih =>
    intro s seg n r h
    rw [absorb] at h
    by_cases hp : g.planar i = true
    · rw [if_pos hp] at h
      obtain ⟨h1, e1, e2⟩ := Outcome.bind_eq_ok h
      split at e2
      · cases e2
      · obtain ⟨h2, h3⟩ := ih _ _ _ _ e2
        refine ⟨?_, h3⟩
        rw [h2, Seg.expand]
        simp [hp]
    · rw [if_neg hp] at h
      obtain ⟨h2, h3⟩ := ih _ _ _ _ h
      refine ⟨?_, h3⟩
      rw [h2]
      simp [hp]

/-- A plane in which every cell is accumulated once, but for the first one that may be there twice. -/
def OnceButSeed (p : Seg) : Prop := p.parts.Nodup ∨ ∃ seed rest, p.parts = seed :: rest ∧ rest.Nodup

theorem addSubSegments_planes {g : Scene} : ∀ (lists : List (List Nat)) (segId : Nat) (s : St),
    (∀ l, l ∈ lists → l.Nodup) → (∀ p, p ∈ s.planes → OnceButSeed p) →
    ∀ p, p ∈ (addSubSegments g lists segId s).planes → OnceButSeed p := by
  intro lists
  induction lists with
  | nil => intro _ s _ h; exact h
  | cons l ls ih =>
    intro segId s hl h
    rw [addSubSegments]
    apply ih
    · exact fun l' hl' => hl l' (List.mem_cons_of_mem _ hl')
    · unfold addSubSegment
      simp only
      split
      · exact h
      · split
        · intro p hp
          simp only [addPlane] at hp
          rcases List.mem_append.mp hp with hp | hp
          · exact h p hp
          · rw [List.mem_singleton.mp hp]
            exact Or.inl ((hl l List.mem_cons_self).filter _)
        · exact h

theorem growAtSeed_parts {g : Scene} {fuel seed : Nat} {s s' : St} (hf : g.total < fuel)
    (h : growAtSeed g fuel s seed = .ok s') (hc : ∀ p, p ∈ s.planes → OnceButSeed p) :
    ∀ p, p ∈ s'.planes → OnceButSeed p := by
  unfold growAtSeed at h
  split at h
  · injection h with h; subst h; exact hc
  obtain ⟨act, _, h⟩ := Outcome.bind_eq_ok h
  simp only at h
  have hcells : ((List.range g.total).filter act.contains).Nodup := List.nodup_range.filter _
  have hlen : ((List.range g.total).filter act.contains).length ≤ g.total := by
    have := List.length_filter_le act.contains (List.range g.total)
    rwa [List.length_range] at this
  generalize (List.range g.total).filter act.contains = cells at *
  obtain ⟨r, hr, h⟩ := Outcome.bind_eq_ok h
  obtain ⟨hparts, hpl⟩ := absorb_parts _ _ _ _ _ hr
  split at h
  · obtain ⟨h2, _, h⟩ := Outcome.bind_eq_ok h
    injection h with h; subst h
    simp only; rw [hpl]; exact hc
  · split at h
    · injection h with h; subst h; rw [hpl]; exact hc
    · split at h
      · injection h with h; subst h
        intro p hp
        simp only [addPlane] at hp
        rw [hpl] at hp
        rcases List.mem_append.mp hp with hp | hp
        · exact hc p hp
        · rw [List.mem_singleton.mp hp]
          right
          exact ⟨seed, cells.filter g.planar, by rw [Seg.fit, hparts]; rfl, hcells.filter _⟩
      · split at h
        · unfold cylinderFitting at h
          obtain ⟨cs, hcs, h⟩ := Outcome.bind_eq_ok h
          injection h with h
          subst h
          obtain ⟨cs', e1, hg, hto⟩ := fitSegment_spec (g.cylinder cells) cells g.minCells fuel (by omega)
          rw [hcs] at e1
          injection e1 with e1
          subst e1
          apply addSubSegments_planes
          · intro l hl
            obtain ⟨inl, hin, rfl⟩ := List.mem_map.mp hl
            rw [hto, List.Nodup, List.pairwise_map]
            have hn := hg.nodup inl hin
            have hrg := hg.range inl hin
            refine List.Pairwise.imp_of_mem ?_ hn
            intro a b ha hb hab he
            rw [List.getD_eq_getElem?_getD, List.getD_eq_getElem?_getD,
              List.getElem?_eq_getElem (hrg a ha), List.getElem?_eq_getElem (hrg b hb)] at he
            exact hab ((List.getElem_inj hcells).mp he)
          · simp only; rw [hpl]; exact hc
        · injection h with h; subst h; rw [hpl]; exact hc

theorem reached_parts {g : Scene} {fuel : Nat} (hf : g.total < fuel) {s : St} (h : Reached g fuel s) :
    ∀ p, p ∈ s.planes → OnceButSeed p := by
  induction h with
  | start e =>
    unfold start at e
    obtain ⟨_, _, e⟩ := Outcome.bind_eq_ok e
    injection e with e
    subst e
    intro c hc
    cases hc
  | turn _ _ he ih => exact growAtSeed_parts hf he ih

end RgbdSlam.Primitives
