import Verif.Lemmas.Histogram

/-
Lemmas about the adjacency of planes and their merge.
-/
namespace RgbdSlam.Primitives

open RgbdSlam Spec Histogram

/-! ### Adjacency -/

/-- The pairs written by the scan. -/
theorem mem_connected {rows cols : Nat} {label : Nat → Nat → Nat} {p q : Nat} :
    (p, q) ∈ connected rows cols label ↔
      ∃ r c, r < rows - 1 ∧ c < cols - 1 ∧ 0 < label r c ∧
        ((0 < label r (c + 1) ∧ label r c ≠ label r (c + 1) ∧
            ((p = label r c - 1 ∧ q = label r (c + 1) - 1) ∨ (p = label r (c + 1) - 1 ∧ q = label r c - 1))) ∨
         (0 < label (r + 1) c ∧ label r c ≠ label (r + 1) c ∧
            ((p = label r c - 1 ∧ q = label (r + 1) c - 1) ∨ (p = label (r + 1) c - 1 ∧ q = label r c - 1)))) := by
  unfold connected
  simp only [List.mem_flatMap, List.mem_range]
  constructor
  · rintro ⟨r, hr, c, hc, h⟩
    split at h
    · cases h
    · rename_i hp
      refine ⟨r, c, hr, hc, by omega, ?_⟩
      rcases List.mem_append.mp h with h | h
      · left
        split at h
        · rename_i hn
          refine ⟨hn.1, hn.2, ?_⟩
          simpa using h
        · cases h
      · right
        split at h
        · rename_i hn
          refine ⟨hn.1, hn.2, ?_⟩
          simpa using h
        · cases h
  · rintro ⟨r, c, hr, hc, hp, h⟩
    refine ⟨r, hr, c, hc, ?_⟩
    rw [if_neg (by omega)]
    rw [List.mem_append]
    rcases h with ⟨h1, h2, h3⟩ | ⟨h1, h2, h3⟩
    · left
      rw [if_pos ⟨h1, h2⟩]
      simpa using h3
    · right
      rw [if_pos ⟨h1, h2⟩]
      simpa using h3

/-! ### Merging -/

theorem getD_range {n i : Nat} (h : i < n) : (List.range n).getD i 0 = i := by
  simp [List.getD_eq_getElem?_getD, h]

/-- What holds of the labels and segments when rows below `row` were processed. -/
structure MInv (g : Scene) (adj : Nat → Nat → Bool) (orig : List Seg) (row : Nat) (m : Merge) : Prop where
  lenL : m.labels.length = orig.length
  lenS : m.segs.length = orig.length
  le : ∀ j, j < orig.length → m.labels.getD j 0 ≤ j
  low : ∀ j, j < orig.length → m.labels.getD j 0 = j ∨ m.labels.getD j 0 < row
  rep : ∀ j, j < orig.length → m.labels.getD (m.labels.getD j 0) 0 = m.labels.getD j 0
  link : ∀ j, j < orig.length → m.labels.getD j 0 ≠ j →
    ∃ r, r < j ∧ r < row ∧ adj r j = true ∧ m.labels.getD r 0 = m.labels.getD j 0 ∧
      g.planarFit (orig.getD j noSeg).fitted = true ∧
      ∃ f, (f = (orig.getD (m.labels.getD j 0) noSeg).fitted ∨
          (orig.getD (m.labels.getD j 0) noSeg).parts <+: f) ∧
        g.segMerge f (orig.getD j noSeg).fitted = true
  same : ∀ j, row ≤ j → j < orig.length → m.segs.getD j noSeg = orig.getD j noSeg
  parts : ∀ j, j < orig.length → (orig.getD j noSeg).parts <+: (m.segs.getD j noSeg).parts
  fitted : ∀ j, j < orig.length → (m.segs.getD j noSeg).fitted = (orig.getD j noSeg).fitted ∨
    (orig.getD j noSeg).parts <+: (m.segs.getD j noSeg).fitted
  covers : ∀ j, j < orig.length → ∀ c, c ∈ (orig.getD j noSeg).parts →
    c ∈ (m.segs.getD (m.labels.getD j 0) noSeg).parts

/-- The state inside the row `row`, whose plane is `p`. -/
structure MRow (g : Scene) (adj : Nat → Nat → Bool) (orig : List Seg) (row p : Nat) (m : Merge) : Prop where
  hp : p ≤ row
  hrow : row < orig.length
  lab : m.labels.getD row 0 = p
  labp : m.labels.getD p 0 = p
  lenL : m.labels.length = orig.length
  lenS : m.segs.length = orig.length
  le : ∀ j, j < orig.length → m.labels.getD j 0 ≤ j
  low : ∀ j, j < orig.length → m.labels.getD j 0 = j ∨ m.labels.getD j 0 < row + 1
  rep : ∀ j, j < orig.length → m.labels.getD (m.labels.getD j 0) 0 = m.labels.getD j 0
  link : ∀ j, j < orig.length → m.labels.getD j 0 ≠ j →
    ∃ r, r < j ∧ r < row + 1 ∧ adj r j = true ∧ m.labels.getD r 0 = m.labels.getD j 0 ∧
      g.planarFit (orig.getD j noSeg).fitted = true ∧
      ∃ f, (f = (orig.getD (m.labels.getD j 0) noSeg).fitted ∨
          (orig.getD (m.labels.getD j 0) noSeg).parts <+: f) ∧
        g.segMerge f (orig.getD j noSeg).fitted = true
  same : ∀ j, row + 1 ≤ j → j < orig.length → m.segs.getD j noSeg = orig.getD j noSeg
  parts : ∀ j, j < orig.length → (orig.getD j noSeg).parts <+: (m.segs.getD j noSeg).parts
  fitted : ∀ j, j < orig.length → (m.segs.getD j noSeg).fitted = (orig.getD j noSeg).fitted ∨
    (orig.getD j noSeg).parts <+: (m.segs.getD j noSeg).fitted
  covers : ∀ j, j < orig.length → ∀ c, c ∈ (orig.getD j noSeg).parts →
    c ∈ (m.segs.getD (m.labels.getD j 0) noSeg).parts

theorem MInv.toRow {g : Scene} {adj : Nat → Nat → Bool} {orig : List Seg} {row : Nat} {m : Merge}
    (h : MInv g adj orig row m) (hr : row < orig.length) :
    MRow g adj orig row (m.labels.getD row 0) m where
  hp := h.le row hr
  hrow := hr
  lab := rfl
  labp := h.rep row hr
  lenL := h.lenL
  lenS := h.lenS
  le := h.le
  low := fun j hj => (h.low j hj).imp id (fun x => by omega)
  rep := h.rep
  link := fun j hj hne => by
    obtain ⟨r, h1, h2, h3⟩ := h.link j hj hne
    exact ⟨r, h1, by omega, h3⟩
  same := fun j h1 h2 => h.same j (by omega) h2
  parts := h.parts
  fitted := h.fitted
  covers := h.covers

theorem MRow.toInv {g : Scene} {adj : Nat → Nat → Bool} {orig : List Seg} {row p : Nat} {m : Merge}
    (h : MRow g adj orig row p m) : MInv g adj orig (row + 1) m where
  lenL := h.lenL
  lenS := h.lenS
  le := h.le
  low := h.low
  rep := h.rep
  link := h.link
  same := h.same
  parts := h.parts
  fitted := h.fitted
  covers := h.covers

theorem mergeCol_row {g : Scene} {adj : Nat → Nat → Bool} {orig : List Seg} {row p : Nat} {m : Merge} {b : Bool}
    (h : MRow g adj orig row p m) {col : Nat} (hc : row < col) (hcn : col < orig.length) :
    MRow g adj orig row p (mergeCol g adj row p (m, b) col).1 := by
  unfold mergeCol
  split
  · exact h
  rename_i hadj
  simp only
  split
  · exact h
  rename_i hpl
  split
  case isFalse => exact h
  rename_i hmg
  have hadj' : adj row col = true := by simpa using hadj
  have hsc := h.same col (by omega) hcn
  have hpn : p < orig.length := by have := h.hp; have := h.hrow; omega
  have hpc : p ≠ col := by have := h.hp; omega
  have hpc' : col ≠ p := fun e => hpc e.symm
  -- new labels
  have hl : ∀ j, (m.labels.set col p).getD j 0 = if j = col then p else m.labels.getD j 0 := by
    intro j
    rw [getD_set, h.lenL]
    by_cases hj : j = col
    · simp [hj, hcn]
    · simp [hj]
  have hs : ∀ j, (m.segs.set p ((m.segs.getD p noSeg).expand (m.segs.getD col noSeg))).getD j noSeg =
      if j = p then (m.segs.getD p noSeg).expand (m.segs.getD col noSeg) else m.segs.getD j noSeg := by
    intro j
    rw [getD_set, h.lenS]
    by_cases hj : j = p
    · simp [hj, hpn]
    · simp [hj]
  have hnotcol : ∀ j, j < orig.length → j ≠ col → m.labels.getD j 0 ≠ col := by
    intro j hj hjc he
    rcases h.low j hj with h1 | h1
    · omega
    · omega
  refine ⟨h.hp, h.hrow, ?_, ?_, by simp [h.lenL], by simp [h.lenS], ?_, ?_, ?_, ?_, ?_, ?_, ?_, ?_⟩
  · simp only; rw [hl, if_neg (by omega)]; exact h.lab
  · simp only; rw [hl, if_neg hpc]; exact h.labp
  · intro j hj
    simp only; rw [hl]
    split
    · have := h.hp; omega
    · exact h.le j hj
  · intro j hj
    simp only; rw [hl]
    split
    · right; have := h.hp; omega
    · exact h.low j hj
  · intro j hj
    simp only
    rw [hl j]
    split
    · rw [hl, if_neg hpc]; exact h.labp
    · rename_i hjc
      rw [hl, if_neg (hnotcol j hj hjc)]
      exact h.rep j hj
  · intro j hj hne
    simp only at hne ⊢
    rw [hl j] at hne ⊢
    by_cases hjc : j = col
    · subst hjc
      simp only [if_true]
      refine ⟨row, hc, by omega, hadj', ?_, ?_, (m.segs.getD p noSeg).fitted, ?_, ?_⟩
      · rw [hl, if_neg (by omega)]; exact h.lab
      · rw [← hsc]; simpa using hpl
      · exact h.fitted p hpn
      · rw [← hsc]; exact hmg
    · simp only [hjc, if_false] at hne ⊢
      obtain ⟨r, h1, h2, h3, h4, h5⟩ := h.link j hj hne
      refine ⟨r, h1, h2, h3, ?_, h5⟩
      rw [hl, if_neg (by omega)]
      exact h4
  · intro j h1 h2
    simp only
    rw [hs, if_neg (by have := h.hp; omega)]
    exact h.same j h1 h2
  · intro j hj
    simp only
    rw [hs]
    split
    · rename_i hjp
      subst hjp
      exact (h.parts j hj).trans (List.prefix_append _ _)
    · exact h.parts j hj
  · intro j hj
    simp only
    rw [hs]
    split
    · rename_i hjp
      subst hjp
      exact h.fitted j hj
    · exact h.fitted j hj
  · intro j hj c hcm
    simp only
    rw [hl j]
    split
    · rename_i hjc
      subst hjc
      rw [hs, if_pos rfl]
      simp only [Seg.expand]
      rw [hsc]
      exact List.mem_append_right _ hcm
    · have := h.covers j hj c hcm
      rw [hs]
      split
      · rename_i he
        rw [he] at this
        exact List.mem_append_left _ this
      · exact this

theorem fold_row {g : Scene} {adj : Nat → Nat → Bool} {orig : List Seg} {row p : Nat} :
    ∀ (cols : List Nat) (m : Merge) (b : Bool), MRow g adj orig row p m →
      (∀ c, c ∈ cols → row < c ∧ c < orig.length) →
      MRow g adj orig row p (cols.foldl (mergeCol g adj row p) (m, b)).1 := by
  intro cols
  induction cols with
  | nil => intro m b h _; exact h
  | cons c cs ih =>
    intro m b h hc
    rw [List.foldl_cons]
    have h1 := mergeCol_row (b := b) h (hc c List.mem_cons_self).1 (hc c List.mem_cons_self).2
    have := ih (mergeCol g adj row p (m, b) c).1 (mergeCol g adj row p (m, b) c).2 h1
      (fun x hx => hc x (List.mem_cons_of_mem _ hx))
    exact this

theorem refit_row {g : Scene} {adj : Nat → Nat → Bool} {orig : List Seg} {row p : Nat} {m : Merge}
    (h : MRow g adj orig row p m) :
    MRow g adj orig row p { m with segs := m.segs.set p (m.segs.getD p noSeg).fit } := by
  have hpn : p < orig.length := by have := h.hp; have := h.hrow; omega
  have hs : ∀ j, (m.segs.set p (m.segs.getD p noSeg).fit).getD j noSeg =
      if j = p then (m.segs.getD p noSeg).fit else m.segs.getD j noSeg := by
    intro j
    rw [getD_set, h.lenS]
    by_cases hj : j = p
    · simp [hj, hpn]
    · simp [hj]
  have hpart : ∀ j, ((m.segs.set p (m.segs.getD p noSeg).fit).getD j noSeg).parts = (m.segs.getD j noSeg).parts := by
    intro j
    rw [hs]
    split
    · rename_i e; subst e; rfl
    · rfl
  refine ⟨h.hp, h.hrow, h.lab, h.labp, h.lenL, by simp [h.lenS], h.le, h.low, h.rep, h.link, ?_, ?_, ?_, ?_⟩
  · intro j h1 h2
    simp only
    rw [hs, if_neg (by have := h.hp; omega)]
    exact h.same j h1 h2
  · intro j hj
    simp only
    rw [hpart]; exact h.parts j hj
  · intro j hj
    simp only
    rw [hs]
    split
    · rename_i e
      subst e
      right
      exact h.parts j hj
    · exact h.fitted j hj
  · intro j hj c hc
    simp only
    rw [hpart]; exact h.covers j hj c hc

theorem mergeRow_inv {g : Scene} {adj : Nat → Nat → Bool} {orig : List Seg} {row : Nat} {m : Merge}
    (h : MInv g adj orig row m) (hr : row < orig.length) :
    MInv g adj orig (row + 1) (mergeRow g adj orig.length m row) := by
  unfold mergeRow
  simp only
  split
  · exact (h.toRow hr).toInv
  · have h1 := fold_row (g := g) (adj := adj)
      ((List.range orig.length).filter fun col => decide (row < col)) m false (h.toRow hr)
      (by
        intro c hc
        obtain ⟨a, b⟩ := List.mem_filter.mp hc
        exact ⟨by simpa using b, List.mem_range.mp a⟩)
    split
    · exact (refit_row h1).toInv
    · exact h1.toInv

theorem fold_rows {g : Scene} {adj : Nat → Nat → Bool} {orig : List Seg} (k : Nat) (hk : k ≤ orig.length) :
    MInv g adj orig k ((List.range k).foldl (mergeRow g adj orig.length)
      { segs := orig, labels := List.range orig.length }) := by
  induction k with
  | zero =>
    refine ⟨by simp, rfl, ?_, ?_, ?_, ?_, fun _ _ _ => rfl, fun _ _ => List.prefix_refl _, fun _ _ => Or.inl rfl, ?_⟩
    · intro j hj; simp only [List.range_zero, List.foldl_nil]; rw [getD_range hj]; omega
    · intro j hj; simp only [List.range_zero, List.foldl_nil]; rw [getD_range hj]; exact Or.inl rfl
    · intro j hj
      simp only [List.range_zero, List.foldl_nil]
      rw [getD_range hj, getD_range hj]
    · intro j hj hne
      simp only [List.range_zero, List.foldl_nil] at hne
      rw [getD_range hj] at hne
      exact absurd rfl hne
    · intro j hj c hc
      simp only [List.range_zero, List.foldl_nil]
      rw [getD_range hj]; exact hc
  | succ k ih =>
    rw [List.range_succ, List.foldl_append, List.foldl_cons, List.foldl_nil]
    exact mergeRow_inv (ih (by omega)) (by omega)

theorem mergePlanes_inv (g : Scene) (adj : Nat → Nat → Bool) (orig : List Seg) :
    MInv g adj orig orig.length (mergePlanes g adj orig) := fold_rows orig.length (Nat.le_refl _)

/-! ### Merges do happen -/

theorem mergeCol_lt {g : Scene} {adj : Nat → Nat → Bool} {orig : List Seg} {row p : Nat} {m : Merge} {b : Bool}
    (h : MRow g adj orig row p m) {col : Nat} (hc : row < col) {j : Nat}
    (hj : m.labels.getD j 0 < j) : (mergeCol g adj row p (m, b) col).1.labels.getD j 0 < j := by
  unfold mergeCol
  split
  · exact hj
  simp only
  split
  · exact hj
  split
  case isFalse => exact hj
  simp only
  rw [getD_set]
  split
  · have := h.hp; omega
  · exact hj

theorem fold_lt {g : Scene} {adj : Nat → Nat → Bool} {orig : List Seg} {row p j : Nat} :
    ∀ (cols : List Nat) (m : Merge) (b : Bool), MRow g adj orig row p m →
      (∀ c, c ∈ cols → row < c ∧ c < orig.length) → m.labels.getD j 0 < j →
      (cols.foldl (mergeCol g adj row p) (m, b)).1.labels.getD j 0 < j := by
  intro cols
  induction cols with
  | nil => intro m b _ _ h; exact h
  | cons c cs ih =>
    intro m b h hc hj
    rw [List.foldl_cons]
    have hcc := hc c List.mem_cons_self
    exact ih (mergeCol g adj row p (m, b) c).1 (mergeCol g adj row p (m, b) c).2
      (mergeCol_row (b := b) h hcc.1 hcc.2) (fun x hx => hc x (List.mem_cons_of_mem _ hx))
      (mergeCol_lt h hcc.1 hj)

theorem fold_merges {g : Scene} {adj : Nat → Nat → Bool} {orig : List Seg} {row p col : Nat}
    (hadj : adj row col = true) (hpl : g.planarFit (orig.getD col noSeg).fitted = true)
    (hmg : ∀ f, g.segMerge f (orig.getD col noSeg).fitted = true) :
    ∀ (cols : List Nat) (m : Merge) (b : Bool), MRow g adj orig row p m →
      (∀ c, c ∈ cols → row < c ∧ c < orig.length) → col ∈ cols →
      (cols.foldl (mergeCol g adj row p) (m, b)).1.labels.getD col 0 < col := by
  intro cols
  induction cols with
  | nil => intro m b _ _ h; cases h
  | cons c cs ih =>
    intro m b h hc hmem
    rw [List.foldl_cons]
    have hcc := hc c List.mem_cons_self
    have h1 := mergeCol_row (b := b) h hcc.1 hcc.2
    by_cases he : c = col
    · subst he
      refine fold_lt cs (mergeCol g adj row p (m, b) c).1 (mergeCol g adj row p (m, b) c).2 h1 (fun x hx => hc x (List.mem_cons_of_mem _ hx)) ?_
      unfold mergeCol
      rw [if_neg (by simp [hadj])]
      simp only
      have hsc := h.same c (by omega) hcc.2
      rw [hsc, if_neg (by rw [hpl]; simp), if_pos (hmg _)]
      simp only
      rw [getD_set, if_pos ⟨rfl, by rw [h.lenL]; exact hcc.2⟩]
      have := h.hp
      omega
    · exact ih _ _ h1 (fun x hx => hc x (List.mem_cons_of_mem _ hx))
        (by
          rcases List.mem_cons.mp hmem with e | e
          · exact absurd e.symm he
          · exact e)

theorem mergeRow_lt {g : Scene} {adj : Nat → Nat → Bool} {orig : List Seg} {row : Nat} {m : Merge}
    (h : MInv g adj orig row m) (hr : row < orig.length) {j : Nat} (hj : m.labels.getD j 0 < j) :
    (mergeRow g adj orig.length m row).labels.getD j 0 < j := by
  unfold mergeRow
  simp only
  split
  · exact hj
  · have h1 := fold_lt (g := g) (adj := adj)
      ((List.range orig.length).filter fun col => decide (row < col)) m false (h.toRow hr)
      (by
        intro c hc
        obtain ⟨a, b⟩ := List.mem_filter.mp hc
        exact ⟨by simpa using b, List.mem_range.mp a⟩) hj
    split
    · exact h1
    · exact h1

theorem mergePlanes_merges {g : Scene} {adj : Nat → Nat → Bool} {orig : List Seg} {row col : Nat}
    (hrc : row < col) (hcn : col < orig.length) (hadj : adj row col = true)
    (hpl : ∀ f, g.planarFit f = true) (hmg : ∀ f, g.segMerge f (orig.getD col noSeg).fitted = true) :
    (mergePlanes g adj orig).labels.getD col 0 < col := by
  have key : ∀ k, row < k → k ≤ orig.length →
      ((List.range k).foldl (mergeRow g adj orig.length)
        { segs := orig, labels := List.range orig.length }).labels.getD col 0 < col := by
    intro k
    induction k with
    | zero => intro h; omega
    | succ k ih =>
      intro h1 h2
      have hinv := fold_rows (g := g) (adj := adj) (orig := orig) k (by omega)
      rw [List.range_succ, List.foldl_append, List.foldl_cons, List.foldl_nil]
      by_cases hk : row < k
      · exact mergeRow_lt hinv (by omega) (ih hk (by omega))
      · have : row = k := by omega
        subst this
        unfold mergeRow
        simp only
        rw [if_neg (by rw [hpl]; simp)]
        have := fold_merges (g := g) (adj := adj) hadj (hpl _) hmg
          ((List.range orig.length).filter fun col => decide (row < col)) _ false (hinv.toRow (by omega))
          (by
            intro c hc
            obtain ⟨a, b⟩ := List.mem_filter.mp hc
            exact ⟨by simpa using b, List.mem_range.mp a⟩)
          (List.mem_filter.mpr ⟨List.mem_range.mpr hcn, by simpa using hrc⟩)
        split
        · exact this
        · exact this
  exact key orig.length (by omega) (Nat.le_refl _)

end RgbdSlam.Primitives
