import Verif.Spec.Keypoints
namespace RgbdSlam.Keypoints

variable {Desc : Type}

theorem getDepth_ok (im : DepthImage) (p : Pt) : ∃ d, getDepth im p = .ok d := by
  unfold getDepth
  split
  · rename_i h
    simp only [inBorder, decide_eq_true_eq] at h
    obtain ⟨h1, h2, h3, h4⟩ := h
    have b : ∀ (v : Rat) (n : Nat), 1 ≤ v → v < (n : Rat) - 1 → 0 ≤ round v ∧ round v < n := by
      intro v n hv hn
      constructor
      · rw [round, Rat.le_floor_iff]
        have : ((0 : Int) : Rat) = 0 := rfl
        grind
      · rw [round, Rat.floor_lt_iff]
        have : (((n : Nat) : Int) : Rat) = (n : Rat) := rfl
        grind
    unfold DepthImage.at
    rw [if_pos ⟨(b _ _ h2 h4).1, (b _ _ h2 h4).2, (b _ _ h1 h3).1, (b _ _ h1 h3).2⟩]
    exact ⟨_, rfl⟩
  · exact ⟨_, rfl⟩

theorem cellCoord_lt (v : Rat) {n : Nat} (h : 0 < n) : cellCoord v n < n := by
  unfold cellCoord; omega

theorem cellIndex_lt {x y cx cy : Nat} (hx : x < cx) (hy : y < cy) (h : cy ≤ cx) :
    y * cy + x < cy * cx := by
  have h1 : (y + 1) * cx ≤ cy * cx := Nat.mul_le_mul_right _ hy
  have h2 : y * cy ≤ y * cx := Nat.mul_le_mul_left _ h
  have h3 : (y + 1) * cx = y * cx + cx := Nat.succ_mul ..
  omega

/-- The cell of a point. -/
def cellOf (h : Handler Desc) (p : Pt) : Nat :=
  cellIndex h (cellCoord p.x h.cellX) (cellCoord p.y h.cellY)

/-- State of the handler after the detected points `ds`, with `n` = their number, and tracked points. -/
structure Filled (h : Handler Desc) (detected : List Pt) (tracked : List Tracked) : Prop where
  pts : h.keypoints.map (·.pt) = detected ++ tracked.map (·.pt)
  cells : ∀ c, ∀ i, i ∈ (h.cells[c]?).getD [] ↔ ∃ q, detected[i]? = some q ∧ cellOf h q = c
  ids : ∀ x i, (x, i) ∈ h.ids → ∃ t, tracked[i - detected.length]? = some t ∧ detected.length ≤ i ∧
    t.id = x ∧ x ≠ 0
  known : ∀ t ∈ tracked, t.id ≠ 0 → ∃ i, (t.id, i) ∈ h.ids

/-- one step of `addDetected` -/
def push (h : Handler Desc) (p : Pt) (d : Rat) (i : Nat) : Handler Desc :=
  { h with
    keypoints := h.keypoints ++ [⟨p, d⟩]
    cells := h.cells.modify (cellIndex h (cellCoord p.x h.cellX) (cellCoord p.y h.cellY)) (· ++ [i]) }

/-- one step of `addTracked` -/
def pushT (h : Handler Desc) (t : Tracked) (d : Rat) (i : Nat) : Handler Desc :=
  { h with
    keypoints := h.keypoints ++ [⟨t.pt, d⟩]
    ids := if 0 < t.id then (t.id, i) :: h.ids else h.ids }

theorem addDetected_spec {im : DepthImage} {ps : List Pt} {h h' : Handler Desc} {done : List Pt}
    (hf : Filled h done []) (hr : addDetected im done.length ps h = .ok h') :
    Filled h' (done ++ ps) [] ∧ h'.cellX = h.cellX ∧ h'.cellY = h.cellY ∧
      h'.cells.length = h.cells.length ∧ h'.descs = h.descs := by
  induction ps generalizing h done with
  | nil => simp [addDetected] at hr; subst hr; simpa using hf
  | cons p ps ih =>
    simp only [addDetected] at hr
    obtain ⟨d, h1, hr⟩ := Outcome.bind_eq_ok hr
    split at hr
    · rename_i hc
      have hlen : done.length + 1 = (done ++ [p]).length := by simp
      rw [hlen] at hr
      have hne : h.ids = [] := by
        cases hi : h.ids with
        | nil => rfl
        | cons a l =>
          obtain ⟨t, ht, -⟩ := hf.ids a.1 a.2 (by rw [hi]; exact List.mem_cons_self)
          simp at ht
      have hf' : Filled (push h p d done.length) (done ++ [p]) [] := by
        constructor
        · have := hf.pts
          simpa [push] using this
        · intro c i
          have key : ∀ q, (done ++ [p])[i]? = some q ↔
              (done[i]? = some q ∨ (i = done.length ∧ q = p)) := by
            intro q
            rw [List.getElem?_append]
            split
            · rename_i hlt
              constructor
              · intro h; exact .inl h
              · rintro (h | h)
                · exact h
                · omega
            · rename_i hge
              have hn : done[i]? = none := by simp; omega
              rw [hn]
              by_cases hi : i = done.length
              · subst hi; simp [eq_comm]
              · have : i - done.length ≠ 0 := by omega
                simp [hi, this]
          simp only [key]
          have hold := hf.cells c i
          have hcell : ∀ q, cellOf (push h p d done.length) q = cellOf h q := fun _ => rfl
          simp only [hcell]
          simp only [push, List.getElem?_modify]
          by_cases he : cellIndex h (cellCoord p.x h.cellX) (cellCoord p.y h.cellY) = c
          · have hlt : c < h.cells.length := he ▸ hc
            rw [List.getElem?_eq_getElem hlt] at hold ⊢
            simp only [he, if_true, Option.map_some, Option.getD_some, List.mem_append, List.mem_singleton,
              Option.map_eq_map, Option.getD_some] at hold ⊢
            rw [hold]
            constructor
            · rintro (⟨q, hq, hq2⟩ | rfl)
              · exact ⟨q, .inl hq, hq2⟩
              · exact ⟨p, .inr ⟨rfl, rfl⟩, he⟩
            · rintro ⟨q, hq | ⟨hq, rfl⟩, hq2⟩
              · exact .inl ⟨q, hq, hq2⟩
              · exact .inr hq
          · simp only [he, if_false]
            have : (((fun a : List Nat => a) <$> h.cells[c]?) : Option (List Nat)) = h.cells[c]? := by simp
            rw [this, hold]
            constructor
            · rintro ⟨q, hq, hq2⟩; exact ⟨q, .inl hq, hq2⟩
            · rintro ⟨q, hq | ⟨hq, rfl⟩, hq2⟩
              · exact ⟨q, hq, hq2⟩
              · exact absurd hq2 he
        · intro x i hx; simp [push, hne] at hx
        · intro t ht; simp at ht
      obtain ⟨a1, a2, a3, a4, a5⟩ := ih hf' hr
      refine ⟨by simpa using a1, a2, a3, by simpa [push] using a4, a5⟩
    · cases hr

theorem addTracked_spec {im : DepthImage} {detected : List Pt} {ts done : List Tracked}
    {h h' : Handler Desc} (hf : Filled h detected done)
    (hr : addTracked im (detected.length + done.length) ts h = .ok h') :
    Filled h' detected (done ++ ts) ∧ h'.cellX = h.cellX ∧ h'.cellY = h.cellY ∧
      h'.cells = h.cells ∧ h'.descs = h.descs := by
  induction ts generalizing h done with
  | nil => simp [addTracked] at hr; subst hr; simpa using hf
  | cons t ts ih =>
    simp only [addTracked] at hr
    obtain ⟨d, h1, hr⟩ := Outcome.bind_eq_ok hr
    have hlen : detected.length + done.length + 1 = detected.length + (done ++ [t]).length := by
      simp; omega
    rw [hlen] at hr
    have hf' : Filled (pushT h t d (detected.length + done.length)) detected (done ++ [t]) := by
      constructor
      · simp [pushT, hf.pts]
      · exact hf.cells
      · intro x i hx
        have hold : (x, i) ∈ h.ids → ∃ t', (done ++ [t])[i - detected.length]? = some t' ∧
            detected.length ≤ i ∧ t'.id = x ∧ x ≠ 0 := by
          intro hx
          obtain ⟨t', e1, e2, e3⟩ := hf.ids x i hx
          refine ⟨t', ?_, e2, e3⟩
          rw [List.getElem?_append_left]
          · exact e1
          · exact (List.getElem?_eq_some_iff.1 e1).1
        simp only [pushT] at hx
        split at hx
        · rename_i hpos
          rcases List.mem_cons.1 hx with hx | hx
          · injection hx with hx1 hx2
            subst hx1; subst hx2
            exact ⟨t, by simp, by omega, rfl, by omega⟩
          · exact hold hx
        · exact hold hx
      · intro t' ht' hne
        rcases List.mem_append.1 ht' with ht' | ht'
        · obtain ⟨i, hi⟩ := hf.known t' ht' hne
          refine ⟨i, ?_⟩
          simp only [pushT]
          split
          · exact List.mem_cons_of_mem _ hi
          · exact hi
        · simp at ht'; subst ht'
          refine ⟨detected.length + done.length, ?_⟩
          simp only [pushT]
          rw [if_pos (by omega)]
          exact List.mem_cons_self
    obtain ⟨a1, a2, a3, a4, a5⟩ := ih hf' hr
    exact ⟨by simpa using a1, a2, a3, a4, a5⟩

theorem clear_filled (h : Handler Desc) (descs : List Desc) :
    Filled { clear h with descs := descs } [] [] := by
  constructor
  · simp [clear]
  · intro c i
    simp only [clear, List.getElem?_map]
    cases h.cells[c]? <;> simp
  · simp [clear]
  · simp

theorem set_spec {im : DepthImage} {detected : List Pt} {descs : List Desc} {tracked : List Tracked}
    {h h' : Handler Desc} (hr : set im detected descs tracked h = .ok h') :
    Filled h' detected tracked ∧ h'.cellX = h.cellX ∧ h'.cellY = h.cellY ∧
      h'.cells.length = h.cells.length ∧ h'.descs = descs := by
  unfold set at hr
  obtain ⟨h1, e1, hr⟩ := Outcome.bind_eq_ok hr
  obtain ⟨a1, a2, a3, a4, a5⟩ := addDetected_spec (done := []) (clear_filled h descs) e1
  simp only [List.nil_append] at a1
  obtain ⟨b1, b2, b3, b4, b5⟩ := addTracked_spec (done := []) a1 hr
  refine ⟨by simpa using b1, by rw [b2, a2]; rfl, by rw [b3, a3]; rfl, by rw [b4, a4]; simp [clear],
    by rw [b5, a5]⟩

/-- A handler whose grid has the size of its constructor. -/
def Sized (h : Handler Desc) : Prop :=
  0 < h.cellX ∧ 0 < h.cellY ∧ h.cells.length = h.cellY * h.cellX

theorem create_sized {cols rows : Nat} (hc : 0 < cols) (hr : 0 < rows) :
    Sized (create cols rows : Handler Desc) := by
  simp only [Sized, create, List.length_replicate, cellSize]
  exact ⟨by omega, by omega, trivial⟩

theorem addDetected_ok {im : DepthImage} (ps : List Pt) (i : Nat) {h : Handler Desc} (hs : Sized h)
    (hw : h.cellY ≤ h.cellX) : ∃ h', addDetected im i ps h = .ok h' := by
  induction ps generalizing i h with
  | nil => exact ⟨h, rfl⟩
  | cons p ps ih =>
    obtain ⟨d, hd⟩ := getDepth_ok im p
    simp only [addDetected, hd, Outcome.bind_ok]
    rw [if_pos]
    · apply ih
      · simpa [Sized] using hs
      · exact hw
    · rw [hs.2.2]
      exact cellIndex_lt (cellCoord_lt _ hs.1) (cellCoord_lt _ hs.2.1) hw

theorem addTracked_ok {im : DepthImage} (ts : List Tracked) (i : Nat) (h : Handler Desc) :
    ∃ h', addTracked im i ts h = .ok h' := by
  induction ts generalizing i h with
  | nil => exact ⟨h, rfl⟩
  | cons p ps ih =>
    obtain ⟨d, hd⟩ := getDepth_ok im p.pt
    simp only [addTracked, hd, Outcome.bind_ok]
    exact ih _ _

theorem set_ok {im : DepthImage} (detected : List Pt) (descs : List Desc) (tracked : List Tracked)
    {h : Handler Desc} (hs : Sized h) (hw : h.cellY ≤ h.cellX) :
    ∃ h', set im detected descs tracked h = .ok h' := by
  unfold set
  have hs' : Sized { clear h with descs := descs } := by simpa [Sized, clear] using hs
  obtain ⟨h1, e1⟩ := addDetected_ok (im := im) detected 0 hs' hw
  rw [e1]
  exact addTracked_ok _ _ _

/-! ### The mask -/

theorem fillMask_spec {h : Handler Desc} {p : Pt} {flags : List Bool} {is : List Nat}
    {m m' : List Bool} (hr : fillMask h p flags is m = .ok m') :
    m'.length = m.length ∧ ∀ i, m'[i]? = some true ↔ (m[i]? = some true ∨
      (i ∈ is ∧ flags[i]? = some false ∧ ∃ k, h.keypoints[i]? = some k ∧ dist2 k.pt p ≤ 900)) := by
  induction is generalizing m with
  | nil => simp [fillMask] at hr; subst hr; simp
  | cons j js ih =>
    simp only [fillMask] at hr
    have e900 : ((searchRadius * searchRadius : Nat) : Rat) = 900 := by
      simp [searchRadius]
    rw [e900] at hr
    split at hr
    · rename_i k hfl hk
      split at hr
      · rename_i hd
        split at hr
        · rename_i hlt
          obtain ⟨a1, a2⟩ := ih hr
          refine ⟨by simpa using a1, fun i => ?_⟩
          rw [a2, List.getElem?_set]
          by_cases hij : j = i
          · subst hij
            simp only [if_true, hlt, List.mem_cons, true_or, true_and]
            simp [hfl, hk, hd]
          · have : i ≠ j := fun e => hij e.symm
            simp [hij, this]
        · cases hr
      · rename_i hd
        obtain ⟨a1, a2⟩ := ih hr
        refine ⟨a1, fun i => ?_⟩
        rw [a2]
        by_cases hij : i = j
        · subst hij
          constructor
          · rintro (hx | hx)
            · exact .inl hx
            · exact .inr ⟨by simp, hx.2⟩
          · rintro (hx | ⟨_, _, k', hk', hd'⟩)
            · exact .inl hx
            · rw [hk] at hk'; injection hk' with hk'; subst hk'; exact absurd hd' hd
        · simp [hij]
    · rename_i hfl
      obtain ⟨a1, a2⟩ := ih hr
      refine ⟨a1, fun i => ?_⟩
      rw [a2]
      by_cases hij : i = j
      · subst hij; simp [hfl]
      · simp [hij]
    · cases hr

theorem fillCells_spec {h : Handler Desc} {p : Pt} {flags : List Bool} {cs : List Nat}
    {m m' : List Bool} (hr : fillCells h p flags cs m = .ok m') :
    m'.length = m.length ∧ ∀ i, m'[i]? = some true ↔ (m[i]? = some true ∨
      ((∃ c ∈ cs, i ∈ (h.cells[c]?).getD []) ∧ flags[i]? = some false ∧
        ∃ k, h.keypoints[i]? = some k ∧ dist2 k.pt p ≤ 900)) := by
  induction cs generalizing m with
  | nil => simp [fillCells] at hr; subst hr; simp
  | cons c cs ih =>
    simp only [fillCells] at hr
    split at hr
    · cases hr
    · rename_i l hl
      obtain ⟨m1, e1, hr⟩ := Outcome.bind_eq_ok hr
      obtain ⟨a1, a2⟩ := fillMask_spec e1
      obtain ⟨b1, b2⟩ := ih hr
      refine ⟨by omega, fun i => ?_⟩
      rw [b2, a2]
      constructor
      · rintro ((hx | ⟨hx, hy⟩) | ⟨⟨c', hc', hx⟩, hy⟩)
        · exact .inl hx
        · exact .inr ⟨⟨c, by simp, by simpa [hl] using hx⟩, hy⟩
        · exact .inr ⟨⟨c', by simp [hc'], hx⟩, hy⟩
      · rintro (hx | ⟨⟨c', hc', hx⟩, hy⟩)
        · exact .inl (.inl hx)
        · rcases List.mem_cons.1 hc' with rfl | hc'
          · exact .inl (.inr ⟨by simpa [hl] using hx, hy⟩)
          · exact .inr ⟨⟨c', hc', hx⟩, hy⟩

theorem fillMask_ok {h : Handler Desc} {p : Pt} {flags : List Bool} {is : List Nat} {m : List Bool}
    (hi : ∀ i ∈ is, i < m.length ∧ i < flags.length ∧ i < h.keypoints.length) :
    ∃ m', fillMask h p flags is m = .ok m' := by
  induction is generalizing m with
  | nil => exact ⟨m, rfl⟩
  | cons j js ih =>
    obtain ⟨h1, h2, h3⟩ := hi j (by simp)
    have ih' : ∀ m2 : List Bool, m2.length = m.length → ∃ m', fillMask h p flags js m2 = .ok m' := by
      intro m2 e
      exact ih fun i hi' => by rw [e]; exact hi i (by simp [hi'])
    simp only [fillMask, List.getElem?_eq_getElem h2, List.getElem?_eq_getElem h3]
    cases hb : flags[j] with
    | true => simpa using ih' m rfl
    | false =>
      simp only [h1, if_true]
      split
      · exact ih' _ (by simp)
      · exact ih' m rfl

theorem fillCells_ok {h : Handler Desc} {p : Pt} {flags : List Bool} {cs : List Nat} {m : List Bool}
    (hc : ∀ c ∈ cs, c < h.cells.length)
    (hi : ∀ c i : Nat, i ∈ (h.cells[c]?).getD [] → i < m.length ∧ i < flags.length ∧ i < h.keypoints.length) :
    ∃ m', fillCells h p flags cs m = .ok m' := by
  induction cs generalizing m with
  | nil => exact ⟨m, rfl⟩
  | cons c cs ih =>
    have hlt := hc c (by simp)
    have hl := List.getElem?_eq_getElem hlt
    simp only [fillCells, hl]
    obtain ⟨m1, e1⟩ := fillMask_ok (h := h) (p := p) (flags := flags) (is := h.cells[c]) (m := m)
      (fun i hx => hi c i (by simpa [hl] using hx))
    rw [e1, Outcome.bind_ok]
    have e2 := (fillMask_spec e1).1
    exact ih (fun c' h' => hc c' (by simp [h'])) (fun c' i hx => by rw [e2]; exact hi c' i hx)

theorem mem_interval {a b x : Nat} : x ∈ interval a b ↔ a ≤ x ∧ x < b := by
  simp only [interval, List.mem_map, List.mem_range]
  constructor
  · rintro ⟨k, hk, rfl⟩; omega
  · rintro ⟨h1, h2⟩; exact ⟨x - a, by omega, by omega⟩

theorem mem_visited {h : Handler Desc} {p : Pt} {r c : Nat} : c ∈ visited h p r ↔
    ∃ y x, sub32 (cellCoord p.y h.cellY) r ≤ y ∧ y < min h.cellY (cellCoord p.y h.cellY + r + 1) ∧
      sub32 (cellCoord p.x h.cellX) r ≤ x ∧ x < min h.cellX (cellCoord p.x h.cellX + r + 1) ∧
      cellIndex h x y = c := by
  simp only [visited, List.mem_flatMap, List.mem_map, mem_interval, Nat.zero_max]
  constructor
  · rintro ⟨y, ⟨a1, a2⟩, x, ⟨b1, b2⟩, e⟩; exact ⟨y, x, a1, a2, b1, b2, e⟩
  · rintro ⟨y, x, a1, a2, b1, b2, e⟩; exact ⟨y, ⟨a1, a2⟩, x, ⟨b1, b2⟩, e⟩

theorem visited_lt {h : Handler Desc} (hs : Sized h) (hw : h.cellY ≤ h.cellX) {p : Pt} {r c : Nat}
    (hc : c ∈ visited h p r) : c < h.cells.length := by
  obtain ⟨y, x, -, a2, -, b2, rfl⟩ := mem_visited.1 hc
  rw [hs.2.2]
  exact cellIndex_lt (by omega) (by omega) hw

theorem kpt {h : Handler Desc} {detected : List Pt} {tracked : List Tracked} (hf : Filled h detected tracked)
    {i : Nat} {q : Pt} (hq : detected[i]? = some q) : ∃ k, h.keypoints[i]? = some k ∧ k.pt = q := by
  have hlt := (List.getElem?_eq_some_iff.1 hq).1
  have : (h.keypoints.map (·.pt))[i]? = some q := by
    rw [hf.pts, List.getElem?_append_left hlt]; exact hq
  rw [List.getElem?_map] at this
  cases hk : h.keypoints[i]? with
  | none => rw [hk] at this; cases this
  | some k => rw [hk] at this; exact ⟨k, rfl, by simpa using this⟩

theorem candidate_iff {h : Handler Desc} {detected : List Pt} {tracked : List Tracked}
    (hf : Filled h detected tracked) {flags : List Bool} {p : Pt} {i : Nat} (hi : i < detected.length) :
    (flags[i]? = some false ∧ ∃ k, h.keypoints[i]? = some k ∧ dist2 k.pt p ≤ 900) ↔
      Candidate detected flags p i := by
  have hq : detected[i]? = some detected[i] := List.getElem?_eq_getElem hi
  obtain ⟨k, hk, hkp⟩ := kpt hf hq
  constructor
  · rintro ⟨h1, k', hk', hd⟩
    rw [hk] at hk'; injection hk' with hk'; subst hk'
    refine ⟨h1, _, hq, ?_⟩
    rw [← hkp]; exact hd
  · rintro ⟨h1, q, hq', hd⟩
    rw [hq] at hq'; injection hq' with hq'
    refine ⟨h1, k, hk, ?_⟩
    rw [hkp, hq']; exact hd

/-- What the mask is, cell by cell. -/
theorem mask_spec {h : Handler Desc} {detected : List Pt} {tracked : List Tracked}
    (hf : Filled h detected tracked) {flags : List Bool} {p : Pt} {r : Nat} {m : List Bool}
    (hr : mask h p flags r = .ok m) (i : Nat) :
    m[i]? = some true ↔ Candidate detected flags p i ∧
      ∃ q, detected[i]? = some q ∧ cellOf h q ∈ visited h p r := by
  obtain ⟨-, a2⟩ := fillCells_spec hr
  rw [a2]
  have hrep : ¬ (List.replicate h.descs.length false)[i]? = some true := by
    rw [List.getElem?_replicate]; split <;> simp
  constructor
  · rintro (hx | ⟨⟨c, hc, hx⟩, hy⟩)
    · exact absurd hx hrep
    · obtain ⟨q, hq, hqc⟩ := (hf.cells c i).1 hx
      have hlt := (List.getElem?_eq_some_iff.1 hq).1
      exact ⟨(candidate_iff hf hlt).1 hy, q, hq, hqc ▸ hc⟩
  · rintro ⟨hc, q, hq, hqc⟩
    have hlt := (List.getElem?_eq_some_iff.1 hq).1
    exact .inr ⟨⟨_, hqc, (hf.cells _ i).2 ⟨q, hq, rfl⟩⟩, (candidate_iff hf hlt).2 hc⟩

theorem mask_ok {h : Handler Desc} {detected : List Pt} {tracked : List Tracked}
    (hf : Filled h detected tracked) (hs : Sized h) (hw : h.cellY ≤ h.cellX) {flags : List Bool}
    (hfl : flags.length = h.keypoints.length) (hd : h.descs.length = detected.length) (p : Pt) (r : Nat) :
    ∃ m, mask h p flags r = .ok m := by
  apply fillCells_ok
  · exact fun c hc => visited_lt hs hw hc
  · intro c i hi
    obtain ⟨q, hq, -⟩ := (hf.cells c i).1 hi
    have hlt := (List.getElem?_eq_some_iff.1 hq).1
    have hk : h.keypoints.length = detected.length + tracked.length := by
      have := congrArg List.length hf.pts
      simpa using this
    simp only [List.length_replicate]
    omega

theorem sub32_lt {a b : Nat} (h : a < b) (hb : b ≤ 2 ^ 31) : 2 ^ 31 ≤ sub32 a b := by
  unfold sub32; omega

theorem sub32_le {a b : Nat} (h : b ≤ a) (ha : a < 2 ^ 32) : sub32 a b = a - b := by
  unfold sub32; omega

theorem sq_le_900 {a b : Rat} (h : a * a + b * b ≤ 900) : -31 < a ∧ a < 31 ∧ -31 < b ∧ b < 31 := by
  have sq : ∀ x : Rat, 0 ≤ x * x := fun x => by
    rcases Rat.le_total (a := 0) (b := x) with hx | hx
    · exact Rat.mul_nonneg hx hx
    · have := Rat.mul_nonneg (a := -x) (b := -x) (by grind) (by grind)
      grind
  have ha := sq a
  have hb := sq b
  have big : ∀ x : Rat, 31 ≤ x → 961 ≤ x * x := fun x hx => by
    have := Rat.mul_nonneg (a := x - 31) (b := x - 31) (by grind) (by grind)
    grind
  refine ⟨?_, ?_, ?_, ?_⟩ <;> apply Classical.byContradiction <;> intro hc
  · have := big (-a) (by grind); grind
  · have := big a (by grind); grind
  · have := big (-b) (by grind); grind
  · have := big b (by grind); grind

theorem floor_near {v w : Rat} (h : v - w < 31) : (v / 31).floor ≤ (w / 31).floor + 1 := by
  have h1 : (v / 31).floor < (w / 31).floor + 2 := by
    rw [Rat.floor_lt_iff]
    have h2 := Rat.lt_floor (x := w / 31)
    have e : (((w / 31).floor + 2 : Int) : Rat) = ((w / 31).floor : Rat) + 2 := by
      rw [Rat.intCast_add]; rfl
    rw [e]
    grind
  omega

theorem cellCoord_near {v w : Rat} (h : -31 < v - w) (h' : v - w < 31) (n : Nat) :
    cellCoord v n ≤ cellCoord w n + 1 ∧ cellCoord w n ≤ cellCoord v n + 1 := by
  have h1 := floor_near h'
  have h2 := floor_near (v := w) (w := v) (by grind)
  unfold cellCoord
  have e : ((cellSize : Nat) : Rat) = 31 := rfl
  rw [e]
  omega

/-- Completeness of the search away from the left and top borders. -/
theorem mem_visited_of_near {h : Handler Desc} (hs : Sized h) {p q : Pt} {r : Nat} (hr1 : 1 ≤ r)
    (hd : (q.x - p.x) * (q.x - p.x) + (q.y - p.y) * (q.y - p.y) ≤ 900)
    (hy : r ≤ cellCoord p.y h.cellY) (hx : r ≤ cellCoord p.x h.cellX)
    (hby : h.cellY < 2 ^ 32) (hbx : h.cellX < 2 ^ 32) : cellOf h q ∈ visited h p r := by
  obtain ⟨a1, a2, b1, b2⟩ := sq_le_900 hd
  have ny := cellCoord_near b1 b2 h.cellY
  have nx := cellCoord_near a1 a2 h.cellX
  have ly := cellCoord_lt q.y hs.2.1
  have lx := cellCoord_lt q.x hs.1
  have ly' := cellCoord_lt p.y hs.2.1
  have lx' := cellCoord_lt p.x hs.1
  rw [mem_visited]
  refine ⟨_, _, ?_, ?_, ?_, ?_, rfl⟩
  · rw [sub32_le hy (by omega)]; omega
  · omega
  · rw [sub32_le hx (by omega)]; omega
  · omega

theorem visited_border {h : Handler Desc} {p : Pt} {r : Nat} (hr : r ≤ 2 ^ 31)
    (hb : cellCoord p.y h.cellY < r ∨ cellCoord p.x h.cellX < r)
    (hby : h.cellY < 2 ^ 31) (hbx : h.cellX < 2 ^ 31) (c : Nat) : c ∉ visited h p r := by
  rw [mem_visited]
  rintro ⟨y, x, a1, a2, b1, b2, -⟩
  rcases hb with hb | hb
  · have := sub32_lt hb hr; omega
  · have := sub32_lt hb hr; omega

end RgbdSlam.Keypoints
