import Verif.Lemmas.Knn
/-
C49: looking keypoints up around a projection; C50: ids of keypoints tracked by optical flow; C60: the
second, wider search; C61: when a keypoint is accepted as match.

Images are smaller than 2^31 pixels per side (OpenCV sizes are `int`).
-/
namespace RgbdSlam.Keypoints

variable {Desc : Type}

theorem reached_sized {cols rows : Nat} {h : Handler Desc} (hc : 0 < cols) (hr : 0 < rows)
    (hh : Reached cols rows h) : Sized h ∧ h.cellX = cellsFor cols ∧ h.cellY = cellsFor rows := by
  induction hh with
  | create => exact ⟨create_sized hc hr, rfl, rfl⟩
  | set _ hs ih =>
    obtain ⟨-, a2, a3, a4, -⟩ := set_spec hs
    obtain ⟨⟨b1, b2, b3⟩, b4, b5⟩ := ih
    exact ⟨⟨by rw [a2]; exact b1, by rw [a3]; exact b2, by rw [a4, a2, a3]; exact b3⟩,
      by rw [a2]; exact b4, by rw [a3]; exact b5⟩

/-! ### C49 -/

/-- For images at least as wide as high (counted in 31 pixel cells), filling the handler and searching
in it never leave the search grid, whatever the keypoints, the projection and the radius. -/
theorem C49_no_grid_overrun_partial {cols rows : Nat} (hc : 0 < cols) (hr : 0 < rows)
    (hw : cellsFor rows ≤ cellsFor cols) (h0 : Handler Desc) (hh : Reached cols rows h0)
    (im : DepthImage) (detected : List Pt) (descs : List Desc) (tracked : List Tracked)
    (hd : descs.length = detected.length) :
    ∃ h, set im detected descs tracked h0 = .ok h ∧
      ∀ (flags : List Bool), flags.length = h.keypoints.length → ∀ (p : Pt) (radius : Nat),
        (∃ m, mask h p flags radius = .ok m) ∧
        ∀ (dist : Desc → Desc → Nat) (desc : Desc),
          ∃ res, matchIndexes dist h p desc flags radius = .ok res := by
  obtain ⟨hs, ex, ey⟩ := reached_sized hc hr hh
  obtain ⟨h, e⟩ := set_ok (im := im) detected descs tracked hs (by rw [ex, ey]; exact hw)
  obtain ⟨hs', ex', ey'⟩ := reached_sized hc hr (.set hh e)
  obtain ⟨hf, -, -, -, hde⟩ := set_spec e
  have hm : ∀ (flags : List Bool), flags.length = h.keypoints.length → ∀ (p : Pt) (radius : Nat),
      ∃ m, mask h p flags radius = .ok m :=
    fun flags hfl p r => mask_ok hf hs' (by rw [ex', ey']; exact hw) hfl (by rw [hde]; exact hd) p r
  refine ⟨h, e, fun flags hfl p radius => ⟨hm flags hfl p radius, fun dist desc => ?_⟩⟩
  unfold matchIndexes
  split
  · exact ⟨_, rfl⟩
  · obtain ⟨m, em⟩ := hm flags hfl p (cellRadius radius)
    rw [em, Outcome.bind_ok]
    split <;> exact ⟨_, rfl⟩

/-- For every image that is higher than wide (in cells), one keypoint in the bottom right corner makes
the program write outside of the search grid. -/
theorem C49_portrait_overrun_false {cols rows : Nat} (hc : 0 < cols)
    (hw : cellsFor cols < cellsFor rows) (h0 : Handler Desc) (hh : Reached cols rows h0)
    (im : DepthImage) (descs : List Desc) (tracked : List Tracked) (more : List Pt) :
    set im (⟨((cols - 1 : Nat) : Rat), ((rows - 1 : Nat) : Rat)⟩ :: more) descs tracked h0 = .ub := by
  have hr : 0 < rows := by unfold cellsFor at hw; omega
  obtain ⟨⟨hs1, hs2, hs3⟩, ex, ey⟩ := reached_sized hc hr hh
  have coord : ∀ n : Nat, 0 < n → cellCoord ((n - 1 : Nat) : Rat) (cellsFor n) = cellsFor n - 1 := by
    intro n hn
    unfold cellCoord
    have : (((n - 1 : Nat) : Rat) / (cellSize : Nat)).floor = ((n - 1) / 31 : Nat) := by
      apply Int.le_antisymm
      · have : (((n - 1 : Nat) : Rat) / (cellSize : Nat)).floor < (((n - 1) / 31 : Nat) : Int) + 1 := by
          rw [Rat.floor_lt_iff]
          have e : ((cellSize : Nat) : Rat) = 31 := rfl
          rw [e, Rat.intCast_add]
          have h1 : (((n - 1 : Nat)) : Rat) < (((n - 1) / 31 * 31 + 31 : Nat) : Rat) :=
            Rat.natCast_lt_natCast.2 (by omega)
          rw [Rat.natCast_add, Rat.natCast_mul] at h1
          have e1 : ((31 : Nat) : Rat) = 31 := rfl
          rw [e1] at h1
          have e2 : ((1 : Int) : Rat) = 1 := rfl
          rw [e2]
          have e3 : ((((n - 1) / 31 : Nat) : Int) : Rat) = (((n - 1) / 31 : Nat) : Rat) := rfl
          rw [e3]
          grind
        omega
      · rw [Rat.le_floor_iff]
        have e : ((cellSize : Nat) : Rat) = 31 := rfl
        rw [e]
        have h1 : (((n - 1) / 31 * 31 : Nat) : Rat) ≤ (((n - 1 : Nat)) : Rat) :=
          Rat.natCast_le_natCast.2 (by omega)
        rw [Rat.natCast_mul] at h1
        have e1 : ((31 : Nat) : Rat) = 31 := rfl
        rw [e1] at h1
        have e3 : ((((n - 1) / 31 : Nat) : Int) : Rat) = (((n - 1) / 31 : Nat) : Rat) := rfl
        rw [e3]
        grind
    rw [this]
    unfold cellsFor
    omega
  obtain ⟨d, hd⟩ := getDepth_ok im ⟨((cols - 1 : Nat) : Rat), ((rows - 1 : Nat) : Rat)⟩
  simp only [set, addDetected, hd, Outcome.bind_ok]
  rw [if_neg]
  · rfl
  · simp only [cellIndex, clear, List.length_map, hs3, ex, ey, coord cols hc, coord rows hr]
    have h1 : cellsFor cols + 1 ≤ cellsFor rows := hw
    obtain ⟨a, ha⟩ : ∃ a, cellsFor rows = cellsFor cols + 1 + a := ⟨_, (Nat.add_sub_cancel' h1).symm⟩
    have hb : 0 < cellsFor cols := by unfold cellsFor; omega
    obtain ⟨b, hb⟩ : ∃ b, cellsFor cols = b + 1 := ⟨cellsFor cols - 1, by omega⟩
    rw [ha, hb]
    have e1 : b + 1 + 1 + a - 1 = b + 1 + a := by omega
    have e2 : b + 1 - 1 = b := by omega
    rw [e1, e2]
    have : (b + 1 + 1 + a) * (b + 1) ≤ (b + 1 + a) * (b + 1 + 1 + a) + b := by
      have : (b + 1 + 1 + a) * (b + 1) + a * (b + 1 + 1 + a) = (b + 1 + a) * (b + 1 + 1 + a) := by
        rw [← Nat.mul_comm (b + 1 + 1 + a) a, ← Nat.mul_add, Nat.mul_comm]
      omega
    omega

/-- Only unmatched, freshly detected keypoints at most 30 pixels away are considered (for any radius). -/
theorem C49_only_candidates (h0 h : Handler Desc)
    (im : DepthImage) (detected : List Pt) (descs : List Desc) (tracked : List Tracked)
    (e : set im detected descs tracked h0 = .ok h) (p : Pt) (flags : List Bool) (radius : Nat)
    (m : List Bool) (hm : mask h p flags radius = .ok m) (i : Nat) (hi : m[i]? = some true) :
    Candidate detected flags p i :=
  ((mask_spec (set_spec e).1 hm i).1 hi).1

/-- At least `radius` cells away from the left and the top border, every candidate is considered. -/
theorem C49_all_candidates_partial {cols rows : Nat} (hc : cols < 2 ^ 31) (hr : rows < 2 ^ 31)
    (h0 h : Handler Desc) (hh : Reached cols rows h0)
    (im : DepthImage) (detected : List Pt) (descs : List Desc) (tracked : List Tracked)
    (e : set im detected descs tracked h0 = .ok h) (p : Pt) (flags : List Bool) (radius : Nat)
    (h1 : 1 ≤ radius) (hx : ((31 * radius : Nat) : Rat) ≤ p.x) (hy : ((31 * radius : Nat) : Rat) ≤ p.y)
    (hcx : 31 * radius < cols) (hry : 31 * radius < rows)
    (m : List Bool) (hm : mask h p flags radius = .ok m) (i : Nat)
    (hi : Candidate detected flags p i) : m[i]? = some true := by
  obtain ⟨hs', ex', ey'⟩ := reached_sized (by omega) (by omega) (.set hh e)
  rw [mask_spec (set_spec e).1 hm]
  refine ⟨hi, ?_⟩
  obtain ⟨-, q, hq, hd⟩ := hi
  have coord : ∀ (v : Rat) (n : Nat), ((31 * radius : Nat) : Rat) ≤ v → 31 * radius < n →
      radius ≤ cellCoord v (cellsFor n) := by
    intro v n hv hn
    unfold cellCoord
    have : (radius : Int) ≤ (v / (cellSize : Nat)).floor := by
      rw [Rat.le_floor_iff]
      have e : ((cellSize : Nat) : Rat) = 31 := rfl
      rw [Rat.natCast_mul] at hv
      have e1 : ((31 : Nat) : Rat) = 31 := rfl
      rw [e1] at hv
      rw [e]
      have e3 : (((radius : Nat) : Int) : Rat) = ((radius : Nat) : Rat) := rfl
      rw [e3]
      grind
    unfold cellsFor
    omega
  refine ⟨q, hq, mem_visited_of_near hs' h1 hd ?_ ?_ ?_ ?_⟩
  · rw [ey']; exact coord _ _ hy hry
  · rw [ex']; exact coord _ _ hx hcx
  · rw [ey']; unfold cellsFor; omega
  · rw [ex']; unfold cellsFor; omega

/-- Closer to the left or the top border than `radius` cells (31 pixels for a normal, 62 for a wide
search) nothing is considered at all, whatever was detected: the start of the loop is computed with
unsigned numbers and wraps around. -/
theorem C49_border_finds_nothing_false {cols rows : Nat} (hc0 : 0 < cols) (hr0 : 0 < rows)
    (hc : cols < 2 ^ 31) (hr : rows < 2 ^ 31)
    (h0 h : Handler Desc) (hh : Reached cols rows h0)
    (im : DepthImage) (detected : List Pt) (descs : List Desc) (tracked : List Tracked)
    (e : set im detected descs tracked h0 = .ok h) (p : Pt) (flags : List Bool) (radius : Nat)
    (hz : 1 ≤ radius) (h1 : radius ≤ 2 ^ 31)
    (hb : p.x < ((31 * radius : Nat) : Rat) ∨ p.y < ((31 * radius : Nat) : Rat))
    (m : List Bool) (hm : mask h p flags radius = .ok m) (i : Nat) : m[i]? ≠ some true := by
  obtain ⟨hs', ex', ey'⟩ := reached_sized hc0 hr0 (.set hh e)
  intro hi
  obtain ⟨-, q, -, hv⟩ := (mask_spec (set_spec e).1 hm i).1 hi
  have coord : ∀ (v : Rat) (n : Nat), v < ((31 * radius : Nat) : Rat) → cellCoord v n < radius ∨
      radius = 0 := by
    intro v n hv
    unfold cellCoord
    have : (v / (cellSize : Nat)).floor < (radius : Int) := by
      rw [Rat.floor_lt_iff]
      have e : ((cellSize : Nat) : Rat) = 31 := rfl
      rw [Rat.natCast_mul] at hv
      have e1 : ((31 : Nat) : Rat) = 31 := rfl
      rw [e1] at hv
      rw [e]
      have e3 : (((radius : Nat) : Int) : Rat) = ((radius : Nat) : Rat) := rfl
      rw [e3]
      grind
    omega
  have hby : h.cellY < 2 ^ 31 := by rw [ey']; unfold cellsFor; omega
  have hbx : h.cellX < 2 ^ 31 := by rw [ex']; unfold cellsFor; omega
  refine visited_border h1 ?_ hby hbx _ hv
  rcases hb with hb | hb
  · exact .inr ((coord _ _ hb).resolve_right (by omega))
  · exact .inl ((coord _ _ hb).resolve_right (by omega))

/-! ### C60 -/

/-- The second search (`useAdvancedSearch`, radius 60) never considers a keypoint that the first
(radius 30) did not: the distance test does not use the radius, and near the borders it sees less.
So it cannot find more matches. -/
theorem C60_wider_search_not_wider_false {cols rows : Nat} (hc0 : 0 < cols) (hr0 : 0 < rows)
    (hc : cols < 2 ^ 31) (hr : rows < 2 ^ 31)
    (h0 h : Handler Desc) (hh : Reached cols rows h0)
    (im : DepthImage) (detected : List Pt) (descs : List Desc) (tracked : List Tracked)
    (e : set im detected descs tracked h0 = .ok h) (p : Pt) (flags : List Bool) (m1 m2 : List Bool)
    (hm1 : mask h p flags (cellRadius 30) = .ok m1) (hm2 : mask h p flags (cellRadius 60) = .ok m2)
    (i : Nat) (hi : m2[i]? = some true) : m1[i]? = some true := by
  obtain ⟨hs', ex', ey'⟩ := reached_sized hc0 hr0 (.set hh e)
  have hby : h.cellY < 2 ^ 31 := by rw [ey']; unfold cellsFor; omega
  have hbx : h.cellX < 2 ^ 31 := by rw [ex']; unfold cellsFor; omega
  obtain ⟨hcand, q, hq, hv⟩ := (mask_spec (set_spec e).1 hm2 i).1 hi
  rw [mask_spec (set_spec e).1 hm1]
  refine ⟨hcand, q, hq, ?_⟩
  have e2 : cellRadius 60 = 2 := rfl
  have e1 : cellRadius 30 = 1 := rfl
  rw [e2] at hv
  rw [e1]
  obtain ⟨-, q', hq', hd⟩ := hcand
  rw [hq] at hq'
  obtain rfl : q = q' := Option.some.inj hq'
  have two : 2 ≤ 2 ^ 31 := Nat.le_self_pow (by decide) 2
  have hnb : ¬ (cellCoord p.y h.cellY < 2 ∨ cellCoord p.x h.cellX < 2) :=
    fun hb => visited_border two hb hby hbx _ hv
  exact mem_visited_of_near hs' (by omega) hd (by omega) (by omega) (by omega) (by omega)

/-- C60 (partial: nothing further away is considered, and only away from the left and the top border): at 62 pixels
or more from these borders the second search considers every keypoint that the first one considers. -/
theorem C60_as_wide_partial {cols rows : Nat} (hc : cols < 2 ^ 31) (hr : rows < 2 ^ 31)
    (h0 h : Handler Desc) (hh : Reached cols rows h0)
    (im : DepthImage) (detected : List Pt) (descs : List Desc) (tracked : List Tracked)
    (e : set im detected descs tracked h0 = .ok h) (p : Pt) (flags : List Bool) (m1 m2 : List Bool)
    (hx : (62 : Rat) ≤ p.x) (hy : (62 : Rat) ≤ p.y) (hcx : 62 < cols) (hry : 62 < rows)
    (hm1 : mask h p flags (cellRadius 30) = .ok m1) (hm2 : mask h p flags (cellRadius 60) = .ok m2)
    (i : Nat) (hi : m1[i]? = some true) : m2[i]? = some true :=
  C49_all_candidates_partial hc hr h0 h hh im detected descs tracked e p flags 2 (by omega) hx hy hcx hry m2 hm2 i
    (C49_only_candidates h0 h im detected descs tracked e p flags _ m1 hm1 i hi)

/-! ### C61 -/

/-- What `get_match_indexes` returns: nothing, or the one considered keypoint whose descriptor distance
is below 70% of the distance of every other considered keypoint. -/
theorem C61_match_iff_clear_winner (h0 h : Handler Desc)
    (im : DepthImage) (detected : List Pt) (descs : List Desc) (tracked : List Tracked)
    (e : set im detected descs tracked h0 = .ok h) (p : Pt) (flags : List Bool) (radius : Nat)
    (m : List Bool) (hm : mask h p flags (cellRadius radius) = .ok m)
    (dist : Desc → Desc → Nat) (desc : Desc) (res : List Nat)
    (hr : matchIndexes dist h p desc flags radius = .ok res) :
    (res = [] ∨ ∃ i, res = [i]) ∧
    ∀ i, res = [i] ↔ m[i]? = some true ∧ ∃ d, descs[i]? = some d ∧
      ∀ j d', m[j]? = some true → descs[j]? = some d' → j ≠ i →
        10 * dist desc d < 7 * dist desc d' := by
  obtain ⟨hf, -, -, -, hde⟩ := set_spec e
  obtain ⟨a1, a2⟩ := matchIndexes_spec hf hr
  refine ⟨a1, fun i => ?_⟩
  rw [a2, hde]
  constructor
  · rintro ⟨m', e', h1⟩
    rw [hm] at e'; injection e' with e'; subst e'
    exact h1
  · exact fun h1 => ⟨m, hm, h1⟩

/-! ### C50 -/

/-- Looking up a map id returns a keypoint that is tracked with this id; an id that is tracked (and is
not 0) is found; freshly detected keypoints have no id. -/
theorem C50_lookup_returns_tracked_keypoint (h0 h : Handler Desc)
    (im : DepthImage) (detected : List Pt) (descs : List Desc) (tracked : List Tracked)
    (e : set im detected descs tracked h0 = .ok h) (x : Nat) :
    (∀ i, trackIndex h x = some i → ∃ t, tracked[i - detected.length]? = some t ∧
      detected.length ≤ i ∧ t.id = x ∧ ∃ k, h.keypoints[i]? = some k ∧ k.pt = t.pt) ∧
    (trackIndex h x = none ↔ x = 0 ∨ ∀ t ∈ tracked, t.id ≠ x) := by
  obtain ⟨hf, -⟩ := set_spec e
  have hmem : ∀ (l : List (Nat × Nat)) i, l.lookup x = some i → (x, i) ∈ l := by
    intro l i
    induction l with
    | nil => simp
    | cons a l ih =>
      rw [List.lookup_cons]
      split
      · rename_i hb
        intro h; injection h with h
        have : x = a.1 := by simpa using hb
        rw [this, ← h]; exact List.mem_cons_self
      · intro h; exact List.mem_cons_of_mem _ (ih h)
  have hsome : ∀ (l : List (Nat × Nat)) i, (x, i) ∈ l → l.lookup x ≠ none := by
    intro l i
    induction l with
    | nil => simp
    | cons a l ih =>
      rw [List.lookup_cons]
      intro h
      split
      · simp
      · rename_i hb
        rcases List.mem_cons.1 h with h | h
        · rw [← h] at hb; simp at hb
        · exact ih h
  constructor
  · intro i hi
    unfold trackIndex at hi
    split at hi
    · cases hi
    · split at hi
      · obtain ⟨t, h1, h2, h3, -⟩ := hf.ids x i (hmem _ _ hi)
        refine ⟨t, h1, h2, h3, ?_⟩
        have : (h.keypoints.map (·.pt))[i]? = some t.pt := by
          rw [hf.pts, List.getElem?_append_right h2, List.getElem?_map, h1]; rfl
        rw [List.getElem?_map] at this
        cases hk : h.keypoints[i]? with
        | none => rw [hk] at this; cases this
        | some k => rw [hk] at this; exact ⟨k, rfl, by simpa using this⟩
      · cases hi
  · constructor
    · intro hn
      by_cases hx : x = 0
      · exact .inl hx
      · refine .inr fun t ht htx => ?_
        obtain ⟨i, hi⟩ := hf.known t ht (by rw [htx]; exact hx)
        unfold trackIndex at hn
        split at hn
        · rename_i hemp
          have := hf.pts
          rw [List.isEmpty_iff.1 hemp] at this
          simp at this
          rw [this.2] at ht; cases ht
        · rw [htx] at hi
          exact hsome _ _ hi hn
    · intro hx
      unfold trackIndex
      split
      · rfl
      · split
        · rename_i hne
          rcases hx with hx | hx
          · exact absurd hx hne
          · cases hl : h.ids.lookup x with
            | none => rfl
            | some i =>
              obtain ⟨t, h1, h2, h3, -⟩ := hf.ids x i (hmem _ _ hl)
              exact absurd h3 (hx t (List.mem_of_getElem? h1))
        · rfl

theorem filterMap_sublist_map {α β : Type _} {f : α → Option β} {g : α → β} {l : List α}
    (h : ∀ a ∈ l, ∀ b, f a = some b → b = g a) : (l.filterMap f).Sublist (l.map g) := by
  induction l with
  | nil => exact List.Sublist.slnil
  | cons a l ih =>
    have ih := ih fun a' ha' => h a' (List.mem_cons_of_mem _ ha')
    cases hf : f a with
    | none => rw [List.filterMap_cons_none hf, List.map_cons]; exact ih.cons _
    | some b =>
      rw [List.filterMap_cons_some hf, List.map_cons, ← h a List.mem_cons_self b hf]
      exact ih.cons_cons _

theorem zip_fst_sublist {α β γ : Type _} (g : α → γ) (a : List α) (b : List β) :
    ((a.zip b).map fun p => g p.1).Sublist (a.map g) := by
  induction a generalizing b with
  | nil => simp
  | cons x a ih =>
    cases b with
    | nil => simp
    | cons y b => simpa using ih b

/-- The points kept by optical flow are, in order, some of the points tracked before, with the same
ids, each at the position found by the forward flow. -/
theorem C50_flow_keeps_ids (cols rows : Nat) (last : List Tracked) (forward : List Flow)
    (hl : forward.length = last.length) (backwardOf : List Pt → List Flow) :
    ((opticalFlow cols rows last forward backwardOf).map (·.id)).Sublist (last.map (·.id)) ∧
    (opticalFlow cols rows last forward backwardOf).Sublist
      ((last.zip forward).map fun (t, f) => ⟨t.id, f.pt⟩) := by
  have key : (opticalFlow cols rows last forward backwardOf).Sublist
      ((last.zip forward).map fun (t, f) => ⟨t.id, f.pt⟩) := by
    let all : List Tracked := (last.zip forward).map fun (t, f) => ⟨t.id, f.pt⟩
    let F : Nat → Tracked := fun i => (all[i]?).getD ⟨0, ⟨0, 0⟩⟩
    have hF : ∀ i t f, last[i]? = some t → forward[i]? = some f → F i = ⟨t.id, f.pt⟩ := by
      intro i t f h1 h2
      simp [F, all, List.zip, List.getElem?_zipWith, h1, h2]
    have s1 : (opticalFlow cols rows last forward backwardOf).Sublist
        (((keptForward cols rows last forward).zip
          (backwardOf ((keptForward cols rows last forward).map (·.1)))).map fun p => F p.1.2) := by
      apply filterMap_sublist_map
      rintro ⟨⟨q, i⟩, b⟩ - r hr
      dsimp only at hr
      split at hr
      · cases hr
      · split at hr
        · rename_i t f h1 h2
          split at hr
          · cases hr
          · injection hr with hr; rw [← hr, hF i t f h1 h2]
        · cases hr
    have s2 := zip_fst_sublist (fun p : Pt × Nat => F p.2) (keptForward cols rows last forward)
      (backwardOf ((keptForward cols rows last forward).map (·.1)))
    have s3 : ((keptForward cols rows last forward).map fun p => F p.2).Sublist
        ((last.zip forward).zipIdx.map fun p => F p.2) := by
      unfold keptForward
      rw [List.map_filterMap]
      apply filterMap_sublist_map
      rintro ⟨⟨t, f⟩, i⟩ - r hr
      dsimp only at hr
      split at hr
      · cases hr
      · split at hr
        · cases hr
        · simpa using hr.symm
    have s4 : ((last.zip forward).zipIdx.map fun p => F p.2) = all := by
      apply List.ext_getElem?
      intro n
      rw [List.getElem?_map, List.getElem?_zipIdx]
      simp only [all, List.getElem?_map, F]
      cases hz : (last.zip forward)[n]? <;> simp [hz]
    exact (s1.trans (s2.trans s3)).trans (s4 ▸ List.Sublist.refl _)
  refine ⟨?_, key⟩
  have := key.map (fun t : Tracked => t.id)
  rw [List.map_map] at this
  have e : (last.zip forward).map ((fun t : Tracked => t.id) ∘ fun (t, f) => (⟨t.id, f.pt⟩ : Tracked)) =
      last.map (·.id) := by
    have h2 : ((last.zip forward).map fun p => p.1) = last := List.map_fst_zip (by omega)
    conv => rhs; rw [← h2]
    rw [List.map_map]
    rfl
  rw [e] at this
  exact this

/-! ### Examples: a 640 x 480 image, descriptors are numbers, their distance is the difference. -/

def demoImage : DepthImage := ⟨640, 480, fun _ _ => 1000⟩

def demoDist (a b : Nat) : Nat := (a - b) + (b - a)

/-- Two fresh keypoints near (100, 100), one far, one tracked with id 5. -/
def demoSet : Outcome (Handler Nat) :=
  set demoImage [⟨100, 100⟩, ⟨110, 100⟩, ⟨300, 300⟩, ⟨5, 5⟩] [0, 50, 0, 0] [⟨5, ⟨102, 102⟩⟩, ⟨0, ⟨50, 50⟩⟩]
    (create 640 480)

/-- Both are considered; the closer descriptor wins; the wide search gives the same; a flagged one is
ignored; id 5 is found after the fresh keypoints; nothing is found around (5, 5). -/
example : (demoSet.holds fun h =>
    ((mask h ⟨104, 100⟩ [false, false, false, false, false, false] 1).holds
      fun m => m == [true, true, false, false]) &&
    ((matchIndexes demoDist h ⟨104, 100⟩ 1 [false, false, false, false, false, false] 30).holds
      fun r => r == [0]) &&
    ((matchIndexes demoDist h ⟨104, 100⟩ 1 [false, false, false, false, false, false] 60).holds
      fun r => r == [0]) &&
    ((matchIndexes demoDist h ⟨104, 100⟩ 1 [true, false, false, false, false, false] 30).holds
      fun r => r == [1]) &&
    ((matchIndexes demoDist h ⟨104, 100⟩ 25 [false, false, false, false, false, false] 30).holds
      fun r => r == []) &&
    ((mask h ⟨6, 6⟩ [false, false, false, false, false, false] 1).holds
      fun m => m == [false, false, false, false]) &&
    trackIndex h 5 == some 4 && trackIndex h 0 == none && trackIndex h 6 == none) = true := by
  decide +kernel

/-- (5, 5) is a candidate for (6, 6): the border theorem refutes the English property. -/
example : Candidate [⟨100, 100⟩, ⟨110, 100⟩, ⟨300, 300⟩, ⟨5, 5⟩] [false, false, false, false] ⟨6, 6⟩ 3 :=
  ⟨rfl, ⟨5, 5⟩, rfl, by decide +kernel⟩

example : cellsFor 480 ≤ cellsFor 640 ∧ cellsFor 480 < cellsFor 640 ∧
    (set demoImage [⟨479, 639⟩] [0] [] (create 480 640 : Handler Nat)) = .ub := by
  refine ⟨by decide, by decide, ?_⟩
  exact C49_portrait_overrun_false (cols := 480) (rows := 640) (by decide) (by decide) _ .create _ _ _ []

example : opticalFlow 640 480 [⟨7, ⟨10, 10⟩⟩, ⟨8, ⟨20, 20⟩⟩, ⟨9, ⟨30, 30⟩⟩]
    [⟨1, ⟨11, 11⟩⟩, ⟨0, ⟨21, 21⟩⟩, ⟨1, ⟨31, 31⟩⟩] (fun _ => [⟨1, ⟨10, 10⟩⟩, ⟨1, ⟨90, 90⟩⟩]) =
    [⟨7, ⟨11, 11⟩⟩] := by decide +kernel

end RgbdSlam.Keypoints
