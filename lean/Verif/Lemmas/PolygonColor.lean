import Verif.Lemmas.PolygonParity2
import Verif.Lemmas.PolygonWalk4
/- The loops of an outline in general position do not come back to a crossing by its other edge. -/
namespace RgbdSlam.PolygonRepair

open Spec

/-- The corners. -/
def corner (ring : List Pt) (i : ℕ) : Pt := (ring[i]?).getD (0, 0)

theorem corner_some {ring : List Pt} {i : ℕ} (h : i < ring.length) : ring[i]? = some (corner ring i) := by
  unfold corner
  rw [List.getElem?_eq_getElem h]
  rfl

theorem corner_of {ring : List Pt} {i : ℕ} {a : Pt} (h : ring[i]? = some a) : corner ring i = a := by
  unfold corner
  rw [h]
  rfl

theorem between_lerp {a b p : Pt} : Between a b p ↔ ∃ s : ℚ, 0 < s ∧ s < 1 ∧ p = lerp a b s := by
  unfold Between lerp
  constructor
  · rintro ⟨s, h0, h1, hx, hy⟩
    exact ⟨s, h0, h1, Prod.ext hx hy⟩
  · rintro ⟨s, h0, h1, rfl⟩
    exact ⟨s, h0, h1, rfl, rfl⟩

theorem on_cases {a b p : Pt} (h : On a b p) : p = a ∨ p = b ∨ Between a b p := by
  obtain ⟨s, h0, h1, rfl⟩ := h
  rcases h0.eq_or_lt with rfl | h0
  · left; simp [lerp]
  rcases h1.eq_or_lt with rfl | h1
  · right; left; simp [lerp]
  · exact Or.inr (Or.inr (between_lerp.2 ⟨s, h0, h1, rfl⟩))

section

variable {ring : List Pt} {turns : List Turn} (g : GeneralPosition ring turns)
include g

theorem simple_of_general : Simple ring turns := by
  refine ⟨fun t ht => (g.crossings.2 t).1 ht, g.points, fun t ht hm => ?_⟩
  obtain ⟨-, a, b, c, d, h1, h2, -, -, h5, -⟩ := (g.crossings.2 t).1 ht
  exact g.ends _ a b t.p h1 h2 hm h5

/-- No corner is inside an edge. -/
theorem not_inside {i k : ℕ} (hi : i + 1 < ring.length) (hk : k < ring.length) :
    ¬ Between (corner ring i) (corner ring (i + 1)) (corner ring k) :=
  g.ends i _ _ _ (corner_some (by omega)) (corner_some hi) (List.mem_of_getElem? (corner_some hk))

theorem edge_dir_ne {i : ℕ} (hi : i + 1 < ring.length) : corner ring i ≠ corner ring (i + 1) := by
  intro h
  refine not_inside g hi (k := i) (by omega) ?_
  rw [← h]
  exact ⟨1 / 2, by norm_num, by norm_num, by ring, by ring⟩

/-- Two edges that meet inside both of them cross at one of the crossings. -/
theorem meet {i j : ℕ} (hij : i ≠ j) (hi : i + 1 < ring.length) (hj : j + 1 < ring.length) {p : Pt}
    (h1 : Between (corner ring i) (corner ring (i + 1)) p) (h2 : Between (corner ring j) (corner ring (j + 1)) p) :
    (∃ x : Passage, x.1 ∈ turns ∧ x.edgeOf = i ∧ x.other.edgeOf = j ∧ x.1.p = p) ∧
      cross (corner ring (i + 1) - corner ring i) (corner ring (j + 1) - corner ring j) ≠ 0 := by
  have main : ∀ {i j : ℕ}, i < j → i + 1 < ring.length → j + 1 < ring.length →
      Between (corner ring i) (corner ring (i + 1)) p → Between (corner ring j) (corner ring (j + 1)) p →
      (⟨p, i, j⟩ : Turn) ∈ turns ∧
        cross (corner ring (i + 1) - corner ring i) (corner ring (j + 1) - corner ring j) ≠ 0 := by
    intro i j hij hi hj h1 h2
    have hm : (⟨p, i, j⟩ : Turn) ∈ turns := by
      rw [g.crossings.2]
      exact ⟨hij, _, _, _, _, corner_some (i := i) (by omega), corner_some hi, corner_some (i := j) (by omega),
        corner_some hj, h1, h2⟩
    refine ⟨hm, fun hc => ?_⟩
    refine g.transversal _ hm _ _ _ _ (corner_some (i := i) (by omega)) (corner_some hi)
      (corner_some (i := j) (by omega)) (corner_some hj) ?_
    simp only [cross, Prod.fst_sub, Prod.snd_sub] at hc
    linarith
  rcases Nat.lt_or_gt_of_ne hij with h | h
  · obtain ⟨h3, h4⟩ := main h hi hj h1 h2
    exact ⟨⟨(⟨p, i, j⟩, false), h3, rfl, rfl, rfl⟩, h4⟩
  · obtain ⟨h3, h4⟩ := main h hj hi h2 h1
    refine ⟨⟨(⟨p, j, i⟩, true), h3, rfl, rfl, rfl⟩, ?_⟩
    rw [cross_comm]
    exact neg_ne_zero.2 h4

/-- The edges through a crossing. -/
theorem through_crossing {x : Passage} (hx : x.1 ∈ turns) {k : ℕ} (hk : k + 1 < ring.length)
    (h : On (corner ring k) (corner ring (k + 1)) x.1.p) : k = x.edgeOf ∨ k = x.other.edgeOf := by
  have hs := simple_of_general g
  obtain ⟨a, b, ha, hb, hbe⟩ := passage_between hs hx
  have hlt := edge_lt hs hx
  by_cases hne : k = x.edgeOf
  · exact Or.inl hne
  right
  rcases on_cases h with h | h | h
  · exact absurd (List.mem_of_getElem? (corner_some (by omega))) (h ▸ hs.2.2 x.1 hx)
  · exact absurd (List.mem_of_getElem? (corner_some hk)) (h ▸ hs.2.2 x.1 hx)
  · rw [← corner_of ha, ← corner_of hb] at hbe
    obtain ⟨⟨y, hy, he, ho, hp⟩, -⟩ := meet g (Ne.symm hne) hlt hk hbe h
    have : y.1 = x.1 := List.inj_on_of_nodup_map g.points hy hx hp
    obtain ⟨t, b1⟩ := x
    obtain ⟨t', b2⟩ := y
    simp only at this
    subst this
    cases b1 <;> cases b2
    · exact ho.symm
    · exfalso
      exact edge_ne hs hx (he.symm)
    · exfalso
      exact edge_ne hs hx (he.symm)
    · exact ho.symm

/-- The edges through a corner. -/
theorem through_corner (hc : Closed ring) {i k : ℕ} (hi : 1 ≤ i) (hi' : i < ring.length) (hk : k + 1 < ring.length)
    (h : On (corner ring k) (corner ring (k + 1)) (corner ring i)) :
    k = i - 1 ∨ k = (if i = ring.length - 1 then 0 else i) := by
  have hinj : ∀ {a b : ℕ}, 1 ≤ a → 1 ≤ b → a < ring.length → b < ring.length → corner ring a = corner ring b → a = b := by
    intro a b ha hb ha' hb' he
    have e1 : ring.tail[a - 1]? = some (corner ring a) := by
      rw [List.getElem?_tail, Nat.sub_add_cancel ha]
      exact corner_some ha'
    have e2 : ring.tail[b - 1]? = some (corner ring a) := by
      rw [List.getElem?_tail, Nat.sub_add_cancel hb, he]
      exact corner_some hb'
    have hl : a - 1 < ring.tail.length := (List.getElem?_eq_some_iff.1 e1).1
    have := (List.getElem?_inj hl g.corners).1 (e1.trans e2.symm)
    omega
  have hclosed : corner ring 0 = corner ring (ring.length - 1) := by
    have := hc.2
    rw [List.head?_eq_getElem?, List.getLast?_eq_getElem?] at this
    unfold corner
    rw [this]
  rcases on_cases h with h | h | h
  · right
    rcases Nat.eq_zero_or_pos k with rfl | hk0
    · rw [hclosed] at h
      have := hinj hi (by omega) hi' (by omega) h
      rw [if_pos this]
    · have := hinj hi hk0 hi' (by omega) h
      subst this
      rw [if_neg (by omega)]
  · left
    have := hinj hi (by omega) hi' hk h
    omega
  · exact absurd h (not_inside g hk hi')

/-- Two edges that share a corner are not opposite. -/
theorem not_spike {i j : ℕ} (hij : i ≠ j) (hi : i + 1 < ring.length) (hj : j + 1 < ring.length)
    (h : corner ring (i + 1) = corner ring j) :
    cross (corner ring (i + 1) - corner ring i) (corner ring (j + 1) - corner ring j) ≠ 0 ∨ ∃ r : ℚ, 0 < r ∧
      corner ring (j + 1) - corner ring j = (r * (corner ring (i + 1) - corner ring i).1,
        r * (corner ring (i + 1) - corner ring i).2) := by
  by_cases hc : cross (corner ring (i + 1) - corner ring i) (corner ring (j + 1) - corner ring j) = 0
  swap
  · exact Or.inl hc
  right
  have hu := edge_dir_ne g hi
  have hv := edge_dir_ne g hj
  set u := corner ring (i + 1) - corner ring i with hudef
  set v := corner ring (j + 1) - corner ring j with hvdef
  have hu0 : u ≠ 0 := by
    intro h'
    exact hu (sub_eq_zero.1 h').symm
  have hv0 : v ≠ 0 := by
    intro h'
    exact hv (sub_eq_zero.1 h').symm
  obtain ⟨r, hr⟩ : ∃ r : ℚ, v = (r * u.1, r * u.2) := by
    simp only [cross] at hc
    by_cases h1 : u.1 = 0
    · have h2 : u.2 ≠ 0 := fun h2 => hu0 (Prod.ext h1 h2)
      have h3 : v.1 = 0 := by
        rw [h1] at hc
        have : u.2 * v.1 = 0 := by linarith
        rcases mul_eq_zero.1 this with h | h
        · exact absurd h h2
        · exact h
      refine ⟨v.2 / u.2, Prod.ext ?_ ?_⟩
      · simp [h1, h3]
      · simp only
        rw [div_mul_cancel₀ _ h2]
    · refine ⟨v.1 / u.1, Prod.ext ?_ ?_⟩
      · simp only
        rw [div_mul_cancel₀ _ h1]
      · simp only
        rw [div_mul_eq_mul_div, eq_div_iff h1]
        linarith
  have hr0 : r ≠ 0 := by
    rintro rfl
    apply hv0
    rw [hr]
    simp
  rcases lt_or_gt_of_ne hr0 with hneg | hpos
  · exfalso
    have hm : 0 < min 1 (-r) / 2 := by
      have : 0 < min 1 (-r) := lt_min one_pos (by linarith)
      linarith
    have hm1 : min 1 (-r) / 2 < 1 := by
      have := min_le_left 1 (-r)
      linarith
    have hmr : min 1 (-r) / 2 < -r := by
      have := min_le_right 1 (-r)
      linarith
    set ε := min 1 (-r) / 2
    have b1 : Between (corner ring i) (corner ring (i + 1)) (lerp (corner ring (i + 1)) (corner ring i) ε) := by
      refine between_lerp.2 ⟨1 - ε, by linarith, by linarith, ?_⟩
      simp only [lerp]
      ext <;> simp only <;> ring
    have b2 : Between (corner ring j) (corner ring (j + 1)) (lerp (corner ring (i + 1)) (corner ring i) ε) := by
      refine between_lerp.2 ⟨ε / (-r), div_pos hm (by linarith), by rw [div_lt_one (by linarith)]; exact hmr, ?_⟩
      have e1 : (corner ring (j + 1)).1 - (corner ring j).1 = r * ((corner ring (i + 1)).1 - (corner ring i).1) :=
        congrArg Prod.fst hr
      have e2 : (corner ring (j + 1)).2 - (corner ring j).2 = r * ((corner ring (i + 1)).2 - (corner ring i).2) :=
        congrArg Prod.snd hr
      have e3 : ε / (-r) * r = -ε := by
        rw [div_neg, neg_mul, div_mul_cancel₀ _ hr0]
      simp only [lerp]
      rw [e1, e2, ← h]
      ext
      · simp only
        linear_combination -((corner ring (i + 1)).1 - (corner ring i).1) * e3
      · simp only
        linear_combination -((corner ring (i + 1)).2 - (corner ring i).2) * e3
    exact (meet g hij hi hj b1 b2).2 hc
  · exact ⟨r, hpos, hr⟩

end

/-- The edge along which an entry is. -/
def edgeAt (ring : List Pt) (i : ℕ) : ℕ := if i = ring.length - 1 then 0 else i

/-- The direction of an edge. -/
def dir (ring : List Pt) (i : ℕ) : Pt := corner ring (i + 1) - corner ring i

/-- The parity on the left of the outline, after an entry, or before an entry that jumps. -/
noncomputable def color (ring : List Pt) (e : Key × Vertex) : ZMod 2 :=
  germ (corner ring) (ring.length - 1) e.2.p
    (if e.1.reroute then -dir ring (edgeAt ring e.1.index1) else dir ring (edgeAt ring e.1.index1)) +
    ind (Up (dir ring (edgeAt ring e.1.index1)))

theorem edgeAt_lt {ring : List Pt} {i : ℕ} (h : i < ring.length - 1) : edgeAt ring i = i := if_neg (by omega)

section

variable {ring : List Pt} {turns : List Turn} {t : Table} (g : GeneralPosition ring turns) (hf : Full ring turns t)
include g hf

omit hf in
/-- The place of a passage on its edge. -/
theorem passage_place {x : Passage} (hx : x.1 ∈ turns) : ∃ s : ℚ, 0 < s ∧ s < 1 ∧
    x.1.p = lerp (corner ring x.edgeOf) (corner ring (x.edgeOf + 1)) s ∧
    x.along ring = s * s * dist2 (corner ring (x.edgeOf + 1)) (corner ring x.edgeOf) := by
  obtain ⟨a, b, ha, hb, hbe⟩ := passage_between (simple_of_general g) hx
  obtain ⟨s, h0, h1, hp⟩ := between_lerp.1 hbe
  refine ⟨s, h0, h1, by rw [corner_of ha, corner_of hb]; exact hp, ?_⟩
  unfold Passage.along
  rw [corner_of ha, corner_of hb, ha, hp]
  simp only [Option.getD_some, lerp, dist2]
  ring

omit hf in
theorem length_pos {i : ℕ} (hi : i + 1 < ring.length) : 0 < dist2 (corner ring (i + 1)) (corner ring i) :=
  dist2_pos.2 (edge_dir_ne g hi).symm

omit g in
/-- The entries: the corners and the passages. -/
theorem entry_kinds {e : Key × Vertex} (he : e ∈ t.vertices) :
    (∃ i < ring.length, e = ((⟨i, 0, i, false⟩ : Key), ({ p := corner ring i } : Vertex))) ∨
      ∃ x : Passage, ∃ r, x.1 ∈ turns ∧ e = entryOf ring x r := by
  rcases (hf.mem e).1 he with h | h
  · obtain ⟨i, p, hi, he⟩ := entries_mem h
    refine Or.inl ⟨i, (List.getElem?_eq_some_iff.1 hi).1, ?_⟩
    rw [corner_of hi]
    exact he
  · exact Or.inr h

/-- The place of an entry on its edge. -/
theorem entry_place {e : Key × Vertex} (he : e ∈ t.vertices) (hi : e.1.index1 + 1 < ring.length) : ∃ s : ℚ, 0 ≤ s ∧ s < 1 ∧
    e.2.p = lerp (corner ring e.1.index1) (corner ring (e.1.index1 + 1)) s ∧
    e.1.scale = s * s * dist2 (corner ring (e.1.index1 + 1)) (corner ring e.1.index1) := by
  rcases entry_kinds hf he with ⟨i, hi, rfl⟩ | ⟨x, r, hx, rfl⟩
  · exact ⟨0, le_rfl, one_pos, by simp [lerp], by simp⟩
  · obtain ⟨s, h0, h1, h2, h3⟩ := passage_place g hx
    refine ⟨s, h0.le, h1, ?_, h3⟩
    rw [entryOf_p]
    exact h2

omit g in
theorem corner_mem {i : ℕ} (h : i < ring.length) :
    ((⟨i, 0, i, false⟩ : Key), ({ p := corner ring i } : Vertex)) ∈ t.vertices :=
  (hf.mem _).2 (Or.inl (entries_get (corner_some h)))

omit hf in
/-- Along a part of an edge without crossing. -/
theorem germ_part (hc : Closed ring) {i : ℕ} (hi : i + 1 < ring.length) {s s' : ℚ} (h0 : 0 ≤ s) (hss : s < s') (h1 : s' ≤ 1)
    (hno : ∀ (x : Passage), x.1 ∈ turns → x.edgeOf = i →
      x.along ring ≤ s * s * dist2 (corner ring (i + 1)) (corner ring i) ∨
      s' * s' * dist2 (corner ring (i + 1)) (corner ring i) ≤ x.along ring) :
    germ (corner ring) (ring.length - 1) (lerp (corner ring i) (corner ring (i + 1)) s) (dir ring i) =
      germ (corner ring) (ring.length - 1) (lerp (corner ring i) (corner ring (i + 1)) s') (-dir ring i) := by
  have hclosed : corner ring 0 = corner ring (ring.length - 1) := by
    have := hc.2
    rw [List.head?_eq_getElem?, List.getLast?_eq_getElem?] at this
    unfold corner
    rw [this]
  have hpos : 0 < s' - s := by linarith
  have e1 : lerp (corner ring i) (corner ring (i + 1)) s' - lerp (corner ring i) (corner ring (i + 1)) s =
      ((s' - s) * (dir ring i).1, (s' - s) * (dir ring i).2) := by
    simp only [lerp, dir]
    ext <;> simp <;> ring
  have e2 : lerp (corner ring i) (corner ring (i + 1)) s - lerp (corner ring i) (corner ring (i + 1)) s' =
      ((s' - s) * (-dir ring i).1, (s' - s) * (-dir ring i).2) := by
    simp only [lerp, dir]
    ext <;> simp <;> ring
  rw [← germ_scale _ _ _ (dir ring i) hpos, ← germ_scale _ _ _ (-dir ring i) hpos, ← e1, ← e2]
  refine germ_segment hclosed ?_
  intro j hj
  by_cases hji : j = i
  · subst hji
    exact Or.inr ⟨s, s', rfl, rfl⟩
  left
  intro r r0 r1 hon
  have hσ0 : s < s + r * (s' - s) := by nlinarith
  have hσ1 : s + r * (s' - s) < s' := by nlinarith
  have hp : lerp (lerp (corner ring i) (corner ring (i + 1)) s) (lerp (corner ring i) (corner ring (i + 1)) s') r =
      lerp (corner ring i) (corner ring (i + 1)) (s + r * (s' - s)) := by
    simp only [lerp]
    ext <;> simp only <;> ring
  rw [hp] at hon
  have hb : Between (corner ring i) (corner ring (i + 1)) (lerp (corner ring i) (corner ring (i + 1)) (s + r * (s' - s))) :=
    between_lerp.2 ⟨_, by linarith, by linarith, rfl⟩
  rcases on_cases hon with h | h | h
  · rw [h] at hb
    exact not_inside g hi (by omega) hb
  · rw [h] at hb
    exact not_inside g hi (by omega) hb
  · obtain ⟨⟨x, hx, hxi, -, hxp⟩, -⟩ := meet g (Ne.symm hji) hi (by omega) hb h
    obtain ⟨σ, k0, k1, k2, k3⟩ := passage_place g hx
    rw [hxi] at k2 k3
    have hD := length_pos g hi
    have hσ : σ = s + r * (s' - s) := by
      rw [hxp] at k2
      have a1 := congrArg Prod.fst k2
      have a2 := congrArg Prod.snd k2
      simp only [lerp] at a1 a2
      by_contra hne
      have hne' : σ - (s + r * (s' - s)) ≠ 0 := sub_ne_zero.2 hne
      have b1 : (σ - (s + r * (s' - s))) * ((corner ring (i + 1)).1 - (corner ring i).1) = 0 := by linarith
      have b2 : (σ - (s + r * (s' - s))) * ((corner ring (i + 1)).2 - (corner ring i).2) = 0 := by linarith
      have c1 := (mul_eq_zero.1 b1).resolve_left hne'
      have c2 := (mul_eq_zero.1 b2).resolve_left hne'
      exact edge_dir_ne g hi (Prod.ext (by linarith) (by linarith))
    have hσ2 : σ < s' := by rw [hσ]; exact hσ1
    have hσ3 : s < σ := by rw [hσ]; exact hσ0
    rcases hno x hx hxi with h | h
    · rw [k3] at h
      have := le_of_mul_le_mul_right h hD
      nlinarith
    · rw [k3] at h
      have := le_of_mul_le_mul_right h hD
      nlinarith

/-- The walk keeps its colour. -/
theorem color_step (hc : Closed ring) (hne : turns ≠ []) {e : Key × Vertex} (he : e ∈ t.vertices) :
    color ring (stepD t e) = color ring e := by
  have hs := simple_of_general g
  have hlen : 3 ≤ ring.length := by
    obtain ⟨u, hu⟩ := List.exists_mem_of_ne_nil _ hne
    have h1 := edge_lt hs (x := (u, true)) hu
    have h2 := (hs.1 u hu).1
    simp only [Passage.edgeOf, if_true] at h1
    omega
  have hstep := step_eq hf he
  -- the entries that jump
  have jump : ∀ (x : Passage), x.1 ∈ turns → e = entryOf ring x true → color ring (stepD t e) = color ring e := by
    intro x hx hex
    rw [hex, step_jump hf hx] at hstep
    rw [hex, ← Option.some.inj hstep]
    obtain ⟨s, h0, h1, h2, -⟩ := passage_place g hx
    obtain ⟨s', h0', h1', h2', -⟩ := passage_place g (x := x.other) hx
    have l1 := edge_lt hs hx
    have l2 := edge_lt hs (x := x.other) hx
    have hxp : x.other.1.p = x.1.p := rfl
    rw [hxp] at h2'
    have hx1 : Between (corner ring x.edgeOf) (corner ring (x.edgeOf + 1)) x.1.p := between_lerp.2 ⟨s, h0, h1, h2⟩
    have hx2 : Between (corner ring x.other.edgeOf) (corner ring (x.other.edgeOf + 1)) x.1.p :=
      between_lerp.2 ⟨s', h0', h1', h2'⟩
    have key := germ_turn (q := corner ring) (n := ring.length - 1) (i := x.edgeOf) (j := x.other.edgeOf) (by omega) (by omega)
      (edge_ne hs hx) (p := x.1.p) (fun k hk hon => through_crossing g hx (by omega) hon) h0 h1 h0' h1' h2 h2'
      (meet g (edge_ne hs hx) l1 l2 hx1 hx2).2
    unfold color
    simp only [entryOf, keyOf, if_true, Bool.false_eq_true, if_false]
    rw [edgeAt_lt (by omega), edgeAt_lt (by omega)]
    exact key.symm
  -- the entries that do not
  by_cases hr : e.1.reroute = true
  · rcases entry_kinds hf he with ⟨i, hi, rfl⟩ | ⟨x, r, hx, rfl⟩
    · cases hr
    · have : r = true := hr
      subst this
      exact jump x hx rfl
  rw [Bool.not_eq_true] at hr
  obtain ⟨m, hm⟩ := List.mem_iff_getElem?.1 he
  have hi : e.1.index1 < ring.length := by
    rcases entry_kinds hf he with ⟨i, hi, rfl⟩ | ⟨x, r, hx, rfl⟩
    · exact hi
    · have := edge_lt hs hx
      simp only [entryOf, keyOf]
      omega
  by_cases hlast : e.1.index1 = ring.length - 1
  · -- the last corner
    have hee : e = ((⟨ring.length - 1, 0, ring.length - 1, false⟩ : Key), ({ p := corner ring (ring.length - 1) } : Vertex)) := by
      rcases entry_kinds hf he with ⟨i, hi, rfl⟩ | ⟨x, r, hx, rfl⟩
      · simp only at hlast
        subst hlast
        rfl
      · have := edge_lt hs hx
        simp only [entryOf, keyOf] at hlast
        omega
    have hl := last_entry hs hf (corner_some (ring := ring) (i := ring.length - 1) (by omega))
    rw [← hee] at hl
    have hml := get_inj hf.sorted hm hl
    have hfirst := first_entry hs hf (corner_some (ring := ring) (i := 0) (by omega))
    have hmlt := (List.getElem?_eq_some_iff.1 hm).1
    have hclosed : corner ring 0 = corner ring (ring.length - 1) := by
      have := hc.2
      rw [List.head?_eq_getElem?, List.getLast?_eq_getElem?] at this
      unfold corner
      rw [this]
    rcases step_plain hf hr hm with ⟨h1, -⟩ | ⟨-, h2⟩
    · omega
    · rw [h2, hfirst] at hstep
      rw [← Option.some.inj hstep, hee]
      unfold color
      simp only [Bool.false_eq_true, if_false, hclosed]
      have : edgeAt ring (ring.length - 1) = edgeAt ring 0 := by
        unfold edgeAt
        rw [if_pos rfl, if_neg (by omega)]
      rw [this]
  · have hi1 : e.1.index1 + 1 < ring.length := by omega
    obtain ⟨s, s0, s1, hp, hsc⟩ := entry_place g hf he hi1
    obtain ⟨n, hn⟩ := List.mem_iff_getElem?.1 (corner_mem hf hi1)
    have hmn : m < n := (get_less hf.sorted hm hn).1 (by rw [less_iff]; exact Or.inl (by simp only; omega))
    have hnlt := (List.getElem?_eq_some_iff.1 hn).1
    have hget : t.vertices[m + 1]? = some (stepD t e) := by
      rcases step_plain hf hr hm with ⟨-, h2⟩ | ⟨h1, -⟩
      · exact h2.symm.trans hstep
      · omega
    have hD := length_pos g hi1
    -- no crossing in between
    have none_between : ∀ x : Passage, x.1 ∈ turns → x.edgeOf = e.1.index1 → e.1.scale < x.along ring →
        (entryOf ring x false).1.less (stepD t e).1 = true → False := by
      intro x hx hxi h1 h2
      obtain ⟨k, hk⟩ := List.mem_iff_getElem?.1 (passage_mem hf hx false)
      have a1 := (get_less hf.sorted hm hk).1 (by
        rw [less_iff]
        exact Or.inr ⟨hxi.symm, Or.inl h1⟩)
      have a2 := (get_less hf.sorted hk hget).1 h2
      omega
    have hef : e.1.less (stepD t e).1 = true := (get_less hf.sorted hm hget).2 (by omega)
    have hcol : color ring e = germ (corner ring) (ring.length - 1)
        (lerp (corner ring e.1.index1) (corner ring (e.1.index1 + 1)) s) (dir ring e.1.index1) +
          ind (Up (dir ring e.1.index1)) := by
      unfold color
      rw [hr, edgeAt_lt (by omega), hp]
      simp
    rcases entry_kinds hf (stepD_mem hf he) with ⟨j, hj, hfe⟩ | ⟨z, r, hz, hfe⟩
    · -- the next corner
      have hji : j = e.1.index1 + 1 := by
        rcases Nat.lt_or_ge (m + 1) n with h | h
        · have h3 := (get_less hf.sorted hget hn).2 h
          rw [hfe, less_iff] at h3 hef
          simp only at h3 hef
          have : 0 ≤ e.1.scale := by rw [hsc]; positivity
          rcases hef with hef | ⟨he1, hef | ⟨he2, hef⟩⟩
          · rcases h3 with h3 | ⟨h3, -⟩
            · omega
            · exact h3
          · linarith
          · exfalso
            rcases entry_kinds hf he with ⟨i, hi, rfl⟩ | ⟨x, r, hx, rfl⟩
            · simp at he1 hef
              omega
            · have := along_pos hs hx
              simp only [entryOf, keyOf] at he2
              linarith
        · have : m + 1 = n := by omega
          rw [this, hn] at hget
          have := congrArg (fun x : Key × Vertex => x.1.index1) ((Option.some.inj hget).trans hfe)
          exact this.symm
      subst hji
      have part := germ_part g hc hi1 s0 s1 le_rfl (fun x hx hxi => by
        rcases le_or_gt (x.along ring) e.1.scale with h | h
        · rw [← hsc]; exact Or.inl h
        · exfalso
          refine none_between x hx hxi h ?_
          rw [hfe, less_iff]
          refine Or.inl ?_
          simp only [entryOf, keyOf]
          omega)
      rw [hcol, part, hfe]
      have h1 : lerp (corner ring e.1.index1) (corner ring (e.1.index1 + 1)) 1 = corner ring (e.1.index1 + 1) := by
        simp [lerp]
      rw [h1]
      have hedge : edgeAt ring (e.1.index1 + 1) + 1 < ring.length := by
        unfold edgeAt
        split_ifs <;> omega
      have hne' : e.1.index1 ≠ edgeAt ring (e.1.index1 + 1) := by
        unfold edgeAt
        split_ifs <;> omega
      have hsame : corner ring (e.1.index1 + 1) = corner ring (edgeAt ring (e.1.index1 + 1)) := by
        unfold edgeAt
        split_ifs with h
        · rw [h]
          have := hc.2
          rw [List.head?_eq_getElem?, List.getLast?_eq_getElem?] at this
          unfold corner
          rw [this]
        · rfl
      have key := germ_corner (q := corner ring) (n := ring.length - 1) (i := e.1.index1)
        (j := edgeAt ring (e.1.index1 + 1)) (by omega) (by omega) hne' (p := corner ring (e.1.index1 + 1))
        (fun k hk hon => through_corner g hc (by omega) hi1 (by omega) hon) rfl hsame
        (not_spike g hne' hi1 hedge hsame)
      exact key.symm
    · -- the next crossing
      have hzlt := edge_lt hs hz
      have hzi : z.edgeOf = e.1.index1 := by
        have hnn : m + 1 ≤ n := hmn
        rw [hfe, less_iff] at hef
        simp only [entryOf, keyOf] at hef
        rcases Nat.eq_or_lt_of_le hnn with h | h
        · rw [h, hn] at hget
          have h5 := (Option.some.inj hget).trans hfe
          exact absurd h5 (corner_ne hs rfl hz r)
        · have h3 := (get_less hf.sorted hget hn).2 h
          rw [hfe, less_iff] at h3
          simp only [entryOf, keyOf] at h3
          have := along_pos hs hz
          rcases h3 with h3 | ⟨-, h3 | ⟨h3, -⟩⟩
          · rcases hef with hef | ⟨hef, -⟩ <;> omega
          · linarith
          · linarith
      have hrt : r = true := by
        cases r with
        | true => rfl
        | false =>
          exfalso
          obtain ⟨k, hk⟩ := List.mem_iff_getElem?.1 (passage_mem hf hz true)
          have h1 := twin hf hz hk
          rw [hfe] at hget
          have := get_inj hf.sorted hget h1
          have hkm : k = m := by omega
          subst hkm
          rw [hm] at hk
          rw [Option.some.inj hk] at hr
          cases hr
      subst hrt
      obtain ⟨s', s0', s1', hp', hsc'⟩ := passage_place g hz
      rw [hzi] at hp' hsc'
      have hlt : e.1.scale < z.along ring := by
        rw [hfe, less_iff] at hef
        simp only [entryOf, keyOf] at hef
        rcases hef with hef | ⟨-, hef | ⟨he2, hef⟩⟩
        · omega
        · exact hef
        · exfalso
          rcases entry_kinds hf he with ⟨i, hi, rfl⟩ | ⟨x, r, hx, rfl⟩
          · have := along_pos hs hz
            simp only at he2
            linarith
          · have hxz : x = z := passage_eq hs hx hz hzi.symm he2
            subst hxz
            have : r = false := hr
            subst this
            simp [entryOf, keyOf] at hef
      have hss : s < s' := by
        rw [hsc, hsc'] at hlt
        have := lt_of_mul_lt_mul_right hlt hD.le
        nlinarith
      have part := germ_part g hc hi1 s0 hss s1'.le (fun x hx hxi => by
        rcases le_or_gt (x.along ring) e.1.scale with h | h
        · rw [← hsc]; exact Or.inl h
        · rw [← hsc']
          right
          by_contra hcon
          refine none_between x hx hxi h ?_
          rw [hfe, less_iff]
          exact Or.inr ⟨hxi.trans hzi.symm, Or.inl (not_le.1 hcon)⟩)
      rw [hcol, part, hfe]
      unfold color
      simp only [entryOf, keyOf, if_true]
      rw [edgeAt_lt (by omega), hzi, hp']

/-- A loop does not come back to a crossing by its other edge. -/
theorem no_revisit (hc : Closed ring) (x : Passage) (m : ℕ) (hx : x.1 ∈ turns) :
    (stepD t)^[m] (entryOf ring x false) ≠ entryOf ring x.other false := by
  have hs := simple_of_general g
  have hne : turns ≠ [] := List.ne_nil_of_mem hx
  have hcol : ∀ m, color ring ((stepD t)^[m] (entryOf ring x false)) = color ring (entryOf ring x false) := by
    intro m
    induction m with
    | zero => rfl
    | succ m ih =>
      rw [Function.iterate_succ_apply', color_step g hf hc hne (iterate_mem hf (passage_mem hf hx false) m), ih]
  intro h
  have h1 := hcol m
  rw [h] at h1
  obtain ⟨s, h0, hs1, h2, -⟩ := passage_place g hx
  obtain ⟨s', h0', hs1', h2', -⟩ := passage_place g (x := x.other) hx
  have l1 := edge_lt hs hx
  have l2 := edge_lt hs (x := x.other) hx
  have hxp : x.other.1.p = x.1.p := rfl
  rw [hxp] at h2'
  have hx1 : Between (corner ring x.edgeOf) (corner ring (x.edgeOf + 1)) x.1.p := between_lerp.2 ⟨s, h0, hs1, h2⟩
  have hx2 : Between (corner ring x.other.edgeOf) (corner ring (x.other.edgeOf + 1)) x.1.p :=
    between_lerp.2 ⟨s', h0', hs1', h2'⟩
  refine germ_differ (q := corner ring) (n := ring.length - 1) (i := x.edgeOf) (j := x.other.edgeOf) (by omega) (by omega)
    (edge_ne hs hx) (p := x.1.p) (fun k hk hon => through_crossing g hx (by omega) hon) h0 hs1 h0' hs1' h2 h2'
    (meet g (edge_ne hs hx) l1 l2 hx1 hx2).2 ?_
  unfold color at h1
  simp only [entryOf, keyOf, Bool.false_eq_true, if_false] at h1
  rw [edgeAt_lt (by omega), edgeAt_lt (by omega)] at h1
  exact h1.symm

end

end RgbdSlam.PolygonRepair
