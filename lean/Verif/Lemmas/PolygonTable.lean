import Mathlib.Data.List.Nodup
import Mathlib.Tactic.Ring
import Verif.Lemmas.PolygonRepair2
import Verif.Spec.PolygonRepair
/- The table of an outline with any number of crossings. -/
namespace RgbdSlam.PolygonRepair

open Spec

theorem less_iff (a b : Key) : a.less b = true ↔ a.index1 < b.index1 ∨ a.index1 = b.index1 ∧ (a.scale < b.scale ∨
    a.scale = b.scale ∧ (b.index2 < a.index2 ∨ a.index2 = b.index2 ∧ (a.reroute = true ∧ b.reroute = false))) := by
  unfold Key.less
  split_ifs with h1 h2 h3 h4 h5 h6 h7
  · simp [h1]
  · have : ¬ a.index1 = b.index1 := by omega
    simp [h1, this]
  · have : a.index1 = b.index1 := by omega
    simp [this, h3]
  · have e : a.index1 = b.index1 := by omega
    have : ¬ a.scale = b.scale := by intro h; rw [h] at h4; exact lt_irrefl _ h4
    simp [e, h3, this]
  · have e : a.index1 = b.index1 := by omega
    have e2 : a.scale = b.scale := le_antisymm (not_lt.1 h4) (not_lt.1 h3)
    simp [e, e2, h5]
  · have e : a.index1 = b.index1 := by omega
    have e2 : a.scale = b.scale := le_antisymm (not_lt.1 h4) (not_lt.1 h3)
    have : ¬ a.index2 = b.index2 := by omega
    simp [e, e2, h5, this]
  · have e : a.index1 = b.index1 := by omega
    have e2 : a.scale = b.scale := le_antisymm (not_lt.1 h4) (not_lt.1 h3)
    have e3 : a.index2 = b.index2 := by omega
    simpa [e, e2, e3] using h7
  · have e : a.index1 = b.index1 := by omega
    have e2 : a.scale = b.scale := le_antisymm (not_lt.1 h4) (not_lt.1 h3)
    have e3 : a.index2 = b.index2 := by omega
    simp only [Bool.and_eq_true, Bool.not_eq_true'] at h7
    simp [e, e2, e3, h7]

theorem less_trans {a b c : Key} (h : a.less b = true) (h' : b.less c = true) : a.less c = true := by
  rw [less_iff] at h h' ⊢
  rcases h with h | ⟨e1, h⟩ <;> rcases h' with h' | ⟨e1', h'⟩
  · exact Or.inl (h.trans h')
  · exact Or.inl (by omega)
  · exact Or.inl (by omega)
  refine Or.inr ⟨e1.trans e1', ?_⟩
  rcases h with h | ⟨e2, h⟩ <;> rcases h' with h' | ⟨e2', h'⟩
  · exact Or.inl (h.trans h')
  · exact Or.inl (by rw [← e2']; exact h)
  · exact Or.inl (by rw [e2]; exact h')
  refine Or.inr ⟨e2.trans e2', ?_⟩
  rcases h with h | ⟨e3, h⟩ <;> rcases h' with h' | ⟨e3', h'⟩
  · exact Or.inl (h'.trans h)
  · exact Or.inl (by omega)
  · exact Or.inl (by omega)
  · rw [h.2] at h'; cases h'.1

theorem less_asymm {a b : Key} (h : a.less b = true) : b.less a = false := by
  cases hb : b.less a with
  | false => rfl
  | true =>
    have := less_trans h hb
    rw [less_irrefl] at this
    cases this

/-- The order of the table. -/
def Sorted (vs : List (Key × Vertex)) : Prop := vs.Pairwise fun e f => e.1.less f.1 = true

theorem Sorted.nodup {vs : List (Key × Vertex)} (h : Sorted vs) : (vs.map Prod.fst).Nodup := by
  unfold List.Nodup
  rw [List.pairwise_map]
  refine List.Pairwise.imp ?_ h
  intro a b hab e
  rw [e, less_irrefl] at hab
  cases hab

theorem emplace_split {k : Key} {v : Vertex} {vs : List (Key × Vertex)} (h : Sorted vs) (hk : ∀ e ∈ vs, e.1 ≠ k) :
    ∃ pre suf, vs = pre ++ suf ∧ emplace k v vs = pre ++ (k, v) :: suf ∧ (∀ e ∈ pre, e.1.less k = true) ∧
      ∀ e ∈ suf, k.less e.1 = true := by
  induction vs with
  | nil => exact ⟨[], [], rfl, rfl, by simp, by simp⟩
  | cons a l ih =>
    have hl := List.pairwise_cons.1 h
    unfold emplace
    split_ifs with h1 h2
    · refine ⟨[], a :: l, rfl, rfl, by simp, fun e he => ?_⟩
      rcases List.mem_cons.1 he with rfl | he
      · exact h1
      · exact less_trans h1 (hl.1 e he)
    · obtain ⟨pre, suf, e1, e2, e3, e4⟩ := ih hl.2 fun e he => hk e (List.mem_cons_of_mem _ he)
      refine ⟨a :: pre, suf, by rw [e1]; rfl, by rw [e2]; rfl, fun e he => ?_, e4⟩
      rcases List.mem_cons.1 he with rfl | he
      · exact h2
      · exact e3 e he
    · exact absurd (less_total (by simpa using h2) (by simpa using h1)) (hk a List.mem_cons_self)

theorem sorted_insert {pre suf : List (Key × Vertex)} {e : Key × Vertex} (h : Sorted (pre ++ suf))
    (h1 : ∀ f ∈ pre, f.1.less e.1 = true) (h2 : ∀ f ∈ suf, e.1.less f.1 = true) : Sorted (pre ++ e :: suf) := by
  unfold Sorted at h ⊢
  rw [List.pairwise_append] at h ⊢
  refine ⟨h.1, List.pairwise_cons.2 ⟨h2, h.2.1⟩, fun a ha b hb => ?_⟩
  rcases List.mem_cons.1 hb with rfl | hb
  · exact h1 a ha
  · exact h.2.2 a ha b hb

theorem sorted_entries (off : ℕ) (l : List Pt) : Sorted (entries off l) := by
  induction l generalizing off with
  | nil => exact List.Pairwise.nil
  | cons x l ih =>
    rw [entries_cons]
    refine List.pairwise_cons.2 ⟨fun e he => ?_, ih _⟩
    have := (mem_entries he).2.2.1
    rw [less_iff]
    exact Or.inl (by simp only; omega)

/-- The entry of a passage: the one that jumps to the other edge, and the one that follows the edge. -/
def keyOf (ring : List Pt) (x : Passage) (r : Bool) : Key := ⟨x.edgeOf, x.along ring, x.other.edgeOf, r⟩

def entryOf (ring : List Pt) (x : Passage) (r : Bool) : Key × Vertex :=
  (keyOf ring x r, if r then ⟨x.1.p, keyOf ring x.other false⟩ else { p := x.1.p })

theorem other_other (x : Passage) : x.other.other = x := by
  obtain ⟨t, b⟩ := x
  simp [Passage.other]

theorem entryOf_p (ring : List Pt) (x : Passage) (r : Bool) : (entryOf ring x r).2.p = x.1.p := by
  cases r <;> rfl

/-- The point is on the line of an edge. -/
def OnEdge (ring : List Pt) (i : ℕ) (p : Pt) : Prop :=
  ∃ a b, ring[i]? = some a ∧ ring[i + 1]? = some b ∧ ∃ s : ℚ, p.1 = a.1 + s * (b.1 - a.1) ∧ p.2 = a.2 + s * (b.2 - a.2)

section

variable {ring : List Pt} {turns : List Turn} (hs : Simple ring turns)
include hs

theorem edge_ne {x : Passage} (hx : x.1 ∈ turns) : x.edgeOf ≠ x.other.edgeOf := by
  have := (hs.1 x.1 hx).1
  obtain ⟨t, b⟩ := x
  simp only at this
  cases b <;> simp [Passage.edgeOf, Passage.other] <;> omega

theorem passage_between {x : Passage} (hx : x.1 ∈ turns) :
    ∃ a b, ring[x.edgeOf]? = some a ∧ ring[x.edgeOf + 1]? = some b ∧ Between a b x.1.p := by
  obtain ⟨-, a, b, c, d, h1, h2, h3, h4, h5, h6⟩ := hs.1 x.1 hx
  obtain ⟨t, b'⟩ := x
  cases b'
  · exact ⟨a, b, by simpa [Passage.edgeOf] using h1, by simpa [Passage.edgeOf] using h2, h5⟩
  · exact ⟨c, d, by simpa [Passage.edgeOf] using h3, by simpa [Passage.edgeOf] using h4, h6⟩

theorem edge_lt {x : Passage} (hx : x.1 ∈ turns) : x.edgeOf + 1 < ring.length := by
  obtain ⟨a, b, -, h, -⟩ := passage_between hs hx
  exact (List.getElem?_eq_some_iff.1 h).1

theorem along_pos {x : Passage} (hx : x.1 ∈ turns) : 0 < x.along ring := by
  obtain ⟨a, b, h, -, -⟩ := passage_between hs hx
  have hne : x.1.p ≠ a := fun e => hs.2.2 x.1 hx (by rw [e]; exact List.mem_of_getElem? h)
  have := dist2_pos.2 hne
  unfold Passage.along
  rw [h]
  exact this

theorem onEdge {x : Passage} (hx : x.1 ∈ turns) : OnEdge ring x.edgeOf x.1.p := by
  obtain ⟨a, b, h1, h2, s, -, -, h3, h4⟩ := passage_between hs hx
  exact ⟨a, b, h1, h2, s, h3, h4⟩

theorem turn_eq {t u : Turn} (ht : t ∈ turns) (hu : u ∈ turns) (h : t.p = u.p) : t = u :=
  List.inj_on_of_nodup_map hs.2.1 ht hu h

/-- Two passages of the same edge at the same distance are the same. -/
theorem passage_eq {x y : Passage} (hx : x.1 ∈ turns) (hy : y.1 ∈ turns) (he : x.edgeOf = y.edgeOf)
    (hd : x.along ring = y.along ring) : x = y := by
  obtain ⟨a, b, h1, h2, s, s0, -, x1, x2⟩ := passage_between hs hx
  obtain ⟨a', b', h1', h2', s', s0', -, y1, y2⟩ := passage_between hs hy
  rw [← he] at h1' h2'
  obtain rfl : a = a' := by rw [h1] at h1'; exact Option.some.inj h1'
  obtain rfl : b = b' := by rw [h2] at h2'; exact Option.some.inj h2'
  have hab : a ≠ b := by
    rintro rfl
    exact hs.2.2 x.1 hx (by
      have : x.1.p = a := Prod.ext (by rw [x1]; ring) (by rw [x2]; ring)
      rw [this]; exact List.mem_of_getElem? h1)
  have hd' : s * s * dist2 b a = s' * s' * dist2 b a := by
    unfold Passage.along at hd
    rw [← he, h1] at hd
    simp only [Option.getD_some, x1, x2, y1, y2] at hd
    unfold dist2
    linear_combination hd
  have := mul_right_cancel₀ (dist2_pos.2 hab.symm).ne' hd'
  have hss : s = s' := by nlinarith
  have hp : x.1.p = y.1.p := Prod.ext (by rw [x1, y1, hss]) (by rw [x2, y2, hss])
  have ht := turn_eq hs hx hy hp
  have hne := (hs.1 x.1 hx).1
  obtain ⟨t, b⟩ := x
  obtain ⟨u, b'⟩ := y
  simp only at ht hne
  subst ht
  cases b <;> cases b' <;> simp [Passage.edgeOf] at he <;> first | rfl | omega

theorem key_inj {x y : Passage} (hx : x.1 ∈ turns) (hy : y.1 ∈ turns) {r r' : Bool}
    (h : keyOf ring x r = keyOf ring y r') : x = y ∧ r = r' := by
  simp only [keyOf, Key.mk.injEq] at h
  exact ⟨passage_eq hs hx hy h.1 h.2.1, h.2.2.2⟩

theorem key_notMem {x : Passage} (hx : x.1 ∈ turns) {r : Bool} {off : ℕ} {l : List Pt} :
    ∀ e ∈ entries off l, e.1 ≠ keyOf ring x r := by
  intro e he h
  have := (mem_entries he).2.1
  rw [h] at this
  exact (along_pos hs hx).ne' this

end

theorem entries_get {ring : List Pt} {i : ℕ} {p : Pt} (h : ring[i]? = some p) :
    ((⟨i, 0, i, false⟩ : Key), ({ p := p } : Vertex)) ∈ entries 0 ring := by
  unfold entries
  refine List.mem_map.2 ⟨(p, i), ?_, rfl⟩
  rw [List.mem_zipIdx_iff_getElem?]
  exact h

theorem entries_mem {ring : List Pt} {e : Key × Vertex} (h : e ∈ entries 0 ring) :
    ∃ i p, ring[i]? = some p ∧ e = ((⟨i, 0, i, false⟩ : Key), ({ p := p } : Vertex)) := by
  unfold entries at h
  obtain ⟨⟨p, i⟩, h1, rfl⟩ := List.mem_map.1 h
  exact ⟨i, p, by rw [List.mem_zipIdx_iff_getElem?] at h1; exact h1, rfl⟩

/-- The vertices of a table that holds the corners of the outline and some entries of passages. -/
structure Holds (ring : List Pt) (turns : List Turn) (es : List (Passage × Bool)) (vs : List (Key × Vertex)) : Prop where
  sorted : Sorted vs
  mem : ∀ e, e ∈ vs ↔ e ∈ entries 0 ring ∨ ∃ x ∈ es, e = entryOf ring x.1 x.2
  known : ∀ x ∈ es, x.1.1 ∈ turns
  sum : ∀ f, Measure f → total f (vs.map fun e => e.2.p) = total f ring
  length : vs.length ≤ ring.length + es.length

theorem holds_entries (ring : List Pt) (turns : List Turn) : Holds ring turns [] (entries 0 ring) where
  sorted := sorted_entries _ _
  mem e := by simp
  known x hx := by cases hx
  sum f _ := by rw [entries_points]
  length := by simp [entries]

theorem edge_insert {f : Pt → Pt → ℚ} (hf : Measure f) {ring : List Pt} {i : ℕ} {u v p : Pt} (hu : OnEdge ring i u)
    (hv : OnEdge ring i v) (hp : OnEdge ring i p) : f u v = f u p + f p v := by
  obtain ⟨a, b, h1, h2, s, u1, u2⟩ := hu
  obtain ⟨a', b', h1', h2', s', v1, v2⟩ := hv
  obtain ⟨a'', b'', h1'', h2'', s'', p1, p2⟩ := hp
  obtain rfl : a = a' := by rw [h1] at h1'; exact Option.some.inj h1'
  obtain rfl : b = b' := by rw [h2] at h2'; exact Option.some.inj h2'
  obtain rfl : a = a'' := by rw [h1] at h1''; exact Option.some.inj h1''
  obtain rfl : b = b'' := by rw [h2] at h2''; exact Option.some.inj h2''
  refine hf _ _ _ ?_
  rw [u1, u2, v1, v2, p1, p2]
  ring

theorem holds_emplace {ring : List Pt} {turns : List Turn} (hs : Simple ring turns) {es : List (Passage × Bool)}
    {vs : List (Key × Vertex)} (h : Holds ring turns es vs) {x : Passage} (hx : x.1 ∈ turns) {r : Bool}
    (hnew : (x, r) ∉ es) : Holds ring turns ((x, r) :: es) (emplace (entryOf ring x r).1 (entryOf ring x r).2 vs) := by
  have hk : ∀ e ∈ vs, e.1 ≠ keyOf ring x r := by
    intro e he
    rcases (h.mem e).1 he with he | ⟨y, hy, rfl⟩
    · exact key_notMem hs hx e he
    · intro hkey
      obtain ⟨e1, e2⟩ := key_inj hs (h.known y hy) hx hkey
      exact hnew (by rw [← e1, ← e2]; exact hy)
  obtain ⟨pre, suf, e1, e2, e3, e4⟩ := emplace_split (k := (entryOf ring x r).1) (v := (entryOf ring x r).2) h.sorted hk
  have hsort : Sorted (pre ++ entryOf ring x r :: suf) := sorted_insert (e := entryOf ring x r) (by rw [← e1]; exact h.sorted) e3 e4
  obtain ⟨a, b, ha, hb, -⟩ := passage_between hs hx
  have hpos := along_pos hs hx
  -- the corners at both ends of the edge
  have hA : ((⟨x.edgeOf, 0, x.edgeOf, false⟩ : Key), ({ p := a } : Vertex)) ∈ pre := by
    have := (h.mem _).2 (Or.inl (entries_get ha))
    rw [e1] at this
    rcases List.mem_append.1 this with h' | h'
    · exact h'
    · have := e4 _ h'
      rw [less_iff] at this
      simp [entryOf, keyOf] at this
      rcases this with h'' | ⟨h'', -⟩ <;> linarith
  have hB : ((⟨x.edgeOf + 1, 0, x.edgeOf + 1, false⟩ : Key), ({ p := b } : Vertex)) ∈ suf := by
    have := (h.mem _).2 (Or.inl (entries_get hb))
    rw [e1] at this
    rcases List.mem_append.1 this with h' | h'
    · have := e3 _ h'
      rw [less_iff] at this
      simp [entryOf, keyOf] at this
    · exact h'
  -- the entries around the new one are on the same edge
  have hon : ∀ e ∈ vs, e.1.index1 = x.edgeOf → OnEdge ring x.edgeOf e.2.p := by
    intro e he hi
    rcases (h.mem e).1 he with he | ⟨y, hy, rfl⟩
    · obtain ⟨i, p, hp, rfl⟩ := entries_mem he
      simp only at hi
      subst hi
      obtain rfl : p = a := by rw [ha] at hp; exact (Option.some.inj hp).symm
      exact ⟨p, b, ha, hb, 0, by ring, by ring⟩
    · rw [entryOf_p]
      have : y.1.edgeOf = x.edgeOf := hi
      rw [← this]
      exact onEdge hs (h.known y hy)
  have hpre : pre ≠ [] := by rintro rfl; cases hA
  have hsuf : suf ≠ [] := by rintro rfl; cases hB
  obtain ⟨l, u, rfl⟩ := List.eq_nil_or_concat pre |>.resolve_left hpre
  rw [List.concat_eq_append] at *
  obtain ⟨v, m, rfl⟩ := List.exists_cons_of_ne_nil hsuf
  have hsort0 := h.sorted
  rw [e1] at hsort0
  have hu : OnEdge ring x.edgeOf u.2.p := by
    refine hon u (by rw [e1]; simp) ?_
    have h1 : u.1.index1 ≤ x.edgeOf := by
      have := e3 u (by simp)
      rw [less_iff] at this
      simp only [entryOf, keyOf] at this
      rcases this with h | ⟨h, -⟩ <;> omega
    have h2 : x.edgeOf ≤ u.1.index1 := by
      rcases List.mem_append.1 hA with h' | h'
      · have := (List.pairwise_append.1 (List.pairwise_append.1 hsort0).1).2.2 _ h' u (by simp)
        rw [less_iff] at this
        simp only at this
        rcases this with h | ⟨h, -⟩ <;> omega
      · have : ((⟨x.edgeOf, 0, x.edgeOf, false⟩ : Key), ({ p := a } : Vertex)) = u := by simpa using h'
        rw [← this]
    omega
  have hv : OnEdge ring x.edgeOf v.2.p := by
    have hvm : v ∈ vs := by rw [e1]; simp
    have h1 : x.edgeOf ≤ v.1.index1 := by
      have := e4 v (by simp)
      rw [less_iff] at this
      simp only [entryOf, keyOf] at this
      rcases this with h | ⟨h, -⟩ <;> omega
    rcases List.mem_cons.1 hB with h' | h'
    · rw [← h']
      exact ⟨a, b, ha, hb, 1, by ring, by ring⟩
    · have := (List.pairwise_cons.1 (List.pairwise_append.1 hsort0).2.1).1 _ h'
      rw [less_iff] at this
      simp only at this
      rcases this with h'' | ⟨h'', h3⟩
      · exact hon v hvm (by omega)
      · exfalso
        rcases (h.mem v).1 hvm with he | ⟨y, hy, rfl⟩
        · obtain ⟨i, p, hp, rfl⟩ := entries_mem he
          simp only [lt_self_iff_false, true_and, false_or] at h3 h''
          simp only [Bool.false_eq_true, false_and, and_false, or_false] at h3
          omega
        · have := along_pos hs (h.known y hy)
          simp only [entryOf, keyOf] at h3
          rcases h3 with h3 | ⟨h3, -⟩ <;> linarith
  refine ⟨by rw [e2]; exact hsort, fun e => ?_, fun y hy => ?_, ?_, ?_⟩
  · rw [e2]
    constructor
    · intro he
      rcases List.mem_append.1 he with he | he
      · rcases (h.mem e).1 (by rw [e1]; exact List.mem_append_left _ he) with h' | ⟨y, hy, h'⟩
        · exact Or.inl h'
        · exact Or.inr ⟨y, List.mem_cons_of_mem _ hy, h'⟩
      · rcases List.mem_cons.1 he with rfl | he
        · exact Or.inr ⟨(x, r), List.mem_cons_self, rfl⟩
        · rcases (h.mem e).1 (by rw [e1]; exact List.mem_append_right _ he) with h' | ⟨y, hy, h'⟩
          · exact Or.inl h'
          · exact Or.inr ⟨y, List.mem_cons_of_mem _ hy, h'⟩
    · intro he
      have : e = entryOf ring x r ∨ e ∈ vs := by
        rcases he with he | ⟨y, hy, he⟩
        · exact Or.inr ((h.mem e).2 (Or.inl he))
        · rcases List.mem_cons.1 hy with rfl | hy
          · exact Or.inl he
          · exact Or.inr ((h.mem e).2 (Or.inr ⟨y, hy, he⟩))
      rcases this with rfl | he
      · simp
      · rw [e1] at he
        rcases List.mem_append.1 he with he | he
        · exact List.mem_append_left _ he
        · exact List.mem_append_right _ (List.mem_cons_of_mem _ he)
  · rcases List.mem_cons.1 hy with rfl | hy
    · exact hx
    · exact h.known y hy
  · intro f hf
    rw [← h.sum f hf, e2, e1]
    simp only [List.map_append, List.map_cons, List.map_nil]
    have hg := edge_insert hf hu hv (onEdge hs hx)
    have hp : (entryOf ring x r).2.p = x.1.p := entryOf_p ring x r
    rw [total_glue f (l := l.map (fun e => e.2.p) ++ [u.2.p]) (x := u.2.p) (y := (entryOf ring x r).2.p) (by simp) (by simp),
      total_glue f (l := l.map (fun e => e.2.p) ++ [u.2.p]) (x := u.2.p) (y := v.2.p) (by simp) (by simp),
      total_cons_cons, hp, hg]
    ring
  · have := h.length
    rw [e1] at this
    rw [e2]
    simp only [List.length_append, List.length_cons, List.length_nil] at this ⊢
    omega

end RgbdSlam.PolygonRepair
