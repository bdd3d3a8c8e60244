import Mathlib.Dynamics.PeriodicPts.Defs
import Mathlib.Data.Fintype.Pigeonhole
import Mathlib.Data.Set.Finite.Basic
import Verif.Lemmas.PolygonTable2
/- The walk along an outline whose crossings are all kept. -/
namespace RgbdSlam.PolygonRepair

open Spec

/-- The entry that the walk goes to. -/
def step (t : Table) (e : Key × Vertex) : Option (Key × Vertex) :=
  if e.1.reroute then find e.2.link t.vertices else next t.vertices e.1

def stepD (t : Table) (e : Key × Vertex) : Key × Vertex := (step t e).getD e

theorem get_less {vs : List (Key × Vertex)} (h : Sorted vs) {m n : ℕ} {e f : Key × Vertex} (he : vs[m]? = some e)
    (hf : vs[n]? = some f) : e.1.less f.1 = true ↔ m < n := by
  obtain ⟨hm, rfl⟩ := List.getElem?_eq_some_iff.1 he
  obtain ⟨hn, rfl⟩ := List.getElem?_eq_some_iff.1 hf
  have key : ∀ {a b : ℕ} (ha : a < vs.length) (hb : b < vs.length), a < b → vs[a].1.less vs[b].1 = true :=
    fun ha hb hab => List.pairwise_iff_getElem.1 h _ _ ha hb hab
  refine ⟨fun hl => ?_, key hm hn⟩
  rcases lt_trichotomy m n with h' | h' | h'
  · exact h'
  · subst h'
    rw [less_irrefl] at hl
    cases hl
  · have := less_asymm (key hn hm h')
    rw [hl] at this
    cases this

theorem get_inj {vs : List (Key × Vertex)} (h : Sorted vs) {m n : ℕ} {e : Key × Vertex} (he : vs[m]? = some e)
    (hf : vs[n]? = some e) : m = n := by
  have h1 := get_less h he hf
  have h2 := get_less h hf he
  rw [less_irrefl] at h1 h2
  simp at h1 h2
  omega

theorem next_succ {vs : List (Key × Vertex)} (h : Sorted vs) {m : ℕ} {e f : Key × Vertex} (he : vs[m]? = some e)
    (hf : vs[m + 1]? = some f) : next vs e.1 = some f := by
  obtain ⟨hm, rfl⟩ := List.getElem?_eq_some_iff.1 he
  obtain ⟨hn, rfl⟩ := List.getElem?_eq_some_iff.1 hf
  refine next_mid (pre := vs.take m) (suf := vs.drop (m + 2)) ?_ ?_
  · rw [List.getElem_cons_drop hn, List.getElem_cons_drop hm, List.take_append_drop]
  · intro g hg hge
    obtain ⟨i, hi, rfl⟩ := List.getElem_of_mem hg
    rw [List.length_take] at hi
    rw [List.getElem_take] at hge
    have : vs[i].1.less vs[m].1 = true := List.pairwise_iff_getElem.1 h _ _ (by omega) hm (by omega)
    rw [hge, less_irrefl] at this
    cases this

theorem next_wrap {vs : List (Key × Vertex)} (h : Sorted vs) {e : Key × Vertex} (he : vs.getLast? = some e) :
    next vs e.1 = vs.head? := by
  obtain ⟨l, hl⟩ := List.getLast?_eq_some_iff.1 he
  refine next_last hl ?_
  intro g hg hge
  rw [hl] at h
  have : g.1.less e.1 = true := (List.pairwise_append.1 h).2.2 g hg e (by simp)
  rw [hge, less_irrefl] at this
  cases this

theorem find_mem {vs : List (Key × Vertex)} (h : Sorted vs) {e : Key × Vertex} (he : e ∈ vs) : find e.1 vs = some e := by
  obtain ⟨pre, suf, rfl⟩ := List.append_of_mem he
  refine find_mid ?_
  intro g hg hge
  have : g.1.less e.1 = true := (List.pairwise_append.1 h).2.2 g hg e (by simp)
  rw [hge, less_irrefl] at this
  cases this

section

variable {ring : List Pt} {turns : List Turn} {t : Table} (hs : Simple ring turns) (hf : Full ring turns t)
include hs hf

omit hs in
theorem passage_mem {x : Passage} (hx : x.1 ∈ turns) (r : Bool) : entryOf ring x r ∈ t.vertices :=
  (hf.mem _).2 (Or.inr ⟨x, r, hx, rfl⟩)

omit hs in
theorem entry_cases {e : Key × Vertex} (he : e ∈ t.vertices) :
    (e.1.reroute = false ∧ e.1.scale = 0 ∧ e.1.index2 = e.1.index1 ∧ e.2.p ∈ ring) ∨ ∃ x : Passage, ∃ r, x.1 ∈ turns ∧ e = entryOf ring x r := by
  rcases (hf.mem e).1 he with h | h
  · have := mem_entries h
    exact Or.inl ⟨this.1, this.2.1, this.2.2.2.2.1, this.2.2.2.2.2⟩
  · exact Or.inr h

omit hf in
theorem entry_inj {x y : Passage} (hx : x.1 ∈ turns) (hy : y.1 ∈ turns) {r r' : Bool}
    (h : entryOf ring x r = entryOf ring y r') : x = y ∧ r = r' :=
  key_inj hs hx hy (congrArg Prod.fst h)

omit hs in
/-- The entry that jumps is just before the one that does not. -/
theorem twin {x : Passage} (hx : x.1 ∈ turns) {m : ℕ} (h : t.vertices[m]? = some (entryOf ring x true)) :
    t.vertices[m + 1]? = some (entryOf ring x false) := by
  obtain ⟨n, hn⟩ := List.mem_iff_getElem?.1 (passage_mem hf hx false)
  have hlt : m < n := (get_less hf.sorted h hn).1 (by rw [less_iff]; simp [entryOf, keyOf])
  rcases Nat.lt_or_ge (m + 1) n with h' | h'
  · exfalso
    have hlen := (List.getElem?_eq_some_iff.1 hn).1
    have hg : t.vertices[m + 1]? = some t.vertices[m + 1] := List.getElem?_eq_getElem (by omega)
    have l1 := (get_less hf.sorted h hg).2 (by omega)
    have l2 := (get_less hf.sorted hg hn).2 h'
    rw [less_iff] at l1 l2
    simp only [entryOf, keyOf] at l1 l2
    rcases l1 with l1 | ⟨a1, l1⟩ <;> rcases l2 with l2 | ⟨b1, l2⟩
    · omega
    · omega
    · omega
    rcases l1 with l1 | ⟨a2, l1⟩ <;> rcases l2 with l2 | ⟨b2, l2⟩
    · linarith
    · linarith
    · linarith
    rcases l1 with l1 | ⟨a3, l1⟩ <;> rcases l2 with l2 | ⟨b3, l2⟩
    · omega
    · omega
    · omega
    · rw [l1.2] at l2; cases l2.1
  · rw [show m + 1 = n by omega]
    exact hn

omit hs in
theorem step_jump {x : Passage} (hx : x.1 ∈ turns) :
    step t (entryOf ring x true) = some (entryOf ring x.other false) := by
  unfold step
  have : (entryOf ring x true).1.reroute = true := rfl
  rw [if_pos this]
  exact find_mem hf.sorted (passage_mem hf (x := x.other) hx false)

omit hs in
theorem step_plain {e : Key × Vertex} (hr : e.1.reroute = false) {m : ℕ} (he : t.vertices[m]? = some e) :
    (m + 1 < t.vertices.length ∧ step t e = t.vertices[m + 1]?) ∨
      (m + 1 = t.vertices.length ∧ step t e = t.vertices[0]?) := by
  unfold step
  rw [if_neg (by simp [hr])]
  have hm := (List.getElem?_eq_some_iff.1 he).1
  rcases Nat.lt_or_ge (m + 1) t.vertices.length with h | h
  · refine Or.inl ⟨h, ?_⟩
    have hg : t.vertices[m + 1]? = some t.vertices[m + 1] := List.getElem?_eq_getElem h
    rw [next_succ hf.sorted he hg, hg]
  · refine Or.inr ⟨by omega, ?_⟩
    rw [next_wrap hf.sorted (by rw [List.getLast?_eq_getElem?, ← he]; congr 1; omega), List.head?_eq_getElem?]

omit hs in
theorem step_some {e : Key × Vertex} (he : e ∈ t.vertices) : ∃ f ∈ t.vertices, step t e = some f := by
  obtain ⟨m, hm⟩ := List.mem_iff_getElem?.1 he
  have plain : e.1.reroute = false → ∃ f ∈ t.vertices, step t e = some f := by
    intro hr
    have hlen := (List.getElem?_eq_some_iff.1 hm).1
    rcases step_plain hf hr hm with ⟨h1, h2⟩ | ⟨h1, h2⟩
    · exact ⟨t.vertices[m + 1], List.getElem_mem _, by rw [h2, List.getElem?_eq_getElem]⟩
    · exact ⟨t.vertices[0], List.getElem_mem _, by rw [h2, List.getElem?_eq_getElem]⟩
  rcases entry_cases hf he with h | ⟨x, r, hx, rfl⟩
  · exact plain h.1
  · cases r
    · exact plain rfl
    · exact ⟨_, passage_mem hf (x := x.other) hx false, step_jump hf hx⟩

omit hs in
theorem stepD_mem {e : Key × Vertex} (he : e ∈ t.vertices) : stepD t e ∈ t.vertices := by
  obtain ⟨f, hfm, h⟩ := step_some hf he
  unfold stepD
  rw [h]
  exact hfm

omit hs in
theorem step_eq {e : Key × Vertex} (he : e ∈ t.vertices) : step t e = some (stepD t e) := by
  obtain ⟨f, hfm, h⟩ := step_some hf he
  unfold stepD
  rw [h]
  rfl

omit hs in
theorem step_inj_aux {e f : Key × Vertex} (he : e ∈ t.vertices) {x : Passage} (hx : x.1 ∈ turns)
    (hfe : f = entryOf ring x true) (hr : e.1.reroute = false) : stepD t e ≠ stepD t f := by
  subst hfe
  intro h
  have h1 := step_eq hf he
  have h2 := step_eq hf (passage_mem hf hx true)
  rw [step_jump hf hx] at h2
  rw [h, ← h2] at h1
  obtain ⟨n, hn⟩ := List.mem_iff_getElem?.1 (passage_mem hf (x := x.other) hx true)
  have hn1 := twin hf (x := x.other) hx hn
  obtain ⟨m, hm⟩ := List.mem_iff_getElem?.1 he
  have hlen := (List.getElem?_eq_some_iff.1 hm).1
  rcases step_plain hf hr hm with ⟨g1, g2⟩ | ⟨g1, g2⟩
  · rw [g2] at h1
    have := get_inj hf.sorted h1 hn1
    obtain rfl : m = n := by omega
    rw [hm] at hn
    rw [Option.some.inj hn] at hr
    cases hr
  · rw [g2] at h1
    have := get_inj hf.sorted h1 hn1
    omega

theorem step_inj {e f : Key × Vertex} (he : e ∈ t.vertices) (hf' : f ∈ t.vertices) (h : stepD t e = stepD t f) : e = f := by
  have plain : e.1.reroute = false → f.1.reroute = false → e = f := by
    intro hr hr'
    obtain ⟨m, hm⟩ := List.mem_iff_getElem?.1 he
    obtain ⟨n, hn⟩ := List.mem_iff_getElem?.1 hf'
    have lm := (List.getElem?_eq_some_iff.1 hm).1
    have ln := (List.getElem?_eq_some_iff.1 hn).1
    have h1 := step_eq hf he
    have h2 := step_eq hf hf'
    rw [← h] at h2
    have hmn : m = n := by
      rcases step_plain hf hr hm with ⟨g1, g2⟩ | ⟨g1, g2⟩ <;> rcases step_plain hf hr' hn with ⟨k1, k2⟩ | ⟨k1, k2⟩
      · rw [g2] at h1; rw [k2] at h2
        have := get_inj hf.sorted h1 h2
        omega
      · rw [g2] at h1; rw [k2] at h2
        have := get_inj hf.sorted h1 h2
        omega
      · rw [g2] at h1; rw [k2] at h2
        have := get_inj hf.sorted h1 h2
        omega
      · omega
    subst hmn
    rw [hm] at hn
    exact Option.some.inj hn
  rcases entry_cases hf he with h1 | ⟨x, r, hx, rfl⟩ <;> rcases entry_cases hf hf' with h2 | ⟨y, r', hy, rfl⟩
  · exact plain h1.1 h2.1
  · cases r'
    · exact plain h1.1 rfl
    · exact absurd h (step_inj_aux hf he hy rfl h1.1)
  · cases r
    · exact plain rfl h2.1
    · exact absurd h.symm (step_inj_aux hf hf' hx rfl h2.1)
  · cases r <;> cases r'
    · exact plain rfl rfl
    · exact absurd h (step_inj_aux hf he hy rfl rfl)
    · exact absurd h.symm (step_inj_aux hf hf' hx rfl rfl)
    · have h1 := step_eq hf he
      have h2 := step_eq hf hf'
      rw [step_jump hf hx] at h1
      rw [step_jump hf hy, ← h, ← h1] at h2
      have := (entry_inj hs (x := y.other) (y := x.other) hy hx (Option.some.inj h2)).1
      have hxy : y = x := by rw [← other_other y, this, other_other]
      rw [hxy]

omit hs in
theorem iterate_mem {e : Key × Vertex} (he : e ∈ t.vertices) (n : ℕ) : (stepD t)^[n] e ∈ t.vertices := by
  induction n with
  | zero => exact he
  | succ n ih => rw [Function.iterate_succ_apply']; exact stepD_mem hf ih

/-- The walk comes back to where it started. -/
theorem period {e : Key × Vertex} (he : e ∈ t.vertices) :
    ∃ n, 0 < n ∧ (stepD t)^[n] e = e ∧ ∀ a b, a < n → b < n → (stepD t)^[a] e = (stepD t)^[b] e → a = b := by
  let T := {e // e ∈ t.vertices}
  have : Finite T := t.vertices.finite_toSet
  let F : T → T := fun e => ⟨stepD t e.1, stepD_mem hf e.2⟩
  have hF : Function.Injective F := fun a b h => Subtype.ext (step_inj hs hf a.2 b.2 (congrArg Subtype.val h))
  have hit : ∀ (n : ℕ) (x : T), (F^[n] x).1 = (stepD t)^[n] x.1 := by
    intro n x
    induction n with
    | zero => rfl
    | succ n ih => rw [Function.iterate_succ_apply', Function.iterate_succ_apply', ← ih]
  let k : T := ⟨e, he⟩
  have hper : k ∈ Function.periodicPts F := by
    obtain ⟨a, b, hab, h⟩ := Finite.exists_ne_map_eq_of_infinite (fun n : ℕ => F^[n] k)
    wlog hlt : a < b generalizing a b
    · exact this b a hab.symm h.symm (by omega)
    refine ⟨b - a, by omega, ?_⟩
    have h' : F^[a] (F^[b - a] k) = F^[a] k := by
      rw [← Function.iterate_add_apply, show a + (b - a) = b by omega]
      exact h.symm
    exact hF.iterate a h'
  refine ⟨Function.minimalPeriod F k, Function.minimalPeriod_pos_of_mem_periodicPts hper, ?_, ?_⟩
  · have : F^[Function.minimalPeriod F k] k = k := Function.iterate_minimalPeriod
    rw [← hit _ k, this]
  · intro a b ha hb h
    refine Function.iterate_injOn_Iio_minimalPeriod (f := F) (x := k) ha hb ?_
    simp only
    exact Subtype.ext (by rw [hit, hit]; exact h)

end

end RgbdSlam.PolygonRepair
