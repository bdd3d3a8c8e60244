import Mathlib.Algebra.BigOperators.Group.List.Basic
import Verif.Lemmas.PolygonWalk2
/- All the loops of an outline whose crossings are all kept. -/
namespace RgbdSlam.PolygonRepair

open Spec

/-- The pieces that are made of some loops: the loops without area are left out. -/
def piecesOf (loops : List (List Pt)) : List (List Pt × ℚ) :=
  (loops.filter fun r => decide (area r ≠ 0)).map fun r => (r, area r)

theorem piecesOf_push (loops : List (List Pt)) (r : List Pt) :
    pushRing (piecesOf loops) r = piecesOf (loops ++ [r]) := by
  unfold pushRing piecesOf
  rw [List.filter_append, List.map_append]
  by_cases h : area r = 0
  · simp [h]
  · rw [if_pos (abs_pos.2 h)]
    simp [h]

/-- The sum along a walk. -/
theorem total_range (g : Pt → Pt → ℚ) (f : ℕ → Pt) (n : ℕ) :
    total g ((List.range (n + 1)).map f) = ((List.range n).map fun b => g (f b) (f (b + 1))).sum := by
  induction n with
  | zero => simp [total]
  | succ n ih =>
    rw [List.range_succ (n := n + 1), List.map_append, List.map_singleton,
      total_glue g (x := f n) (y := f (n + 1)) (by rw [List.range_succ]; simp) rfl, ih, List.range_succ (n := n)]
    simp [total]

section

variable {ring : List Pt} {turns : List Turn} {t : Table} (hs : Simple ring turns) (hf : Full ring turns t)
include hs hf

omit hs in
theorem start_entry {k : Key} (hk : k ∈ t.starts) :
    ∃ x : Passage, x.1 ∈ turns ∧ find k t.vertices = some (entryOf ring x false) ∧ k = (entryOf ring x false).1 := by
  obtain ⟨x, hx, rfl⟩ := (hf.starts k).1 hk
  exact ⟨x, hx, find_mem hf.sorted (e := entryOf ring x false) (passage_mem hf hx false), rfl⟩

variable (hnr : ∀ (x : Passage) (m : ℕ), x.1 ∈ turns → (stepD t)^[m] (entryOf ring x false) ≠ entryOf ring x.other false)

include hnr in
/-- One loop. -/
theorem follow_start {x : Passage} (hx : x.1 ∈ turns) (inner : ℕ) (hinner : t.vertices.length + 1 ≤ inner)
    (keys : List Key) (pieces : List (List Pt × ℚ)) :
    ∃ n w, 0 < n ∧ (stepD t)^[n] (entryOf ring x false) = entryOf ring x false ∧
      (∀ a b, a < n → b < n → (stepD t)^[a] (entryOf ring x false) = (stepD t)^[b] (entryOf ring x false) → a = b) ∧
      follow t inner (entryOf ring x false)
        { ring := [], starts := [(x.1.p, 0)], startKeys := keys, pieces := pieces } = .ok w ∧
      w.pieces = pieces ∧ Closed w.ring ∧
      (∀ f, Measure f → total f w.ring = ((List.range n).map fun b => f ((stepD t)^[b] (entryOf ring x false)).2.p
        ((stepD t)^[b + 1] (entryOf ring x false)).2.p).sum) ∧
      ∀ k, k ∈ w.startKeys ↔ k ∈ keys ∧ ∀ c < n, k ≠ ((stepD t)^[c] (entryOf ring x false)).1 := by
  obtain ⟨n, hn, hper, hinj⟩ := period hs hf (passage_mem hf hx false)
  have hstep0 := step_leaves hs hf hx
  have hn2 : 2 ≤ n := by
    rcases Nat.lt_or_ge n 2 with h | h
    · obtain rfl : n = 1 := by omega
      rw [Function.iterate_one] at hper
      rw [hper, entryOf_p] at hstep0
      exact absurd rfl hstep0
    · exact h
  have hlen : n ≤ t.vertices.length := by
    have hnd : ((List.range n).map fun b => (stepD t)^[b] (entryOf ring x false)).Nodup := by
      refine (List.nodup_map_iff_inj_on List.nodup_range).2 fun a ha b hb h => ?_
      exact hinj a b (List.mem_range.1 ha) (List.mem_range.1 hb) h
    have := (hnd.subperm (l₂ := t.vertices) (by
      intro e he
      obtain ⟨b, -, rfl⟩ := List.mem_map.1 he
      exact iterate_mem hf (passage_mem hf hx false) b)).length_le
    simpa using this
  obtain ⟨inner, rfl⟩ : ∃ i, inner = i + 1 := ⟨inner - 1, by omega⟩
  have hstart : (entryOf ring x false).1 ∈ t.starts := (hf.starts _).2 ⟨x, hx, rfl⟩
  obtain ⟨w, e1, e2, e3, e4⟩ := follow_orbit hs hf hnr hx hper hinj (n - 2) 1 le_rfl (by omega)
    { ring := [x.1.p], starts := [(x.1.p, 0), (x.1.p, 0)], startKeys := keys.filter fun k => !decide (k = (entryOf ring x false).1), pieces := pieces }
    (by simp [pushPoint, entryOf_p]) ⟨_, rfl⟩ (by
      intro s hsm
      have : s = (x.1.p, 0) := by simpa using hsm
      subst this
      exact ⟨0, by omega, x, hx, rfl, rfl⟩) inner (by omega)
  have hlast : (stepD t)^[n - 1] (entryOf ring x false) = entryOf ring x.other true := by
    refine step_inj hs hf (iterate_mem hf (passage_mem hf hx false) _) (passage_mem hf (x := x.other) hx true) ?_
    rw [← Function.iterate_succ_apply' (stepD t), show (n - 1).succ = n by omega, hper]
    have h2 := step_eq hf (passage_mem hf (x := x.other) hx true)
    rw [step_jump hf (x := x.other) hx, other_other] at h2
    exact Option.some.inj h2
  have hhead : w.ring.head? = some x.1.p := by
    rw [e2]
    obtain ⟨m, rfl⟩ : ∃ m, n = m + 1 := ⟨n - 1, by omega⟩
    rw [List.range_succ_eq_map, List.map_cons, List.foldl_cons]
    refine head_foldl_pushPoint _ _ ?_
    simp [pushPoint, entryOf_p]
  have hend : w.ring.getLast? = some x.1.p := by
    rw [e2]
    obtain ⟨m, rfl⟩ : ∃ m, n = m + 1 := ⟨n - 1, by omega⟩
    rw [List.range_succ, List.map_append, List.foldl_append, List.map_singleton, List.foldl_cons, List.foldl_nil,
      pushPoint_last]
    rw [Nat.add_sub_cancel] at hlast
    rw [hlast, entryOf_p]
    rfl
  have hclosed : Closed w.ring := ⟨(by rintro h; rw [h] at hhead; cases hhead), hhead.trans hend.symm⟩
  refine ⟨n, w, hn, hper, hinj, ?_, e3, hclosed, ?_, fun k => ?_⟩
  · rw [follow]
    have hst := step_eq hf (passage_mem hf hx false)
    rw [step] at hst
    have hring : pushPoint [] (entryOf ring x false).2.p = [x.1.p] := by simp [pushPoint, entryOf_p]
    simp only [hst, hring, if_pos hstart]
    have hc : isClosed x.1.p true [x.1.p] pieces [(x.1.p, 0), (x.1.p, 0)] = .ok (false, [x.1.p], pieces) := by
      simp [isClosed]
    simp only [List.getLast?_singleton, List.length_singleton, entryOf_p, List.singleton_append, Nat.sub_self]
    rw [hc, Outcome.bind_ok]
    simp only [Bool.false_eq_true, if_false]
    exact e1
  · intro f hm
    rw [e2, total_foldl hm, List.nil_append]
    obtain ⟨m, rfl⟩ : ∃ m, n = m + 1 := ⟨n - 1, by omega⟩
    rw [total_range f fun b => ((stepD t)^[b] (entryOf ring x false)).2.p, List.range_succ, List.map_append, List.sum_append]
    rw [Nat.add_sub_cancel] at hlast
    have h0 : f ((stepD t)^[m] (entryOf ring x false)).2.p ((stepD t)^[m + 1] (entryOf ring x false)).2.p = 0 := by
      rw [hper, hlast, entryOf_p, entryOf_p]
      exact hm.self _
    rw [List.map_singleton, List.sum_singleton, h0, add_zero]
  · rw [e4]
    simp only [List.mem_filter, Bool.not_eq_true', decide_eq_false_iff_not, and_assoc]
    refine and_congr Iff.rfl ⟨?_, ?_⟩
    · rintro ⟨h1, h2⟩ c hc
      rcases Nat.eq_zero_or_pos c with rfl | h
      · exact h1
      · exact h2 c h hc
    · intro h
      exact ⟨h 0 hn, fun c _ hc => h c hc⟩

omit hs in
/-- When all the crossings have been met, everything has been met. -/
theorem all_visited (hne : turns ≠ []) {D : List (Key × Vertex)} (hstep : ∀ e ∈ D, stepD t e ∈ D)
    (hstart : ∀ x : Passage, x.1 ∈ turns → entryOf ring x false ∈ D) {e : Key × Vertex} (he : e ∈ t.vertices) : e ∈ D := by
  obtain ⟨u, hu⟩ := List.exists_mem_of_ne_nil _ hne
  obtain ⟨m0, hm0⟩ := List.mem_iff_getElem?.1 (passage_mem hf (x := (u, false)) hu false)
  have hlen0 := (List.getElem?_eq_some_iff.1 hm0).1
  have hsucc : ∀ m f g, t.vertices[m]? = some f → f ∈ D →
      ((m + 1 < t.vertices.length ∧ t.vertices[m + 1]? = some g) ∨ (m + 1 = t.vertices.length ∧ t.vertices[0]? = some g)) →
      g ∈ D := by
    intro m f g hm hfD hg
    have plain : f.1.reroute = false → g ∈ D := by
      intro hr
      have h1 := step_eq hf (List.mem_of_getElem? hm)
      have : stepD t f = g := by
        rcases step_plain hf hr hm with ⟨a1, a2⟩ | ⟨a1, a2⟩ <;> rcases hg with ⟨b1, b2⟩ | ⟨b1, b2⟩
        · rw [a2, b2] at h1; exact (Option.some.inj h1).symm
        · omega
        · omega
        · rw [a2, b2] at h1; exact (Option.some.inj h1).symm
      rw [← this]
      exact hstep f hfD
    rcases entry_cases hf (List.mem_of_getElem? hm) with h | ⟨x, r, hx, rfl⟩
    · exact plain h.1
    · cases r
      · exact plain rfl
      · have htw := twin hf hx hm
        have hl := (List.getElem?_eq_some_iff.1 htw).1
        rcases hg with ⟨b1, b2⟩ | ⟨b1, b2⟩
        · rw [htw] at b2
          rw [← Option.some.inj b2]
          exact hstart x hx
        · omega
  have hup : ∀ d m f, m = m0 + d → t.vertices[m]? = some f → f ∈ D := by
    intro d
    induction d with
    | zero =>
      rintro m f rfl hm
      rw [hm0] at hm
      rw [← Option.some.inj hm]
      exact hstart _ hu
    | succ d ih =>
      rintro m f rfl hm
      have hl := (List.getElem?_eq_some_iff.1 hm).1
      have hg : t.vertices[m0 + d]? = some t.vertices[m0 + d] := List.getElem?_eq_getElem (by omega)
      exact hsucc _ _ f hg (ih _ _ rfl hg) (Or.inl ⟨by omega, hm⟩)
  have hfrom0 : ∀ (m : ℕ) f, t.vertices[m]? = some f → f ∈ D := by
    intro m
    induction m with
    | zero =>
      intro f hm
      have hl : t.vertices.length - 1 < t.vertices.length := by omega
      have hg : t.vertices[t.vertices.length - 1]? = some t.vertices[t.vertices.length - 1] := List.getElem?_eq_getElem hl
      exact hsucc _ _ f hg (hup (t.vertices.length - 1 - m0) _ _ (by omega) hg) (Or.inr ⟨by omega, hm⟩)
    | succ m ih =>
      intro f hm
      have hl := (List.getElem?_eq_some_iff.1 hm).1
      have hg : t.vertices[m]? = some t.vertices[m] := List.getElem?_eq_getElem (by omega)
      exact hsucc _ _ f hg (ih _ hg) (Or.inl ⟨hl, hm⟩)
  obtain ⟨m, hm⟩ := List.mem_iff_getElem?.1 he
  exact hfrom0 m e hm

omit hs in
/-- The steps add up to the whole outline. -/
theorem sum_steps (hclosed : Closed (t.vertices.map fun e => e.2.p))
    {f : Pt → Pt → ℚ} (hm : Measure f) : (t.vertices.map fun e => f e.2.p (stepD t e).2.p).sum = total f ring := by
  rw [← hf.sum f hm]
  -- the point after an entry
  have hnext : ∀ m e g, t.vertices[m]? = some e →
      ((m + 1 < t.vertices.length ∧ t.vertices[m + 1]? = some g) ∨ (m + 1 = t.vertices.length ∧ t.vertices[0]? = some g)) →
      (stepD t e).2.p = g.2.p := by
    intro m e g hm hg
    have h1 := step_eq hf (List.mem_of_getElem? hm)
    have plain : e.1.reroute = false → (stepD t e).2.p = g.2.p := by
      intro hr
      have : stepD t e = g := by
        rcases step_plain hf hr hm with ⟨a1, a2⟩ | ⟨a1, a2⟩ <;> rcases hg with ⟨b1, b2⟩ | ⟨b1, b2⟩
        · rw [a2, b2] at h1; exact (Option.some.inj h1).symm
        · omega
        · omega
        · rw [a2, b2] at h1; exact (Option.some.inj h1).symm
      rw [this]
    rcases entry_cases hf (List.mem_of_getElem? hm) with h | ⟨x, r, hx, rfl⟩
    · exact plain h.1
    · cases r
      · exact plain rfl
      · have htw := twin hf hx hm
        have hl := (List.getElem?_eq_some_iff.1 htw).1
        rw [step_jump hf hx] at h1
        rw [← Option.some.inj h1, entryOf_p]
        rcases hg with ⟨b1, b2⟩ | ⟨b1, b2⟩
        · rw [htw] at b2
          rw [← Option.some.inj b2, entryOf_p]
          rfl
        · omega
  generalize t.vertices = vs at *
  have key : ∀ (l pre : List (Key × Vertex)) (e : Key × Vertex), vs = pre ++ e :: l →
      ((e :: l).map fun e => f e.2.p (stepD t e).2.p).sum = total f ((e :: l).map fun e => e.2.p) := by
    intro l
    induction l with
    | nil =>
      intro pre e he
      obtain ⟨g, h0⟩ : ∃ g, vs.head? = some g := ⟨_, List.head?_eq_some_head (by simp [he])⟩
      have hp := hnext pre.length e g (by simp [he]) (Or.inr ⟨by simp [he], by rw [← h0, List.head?_eq_getElem?]⟩)
      have hc := hclosed.2
      rw [List.head?_map, h0, he, List.map_append, List.getLast?_append] at hc
      simp only [Option.map_some, List.map_cons, List.map_nil, List.getLast?_singleton, Option.some_or] at hc
      simp only [List.map_cons, List.map_nil, List.sum_cons, List.sum_nil, total]
      rw [hp, Option.some.inj hc, hm.self, zero_add]
    | cons e' l ih =>
      intro pre e he
      have hp := hnext pre.length e e' (by simp [he]) (Or.inl ⟨by simp [he], by simp [he]⟩)
      have := ih (pre ++ [e]) e' (by simp [he])
      rw [List.map_cons, List.sum_cons, this, hp]
      rfl
  cases vs with
  | nil => rfl
  | cons e l => exact key l [] e rfl

include hnr in
theorem generate_all (hne : turns ≠ []) (hclosed : Closed (t.vertices.map fun e => e.2.p)) (inner : ℕ)
    (hinner : t.vertices.length + 1 ≤ inner) (fuel : ℕ) (keys : List Key) (loops : List (List Pt))
    (D : List (Key × Vertex)) (hD : D.Nodup) (hDm : ∀ e ∈ D, e ∈ t.vertices) (hDs : ∀ e ∈ D, stepD t e ∈ D)
    (hkeys : ∀ k, k ∈ keys ↔ k ∈ t.starts ∧ ∀ e ∈ D, e.1 ≠ k) (hgood : ∀ r ∈ loops, Closed r)
    (hsum : ∀ f, Measure f → (loops.map (total f)).sum = (D.map fun e => f e.2.p (stepD t e).2.p).sum)
    (hfuel : t.vertices.length ≤ fuel + D.length) :
    ∃ out, generate t inner fuel keys (piecesOf loops) = .ok (piecesOf out) ∧ (∀ r ∈ out, Closed r) ∧
      ∀ f, Measure f → (out.map (total f)).sum = total f ring := by
  induction fuel generalizing keys loops D with
  | zero =>
    cases keys with
    | nil =>
      refine ⟨loops, by rw [generate], hgood, fun f hm => ?_⟩
      have hall : ∀ e ∈ t.vertices, e ∈ D := fun e he => all_visited hf hne hDs (fun x hx => by
        by_contra hnot
        have : (entryOf ring x false).1 ∈ ([] : List Key) := (hkeys _).2 ⟨(hf.starts _).2 ⟨x, hx, rfl⟩, by
          intro f hfD hk
          have h1 := find_mem hf.sorted (hDm f hfD)
          have h2 := find_mem hf.sorted (passage_mem hf hx false)
          rw [hk, h2] at h1
          exact hnot (by rw [Option.some.inj h1]; exact hfD)⟩
        cases this) he
      have hperm : D.Perm t.vertices := (List.perm_ext_iff_of_nodup hD hf.sorted.nodup.of_map).2 fun e => ⟨hDm e, hall e⟩
      rw [hsum f hm, (hperm.map _).sum_eq, sum_steps hf hclosed hm]
    | cons k keys =>
      exfalso
      obtain ⟨hk, hkD⟩ := (hkeys k).1 List.mem_cons_self
      obtain ⟨x, hx, -, rfl⟩ := start_entry hf hk
      have hx' := passage_mem hf hx false
      have hnd : (entryOf ring x false :: D).Nodup := List.nodup_cons.2 ⟨fun h => hkD _ h rfl, hD⟩
      have := (hnd.subperm (l₂ := t.vertices) (by
        intro e he
        rcases List.mem_cons.1 he with rfl | he
        · exact hx'
        · exact hDm e he)).length_le
      simp only [List.length_cons] at this
      omega
  | succ fuel ih =>
    cases keys with
    | nil =>
      refine ⟨loops, by rw [generate], hgood, fun f hm => ?_⟩
      have hall : ∀ e ∈ t.vertices, e ∈ D := fun e he => all_visited hf hne hDs (fun x hx => by
        by_contra hnot
        have : (entryOf ring x false).1 ∈ ([] : List Key) := (hkeys _).2 ⟨(hf.starts _).2 ⟨x, hx, rfl⟩, by
          intro f hfD hk
          have h1 := find_mem hf.sorted (hDm f hfD)
          have h2 := find_mem hf.sorted (passage_mem hf hx false)
          rw [hk, h2] at h1
          exact hnot (by rw [Option.some.inj h1]; exact hfD)⟩
        cases this) he
      have hperm : D.Perm t.vertices := (List.perm_ext_iff_of_nodup hD hf.sorted.nodup.of_map).2 fun e => ⟨hDm e, hall e⟩
      rw [hsum f hm, (hperm.map _).sum_eq, sum_steps hf hclosed hm]
    | cons k keys =>
      obtain ⟨hk, hkD⟩ := (hkeys k).1 List.mem_cons_self
      obtain ⟨x, hx, hfind, hkx⟩ := start_entry hf hk
      obtain ⟨n, w, hn, hper, hinj, e1, e2, e3, e4, e5⟩ := follow_start hs hf hnr hx inner hinner (k :: keys) (piecesOf loops)
      have hx' := passage_mem hf hx false
      set O := (List.range n).map fun b => (stepD t)^[b] (entryOf ring x false) with hO
      have hOnd : O.Nodup := by
        refine (List.nodup_map_iff_inj_on List.nodup_range).2 fun a ha b hb h => ?_
        exact hinj a b (List.mem_range.1 ha) (List.mem_range.1 hb) h
      have hOm : ∀ e ∈ O, e ∈ t.vertices := by
        intro e he
        obtain ⟨b, -, rfl⟩ := List.mem_map.1 he
        exact iterate_mem hf hx' b
      have hdisj : ∀ b ≤ n, (stepD t)^[b] (entryOf ring x false) ∉ D := by
        intro b hb hbD
        have hfin : ∀ c, (stepD t)^[b + c] (entryOf ring x false) ∈ D := by
          intro c
          induction c with
          | zero => exact hbD
          | succ c ih => rw [← Nat.add_assoc, Function.iterate_succ_apply']; exact hDs _ ih
        have := hfin (n - b)
        rw [show b + (n - b) = n by omega, hper] at this
        exact hkD _ this hkx.symm
      have hrec := ih w.startKeys (loops ++ [w.ring]) (D ++ O)
        (List.nodup_append'.2 ⟨hD, hOnd, by
          intro e heD heO
          obtain ⟨b, hb, rfl⟩ := List.mem_map.1 heO
          exact hdisj b (by have := List.mem_range.1 hb; omega) heD⟩)
        (by
          intro e he
          rcases List.mem_append.1 he with h | h
          · exact hDm e h
          · exact hOm e h)
        (by
          intro e he
          rcases List.mem_append.1 he with h | h
          · exact List.mem_append_left _ (hDs e h)
          · refine List.mem_append_right _ ?_
            obtain ⟨b, hb, rfl⟩ := List.mem_map.1 h
            have hb := List.mem_range.1 hb
            rw [← Function.iterate_succ_apply' (stepD t)]
            rcases Nat.lt_or_ge (b + 1) n with h' | h'
            · exact List.mem_map.2 ⟨b + 1, List.mem_range.2 h', rfl⟩
            · rw [show b.succ = n by omega, hper]
              exact List.mem_map.2 ⟨0, List.mem_range.2 hn, rfl⟩)
        (by
          intro k'
          rw [e5, hkeys]
          constructor
          · rintro ⟨⟨h1, h2⟩, h3⟩
            refine ⟨h1, fun e he => ?_⟩
            rcases List.mem_append.1 he with h | h
            · exact h2 e h
            · obtain ⟨b, hb, rfl⟩ := List.mem_map.1 h
              exact (h3 b (List.mem_range.1 hb)).symm
          · rintro ⟨h1, h2⟩
            refine ⟨⟨h1, fun e he => h2 e (List.mem_append_left _ he)⟩, fun c hc => ?_⟩
            exact (h2 _ (List.mem_append_right _ (List.mem_map.2 ⟨c, List.mem_range.2 hc, rfl⟩))).symm)
        (by
          intro r hr
          rcases List.mem_append.1 hr with h | h
          · exact hgood r h
          · rw [List.mem_singleton.1 h]
            exact e3)
        (by
          intro f hm
          rw [List.map_append, List.sum_append, hsum f hm, List.map_append, List.sum_append, List.map_singleton,
            List.sum_singleton, e4 f hm, hO, List.map_map]
          congr 2
          refine List.map_congr_left fun b _ => ?_
          simp only [Function.comp, Function.iterate_succ_apply'])
        (by simp [hO]; omega)
      obtain ⟨out, r1, r2, r3⟩ := hrec
      refine ⟨out, ?_, r2, r3⟩
      rw [generate, hfind]
      simp only [entryOf_p]
      rw [e1, Outcome.bind_ok, e2, piecesOf_push]
      exact r1

end

end RgbdSlam.PolygonRepair
