import Verif.Lemmas.PolygonWalk
/- The loops of an outline whose crossings are all kept. -/
namespace RgbdSlam.PolygonRepair

open Spec

theorem isClosed_miss' {p : Pt} {ring : List Pt} {pieces : List (List Pt × ℚ)} {l : List (Pt × ℕ)}
    (h : ∀ s ∈ l, s.1 ≠ p ∨ ring.length ≤ s.2 + 1) : isClosed p true ring pieces l = .ok (false, ring, pieces) := by
  induction l with
  | nil => rfl
  | cons s l ih =>
    unfold isClosed
    have := ih fun s hs => h s (List.mem_cons_of_mem _ hs)
    rcases h s List.mem_cons_self with h1 | h1
    · have h2 : ¬ dist2 s.1 p = 0 := by rw [dist2_eq_zero]; exact h1
      simp [h2, this]
    · rw [if_neg (by omega), this]

theorem total_foldl {f : Pt → Pt → ℚ} (hf : Measure f) (l r : List Pt) :
    total f (l.foldl pushPoint r) = total f (r ++ l) := by
  induction l generalizing r with
  | nil => simp
  | cons x l ih =>
    rw [List.foldl_cons, ih]
    unfold pushPoint
    split
    · simp
    · rename_i q hq
      split_ifs with h
      · simp
      · rw [dist2_pos, not_not] at h
        subst h
        obtain ⟨r0, rfl⟩ := List.getLast?_eq_some_iff.1 hq
        have h1 : total f (q :: q :: l) = total f (q :: l) := by
          rw [total_cons_cons, hf.self, zero_add]
        rw [List.append_assoc, List.singleton_append, List.append_assoc, List.singleton_append, total_join f r0 l q,
          total_join f r0 (q :: l) q, h1]

theorem mem_foldl_pushPoint (l r : List Pt) {p : Pt} (h : p ∈ r ∨ p ∈ l) : p ∈ l.foldl pushPoint r := by
  induction l generalizing r with
  | nil => simpa using h
  | cons x l ih =>
    rw [List.foldl_cons]
    refine ih _ ?_
    have hx : x ∈ pushPoint r x := List.mem_of_getLast? (pushPoint_last r x)
    rcases h with h | h
    · left
      unfold pushPoint
      split
      · exact List.mem_append_left _ h
      · split_ifs
        · exact List.mem_append_left _ h
        · exact h
    · rcases List.mem_cons.1 h with rfl | h
      · exact Or.inl hx
      · exact Or.inr h

theorem head_foldl_pushPoint (l r : List Pt) {p : Pt} (h : r.head? = some p) : (l.foldl pushPoint r).head? = some p := by
  induction l generalizing r with
  | nil => exact h
  | cons x l ih =>
    rw [List.foldl_cons]
    refine ih _ ?_
    obtain ⟨m, rfl⟩ := List.head?_eq_some_iff.1 h
    unfold pushPoint
    split
    · simp
    · split_ifs <;> simp

section

variable {ring : List Pt} {turns : List Turn} {t : Table} (hs : Simple ring turns) (hf : Full ring turns t)
include hs hf

/-- What comes after a crossing is not this crossing. -/
theorem step_leaves {x : Passage} (hx : x.1 ∈ turns) : (stepD t (entryOf ring x false)).2.p ≠ x.1.p := by
  obtain ⟨m, hm⟩ := List.mem_iff_getElem?.1 (passage_mem hf hx false)
  obtain ⟨a, b, ha, hb, -⟩ := passage_between hs hx
  have hB : ((⟨x.edgeOf + 1, 0, x.edgeOf + 1, false⟩ : Key), ({ p := b } : Vertex)) ∈ t.vertices :=
    (hf.mem _).2 (Or.inl (entries_get hb))
  obtain ⟨n, hn⟩ := List.mem_iff_getElem?.1 hB
  have hlt : m < n := (get_less hf.sorted hm hn).1 (by rw [less_iff]; exact Or.inl (Nat.lt_succ_self _))
  have hlen := (List.getElem?_eq_some_iff.1 hn).1
  have hstep := step_eq hf (passage_mem hf hx false)
  rcases step_plain hf (e := entryOf ring x false) rfl hm with ⟨g1, g2⟩ | ⟨g1, g2⟩
  swap
  · omega
  rw [g2] at hstep
  intro hp
  have hmem := List.mem_of_getElem? hstep
  rcases entry_cases hf hmem with h | ⟨y, r, hy, h⟩
  · rw [hp] at h
    exact hs.2.2 _ hx h.2.2.2
  · rw [h, entryOf_p] at hp
    have ht := turn_eq hs hy hx hp
    have hl := (get_less hf.sorted hm hstep).2 (by omega)
    rw [h] at hl hstep
    have hyx : y = x ∨ y = x.other := by
      obtain ⟨u, b⟩ := x
      obtain ⟨v, b'⟩ := y
      simp only at ht
      subst ht
      cases b <;> cases b' <;> simp [Passage.other]
    rcases hyx with rfl | rfl
    · rw [less_iff] at hl
      simp [entryOf, keyOf] at hl
    · -- there is a corner between the two edges
      rw [less_iff] at hl
      simp only [entryOf, keyOf] at hl
      have hne := edge_ne hs hx
      have hlt' : x.edgeOf < x.other.edgeOf := by omega
      have : n < m + 1 := by
        refine (get_less hf.sorted hn hstep).1 ?_
        rw [less_iff]
        simp only [entryOf, keyOf]
        rcases Nat.lt_or_ge (x.edgeOf + 1) x.other.edgeOf with h' | h'
        · exact Or.inl h'
        · exact Or.inr ⟨by omega, Or.inl (along_pos hs (x := x.other) hx)⟩
      omega

variable (hnr : ∀ (x : Passage) (m : ℕ), x.1 ∈ turns → (stepD t)^[m] (entryOf ring x false) ≠ entryOf ring x.other false)
include hnr

theorem visited_ne {x : Passage} (hx : x.1 ∈ turns) {n : ℕ}
    (hinj : ∀ a b, a < n → b < n → (stepD t)^[a] (entryOf ring x false) = (stepD t)^[b] (entryOf ring x false) → a = b)
    {a b : ℕ} (hba : b < a) (han : a + 1 < n) {y : Passage} (hy : y.1 ∈ turns)
    (hb : (stepD t)^[b] (entryOf ring x false) = entryOf ring y false) :
    ((stepD t)^[a] (entryOf ring x false)).2.p ≠ y.1.p := by
  intro hp
  have hmem := iterate_mem hf (passage_mem hf hx false) a
  have hab : ∀ d, (stepD t)^[b + d] (entryOf ring x false) = (stepD t)^[d] (entryOf ring y false) := by
    intro d
    rw [Nat.add_comm, Function.iterate_add_apply, hb]
  rcases entry_cases hf hmem with h | ⟨z, r, hz, h⟩
  · rw [hp] at h
    exact hs.2.2 _ hy h.2.2.2
  · rw [h, entryOf_p] at hp
    have ht := turn_eq hs hz hy hp
    have hzy : z = y ∨ z = y.other := by
      obtain ⟨u, b⟩ := y
      obtain ⟨v, b'⟩ := z
      simp only at ht
      subst ht
      cases b <;> cases b' <;> simp [Passage.other]
    have hsucc : r = true → (stepD t)^[a + 1] (entryOf ring x false) = entryOf ring z.other false := by
      rintro rfl
      rw [Function.iterate_succ_apply', h]
      have := step_eq hf (passage_mem hf hz true)
      rw [step_jump hf hz] at this
      exact (Option.some.inj this).symm
    cases r
    · rcases hzy with rfl | rfl
      · have := hinj a b (by omega) (by omega) (h.trans hb.symm)
        omega
      · refine hnr y (a - b) hy ?_
        rw [← hab, show b + (a - b) = a by omega]
        exact h
    · rcases hzy with rfl | rfl
      · refine hnr z (a + 1 - b) hz ?_
        rw [← hab, show b + (a + 1 - b) = a + 1 by omega]
        exact hsucc rfl
      · have h1 := hsucc rfl
        rw [other_other] at h1
        have := hinj (a + 1) b han (by omega) (h1.trans hb.symm)
        omega

theorem follow_orbit {x : Passage} (hx : x.1 ∈ turns) {n : ℕ}
    (hper : (stepD t)^[n] (entryOf ring x false) = entryOf ring x false)
    (hinj : ∀ a b, a < n → b < n → (stepD t)^[a] (entryOf ring x false) = (stepD t)^[b] (entryOf ring x false) → a = b)
    (d : ℕ) (a : ℕ) (ha : 1 ≤ a) (had : a + d + 1 = n) (w : Walk)
    (hring : w.ring = ((List.range a).map fun b => ((stepD t)^[b] (entryOf ring x false)).2.p).foldl pushPoint [])
    (hst : ∃ l, w.starts = (x.1.p, 0) :: l)
    (hst2 : ∀ s ∈ w.starts, ∃ b < a, ∃ y : Passage, y.1 ∈ turns ∧
      (stepD t)^[b] (entryOf ring x false) = entryOf ring y false ∧ s.1 = y.1.p) (fuel : ℕ) (hfuel : d + 1 ≤ fuel) :
    ∃ w', follow t fuel ((stepD t)^[a] (entryOf ring x false)) w = .ok w' ∧
      w'.ring = ((List.range n).map fun b => ((stepD t)^[b] (entryOf ring x false)).2.p).foldl pushPoint [] ∧
      w'.pieces = w.pieces ∧
      ∀ k, k ∈ w'.startKeys ↔ k ∈ w.startKeys ∧ ∀ c, a ≤ c → c < n → k ≠ ((stepD t)^[c] (entryOf ring x false)).1 := by
  set E : ℕ → Key × Vertex := fun b => (stepD t)^[b] (entryOf ring x false) with hE
  have hmem : ∀ b, E b ∈ t.vertices := fun b => iterate_mem hf (passage_mem hf hx false) b
  have hstep : ∀ b, step t (E b) = some (E (b + 1)) := by
    intro b
    rw [step_eq hf (hmem b)]
    simp only [hE, Function.iterate_succ_apply']
  have hringS : ∀ b, ((List.range (b + 1)).map fun b => (E b).2.p).foldl pushPoint [] =
      pushPoint (((List.range b).map fun b => (E b).2.p).foldl pushPoint []) (E b).2.p := by
    intro b
    rw [List.range_succ, List.map_append, List.foldl_append]
    rfl
  induction d generalizing a w fuel with
  | zero =>
    obtain ⟨fuel, rfl⟩ : ∃ f, fuel = f + 1 := ⟨fuel - 1, by omega⟩
    have han : a + 1 = n := by omega
    -- the last entry jumps to the first one
    have hlast : E a = entryOf ring x.other true := by
      refine step_inj hs hf (hmem a) (passage_mem hf (x := x.other) hx true) ?_
      have h1 : stepD t (E a) = entryOf ring x false := by
        rw [← hper, ← han, Function.iterate_succ_apply']
      have h2 := step_eq hf (passage_mem hf (x := x.other) hx true)
      rw [step_jump hf (x := x.other) hx, other_other] at h2
      rw [h1]
      exact Option.some.inj h2
    have hp : (E a).2.p = x.1.p := by rw [hlast, entryOf_p]; rfl
    have hns : (E a).1 ∉ t.starts := by
      intro h
      obtain ⟨y, hy, h⟩ := (hf.starts _).1 h
      rw [hlast] at h
      exact Bool.noConfusion (congrArg Key.reroute h)
    obtain ⟨l, hl⟩ := hst
    -- there is another point
    have h1 : (E 1).2.p ≠ x.1.p := step_leaves hs hf hx
    have ha1 : a ≠ 1 := by rintro rfl; exact h1 hp
    have hR := hringS a
    rw [← hring] at hR
    have hlen : 1 < (pushPoint w.ring (E a).2.p).length := by
      rw [← hR]
      have m1 : (E 1).2.p ∈ ((List.range (a + 1)).map fun b => (E b).2.p).foldl pushPoint [] :=
        mem_foldl_pushPoint _ _ (Or.inr (List.mem_map.2 ⟨1, by simp; omega, rfl⟩))
      have m2 : (E a).2.p ∈ ((List.range (a + 1)).map fun b => (E b).2.p).foldl pushPoint [] :=
        mem_foldl_pushPoint _ _ (Or.inr (List.mem_map.2 ⟨a, by simp, rfl⟩))
      match hq : ((List.range (a + 1)).map fun b => (E b).2.p).foldl pushPoint [] with
      | [] => rw [hq] at m1; cases m1
      | [q] =>
        rw [hq] at m1 m2
        simp only [List.mem_singleton] at m1 m2
        exact absurd (m1.trans (m2.symm.trans hp)) h1
      | _ :: _ :: _ => simp
    have hst := hstep a
    rw [step] at hst
    change ∃ w', follow t (fuel + 1) (E a) w = Outcome.ok w' ∧ _
    rw [follow]
    simp only [hst, pushPoint_last, if_neg hns, hl, hp]
    rw [hp] at hlen hR
    have hc : isClosed x.1.p true (pushPoint w.ring x.1.p) w.pieces ((x.1.p, 0) :: l) =
        .ok (true, pushPoint w.ring x.1.p, w.pieces) := by
      rw [isClosed]
      simp [hlen, dist2]
    rw [hc, Outcome.bind_ok]
    simp only [if_true]
    refine ⟨_, rfl, by rw [← han]; exact hR.symm, rfl, fun k => ?_⟩
    simp only [List.mem_filter, Bool.not_eq_true', decide_eq_false_iff_not]
    refine and_congr Iff.rfl ⟨fun h c hc1 hc2 => ?_, fun h => h a le_rfl (by omega)⟩
    rw [show c = a by omega]
    exact h
  | succ d ih =>
    obtain ⟨fuel, rfl⟩ : ∃ f, fuel = f + 1 := ⟨fuel - 1, by omega⟩
    have hR := hringS a
    rw [← hring] at hR
    have hold : ∀ s ∈ w.starts, s.1 ≠ (E a).2.p := by
      intro s hsm
      obtain ⟨b, hb, y, hy, hby, hsy⟩ := hst2 s hsm
      rw [hsy]
      exact (visited_ne hs hf hnr hx hinj hb (by omega) hy hby).symm
    have hst' := hstep a
    rw [step] at hst'
    set starts := if (E a).1 ∈ t.starts then w.starts ++ [((E a).2.p, (pushPoint w.ring (E a).2.p).length - 1)] else w.starts with hstarts
    have hmiss : isClosed (E a).2.p true (pushPoint w.ring (E a).2.p) w.pieces starts =
        .ok (false, pushPoint w.ring (E a).2.p, w.pieces) := by
      refine isClosed_miss' fun s hsm => ?_
      rw [hstarts] at hsm
      split_ifs at hsm
      · rcases List.mem_append.1 hsm with h | h
        · exact Or.inl (hold s h)
        · rw [List.mem_singleton] at h
          rw [h]
          right
          simp only
          omega
      · exact Or.inl (hold s hsm)
    have hnext := ih (a + 1) (by omega) (by omega)
      { ring := pushPoint w.ring (E a).2.p, starts := starts, startKeys := w.startKeys.filter fun k => !decide (k = (E a).1), pieces := w.pieces }
      hR.symm (by
        obtain ⟨l, hl⟩ := hst
        simp only [hstarts, hl]
        split_ifs
        · exact ⟨_, rfl⟩
        · exact ⟨_, rfl⟩) (by
        intro s hsm
        simp only [hstarts] at hsm
        have old : s ∈ w.starts → ∃ b < a + 1, ∃ y : Passage, y.1 ∈ turns ∧
            (stepD t)^[b] (entryOf ring x false) = entryOf ring y false ∧ s.1 = y.1.p := by
          intro h
          obtain ⟨b, hb, r⟩ := hst2 s h
          exact ⟨b, by omega, r⟩
        split_ifs at hsm with hstart
        · rcases List.mem_append.1 hsm with h | h
          · exact old h
          · rw [List.mem_singleton] at h
            obtain ⟨y, hy, hk⟩ := (hf.starts _).1 hstart
            have hEy : E a = entryOf ring y false := by
              rcases entry_cases hf (hmem a) with hc | ⟨z, r, hz, hzr⟩
              · rw [hk] at hc
                exact absurd hc.2.1 (along_pos hs hy).ne'
              · rw [hzr] at hk
                have := key_inj hs hz hy hk
                rw [hzr, this.1, this.2]
            exact ⟨a, by omega, y, hy, hEy, by rw [h]; simp only; rw [hEy, entryOf_p]⟩
        · exact old hsm) fuel (by omega)
    obtain ⟨w', e1, e2, e3, e4⟩ := hnext
    refine ⟨w', ?_, e2, e3, fun k => ?_⟩
    · change follow t (fuel + 1) (E a) w = Outcome.ok w'
      rw [follow]
      simp only [hst', pushPoint_last]
      rw [hmiss, Outcome.bind_ok]
      simp only [Bool.false_eq_true, if_false]
      exact e1
    · rw [e4]
      simp only [List.mem_filter, Bool.not_eq_true', decide_eq_false_iff_not, and_assoc]
      refine and_congr Iff.rfl ⟨?_, ?_⟩
      · rintro ⟨h1, h2⟩ c hc1 hc2
        rcases Nat.eq_or_lt_of_le hc1 with rfl | h
        · exact h1
        · exact h2 c h hc2
      · intro h
        exact ⟨h a le_rfl (by omega), fun c hc1 hc2 => h c (by omega) hc2⟩

end

end RgbdSlam.PolygonRepair
