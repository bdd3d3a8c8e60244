import Mathlib.Tactic.Linarith
import Mathlib.Tactic.SplitIfs
import Mathlib.Tactic.FieldSimp
import Mathlib.Tactic.Ring
import Mathlib.Tactic.LinearCombination
import Verif.Model.PolygonRepair
/- Lemmas about the repair of polygons. -/
namespace RgbdSlam.PolygonRepair

theorem dist2_eq_zero {a b : Pt} : dist2 a b = 0 ↔ a = b := by
  constructor
  · intro h
    unfold dist2 at h
    have h1 := mul_self_nonneg (a.1 - b.1)
    have h2 := mul_self_nonneg (a.2 - b.2)
    have e1 : a.1 - b.1 = 0 := mul_self_eq_zero.1 (by linarith)
    have e2 : a.2 - b.2 = 0 := mul_self_eq_zero.1 (by linarith)
    exact Prod.ext (by linarith) (by linarith)
  · rintro rfl
    simp [dist2]

theorem dist2_pos {a b : Pt} : 0 < dist2 a b ↔ a ≠ b := by
  have h : 0 ≤ dist2 a b := add_nonneg (mul_self_nonneg _) (mul_self_nonneg _)
  rw [← not_iff_not, not_not, ← dist2_eq_zero]
  constructor
  · intro h'; linarith
  · intro h'; linarith

/-! ## The order of the keys -/

theorem less_irrefl (a : Key) : a.less a = false := by
  simp [Key.less]

theorem less_total {a b : Key} (h : a.less b = false) (h' : b.less a = false) : a = b := by
  obtain ⟨i, s, j, r⟩ := a
  obtain ⟨i', s', j', r'⟩ := b
  simp only [Key.less] at h h'
  split_ifs at h h' with h1 h2 h3 h4 h5 h6 h7 h8 h9
  all_goals first | omega | skip
  all_goals try (simp at h h')
  all_goals
    have e1 : i = i' := by omega
    have e2 : s = s' := by linarith
    have e3 : j = j' := by omega
    subst e1 e2 e3
    cases r <;> cases r' <;> simp_all

theorem mem_emplace {k : Key} {v : Vertex} {l : List (Key × Vertex)} {e : Key × Vertex} (h : e ∈ l) :
    e ∈ emplace k v l := by
  induction l with
  | nil => cases h
  | cons a l ih =>
    unfold emplace
    split_ifs
    · exact List.mem_cons_of_mem _ h
    · rcases List.mem_cons.1 h with rfl | h
      · exact List.mem_cons_self
      · exact List.mem_cons_of_mem _ (ih h)
    · exact h

theorem mem_of_emplace {k : Key} {v : Vertex} {l : List (Key × Vertex)} {e : Key × Vertex}
    (h : e ∈ emplace k v l) : e = (k, v) ∨ e ∈ l := by
  induction l with
  | nil => exact Or.inl (by simpa [emplace] using h)
  | cons a l ih =>
    unfold emplace at h
    split_ifs at h
    · simpa using h
    · rcases List.mem_cons.1 h with rfl | h
      · exact Or.inr List.mem_cons_self
      · rcases ih h with h | h
        · exact Or.inl h
        · exact Or.inr (List.mem_cons_of_mem _ h)
    · exact Or.inr h

theorem emplace_has (k : Key) (v : Vertex) (l : List (Key × Vertex)) : ∃ e ∈ emplace k v l, e.1 = k := by
  induction l with
  | nil => exact ⟨(k, v), by simp [emplace], rfl⟩
  | cons a l ih =>
    unfold emplace
    split_ifs with h1 h2
    · exact ⟨(k, v), List.mem_cons_self, rfl⟩
    · obtain ⟨e, he, e1⟩ := ih
      exact ⟨e, List.mem_cons_of_mem _ he, e1⟩
    · exact ⟨a, List.mem_cons_self, less_total (by simpa using h2) (by simpa using h1)⟩

theorem mem_of_insertKey {k : Key} {l : List Key} {e : Key} (h : e ∈ insertKey k l) : e = k ∨ e ∈ l := by
  induction l with
  | nil => exact Or.inl (by simpa [insertKey] using h)
  | cons a l ih =>
    unfold insertKey at h
    split_ifs at h
    · simpa using h
    · rcases List.mem_cons.1 h with rfl | h
      · exact Or.inr List.mem_cons_self
      · rcases ih h with h | h
        · exact Or.inl h
        · exact Or.inr (List.mem_cons_of_mem _ h)
    · exact Or.inr h

theorem find_some {k : Key} {l : List (Key × Vertex)} (h : ∃ e ∈ l, e.1 = k) : ∃ e, find k l = some e ∧ e.1 = k := by
  obtain ⟨e, he, hk⟩ := h
  cases hf : find k l with
  | none =>
    have := List.find?_eq_none.1 hf e he
    simp [hk] at this
  | some e' => exact ⟨e', rfl, by simpa using List.find?_some hf⟩

theorem next_some {l : List (Key × Vertex)} (h : l ≠ []) (k : Key) : ∃ e, next l k = some e := by
  unfold next
  split
  · exact ⟨_, rfl⟩
  · cases l with
    | nil => exact absurd rfl h
    | cons a l => exact ⟨a, rfl⟩

/-- The keys that the table refers to are in the table. -/
def Linked (t : Table) : Prop :=
  (∀ e ∈ t.vertices, e.1.reroute = true → ∃ e' ∈ t.vertices, e'.1 = e.2.link) ∧
  ∀ k ∈ t.starts, ∃ e ∈ t.vertices, e.1 = k

theorem linked_addTurn {ring : List Pt} {t t' : Table} {turn : Turn} (h : Linked t)
    (ht : addTurn ring t turn = .ok t') : Linked t' := by
  unfold addTurn at ht
  dsimp only at ht
  split at ht
  · split_ifs at ht
    · rw [← Outcome.ok.inj ht]
      set i := min turn.first turn.second
      set j := max turn.first turn.second
      rename_i a b _ _ _
      refine ⟨?_, ?_⟩
      · intro e he hr
        simp only at he ⊢
        rcases mem_of_emplace he with rfl | he
        · simp at hr
        rcases mem_of_emplace he with rfl | he
        · exact emplace_has _ _ _
        rcases mem_of_emplace he with rfl | he
        · simp at hr
        rcases mem_of_emplace he with rfl | he
        · obtain ⟨e', he', hk⟩ := emplace_has ⟨j, dist2 turn.p b, i, false⟩ { p := turn.p }
            (emplace ⟨i, dist2 turn.p a, j, true⟩ ⟨turn.p, ⟨j, dist2 turn.p b, i, false⟩⟩ t.vertices)
          exact ⟨e', mem_emplace (mem_emplace he'), hk⟩
        · obtain ⟨e', he', hk⟩ := h.1 e he hr
          exact ⟨e', mem_emplace (mem_emplace (mem_emplace (mem_emplace he'))), hk⟩
      · intro k hk
        simp only at hk ⊢
        rcases mem_of_insertKey hk with rfl | hk
        · exact emplace_has _ _ _
        rcases mem_of_insertKey hk with rfl | hk
        · obtain ⟨e', he', hk⟩ := emplace_has ⟨j, dist2 turn.p b, i, false⟩ { p := turn.p }
            (emplace ⟨i, dist2 turn.p a, j, true⟩ ⟨turn.p, ⟨j, dist2 turn.p b, i, false⟩⟩ t.vertices)
          exact ⟨e', mem_emplace (mem_emplace he'), hk⟩
        · obtain ⟨e', he', hk⟩ := h.2 k hk
          exact ⟨e', mem_emplace (mem_emplace (mem_emplace (mem_emplace he'))), hk⟩
    · rw [← Outcome.ok.inj ht]; exact h
  · cases ht

theorem foldl_bind_notOk {α β : Type*} (f : α → β → Outcome α) (l : List β) {r : Outcome α} {s : α}
    (h : l.foldl (fun r b => r.bind fun a => f a b) r = .ok s) : ∃ a, r = .ok a := by
  induction l generalizing r with
  | nil => exact ⟨s, h⟩
  | cons b l ih =>
    obtain ⟨a, ha⟩ := ih h
    obtain ⟨a', ha', _⟩ := Outcome.bind_eq_ok ha
    exact ⟨a', ha'⟩

theorem linked_foldl {ring : List Pt} (turns : List Turn) {t t' : Table} (h : Linked t)
    (ht : turns.foldl (fun (r : Outcome Table) turn => r.bind fun t => addTurn ring t turn) (.ok t) = .ok t') : Linked t' := by
  induction turns generalizing t with
  | nil => rw [← Outcome.ok.inj ht]; exact h
  | cons turn turns ih =>
    rw [List.foldl_cons, Outcome.bind_ok] at ht
    obtain ⟨t1, h1⟩ := foldl_bind_notOk (addTurn ring) turns ht
    rw [h1] at ht
    exact ih (linked_addTurn h h1) ht

theorem vertices_initial (l : List (Pt × ℕ)) (vs : List (Key × Vertex)) (hv : ∀ e ∈ vs, e.1.reroute = false) :
    ∀ e ∈ l.foldl (fun vs e => emplace ⟨e.2, 0, e.2, false⟩ { p := e.1 } vs) vs, e.1.reroute = false := by
  induction l generalizing vs with
  | nil => exact hv
  | cons a l ih =>
    refine ih _ fun e he => ?_
    rcases mem_of_emplace he with rfl | he
    · rfl
    · exact hv e he

theorem linked_findIntersections {ring : List Pt} {turns : List Turn} {t : Table}
    (h : findIntersections ring turns = .ok t) : Linked t := by
  unfold findIntersections at h
  refine linked_foldl turns ?_ h
  refine ⟨fun e he hr => ?_, fun k hk => by cases hk⟩
  rw [vertices_initial _ [] (fun e he => by cases he) e he] at hr
  cases hr

end RgbdSlam.PolygonRepair
