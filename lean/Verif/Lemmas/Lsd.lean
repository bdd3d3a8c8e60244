import Mathlib.Tactic.Linarith
import Mathlib.Tactic.Ring
import Mathlib.Tactic.Tauto
import Mathlib.Data.List.Nodup
import Mathlib.Data.List.Sublists
import Mathlib.Data.List.ProdSigma
import Mathlib.Data.Finset.Prod
import Mathlib.Data.Finset.Card
import Verif.Model.Lsd
import Verif.Spec.Lsd
/-
Lemmas on the growth of regions.
-/
namespace RgbdSlam.Lsd

variable {A : Type}

theorem mem_around (n c v : ℕ) : v ∈ around n c ↔ v < n ∧ c ≤ v + 1 ∧ v ≤ c + 1 := by
  simp [around]

theorem mem_neighbours (w h : ℕ) (p q : Px) :
    q ∈ neighbours w h p ↔ q.1 < w ∧ q.2 < h ∧ Spec.Touching p q := by
  obtain ⟨qx, qy⟩ := q
  simp only [neighbours, List.mem_flatMap, List.mem_map, mem_around, Prod.mk.injEq, Spec.Touching]
  constructor
  · rintro ⟨y, hy, x, hx, rfl, rfl⟩
    tauto
  · rintro ⟨h1, h2, h3, h4, h5, h6⟩
    exact ⟨qy, ⟨h2, h5, h6⟩, qx, ⟨h1, h3, h4⟩, rfl, rfl⟩

/-- What holds of a region during its growth from `s`, when `used0` were taken before. -/
structure Grown (r : Rule A) (used0 : Px → Bool) (s : Px) (g : Region A) : Prop where
  head : ∃ l, g.points = s :: l ∧ g.angle = l.foldl r.join (r.start s) ∧
    ∀ l1 p l2, l = l1 ++ p :: l2 → r.aligned (l1.foldl r.join (r.start s)) p = true
  nodup : g.points.Nodup
  inside : ∀ p ∈ g.points, p.1 < r.width ∧ p.2 < r.height
  fresh : ∀ p ∈ g.points, used0 p = false
  used : ∀ p, g.used p = true ↔ used0 p = true ∨ p ∈ g.points
  linked : ∀ p ∈ g.points,
    Relation.ReflTransGen (fun u v => u ∈ g.points ∧ v ∈ g.points ∧ Spec.Touching u v) s p

theorem grown_start (r : Rule A) (used0 : Px → Bool) (s : Px) (hs : s.1 < r.width ∧ s.2 < r.height)
    (hu : used0 s = false) :
    Grown r used0 s { points := [s], angle := r.start s, used := Function.update used0 s true } where
  head := ⟨[], rfl, rfl, by simp⟩
  nodup := by simp
  inside := by simpa using hs
  fresh := by simpa using hu
  used := by
    intro p
    by_cases h : p = s
    · subst h; simp
    · simp [h]
  linked := by
    intro p hp
    simp only [List.mem_singleton] at hp
    subst hp
    exact Relation.ReflTransGen.refl

theorem grown_visit (r : Rule A) (used0 : Px → Bool) (s : Px) (g : Region A) (h : Grown r used0 s g) (c p : Px)
    (hc : c ∈ g.points) (hp : p ∈ neighbours r.width r.height c) :
    Grown r used0 s (r.visit g p) ∧ ∃ l, (r.visit g p).points = g.points ++ l := by
  unfold Rule.visit
  split_ifs with hv
  swap
  · exact ⟨h, [], by simp⟩
  rw [Bool.and_eq_true, Bool.not_eq_true'] at hv
  obtain ⟨hfree, hal⟩ := hv
  have hno : ¬ (used0 p = true ∨ p ∈ g.points) := by
    rw [← h.used]; simp [hfree]
  rw [not_or] at hno
  obtain ⟨hp1, hp2, hp3⟩ := (mem_neighbours _ _ _ _).1 hp
  refine ⟨⟨?_, ?_, ?_, ?_, ?_, ?_⟩, [p], rfl⟩
  · obtain ⟨l, hl, ha, hal'⟩ := h.head
    refine ⟨l ++ [p], by simp [hl], by simp [ha], ?_⟩
    intro l1 q l2 he
    rcases List.eq_nil_or_concat l2 with rfl | ⟨l2', z, rfl⟩
    · have he' : l ++ [p] = l1 ++ [q] := he
      have h2 := List.append_inj' he' rfl
      obtain ⟨rfl, h3⟩ := h2
      simp only [List.cons.injEq, and_true] at h3
      subst h3
      rw [← ha]; exact hal
    · have he' : l ++ [p] = (l1 ++ q :: l2') ++ [z] := by simpa using he
      have h2 := List.append_inj' he' rfl
      exact hal' l1 q l2' h2.1
  · rw [List.nodup_append]
    refine ⟨h.nodup, by simp, ?_⟩
    intro a ha b hb
    simp only [List.mem_singleton] at hb
    subst hb
    rintro rfl
    exact hno.2 ha
  · intro q hq
    simp only [List.mem_append, List.mem_singleton] at hq
    rcases hq with hq | rfl
    · exact h.inside q hq
    · exact ⟨hp1, hp2⟩
  · intro q hq
    simp only [List.mem_append, List.mem_singleton] at hq
    rcases hq with hq | rfl
    · exact h.fresh q hq
    · simpa using hno.1
  · intro q
    by_cases hq : q = p
    · subst hq; simp
    · simp [hq, h.used]
  · intro q hq
    have mono : ∀ u v, (u ∈ g.points ∧ v ∈ g.points ∧ Spec.Touching u v) →
        (u ∈ g.points ++ [p] ∧ v ∈ g.points ++ [p] ∧ Spec.Touching u v) := by
      rintro u v ⟨h1, h2, h3⟩
      exact ⟨by simp [h1], by simp [h2], h3⟩
    simp only [List.mem_append, List.mem_singleton] at hq
    rcases hq with hq | rfl
    · exact Relation.ReflTransGen.mono mono _ _ (h.linked q hq)
    · refine (Relation.ReflTransGen.mono mono _ _ (h.linked c hc)).tail ⟨by simp [hc], by simp, hp3⟩

theorem grown_fold (r : Rule A) (used0 : Px → Bool) (s c : Px) (l : List Px) :
    ∀ g : Region A, Grown r used0 s g → c ∈ g.points → (∀ p ∈ l, p ∈ neighbours r.width r.height c) →
      Grown r used0 s (l.foldl r.visit g) ∧ ∃ k, (l.foldl r.visit g).points = g.points ++ k := by
  induction l with
  | nil => intro g h _ _; exact ⟨h, [], by simp⟩
  | cons p l ih =>
    intro g h hc hl
    obtain ⟨h1, k1, e1⟩ := grown_visit r used0 s g h c p hc (hl p (by simp))
    obtain ⟨h2, k2, e2⟩ := ih (r.visit g p) h1 (by simp [e1, hc]) (fun q hq => hl q (by simp [hq]))
    exact ⟨h2, k1 ++ k2, by rw [List.foldl_cons, e2, e1, List.append_assoc]⟩

theorem grown_length (r : Rule A) (used0 : Px → Bool) (s : Px) (g : Region A) (h : Grown r used0 s g) :
    g.points.length ≤ r.width * r.height := by
  have h1 : g.points.toFinset ⊆ Finset.range r.width ×ˢ Finset.range r.height := by
    intro p hp
    have := h.inside p (by simpa using hp)
    simpa using this
  have h2 := Finset.card_le_card h1
  rw [List.toFinset_card_of_nodup h.nodup, Finset.card_product, Finset.card_range, Finset.card_range] at h2
  exact h2

theorem loop_ok (r : Rule A) (used0 : Px → Bool) (s : Px) : ∀ (fuel i : ℕ) (g : Region A), Grown r used0 s g →
    i ≤ g.points.length → r.width * r.height < fuel + i → ∃ g', r.loop fuel i g = .ok g' ∧ Grown r used0 s g' := by
  intro fuel
  induction fuel with
  | zero =>
    intro i g h hi hf
    have := grown_length r used0 s g h
    omega
  | succ n ih =>
    intro i g h hi hf
    unfold Rule.loop
    cases hc : g.points[i]? with
    | none => exact ⟨g, rfl, h⟩
    | some c =>
      have hm : c ∈ g.points := List.mem_of_getElem? hc
      have hlt : i < g.points.length := by
        by_contra hn
        rw [List.getElem?_eq_none (by omega)] at hc
        simp at hc
      obtain ⟨h1, k, e⟩ := grown_fold r used0 s c _ g h hm (fun p hp => hp)
      exact ih (i + 1) _ h1 (by rw [e, List.length_append]; omega) (by omega)

theorem grow_ok (r : Rule A) (fuel : ℕ) (hf : r.width * r.height < fuel) (used0 : Px → Bool) (s : Px)
    (hs : s.1 < r.width ∧ s.2 < r.height) (hu : used0 s = false) :
    ∃ g, r.grow fuel used0 s = .ok g ∧ Grown r used0 s g :=
  loop_ok r used0 s fuel 0 _ (grown_start r used0 s hs hu) (by simp) (by omega)

/-- The regions of a search, the small ones too. -/
structure Searched (r : Rule A) (defined : Px → Bool) (order : List Px) (used : Px → Bool) (rs : List (Region A)) :
    Prop where
  each : ∀ g ∈ rs, ∃ u s, s ∈ order ∧ defined s = true ∧ (∀ p, used p = true → u p = true) ∧ Grown r u s g
  apart : rs.Pairwise fun a b => ∀ p, p ∈ a.points → p ∉ b.points
  cover : ∀ p ∈ order, defined p = true → used p = true ∨ ∃ g ∈ rs, p ∈ g.points

theorem search_all (r : Rule A) (fuel : ℕ) (hf : r.width * r.height < fuel) (defined : Px → Bool) :
    ∀ (order : List Px) (used : Px → Bool), (∀ p ∈ order, p.1 < r.width ∧ p.2 < r.height) →
      ∃ rs, r.search fuel 0 defined order used = .ok rs ∧ Searched r defined order used rs := by
  intro order
  induction order with
  | nil => intro used _; exact ⟨[], rfl, ⟨by simp, by simp, by simp⟩⟩
  | cons p l ih =>
    intro used hin
    unfold Rule.search
    split_ifs with hc
    · rw [Bool.and_eq_true, Bool.not_eq_true'] at hc
      obtain ⟨g, hg, gr⟩ := grow_ok r fuel hf used p (hin p (by simp)) hc.1
      obtain ⟨rs, hrs, sp⟩ := ih g.used (fun q hq => hin q (by simp [hq]))
      refine ⟨g :: rs, by simp [hg, hrs, Outcome.bind, Outcome.map], ⟨?_, ?_, ?_⟩⟩
      · intro g' hg'
        rw [List.mem_cons] at hg'
        rcases hg' with rfl | hg'
        · exact ⟨used, p, by simp, hc.2, fun _ h => h, gr⟩
        · obtain ⟨u, s, h1, h2, h3, h4⟩ := sp.each g' hg'
          exact ⟨u, s, by simp [h1], h2, fun q hq => h3 q ((gr.used q).2 (Or.inl hq)), h4⟩
      · rw [List.pairwise_cons]
        refine ⟨?_, sp.apart⟩
        intro b hb q hq hq'
        obtain ⟨u, s, h1, h2, h3, h4⟩ := sp.each b hb
        have h5 := h4.fresh q hq'
        rw [h3 q ((gr.used q).2 (Or.inr hq))] at h5
        simp at h5
      · intro q hq hd
        have key : q ∈ g.points ∨ used q = true ∨ ∃ g ∈ rs, q ∈ g.points := by
          rw [List.mem_cons] at hq
          rcases hq with rfl | hq
          · obtain ⟨k, e, -⟩ := gr.head
            left; simp [e]
          · rcases sp.cover q hq hd with h | h
            · rcases (gr.used q).1 h with h | h
              · exact Or.inr (Or.inl h)
              · exact Or.inl h
            · exact Or.inr (Or.inr h)
        rcases key with h | h | ⟨g', h1, h2⟩
        · exact Or.inr ⟨g, by simp, h⟩
        · exact Or.inl h
        · exact Or.inr ⟨g', by simp [h1], h2⟩
    · obtain ⟨rs, hrs, sp⟩ := ih used (fun q hq => hin q (by simp [hq]))
      refine ⟨rs, hrs, ⟨?_, sp.apart, ?_⟩⟩
      · intro g hg
        obtain ⟨u, s, h1, h2⟩ := sp.each g hg
        exact ⟨u, s, by simp [h1], h2⟩
      · intro q hq hd
        rw [List.mem_cons] at hq
        rcases hq with rfl | hq
        · left
          simpa [hd] using hc
        · exact sp.cover q hq hd

theorem search_filter (r : Rule A) (fuel m : ℕ) (defined : Px → Bool) :
    ∀ (order : List Px) (used : Px → Bool), r.search fuel m defined order used =
      (r.search fuel 0 defined order used).map (List.filter fun g => decide (m ≤ g.points.length)) := by
  intro order
  induction order with
  | nil => intro used; rfl
  | cons p l ih =>
    intro used
    unfold Rule.search
    split_ifs with hc
    · cases hg : r.grow fuel used p with
      | ok g =>
        simp only [Outcome.bind]
        rw [ih g.used]
        cases hr : r.search fuel 0 defined l g.used with
        | ok rs =>
          simp only [Outcome.map, Outcome.bind, Nat.not_lt_zero, if_false, List.filter_cons, decide_eq_true_eq]
          by_cases hm : m ≤ g.points.length
          · rw [if_neg (by omega), if_pos hm]
          · rw [if_pos (by omega), if_neg hm]
        | _ => simp [Outcome.map, Outcome.bind]
      | _ => simp [Outcome.map, Outcome.bind]
    · exact ih used

theorem grown_one_piece (r : Rule A) (used0 : Px → Bool) (s : Px) (g : Region A) (h : Grown r used0 s g) :
    Spec.InOnePiece g.points := by
  have sym : ∀ a b, Relation.ReflTransGen (fun u v => u ∈ g.points ∧ v ∈ g.points ∧ Spec.Touching u v) a b →
      Relation.ReflTransGen (fun u v => u ∈ g.points ∧ v ∈ g.points ∧ Spec.Touching u v) b a := by
    intro a b hab
    induction hab with
    | refl => exact Relation.ReflTransGen.refl
    | tail _ hbc ih =>
      exact ih.head ⟨hbc.2.1, hbc.1, hbc.2.2.2.1, hbc.2.2.1, hbc.2.2.2.2.2, hbc.2.2.2.2.1⟩
  intro a ha b hb
  exact (sym _ _ (h.linked a ha)).trans (h.linked b hb)

end RgbdSlam.Lsd
