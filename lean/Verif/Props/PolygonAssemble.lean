import Mathlib.Tactic.Ring
import Mathlib.Tactic.NormNum
import Verif.Lemmas.PolygonRepair2
import Verif.Spec.PolygonRepair
/- C145 and C146: the loops of an outline are put together again. -/
namespace RgbdSlam.PolygonRepair

open Spec

variable {α P : Type*}

/-! ## C146: merging the polygons -/

theorem pointsOf_cons (points : α → Set P) (a : α) (l : List α) (p : P) :
    p ∈ pointsOf points (a :: l) ↔ p ∈ points a ∨ p ∈ pointsOf points l := by
  constructor
  · rintro ⟨b, hb, hp⟩
    rcases List.mem_cons.1 hb with rfl | hb
    · exact Or.inl hp
    · exact Or.inr ⟨b, hb, hp⟩
  · rintro (h | ⟨b, hb, hp⟩)
    · exact ⟨a, by simp, h⟩
    · exact ⟨b, by simp [hb], hp⟩

theorem pointsOf_nil (points : α → Set P) (p : P) : ¬ p ∈ pointsOf points [] := by
  rintro ⟨b, hb, _⟩
  simp at hb

theorem mem_combineLoop (intersects : α → α → Bool) (union : α → α → List α) (points : α → Set P)
    (hu : ∀ a b u, union a b = [u] → points u = points a ∪ points b) (p : P) (rest : List α) :
    ∀ (seen : List α) (last : α), p ∈ pointsOf points (combineLoop intersects union seen rest last) ↔
      p ∈ pointsOf points seen ∨ p ∈ pointsOf points rest ∨ p ∈ points last := by
  induction rest with
  | nil =>
    intro seen last
    simp [combineLoop, pointsOf, or_and_right, exists_or]
  | cons a rest ih =>
    intro seen last
    have keep : p ∈ pointsOf points (combineLoop intersects union (a :: seen) rest last) ↔
        p ∈ pointsOf points seen ∨ p ∈ pointsOf points (a :: rest) ∨ p ∈ points last := by
      rw [ih]
      rw [pointsOf_cons, pointsOf_cons]
      tauto
    unfold combineLoop
    split_ifs with hi
    · split
      · rename_i u e
        rw [ih, hu a last u e]
        rw [pointsOf_cons, Set.mem_union]
        tauto
      · exact keep
    · exact keep

/-- C146: putting polygons together keeps the set of points that they cover, whatever polygons were merged, as long as
a union made of one polygon covers the same points as its two parts. -/
theorem C146_covered (intersects : α → α → Bool) (union : α → α → List α) (points : α → Set P)
    (hu : ∀ a b u, union a b = [u] → points u = points a ∪ points b) (result new : List α) :
    pointsOf points (combineMultiple intersects union result new) = pointsOf points result ∪ pointsOf points new := by
  induction new generalizing result with
  | nil => ext p; simp [combineMultiple, pointsOf]
  | cons a new ih =>
    ext p
    have e : combineMultiple intersects union result (a :: new) =
        combineMultiple intersects union (combine intersects union result a) new := rfl
    rw [e, ih, Set.mem_union, combine, mem_combineLoop intersects union points hu, Set.mem_union]
    rw [pointsOf_cons]
    have := pointsOf_nil points p
    tauto

theorem combineLoop_apart (intersects : α → α → Bool) (union : α → α → List α) (apart : α → α → Prop)
    (hi : ∀ a b, intersects a b = false → apart a b)
    (h2 : ∀ a b, (∀ u, union a b ≠ [u]) → apart a b)
    (hu : ∀ a b u x, union a b = [u] → apart x a → apart x b → apart x u) (rest : List α) :
    ∀ (seen : List α) (last : α), (seen.reverse ++ rest).Pairwise apart → (∀ x ∈ seen, apart x last) →
      (combineLoop intersects union seen rest last).Pairwise apart := by
  induction rest with
  | nil =>
    intro seen last hp hl
    unfold combineLoop
    rw [List.pairwise_append]
    refine ⟨by simpa using hp, by simp, ?_⟩
    intro a ha b hb
    obtain rfl : b = last := by simpa using hb
    exact hl a (by simpa using ha)
  | cons a rest ih =>
    intro seen last hp hl
    have keep (h : apart a last) : (combineLoop intersects union (a :: seen) rest last).Pairwise apart := by
      refine ih _ _ (by simpa using hp) ?_
      intro x hx
      rcases List.mem_cons.1 hx with rfl | hx
      · exact h
      · exact hl x hx
    unfold combineLoop
    split_ifs with hint
    · split
      · rename_i u e
        rw [List.pairwise_append] at hp
        refine ih _ _ ?_ ?_
        · rw [List.pairwise_append]
          exact ⟨hp.1, (List.pairwise_cons.1 hp.2.1).2, fun x hx y hy => hp.2.2 x hx y (List.mem_cons_of_mem _ hy)⟩
        · exact fun x hx => hu a last u x e (hp.2.2 x (by simpa using hx) a (by simp)) (hl x hx)
      · rename_i hne
        exact keep (h2 a last fun u e => hne u e)
    · exact keep (hi a last (by simpa using hint))

/-- C146: the polygons stay apart.  `apart` is any relation which holds between polygons that do not meet, between
polygons whose union is not one polygon, and between a polygon and a union when it holds for both parts. -/
theorem C146_apart (intersects : α → α → Bool) (union : α → α → List α) (apart : α → α → Prop)
    (hi : ∀ a b, intersects a b = false → apart a b)
    (h2 : ∀ a b, (∀ u, union a b ≠ [u]) → apart a b)
    (hu : ∀ a b u x, union a b = [u] → apart x a → apart x b → apart x u) (new : List α) :
    ∀ result : List α, result.Pairwise apart → (combineMultiple intersects union result new).Pairwise apart := by
  induction new with
  | nil => exact fun result h => h
  | cons a new ih =>
    intro result h
    exact ih _ (combineLoop_apart intersects union apart hi h2 hu result [] a (by simpa using h) (by simp))

theorem combineLoop_length (intersects : α → α → Bool) (union : α → α → List α) (rest : List α) :
    ∀ (seen : List α) (last : α), 1 ≤ (combineLoop intersects union seen rest last).length ∧
      (combineLoop intersects union seen rest last).length ≤ seen.length + rest.length + 1 := by
  induction rest with
  | nil => intro seen last; simp [combineLoop]
  | cons a rest ih =>
    intro seen last
    have h1 := ih (a :: seen) last
    simp only [List.length_cons] at h1 ⊢
    unfold combineLoop
    split_ifs
    · split
      · rename_i u _
        have h2 := ih seen u
        omega
      · omega
    · omega

/-- C146: there are never more polygons than there were, and none is lost altogether. -/
theorem C146_count (intersects : α → α → Bool) (union : α → α → List α) (new : List α) :
    ∀ result : List α, (combineMultiple intersects union result new).length ≤ result.length + new.length ∧
      (new ≠ [] ∨ result ≠ [] → combineMultiple intersects union result new ≠ []) := by
  induction new with
  | nil => intro result; simp [combineMultiple]
  | cons a new ih =>
    intro result
    have h := ih (combine intersects union result a)
    have hl := combineLoop_length intersects union result [] a
    have hne : combine intersects union result a ≠ [] := by
      intro e
      rw [combine] at e
      rw [e] at hl
      simp at hl
    refine ⟨?_, fun _ => h.2 (Or.inr hne)⟩
    have e : combineMultiple intersects union result (a :: new) =
        combineMultiple intersects union (combine intersects union result a) new := rfl
    rw [e]
    simp only [List.length_cons, List.length_nil] at hl ⊢
    have := h.1
    simp only [combine] at this ⊢
    omega

/-- Closed intervals of a line: the ones that meet have a union made of one interval. -/
example : combineMultiple (fun a b : ℤ × ℤ => decide (a.1 ≤ b.2) && decide (b.1 ≤ a.2))
    (fun a b => [(min a.1 b.1, max a.2 b.2)]) [] [(0, 1), (4, 5), (8, 9), (1, 4)] = [(8, 9), (0, 5)] := by decide

/-! ## C145: what is filled -/

theorem sign_eq (a : ℚ) : sign a = turnsOf a := rfl

/-- The winding number of a loop, from the ones that come before. -/
def loopWinding (covers : α → α → Bool) (pieces : List (α × ℚ)) (j : ℕ) (x : α × ℚ) : ℤ :=
  turnsOf x.2 + (((pieces.take j).filter fun b => covers b.1 x.1).map fun b => turnsOf b.2).sum

theorem loopWinding_outer {covers : α → α → Bool} {pieces : List (α × ℚ)} (hn : NoThreeNested covers pieces) {k j : ℕ}
    {b c : α × ℚ} (hkj : k < j) (hb : pieces[k]? = some b) (hc : pieces[j]? = some c) (hcov : covers b.1 c.1 = true) :
    loopWinding covers pieces k b = turnsOf b.2 := by
  have : ((pieces.take k).filter fun a => covers a.1 b.1) = [] := by
    rw [List.filter_eq_nil_iff]
    intro a ha hab
    obtain ⟨i, hi⟩ := List.mem_iff_getElem?.1 ha
    have hik : i < k := by
      have := (List.getElem?_eq_some_iff.1 hi).1
      rw [List.length_take] at this
      omega
    rw [List.getElem?_take_of_lt hik] at hi
    have := hn i k j a b c hik hkj hi hb hc hab
    rw [this] at hcov
    cases hcov
  rw [loopWinding, this]
  simp

theorem scoresAfter_eq {covers : α → α → Bool} {pieces : List (α × ℚ)} (hn : NoThreeNested covers pieces)
    (rest : List (α × ℚ)) : ∀ done : List (α × ℚ), done ++ rest = pieces →
      scoresAfter covers ((done.zipIdx.map fun e => (e.1.1, loopWinding covers pieces e.2 e.1)).reverse) rest =
        pieces.zipIdx.map fun e => (e.1.1, loopWinding covers pieces e.2 e.1) := by
  induction rest with
  | nil =>
    intro done h
    rw [List.append_nil] at h
    rw [scoresAfter, List.reverse_reverse, h]
  | cons x rest ih =>
    intro done h
    have hx : pieces[done.length]? = some x := by rw [← h]; simp
    have htake : pieces.take done.length = done := by rw [← h]; simp
    rw [scoresAfter]
    have e : ((((done.zipIdx.map fun e => (e.1.1, loopWinding covers pieces e.2 e.1)).reverse).filter
          fun b => covers b.1 x.1).map Prod.snd).sum =
        ((done.filter fun b => covers b.1 x.1).map fun b => turnsOf b.2).sum := by
      rw [List.filter_reverse, List.map_reverse, List.sum_reverse, List.filter_map, List.map_map]
      have e1 : ((done.zipIdx.filter ((fun b : α × ℤ => covers b.1 x.1) ∘
            fun e => (e.1.1, loopWinding covers pieces e.2 e.1))).map
            (Prod.snd ∘ fun e => (e.1.1, loopWinding covers pieces e.2 e.1))) =
          (done.zipIdx.filter ((fun b : α × ℚ => covers b.1 x.1) ∘ Prod.fst)).map ((fun b => turnsOf b.2) ∘ Prod.fst) := by
        refine List.map_congr_left ?_
        rintro ⟨b, k⟩ hm
        obtain ⟨hm, hc⟩ := List.mem_filter.1 hm
        have hk := List.mem_zipIdx_iff_getElem?.1 hm
        have hklt : k < done.length := (List.getElem?_eq_some_iff.1 hk).1
        simp only [Function.comp_apply] at hk hc ⊢
        refine loopWinding_outer hn hklt ?_ hx hc
        rw [← h, List.getElem?_append_left hklt]
        exact hk
      rw [e1, ← List.map_map, ← List.filter_map, List.zipIdx_map_fst]
    have := ih (done ++ [x]) (by simpa using h)
    rw [← this]
    congr 1
    rw [List.zipIdx_append, List.map_append, List.reverse_append]
    simp only [List.zipIdx_singleton, List.map_cons, List.map_nil, List.reverse_cons, List.reverse_nil, List.nil_append,
      List.singleton_append, Nat.zero_add]
    rw [e, sign_eq, loopWinding, htake]

theorem mem_fill {covers : α → α → Bool} {pieces : List (α × ℚ)} (hn : NoThreeNested covers pieces) (a : α) :
    (a ∈ (fill covers pieces).1 ↔ ∃ (j : ℕ) (x : α × ℚ), pieces[j]? = some x ∧ x.1 = a ∧ loopWinding covers pieces j x ≠ 0) ∧
    (a ∈ (fill covers pieces).2 ↔ ∃ (j : ℕ) (x : α × ℚ), pieces[j]? = some x ∧ x.1 = a ∧ loopWinding covers pieces j x = 0) := by
  have e := scoresAfter_eq hn pieces [] rfl
  simp only [List.zipIdx_nil, List.map_nil, List.reverse_nil] at e
  simp only [fill, e, List.mem_map, List.mem_filter, decide_eq_true_eq]
  constructor
  · constructor
    · rintro ⟨_, ⟨⟨y, hy, rfl⟩, hw⟩, rfl⟩
      exact ⟨y.2, y.1, List.mem_zipIdx_iff_getElem?.1 hy, rfl, hw⟩
    · rintro ⟨j, x, hj, rfl, hw⟩
      exact ⟨_, ⟨⟨(x, j), List.mem_zipIdx_iff_getElem?.2 hj, rfl⟩, hw⟩, rfl⟩
  · constructor
    · rintro ⟨_, ⟨⟨y, hy, rfl⟩, hw⟩, rfl⟩
      exact ⟨y.2, y.1, List.mem_zipIdx_iff_getElem?.1 hy, rfl, hw⟩
    · rintro ⟨j, x, hj, rfl, hw⟩
      exact ⟨_, ⟨⟨(x, j), List.mem_zipIdx_iff_getElem?.2 hj, rfl⟩, hw⟩, rfl⟩

theorem covers_iff {points : α → Set P} {covers : α → α → Bool} {pieces : List (α × ℚ)}
    (hl : NestedOrApart points covers pieces) {i j : ℕ} {a b : α × ℚ} (hij : i < j) (ha : pieces[i]? = some a)
    (hb : pieces[j]? = some b) {p : P} (hp : p ∈ points b.1) : covers a.1 b.1 = true ↔ p ∈ points a.1 := by
  obtain ⟨hi, rfl⟩ := List.getElem?_eq_some_iff.1 ha
  obtain ⟨hj, rfl⟩ := List.getElem?_eq_some_iff.1 hb
  rcases List.pairwise_iff_getElem.1 hl i j hi hj hij with ⟨h, hs⟩ | ⟨h, hs⟩
  · exact ⟨fun _ => hs hp, fun _ => h⟩
  · exact ⟨fun h' => absurd h' (by rw [h]; simp), fun h' => absurd h' (hs p hp)⟩

/-- The loop of greatest index around a point has the winding number of the point. -/
theorem loopWinding_last {points : α → Set P} {covers : α → α → Bool} {pieces : List (α × ℚ)}
    (hl : NestedOrApart points covers pieces) {j : ℕ} {x : α × ℚ} (hx : pieces[j]? = some x) {p : P}
    (hp : p ∈ points x.1) (hlast : ∀ (i : ℕ) (y : α × ℚ), j < i → pieces[i]? = some y → p ∉ points y.1) :
    loopWinding covers pieces j x = windingAt points pieces p := by
  classical
  obtain ⟨hj, e⟩ := List.getElem?_eq_some_iff.1 hx
  have hsplit : pieces = pieces.take j ++ (x :: pieces.drop (j + 1)) := by
    rw [← e, ← List.drop_eq_getElem_cons hj, List.take_append_drop]
  have h1 : (pieces.take j).filter (fun b => covers b.1 x.1) = (pieces.take j).filter (fun b => decide (p ∈ points b.1)) := by
    refine List.filter_congr ?_
    intro b hb
    obtain ⟨i, hi⟩ := List.mem_iff_getElem?.1 hb
    have hij : i < j := by
      have := (List.getElem?_eq_some_iff.1 hi).1
      rw [List.length_take] at this
      omega
    rw [List.getElem?_take_of_lt hij] at hi
    have := covers_iff hl hij hi hx hp
    by_cases h : p ∈ points b.1
    · simp [h, this.2 h]
    · have hf : covers b.1 x.1 = false := by
        rw [← Bool.not_eq_true]
        exact fun h' => h (this.1 h')
      simp [h, hf]
  have h2 : (pieces.drop (j + 1)).filter (fun b => decide (p ∈ points b.1)) = [] := by
    rw [List.filter_eq_nil_iff]
    intro b hb
    obtain ⟨i, hi⟩ := List.mem_iff_getElem?.1 hb
    rw [List.getElem?_drop] at hi
    simpa using hlast _ b (by omega) hi
  unfold windingAt
  have hw : ((pieces.filter fun b => decide (p ∈ points b.1)).map fun b => turnsOf b.2).sum =
      (((pieces.take j ++ (x :: pieces.drop (j + 1))).filter fun b => decide (p ∈ points b.1)).map
        fun b => turnsOf b.2).sum := by rw [← hsplit]
  rw [loopWinding, h1]
  refine Eq.symm ?_
  convert hw using 1
  rw [List.filter_append, List.filter_cons_of_pos (by simpa using hp), h2]
  simp
  ring

/-- C145, when no loop is in a loop which is in a third one: a point is in the repaired polygon exactly when its winding
number is not 0.  The loops come in decreasing order of area, they are nested or apart; unions and differences of
polygons are the ones of their sets of points.  Missing: the other nestings, for which it is false
(`C145_three_nested_false`). -/
theorem C145_non_zero_winding_partial (points : α → Set P) (intersects : α → α → Bool) (union : α → α → List α)
    (covers : α → α → Bool) (difference : List α → List α → List α)
    (hu : ∀ a b u, union a b = [u] → points u = points a ∪ points b)
    (hd : ∀ l l', pointsOf points (difference l l') = pointsOf points l \ pointsOf points l')
    (pieces : List (α × ℚ)) (hl : NestedOrApart points covers pieces) (hn : NoThreeNested covers pieces) (p : P) :
    p ∈ pointsOf points (correctPolygon intersects union covers difference pieces) ↔ windingAt points pieces p ≠ 0 := by
  classical
  have hmem : p ∈ pointsOf points (correctPolygon intersects union covers difference pieces) ↔
      (∃ (j : ℕ) (x : α × ℚ), pieces[j]? = some x ∧ p ∈ points x.1 ∧ loopWinding covers pieces j x ≠ 0) ∧
      ¬ ∃ (j : ℕ) (x : α × ℚ), pieces[j]? = some x ∧ p ∈ points x.1 ∧ loopWinding covers pieces j x = 0 := by
    rw [correctPolygon]
    simp only [hd, C146_covered intersects union points hu]
    simp only [Set.mem_diff, Set.mem_union, pointsOf, Set.mem_setOf_eq, List.not_mem_nil, false_and, exists_false,
      not_false_eq_true, and_true, false_or]
    constructor
    · rintro ⟨⟨a, ha, hp⟩, h0⟩
      obtain ⟨j, x, hj, rfl, hw⟩ := (mem_fill hn a).1.1 ha
      refine ⟨⟨j, x, hj, hp, hw⟩, ?_⟩
      rintro ⟨j', x', hj', hp', hw'⟩
      exact h0 ⟨x'.1, (mem_fill hn _).2.2 ⟨j', x', hj', rfl, hw'⟩, hp'⟩
    · rintro ⟨⟨j, x, hj, hp, hw⟩, h0⟩
      refine ⟨⟨x.1, (mem_fill hn _).1.2 ⟨j, x, hj, rfl, hw⟩, hp⟩, ?_⟩
      rintro ⟨a, ha, hp'⟩
      obtain ⟨j', x', hj', rfl, hw'⟩ := (mem_fill hn a).2.1 ha
      exact h0 ⟨j', x', hj', hp', hw'⟩
  rw [hmem]
  by_cases hex : ∃ (j : ℕ) (x : α × ℚ), pieces[j]? = some x ∧ p ∈ points x.1
  · -- the last loop around the point
    obtain ⟨j, x, hj, hp, hlast⟩ : ∃ (j : ℕ) (x : α × ℚ), pieces[j]? = some x ∧ p ∈ points x.1 ∧
        ∀ (i : ℕ) (y : α × ℚ), j < i → pieces[i]? = some y → p ∉ points y.1 := by
      let Q : ℕ → Prop := fun k => ∃ x : α × ℚ, pieces[pieces.length - k]? = some x ∧ p ∈ points x.1
      obtain ⟨j, x, hj, hp⟩ := hex
      have hjl : j < pieces.length := (List.getElem?_eq_some_iff.1 hj).1
      have hQ : ∃ k, Q k := ⟨pieces.length - j, x, by rwa [show pieces.length - (pieces.length - j) = j by omega], hp⟩
      obtain ⟨y, hy, hpy⟩ := Nat.find_spec hQ
      refine ⟨_, y, hy, hpy, ?_⟩
      intro i z hi hz hpz
      have hil : i < pieces.length := (List.getElem?_eq_some_iff.1 hz).1
      refine Nat.find_min hQ (m := pieces.length - i) ?_ ⟨z, ?_, hpz⟩
      · omega
      · rwa [show pieces.length - (pieces.length - i) = i by omega]
    have hw := loopWinding_last hl hj hp hlast
    have hother : ∀ (i : ℕ) (y : α × ℚ), pieces[i]? = some y → p ∈ points y.1 → i ≠ j →
        loopWinding covers pieces i y ≠ 0 := by
      intro i y hi hpy hne
      have hij : i < j := by
        rcases Nat.lt_or_gt_of_ne hne with h | h
        · exact h
        · exact absurd hpy (hlast i y h hi)
      rw [loopWinding_outer hn hij hi hj ((covers_iff hl hij hi hj hp).2 hpy), turnsOf]
      split_ifs <;> norm_num
    constructor
    · rintro ⟨_, h0⟩ h
      exact h0 ⟨j, x, hj, hp, hw.trans h⟩
    · intro h
      refine ⟨⟨j, x, hj, hp, by rwa [hw]⟩, ?_⟩
      rintro ⟨i, y, hi, hpy, h0⟩
      by_cases hij : i = j
      · subst hij
        obtain rfl : y = x := Option.some.inj (hi.symm.trans hj)
        exact h (hw.symm.trans h0)
      · exact hother i y hi hpy hij h0
  · have h0 : windingAt points pieces p = 0 := by
      unfold windingAt
      have : (pieces.filter fun b => decide (p ∈ points b.1)) = [] := by
        rw [List.filter_eq_nil_iff]
        intro b hb
        obtain ⟨i, hi⟩ := List.mem_iff_getElem?.1 hb
        have hnp : p ∉ points b.1 := fun hp => hex ⟨i, b, hi, hp⟩
        simpa using hnp
      have e : ((pieces.filter fun b => decide (p ∈ points b.1)).map fun b => turnsOf b.2).sum = 0 := by rw [this]; rfl
      convert e
    rw [h0]
    simp only [ne_eq, not_true_eq_false, iff_false]
    rintro ⟨⟨j, x, hj, hp, _⟩, _⟩
    exact hex ⟨j, x, hj, hp⟩

open scoped Classical in
/-- Sets of points as polygons: a large loop with a hole, and a loop apart. -/
example : ∃ pieces : List (Set ℤ × ℚ), pieces.length = 3 ∧
    NestedOrApart (fun a => a) (fun a b => decide (b ⊆ a)) pieces ∧
    NoThreeNested (fun a b => decide (b ⊆ a)) pieces ∧
    windingAt (fun a => a) pieces 2 = 1 ∧ windingAt (fun a => a) pieces 5 = 0 := by
  have hA : ({4, 5, 6} : Set ℤ) ⊆ {1, 2, 3, 4, 5, 6} := by
    intro x hx
    simp only [Set.mem_insert_iff, Set.mem_singleton_iff] at hx ⊢
    tauto
  have hB : ¬ ({9} : Set ℤ) ⊆ {1, 2, 3, 4, 5, 6} := by
    intro h
    have := h (Set.mem_singleton _)
    simp at this
  have hC : ¬ ({9} : Set ℤ) ⊆ {4, 5, 6} := fun h => hB (h.trans hA)
  refine ⟨[({1, 2, 3, 4, 5, 6}, 6), ({4, 5, 6}, -3), ({9}, 1)], rfl, ?_, ?_, ?_, ?_⟩
  · refine List.Pairwise.cons ?_ (List.Pairwise.cons ?_ (List.Pairwise.cons ?_ List.Pairwise.nil))
    · intro b hb
      simp only [List.mem_cons, List.not_mem_nil, or_false] at hb
      rcases hb with rfl | rfl
      · exact Or.inl ⟨by simpa using hA, hA⟩
      · exact Or.inr ⟨by simp, by simp⟩
    · intro b hb
      obtain rfl : b = ({9}, 1) := by simpa using hb
      exact Or.inr ⟨by simp, by simp⟩
    · simp
  · intro i k j a b c hik hkj ha hb hc hab
    have hj : j < 3 := (List.getElem?_eq_some_iff.1 hc).1
    obtain rfl : i = 0 := by omega
    obtain rfl : k = 1 := by omega
    obtain rfl : j = 2 := by omega
    obtain rfl := Option.some.inj hb
    obtain rfl := Option.some.inj hc
    simp
  · norm_num [windingAt, turnsOf]
  · norm_num [windingAt, turnsOf]

/-- C145 is false when three loops are nested: the innermost of a clockwise loop and two loops in the other direction has
the winding number -1, and is cut out. -/
theorem C145_three_nested_false :
    windingAt (fun a : ℚ => {p : ℚ | |p| < a}) [(3, 36), (2, -16), (1, -4)] 0 = -1 ∧
    fill (fun a b : ℚ => decide (b ≤ a)) [(3, 36), (2, -16), (1, -4)] = ([3], [2, 1]) := by
  constructor
  · norm_num [windingAt, turnsOf]
  · decide +kernel

/-- C145 is false when four loops are nested: two clockwise loops around two in the other direction; the winding number
of the innermost is 0, and it is filled. -/
theorem C145_four_nested_false :
    windingAt (fun a : ℚ => {p : ℚ | |p| < a}) [(4, 64), (3, 36), (2, -16), (1, -4)] 0 = 0 ∧
    fill (fun a b : ℚ => decide (b ≤ a)) [(4, 64), (3, 36), (2, -16), (1, -4)] = ([4, 3, 2, 1], []) := by
  constructor
  · norm_num [windingAt, turnsOf]
  · decide +kernel

end RgbdSlam.PolygonRepair
