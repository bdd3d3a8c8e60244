import Verif.Spec.ConcaveHull
import Mathlib.Tactic.Ring
import Mathlib.Tactic.FieldSimp
import Mathlib.Tactic.Linarith
import Mathlib.Tactic.NormNum
import Mathlib.Tactic.LinearCombination
import Mathlib.Tactic.Positivity
import Mathlib.Data.List.Basic
import Mathlib.Data.List.Nodup

/-
Lemmas on the concave hull.
-/
namespace RgbdSlam.ConcaveHull

open Spec

theorem eps_pos : 0 < eps := by unfold eps; positivity

/-- A coordinate of a point of a segment is between those of its ends. -/
theorem min_le_segment {a b t : ℚ} (h0 : 0 ≤ t) (h1 : t ≤ 1) : min a b ≤ a + t * (b - a) := by
  rcases le_total a b with h | h
  · rw [min_eq_left h]; nlinarith
  · rw [min_eq_right h]; nlinarith

theorem segment_le_max {a b t : ℚ} (h0 : 0 ≤ t) (h1 : t ≤ 1) : a + t * (b - a) ≤ max a b := by
  rcases le_total a b with h | h
  · rw [max_eq_right h]; nlinarith
  · rw [max_eq_left h]; nlinarith

/-- Two segments with a common point that are not parallel are found to intersect. -/
theorem intersects_of_common {a1 a2 b1 b2 : Point} {x y : ℚ} (ha : OnSegment a1 a2 x y)
    (hb : OnSegment b1 b2 x y) (hd : eps < |turn a1 a2 b1 b2|) : intersects a1 a2 b1 b2 = true := by
  obtain ⟨s, hs0, hs1, hsx, hsy⟩ := ha
  obtain ⟨t, ht0, ht1, htx, hty⟩ := hb
  have hdet : (a2.y - a1.y) * (b1.x - b2.x) - (b2.y - b1.y) * (a1.x - a2.x) = turn a1 a2 b1 b2 := by
    unfold turn; ring
  have hne : turn a1 a2 b1 b2 ≠ 0 := by
    intro h; rw [h, abs_zero] at hd; exact absurd hd (not_lt.2 eps_pos.le)
  have hx : ((b1.x - b2.x) * ((a2.y - a1.y) * a1.x + (a1.x - a2.x) * a1.y) -
      (a1.x - a2.x) * ((b2.y - b1.y) * b1.x + (b1.x - b2.x) * b1.y)) / turn a1 a2 b1 b2 = x := by
    rw [div_eq_iff hne]
    unfold turn
    linear_combination ((b1.x - b2.x) * (a2.y - a1.y)) * (-hsx) + ((b1.x - b2.x) * (a1.x - a2.x)) * (-hsy) -
      ((a1.x - a2.x) * (b2.y - b1.y)) * (-htx) - ((a1.x - a2.x) * (b1.x - b2.x)) * (-hty)
  have hy : ((a2.y - a1.y) * ((b2.y - b1.y) * b1.x + (b1.x - b2.x) * b1.y) -
      (b2.y - b1.y) * ((a2.y - a1.y) * a1.x + (a1.x - a2.x) * a1.y)) / turn a1 a2 b1 b2 = y := by
    rw [div_eq_iff hne]
    unfold turn
    linear_combination ((a2.y - a1.y) * (b2.y - b1.y)) * (-htx) + ((a2.y - a1.y) * (b1.x - b2.x)) * (-hty) -
      ((b2.y - b1.y) * (a2.y - a1.y)) * (-hsx) - ((b2.y - b1.y) * (a1.x - a2.x)) * (-hsy)
  unfold intersects
  simp only [hdet, hx, hy]
  have hz : isZero (turn a1 a2 b1 b2) = false := by
    unfold isZero; exact decide_eq_false (not_le.2 hd)
  rw [hz]
  have he := eps_pos
  simp only [lessThanOrEqual, Bool.false_eq_true, if_false, Bool.and_eq_true, decide_eq_true_eq]
  refine ⟨⟨⟨⟨?_, ?_⟩, ?_, ?_⟩, ?_, ?_⟩, ?_, ?_⟩
  · rw [hsx]; linarith [min_le_segment (a := a1.x) (b := a2.x) hs0 hs1]
  · rw [hsx]; linarith [segment_le_max (a := a1.x) (b := a2.x) hs0 hs1]
  · rw [hsy]; linarith [min_le_segment (a := a1.y) (b := a2.y) hs0 hs1]
  · rw [hsy]; linarith [segment_le_max (a := a1.y) (b := a2.y) hs0 hs1]
  · rw [htx]; linarith [min_le_segment (a := b1.x) (b := b2.x) ht0 ht1]
  · rw [htx]; linarith [segment_le_max (a := b1.x) (b := b2.x) ht0 ht1]
  · rw [hty]; linarith [min_le_segment (a := b1.y) (b := b2.y) ht0 ht1]
  · rw [hty]; linarith [segment_le_max (a := b1.y) (b := b2.y) ht0 ht1]

theorem findMinY_mem : ∀ (l : List Point) (b : Point), findMinY l b = b ∨ findMinY l b ∈ l
  | [], b => Or.inl rfl
  | p :: ps, b => by
    unfold findMinY
    rcases findMinY_mem ps (if minYLess p b then p else b) with h | h
    · rw [h]
      split_ifs
      · exact Or.inr (by simp)
      · exact Or.inl rfl
    · exact Or.inr (List.mem_cons_of_mem _ h)

theorem first_mem {points : List Point} (h : points ≠ []) :
    findMinY points.tail (points.headD default) ∈ points := by
  cases points with
  | nil => exact absurd rfl h
  | cons p ps =>
    rcases findMinY_mem ps p with h | h
    · simp only [List.tail_cons, List.headD_cons, h, List.mem_cons, true_or]
    · exact List.mem_cons_of_mem _ (by simpa using h)

/-- What is true of the vertices found so far. -/
structure Chain (points : List Point) (first : Point) (hull : List Point) : Prop where
  head : ∃ rest, hull = first :: rest
  inner : ∀ i, 0 < i → i + 1 < hull.length → pointsEqual (hull.getD i default) first = false
  simple : ∀ a b, a + 2 ≤ b → b + 1 < hull.length →
    (0 < a ∨ pointsEqual (hull.getD (b + 1) default) first = false) →
    intersects (hull.getD b default) (hull.getD (b + 1) default) (hull.getD a default)
      (hull.getD (a + 1) default) = false

/-- What the index contains. -/
structure Fresh (points : List Point) (first : Point) (hull available : List Point) : Prop where
  vertices : ∀ p ∈ hull, p ∈ points ∨ p = { first with id := points.length }
  others : ∀ p ∈ available, p ∈ points ∨ p = { first with id := points.length }
  nodup : (hull.map Point.id).Nodup
  apart : ∀ p ∈ available, ∀ h ∈ hull, h.id ≠ p.id
  early : hull.length ≤ 4 → ∀ p ∈ hull, p ∈ points

theorem getD_append_left' {l : List Point} {c : Point} {i : ℕ} (h : i < l.length) :
    (l ++ [c]).getD i default = l.getD i default := by
  simp [List.getD, List.getElem?_append_left h]

theorem getD_append_last {l : List Point} {c : Point} : (l ++ [c]).getD l.length default = c := by
  simp [List.getD]

theorem chain_append {points : List Point} {first c : Point} {hull : List Point}
    (h : Chain points first hull) (hc : crossesHull hull first c = false)
    (hl : pointsEqual (hull.getD (hull.length - 1) default) first = false ∨ hull.length = 1) :
    Chain points first (hull ++ [c]) := by
  obtain ⟨⟨rest, hr⟩, hi, hs⟩ := h
  refine ⟨⟨rest ++ [c], by rw [hr]; rfl⟩, ?_, ?_⟩
  · intro i h0 h1
    rw [List.length_append, List.length_singleton] at h1
    rw [getD_append_left' (by omega)]
    by_cases hlast : i + 1 < hull.length
    · exact hi i h0 hlast
    · rcases hl with hl | hl
      · rwa [show hull.length - 1 = i from by omega] at hl
      · omega
  intro a b hab hb hcond
  rw [List.length_append, List.length_singleton] at hb
  by_cases hlast : b + 1 = hull.length
  · rw [hlast, getD_append_last] at hcond ⊢
    rw [getD_append_left' (by omega), getD_append_left' (by omega), getD_append_left' (by omega)]
    unfold crossesHull at hc
    rw [List.any_eq_false] at hc
    have := hc (hull.length - a - 1) (by
      rw [List.mem_range'_1]
      refine ⟨by omega, ?_⟩
      split_ifs with he
      · rcases hcond with hcond | hcond
        · omega
        · rw [hcond] at he; exact absurd he (by simp)
      · omega)
    rw [Bool.not_eq_true] at this
    rw [show hull.length - 1 = b from by omega,
      show hull.length - (hull.length - a - 1) - 1 = a from by omega,
      show hull.length - (hull.length - a - 1) = a + 1 from by omega] at this
    exact this
  · rw [getD_append_left' (by omega)] at hcond ⊢
    rw [getD_append_left' (by omega), getD_append_left' (by omega), getD_append_left' (by omega)]
    exact hs a b hab (by omega) hcond

theorem chain_singleton (points : List Point) (first : Point) : Chain points first [first] :=
  ⟨⟨[], rfl⟩, by intro i h0 h1; simp only [List.length_singleton] at h1; omega,
    by intro a b hab hb; simp only [List.length_singleton] at hb; omega⟩

/-- The vertices returned by the main loop. -/
theorem extendHull_chain {neighbours : Neighbours} {k : ℕ} {points : List Point} {first : Point} :
    ∀ {fuel : ℕ} {hull available result : List Point},
      extendHull neighbours k points first fuel hull available = .ok (some result) →
      Chain points first hull →
      Chain points first result ∧
      (result.length = points.length ∨
        (pointsEqual (result.getD (result.length - 1) default) first = true ∧ result.length ≠ 1))
  | 0, _, _, _, h, _ => by simp [extendHull] at h
  | fuel + 1, hull, available, result, h, hc => by
    unfold extendHull at h
    dsimp only at h
    split_ifs at h with hcond
    · split at h
      · simp at h
      · rename_i c hfind
        have hno := List.find?_some hfind
        rw [Bool.not_eq_true'] at hno
        simp only [Bool.and_eq_true, Bool.or_eq_true, Bool.not_eq_true', decide_eq_true_eq] at hcond
        exact extendHull_chain h (chain_append hc hno hcond.1)
    · cases h
      refine ⟨hc, ?_⟩
      by_cases hl : hull.length = points.length
      · exact Or.inl hl
      · right
        simp only [Bool.and_eq_true, Bool.or_eq_true, Bool.not_eq_true', decide_eq_true_eq] at hcond
        by_cases hp : pointsEqual (hull.getD (hull.length - 1) default) first = true
        · exact ⟨hp, fun h1 => hcond ⟨Or.inr h1, hl⟩⟩
        · exact absurd ⟨Or.inl (by simpa using hp), hl⟩ hcond

theorem fresh_withFirst {points hull available : List Point} {first : Point}
    (hids : ∀ p ∈ points, p.id < points.length)
    (h : Fresh points first hull available) :
    (∀ p ∈ withFirst points hull available first, p ∈ points ∨ p = { first with id := points.length }) ∧
    (∀ p ∈ withFirst points hull available first, ∀ v ∈ hull, v.id ≠ p.id) := by
  unfold withFirst
  split_ifs with h4
  · constructor
    · intro p hp
      rcases List.mem_append.1 hp with hp | hp
      · exact h.others p hp
      · exact Or.inr (by simpa using hp)
    · intro p hp v hv
      rcases List.mem_append.1 hp with hp | hp
      · exact h.apart p hp v hv
      · rw [List.mem_singleton.1 hp]
        have := hids v (h.early (by omega) v hv)
        show v.id ≠ points.length
        omega
  · exact ⟨h.others, h.apart⟩

/-- The vertices returned by the main loop are points of the input, each at most once. -/
theorem extendHull_fresh {neighbours : Neighbours} (hn : FromLeft neighbours) {k : ℕ} {points : List Point}
    {first : Point} (hids : ∀ p ∈ points, p.id < points.length) :
    ∀ {fuel : ℕ} {hull available result : List Point},
      extendHull neighbours k points first fuel hull available = .ok (some result) →
      Fresh points first hull available → (hull.length < 4 → ∀ p ∈ available, p ∈ points) →
      ∃ available', Fresh points first result available'
  | 0, _, _, _, h, _, _ => by simp [extendHull] at h
  | fuel + 1, hull, available, result, h, hf, hearly => by
    unfold extendHull at h
    dsimp only at h
    split_ifs at h with hcond
    · split at h
      · simp at h
      · rename_i c hfind
        have hmem := hn _ _ _ _ (List.mem_of_find?_eq_some hfind)
        obtain ⟨hw1, hw2⟩ := fresh_withFirst hids hf
        have hshort : hull.length < 4 → withFirst points hull available first = available := by
          intro h4; unfold withFirst; rw [if_neg (by omega)]
        refine extendHull_fresh hn hids h ⟨?_, ?_, ?_, ?_, ?_⟩ ?_
        · intro p hp
          rcases List.mem_append.1 hp with hp | hp
          · exact hf.vertices p hp
          · rw [List.mem_singleton.1 hp]; exact hw1 c hmem
        · intro p hp
          exact hw1 p (List.mem_of_mem_filter hp)
        · rw [List.map_append, List.nodup_append]
          refine ⟨hf.nodup, by simp, ?_⟩
          intro i hi j hj
          obtain ⟨v, hv, rfl⟩ := List.mem_map.1 hi
          simp only [List.map_cons, List.map_nil, List.mem_singleton] at hj
          rw [hj]
          exact hw2 c hmem v hv
        · intro p hp v hv
          obtain ⟨hp, hpc⟩ := List.mem_filter.1 hp
          rcases List.mem_append.1 hv with hv | hv
          · exact hw2 p hp v hv
          · rw [List.mem_singleton.1 hv]
            simp only [decide_not, Bool.not_eq_true', decide_eq_false_iff_not] at hpc
            exact fun e => hpc e.symm
        · intro h4 p hp
          rw [List.length_append, List.length_singleton] at h4
          rcases List.mem_append.1 hp with hp | hp
          · exact hf.early (by omega) p hp
          · rw [List.mem_singleton.1 hp]
            have hm := hmem
            rw [hshort (by omega)] at hm
            exact hearly (by omega) c hm
        · intro h4 p hp
          rw [List.length_append, List.length_singleton] at h4
          have hm := List.mem_of_mem_filter hp
          rw [hshort (by omega)] at hm
          exact hearly (by omega) p hm
    · cases h
      exact ⟨available, hf⟩

/-- The main loop ends. -/
theorem extendHull_total (neighbours : Neighbours) (k : ℕ) (points : List Point) (first : Point) :
    ∀ (fuel : ℕ) (hull available : List Point), hull.length ≤ points.length →
      points.length < hull.length + fuel →
      ∃ r, extendHull neighbours k points first fuel hull available = .ok r
  | 0, hull, _, h1, h2 => by omega
  | fuel + 1, hull, available, h1, h2 => by
    unfold extendHull
    dsimp only
    split_ifs with hcond
    · simp only [Bool.and_eq_true, decide_eq_true_eq] at hcond
      have hne := hcond.2
      split
      · exact ⟨none, rfl⟩
      · exact extendHull_total neighbours k points first fuel _ _
          (by rw [List.length_append, List.length_singleton]; omega)
          (by rw [List.length_append, List.length_singleton]; omega)
    · exact ⟨_, rfl⟩

/-- An attempt always ends. -/
theorem concaveHull_total (neighbours : Neighbours) (points : List Point) (k : ℕ) :
    ∃ r, concaveHull neighbours points k = .ok r := by
  unfold concaveHull
  split_ifs with h3 h3'
  · exact ⟨_, rfl⟩
  · exact ⟨_, rfl⟩
  · obtain ⟨r, hr⟩ := extendHull_total neighbours k points
      (findMinY points.tail (points.headD default)) points.length
      [findMinY points.tail (points.headD default)]
      (points.filter fun p => p.id ≠ (findMinY points.tail (points.headD default)).id)
      (by simp only [List.length_singleton]; omega) (by simp only [List.length_singleton]; omega)
    dsimp only
    rw [hr]
    cases r with
    | none => exact ⟨_, rfl⟩
    | some hull => exact ⟨_, rfl⟩

/-- What a successful attempt gives. -/
theorem concaveHull_some {neighbours : Neighbours} {points : List Point} {k : ℕ} {hull : List Point}
    (h : concaveHull neighbours points k = .ok (true, hull)) (h4 : 4 ≤ points.length) :
    ∃ first ∈ points, Chain points first hull ∧
      (hull.length = points.length ∨
        (pointsEqual (hull.getD (hull.length - 1) default) first = true ∧ hull.length ≠ 1)) ∧
      (∀ p ∈ points, (∃ v ∈ hull, v.id = p.id) ∨ pointInPolygon p hull = true) ∧
      (FromLeft neighbours → (∀ p ∈ points, p.id < points.length) → (points.map Point.id).Nodup →
        (hull.map Point.id).Nodup ∧ ∀ p ∈ hull, p ∈ points ∨ p = { first with id := points.length }) := by
  unfold concaveHull at h
  rw [if_neg (by omega), if_neg (by omega)] at h
  dsimp only at h
  have hmem : findMinY points.tail (points.headD default) ∈ points :=
    first_mem (by rintro rfl; simp at h4)
  generalize findMinY points.tail (points.headD default) = first at h hmem
  obtain ⟨r, hr, h⟩ := Outcome.bind_eq_ok h
  cases r with
  | none => simp at h
  | some result =>
    simp only [Outcome.ok.injEq, Prod.mk.injEq] at h
    obtain ⟨hall, rfl⟩ := h
    obtain ⟨hc, hend⟩ := extendHull_chain hr (chain_singleton points first)
    refine ⟨first, hmem, hc, hend, ?_, ?_⟩
    · intro p hp
      by_cases hv : ∃ v ∈ result, v.id = p.id
      · exact Or.inl hv
      · right
        rw [List.all_eq_true] at hall
        refine hall p (List.mem_filter.2 ⟨hp, ?_⟩)
        simp only [Bool.not_eq_true', List.any_eq_false, decide_eq_true_eq]
        intro v hv' he
        exact hv ⟨v, hv', he⟩
    · intro hn hids hnd
      obtain ⟨av, hf⟩ := extendHull_fresh hn hids hr
        ⟨by
          intro p hp; rw [List.mem_singleton.1 hp]; exact Or.inl hmem,
         by
          intro p hp; exact Or.inl (List.mem_of_mem_filter hp),
         by simp,
         by
          intro p hp v hv
          rw [List.mem_singleton.1 hv]
          have := (List.mem_filter.1 hp).2
          simp only [decide_not, Bool.not_eq_true', decide_eq_false_iff_not] at this
          exact fun e => this e.symm,
         by
          intro _ p hp; rw [List.mem_singleton.1 hp]; exact hmem⟩
        (fun _ p hp => List.mem_of_mem_filter hp)
      exact ⟨hf.nodup, hf.vertices⟩

/-- The sizes in the order in which they are tried. -/
def order : List ℕ := 3 :: neighboursValues.dropLast

theorem order_zero : order.getD 0 0 = neighboursValues.getD 0 0 := rfl

theorem order_succ : ∀ i < 23, order.getD (i + 1) 0 = neighboursValues.getD i 0 := by decide

/-- The retries: which sizes, and what the result is. -/
theorem retry_spec (search : ℕ → ℕ → Outcome (Bool × List Point)) (count : ℕ) :
    ∀ (left iteration : ℕ), left + iteration ≤ 24 → ∀ {r : Option (List Point)} {tried : List ℕ},
      retry search count left iteration (order.getD iteration 0) = .ok (r, tried) →
      tried.length ≤ left ∧
      (∀ i < tried.length, tried.getD i 0 = order.getD (iteration + i) 0) ∧
      (∀ i, i + 1 < tried.length → order.getD (iteration + i + 1) 0 ≤ count) ∧
      (∀ i, i + 1 < tried.length → ∃ h, search (iteration + i) (order.getD (iteration + i) 0) = .ok (false, h)) ∧
      (∀ h, r = some h → tried ≠ [] ∧
        search (iteration + tried.length - 1) (order.getD (iteration + tried.length - 1) 0) = .ok (true, h)) ∧
      (r = none → (∀ i < tried.length, ∃ h, search (iteration + i) (order.getD (iteration + i) 0) = .ok (false, h)) ∧
        (tried.length = left ∨
          count < neighboursValues.getD (iteration + tried.length - 1) 0))
  | 0, iteration, _, r, tried, h => by
    simp only [retry, Outcome.ok.injEq, Prod.mk.injEq] at h
    obtain ⟨rfl, rfl⟩ := h
    simp
  | left + 1, iteration, hle, r, tried, h => by
    unfold retry at h
    obtain ⟨⟨found, hull⟩, hs, h⟩ := Outcome.bind_eq_ok h
    dsimp only at h
    cases found with
    | true =>
      simp only [if_true, Outcome.ok.injEq, Prod.mk.injEq] at h
      obtain ⟨rfl, rfl⟩ := h
      refine ⟨by simp, ?_, by simp, by simp, ?_, by simp⟩
      · intro i hi
        have : i = 0 := by simpa using hi
        subst this; rfl
      · intro h' he
        cases he
        refine ⟨by simp, ?_⟩
        simpa using hs
    | false =>
      simp only [Bool.false_eq_true, if_false] at h
      split_ifs at h with hcount
      · simp only [Outcome.ok.injEq, Prod.mk.injEq] at h
        obtain ⟨rfl, rfl⟩ := h
        refine ⟨by simp, ?_, by simp, by simp, by simp, ?_⟩
        · intro i hi
          have : i = 0 := by simpa using hi
          subst this; rfl
        · intro _
          refine ⟨?_, Or.inr (by simpa using hcount)⟩
          intro i hi
          have : i = 0 := by simpa using hi
          subst this; exact ⟨hull, hs⟩
      · obtain ⟨⟨r', tried'⟩, hr, h⟩ := Outcome.bind_eq_ok h
        simp only [Outcome.ok.injEq, Prod.mk.injEq] at h
        obtain ⟨rfl, rfl⟩ := h
        by_cases hleft : left = 0
        · subst hleft
          simp only [retry, Outcome.ok.injEq, Prod.mk.injEq] at hr
          obtain ⟨rfl, rfl⟩ := hr
          refine ⟨by simp, ?_, by simp, by simp, by simp, ?_⟩
          · intro i hi
            have : i = 0 := by simpa using hi
            subst this; rfl
          · intro _
            refine ⟨?_, Or.inl (by simp)⟩
            intro i hi
            have : i = 0 := by simpa using hi
            subst this; exact ⟨hull, hs⟩
        · have hsucc := order_succ iteration (by omega)
          rw [← hsucc] at hr
          obtain ⟨h1, h2, h3, h4, h5, h6⟩ := retry_spec search count left (iteration + 1) (by omega) hr
          have hshift : ∀ i, iteration + (i + 1) = iteration + 1 + i := fun i => by omega
          refine ⟨by simp only [List.length_cons]; omega, ?_, ?_, ?_, ?_, ?_⟩
          · intro i hi
            cases i with
            | zero => rfl
            | succ i =>
              rw [List.getD_cons_succ, hshift]
              exact h2 i (by simpa using hi)
          · intro i hi
            cases i with
            | zero => rw [Nat.add_zero, hsucc]; omega
            | succ i =>
              rw [hshift]
              exact h3 i (by simpa using hi)
          · intro i hi
            cases i with
            | zero => exact ⟨hull, hs⟩
            | succ i =>
              rw [hshift]
              exact h4 i (by simpa using hi)
          · intro h' he
            obtain ⟨hne, hsearch⟩ := h5 h' he
            refine ⟨by simp, ?_⟩
            have hpos : 0 < tried'.length := List.length_pos_iff.2 hne
            rw [List.length_cons, show iteration + (tried'.length + 1) - 1 = iteration + 1 + tried'.length - 1
              from by omega]
            exact hsearch
          · intro he
            obtain ⟨ha, hb⟩ := h6 he
            constructor
            · intro i hi
              cases i with
              | zero => exact ⟨hull, hs⟩
              | succ i =>
                rw [hshift]
                exact ha i (by simpa using hi)
            · rw [List.length_cons]
              rcases hb with hb | hb
              · left; omega
              · right
                rw [show iteration + (tried'.length + 1) - 1 = iteration + 1 + tried'.length - 1 from by omega]
                exact hb

/-- The retries end. -/
theorem retry_total (search : ℕ → ℕ → Outcome (Bool × List Point)) (count : ℕ)
    (hs : ∀ i k, ∃ r, search i k = .ok r) :
    ∀ (left iteration k : ℕ), ∃ r, retry search count left iteration k = .ok r
  | 0, _, _ => ⟨_, rfl⟩
  | left + 1, iteration, k => by
    unfold retry
    obtain ⟨r, hr⟩ := hs iteration k
    rw [hr, Outcome.bind_ok]
    dsimp only
    split_ifs
    · exact ⟨_, rfl⟩
    · exact ⟨_, rfl⟩
    · obtain ⟨r', hr'⟩ := retry_total search count hs left (iteration + 1) (neighboursValues.getD iteration 0)
      simp only [hr']
      exact ⟨_, rfl⟩

theorem numbered_length (points : List (ℚ × ℚ)) : (numbered points).length = points.length := by
  simp [numbered]

theorem numbered_id (points : List (ℚ × ℚ)) : (numbered points).map Point.id = List.range points.length := by
  unfold numbered
  rw [List.map_map]
  have : (Point.id ∘ fun p : (ℚ × ℚ) × ℕ => (⟨p.1.1, p.1.2, p.2⟩ : Point)) = Prod.snd := rfl
  rw [this, List.zipIdx_map_snd, List.range_eq_range']

theorem numbered_mem {points : List (ℚ × ℚ)} {p : Point} (h : p ∈ numbered points) :
    points[p.id]? = some (p.x, p.y) := by
  unfold numbered at h
  obtain ⟨q, hq, rfl⟩ := List.mem_map.1 h
  obtain ⟨q, i⟩ := q
  rw [List.mem_zipIdx_iff_getElem?] at hq
  exact hq

theorem numbered_of {points : List (ℚ × ℚ)} {i : ℕ} {p : ℚ × ℚ} (h : points[i]? = some p) :
    (⟨p.1, p.2, i⟩ : Point) ∈ numbered points := by
  unfold numbered
  exact List.mem_map.2 ⟨(p, i), List.mem_zipIdx_iff_getElem?.2 h, rfl⟩

end RgbdSlam.ConcaveHull
