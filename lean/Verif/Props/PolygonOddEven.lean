import Mathlib.Algebra.Ring.Parity
import Mathlib.Tactic.Ring
import Mathlib.Logic.Basic
import Verif.Props.PolygonAssemble
import Verif.Props.PolygonLoops
/- C177 and C178: polygons with holes, sets of polygons, and the odd-even rule. -/
namespace RgbdSlam.PolygonRepair

open Spec

variable {α P : Type*}

/-! ## C178: holes and several polygons, with the rule of the winding number -/

theorem mem_foldl_combine (points : α → Set P) (intersects : α → α → Bool) (union : α → α → List α)
    (hu : ∀ a b u, union a b = [u] → points u = points a ∪ points b) {β : Type*} (f : β → List α) (p : P) (l : List β) :
    ∀ acc : List α, p ∈ pointsOf points (l.foldl (fun acc h => combineMultiple intersects union acc (f h)) acc) ↔
      p ∈ pointsOf points acc ∨ ∃ h ∈ l, p ∈ pointsOf points (f h) := by
  induction l with
  | nil => intro acc; simp
  | cons h l ih =>
    intro acc
    rw [List.foldl_cons, ih, C146_covered intersects union points hu, Set.mem_union]
    simp only [List.mem_cons, exists_eq_or_imp, or_assoc]

/-- C178, when no loop of an outline or of a hole is in a loop which is in a third one: a point is in the repair of a list of
polygons exactly when the outline of one of them turns around it, and none of the holes of this one does.  The loops of
an outline come in decreasing order of area, they are nested or apart; unions and differences of polygons are the ones of
their sets of points.  Missing: the other nestings, for which it is false (`C178_nested_false`). -/
theorem C178_holes_partial (points : α → Set P) (intersects : α → α → Bool) (union : α → α → List α)
    (covers : α → α → Bool) (difference : List α → List α → List α)
    (hu : ∀ a b u, union a b = [u] → points u = points a ∪ points b)
    (hd : ∀ l l', pointsOf points (difference l l') = pointsOf points l \ pointsOf points l')
    (input : List (List (α × ℚ) × List (List (α × ℚ))))
    (hl : ∀ q ∈ input, ∀ pieces, pieces = q.1 ∨ pieces ∈ q.2 →
      NestedOrApart points covers pieces ∧ NoThreeNested covers pieces) (p : P) :
    p ∈ pointsOf points (correctAll intersects union covers difference input) ↔
      ∃ q ∈ input, windingAt points q.1 p ≠ 0 ∧ ∀ hole ∈ q.2, windingAt points hole p = 0 := by
  unfold correctAll
  rw [mem_foldl_combine points intersects union hu (fun q : List (α × ℚ) × List (List (α × ℚ)) =>
    correctHoles intersects union covers difference q.1 q.2) p input []]
  have h0 : p ∉ pointsOf points ([] : List α) := pointsOf_nil points p
  simp only [h0, false_or]
  refine exists_congr fun q => and_congr_right fun hq => ?_
  have hout := C145_non_zero_winding_partial points intersects union covers difference hu hd q.1 (hl q hq _ (Or.inl rfl)).1
    (hl q hq _ (Or.inl rfl)).2 p
  have hfill : p ∈ pointsOf points (difference (combineMultiple intersects union [] (fill covers q.1).1)
      (combineMultiple intersects union [] (fill covers q.1).2)) ↔ windingAt points q.1 p ≠ 0 := by
    rw [← hout, correctPolygon, hd _ []]
    simp [h0]
  rw [correctHoles, hd, Set.mem_sdiff, hfill,
    mem_foldl_combine points intersects union hu (correctPolygon intersects union covers difference) p q.2 []]
  refine and_congr_right fun _ => ?_
  simp only [h0, false_or, not_exists, not_and]
  refine forall_congr' fun hole => forall_congr' fun hh => ?_
  rw [C145_non_zero_winding_partial points intersects union covers difference hu hd hole (hl q hq _ (Or.inr hh)).1
    (hl q hq _ (Or.inr hh)).2 p, not_not]

/-! ## C177: the odd-even rule -/

section Odd

theorem around_nil (inside : α → Prop) : around inside ([] : List α) = 0 := rfl

open scoped Classical in
theorem around_cons (inside : α → Prop) (a : α) (l : List α) :
    around inside (a :: l) = around inside l + if inside a then 1 else 0 := by
  unfold around
  rw [List.countP_cons]
  simp

open scoped Classical in
theorem around_append (inside : α → Prop) (l m : List α) : around inside (l ++ m) = around inside l + around inside m := by
  unfold around
  rw [List.countP_append]

variable {inside : α → Prop} {symDiff : α → α → α} (hs : ∀ a b, inside (symDiff a b) ↔ (inside a ∧ ¬ inside b) ∨ (inside b ∧ ¬ inside a))
include hs

open scoped Classical in
theorem odd_zip (l m : List α) (h : l.length = m.length) :
    (Odd (around inside (List.zipWith (fun a b => symDiff b a) l m)) ↔ Odd (around inside l + around inside m)) := by
  induction l generalizing m with
  | nil =>
    have : m = [] := by simpa using h.symm
    subst this
    simp [around_nil]
  | cons a l ih =>
    cases m with
    | nil => simp at h
    | cons b m =>
      have := ih m (by simpa using h)
      simp only [List.zipWith_cons_cons, around_cons, hs]
      by_cases ha : inside a <;> by_cases hb : inside b <;>
        simp [ha, hb] <;> grind

omit hs in
/-- The loop of a pass. -/
theorem foldl_oddPass (d : ℕ) (l : List α) : ∀ n, n ≤ d → n + d ≤ l.length →
    (List.range n).foldl (oddStep symDiff d) l =
    List.zipWith (fun a b => symDiff b a) (l.take n) ((l.drop d).take n) ++ l.drop n := by
  intro n
  induction n with
  | zero => intro _ _; simp
  | succ n ih =>
    intro h1 h2
    rw [List.range_succ, List.foldl_append, ih (by omega) (by omega), List.foldl_cons, List.foldl_nil]
    have hlen : (List.zipWith (fun a b => symDiff b a) (l.take n) ((l.drop d).take n)).length = n := by
      simp; omega
    have g1 : (List.zipWith (fun a b => symDiff b a) (l.take n) ((l.drop d).take n) ++ l.drop n)[n + d]? = some (l[n + d]'(by omega)) := by
      rw [List.getElem?_append_right (by omega), hlen, List.getElem?_drop]
      rw [show n + (n + d - n) = n + d by omega]
      exact List.getElem?_eq_getElem (by omega)
    have g2 : (List.zipWith (fun a b => symDiff b a) (l.take n) ((l.drop d).take n) ++ l.drop n)[n]? = some (l[n]'(by omega)) := by
      rw [List.getElem?_append_right (by omega), hlen, List.getElem?_drop]
      simp
    simp only [oddStep, g1, g2]
    rw [List.set_append_right _ _ (by omega), hlen, Nat.sub_self]
    rw [List.drop_eq_getElem_cons (show n < l.length by omega), List.set_cons_zero]
    rw [show l.take (n + 1) = l.take n ++ [l[n]'(by omega)] by rw [List.take_add_one, List.getElem?_eq_getElem (by omega)]; rfl]
    have : (l.drop d).take (n + 1) = (l.drop d).take n ++ [l[n + d]'(by omega)] := by
      rw [List.take_add_one, List.getElem?_drop, show d + n = n + d by omega, List.getElem?_eq_getElem (by omega)]
      rfl
    rw [this, List.zipWith_append (by simp; omega)]
    simp

theorem oddPass_spec (l : List α) (h : 1 < l.length) :
    (oddPass symDiff l).length < l.length ∧ oddPass symDiff l ≠ [] ∧
      (Odd (around inside (oddPass symDiff l)) ↔ Odd (around inside l)) := by
  set d := l.length / 2 + l.length % 2 with hd
  set n := l.length / 2 with hn
  have e : oddPass symDiff l =
      List.zipWith (fun a b => symDiff b a) (l.take n) ((l.drop d).take n) ++ (l.drop n).take (d - n) := by
    unfold oddPass
    simp only
    rw [← hd, ← hn, foldl_oddPass d l n (by omega) (by omega), List.take_append]
    have hlen : (List.zipWith (fun a b => symDiff b a) (l.take n) ((l.drop d).take n)).length = n := by simp; omega
    rw [hlen, List.take_of_length_le (by omega)]
  have hl : (oddPass symDiff l).length = d := by rw [e]; simp; omega
  refine ⟨by omega, fun h' => by rw [h'] at hl; simp at hl; omega, ?_⟩
  have hdrop : (l.drop d).take n = l.drop d := List.take_of_length_le (by simp; omega)
  have hsplit : l = l.take n ++ ((l.drop n).take (d - n) ++ l.drop d) := by
    have : l.drop d = (l.drop n).drop (d - n) := by rw [List.drop_drop]; congr 1; omega
    rw [this, List.take_append_drop, List.take_append_drop]
  rw [e, around_append, hdrop]
  conv_rhs => rw [hsplit]
  rw [around_append, around_append]
  have := odd_zip hs (l.take n) (l.drop d) (by simp; omega)
  rw [Nat.odd_add, this, ← Nat.odd_add]
  rw [show around inside (l.take n) + (around inside ((l.drop n).take (d - n)) + around inside (l.drop d)) =
    around inside (l.take n) + around inside (l.drop d) + around inside ((l.drop n).take (d - n)) by ring]

theorem fillOddEven_spec (fuel : ℕ) : ∀ l : List α, l.length ≤ fuel + 1 →
    ∃ f, fillOddEven symDiff fuel l = .ok f ∧ f.length ≤ 1 ∧ (l = [] ↔ f = []) ∧
      (Odd (around inside f) ↔ Odd (around inside l)) := by
  induction fuel with
  | zero =>
    intro l h
    unfold fillOddEven
    rw [if_neg (by omega)]
    exact ⟨l, rfl, by omega, Iff.rfl, Iff.rfl⟩
  | succ fuel ih =>
    intro l h
    unfold fillOddEven
    by_cases h1 : 1 < l.length
    · rw [if_pos h1]
      obtain ⟨p1, p2, p3⟩ := oddPass_spec hs l h1
      obtain ⟨f, f1, f2, f3, f4⟩ := ih (oddPass symDiff l) (by omega)
      refine ⟨f, f1, f2, ⟨fun h' => ?_, fun h' => absurd (f3.2 h') p2⟩, f4.trans p3⟩
      rw [h'] at h1
      simp at h1
    · rw [if_neg h1]
      exact ⟨l, rfl, by omega, Iff.rfl, Iff.rfl⟩

theorem cut_spec {empty : α} {f : List α} {l : List α} (h1 : f.length ≤ 1) (h2 : l = [] ↔ f = [])
    (h3 : Odd (around inside f) ↔ Odd (around inside l)) (he : ¬ inside empty) (holes : α) :
    (inside (cutOddEven symDiff empty f holes) ↔ l ≠ [] ∧
      ((Odd (around inside l) ∧ ¬ inside holes) ∨ (inside holes ∧ ¬ Odd (around inside l)))) := by
  cases f with
  | nil => simp [cutOddEven, he, h2.2 rfl]
  | cons m f =>
    have : f = [] := by
      cases f with
      | nil => rfl
      | cons _ _ => simp at h1
    subst this
    have hne : l ≠ [] := fun h => by simpa using h2.1 h
    have hm : inside m ↔ Odd (around inside l) := by
      rw [← h3, around_cons, around_nil]
      by_cases h : inside m <;> simp [h]
    rw [cutOddEven, hs, hm]
    simp [hne]

theorem holes_spec {empty : α} (he : ¬ inside empty) (fuel : ℕ) (holes : List (List α))
    (hfuel : ∀ h ∈ holes, h.length ≤ fuel + 1) : ∀ acc, ∃ m, holesOddEven symDiff empty fuel holes acc = .ok m ∧
      (inside m ↔ (inside acc ∧ ¬ Odd (around inside holes.flatten)) ∨ (Odd (around inside holes.flatten) ∧ ¬ inside acc)) := by
  induction holes with
  | nil => intro acc; exact ⟨acc, rfl, by simp [around_nil]⟩
  | cons h holes ih =>
    intro acc
    obtain ⟨f, f1, f2, f3, f4⟩ := fillOddEven_spec hs fuel h (hfuel h List.mem_cons_self)
    obtain ⟨m, m1, m2⟩ := ih (fun h hh => hfuel h (List.mem_cons_of_mem _ hh)) (symDiff acc (cutOddEven symDiff empty f empty))
    refine ⟨m, by rw [holesOddEven, f1, Outcome.bind_ok, m1], ?_⟩
    have hc := cut_spec hs f2 f3 f4 he empty
    have hne : Odd (around inside h) → h ≠ [] := by rintro h1 rfl; simp [around_nil] at h1
    have hc' : inside (cutOddEven symDiff empty f empty) ↔ Odd (around inside h) := by
      rw [hc]
      constructor
      · rintro ⟨-, h1 | h1⟩
        · exact h1.1
        · exact absurd h1.1 he
      · exact fun h1 => ⟨hne h1, Or.inl ⟨h1, he⟩⟩
    rw [m2, hs, hc', List.flatten_cons, around_append, Nat.odd_add, ← Nat.not_odd_iff_even]
    by_cases h1 : inside acc <;> by_cases h2 : Odd (around inside h) <;>
      by_cases h3 : Odd (around inside holes.flatten) <;> simp [h1, h2, h3]

/-- C177, for polygons that have an outline: with the odd-even rule, a point is in the repaired polygon exactly when an odd
number of the loops of its outline and of its holes are around it.  Missing: a polygon whose outline has no loop with an
area, for which it is false (`C177_flat_false`). -/
theorem C177_odd_even_partial (empty : α) (he : ¬ inside empty) (outline : List α) (hne : outline ≠ []) (holes : List (List α))
    (fuel : ℕ) (hfuel : outline.length ≤ fuel + 1 ∧ ∀ h ∈ holes, h.length ≤ fuel + 1) :
    ∃ m, correctOddEven symDiff empty fuel outline holes = .ok m ∧
      (inside m ↔ Odd (around inside (outline ++ holes.flatten))) := by
  obtain ⟨f, f1, f2, f3, f4⟩ := fillOddEven_spec hs fuel outline hfuel.1
  obtain ⟨m, m1, m2⟩ := holes_spec hs he fuel holes hfuel.2 empty
  refine ⟨_, by rw [correctOddEven, f1, Outcome.bind_ok, m1]; rfl, ?_⟩
  rw [cut_spec hs f2 f3 f4 he m, m2, around_append, Nat.odd_add, ← Nat.not_odd_iff_even]
  by_cases h2 : Odd (around inside outline) <;> by_cases h3 : Odd (around inside holes.flatten) <;> simp [h2, h3, he, hne]

/-- C177 for several polygons. -/
theorem C177_several_partial (empty : α) (he : ¬ inside empty) (input : List (List α × List (List α)))
    (hne : ∀ q ∈ input, q.1 ≠ []) (fuel : ℕ)
    (hfuel : ∀ q ∈ input, q.1.length ≤ fuel + 1 ∧ ∀ h ∈ q.2, h.length ≤ fuel + 1) :
    ∃ m, correctAllOddEven symDiff empty fuel input empty = .ok m ∧
      (inside m ↔ Odd (around inside (input.flatMap fun q => q.1 ++ q.2.flatten))) := by
  have key : ∀ acc, ∃ m, correctAllOddEven symDiff empty fuel input acc = .ok m ∧
      (inside m ↔ (inside acc ∧ ¬ Odd (around inside (input.flatMap fun q => q.1 ++ q.2.flatten))) ∨
        (Odd (around inside (input.flatMap fun q => q.1 ++ q.2.flatten)) ∧ ¬ inside acc)) := by
    induction input with
    | nil => intro acc; exact ⟨acc, rfl, by simp [around_nil]⟩
    | cons q input ih =>
      intro acc
      obtain ⟨a, a1, a2⟩ := C177_odd_even_partial hs empty he q.1 (hne q List.mem_cons_self) q.2 fuel (hfuel q List.mem_cons_self)
      obtain ⟨m, m1, m2⟩ := ih (fun q hq => hne q (List.mem_cons_of_mem _ hq)) (fun q hq => hfuel q (List.mem_cons_of_mem _ hq))
        (symDiff acc a)
      refine ⟨m, by rw [correctAllOddEven, a1, Outcome.bind_ok, m1], ?_⟩
      rw [m2, hs, a2, List.flatMap_cons, around_append inside (q.1 ++ q.2.flatten), Nat.odd_add, ← Nat.not_odd_iff_even]
      by_cases h1 : inside acc <;> by_cases h2 : Odd (around inside (q.1 ++ q.2.flatten)) <;>
        by_cases h3 : Odd (around inside (input.flatMap fun q => q.1 ++ q.2.flatten)) <;> simp [h1, h2, h3]
  obtain ⟨m, m1, m2⟩ := key empty
  refine ⟨m, m1, ?_⟩
  rw [m2]
  simp [he]

end Odd

/-- A square with a hole and a part of the square once more: {1, 2, 3, 4}, {2}, {4}. -/
example : (correctOddEven (fun a b : Finset ℤ => (a \ b) ∪ (b \ a)) ∅ 5 [{1, 2, 3, 4}, {4}] [[{2}]]) = .ok {1, 3} := by
  decide +kernel

/-- C177 is false when the outline of a polygon has no area: its holes are lost. -/
theorem C177_flat_false :
    correctOddEven (fun a b : Finset ℤ => (a \ b) ∪ (b \ a)) ∅ 5 [] [[{1, 2}]] = .ok ∅ ∧
    around (fun a : Finset ℤ => 1 ∈ a) ([] ++ [[{1, 2}]].flatten) = 1 := by
  refine ⟨by decide +kernel, ?_⟩
  simp [around_cons, around_nil]

/-- C178 is false when three loops of an outline are nested. -/
theorem C178_nested_false :
    windingAt (fun a : Finset ℤ => (a : Set ℤ)) [({1, 2, 3}, 3), ({1, 2}, -2), ({1}, -1)] 1 = -1 ∧
    correctAll (fun a b : Finset ℤ => decide (a ∩ b ≠ ∅)) (fun a b => [a ∪ b]) (fun a b => decide (b ⊆ a))
      (fun l l' => [(l.foldl (· ∪ ·) ∅) \ (l'.foldl (· ∪ ·) ∅)])
      [([({1, 2, 3}, 3), ({1, 2}, -2), ({1}, -1)], [])] = [{3}] := by
  constructor
  · norm_num [windingAt, turnsOf]
  · decide +kernel

/-- A large loop with a hole, the repair of `C178_holes_partial`. -/
example :
    correctAll (fun a b : Finset ℤ => decide (a ∩ b ≠ ∅)) (fun a b => [a ∪ b]) (fun a b => decide (b ⊆ a))
      (fun l l' => [(l.foldl (· ∪ ·) ∅) \ (l'.foldl (· ∪ ·) ∅)])
      [([({1, 2, 3}, 3), ({1}, -1)], [[({3}, 1)]]), ([({7, 8}, 2)], [])] = [{2}, {7, 8}] := by
  decide +kernel

theorem odd_around_turns {z : Pt} {inside : α → Prop} {poly : List Pt → α} (loops : List (List Pt))
    (hpoly : ∀ r ∈ loops, (inside (poly r) ↔ Odd (turnsAround z r)))
    (hflat : ∀ r ∈ loops, area r = 0 → Even (turnsAround z r)) :
    (Odd (around inside ((piecesOf loops).map fun e => poly e.1)) ↔ Odd (loops.map (turnsAround z)).sum) := by
  classical
  induction loops with
  | nil => simp [piecesOf, around_nil]
  | cons r l ih =>
    have ih := ih (fun r hr => hpoly r (List.mem_cons_of_mem _ hr)) (fun r hr => hflat r (List.mem_cons_of_mem _ hr))
    rw [List.map_cons, List.sum_cons]
    unfold piecesOf at ih ⊢
    by_cases h : area r = 0
    · have h' : ¬ Odd (turnsAround z r) := Int.not_odd_iff_even.2 (hflat r List.mem_cons_self h)
      rw [List.filter_cons_of_neg (by simp [h]), ih, Int.odd_add]
      simp [h']
    · rw [List.filter_cons_of_pos (by simp [h]), List.map_cons, List.map_cons, around_cons, Nat.odd_add, ih]
      have := hpoly r List.mem_cons_self
      rw [Int.odd_add]
      by_cases hi : inside (poly r)
      · simp [hi, this.1 hi, ← Int.not_even_iff_odd]
      · have h' : Even (turnsAround z r) := Int.not_odd_iff_even.1 fun h => hi (this.2 h)
        simp [hi, h', ← Int.not_even_iff_odd]

/-- C177 for an outline in general position whose crossings are all kept: its loops are cut, and with the odd-even rule the
point `z` is in the result exactly when the outline turns an odd number of times around it.  `poly r` is the polygon of a loop:
`z` is in it when the loop turns an odd number of times around it.  Missing: the outlines of C176; that a loop without area
does not turn around `z`. -/
theorem C177_outline_partial (selfTurns : List Pt → List Turn) (ring : List Pt) (h3 : 3 ≤ ring.length)
    (hg : GeneralPosition (orient (close ring)) (selfTurns (orient (close ring))))
    (hk : ∀ u ∈ selfTurns (orient (close ring)), Kept (orient (close ring)) u) (fuel : ℕ)
    (hfuel : ring.length + 4 * (selfTurns (orient (close ring))).length + 2 ≤ fuel)
    (z : Pt) (inside : α → Prop) (symDiff : α → α → α) (poly : List Pt → α) (empty : α)
    (hs : ∀ a b, inside (symDiff a b) ↔ (inside a ∧ ¬ inside b) ∨ (inside b ∧ ¬ inside a)) (he : ¬ inside empty)
    (hpoly : ∀ r, Closed r → (inside (poly r) ↔ Odd (turnsAround z r))) :
    ∃ loops : List (List Pt), (∀ r ∈ loops, Closed r) ∧
      correctRing selfTurns fuel ring = .ok ((loops.filter fun r => decide (area r ≠ 0)).map fun r => (r, area r)) ∧
      ((∀ r ∈ loops, area r = 0 → Even (turnsAround z r)) →
        ∀ pieces, correctRing selfTurns fuel ring = .ok pieces → ∀ fuel', pieces.length ≤ fuel' + 1 →
          ∃ m, correctOddEven symDiff empty fuel' (pieces.map fun e => poly e.1) [] = .ok m ∧
            (inside m ↔ Odd (turnsAround z (close ring)))) := by
  obtain ⟨loops, h1, h2, h4⟩ := C176_winding_partial selfTurns ring h3 hg hk fuel hfuel
  refine ⟨loops, h1, h2, fun hflat pieces hp fuel' hf => ?_⟩
  rw [h2, Outcome.ok.injEq] at hp
  have hp : piecesOf loops = pieces := hp
  subst hp
  have hodd := odd_around_turns (inside := inside) (poly := poly) loops (fun r hr => hpoly r (h1 r hr)) hflat
  rw [h4 z] at hodd
  have hsign : (Odd ((if area (close ring) < 0 then -1 else 1) * turnsAround z (close ring)) ↔
      Odd (turnsAround z (close ring))) := by
    split_ifs
    · rw [neg_one_mul, odd_neg]
    · rw [one_mul]
  rw [hsign] at hodd
  obtain ⟨f, f1, f2, f3, f4⟩ := fillOddEven_spec hs fuel' ((piecesOf loops).map fun e => poly e.1) (by simpa using hf)
  refine ⟨_, by rw [correctOddEven, f1, Outcome.bind_ok]; rfl, ?_⟩
  rw [cut_spec hs f2 f3 f4 he empty, hodd]
  constructor
  · rintro ⟨-, h | h⟩
    · exact h.1
    · exact absurd h.1 he
  · intro h
    refine ⟨fun hn => ?_, Or.inl ⟨h, he⟩⟩
    have := hodd.2 h
    rw [hn, around_nil] at this
    simp at this

end RgbdSlam.PolygonRepair
