import Verif.Spec.PolygonOps
import Verif.Lemmas.Geometry3
import Mathlib.Tactic.Ring
import Mathlib.Tactic.Linarith
import Mathlib.Tactic.LinearCombination
import Mathlib.Tactic.NormNum
import Mathlib.Tactic.FinCases
/-
Lemmas on areas and set operations of polygons.
-/
namespace RgbdSlam.PolygonOps

open Geometry Matrix Spec
open Geometry.Spec (Orthonormal spanPoint)

/-! ### Areas -/

theorem edgeSum_append (l : List V2) (x y : V2) :
    edgeSum (l ++ [x, y]) = edgeSum (l ++ [x]) + (y 0 * x 1 - x 0 * y 1) / 2 := by
  induction l with
  | nil => simp [edgeSum]
  | cons p l ih =>
    cases l with
    | nil => simp [edgeSum]
    | cons q l =>
      simp only [List.cons_append, edgeSum] at ih ⊢
      rw [ih]; ring

theorem edgeSum_reverse (l : List V2) : edgeSum l.reverse = -edgeSum l := by
  induction l with
  | nil => simp [edgeSum]
  | cons p l ih =>
    cases l with
    | nil => simp [edgeSum]
    | cons q l =>
      rw [List.reverse_cons, List.reverse_cons, List.append_assoc, List.singleton_append, edgeSum_append,
        ← List.reverse_cons, ih]
      simp only [edgeSum]
      ring

theorem ringArea_reverse (l : List V2) : ringArea l.reverse = -ringArea l := by
  unfold ringArea
  rw [List.length_reverse]
  split
  · simp
  · exact edgeSum_reverse l

theorem closed_close (r : List V2) : Closed (close r) := by
  unfold close
  split
  · intro _
    rename_i h
    cases r with
    | nil => simp at h
    | cons p l =>
      change (p :: l ++ [p]).head? = (p :: l ++ [p]).getLast?
      rw [List.getLast?_concat]
      rfl
  · rename_i h
    intro h2
    by_contra h3
    exact h ⟨h2, h3⟩

theorem close_of_closed {r : List V2} (h : Closed r) : close r = r := by
  unfold close
  rw [if_neg]
  rintro ⟨h1, h2⟩
  exact h2 (h h1)

theorem closed_correct (r : List V2) : Closed (correct r) := by
  unfold correct
  split
  · intro h2
    rw [List.head?_reverse, List.getLast?_reverse]
    exact (closed_close r (by simpa using h2)).symm
  · exact closed_close r

theorem ringArea_correct (r : List V2) : 0 ≤ ringArea (correct r) := by
  unfold correct
  split
  · rename_i h
    rw [ringArea_reverse]
    linarith
  · rename_i h
    exact not_lt.1 h

theorem ringArea_correct_closed {r : List V2} (h : Closed r) : ringArea (correct r) = |ringArea r| := by
  unfold correct
  rw [close_of_closed h]
  split
  · rename_i h
    rw [ringArea_reverse, abs_of_neg h]
  · rename_i h
    rw [abs_of_nonneg (not_lt.1 h)]

theorem correct_of_regular {r : List V2} (h : Closed r) (h' : 0 ≤ ringArea r) : correct r = r := by
  unfold correct
  rw [close_of_closed h, if_neg (not_lt.2 h')]

theorem areaOf_noHole {s : Shape} (h : s.inners = []) : areaOf s = ringArea s.outer := by
  unfold areaOf Shape.area
  rw [h]
  split
  · rename_i h; simp [ringArea, show s.outer.length < 4 by omega]
  · simp

theorem areaOf_sides {s : Shape} (h : 3 ≤ s.outer.length) : areaOf s = s.area := by
  unfold areaOf
  rw [if_neg (by omega)]

theorem edgeSum_eq (r : List V2) :
    edgeSum r = -((r.zip r.tail).map fun e => e.1 0 * e.2 1 - e.2 0 * e.1 1).sum / 2 := by
  induction r with
  | nil => simp [edgeSum]
  | cons p l ih =>
    cases l with
    | nil => simp [edgeSum]
    | cons q l =>
      simp only [edgeSum, List.tail_cons, List.zip_cons_cons, List.map_cons, List.sum_cons] at ih ⊢
      rw [ih]; ring

theorem abs_ringArea {r : List V2} (h : Closed r) (h2 : r.length ≠ 2) : |ringArea r| = shoelace r := by
  have e : |edgeSum r| = shoelace r := by
    rw [edgeSum_eq, shoelace, neg_div, abs_neg, abs_div]
    norm_num
  unfold ringArea
  split
  · rename_i hl
    rw [← e]
    match r, hl, h with
    | [], _, _ => simp [edgeSum]
    | [p], _, _ => simp [edgeSum]
    | [p, q], _, _ => simp at h2
    | [p, q, s], _, h =>
      have := h (by simp)
      simp only [List.head?_cons, List.getLast?_cons_cons, List.getLast?_singleton, Option.some.injEq] at this
      subst this
      simp only [edgeSum]
      ring_nf
      simp
    | _ :: _ :: _ :: _ :: _, hl, _ => simp at hl; omega
  · exact e

/-- Area of the image of a ring by an affine map. -/
theorem edgeSum_affine (a b c d e f : ℝ) (p : V2) (l : List V2) :
    edgeSum ((p :: l).map fun v => ![a * v 0 + b * v 1 + e, c * v 0 + d * v 1 + f]) =
      (a * d - b * c) * edgeSum (p :: l) +
      (f * (a * ((p :: l).getLast (by simp) 0 - p 0) + b * ((p :: l).getLast (by simp) 1 - p 1)) -
       e * (c * ((p :: l).getLast (by simp) 0 - p 0) + d * ((p :: l).getLast (by simp) 1 - p 1))) / 2 := by
  induction l generalizing p with
  | nil => simp [edgeSum]
  | cons q l ih =>
    have := ih q
    simp only [List.map_cons, edgeSum, List.getLast_cons_cons] at this ⊢
    rw [this]
    simp
    ring

theorem ringArea_affine (a b c d e f : ℝ) {r : List V2} (h : Closed r) :
    ringArea (r.map fun v => ![a * v 0 + b * v 1 + e, c * v 0 + d * v 1 + f]) =
      (a * d - b * c) * ringArea r := by
  unfold ringArea
  rw [List.length_map]
  split
  · simp
  · rename_i hl
    match r, h, hl with
    | [], _, hl => simp at hl
    | p :: l, h, hl =>
      have := h (by omega)
      rw [List.getLast?_eq_some_getLast (by simp), List.head?_cons] at this
      rw [edgeSum_affine, ← Option.some.inj this]
      ring

theorem closed_map (g : V2 → V2) {r : List V2} (h : Closed r) : Closed (r.map g) := by
  intro hl
  rw [List.head?_map, List.getLast?_map, h (by simpa using hl)]

/-! ### The biggest part -/

/-- What the loop over the parts has found after the first `k` parts. -/
theorem biggest_loop (s : Shape) (l : List Shape) (k : ℕ) (hk : k ≤ (s :: l).length) :
    ∃ f big, (List.range k).foldl biggestStep (s :: l, 0) = (f :: l, big) ∧ f ∈ s :: l ∧ 0 ≤ big ∧
      (∀ i q, i < k → (s :: l)[i]? = some q → q.area ≤ big) ∧
      (0 < big → f.area = big) ∧ (big = 0 → f = s) ∧ (k = 0 → big = 0) := by
  induction k with
  | zero =>
    exact ⟨s, 0, rfl, by simp, le_refl _, by simp, fun h => absurd h (lt_irrefl _), fun _ => rfl,
      fun _ => rfl⟩
  | succ k ih =>
    obtain ⟨f, big, h1, hf, h2, h3, h4, h5, h6⟩ := ih (by omega)
    rw [List.range_succ, List.foldl_append, List.foldl_cons, List.foldl_nil, h1]
    obtain ⟨p, hp, hp'⟩ : ∃ p, (s :: l)[k]? = some p ∧ (f :: l)[k]? = some p := by
      cases k with
      | zero => exact ⟨s, rfl, by rw [h5 (h6 rfl)]; rfl⟩
      | succ k =>
        have : k < l.length := by simpa using hk
        exact ⟨l[k], by simp [this], by simp [this]⟩
    have hpm : p ∈ s :: l := List.mem_of_getElem? hp
    unfold biggestStep
    rw [hp']
    dsimp only
    split
    · rename_i hlt
      refine ⟨p, p.area, by simp, hpm, h2.trans hlt.le, ?_, fun _ => rfl,
        fun h => absurd hlt (by rw [h]; exact not_lt.2 h2), by simp⟩
      intro i q hi hq
      rcases Nat.lt_succ_iff_lt_or_eq.1 hi with hi | rfl
      · exact (h3 i q hi hq).trans hlt.le
      · rw [hp] at hq; rw [Option.some.inj hq]
    · rename_i hlt
      refine ⟨f, big, rfl, hf, h2, ?_, h4, h5, by simp⟩
      intro i q hi hq
      rcases Nat.lt_succ_iff_lt_or_eq.1 hi with hi | rfl
      · exact h3 i q hi hq
      · rw [hp] at hq; rw [← Option.some.inj hq]; exact not_lt.1 hlt

theorem biggest_ok {res : List Shape} {s : Shape} (h : biggest res = .ok s) (hne : res ≠ []) :
    s ∈ res ∧ ∀ q ∈ res, q.area ≤ s.area := by
  match res, hne with
  | [t], _ =>
    obtain rfl := Outcome.ok.inj h
    simp
  | t :: u :: l, _ =>
    obtain ⟨f, big, h1, hf, h2, h3, h4, -, -⟩ := biggest_loop t (u :: l) (t :: u :: l).length le_rfl
    unfold biggest at h
    simp only [h1] at h
    split at h
    · cases h
    · rename_i hb
      have hb := not_le.1 hb
      obtain rfl : f = s := by simpa using h
      refine ⟨hf, fun q hq => ?_⟩
      obtain ⟨i, hi, rfl⟩ := List.mem_iff_getElem.1 hq
      rw [h4 hb]
      exact h3 i _ hi (by simp [hi])

theorem biggest_throws_iff (res : List Shape) :
    biggest res = .throws ↔ 2 ≤ res.length ∧ ∀ q ∈ res, q.area ≤ 0 := by
  match res with
  | [] => simp [biggest]
  | [t] => simp [biggest]
  | t :: u :: l =>
    obtain ⟨f, big, h1, hf, h2, h3, h4, -, -⟩ := biggest_loop t (u :: l) (t :: u :: l).length le_rfl
    unfold biggest
    simp only [h1]
    constructor
    · intro h
      split at h
      · rename_i hb
        refine ⟨by simp, fun q hq => ?_⟩
        obtain ⟨i, hi, rfl⟩ := List.mem_iff_getElem.1 hq
        exact (h3 i _ hi (by simp [hi])).trans hb
      · cases h
    · rintro ⟨-, h⟩
      rw [if_pos]
      by_contra hb
      have hb := not_le.1 hb
      have := h f hf
      rw [h4 hb] at this
      linarith

theorem biggest_total (res : List Shape) : biggest res = .throws ∨ ∃ s, biggest res = .ok s := by
  match res with
  | [] => exact .inr ⟨_, rfl⟩
  | [t] => exact .inr ⟨_, rfl⟩
  | t :: u :: l =>
    unfold biggest
    dsimp only
    split
    · exact .inl rfl
    · exact .inr ⟨_, rfl⟩

/-! ### Placing polygons -/

/-- The position of a polygon, without its area. -/
def Poly.place (P : Poly) : Geometry.Polygon := ⟨P.shape.outer, P.center, P.xAxis, P.yAxis⟩

theorem make_place (b : List V2) (x y center : V3) :
    Poly.make b x y center =
      (Geometry.Polygon.make b x y center).bind fun Q => Poly.make Q.boundary x y center := by
  unfold Geometry.Polygon.make
  by_cases h : axesOk x y = true
  · rw [if_pos h]; rfl
  · rw [if_neg h, Poly.make, if_neg h]; rfl

theorem make_place' (b : List V2) (x y center : V3) :
    Poly.make b x y center =
      (Geometry.Polygon.make b x y center).bind fun Q => Poly.make Q.boundary Q.xAxis Q.yAxis Q.center := by
  unfold Geometry.Polygon.make
  by_cases h : axesOk x y = true
  · rw [if_pos h]; rfl
  · rw [if_neg h, Poly.make, if_neg h]; rfl

theorem project_place (P : Poly) (x y center : V3)
    (hne : (isApprox P.center center && isApprox P.xAxis x && isApprox P.yAxis y) = false) :
    P.project x y center = (P.place.project x y center).bind fun Q => Poly.make Q.boundary x y center := by
  unfold Poly.project Geometry.Polygon.project Poly.place
  dsimp only
  split
  · rfl
  split
  · rfl
  rw [if_neg (by simp [hne]), if_neg (by simp [hne])]
  generalize mapOutcome _ P.shape.outer = m
  cases m with
  | ok b => exact make_place b x y center
  | _ => rfl

theorem transform_place (P : Poly) (x y center : V3)
    (hne : (isApprox P.center center && isApprox P.xAxis x && isApprox P.yAxis y) = false) :
    P.transform x y center =
      (P.place.transform x y center).bind fun Q => Poly.make Q.boundary x y center := by
  unfold Poly.transform Geometry.Polygon.transform
  split
  · rfl
  split
  · rfl
  rw [if_neg (by simp [hne]), if_neg (by simp [Poly.place, hne])]
  change _ = ((frameChange P.xAxis P.yAxis P.center x y center).bind fun M =>
    (P.transformBoundary M x y center).bind fun b => Geometry.Polygon.make b x y center).bind _
  cases frameChange P.xAxis P.yAxis P.center x y center with
  | ok M =>
    simp only [Outcome.bind]
    cases P.transformBoundary M x y center with
    | ok b =>
      exact make_place b x y center
    | _ => rfl
  | _ => rfl

theorem changeFrame_place (toNew : V3 → V3) (P : Poly) (M : M4) :
    P.changeFrame toNew M =
      (P.place.changeFrame toNew M).bind fun Q => Poly.make Q.boundary Q.xAxis Q.yAxis Q.center := by
  unfold Poly.changeFrame Geometry.Polygon.changeFrame
  dsimp only
  change _ = (if !axesOk (normalized (rotation M *ᵥ P.xAxis)) (normalized (rotation M *ᵥ P.yAxis)) then _
    else (P.transformBoundary M (normalized (rotation M *ᵥ P.xAxis)) (normalized (rotation M *ᵥ P.yAxis))
      (toNew P.center)).bind fun b => Geometry.Polygon.make b (normalized (rotation M *ᵥ P.xAxis))
        (normalized (rotation M *ᵥ P.yAxis)) (toNew P.center)).bind _
  split
  · rfl
  · generalize P.transformBoundary M _ _ _ = m
    cases m with
    | ok b => exact make_place' b _ _ _
    | _ => rfl

theorem make_ok {x y : V3} (h : Orthonormal x y) (b : List V2) (center : V3) :
    Poly.make b x y center = .ok
      { shape := ⟨correct b, []⟩, center := center, xAxis := x, yAxis := y,
        cached := areaOf ⟨correct b, []⟩ } := by
  unfold Poly.make
  rw [axesOk_of h, if_pos rfl]

theorem place_project {P : Poly} (hP : Orthonormal P.xAxis P.yAxis) {x y center : V3} (h : Orthonormal x y)
    (hne : (isApprox P.center center && isApprox P.xAxis x && isApprox P.yAxis y) = false) :
    P.project x y center = Poly.make (P.shape.outer.map fun v =>
      ![(x ⬝ᵥ P.xAxis) * v 0 + (x ⬝ᵥ P.yAxis) * v 1 + x ⬝ᵥ (P.center - center),
        (y ⬝ᵥ P.xAxis) * v 0 + (y ⬝ᵥ P.yAxis) * v 1 + y ⬝ᵥ (P.center - center)]) x y center := by
  have hxn := norm_of_unit ((unitVec_iff x).1 h.unitX)
  have hxy : x ⬝ᵥ y = 0 := h.right
  unfold Poly.project
  rw [if_neg (by simp [hxn, doubleEqual_self _ doubleEps_nonneg]), if_neg (by rw [hxy]; norm_num),
    if_neg (by simp [hne])]
  rw [mapOutcome_ok (g := fun v => ![(x ⬝ᵥ P.xAxis) * v 0 + (x ⬝ᵥ P.yAxis) * v 1 + x ⬝ᵥ (P.center - center),
        (y ⬝ᵥ P.xAxis) * v 0 + (y ⬝ᵥ P.yAxis) * v 1 + y ⬝ᵥ (P.center - center)])]
  · rfl
  · intro v _
    rw [liftFromBasis_ok hP, Outcome.bind_ok, projectOnBasis_ok h]
    congr 1
    simp only [dot3, spanPoint, Pi.sub_apply]
    ext i
    fin_cases i <;> simp <;> ring

end RgbdSlam.PolygonOps
