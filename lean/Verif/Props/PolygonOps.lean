import Verif.Lemmas.PolygonOps
import Verif.Props.Geometry
import Mathlib.Tactic.FieldSimp
import Mathlib.Tactic.Positivity
/-
Properties of the areas and set operations of polygons.

C107: the area of a polygon is up to date; C108: area of moved and projected polygons; C109: biggest part of
a union; C110: intersection over union; C111: merging keeps the area; C112: visibility.
-/
set_option linter.unusedSimpArgs false

namespace RgbdSlam.PolygonOps

open Geometry Matrix Spec
open Geometry.Spec (Orthonormal UnitQuat UnitVec spanPoint Orthogonal)

/-! ### C107 -/

theorem simplify_upToDate {B : Boost} (hB : ValidHasSides B) (t : ℝ) (P : Poly) :
    (P.simplify B t).cached = areaOf (P.simplify B t).shape := by
  unfold Poly.simplify
  dsimp only
  split
  · rename_i h
    have := hB _ h.1
    exact (areaOf_sides (by omega)).symm
  · rfl

theorem make_upToDate {b : List V2} {x y c : V3} {P : Poly} (h : Poly.make b x y c = .ok P) :
    P.cached = areaOf P.shape := by
  unfold Poly.make at h
  split at h
  · obtain rfl := Outcome.ok.inj h; rfl
  · cases h

theorem project_upToDate {P P' : Poly} {x y c : V3} (hP : P.cached = areaOf P.shape)
    (h : P.project x y c = .ok P') : P'.cached = areaOf P'.shape := by
  unfold Poly.project at h
  split at h
  · cases h
  split at h
  · cases h
  split at h
  · obtain rfl := Outcome.ok.inj h; exact hP
  · obtain ⟨b, -, h⟩ := Outcome.bind_eq_ok h
    exact make_upToDate h

theorem transform_upToDate {P P' : Poly} {x y c : V3} (hP : P.cached = areaOf P.shape)
    (h : P.transform x y c = .ok P') : P'.cached = areaOf P'.shape := by
  unfold Poly.transform at h
  split at h
  · cases h
  split at h
  · cases h
  split at h
  · obtain rfl := Outcome.ok.inj h; exact hP
  · obtain ⟨M, -, h⟩ := Outcome.bind_eq_ok h
    obtain ⟨b, -, h⟩ := Outcome.bind_eq_ok h
    exact make_upToDate h

theorem changeFrame_upToDate {P P' : Poly} {f : V3 → V3} {M : M4} (h : P.changeFrame f M = .ok P') :
    P'.cached = areaOf P'.shape := by
  unfold Poly.changeFrame at h
  dsimp only at h
  split at h
  · cases h
  · obtain ⟨b, -, h⟩ := Outcome.bind_eq_ok h
    exact make_upToDate h

theorem mergeUnion_upToDate {B : Boost} (hB : ValidHasSides B) {P Q P' : Poly}
    (hP : P.cached = areaOf P.shape) (h : P.mergeUnion B Q = .ok P') : P'.cached = areaOf P'.shape := by
  unfold Poly.mergeUnion at h
  obtain ⟨R, -, h⟩ := Outcome.bind_eq_ok h
  obtain ⟨u, -, h⟩ := Outcome.bind_eq_ok h
  split at h
  · obtain rfl := Outcome.ok.inj h; exact hP
  · obtain rfl := Outcome.ok.inj h; exact simplify_upToDate hB _ _

theorem step_upToDate {B : Boost} (hB : ValidHasSides B) {P P' : Poly} (hP : P.cached = areaOf P.shape)
    (op : Op) (h : P.step B op = .ok P') : P'.cached = areaOf P'.shape := by
  cases op with
  | projectNormal n c =>
    simp only [Poly.step, Poly.projectNormal] at h
    split at h
    · cases h
    · obtain ⟨a, -, h⟩ := Outcome.bind_eq_ok h
      exact project_upToDate hP h
  | project x y c => exact project_upToDate hP h
  | transformNormal n c =>
    simp only [Poly.step, Poly.transformNormal] at h
    split at h
    · cases h
    · obtain ⟨a, -, h⟩ := Outcome.bind_eq_ok h
      split at h
      · obtain rfl := Outcome.ok.inj h; exact hP
      · exact transform_upToDate hP h
  | transform x y c => exact transform_upToDate hP h
  | toWorld M => exact changeFrame_upToDate h
  | toCamera M => exact changeFrame_upToDate h
  | mergeUnion Q => exact mergeUnion_upToDate hB hP h
  | merge Q =>
    simp only [Poly.step, Poly.merge] at h
    obtain ⟨R, -, h⟩ := Outcome.bind_eq_ok h
    exact mergeUnion_upToDate hB hP h
  | simplify t =>
    obtain rfl := Outcome.ok.inj h
    exact simplify_upToDate hB t P

theorem run_upToDate {B : Boost} (hB : ValidHasSides B) (ops : List Op) {P P' : Poly}
    (hP : P.cached = areaOf P.shape) (h : P.run B ops = .ok P') : P'.cached = areaOf P'.shape := by
  induction ops generalizing P with
  | nil => obtain rfl := Outcome.ok.inj h; exact hP
  | cons op ops ih =>
    obtain ⟨Q, h1, h⟩ := Outcome.bind_eq_ok h
    exact ih (step_upToDate hB hP op h1) h

/-- C107: whatever was done to a polygon since its construction from points or from a boundary, the area
it reports is the area of its present boundary. -/
theorem C107_area_up_to_date {B : Boost} (hB : ValidHasSides B) (ops : List Op) (P P' : Poly)
    (start : (∃ points normal center, Poly.fit B points normal center = .ok P) ∨
      ∃ boundary x y center, Poly.make boundary x y center = .ok P)
    (h : P.run B ops = .ok P') : P'.cached = areaOf P'.shape := by
  refine run_upToDate hB ops ?_ h
  rcases start with ⟨points, n, c, hs⟩ | ⟨b, x, y, c, hs⟩
  · unfold Poly.fit at hs
    split at hs
    · cases hs
    split at hs
    · cases hs
    obtain ⟨a, -, hs⟩ := Outcome.bind_eq_ok hs
    obtain ⟨b, -, hs⟩ := Outcome.bind_eq_ok hs
    obtain rfl := Outcome.ok.inj hs
    exact simplify_upToDate hB _ _
  · exact make_upToDate hs

/-- C107: the area of a polygon built from a boundary (of at least three points) is the area inside this
boundary, whichever way it turns, closed or not. -/
theorem C107_area_of_boundary {x y : V3} (h : Orthonormal x y) (boundary : List V2) (center : V3)
    (hl : 3 ≤ boundary.length) :
    ∃ P, Poly.make boundary x y center = .ok P ∧ P.cached = shoelace (close boundary) := by
  refine ⟨_, make_ok h boundary center, ?_⟩
  have hc := closed_close boundary
  have e : correct boundary = correct (close boundary) := by
    unfold correct; rw [close_of_closed hc]
  dsimp only
  rw [areaOf_noHole rfl]
  dsimp only
  rw [e, ringArea_correct_closed hc, abs_ringArea hc]
  unfold close
  split
  · rw [List.length_append]; omega
  · omega

/-- A counter clockwise open square of side 2 becomes a polygon of area 4. -/
example : ∃ P, Poly.make [![0, 0], ![2, 0], ![2, 2], ![0, 2]] ![1, 0, 0] ![0, 1, 0] ![0, 0, 0] = .ok P ∧
    P.cached = 4 := by
  obtain ⟨P, h, e⟩ := C107_area_of_boundary (x := ![1, 0, 0]) (y := ![0, 1, 0])
    (by constructor <;> simp [UnitVec, Orthogonal, Fin.sum_univ_three])
    [![0, 0], ![2, 0], ![2, 2], ![0, 2]] ![0, 0, 0] (by simp)
  refine ⟨P, h, ?_⟩
  rw [e, close, if_pos]
  · simp [shoelace]; norm_num
  · refine ⟨by simp, ?_⟩
    intro h
    have := congrFun (Option.some.inj h) 1
    simp at this

/-! ### C108 -/

theorem make_regular {b : List V2} {x y c : V3} {P : Poly} (h : Poly.make b x y c = .ok P) : Regular P := by
  unfold Poly.make at h
  split at h
  · obtain rfl := Outcome.ok.inj h
    exact ⟨rfl, closed_correct b, ringArea_correct b⟩
  · cases h

/-- C108 (partial: polygons without hole): projected on another plane, a polygon has its area multiplied by
the cosine of the angle between the planes. -/
theorem C108_projected_area_partial {P : Poly} (hr : Regular P) (hP : Orthonormal P.xAxis P.yAxis)
    {x y center : V3} (h : Orthonormal x y)
    (hne : (isApprox P.center center && isApprox P.xAxis x && isApprox P.yAxis y) = false) :
    ∃ P', P.project x y center = .ok P' ∧ Regular P' ∧
      P'.cached = |cosine P.xAxis P.yAxis x y| * areaOf P.shape := by
  rw [place_project hP h hne]
  refine ⟨_, make_ok h _ center, make_regular (make_ok h _ center), ?_⟩
  dsimp only
  rw [areaOf_noHole rfl, areaOf_noHole hr.noHole]
  dsimp only
  rw [ringArea_correct_closed (closed_map _ hr.closed), ringArea_affine _ _ _ _ _ _ hr.closed, abs_mul,
    abs_of_nonneg hr.clockwise]
  congr 2
  simp only [cosine, dot3]
  ring

/-- C108 (partial: polygons without hole): a polygon moved from the camera frame to the world frame or back
has the same boundary in its plane, and the same area. -/
theorem C108_area_kept_partial {q : Quat} (hq : UnitQuat q) (p : V3) {P : Poly} (hr : Regular P)
    (hP : Orthonormal P.xAxis P.yAxis) :
    (∃ P', P.toWorld (cameraToWorld q p) = .ok P' ∧ P'.shape = P.shape ∧ P'.cached = areaOf P.shape) ∧
    ∃ P', P.toCamera (worldToCamera q p) = .ok P' ∧ P'.shape = P.shape ∧ P'.cached = areaOf P.shape := by
  have key : ∀ (R : M3) (t : V3) (f : V3 → V3), Rᵀ * R = 1 → f P.center = R *ᵥ P.center + t →
      ∃ P', P.changeFrame f (transformation R t) = .ok P' ∧ P'.shape = P.shape ∧
        P'.cached = areaOf P.shape := by
    intro R t f hR hf
    rw [changeFrame_place, polygon_changeFrame (P := P.place) hR t hP hf, Outcome.bind_ok]
    have e : correct P.place.boundary = P.shape.outer := correct_of_regular hr.closed hr.clockwise
    have e2 : (⟨P.shape.outer, []⟩ : Shape) = P.shape := by rw [← hr.noHole]
    refine ⟨_, make_ok (changed_axes hR hP) _ _, ?_, ?_⟩
    · dsimp only; rw [e, e2]
    · dsimp only; rw [e, e2]
  obtain ⟨R, t, hR, e⟩ := cameraToWorld_rigid hq p
  constructor
  · rw [e]
    exact key R t _ hR (pointToWorld_transformation R t P.center)
  · rw [worldToCamera, worldToCameraOf, e, transformation_inv hR]
    exact key Rᵀ _ _ (by rw [Matrix.transpose_transpose]; exact orthogonal_comm hR)
      (pointToCamera_transformation _ _ P.center)

/-- C108 (partial: polygons without hole): `transform` keeps the area. -/
theorem C108_transform_partial {P : Poly} (hr : Regular P) (hP : Orthonormal P.xAxis P.yAxis)
    {x y center : V3} (h : Orthonormal x y)
    (hne : (isApprox P.center center && isApprox P.xAxis x && isApprox P.yAxis y) = false) :
    ∃ P', P.transform x y center = .ok P' ∧ Regular P' ∧ P'.cached = areaOf P.shape := by
  obtain ⟨R, Q, -, -, -, hQ, -, -, -, hb⟩ := C75_offset_partial (P := P.place) hP h hne
  rw [transform_place P x y center hne, hQ, Outcome.bind_ok]
  refine ⟨_, make_ok h _ center, make_regular (make_ok h _ center), ?_⟩
  dsimp only
  have e : Q.boundary = P.shape.outer.map fun v =>
      ![1 * v 0 + 0 * v 1 + x ⬝ᵥ (R *ᵥ P.place.center - P.place.center),
        0 * v 0 + 1 * v 1 + y ⬝ᵥ (R *ᵥ P.place.center - P.place.center)] := by
    rw [hb]
    apply List.map_congr_left
    intro v _
    ext i; fin_cases i <;> simp
  rw [areaOf_noHole rfl, areaOf_noHole hr.noHole, e]
  dsimp only
  rw [ringArea_correct_closed (closed_map _ hr.closed), ringArea_affine _ _ _ _ _ _ hr.closed]
  norm_num
  exact hr.clockwise

/-- A square of side 4 with a square hole of side 2, and its place. -/
noncomputable def holed : Poly where
  shape := ⟨[![0, 0], ![0, 4], ![4, 4], ![4, 0], ![0, 0]], [[![1, 1], ![3, 1], ![3, 3], ![1, 3], ![1, 1]]]⟩
  center := 0
  xAxis := ![1, 0, 0]
  yAxis := ![0, 1, 0]
  cached := 12

theorem holed_axes : Orthonormal holed.xAxis holed.yAxis := by
  constructor <;> simp [holed, UnitVec, Orthogonal, Fin.sum_univ_three]

/-- A square of side 4. -/
noncomputable def square : Poly :=
  { holed with shape := ⟨[![0, 0], ![0, 4], ![4, 4], ![4, 0], ![0, 0]], []⟩, cached := 16 }

/-- A boost for the examples: every union is the square with a hole, nothing can be simplified, and the
intersection is the given list. -/
noncomputable def exampleBoost (inter : List Shape) : Boost where
  union _ _ := [holed.shape]
  inter _ _ := inter
  interOk _ _ := true
  simplify s _ := s
  valid _ := false
  repair _ := []
  convexHull _ := ⟨[], []⟩
  concaveHull _ := ⟨[], []⟩

/-- C108 is false for a polygon with a hole, which a union can give (two facing U shapes): the hole is lost
by a change of frame, so that the area grows. -/
theorem C108_hole_lost_false :
    ∃ (B : Boost) (P0 Q P P' : Poly), P0.mergeUnion B Q = .ok P ∧ P.cached = areaOf P.shape ∧
      Orthonormal P.xAxis P.yAxis ∧
      P.toWorld (cameraToWorld ⟨1, 0, 0, 0⟩ 0) = .ok P' ∧ P.cached = 12 ∧ P'.cached = 16 := by
  have ha : holed.cached = areaOf holed.shape := by
    norm_num [holed, areaOf, Shape.area, ringArea, edgeSum]
  obtain ⟨R, t, hR, e⟩ := cameraToWorld_rigid (q := ⟨1, 0, 0, 0⟩) (by simp [UnitQuat]) 0
  have hw : holed.toWorld (cameraToWorld ⟨1, 0, 0, 0⟩ 0) =
      .ok ⟨⟨correct holed.place.boundary, []⟩, R *ᵥ holed.center + t, R *ᵥ holed.xAxis, R *ᵥ holed.yAxis,
        areaOf ⟨correct holed.place.boundary, []⟩⟩ := by
    rw [e, Poly.toWorld, changeFrame_place,
      polygon_changeFrame (P := holed.place) hR t holed_axes (pointToWorld_transformation R t _),
      Outcome.bind_ok]
    exact make_ok (changed_axes hR holed_axes) _ _
  refine ⟨exampleBoost [], square, square, holed, _, ?_, ha, holed_axes, hw, rfl, ?_⟩
  · have hp : square.project square.xAxis square.yAxis square.center = .ok square := by
      simp [Poly.project, square, holed, isApprox, Geometry.norm, doubleEqual, doubleEps]
    simp only [Poly.mergeUnion, Poly.unionOne, hp, Outcome.bind_ok, exampleBoost, biggest]
    rw [if_neg (by simp [holed])]
    simp [Poly.simplify, square, ← ha]
  · have hc : Closed holed.place.boundary := by intro _; simp [Poly.place, holed]
    dsimp only
    rw [areaOf_noHole rfl]
    dsimp only
    rw [ringArea_correct_closed hc]
    norm_num [Poly.place, holed, ringArea, edgeSum]

/-- A polygon without hole: the square meets the hypotheses of the theorems above. -/
example : Regular square ∧ Orthonormal square.xAxis square.yAxis :=
  ⟨⟨rfl, fun _ => by simp [square], by norm_num [square, ringArea, edgeSum]⟩, holed_axes⟩

/-! ### C109 -/

/-- C109: the union of two polygons that is kept is the biggest part of their union, if there is one; the
same for the intersection.  Both throw exactly when there are several parts and none has an area. -/
theorem C109_biggest_part (B : Boost) (P Q R : Poly)
    (hR : Q.project P.xAxis P.yAxis P.center = .ok R) :
    (∀ s, P.unionOne B Q = .ok s → B.union P.shape R.shape ≠ [] →
      s ∈ B.union P.shape R.shape ∧ ∀ t ∈ B.union P.shape R.shape, t.area ≤ s.area) ∧
    (∀ s, P.interOne B Q = .ok s → B.inter P.shape R.shape ≠ [] →
      s ∈ B.inter P.shape R.shape ∧ ∀ t ∈ B.inter P.shape R.shape, t.area ≤ s.area) ∧
    (P.unionOne B Q = .throws ↔ 2 ≤ (B.union P.shape R.shape).length ∧
      ∀ t ∈ B.union P.shape R.shape, t.area ≤ 0) ∧
    (P.interOne B Q = .throws ↔ 2 ≤ (B.inter P.shape R.shape).length ∧
      ∀ t ∈ B.inter P.shape R.shape, t.area ≤ 0) := by
  simp only [Poly.unionOne, Poly.interOne, hR, Outcome.bind_ok]
  exact ⟨fun s h hne => biggest_ok h hne, fun s h hne => biggest_ok h hne, biggest_throws_iff _,
    biggest_throws_iff _⟩

/-- With two parts, of areas 1 and 12, the second one is kept. -/
example : ∃ s, square.interOne (exampleBoost
    [⟨[![0, 0], ![0, 1], ![1, 1], ![1, 0], ![0, 0]], []⟩, holed.shape]) square = .ok s ∧ s.area = 12 := by
  have hp : square.project square.xAxis square.yAxis square.center = .ok square := by
    simp [Poly.project, square, holed, isApprox, Geometry.norm, doubleEqual, doubleEps]
  obtain ⟨-, h1, -, h2⟩ := C109_biggest_part (exampleBoost
    [⟨[![0, 0], ![0, 1], ![1, 1], ![1, 0], ![0, 0]], []⟩, holed.shape]) square square square hp
  have hb : holed.shape.area = 12 := by norm_num [holed, Shape.area, ringArea, edgeSum]
  have hs : (⟨[![0, 0], ![0, 1], ![1, 1], ![1, 0], ![0, 0]], []⟩ : Shape).area = 1 := by
    norm_num [Shape.area, ringArea, edgeSum]
  obtain ⟨s, h⟩ : ∃ s, square.interOne (exampleBoost
      [⟨[![0, 0], ![0, 1], ![1, 1], ![1, 0], ![0, 0]], []⟩, holed.shape]) square = .ok s := by
    rcases biggest_total ((exampleBoost
      [⟨[![0, 0], ![0, 1], ![1, 1], ![1, 0], ![0, 0]], []⟩, holed.shape]).inter square.shape square.shape)
      with h | ⟨s, h⟩
    · have h' := h2.1 (by simp only [Poly.interOne, hp, Outcome.bind_ok]; exact h)
      have := h'.2 holed.shape (by simp [exampleBoost])
      rw [hb] at this
      norm_num at this
    · exact ⟨s, by simp only [Poly.interOne, hp, Outcome.bind_ok]; exact h⟩
  refine ⟨s, h, ?_⟩
  obtain ⟨hm, hx⟩ := h1 s h (by simp [exampleBoost])
  have hge := hx holed.shape (by simp [exampleBoost])
  simp only [exampleBoost, List.mem_cons, List.not_mem_nil, or_false] at hm
  rcases hm with rfl | rfl
  · rw [hs, hb] at hge; norm_num at hge
  · exact hb

/-! ### C110 -/

theorem isApprox_self {n : ℕ} (v : Fin n → ℝ) : isApprox v v = true := by
  have h : 0 ≤ v ⬝ᵥ v := by
    rw [dot_eq]; exact Finset.sum_nonneg fun i _ => mul_self_nonneg _
  simp only [isApprox, sub_self, zero_dotProduct, min_self, decide_eq_true_eq]
  positivity

theorem project_again {Q R : Poly} {x y c : V3} (hR : Q.project x y c = .ok R) :
    R.project x y c = .ok R := by
  unfold Poly.project at hR ⊢
  split at hR
  · cases hR
  rename_i h1
  rw [if_neg h1]
  split at hR
  · cases hR
  rename_i h2
  rw [if_neg h2]
  split at hR
  · rename_i h3
    obtain rfl := Outcome.ok.inj hR
    rw [if_pos h3]
  · obtain ⟨b, -, hm⟩ := Outcome.bind_eq_ok hR
    unfold Poly.make at hm
    split at hm
    · obtain rfl := Outcome.ok.inj hm
      rw [if_pos (by simp [isApprox_self])]
    · cases hm

/-- C110: the overlap of two polygons is a number between 0 and 1. -/
theorem C110_between_zero_and_one_partial {B : Boost} (hB : InterInsideUnion B) (P Q : Poly) (r : ℝ)
    (h : P.interOverUnion B Q = .ok r) : 0 ≤ r ∧ r ≤ 1 := by
  unfold Poly.interOverUnion at h
  obtain ⟨R, hR, h⟩ := Outcome.bind_eq_ok h
  obtain ⟨u, hu, h⟩ := Outcome.bind_eq_ok h
  split at h
  · obtain rfl := Outcome.ok.inj h; norm_num
  rename_i hl
  split at h
  · obtain rfl := Outcome.ok.inj h; norm_num
  rename_i hp
  obtain ⟨i, hi, h⟩ := Outcome.bind_eq_ok h
  split at h
  · obtain rfl := Outcome.ok.inj h; norm_num
  rename_i hq
  obtain rfl := Outcome.ok.inj h
  have hp := not_le.1 hp
  have hq := not_le.1 hq
  refine ⟨by positivity, ?_⟩
  rw [div_le_one hp]
  obtain ⟨hb, hb', -, -⟩ := C109_biggest_part B P R R (project_again hR)
  have hne : B.inter P.shape R.shape ≠ [] := by
    intro he
    simp only [Poly.interOne, project_again hR, Outcome.bind_ok, he, biggest, Outcome.ok.injEq] at hi
    rw [← hi] at hq
    simp [Shape.area, ringArea] at hq
  have hm := hb' i hi hne
  obtain ⟨v, hv, hiv⟩ := hB _ _ i hm.1
  have hne' : B.union P.shape R.shape ≠ [] := List.ne_nil_of_mem hv
  exact hiv.trans ((hb u hu hne').2 v hv)

/-- C110: the overlap of a polygon with itself is 1, as soon as boost gives the polygon itself as the union
and the intersection. -/
theorem C110_itself_partial {B : Boost} {P : Poly} (hx : Orthonormal P.xAxis P.yAxis)
    (hu : B.union P.shape P.shape = [P.shape]) (hi : B.inter P.shape P.shape = [P.shape])
    (hl : 3 ≤ P.shape.outer.length) (ha : 0 < P.shape.area) : P.interOverUnion B P = .ok 1 := by
  have hxn := norm_of_unit ((unitVec_iff _).1 hx.unitX)
  have hxy : P.xAxis ⬝ᵥ P.yAxis = 0 := hx.right
  have hp : P.project P.xAxis P.yAxis P.center = .ok P := by
    unfold Poly.project
    rw [if_neg (by simp [hxn, doubleEqual_self _ doubleEps_nonneg]), if_neg (by rw [hxy]; norm_num),
      if_pos (by simp [isApprox_self])]
  simp only [Poly.interOverUnion, Poly.unionOne, Poly.interOne, hp, Outcome.bind_ok, hu, hi, biggest]
  rw [if_neg (by omega), if_neg (not_le.2 ha), if_neg (not_le.2 ha), div_self ha.ne']

/-- C110: the shared area of two polygons, the second one seen in the plane of the first, is between 0 and the area of each; an
intersection that fails counts as nothing shared, and otherwise the areas of the two polygons are those of what they share and of their
union. -/
theorem C110_shared_area {B : Boost} (hB : MeasuresAreas B) {P Q R : Poly} (hR : Q.project P.xAxis P.yAxis P.center = .ok R)
    (hP : 0 ≤ P.shape.area) (hQ : 0 ≤ R.shape.area) :
    ∃ i u, P.interArea B Q = .ok i ∧ P.unionArea B Q = .ok u ∧ 0 ≤ i ∧ i ≤ P.shape.area ∧ i ≤ R.shape.area ∧
      (B.interOk P.shape R.shape = false → i = 0) ∧
      (B.interOk P.shape R.shape = true → i + u = P.shape.area + R.shape.area) := by
  rw [Poly.interArea, Poly.unionArea, hR, Outcome.bind_ok, Outcome.bind_ok]
  by_cases h : B.interOk P.shape R.shape = true
  · rw [if_pos h]
    obtain ⟨h1, h2, h3⟩ := hB.inside _ _ h
    exact ⟨_, _, rfl, rfl, h1, h2, h3, fun h' => by simp [h] at h', fun _ => hB.total _ _ h⟩
  · rw [if_neg h]
    exact ⟨_, _, rfl, rfl, le_refl _, hP, hQ, fun _ => rfl, fun h' => absurd h' h⟩

/-- A boost for the hypotheses of `C110_shared_area`: the union is both polygons, as when they are apart, and the intersection of a
polygon of positive area with a bigger one fails. -/
example : ∃ B : Boost, MeasuresAreas B ∧ (∃ a b, B.interOk a b = true ∧ 0 < b.area) ∧ (∃ a b, B.interOk a b = false) ∧
    square.project square.xAxis square.yAxis square.center = .ok square ∧ 0 ≤ square.shape.area := by
  classical
  have hh : holed.shape.area = 12 := by norm_num [holed, Shape.area, ringArea, edgeSum]
  refine ⟨{ exampleBoost [] with union := fun a b => [a, b], interOk := fun a b => decide (0 ≤ a.area ∧ 0 ≤ b.area ∧ b.area < 13) },
    ⟨fun a b h => ?_, fun a b h => ?_⟩, ⟨holed.shape, holed.shape, ?_, ?_⟩,
    ⟨holed.shape, ⟨[![0, 0], ![0, 4], ![4, 4], ![4, 0], ![0, 0]], []⟩, ?_⟩, ?_, ?_⟩
  · simp only [decide_eq_true_eq] at h
    simpa [exampleBoost] using ⟨h.1, h.2.1⟩
  · simp [exampleBoost]
  · simp [hh]; norm_num
  · rw [hh]; norm_num
  · simp [Shape.area, ringArea, edgeSum]; norm_num
  · simp [Poly.project, square, holed, isApprox, Geometry.norm, doubleEqual, doubleEps]
  · norm_num [square, holed, Shape.area, ringArea, edgeSum]

/-- C110 is false as the ratio of the areas of the whole intersection and of the whole union: when the
intersection has several parts, only the biggest one counts. -/
theorem C110_several_parts_false :
    ∃ (B : Boost) (P Q : Poly) (i u r : ℝ), P.interArea B Q = .ok i ∧ P.unionArea B Q = .ok u ∧
      P.interOverUnion B Q = .ok r ∧ r < i / u := by
  have hp : square.project square.xAxis square.yAxis square.center = .ok square := by
    simp [Poly.project, square, holed, isApprox, Geometry.norm, doubleEqual, doubleEps]
  let part : Shape := ⟨[![0, 0], ![0, 1], ![1, 1], ![1, 0], ![0, 0]], []⟩
  have ha : part.area = 1 := by norm_num [part, Shape.area, ringArea, edgeSum]
  have hh : holed.shape.area = 12 := by norm_num [holed, Shape.area, ringArea, edgeSum]
  have hb : biggest [part, part] = .ok part := by
    simp [biggest, List.range_succ, biggestStep, ha]
  refine ⟨exampleBoost [part, part], square, square, 2, 12, 1 / 12, ?_, ?_, ?_, by norm_num⟩
  · simp [Poly.interArea, hp, Outcome.bind, exampleBoost, ha]; norm_num
  · simp [Poly.unionArea, hp, Outcome.bind, exampleBoost, hh]
  · simp only [Poly.interOverUnion, Poly.unionOne, Poly.interOne, hp, Outcome.bind_ok, exampleBoost]
    simp only [biggest, Outcome.bind_ok]
    rw [if_neg (by simp [holed]), hh, if_neg (by norm_num)]
    have := hb
    simp only [biggest] at this
    rw [this, Outcome.bind_ok, ha, if_neg (by norm_num)]

/-! ### C111 -/

/-- C111 (partial: up to a quarter of the area is lost by the simplification): merging a polygon into
another one never costs more than a quarter of the area of the latter. -/
theorem C111_merge_keeps_area_partial {B : Boost} (hB : UnionCovers B) {P Q P' : Poly}
    (hP : P.cached = areaOf P.shape) (hl : 4 ≤ P.shape.outer.length) (hpos : 0 ≤ P.cached)
    (h : P.merge B Q = .ok P') : 3 / 4 * P.cached ≤ P'.cached := by
  unfold Poly.merge at h
  obtain ⟨R, hR, h⟩ := Outcome.bind_eq_ok h
  unfold Poly.mergeUnion at h
  rw [project_again hR, Outcome.bind_ok] at h
  obtain ⟨u, hu, h⟩ := Outcome.bind_eq_ok h
  obtain ⟨hs, v, hv, hav⟩ := hB P.shape R.shape hl
  obtain ⟨hm, hmax⟩ := (C109_biggest_part B P R R (project_again hR)).1 u hu (List.ne_nil_of_mem hv)
  have hu4 := hs u hm
  have hau : P.cached ≤ areaOf u := by
    rw [hP, areaOf_sides (by omega), areaOf_sides (by omega)]
    exact hav.trans (hmax v hv)
  split at h
  · obtain rfl := Outcome.ok.inj h; linarith
  · obtain rfl := Outcome.ok.inj h
    unfold Poly.simplify
    dsimp only
    split
    · rename_i hc
      dsimp only
      linarith [hc.2]
    · dsimp only
      linarith

/-- C111: simplifying never costs more than a quarter of the area, and is ignored when it gives an invalid
polygon. -/
theorem C111_simplify (B : Boost) (t : ℝ) (P : Poly) (hpos : 0 ≤ areaOf P.shape) :
    3 / 4 * areaOf P.shape ≤ (P.simplify B t).cached ∧
    ((P.simplify B t).shape = P.shape ∨ B.valid (P.simplify B t).shape = true) := by
  unfold Poly.simplify
  dsimp only
  split
  · rename_i h
    exact ⟨by dsimp only; linarith [h.2], .inr h.1⟩
  · exact ⟨by dsimp only; linarith, .inl rfl⟩

/-- A boost for the next example: the union keeps the first polygon, and the simplification gives a
rectangle of area 14. -/
noncomputable def shrinkingBoost : Boost where
  union a _ := if 4 ≤ a.outer.length then [a] else []
  inter _ _ := []
  interOk _ _ := true
  simplify _ _ := ⟨[![0, 0], ![0, 7 / 2], ![4, 7 / 2], ![4, 0], ![0, 0]], []⟩
  valid s := decide (4 ≤ s.outer.length)
  repair _ := []
  convexHull _ := ⟨[], []⟩
  concaveHull _ := ⟨[], []⟩

/-- C111 is false without the margin of a quarter: a merge can make a polygon smaller, because of the
simplification that follows. -/
theorem C111_shrinks_false :
    ∃ (B : Boost) (P Q P' : Poly), UnionCovers B ∧ ValidHasSides B ∧ P.cached = areaOf P.shape ∧
      4 ≤ P.shape.outer.length ∧ P.merge B Q = .ok P' ∧ P'.cached < P.cached := by
  have hp : square.project square.xAxis square.yAxis square.center = .ok square := by
    simp [Poly.project, square, holed, isApprox, Geometry.norm, doubleEqual, doubleEps]
  have ha : areaOf square.shape = 16 := by norm_num [square, areaOf, Shape.area, ringArea, edgeSum]
  have hs : (⟨[![0, 0], ![0, 7 / 2], ![4, 7 / 2], ![4, 0], ![0, 0]], []⟩ : Shape).area = 14 := by
    norm_num [Shape.area, ringArea, edgeSum]
  refine ⟨shrinkingBoost, square, square,
    { square with shape := ⟨[![0, 0], ![0, 7 / 2], ![4, 7 / 2], ![4, 0], ![0, 0]], []⟩, cached := 14 },
    ?_, ?_, ?_, by simp [square], ?_, by norm_num [square]⟩
  · intro a b h
    simp [shrinkingBoost, h]
  · intro s h
    simpa [shrinkingBoost] using h
  · rw [ha]; rfl
  · have h4 : 4 ≤ square.shape.outer.length := by simp [square]
    have hu : square.unionOne shrinkingBoost square = .ok square.shape := by
      simp [Poly.unionOne, hp, Outcome.bind, shrinkingBoost, h4, biggest]
    simp only [Poly.merge, Poly.mergeUnion, hp, Outcome.bind_ok, hu]
    rw [if_neg (by simp [square])]
    unfold Poly.simplify
    dsimp only
    rw [if_pos]
    · simp only [shrinkingBoost, hs]
    · refine ⟨by simp [shrinkingBoost], ?_⟩
      simp only [shrinkingBoost, hs, ha]
      norm_num

/-! ### C112 -/

theorem camera_pixel {fx fy cx cy : ℝ} {p : V3} (h : p 2 ≠ 0) :
    cameraToScreen (intrinsics fx fy cx cy) p =
      some ![pixel fx fy cx cy p 0, pixel fx fy cx cy p 1, p 2] := by
  unfold cameraToScreen
  rw [if_neg h]
  congr 1
  ext i
  fin_cases i
  · simp [cameraToScreen2, intrinsics, pixel, Matrix.mulVec, dotProduct, Fin.sum_univ_three]; field_simp
  · simp [cameraToScreen2, intrinsics, pixel, Matrix.mulVec, dotProduct, Fin.sum_univ_three]; field_simp
  · simp

theorem mapM_some {α β : Type} (f : α → Option β) (g : α → β) (l : List α)
    (h : ∀ a ∈ l, f a = some (g a)) : (l.map f).mapM id = some (l.map g) := by
  induction l with
  | nil => rfl
  | cons a l ih =>
    rw [List.map_cons, List.mapM_cons, h a (by simp), ih fun b hb => h b (by simp [hb])]
    rfl

/-- The boundary of a polygon seen by the camera. -/
theorem screen_shape {P : Poly} (hP : Orthonormal P.xAxis P.yAxis) {fx fy cx cy : ℝ}
    (hz : ∀ v ∈ P.shape.outer, spanPoint P.center P.xAxis P.yAxis (v 0) (v 1) 2 ≠ 0) :
    P.toScreen (intrinsics fx fy cx cy) = .ok ⟨correct (P.shape.outer.map fun v =>
      pixel fx fy cx cy (spanPoint P.center P.xAxis P.yAxis (v 0) (v 1))), []⟩ := by
  unfold Poly.toScreen Poly.screenPoints
  rw [mapOutcome_ok fun v _ => liftFromBasis_ok hP v P.center]
  simp only [Outcome.map, Outcome.bind]
  rw [mapM_some _ (fun p => ![pixel fx fy cx cy p 0, pixel fx fy cx cy p 1, p 2])]
  · simp only [Option.getD_some, List.map_map]
    congr 3
  · intro p hp
    obtain ⟨v, hv, rfl⟩ := List.mem_map.1 hp
    exact camera_pixel (hz v hv)

theorem screenBoundary_eq {width height : ℕ} (hw : 3 ≤ width) (hh : 3 ≤ height) :
    screenBoundary width height = imageRectangle width height := by
  have hw' : (3 : ℝ) ≤ width := by exact_mod_cast hw
  have hh' : (3 : ℝ) ≤ height := by exact_mod_cast hh
  unfold screenBoundary imageRectangle correct
  rw [close_of_closed (by intro _; simp), if_pos]
  · simp
  · simp only [ringArea, edgeSum]
    norm_num
    nlinarith

theorem correct_clockwise {line : List V2} (h : Closed line) : Clockwise line (correct line) := by
  refine ⟨?_, ringArea_correct line⟩
  unfold correct
  rw [close_of_closed h]
  split
  · exact .inr rfl
  · exact .inl rfl

/-- C112 (partial: boundaries that do not touch the plane of the camera): a polygon is declared visible
exactly when the polygon of the pixels that see its corners meets the image. -/
theorem C112_visible_partial {B : Boost} {P : Poly} (hP : Orthonormal P.xAxis P.yAxis)
    (hc : Closed P.shape.outer) (fx fy cx cy : ℝ) {width height : ℕ} (hw : 3 ≤ width) (hh : 3 ≤ height)
    (hz : ∀ v ∈ P.shape.outer, spanPoint P.center P.xAxis P.yAxis (v 0) (v 1) 2 ≠ 0) :
    ∃ visible ring, P.isVisible B (intrinsics fx fy cx cy) width height = .ok visible ∧
      Clockwise (P.shape.outer.map fun v =>
        pixel fx fy cx cy (spanPoint P.center P.xAxis P.yAxis (v 0) (v 1))) ring ∧
      (visible = true ↔ B.inter ⟨ring, []⟩ (imageRectangle width height) ≠ []) := by
  refine ⟨_, _, by rw [Poly.isVisible, screen_shape hP hz]; rfl, correct_clockwise (closed_map _ hc), ?_⟩
  rw [screenBoundary_eq hw hh]
  simp

/-- A square of side 20 one meter behind the camera. -/
noncomputable def behind : Poly where
  shape := ⟨[![-10, -10], ![-10, 10], ![10, 10], ![10, -10], ![-10, -10]], []⟩
  center := ![0, 0, -1000]
  xAxis := ![1, 0, 0]
  yAxis := ![0, 1, 0]
  cached := 400

/-- C112 is false for a polygon behind the camera: it is declared visible. -/
theorem C112_behind_false {B : Boost} (hB : InterSeesInside B 640 480) :
    ∃ (P : Poly), Orthonormal P.xAxis P.yAxis ∧ Regular P ∧
      (∀ v ∈ P.shape.outer, spanPoint P.center P.xAxis P.yAxis (v 0) (v 1) 2 < 0) ∧
      P.isVisible B (intrinsics 500 500 320 240) 640 480 = .ok true := by
  have hP : Orthonormal behind.xAxis behind.yAxis := by
    constructor <;> simp [behind, UnitVec, Orthogonal, Fin.sum_univ_three]
  have hr : Regular behind := ⟨rfl, fun _ => by simp [behind], by norm_num [behind, ringArea, edgeSum]⟩
  have hz : ∀ v ∈ behind.shape.outer, spanPoint behind.center behind.xAxis behind.yAxis (v 0) (v 1) 2 < 0 := by
    intro v _
    simp [behind, spanPoint]
  refine ⟨behind, hP, hr, hz, ?_⟩
  rw [Poly.isVisible, screen_shape hP fun v h => (hz v h).ne, screenBoundary_eq (by norm_num) (by norm_num)]
  show Outcome.ok _ = _
  congr 1
  rw [Bool.not_eq_true', List.isEmpty_eq_false_iff]
  have hm : (behind.shape.outer.map fun v =>
      pixel 500 500 320 240 (spanPoint behind.center behind.xAxis behind.yAxis (v 0) (v 1))) =
      behind.shape.outer.map fun v => ![(-1 / 2) * v 0 + 0 * v 1 + 320, 0 * v 0 + (-1 / 2) * v 1 + 240] := by
    apply List.map_congr_left
    intro v _
    ext i
    fin_cases i <;> simp [pixel, behind, spanPoint] <;> ring
  rw [hm]
  have ha := ringArea_affine (-1 / 2) 0 0 (-1 / 2) 320 240 hr.closed
  have h400 : ringArea behind.shape.outer = 400 := by norm_num [behind, ringArea, edgeSum]
  have hc : correct (behind.shape.outer.map fun v =>
      ![(-1 / 2) * v 0 + 0 * v 1 + 320, 0 * v 0 + (-1 / 2) * v 1 + 240]) =
      behind.shape.outer.map fun v =>
        ![(-1 / 2) * v 0 + 0 * v 1 + 320, 0 * v 0 + (-1 / 2) * v 1 + 240] := by
    apply correct_of_regular (closed_map _ hr.closed)
    rw [ha, h400]; norm_num
  rw [hc]
  refine hB _ rfl ?_ ?_
  · simp only [Shape.area, List.map_nil, List.sum_nil, add_zero]
    rw [ha, h400]; norm_num
  · intro v hv
    simp only [behind, List.map_cons, List.map_nil, List.mem_cons, List.not_mem_nil, or_false] at hv
    rcases hv with rfl | rfl | rfl | rfl | rfl <;> norm_num [InsideImage]

/-- The hypothesis of the last theorem can be met. -/
example : InterSeesInside (exampleBoost [holed.shape]) 640 480 := by
  intro s _ _ _
  simp [exampleBoost]

/-- The hypothesis of C110 can be met: an intersection of area 1 inside a union of area 12. -/
example : InterInsideUnion (exampleBoost [⟨[![0, 0], ![0, 1], ![1, 1], ![1, 0], ![0, 0]], []⟩]) := by
  intro a b i hi
  refine ⟨holed.shape, by simp [exampleBoost], ?_⟩
  obtain rfl : i = _ := List.mem_singleton.1 hi
  norm_num [holed, Shape.area, ringArea, edgeSum]

end RgbdSlam.PolygonOps
