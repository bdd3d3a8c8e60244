import Verif.Model.Geometry
/-
Areas, unions and simplification of polygons (src/utils/polygon.cpp, src/coordinates/polygon_coordinates.cpp).

Boost's `area`, `assign_points` and `correct` are modelled; its set operations, simplification, validity
test, hulls and the third party repair of a polygon are parameters (`Boost`).  Coordinates are reals.
-/
namespace RgbdSlam.PolygonOps

open Geometry Matrix

/-- `Polygon::polygon` (src/utils/polygon.hpp 21-26), a `boost::geometry::model::polygon`: closed, and
clockwise for the outer ring. -/
structure Shape where
  outer : List V2
  inners : List (List V2)

/-- Sum over the edges, half of the cross products; positive for a clockwise ring. -/
noncomputable def edgeSum : List V2 → ℝ
  | p :: q :: l => (q 0 * p 1 - p 0 * q 1) / 2 + edgeSum (q :: l)
  | _ => 0

/-- `boost::geometry::area` of a ring: 0 with less than four points. -/
noncomputable def ringArea (r : List V2) : ℝ := if r.length < 4 then 0 else edgeSum r

/-- `boost::geometry::area` of a polygon: the rings of the holes are counter clockwise, so that their area
is negative. -/
noncomputable def Shape.area (s : Shape) : ℝ := ringArea s.outer + (s.inners.map ringArea).sum

open Classical in
/-- First part of `boost::geometry::correct`: the ring is closed if it was not.  The comparison of the end
points is exact in the model. -/
noncomputable def close (r : List V2) : List V2 :=
  if 2 < r.length ∧ r.head? ≠ r.getLast? then r ++ r.take 1 else r

open Classical in
/-- `boost::geometry::correct` of a ring: closed, then turned clockwise. -/
noncomputable def correct (r : List V2) : List V2 :=
  if ringArea (close r) < 0 then (close r).reverse else close r

/-- The parts of boost and of the third party code that are not modelled. -/
structure Boost where
  union : Shape → Shape → List Shape
  inter : Shape → Shape → List Shape
  /-- the value returned by `boost::geometry::intersection` -/
  interOk : Shape → Shape → Bool
  simplify : Shape → ℝ → Shape
  valid : Shape → Bool
  /-- `geometry::correct`, third_party/correct_boost_polygon.hpp -/
  repair : Shape → List Shape
  convexHull : List V2 → Shape
  concaveHull : List V2 → Shape

/-- `Polygon`, src/utils/polygon.hpp 200-208. -/
structure Poly where
  shape : Shape
  center : V3
  xAxis : V3
  yAxis : V3
  /-- `_area`, what `get_area` returns -/
  cached : ℝ

/-- `Polygon::area`, src/utils/polygon.cpp 453-461. -/
noncomputable def areaOf (s : Shape) : ℝ := if s.outer.length < 3 then 0 else s.area

open Classical in
/-- `Polygon::simplify`, src/utils/polygon.cpp 578-602. -/
noncomputable def Poly.simplify (B : Boost) (threshold : ℝ) (P : Poly) : Poly :=
  let before := areaOf P.shape
  let out := B.simplify P.shape (max (before / 10 ^ 5) threshold)
  if B.valid out ∧ before * (3 / 4) < out.area then { P with shape := out, cached := out.area }
  else { P with cached := before }

/-- Constructor from a boundary, src/utils/polygon.cpp 236-266. -/
noncomputable def Poly.make (boundary : List V2) (x y center : V3) : Outcome Poly :=
  if axesOk x y then
    .ok { shape := ⟨correct boundary, []⟩, center := center, xAxis := x, yAxis := y,
          cached := areaOf ⟨correct boundary, []⟩ }
  else .throws

/-- The choice of the boundary by the constructor from points, src/utils/polygon.cpp 193-222. -/
def fitted (B : Boost) (points : List V2) : Shape :=
  if B.valid (B.concaveHull points) then B.concaveHull points
  else
    match B.repair (B.concaveHull points) with
    | [] => B.convexHull points
    | s :: _ => s

/-- Constructor from points, src/utils/polygon.cpp 168-229. -/
noncomputable def Poly.fit (B : Boost) (points : List V3) (normal center : V3) : Outcome Poly :=
  if !doubleEqual (Geometry.norm normal) 1 then .throws
  else if points.length < 3 then .throws
  else
    (planeBasis normal).bind fun axes =>
      (mapOutcome (fun p => projectOnBasis p center axes.1 axes.2) points.reverse).bind fun b =>
        .ok (Poly.simplify B 10 { shape := fitted B b, center := center, xAxis := axes.1, yAxis := axes.2,
                                  cached := areaOf (fitted B b) })

/-- `Polygon::project(nextXAxis, nextYAxis, nextCenter)`, src/utils/polygon.cpp 349-382 (only the outer
ring is projected). -/
noncomputable def Poly.project (P : Poly) (x y center : V3) : Outcome Poly :=
  if !doubleEqual (Geometry.norm x) 1 then .throws
  else if 1 / 100 < |x ⬝ᵥ y| then .throws
  else if isApprox P.center center && isApprox P.xAxis x && isApprox P.yAxis y then .ok P
  else
    (mapOutcome (fun p => (liftFromBasis p P.center P.xAxis P.yAxis).bind fun q =>
      projectOnBasis q center x y) P.shape.outer).bind fun b => Poly.make b x y center

/-- `Polygon::project(nextNormal, nextCenter)`, src/utils/polygon.cpp 338-347. -/
noncomputable def Poly.projectNormal (P : Poly) (normal center : V3) : Outcome Poly :=
  if !doubleEqual (Geometry.norm normal) 1 then .throws
  else (planeBasis normal).bind fun axes => P.project axes.1 axes.2 center

/-- `transform_boundary`, src/utils/polygon.cpp 431-451. -/
noncomputable def Poly.transformBoundary (P : Poly) (M : M4) (x y center : V3) : Outcome (List V2) :=
  mapOutcome (fun p => (liftFromBasis p P.center P.xAxis P.yAxis).bind fun q =>
    projectOnBasis (pointToWorld M q) center x y) P.shape.outer

/-- `Polygon::transform(nextXAxis, nextYAxis, nextCenter)`, src/utils/polygon.cpp 402-429. -/
noncomputable def Poly.transform (P : Poly) (x y center : V3) : Outcome Poly :=
  if !doubleEqual (Geometry.norm x) 1 then .throws
  else if 1 / 100 < |x ⬝ᵥ y| then .throws
  else if isApprox P.center center && isApprox P.xAxis x && isApprox P.yAxis y then .ok P
  else
    (frameChange P.xAxis P.yAxis P.center x y center).bind fun M =>
      (P.transformBoundary M x y center).bind fun b => Poly.make b x y center

/-- `Polygon::transform(nextNormal, nextCenter)`, src/utils/polygon.cpp 384-400. -/
noncomputable def Poly.transformNormal (P : Poly) (normal center : V3) : Outcome Poly :=
  if !doubleEqual (Geometry.norm normal) 1 then .throws
  else (planeBasis normal).bind fun axes =>
    if isApprox P.center center && isApprox P.xAxis axes.1 && isApprox P.yAxis axes.2 then .ok P
    else P.transform axes.1 axes.2 center

/-- src/coordinates/polygon_coordinates.cpp 48-75 and 135-162: `toNew` is the change of coordinates of the
center. -/
noncomputable def Poly.changeFrame (toNew : V3 → V3) (P : Poly) (M : M4) : Outcome Poly :=
  let x := normalized (rotation M *ᵥ P.xAxis)
  let y := normalized (rotation M *ᵥ P.yAxis)
  if !axesOk x y then .throws
  else (P.transformBoundary M x y (toNew P.center)).bind fun b => Poly.make b x y (toNew P.center)

/-- `CameraPolygon::to_world_space`, src/coordinates/polygon_coordinates.cpp 48-75. -/
noncomputable def Poly.toWorld (P : Poly) (c2w : M4) : Outcome Poly := P.changeFrame (pointToWorld c2w) c2w

/-- `WorldPolygon::to_camera_space`, src/coordinates/polygon_coordinates.cpp 135-162. -/
noncomputable def Poly.toCamera (P : Poly) (w2c : M4) : Outcome Poly := P.changeFrame (pointToCamera w2c) w2c

open Classical in
/-- One turn of the loop of `union_one` and `inter_one`, src/utils/polygon.cpp 478-486: `biggestPol` is a
reference to the first element of the result, so that keeping a polygon overwrites this element. -/
noncomputable def biggestStep (s : List Shape × ℝ) (i : ℕ) : List Shape × ℝ :=
  match s.1[i]? with
  | some p => if s.2 < p.area then (s.1.set 0 p, p.area) else s
  | none => s

open Classical in
/-- The end of `union_one` and `inter_one`, src/utils/polygon.cpp 467-493 and 500-522. -/
noncomputable def biggest (res : List Shape) : Outcome Shape :=
  match res with
  | [] => .ok ⟨[], []⟩
  | [s] => .ok s
  | s :: _ =>
    let r := (List.range res.length).foldl biggestStep (res, 0)
    if r.2 ≤ 0 then .throws else .ok (r.1.headD s)

/-- `union_one`, src/utils/polygon.cpp 463-494. -/
noncomputable def Poly.unionOne (B : Boost) (P Q : Poly) : Outcome Shape :=
  (Q.project P.xAxis P.yAxis P.center).bind fun R => biggest (B.union P.shape R.shape)

/-- `inter_one`, src/utils/polygon.cpp 496-523. -/
noncomputable def Poly.interOne (B : Boost) (P Q : Poly) : Outcome Shape :=
  (Q.project P.xAxis P.yAxis P.center).bind fun R => biggest (B.inter P.shape R.shape)

open Classical in
/-- `inter_over_union`, src/utils/polygon.cpp 525-540. -/
noncomputable def Poly.interOverUnion (B : Boost) (P Q : Poly) : Outcome ℝ :=
  (Q.project P.xAxis P.yAxis P.center).bind fun R =>
    (P.unionOne B R).bind fun un =>
      if un.outer.length < 3 then .ok 0
      else if un.area ≤ 0 then .ok 0
      else (P.interOne B R).bind fun i => if i.area ≤ 0 then .ok 0 else .ok (i.area / un.area)

/-- `inter_area`, src/utils/polygon.cpp 542-560. -/
noncomputable def Poly.interArea (B : Boost) (P Q : Poly) : Outcome ℝ :=
  (Q.project P.xAxis P.yAxis P.center).bind fun R =>
    if B.interOk P.shape R.shape then .ok ((B.inter P.shape R.shape).map (·.area)).sum else .ok 0

/-- `union_area`, src/utils/polygon.cpp 562-576. -/
noncomputable def Poly.unionArea (B : Boost) (P Q : Poly) : Outcome ℝ :=
  (Q.project P.xAxis P.yAxis P.center).bind fun R => .ok ((B.union P.shape R.shape).map (·.area)).sum

/-- `merge_union`, src/utils/polygon.cpp 325-336. -/
noncomputable def Poly.mergeUnion (B : Boost) (P Q : Poly) : Outcome Poly :=
  (Q.project P.xAxis P.yAxis P.center).bind fun R =>
    (P.unionOne B R).bind fun res =>
      if res.outer.isEmpty then .ok P else .ok (Poly.simplify B 10 { P with shape := res })

/-- `WorldPolygon::merge`, src/coordinates/polygon_coordinates.cpp 164-168. -/
noncomputable def Poly.merge (B : Boost) (P Q : Poly) : Outcome Poly :=
  (Q.project P.xAxis P.yAxis P.center).bind fun R => P.mergeUnion B R

/-- The calls of the public interface that give a new polygon or change one. -/
inductive Op where
  | projectNormal (normal center : V3)
  | project (x y center : V3)
  | transformNormal (normal center : V3)
  | transform (x y center : V3)
  | toWorld (c2w : M4)
  | toCamera (w2c : M4)
  | mergeUnion (other : Poly)
  | merge (other : Poly)
  | simplify (threshold : ℝ)

/-- One call. -/
noncomputable def Poly.step (B : Boost) (P : Poly) : Op → Outcome Poly
  | .projectNormal n c => P.projectNormal n c
  | .project x y c => P.project x y c
  | .transformNormal n c => P.transformNormal n c
  | .transform x y c => P.transform x y c
  | .toWorld M => P.toWorld M
  | .toCamera M => P.toCamera M
  | .mergeUnion Q => P.mergeUnion B Q
  | .merge Q => P.merge B Q
  | .simplify t => .ok (P.simplify B t)

/-- A history of calls. -/
noncomputable def Poly.run (B : Boost) : List Op → Poly → Outcome Poly
  | [], P => .ok P
  | op :: ops, P => (P.step B op).bind (Poly.run B ops)

/-- `CameraPolygon::get_screen_points`, src/coordinates/polygon_coordinates.cpp 77-99: empty as soon as
one point cannot be projected. -/
noncomputable def Poly.screenPoints (K : M3) (P : Poly) : Outcome (List V3) :=
  (mapOutcome (fun p => liftFromBasis p P.center P.xAxis P.yAxis) P.shape.outer).map fun ps =>
    ((ps.map (cameraToScreen K)).mapM id).getD []

/-- `CameraPolygon::to_screen_space`, src/coordinates/polygon_coordinates.cpp 101-117. -/
noncomputable def Poly.toScreen (K : M3) (P : Poly) : Outcome Shape :=
  (P.screenPoints K).map fun ps => ⟨correct (ps.map fun s => ![s 0, s 1]), []⟩

/-- `get_static_screen_boundary_polygon`, src/utils/polygon.cpp 24-46 (the image size of the first call is
kept by the code). -/
noncomputable def screenBoundary (width height : ℕ) : Shape :=
  ⟨correct [![1, 1], ![(width : ℝ) - 1, 1], ![(width : ℝ) - 1, (height : ℝ) - 1], ![1, (height : ℝ) - 1],
    ![1, 1]], []⟩

/-- `CameraPolygon::is_visible_in_screen_space`, src/coordinates/polygon_coordinates.cpp 119-126. -/
noncomputable def Poly.isVisible (B : Boost) (K : M3) (width height : ℕ) (P : Poly) : Outcome Bool :=
  (P.toScreen K).map fun s => !(B.inter s (screenBoundary width height)).isEmpty

end RgbdSlam.PolygonOps
