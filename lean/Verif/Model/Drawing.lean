import Verif.Model.Points2d
import Verif.Model.PolygonOps

/-
What is drawn on the debug image for the features of the map (`RGBD_SLAM::get_debug_image`).  A drawing is the list of the
calls to OpenCV; OpenCV itself clips them to the image.  Doubles are modelled by the reals.
-/
namespace RgbdSlam.Drawing

open Geometry Points2d PolygonOps Optimizer

noncomputable section

/-- Blue, green, red. -/
abbrev Color := ℕ × ℕ × ℕ

/-- `cv::Scalar(0, 0, 255)`. -/
def red : Color := (0, 0, 255)
/-- `cv::Scalar(255, 0, 0)`. -/
def blue : Color := (255, 0, 0)
/-- `cv::Scalar(0, 200, 255)`. -/
def orange : Color := (0, 200, 255)

/-- A call of `cv::circle` (filled) or `cv::line`. -/
inductive Shape
  | disc (x y : ℤ) (radius : ℕ) (color : Color)
  | line (x1 y1 x2 y2 : ℤ) (color : Color) (thickness : ℕ)
  deriving DecidableEq

open Classical in
/-- `static_cast<int>` of a double: cut towards zero, undefined when the result is not an `int`. -/
def toInt (x : ℝ) : Outcome ℤ :=
  let n := if 0 ≤ x then ⌊x⌋ else ⌈x⌉
  if -2 ^ 31 ≤ n ∧ n < 2 ^ 31 then .ok n else .ub

open Classical in
/-- map_point.cpp 138-164, `MapPoint::draw`. -/
def drawPoint (K : M3) (width height : ℕ) (w2c : M4) (coordinates : V3) (matched : Bool) (color : Color) :
    Outcome (List Shape) :=
  match cameraToScreen K (pointToCamera w2c coordinates) with
  | some s =>
    if 0 < s 2 ∧ inScreen width height s then
      (toInt (s 0)).bind fun x => (toInt (s 1)).bind fun y =>
        .ok (.disc x y 3 color :: if matched then [] else [.disc x y 1 red])
    else .ok []
  | none => .ok []

/-- map_point2d.cpp 154-187, `MapPoint2D::draw`; the second part of the result tells if the error is logged. -/
def drawPoint2d (cross : V2 → V2 → Option (List V2)) (K : M3) (width height : ℕ) (w2c : M4) (p : InverseDepth)
    (inverseDepthVariance : ℝ) (matched : Bool) (color : Color) : Outcome (List Shape × Bool) :=
  match inverseScreenSegment K p inverseDepthVariance w2c with
  | none => .ok ([], false)
  | some (a, b) =>
    match clampToScreen (cross a b) width height a b with
    | none => .ok ([], false)
    | some (p, q) =>
      if inScreen2 width height p && inScreen2 width height q then
        (toInt (p 0)).bind fun x1 => (toInt (p 1)).bind fun y1 => (toInt (q 0)).bind fun x2 =>
        (toInt (q 1)).bind fun y2 =>
          .ok ([.line x1 y1 x2 y2 (if matched then blue else red) 5, .line x1 y1 x2 y2 color 3], false)
      else .ok ([], true)

open Classical in
/-- The loop of polygon_coordinates.cpp 29-46. -/
def drawEdges (color : Color) : List V3 → Outcome (List Shape)
  | a :: b :: rest =>
    if 0 < a 2 ∧ 0 < b 2 then
      (toInt (a 0)).bind fun x1 => (toInt (a 1)).bind fun y1 => (toInt (b 0)).bind fun x2 => (toInt (b 1)).bind fun y2 =>
      (drawEdges color (b :: rest)).bind fun l => .ok (.line x1 y1 x2 y2 color 2 :: l)
    else drawEdges color (b :: rest)
  | _ => .ok []

/-- map_primitive.cpp 175-184, `MapPlane::draw`, with polygon_coordinates.cpp 27-46 and 170-175 (all noexcept). -/
def drawPlane (K : M3) (w2c : M4) (boundary : Poly) (matched : Bool) (color : Color) : Outcome (List Shape) :=
  if matched then ((boundary.toCamera w2c).bind fun P => (P.screenPoints K).bind (drawEdges color)).noexcept
  else .ok []

/-- The drawings of some features, one after the other. -/
def drawAll {F : Type} (draw : F → Outcome (List Shape)) : List F → Outcome (List Shape)
  | [] => .ok []
  | f :: fs => (draw f).bind fun a => (drawAll draw fs).bind fun b => .ok (a ++ b)

/-- feature_map.hpp 560-582, `draw_on_image`: the staged features (matched or not, in orange or red) when asked for, then
the features of the local map, with their color; nothing when the map is not activated. -/
def drawMap {F : Type} (draw : F → Color → Outcome (List Shape)) (isMatched : F → Bool) (activated showStaged : Bool)
    (staged : List F) (loc : List (F × Color)) : Outcome (List Shape) :=
  if !activated then .ok []
  else
    (if showStaged then drawAll (fun f => draw f (if isMatched f then orange else red)) staged else .ok []).bind fun a =>
    (drawAll (fun f => draw f.1 f.2) loc).bind fun b => .ok (a ++ b)

end

end RgbdSlam.Drawing
