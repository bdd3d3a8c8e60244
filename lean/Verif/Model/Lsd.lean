import Mathlib.Algebra.Order.ToIntervalMod
import Mathlib.Analysis.SpecialFunctions.Log.Base
import Mathlib.Analysis.SpecialFunctions.Trigonometric.Basic
import Verif.Model.Outcome
/-
The detector of line segments, third_party/line_segment_detector.cpp, as it is used by
src/features/lines/line_detection.cpp 13, 24-32: without refinement (`LSD_REFINE_NONE`), after the image was blurred and resized
by opencv.  The standard refinement is in Model/LsdRefine, `nfa` in Model/LsdNfa, the advanced
one in Model/LsdAdvanced.

Doubles and floats are reals.  The arc tangent of opencv (`fastAtan2`, in degrees) is a parameter.
-/
namespace RgbdSlam.Lsd

/-- A pixel: column and row. -/
abbrev Px := ℕ × ℕ

/-! ## Growing regions -/

/-- What the growth of a region reads of the image: the angle of the region made of its first pixel, whether a pixel is
aligned with a region, and the new angle once a pixel is added. -/
structure Rule (A : Type) where
  width : ℕ
  height : ℕ
  start : Px → A
  aligned : A → Px → Bool
  join : A → Px → A

/-- A region during its growth, and the pixels taken by this region or by those before (`used`). -/
structure Region (A : Type) where
  points : List Px
  angle : A
  used : Px → Bool

/-- third_party/line_segment_detector.cpp 481-482: the values from `max(c - 1, 0)` to `min(c + 1, n - 1)`. -/
def around (n c : ℕ) : List ℕ := (List.range n).filter fun v => decide (c ≤ v + 1) && decide (v ≤ c + 1)

/-- third_party/line_segment_detector.cpp 483-489, the pixels in the order of the two loops. -/
def neighbours (width height : ℕ) (p : Px) : List Px :=
  (around height p.2).flatMap fun y => (around width p.1).map fun x => (x, y)

variable {A : Type}

/-- third_party/line_segment_detector.cpp 490-510: one neighbour. -/
def Rule.visit (r : Rule A) (g : Region A) (p : Px) : Region A :=
  if !g.used p && r.aligned g.angle p then
    { points := g.points ++ [p], angle := r.join g.angle p, used := Function.update g.used p true }
  else g

/-- third_party/line_segment_detector.cpp 478-513, the loop over the points of the region, which grows; `i` is the
index. -/
def Rule.loop (r : Rule A) : ℕ → ℕ → Region A → Outcome (Region A)
  | 0, _, _ => .outOfFuel
  | fuel + 1, i, g =>
    match g.points[i]? with
    | none => .ok g
    | some p => r.loop fuel (i + 1) ((neighbours r.width r.height p).foldl r.visit g)

/-- third_party/line_segment_detector.cpp 460-514, `region_grow`. -/
def Rule.grow (r : Rule A) (fuel : ℕ) (used : Px → Bool) (s : Px) : Outcome (Region A) :=
  r.loop fuel 0 { points := [s], angle := r.start s, used := Function.update used s true }

/-- third_party/line_segment_detector.cpp 343-356, the loop over the pixels in the order of `ordered_points`: the
regions that are large enough. `defined` says that the angle of a pixel is not NOTDEF. -/
def Rule.search (r : Rule A) (fuel minSize : ℕ) (defined : Px → Bool) :
    List Px → (Px → Bool) → Outcome (List (Region A))
  | [], _ => .ok []
  | p :: l, used =>
    if !used p && defined p then
      (r.grow fuel used p).bind fun g =>
        (r.search fuel minSize defined l g.used).map fun rest =>
          if g.points.length < minSize then rest else g :: rest
    else r.search fuel minSize defined l used

/-! ## Gradients -/

noncomputable section

open Classical

/-- `DEG_TO_RADS`, third_party/line_segment_detector.cpp 29. -/
def degree : ℝ := Real.pi / 180

/-- The image, and `fastAtan2` (y, x), in degrees. -/
structure Setting where
  width : ℕ
  height : ℕ
  pixel : ℕ → ℕ → ℤ
  atan : ℝ → ℝ → ℝ

/-- third_party/line_segment_detector.cpp 420-423: the gradient at a pixel, `pixel x y`. -/
def Setting.gradient (s : Setting) (p : Px) : ℤ × ℤ :=
  let da := s.pixel (p.1 + 1) (p.2 + 1) - s.pixel p.1 p.2
  let bc := s.pixel (p.1 + 1) p.2 - s.pixel p.1 (p.2 + 1)
  (da + bc, da - bc)

/-- The pixels of the two loops of third_party/line_segment_detector.cpp 412-418. -/
def Setting.inner (s : Setting) (p : Px) : Bool := decide (p.1 + 1 < s.width) && decide (p.2 + 1 < s.height)

/-- `modgrad`, third_party/line_segment_detector.cpp 424-426; `none` where nothing is written. -/
def Setting.norm (s : Setting) (p : Px) : Option ℝ :=
  if s.inner p then
    let g := s.gradient p
    some (Real.sqrt ((g.1 * g.1 + g.2 * g.2 : ℤ) / 4))
  else none

/-- `angles`, third_party/line_segment_detector.cpp 406-408 and 428-434; `none` is NOTDEF. -/
def Setting.angle (s : Setting) (threshold : ℝ) (p : Px) : Option ℝ :=
  match s.norm p with
  | none => none
  | some n =>
    if n ≤ threshold then none
    else
      let g := s.gradient p
      some (s.atan g.1 (-g.2) * degree)

/-- The tolerance on angles, `prec`, third_party/line_segment_detector.cpp 316: ANG_TH is 22.5 degrees. -/
def tolerance : ℝ := Real.pi * (45 / 2) / 180

/-- The smallest norm of a gradient, `rho`, third_party/line_segment_detector.cpp 318, with QUANT = 2. -/
def threshold : ℝ := 2 / Real.sin tolerance

/-- third_party/line_segment_detector.cpp 962-978, `isAligned`. -/
def isAligned (angle : Px → Option ℝ) (width height : ℕ) (p : Px) (theta prec : ℝ) : Bool :=
  if width ≤ p.1 ∨ height ≤ p.2 then false
  else
    match angle p with
    | none => false
    | some a =>
      let n := if theta - a < 0 then -(theta - a) else theta - a
      let n := if n > 3 * Real.pi / 2 then (if n - 2 * Real.pi < 0 then -(n - 2 * Real.pi) else n - 2 * Real.pi) else n
      decide (n ≤ prec)

/-- The sums of the cosines and sines of a region, and its angle. -/
structure Mean where
  dx : ℝ
  dy : ℝ
  theta : ℝ

/-- third_party/line_segment_detector.cpp 460-509: how `region_grow` reads the image. -/
def Setting.rule (s : Setting) : Rule Mean where
  width := s.width
  height := s.height
  start p :=
    let a := (s.angle threshold p).getD 0
    { dx := Real.cos a, dy := Real.sin a, theta := a }
  aligned m p := isAligned (s.angle threshold) s.width s.height p m.theta tolerance
  join m p :=
    let a := (s.angle threshold p).getD 0
    let dx := m.dx + Real.cos a
    let dy := m.dy + Real.sin a
    { dx := dx, dy := dy, theta := s.atan dy dx * degree }

/-- `min_reg_size`, third_party/line_segment_detector.cpp 338-339 (of an image with pixels), with p = 22.5 / 180. -/
def minRegionSize (width height : ℕ) : ℕ :=
  ⌊-(5 * (Real.logb 10 width + Real.logb 10 height) / 2 + Real.logb 10 11) / Real.logb 10 (1 / 8)⌋₊

/-- third_party/line_segment_detector.cpp 311-356: the regions of an image, with the pixels in the order `order` (that
of `std::sort` on the gradients). -/
def Setting.regions (s : Setting) (fuel : ℕ) (order : List Px) : Outcome (List (Region Mean)) :=
  s.rule.search fuel (minRegionSize s.width s.height) (fun p => (s.angle threshold p).isSome) order fun _ => false

/-! ## The segment of a region -/

/-- A pixel with its weight, `RegionPoint`. -/
structure Weighted where
  x : ℝ
  y : ℝ
  weight : ℝ

/-- `rect`, without the members used by the refinements only. -/
structure Rect where
  x1 : ℝ
  y1 : ℝ
  x2 : ℝ
  y2 : ℝ
  width : ℝ
  x : ℝ
  y : ℝ
  theta : ℝ

/-- third_party/line_segment_detector.cpp 73-86, `double_equal` with 0; DBL_MIN is 2^(-1022), and 100 times DBL_EPSILON is
100 * 2^(-52). -/
def isZero (a : ℝ) : Bool :=
  if a = 0 then true else decide (|a| / max |a| (1 / 2 ^ 1022) ≤ 100 * (1 / 2 ^ 52))

/-- third_party/line_segment_detector.cpp 572-588: Ixx, Iyy, Ixy. -/
def inertia (reg : List Weighted) (x y : ℝ) : ℝ × ℝ × ℝ :=
  reg.foldl (fun s p => (s.1 + (p.y - y) * (p.y - y) * p.weight, s.2.1 + (p.x - x) * (p.x - x) * p.weight,
    s.2.2 - (p.x - x) * (p.y - y) * p.weight)) (0, 0, 0)

/-- third_party/line_segment_detector.cpp 58-70, `angle_diff`: the loops bring the difference to ]-pi, pi]. -/
def angleDiff (a b : ℝ) : ℝ := |toIocMod Real.two_pi_pos (-Real.pi) (a - b)|

/-- third_party/line_segment_detector.cpp 572-606, `get_theta`. -/
def getTheta (atan : ℝ → ℝ → ℝ) (reg : List Weighted) (x y regAngle prec : ℝ) : Outcome ℝ :=
  let (ixx, iyy, ixy) := inertia reg x y
  if isZero ixx && isZero iyy && isZero ixy then .terminate
  else
    let lambda := 1 / 2 * (ixx + iyy - Real.sqrt ((ixx - iyy) * (ixx - iyy) + 4 * ixy * ixy))
    let theta := (if |iyy| < |ixx| then atan (lambda - ixx) ixy else atan ixy (lambda - iyy)) * degree
    .ok (if prec < angleDiff theta regAngle then theta + Real.pi else theta)

/-- third_party/line_segment_detector.cpp 517-525: the weighted sums. -/
def sums (reg : List Weighted) : ℝ × ℝ × ℝ :=
  reg.foldl (fun s p => (s.1 + p.x * p.weight, s.2.1 + p.y * p.weight, s.2.2 + p.weight)) (0, 0, 0)

/-- third_party/line_segment_detector.cpp 548-551: one of the two intervals. -/
def widen (i : ℝ × ℝ) (v : ℝ) : ℝ × ℝ := if i.2 < v then (i.1, v) else if v < i.1 then (v, i.2) else i

/-- third_party/line_segment_detector.cpp 516-570, `region2rect`. -/
def regionToRect (atan : ℝ → ℝ → ℝ) (reg : List Weighted) (regAngle prec : ℝ) : Outcome Rect :=
  let (sx, sy, sum) := sums reg
  if ¬ 0 < sum then .terminate
  else
    let x := sx / sum
    let y := sy / sum
    (getTheta atan reg x y regAngle prec).map fun theta =>
      let dx := Real.cos theta
      let dy := Real.sin theta
      let l := reg.foldl (fun i p => widen i ((p.x - x) * dx + (p.y - y) * dy)) (0, 0)
      let w := reg.foldl (fun i p => widen i (-(p.x - x) * dy + (p.y - y) * dx)) (0, 0)
      { x1 := x + l.1 * dx, y1 := y + l.1 * dy, x2 := x + l.2 * dx, y2 := y + l.2 * dy
        width := if w.2 - w.1 < 1 then 1 else w.2 - w.1
        x := x, y := y, theta := theta }

/-- The points of a region: `RegionPoint`, third_party/line_segment_detector.cpp 464-471 and 497-503.  Where the norm of
the gradient was not written, it is not a number: `none`. -/
def Setting.weighted (s : Setting) (l : List Px) : Option (List Weighted) :=
  l.mapM fun p => (s.norm p).map fun n => { x := p.1, y := p.2, weight := n }

/-- A segment, in pixels of the original image. -/
structure Segment where
  x1 : ℝ
  y1 : ℝ
  x2 : ℝ
  y2 : ℝ

/-- third_party/line_segment_detector.cpp 377-387: half a pixel is added, then the scale. -/
def Rect.segment (scale : ℝ) (r : Rect) : Segment :=
  { x1 := (r.x1 + 1 / 2) / scale, y1 := (r.y1 + 1 / 2) / scale
    x2 := (r.x2 + 1 / 2) / scale, y2 := (r.y2 + 1 / 2) / scale }

/-- third_party/line_segment_detector.cpp 358-394: the segment of each region. Reading a norm that was not written is
undefined. -/
def Setting.segments (s : Setting) (scale : ℝ) : List (Region Mean) → Outcome (List Segment)
  | [] => .ok []
  | g :: rest =>
    match s.weighted g.points with
    | none => .ub
    | some reg =>
      (regionToRect s.atan reg g.angle.theta tolerance).bind fun r =>
        (s.segments scale rest).map fun l => r.segment scale :: l

/-- third_party/line_segment_detector.cpp 284-396, `detect` on the resized image, with `scale` = 0.3 for the program
(src/rgbd_slam.cpp 63). -/
def Setting.detect (s : Setting) (scale : ℝ) (fuel : ℕ) (order : List Px) : Outcome (List Segment) :=
  (s.regions fuel order).bind fun l => s.segments scale l

/-! ## Display -/

/-- `static_cast<int>` of a coordinate: rounds towards zero. -/
def toInt (v : ℝ) : ℤ := if 0 ≤ v then ⌊v⌋ else ⌈v⌉

/-- `mask.at<uchar>(p)`: a point out of the image is read out of bounds. -/
def readMask (width height : ℕ) (mask : ℤ → ℤ → Bool) (x y : ℤ) : Outcome Bool :=
  if 0 ≤ x ∧ x < width ∧ 0 ≤ y ∧ y < height then .ok (mask x y) else .ub

/-- `cvRound`: to the nearest, and to the even one of two (opencv, `lrint`). -/
def cvRound (v : ℝ) : ℤ :=
  if Int.fract v < 1 / 2 then ⌊v⌋ else if 1 / 2 < Int.fract v then ⌊v⌋ + 1 else if Even ⌊v⌋ then ⌊v⌋ else ⌊v⌋ + 1

/-- The colours of a displayed segment. -/
inductive Colour
  | depthAtEnds
  | depthAtQuarters
  | noDepth
deriving DecidableEq

/-- src/features/lines/line_detection.cpp 47-68, the colour of one segment.  `0.25 * pt1 + 0.75 * pt2` rounds each product
and adds. -/
def colourOf (width height : ℕ) (mask : ℤ → ℤ → Bool) (s : Segment) : Outcome Colour :=
  let a : ℤ × ℤ := (toInt s.x1, toInt s.y1)
  let b : ℤ × ℤ := (toInt s.x2, toInt s.y2)
  (readMask width height mask a.1 a.2).bind fun ma =>
    (if ma then readMask width height mask b.1 b.2 else .ok false).bind fun both =>
      if both then .ok .depthAtEnds
      else
        let mix (u v : ℤ) : ℤ := cvRound (1 / 4 * u) + cvRound (3 / 4 * v)
        (readMask width height mask (mix a.1 b.1) (mix a.2 b.2)).bind fun q1 =>
          if q1 then .ok .depthAtQuarters
          else (readMask width height mask (mix b.1 a.1) (mix b.2 a.2)).map fun q2 =>
            if q2 then .depthAtQuarters else .noDepth

end

end RgbdSlam.Lsd
