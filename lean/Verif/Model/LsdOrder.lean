import Verif.Model.Lsd
/-
The order in which the detector of line segments takes the pixels: the second part of `ll_angle`,
third_party/line_segment_detector.cpp 411, 428-458, and what remains in the detector between two calls of `detect`.
-/
namespace RgbdSlam.Lsd

noncomputable section

open Classical

/-- third_party/line_segment_detector.cpp 412-418 and 443-446: the pixels in the order of the two loops. -/
def Setting.scan (s : Setting) : List Px :=
  (List.range (s.height - 1)).flatMap fun y => (List.range (s.width - 1)).map fun x => (x, y)

/-- third_party/line_segment_detector.cpp 411, 428-436: `max_grad`. -/
def Setting.maxGrad (s : Setting) : ℝ :=
  s.scan.foldl (fun m p =>
    let n := (s.norm p).getD 0
    if n ≤ threshold then m else if m < n then n else m) (-1)

/-- The conversion of a double to an int: undefined when the truncated value is not one of an int. -/
def castInt (v : ℝ) : Outcome ℤ :=
  let n := toInt v
  if -2 ^ 31 ≤ n ∧ n < 2 ^ 31 then .ok n else .ub

/-- third_party/line_segment_detector.cpp 442: `bin_coef`; `bins` is `n_bins`, 1024 when the user of the detector does not choose
(line_segment_detector.hpp 31). -/
def Setting.binCoef (s : Setting) (bins : ℕ) : ℝ := if 0 < s.maxGrad then ((bins - 1 : ℕ) : ℝ) / s.maxGrad else 0

/-- third_party/line_segment_detector.cpp 448-451: a pixel with its `norm`, `normPoint`. -/
def Setting.normPoint (s : Setting) (bins : ℕ) (p : Px) : Outcome (Px × ℤ) :=
  (castInt ((s.norm p).getD 0 * s.binCoef bins)).map fun i => (p, i)

/-- third_party/line_segment_detector.cpp 443-454: the points are added to those of `ordered_points`. -/
def Setting.pushPoints (s : Setting) (bins : ℕ) : List Px → List (Px × ℤ) → Outcome (List (Px × ℤ))
  | [], points => .ok points
  | p :: l, points => (s.normPoint bins p).bind fun q => s.pushPoints bins l (points ++ [q])

/-- third_party/line_segment_detector.hpp 247-250. -/
def compareNorm (a b : Px × ℤ) : Bool := decide (a.2 > b.2)

/-- What `std::sort` with `compare_norm` may do: it is not stable, so that all the sorted orders are possible. -/
structure Sorter where
  sort : List (Px × ℤ) → List (Px × ℤ)
  perm : ∀ l, (sort l).Perm l
  sorted : ∀ l, (sort l).Pairwise fun a b => compareNorm b a = false

/-- The end of `ll_angle`, third_party/line_segment_detector.cpp 442-457: `ordered_points`, from what it held before. -/
def Setting.orderedPoints (s : Setting) (bins : ℕ) (sorter : Sorter) (before : List (Px × ℤ)) : Outcome (List (Px × ℤ)) :=
  (s.pushPoints bins s.scan before).map sorter.sort

/-- A call of `detect`: the image once blurred and resized, the outcome of `std::sort`. -/
structure Call where
  image : Setting
  sorter : Sorter

/-- What a call gives: the pixels in the order they were taken, the regions and the segments. -/
structure Detected where
  order : List Px
  regions : List (Region Mean)
  segments : List Segment

/-- third_party/line_segment_detector.cpp 284-309, one call of `detect` on a detector whose `ordered_points` is `before`: what it
gives, and what it leaves in `ordered_points`. -/
def Call.run (bins : ℕ) (scale : ℝ) (fuel : ℕ) (c : Call) (before : List (Px × ℤ)) : Outcome (Detected × List (Px × ℤ)) :=
  (c.image.orderedPoints bins c.sorter before).bind fun points =>
    (c.image.regions fuel (points.map (·.1))).bind fun regions =>
      (c.image.segments scale regions).bind fun segments =>
        .ok ({ order := points.map (·.1), regions := regions, segments := segments }, [])

/-- Several calls of `detect` on one detector. -/
def runCalls (bins : ℕ) (scale : ℝ) (fuel : ℕ) : List Call → List (Px × ℤ) → Outcome (List Detected)
  | [], _ => .ok []
  | c :: l, before =>
    (c.run bins scale fuel before).bind fun r => (runCalls bins scale fuel l r.2).map fun rest => r.1 :: rest

end

end RgbdSlam.Lsd
