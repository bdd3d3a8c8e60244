import Mathlib.Analysis.SpecialFunctions.Complex.Arg
import Verif.Model.Lsd
/-
The detection of lines at several scales, third_party/line_segment_detector.cpp 149-281 (`detect` with octaves, which the program
does not use), and the comparison of two sets of lines, 1017-1081.

Doubles and floats are reals, the integers have no bound.  The pixels of the reduced images and the lines found in them are
parameters (`Setting.detect` models the search), as is what `line` of opencv draws.  `numOfPixels` is not modelled.
-/
namespace RgbdSlam.Lsd

/-! ## Octaves -/

/-- `pyrDown` of opencv to the size `wanted` (to half the size, rounded up, when it is empty): it throws when the size is not
close to the half. -/
def pyrDown (size wanted : ℕ × ℕ) : Outcome (ℕ × ℕ) :=
  let target := if wanted.1 = 0 ∨ wanted.2 = 0 then ((size.1 + 1) / 2, (size.2 + 1) / 2) else wanted
  if 0 < size.1 ∧ 0 < size.2 ∧ |2 * (target.1 : ℤ) - size.1| ≤ 2 ∧ |2 * (target.2 : ℤ) - size.2| ≤ 2 then .ok target else .throws

/-- third_party/line_segment_detector.cpp 246-251: the sizes of the images after the first one. -/
def pyramidRest (scale : ℕ) : ℕ → ℕ × ℕ → Outcome (List (ℕ × ℕ))
  | 0, _ => .ok []
  | n + 1, size =>
    (pyrDown size (size.1 / scale, size.2 / scale)).bind fun next =>
      (pyramidRest scale n next).map fun rest => next :: rest

/-- third_party/line_segment_detector.cpp 236-252, `computeGaussianPyramid`: the sizes of the images. -/
def pyramid (numOctaves scale : ℕ) (size : ℕ × ℕ) : Outcome (List (ℕ × ℕ)) :=
  (pyramidRest scale (numOctaves - 1) size).map fun rest => size :: rest

noncomputable section

open Classical

/-- `KeyLine` of opencv, without `numOfPixels`. -/
structure KeyLine where
  startX : ℝ
  startY : ℝ
  endX : ℝ
  endY : ℝ
  octaveStartX : ℝ
  octaveStartY : ℝ
  octaveEndX : ℝ
  octaveEndY : ℝ
  length : ℝ
  angle : ℝ
  classId : ℕ
  octave : ℕ
  size : ℝ
  response : ℝ
  middleX : ℝ
  middleY : ℝ

/-- third_party/line_segment_detector.cpp 258-262 and the like, `checkLineExtremes`: one coordinate. -/
def clampExtreme (n : ℕ) (v : ℝ) : ℝ :=
  let v := if v < 0 then 0 else v
  if (n : ℝ) ≤ v then n - 1 else v

/-- third_party/line_segment_detector.cpp 186-212: the key line of one segment. -/
def keyLine (scale : ℕ) (size : ℕ × ℕ) (octave classId : ℕ) (s : Segment) : KeyLine :=
  let x1 := clampExtreme size.1 s.x1
  let y1 := clampExtreme size.2 s.y1
  let x2 := clampExtreme size.1 s.x2
  let y2 := clampExtreme size.2 s.y2
  let octaveScale : ℝ := (scale : ℝ) ^ octave
  let startX := x1 * octaveScale
  let startY := y1 * octaveScale
  let endX := x2 * octaveScale
  let endY := y2 * octaveScale
  let length := Real.sqrt ((x1 - x2) ^ 2 + (y1 - y2) ^ 2)
  { startX := startX, startY := startY, endX := endX, endY := endY
    octaveStartX := x1, octaveStartY := y1, octaveEndX := x2, octaveEndY := y2
    length := length
    angle := Complex.arg ⟨endX - startX, endY - startY⟩
    classId := classId, octave := octave
    size := (endX - startX) * (endY - startY)
    response := length / (max size.1 size.2 : ℕ)
    middleX := (endX + startX) / 2, middleY := (endY + startY) / 2 }

/-- third_party/line_segment_detector.cpp 184-215: the key lines of one octave; `next` is the next `class_id`. -/
def octaveLines (scale : ℕ) (size : ℕ × ℕ) (octave : ℕ) : ℕ → List Segment → List KeyLine
  | _, [] => []
  | next, s :: l => keyLine scale size octave next s :: octaveLines scale size octave (next + 1) l

/-- third_party/line_segment_detector.cpp 181-216: the key lines of the octaves from `octave` on. -/
def allLines (scale : ℕ) : ℕ → ℕ → List ((ℕ × ℕ) × List Segment) → List KeyLine
  | _, _, [] => []
  | octave, next, (size, l) :: rest =>
    octaveLines scale size octave next l ++ allLines scale (octave + 1) (next + l.length) rest

/-- A mask: its size, and whether a pixel is not 0. -/
structure Mask where
  width : ℕ
  height : ℕ
  value : ℤ → ℤ → Bool

/-- third_party/line_segment_detector.cpp 219-231: the lines with both ends at 0 in the mask are erased; the second end is
read when the first one is 0. -/
def applyMask (m : Mask) : List KeyLine → Outcome (List KeyLine)
  | [] => .ok []
  | k :: l =>
    (readMask m.width m.height m.value (toInt k.startX) (toInt k.startY)).bind fun a =>
      (if a then .ok true else readMask m.width m.height m.value (toInt k.endX) (toInt k.endY)).bind fun keep =>
        (applyMask m l).map fun rest => if keep then k :: rest else rest

/-- third_party/line_segment_detector.cpp 172-177: the lines of each image of the pyramid. -/
def octaveSegments (find : ℕ → Outcome (List Segment)) : ℕ → List (ℕ × ℕ) → Outcome (List ((ℕ × ℕ) × List Segment))
  | _, [] => .ok []
  | octave, size :: rest =>
    (find octave).bind fun l => (octaveSegments find (octave + 1) rest).map fun ls => (size, l) :: ls

/-- third_party/line_segment_detector.cpp 149-232, `detect` at several scales.  `size` and `byte` are the size of the image and
whether its depth is 8 bits, `find` the lines of each octave, `before` the content of `keylines`.  The third assertion compares the
mask with an image that is still empty: it fails when the mask has no pixels. -/
def detectOctaves (size : ℕ × ℕ) (byte : Bool) (find : ℕ → Outcome (List Segment)) (before : List KeyLine) (numOctaves scale : ℤ)
    (mask : Option Mask) : Outcome (List KeyLine) :=
  if ¬ (0 < numOctaves) ∨ ¬ (0 < scale) then .terminate
  else
    match mask with
    | none => .terminate
    | some m =>
      if byte = false then .throws
      else
        (pyramid numOctaves.toNat scale.toNat size).bind fun sizes =>
          (octaveSegments find 0 sizes).bind fun ls =>
            applyMask m (before ++ allLines scale.toNat 0 0 ls)

/-! ## Comparison -/

/-- third_party/line_segment_detector.cpp 1040-1051: the image of the lines; `draw s x y` says that the line of `s` covers a
pixel. -/
def covers (draw : Segment → ℕ → ℕ → Bool) (lines : List Segment) (x y : ℕ) : Bool := lines.any fun s => draw s x y

/-- third_party/line_segment_detector.cpp 1053-1056: the number of pixels of one image only. -/
def mismatch (draw : Segment → ℕ → ℕ → Bool) (size : ℕ × ℕ) (a b : List Segment) : ℕ :=
  ((List.range size.2).flatMap fun y => (List.range size.1).map fun x => (x, y)).countP fun p =>
    covers draw a p.1 p.2 ^^ covers draw b p.1 p.2

/-- third_party/line_segment_detector.cpp 1064-1077: the colour of a pixel: blue for the first lines, red for the second. -/
def compareColour (i1 i2 : Bool) (old : ℕ × ℕ × ℕ) : ℕ × ℕ × ℕ :=
  if i1 || i2 then (if i1 then 255 else 0, 0, if i2 then 255 else 0) else old

/-- An image given to the comparison: size, number of channels, whether its rows follow each other, pixels. -/
structure Canvas where
  width : ℕ
  height : ℕ
  channels : ℕ
  continuous : Bool
  pixel : ℕ → ℕ → ℕ × ℕ × ℕ

/-- third_party/line_segment_detector.cpp 1017-1081, `compareSegments` of two vectors of lines: the number of pixels, and the new
image.  The matrix that opencv makes of an empty vector has no type: the assertions on its depth (1031-1032) fail. -/
def compareSegments (draw : Segment → ℕ → ℕ → Bool) (size : ℕ × ℕ) (a b : List Segment) (canvas : Option Canvas) :
    Outcome (ℕ × Option (ℕ → ℕ → ℕ × ℕ × ℕ)) :=
  let size := match canvas with
    | some c => (c.width, c.height)
    | none => size
  if size.1 = 0 ∨ size.2 = 0 then .terminate
  else if a = [] ∨ b = [] then .terminate
  else
    let n := mismatch draw size a b
    match canvas with
    | none => .ok (n, none)
    | some c =>
      if c.channels ≠ 3 ∨ c.continuous = false then .terminate
      else .ok (n, some fun x y =>
        if x < c.width ∧ y < c.height then compareColour (covers draw a x y) (covers draw b x y) (c.pixel x y) else c.pixel x y)

end

end RgbdSlam.Lsd
