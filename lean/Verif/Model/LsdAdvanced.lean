import Mathlib.Data.List.Sort
import Verif.Model.LsdNfa
import Verif.Model.LsdRefine
/-
The detector of line segments with the advanced refinement (`LSD_REFINE_ADV`), third_party/line_segment_detector.cpp 363-375 and
694-920.  The program uses it without refinement (Verif/Model/Lsd.lean).

Doubles and floats are reals, the integers have no bound.
-/
namespace RgbdSlam.Lsd

/-! ## The pixels of a rectangle -/

/-- A corner of a rectangle, `edge` without `taken`. -/
abbrev Corner := ℤ × ℤ

/-- third_party/line_segment_detector.cpp 88-92, `AsmallerB_XoverY`, or equal. -/
def cornerLe (a b : Corner) : Prop := if a.1 = b.1 then a.2 ≤ b.2 else a.1 < b.1

instance : DecidableRel cornerLe := fun a b => by unfold cornerLe; infer_instance

/-- third_party/line_segment_detector.cpp 825-839, 844-858, 863-877: the first corner left that no other one beats; `none` is
the null pointer. -/
def pick (beats : Corner → Corner → Bool) (l : List Corner) : Option Corner :=
  l.foldl (fun best c => match best with
    | none => some c
    | some b => if beats c b then some c else some b) none

/-- The corners of third_party/line_segment_detector.cpp 805-879: `min_y`, `leftmost`, `rightmost`, `tailp`, and the row of
`max_y`. -/
structure Sweep where
  top : Corner
  left : Corner
  right : Corner
  tail : Corner
  last : ℤ

/-- third_party/line_segment_detector.cpp 814-879. A corner that is taken is left out; the assertions on the pointers fail when
no corner is left. -/
def sweepOf (corners : List Corner) : Outcome Sweep :=
  let l := corners.insertionSort cornerLe
  match pick (fun c b => decide (c.2 < b.2)) l, pick (fun c b => decide (b.2 < c.2)) l with
  | some top, some bottom =>
    let l := l.erase top
    match pick (fun c b => decide (c.1 < b.1)) l with
    | none => .terminate
    | some left =>
      let l := l.erase left
      match pick (fun c b => decide (b.1 < c.1)) l with
      | none => .terminate
      | some right =>
        let l := l.erase right
        match pick (fun c b => decide (c.1 < b.1)) l with
        | none => .terminate
        | some tail => .ok { top := top, left := left, right := right, tail := tail, last := bottom.2 }
  | _, _ => .terminate

/-- third_party/line_segment_detector.cpp 881-882 and 886-887: the first step of a side, a quotient of integers. -/
def firstStep (top side : Corner) : ℤ := if top.2 ≠ side.2 then (top.1 - side.1).tdiv (top.2 - side.2) else 0

/-- third_party/line_segment_detector.cpp 883-884 and 888-889: the second step of a side; it reads the column of `tailp` for its
row. -/
def secondStep (side tail : Corner) : ℤ := if side.2 ≠ tail.1 then (side.1 - tail.1).tdiv (side.2 - tail.1) else 0

/-- third_party/line_segment_detector.cpp 902-911: the pixels of the image of one row, from `left` to `right`. -/
def rowPixels (width : ℕ) (left right : ℤ) (y : ℕ) : List Px :=
  ((List.range (right + 1 - left).toNat).map fun i : ℕ => left + (i : ℤ)).filterMap fun x =>
    if x < 0 ∨ (width : ℤ) ≤ x then none else some (x.toNat, y)

/-- third_party/line_segment_detector.cpp 898-918: the loop over the rows, with the number of rows left.  A row out of the image
is skipped, and the two sides do not move. -/
def rows (width height : ℕ) (s : Sweep) : ℕ → ℤ → ℤ → ℤ → ℤ → ℤ → List Px
  | 0, _, _, _, _, _ => []
  | n + 1, y, left, right, lstep, rstep =>
    if y < 0 ∨ (height : ℤ) ≤ y then rows width height s n (y + 1) left right lstep rstep
    else
      let lstep' := if s.left.2 ≤ y then secondStep s.left s.tail else lstep
      let rstep' := if s.right.2 ≤ y then secondStep s.right s.tail else rstep
      rowPixels width left right y.toNat ++ rows width height s n (y + 1) (left + lstep') (right + rstep') lstep' rstep'

/-- third_party/line_segment_detector.cpp 891-918: the pixels that are counted, in the order of the loops. -/
def Sweep.pixels (width height : ℕ) (s : Sweep) : List Px :=
  rows width height s (s.last + 1 - s.top.2).toNat s.top.2 s.top.1 s.top.1 (firstStep s.top s.left) (firstStep s.top s.right)

noncomputable section

open Classical

/-- `rect`, third_party/line_segment_detector.hpp 127-136. -/
structure WideRect extends Rect where
  dx : ℝ
  dy : ℝ
  prec : ℝ
  p : ℝ

/-- third_party/line_segment_detector.cpp 801-812. -/
def WideRect.corners (r : WideRect) : List Corner :=
  let halfWidth := r.width / 2
  let dyhw := r.dy * halfWidth
  let dxhw := r.dx * halfWidth
  [(toInt (r.x1 - dyhw), toInt (r.y1 + dxhw)), (toInt (r.x2 - dyhw), toInt (r.y2 + dxhw)),
    (toInt (r.x2 + dyhw), toInt (r.y2 - dxhw)), (toInt (r.x1 + dyhw), toInt (r.y1 - dxhw))]

/-- third_party/line_segment_detector.cpp 798-918: the pixels that `rect_nfa` counts. -/
def WideRect.pixels (width height : ℕ) (r : WideRect) : Outcome (List Px) :=
  (sweepOf r.corners).map fun s => s.pixels width height

/-- third_party/line_segment_detector.cpp 798-920, `rect_nfa`. -/
def rectNfa (logGamma : ℝ → ℝ) (logNt : ℝ) (angle : Px → Option ℝ) (width height : ℕ) (r : WideRect) : Outcome ℝ :=
  (r.pixels width height).map fun l =>
    nfa logGamma logNt l.length (l.countP fun p => isAligned angle width height p r.theta r.prec) r.p

/-! ## The improvement of a rectangle -/

/-- third_party/line_segment_detector.cpp 706-716 and others: the loop that tries a variation again and again, and keeps the
best rectangle; `vary` is `none` when the width is too small. -/
def improveLoop (value : WideRect → Outcome ℝ) (vary : WideRect → Option WideRect) :
    ℕ → WideRect → ℝ × WideRect → Outcome (ℝ × WideRect)
  | 0, _, best => .ok best
  | n + 1, r, best =>
    match vary r with
    | none => improveLoop value vary n r best
    | some r => (value r).bind fun v => improveLoop value vary n r (if best.1 < v then (v, r) else best)

/-- third_party/line_segment_detector.cpp 708-709: half the probability. -/
def WideRect.finer (r : WideRect) : Option WideRect := some { r with p := r.p / 2, prec := r.p / 2 * Real.pi }

/-- third_party/line_segment_detector.cpp 723-725: less wide. -/
def WideRect.narrower (r : WideRect) : Option WideRect :=
  if 1 / 2 ≤ r.width - 1 / 2 then some { r with width := r.width - 1 / 2 } else none

/-- third_party/line_segment_detector.cpp 740-746 (`side` 1) and 761-767 (`side` -1): less wide on one side. -/
def WideRect.trimmed (side : ℝ) (r : WideRect) : Option WideRect :=
  if 1 / 2 ≤ r.width - 1 / 2 then
    some { r with
      x1 := r.x1 + side * (-r.dy * (1 / 4))
      y1 := r.y1 + side * (r.dx * (1 / 4))
      x2 := r.x2 + side * (-r.dy * (1 / 4))
      y2 := r.y2 + side * (r.dx * (1 / 4))
      width := r.width - 1 / 2 }
  else none

/-- third_party/line_segment_detector.cpp 782-785: half the probability, of a rectangle that is wide enough. -/
def WideRect.finerWide (r : WideRect) : Option WideRect := if 1 / 2 ≤ r.width - 1 / 2 then r.finer else none

/-- third_party/line_segment_detector.cpp 701-795: the variations, until the rectangle is meaningful. -/
def improveStages (value : WideRect → Outcome ℝ) (logEps : ℝ) :
    List (WideRect → Option WideRect) → ℝ × WideRect → Outcome (ℝ × WideRect)
  | [], best => .ok best
  | vary :: rest, best =>
    if logEps < best.1 then .ok best
    else (improveLoop value vary 5 best.2 best).bind (improveStages value logEps rest)

/-- third_party/line_segment_detector.cpp 694-796, `rect_improve`: the value returned and the rectangle. -/
def rectImprove (value : WideRect → Outcome ℝ) (logEps : ℝ) (r : WideRect) : Outcome (ℝ × WideRect) :=
  (value r).bind fun v =>
    improveStages value logEps [WideRect.finer, WideRect.narrower, WideRect.trimmed 1, WideRect.trimmed (-1), WideRect.finerWide] (v, r)

/-! ## The detection -/

/-- third_party/line_segment_detector.cpp 554-565: the members that `region2rect` sets for the refinements. -/
def Rect.wide (r : Rect) : WideRect :=
  { r with dx := Real.cos r.theta, dy := Real.sin r.theta, prec := tolerance, p := 1 / 8 }

/-- LOG_NT, third_party/line_segment_detector.cpp 338. -/
def logTests (width height : ℕ) : ℝ := 5 * (Real.logb 10 width + Real.logb 10 height) / 2 + Real.logb 10 11

/-- A line found with the advanced refinement: its pixels, its value (`log_nfa`) and its rectangle. -/
structure Found where
  group : List Px
  value : ℝ
  rect : WideRect

/-- third_party/line_segment_detector.cpp 343-375 with the advanced refinement. -/
def Setting.searchAdvanced (s : Setting) (value : WideRect → Outcome ℝ) (fuel minSize : ℕ) (th logEps : ℝ) :
    List Px → (Px → Bool) → Outcome (List Found)
  | [], _ => .ok []
  | p :: l, used =>
    if !used p && (s.angle threshold p).isSome then
      (s.rule.grow fuel used p).bind fun g =>
        if g.points.length < minSize then s.searchAdvanced value fuel minSize th logEps l g.used
        else (s.rectOf g.points g.angle.theta).bind fun rec =>
          (s.refine fuel th g rec).bind fun res =>
            if res.1 then
              (rectImprove value logEps res.2.2.wide).bind fun best =>
                if best.1 ≤ logEps then s.searchAdvanced value fuel minSize th logEps l res.2.1.used
                else (s.searchAdvanced value fuel minSize th logEps l res.2.1.used).map fun rest =>
                  { group := res.2.1.points, value := best.1, rect := best.2 } :: rest
            else s.searchAdvanced value fuel minSize th logEps l res.2.1.used
    else s.searchAdvanced value fuel minSize th logEps l used

/-- third_party/line_segment_detector.cpp 284-396, `detect` with the advanced refinement on the resized image: the pixels, the
value and the rectangle of each line, in pixels of the resized image. -/
def Setting.detectAdvanced (s : Setting) (logGamma : ℝ → ℝ) (th logEps : ℝ) (fuel : ℕ) (order : List Px) : Outcome (List Found) :=
  s.searchAdvanced (rectNfa logGamma (logTests s.width s.height) (s.angle threshold) s.width s.height) fuel
    (minRegionSize s.width s.height) th logEps order fun _ => false

end

end RgbdSlam.Lsd
