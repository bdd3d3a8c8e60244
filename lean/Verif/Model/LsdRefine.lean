import Verif.Model.Lsd
/-
The detector of line segments with the standard refinement (`LSD_REFINE_STD`), third_party/line_segment_detector.cpp 358-375
and 608-690.  The program uses it without refinement (Verif/Model/Lsd.lean).

Doubles and floats are reals.
-/
namespace RgbdSlam.Lsd

noncomputable section

open Classical

/-- third_party/line_segment_detector.cpp 460-514: `region_grow` with another tolerance on angles. -/
def Setting.ruleAt (s : Setting) (prec : ℝ) : Rule Mean :=
  { s.rule with aligned := fun m p => isAligned (s.angle threshold) s.width s.height p m.theta prec }

/-- third_party/line_segment_detector.cpp 58-65, `angle_diff_signed`: the loops bring the difference to ]-pi, pi]. -/
def angleDiffSigned (a b : ℝ) : ℝ := toIocMod Real.two_pi_pos (-Real.pi) (a - b)

/-- third_party/line_segment_detector.cpp 47-55, `distSq`. -/
def distSq (x1 y1 x2 y2 : ℝ) : ℝ := (x2 - x1) * (x2 - x1) + (y2 - y1) * (y2 - y1)

/-- `dist(rec.x1, rec.y1, rec.x2, rec.y2)`. -/
def Rect.length (r : Rect) : ℝ := Real.sqrt (distSq r.x1 r.y1 r.x2 r.y2)

/-- third_party/line_segment_detector.cpp 610-612, 644-646, 680-682: whether the density of `n` points in a rectangle is not
below the threshold; the quotient by 0 is infinite. -/
def dense (n : ℕ) (r : Rect) (th : ℝ) : Bool :=
  if r.length * r.width = 0 then true else decide (th ≤ n / (r.length * r.width))

/-- third_party/line_segment_detector.cpp 618-631: the sum of the differences of angles near the first point, the sum of
their squares, their number. -/
def Setting.nearby (s : Setting) (c : Px) (width : ℝ) (l : List Px) : ℝ × ℝ × ℕ :=
  l.foldl (fun a p =>
    if Real.sqrt (distSq c.1 c.2 p.1 p.2) < width then
      let d := angleDiffSigned ((s.angle threshold p).getD 0) ((s.angle threshold c).getD 0)
      (a.1 + d, a.2.1 + d * d, a.2.2 + 1)
    else a) (0, 0, 0)

/-- third_party/line_segment_detector.cpp 615-635: the new tolerance, twice the standard deviation of the angles; the
assertion fails when no point is near. -/
def Setting.spread (s : Setting) (c : Px) (width : ℝ) (l : List Px) : Outcome ℝ :=
  let (sum, sSum, n) := s.nearby c width l
  if n = 0 then .terminate
  else
    let mean := sum / n
    .ok (2 * Real.sqrt ((sSum - 2 * mean * sum) / n + mean * mean))

/-- third_party/line_segment_detector.cpp 622: all the points of a region are marked NOTUSED. -/
def release (used : Px → Bool) (l : List Px) (p : Px) : Bool := used p && !(l.contains p)

/-- `region2rect` on the points of a region (see `Setting.segments`). -/
def Setting.rectOf (s : Setting) (l : List Px) (theta : ℝ) : Outcome Rect :=
  match s.weighted l with
  | none => .ub
  | some reg => regionToRect s.atan reg theta tolerance

/-- third_party/line_segment_detector.cpp 665-676: the points at index `i` and after that are too far are exchanged with
the last one and dropped. -/
def removeFar (far : Px → Bool) (i : ℕ) (l : List Px) (used : Px → Bool) : List Px × (Px → Bool) :=
  if h : i < l.length then
    if far l[i] then removeFar far i ((l.set i (l.getLast (by intro e; simp [e] at h))).dropLast) (Function.update used l[i] false)
    else removeFar far (i + 1) l used
  else (l, used)
termination_by l.length - i
decreasing_by
  · simp; omega
  · omega

/-- third_party/line_segment_detector.cpp 662-687: the loop of `reduce_region_radius`, entered when the density is too
small. -/
def Setting.reduce (s : Setting) (th : ℝ) (c : Px) : ℕ → ℝ → Region Mean → Rect → Outcome (Bool × Region Mean × Rect)
  | 0, _, _, _ => .outOfFuel
  | fuel + 1, radSq, g, rec =>
    let radSq := radSq * (3 / 4 * (3 / 4))
    let (points, used) := removeFar (fun p => decide (radSq < distSq c.1 c.2 p.1 p.2)) 0 g.points g.used
    let g := { g with points := points, used := used }
    if g.points.length < 2 then .ok (false, g, rec)
    else (s.rectOf g.points g.angle.theta).bind fun rec =>
      if dense g.points.length rec th then .ok (true, g, rec) else s.reduce th c fuel radSq g rec

/-- third_party/line_segment_detector.cpp 608-655, `refine`: whether it succeeds, the region and its rectangle. -/
def Setting.refine (s : Setting) (fuel : ℕ) (th : ℝ) (g : Region Mean) (rec : Rect) : Outcome (Bool × Region Mean × Rect) :=
  if dense g.points.length rec th then .ok (true, g, rec)
  else
    match g.points with
    | [] => .ub
    | c :: _ =>
      (s.spread c rec.width g.points).bind fun tau =>
        ((s.ruleAt tau).grow fuel (release g.used g.points) c).bind fun g =>
          if g.points.length < 2 then .ok (false, g, rec)
          else (s.rectOf g.points g.angle.theta).bind fun rec =>
            if dense g.points.length rec th then .ok (true, g, rec)
            else s.reduce th c fuel (max (distSq c.1 c.2 rec.x1 rec.y1) (distSq c.1 c.2 rec.x2 rec.y2)) g rec

/-- third_party/line_segment_detector.cpp 343-394 with the standard refinement: the pixels and the rectangle of each line. -/
def Setting.searchRefined (s : Setting) (fuel minSize : ℕ) (th : ℝ) :
    List Px → (Px → Bool) → Outcome (List (List Px × Rect))
  | [], _ => .ok []
  | p :: l, used =>
    if !used p && (s.angle threshold p).isSome then
      (s.rule.grow fuel used p).bind fun g =>
        if g.points.length < minSize then s.searchRefined fuel minSize th l g.used
        else (s.rectOf g.points g.angle.theta).bind fun rec =>
          (s.refine fuel th g rec).bind fun res =>
            if res.1 then (s.searchRefined fuel minSize th l res.2.1.used).map fun rest => (res.2.1.points, res.2.2) :: rest
            else s.searchRefined fuel minSize th l res.2.1.used
    else s.searchRefined fuel minSize th l used

/-- third_party/line_segment_detector.cpp 284-396, `detect` with the standard refinement on the resized image: the pixels
and the segment of each line. -/
def Setting.detectRefined (s : Setting) (scale th : ℝ) (fuel : ℕ) (order : List Px) : Outcome (List (List Px × Segment)) :=
  (s.searchRefined fuel (minRegionSize s.width s.height) th order fun _ => false).map
    (List.map fun x => (x.1, x.2.segment scale))

end

end RgbdSlam.Lsd
