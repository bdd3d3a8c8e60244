import Verif.Model.Statistics
/-
Specification vocabulary for the printed statistics: sections that follow each other in time, means and
shares.
-/
namespace RgbdSlam.Statistics.Spec

open RgbdSlam.Statistics

/-- The sections are run one after the other, between these readings of the clock. -/
def Follow : ℤ → ℤ → List Section → Prop
  | lo, hi, [] => lo ≤ hi
  | lo, hi, s :: l => lo ≤ s.start ∧ s.start ≤ s.stop ∧ Follow s.stop hi l

/-- The sections are run one after the other inside another one. -/
def Inside (s : Section) (l : List Section) : Prop := Follow s.start s.stop l

/-- What is measured after the detections. -/
def afterDetection (f : Frame) : List Section :=
  f.find :: ((f.ransac.map (·.total)).toList ++ f.variance.toList ++ f.update.toList ++ f.add.toList)

/-- The sections of an iteration of RANSAC. -/
def iterationSections (i : Iteration) : List Section :=
  i.subset :: (i.solved.map fun s => [s.1, s.2]).getD []

/-- The readings of a frame come from a clock that never goes back.  The points and the primitives are
detected at the same time, and so are the iterations of RANSAC run. -/
structure Timed (f : Frame) : Prop where
  pointsPath : Inside f.track (f.depth :: f.points.total :: afterDetection f)
  primitivesPath : Inside f.track (f.depth :: f.primitives.total :: afterDetection f)
  points : Inside f.points.total (f.points.flow.toList ++ f.points.detect.toList ++ f.points.describe.toList)
  primitives : Inside f.primitives.total [f.primitives.reset, f.primitives.init, f.primitives.grow,
    f.primitives.merge, f.primitives.planes, f.primitives.cylinders]
  ransac : ∀ r ∈ f.ransac, ∀ i ∈ r.iterations, Inside r.total (iterationSections i)

/-- The iterations of RANSAC are run one after the other (the program compiled with MAKE_DETERMINISTIC). -/
def Deterministic (f : Frame) : Prop := ∀ r ∈ f.ransac, Inside r.total (r.iterations.flatMap iterationSections)

/-- The mean of a quantity over some frames. -/
def meanOf (g : Frame → ℚ) (l : List Frame) : ℚ := (l.map g).sum / l.length

/-- The frames that this object treats. -/
def framesOf (i : ℕ) (l : List (ℕ × Frame)) : List Frame := (l.filter fun e => e.1 = i).map (·.2)

/-- The percentages of the printed lines but one, added. -/
def total (but : String) (l : List Line) : ℚ := ((l.filter fun x => x.label ≠ but).map (·.percent)).sum

end RgbdSlam.Statistics.Spec
