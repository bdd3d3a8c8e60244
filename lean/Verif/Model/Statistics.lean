import Mathlib.Algebra.Order.Ring.Rat
import Mathlib.Algebra.BigOperators.Group.List.Basic
/-
The durations that the program measures and the statistics that it prints.  A section is the pair of readings
of the clock around a piece of code.  Durations are rational numbers: the rounding of `double` and of the
printed text is not modelled, nor is the lost update of two threads that add to the same counter.
-/
namespace RgbdSlam.Statistics

/-- Two readings of `cv::getTickCount`, before and after a piece of code. -/
structure Section where
  start : ℤ
  stop : ℤ

/-- `(cv::getTickCount() - start) / cv::getTickFrequency()`, as in src/rgbd_slam.cpp 113-114. -/
def Section.seconds (freq : ℚ) (s : Section) : ℚ := ((s.stop - s.start : ℤ) : ℚ) / freq

/-- A section that may not be run, or not be counted. -/
def seconds? (freq : ℚ) (s : Option Section) : ℚ := (s.map (Section.seconds freq)).getD 0

/-- The readings in `Key_Point_Extraction::compute_keypoints`,
src/features/keypoints/keypoint_detection.cpp 158-260: `flow` is absent without last image or without tracked
point (line 187), `detect` when there are enough points (213), `describe` when nothing is detected (222). -/
structure PointFrame where
  total : Section
  flow : Option Section
  detect : Option Section
  describe : Option Section

/-- The readings in `Primitive_Detection::find_primitives`,
src/features/primitives/primitive_detection.cpp 119-166. -/
structure PrimitiveFrame where
  total : Section
  reset : Section
  init : Section
  grow : Section
  merge : Section
  planes : Section
  cylinders : Section

/-- The readings in one iteration of `compute_pose_with_ransac`, src/pose_optimization/pose_optimization.cpp
168-192: an iteration whose optimisation fails returns before its time is added (176-182). -/
structure Iteration where
  subset : Section
  solved : Option (Section × Section)

/-- The readings in `compute_pose_with_ransac`, src/pose_optimization/pose_optimization.cpp 107-261. -/
structure RansacFrame where
  total : Section
  iterations : List Iteration

/-- The readings in one call of `RGBD_SLAM::track`, src/rgbd_slam.cpp 99-125 and 163-249; `track` is read by
the caller (examples/main_TUM.cpp 257-261, examples/main_CAPE.cpp 189-193).  `ransac` is absent in the first frame
(189), `variance` when the optimisation fails, `update` when there is no pose or the update throws (local_map.hpp
119), `add` unless the tracking is lost. -/
structure Frame where
  track : Section
  depth : Section
  points : PointFrame
  primitives : PrimitiveFrame
  find : Section
  ransac : Option RansacFrame
  variance : Option Section
  update : Option Section
  add : Option Section

/-- The counters of one `RGBD_SLAM` object and of its parts: src/rgbd_slam.hpp 120-121,
keypoint_detection.hpp 114-118, line_detection.hpp 43, primitive_detection.hpp 233-239, local_map.hpp
359-361. -/
structure Counters where
  frames : ℕ := 0
  depth : ℚ := 0
  points : ℚ := 0
  flow : ℚ := 0
  detect : ℚ := 0
  describe : ℚ := 0
  lines : ℚ := 0
  primitives : ℚ := 0
  reset : ℚ := 0
  init : ℚ := 0
  grow : ℚ := 0
  merge : ℚ := 0
  refine : ℚ := 0
  find : ℚ := 0
  update : ℚ := 0
  add : ℚ := 0

/-- The static counters of `Pose_Optimization`, src/pose_optimization/pose_optimization.hpp 97-102: there is
one of each in the process. -/
structure Shared where
  ransac : ℚ := 0
  variance : ℚ := 0
  subset : ℚ := 0
  solve : ℚ := 0
  inliers : ℚ := 0

/-- One frame in the counters of its object.  The counter of the lines is never changed: `detect_lines`
(src/features/lines/line_detection.cpp 24-32) reads no clock, and is not called. -/
def Counters.add' (freq : ℚ) (c : Counters) (f : Frame) : Counters where
  frames := c.frames + 1
  depth := c.depth + f.depth.seconds freq
  points := c.points + f.points.total.seconds freq
  flow := c.flow + seconds? freq f.points.flow
  detect := c.detect + seconds? freq f.points.detect
  describe := c.describe + seconds? freq f.points.describe
  lines := c.lines
  primitives := c.primitives + f.primitives.total.seconds freq
  reset := c.reset + f.primitives.reset.seconds freq
  init := c.init + f.primitives.init.seconds freq
  grow := c.grow + f.primitives.grow.seconds freq
  merge := c.merge + f.primitives.merge.seconds freq
  refine := c.refine + f.primitives.planes.seconds freq + f.primitives.cylinders.seconds freq
  find := c.find + f.find.seconds freq
  update := c.update + seconds? freq f.update
  add := c.add + seconds? freq f.add

/-- One iteration in the static counters, pose_optimization.cpp 171-172, 183-184 and 191-192. -/
def Shared.iterate (freq : ℚ) (g : Shared) (i : Iteration) : Shared :=
  let g := { g with subset := g.subset + i.subset.seconds freq }
  match i.solved with
  | none => g
  | some (p, q) => { g with solve := g.solve + p.seconds freq, inliers := g.inliers + q.seconds freq }

/-- One frame in the static counters, pose_optimization.cpp 107-261 and 361-437. -/
def Shared.add' (freq : ℚ) (g : Shared) (f : Frame) : Shared :=
  let g := match f.ransac with
    | none => g
    | some r =>
      let g := r.iterations.foldl (Shared.iterate freq) g
      { g with ransac := g.ransac + r.total.seconds freq }
  { g with variance := g.variance + seconds? freq f.variance }

/-- The objects of the process, by number, and the static counters. -/
structure Process where
  objects : ℕ → Counters := fun _ => {}
  shared : Shared := {}

/-- A call of `track` of one of the objects. -/
def Process.track (freq : ℚ) (p : Process) (e : ℕ × Frame) : Process where
  objects := fun i => if i = e.1 then (p.objects i).add' freq e.2 else p.objects i
  shared := p.shared.add' freq e.2

/-- The calls of `track` in the process. -/
def Process.run (freq : ℚ) (p : Process) (l : List (ℕ × Frame)) : Process := l.foldl (Process.track freq) p

/-- `get_percent_of_elapsed_time`, src/rgbd_slam.cpp 318-323 (and the same in each part). -/
def percent (time total : ℚ) : ℚ := if total ≤ 0 then 0 else time / total * 100

/-- A printed line: what it is about, the seconds and the percentage. -/
structure Line where
  label : String
  seconds : ℚ
  percent : ℚ
  deriving DecidableEq

/-- The line of a counter. -/
def line (label : String) (time total : ℚ) : Line := ⟨label, time, percent time total⟩

/-- `Key_Point_Extraction::show_statistics`, src/features/keypoints/keypoint_detection.cpp 363-402. -/
def showPoints (c : Counters) (mean : ℚ) (n : ℕ) (details : Bool) : List Line :=
  if n = 0 then []
  else
    let m := c.points / n
    line "point extraction" m mean ::
      if details then [line "point optical flow" (c.flow / n) m, line "point detection" (c.detect / n) m,
        line "point descriptor" (c.describe / n) m]
      else []

/-- `Line_Detection::show_statistics`, src/features/lines/line_detection.cpp 72-88. -/
def showLines (c : Counters) (mean : ℚ) (n : ℕ) : List Line :=
  if n = 0 then [] else [line "line extraction" (c.lines / n) mean]

/-- `Primitive_Detection::show_statistics`, src/features/primitives/primitive_detection.cpp 69-117. -/
def showPrimitives (c : Counters) (mean : ℚ) (n : ℕ) (details : Bool) : List Line :=
  if n = 0 then []
  else
    let m := c.primitives / n
    line "primitive extraction" m mean ::
      if details then [line "primitive reset" (c.reset / n) m, line "primitive init" (c.init / n) m,
        line "primitive grow" (c.grow / n) m, line "primitive merge" (c.merge / n) m,
        line "primitive refine" (c.refine / n) m]
      else []

/-- `Local_Map::show_statistics`, src/map_management/local_map.hpp 231-257. -/
def showMap (c : Counters) (mean : ℚ) (n : ℕ) : List Line :=
  if n = 0 then []
  else [line "map update" (c.update / n) mean, line "map add features" (c.add / n) mean,
    line "find match" (c.find / n) mean]

/-- `Pose_Optimization::show_statistics`, src/pose_optimization/pose_optimization.cpp 439-480. -/
def showPose (g : Shared) (mean : ℚ) (n : ℕ) (details : Bool) : List Line :=
  if n = 0 then []
  else
    let m := g.ransac / n
    line "pose optimisation with RANSAC" m mean ::
      ((if details then [line "pose RANSAC get subset" (g.subset / n) m,
          line "pose RANSAC optimize pose" (g.solve / n) m, line "pose RANSAC get inliers" (g.inliers / n) m]
        else []) ++ [line "pose variance computation" (g.variance / n) mean])

/-- `RGBD_SLAM::show_statistics`, src/rgbd_slam.cpp 325-347. -/
def Process.showStatistics (p : Process) (i : ℕ) (mean : ℚ) : List Line :=
  let c := p.objects i
  if c.frames = 0 then []
  else
    line "image to point cloud treatment" (c.depth / c.frames) mean ::
      (showPrimitives c mean c.frames false ++ showLines c mean c.frames ++ showPoints c mean c.frames false ++
        showMap c mean c.frames ++ showPose p.shared mean c.frames false)

end RgbdSlam.Statistics
