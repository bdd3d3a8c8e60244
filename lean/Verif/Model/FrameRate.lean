import Verif.Model.Outcome
import Mathlib.Data.Rat.Floor

/-
Model of the frame rate of the example programs: the option `r` that slows the treatment down (examples/main_TUM.cpp
295-299, examples/main_CAPE.cpp 219-223), and the rate written in the image (src/rgbd_slam.cpp 143-149).

Durations are exact rationals, in seconds.
-/
namespace RgbdSlam.FrameRate

open RgbdSlam

/-- The durations of one frame: that of `track`, that of everything else in the turn (reading the images, drawing,
`check_user_inputs`, writing the pose), and what `usleep` sleeps beyond what it is asked. -/
structure Frame where
  tracking : ℚ
  rest : ℚ
  late : ℚ
  deriving DecidableEq, Repr

/-- examples/main_TUM.cpp 295-299 (main_CAPE.cpp 219-223 is the same): the microseconds asked from `usleep`.  With a
target of zero `1.0 / fpsTarget` is infinite, any duration is below it, and the infinite double is converted to an
integer.  The conversion to `useconds_t` drops the fraction; a value of `2 ^ 32` or more does not fit. -/
def sleepTime (fpsTarget : ℕ) (tracking : ℚ) : Outcome ℕ :=
  if fpsTarget = 0 then .ub
  else if tracking < 1 / (fpsTarget : ℚ) then
    let us := (1 / (fpsTarget : ℚ) - tracking) * 10 ^ 6
    if us < 2 ^ 32 then .ok us.floor.toNat else .ub
  else .ok 0

/-- The duration of one turn of the loop of examples/main_TUM.cpp 202-300. -/
def turn (fpsTarget : ℕ) (f : Frame) : Outcome ℚ :=
  (sleepTime fpsTarget f.tracking).bind fun us =>
  .ok (f.tracking + f.rest + (if f.tracking < 1 / (fpsTarget : ℚ) then (us : ℚ) / 10 ^ 6 + f.late else 0))

/-- The duration of the turns for these frames, one after the other. -/
def turns (fpsTarget : ℕ) : List Frame → Outcome ℚ
  | [] => .ok 0
  | f :: fs => (turn fpsTarget f).bind fun t => (turns fpsTarget fs).bind fun r => .ok (t + r)

/-- `round` of `<cmath>`: half way cases go away from zero. -/
def roundAway (x : ℚ) : ℤ := if 0 ≤ x then (x + 1 / 2).floor else -((-x + 1 / 2).floor)

/-- src/rgbd_slam.cpp 143-149: the number of frames per second written in the debug image, if any. -/
def shownRate (elapsedTime : ℚ) : Option ℤ :=
  if 0 < elapsedTime then some (roundAway (1 / elapsedTime + 1 / 2)) else none

end RgbdSlam.FrameRate
