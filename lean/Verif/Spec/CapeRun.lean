import Verif.Model.CapeRun
/-
Which numbered frames are given to the tracker; what a date and a time look like.
-/
namespace RgbdSlam.CapeRun.Spec

open Geometry
open TumRun (Image Colour Key)

/-- Both images of a frame are there and can be read. -/
def Present (d : Dataset) (i : ℕ) (rgb : Image Colour) (depth : Image ℚ) : Prop :=
  d.rgb i = .image rgb ∧ d.depth i = .image depth

/-- Every frame is wanted without the jump option, the multiples of it otherwise. -/
def Wanted (jump i : ℕ) : Prop := jump = 0 ∨ jump ∣ i

instance (jump i : ℕ) : Decidable (Wanted jump i) := inferInstanceAs (Decidable (_ ∨ _))

/-- The frame where the dataset ends, for this first frame and this jump: the first wanted one, from the first frame on,
that lacks an image. -/
structure EndsAt (d : Dataset) (jump start e : ℕ) : Prop where
  after : start ≤ e
  wanted : Wanted jump e
  absent : ¬ ∃ rgb depth, Present d e rgb depth
  first : ∀ i, start ≤ i → i < e → Wanted jump i → ∃ rgb depth, Present d i rgb depth

/-- The wanted frames before the end, in order. -/
def frames (jump start e : ℕ) : List ℕ :=
  (List.range' start (e - start)).filter fun i => Wanted jump i

/-- A part of the frames, from the first one to one after which the user quits, or all of them. -/
def UntilQuit (keys : ℕ → Key) (frames treated : List ℕ) : Prop :=
  treated <+: frames ∧
  (∀ i, i + 1 < treated.length → keys i ≠ .quit) ∧
  (treated.length < frames.length → ∃ i, i + 1 = treated.length ∧ keys i = .quit)

/-- The depth image given to the tracker: the rectified one, or that of the file. -/
def Rectified (rectify : Image ℚ → Option (Image ℚ)) (file image : Image ℚ) : Prop :=
  rectify file = some image ∨ rectify file = none ∧ image = file

/-- The tracker was given the images of these frames in this order, with the size of the camera, and answered with these
poses. -/
inductive Tracked {S : Type} (track : S → Image Colour × Image ℚ → Outcome (S × Pose))
    (rectify : Image ℚ → Option (Image ℚ)) (width height : ℕ) (d : Dataset) : S → List ℕ → List Pose → S → Prop
  | nil (s : S) : Tracked track rectify width height d s [] [] s
  | cons {s s' s'' : S} {i : ℕ} {is : List ℕ} {rgb : Image Colour} {file depth : Image ℚ} {p : Pose} {ps : List Pose} :
      Present d i rgb file → Rectified rectify file depth →
      rgb.rows = height → rgb.cols = width → depth.rows = height → depth.cols = width →
      track s (rgb, depth) = .ok (s', p) → Tracked track rectify width height d s' is ps s'' →
      Tracked track rectify width height d s (i :: is) (p :: ps) s''

/-- A date and a time as they are usually written with these separators: year-month-day_hour:minute:second, months and
days from 1, hours, minutes and seconds from 0. -/
def stamp (t : Tm) : List Char :=
  (s!"{1900 + t.year}-{t.mon + 1}-{t.mday}_{t.hour}:{t.min}:{t.sec}").toList

end RgbdSlam.CapeRun.Spec
