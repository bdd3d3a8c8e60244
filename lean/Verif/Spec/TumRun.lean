import Verif.Model.TumRun
/-
Which frames of a dataset are given to the tracker, and what the tracker is given.
-/
namespace RgbdSlam.TumRun.Spec

open Geometry

/-- The frames kept by the jump option: every frame without it, otherwise those whose number (an unsigned integer of 32
bits that starts at the index option) is a multiple of it. -/
def kept (jump start : ℕ) (frames : List Input) : List Input :=
  ((frames.zipIdx start).filter fun p => jump = 0 ∨ p.2 % 2 ^ 32 % jump = 0).map (·.1)

/-- The kept frames up to the first one after which the user quits. -/
def UntilQuit (keys : ℕ → Key) (kept treated : List Input) : Prop :=
  treated <+: kept ∧
  (∀ i, i + 1 < treated.length → keys i ≠ .quit) ∧
  (treated.length < kept.length → ∃ i, i + 1 = treated.length ∧ keys i = .quit)

/-- The image of a colour file, black when it cannot be read. -/
def IsColour (width height : ℕ) (file : Option (Image Colour)) (image : Image Colour) : Prop :=
  image.rows = height ∧ image.cols = width ∧
  match file with
  | some f => image = f
  | none => ∀ i j, image.pixel i j = (0, 0, 0)

/-- The depths of a depth file, in millimetres: the files of these datasets hold 5000 for one metre; no depth when it
cannot be read. -/
def IsDepth (width height : ℕ) (file : Option (Image ℚ)) (image : Image ℚ) : Prop :=
  image.rows = height ∧ image.cols = width ∧
  match file with
  | some f => f.rows = height ∧ f.cols = width ∧ ∀ i j, image.pixel i j = f.pixel i j / 5000 * 1000
  | none => ∀ i j, image.pixel i j = 0

/-- The tracker was given these frames in this order, and answered with these poses. -/
inductive Tracked {S : Type} (track : S → Image Colour × Image ℚ → Outcome (S × Pose)) (width height : ℕ) :
    S → List Input → List Pose → S → Prop
  | nil (s : S) : Tracked track width height s [] [] s
  | cons {s s' s'' : S} {f : Input} {fs : List Input} {colour : Image Colour} {depth : Image ℚ} {p : Pose}
      {ps : List Pose} : IsColour width height f.rgb colour → IsDepth width height f.depth depth →
      track s (colour, depth) = .ok (s', p) → Tracked track width height s' fs ps s'' →
      Tracked track width height s (f :: fs) (p :: ps) s''

/-- The files of these datasets give positions in metres, the tracker works in millimetres. -/
noncomputable def truthPose (g : V3 × Quat) : Pose :=
  Pose.ofParameters (fun i => 1000 * g.1 i) g.2

end RgbdSlam.TumRun.Spec
