import Verif.Model.Outcome
import Mathlib.Data.Rat.Lemmas
import Mathlib.Algebra.Order.Field.Rat
import Mathlib.Algebra.Order.Group.Abs

/-
The reader of TUM datasets of the example program (examples/TUM_parser.hpp) and the choice of the
frames by its main loop (examples/main_TUM.cpp).

Time stamps are rationals: the rounding of their difference is not modelled.  A file is
the list of the values read from its lines; `Model/TumText` reads them from its text.
-/
namespace RgbdSlam.Tum

/-- `std::map<double, V>`, by increasing key. -/
abbrev TimeMap (V : Type) := List (ℚ × V)

/-- `std::map::try_emplace`: a key that is present keeps its value. -/
def tryEmplace {V : Type} (time : ℚ) (value : V) : TimeMap V → TimeMap V
  | [] => [(time, value)]
  | (t, v) :: m =>
    if time < t then (time, value) :: (t, v) :: m
    else if t < time then (t, v) :: tryEmplace time value m
    else (t, v) :: m

/-- `std::map::find`. -/
def find? {V : Type} (time : ℚ) (m : TimeMap V) : Option V := (m.find? fun e => e.1 = time).map (·.2)

/-- `std::map::erase` of the element with this key. -/
def erase {V : Type} (time : ℚ) (m : TimeMap V) : TimeMap V := m.filter fun e => e.1 ≠ time

/-- examples/TUM_parser.hpp 133-155, `parse_file`, on the time stamps and paths read from the lines. -/
def parseFile (lines : List (ℚ × String)) : TimeMap String :=
  lines.foldl (fun m l => if l.2 ≠ "" ∧ 0 < l.1 then tryEmplace l.1 l.2 m else m) []

/-- examples/TUM_parser.hpp 112-131, `parse_ground_truth`, on the time stamps and poses read from the
lines. -/
def parseGroundTruth {G : Type} (lines : List (ℚ × G)) : TimeMap G :=
  lines.foldl (fun m l => tryEmplace l.1 l.2 m) []

/-- `struct TimeStampScore` (examples/TUM_parser.hpp 163-168). -/
structure Candidate where
  score : ℚ
  rgb : ℚ
  depth : ℚ
  deriving DecidableEq

/-- The inner loop over depth images (examples/TUM_parser.hpp 177-194), with `readyToBreak`. -/
def candidatesOf {V : Type} (offset maxDifference rgb : ℚ) : TimeMap V → Bool → List Candidate
  | [], _ => []
  | (depth, _) :: rest, ready =>
    let score := |rgb - (depth + offset)|
    if score < maxDifference then
      { score := score, rgb := rgb, depth := depth } :: candidatesOf offset maxDifference rgb rest true
    else if ready then []
    else candidatesOf offset maxDifference rgb rest ready

/-- The loops of examples/TUM_parser.hpp 173-195. -/
def candidates {V : Type} (offset maxDifference : ℚ) (rgb depth : TimeMap V) : List Candidate :=
  rgb.flatMap fun image => candidatesOf offset maxDifference image.1 depth false

/-- `struct Data` (examples/TUM_parser.hpp 33-38).  The colour image is always valid, because
`USE_DEPTH_WITHOUT_RGB` is not defined (line 16). -/
structure Frame (G : Type) where
  rgb : ℚ × String
  depth : Option (ℚ × String)
  groundTruth : Option (ℚ × G)

/-- One iteration of the association loop (examples/TUM_parser.hpp 206-226): the frame that is made,
if any, and the remaining images. -/
def associateOne {G : Type} (c : Candidate) (rgb depth : TimeMap String) :
    Option (Frame G) × TimeMap String × TimeMap String :=
  match find? c.rgb rgb, find? c.depth depth with
  | some rgbPath, some depthPath =>
    (some { rgb := (c.rgb, rgbPath), depth := some (c.depth, depthPath), groundTruth := none },
      erase c.rgb rgb, erase c.depth depth)
  | _, _ => (none, rgb, depth)

/-- The association loop (examples/TUM_parser.hpp 202-226): the frames, the images of each kind that
remain. -/
def associateAll {G : Type} : List Candidate → TimeMap String → TimeMap String →
    List (Frame G) × TimeMap String × TimeMap String
  | [], rgb, depth => ([], rgb, depth)
  | c :: cs, rgb, depth =>
    let r := associateOne c rgb depth
    let rest := associateAll cs r.2.1 r.2.2
    (r.1.toList ++ rest.1, rest.2)

/-- Colour images without depth (examples/TUM_parser.hpp 228-242). -/
def withoutDepth {G : Type} (rgb : TimeMap String) : List (Frame G) :=
  rgb.map fun image => { rgb := image, depth := none, groundTruth := none }

/-- The comparison of the final sort (examples/TUM_parser.hpp 260-269). -/
def before {G : Type} (a b : Frame G) : Prop :=
  a.rgb.1 < b.rgb.1 ∨
    match a.depth, b.depth with
    | some x, some y => x.1 < y.1
    | _, _ => False

/-- What `std::sort` requires of its comparison on the elements of its range. -/
structure StrictWeakOn {α : Type} (lt : α → α → Prop) (l : List α) : Prop where
  irrefl : ∀ a ∈ l, ¬ lt a a
  trans : ∀ a ∈ l, ∀ b ∈ l, ∀ c ∈ l, lt a b → lt b c → lt a c
  equivTrans : ∀ a ∈ l, ∀ b ∈ l, ∀ c ∈ l, ¬ lt a b → ¬ lt b a → ¬ lt b c → ¬ lt c b → ¬ lt a c ∧ ¬ lt c a

/-- A result of `std::sort`, which does not specify the order of equivalent elements.  The behaviour is
undefined when the comparison is not a strict weak order on the elements. -/
inductive SortsTo {α : Type} (lt : α → α → Prop) (l : List α) : Outcome (List α) → Prop
  | sorted {l' : List α} : StrictWeakOn lt l → l'.Perm l → l'.Pairwise (fun a b => ¬ lt b a) →
      SortsTo lt l (.ok l')
  | invalid : ¬ StrictWeakOn lt l → SortsTo lt l .ub

/-- The comparison with the best score so far (examples/TUM_parser.hpp 294-300); it starts at the largest
double. -/
def keepBest {G : Type} (best : Option (ℚ × ℚ × G)) (new : ℚ × ℚ × G) : Option (ℚ × ℚ × G) :=
  match best with
  | none => some new
  | some b => if new.1 < b.1 then some new else some b

/-- The loop over the ground truth (examples/TUM_parser.hpp 285-307): the closest element found so far,
with its score, and `readyToBreak`. -/
def closestTo {G : Type} (time : ℚ) : TimeMap G → Option (ℚ × ℚ × G) → Bool → Option (ℚ × ℚ × G)
  | [], best, _ => best
  | (t, g) :: rest, best, ready =>
    let score := |time - t|
    if score < 5 / 100 then
      closestTo time rest (keepBest best (score, t, g)) true
    else if ready then best
    else closestTo time rest best ready

/-- The loop over the frames (examples/TUM_parser.hpp 278-320). -/
def assignGroundTruth {G : Type} : List (Frame G) → TimeMap G → List (Frame G)
  | [], _ => []
  | f :: fs, truth =>
    match closestTo f.rgb.1 truth none false with
    | some (_, t, g) => { f with groundTruth := some (t, g) } :: assignGroundTruth fs (erase t truth)
    | none => { f with groundTruth := none } :: assignGroundTruth fs truth

/-- The runs of `associate_data` (examples/TUM_parser.hpp 157-326), with the defaults of its parameters. -/
inductive Associates {G : Type} (rgb depth : TimeMap String) (truth : TimeMap G) :
    Outcome (List (Frame G)) → Prop
  | run {order : List Candidate} {sorted : Outcome (List (Frame G))} :
      SortsTo (fun a b : Candidate => a.score < b.score) (candidates 0 (15 / 100) rgb depth) (.ok order) →
      SortsTo before
        ((associateAll order rgb depth).1 ++ withoutDepth (associateAll (G := G) order rgb depth).2.1) sorted →
      Associates rgb depth truth (sorted.map fun frames => assignGroundTruth frames truth)

/-- The runs of `parse_dataset` (examples/TUM_parser.hpp 50-59). -/
def ParsesTo {G : Type} (rgbLines depthLines : List (ℚ × String)) (truthLines : List (ℚ × G)) :
    Outcome (List (Frame G)) → Prop :=
  Associates (parseFile rgbLines) (parseFile depthLines) (parseGroundTruth truthLines)

/-- The frames of a dataset of `n` frames that the main loop gives to the tracker, when the user does not
stop it (examples/main_TUM.cpp 180, 203-214, 284): `frameIndex` starts at the index option, is incremented
for every frame and only decides which frames are jumped. -/
def treatedFrames (jump : ℕ) : ℕ → ℕ → ℕ → List ℕ
  | _, _, 0 => []
  | frameIndex, k, n + 1 =>
    if 0 < jump ∧ frameIndex % jump ≠ 0 then treatedFrames jump (frameIndex + 1) (k + 1) n
    else k :: treatedFrames jump (frameIndex + 1) (k + 1) n

end RgbdSlam.Tum
