import Verif.Model.TumRun
/-
The text of the files of a TUM dataset (examples/TUM_parser.hpp): how lines are cut and how the values of a line are
extracted from an `std::istringstream`.

A file is its list of characters, without null characters.  Numbers are rationals: the rounding to a `double`, and the
failure of the extraction for a number out of the range of a `double`, are left out.  The locale is the default one,
without a separator of thousands.
-/
namespace RgbdSlam.TumText

abbrev Text := List Char

/-- `std::isspace` in the default locale. -/
def isSpace (c : Char) : Bool :=
  c = ' ' || c = '\t' || c = '\n' || c = Char.ofNat 11 || c = Char.ofNat 12 || c = '\r'

/-- The loops on `std::getline` (examples/TUM_parser.hpp 73, 117 and 138). -/
def getLines : Text → List Text
  | [] => []
  | c :: cs =>
    if c = '\n' then [] :: getLines cs
    else
      match getLines cs with
      | [] => [[c]]
      | l :: ls => (c :: l) :: ls

/-- `line[0] == '#'` (examples/TUM_parser.hpp 75, 119 and 140); the first character of an empty `std::string` is the
null character. -/
def isComment (line : Text) : Bool := line.head? = some '#'

/-- `std::istringstream`: the characters that remain, and `failbit`. -/
structure Stream where
  rest : Text
  failed : Bool

/-- `operator>>(std::istream&, std::string&)`: the string keeps its value when nothing can be extracted
(examples/TUM_parser.hpp 84 and 146). -/
def extractWord (s : Stream) (old : String) : String × Stream :=
  if s.failed then (old, s)
  else
    match s.rest.dropWhile isSpace with
    | [] => (old, ⟨[], true⟩)
    | t => (String.ofList (t.takeWhile fun c => !isSpace c), ⟨t.dropWhile fun c => !isSpace c, false⟩)

/-- The optional sign of a number or of an exponent: true for a minus. -/
def scanSign : Text → Bool × Text
  | '-' :: t => (true, t)
  | '+' :: t => (false, t)
  | t => (false, t)

/-- The number of these decimal digits. -/
def digitsValue (digits : Text) : ℕ := digits.foldl (fun n c => 10 * n + (c.toNat - 48)) 0

/-- The optional decimal point and the digits after it. -/
def scanFraction : Text → Text × Text
  | '.' :: t => (t.takeWhile Char.isDigit, t.dropWhile Char.isDigit)
  | t => ([], t)

/-- The optional exponent: `none` when its digits are missing. -/
def scanExponent : Text → Option ℤ × Text
  | [] => (some 0, [])
  | c :: t =>
    if c = 'e' ∨ c = 'E' then
      let s := scanSign t
      let digits := s.2.takeWhile Char.isDigit
      if digits = [] then (none, s.2)
      else (some (if s.1 then -(digitsValue digits : ℤ) else digitsValue digits), s.2.dropWhile Char.isDigit)
    else (some 0, c :: t)

/-- `std::num_get::do_get` for a `double`: the longest beginning that has the characters of a number, which must be a
number. -/
def scanNumber (t : Text) : Option ℚ × Text :=
  let s := scanSign t
  let int := s.2.takeWhile Char.isDigit
  let f := scanFraction (s.2.dropWhile Char.isDigit)
  if int = [] ∧ f.1 = [] then (none, f.2)
  else
    let mantissa : ℚ := digitsValue int + digitsValue f.1 / 10 ^ f.1.length
    let e := scanExponent f.2
    (e.1.map fun x => (if s.1 then -mantissa else mantissa) * (10 : ℚ) ^ x, e.2)

/-- `operator>>(std::istream&, double&)`: the variable keeps its value, `none` for an indeterminate one, when the stream
has failed or nothing remains, and is 0 when what remains is not a number (examples/TUM_parser.hpp 84, 124-125 and
146). -/
def extractNumber (s : Stream) (old : Option ℚ) : Option ℚ × Stream :=
  if s.failed then (old, s)
  else
    match s.rest.dropWhile isSpace with
    | [] => (old, ⟨[], true⟩)
    | t =>
      match scanNumber t with
      | (some v, r) => (some v, ⟨r, false⟩)
      | (none, r) => (some 0, ⟨r, true⟩)

/-- The values of a line of a list of images (examples/TUM_parser.hpp 142-146); the time stamp starts at 0. -/
def readImageLine (line : Text) : ℚ × String :=
  let time := extractNumber ⟨line, false⟩ (some 0)
  (time.1.getD 0, (extractWord time.2 "").1)

/-- examples/TUM_parser.hpp 133-155, `parse_file`. -/
def parseImages (text : Text) : Tum.TimeMap String :=
  Tum.parseFile (((getLines text).filter fun l => !isComment l).map readImageLine)

/-- The values of a line of an association file (examples/TUM_parser.hpp 78-84): the time stamps are not initialised. -/
def readAssociation (line : Text) : Option ℚ × String × Option ℚ × String :=
  let depthTime := extractNumber ⟨line, false⟩ none
  let depthPath := extractWord depthTime.2 ""
  let rgbTime := extractNumber depthPath.2 none
  let rgbPath := extractWord rgbTime.2 ""
  (depthTime.1, depthPath.1, rgbTime.1, rgbPath.1)

/-- The frame of a line (examples/TUM_parser.hpp 86-106): undefined when a time stamp that is used has no value. -/
def associationFrame {G : Type} (truth : Tum.TimeMap G) (line : Text) : Outcome (List (Tum.Frame G)) :=
  match readAssociation line with
  | (depthTime, depthPath, rgbTime, rgbPath) =>
    if depthPath ≠ "" ∧ rgbPath ≠ "" then
      match depthTime, rgbTime with
      | some depthTime, some rgbTime =>
        .ok [{ rgb := (rgbTime, rgbPath), depth := some (depthTime, depthPath),
               groundTruth := (Tum.find? rgbTime truth).map fun g => (rgbTime, g) }]
      | _, _ => .ub
    else .ok []

/-- The loop of `parse_association_file` (examples/TUM_parser.hpp 73-108). -/
def associationFrames {G : Type} (truth : Tum.TimeMap G) : List Text → Outcome (List (Tum.Frame G))
  | [] => .ok []
  | line :: lines =>
    if isComment line then associationFrames truth lines
    else (associationFrame truth line).bind fun f => (associationFrames truth lines).map (f ++ ·)

/-- examples/TUM_parser.hpp 63-110, `parse_association_file`, once the file is open. -/
def parseAssociationFile {G : Type} (truth : Tum.TimeMap G) (text : Text) : Outcome (List (Tum.Frame G)) :=
  associationFrames truth (getLines text)

/-- Extraction of numbers, one after the other, in variables that are not initialised (examples/TUM_parser.hpp
124-125). -/
def extractNumbers : ℕ → Stream → List (Option ℚ)
  | 0, _ => []
  | n + 1, s =>
    let x := extractNumber s none
    x.1 :: extractNumbers n x.2

/-- The values of a line of the ground truth (examples/TUM_parser.hpp 121-125): the time stamp starts at 0 (line 27),
the three coordinates and the four numbers of the rotation are not initialised (lines 28-29). -/
def readTruthLine (line : Text) : ℚ × List (Option ℚ) :=
  let time := extractNumber ⟨line, false⟩ (some 0)
  (time.1.getD 0, extractNumbers 7 time.2)

/-- examples/TUM_parser.hpp 112-131, `parse_ground_truth`.  A number of the pose that is not read is `none`: the copy
of its indeterminate value (line 127) is not counted as undefined behaviour. -/
def parseTruth (text : Text) : Tum.TimeMap (List (Option ℚ)) :=
  Tum.parseGroundTruth (((getLines text).filter fun l => !isComment l).map readTruthLine)

end RgbdSlam.TumText
