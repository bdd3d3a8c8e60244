import Verif.Model.MapWriter
/-
How a program reads the exported files, independently of how they are written.
-/
namespace RgbdSlam.Writer

/-- The parts of a text between the separators. -/
def split (sep : Char) : List Char → List (List Char)
  | [] => [[]]
  | c :: cs =>
    if c = sep then [] :: split sep cs
    else match split sep cs with
      | w :: ws => (c :: w) :: ws
      | [] => [[c]]

/-- Lines of a file; each line as its list of words.  A file that ends with a newline has an empty last
line, which is not a line of the file. -/
def fileLines (text : List Char) : List (List (List Char)) :=
  ((split '\n' text).dropLast).map (split ' ')

/-- The OBJ vertices, in order: the coordinate words of the lines that begin with `v`. -/
def objVertices (text : List Char) : List (List (List Char)) :=
  (fileLines text).filterMap fun l =>
    match l with
    | ['v'] :: ws => some ws
    | _ => none

/-- An OBJ element: `p`, `l` or `f` and its vertex numbers. -/
def objElement (l : List (List Char)) : Option (Char × List Nat) :=
  match l with
  | [c] :: ws =>
    if c = 'p' ∨ c = 'l' ∨ c = 'f' then some (c, ws.map fun w => Nat.ofDigitChars 10 w 0) else none
  | _ => none

/-- The elements of an OBJ file, in order. -/
def objElements (text : List Char) : List (Char × List Nat) := (fileLines text).filterMap objElement

/-- The vertex with a number: OBJ numbers start at 1. -/
def objVertex (text : List Char) (n : Nat) : Option (List (List Char)) :=
  if n = 0 then none else (objVertices text)[n - 1]?

/-- What an OBJ viewer shows: each element with the coordinates of its vertices (`none`: the number
designates no vertex). -/
def objShown (text : List Char) : List (Char × List (Option (List (List Char)))) :=
  (objElements text).map fun e => (e.1, e.2.map (objVertex text))

/-- Coordinates as words. -/
def words {R : Type} (fmt : R → List Char) (p : Vec R) : List (List Char) := [fmt p.x, fmt p.y, fmt p.z]

/-- The printed form of a number is one word. -/
def OneWord {R : Type} (fmt : R → List Char) : Prop := ∀ r, ' ' ∉ fmt r ∧ '\n' ∉ fmt r

/-- The element a call stands for: a point, an open line, the boundary of a polygon in reversed order
without the repeated first vertex.  An empty polygon is refused. -/
def shape {R : Type} : Call R → Option (Char × List (Vec R))
  | .point p => some ('p', [p])
  | .line ps => some ('l', ps)
  | .polygon [] _ => none
  | .polygon (_ :: ps) _ => some ('f', ps.reverse)

/-- The points among the calls. -/
def pointsOf {R : Type} (calls : List (Call R)) : List (Vec R) :=
  calls.filterMap fun c => match c with
    | .point p => some p
    | _ => none

/-- A boundary that boost keeps: closed (first vertex repeated at the end) and smaller than 2^32. -/
def ClosedRing {R : Type} (ps : List (Vec R)) : Prop := ps.head? = ps.getLast? ∧ ps.length < 2 ^ 32

/-- The count in a header line `POINTS n`. -/
def announcedBy (l : List (List Char)) : Option Nat :=
  match l with
  | [k, n] => if k = "POINTS".toList then some (Nat.ofDigitChars 10 n 0) else none
  | _ => none

/-- The point counts that a PCD file announces. -/
def pcdAnnounced (text : List Char) : List Nat := (fileLines text).filterMap announcedBy

/-- The lines after `DATA ascii`. -/
def pcdData (text : List Char) : List (List (List Char)) :=
  ((fileLines text).dropWhile (· ≠ ["DATA".toList, "ascii".toList])).drop 1

end RgbdSlam.Writer
