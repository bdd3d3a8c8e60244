import Verif.Model.Outcome
/-
Map export: src/outputs/map_writer.{hpp,cpp}.  The file is modelled as its text.  `fmt` is the text
that `operator<<` gives for a coordinate (6 significant digits by default).  The file is open as soon
as the constructor returned (map_writer.cpp:7-15 exits otherwise), so the `is_open` tests pass.
-/
namespace RgbdSlam.Writer

/-- `vector3`. -/
structure Vec (R : Type) where
  x : R
  y : R
  z : R
  deriving DecidableEq

/-- A call of the interface `IMap_Writer`, map_writer.hpp:18-22. -/
inductive Call (R : Type) where
  | point (p : Vec R)
  | line (ps : List (Vec R))
  | polygon (ps : List (Vec R)) (normal : Vec R)

variable {R : Type} (fmt : R → List Char)

/-- `x << " " << y << " " << z << "\n"`, as written by all three writers. -/
def coords (p : Vec R) : List Char :=
  fmt p.x ++ ' ' :: (fmt p.y ++ ' ' :: (fmt p.z ++ ['\n']))

/-- `"v " << ... << "\n"`, map_writer.cpp:106, 121, 149. -/
def vertex (p : Vec R) : List Char := 'v' :: ' ' :: coords fmt p

/-- Decimal text of an index (`std::to_string`, `operator<<`). -/
def number (n : Nat) : List Char := Nat.toDigits 10 n

/-- State of `OBJ_Map_Writer`: text so far and `_vertexIndex` (`size_t`; wrapping after 2^64 vertices is
not modelled).  `_vectorIndex` is never used. -/
structure Obj where
  text : List Char
  index : Nat

/-- Constructor, map_writer.cpp:94 and map_writer.hpp:76. -/
def Obj.start : Obj := ⟨[], 1⟩

/-- `OBJ_Map_Writer::add_point`, map_writer.cpp:96-108: the index is incremented before it is written. -/
def Obj.addPoint (w : Obj) (p : Vec R) : Obj :=
  ⟨w.text ++ vertex fmt p ++ 'p' :: ' ' :: (number (w.index + 1) ++ ['\n']), w.index + 1⟩

/-- The loop shared by `add_line` (map_writer.cpp:119-124) and `add_polygon` (146-152): writer and the
string `vertices`. -/
def Obj.addVertices : Obj → List Char → List (Vec R) → Obj × List Char
  | w, s, [] => (w, s)
  | w, s, p :: ps =>
    Obj.addVertices ⟨w.text ++ vertex fmt p, w.index + 1⟩ (s ++ ' ' :: number w.index) ps

/-- `OBJ_Map_Writer::add_line`, map_writer.cpp:110-126. -/
def Obj.addLine (w : Obj) (ps : List (Vec R)) : Obj :=
  let (w', s) := Obj.addVertices fmt w [] ps
  ⟨w'.text ++ 'l' :: (s ++ ['\n']), w'.index⟩

/-- The coordinates visited by `for (uint i = coordinates.size() - 1; i > 0; --i)`,
map_writer.cpp:145: `uint` has 32 bits, and index 0 is not visited. -/
def loopOrder (ps : List (Vec R)) : List (Vec R) :=
  ((ps.take ((ps.length - 1) % 2 ^ 32 + 1)).drop 1).reverse

/-- `OBJ_Map_Writer::add_polygon`, map_writer.cpp:128-156; only the log message is not modelled. -/
def Obj.addPolygon (w : Obj) (ps : List (Vec R)) : Obj :=
  if ps.isEmpty then w
  else
    let (w', s) := Obj.addVertices fmt w [] (loopOrder ps)
    ⟨w'.text ++ 'f' :: (s ++ ['\n']), w'.index⟩

/-- Dispatch of a call on `OBJ_Map_Writer`. -/
def Obj.call (w : Obj) : Call R → Obj
  | .point p => w.addPoint fmt p
  | .line ps => w.addLine fmt ps
  | .polygon ps _ => w.addPolygon fmt ps

/-- The OBJ file after the given calls. -/
def objFile (calls : List (Call R)) : List Char := (calls.foldl (Obj.call fmt) Obj.start).text

/-- `XYZ_Map_Writer`, map_writer.cpp:28-45. -/
def xyzCall (text : List Char) : Call R → List Char
  | .point p => text ++ coords fmt p
  | .line _ => text
  | .polygon _ _ => text

/-- The XYZ file after the given calls. -/
def xyzFile (calls : List (Call R)) : List Char := calls.foldl (xyzCall fmt) []

/-- The header lines, map_writer.cpp:53-59. -/
def pcdHeader : List Char :=
  ("# .PCD v.7 - Point Cloud Data file format\n" ++ "VERSION .7\n" ++ "FIELDS x y z\n" ++
   "SIZE 4 4 4\n" ++ "TYPE F F F\n" ++ "POINTS 0\n" ++ "DATA ascii\n").toList

/-- `PCD_Map_Writer`, map_writer.cpp:62-89; the header is not changed afterwards (TODO of 70-79). -/
def pcdCall (text : List Char) : Call R → List Char
  | .point p => text ++ coords fmt p
  | .line _ => text
  | .polygon _ _ => text

/-- The PCD file after the given calls. -/
def pcdFile (calls : List (Call R)) : List Char := calls.foldl (pcdCall fmt) pcdHeader

end RgbdSlam.Writer
