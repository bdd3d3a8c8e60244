import Verif.Model.LocalMap
import Verif.Model.Updates
import Verif.Model.MapWriter
/-
What the map sends to the output file: `write_to_file` of the three feature types, and the file at the end of the program.
-/
namespace RgbdSlam.Map

open Geometry Updates Writer

/-- A point of the map as an argument of the writer. -/
def toVec (x : V3) : Vec ℝ := ⟨x 0, x 1, x 2⟩

/-- The calls of the writer made by `write_to_file`:
src/map_management/map_features/map_point.cpp 176-186 (`add_point` with the coordinates),
map_point2d.cpp 202-219 (the call is under `if (false)`: nothing is written) and
map_primitive.cpp 191-202 (`add_polygon` with the unprojected boundary and the normal, both given by `outline`).
The writer is never null: it is made by the constructor of the map (local_map.hpp 23). -/
def writeToFile {Desc S : Type} (outline : S → List V3 × V3) : Body Desc S → List (Call ℝ)
  | .point b => [.point (toVec b.tracked.coordinates)]
  | .inverse _ => []
  | .plane s => [.polygon ((outline s).1.map toVec) (toVec (outline s).2)]

/-- All calls of the writer, from the constructor of the map to its destructor (local_map.hpp 21-40, feature_map.hpp 288-298): the features
that were dropped during the run, then those still in the maps.  Simplified: the features dropped during the run come type by type, in
the program as they were dropped (C210 is about any order). -/
def fileCalls {Desc S : Type} (outline : S → List V3 × V3) (w : World (Body Desc S)) : List (Call ℝ) :=
  (order.flatMap w.written ++ order.flatMap (fun t => w.destroyed t)).flatMap fun f => writeToFile outline f.body

/-- The OBJ file at the end of the program; `fmt` is the printed form of a coordinate. -/
def exportedFile {Desc S : Type} (fmt : ℝ → List Char) (outline : S → List V3 × V3) (w : World (Body Desc S)) : List Char :=
  objFile fmt (fileCalls outline w)

end RgbdSlam.Map
