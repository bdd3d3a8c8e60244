import Verif.Lemmas.Detector
import Verif.Props.RandomThreads

/-
C163: what is detected in a frame depends on this frame only.
-/
namespace RgbdSlam.Detector

open RgbdSlam PlaneSegment Primitives Cylinder RandomThreads

variable {V : Type}

/-- **C163.**  The planes and cylinders found in a frame are those a new detector finds in it, whatever the frames treated
before: no detection, label, histogram count or cell of an earlier frame remains.  (`garbage` and `garbage'` are
the uninitialised contents of the mask.)  -/
theorem C163_history (num : Numerics V) (closing : List ℕ → List ℕ) (survives : List ℕ → Bool) (fuel w h : ℕ)
    (garbage garbage' : List ℕ) (frames : List ((ℕ → List (Pt ℚ)) × (ℕ → V))) (m : Members)
    (hrun : treat num closing survives fuel frames (new w h garbage) = .ok m)
    (cloud : ℕ → List (Pt ℚ)) (random : ℕ → V) :
    (findPrimitives num closing survives fuel cloud random m).map (·.2) =
      (findPrimitives num closing survives fuel cloud random (new w h garbage')).map (·.2) :=
  findPrimitives_same num closing survives fuel cloud random
    (treat_shape num closing survives fuel frames _ _ (new_shape w h garbage) hrun) (new_shape w h garbage')

/-- The random numbers thread `t` gets, one after the other. -/
def randomOf {S : Type} (src : Source S Unit V) (seed : ℕ) (locals : Locals S) (t n : ℕ) : V :=
  ((run src seed locals (List.replicate (n + 1) (t, ()))).map (·.2)).getD n
    (src.answer () (src.init seed)).1

/-- A thread that never asked for random numbers gets those of the seed. -/
theorem randomOf_new {S : Type} (src : Source S Unit V) (seed : ℕ) (before : List (ℕ × Unit)) (t : ℕ)
    (hnew : ∀ a ∈ before, a.1 ≠ t) :
    randomOf src seed (after src seed noLocals before) t = stream src seed () := by
  funext n
  have h := C161_new_thread src seed before t hnew (List.replicate (n + 1) ())
  rw [List.map_replicate] at h
  have h0 := answers_replicate src seed () (n + 1) 0
  rw [stateAfter] at h0
  rw [randomOf, h, h0]
  simp

/-- **C163.**  Each frame is treated on a thread of its own, whose random numbers start from the seed of the program.
So the planes and cylinders found in a frame are a function of this frame and of the seed: the same frame gives the
same result whatever the frames and the random draws before it.  -/
theorem C163_frame {S : Type} (src : Source S Unit V) (seed : ℕ) (num : Numerics V) (closing : List ℕ → List ℕ)
    (survives : List ℕ → Bool) (fuel w h : ℕ) (garbage garbage' : List ℕ)
    (frames : List ((ℕ → List (Pt ℚ)) × (ℕ → V))) (m : Members)
    (hrun : treat num closing survives fuel frames (new w h garbage) = .ok m)
    (before : List (ℕ × Unit)) (t : ℕ) (hnew : ∀ a ∈ before, a.1 ≠ t) (cloud : ℕ → List (Pt ℚ)) :
    (findPrimitives num closing survives fuel cloud
        (randomOf src seed (after src seed noLocals before) t) m).map (·.2) =
      (findPrimitives num closing survives fuel cloud (stream src seed ()) (new w h garbage')).map (·.2) := by
  rw [randomOf_new src seed before t hnew]
  exact C163_history num closing survives fuel w h garbage garbage' frames m hrun cloud _

/-- **C163.**  After any sequence of frames, the planes found in a frame are those of the detection modelled in
Verif/Model/Primitives.lean (the subject of C41 to C48 and C123), on the grid of the cells of this frame.  -/
theorem C163_detect (num : Numerics V) (closing : List ℕ → List ℕ) (survives : List ℕ → Bool) (fuel w h : ℕ)
    (garbage : List ℕ) (frames : List ((ℕ → List (Pt ℚ)) × (ℕ → V))) (m m1 : Members)
    (hrun : treat num closing survives fuel frames (new w h garbage) = .ok m)
    (cloud : ℕ → List (Pt ℚ)) (random : ℕ → V)
    (hcells : initPlanarCellFitting num cloud (resetData m) = .ok m1)
    (r : Members × Found) (hfind : findPrimitives num closing survives fuel cloud random m = .ok r) :
    ∃ s, detect (scene num random m1) fuel = .ok s ∧
      r.2.planes = planeMasks (scene num random m1) s
        (mergePlanes (scene num random m1) (s.adj (scene num random m1)) s.planes) :=
  findPrimitives_detect num closing survives fuel cloud random
    (treat_shape num closing survives fuel frames _ _ (new_shape w h garbage) hrun) hcells hfind

/-! ### A detector of 2 × 2 cells of 4 points -/

/-- Numerical functions with one direction, where neighbours always merge and segments are planes. -/
def demoNumerics : Numerics ℕ where
  solve := fun _ => ⟨0, 1, ⟨0, 0, 1⟩⟩
  eps := 0
  width := 2
  minCount := 1
  tolerance := fun _ _ => 1
  direction := fun _ => (0, 0)
  merge := fun _ _ tol => decide (0 < tol)
  planarFit := fun _ => true
  highScore := fun _ => true
  planeBetter := fun _ => true
  cylinder := fun _ _ => ⟨false, fun _ => [], fun _ => none⟩
  segMerge := fun _ _ => false

/-- The points of a nearly plane cell. -/
def demoCell : List (Pt ℚ) := [⟨0, 0, 10⟩, ⟨1, 0, 10⟩, ⟨0, 1, 10⟩, ⟨1, 1, 11⟩]

/-- A cell without depth. -/
def emptyCell : List (Pt ℚ) := [⟨0, 0, 0⟩, ⟨0, 0, 0⟩, ⟨0, 0, 0⟩, ⟨0, 0, 0⟩]

/-- A wall on the whole frame, then a wall on its left column only. -/
def demoFrames : List ((ℕ → List (Pt ℚ)) × (ℕ → ℕ)) := [(fun _ => demoCell, id)]

/-- The second frame: its right column has no depth. -/
def demoCloud (i : ℕ) : List (Pt ℚ) := if i % 2 = 0 then demoCell else emptyCell

/-- The hypothesis of the theorem holds on a detector that found a plane on its four cells, -/
example : (treat demoNumerics id (fun _ => true) 50 demoFrames (new 2 2 [3])).holds
    (fun m => m.gridPlaneSegmentMap == [1, 1, 1, 1] && m.planeSegments.length == 1) = true := by decide +kernel

/-- and then finds the plane of the two cells of the second frame. -/
example : ((treat demoNumerics id (fun _ => true) 50 demoFrames (new 2 2 [3])).bind
      (findPrimitives demoNumerics id (fun _ => true) 50 demoCloud id)).holds
    (fun r => r.2.planes.map (·.2) == [[0, 2]]) = true := by decide +kernel

end RgbdSlam.Detector
