import Verif.Model.Export
import Verif.Props.LocalMap
import Verif.Props.MapWriter
import Verif.Lemmas.FeatureMapClosed
/-
C210: the file of any run.  C11 and C62 say what the map sends to the writer, C27 what the writer does with it.  Here both
together, for any run and in whichever order the features were dropped.
-/
namespace RgbdSlam.Map.ExportedFile

open Geometry Updates Writer

variable {Desc S D Env : Type}

namespace Spec

/-- The features in the order in which the program writes them: `dropped` during the run, the others when it ends. -/
structure WrittenOrder (w : World (Body Desc S)) (all : List (Feat (Body Desc S))) : Prop where
  split : ∃ dropped, dropped.Perm (order.flatMap w.written) ∧ all = dropped ++ order.flatMap fun t => w.destroyed t

/-- The file that the program leaves when it writes these features. -/
def file (fmt : ℝ → List Char) (outline : S → List V3 × V3) (all : List (Feat (Body Desc S))) : List Char :=
  objFile fmt (all.flatMap fun f => writeToFile outline f.body)

/-- All features that left the map as map features, and those that are in it at the end. -/
def finished (w : World (Body Desc S)) : List (Feat (Body Desc S)) :=
  order.flatMap fun t => w.written t ++ w.destroyed t

/-- A place as words of a file. -/
def printed (fmt : ℝ → List Char) (x : V3) : List (List Char) := [fmt (x 0), fmt (x 1), fmt (x 2)]

/-- Places of the 3D points. -/
def places (fs : List (Feat (Body Desc S))) : List V3 :=
  fs.filterMap fun f => match f.body with
    | .point b => some b.tracked.coordinates
    | _ => none

/-- Boundaries of the planes. -/
def boundaries (outline : S → List V3 × V3) (fs : List (Feat (Body Desc S))) : List (List V3) :=
  fs.filterMap fun f => match f.body with
    | .plane s => some (outline s).1
    | _ => none

end Spec

open Spec

theorem written_perm {w : World (Body Desc S)} {all : List (Feat (Body Desc S))} (h : WrittenOrder w all) :
    all.Perm (finished w) := by
  obtain ⟨dropped, hp, rfl⟩ := h.split
  refine (hp.append_right _).trans ?_
  simp only [finished, order, List.flatMap_cons, List.flatMap_nil, List.append_nil]
  generalize w.written .point2d = a1
  generalize w.written .point = a2
  generalize w.written .plane = a3
  generalize w.destroyed .point2d = b1
  generalize w.destroyed .point = b2
  generalize w.destroyed .plane = b3
  have h1 : (a1 ++ (a2 ++ a3) ++ (b1 ++ (b2 ++ b3))).Perm (a1 ++ b1 ++ ((a2 ++ a3) ++ (b2 ++ b3))) := by
    simp only [List.append_assoc]
    refine List.Perm.append_left a1 ?_
    simp only [← List.append_assoc]
    refine List.Perm.append_right b3 (List.Perm.append_right b2 ?_)
    simp only [List.append_assoc]
    exact (List.perm_append_comm_assoc a2 a3 b1).trans
      ((List.Perm.append_left _ List.perm_append_comm).trans
        ((List.perm_append_comm_assoc a3 b1 a2).trans (List.Perm.append_left _ List.perm_append_comm)))
  have h2 : ((a2 ++ a3) ++ (b2 ++ b3)).Perm (a2 ++ b2 ++ (a3 ++ b3)) := by
    simp only [List.append_assoc]
    exact List.Perm.append_left a2 (List.perm_append_comm_assoc a3 b2 b3)
  exact h1.trans (h2.append_left _)

theorem loopOrder_short {R : Type} {ps : List (Vec R)} (h : ps.length ≤ 2 ^ 32) : loopOrder ps = ps.tail.reverse := by
  unfold loopOrder
  cases ps with
  | nil => rfl
  | cons p ps =>
    simp only [List.length_cons, Nat.add_sub_cancel] at h ⊢
    rw [Nat.mod_eq_of_lt (by omega), List.take_of_length_le (by simp)]
    rfl

theorem vertices_perm {fmt : ℝ → List Char} {outline : S → List V3 × V3} (fs : List (Feat (Body Desc S)))
    (hs : ∀ b ∈ boundaries outline fs, b.length ≤ 2 ^ 32) :
    (((fs.flatMap fun f => writeToFile outline f.body).flatMap callVertices).map (words fmt)).Perm
      ((places fs).map (printed fmt) ++ (boundaries outline fs).flatMap fun b => b.tail.reverse.map (printed fmt)) := by
  induction fs with
  | nil => simp [places, boundaries]
  | cons f fs ih =>
    cases hb : f.body with
    | point b =>
      have hs' : ∀ b ∈ boundaries outline fs, b.length ≤ 2 ^ 32 := by
        intro x hx; exact hs x (by simpa [boundaries, hb] using hx)
      have := ih hs'
      simp only [List.flatMap_cons, hb, writeToFile, List.singleton_append, callVertices, List.map_cons]
      simp only [places, boundaries, List.filterMap_cons, hb, List.map_cons, List.cons_append] at this ⊢
      exact List.Perm.cons _ this
    | inverse b =>
      have hs' : ∀ b ∈ boundaries outline fs, b.length ≤ 2 ^ 32 := by
        intro x hx; exact hs x (by simpa [boundaries, hb] using hx)
      have := ih hs'
      simp only [List.flatMap_cons, hb, writeToFile, List.nil_append]
      simp only [places, boundaries, List.filterMap_cons, hb] at this ⊢
      exact this
    | plane s =>
      have hs' : ∀ b ∈ boundaries outline fs, b.length ≤ 2 ^ 32 := by
        intro x hx; exact hs x (by simp only [boundaries, List.filterMap_cons, hb]; exact List.mem_cons_of_mem _ hx)
      have hl : (outline s).1.length ≤ 2 ^ 32 := hs _ (by simp [boundaries, hb])
      have := ih hs'
      simp only [List.flatMap_cons, hb, writeToFile, List.singleton_append, callVertices, List.map_append]
      simp only [places, boundaries, List.filterMap_cons, hb, List.flatMap_cons] at this ⊢
      rw [loopOrder_short (by simpa using hl)]
      have e : ((List.map toVec (outline s).1).tail.reverse).map (words fmt) =
          (outline s).1.tail.reverse.map (printed fmt) := by
        rw [← List.map_tail, ← List.map_reverse, List.map_map]; rfl
      rw [e]
      exact (List.Perm.append_left _ this).trans (List.perm_append_comm_assoc _ _ _)

theorem point_elements {R : Type} (cs : List (Call R)) (k : Nat) :
    ((allElements k cs).filter fun e => decide (e.1 = 'p')).length = (pointsOf cs).length := by
  induction cs generalizing k with
  | nil => rfl
  | cons c cs ih =>
    rw [allElements, List.filter_append, List.length_append, ih]
    cases c with
    | point p => simp [callElements, pointsOf, Nat.add_comm]
    | line ps => simp [callElements, pointsOf]
    | polygon ps nrm =>
      cases ps <;> simp [callElements, pointsOf]

theorem places_length (outline : S → List V3 × V3) (fs : List (Feat (Body Desc S))) :
    (pointsOf (fs.flatMap fun f => writeToFile outline f.body)).length = (places fs).length := by
  induction fs with
  | nil => rfl
  | cons f fs ih =>
    have e : pointsOf ((f :: fs).flatMap fun f => writeToFile outline f.body) =
        pointsOf (writeToFile outline f.body) ++ pointsOf (fs.flatMap fun f => writeToFile outline f.body) := by
      simp only [pointsOf, List.flatMap_cons, List.filterMap_append]
    rw [e, List.length_append, ih]
    cases hb : f.body <;> simp [pointsOf, places, hb, writeToFile, Nat.add_comm]

theorem polygon_short {outline : S → List V3 × V3} {fs : List (Feat (Body Desc S))}
    (hs : ∀ b ∈ boundaries outline fs, b.length ≤ 2 ^ 32) :
    ∀ ps nrm, Call.polygon ps nrm ∈ (fs.flatMap fun f => writeToFile outline f.body) → ps.length ≤ 2 ^ 32 := by
  intro ps nrm hm
  obtain ⟨f, hf, hm⟩ := List.mem_flatMap.1 hm
  cases hb : f.body with
  | point b => simp [hb, writeToFile] at hm
  | inverse b => simp [hb, writeToFile] at hm
  | plane s =>
    simp only [hb, writeToFile, List.mem_singleton, Call.polygon.injEq] at hm
    rw [hm.1, List.length_map]
    exact hs _ (List.mem_filterMap.2 ⟨f, hf, by simp [hb]⟩)

theorem faces_written {fmt : ℝ → List Char} {outline : S → List V3 × V3} (fs : List (Feat (Body Desc S))) :
    ((((fs.flatMap fun f => writeToFile outline f.body).filterMap shape).filter fun e => decide (e.1 ≠ 'p')).map
        fun e => (e.1, e.2.map fun p => some (words fmt p))) =
      ((boundaries outline fs).filter fun b => !b.isEmpty).map fun b =>
        ('f', b.tail.reverse.map fun x => some (printed fmt x)) := by
  induction fs with
  | nil => rfl
  | cons f fs ih =>
    rw [List.flatMap_cons, List.filterMap_append, List.filter_append, List.map_append, ih]
    cases hb : f.body with
    | point b => simp [boundaries, hb, writeToFile, shape]
    | inverse b => simp [boundaries, hb, writeToFile]
    | plane s =>
      cases ho : (outline s).1 with
      | nil => simp [boundaries, hb, writeToFile, shape, ho]
      | cons x xs =>
        simp only [boundaries, List.filterMap_cons, hb, writeToFile, shape, ho, List.map_cons, List.filterMap_nil,
          List.filter_cons, List.filter_nil, List.isEmpty_cons, Bool.not_false, if_true, List.tail_cons]
        simp [← List.map_reverse, Function.comp_def, words, printed, toVec]

/-- C210: the run may be any sequence of calls, and the program may have dropped the features of the three types in any
interleaving.  The vertices of the OBJ file it leaves are then, each once: the place of every 3D point that left the map as a
map feature or is in it at the end, and the boundary of every such plane (all its vertices but the repeated one).  No two of
these features have the same id, so none is there twice.  A point whose depth is not known leaves nothing. -/
theorem C210_vertices (o2 o1 : PointOps (Body Desc S) D Env) (op : PlaneOps (Body Desc S) D Env) (cov : Env → Bool)
    (ops : List (WOp D Env)) (w : World (Body Desc S))
    (hr : World.run (programKinds o2 o1 op) cov ops World.init = .ok w) (hlt : w.alloc.given < 2 ^ 64)
    {fmt : ℝ → List Char} (hf : OneWord fmt) (outline : S → List V3 × V3)
    (hs : ∀ b ∈ boundaries outline (finished w), b.length ≤ 2 ^ 32)
    (all : List (Feat (Body Desc S))) (ho : WrittenOrder w all) :
    (objVertices (Spec.file fmt outline all)).Perm
      ((places (finished w)).map (printed fmt) ++
        (boundaries outline (finished w)).flatMap fun b => b.tail.reverse.map (printed fmt)) ∧
    ((finished w).map (·.id)).Nodup := by
  refine ⟨?_, C62_exported_once o2 o1 op cov ops w hr hlt⟩
  have hp := written_perm ho
  have hb : (boundaries outline all).Perm (boundaries outline (finished w)) := hp.filterMap _
  rw [Spec.file, objVertices_file hf]
  refine (vertices_perm all fun b h => hs b (hb.subset h)).trans ?_
  exact ((hp.filterMap _).map _).append (hb.flatMap_right _)

/-- C210: the faces that a viewer of this file shows are exactly the boundaries of these planes, and there is one point
element for each of these 3D points. -/
theorem C210_elements (o2 o1 : PointOps (Body Desc S) D Env) (op : PlaneOps (Body Desc S) D Env) (cov : Env → Bool)
    (ops : List (WOp D Env)) (w : World (Body Desc S))
    (_hr : World.run (programKinds o2 o1 op) cov ops World.init = .ok w)
    {fmt : ℝ → List Char} (hf : OneWord fmt) (outline : S → List V3 × V3)
    (hs : ∀ b ∈ boundaries outline (finished w), b.length ≤ 2 ^ 32)
    (all : List (Feat (Body Desc S))) (ho : WrittenOrder w all) :
    ((objShown (Spec.file fmt outline all)).filter fun e => decide (e.1 ≠ 'p')).Perm
      (((boundaries outline (finished w)).filter fun b => !b.isEmpty).map fun b =>
        ('f', b.tail.reverse.map fun x => some (printed fmt x))) ∧
    ((objShown (Spec.file fmt outline all)).filter fun e => decide (e.1 = 'p')).length = (places (finished w)).length := by
  have hp := written_perm ho
  have hb : (boundaries outline all).Perm (boundaries outline (finished w)) := hp.filterMap _
  constructor
  · rw [Spec.file, C27_lines_and_polygons_shown_partial hf _ (polygon_short fun b h => hs b (hb.subset h)), faces_written]
    exact (hb.filter _).map _
  · rw [Spec.file, objShown, objElements_file hf, List.filter_map, List.length_map]
    have : ((fun e : Char × List (Option (List (List Char))) => decide (e.1 = 'p')) ∘ fun e : Char × List Nat =>
        (e.1, e.2.map (objVertex (objFile fmt (all.flatMap fun f => writeToFile outline f.body))))) =
        fun e => decide (e.1 = 'p') := rfl
    rw [this, point_elements, places_length]
    exact (hp.filterMap _).length_eq

/-! ### A run with a point and a plane -/

namespace Room

/-- The point of the room. -/
def corner : Body Unit (List V3) := .point ⟨⟨fun _ => 7, 0, false⟩, none⟩

/-- The plane of the room: its boundary. -/
def wall : Body Unit (List V3) := .plane [fun _ => 1, fun _ => 2, fun _ => 3, fun _ => 1]

/-- The only keypoint is the corner. -/
def o : PointOps (Body Unit (List V3)) Bool Unit where
  isMoving _ := false
  isVisible _ _ := true
  trackIndex _ _ _ := some 0
  onScreen _ _ := true
  window _ _ _ _ _ := []
  update _ _ b := .ok (b, true)
  hasDescriptor _ := true
  depthValid _ := true
  build _ _ := some corner
  copy b := some b
  upgrade _ _ := none
  buildUpgraded b := some b
  covValid _ := true

/-- The second detected plane is the wall. -/
def op : PlaneOps (Body Unit (List V3)) Bool Unit where
  isVisible _ _ := true
  projectedArea _ _ := 1
  similar _ _ d := d
  interArea _ _ _ := 1
  detectedArea _ := 0
  update _ _ b := .ok (b, true)
  build _ d := if d then some wall else none
  copy b := some b
  covValid _ := true

def dets : FType → List Bool
  | .plane => [false, true]
  | _ => [true]

/-- The first frame, four frames with a pose and ten without: the wall is lost. -/
def history : List (WOp Bool Unit) :=
  let find := WOp.find (fun _ _ => false) () dets
  let frame := [find, .update 2 () dets []]
  [find, .addAll () dets] ++ frame ++ frame ++ frame ++ frame ++ List.replicate 10 .noPose

/-- `pointKind` with whole numbers instead of confidences. -/
def easy (o : PointOps P D Env) : Kind P D Env :=
  { pointKind o with
    shouldRemove := fun f => decide (f.succ ≤ 0)
    shouldAdd := fun f => decide (3 ≤ f.succ) }

theorem easy_eq {P : Type} (o : PointOps P D Env) : pointKind o = easy o := by
  simp only [pointKind, easy, confidence_nonpos, confidence_enough]

/-- Non-vacuity: when this run ends the wall was dropped and the corner is still in the map; both are in the file. -/
example : ∃ w, World.run (programKinds o o op) (fun _ => true) history World.init = .ok w ∧
    places (finished w) = [fun _ => 7] ∧
    boundaries (fun b => (b, 0)) (finished w) = [[fun _ => 1, fun _ => 2, fun _ => 3, fun _ => 1]] ∧
    (w.written .plane).length = 1 ∧ (w.written .point).length = 0 ∧ w.alloc.given < 2 ^ 64 := by
  have hk : programKinds o o op = fun t => match t with
      | .point2d => point2dKind o
      | .point => easy o
      | .plane => planeKind op := by
    funext t
    cases t
    · rfl
    · exact easy_eq o
    · rfl
  rw [hk]
  exact ⟨_, rfl, rfl, rfl, rfl, rfl, by decide⟩

end Room

end RgbdSlam.Map.ExportedFile
