import Verif.Model.Detector
import Verif.Lemmas.Primitives

/-
Lemmas on the members of the primitive detection: sizes never change, and what is left of the earlier frames is
not read.
-/
namespace RgbdSlam.Detector

open RgbdSlam PlaneSegment Primitives Cylinder

/-! ### Sizes -/

/-- The sizes of the arrays that the growth writes in. -/
def sizes (s : St) : ℕ × ℕ × ℕ := (s.hist.counts.length, s.planeMap.length, s.cylMap.length)

theorem removePoint_counts {h h' : Histogram.Hist} {i : ℕ} (e : Histogram.removePoint h i = .ok h') :
    h'.counts.length = h.counts.length := by
  unfold Histogram.removePoint at e
  split at e
  · cases e
  · dsimp only at e
    split at e
    · cases e
    · cases e
      dsimp only
      split <;> simp

theorem absorb_sizes (g : Scene) : ∀ (cells : List ℕ) (s : St) (seg : Seg) (n : ℕ) (r : St × Seg × ℕ),
    absorb g cells s seg n = .ok r → sizes r.1 = sizes s := by
  intro cells
  induction cells with
  | nil => intro s seg n r h; simp only [absorb] at h; cases h; rfl
  | cons i is ih =>
    intro s seg n r h
    simp only [absorb] at h
    split at h
    · obtain ⟨hist, e1, e2⟩ := Outcome.bind_eq_ok h
      split at e2
      · cases e2
      · rw [ih _ _ _ _ e2]
        simp [sizes, removePoint_counts e1]
    · exact ih _ _ _ _ h

theorem addPlane_sizes (s : St) (seg : Seg) (cells : List ℕ) : sizes (addPlane s seg cells) = sizes s := by
  simp [sizes, addPlane, paint_length]

theorem addSubSegments_sizes (g : Scene) : ∀ (l : List (List ℕ)) (k : ℕ) (s : St),
    sizes (addSubSegments g l k s) = sizes s := by
  intro l
  induction l with
  | nil => intro k s; rfl
  | cons c cs ih =>
    intro k s
    simp only [addSubSegments]
    rw [ih]
    unfold addSubSegment
    dsimp only
    split
    · rfl
    · split
      · exact addPlane_sizes _ _ _
      · simp [sizes, paint_length]

theorem growAtSeed_sizes (g : Scene) (fuel : ℕ) (s s' : St) (seed : ℕ) (h : growAtSeed g fuel s seed = .ok s') :
    sizes s' = sizes s := by
  unfold growAtSeed at h
  split at h
  · cases h; rfl
  · obtain ⟨act, _, h⟩ := Outcome.bind_eq_ok h
    dsimp only at h
    obtain ⟨r, e, h⟩ := Outcome.bind_eq_ok h
    have hr := absorb_sizes g _ _ _ _ _ e
    split at h
    · obtain ⟨hist, e1, e2⟩ := Outcome.bind_eq_ok h
      cases e2
      rw [← hr]
      simp [sizes, removePoint_counts e1]
    · split at h
      · cases h; exact hr
      · split at h
        · cases h; rw [addPlane_sizes]; exact hr
        · split at h
          · unfold cylinderFitting at h
            obtain ⟨seg, _, e2⟩ := Outcome.bind_eq_ok h
            cases e2
            rw [addSubSegments_sizes, ← hr]
            rfl
          · cases h; exact hr

theorem growLoop_sizes (g : Scene) (fuel : ℕ) : ∀ (turns : ℕ) (s s' : St), growLoop g fuel turns s = .ok s' →
    sizes s' = sizes s := by
  intro turns
  induction turns with
  | zero => intro s s' h; simp [growLoop] at h
  | succ n ih =>
    intro s s' h
    unfold growLoop at h
    split at h
    · cases h; rfl
    · dsimp only at h
      split at h
      · cases h; rfl
      · split at h
        · cases h; rfl
        · obtain ⟨s1, e1, e2⟩ := Outcome.bind_eq_ok h
          rw [ih _ _ e2, growAtSeed_sizes _ _ _ _ _ e1]

theorem initLoop_counts : ∀ (ps : List (Option (Rat × Rat))) (h h' : Histogram.Hist),
    Histogram.initLoop ps h = .ok h' → h'.counts.length = h.counts.length := by
  intro ps
  induction ps with
  | nil => intro h h' e; simp only [Histogram.initLoop] at e; cases e; rfl
  | cons p ps ih =>
    intro h h' e
    cases p with
    | none => simp only [Histogram.initLoop] at e; rw [ih _ _ e]
    | some uv =>
      obtain ⟨u, v⟩ := uv
      simp only [Histogram.initLoop] at e
      split at e
      · cases e
      · rw [ih _ _ e]; simp

/-! ### The shape of the members -/

/-- The arrays have the sizes given by the constructor. -/
structure Shape (w h : ℕ) (m : Members) : Prop where
  width : m.w = w
  height : m.h = h
  grid : m.planeGrid.length = w * h
  tols : m.cellDistanceTols.length = w * h
  planeMap : m.gridPlaneSegmentMap.length = w * h
  cylMap : m.gridCylinderSegMap.length = w * h
  counts : m.histogram.counts.length = Histogram.size * Histogram.size

theorem new_shape (w h : ℕ) (garbage : List ℕ) : Shape w h (new w h garbage) := by
  constructor <;> simp [new, Histogram.reset]

theorem resetData_shape {w h : ℕ} {m : Members} (hm : Shape w h m) : Shape w h (resetData m) := by
  obtain ⟨a, b, c, d, e, f, g⟩ := hm
  constructor <;> simpa [resetData]

variable {V : Type}

theorem initCells_shape (num : Numerics V) (cloud : ℕ → List (Pt ℚ)) {w h : ℕ} : ∀ (n i : ℕ) (m m' : Members),
    Shape w h m → initCells num cloud n i m = .ok m' → Shape w h m' := by
  intro n
  induction n with
  | zero => intro i m m' hm e; simp only [initCells] at e; cases e; exact hm
  | succ n ih =>
    intro i m m' hm e
    simp only [initCells] at e
    split at e
    · cases e
    · obtain ⟨p, _, e⟩ := Outcome.bind_eq_ok e
      refine ih _ _ _ ?_ e
      obtain ⟨a, b, c, d, e, f, g⟩ := hm
      constructor <;> simpa

theorem initHistogram_shape (g : Scene) {w h : ℕ} {m : Members} {r : Members × ℕ} (hm : Shape w h m)
    (e : initHistogram g m = .ok r) : Shape w h r.1 := by
  unfold initHistogram at e
  dsimp only at e
  obtain ⟨hist, e1, e2⟩ := Outcome.bind_eq_ok e
  cases e2
  have := initLoop_counts _ _ _ e1
  obtain ⟨a, b, c, d, e, f, g⟩ := hm
  constructor <;> simp_all

theorem grow_shape (g : Scene) (fuel : ℕ) {w h n : ℕ} {m : Members} {r : Members × List Region} (hm : Shape w h m)
    (e : growPlanesAndCylinders g fuel m n = .ok r) : Shape w h r.1 := by
  unfold growPlanesAndCylinders at e
  obtain ⟨s, e1, e2⟩ := Outcome.bind_eq_ok e
  cases e2
  have hs := growLoop_sizes _ _ _ _ _ e1
  simp only [sizes, Prod.mk.injEq] at hs
  obtain ⟨a, b, c, d, e, f, g⟩ := hm
  constructor <;> simp_all

theorem addPlanes_shape (g : Scene) (labels : List ℕ) {w h : ℕ} : ∀ (is : List ℕ) (m : Members), Shape w h m →
    Shape w h (addPlanes g labels is m).1 := by
  intro is
  induction is with
  | nil => intro m hm; exact hm
  | cons i is ih =>
    intro m hm
    simp only [addPlanes]
    split
    · exact ih m hm
    · refine ih _ ?_
      obtain ⟨a, b, c, d, e, f, g⟩ := hm
      constructor <;> simpa [planeMask]

theorem addCylinders_shape (closing : List ℕ → List ℕ) (survives : List ℕ → Bool) (regions : List Region) {w h : ℕ} :
    ∀ (is : List ℕ) (m : Members), Shape w h m →
      Shape w h (addCylinders closing survives regions is m).1 := by
  intro is
  induction is with
  | nil => intro m hm; exact hm
  | cons i is ih =>
    intro m hm
    simp only [addCylinders]
    split <;>
    · refine ih _ ?_
      obtain ⟨a, b, c, d, e, f, g⟩ := hm
      constructor <;> simpa

theorem findPrimitives_shape (num : Numerics V) (closing : List ℕ → List ℕ) (survives : List ℕ → Bool) (fuel : ℕ)
    (cloud : ℕ → List (Pt ℚ)) (random : ℕ → V) {w h : ℕ} {m : Members} {r : Members × Found} (hm : Shape w h m)
    (e : findPrimitives num closing survives fuel cloud random m = .ok r) : Shape w h r.1 := by
  unfold findPrimitives at e
  obtain ⟨m1, e1, e⟩ := Outcome.bind_eq_ok e
  have h1 := initCells_shape num cloud _ _ _ _ (resetData_shape hm) e1
  dsimp only at e
  obtain ⟨r2, e2, e⟩ := Outcome.bind_eq_ok e
  have h2 := initHistogram_shape _ h1 e2
  obtain ⟨r3, e3, e⟩ := Outcome.bind_eq_ok e
  have h3 := grow_shape _ _ h2 e3
  cases e
  refine addCylinders_shape _ _ _ _ _ (addPlanes_shape _ _ _ _ ?_)
  obtain ⟨a, b, c, d, e, f, g⟩ := h3
  constructor <;> simpa [mergeMembers]

theorem treat_shape (num : Numerics V) (closing : List ℕ → List ℕ) (survives : List ℕ → Bool) (fuel : ℕ) {w h : ℕ} :
    ∀ (frames : List ((ℕ → List (Pt ℚ)) × (ℕ → V))) (m m' : Members), Shape w h m →
      treat num closing survives fuel frames m = .ok m' → Shape w h m' := by
  intro frames
  induction frames with
  | nil => intro m m' hm e; simp only [treat] at e; cases e; exact hm
  | cons f fs ih =>
    intro m m' hm e
    simp only [treat] at e
    obtain ⟨r, e1, e2⟩ := Outcome.bind_eq_ok e
    exact ih _ _ (findPrimitives_shape _ _ _ _ _ _ hm e1) e2

/-! ### What is read -/

/-- Nothing is left of a segment after `clear_plane_parameters`. -/
theorem clear_eq (p : Patch) : p.clear = Patch.new := rfl

theorem init_eq (solve : Sym3 ℚ → Eigen3 ℚ) (eps : ℚ) (width minCount : ℕ) (cell : List (Pt ℚ)) (p q : Patch) :
    p.init solve eps width minCount cell = q.init solve eps width minCount cell := by
  unfold Patch.init
  rw [clear_eq p, clear_eq q]

/-- The same members but for the mask. -/
def SameButMask (a b : Members) : Prop := { a with mask := [] } = { b with mask := [] }

/-- The same members but for the mask and the cells from number `i` on. -/
structure SameUpTo (i : ℕ) (a b : Members) : Prop where
  rest : { a with mask := [], planeGrid := [], cellDistanceTols := [] } =
    { b with mask := [], planeGrid := [], cellDistanceTols := [] }
  gridLen : a.planeGrid.length = b.planeGrid.length
  tolsLen : a.cellDistanceTols.length = b.cellDistanceTols.length
  len : a.planeGrid.length = a.cellDistanceTols.length
  grid : a.planeGrid.take i = b.planeGrid.take i
  tols : a.cellDistanceTols.take i = b.cellDistanceTols.take i

theorem SameUpTo.full {a b : Members} (h : SameUpTo a.planeGrid.length a b) : SameButMask a b := by
  obtain ⟨h1, h2, h3, h4, h5, h6⟩ := h
  have hg : a.planeGrid = b.planeGrid := by
    have := h5
    rwa [List.take_length, h2, List.take_length] at this
  have ht : a.cellDistanceTols = b.cellDistanceTols := by
    have := h6
    rwa [h4, List.take_length, h3, List.take_length] at this
  unfold SameButMask
  cases a
  cases b
  simp_all

/-- Two outcomes whose values are related. -/
def Related {α β : Type} (R : α → β → Prop) : Outcome α → Outcome β → Prop
  | .ok a, .ok b => R a b
  | .throws, .throws => True
  | .exit, .exit => True
  | .terminate, .terminate => True
  | .ub, .ub => True
  | .outOfFuel, .outOfFuel => True
  | _, _ => False

theorem Related.bind {α β γ δ : Type} {R : α → β → Prop} {T : γ → δ → Prop} {x : Outcome α} {y : Outcome β}
    {f : α → Outcome γ} {g : β → Outcome δ} (h : Related R x y) (hfg : ∀ a b, R a b → Related T (f a) (g b)) :
    Related T (x.bind f) (y.bind g) := by
  cases x <;> cases y <;> simp_all [Related, Outcome.bind]

theorem Related.refl {α : Type} {R : α → α → Prop} (h : ∀ a, R a a) (x : Outcome α) : Related R x x := by
  cases x <;> simp_all [Related]

theorem take_set_succ {α : Type} {l l' : List α} {i : ℕ} (hlen : l.length = l'.length) (h : l.take i = l'.take i)
    (a : α) : (l.set i a).take (i + 1) = (l'.set i a).take (i + 1) := by
  apply List.ext_getElem
  · simp [hlen]
  · intro k h1 h2
    simp only [List.getElem_take, List.getElem_set]
    split
    · rfl
    · rename_i hk
      have hk1 : k < i := by
        simp only [List.length_take, List.length_set] at h1
        omega
      have hl : k < (l.take i).length := by
        simp only [List.length_take, List.length_set] at h1 ⊢
        omega
      have e1 : (l.take i)[k] = l[k]'(by simp at hl; omega) := by simp
      have := List.getElem_of_eq h hl
      simpa using this

theorem initCells_same (num : Numerics V) (cloud : ℕ → List (Pt ℚ)) : ∀ (n i : ℕ) (a b : Members),
    SameUpTo i a b → i + n = a.planeGrid.length →
    Related (fun a' b' => SameUpTo (i + n) a' b' ∧ a'.planeGrid.length = i + n) (initCells num cloud n i a)
      (initCells num cloud n i b) := by
  intro n
  induction n with
  | zero => intro i a b h hn; exact ⟨h, by simpa using hn.symm⟩
  | succ n ih =>
    intro i a b h hn
    have hia : i < a.planeGrid.length := by omega
    have hib : i < b.planeGrid.length := by rw [← h.gridLen]; exact hia
    simp only [initCells, List.getElem?_eq_getElem hia, List.getElem?_eq_getElem hib]
    rw [init_eq _ _ _ _ _ (a.planeGrid[i]) (b.planeGrid[i])]
    apply Related.bind (R := (· = ·)) (Related.refl (fun _ => rfl) _)
    rintro p _ rfl
    have := ih (i + 1)
      { a with planeGrid := a.planeGrid.set i p,
               cellDistanceTols := a.cellDistanceTols.set i (if p.planar then num.tolerance p (cloud i) else 0) }
      { b with planeGrid := b.planeGrid.set i p,
               cellDistanceTols := b.cellDistanceTols.set i (if p.planar then num.tolerance p (cloud i) else 0) }
      ⟨h.rest, by simpa using h.gridLen, by simpa using h.tolsLen, by simpa using h.len,
        take_set_succ h.gridLen h.grid _, take_set_succ h.tolsLen h.tols _⟩ (by simp; omega)
    rw [show i + (n + 1) = i + 1 + n by omega]
    exact this

/-- After `reset_data`, members of the same shape differ only by the cells and the mask. -/
theorem resetData_same {w h : ℕ} {a b : Members} (ha : Shape w h a) (hb : Shape w h b) :
    SameUpTo 0 (resetData a) (resetData b) := by
  refine ⟨?_, ?_, ?_, ?_, rfl, rfl⟩
  · have h1 : (a.histogram.counts.map fun _ => 0) = b.histogram.counts.map fun _ => 0 := by
      rw [List.map_const', List.map_const', ha.counts, hb.counts]
    have h2 : (a.gridPlaneSegmentMap.map fun _ => 0) = b.gridPlaneSegmentMap.map fun _ => 0 := by
      rw [List.map_const', List.map_const', ha.planeMap, hb.planeMap]
    have h3 : (a.gridCylinderSegMap.map fun _ => 0) = b.gridCylinderSegMap.map fun _ => 0 := by
      rw [List.map_const', List.map_const', ha.cylMap, hb.cylMap]
    simp only [resetData, h1, h2, h3, ha.width, hb.width, ha.height, hb.height]
  · simp only [resetData, ha.grid, hb.grid]
  · simp only [resetData, ha.tols, hb.tols]
  · simp only [resetData, ha.grid, ha.tols]

theorem addPlanes_same (g : Scene) (labels : List ℕ) : ∀ (is : List ℕ) (a b : Members), SameButMask a b →
    SameButMask (addPlanes g labels is a).1 (addPlanes g labels is b).1 ∧
      (addPlanes g labels is a).2 = (addPlanes g labels is b).2 := by
  intro is
  induction is with
  | nil => intro a b h; exact ⟨h, rfl⟩
  | cons i is ih =>
    intro a b h
    obtain ⟨m, e1, e2⟩ : ∃ m : Members, a = { m with mask := a.mask } ∧ b = { m with mask := b.mask } := by
      refine ⟨{ a with mask := [] }, rfl, ?_⟩
      unfold SameButMask at h
      rw [h]
    rw [e1, e2]
    simp only [addPlanes]
    split
    · exact ih _ _ rfl
    · have hp : planeMask { m with mask := a.mask } labels i = planeMask { m with mask := b.mask } labels i := rfl
      rw [hp]
      exact ⟨rfl, rfl⟩

theorem addCylinders_same (closing : List ℕ → List ℕ) (survives : List ℕ → Bool) (regions : List Region)
    (is : List ℕ) (a b : Members) (h : SameButMask a b) :
    (addCylinders closing survives regions is a).2 = (addCylinders closing survives regions is b).2 := by
  obtain ⟨m, e1, e2⟩ : ∃ m : Members, a = { m with mask := a.mask } ∧ b = { m with mask := b.mask } := by
    refine ⟨{ a with mask := [] }, rfl, ?_⟩
    unfold SameButMask at h
    rw [h]
  rw [e1, e2]
  cases is with
  | nil => rfl
  | cons i is => rfl

/-- The planes and cylinders found do not depend on the members left by earlier frames. -/
theorem findPrimitives_same (num : Numerics V) (closing : List ℕ → List ℕ) (survives : List ℕ → Bool) (fuel : ℕ)
    (cloud : ℕ → List (Pt ℚ)) (random : ℕ → V) {w h : ℕ} {a b : Members} (ha : Shape w h a) (hb : Shape w h b) :
    (findPrimitives num closing survives fuel cloud random a).map (·.2) =
      (findPrimitives num closing survives fuel cloud random b).map (·.2) := by
  have key : Related (fun r s => r.2 = s.2) (findPrimitives num closing survives fuel cloud random a)
      (findPrimitives num closing survives fuel cloud random b) := by
    unfold findPrimitives
    have hlen : (resetData a).planeGrid.length = (resetData b).planeGrid.length := by
      simp only [resetData, ha.grid, hb.grid]
    unfold initPlanarCellFitting
    rw [← hlen]
    refine Related.bind (initCells_same num cloud _ 0 _ _ (resetData_same ha hb) (by simp)) ?_
    rintro x y ⟨hxy, hx⟩
    rw [← hx] at hxy
    have hs := hxy.full
    obtain ⟨m, e1, e2⟩ : ∃ m : Members, x = { m with mask := x.mask } ∧ y = { m with mask := y.mask } := by
      refine ⟨{ x with mask := [] }, rfl, ?_⟩
      unfold SameButMask at hs
      rw [hs]
    generalize x.mask = mx at e1
    generalize y.mask = my at e2
    subst e1 e2
    have hscene : scene num random { m with mask := mx } = scene num random { m with mask := my } := rfl
    rw [hscene]
    dsimp only
    generalize scene num random { m with mask := my } = g
    refine Related.bind (R := fun r s => SameButMask r.1 s.1 ∧ r.2 = s.2) ?_ ?_
    · unfold initHistogram
      dsimp only
      refine Related.bind (R := (· = ·)) (Related.refl (fun _ => rfl) _) ?_
      rintro hist _ rfl
      exact ⟨rfl, rfl⟩
    · rintro ⟨x, n⟩ ⟨y, n'⟩ ⟨hs, hn⟩
      dsimp only at hs hn
      subst hn
      obtain ⟨m, e1, e2⟩ : ∃ m : Members, x = { m with mask := x.mask } ∧ y = { m with mask := y.mask } := by
        refine ⟨{ x with mask := [] }, rfl, ?_⟩
        unfold SameButMask at hs
        rw [hs]
      generalize x.mask = mx at e1
      generalize y.mask = my at e2
      subst e1 e2
      refine Related.bind (R := fun r s => SameButMask r.1 s.1 ∧ r.2 = s.2) ?_ ?_
      · unfold growPlanesAndCylinders
        dsimp only
        refine Related.bind (R := (· = ·)) (Related.refl (fun _ => rfl) _) ?_
        rintro s _ rfl
        exact ⟨rfl, rfl⟩
      · rintro ⟨x, l⟩ ⟨y, l'⟩ ⟨hs, hn⟩
        dsimp only at hs hn
        subst hn
        obtain ⟨m, e1, e2⟩ : ∃ m : Members, x = { m with mask := x.mask } ∧ y = { m with mask := y.mask } := by
          refine ⟨{ x with mask := [] }, rfl, ?_⟩
          unfold SameButMask at hs
          rw [hs]
        generalize x.mask = mx at e1
        generalize y.mask = my at e2
        subst e1 e2
        have hm : SameButMask (mergeMembers g { m with mask := mx }).1 (mergeMembers g { m with mask := my }).1 := rfl
        have hp := addPlanes_same g (mergeMembers g { m with mask := mx }).2
          (List.range (mergeMembers g { m with mask := mx }).1.planeSegments.length) _ _ hm
        have hc := addCylinders_same closing survives l (List.range l.length) _ _ hp.1
        have e1 : (mergeMembers g { m with mask := my }).2 = (mergeMembers g { m with mask := mx }).2 := rfl
        have e2 : (mergeMembers g { m with mask := my }).1.planeSegments =
          (mergeMembers g { m with mask := mx }).1.planeSegments := rfl
        simp only [Related, e1, e2, Found.mk.injEq]
        exact ⟨hp.2, hc⟩
  revert key
  generalize findPrimitives num closing survives fuel cloud random a = x
  generalize findPrimitives num closing survives fuel cloud random b = y
  cases x <;> cases y <;> simp [Related, Outcome.map, Outcome.bind]

/-! ### Agreement with the model that starts from fresh members -/

theorem initCells_rest (num : Numerics V) (cloud : ℕ → List (Pt ℚ)) : ∀ (n i : ℕ) (m m' : Members),
    initCells num cloud n i m = .ok m' →
    m' = { m with planeGrid := m'.planeGrid, cellDistanceTols := m'.cellDistanceTols } := by
  intro n
  induction n with
  | zero => intro i m m' e; simp only [initCells] at e; cases e; rfl
  | succ n ih =>
    intro i m m' e
    simp only [initCells] at e
    split at e
    · cases e
    · obtain ⟨p, _, e⟩ := Outcome.bind_eq_ok e
      rw [ih _ _ _ e]

theorem addPlanes_eq (g : Scene) (labels : List ℕ) : ∀ (is : List ℕ) (m : Members),
    (addPlanes g labels is m).2 =
      (is.filter fun i => labels.getD i 0 == i && g.planarFit (m.planeSegments.getD i noSeg).fitted).map fun i =>
        (m.planeSegments.getD i noSeg,
          (List.range m.gridPlaneSegmentMap.length).filter fun c =>
            (List.range m.planeSegments.length).any fun j =>
              decide (i ≤ j) && labels.getD j 0 == i && m.gridPlaneSegmentMap.getD c 0 == j + 1) := by
  intro is
  induction is with
  | nil => intro m; rfl
  | cons i is ih =>
    intro m
    simp only [addPlanes]
    by_cases h1 : labels.getD i 0 = i
    · by_cases h2 : g.planarFit (m.planeSegments.getD i noSeg).fitted = true
      · simp only [h1, bne_self_eq_false, h2, Bool.not_true, Bool.or_false, Bool.false_eq_true, if_false,
          List.filter_cons, beq_self_eq_true, Bool.and_true, if_true, List.map_cons]
        rw [ih]
        simp [planeMask]
      · simp only [Bool.not_eq_true] at h2
        simp only [h1, bne_self_eq_false, h2, Bool.not_false, Bool.or_true, if_true,
          List.filter_cons, beq_self_eq_true, Bool.and_false, Bool.false_eq_true, if_false]
        exact ih m
    · have hb : (labels.getD i 0 != i) = true := by simpa using h1
      have hb' : (labels.getD i 0 == i) = false := by simpa using h1
      simp only [hb, Bool.true_or, if_true, List.filter_cons, hb', Bool.false_and, Bool.false_eq_true, if_false]
      exact ih m

/-- After `reset_data` and the initialisation of the cells, the histogram is started as in `Primitives.start`. -/
theorem initHistogram_start (num : Numerics V) (random : ℕ → V) (cloud : ℕ → List (Pt ℚ)) {w h : ℕ} {m m1 : Members}
    (hm : Shape w h m) (e : initPlanarCellFitting num cloud (resetData m) = .ok m1) :
    (initHistogram (scene num random m1) m1).map (fun r =>
        ({ hist := r.1.histogram, free := r.1.isUnassignedMask, untried := r.2, planes := r.1.planeSegments,
           cylinders := r.1.cylinderSegments, regions := [], planeMap := r.1.gridPlaneSegmentMap,
           cylMap := r.1.gridCylinderSegMap } : St)) = start (scene num random m1) := by
  have hs := initCells_shape num cloud _ _ _ _ (resetData_shape hm) e
  have hr := initCells_rest num cloud _ _ _ _ e
  have hfree : m1.isUnassignedMask = [] := by rw [hr]; rfl
  have hhist : { m1.histogram with bins := [] } = Histogram.reset := by
    rw [hr]
    simp [resetData, Histogram.reset, List.map_const', hm.counts]
  have hplanes : m1.planeSegments = [] := by rw [hr]; rfl
  have hcyl : m1.cylinderSegments = [] := by rw [hr]; rfl
  have hpm : m1.gridPlaneSegmentMap = List.replicate (w * h) 0 := by
    rw [hr]; simp [resetData, List.map_const', hm.planeMap]
  have hcm : m1.gridCylinderSegMap = List.replicate (w * h) 0 := by
    rw [hr]; simp [resetData, List.map_const', hm.cylMap]
  have htotal : (scene num random m1).total = w * h := by simp [Scene.total, scene, hs.width, hs.height]
  unfold initHistogram start Histogram.init
  dsimp only
  rw [hfree, hhist, hplanes, hcyl, hpm, hcm, htotal, hs.grid, hs.width, hs.height, List.nil_append]
  have hpts : ((List.range (w * h)).map fun i =>
        if ((List.range (w * h)).filter (scene num random m1).planar).contains i
        then some ((scene num random m1).direction i) else none) =
      (List.range (w * h)).map fun i => if (scene num random m1).planar i
        then some ((scene num random m1).direction i) else none := by
    apply List.map_congr_left
    intro i hi
    congr 1
    simp [List.mem_range.mp hi]
  rw [hpts]
  generalize Histogram.initLoop _ _ = x
  cases x <;> rfl

/-- The planes found on members of any state are those of `Primitives.detect` on the scene of the frame. -/
theorem findPrimitives_detect (num : Numerics V) (closing : List ℕ → List ℕ) (survives : List ℕ → Bool) (fuel : ℕ)
    (cloud : ℕ → List (Pt ℚ)) (random : ℕ → V) {w h : ℕ} {m m1 : Members} {r : Members × Found} (hm : Shape w h m)
    (e1 : initPlanarCellFitting num cloud (resetData m) = .ok m1)
    (e : findPrimitives num closing survives fuel cloud random m = .ok r) :
    ∃ s, detect (scene num random m1) fuel = .ok s ∧
      r.2.planes = planeMasks (scene num random m1) s
        (mergePlanes (scene num random m1) (s.adj (scene num random m1)) s.planes) := by
  have hs1 := initCells_shape num cloud _ _ _ _ (resetData_shape hm) e1
  have hst := initHistogram_start num random cloud hm e1
  unfold findPrimitives at e
  rw [e1, Outcome.bind_ok] at e
  dsimp only at e
  obtain ⟨r2, e2, e⟩ := Outcome.bind_eq_ok e
  obtain ⟨r3, e3, e⟩ := Outcome.bind_eq_ok e
  have h3 := grow_shape _ _ (initHistogram_shape _ hs1 e2) e3
  cases e
  rw [e2] at hst
  unfold growPlanesAndCylinders at e3
  obtain ⟨s, e4, e5⟩ := Outcome.bind_eq_ok e3
  refine ⟨s, ?_, ?_⟩
  · unfold detect
    rw [← hst]
    exact e4
  · cases e5
    dsimp only
    rw [addPlanes_eq]
    have hlen : s.planeMap.length = (scene num random m1).total := by
      have := h3.planeMap
      simpa [Scene.total, scene, hs1.width, hs1.height] using this
    have hadj : (fun a b => (connected r2.1.h r2.1.w fun r c => s.planeMap.getD (c + r2.1.w * r) 0).contains (a, b)) =
        s.adj (scene num random m1) := by
      have a1 : r2.1.w = m1.w := hs1.width.symm ▸ h3.width
      have a2 : r2.1.h = m1.h := hs1.height.symm ▸ h3.height
      funext a b
      simp [St.adj, scene, a1, a2]
    simp only [mergeMembers, planeMasks, hadj, hlen]

end RgbdSlam.Detector
