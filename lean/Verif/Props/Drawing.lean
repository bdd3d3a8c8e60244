import Verif.Spec.Drawing
import Verif.Props.Points2d
import Verif.Props.PolygonOps
import Mathlib.Tactic.Linarith
import Mathlib.Tactic.NormNum

/-
C167: what the debug image shows of the map.
-/
namespace RgbdSlam.Drawing

open Geometry Points2d PolygonOps Optimizer Spec Points2d.Spec Matrix

theorem toInt_ok {x : ℝ} (h0 : -2 ^ 31 < x) (h1 : x < 2 ^ 31) :
    ∃ n, toInt x = .ok n ∧ |(n : ℝ) - x| < 1 := by
  unfold toInt
  dsimp only
  split_ifs with hx h h
  · refine ⟨_, rfl, ?_⟩
    rw [abs_lt]
    have a := Int.floor_le x
    have b := Int.lt_floor_add_one x
    constructor <;> linarith
  · exfalso
    apply h
    constructor
    · have := Int.floor_nonneg.2 hx; omega
    · apply Int.floor_lt.2; push_cast; linarith
  · refine ⟨_, rfl, ?_⟩
    rw [abs_lt]
    have a := Int.le_ceil x
    have b := Int.ceil_lt_add_one x
    constructor <;> linarith
  · exfalso
    apply h
    constructor
    · rw [Int.le_ceil_iff]; push_cast; linarith
    · have : ⌈x⌉ ≤ 0 := Int.ceil_le.2 (by push_cast; linarith)
      omega

theorem toInt_near {x : ℝ} {n : ℤ} (h : toInt x = .ok n) : |(n : ℝ) - x| < 1 := by
  unfold toInt at h
  dsimp only at h
  split_ifs at h with hx h' h'
  · cases h
    rw [abs_lt]
    have a := Int.floor_le x
    have b := Int.lt_floor_add_one x
    constructor <;> linarith
  · cases h
    rw [abs_lt]
    have a := Int.le_ceil x
    have b := Int.ceil_lt_add_one x
    constructor <;> linarith

theorem cameraToScreen_seenAt (fx fy cx cy : ℝ) (q : V3) (hz : q 2 ≠ 0) :
    cameraToScreen (intrinsics fx fy cx cy) q =
      some ![(seenAt fx fy cx cy q).1, (seenAt fx fy cx cy q).2, q 2] := by
  rw [cameraToScreen, if_neg hz, cameraToScreen2_eq]
  congr 1
  funext i
  fin_cases i <;> simp [seenAt] <;> field_simp

/-- **C167.**  A map point is drawn exactly when it is in view, by a disc of its color at its pixel, with a red dot in it
exactly when it is not matched.  -/
theorem C167_point (fx fy cx cy : ℝ) (width height : ℕ) (hw : width < 2 ^ 31) (hh : height < 2 ^ 31) (w2c : M4)
    (p : V3) (matched : Bool) (color : Color) :
    (¬ InView fx fy cx cy width height (pointToCamera w2c p) →
      drawPoint (intrinsics fx fy cx cy) width height w2c p matched color = .ok []) ∧
    (InView fx fy cx cy width height (pointToCamera w2c p) →
      ∃ x y, Near x y (seenAt fx fy cx cy (pointToCamera w2c p)) ∧
        drawPoint (intrinsics fx fy cx cy) width height w2c p matched color =
          .ok (if matched then [.disc x y 3 color] else [.disc x y 3 color, .disc x y 1 red])) := by
  unfold drawPoint
  generalize pointToCamera w2c p = q
  by_cases hz : q 2 = 0
  · rw [cameraToScreen, if_pos hz]
    exact ⟨fun _ => rfl, fun h => absurd h.1 (by rw [hz]; exact lt_irrefl _)⟩
  · rw [cameraToScreen_seenAt _ _ _ _ _ hz]
    dsimp only
    constructor
    · intro h
      rw [if_neg]
      rintro ⟨h1, h2⟩
      apply h
      simp only [inScreen, Bool.and_eq_true, decide_eq_true_eq] at h2
      exact ⟨h2.2, h2.1.1.1.1, h2.1.1.1.2, h2.1.1.2, h2.1.2⟩
    · intro h
      have hw' : (width : ℝ) < 2 ^ 31 := by exact_mod_cast hw
      have hh' : (height : ℝ) < 2 ^ 31 := by exact_mod_cast hh
      obtain ⟨h0, h1, h2, h3, h4⟩ := h
      rw [if_pos]
      · obtain ⟨x, ex, hx⟩ := toInt_ok (x := (seenAt fx fy cx cy q).1) (by linarith) (by linarith)
        obtain ⟨y, ey, hy⟩ := toInt_ok (x := (seenAt fx fy cx cy q).2) (by linarith) (by linarith)
        refine ⟨x, y, ⟨hx, hy⟩, ?_⟩
        simp only [Matrix.cons_val_zero, Matrix.cons_val_one]
        rw [ex, ey]
        cases matched <;> rfl
      · simp only [inScreen, Bool.and_eq_true, decide_eq_true_eq]
        exact ⟨h0, ⟨⟨⟨h1, h2⟩, h3⟩, h4⟩, h0⟩

/-- The ends of what is kept of a segment are points of the segment and of the image. -/
theorem clamped_ends {width height : ℕ} {a b p q : V2} {l : List V2} (h : Crossings width height a b l)
    (hc : clampToScreen (some l) width height a b = some (p, q)) :
    (OnSegment a b p ∧ InImage width height p) ∧ OnSegment a b q ∧ InImage width height q := by
  match l, h with
  | [], _ =>
    simp only [clampToScreen] at hc
    split_ifs at hc with h1
    cases hc
    simp only [Bool.or_eq_true, Bool.not_eq_true', not_or, Bool.not_eq_false] at h1
    exact ⟨⟨onSegment_left a b, inScreen2_iff.1 h1.1⟩, onSegment_right a b, inScreen2_iff.1 h1.2⟩
  | [x], h =>
    have hx := (h.mem x).1 (by simp)
    simp only [clampToScreen] at hc
    split_ifs at hc <;> cases hc <;> exact ⟨⟨hx.1, inFrame_inImage hx.2.1⟩, hx.1, inFrame_inImage hx.2.1⟩
  | [x, y], h =>
    have hx := (h.mem x).1 (by simp)
    have hy := (h.mem y).1 (by simp)
    simp only [clampToScreen] at hc
    cases hc
    exact ⟨⟨hx.1, inFrame_inImage hx.2.1⟩, hy.1, inFrame_inImage hy.2.1⟩
  | x :: y :: z :: r, h =>
    simp only [clampToScreen] at hc
    cases hc

/-- **C167.**  A map point without depth is drawn exactly when it is visible, by two lines, the widest blue if the point is
matched and red if not, that join two points of its projection in the image; no error is ever logged.  -/
theorem C167_point2d {cross : V2 → V2 → List V2} {width height : ℕ} (hw : width < 2 ^ 31) (hh : height < 2 ^ 31)
    (K : M3) (p : InverseDepth) (variance : ℝ) (w2c : M4) (matched : Bool) (color : Color)
    (hcross : ∀ a b, inverseScreenSegment K p variance w2c = some (a, b) → Crossings width height a b (cross a b)) :
    (visible2d (fun a b => some (cross a b)) K width height p variance w2c = false →
      drawPoint2d (fun a b => some (cross a b)) K width height w2c p variance matched color = .ok ([], false)) ∧
    (visible2d (fun a b => some (cross a b)) K width height p variance w2c = true →
      ∃ a b s e x1 y1 x2 y2, inverseScreenSegment K p variance w2c = some (a, b) ∧
        (OnSegment a b s ∧ InImage width height s ∧ Near x1 y1 (s 0, s 1)) ∧
        (OnSegment a b e ∧ InImage width height e ∧ Near x2 y2 (e 0, e 1)) ∧
        drawPoint2d (fun a b => some (cross a b)) K width height w2c p variance matched color =
          .ok ([.line x1 y1 x2 y2 (if matched then blue else red) 5, .line x1 y1 x2 y2 color 3], false)) := by
  unfold visible2d drawPoint2d
  cases hs : inverseScreenSegment K p variance w2c with
  | none => simp
  | some ab =>
    obtain ⟨a, b⟩ := ab
    dsimp only
    cases hc : clampToScreen (some (cross a b)) width height a b with
    | none => simp
    | some pq =>
      obtain ⟨s, e⟩ := pq
      refine ⟨fun h => (Bool.noConfusion h), fun _ => ?_⟩
      obtain ⟨⟨s1, s2⟩, e1, e2⟩ := clamped_ends (hcross a b hs) hc
      have hw' : (width : ℝ) < 2 ^ 31 := by exact_mod_cast hw
      have hh' : (height : ℝ) < 2 ^ 31 := by exact_mod_cast hh
      obtain ⟨x1, hx1, nx1⟩ := toInt_ok (x := s 0) (by linarith [s2.1]) (by linarith [s2.2.1])
      obtain ⟨y1, hy1, ny1⟩ := toInt_ok (x := s 1) (by linarith [s2.2.2.1]) (by linarith [s2.2.2.2])
      obtain ⟨x2, hx2, nx2⟩ := toInt_ok (x := e 0) (by linarith [e2.1]) (by linarith [e2.2.1])
      obtain ⟨y2, hy2, ny2⟩ := toInt_ok (x := e 1) (by linarith [e2.2.2.1]) (by linarith [e2.2.2.2])
      refine ⟨a, b, s, e, x1, y1, x2, y2, rfl, ⟨s1, s2, nx1, ny1⟩, ⟨e1, e2, nx2, ny2⟩, ?_⟩
      dsimp only
      rw [if_pos (by rw [inScreen2_iff.2 s2, inScreen2_iff.2 e2]; rfl), hx1, hy1, hx2, hy2]
      rfl

/-! ### Planes -/

/-- A point of the camera on the screen. -/
noncomputable def onScreen (fx fy cx cy : ℝ) (q : V3) : V3 :=
  ![(seenAt fx fy cx cy q).1, (seenAt fx fy cx cy q).2, q 2]

theorem drawEdges_lines (fx fy cx cy : ℝ) (color : Color) (pts : List V3) (l : List Shape)
    (h : drawEdges color (pts.map (onScreen fx fy cx cy)) = .ok l) :
    List.Forall₂ (LineOf fx fy cx cy color) (sides pts) l := by
  induction pts generalizing l with
  | nil => cases h; exact .nil
  | cons a rest ih =>
    cases rest with
    | nil => cases h; exact .nil
    | cons b rest =>
      have hside : sides (a :: b :: rest) =
          if 0 < a 2 ∧ 0 < b 2 then (a, b) :: sides (b :: rest) else sides (b :: rest) := by
        simp only [sides, List.tail_cons, List.zip_cons_cons, List.filter_cons, decide_eq_true_eq]
      simp only [List.map_cons, drawEdges] at h
      have za : onScreen fx fy cx cy a 2 = a 2 := rfl
      have zb : onScreen fx fy cx cy b 2 = b 2 := rfl
      rw [za, zb] at h
      rw [hside]
      split at h
      · rename_i hz
        rw [if_pos hz]
        obtain ⟨x1, e1, h⟩ := Outcome.bind_eq_ok h
        obtain ⟨y1, e2, h⟩ := Outcome.bind_eq_ok h
        obtain ⟨x2, e3, h⟩ := Outcome.bind_eq_ok h
        obtain ⟨y2, e4, h⟩ := Outcome.bind_eq_ok h
        obtain ⟨l', e5, h⟩ := Outcome.bind_eq_ok h
        cases h
        exact .cons ⟨x1, y1, x2, y2, rfl, ⟨toInt_near e1, toInt_near e2⟩, toInt_near e3, toInt_near e4⟩ (ih _ e5)
      · rename_i hz
        rw [if_neg hz]
        exact ih _ h

theorem drawEdges_ok (fx fy cx cy : ℝ) (color : Color) (pts : List V3)
    (h : ∀ e ∈ sides pts, Drawable fx fy cx cy e.1 ∧ Drawable fx fy cx cy e.2) :
    ∃ l, drawEdges color (pts.map (onScreen fx fy cx cy)) = .ok l := by
  induction pts with
  | nil => exact ⟨_, rfl⟩
  | cons a rest ih =>
    cases rest with
    | nil => exact ⟨_, rfl⟩
    | cons b rest =>
      have hside : sides (a :: b :: rest) =
          if 0 < a 2 ∧ 0 < b 2 then (a, b) :: sides (b :: rest) else sides (b :: rest) := by
        simp only [sides, List.tail_cons, List.zip_cons_cons, List.filter_cons, decide_eq_true_eq]
      rw [hside] at h
      simp only [List.map_cons, drawEdges]
      have za : onScreen fx fy cx cy a 2 = a 2 := rfl
      have zb : onScreen fx fy cx cy b 2 = b 2 := rfl
      rw [za, zb]
      by_cases hz : 0 < a 2 ∧ 0 < b 2
      · rw [if_pos hz] at h ⊢
        obtain ⟨l, e⟩ := ih fun e he => h e (List.mem_cons_of_mem _ he)
        obtain ⟨⟨da0, da1⟩, db0, db1⟩ := h (a, b) List.mem_cons_self
        obtain ⟨x1, e1, -⟩ := toInt_ok (abs_lt.1 da0).1 (abs_lt.1 da0).2
        obtain ⟨y1, e2, -⟩ := toInt_ok (abs_lt.1 da1).1 (abs_lt.1 da1).2
        obtain ⟨x2, e3, -⟩ := toInt_ok (abs_lt.1 db0).1 (abs_lt.1 db0).2
        obtain ⟨y2, e4, -⟩ := toInt_ok (abs_lt.1 db1).1 (abs_lt.1 db1).2
        refine ⟨.line x1 y1 x2 y2 color 2 :: l, ?_⟩
        have e1 : toInt (onScreen fx fy cx cy a 0) = .ok x1 := e1
        have e2 : toInt (onScreen fx fy cx cy a 1) = .ok y1 := e2
        have e3 : toInt (onScreen fx fy cx cy b 0) = .ok x2 := e3
        have e4 : toInt (onScreen fx fy cx cy b 1) = .ok y2 := e4
        rw [e1, e2, e3, e4]
        rw [List.map_cons] at e
        simp only [Outcome.bind_ok, e]
      · rw [if_neg hz] at h ⊢
        obtain ⟨l, e⟩ := ih h
        rw [List.map_cons] at e
        exact ⟨l, e⟩

theorem mapM_screen (fx fy cx cy : ℝ) (pts : List V3) :
    ((pts.map (cameraToScreen (intrinsics fx fy cx cy))).mapM id).getD [] =
      if ∀ q ∈ pts, q 2 ≠ 0 then pts.map (onScreen fx fy cx cy) else [] := by
  have key : (pts.map (cameraToScreen (intrinsics fx fy cx cy))).mapM id =
      if ∀ q ∈ pts, q 2 ≠ 0 then some (pts.map (onScreen fx fy cx cy)) else none := by
    induction pts with
    | nil => simp
    | cons a rest ih =>
      rw [List.map_cons, List.mapM_cons, ih]
      by_cases hz : a 2 = 0
      · rw [if_neg (c := ∀ q ∈ a :: rest, q 2 ≠ 0) (fun h => h a List.mem_cons_self hz)]
        simp [cameraToScreen, hz]
      · have e := cameraToScreen_seenAt fx fy cx cy a hz
        by_cases hr : ∀ q ∈ rest, q 2 ≠ 0
        · rw [if_pos hr, if_pos (by simpa [hz] using hr)]
          simp [e, onScreen]
        · rw [if_neg hr, if_neg (by simpa [hz] using hr)]
          simp [e]
  rw [key]
  split <;> rfl

theorem drawPlane_eq {q : Quat} (hq : UnitQuat q) (p : V3) {P : Poly} (hr : Regular P)
    (hP : Orthonormal P.xAxis P.yAxis) (fx fy cx cy : ℝ) (color : Color) :
    drawPlane (intrinsics fx fy cx cy) (worldToCamera q p) P true color =
      (if ∀ c ∈ cornersSeen (worldToCamera q p) P, c 2 ≠ 0 then
        drawEdges color ((cornersSeen (worldToCamera q p) P).map (onScreen fx fy cx cy)) else .ok []).noexcept := by
  obtain ⟨R, t, hR, e⟩ := cameraToWorld_rigid hq p
  have hw : worldToCamera q p = transformation Rᵀ (-(Rᵀ *ᵥ t)) := by
    rw [worldToCamera, worldToCameraOf, e, transformation_inv hR]
  have hRt : Rᵀᵀ * Rᵀ = 1 := by rw [Matrix.transpose_transpose]; exact orthogonal_comm hR
  rw [hw]
  generalize -(Rᵀ *ᵥ t) = u
  generalize Rᵀ = S at *
  unfold drawPlane Poly.toCamera
  rw [if_pos rfl, changeFrame_place, polygon_changeFrame (P := P.place) hRt u hP
    (pointToCamera_transformation S u P.center), Outcome.bind_ok]
  have e : correct P.place.boundary = P.shape.outer := correct_of_regular hr.closed hr.clockwise
  have ho := changed_axes hRt hP
  rw [show Poly.make P.place.boundary (S *ᵥ P.place.xAxis) (S *ᵥ P.place.yAxis) (S *ᵥ P.place.center + u) = _ from
    make_ok ho _ _, Outcome.bind_ok]
  unfold Poly.screenPoints
  dsimp only
  rw [e, mapOutcome_ok (g := fun v => pointToCamera (transformation S u) (P.center + v 0 • P.xAxis + v 1 • P.yAxis))]
  · congr 1
    rw [Outcome.map, Outcome.bind_ok]
    simp only [Outcome.bind_ok]
    rw [mapM_screen]
    unfold cornersSeen
    split <;> rfl
  · intro c _
    rw [pointToCamera_transformation]
    exact (liftFromBasis_ok ho _ _).trans (congrArg _ (mulVec_span S u P.center P.xAxis P.yAxis (c 0) (c 1)).symm)

/-- **C167.**  A plane is drawn only when it is matched: one line for each side of its boundary with both ends in front of
the camera, between the pixels where the camera sees them; nothing if a corner is at depth zero.  The drawing succeeds
when the projections are numbers that an `int` can hold.  -/
theorem C167_plane_partial {q : Quat} (hq : UnitQuat q) (p : V3) {P : Poly} (hr : Regular P)
    (hP : Orthonormal P.xAxis P.yAxis) (fx fy cx cy : ℝ) (color : Color) :
    drawPlane (intrinsics fx fy cx cy) (worldToCamera q p) P false color = .ok [] ∧
    ((∃ c ∈ cornersSeen (worldToCamera q p) P, c 2 = 0) →
      drawPlane (intrinsics fx fy cx cy) (worldToCamera q p) P true color = .ok []) ∧
    ((∀ c ∈ cornersSeen (worldToCamera q p) P, c 2 ≠ 0) →
      (∀ l, drawPlane (intrinsics fx fy cx cy) (worldToCamera q p) P true color = .ok l →
        List.Forall₂ (LineOf fx fy cx cy color) (sides (cornersSeen (worldToCamera q p) P)) l) ∧
      ((∀ e ∈ sides (cornersSeen (worldToCamera q p) P), Drawable fx fy cx cy e.1 ∧ Drawable fx fy cx cy e.2) →
        ∃ l, drawPlane (intrinsics fx fy cx cy) (worldToCamera q p) P true color = .ok l)) := by
  refine ⟨rfl, fun ⟨c, hc, h0⟩ => ?_, fun hz => ⟨fun l hl => ?_, fun hd => ?_⟩⟩
  · rw [drawPlane_eq hq p hr hP, if_neg (fun h => h c hc h0)]
    rfl
  · rw [drawPlane_eq hq p hr hP, if_pos hz, Outcome.noexcept_eq_ok] at hl
    exact drawEdges_lines _ _ _ _ _ _ _ hl
  · obtain ⟨l, e⟩ := drawEdges_ok fx fy cx cy color _ hd
    refine ⟨l, ?_⟩
    rw [drawPlane_eq hq p hr hP, if_pos hz, e]
    rfl

/-- A wall of 10 meters, one meter on the right of the camera, from the depth `d` on. -/
noncomputable def wall (d : ℝ) : Poly where
  shape := ⟨[![0, 0], ![0, 1000], ![10000, 1000], ![10000, 0], ![0, 0]], []⟩
  center := ![d, -1000, 0]
  xAxis := ![1, 0, 0]
  yAxis := ![0, 0, 1]
  cached := 10000000

theorem wall_regular (d : ℝ) : Regular (wall d) where
  noHole := rfl
  closed := fun _ => rfl
  clockwise := by norm_num [wall, ringArea, edgeSum]

theorem wall_axes (d : ℝ) : Orthonormal (wall d).xAxis (wall d).yAxis := by
  constructor <;> simp [wall, UnitVec, Orthogonal, Fin.sum_univ_three]

/-- The camera at the origin of the world, that looks along the first axis. -/
def start : Quat := ⟨1, 0, 0, 0⟩

theorem start_unit : UnitQuat start := by norm_num [UnitQuat, start]

theorem start_camera (x : V3) : pointToCamera (worldToCamera start 0) x = ![-x 1, -x 2, x 0] := by
  have hR : (axesRotation * start.toRotationMatrix) = axesRotation := by
    have : start.toRotationMatrix = 1 := by
      ext i j
      fin_cases i <;> fin_cases j <;> simp [Quat.toRotationMatrix, start]
    rw [this, Matrix.mul_one]
  rw [worldToCamera, worldToCameraOf, cameraToWorld_eq, hR, transformation_inv axesRotation_orthogonal,
    pointToCamera_transformation]
  funext i
  fin_cases i <;> simp [axesRotation, Matrix.mulVec, dotProduct, Fin.sum_univ_three, Matrix.transpose]

theorem third (a b c : ℝ) : (![a, b, c] : V3) 2 = c := rfl

theorem wall_corners (d : ℝ) : cornersSeen (worldToCamera start 0) (wall d) =
    [![1000, 0, d], ![1000, -1000, d], ![1000, -1000, d + 10000], ![1000, 0, d + 10000], ![1000, 0, d]] := by
  simp [cornersSeen, start_camera, wall]

/-- The hypotheses of `C167_plane_partial` are met by a wall 5 meters ahead. -/
example : UnitQuat start ∧ Regular (wall 5000) ∧ Orthonormal (wall 5000).xAxis (wall 5000).yAxis ∧
    (∀ c ∈ cornersSeen (worldToCamera start 0) (wall 5000), c 2 ≠ 0) ∧
    (sides (cornersSeen (worldToCamera start 0) (wall 5000))).length = 4 ∧
    ∀ e ∈ sides (cornersSeen (worldToCamera start 0) (wall 5000)),
      Drawable 500 500 320 240 e.1 ∧ Drawable 500 500 320 240 e.2 := by
  refine ⟨start_unit, wall_regular _, wall_axes _, ?_, ?_, ?_⟩
  · rw [wall_corners]; norm_num [third]
  · rw [wall_corners]; norm_num [sides, third]
  · rw [wall_corners]; norm_num [sides, Drawable, seenAt, abs_lt, third]

/-- **C167** is false of the planes that come close to the camera: the pixel of the corner of a wall that passes the camera
is not an `int`, and its conversion is undefined.  -/
theorem C167_close_plane_false (color : Color) :
    drawPlane (intrinsics 500 500 320 240) (worldToCamera start 0) (wall (1 / 10000)) true color = .ub := by
  rw [drawPlane_eq start_unit 0 (wall_regular _) (wall_axes _), wall_corners, if_pos (by norm_num [third])]
  have : toInt (onScreen 500 500 320 240 ![1000, 0, 1 / 10000] 0) = .ub := by
    have e : onScreen 500 500 320 240 ![1000, 0, 1 / 10000] 0 = ((5000000320 : ℤ) : ℝ) := by
      norm_num [onScreen, seenAt, third]
    rw [e, toInt]
    simp only [Int.floor_intCast, Int.ceil_intCast]
    norm_num
  simp only [List.map_cons, drawEdges]
  rw [if_pos (by norm_num [onScreen, third]), this]
  rfl

/-! ### Points behind the camera -/

/-- A point without depth, seen behind the camera. -/
noncomputable def behind : InverseDepth where
  first := 0
  inverseDepth := 1 / 1000
  theta := Real.pi / 2
  phi := Real.pi
  bearing := ![-1, 0, 0]

/-- **C167** is false of the points without depth that are behind the camera: wherever the point is on its half line, it is
behind the camera, and a line is drawn in the middle of the image.  -/
theorem C167_behind_camera_false (matched : Bool) (color : Color) :
    (∀ depth : ℝ, 0 < depth → (pointToCamera (worldToCamera start 0) (behind.first + depth • behind.bearing)) 2 < 0) ∧
    Crossings 640 480 ![320, 240] ![320, 240] [] ∧
    inverseScreenSegment (intrinsics 500 500 320 240) behind 0 (worldToCamera start 0) =
      some (![320, 240], ![320, 240]) ∧
    drawPoint2d (fun _ _ => some []) (intrinsics 500 500 320 240) 640 480 (worldToCamera start 0) behind 0 matched color =
      .ok ([.line 320 240 320 240 (if matched then blue else red) 5, .line 320 240 320 240 color 3], false) := by
  have hs : inverseScreenSegment (intrinsics 500 500 320 240) behind 0 (worldToCamera start 0) =
      some (![320, 240], ![320, 240]) := by
    have hq : pointToCamera (worldToCamera start 0) (behind.furthest (Real.sqrt 0)) = ![0, 0, -10 ^ 9] := by
      rw [start_camera]
      norm_num [behind, InverseDepth.furthest, third]
    have hq' : pointToCamera (worldToCamera start 0) (behind.closest (Real.sqrt 0)) = ![0, 0, -10 ^ 9] := by
      rw [start_camera]
      norm_num [behind, InverseDepth.closest, third]
    unfold inverseScreenSegment
    dsimp only
    rw [hq, hq', cameraToScreen_seenAt _ _ _ _ _ (by norm_num [third])]
    norm_num [seenAt]
  refine ⟨fun d hd => ?_, ⟨List.nodup_nil, fun p => ?_⟩, hs, ?_⟩
  · rw [start_camera]
    simpa [behind] using hd
  · simp only [List.not_mem_nil, false_iff, not_and]
    rintro ⟨t, -, -, rfl⟩ ⟨-, h⟩
    norm_num [along] at h
  · unfold drawPoint2d
    rw [hs]
    have h0 : toInt (320 : ℝ) = .ok 320 := by
      rw [show (320 : ℝ) = ((320 : ℤ) : ℝ) by norm_num, toInt]
      simp only [Int.floor_intCast, Int.ceil_intCast]
      norm_num
    have h1 : toInt (240 : ℝ) = .ok 240 := by
      rw [show (240 : ℝ) = ((240 : ℤ) : ℝ) by norm_num, toInt]
      simp only [Int.floor_intCast, Int.ceil_intCast]
      norm_num
    have hi : inScreen2 640 480 ![320, 240] = true := by
      rw [inScreen2_iff]
      norm_num [InImage]
    simp [clampToScreen, hi, h0, h1]

/-- A point two meters ahead is in view, and the hypotheses of `C167_point2d` are met by a point without depth. -/
example : InView 500 500 320 240 640 480 (pointToCamera (worldToCamera start 0) ![2000, 100, 50]) ∧
    ∃ p : InverseDepth, ∀ a b, inverseScreenSegment (intrinsics 500 500 320 240) p 0 (worldToCamera start 0) =
      some (a, b) → Crossings 640 480 a b [] := by
  refine ⟨?_, behind, fun a b h => ?_⟩
  · rw [start_camera]
    norm_num [InView, seenAt, third]
  · obtain ⟨-, h1, h2, -⟩ := C167_behind_camera_false true red
    rw [h2] at h
    cases h
    exact h1

/-! ### The map -/

theorem drawAll_ok {F : Type} {draw : F → Outcome (List Shape)} {d : F → List Shape} (l : List F)
    (h : ∀ f ∈ l, draw f = .ok (d f)) : drawAll draw l = .ok (l.flatMap d) := by
  induction l with
  | nil => rfl
  | cons f fs ih =>
    rw [drawAll, h f List.mem_cons_self, Outcome.bind_ok, ih fun g hg => h g (List.mem_cons_of_mem _ hg)]
    rfl

/-- **C167.**  The debug image shows nothing of a map that is not activated; else every feature of the local map with its
color and, only when asked for, every staged feature, orange if it is matched and red if not.  -/
theorem C167_map {F : Type} (draw : F → Color → Outcome (List Shape)) (d : F → Color → List Shape)
    (isMatched : F → Bool) (staged : List F) (loc : List (F × Color))
    (hs : ∀ f ∈ staged, ∀ c, draw f c = .ok (d f c)) (hl : ∀ f ∈ loc, draw f.1 f.2 = .ok (d f.1 f.2)) :
    (∀ showStaged, drawMap draw isMatched false showStaged staged loc = .ok []) ∧
    drawMap draw isMatched true false staged loc = .ok (loc.flatMap fun f => d f.1 f.2) ∧
    drawMap draw isMatched true true staged loc =
      .ok ((staged.flatMap fun f => d f (if isMatched f then (0, 200, 255) else (0, 0, 255))) ++
        loc.flatMap fun f => d f.1 f.2) := by
  refine ⟨fun _ => rfl, ?_, ?_⟩
  · rw [drawMap, if_neg (by simp), if_neg (by simp), Outcome.bind_ok,
      drawAll_ok (d := fun f => d f.1 f.2) loc hl]
    rfl
  · rw [drawMap, if_neg (by simp), if_pos rfl,
      drawAll_ok (d := fun f => d f (if isMatched f then orange else red)) staged fun f hf => hs f hf _,
      Outcome.bind_ok, drawAll_ok (d := fun f => d f.1 f.2) loc hl]
    rfl

/-- A map of one matched point and one plane that is not matched. -/
example (c : Color) : drawMap (fun (f : Bool) c => if f then .ok [.disc 1 2 3 c] else .ok []) (fun f => f) true true
    [true] [(true, c), (false, c)] = .ok [.disc 1 2 3 (0, 200, 255), .disc 1 2 3 c] := rfl

end RgbdSlam.Drawing
