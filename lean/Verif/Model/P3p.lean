import Verif.Model.Geometry
import Mathlib.LinearAlgebra.CrossProduct
import Mathlib.Analysis.SpecialFunctions.Pow.Real
import Mathlib.Analysis.SpecialFunctions.Trigonometric.Inverse
/-
The solver of the pose from three points, third_party/p3p.cpp.

Doubles are reals.  A quotient by zero and the root of a negative number are `none`; they stand for infinities
and NaN.  A quantity that depends on such a value is `none` too, comparisons with it are false, and the poses
that depend on it are left out of the result: in the program they are left out too, or returned with entries
that are not finite numbers.  The asserts of the arguments (lines 90-97) are left to the caller.
-/
namespace RgbdSlam.P3p

open Geometry Matrix

noncomputable section

/-- A quotient, if it is a number. -/
def div? (x y : ℝ) : Option ℝ := open Classical in if y = 0 then none else some (x / y)

/-- `std::sqrt`, if the result is a number. -/
def sqrt? (x : ℝ) : Option ℝ := open Classical in if x < 0 then none else some (Real.sqrt x)

/-- `std::acos`, if the result is a number. -/
def acos? (x : ℝ) : Option ℝ := open Classical in if x < -1 ∨ 1 < x then none else some (Real.arccos x)

/-- `std::cbrt`. -/
def cbrt (x : ℝ) : ℝ := if 0 ≤ x then x ^ (1 / 3 : ℝ) else -((-x) ^ (1 / 3 : ℝ))

/-- third_party/p3p.hpp 35-43, `CameraPose`. -/
@[ext] structure Pose where
  R : M3
  t : V3

/-- The matrix with the given columns (Eigen's `<<` with three vectors). -/
def columns (a b c : V3) : M3 := (Matrix.of ![a, b, c])ᵀ

/-- The squared distances of the points and the scalar products of the rays, p3p.cpp 101-112. -/
structure Scene where
  a12 : ℝ
  a13 : ℝ
  a23 : ℝ
  b12 : ℝ
  b13 : ℝ
  b23 : ℝ

/-- p3p.cpp 101-112. -/
def scene (x X : Fin 3 → V3) : Scene where
  a12 := (X 0 - X 1) ⬝ᵥ (X 0 - X 1)
  a13 := (X 0 - X 2) ⬝ᵥ (X 0 - X 2)
  a23 := (X 1 - X 2) ⬝ᵥ (X 1 - X 2)
  b12 := x 0 ⬝ᵥ x 1
  b13 := x 0 ⬝ᵥ x 2
  b23 := x 1 ⬝ᵥ x 2

/-- p3p.cpp 120. -/
def Scene.D1 (g : Scene) : M3 :=
  !![g.a23, -(g.a23 * g.b12), 0; -(g.a23 * g.b12), g.a23 - g.a12, g.a12 * g.b23; 0, g.a12 * g.b23, -g.a12]

/-- p3p.cpp 121. -/
def Scene.D2 (g : Scene) : M3 :=
  !![g.a23, 0, -(g.a23 * g.b13); 0, -g.a13, g.a13 * g.b23; -(g.a23 * g.b13), g.a13 * g.b23, g.a23 - g.a13]

/-- p3p.cpp 123-125, `DX1` and `DX2`. -/
def adj (D : M3) : M3 :=
  columns (crossProduct (D.col 1) (D.col 2)) (crossProduct (D.col 2) (D.col 0)) (crossProduct (D.col 0) (D.col 1))

/-- p3p.cpp 129-132, the coefficients `c3`, `c2`, `c1`, `c0`. -/
def coefficients (D1 D2 : M3) : ℝ × ℝ × ℝ × ℝ :=
  (D2.col 0 ⬝ᵥ (adj D2).col 0, ∑ i, ∑ j, D1 i j * adj D2 i j, ∑ i, ∑ j, D2 i j * adj D1 i j,
    D1.col 0 ⬝ᵥ (adj D1).col 0)

/-- p3p.cpp 139-153: a real root of the cubic with the coefficients 1, c2, c1, c0. -/
def cubicRoot (c2 c1 c0 : ℝ) : Option ℝ :=
  let a := c1 - c2 * c2 / 3
  let b := (2 * c2 * c2 * c2 - 9 * c2 * c1) / 27 + c0
  let c := b * b / 4 + a * a * a / 27
  open Classical in
  if c > 0 then
    let r := Real.sqrt c
    let h := b * (-1 / 2)
    some (cbrt (h + r) + cbrt (h - r) - c2 / 3)
  else
    (div? (3 * b) (2 * a)).bind fun q =>
    (div? (-3) a).bind fun m =>
    (sqrt? m).bind fun m' =>
    (acos? (q * m')).bind fun t =>
    (sqrt? (-a / 3)).map fun k => 2 * k * Real.cos (t / 3) - c2 / 3

/-- p3p.cpp 157-159: one Newton step. -/
def newton (c2 c1 c0 y : ℝ) : Option ℝ :=
  let f := y * y * y + c2 * y * y + c1 * y + c0
  let df := 3 * y * y + 2 * c2 * y + c1
  (div? f df).map fun q => y - q

/-- p3p.cpp 136-159: `gamma`. -/
def gamma (D1 D2 : M3) : Option ℝ :=
  let (c3, c2, c1, c0) := coefficients D1 D2
  (div? 1 c3).bind fun i =>
    (cubicRoot (c2 * i) (c1 * i) (c0 * i)).bind fun y => newton (c2 * i) (c1 * i) (c0 * i) y

/-- p3p.cpp 47-51 and 53-57: the column of the eigenvector for the eigenvalue `s`. -/
def eigenvector (M : M3) (s : ℝ) : Option V3 :=
  let c := s * s + M 0 0 * M 1 1 - s * (M 0 0 + M 1 1) - M 0 1 * M 0 1
  (div? (s * M 0 2 + M 0 1 * M 1 2 - M 0 2 * M 1 1) c).bind fun a1 =>
  (div? (s * M 1 2 + M 0 1 * M 0 2 - M 0 0 * M 1 2) c).bind fun a2 =>
  (div? 1 (Real.sqrt (1 + a1 * a1 + a2 * a2))).map fun n => ![a1 * n, a2 * n, n]

/-- p3p.cpp 33-61, `compute_eig3x3known0`: the first two eigenvectors and their eigenvalues. -/
def eig3x3known0 (M : M3) : Option (V3 × V3 × ℝ × ℝ) :=
  let p1 := -M 0 0 - M 1 1 - M 2 2
  let p0 := -M 0 1 * M 0 1 - M 0 2 * M 0 2 - M 1 2 * M 1 2 + M 0 0 * (M 1 1 + M 2 2) + M 1 1 * M 2 2
  (sqrt? (p1 * p1 / 4 - p0)).bind fun disc =>
    let tmp := -p1 / 2
    let (sig1, sig2) :=
      open Classical in
      if |tmp + disc| < |tmp - disc| then (tmp - disc, tmp + disc) else (tmp + disc, tmp - disc)
    (eigenvector M sig1).bind fun e1 => (eigenvector M sig2).map fun e2 => (e1, e2, sig1, sig2)

/-- The distances of the points, with the rays `l i` long, less what they should be: p3p.cpp 69-71. -/
def residuals (g : Scene) (l : V3) : V3 :=
  ![l 0 * l 0 - 2 * l 0 * l 1 * g.b12 + l 1 * l 1 - g.a12,
    l 0 * l 0 - 2 * l 0 * l 2 * g.b13 + l 2 * l 2 - g.a13,
    l 1 * l 1 - 2 * l 1 * l 2 * g.b23 + l 2 * l 2 - g.a23]

/-- p3p.cpp 64-84, `refine_lambda`, with the number of iterations left. -/
def refine (g : Scene) : ℕ → V3 → Option V3
  | 0, l => some l
  | n + 1, l =>
    let r := residuals g l
    open Classical in
    if |r 0| + |r 1| + |r 2| < 1 / 10 ^ 10 then some l
    else
      let x11 := l 0 - l 1 * g.b12
      let x12 := l 1 - l 0 * g.b12
      let x21 := l 0 - l 2 * g.b13
      let x23 := l 2 - l 0 * g.b13
      let x32 := l 1 - l 2 * g.b23
      let x33 := l 2 - l 1 * g.b23
      (div? (1 / 2) (x11 * x23 * x32 + x12 * x21 * x33)).bind fun detJ =>
        refine g n
          ![l 0 + (-x23 * x32 * r 0 - x12 * x33 * r 1 + x12 * x23 * r 2) * detJ,
            l 1 + (-x21 * x33 * r 0 + x11 * x33 * r 1 - x11 * x23 * r 2) * detJ,
            l 2 + (x21 * x32 * r 0 - x11 * x32 * r 1 - x12 * x21 * r 2) * detJ]

/-- `XX` of p3p.cpp 174-175, before its inversion. -/
def axes (X : Fin 3 → V3) : M3 := columns (X 0 - X 1) (X 0 - X 2) (crossProduct (X 0 - X 1) (X 0 - X 2))

/-- p3p.cpp 224-229 and 262-267: the pose for the lengths of the rays. -/
def finish (x X : Fin 3 → V3) (l : V3) : Option Pose :=
  (refine (scene x X) 5 l).bind fun l =>
    open Classical in
    if (axes X).det = 0 then none
    else
      let v1 := l 0 • x 0 - l 1 • x 1
      let v2 := l 0 • x 0 - l 2 • x 2
      let R := columns v1 v2 (crossProduct v1 v2) * (axes X)⁻¹
      some ⟨R, l 0 • x 0 - R *ᵥ X 0⟩

/-- One turn of the loop over `tau`: a length is negative (`continue`), or a pose is added. -/
inductive Candidate where
  | behind
  | pose (p : Option Pose)

/-- p3p.cpp 217-230, first branch. -/
def candidate12 (x X : Fin 3 → V3) (w0 w1 tau : ℝ) : Candidate :=
  let g := scene x X
  match (div? g.a13 (tau * (tau - 2 * g.b13) + 1)).bind sqrt? with
  | none => .pose none
  | some l1 =>
    let l3 := tau * l1
    let l2 := w0 * l1 + w1 * l3
    open Classical in
    if l2 < 0 then .behind else .pose (finish x X ![l1, l2, l3])

/-- p3p.cpp 256-268, second branch. -/
def candidate21 (x X : Fin 3 → V3) (w0 w1 tau : ℝ) : Candidate :=
  let g := scene x X
  match (div? g.a23 (tau * (tau - 2 * g.b23) + 1)).bind sqrt? with
  | none => .pose none
  | some l2 =>
    let l3 := tau * l2
    let l1 := w0 * l2 + w1 * l3
    open Classical in
    if l1 < 0 then .behind else .pose (finish x X ![l1, l2, l3])

/-- `TOL_DOUBLE_ROOT`, p3p.cpp 182. -/
def tolerance : ℝ := 1 / 10 ^ 12

/-- `output.push_back(pose)`, p3p.cpp 230 and 268.  The discriminant is added to each pose, for the statement
of the theorems. -/
def push (disc : ℝ) (p : Option Pose) : List (ℝ × Pose) :=
  match p with
  | none => []
  | some p => [(disc, p)]

/-- The first value of `tau`, p3p.cpp 211-214 and 252-253. -/
def firstRoot (a b c : ℝ) : Option ℝ :=
  let sq := Real.sqrt (max 0 (b * b - 4 * a * c))
  open Classical in
  if b > 0 then div? (2 * c) (-b - sq) else div? (2 * c) (-b + sq)

/-- The second turn of the loop over `tau`, p3p.cpp 215-231 and 254-269, after the value `tau`. -/
def secondTurn (disc a c : ℝ) (candidate : ℝ → Candidate) (tau : ℝ) : List (ℝ × Pose) :=
  match div? c (a * tau) with
  | none => []
  | some tau' =>
    open Classical in
    if tau' > 0 then
      match candidate tau' with
      | .behind => []
      | .pose p => push disc p
    else []

/-- The two turns of the loop over `tau`, p3p.cpp 204-237 and 249-273, for the coefficients of the quadratic
equation of `tau`.  The `continue` skips the test of the double root. -/
def roots (a b c : ℝ) (candidate : ℝ → Candidate) : List (ℝ × Pose) :=
  let disc := b * b - 4 * a * c
  open Classical in
  if disc < -tolerance then []
  else
    match firstRoot a b c with
    | none => []
    | some tau =>
      if tau > 0 then
        match candidate tau with
        | .behind => secondTurn disc a c candidate tau
        | .pose p => push disc p ++ if disc < tolerance then [] else secondTurn disc a c candidate tau
      else if disc < tolerance then [] else secondTurn disc a c candidate tau

/-- One turn of the loop over the sign of `s`, p3p.cpp 184-275; `u` are the three coefficients. -/
def branch (x X : Fin 3 → V3) (u : V3) : List (ℝ × Pose) :=
  let g := scene x X
  open Classical in
  if |u 0| < |u 1| then
    let w0 := -u 0 / u 1
    let w1 := -u 2 / u 1
    roots (-g.a13 * w1 * w1 + 2 * (g.a13 * g.b23) * w1 - g.a13 + g.a23)
      (2 * (g.a13 * g.b23) * w0 - 2 * (g.a23 * g.b13) - 2 * g.a13 * w0 * w1)
      (-g.a13 * w0 * w0 + g.a23) (candidate12 x X w0 w1)
  else if u 0 = 0 then []
  else
    let w0 := -u 1 / u 0
    let w1 := -u 2 / u 0
    roots ((g.a13 - g.a12) * w1 * w1 + 2 * g.a12 * g.b13 * w1 - g.a12)
      (-2 * g.a13 * g.b12 * w1 + 2 * g.a12 * g.b13 * w0 - 2 * w0 * w1 * (g.a12 - g.a13))
      ((g.a13 - g.a12) * w0 * w0 - 2 * g.a13 * g.b12 * w0 + g.a13) (candidate21 x X w0 w1)

/-- p3p.cpp 88-277, `p3p`, with the discriminants. -/
def traced (x X : Fin 3 → V3) : List (ℝ × Pose) :=
  let g := scene x X
  match (gamma g.D1 g.D2).bind fun y => eig3x3known0 (g.D1 + y • g.D2) with
  | none => []
  | some (e1, e2, sig1, sig2) =>
    match (div? (-sig2) sig1).bind sqrt? with
    | none => []
    | some s => branch x X (e1 - s • e2) ++ branch x X (e1 - (-s) • e2)

/-- p3p.cpp 88-277, `p3p`: the poses whose entries are finite numbers. -/
def p3p (x X : Fin 3 → V3) : List Pose := (traced x X).map (·.2)

end

end RgbdSlam.P3p
