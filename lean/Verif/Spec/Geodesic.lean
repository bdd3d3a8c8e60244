import Verif.Model.Geodesic
/-
Paths of pixels.
-/
namespace RgbdSlam.Geodesic.Spec

variable {h w : Nat}

/-- `q` is `p` moved by one of the offsets of the element. -/
def Near (se : Element) (p q : Pixel h w) : Prop :=
  ∃ d ∈ se, (q.1.val : Int) = p.1.val + d.1 ∧ (q.2.val : Int) = p.2.val + d.2

/-- There is a walk of exactly `n` steps from `p` to `q`, all of its pixels satisfying `ok`. -/
inductive Walk (se : Element) (ok : Pixel h w → Prop) : Nat → Pixel h w → Pixel h w → Prop where
  | stay {p : Pixel h w} : ok p → Walk se ok 0 p p
  | go {n : Nat} {p q r : Pixel h w} : ok p → Near se p q → Walk se ok n q r → Walk se ok (n + 1) p r

/-- The pixels at the border of the image. -/
def Border (p : Pixel (h + 1) (w + 1)) : Prop :=
  p.1.val = 0 ∨ p.1.val = h ∨ p.2.val = 0 ∨ p.2.val = w

/-- Two pixels that touch, by a side or a corner (or are the same). -/
def Touch (p q : Pixel h w) : Prop :=
  (p.1.val ≤ q.1.val + 1 ∧ q.1.val ≤ p.1.val + 1) ∧ (p.2.val ≤ q.2.val + 1 ∧ q.2.val ≤ p.2.val + 1)

/-- There is a path of touching pixels from `p` to `q`, all satisfying `ok`. -/
inductive Path (ok : Pixel h w → Prop) : Pixel h w → Pixel h w → Prop where
  | stay {p : Pixel h w} : ok p → Path ok p p
  | go {p q r : Pixel h w} : ok p → Touch p q → Path ok q r → Path ok p r

/-- `dst` is `src` with its holes filled: a pixel ends as dark as `u` exactly when a path of pixels that are
as dark as `u` leads from it to the border. -/
def Filled (src dst : Image (h + 1) (w + 1)) : Prop :=
  (∀ p, dst p ≤ 255) ∧
    ∀ p u, u < 255 → (dst p ≤ u ↔ ∃ q, Border q ∧ Path (fun x => src x ≤ u) p q)

/-- An image of bytes. -/
def Bytes (f : Image h w) : Prop := ∀ p, f p ≤ 255

end RgbdSlam.Geodesic.Spec
