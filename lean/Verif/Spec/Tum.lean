import Verif.Model.Tum

/-
Specification vocabulary for the reader of TUM datasets.
-/
namespace RgbdSlam.Tum.Spec

open RgbdSlam.Tum

/-- What a user expects of the association of the images and ground truth of a dataset. -/
structure Association {G : Type} (rgb depth : List (ℚ × String)) (truth : List (ℚ × G)) (out : List (Frame G)) :
    Prop where
  everyRgbOnce : (out.map (·.rgb)).Perm rgb
  depthKnown : ∀ f ∈ out, ∀ d, f.depth = some d → d ∈ depth
  depthOnce : (out.filterMap (·.depth)).Nodup
  depthClose : ∀ f ∈ out, ∀ d, f.depth = some d → |f.rgb.1 - d.1| < 15 / 100
  truthKnown : ∀ f ∈ out, ∀ g, f.groundTruth = some g → g ∈ truth
  truthOnce : (out.filterMap (·.groundTruth)).Pairwise fun a b => a.1 ≠ b.1
  truthClose : ∀ f ∈ out, ∀ g, f.groundTruth = some g → |f.rgb.1 - g.1| < 5 / 100
  inOrder : out.Pairwise fun a b => a.rgb.1 < b.rgb.1

/-- The depth images of two frames are not in the order of their colour images. -/
def Crossed {G : Type} (f g : Frame G) : Prop :=
  f.rgb.1 < g.rgb.1 ∧ ∃ x y, f.depth = some x ∧ g.depth = some y ∧ y.1 < x.1

/-- The element is valid and no element before it has the same time. -/
def FirstAt {V : Type} (valid : ℚ × V → Prop) (lines : List (ℚ × V)) (e : ℚ × V) : Prop :=
  ∃ pre post, lines = pre ++ e :: post ∧ valid e ∧ ∀ x ∈ pre, valid x → x.1 ≠ e.1

end RgbdSlam.Tum.Spec
