import Verif.Model.Params
/-
What a usable camera section of a configuration file is, in terms of the values written in the file.
-/
namespace RgbdSlam.Spec.Params
open RgbdSlam.Params

/-- Positive image size, optical centre not negative (a NaN centre is not negative). -/
def Usable (c : CamFile) : Prop :=
  0 < c.sizeX ∧ 0 < c.sizeY ∧
  (∀ q, c.centerX = .num q → 0 ≤ q) ∧ (∀ q, c.centerY = .num q → 0 ≤ q)

/-- Sizes that an `int` of the file can hold without being negative. -/
def NonNegSizes (c : CamFile) : Prop :=
  0 ≤ c.sizeX ∧ c.sizeX < 2 ^ 31 ∧ 0 ≤ c.sizeY ∧ c.sizeY < 2 ^ 31

/-- Content of the last `parse_file` call of a program: `none` if there was none. -/
def lastParse : List Op → Option (Option (CamFile × CamFile))
  | [] => none
  | op :: rest =>
    match lastParse rest with
    | some f => some f
    | none => match op with
      | .parse f => some f
      | _ => none

end RgbdSlam.Spec.Params
