import Mathlib.Data.Nat.Digits.Defs
import Mathlib.Algebra.Order.Field.Rat
/-
How the files of a TUM dataset are written.
-/
namespace RgbdSlam.TumText.Spec

/-- A character that separates the values of a line; carriage returns are among them. -/
def Separator (c : Char) : Prop :=
  c = ' ' ∨ c = '\t' ∨ c = Char.ofNat 11 ∨ c = Char.ofNat 12 ∨ c = '\r'

/-- The characters of these decimal digits. -/
def digits (l : List (Fin 10)) : List Char := l.map fun d => Char.ofNat (48 + d.val)

/-- The number of these decimal digits, the most significant one first. -/
def number (l : List (Fin 10)) : ℕ := Nat.ofDigits 10 (l.map fun d => d.val).reverse

/-- An optional sign: `some true` is a minus. -/
def sign : Option Bool → List Char
  | none => []
  | some true => ['-']
  | some false => ['+']

/-- The decimal point and the digits after it. -/
def point : Option (List (Fin 10)) → List Char
  | none => []
  | some f => '.' :: digits f

/-- The letter of the exponent, its sign and its digits. -/
def power : Option (Bool × Option Bool × List (Fin 10)) → List Char
  | none => []
  | some (capital, s, e) => (if capital then 'E' else 'e') :: (sign s ++ digits e)

def powerValue : Option (Bool × Option Bool × List (Fin 10)) → ℤ
  | none => 0
  | some (_, s, e) => if s = some true then -(number e : ℤ) else number e

/-- A number as it is written: `-12.5e+03`. -/
structure Numeral where
  sign : Option Bool
  int : List (Fin 10)
  /-- The digits after the decimal point, if there is one. -/
  frac : Option (List (Fin 10))
  /-- The letter of the exponent, its sign and its digits. -/
  exponent : Option (Bool × Option Bool × List (Fin 10))

namespace Numeral

/-- There is a digit before or after the point, and a digit in the exponent. -/
structure Valid (n : Numeral) : Prop where
  mantissa : n.int ≠ [] ∨ n.frac.getD [] ≠ []
  exponent : ∀ e ∈ n.exponent, e.2.2 ≠ []

def text (n : Numeral) : List Char := Spec.sign n.sign ++ digits n.int ++ point n.frac ++ power n.exponent

def value (n : Numeral) : ℚ :=
  (if n.sign = some true then -1 else 1) *
    ((number n.int : ℚ) + number (n.frac.getD []) / 10 ^ (n.frac.getD []).length) * 10 ^ powerValue n.exponent

end Numeral


/-- A path: characters that are not separators or ends of lines. -/
def Word (l : List Char) : Prop := l ≠ [] ∧ ∀ c ∈ l, ¬ Separator c ∧ c ≠ '\n'

/-- A line of a list of images: a comment, a line without values, or a time and a path. -/
inductive ImageLine
  | comment (text : List Char)
  | blank (spaces : List Char)
  | image (before : List Char) (time : Numeral) (between path after : List Char)

namespace ImageLine

def text : ImageLine → List Char
  | comment t => '#' :: t
  | blank s => s
  | image before time between path after => before ++ time.text ++ between ++ path ++ after

def Valid : ImageLine → Prop
  | comment t => '\n' ∉ t
  | blank s => ∀ c ∈ s, Separator c
  | image before time between path after =>
    (∀ c ∈ before, Separator c) ∧ time.Valid ∧ (between ≠ [] ∧ ∀ c ∈ between, Separator c) ∧ Word path ∧
      ∀ c ∈ after, Separator c

/-- The time and the path that the line gives. -/
def image? : ImageLine → Option (ℚ × String)
  | image _ time _ path _ => some (time.value, String.ofList path)
  | _ => none

end ImageLine

/-- A line of an association file: a comment, a line without values, or the times and the paths of two images. -/
inductive PairLine
  | comment (text : List Char)
  | blank (spaces : List Char)
  | pair (before : List Char) (depthTime : Numeral) (b1 depthPath b2 : List Char) (rgbTime : Numeral)
      (b3 rgbPath after : List Char)

namespace PairLine

def text : PairLine → List Char
  | comment t => '#' :: t
  | blank s => s
  | pair before depthTime b1 depthPath b2 rgbTime b3 rgbPath after =>
    before ++ depthTime.text ++ b1 ++ depthPath ++ b2 ++ rgbTime.text ++ b3 ++ rgbPath ++ after

def Valid : PairLine → Prop
  | comment t => '\n' ∉ t
  | blank s => ∀ c ∈ s, Separator c
  | pair before depthTime b1 depthPath b2 rgbTime b3 rgbPath after =>
    (∀ c ∈ before, Separator c) ∧ depthTime.Valid ∧ (b1 ≠ [] ∧ ∀ c ∈ b1, Separator c) ∧ Word depthPath ∧
      (b2 ≠ [] ∧ ∀ c ∈ b2, Separator c) ∧ rgbTime.Valid ∧ (b3 ≠ [] ∧ ∀ c ∈ b3, Separator c) ∧ Word rgbPath ∧
      ∀ c ∈ after, Separator c

/-- The times and the paths that the line gives. -/
def pair? : PairLine → Option ((ℚ × String) × (ℚ × String))
  | pair _ depthTime _ depthPath _ rgbTime _ rgbPath _ =>
    some ((depthTime.value, String.ofList depthPath), (rgbTime.value, String.ofList rgbPath))
  | _ => none

end PairLine

/-- A line of the ground truth: a comment, or a time and seven numbers. -/
inductive TruthLine
  | comment (text : List Char)
  | pose (before : List Char) (time : Numeral) (numbers : List (List Char × Numeral)) (after : List Char)

namespace TruthLine

def text : TruthLine → List Char
  | comment t => '#' :: t
  | pose before time numbers after =>
    before ++ time.text ++ numbers.flatMap (fun n => n.1 ++ n.2.text) ++ after

def Valid : TruthLine → Prop
  | comment t => '\n' ∉ t
  | pose before time numbers after =>
    (∀ c ∈ before, Separator c) ∧ time.Valid ∧ numbers.length = 7 ∧
      (∀ n ∈ numbers, (n.1 ≠ [] ∧ ∀ c ∈ n.1, Separator c) ∧ n.2.Valid) ∧ ∀ c ∈ after, Separator c

def pose? : TruthLine → Option (ℚ × List (Option ℚ))
  | pose _ time numbers _ => some (time.value, numbers.map fun n => some n.2.value)
  | _ => none

end TruthLine

/-- The text of a file of these lines; the last one can be ended or not. -/
def Written (lines : List (List Char)) (text : List Char) : Prop :=
  text = List.intercalate ['\n'] lines ∨ text = lines.flatMap (· ++ ['\n'])

end RgbdSlam.TumText.Spec
