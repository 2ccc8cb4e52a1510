import Mathlib.Data.Rat.Defs
import Mathlib.Algebra.Order.Field.Rat
import Mathlib.Algebra.Order.Field.Power
import Mathlib.Data.Rat.Floor
/-
  Specification vocabulary: decimal texts and the number a decimal text denotes. No model of the code.
-/
namespace WD

/-- The natural number a string of decimal digits denotes. -/
def digitsVal (l : List Char) : ℕ := l.foldl (fun a ch => 10 * a + (ch.toNat - 48)) 0

/-- A decimal text: optional sign, digits before the point, optional point with digits behind it, and an optional
    exponent part (upper-case letter or not, optional sign, digits). -/
structure DecText where
  /-- `some true` is '-', `some false` is '+' -/
  sign : Option Bool
  ip : List Char
  /-- digits behind the point; `none`: no point -/
  fp : Option (List Char)
  ex : Option (Bool × Option Bool × List Char)

namespace DecText
def signChars : Option Bool → List Char
  | none => []
  | some true => ['-']
  | some false => ['+']

def pointChars : Option (List Char) → List Char
  | none => []
  | some f => '.' :: f

def expChars : Option (Bool × Option Bool × List Char) → List Char
  | none => []
  | some (up, s, d) => (if up then 'E' else 'e') :: (signChars s ++ d)

def frac (t : DecText) : List Char := t.fp.getD []

/-- The characters of the text. -/
def chars (t : DecText) : List Char :=
  signChars t.sign ++ t.ip ++ pointChars t.fp ++ expChars t.ex

/-- A text of the grammar: digits are digits, there is at least one digit, and an exponent has at least one digit. -/
structure Valid (t : DecText) : Prop where
  ip : ∀ ch ∈ t.ip, ch.isDigit
  fp : ∀ ch ∈ t.frac, ch.isDigit
  some : t.ip ++ t.frac ≠ []
  ex : ∀ up s d, t.ex = Option.some (up, s, d) → d ≠ [] ∧ ∀ ch ∈ d, ch.isDigit

/-- The number in the exponent part. -/
def exponent (t : DecText) : ℤ :=
  match t.ex with
  | none => 0
  | some (_, s, d) => (if s = some true then -1 else 1) * (digitsVal d : ℤ)

/-- The number the text denotes. -/
def value (t : DecText) : ℚ :=
  (if t.sign = some true then -1 else 1) * (digitsVal (t.ip ++ t.frac) : ℚ) * (10 : ℚ) ^ (t.exponent - t.frac.length)
end DecText

/-- `q` rounded half up to an integer multiple of 10^k. -/
def roundHalfUp (k : ℤ) (q : ℚ) : ℚ := ⌊q / (10 : ℚ) ^ k + 1 / 2⌋ * (10 : ℚ) ^ k

/-- A text filled up to a width with a character, on the right (`left` justification) or on the left. -/
def padTo (width : ℤ) (fill : Char) (left : Bool) (s : List Char) : List Char :=
  if left then s ++ List.replicate (width.toNat - s.length) fill else List.replicate (width.toNat - s.length) fill ++ s

end WD
