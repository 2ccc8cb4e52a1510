import Verif.Spec
import Verif.Model.DW
import Mathlib.Data.Rat.Defs
import Mathlib.Algebra.Order.Field.Rat
import Mathlib.Algebra.Order.Field.Power
/-
  Specification vocabulary for numbers: the rational number an object denotes, and well-formedness.
-/
namespace WD

/-- The rational number denoted by an object: ± (integer of all limbs) · 10^(exp − ed·(limbs − 1)), i.e. the first limb
    is the integer part of the mantissa in radix 10^ed. -/
def DW.val (c : Cfg) (x : DW) : ℚ :=
  (if x.neg then -1 else 1) * (limbsVal c.B x.data : ℚ) * (10 : ℚ) ^ (x.exp - (c.ed : ℤ) * ((c.N : ℤ) - 1))

/-- One unit in the last internal limb of an object. -/
def DW.ulp (c : Cfg) (x : DW) : ℚ := (10 : ℚ) ^ (x.exp - (c.ed : ℤ) * ((c.N : ℤ) - 1))

/-- The representation invariant: N limbs, each below the radix, exponent a multiple of the limb digits, precision in
    range, and a vanishing first limb only for zero. -/
structure WF (c : Cfg) (x : DW) : Prop where
  len : x.data.length = c.N
  valid : ValidLimbs c.B x.data
  dvd : (c.ed : ℤ) ∣ x.exp
  prec2 : 2 ≤ x.prec
  precN : x.prec ≤ c.N
  lead : x.d0 = 0 → ∀ d ∈ x.data, d = 0

/-- Well-formed and at full precision (the state of every object on which `precision()` has not been called). -/
structure Full (c : Cfg) (x : DW) : Prop extends WF c x where
  full : x.prec = c.N

/-- A rational with at most `n` significant decimal digits. -/
def SigDigits (n : ℕ) (q : ℚ) : Prop := ∃ k e : ℤ, |k| < 10 ^ n ∧ q = k * (10 : ℚ) ^ e

end WD
