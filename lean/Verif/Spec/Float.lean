import Mathlib.Data.Rat.Defs
import Mathlib.Algebra.Order.Field.Rat
import Mathlib.Algebra.Order.Field.Power
/-
  Specification vocabulary: binary floating-point types. No model of the code.

  A built-in floating-point type is given by its number of significand bits and a rounding function. The only thing assumed
  of the rounding is what IEEE 754 promises in the default mode: the result of an operation is a representable number, and no
  representable number is closer to the exact result (how ties are broken is left open). Range limits (overflow, subnormal
  numbers), contracted multiply-add and extended intermediate precision are outside this description; the values that occur in
  the modelled code lie between 10^(-301) and 10^9.
-/
namespace WD

/-- Numbers with `p` significant bits. -/
def RepF (p : ℕ) (q : ℚ) : Prop := ∃ m k : ℤ, |m| ≤ 2 ^ p ∧ q = m * (2 : ℚ) ^ k

/-- A binary floating-point type with round to nearest. -/
structure Flt where
  /-- `numeric_limits<T>::digits` -/
  p : ℕ
  /-- `numeric_limits<T>::digits10` -/
  digits10 : ℕ
  /-- `numeric_limits<T>::max_digits10` -/
  maxDigits10 : ℕ
  /-- rounding of an exact result -/
  rnd : ℚ → ℚ
  rep : ∀ q, RepF p (rnd q)
  nearest : ∀ q f, RepF p f → |q - rnd q| ≤ |q - f|

/-- IEEE binary32. -/
def Flt.IsFloat (F : Flt) : Prop := F.p = 24 ∧ F.digits10 = 6 ∧ F.maxDigits10 = 9
/-- IEEE binary64. -/
def Flt.IsDouble (F : Flt) : Prop := F.p = 53 ∧ F.digits10 = 15 ∧ F.maxDigits10 = 17
/-- The 80-bit extended format (`long double` on x86). -/
def Flt.IsLong (F : Flt) : Prop := F.p = 64 ∧ F.digits10 = 18 ∧ F.maxDigits10 = 21

/-- A square root function of the type: the result is representable and its relative error is at most twice the unit
    roundoff 2^(-p) (stated about squares: (1-u)^4·q ≤ s² ≤ (1+u)^4·q). IEEE 754 promises half of that. -/
def Flt.IsSqrt (F : Flt) (sq : ℚ → ℚ) : Prop :=
  ∀ q, 0 < q → RepF F.p (sq q) ∧ 0 < sq q ∧ (1 - (2 : ℚ) ^ (-(F.p : ℤ))) ^ 4 * q ≤ sq q ^ 2 ∧ sq q ^ 2 ≤ (1 + (2 : ℚ) ^ (-(F.p : ℤ))) ^ 4 * q

/-- A function computing q^(-1/p) in the type, as `std::pow(q, -1.0 / p)`: for arguments from 10^(-p)/2 to 2 the result is
    representable and its relative error is at most five times the unit roundoff 2^(-p) (stated about p-th powers). The rounding
    of the exponent -1/p alone contributes up to 2.4 of them. -/
def Flt.IsInvRoot (F : Flt) (pw : ℕ → ℚ → ℚ) : Prop :=
  ∀ p q, 3 ≤ p → 1 / (2 * 10 ^ p) ≤ q → q ≤ 2 → RepF F.p (pw p q) ∧ 0 < pw p q ∧
    (1 - (2 : ℚ) ^ (-(F.p : ℤ))) ^ (5 * p) ≤ q * pw p q ^ p ∧ q * pw p q ^ p ≤ (1 + (2 : ℚ) ^ (-(F.p : ℤ))) ^ (5 * p)

/-- The normal numbers of a binary type with `p` significand bits and smallest normal number `minN`, up to the sign:
    m·2^k with a full significand m. -/
def NormalF (p : ℕ) (minN : ℚ) (m : ℕ) (k : ℤ) : Prop := 2 ^ (p - 1) ≤ m ∧ m < 2 ^ p ∧ minN ≤ m * (2 : ℚ) ^ k

end WD
