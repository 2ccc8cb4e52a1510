import Mathlib.Data.Int.Log
import Mathlib.Data.Rat.Floor
/-
  Specification vocabulary: rounding to nearest, ties to even. No model of the code.
-/
namespace WD

/-- The integer nearest to x; halfway between two integers, the even one. -/
def halfEven (x : ℚ) : ℤ :=
  if x - ⌊x⌋ < 1 / 2 then ⌊x⌋ else if 1 / 2 < x - ⌊x⌋ then ⌊x⌋ + 1 else if ⌊x⌋ % 2 = 0 then ⌊x⌋ else ⌊x⌋ + 1

/-- Rounding to p significant bits, to nearest, ties to even (roundTiesToEven of IEEE 754, the default rounding direction): the significand of |q|,
    scaled to [2^(p-1), 2^p), becomes an integer. -/
def roundEven (p : ℕ) (q : ℚ) : ℚ :=
  let t := (2 : ℚ) ^ (Int.log 2 |q| - p + 1)
  if 0 ≤ q then halfEven (|q| / t) * t else -(halfEven (|q| / t) * t)

end WD
