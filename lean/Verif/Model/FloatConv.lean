import Verif.Model.Pow
import Mathlib.Data.Rat.Floor
import Mathlib.Data.Int.Log
/-
  Model of the conversion from built-in floating-point numbers: `native_float_parts` and `from_builtin_float_type`.
  A floating-point number is given by its (rational) value; infinities and NaN are not modelled (for them the code calls
  `frexp` and casts the result to an integer, which is undefined). `p` is `numeric_limits<T>::digits`, `minN` is
  `numeric_limits<T>::min()`. All floating-point operations of this code are exact (doubling, taking off the integer part).
-/
namespace WD
namespace DW
variable (c : Cfg)

/-- The loop of `native_float_parts` over the bits of the fraction (decwide_t_detail.h:146-166); `n` rounds are left. The
    accumulator is a 64-bit unsigned integer. -/
def bitLoop : (n : ℕ) → (man : ℚ) → (acc : ℕ) → ℕ
  | 0, _, acc => acc
  | n + 1, man, acc =>
    let man := man * 2
    let n2 := ⌊man⌋₊
    let man := man - n2
    let acc := if n2 ≠ 0 then acc ||| 1 else acc
    bitLoop n man (if n ≠ 0 then (acc <<< 1) % 2 ^ 64 else acc)

/-- `native_float_parts` (decwide_t_detail.h:117-190): mantissa and exponent of a non-negative number. The exponent given by
    `frexp` is the one with 2^(e-1) ≤ f < 2^e. -/
def nativeParts (p : ℕ) (minN f : ℚ) : ℕ × ℤ :=
  if f < minN then (0, 0)
  else
    let e := Int.log 2 f + 1
    (bitLoop p (f / (2 : ℚ) ^ e) 0 ||| (1 <<< (p - 1)) % 2 ^ 64, e - 1)

/-- `from_builtin_float_type` (decwide_t.h:2749-2778). -/
def fromFloat (est : DW → DW) (fdig : ℕ) (p : ℕ) (minN f : ℚ) : DW :=
  let b := decide (f < 0)
  let parts := nativeParts p minN (if !b then f else -f)
  let t := fromULL c parts.1 false
  let p2 : ℤ := parts.2 - ((p : ℤ) - 1)
  let r :=
    if p2 < -2 then mulAssign c t (powNat c (half c) (-p2).toNat)
    else if p2 = -2 then divULL c est fdig t 4
    else if p2 = -1 then divULL c est fdig t 2
    else if p2 = 0 then t
    else if p2 = 1 then mulULL c t 2
    else if p2 = 2 then mulULL c t 4
    else mulAssign c t (powNat c (two c) p2.toNat)
  { r with neg := b }

end DW
end WD
