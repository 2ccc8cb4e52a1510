import Verif.Model.Print
import Verif.Spec.Float
/-
  Model of the conversion to built-in floating-point types: `extract_long_double` and the cast operators.

  The library function `std::strtold` is modelled by reading the decimal text exactly (`scanDec`) and rounding to the type
  (`F.rnd`, see Spec/Float.lean: nearest representable number, no range limits). `md` is
  `numeric_limits<long double>::max_digits10` and `ew` is `numeric_limits<make_unsigned<exponent_type>>::digits10` (19, 9, 4, 2
  for exponents of 64, 32, 16, 8 bits).
-/
namespace WD
namespace DW
variable (c : Cfg)

/-- `elems_of_ldbl_to_get` (decwide_t.h:2315-2334): the number of limbs written. -/
def ldElems (md : ℕ) : ℕ :=
  let t := md / c.ed + (if md % c.ed ≠ 0 then 1 else 0) + 1
  if t < c.N then t else c.N

/-- `ldbl_str_rep_char_cnt` (decwide_t.h:2340-2350): the size of the buffer. -/
def ldCap (md ew : ℕ) : ℕ := 1 + ldElems c md * c.ed + 1 + 2 + ew

/-- The text built in `extract_long_double` (decwide_t.h:2352-2418): sign, digits with the point behind the first limb
    (`get_output_digits` with `include_decimal_point`, decwide_t.h:3732-3800), 'E', sign and digits of the exponent. The buffer is
    filled with zero characters before; `strtold` reads up to the first of them. `none`: a write leaves its buffer, or the buffer is
    full and `strtold` reads behind its end (undefined behaviour). -/
def ldText (md ew : ℕ) (x : DW) : Option (List Char) := do
  let a ← Util.blc 10 c.ed true x.d0
  let b ← limbsChars c.ed ((x.data.take (ldElems c md)).drop 1)
  let e ← Util.blc 10 ew true x.exp.natAbs
  let s := (if !x.neg then '+' else '-') :: (a ++ '.' :: (b ++ 'E' :: (if x.exp < 0 then '-' else '+') :: e))
  if s.length < ldCap c md ew then some s else none

/-- The exact value of the decimal text read by `strtold` (decwide_t.h:2423): optional sign, digits, optional point and digits, optional
    exponent. Hexadecimal texts, "inf" and "nan" are not read. -/
def scanDec (s : List Char) : ℚ :=
  let neg := s.head? = some '-'
  let r := if s.head? = some '-' ∨ s.head? = some '+' then s.tail else s
  let ip := r.takeWhile Char.isDigit
  let r := r.dropWhile Char.isDigit
  let fp := if r.head? = some '.' then r.tail.takeWhile Char.isDigit else []
  let r := if r.head? = some '.' then r.tail.dropWhile Char.isDigit else r
  let ex := if r.head? = some 'E' ∨ r.head? = some 'e' then r.tail else []
  let ed := if ex.head? = some '-' ∨ ex.head? = some '+' then ex.tail else ex
  let ev : ℤ := if ex.head? = some '-' then -(strtoul ed : ℤ) else strtoul ed
  (if neg then -1 else 1) * (strtoul (ip ++ fp) : ℚ) * (10 : ℚ) ^ (ev - fp.length)

/-- `operator long double` (decwide_t.h:2304-2426, 2551); `F` is `long double`. -/
def toLongDouble (F : Flt) (ew : ℕ) (x : DW) : Option ℚ := (ldText c F.maxDigits10 ew x).map fun s => F.rnd (scanDec s)

/-- `operator double` and `operator float` (decwide_t.h:2552-2553): the `long double` is rounded again to the type `G`. -/
def toFloat (F G : Flt) (ew : ℕ) (x : DW) : Option ℚ := (toLongDouble c F ew x).map G.rnd

end DW
end WD
