/-
  Model of `detail::unsigned_wrap` (math/wide_decimal/decwide_t_detail.h:642-758), the sign-magnitude wrapper through
  which `decwide_t` adds and compares exponents. `w` is the width of the unsigned type; values are naturals reduced
  modulo 2^w exactly where the code casts to `unsigned_type`.
-/
namespace WD

/-- Data members `my_neg`, `my_value` (decwide_t_detail.h:687-688). -/
structure UW where
  neg : Bool
  value : Nat
  deriving DecidableEq, Repr

namespace UW
variable (w : Nat)

/-- `static_cast<unsigned_type>` of a signed value (decwide_t_detail.h:651). -/
def castU (n : Int) : Nat := (n % (2 ^ w : Int)).toNat

/-- `~v + 1` in the unsigned type (decwide_t_detail.h:652, 706, 711, 722, 727). -/
def negU (v : Nat) : Nat := ((2 ^ w - 1 - v) % 2 ^ w + 1) % 2 ^ w

/-- Constructor from a signed value (decwide_t_detail.h:649-652). -/
def ofSigned (n : Int) : UW :=
  let neg := decide (n < 0)
  { neg := neg, value := if !neg then castU w n else negU w (castU w n) }

/-- Reinterpret an unsigned bit pattern as signed: `static_cast<signed_type>` (two's complement; decwide_t_detail.h:684). -/
def toS (v : Nat) : Int := if v < 2 ^ (w - 1) then (v : Int) else (v : Int) - 2 ^ w

/-- `get_value_signed` (decwide_t_detail.h:684). Negating the least value of a signed type that is not promoted
    (32 bits or more) is undefined: `none`. Narrower types are promoted to `int` and the cast back wraps. -/
def getSigned (a : UW) : Option Int :=
  if !a.neg then some (toS w a.value)
  else if toS w a.value = -(2 ^ (w - 1) : Int) then (if 32 ≤ w then none else some (-(2 ^ (w - 1) : Int)))
  else some (-(toS w a.value))

/-- `operator+=` (decwide_t_detail.h:690-733), right operand a different object. -/
def add (a b : UW) : UW :=
  if a.neg = b.neg then { a with value := (a.value + b.value) % 2 ^ w }
  else if !a.neg then
    if a.value > b.value then { a with value := (a.value + negU w b.value) % 2 ^ w }
    else
      let v := (b.value + negU w a.value) % 2 ^ w
      { neg := v != 0, value := v }
  else
    if a.value > b.value then { a with value := (a.value + negU w b.value) % 2 ^ w }
    else { neg := false, value := (b.value + negU w a.value) % 2 ^ w }

/-- `operator-=` (decwide_t_detail.h:735-754), right operand a different object. -/
def sub (a b : UW) : UW :=
  if a.value = 0 then
    if b.value ≠ 0 then { neg := !b.neg, value := b.value } else a
  else
    let r := add w { a with neg := !a.neg } b
    { r with neg := if r.value ≠ 0 then !r.neg else false }

/-- `a -= a` with the same object on both sides (decwide_t_detail.h:735-754): the first sign flip is visible through the
    reference to the right operand. -/
def subSelf (a : UW) : UW :=
  if a.value = 0 then a
  else
    let f : UW := { a with neg := !a.neg }
    let r := add w f f
    { r with neg := if r.value ≠ 0 then !r.neg else false }

end UW
end WD
