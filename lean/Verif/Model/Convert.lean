import Verif.Model.DW
import Verif.Spec.Convert
/-
  Model of the conversion operators to the built-in integer types and to `bool` (decwide_t.h:2555-2569) and of
  the converting constructors from the built-in integer types (decwide_t.h:652-714), for every width and signedness.
-/
namespace WD
namespace DW

/-- `static_cast<IntegralType>(n)` for an integer `n`: two's complement narrowing (every supported compiler; C++20). -/
def narrow (t : IntT) (n : Int) : Int :=
  let r := n % (2 ^ t.bits : Int)
  if t.signed ∧ (2 ^ (t.bits - 1) : Int) ≤ r then r - 2 ^ t.bits else r

/-- `explicit operator IntegralType() const` (decwide_t.h:2555-2566): the signed types go through
    `extract_signed_long_long`, the unsigned ones through `extract_unsigned_long_long`. -/
def castTo (c : Cfg) (t : IntT) (x : DW) : Int :=
  if t.signed then narrow t (toSLL c x) else narrow t (toULL c x)

/-- The converting constructor from a value of the type `t` (decwide_t.h:652-694 for the unsigned types, 696-714 for the
    signed ones). -/
def ofInt (c : Cfg) (t : IntT) (n : Int) : DW :=
  if t.signed then ofSigned c n else ofUnsigned c t.bits n.toNat

/-- `explicit operator bool() const` (decwide_t.h:2569). -/
def toBool (x : DW) : Bool := !x.isZero

end DW
end WD
