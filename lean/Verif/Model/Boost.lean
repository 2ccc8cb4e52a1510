import Verif.Model.Elem
import Verif.Model.Sqrt
import Verif.Model.FloatConv
/-
  The binding to Boost.Math (boost/math/bindings/decwide_t.hpp): the constant π and the binary precision of the policies.
  `estS` stands for the two start values of the square root, `est` and `fdig` for those of the reciprocal.
-/
namespace WD
namespace DW
variable (c : Cfg) (estS : DW → DW × DW) (est : DW → DW) (fdig : Nat)

/-- `ldexp` with an exponent that is not the least `int` (decwide_t.hpp:146, 149, 152, 160, 163; it is defined for all others). -/
def ldexpI (v : DW) (e : Int) : DW := (ldexp c est fdig v e).getD (zero c)

/-- The variables of `constant_pi<decwide_t<...>>::my_compute` that live across rounds (decwide_t.hpp:130-136). -/
structure BoostPi where
  a : DW
  A : DW
  B : DW
  D : DW
  lim : DW

/-- The assignments of one round up to the comparison (decwide_t.hpp:145-153); the second component is `result`. -/
def boostPiRound (st : BoostPi) : BoostPi × DW :=
  let result := ldexpI c est fdig (addAssign c st.A st.B) (-2)
  let b := calcSqrt c estS fdig st.B
  let a := ldexpI c est fdig (addAssign c st.a b) (-1)
  let A := mulAssign c a a
  let B := ldexpI c est fdig (subAssign c A result) 1
  ({ st with a := a, A := A, B := B }, subAssign c A B)

/-- The loop and the division behind it (decwide_t.hpp:140-167): the value and the number of rounds. `k` is the variable k of
    the code less one. The loop of the code is unbounded; `none`: it does not end within `fuel` rounds. -/
def boostPiLoop : (fuel k : Nat) → BoostPi → Option (DW × Nat)
  | 0, _, _ => none
  | fuel + 1, k, st =>
    let r := boostPiRound c estS est fdig st
    if le r.2 r.1.lim then some (divAssign c est fdig r.1.B r.1.D, k + 1)
    else boostPiLoop fuel (k + 1) { r.1 with D := subAssign c r.1.D (ldexpI c est fdig r.2 k), lim := ldexpI c est fdig r.1.lim 1 }

/-- The variables before the loop (decwide_t.hpp:130-136); 0.5F and 0.25F are converted from `float`. -/
def boostPiInit : BoostPi :=
  { a := ofUnsigned c 32 1, A := ofUnsigned c 32 1, B := fromFloat c est fdig 24 ((2 : ℚ) ^ (-126 : ℤ)) (1 / 2),
    D := fromFloat c est fdig 24 ((2 : ℚ) ^ (-126 : ℤ)) (1 / 4), lim := epsVal c }

/-- `my_compute` (decwide_t.hpp:125-170), for at most `fuel` rounds. -/
def boostPi (fuel : Nat) : Option (DW × Nat) := boostPiLoop c estS est fdig fuel 0 (boostPiInit c est fdig)

/-- `local_digits_2` of the policy (decwide_t.hpp:84). -/
def boostDigits2 : Nat := (c.digits10 + 1) * 1000 / 301

/-- The precision in bits the policy selects (decwide_t.hpp:86-89); `policy` is the number the policy asks for, 0 or less
    standing for the default. -/
def boostPrecision (policy : Int) : Int :=
  if (boostDigits2 c : Int) ≤ policy ∨ policy ≤ 0 then boostDigits2 c else policy

end DW
end WD
