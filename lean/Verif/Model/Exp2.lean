import Verif.Model.Agm
import Verif.Model.FloatOut
/-
  Model of `exp` for more than 2000 decimal digits (decwide_t.h:6007-6101): argument reduction by ln 2, a start value from the
  built-in `exp`, a Newton iteration with `log`, and scaling by a power of two.

  `lg` stands for `log` (`logAgm` for more than 51 digits; `none` as there), `ln2` for the object `ln_two()`. `X` is
  `long double`, `G` the internal floating-point type with least normal number `minN` and `expF` its `std::exp`.
-/
namespace WD
namespace DW
variable (c : Cfg) (est : DW → DW) (fdig : Nat)

/-- Body of the Newton loop (decwide_t.h:6053-6078): `y` is `exp_result`, `x` is `original_x`. (The precision given to
    `iterate_term` is lost by the assignment that follows.) -/
def exp2Step (lg : DW → Option DW) (digits : Nat) (y x : DW) : Option (DW × DW) :=
  let np : Int := digits * 2 + min (c.ed + 1) 9
  let y := precision c y np
  let x := precision c x np
  (lg y).map fun l => (mulAssign c y (addAssign c (addAssign c l.negate x) (one c)), x)

/-- The Newton loop (decwide_t.h:6049-6079). `digits` doubles each round; `digits = 0` cannot occur (the loop would not
    end) and stops the model. -/
def exp2Loop (lg : DW → Option DW) (limit : Nat) (digits : Nat) (y x : DW) : Option DW :=
  if h : digits < limit ∧ 0 < digits then
    match exp2Step c lg digits y x with
    | none => none
    | some s => exp2Loop lg limit (digits * 2) s.1 s.2
  else some y
termination_by limit - digits
decreasing_by omega

/-- The arguments given to `log` in the rounds of the loop (decwide_t.h:6072). -/
def exp2Args (lg : DW → Option DW) (limit : Nat) (digits : Nat) (y x : DW) : List DW :=
  if h : digits < limit ∧ 0 < digits then
    let np : Int := digits * 2 + min (c.ed + 1) 9
    precision c y np ::
      match exp2Step c lg digits y x with
      | none => []
      | some s => exp2Args lg limit (digits * 2) s.1 s.2
  else []
termination_by limit - digits
decreasing_by omega

/-- The reduced argument `xh` (decwide_t.h:6029). -/
def exp2Arg (ln2 xx : DW) : DW := subAssign c xx (mulULL c ln2 (expN c est fdig ln2 xx))

/-- The start value `exp_result = exp_estimate` (decwide_t.h:6043-6047). -/
def exp2Start (X G : Flt) (minN : ℚ) (expF : ℚ → ℚ) (ew : Nat) (xh : DW) : Option DW :=
  (toFloat c X G ew xh).map fun f => fromFloat c est fdig G.p minN (expF f)

/-- `exp` for digits10 > 2000 (decwide_t.h:6006-6101). `none`: undefined behaviour in the conversion to floating point,
    `log` does not return, or the scaling exponent is the least `int` after the conversion from `uint32_t` (6087). -/
def expHigh (X G : Flt) (minN : ℚ) (expF : ℚ → ℚ) (ew : Nat) (lg : DW → Option DW) (ln2 x : DW) : Option DW :=
  if x.isNeg ∨ gt x (ofSigned c 0) then
    let xx := if !x.isNeg then x else x.negate
    let nf := expN c est fdig ln2 xx
    let xh := exp2Arg c est fdig ln2 xx
    let e : Int := if nf < 2 ^ 31 then (nf : Int) else (nf : Int) - 2 ^ 32
    (exp2Start c est fdig X G minN expF ew xh).bind fun y0 =>
    (exp2Loop c lg (x.prec * c.ed) (fdig - 1) y0 xh).bind fun y =>
    let r := precision c y (x.prec * c.ed : Nat)
    (if nf ≠ 0 then ldexp c est fdig r e else some r).map fun r =>
      if x.isNeg then calcInv c est fdig r else r
  else some (one c)

end DW
end WD
