import Verif.Model.Pow
import Verif.Model.Sqrt
import Verif.Model.Float
/-
  Model of `calculate_rootn_inv`, `rootn`, `rootn_inv` and `cbrt`. The start value is a parameter of the iteration;
  `rootnStart` models how the code computes it.
-/
namespace WD
namespace DW
variable (c : Cfg)

/-- Body of the loop of `calculate_rootn_inv` (decwide_t.h:2004-2030); `r` is `*this`. The division is by a built-in int, which
    is below 2^31 here. -/
def rootnStep (est : DW → DW) (fdig : Nat) (p : Nat) (digits : Nat) (r x : DW) : DW × DW :=
  let np : Int := digits * 2 + min (c.ed + 1) 9
  let r := precision c r np
  let x := precision c x np
  let term := addAssign c (divSLL c est fdig (addAssign c (mulAssign c (powNat c r p).negate x) (one c)) p) (one c)
  (mulAssign c r (precision c term np), x)

/-- The loop (decwide_t.h:2000-2031). `digits` doubles each round; `digits = 0` cannot occur (the loop would not end) and stops
    the model. -/
def rootnLoop (est : DW → DW) (fdig : Nat) (p : Nat) (limit : Nat) (digits : Nat) (r x : DW) : DW :=
  if h : digits < limit ∧ 0 < digits then
    let s := rootnStep c est fdig p digits r x
    rootnLoop est fdig p limit (digits * 2) s.1 s.2
  else r
termination_by limit - digits
decreasing_by omega

/-- `calculate_rootn_inv` (decwide_t.h:1950-2036). `rst x` stands for the start value `decwide_t(pow(dd, -1/p), -ne/p)`
    (decwide_t.h:1973-1998); `none`: computing it does not end or is undefined. `est` is the start value of reciprocals, as in
    `calcInv`. -/
def calcRootnInv (est : DW → DW) (fdig : Nat) (rst : Nat → DW → Option DW) (p : Int) (x : DW) : Option DW :=
  if p < 1 then some (zero c)
  else if p = 1 then some x
  else (rst p.toNat x).map fun r0 =>
    { rootnLoop c est fdig p.toNat (x.prec * c.ed) (fdig - 1) r0 x with prec := x.prec }

/-- `rootn` for p ≥ 0 (decwide_t.h:5702-5726). `sst` are the start values of the square root. -/
def rootnNat (est : DW → DW) (fdig : Nat) (sst : DW → DW × DW) (rst : Nat → DW → Option DW) (p : Nat) (x : DW) : Option DW :=
  if p = 0 ∨ (lt x (ofSigned c 0) ∧ p ≠ 3) then some (zero c)
  else if p = 1 then some x
  else if p = 2 then some (calcSqrt c sst fdig x)
  else if p = 3 then
    (calcRootnInv c est fdig rst 3 (fabs x)).map fun r =>
      if lt x (ofSigned c 0) then (calcInv c est fdig r).negate else calcInv c est fdig r
  else (calcRootnInv c est fdig rst p x).map (calcInv c est fdig)

/-- `rootn` (decwide_t.h:5690-5727); `-p` is undefined for the least `int32_t`: `none`. -/
def rootn (est : DW → DW) (fdig : Nat) (sst : DW → DW × DW) (rst : Nat → DW → Option DW) (x : DW) (p : Int) : Option DW :=
  if p = -(2 ^ 31) then none
  else if p < 0 then (rootnNat c est fdig sst rst (-p).toNat x).map (divAssign c est fdig (one c))
  else rootnNat c est fdig sst rst p.toNat x

/-- `cbrt` (decwide_t.h:5683-5687). -/
def cbrt (est : DW → DW) (fdig : Nat) (sst : DW → DW × DW) (rst : Nat → DW → Option DW) (x : DW) : Option DW :=
  rootn c est fdig sst rst x 3

/-- `rootn_inv` (decwide_t.h:5729-5736). -/
def rootnInv (est : DW → DW) (fdig : Nat) (rst : Nat → DW → Option DW) (x : DW) (p : Int) : Option DW :=
  calcRootnInv c est fdig rst p x

variable (F : Flt)

/-- `while(ne % p != 0) { ++ne; dd /= 10; }` (decwide_t.h:1978-1983); fewer than p rounds. -/
def rootnShift (p : Nat) : (fuel : Nat) → ℚ × ℤ → ℚ × ℤ
  | 0, s => s
  | n + 1, (d, e) => if e.tmod p ≠ 0 then rootnShift p n (F.rnd (d / 10), e + 1) else (d, e)

/-- The start value (decwide_t.h:1973-1998). `pw p d` is the value of `std::pow(d, -1/p)` for d > 0. For d = 0 that value is
    infinite and the constructor from mantissa and exponent never ends (`while(d > f_ten) { d /= f_ten; ... }`,
    decwide_t.h:797); for d < 0 it is a NaN, whose conversion to a limb is undefined: both are `none`. -/
def rootnStart (pw : Nat → ℚ → ℚ) (p : Nat) (x : DW) : Option DW :=
  let s := rootnShift F p p (extractParts c F x)
  if s.1 ≤ 0 then none
  else ofMantExp c F (pw p s.1) ((-s.2).tdiv p)

end DW
end WD
