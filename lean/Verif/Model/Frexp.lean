import Verif.Model.Elem
/-
  Model of `frexp` (decwide_t.h:5646-5661) and `calculate_frexp` (decwide_t.h:2040-2092).
  `tEst k` stands for `exponent_type(static_cast<long double>(k) * 3.3222591362126245847…L)`; `tMax` is the largest
  `exponent_type`. Leaving the range of `exponent_type` (in the conversion or in ++t, --t) is undefined: `none`. A `while` loop
  gets `fuel` rounds; running out of them is `none` too, so `none` for every fuel means that the call does not return a value.
-/
namespace WD
namespace DW
variable (c : Cfg) (est : DW → DW) (fdig : Nat)

/-- The loop `while(result.cmp(one()) >= 0)` (decwide_t.h:2071-2076). -/
def frexpDown (tMax : Int) : (fuel : Nat) → DW → Int → Option (DW × Int)
  | 0, _, _ => none
  | fuel + 1, r, t =>
    if cmp r (one c) ≥ 0 then
      if t = tMax then none else frexpDown tMax fuel (divSLL c est fdig r 2) (t + 1)
    else some (r, t)

/-- The loop `while(result.cmp(half()) < 0)` (decwide_t.h:2078-2083). -/
def frexpUp (tMax : Int) : (fuel : Nat) → DW → Int → Option (DW × Int)
  | 0, _, _ => none
  | fuel + 1, r, t =>
    if cmp r (half c) < 0 then
      if t = -tMax - 1 then none else frexpUp tMax fuel (mulSLL c r 2) (t - 1)
    else some (r, t)

/-- `calculate_frexp` (decwide_t.h:2040-2092): the pair (result, *e). -/
def calcFrexp (tEst : Int → Int) (tMax : Int) (fuel : Nat) (x : DW) : Option (DW × Int) :=
  if x.isZero then some (x, 0)
  else
    let r := if x.neg then x.negate else x
    let t := tEst (ilogb r)
    if t > tMax ∨ t < -tMax then none
    else
      match pow c est fdig (two c) (-t) with
      | none => none
      | some p =>
        match frexpDown c est fdig tMax fuel (mulAssign c r p) t with
        | none => none
        | some (r, t) =>
          match frexpUp c tMax fuel r t with
          | none => none
          | some (r, t) => some (if x.neg then r.negate else r, t)

/-- `static_cast<int>` of an `exponent_type` (two's complement, 32-bit `int`). -/
def castInt (e : Int) : Int := (e + 2 ^ 31) % 2 ^ 32 - 2 ^ 31

/-- `frexp` (decwide_t.h:5646-5661): the pair (result, *expon). -/
def frexp (tEst : Int → Int) (tMax : Int) (fuel : Nat) (v : DW) : Option (DW × Int) :=
  (calcFrexp c est fdig tEst tMax fuel v).map (fun p => (p.1, castInt p.2))

end DW
end WD
