import Verif.Model.DW
/-
  Model of `calculate_sqrt` (decwide_t.h:1834-1948). The two start values, which the code computes in built-in floating
  point, are a parameter here; `Model/Float.lean` models how they are computed.
-/
namespace WD
namespace DW
variable (c : Cfg)

/-- Body of the loop (decwide_t.h:1910-1942); `s` is `*this`, `v` is `vi`. -/
def sqrtStep (digits : Nat) (s v x : DW) : DW × DW × DW :=
  let np : Int := digits * 2 + min (c.ed + 1) 9
  let s := precision c s np
  let v := precision c v np
  let x := precision c x np
  let v := addAssign c v (mulAssign c v (addAssign c (mulSLL c (mulAssign c s v) (-2)) (one c)))
  let s := addAssign c s (mulAssign c v (addAssign c (mulAssign c s s).negate x))
  (s, v, x)

/-- The loop (decwide_t.h:1906-1943). `digits` doubles each round; `digits = 0` cannot occur (the loop would not end) and
    stops the model. -/
def sqrtLoop (limit : Nat) (digits : Nat) (s v x : DW) : DW :=
  if h : digits < limit ∧ 0 < digits then
    let t := sqrtStep c digits s v x
    sqrtLoop limit (digits * 2) t.1 t.2.1 t.2.2
  else s
termination_by limit - digits
decreasing_by omega

/-- `calculate_sqrt` (decwide_t.h:1834-1948). `est x` stands for the two objects `decwide_t(sqd, ne/2)` and
    `decwide_t(0.5/sqd, -ne/2)`, `fdig` for `numeric_limits<internal_float_type>::digits10`. -/
def calcSqrt (est : DW → DW × DW) (fdig : Nat) (x : DW) : DW :=
  if x.isNeg then zero c
  else if x.isZero then x
  else if isOne c x then x
  else
    let s := sqrtLoop c (x.prec * c.ed) (fdig - 1) (est x).1 (est x).2 x
    { s with prec := x.prec }

end DW
end WD
