import Verif.Model.FloatConv
import Verif.Model.Const
/-
  Model of the elementary functions of decwide_t.h: `ldexp`, `fmod`, `exp` (up to 2000 digits), `log` (up to 51 digits),
  `sinh`, `cosh`, `tanh` and `pow(x, a)`. `est`/`fdig` stand for the floating-point start value of the reciprocal as in
  `calcInv`; `ln2` for the object `ln_two()` (`lnTwoLow` for at most 51 digits).
-/
namespace WD
namespace DW
variable (c : Cfg) (est : DW → DW) (fdig : Nat)

/-- `ldexp` (decwide_t.h:5623-5645). `-e` is undefined for the least `int`: `none`. -/
def ldexp (v : DW) (e : Int) : Option DW :=
  if e = 0 then some v
  else if e = -(2 ^ 31) then none
  else if e ≤ -64 then some (divAssign c est fdig v (powNat c (two c) (-e).toNat))
  else if e ≥ 64 then some (mulAssign c v (powNat c (two c) e.toNat))
  else if e < 0 then some (divULL c est fdig v (2 ^ (-e).toNat))
  else some (mulULL c v (2 ^ e.toNat))

/-- `fmod` (decwide_t.h:5664-5673). -/
def fmod (v1 v2 : DW) : DW :=
  let q := divAssign c est fdig v1 v2
  let nv := if v1.isNeg then ceil c q else floor c q
  subAssign c v1 (mulAssign c nv v2)

/-- The Taylor loop of `exp` (decwide_t.h:6173-6197): `fuel` rounds are left, `n` is the next index. The term that ends the
    loop is not added. -/
def expLoop (goal : Int) (xh : DW) : (fuel n : Nat) → (t h : DW) → DW
  | 0, _, _, h => h
  | fuel + 1, n, t, h =>
    let t := divULL c est fdig (mulAssign c t xh) n
    if n > 4 ∧ max 0 (-ilogb t) > goal then h
    else expLoop goal xh fuel (n + 1) t (addAssign c h t)

/-- `digits10_iteration_goal` (decwide_t.h:6156-6170). -/
def expGoal (x : DW) : Int := min (max 0 (-ilogb (epsVal c))) (x.prec * c.ed)

/-- `nf` (decwide_t.h:6131): the conversion to `uint32_t` wraps. -/
def expN (ln2 xx : DW) : Nat := toULL c (divAssign c est fdig xx ln2) % 2 ^ 32

/-- The reduced argument `xh` (decwide_t.h:6143-6145). -/
def expArg (ln2 xx : DW) (prec : Nat) : DW :=
  precision c (divULL c est fdig (subAssign c xx (mulULL c ln2 (expN c est fdig ln2 xx))) 2048) (prec * c.ed : Nat)

/-- The series `h0f0` (decwide_t.h:6147-6197). -/
def expSeries (goal : Int) (prec : Nat) (xh : DW) : DW :=
  expLoop c est fdig goal xh 99998 2 xh (precision c (addAssign c (one c) xh) (prec * c.ed : Nat))

/-- `exp` for digits10 ≤ 2000 (decwide_t.h:6104-6220). `none`: the scaling exponent is the least `int` after the conversion
    from `uint32_t` (decwide_t.h:6205). -/
def expDW (ln2 x : DW) : Option DW :=
  if x.isNeg ∨ gt x (ofSigned c 0) then
    let xx := if !x.isNeg then x else x.negate
    let nf := expN c est fdig ln2 xx
    let xh := expArg c est fdig ln2 xx x.prec
    let r := powNat c (expSeries c est fdig (expGoal c x) x.prec xh) 2048
    let e : Int := if nf < 2 ^ 31 then (nf : Int) else (nf : Int) - 2 ^ 32
    (if nf ≠ 0 then ldexp c est fdig r e else some r).map fun r =>
      if x.isNeg then calcInv c est fdig r else r
  else some (one c)

/-- `sinh` (decwide_t.h:6223-6230). -/
def sinhDW (ln2 x : DW) : Option DW :=
  (expDW c est fdig ln2 x).map fun ep => divULL c est fdig (subAssign c ep (calcInv c est fdig ep)) 2

/-- `cosh` (decwide_t.h:6232-6240). -/
def coshDW (ln2 x : DW) : Option DW :=
  (expDW c est fdig ln2 x).map fun ep => divULL c est fdig (addAssign c ep (calcInv c est fdig ep)) 2

/-- `tanh` (decwide_t.h:6242-6252). -/
def tanhDW (ln2 x : DW) : Option DW :=
  (expDW c est fdig ln2 x).map fun ep =>
    let em := calcInv c est fdig ep
    divAssign c est fdig (subAssign c ep em) (addAssign c ep em)

/-- The scale factor 10^n of `log` (decwide_t.h:5922-5936), n ≥ 0. -/
def logScale (n : Nat) : DW :=
  fromLst c [pow10Runtime (n % c.ed) % c.L.W] ((n / c.ed * c.ed : Nat) : Int) false

/-- The Taylor loop of `log` (decwide_t.h:5969-5990): `fuel` rounds are left, `i` is the next index. -/
def logLoop (goal : Int) (y : DW) : (fuel i : Nat) → (yn sum : DW) → (negative : Bool) → DW
  | 0, _, _, sum, _ => sum
  | fuel + 1, i, yn, sum, negative =>
    let yn := mulAssign c yn y
    let term := divULL c est fdig yn i
    if i > 4 ∧ (yn.isZero ∨ max 0 (-ilogb yn) > goal) then sum
    else logLoop goal y fuel (i + 1) yn (if negative then subAssign c sum term else addAssign c sum term) (!negative)

/-- `log` above 1 for digits10 ≤ 51 (decwide_t.h:5905-5997). `lim` is the number 1.8F converted to `decwide_t`. -/
def logAbove (lim x : DW) : DW :=
  let n := (ilogb x).toNat
  let xs := divAssign c est fdig x (logScale c n)
  let p : DW × Nat := if gt xs lim then (divULL c est fdig xs 10, n + 1) else (xs, n)
  let y := subAssign c p.1 (one c)
  addAssign c (mulSLL c (lnTenLow c) p.2) (logLoop c est fdig ((c.digits10 : Int) + 5) y 9998 2 y y true)

/-- `log` for digits10 ≤ 51 (decwide_t.h:5894-6005). Below 1 it calls itself with the reciprocal; `none`: the recursion is
    deeper than `depth`. -/
def logDW (lim : DW) : (depth : Nat) → DW → Option DW
  | 0, _ => none
  | depth + 1, x =>
    if lt x (one c) then (logDW lim depth (calcInv c est fdig x)).map negate
    else if gt x (one c) then some (logAbove c est fdig lim x)
    else some (zero c)

/-- The value of the literal 1.8F in IEEE single precision, 15099494·2^-23, as converted to `decwide_t`
    (decwide_t.h:5940; `from_builtin_float_type` with 24 bits). -/
def logLim : DW := fromFloat c est fdig 24 ((2 : ℚ) ^ (-126 : ℤ)) (15099494 * (2 : ℚ) ^ (-23 : ℤ))

/-- `pow(x, a)` (decwide_t.h:5612-5621). -/
def powDW (ln2 lim : DW) (depth : Nat) (x a : DW) : Option DW :=
  if a.isZero then some (one c)
  else (logDW c est fdig lim depth x).bind fun l => expDW c est fdig ln2 (mulAssign c a l)

end DW
end WD
