import Verif.Model.Parse
import Verif.Model.Wrap
/-
  The operations with an exponent of `w` bits (`ExponentType` = int8_t, int16_t, int32_t or int64_t). The other model files have
  unbounded exponents; here every assignment to `my_exp` and every cast to `exponent_type` is made in the type. `none` is undefined
  behaviour (signed overflow, 32 and 64 bits); narrower types are promoted to `int` and the cast back wraps.
-/
namespace WD
namespace DW
variable (c : Cfg) (w : Nat)

/-- `static_cast<exponent_type>(e)` of a wider value (decwide_t.h:3374-3378, 2270). -/
def castE (e : Int) : Int := UW.toS w (UW.castU w e)

/-- `my_exp = static_cast<exponent_type>(a + b)` and the like (decwide_t.h:931-936, 1072-1076, 1189-1197, 1403, 1461, 3524-3531):
    below 32 bits computed in `int` and cast, otherwise computed in the type itself. -/
def setE (e : Int) : Option Int :=
  if w < 32 then some (castE w e) else if -(2 ^ (w - 1) : Int) ≤ e ∧ e < 2 ^ (w - 1) then some e else none

/-- The exponent of a result stored in the type (decwide_t.h:1072-1076, 1189-1197, 2830-2836, 1403, 1461). -/
def storeE (x : DW) : Option DW := (setE w x.exp).map fun e => { x with exp := e }

/-- `operator+=` (decwide_t.h:913-1214). -/
def addAssignW (u v : DW) : Option DW :=
  if u.isZero then some v
  else
    let p := min u.prec v.prec
    (setE w (castE w p * c.ed)).bind fun md => -- max_delta_exp, 931-936
      let maxDelta := UW.castU w md
      let ofsExp := UW.sub w (UW.ofSigned w u.exp) (UW.ofSigned w v.exp)
      if v.isZero ∨ (ofsExp.neg = false ∧ ofsExp.value ≥ maxDelta) then some u
      else if ofsExp.neg = true ∧ ofsExp.value ≥ maxDelta then some v
      else
        let q : Int := ((ofsExp.value / c.ed : Nat) : Int)
        let ofs : Int := if !ofsExp.neg then q else -q
        storeE w (if u.neg = v.neg then addSame c p ofs u v else addOpp c p ofs u v)

/-- `operator-=` (decwide_t.h:1216-1220). -/
def subAssignW (u v : DW) : Option DW := (addAssignW c w u.negate v).map negate

/-- `operator*=` (decwide_t.h:1222-1308). -/
def mulAssignW (u v : DW) : Option DW :=
  let u := if u.isZero ∨ v.isZero then zero c else u
  let rneg := u.neg != v.neg
  let u := { u with neg := false }
  let r :=
    if isOneSN c u then some v
    else if isOneSN c v then some u
    else
      let e := UW.add w (UW.ofSigned w u.exp) (UW.ofSigned w v.exp)
      if e.neg = false ∧ e.value ≥ c.maxExp then some (maxVal c)
      else if e.neg = true ∧ e.value ≥ c.maxExp then some (minVal c)
      else storeE w (mulDispatch c (min u.prec v.prec) { u with exp := if !e.neg then castE w e.value else -castE w e.value } v)
  r.map fun x => { x with neg := rneg }

/-- `mul_unsigned_long_long` (decwide_t.h:1354-1422). -/
def mulULLW (u : DW) (n : Nat) : Option DW :=
  let bneg := u.neg
  let u' := { u with neg := false }
  if u'.isZero ∨ n = 0 then some (zero c)
  else
    let e := UW.add w (UW.ofSigned w u.exp) (UW.ofSigned w (castE w (orderOf n)))
    if e.neg = false ∧ e.value ≥ c.maxExp then some (if !bneg then maxVal c else (maxVal c).negate)
    else if n ≥ c.B then mulAssignW c w u (ofUnsigned c 64 n)
    else if n = 1 then some u
    else
      let s := mulLoop c.L n (u.data.take u.prec)
      if s.2 ≠ 0 then
        storeE w { u with data := s.2 :: (s.1.take (u.prec - 1) ++ u.data.drop u.prec), exp := u.exp + c.ed }
      else some { u with data := s.1 ++ u.data.drop u.prec }

/-- `extract_integer_part()` (decwide_t.h:2258-2302). -/
def integerPartW (x : DW) : DW :=
  if x.exp < 0 then zero c
  else if x.exp ≥ castE w ((c.digits10 : Int) - 1) then x
  else
    let first := x.exp.toNat / c.ed + 1
    { x with data := x.data.take first ++ List.replicate (c.N - first) 0 }

/-- `rd_string` (decwide_t.h:3357-3729). -/
def rdStringW (prec : Nat) (s : List Char) : Option DW :=
  let (s, e) := splitExp s
  let e := castE w e
  let neg := s.contains '-'
  let s := if s.contains '-' then s.erase '-' else s
  let s := if s.contains '+' then s.erase '+' else s
  let t := s.dropWhile (· == '0')
  if t.length ≠ s.length ∧ t = [] then some (zero c)
  else
    match normPoint t e with
    | none => some (zero c)
    | some (s, e) =>
      (setE w e).bind fun e =>
      let (s, e) := shiftPoint c s e
      (setE w e).bind fun e =>
      let (s, e) := reduceMant c s e
      (setE w e).map fun e =>
      let s := padTrunc c s
      { data := extractLimbs c s, exp := e, neg := neg, prec := prec }

/-- Constructor from a character string (decwide_t.h:730-738). -/
def ofStringW (s : List Char) : Option DW := rdStringW c w c.N s

end DW
end WD
