import Verif.Model.DW
import Verif.Model.Util
import Verif.Model.Parse
/-
  Model of writing to a stream: `get_output_digits`, `get_output_string`, `wr_string_scientific`, `wr_string_fixed`,
  `special_extend_string_to_precision` and `wr_string` (decwide_t.h:3732-4176, 4384-4558).

  `none` is the outcome in which a write leaves its buffer or `std::string::insert` throws `std::length_error` (its
  count argument is a wrapped unsigned difference). `uint_fast32_t` quantities are unbounded naturals and exponents
  unbounded integers.
-/
namespace WD
namespace DW
variable (c : Cfg)

/-- One limb behind the point, zero-padded to the limb digits (decwide_t.h:3777-3791). -/
def limbChars (ed limb : Nat) : Option (List Char) :=
  (Util.blc 10 ed true limb).map fun s => List.replicate (ed - s.length) '0' ++ s

/-- The loop over the remaining limbs (decwide_t.h:3777-3799). -/
def limbsChars (ed : Nat) : List Nat → Option (List Char)
  | [] => some []
  | x :: xs => do
    let a ← limbChars ed x
    let b ← limbsChars ed xs
    return a ++ b

/-- `get_output_digits` without decimal point (decwide_t.h:3732-3800). -/
def outputDigits (x : DW) (numElems : Nat) : Option (List Char) := do
  let a ← Util.blc 10 c.ed true x.d0
  let b ← limbsChars c.ed ((x.data.take numElems).drop 1)
  return a ++ b

/-- The loop over trailing nines (decwide_t.h:3856-3863): returns the string and the index at which it stops. -/
def ninesLoop : (ix : Nat) → List Char → List Char × Nat
  | 0, s => (s, 0)
  | ix + 1, s => if s.getD (ix + 1) ' ' = '9' then ninesLoop ix (s.set (ix + 1) '0') else (s, ix + 1)

/-- `++ch` on a character (decwide_t.h:3876-3888). -/
def nextChar (ch : Char) : Char := Char.ofNat (ch.toNat + 1)

/-- Rounding up in the last place (decwide_t.h:3854-3888). -/
def roundUp (s : List Char) (e : Int) : List Char × Int :=
  let (s, ix) := ninesLoop (s.length - 1) s
  if ix = 0 ∧ s.getD 0 ' ' = '9' then (s.set 0 '1', e + 1)
  else (s.set ix (nextChar (s.getD ix ' ')), e)

/-- `get_output_string` (decwide_t.h:3803-3891). -/
def outputString (x : DW) (e : Int) (nd : Nat) : Option (List Char × Int) := do
  let s ← outputDigits c x (min (nd / c.ed + 2) c.N)
  if s.length > nd then
    let round := (s.getD nd '0').toNat - 48
    let s := s.take nd
    if round ≥ 5 then return roundUp s e else return (s, e)
  else return (s, e)

/-- `special_extend_string_to_precision` (decwide_t.h:4119-4176). -/
def specialExtend (s : List Char) (prec : Nat) : Option (List Char) :=
  if s.head? = some '0' ∧ s.getD 1 ' ' = '.' then
    if s.length = 2 then some (s ++ List.replicate prec '0')
    else
      let n := ((s.drop 2).dropWhile (· == '0')).length
      if n ≤ prec then some (s ++ List.replicate (prec - n) '0') else none
  else if s.length - 1 ≤ prec then some (s ++ List.replicate (prec - (s.length - 1)) '0') else none

/-- Final manipulation of the digits, common to both formats (decwide_t.h:3940-3952, 4101-4116). -/
def finishDigits (s : List Char) (prec : Nat) (showpoint trim : Bool) : Option (List Char) :=
  if showpoint then (if trim then specialExtend s prec else some s)
  else some (if s.getLast? = some '.' then s.dropLast else s)

/-- The exponent field (decwide_t.h:3954-3989). -/
def expChars (e : Int) (uppercase : Bool) : Option (List Char) := do
  let u := e.natAbs
  let s ← Util.blc 10 20 true u
  let pad := if s.length % 3 ≠ 0 then 3 - s.length % 3 else 0
  return (if uppercase then 'E' else 'e') :: (if e < 0 then '-' else '+') :: (List.replicate pad '0' ++ s)

/-- `wr_string_scientific` (decwide_t.h:3893-3990). -/
def wrScientific (s : List Char) (e : Int) (prec : Nat) (showpoint uppercase trim : Bool) : Option (List Char) := do
  let s := if prec > s.length - 1 then s ++ List.replicate (prec - (s.length - 1)) '0' else s
  let s := insertAt 1 '.' s
  let s := if trim then stripTrailing s else s
  let s ← finishDigits s prec showpoint trim
  let x ← expChars e uppercase
  return s ++ x

/-- `wr_string_fixed` (decwide_t.h:3992-4117). -/
def wrFixed (s : List Char) (e : Int) (prec : Nat) (showpoint trim : Bool) : Option (List Char) :=
  let s :=
    if e < 0 then
      let z := (-(e + 1)).toNat
      let pad := prec - (s.length + z)
      '0' :: '.' :: (List.replicate z '0' ++ s) ++ List.replicate pad '0'
    else
      let e1 := (e + 1).toNat
      let s := if s.length < e1 then s ++ List.replicate (e1 - s.length) '0' else s
      let s := insertAt e1 '.' s
      s ++ List.replicate (prec - (s.length - 1 - e1)) '0'
  let s := if trim then stripTrailing s else s
  finishDigits s prec showpoint trim

/-- The stream state `wr_string` looks at (its parameters, decwide_t.h:4384-4390, filled in 4177-4192). -/
structure Fmt where
  scientific : Bool := false
  fixed : Bool := false
  showpos : Bool := false
  uppercase : Bool := false
  showpoint : Bool := false
  left : Bool := false
  precision : Int := 6
  width : Int := 0
  fill : Char := ' '

/-- `os_precision` (decwide_t.h:4415-4426). -/
def Fmt.osPrec (f : Fmt) : Nat :=
  if f.precision ≤ 0 then (if f.scientific then 0 else 6) else f.precision.toNat

/-- The choice of notation (decwide_t.h:4428-4452). -/
def Fmt.useScientific (f : Fmt) (e : Int) : Bool :=
  if f.scientific then true
  else if f.fixed then false
  else decide (e < -4 ∨ e ≥ min (c.digits10 : Int) (max (f.osPrec : Int) 6))

/-- The number of digits requested (decwide_t.h:4454-4510). -/
def Fmt.numDigits (f : Fmt) (e : Int) : Nat :=
  let m := c.maxDigits10 + 1
  let n := if f.useScientific c e then min m (1 + f.osPrec)
           else if 0 ≤ e then (min (e + 1 + f.osPrec) (m : Int)).toNat
           else min f.osPrec m
  if f.scientific || f.fixed then n else min n (min f.osPrec c.maxDigits10)

/-- The dispatch on the notation (decwide_t.h:4522-4536). -/
def wrBody (f : Fmt) (sci : Bool) (s : List Char) (e : Int) : Option (List Char) :=
  let trim := !(f.scientific || f.fixed)
  if sci then wrScientific s e f.osPrec f.showpoint f.uppercase trim
  else wrFixed s e f.osPrec f.showpoint trim

/-- `wr_string` (decwide_t.h:4384-4558). -/
def wrString (x : DW) (f : Fmt) : Option (List Char) := do
  let e := ilogb x
  let sci := f.useScientific c e
  let (s, e) ← outputString c x e (f.numDigits c e)
  let s ← wrBody f sci s e
  let s := if x.neg then '-' :: s else if f.showpos then '+' :: s else s
  let w := f.width.toNat
  if w > s.length then
    let fill := List.replicate (w - s.length) f.fill
    return if f.left then s ++ fill else fill ++ s
  else return s

end DW
end WD
