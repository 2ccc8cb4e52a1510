import Verif.Model.Limb
import Verif.Model.Kara
import Verif.Model.Tables
/-
  Model of the class template `decwide_t` (math/wide_decimal/decwide_t.h).

  Simplifications, valid for the whole file:
  * exponents are unbounded integers (the code uses `exponent_type`; the wrapper `unsigned_wrap`, through which the code
    adds and compares exponents, is modelled in fixed width in `Verif/Model/Wrap.lean`);
  * `my_fpclass` is dropped: the class has the single value `decwide_t_finite` (decwide_t.h:599-602);
  * the static scratch arrays of the "no dynamic memory" build are modelled as fresh temporaries, as in the default build;
  * an operand passed by reference is a value different from the object operated on; aliasing is modelled separately in
    `Verif/Model/Alias.lean`.
-/
namespace WD

/-- Template parameters that matter: the limb type, the number of decimal digits and `decwide_t_max_exp10`
    (decwide_t.h:545-546; 2^59, 2^28, 2^13 or 2^6 depending on the exponent type). `fft` is the limb product
    `detail::mul_loop_fft` leaves in `my_data` (its first `p` limbs), which involves floating point and is a parameter
    of the model; it is used only for 1793 or more limbs. -/
structure Cfg where
  L : Limb
  digits10 : Nat
  maxExp : Nat
  fft : List Nat → List Nat → List Nat := fun _ _ => []

namespace Cfg
variable (c : Cfg)
/-- `decwide_t_elem_digits10` (decwide_t_detail.h:464-469). -/
def ed : Nat := c.L.ed
/-- `decwide_t_elem_mask` (decwide_t_detail.h:470). -/
def B : Nat := c.L.mask
/-- `decwide_t_elem_number` (decwide_t_detail.h:503-504). -/
def N : Nat := c.digits10 / c.ed + (if c.digits10 % c.ed ≠ 0 then 1 else 0) + 3
/-- `decwide_t_max_digits10` (decwide_t_detail.h:500). -/
def maxDigits10 : Nat := c.digits10 + 4
end Cfg

/-- The data members of `decwide_t` (decwide_t.h:2634-2638). -/
structure DW where
  data : List Nat
  exp : Int
  neg : Bool
  prec : Nat
  deriving DecidableEq, Repr

namespace DW
variable (c : Cfg)

/-- `from_lst` (decwide_t.h:2571-2603). -/
def fromLst (l : List Nat) (e : Int) (neg : Bool) : DW :=
  { data := l.take c.N ++ List.replicate (c.N - l.length) 0, exp := e, neg := neg, prec := c.N }

/-- `zero()` (decwide_t.h:4296-4305). -/
def zero : DW := fromLst c [0] 0 false
/-- `one()` (decwide_t.h:4311-4320). -/
def one : DW := fromLst c [1] 0 false
/-- `two()` (decwide_t.h:4322-4331). -/
def two : DW := fromLst c [2] 0 false
/-- `half()` (decwide_t.h:4333-4342). -/
def half : DW := fromLst c [c.B / 2] (-(c.ed : Int)) false
/-- Default constructor (decwide_t.h:645-650). -/
def dflt : DW := { data := List.replicate c.N 0, exp := 0, neg := false, prec := c.N }
/-- `my_value_max()` (decwide_t.h:1641). -/
def maxVal : DW := fromLst c [9] c.maxExp false
/-- `my_value_min()` (decwide_t.h:1642). -/
def minVal : DW := fromLst c [1] (-(c.maxExp : Int)) false

/-- First limb, `my_data.front()` or `my_data[0]` (decwide_t.h:2113, 4270). -/
def d0 (x : DW) : Nat := x.data.headD 0

/-- `iszero()` (decwide_t.h:2109-2114): only the first limb is inspected. -/
def isZero (x : DW) : Bool := x.d0 == 0

/-- `isneg()` (decwide_t.h:2177). -/
def isNeg (x : DW) : Bool := x.neg

/-- `negate()` (decwide_t.h:2094-2102). -/
def negate (x : DW) : DW := if x.isZero then x else { x with neg := !x.neg }

/-- `isone_sign_neutral()` (decwide_t.h:2640-2676). -/
def isOneSN (x : DW) : Bool :=
  if x.d0 == 1 && x.exp == 0 then x.data.tail.all (· == 0)
  else if x.d0 == c.B - 1 && x.exp == -(c.ed : Int) then x.data.tail.all (· == c.B - 1)
  else false

/-- `isone()` (decwide_t.h:2116-2120). -/
def isOne (x : DW) : Bool := !x.neg && isOneSN c x

/-- Unsigned constructor for types not wider than the limb (decwide_t.h:652-680). -/
def ofLimbU (u : Nat) : DW :=
  if u < c.B then { data := u :: List.replicate (c.N - 1) 0, exp := 0, neg := false, prec := c.N }
  else { data := u / c.B :: u % c.B :: List.replicate (c.N - 2) 0, exp := c.ed, neg := false, prec := c.N }

/-- The digit loop of `from_unsigned_long_long` (decwide_t.h:2703-2715): at most `i` limbs, least significant first. -/
def ullDigits (B : Nat) : (i : Nat) → (uu : Nat) → List Nat
  | 0, _ => []
  | i + 1, uu => if uu = 0 then [] else uu % B :: ullDigits B i (uu / B)

/-- `from_unsigned_long_long` (decwide_t.h:2678-2747): sets data and exponent. -/
def fromULL (u : Nat) (neg : Bool) : DW :=
  let size := 19 / c.ed + 3
  let tmp := (ullDigits c.B size u).reverse
  let i := tmp.length
  let lim := min i (min size c.N)
  { data := tmp.take lim ++ List.replicate (c.N - lim) 0,
    exp := if i > 1 then ((i - 1 : Nat) : Int) * c.ed else 0,
    neg := neg, prec := c.N }

/-- Constructor from an unsigned integer of `bits` bits (decwide_t.h:652-694). -/
def ofUnsigned (bits : Nat) (u : Nat) : DW :=
  if bits ≤ c.L.bits then ofLimbU c u else fromULL c u false

/-- `detail::negate(unsigned long long)`: two's complement negation (decwide_t_detail.h:262-273). -/
def negULL (u : Nat) : Nat := (2 ^ 64 - u % 2 ^ 64) % 2 ^ 64

/-- `static_cast<unsigned long long>` of a signed integer (decwide_t.h:702-705, decwide_t_detail.h:285). -/
def castULL (n : Int) : Nat := (n % (2 ^ 64 : Int)).toNat

/-- Constructor from a signed integer (decwide_t.h:696-714). -/
def ofSigned (n : Int) : DW :=
  let neg := decide (n < 0)
  let u := if !neg then castULL n else negULL (castULL n)
  fromULL c u neg

/-- Shift the N-limb array right by `k` limbs, filling with zeros: the `std::copy`/`std::fill` pair of
    decwide_t.h:983-989, 1001-1008, 1093-1099 and the `copy_backward`/`fill` pair 1118-1124. -/
def shr (N k : Nat) (d : List Nat) : List Nat := List.replicate k 0 ++ d.take (N - k)

/-- The carry branch of `operator+=` (decwide_t.h:1051-1077): `copy_backward` of `[0, p-1)` so that it ends at the end
    of the array, then the carry in front. -/
def carryIn (N p : Nat) (d : List Nat) (carry : Nat) : List Nat :=
  (d.take (N - (p - 1)) ++ d.take (p - 1)).set 0 carry

/-- Same-sign branch of `operator+=` (decwide_t.h:973-1078). -/
def addSame (p : Nat) (ofs : Int) (u v : DW) : DW :=
  let s := if 0 ≤ ofs then addN c.L (u.data.take p) ((shr c.N ofs.toNat v.data).take p)
           else addN c.L ((shr c.N (-ofs).toNat u.data).take p) (v.data.take p)
  let d := s.1 ++ u.data.drop p
  let e := if 0 ≤ ofs then u.exp else v.exp
  if s.2 ≠ 0 then { u with data := carryIn c.N p d s.2, exp := e + c.ed }
  else { u with data := d, exp := e }

/-- Number of leading zero limbs: the `std::find_if` of decwide_t.h:1155-1161. -/
def leadZeros : List Nat → Nat
  | [] => 0
  | x :: xs => if x = 0 then leadZeros xs + 1 else 0

/-- Justification after a subtraction (decwide_t.h:1154-1210). -/
def justify (p : Nat) (w : DW) : DW :=
  let sj := leadZeros (w.data.take p)
  let w1 :=
    if sj = 0 then w
    else if sj = (w.data.take p).length then { w with neg := false, exp := 0 }
    else { w with data := w.data.drop sj ++ List.replicate sj 0, exp := w.exp - sj * c.ed }
  if w1.data.all (· == 0) then zero c else w1

/-- Opposite-sign branch of `operator+=` (decwide_t.h:1079-1211). -/
def addOpp (p : Nat) (ofs : Int) (u v : DW) : DW :=
  let w :=
    if 0 < ofs ∨ (ofs = 0 ∧ compareRanges (u.data.take p) (v.data.take p) > 0) then
      { u with data := (subN c.L (u.data.take p) ((shr c.N ofs.toNat v.data).take p)).1 ++ u.data.drop p }
    else
      let ud := if ofs ≠ 0 then shr c.N (-ofs).toNat u.data else u.data
      { data := (subN c.L (v.data.take p) (ud.take p)).1 ++ ud.drop p, exp := v.exp, neg := v.neg, prec := u.prec }
  justify c p w

/-- `operator+=` (decwide_t.h:913-1214). -/
def addAssign (u v : DW) : DW :=
  if u.isZero then v
  else
    let p := min u.prec v.prec
    let maxDelta : Int := p * c.ed
    let ofsExp := u.exp - v.exp
    if v.isZero ∨ (0 ≤ ofsExp ∧ ofsExp ≥ maxDelta) then u
    else if ofsExp < 0 ∧ -ofsExp ≥ maxDelta then v
    else
      let q : Int := ((ofsExp.natAbs / c.ed : Nat) : Int)
      let ofs : Int := if 0 ≤ ofsExp then q else -q
      if u.neg = v.neg then addSame c p ofs u v else addOpp c p ofs u v

/-- `operator-=` (decwide_t.h:1216-1220). -/
def subAssign (u v : DW) : DW := (addAssign c u.negate v).negate

/-- `decwide_t_elems_for_kara` (decwide_t.h:542). -/
def elemsForKara : Nat := 113
/-- `decwide_t_elems_for_fft` (decwide_t.h:543). -/
def elemsForFft : Nat := 1793

/-- Pool set-up and call of the Karatsuba routine (decwide_t.h:2899-2934, 3021-3056): operands at 0 and n, result at
    2n, scratch at 4n, all zero-initialised; the value is the 2n-limb result area. -/
def karaProduct (p : Nat) (a b : List Nat) : List Nat :=
  let n := karaLen p
  let m : Mem := (Mem.store (Mem.store (fun _ => 0) 0 a) n b)
  rd (kara c.L m (2 * n) 0 n n (4 * n)) (2 * n) (2 * n)

/-- `eval_mul_dispatch_multiplication_method` (decwide_t.h:2780-3138), all three overloads: schoolbook below 113 limbs,
    Karatsuba below 1793, FFT above. -/
def mulDispatch (p : Nat) (u v : DW) : DW :=
  let a := u.data.take p
  let b := v.data.take p
  if p < elemsForFft then
    let r := if p < elemsForKara then schoolMul c.L a b else karaProduct c p a b
    if r.headD 0 ≠ 0 then { u with data := r.take p ++ u.data.drop p, exp := u.exp + c.ed }
    else { u with data := (r.drop 1).take p ++ u.data.drop p }
  else
    let r := c.fft a b
    let d := r.take p ++ u.data.drop p
    if d.headD 0 ≠ 0 then { u with data := d, exp := u.exp + c.ed }
    -- decwide_t.h:3129-3135: copies [1, 1+p) to the front (one past the end when p = N; that limb is then overwritten)
    else { u with data := ((d ++ [0]).drop 1 |>.take p) ++ d.drop p |>.set (c.N - 1) 0 }

/-- `operator*=` (decwide_t.h:1222-1308), faithful to the missing `return` after the zero case. -/
def mulAssign (u v : DW) : DW :=
  let u := if u.isZero ∨ v.isZero then zero c else u
  let rneg := u.neg != v.neg
  let u := { u with neg := false }
  let w :=
    if isOneSN c u then v
    else if isOneSN c v then u
    else
      let e := u.exp + v.exp
      if 0 ≤ e ∧ e ≥ c.maxExp then maxVal c
      else if e < 0 ∧ -e ≥ c.maxExp then minVal c
      else mulDispatch c (min u.prec v.prec) { u with exp := e } v
  { w with neg := rneg }

/-- `mul_unsigned_long_long` (decwide_t.h:1354-1422). -/
def mulULL (u : DW) (n : Nat) : DW :=
  let bneg := u.neg
  let u' := { u with neg := false }
  if u'.isZero ∨ n = 0 then zero c
  else
    let e := u.exp + orderOf n
    if 0 ≤ e ∧ e ≥ c.maxExp then (if !bneg then maxVal c else (maxVal c).negate)
    else if n ≥ c.B then mulAssign c u (ofUnsigned c 64 n)
    else if n = 1 then u
    else
      let s := mulLoop c.L n (u.data.take u.prec)
      if s.2 ≠ 0 then
        { u with data := s.2 :: (s.1.take (u.prec - 1) ++ u.data.drop u.prec), exp := u.exp + c.ed }
      else { u with data := s.1 ++ u.data.drop u.prec }

/-- `precision(prec_digits)` (decwide_t.h:1700-1722), C++ division truncating toward zero. -/
def precision (x : DW) (d : Int) : DW :=
  let need : Int := d.tdiv c.ed + (if d.tmod c.ed ≠ 0 then 1 else 0)
  { x with prec := (min (c.N : Int) (max need 2)).toNat }

/-- Body of the Newton loop of `calculate_inv` (decwide_t.h:1817-1824); `y` is `*this`. -/
def invStep (digits : Nat) (y x : DW) : DW × DW :=
  let np : Int := digits * 2 + min (c.ed + 1) 9
  let y := precision c y np
  let x := precision c x np
  (mulAssign c y (subAssign c (two c) (mulAssign c y x)), x)

/-- The Newton loop of `calculate_inv` (decwide_t.h:1798-1825). `digits` doubles each round; `digits = 0` cannot occur
    (the loop would not end) and stops the model. -/
def invLoop (limit : Nat) (digits : Nat) (y x : DW) : DW :=
  if h : digits < limit ∧ 0 < digits then
    let s := invStep c digits y x
    invLoop limit (digits * 2) s.1 s.2
  else y
termination_by limit - digits
decreasing_by omega

/-- `calculate_inv` (decwide_t.h:1752-1832). `est x` stands for `decwide_t(1/dd, -ne)` with `dd`, `ne` from
    `extract_parts` – built-in floating point – and `fdig` for `numeric_limits<internal_float_type>::digits10`. -/
def calcInv (est : DW → DW) (fdig : Nat) (x : DW) : DW :=
  if x.isZero then zero c
  else if isOneSN c x then x
  else
    let x' := { x with neg := false }
    let y := invLoop c (x.prec * c.ed) (fdig - 1) (est x') x'
    { y with neg := x.neg, prec := x.prec }

/-- `operator/=` (decwide_t.h:1310-1339). -/
def divAssign (est : DW → DW) (fdig : Nat) (u v : DW) : DW :=
  if u.exp = v.exp ∧ compareRanges u.data v.data = 0 then
    (if u.neg != v.neg then (one c).negate else one c)
  else mulAssign c u (calcInv c est fdig v)

/-- `div_unsigned_long_long` (decwide_t.h:1424-1511). -/
def divULL (est : DW → DW) (fdig : Nat) (u : DW) (n : Nat) : DW :=
  let bneg := u.neg
  if n = 0 then zero c
  else if u.isZero then { u with neg := false }
  else if n ≥ c.B then divAssign c est fdig u (ofUnsigned c 64 n)
  else
    let w : DW :=
      if n > 1 then
        let s := divLoop c.L n 0 (u.data.take u.prec)
        let d := s.1 ++ u.data.drop u.prec
        if d.headD 0 = 0 then
          -- copy [1, prec-1) to the front, then overwrite the limb prec-1
          let d' := (d.drop 1).take (u.prec - 2) ++ d.drop (u.prec - 2)
          { u with data := d'.set (u.prec - 1) ((s.2 * c.B / n) % c.L.W), exp := u.exp - c.ed, neg := false }
        else { u with data := d, neg := false }
      else { u with neg := false }
    if w.exp < -(c.maxExp : Int) then zero c else { w with neg := bneg }

/-- `add_signed_long_long` (decwide_t.h:1514-1528). -/
def addSLL (u : DW) (n : Int) : DW :=
  if n < 0 then (addAssign c u.negate (ofUnsigned c 64 (negULL (castULL n)))).negate
  else addAssign c u (ofUnsigned c 64 (castULL n))

/-- `sub_signed_long_long` (decwide_t.h:1530-1533). `-n` is undefined for the least `long long`: `none`. -/
def subSLL (u : DW) (n : Int) : Option DW :=
  if n = -(2 ^ 63 : Int) then none else some (addSLL c u (-n))

/-- `mul_signed_long_long` (decwide_t.h:1535-1546). -/
def mulSLL (u : DW) (n : Int) : DW :=
  let w := mulULL c u (if n < 0 then negULL (castULL n) else castULL n)
  if n < 0 then w.negate else w

/-- `div_signed_long_long` (decwide_t.h:1548-1559). -/
def divSLL (est : DW → DW) (fdig : Nat) (u : DW) (n : Int) : DW :=
  let w := divULL c est fdig u (if n < 0 then negULL (castULL n) else castULL n)
  if n < 0 then w.negate else w

/-- `cmp` (decwide_t.h:1561-1638). -/
def cmp (u v : DW) : Int :=
  if u.isZero then (if v.isZero then 0 else if v.neg then 1 else -1)
  else if v.isZero then (if u.neg then -1 else 1)
  else if u.neg != v.neg then (if u.neg then -1 else 1)
  else if u.exp ≠ v.exp then
    let k : Int := if u.exp < v.exp then 1 else -1
    if u.neg then k else -k
  else
    let k := compareRanges u.data v.data
    if !u.neg then k else -k

/-- `operator<` (decwide_t.h:5472). -/
def lt (u v : DW) : Bool := cmp u v < 0
/-- `operator<=` (decwide_t.h:5473). -/
def le (u v : DW) : Bool := cmp u v ≤ 0
/-- `operator==` (decwide_t.h:5474). -/
def eq (u v : DW) : Bool := cmp u v == 0
/-- `operator!=` (decwide_t.h:5475). -/
def ne (u v : DW) : Bool := cmp u v != 0
/-- `operator>=` (decwide_t.h:5476). -/
def ge (u v : DW) : Bool := cmp u v ≥ 0
/-- `operator>` (decwide_t.h:5477). -/
def gt (u v : DW) : Bool := cmp u v > 0

/-- `get_precision` (decwide_t.h:1724-1727). -/
def getPrecision (x : DW) : Nat := x.prec * c.ed

/-- `isint()` (decwide_t.h:2128-2175). -/
def isInt (x : DW) : Bool :=
  if x.exp < 0 then false
  else if x.isZero || isOneSN c x then true
  else
    let ofs := x.exp.toNat / c.ed + 1
    if ofs ≥ c.N then true else (x.data.drop ofs).all (· == 0)

/-- `extract_integer_part()` (decwide_t.h:2258-2302). -/
def integerPart (x : DW) : DW :=
  if x.exp < 0 then zero c
  else if x.exp ≥ (c.digits10 : Int) - 1 then x
  else
    let first := x.exp.toNat / c.ed + 1
    { x with data := x.data.take first ++ List.replicate (c.N - first) 0 }

/-- `fabs` (decwide_t.h:4209-4212). -/
def fabs (x : DW) : DW := if x.isNeg then x.negate else x

/-- `operator++` (decwide_t.h:2181). -/
def incr (x : DW) : DW := addAssign c x (one c)
/-- `operator--` (decwide_t.h:2182). -/
def decr (x : DW) : DW := subAssign c x (one c)

/-- `ilogb` (decwide_t.h:4263-4275). -/
def ilogb (x : DW) : Int := x.exp + ((orderOf x.d0 : Int) - 1)

/-- Digit count of the first limb in `eval_round_self` (decwide_t.h:3154-3159): 0 for 0. -/
def limbDigits (t : Nat) : Nat := if h : t = 0 then 0 else limbDigits (t / 10) + 1
termination_by t
decreasing_by omega

/-- Carry propagation of `eval_round_self` (decwide_t.h:3288-3312) through the limbs in front of the rounded one,
    given in reverse order. -/
def roundCarry (B W : Nat) : List Nat → List Nat × Nat
  | [] => ([], 1)
  | x :: xs =>
    let tt := (x + 1) % W
    if tt ≥ B then let r := roundCarry B W xs; ((tt - B) :: r.1, r.2) else (tt :: xs, 0)

/-- `eval_round_self` (decwide_t.h:3140-3331): round half up at `max_digits10` significant digits. -/
def roundSelf (x : DW) : DW :=
  if x.isZero then x
  else
    let dig1n := c.maxDigits10 - limbDigits x.d0
    let dv := dig1n / c.ed
    let dm := dig1n % c.ed
    let least := dv + (if dm ≠ 0 then 1 else 0)
    let ridx := if dm ≠ 0 then least else least + 1
    let lpos := if dm ≠ 0 then c.ed - dm else 0
    let rpos := if lpos ≠ 0 then lpos - 1 else c.ed - 1
    let rval := x.data.getD ridx 0 / pow10Runtime rpos % 10
    let p10 := pow10Runtime lpos
    let l0 := x.data.getD least 0
    let cleared := l0 - l0 % p10
    -- the limbs behind the rounded one are cleared only if there are at least two of them (decwide_t.h:3251-3259)
    let behind := if least + 1 < c.N - 1 then List.replicate (c.N - (least + 1)) 0 else x.data.drop (least + 1)
    if rval ≥ 5 then
      let up := (cleared + p10) % c.L.W
      if up ≥ c.B then
        let r := roundCarry c.B c.L.W (x.data.take least).reverse
        let d := r.1.reverse ++ [up - c.B] ++ behind
        if r.2 ≠ 0 then { x with data := r.2 :: d.take (c.N - 1), exp := x.exp + c.ed }
        else { x with data := d }
      else { x with data := x.data.take least ++ [up] ++ behind }
    else { x with data := x.data.take least ++ [cleared] ++ behind }

/-- `floor` (decwide_t.h:4219-4239). -/
def floor (x : DW) : DW :=
  let r := roundSelf c x
  if !isInt c r then
    let r := if r.isNeg then subAssign c r (one c) else r
    integerPart c r
  else r

/-- `ceil` (decwide_t.h:4241-4261). -/
def ceil (x : DW) : DW :=
  let r := roundSelf c x
  if !isInt c r then
    let r := if !r.isNeg then addAssign c r (one c) else r
    integerPart c r
  else r

/-- The digit loop of `extract_signed_long_long`/`extract_unsigned_long_long` (decwide_t.h:2463-2480, 2524-2541),
    in 64-bit arithmetic. -/
def gatherULL (B : Nat) (limbs : List Nat) : Nat :=
  limbs.foldl (fun val d => (val * B % 2 ^ 64 + d) % 2 ^ 64) 0

/-- The limbs of the integer part that are gathered: indices `0 … min(exp/ed, N-1)` (decwide_t.h:2465-2470, 2526-2531). -/
def intLimbs (x : DW) : List Nat := x.data.take (min (x.exp.toNat / c.ed) (c.N - 1) + 1)

/-- Reinterpret a 64-bit pattern as signed. -/
def asSigned (u : Nat) : Int := if u < 2 ^ 63 then (u : Int) else (u : Int) - 2 ^ 64

/-- `extract_signed_long_long` (decwide_t.h:2428-2489). -/
def toSLL (x : DW) : Int :=
  if x.exp ≥ 0 then
    if !x.isNeg && gt x (ofSigned c (2 ^ 63 - 1)) then 2 ^ 63 - 1
    else if x.isNeg && lt x (ofSigned c (-(2 ^ 63))) then -(2 ^ 63)
    else
      let xn := fabs (integerPart c (roundSelf c x))
      let val := gatherULL c.B (intLimbs c xn)
      if !x.isNeg then asSigned val else asSigned (negULL val)
  else 0

/-- `extract_unsigned_long_long` (decwide_t.h:2491-2549). -/
def toULL (x : DW) : Nat :=
  if x.isNeg then castULL (toSLL c x)
  else if x.exp ≥ 0 then
    let xn := integerPart c (roundSelf c x)
    if gt xn (ofUnsigned c 64 (2 ^ 64 - 1)) then 2 ^ 64 - 1
    else gatherULL c.B (intLimbs c xn)
  else 0

/-- `my_value_eps()` / `numeric_limits::epsilon()` (decwide_t.h:1644-1670, 5557-5583, 2605-2622). -/
def epsVal : DW :=
  let d4e := (c.digits10 / c.ed + (if c.digits10 % c.ed ≠ 0 then 1 else 0)) * c.ed
  fromLst c [pow10Maker (1 + d4e - c.digits10) % c.L.W] (-(d4e : Int)) false

/-- `numeric_limits::lowest()` (decwide_t.h:5556). -/
def lowestVal : DW := dflt c

end DW
end WD
