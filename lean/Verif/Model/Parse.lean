import Verif.Model.DW
/-
  Model of reading from a character string: `rd_string` and its helper (decwide_t.h:3334-3729).

  A string is a list of characters. `find` + `erase(pos, 1)` is `List.erase`, `std::find_if(c != '0')` is
  `dropWhile (· == '0')`.  Simplifications: `std::strtoll` and `std::strtoul` are modelled without leading white space,
  `strtoul` also without sign (no valid decimal text gets there with either), and the narrowing of the exponent to
  `exponent_type` is dropped (exponents are unbounded in the model).
-/
namespace WD
namespace DW
variable (c : Cfg)

/-- `str.insert(i, 1, ch)` (decwide_t.h:3516, 3587, 3611). -/
def insertAt (i : Nat) (ch : Char) (l : List Char) : List Char := l.take i ++ ch :: l.drop i

/-- Digits of `std::strtoul(…, 10)`: the longest prefix of digits. -/
def strtoul (l : List Char) : Nat := (l.takeWhile Char.isDigit).foldl (fun a ch => 10 * a + (ch.toNat - 48)) 0

/-- `std::strtoll(…, 10)`: optional sign, digits, clamped to the range of `long long`. -/
def strtoll (l : List Char) : Int :=
  let v : Int :=
    match l with
    | '-' :: r => -(strtoul r : Int)
    | '+' :: r => strtoul r
    | r => strtoul r
  max (-(2 ^ 63)) (min v (2 ^ 63 - 1))

/-- `pos_of_e_func` and the removal of the exponent part (decwide_t.h:3334-3355, 3364-3381): the text in front of the
    first 'e' – or, if there is none, of the first 'E' – and the exponent. -/
def splitExp (s : List Char) : List Char × Int :=
  let at_ (ch : Char) : List Char × Int := (s.takeWhile (· != ch), strtoll ((s.dropWhile (· != ch)).drop 1))
  if s.contains 'e' then at_ 'e' else if s.contains 'E' then at_ 'E' else (s, 0)

/-- Removal of trailing zeros (decwide_t.h:3439-3463). -/
def stripTrailing (s : List Char) : List Char := (s.reverse.dropWhile (· == '0')).reverse

/-- The part of `rd_string` that deals with a possible decimal point (decwide_t.h:3433-3533). `none` means that the text
    is identically zero. -/
def normPoint (s : List Char) (e : Int) : Option (List Char × Int) :=
  if s.contains '.' then
    let s := stripTrailing s
    if s = ['.'] then none
    else if s.head? = some '.' then
      let rest := s.drop 1
      let delta := (rest.takeWhile (· == '0')).length
      some (insertAt 1 '.' (rest.dropWhile (· == '0')), e - (delta + 1))
    else some (s, e)
  else some (s ++ ['.'], e)

/-- The shift making the exponent a multiple of the limb digits (decwide_t.h:3535-3592). -/
def shiftPoint (s : List Char) (e : Int) : List Char × Int :=
  let m := e.tmod c.ed
  let nShift : Nat := if m ≠ 0 then (if e < 0 then m + c.ed else m).toNat else 0
  let pos := s.idxOf '.'
  let s := if s.length - (pos + 1) < nShift then s ++ List.replicate (nShift - (s.length - (pos + 1))) '0' else s
  if nShift ≠ 0 then ((insertAt (pos + 1 + nShift) '.' s).eraseIdx pos, e - nShift) else (s, e)

/-- Reduction of the part before the point to at most one limb (decwide_t.h:3594-3624). -/
def reduceMant (s : List Char) (e : Int) : List Char × Int :=
  let pos := s.idxOf '.'
  if pos > c.ed then
    let n := pos / c.ed - (if pos % c.ed = 0 then 1 else 0)
    ((insertAt (pos - n * c.ed) '.' s).eraseIdx (pos + 1), e + n * c.ed)
  else (s, e)

/-- Padding and truncation of the part behind the point (decwide_t.h:3626-3653). -/
def padTrunc (s : List Char) : List Char :=
  let pos := s.idxOf '.'
  let rem := (s.length - 1 - pos) % c.ed
  let s := s ++ List.replicate (if rem ≠ 0 then c.ed - rem else 0) '0'
  let maxDec := (c.N - 1) * c.ed
  if s.length - pos > maxDec then s.take (pos + 1 + maxDec) else s

/-- The limb loop (decwide_t.h:3682-3726): `k` limbs of `ed` digits each. -/
def limbLoop (ed : Nat) : Nat → List Char → List Nat
  | 0, _ => []
  | k + 1, l => strtoul (l.take ed) :: limbLoop ed k (l.drop ed)

/-- Extraction of the limbs (decwide_t.h:3658-3726). -/
def extractLimbs (s : List Char) : List Nat :=
  let pos := s.idxOf '.'
  let l := strtoul (s.take pos) :: limbLoop c.ed ((s.length - (pos + 1)) / c.ed) (s.drop (pos + 1))
  l ++ List.replicate (c.N - l.length) 0

/-- `rd_string` (decwide_t.h:3357-3729); `prec` is the precision the object has before. -/
def rdString (prec : Nat) (s : List Char) : DW :=
  let (s, e) := splitExp s
  let neg := s.contains '-'
  let s := if s.contains '-' then s.erase '-' else s
  let s := if s.contains '+' then s.erase '+' else s
  let t := s.dropWhile (· == '0')
  if t.length ≠ s.length ∧ t = [] then zero c
  else
    match normPoint t e with
    | none => zero c
    | some (s, e) =>
      let (s, e) := shiftPoint c s e
      let (s, e) := reduceMant c s e
      let s := padTrunc c s
      { data := extractLimbs c s, exp := e, neg := neg, prec := prec }

/-- Constructor from a character string (decwide_t.h:730-738). -/
def ofString (s : List Char) : DW := rdString c c.N s

end DW
end WD
