import Verif.Model.DW
import Verif.Spec.Float
import Mathlib.Data.Rat.Floor
/-
  Model of the floating-point parts of `decwide_t`: `extract_parts`, the private constructor from mantissa and exponent, and
  the start values of the Newton iterations. Floating-point values are rationals, every floating-point operation is the exact
  operation followed by the rounding `F.rnd` of the type (`InternalFloatType`). Constants of the code that are integers below
  2^24 times a power of two (1, 10, 10^8 …) are exact and are written without rounding.
-/
namespace WD
namespace DW
variable (c : Cfg) (F : Flt)

/-- `digit_loops` (decwide_t.h:2209-2237 and 822-848). -/
def digitLoops : ℕ := F.maxDigits10 / c.ed + (if F.maxDigits10 % c.ed ≠ 0 then 1 else 0)

/-- The loop of `extract_parts` (decwide_t.h:2241-2248). -/
def partsLoop : List ℕ → ℚ → ℚ → ℚ
  | [], mantissa, _ => mantissa
  | l :: ls, mantissa, scale =>
    partsLoop ls (F.rnd (mantissa + F.rnd (F.rnd l * scale))) (F.rnd (scale / c.B))

/-- `extract_parts` (decwide_t.h:2189-2254): mantissa and decimal exponent. -/
def extractParts (x : DW) : ℚ × ℤ :=
  let m := partsLoop c F (x.data.take (min x.data.length (digitLoops c F))) 0 (F.rnd (1 / ((orderP10 c.L.bits x.d0 : ℕ) : ℚ)))
  (if x.neg then -m else m, (orderOf x.d0 : ℤ) + x.exp)

/-- `while(d > f_ten) { d /= f_ten; ++e; }` (decwide_t.h:797); the number of rounds is bounded by the value itself, which
    shrinks by nearly a factor ten in each. -/
def scaleDown : ℕ → ℚ × ℤ → ℚ × ℤ
  | 0, s => s
  | n + 1, (d, e) => if d > 10 then scaleDown n (F.rnd (d / 10), e + 1) else (d, e)

/-- `while(d < f_one) { d *= f_ten; --e; }` (decwide_t.h:798). -/
def scaleUp : ℕ → ℚ × ℤ → ℚ × ℤ
  | 0, s => s
  | n + 1, (d, e) => if d < 1 then scaleUp n (F.rnd (d * 10), e - 1) else (d, e)

/-- The loop that makes the exponent a multiple of the limb digits (decwide_t.h:800-807); at most `ed` rounds. -/
def shiftLoop : ℕ → ℚ × ℤ → ℤ → ℚ × ℤ
  | 0, s, _ => s
  | n + 1, (d, e), shift =>
    if shift.tmod c.ed ≠ 0 then shiftLoop n (F.rnd (d * 10), e - 1) (shift - 1) else (d, e)

/-- The digit loop (decwide_t.h:854-864). -/
def mantLoop : ℕ → ℚ → List ℕ
  | 0, _ => []
  | k + 1, d =>
    let n := ⌊d⌋₊ % c.L.W
    n :: mantLoop k (F.rnd (F.rnd (d - n) * c.B))

/-- The private constructor from mantissa and exponent (decwide_t.h:766-872). `none`: the digit loop writes behind the end
    of the limb array (undefined behaviour). A mantissa below the smallest normal number counts as zero in the code; here
    only the mantissa 0 does (no smaller one occurs). -/
def ofMantExp (mantissa : ℚ) (exponent : ℤ) : Option DW :=
  if mantissa = 0 then some (dflt c)
  else
    let b := decide (mantissa < 0)
    let d := if b then -mantissa else mantissa
    let s := scaleDown F ⌈d⌉₊ (d, exponent)
    let s := scaleUp F ⌈1 / s.1⌉₊ s
    let s := shiftLoop c F c.ed s (s.2.tmod c.ed)
    if digitLoops c F ≤ c.N then
      some { data := mantLoop c F (digitLoops c F) s.1 ++ List.replicate (c.N - digitLoops c F) 0,
             exp := s.2, neg := b, prec := c.N }
    else none

/-- The start value of `calculate_inv` (decwide_t.h:1772-1792): 1/x from the floating-point parts of x. -/
def invStart (x : DW) : Option DW :=
  let (dd, ne) := extractParts c F x
  ofMantExp c F (F.rnd (1 / dd)) (-ne)

/-- The start value (decwide_t.h:1772-1792) as a total function: where the code has undefined behaviour this is zero. -/
def estInv (x : DW) : DW := (invStart c F x).getD (dflt c)

/-- The two start values of `calculate_sqrt` (decwide_t.h:1862-1896): the exponent is made even by `++ne; dd /= 10`, then
    `decwide_t(sqd, ne/2)` and `decwide_t(0.5/sqd, (-ne)/2)` with `sqd = sqrt(dd)`; `sq` is the square root of the type. -/
def sqrtStart (sq : ℚ → ℚ) (x : DW) : Option (DW × DW) :=
  let p := extractParts c F x
  let d := if p.2.tmod 2 ≠ 0 then (F.rnd (p.1 / 10), p.2 + 1) else p
  match ofMantExp c F (sq d.1) (d.2.tdiv 2), ofMantExp c F (F.rnd (1 / 2 / sq d.1)) ((-d.2).tdiv 2) with
  | some s, some v => some (s, v)
  | _, _ => none

/-- The start values (decwide_t.h:1862-1896) as a total function: where the code has undefined behaviour they are zero. -/
def estSqrt (sq : ℚ → ℚ) (x : DW) : DW × DW := (sqrtStart c F sq x).getD (dflt c, dflt c)

end DW
end WD
