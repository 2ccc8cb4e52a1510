/-
  Model of the limb primitives in math/wide_decimal/decwide_t_detail_ops.h.

  Limb arrays are big-endian lists of naturals.  A C++ loop running from the last index down to the
  first is a right-to-left structural recursion.  Every `static_cast` to the limb or double-limb type
  is an explicit reduction modulo 2^bits.
-/
namespace WD

/-- The three limb types the library supports.
    decwide_t_detail.h:456-490 (`decwide_t_helper_base`). -/
inductive Limb | u8 | u16 | u32
  deriving DecidableEq, Repr

namespace Limb
/-- Width in bits of the limb type (decwide_t_detail.h:456-463). -/
def bits : Limb → Nat | u8 => 8 | u16 => 16 | u32 => 32
/-- Width in bits of `local_double_limb_type` (decwide_t_detail_ops.h:256-261). -/
def dbits : Limb → Nat | u8 => 16 | u16 => 32 | u32 => 64
/-- `decwide_t_helper_base<LimbType>::elem_digits10` (decwide_t_detail.h:464-469; 2, 4, 8). -/
def ed : Limb → Nat | u8 => 2 | u16 => 4 | u32 => 8
/-- `elem_mask = 10^elem_digits10` (decwide_t_detail.h:470): the radix. -/
def mask (L : Limb) : Nat := 10 ^ L.ed
/-- Number of values of the limb type (the casts to `limb_type`, e.g. decwide_t_detail_ops.h:91-97). -/
def W (L : Limb) : Nat := 2 ^ L.bits
/-- Number of values of the double-limb type (decwide_t_detail_ops.h:256-261, 319-354). -/
def D (L : Limb) : Nat := 2 ^ L.dbits
end Limb

/-- `compare_ranges` (decwide_t_detail_ops.h:35-67): walk both ranges from the front, stop at the first
    difference. The third argument `count` is the common length of the two lists. -/
def compareRanges : List Nat → List Nat → Int
  | a :: as, b :: bs => if a ≠ b then (if a > b then 1 else -1) else compareRanges as bs
  | _, _ => 0

/-- One step of `eval_add_n` (decwide_t_detail_ops.h:88-100): limb-typed sum of `u[j]`, `v[j]` and carry. -/
def addStep (L : Limb) (u v carry : Nat) : Nat × Nat :=
  let t := ((u + v) % L.W + carry) % L.W
  let carry' := if t ≥ L.mask then 1 else 0
  ((t + L.W - (if carry' ≠ 0 then L.mask else 0)) % L.W, carry')

/-- `eval_add_n` (decwide_t_detail_ops.h:69-106) on lists, with the carry into the last limb as a
    parameter (the code starts with 0). Returns the result limbs and the carry out. -/
def addC (L : Limb) (cin : Nat) : List Nat → List Nat → List Nat × Nat
  | a :: as, b :: bs =>
    let (r, c) := addC L cin as bs
    let (x, c') := addStep L a b c
    (x :: r, c')
  | _, _ => ([], cin)

/-- `eval_add_n` as called, without a carry in (decwide_t_detail_ops.h:69-106). -/
def addN (L : Limb) (u v : List Nat) : List Nat × Nat := addC L 0 u v

/-- One step of `eval_subtract_n` (decwide_t_detail_ops.h:128-159). The C++ computes
    `u[j] + (~vjb + 1)` in the limb type and reinterprets it as signed; a negative value is the borrow. -/
def subStep (L : Limb) (u v borrow : Nat) : Nat × Nat :=
  let vjb := (v + borrow) % L.W
  let neg := ((L.W - 1 - vjb) + 1) % L.W
  let t   := (u + neg) % L.W
  -- `t < 0` as signed: the top bit is set
  if t ≥ L.W / 2 then ((t + L.mask) % L.W, 1) else (t, 0)

/-- `eval_subtract_n` (decwide_t_detail_ops.h:108-165), with the initial borrow as a parameter (0 in the code). -/
def subC (L : Limb) (bin : Nat) : List Nat → List Nat → List Nat × Nat
  | a :: as, b :: bs =>
    let (r, c) := subC L bin as bs
    let (x, c') := subStep L a b c
    (x :: r, c')
  | _, _ => ([], bin)

/-- `eval_subtract_n` as called, without a borrow in (decwide_t_detail_ops.h:108-165). -/
def subN (L : Limb) (u v : List Nat) : List Nat × Nat := subC L 0 u v

/-- `mul_loop_n` (decwide_t_detail_ops.h:319-354). Returns the limbs and the carry (a limb). -/
def mulLoop (L : Limb) (n : Nat) : List Nat → List Nat × Nat
  | u :: us =>
    let (r, c) := mulLoop L n us
    let t := (c + (u * n) % L.D) % L.D
    ((t % L.mask) % L.W :: r, (t / L.mask) % L.W)
  | [] => ([], 0)

/-- `div_loop_n` (decwide_t_detail_ops.h:356-389), `prev` is the running remainder (0 initially). -/
def divLoop (L : Limb) (n : Nat) : (prev : Nat) → List Nat → List Nat × Nat
  | prev, u :: us =>
    let t := (u + (prev * L.mask) % L.D) % L.D
    let (r, p) := divLoop L n ((t % n) % L.W) us
    ((t / n) % L.W :: r, p)
  | prev, [] => ([], prev)

/-- Inner loop of the 8-bit schoolbook multiply (decwide_t_detail_ops.h:221-232) for one `a[i]`:
    `rs` are the cells `r[i+1 .. i+count]`, `bs` is `b`. Returns the new cells and the final carry. -/
def rowLoop (L : Limb) (ai : Nat) : List Nat → List Nat → List Nat × Nat
  | r :: rs, b :: bs =>
    let (out, c) := rowLoop L ai rs bs
    let c1 := (c + (ai * b) % L.D) % L.D
    let c2 := (c1 + r) % L.D
    ((c2 % L.mask) % L.W :: out, c2 / L.mask)
  | _, _ => ([], 0)

/-- `eval_multiply_n_by_n_to_2n` for 8-bit limbs (decwide_t_detail_ops.h:167-236). The outer loop over `i` from
    `count-1` down to 0 is the recursion on `a`; the value is the part `r[i .. 2*count)` after round `i`
    (cells before `i` still hold the zero fill). -/
def mulRows (L : Limb) (b : List Nat) : List Nat → List Nat
  | [] => List.replicate b.length 0
  | ai :: as =>
    let r := mulRows L b as
    let (out, c) := rowLoop L ai (r.take b.length) b
    (c % L.W) :: (out ++ r.drop b.length)

/-- Inner sum of the column loops for 16/32-bit limbs (decwide_t_detail_ops.h:285-295, 305-310):
    `sum += (double_limb)(x) * y`, accumulated modulo the double limb, over the index pairs of a column. -/
def colSum (L : Limb) (a b : List Nat) : List (Nat × Nat) → Nat → Nat
  | [], s => s
  | (i, j) :: ps, s =>
    colSum L a b ps ((s + (a.getD i 0 * b.getD j 0) % L.D) % L.D)

/-- Index pairs visited for `j` in the first (low order) loop: `i` from `count-1` down to `j`,
    pairing `a[i]` with `b[count-1-(i-j)]` (decwide_t_detail_ops.h:281-299). -/
def lowPairs (n j : Nat) : List (Nat × Nat) :=
  (List.range (n - j)).map fun k => (n - 1 - k, (n - 1) - ((n - 1 - k) - j))

/-- Index pairs visited for `j` in the second (high order) loop: `i` from `j` down to 0,
    pairing `a[j-i]` with `b[i]` (decwide_t_detail_ops.h:301-314). -/
def highPairs (j : Nat) : List (Nat × Nat) :=
  (List.range (j + 1)).map fun k => (j - (j - k), j - k)

/-- Sequence of columns, least significant first: `j = count-1 … 1` of the first loop, then
    `j = count-1 … 0` of the second loop (decwide_t_detail_ops.h:281-314). -/
def columns (n : Nat) : List (List (Nat × Nat)) :=
  ((List.range (n - 1)).map fun k => lowPairs n (n - 1 - k)) ++
  ((List.range n).map fun k => highPairs (n - 1 - k))

/-- The two column loops with the running carry; limbs are emitted through a reverse iterator, i.e. they are
    pushed in front of what has been written so far. `*ir = carry` at the end (decwide_t_detail_ops.h:316). -/
def colLoop (L : Limb) (a b : List Nat) : List (List (Nat × Nat)) → (carry : Nat) → (acc : List Nat) → List Nat
  | [], carry, acc => (carry % L.W) :: acc
  | c :: cs, carry, acc =>
    let sum := colSum L a b c carry
    colLoop L a b cs (sum / L.mask) ((sum % L.mask) % L.W :: acc)

/-- `eval_multiply_n_by_n_to_2n`, both overloads (decwide_t_detail_ops.h:167-317). -/
def schoolMul (L : Limb) (a b : List Nat) : List Nat :=
  match L with
  | .u8 => mulRows .u8 b a
  | L   => colLoop L a b (columns a.length) 0 []

end WD
