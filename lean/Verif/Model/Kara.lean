import Verif.Spec
import Verif.Model.Limb
/-
  Pointer-level model of the limb routines used by the Karatsuba multiplication
  (math/wide_decimal/decwide_t_detail_ops.h). Memory is a function from addresses to limb cells;
  pointers are addresses, so that in-place operation, aliasing and buffer bounds are visible.
-/
namespace WD

/-- Store one limb (the assignments `r[j] = …` of decwide_t_detail_ops.h:69-165, 391-477). -/
def Mem.set (m : Mem) (p x : Nat) : Mem := fun q => if q = p then x else m q

/-- `eval_add_n(r, u, v, count)` at pointer level (decwide_t_detail_ops.h:69-106): `j` counts the limbs
    still to do, the limb processed next is `j-1`. -/
def addMem (L : Limb) (r u v : Nat) : (j : Nat) → Mem → (carry : Nat) → Mem × Nat
  | 0, m, c => (m, c)
  | j + 1, m, c =>
    let (x, c') := addStep L (m (u + j)) (m (v + j)) c
    addMem L r u v j (m.set (r + j) x) c'

/-- `eval_subtract_n(r, u, v, count)` at pointer level (decwide_t_detail_ops.h:108-165). -/
def subMem (L : Limb) (r u v : Nat) : (j : Nat) → Mem → (borrow : Nat) → Mem × Nat
  | 0, m, c => (m, c)
  | j + 1, m, c =>
    let (x, c') := subStep L (m (u + j)) (m (v + j)) c
    subMem L r u v j (m.set (r + j) x) c'

/-- `eval_multiply_kara_propagate_carry(t, n, carry)` (decwide_t_detail_ops.h:391-433); stops when the carry
    is consumed or the front of the range is reached (a carry out of the front would be dropped). -/
def propCarry (L : Limb) (t : Nat) : (j : Nat) → Mem → (carry : Nat) → Mem
  | 0, m, _ => m
  | j + 1, m, c =>
    if c = 0 then m
    else
      let tt := (m (t + j) + 1) % L.W
      let c' := if tt ≥ L.mask then 1 else 0
      propCarry L t j (m.set (t + j) ((tt + L.W - (if c' ≠ 0 then L.mask else 0)) % L.W)) c'

/-- `eval_multiply_kara_propagate_borrow(t, n, has_borrow)` (decwide_t_detail_ops.h:435-477). The signed limb
    difference `*ri_t - 1` is negative exactly when the cell is 0 (cells are below the radix, which is below
    the signed maximum; the signed arithmetic is modelled in `Int` and cast back modulo 2^bits). -/
def propBorrow (L : Limb) (t : Nat) : (j : Nat) → Mem → (borrow : Nat) → Mem
  | 0, m, _ => m
  | j + 1, m, c =>
    if c = 0 then m
    else
      let tt : Int := (m (t + j) : Int) - 1
      if tt < 0 then propBorrow L t j (m.set (t + j) ((tt + L.mask) % L.W).toNat) 1
      else propBorrow L t j (m.set (t + j) (tt % L.W).toNat) 0

/-- Store a list at `p` (decwide_t_detail_ops.h:551; used for `std::copy` and for the result of the schoolbook routine, whose
    destination never overlaps its sources). -/
def Mem.store (m : Mem) (p : Nat) : List Nat → Mem
  | [] => m
  | x :: xs => (m.set p x).store (p + 1) xs

/-- `eval_multiply_n_by_n_to_2n(r, a, b, n)` at pointer level (decwide_t_detail_ops.h:167-317). Simplification:
    the operands are read before the result is written (callers never overlap them). -/
def schoolMem (L : Limb) (m : Mem) (r a b n : Nat) : Mem :=
  m.store r (schoolMul L (rd m a n) (rd m b n))

/-- `eval_multiply_kara_n_by_n_to_2n(r, a, b, n, t)` (decwide_t_detail_ops.h:479-605). -/
def kara (L : Limb) (m : Mem) (r a b n t : Nat) : Mem :=
  if h : n ≤ 32 then schoolMem L m r a b n
  else
    let nh := n / 2
    let a0 := a + nh
    let a1 := a
    let b0 := b + nh
    let b1 := b
    let r0 := r
    let r1 := r + nh
    let r2 := r + n
    let t0 := t
    let t1 := t + nh
    let t2 := t + n
    let t4 := t + (n + n)
    -- Step 1
    let m1 := kara L m r0 a1 b1 nh t
    let m2 := kara L m1 r2 a0 b0 nh t
    let m3 := m2.store t0 (rd m2 r0 (n * 2))
    -- Step 2
    let s1 := addMem L r1 r1 t0 n m3 0
    let m4 := propCarry L r0 nh s1.1 s1.2
    let s2 := addMem L r1 r1 t2 n m4 0
    let m5 := propCarry L r0 nh s2.1 s2.2
    -- Step 3
    let ca := compareRanges (rd m5 a1 nh) (rd m5 a0 nh)
    let m6 := if ca = 1 then (subMem L t0 a1 a0 nh m5 0).1
              else if ca = -1 then (subMem L t0 a0 a1 nh m5 0).1 else m5
    -- Step 4
    let cb := compareRanges (rd m6 b0 nh) (rd m6 b1 nh)
    let m7 := if cb = 1 then (subMem L t1 b0 b1 nh m6 0).1
              else if cb = -1 then (subMem L t1 b1 b0 nh m6 0).1 else m6
    -- Step 5
    let m8 := kara L m7 t2 t0 t1 nh t4
    -- Step 6
    if ca * cb = 1 then
      let s3 := addMem L r1 r1 t2 n m8 0
      propCarry L r0 nh s3.1 s3.2
    else if ca * cb = -1 then
      let s3 := subMem L r1 r1 t2 n m8 0
      propBorrow L r0 nh s3.1 s3.2
    else m8
termination_by n
decreasing_by all_goals omega

end WD
