import Verif.Model.Alias
/-
  Threads. `operator+=`, `operator-=`, `operator*=` (schoolbook and Karatsuba sizes), `negate`, `mul_unsigned_long_long`, `div_unsigned_long_long`
  (n below the radix) and assignments as programs of single memory accesses, so that every interleaving
  of the accesses of several threads can be described. The temporary array of `+=` (decwide_t.h:970) and the product buffer of `*=` (decwide_t.h:2795, 2855, 2908) are
  arrays of this memory as well: local to the thread in the default build, shared by all threads with `WIDE_DECIMAL_DISABLE_DYNAMIC_MEMORY_ALLOCATION`
  (decwide_t.h:2625-2632).

  Simplifications: memory accesses are single steps in a total order (sequential consistency, which C++ guarantees for programs without data races; their absence is
  a theorem); `operator=(decwide_t&&)` from a temporary is written as element-wise assignment; exponents are unbounded as in `Model/DW.lean`.
-/
namespace WD
namespace Thr

/-- Memory locations: limb i of array a (the array of object o has the number o), and the members `my_exp`, `my_neg`, `my_prec_elem` of object o (decwide_t.h:2634-2638). -/
inductive Loc
  | limb (a i : Nat)
  | exp (o : Nat)
  | neg (o : Nat)
  | prec (o : Nat)
  deriving DecidableEq

/-- Contents of the memory (the members at decwide_t.h:2634-2638 of all objects, and the buffers of 970, 2795 and 2908). -/
abbrev Mem := Loc → Int

/-- One write (the assignments in decwide_t.h:913-1308). -/
def Mem.set (m : Mem) (l : Loc) (v : Int) : Mem := fun l' => if l' = l then v else m l'

/-- A program: the accesses it performs, the value read determining how it goes on (statements of decwide_t.h:913-1308). -/
inductive Prog
  | done
  | load (l : Loc) (k : Int → Prog)
  | stor (l : Loc) (v : Int) (k : Prog)

open Prog Loc

/-- A program run without interference, every access checked: reads in R, writes in W; `none` if an access lies outside. -/
def exec (R W : Loc → Bool) : Prog → Mem → Option Mem
  | done, m => some m
  | load l k, m => if R l then exec R W (k (m l)) m else none
  | stor l v k, m => if W l then exec R W k (m.set l v) else none

/-- The number of accesses of a program run without interference. -/
def steps : Prog → Mem → Nat
  | done, _ => 0
  | load l k, m => steps (k (m l)) m + 1
  | stor l v k, m => steps k (m.set l v) + 1

/-- Threads and their common memory. -/
structure Sys where
  threads : Nat → Prog
  mem : Mem

/-- Thread i performs its next access. -/
def stepT (s : Sys) (i : Nat) : Sys :=
  match s.threads i with
  | done => s
  | load l k => { s with threads := fun j => if j = i then k (s.mem l) else s.threads j }
  | stor l v k => { threads := fun j => if j = i then k else s.threads j, mem := s.mem.set l v }

/-- A schedule: the sequence of threads performing an access. -/
def runS (s : Sys) (sched : List Nat) : Sys := sched.foldl stepT s

/-- `std::copy` of n limbs, front to back (decwide_t.h:983, 1001, 1034, 1131, 1144, 1177). -/
def copyF (src s dst d : Nat) : Nat → Prog → Prog
  | 0, k => k
  | n + 1, k => load (limb src s) fun v => stor (limb dst d) v (copyF src (s + 1) dst (d + 1) n k)

/-- `std::copy_backward` of n limbs, back to front (decwide_t.h:1062-1064, 1118-1120). -/
def copyB (src s dst d : Nat) : Nat → Prog → Prog
  | 0, k => k
  | n + 1, k => load (limb src (s + n)) fun v => stor (limb dst (d + n)) v (copyB src s dst d n k)

/-- `std::fill` with zero (decwide_t.h:987, 1006, 1097, 1122, 1181). -/
def fillZ (dst d : Nat) : Nat → Prog → Prog
  | 0, k => k
  | n + 1, k => stor (limb dst d) 0 (fillZ dst (d + 1) n k)

/-- `eval_add_n` (decwide_t_detail_ops.h:69-106), limbs j-1 down to 0. -/
def addP (L : Limb) (r u v : Nat) : Nat → Nat → (Nat → Prog) → Prog
  | 0, carry, k => k carry
  | j + 1, carry, k => load (limb u j) fun a => load (limb v j) fun b =>
      stor (limb r j) ((addStep L a.toNat b.toNat carry).1 : Nat) (addP L r u v j (addStep L a.toNat b.toNat carry).2 k)

/-- `eval_subtract_n` (decwide_t_detail_ops.h:108-165), limbs j-1 down to 0. -/
def subP (L : Limb) (r u v : Nat) : Nat → Nat → (Nat → Prog) → Prog
  | 0, borrow, k => k borrow
  | j + 1, borrow, k => load (limb u j) fun a => load (limb v j) fun b =>
      stor (limb r j) ((subStep L a.toNat b.toNat borrow).1 : Nat) (subP L r u v j (subStep L a.toNat b.toNat borrow).2 k)

/-- `compare_ranges` (decwide_t_detail_ops.h:35-67) of n limbs from i on. -/
def cmpP (a b : Nat) : Nat → Nat → (Int → Prog) → Prog
  | _, 0, k => k 0
  | i, n + 1, k => load (limb a i) fun x => load (limb b i) fun y =>
      if x.toNat ≠ y.toNat then k (if x.toNat > y.toNat then 1 else -1) else cmpP a b (i + 1) n k

/-- `std::find_if` of a non-zero limb (decwide_t.h:1155-1161): the number of zeros before it among n limbs from i on. -/
def findP (a : Nat) : Nat → Nat → (Nat → Prog) → Prog
  | _, 0, k => k 0
  | i, n + 1, k => load (limb a i) fun x => if x.toNat ≠ 0 then k 0 else findP a (i + 1) n fun z => k (z + 1)

/-- `std::all_of` / `std::find_if` over n limbs from i on (decwide_t.h:1197-1202, 2651-2660, 2667-2676). -/
def allP (f : Nat → Bool) (a : Nat) : Nat → Nat → (Bool → Prog) → Prog
  | _, 0, k => k true
  | i, n + 1, k => load (limb a i) fun x => if f x.toNat then allP f a (i + 1) n k else k false

/-- Writing given limbs from i on (assignment of a constant, decwide_t.h:1204-1207, 1228-1231, 1264, 1269). -/
def storeP (a : Nat) : Nat → List Nat → Prog → Prog
  | _, [], k => k
  | i, x :: xs, k => stor (limb a i) (x : Nat) (storeP a (i + 1) xs k)

/-- Boolean members as numbers. -/
def ofB (b : Bool) : Int := if b then 1 else 0

variable (c : Cfg)

/-- Assignment of a constant object (`operator=` with a temporary, decwide_t.h:895-906; 1204-1207, 1228-1231, 1264, 1269). -/
def constP (u : Nat) (x : DW) (k : Prog) : Prog :=
  storeP u 0 x.data (stor (exp u) x.exp (stor (neg u) (ofB x.neg) (stor (prec u) x.prec k)))

/-- Copy assignment (decwide_t.h:881-893). -/
def assignP (u v : Nat) (k : Prog) : Prog :=
  if u = v then k
  else copyF v 0 u 0 c.N (load (exp v) fun e => stor (exp u) e (load (neg v) fun n => stor (neg u) n (load (prec v) fun p => stor (prec u) p k)))

/-- The carry branch of `operator+=` (decwide_t.h:1051-1077). -/
def carryP (u p carry : Nat) (k : Prog) : Prog :=
  if carry ≠ 0 then
    copyB u 0 u (c.N - (p - 1)) (p - 1) (stor (limb u 0) (carry : Nat) (load (exp u) fun e => stor (exp u) (e + c.ed) k))
  else k

/-- The end of `operator+=` after a subtraction (decwide_t.h:1154-1210). -/
def justifyP (u p : Nat) (k : Prog) : Prog :=
  let fin := allP (· == 0) u 0 c.N fun z => if z then constP u (DW.zero c) k else k
  findP u 0 p fun sj =>
    if sj = 0 then fin
    else if sj = p then stor (neg u) 0 (stor (exp u) 0 fin)
    else copyF u sj u 0 (c.N - sj) (fillZ u (c.N - sj) sj (load (exp u) fun e => stor (exp u) (e - sj * c.ed) fin))

/-- `operator+=` (decwide_t.h:913-1214) of the objects u and v with the temporary array t (`my_n_data_for_add_sub`, decwide_t.h:970 or 2631). -/
def addProg (t u v : Nat) (k : Prog) : Prog :=
  load (limb u 0) fun u0 =>
  if u0.toNat = 0 then assignP c u v k
  else load (prec u) fun pu => load (prec v) fun pv =>
    let p := min pu.toNat pv.toNat
    let maxDelta : Int := p * c.ed
    load (exp u) fun eu => load (exp v) fun ev =>
    let ofsExp := eu - ev
    load (limb v 0) fun v0 =>
    if v0.toNat = 0 ∨ (0 ≤ ofsExp ∧ ofsExp ≥ maxDelta) then k
    else if ofsExp < 0 ∧ -ofsExp ≥ maxDelta then assignP c u v k
    else
      let q : Int := ((ofsExp.natAbs / c.ed : Nat) : Int)
      let ofs : Int := if 0 ≤ ofsExp then q else -q
      load (neg u) fun nu => load (neg v) fun nv =>
      if (nu != 0) = (nv != 0) then
        if 0 ≤ ofs then
          copyF v 0 t ofs.toNat (c.N - ofs.toNat) (fillZ t 0 ofs.toNat (addP c.L u u t p 0 fun carry => carryP c u p carry k))
        else
          copyF u 0 t (-ofs).toNat (c.N - (-ofs).toNat) (fillZ t 0 (-ofs).toNat (addP c.L t t v p 0 fun carry =>
            copyF t 0 u 0 p (load (exp v) fun e => stor (exp u) e (carryP c u p carry k))))
      else
        let big := copyF v 0 t ofs.toNat (c.N - ofs.toNat) (fillZ t 0 ofs.toNat (subP c.L u u t p 0 fun _ => justifyP c u p k))
        let rest := copyF v 0 t 0 p (subP c.L t t u p 0 fun _ => copyF t 0 u 0 p (load (exp v) fun e => stor (exp u) e (load (neg v) fun n => stor (neg u) n (justifyP c u p k))))
        if 0 < ofs then big
        else if ofs = 0 then cmpP u v 0 p fun r => if r > 0 then big else rest
        else copyB u 0 u (-ofs).toNat (c.N - (-ofs).toNat) (fillZ u 0 (-ofs).toNat rest)

/-- `negate()` (decwide_t.h:2094-2102). -/
def negP (u : Nat) (k : Prog) : Prog :=
  load (limb u 0) fun u0 => if u0.toNat ≠ 0 then load (neg u) fun n => stor (neg u) (ofB (!(n != 0))) k else k

/-- `operator-=` (decwide_t.h:1216-1220). -/
def subProg (t u v : Nat) (k : Prog) : Prog := negP u (addProg c t u v (negP u k))

/-- The inner loop of the 8-bit schoolbook multiplication (decwide_t_detail_ops.h:221-232): limbs j-1 down to 0 of b, the row of a[i]. -/
def rowP (L : Limb) (r b ai i : Nat) : Nat → Nat → (Nat → Prog) → Prog
  | 0, carry, k => k carry
  | j + 1, carry, k => load (limb b j) fun bj => load (limb r (i + j + 1)) fun x =>
      let c1 := (carry + (ai * bj.toNat) % L.D) % L.D
      let c2 := (c1 + x.toNat) % L.D
      stor (limb r (i + j + 1)) ((c2 % L.mask) % L.W : Nat) (rowP L r b ai i j (c2 / L.mask) k)

/-- The outer loop (decwide_t_detail_ops.h:202-235): rows i-1 down to 0. The code reads a[i] in every round of the inner loop, here once per row. -/
def rowsP (L : Limb) (r a b n : Nat) : Nat → Prog → Prog
  | 0, k => k
  | i + 1, k => load (limb a i) fun ai => rowP L r b ai.toNat i n 0 fun carry => stor (limb r i) (carry % L.W : Nat) (rowsP L r a b n i k)

/-- The sum of a column (decwide_t_detail_ops.h:285-295, 305-310). -/
def colP (L : Limb) (a b : Nat) : List (Nat × Nat) → Nat → (Nat → Prog) → Prog
  | [], s, k => k s
  | (i, j) :: ps, s, k => load (limb a i) fun x => load (limb b j) fun y => colP L a b ps ((s + (x.toNat * y.toNat) % L.D) % L.D) k

/-- The two column loops (decwide_t_detail_ops.h:281-316): `pos` limbs of r remain to be written. -/
def colsP (L : Limb) (r a b : Nat) : List (List (Nat × Nat)) → (carry pos : Nat) → Prog → Prog
  | [], carry, pos, k => stor (limb r (pos - 1)) (carry % L.W : Nat) k
  | cl :: cs, carry, pos, k => colP L a b cl carry fun sum =>
      stor (limb r (pos - 1)) ((sum % L.mask) % L.W : Nat) (colsP L r a b cs (sum / L.mask) (pos - 1) k)

/-- `eval_multiply_n_by_n_to_2n` (decwide_t_detail_ops.h:167-317). -/
def schoolP (L : Limb) (r a b n : Nat) (k : Prog) : Prog :=
  match L with
  | .u8 => fillZ r 0 (2 * n) (rowsP .u8 r a b n n k)
  | L => colsP L r a b (columns n) 0 (2 * n) k

/-- One program after the other. -/
def Prog.seq : Prog → Prog → Prog
  | done, k => k
  | load l f, k => load l fun v => (f v).seq k
  | stor l v q, k => stor l v (q.seq k)

/-- The same program with its pointers bound to other locations. -/
def Prog.ren (f : Loc → Loc) : Prog → Prog
  | done => done
  | load l g => load (f l) fun v => (g v).ren f
  | stor l v q => stor (f l) v (q.ren f)

/-- Three pointers into the array A: the arrays 0, 1, 2 of a routine start at limbs r, a, b of A (pointer arguments, decwide_t_detail_ops.h:167-171). -/
def ptr3 (A r a b : Nat) : Loc → Loc
  | limb 0 j => limb A (r + j)
  | limb 1 j => limb A (a + j)
  | limb 2 j => limb A (b + j)
  | l => l

/-- `eval_multiply_n_by_n_to_2n` (decwide_t_detail_ops.h:167-317) called with pointers into the array A. -/
def schoolO (L : Limb) (A r a b n : Nat) (k : Prog) : Prog := ((schoolP L 0 1 2 n done).ren (ptr3 A r a b)).seq k

/-- `eval_add_n` (decwide_t_detail_ops.h:69-106) with pointers r, u, v into the array A. -/
def addO (L : Limb) (A r u v : Nat) : Nat → Nat → (Nat → Prog) → Prog
  | 0, carry, k => k carry
  | j + 1, carry, k => load (limb A (u + j)) fun a => load (limb A (v + j)) fun b =>
      stor (limb A (r + j)) ((addStep L a.toNat b.toNat carry).1 : Nat) (addO L A r u v j (addStep L a.toNat b.toNat carry).2 k)

/-- `eval_subtract_n` (decwide_t_detail_ops.h:108-165) with pointers r, u, v into the array A. -/
def subO (L : Limb) (A r u v : Nat) : Nat → Nat → (Nat → Prog) → Prog
  | 0, borrow, k => k borrow
  | j + 1, borrow, k => load (limb A (u + j)) fun a => load (limb A (v + j)) fun b =>
      stor (limb A (r + j)) ((subStep L a.toNat b.toNat borrow).1 : Nat) (subO L A r u v j (subStep L a.toNat b.toNat borrow).2 k)

/-- `compare_ranges` (decwide_t_detail_ops.h:35-67) of n limbs at a and b in the array A. -/
def cmpO (A a b : Nat) : Nat → (Int → Prog) → Prog
  | 0, k => k 0
  | n + 1, k => load (limb A a) fun x => load (limb A b) fun y =>
      if x.toNat ≠ y.toNat then k (if x.toNat > y.toNat then 1 else -1) else cmpO A (a + 1) (b + 1) n k

/-- `eval_multiply_kara_propagate_carry` (decwide_t_detail_ops.h:391-433) on the j limbs at t of the array A. -/
def propCarryO (L : Limb) (A t : Nat) : Nat → Nat → Prog → Prog
  | 0, _, k => k
  | j + 1, carry, k =>
    if carry = 0 then k
    else load (limb A (t + j)) fun x =>
      let tt := (x.toNat + 1) % L.W
      let c' := if tt ≥ L.mask then 1 else 0
      stor (limb A (t + j)) (((tt + L.W - (if c' ≠ 0 then L.mask else 0)) % L.W : Nat)) (propCarryO L A t j c' k)

/-- `eval_multiply_kara_propagate_borrow` (decwide_t_detail_ops.h:435-477) on the j limbs at t of the array A. -/
def propBorrowO (L : Limb) (A t : Nat) : Nat → Nat → Prog → Prog
  | 0, _, k => k
  | j + 1, borrow, k =>
    if borrow = 0 then k
    else load (limb A (t + j)) fun x =>
      let tt : Int := (x.toNat : Int) - 1
      if tt < 0 then stor (limb A (t + j)) ((((tt + L.mask) % L.W).toNat : Nat)) (propBorrowO L A t j 1 k)
      else stor (limb A (t + j)) (((tt % L.W).toNat : Nat)) (propBorrowO L A t j 0 k)

/-- `eval_multiply_kara_n_by_n_to_2n(r, a, b, n, t)` (decwide_t_detail_ops.h:479-605), all pointers into the array A. -/
def karaP (L : Limb) (A r a b n t : Nat) (k : Prog) : Prog :=
  if _h : n ≤ 32 then schoolO L A r a b n k
  else
    let nh := n / 2
    -- Step 1
    karaP L A r a b nh t (karaP L A (r + n) (a + nh) (b + nh) nh t (copyF A r A t (n * 2)
    -- Step 2
    (addO L A (r + nh) (r + nh) t n 0 fun c1 => propCarryO L A r nh c1 (addO L A (r + nh) (r + nh) (t + n) n 0 fun c2 => propCarryO L A r nh c2
    -- Step 3
    (cmpO A a (a + nh) nh fun ca =>
      let step4 := cmpO A (b + nh) b nh fun cb =>
        -- Step 5
        let step5 := karaP L A (t + n) t (t + nh) nh (t + (n + n))
        -- Step 6
          (if ca * cb = 1 then addO L A (r + nh) (r + nh) (t + n) n 0 fun c3 => propCarryO L A r nh c3 k
          else if ca * cb = -1 then subO L A (r + nh) (r + nh) (t + n) n 0 fun c3 => propBorrowO L A r nh c3 k
          else k)
        if cb = 1 then subO L A (t + nh) (b + nh) b nh 0 fun _ => step5
        else if cb = -1 then subO L A (t + nh) b (b + nh) nh 0 fun _ => step5
        else step5
      if ca = 1 then subO L A t a (a + nh) nh 0 fun _ => step4
      else if ca = -1 then subO L A t (a + nh) a nh 0 fun _ => step4
      else step4)))))
termination_by n
decreasing_by all_goals omega

/-- `isone_sign_neutral` (decwide_t.h:2640-2682). -/
def isOneP (x : Nat) (k : Bool → Prog) : Prog :=
  load (limb x 0) fun x0 => load (exp x) fun e =>
    if x0.toNat = 1 ∧ e = 0 then allP (· == 0) x 1 (c.N - 1) k
    else if x0.toNat = c.B - 1 ∧ e = -(c.ed : Int) then allP (· == c.B - 1) x 1 (c.N - 1) k
    else k false

/-- `eval_mul_dispatch_multiplication_method` for fewer than 1793 limbs (decwide_t.h:2781-2955), r the product buffer: schoolbook below 113 limbs, Karatsuba above. The code has one
    buffer for each of the two methods, here they are the same array. -/
def mulDispP (r u v p : Nat) (k : Prog) : Prog :=
  if p < 113 then
    schoolP c.L r u v p (load (limb r 0) fun r0 =>
      if r0.toNat ≠ 0 then load (exp u) fun e => stor (exp u) (e + c.ed) (copyF r 0 u 0 p k)
      else copyF r 1 u 0 (min p (min c.N 113)) k)
  else
    let n := karaLen p
    copyF u 0 r 0 p (copyF v 0 r n p (fillZ r p (n - p) (fillZ r (n + p) (n - p) (karaP c.L r (2 * n) 0 n n (4 * n) (load (limb r (2 * n)) fun r0 =>
      if r0.toNat ≠ 0 then load (exp u) fun e => stor (exp u) (e + c.ed) (copyF r (2 * n) u 0 p k)
      else copyF r (2 * n + 1) u 0 (min p (min c.N 1793)) k)))))

/-- `operator*=` (decwide_t.h:1222-1308) with the product buffer r. -/
def mulProg (r u v : Nat) (k : Prog) : Prog :=
  let main := load (neg u) fun nu => load (neg v) fun nv =>
    let rneg := (nu != 0) != (nv != 0)
    let fin := stor (neg u) (ofB rneg) k
    stor (neg u) 0 (isOneP c u fun o1 =>
      if o1 then assignP c u v fin
      else isOneP c v fun o2 =>
        if o2 then fin
        else load (exp u) fun eu => load (exp v) fun ev =>
          let e := eu + ev
          if 0 ≤ e ∧ e ≥ c.maxExp then constP u (DW.maxVal c) fin
          else if e < 0 ∧ -e ≥ c.maxExp then constP u (DW.minVal c) fin
          else stor (exp u) e (load (prec u) fun pu => load (prec v) fun pv => mulDispP c r u v (min pu.toNat pv.toNat) fin))
  load (limb u 0) fun u0 =>
    if u0.toNat = 0 then constP u (DW.zero c) main
    else load (limb v 0) fun v0 => if v0.toNat = 0 then constP u (DW.zero c) main else main

/-- `mul_loop_n` (decwide_t_detail_ops.h:319-354), limbs j-1 down to 0 of array u. -/
def mulLP (L : Limb) (u n : Nat) : Nat → Nat → (Nat → Prog) → Prog
  | 0, carry, k => k carry
  | j + 1, carry, k => load (limb u j) fun x =>
      stor (limb u j) ((((carry + (x.toNat * n) % L.D) % L.D) % L.mask) % L.W : Nat) (mulLP L u n j ((((carry + (x.toNat * n) % L.D) % L.D) / L.mask) % L.W) k)

/-- `div_loop_n` (decwide_t_detail_ops.h:356-389), the given number of limbs of array u from i on; `prev` is the running remainder. -/
def divLP (L : Limb) (u n : Nat) : Nat → Nat → Nat → (Nat → Prog) → Prog
  | _, 0, prev, k => k prev
  | i, j + 1, prev, k => load (limb u i) fun x =>
      stor (limb u i) ((((x.toNat + (prev * L.mask) % L.D) % L.D) / n) % L.W : Nat)
        (divLP L u n (i + 1) j ((((x.toNat + (prev * L.mask) % L.D) % L.D) % n) % L.W) k)

/-- `mul_unsigned_long_long` (decwide_t.h:1354-1422) for n below the radix (a larger n is a temporary number, decwide_t.h:1391-1396: `const` and `mul` below). -/
def mulNProg (u n : Nat) (k : Prog) : Prog :=
  load (neg u) fun nu => stor (neg u) 0 (load (limb u 0) fun u0 =>
    if u0.toNat = 0 ∨ n = 0 then constP u (DW.zero c) k
    else load (exp u) fun e =>
      if 0 ≤ e + orderOf n ∧ e + orderOf n ≥ c.maxExp then constP u (if !(nu != 0) then DW.maxVal c else (DW.maxVal c).negate) k
      else if n = 1 then stor (neg u) nu k
      else load (prec u) fun p => mulLP c.L u n p.toNat 0 fun carry =>
        if carry ≠ 0 then
          load (exp u) fun e => stor (exp u) (e + c.ed) (copyB u 0 u 1 (p.toNat - 1) (stor (limb u 0) (carry : Nat) (stor (neg u) nu k)))
        else stor (neg u) nu k)

/-- The end of `div_unsigned_long_long` (decwide_t.h:1500-1510). -/
def divNEnd (u : Nat) (nu : Int) (k : Prog) : Prog :=
  load (exp u) fun e => if e < -(c.maxExp : Int) then constP u (DW.zero c) k else stor (neg u) nu k

/-- `div_unsigned_long_long` (decwide_t.h:1424-1511) for n below the radix. -/
def divNProg (u n : Nat) (k : Prog) : Prog :=
  load (neg u) fun nu => stor (neg u) 0 (
    if n = 0 then constP u (DW.zero c) k
    else load (limb u 0) fun u0 =>
      if u0.toNat = 0 then k
      else if n > 1 then
        load (prec u) fun p => divLP c.L u n 0 p.toNat 0 fun prev => load (limb u 0) fun d0 =>
          if d0.toNat = 0 then
            load (exp u) fun e => stor (exp u) (e - c.ed) (copyF u 1 u 0 (p.toNat - 2)
              (stor (limb u (p.toNat - 1)) ((prev * c.B / n) % c.L.W : Nat) (divNEnd c u nu k)))
          else divNEnd c u nu k
      else divNEnd c u nu k)

/-- Statements of a thread: `u = v`, `u += v`, `u -= v`, `u *= v` (decwide_t.h:881, 913, 1216, 1222), `u.negate()` (2094), assignment of a constant or of a number built from a
    built-in one (895), `u *= n` and `u /= n` for an unsigned n below the radix (1354, 1424). -/
inductive Op
  | assign (u v : Nat)
  | add (u v : Nat)
  | sub (u v : Nat)
  | mul (u v : Nat)
  | negate (u : Nat)
  | const (u : Nat) (x : DW)
  | mulN (u n : Nat)
  | divN (u n : Nat)

/-- The statements of a thread one after the other (decwide_t.h:881, 895, 913, 1216, 1222, 1354, 1424, 2094), with its temporary array t and product buffer r. -/
def opsProg (t r : Nat) : List Op → Prog
  | [] => done
  | .assign u v :: l => assignP c u v (opsProg t r l)
  | .add u v :: l => addProg c t u v (opsProg t r l)
  | .sub u v :: l => subProg c t u v (opsProg t r l)
  | .mul u v :: l => mulProg c r u v (opsProg t r l)
  | .negate u :: l => negP u (opsProg t r l)
  | .const u x :: l => constP u x (opsProg t r l)
  | .mulN u n :: l => mulNProg c u n (opsProg t r l)
  | .divN u n :: l => divNProg c u n (opsProg t r l)

/-- The object o in the memory (decwide_t.h:2634-2638). -/
def obj (m : Mem) (o : Nat) : DW :=
  { data := (List.range c.N).map fun i => (m (limb o i)).toNat, exp := m (exp o), neg := m (neg o) != 0, prec := (m (prec o)).toNat }

end Thr
end WD
