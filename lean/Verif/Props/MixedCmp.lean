import Verif.Model.MixedCmp
import Verif.Props.FloatConv
import Verif.Props.Mul
import Verif.Props.Arith
/-
  C64: comparing a number with a built-in integer or floating-point number.
-/
namespace WD
open DW

/-- `cmp` against an operand of known value. -/
theorem sgnHolds_rel (c : Cfg) (o : CmpOp) (x y : DW) (hx : WF c x) (hy : WF c y) :
    sgnHolds o (cmp x y) = true ↔ o.rel (x.val c) (y.val c) := by
  obtain ⟨h1, h2, h3, h4, h5, h6⟩ := ordering_matches_value c x y hx hy
  cases o
  · exact h1
  · exact h2
  · exact h3
  · exact h4
  · exact h5
  · exact h6

/-- C64 (integers; partial: the integer must fit into the internal digits, which it does from 16 digits on; see
    `compare_int_wrong`). For every well-formed x, every operator and every 64-bit integer n, on either side of the operator, the
    answer is that of the comparison of the numbers. -/
theorem compare_int_partial (c : Cfg) (o : CmpOp) (x : DW) (hx : WF c x) (n : ℤ) (h1 : -(2 ^ 63) ≤ n) (h2 : n < 2 ^ 63)
    (hcap : 16 ≤ c.digits10 ∨ n.natAbs < 10 ^ (c.ed * c.N)) :
    (cmpLS c o x n = true ↔ o.rel (x.val c) n) ∧ (cmpRS c o n x = true ↔ o.rel n (x.val c)) := by
  obtain ⟨a, b, -, -⟩ := of_signed_exact c n h1 h2
  have hv : (ofSigned c n).val c = n := b (hcap.elim (fun h => int_capacity c h _ (by omega)) id)
  unfold cmpLS cmpRS
  rw [sgnHolds_rel c o _ _ hx a.toWF, sgnHolds_rel c o _ _ a.toWF hx, hv]
  exact ⟨Iff.rfl, Iff.rfl⟩

/-- C64 (unsigned integers of any width up to 64 bits, so also `bool` and `char` types; partial as above). -/
theorem compare_uint_partial (c : Cfg) (o : CmpOp) (x : DW) (hx : WF c x) (bits n : ℕ) (hb : bits ≤ 64) (hn : n < 2 ^ bits)
    (hcap : 16 ≤ c.digits10 ∨ n < 10 ^ (c.ed * c.N)) :
    (cmpLU c bits o x n = true ↔ o.rel (x.val c) n) ∧ (cmpRU c bits o n x = true ↔ o.rel n (x.val c)) := by
  obtain ⟨a, b, -, -⟩ := of_unsigned_exact c bits n hb hn
  have h64 : n < 2 ^ 64 := lt_of_lt_of_le hn (Nat.pow_le_pow_right (by norm_num) hb)
  have hv : (ofUnsigned c bits n).val c = n := b (hcap.elim (fun h => int_capacity c h _ h64) id)
  unfold cmpLU cmpRU
  rw [sgnHolds_rel c o _ _ hx a.toWF, sgnHolds_rel c o _ _ a.toWF hx, hv]
  exact ⟨Iff.rfl, Iff.rfl⟩

/-- C64 (floating-point numbers; partial: where the conversion is exact, see C43 and `compare_float_wrong`). -/
theorem compare_float_partial (c : Cfg) (est : DW → DW) (fdig p : ℕ) (minN : ℚ) (o : CmpOp) (x : DW) (hx : WF c x) (m : ℕ) (k : ℤ)
    (b : Bool)
    (hp : 0 < p) (hp64 : p ≤ 64) (hn : NormalF p minN m k) (hok : MulOk c c.N) (hE : 2 * c.ed + 1 ≤ c.maxExp)
    (hcap : m < 10 ^ (c.ed * c.N)) (hm : (m : ℚ) < 10 ^ ((c.maxExp : ℤ) - 1)) (hhi : m * (2 : ℚ) ^ k ≤ 10 ^ ((c.maxExp : ℤ) - 1))
    (hlo : (10 : ℚ) ^ (-(c.maxExp : ℤ) + 2 * c.ed + 1) ≤ (2 : ℚ) ^ k)
    (hpow : (if k < 0 then 5 else 2) ^ k.natAbs < 10 ^ (c.digits10 + 2 * c.ed + 1))
    (hsig : SigDigits (c.digits10 + 2 * c.ed + 1) (m * (2 : ℚ) ^ k))
    (hdiv : k = -1 ∨ k = -2 → m < 10 ^ c.digits10) :
    let f : ℚ := (if b then -1 else 1) * (m * (2 : ℚ) ^ k)
    (cmpLF c est fdig p minN o x f = true ↔ o.rel (x.val c) f) ∧ (cmpRF c est fdig p minN o f x = true ↔ o.rel f (x.val c)) := by
  intro f
  obtain ⟨a, hv, -⟩ := float_exact_partial c est fdig p minN m k b hp hp64 hn hok hE hcap hm hhi hlo hpow hsig hdiv
  unfold cmpLF cmpRF
  rw [sgnHolds_rel c o _ _ hx a.toWF, sgnHolds_rel c o _ _ a.toWF hx, hv]
  exact ⟨Iff.rfl, Iff.rfl⟩

/-- C64 (order of the operands): `n op x` is `x op' n` for every well-formed x and every 64-bit integer, also for one that does not
    fit; exactly one of <, ==, > holds. -/
theorem compare_int_mirror (c : Cfg) (o : CmpOp) (x : DW) (hx : WF c x) (n : ℤ) (h1 : -(2 ^ 63) ≤ n) (h2 : n < 2 ^ 63) :
    cmpRS c o n x = cmpLS c o.mirror x n ∧
    ((cmpLS c .lt x n = true ∧ cmpLS c .eq x n = false ∧ cmpLS c .gt x n = false) ∨
     (cmpLS c .lt x n = false ∧ cmpLS c .eq x n = true ∧ cmpLS c .gt x n = false) ∨
     (cmpLS c .lt x n = false ∧ cmpLS c .eq x n = false ∧ cmpLS c .gt x n = true)) := by
  obtain ⟨a, -, -, -⟩ := of_signed_exact c n h1 h2
  have key : ∀ o, (cmpLS c o x n = true ↔ o.rel (x.val c) ((ofSigned c n).val c)) := fun o => sgnHolds_rel c o _ _ hx a.toWF
  have key2 : (cmpRS c o n x = true ↔ o.rel ((ofSigned c n).val c) (x.val c)) := sgnHolds_rel c o _ _ a.toWF hx
  constructor
  · rw [Bool.eq_iff_iff, key2, key]
    cases o <;> simp [CmpOp.rel, CmpOp.mirror, eq_comm]
  · simp only [← Bool.not_eq_true, key, CmpOp.rel]
    rcases lt_trichotomy (x.val c) ((ofSigned c n).val c) with h | h | h
    · exact Or.inl ⟨h, h.ne, by simp; exact h.le⟩
    · exact Or.inr (Or.inl ⟨by simp [h], h, by simp [h]⟩)
    · exact Or.inr (Or.inr ⟨by simp; exact h.le, h.ne', h⟩)

/-- C64 (finding F61). With few digits two different integers are the same in comparisons: in `decwide_t<4>` with 8-bit limbs
    12345678901 == 12345678902 when one of them was converted before. -/
theorem compare_int_wrong :
    let c : Cfg := { L := .u8, digits10 := 4, maxExp := 64 }
    WF c (ofSigned c 12345678901) ∧ cmpLS c .eq (ofSigned c 12345678901) 12345678902 = true ∧
    cmpLS c .lt (ofSigned c 12345678901) 12345678902 = false := by
  refine ⟨(of_signed_exact _ _ (by norm_num) (by norm_num)).1.toWF, by decide +kernel, by decide +kernel⟩

/-- C64 (finding F37 seen by comparisons). In `decwide_t<10>` with 32-bit limbs the constant one is not equal to 1.0. -/
theorem compare_float_wrong (est : DW → DW) (fdig : ℕ) :
    (one exC10).val exC10 = 1 ∧ cmpLF exC10 est fdig 53 ((2 : ℚ) ^ (-1022 : ℤ)) .eq (one exC10) 1 = false ∧
    cmpRF exC10 est fdig 53 ((2 : ℚ) ^ (-1022 : ℤ)) .lt 1 (one exC10) = true := by
  have hr := float_one_limbs est fdig
  refine ⟨one_val _, ?_, ?_⟩
  · unfold cmpLF; rw [hr]; decide +kernel
  · unfold cmpRF; rw [hr]; decide +kernel

/-- The hypotheses of `compare_int_partial` hold for x = 1 and n = -3, in `decwide_t<20>` with 32-bit limbs. -/
example : let c : Cfg := { L := .u32, digits10 := 20, maxExp := 2 ^ 59 }
    16 ≤ c.digits10 ∧ cmpLS c .gt (one c) (-3) = true ∧ cmpRS c .ge (-3) (one c) = false ∧ cmpLU c 64 .le (one c) 1 = true := by
  refine ⟨by decide, by decide +kernel, by decide +kernel, by decide +kernel⟩

end WD
