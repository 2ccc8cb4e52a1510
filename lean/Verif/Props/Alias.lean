import Verif.Proofs.Closure
/-
  C04 (compound assignment of an object to itself), C10 (what breaks the invariant), C41 (swap).
-/
namespace WD
open DW

/-- Only the object on the left-hand side changes, and operands that are different objects give the value-level result
    the other theorems speak about. -/
theorem compound_distinct_objects (c : Cfg) (est : DW → DW) (fdig : Nat) (st : Store) (a b t : Nat) (h : b ≠ a)
    (ht : t ≠ a) :
    addAt c st a b a = addAssign c (st a) (st b) ∧ subAt c st a b a = subAssign c (st a) (st b) ∧
    mulAt c st a b a = mulAssign c (st a) (st b) ∧ divAt c est fdig st a b t a = divAssign c est fdig (st a) (st b) ∧
    ∀ i, i ≠ a → addAt c st a b i = st i ∧ subAt c st a b i = st i ∧ mulAt c st a b i = st i ∧
      divAt c est fdig st a b t i = st i := by
  rw [addAt_eq c st h, subAt_eq c st h, mulAt_eq c st h, divAt_eq c est fdig st h ht]
  refine ⟨dupd_same .., dupd_same .., dupd_same .., dupd_same .., fun i hi => ?_⟩
  exact ⟨dupd_ne _ hi _, dupd_ne _ hi _, dupd_ne _ hi _, dupd_ne _ hi _⟩

/-- C04 (partial: subtraction is excluded, see `sub_self_alias_doubles`). `x += x`, `x *= x` and `x /= x` on the same
    object give exactly what they give with a copy of x on the right-hand side; `x *= x` for x ≠ 0, while for x = 0 it
    denotes zero. No other object changes. -/
theorem compound_self_alias_partial (c : Cfg) (est : DW → DW) (fdig : Nat) (st : Store) (a t : Nat) (hx : Full c (st a))
    (hok : MulOk c c.N) (hE : 0 < c.maxExp) :
    addAt c st a a = upd st a (addAssign c (st a) (st a)) ∧
    ((st a).val c ≠ 0 → mulAt c st a a = upd st a (mulAssign c (st a) (st a))) ∧
    ((st a).val c = 0 → ((mulAt c st a a) a).val c = 0) ∧
    divAt c est fdig st a a t = upd st a (divAssign c est fdig (st a) (st a)) := by
  refine ⟨addAt_self c st a, fun h => mulAt_self c st a (isZero_false_of_val hx.toWF h),
    fun h => (mulAt_self_zero c st a hok hE (hx.toWF.isZero_iff.mpr h)).1, ?_⟩
  rw [divAt_self, divAssign_self]

/-- C04 is false for subtraction. For every non-zero x, `x -= x` on one object leaves not zero but the same value as
    `x += x` (the operand changes sign together with `*this`), that is 2x up to the rounding of an addition. -/
theorem sub_self_alias_doubles (c : Cfg) (st : Store) (a : Nat) (hx : Full c (st a)) (h0 : (st a).val c ≠ 0) :
    ((subAt c st a a) a).val c = ((addAt c st a a) a).val c ∧ ((subAt c st a a) a).val c ≠ 0 ∧
    |((subAt c st a a) a).val c - 2 * (st a).val c| ≤ 2 * |(st a).val c| / 10 ^ (c.digits10 + 2 * c.ed) ∧
    (subAssign c (st a) (st a)).val c = 0 := by
  have hz := isZero_false_of_val hx.toWF h0
  have e : ((subAt c st a a) a).val c = (addAssign c (st a) (st a)).val c := by
    rw [subAt_self, dupd_same, negate_val c (addAssign_full (negate_full hx) (negate_full hx)).toWF,
      addAssign_neg hx hx, neg_neg]
  refine ⟨by rw [e, addAt_self, dupd_same], ?_, ?_, subAssign_self hx⟩
  swap
  · rw [e, two_mul, two_mul]; exact add_error c _ _ hx hx
  rw [e]
  obtain ⟨q1, q2, q3, -⟩ := addAssign_same hx hx hz hz rfl
  intro h
  have := q1.toWF.isZero_iff.mpr h
  rw [q3] at this; simp at this

/-- 12.345678 -= itself gives 24.691356. -/
example : Full exC exX ∧ (subAt exC (fun _ => exX) 3 3) 3 = { exX with data := [24, 69, 13, 56, 0] } ∧
    (subAt exC (fun _ => exX) 3 4) 3 = zero exC ∧
    (addAt exC (fun _ => exX) 3 3) 3 = { exX with data := [24, 69, 13, 56, 0] } ∧
    (mulAt exC (fun _ => exX) 3 3) 3 = { exX with data := [1, 52, 41, 57, 65], exp := 2 } := by decide +kernel

/-- C10 is false once `precision()` is used: at a precision of 4 digits (2 limbs), 1.0203 - 1.02 leaves a number whose first
    limb is zero although its limbs are not all zero, so that `iszero` answers true for a number denoting 0.0003. -/
theorem reduced_precision_breaks_invariant :
    ∃ x y : DW, Full exC x ∧ Full exC y ∧
      let r := subAssign exC (precision exC x 4) y
      ¬ WF exC r ∧ r.isZero = true ∧ r.val exC ≠ 0 := by
  refine ⟨{ data := [1, 2, 3, 0, 0], exp := 0, neg := false, prec := 5 }, { data := [1, 2, 0, 0, 0], exp := 0, neg := false, prec := 5 },
    by decide, by decide, ?_⟩
  have e : subAssign exC (precision exC { data := [1, 2, 3, 0, 0], exp := 0, neg := false, prec := 5 } 4)
      { data := [1, 2, 0, 0, 0], exp := 0, neg := false, prec := 5 } = { data := [0, 0, 3, 0, 0], exp := 0, neg := false, prec := 2 } := by
    decide +kernel
  intro r
  have hr : r = { data := [0, 0, 3, 0, 0], exp := 0, neg := false, prec := 2 } := e
  rw [hr]
  refine ⟨by decide, by decide, ?_⟩
  have h1 : exC.N = 5 := by decide
  have h2 : exC.ed = 2 := by decide
  have h3 : exC.B = 100 := by decide
  simp only [DW.val, limbsVal, h1, h2, h3]
  norm_num

/-- Addition at reduced precision is not accurate even to the requested digits: at a precision of 4 digits (2 of 5
    limbs), 99.50 + 2.25 comes out as 175.000001 instead of 101.75, because the carry branch moves the limbs to the end of
    the array. -/
theorem reduced_precision_carry_displaced :
    ∃ x y : DW, Full exC x ∧ Full exC y ∧ x.val exC + y.val exC = 101 + 75 / 100 ∧
      70 < |(addAssign exC (precision exC x 4) y).val exC - (x.val exC + y.val exC)| := by
  refine ⟨{ data := [99, 50, 0, 0, 0], exp := 0, neg := false, prec := 5 }, { data := [2, 25, 0, 0, 0], exp := 0, neg := false, prec := 5 },
    by decide, by decide, ?_⟩
  have e : addAssign exC (precision exC { data := [99, 50, 0, 0, 0], exp := 0, neg := false, prec := 5 } 4)
      { data := [2, 25, 0, 0, 0], exp := 0, neg := false, prec := 5 } = { data := [1, 75, 0, 0, 1], exp := 2, neg := false, prec := 2 } := by
    decide +kernel
  rw [e]
  have h1 : exC.N = 5 := by decide
  have h2 : exC.ed = 2 := by decide
  have h3 : exC.B = 100 := by decide
  simp only [DW.val, limbsVal, h1, h2, h3]
  refine ⟨by norm_num, ?_⟩
  rw [lt_abs]
  left
  norm_num

/-- C41. swap exchanges the complete state of two objects and touches no other; swapping an object with itself, or twice,
    changes nothing. -/
theorem swap_exchanges (st : Store) (a b : Nat) :
    swapAt st a b a = st b ∧ swapAt st a b b = st a ∧ (∀ i, i ≠ a → i ≠ b → swapAt st a b i = st i) ∧
    swapAt st a a = st ∧ swapAt (swapAt st a b) a b = st := by
  have key : ∀ st : Store, ∀ i, swapAt st a b i = if i = b then st a else if i = a then st b else st i := by
    intro st i
    unfold swapAt assignAt upd
    by_cases h : a = b
    · subst h; simp only [ne_eq, not_true, if_false]; split <;> simp_all
    · simp [h]
  refine ⟨?_, ?_, ?_, by simp [swapAt], ?_⟩
  · rw [key]; split <;> simp_all
  · rw [key]; simp
  · intro i h1 h2; rw [key]; simp [h1, h2]
  · funext i; rw [key, key, key]; by_cases h1 : i = b <;> by_cases h2 : i = a <;> simp_all

example : swapAt (fun i => if i = 0 then exX else exY) 0 1 0 = exY ∧ swapAt (fun i => if i = 0 then exX else exY) 0 1 1 = exX := by
  decide

end WD
