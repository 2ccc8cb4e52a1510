import Verif.Proofs.Div
import Verif.Props.Mul
/-
  C09: division by a built-in unsigned integer below the radix.
-/
namespace WD
open DW

/-- C09 (partial: n must be below the radix; larger n go through the general division, see `Verif/Props/Inv.lean`).
    The quotient is well formed, has the sign of x, and its relative error is below 10^(-digits10). If moreover the
    exponent does not change (the first limb of x is at least n) it is the exact quotient truncated at the last limb.
    The exponent must not drop below the documented range. `est`/`fdig` (the floating-point start of the general
    division) are not used for such n. -/
theorem div_unsigned_partial (c : Cfg) (est : DW → DW) (fdig : ℕ) (x : DW) (hx : Full c x) (hx0 : x.val c ≠ 0) (n : ℕ)
    (h0 : 0 < n) (hn : n < c.B) (he : -(c.maxExp : ℤ) ≤ x.exp - c.ed) :
    let r := divULL c est fdig x n
    Full c r ∧ (r.val c < 0 ↔ x.val c < 0) ∧
    |r.val c - x.val c / n| < |r.val c| * 10 ^ (-(c.digits10 : ℤ)) ∧
    (r.exp = x.exp → |r.val c| ≤ |x.val c / n| ∧ |x.val c / n| < |r.val c| + r.ulp c) := by
  intro r
  have hxz := isZero_false_of_val hx.toWF hx0
  obtain ⟨q1, q2, q3, q4, q5, q6⟩ := divULL_small (est := est) (fdig := fdig) hx hxz h0 hn he
  change Full c r at q1; change r.isZero = false at q2; change r.neg = x.neg at q3
  have hnq : (0 : ℚ) < n := by exact_mod_cast h0
  have habs : |x.val c / n| = |x.val c| / n := by rw [abs_div, abs_of_pos hnq]
  have hrp := q1.toWF.abs_pos q2
  have hxp := hx.toWF.abs_pos hxz
  have hdiff : |r.val c - x.val c / n| = |(|r.val c| - |x.val c| / n)| := by
    rcases Bool.dichotomy x.neg with h | h
    · rw [WF.val_of_pos (c := c) (x := r) (q3.trans h), WF.val_of_pos (c := c) (x := x) h, abs_abs, abs_abs]
    · rw [WF.val_of_neg (c := c) (x := r) (q3.trans h), WF.val_of_neg (c := c) (x := x) h, abs_neg, abs_neg, abs_abs, abs_abs,
        ← abs_neg]
      congr 1; ring
  refine ⟨q1, ?_, ?_, fun h => by rw [habs]; exact q5 h⟩
  · rcases Bool.dichotomy x.neg with h | h
    · rw [WF.val_of_pos (c := c) (x := r) (q3.trans h), WF.val_of_pos (c := c) (x := x) h]
      constructor <;> intro _ <;> linarith
    · rw [WF.val_of_neg (c := c) (x := r) (q3.trans h), WF.val_of_neg (c := c) (x := x) h]
      constructor <;> intro _ <;> linarith
  · rw [hdiff]
    refine lt_of_lt_of_le q4 ?_
    have h1 := q1.toWF.abs_ge q2
    have h2 := c.digits_le
    have h3 := c.three_le_N
    have e : r.ulp c * (c.B : ℚ) ^ 2 = 10 ^ (r.lexp c + (c.ed : ℤ) * (2 : ℕ)) := by rw [ulp_eq]; exact c.p10_mul_B _ 2
    rw [e]
    calc (10 : ℚ) ^ (r.lexp c + (c.ed : ℤ) * (2 : ℕ)) ≤ 10 ^ (r.exp + -(c.digits10 : ℤ)) := by
          apply zpow_le_zpow_right₀ (by norm_num)
          unfold lexp
          have : ((c.digits10 : ℤ)) + 2 * c.ed ≤ c.ed * ((c.N : ℤ) - 1) := by
            have := (Int.ofNat_le.mpr h2)
            push_cast [Nat.cast_sub (show 1 ≤ c.N by omega)] at this
            exact this
          push_cast
          linarith
      _ = 10 ^ r.exp * 10 ^ (-(c.digits10 : ℤ)) := zpow_add₀ (by norm_num) _ _
      _ ≤ _ := mul_le_mul_of_nonneg_right h1 (p10_pos _).le

/-- 12.345678 / 7 (8-bit limbs): the exact quotient 1.76366828… -/
example : Full exC exX ∧ divULL exC id 15 exX 7 = { data := [1, 76, 36, 68, 28], exp := 0, neg := false, prec := 5 } := by decide

/-- C09, special divisors: dividing by 1 is the identity and by 0 gives zero; zero divided by a non-zero integer is zero. -/
theorem div_unsigned_special (c : Cfg) (est : DW → DW) (fdig : ℕ) (x : DW) (hx : Full c x) :
    (x.val c ≠ 0 → -(c.maxExp : ℤ) ≤ x.exp → divULL c est fdig x 1 = x) ∧
    divULL c est fdig x 0 = zero c ∧
    (∀ n, 0 < n → x.val c = 0 → (divULL c est fdig x n).val c = 0 ∧ (divULL c est fdig x n).isNeg = false) := by
  refine ⟨fun h0 he => ?_, by simp [divULL], fun n hn h0 => ?_⟩
  · have hxz := isZero_false_of_val hx.toWF h0
    have := c.one_lt_B
    unfold divULL
    simp only [hxz]
    simp [show ¬ c.B ≤ 1 by omega, show ¬ x.exp < -(c.maxExp : ℤ) by omega]
  · have hz := hx.toWF.isZero_iff.mpr h0
    have e : divULL c est fdig x n = { x with neg := false } := by
      unfold divULL
      simp only [hz]
      simp [show n ≠ 0 by omega]
    rw [e]
    refine ⟨?_, rfl⟩
    have := setNeg_abs c x false
    rw [h0, abs_zero] at this
    exact abs_eq_zero.mp this

/-- C09: "exact when the quotient fits" is false. 1.00000002 / 2 (8-bit limbs, 5 limbs) is 0.50000001, which is
    representable, but the code returns 0.5: when the first quotient limb is zero the copy stops one limb early. -/
theorem div_unsigned_not_exact :
    ∃ x z : DW, Full exC x ∧ Full exC z ∧ z.val exC = x.val exC / 2 ∧
      ∀ est fdig, divULL exC est fdig x 2 = { data := [50, 0, 0, 0, 0], exp := -2, neg := false, prec := 5 } ∧
        (divULL exC est fdig x 2).val exC ≠ x.val exC / 2 := by
  refine ⟨{ data := [1, 0, 0, 0, 2], exp := 0, neg := false, prec := 5 },
    { data := [50, 0, 0, 1, 0], exp := -2, neg := false, prec := 5 }, by decide, by decide, ?_, fun est fdig => ?_⟩
  · have h1 : exC.N = 5 := by decide
    have h2 : exC.ed = 2 := by decide
    have h3 : exC.B = 100 := by decide
    simp only [DW.val, limbsVal, h1, h2, h3]
    norm_num
  · have e : divULL exC est fdig { data := [1, 0, 0, 0, 2], exp := 0, neg := false, prec := 5 } 2 =
        { data := [50, 0, 0, 0, 0], exp := -2, neg := false, prec := 5 } := by
      have h3 : exC.B = 100 := by decide
      simp only [divULL, h3]
      rw [if_neg (by decide), if_neg (by decide), if_neg (by decide)]
      decide
    refine ⟨e, ?_⟩
    rw [e]
    have h1 : exC.N = 5 := by decide
    have h2 : exC.ed = 2 := by decide
    have h3 : exC.B = 100 := by decide
    simp only [DW.val, limbsVal, h1, h2, h3]
    norm_num

end WD
