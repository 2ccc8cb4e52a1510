import Verif.Proofs.Extract
import Verif.Props.Arith
import Verif.Props.Mul
/-
  C12–C16 and C42: integer parts, integer conversion, floor/ceil, ilogb and rounding.
-/
namespace WD
open DW

/-- C16. For a non-zero number, `ilogb` is the decimal order of magnitude. -/
theorem ilogb_order (c : Cfg) (x : DW) (hx : WF c x) (h0 : x.val c ≠ 0) :
    (10 : ℚ) ^ ilogb x ≤ |x.val c| ∧ |x.val c| < 10 ^ (ilogb x + 1) :=
  ilogb_spec hx (isZero_false_of_val hx h0)

example : WF exC exX ∧ ilogb exX = 1 ∧ ilogb exY = -3 := by decide +kernel

/-- C14 (partial: zeros with a negative exponent, as produced by 0·0.5, are excluded; see
    `zero_times_neg_is_negative_zero`). `isint` is true exactly for the integers. -/
theorem isint_iff_integer_partial (c : Cfg) (x : DW) (hx : WF c x) (h : x.val c ≠ 0 ∨ 0 ≤ x.exp) :
    isInt c x = true ↔ ∃ m : ℤ, x.val c = m :=
  isInt_spec hx (h.imp (isZero_false_of_val hx) id)

example : WF exC exX ∧ exX.val exC ≠ 0 ∧ isInt exC exX = false ∧ isInt exC { exX with exp := 6 } = true ∧
    isInt exC { exX with exp := 4 } = false := by
  refine ⟨by decide, ?_, by decide, by decide, by decide⟩
  intro h
  have := (show WF exC exX by decide).isZero_iff.mpr h
  exact absurd this (by decide)

/-- C13. Below the size limit 10^(digits10-1) the integer part is the truncation toward zero; an object whose exponent
    is at or above the limit is returned unchanged. The result is well formed. -/
theorem integer_part_truncates (c : Cfg) (x : DW) (hx : WF c x) :
    (|x.val c| < 10 ^ ((c.digits10 : ℤ) - 1) → (integerPart c x).val c = truncQ (x.val c)) ∧
    ((c.digits10 : ℤ) - 1 ≤ x.exp → 0 ≤ x.exp → integerPart c x = x) ∧ WF c (integerPart c x) := by
  refine ⟨fun h => ?_, fun h h0 => ?_, (integerPart_wf hx).1⟩
  · cases hz : x.isZero
    · exact integerPart_val hx (exp_lt_of_abs hx hz h)
    · by_cases hd : x.exp < (c.digits10 : ℤ) - 1
      · exact integerPart_val hx hd
      · have hv := hx.isZero_iff.mp hz
        have ht : truncQ (x.val c) = 0 := by rw [hv]; unfold truncQ; simp
        rw [ht]
        unfold integerPart
        split
        · rw [zero_val]; simp
        · rw [if_pos (by omega), hv]; simp
  · unfold integerPart; rw [if_neg (by omega), if_pos h]

example : WF exC exX ∧ integerPart exC { exX with neg := true } = { data := [12, 0, 0, 0, 0], exp := 0, neg := true, prec := 5 } := by
  decide

/-- A number with at most `max_digits10` significant digits is a multiple of the rounding unit. -/
theorem SigDigits.unit {c : Cfg} {x : DW} (hx : WF c x) (h : SigDigits c.maxDigits10 (x.val c)) :
    ∃ k : ℤ, x.val c = k * roundUnit c x := by
  cases hz : x.isZero
  · obtain ⟨k, e, hk, hv⟩ := h
    have h1 := (ilogb_spec hx hz).1
    have h2 : |x.val c| < 10 ^ ((c.maxDigits10 : ℤ) + e) := by
      rw [hv, abs_mul, abs_of_pos (p10_pos e), zpow_add₀ (by norm_num), zpow_natCast]
      apply mul_lt_mul_of_pos_right _ (p10_pos e)
      exact_mod_cast hk
    have h3 := (zpow_lt_zpow_iff_right₀ (by norm_num : (1:ℚ) < 10)).mp (lt_of_le_of_lt h1 h2)
    obtain ⟨j, hj⟩ : ∃ j : ℕ, e = (ilogb x - c.maxDigits10 + 1) + j := ⟨(e - (ilogb x - c.maxDigits10 + 1)).toNat, by omega⟩
    refine ⟨k * 10 ^ j, ?_⟩
    rw [hv, roundUnit, hj, zpow_add₀ (by norm_num), zpow_natCast]
    push_cast; ring
  · exact ⟨0, by rw [hx.isZero_iff.mp hz]; simp⟩

/-- Integers below 10^max_digits10 have at most that many digits. -/
theorem SigDigits.of_int (n : ℕ) (k : ℤ) (h : |k| < 10 ^ n) : SigDigits n k := ⟨k, 0, h, by simp⟩

/-- C42 (partial: the claim fails when the digit to keep sits in the next-to-last limb and the last limb is not zero,
    see `round_keeps_last_limb`). Rounding replaces |x| by the multiple m·u of the unit u of its max_digits10-th
    significant digit with m·u - u/2 ≤ |x| < m·u + u/2 (half up), keeps the sign and stays well formed, also when the
    carry ripples over the top. -/
theorem round_half_up_partial (c : Cfg) (x : DW) (hx : WF c x) (hg : c.ed ≤ c.digits10 + 4) (L : ℤ)
    (hL : (10 : ℚ) ^ L ≤ |x.val c| ∧ |x.val c| < 10 ^ (L + 1))
    (hlast : x.data.getLast? = some 0 ∨ leastIdx c x + 2 ≠ c.N) :
    ∃ m : ℕ, |(roundSelf c x).val c| = m * 10 ^ (L + 1 - c.maxDigits10) ∧
      m * 10 ^ (L + 1 - c.maxDigits10) - (10 : ℚ) ^ (L + 1 - (c.maxDigits10 : ℤ)) / 2 ≤ |x.val c| ∧
      |x.val c| < m * 10 ^ (L + 1 - c.maxDigits10) + (10 : ℚ) ^ (L + 1 - (c.maxDigits10 : ℤ)) / 2 ∧
      (roundSelf c x).neg = x.neg ∧ WF c (roundSelf c x) := by
  have hz : x.isZero = false := by
    apply isZero_false_of_val hx
    intro h
    rw [h, abs_zero] at hL
    exact absurd hL.1 (not_le.mpr (p10_pos L))
  have hl := ilogb_spec hx hz
  have hLe : L = ilogb x := by
    have a := (zpow_lt_zpow_iff_right₀ (by norm_num : (1:ℚ) < 10)).mp (lt_of_le_of_lt hL.1 hl.2)
    have b := (zpow_lt_zpow_iff_right₀ (by norm_num : (1:ℚ) < 10)).mp (lt_of_le_of_lt hl.1 hL.2)
    omega
  have hu : (10 : ℚ) ^ (L + 1 - (c.maxDigits10 : ℤ)) = roundUnit c x := by
    unfold roundUnit; rw [hLe]; congr 1; ring
  rw [hu]
  obtain ⟨a, -, b, -, -, m, r, e, -, -, f, g, h, -⟩ := roundSelf_val hx hz hg
  refine ⟨m, ?_, f, g, b, a⟩
  rw [e, h hlast.symm, add_zero]

/-- Without the exclusion, rounding moves the number by less than 3/2 of the unit and keeps sign and well-formedness. -/
theorem round_near (c : Cfg) (x : DW) (hx : WF c x) (h0 : x.val c ≠ 0) (hg : c.ed ≤ c.digits10 + 4) :
    |(roundSelf c x).val c - x.val c| < 3 / 2 * 10 ^ (ilogb x - c.maxDigits10 + 1) ∧
    (roundSelf c x).neg = x.neg ∧ WF c (roundSelf c x) := by
  have hz := isZero_false_of_val hx h0
  obtain ⟨a, -, b, -, -, m, r, e, r1, r2, f, g, -, -⟩ := roundSelf_val hx hz hg
  refine ⟨?_, b, a⟩
  have hd : (roundSelf c x).val c - x.val c = (if x.neg then -1 else 1) * (|(roundSelf c x).val c| - |x.val c|) := by
    rw [val_sgn c (roundSelf c x), b]
    conv_lhs => rw [val_sgn c x]
    simp only [abs_mul, abs_abs]
    cases x.neg <;> simp
    ring
  rw [hd, sgn_abs, e, _root_.abs_lt]
  have hu : (10 : ℚ) ^ (ilogb x - c.maxDigits10 + 1) = roundUnit c x := rfl
  rw [hu]
  constructor <;> linarith

/-- Numbers with at most max_digits10 significant digits are not changed by rounding. -/
theorem round_exact (c : Cfg) (x : DW) (hx : WF c x) (hg : c.ed ≤ c.digits10 + 4)
    (hs : SigDigits c.maxDigits10 (x.val c)) : (roundSelf c x).val c = x.val c :=
  (roundSelf_multiple hx hg (SigDigits.unit hx hs)).1

/-- Carry over the top: 99.99999999 rounds to 100. -/
example : roundSelf exC { exX with data := [99, 99, 99, 99, 99] } = { data := [1, 0, 0, 0, 0], exp := 2, neg := false, prec := 5 } ∧
    WF exC { exX with data := [9, 99, 99, 99, 40] } ∧
    roundSelf exC { exX with data := [9, 99, 99, 99, 46] } = { data := [9, 99, 99, 99, 50], exp := 0, neg := false, prec := 5 } := by
  decide +kernel

/-- C42 is false as stated: 12.34567855 (8-bit limbs, digits10 = 4, hence 8 significant digits) is "rounded" to
    12.34567955: the last limb is not cleared, so the result is no multiple of the unit. -/
theorem round_keeps_last_limb :
    roundSelf exC { exX with data := [12, 34, 56, 78, 55] } = { exX with data := [12, 34, 56, 79, 55] } := by decide +kernel

/-- C15 (partial: at most max_digits10 significant digits, not a zero with negative exponent, and |x|+1 below
    10^(digits10-1) unless x is an integer; each exclusion is needed, see the theorems below). floor and ceil. -/
theorem floor_ceil_exact_partial (c : Cfg) (x : DW) (hx : Full c x) (hg : c.ed ≤ c.digits10 + 4)
    (h0 : x.val c ≠ 0 ∨ 0 ≤ x.exp) (hs : SigDigits c.maxDigits10 (x.val c))
    (hb : (∃ m : ℤ, x.val c = m) ∨ |x.val c| + 1 < 10 ^ ((c.digits10 : ℤ) - 1)) :
    (floor c x).val c = (⌊x.val c⌋ : ℤ) ∧ (ceil c x).val c = (⌈x.val c⌉ : ℤ) := by
  have h := round_exact c x hx.toWF hg hs
  have := floor_spec hx hg (h0.imp (isZero_false_of_val hx.toWF) id) (by rw [h]; exact hb)
  rwa [h] at this

/-- floor and ceil of any number are the floor and ceil of the number rounded to max_digits10 digits, which is within
    3/2 units of x (C15, general form). -/
theorem floor_ceil_of_rounded (c : Cfg) (x : DW) (hx : Full c x) (hg : c.ed ≤ c.digits10 + 4) (h0 : x.val c ≠ 0)
    (hb : |(roundSelf c x).val c| + 1 < 10 ^ ((c.digits10 : ℤ) - 1)) :
    ∃ y : ℚ, |y - x.val c| < 3 / 2 * 10 ^ (ilogb x - c.maxDigits10 + 1) ∧
      (floor c x).val c = (⌊y⌋ : ℤ) ∧ (ceil c x).val c = (⌈y⌉ : ℤ) :=
  ⟨(roundSelf c x).val c, (round_near c x hx.toWF h0 hg).1,
    floor_spec hx hg (Or.inl (isZero_false_of_val hx.toWF h0)) (Or.inr hb)⟩

example : Full exC exX ∧ floor exC exX = { exX with data := [12, 0, 0, 0, 0] } ∧
    floor exC { exX with neg := true } = { exX with data := [13, 0, 0, 0, 0], neg := true } ∧
    ceil exC exX = { exX with data := [13, 0, 0, 0, 0] } ∧ ceil exC exY = zero exC := by decide +kernel

/-- C15 is false without the exclusions: the ceiling of the zero 0·0.5 is 1 and the floor of the zero 0·(-0.5) is -1. -/
theorem floor_ceil_of_computed_zero :
    ceil exC (mulAssign exC (zero exC) (half exC)) = one exC ∧
    floor exC (mulAssign exC (zero exC) (negate (half exC))) = negate (one exC) := by decide +kernel

/-- C15: floor(2.99999999 99) is 3, although the number is below 3 (rounding to max_digits10 first). -/
theorem floor_rounds_up_first :
    Full exC { exX with data := [2, 99, 99, 99, 99] } ∧
    floor exC { exX with data := [2, 99, 99, 99, 99] } = { exX with data := [3, 0, 0, 0, 0] } := by decide +kernel

/-- C15: floor(-9999.5) is -10000.5 (8-bit limbs, digits10 = 4): the fraction is not removed at or above the limit. -/
theorem floor_keeps_fraction_at_limit :
    floor exC { data := [99, 99, 50, 0, 0], exp := 2, neg := true, prec := 5 } =
      { data := [1, 0, 0, 50, 0], exp := 4, neg := true, prec := 5 } ∧
    floor exC { data := [1, 23, 45, 50, 0], exp := 4, neg := false, prec := 5 } =
      { data := [1, 23, 45, 50, 0], exp := 4, neg := false, prec := 5 } := by decide +kernel

/-- C12 (signed; partial: at least 16 digits, at most max_digits10 significant digits). The conversion to a signed
    64-bit integer truncates toward zero and saturates. -/
theorem to_signed_truncates_partial (c : Cfg) (x : DW) (hx : WF c x) (hD : 16 ≤ c.digits10)
    (hs : SigDigits c.maxDigits10 (x.val c)) :
    toSLL c x = if 2 ^ 63 - 1 < x.val c then 2 ^ 63 - 1 else if x.val c < -(2 ^ 63) then -(2 ^ 63) else truncQ (x.val c) := by
  obtain ⟨a, b⟩ := roundSelf_multiple hx (cap64 c hD).2 (SigDigits.unit hx hs)
  exact toSLL_spec hx hD a b

/-- C12 (unsigned; partial as above). -/
theorem to_unsigned_truncates_partial (c : Cfg) (x : DW) (hx : WF c x) (hD : 16 ≤ c.digits10)
    (hs : SigDigits c.maxDigits10 (x.val c)) (hn : x.isNeg = false) :
    (toULL c x : ℤ) = min ⌊x.val c⌋ (2 ^ 64 - 1) := by
  obtain ⟨a, b⟩ := roundSelf_multiple hx (cap64 c hD).2 (SigDigits.unit hx hs)
  exact toULL_spec hx hD hn a b

/-- C12 (round trip). With at least 16 decimal digits every signed and unsigned 64-bit integer survives the round
    trip. -/
theorem int_round_trip (c : Cfg) (hD : 16 ≤ c.digits10) :
    (∀ n : ℤ, -(2 ^ 63) ≤ n → n < 2 ^ 63 → toSLL c (ofSigned c n) = n) ∧
    (∀ n : ℕ, n < 2 ^ 64 → toULL c (ofUnsigned c 64 n) = n) := by
  obtain ⟨hcap, hg⟩ := cap64 c hD
  have hmd : (2 : ℤ) ^ 64 < 10 ^ c.maxDigits10 := by
    have : (10 : ℤ) ^ 20 ≤ 10 ^ c.maxDigits10 := pow_le_pow_right₀ (by norm_num) (by unfold Cfg.maxDigits10; omega)
    exact lt_of_lt_of_le (by norm_num) this
  constructor
  · intro n h1 h2
    obtain ⟨a, b, -, -⟩ := ofSigned_spec c n h1 h2
    have hv := b (lt_of_lt_of_le (by omega) hcap)
    have hab : |n| < 10 ^ c.maxDigits10 := lt_trans (abs_lt.mpr ⟨by omega, by omega⟩) hmd
    rw [to_signed_truncates_partial c _ a.toWF hD (by rw [hv]; exact SigDigits.of_int _ _ hab), hv]
    rw [if_neg, if_neg]
    · unfold truncQ; split <;> simp
    · rw [not_lt]; exact_mod_cast h1
    · rw [not_lt]
      have : n ≤ 2 ^ 63 - 1 := by omega
      exact_mod_cast this
  · intro n h1
    rw [ofUnsigned64]
    obtain ⟨a, -, -, d, -, f⟩ := fromULL_spec c n h1 false
    have hv : (fromULL c n false).val c = n := by rw [WF.val_of_pos (c := c) d, f (lt_of_lt_of_le h1 hcap)]
    have hab : |(n : ℤ)| < 10 ^ c.maxDigits10 := lt_trans (abs_lt.mpr ⟨by omega, by omega⟩) hmd
    have := to_unsigned_truncates_partial c _ a.toWF hD
      (by rw [hv]; exact_mod_cast SigDigits.of_int _ (n : ℤ) hab) d
    rw [hv, Int.floor_natCast, min_eq_left (by omega)] at this
    exact_mod_cast this

/-- A configuration with 32-bit limbs and 10 digits (5 limbs, 40 digits of storage). -/
def exC10 : Cfg := { L := .u32, digits10 := 10, maxExp := 2 ^ 59 }

/-- C12 is false for small digit counts although the storage suffices: with digits10 = 10 the largest signed integer is
    rounded up to 9223372036854800000 and wraps to a negative number. -/
theorem int_round_trip_wraps :
    (ofSigned exC10 (2 ^ 63 - 1)).val exC10 = 2 ^ 63 - 1 ∧ toSLL exC10 (ofSigned exC10 (2 ^ 63 - 1)) = -9223372036854751616 := by
  refine ⟨?_, by decide +kernel⟩
  rw [(ofSigned_spec exC10 (2 ^ 63 - 1) (by norm_num) (by norm_num)).2.1 (by decide)]; norm_num

example : toSLL { exC with digits10 := 20 } { data := [1, 23, 45, 67] ++ List.replicate 9 0, exp := 4, neg := true, prec := 13 } = -12345 := by
  decide +kernel

end WD
