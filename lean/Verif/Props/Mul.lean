import Verif.Proofs.Mul3
import Verif.Props.Arith
/-
  C05 – C08, C11: multiplication and construction from built-in integers.
-/
namespace WD
open DW

theorem isZero_false_of_val {c : Cfg} {x : DW} (hx : WF c x) (h : x.val c ≠ 0) : x.isZero = false := by
  cases hh : x.isZero
  · rfl
  · exact absurd (hx.isZero_iff.mp hh) h

theorem abs_mul_sign {c : Cfg} {r x y : DW} (hs : r.neg = (x.neg != y.neg)) :
    r.val c - x.val c * y.val c = (if r.neg then -1 else 1) * (|r.val c| - |x.val c| * |y.val c|) := by
  rw [val_sgn c r, val_sgn c x, val_sgn c y, hs]
  simp only [abs_mul, abs_abs]
  cases x.neg <;> cases y.neg <;> simp <;> ring

theorem sgn_abs (b : Bool) (q : ℚ) : |(if b then (-1 : ℚ) else 1) * q| = |q| := by
  cases b <;> simp

/-- C05 (error, all operands). The product of two non-zero full-precision numbers with exponents in range has the sign of
    the exact product and differs from it by less than one unit in the last internal limb of the result. -/
theorem mul_error (c : Cfg) (x y : DW) (hx : Full c x) (hy : Full c y) (hx0 : x.val c ≠ 0) (hy0 : y.val c ≠ 0)
    (hok : MulOk c c.N) (hlo : -(c.maxExp : ℤ) < x.exp + y.exp) (hhi : x.exp + y.exp < c.maxExp) :
    |(mulAssign c x y).val c - x.val c * y.val c| < (mulAssign c x y).ulp c ∧
    ((mulAssign c x y).isNeg = true ↔ x.val c * y.val c < 0) ∧ Full c (mulAssign c x y) ∧
    (mulAssign c x y).val c ≠ 0 := by
  have hxz := isZero_false_of_val hx.toWF hx0
  have hyz := isZero_false_of_val hy.toWF hy0
  obtain ⟨q1, q2, q3, -, q5⟩ := mulAssign_full hx hy hxz hyz hok hlo hhi
  have hup := (mulAssign c x y).ulp_pos c
  refine ⟨?_, ?_, q1, ?_⟩
  · rw [abs_mul_sign q3, sgn_abs, abs_lt]
    rcases q5 with ⟨a, b⟩ | ⟨-, a, b⟩ <;> constructor <;> linarith
  · unfold isNeg; rw [q3, val_sgn c x, val_sgn c y]
    have h1 := hx.toWF.abs_pos hxz
    have h2 := hy.toWF.abs_pos hyz
    have h3 := mul_pos h1 h2
    cases x.neg <;> cases y.neg <;> simp [abs_mul, abs_abs] <;> first | exact ⟨hx0, hy0⟩ | nlinarith
  · intro h; have := q1.toWF.isZero_iff.mpr h; rw [q2] at this; simp at this

/-- C05 (relative error): at most 10^-(digits10 + 2·limb digits) of the result. -/
theorem mul_relative_error (c : Cfg) (x y : DW) (hx : Full c x) (hy : Full c y) (hx0 : x.val c ≠ 0) (hy0 : y.val c ≠ 0)
    (hok : MulOk c c.N) (hlo : -(c.maxExp : ℤ) < x.exp + y.exp) (hhi : x.exp + y.exp < c.maxExp) :
    |(mulAssign c x y).val c - x.val c * y.val c| < |(mulAssign c x y).val c| / 10 ^ (c.digits10 + 2 * c.ed) := by
  obtain ⟨h1, -, h3, h4⟩ := mul_error c x y hx hy hx0 hy0 hok hlo hhi
  have := Full.ulp_le h3.toWF (isZero_false_of_val h3.toWF h4)
  rw [lt_div_iff₀ (by positivity)]
  exact lt_of_lt_of_le (mul_lt_mul_of_pos_right h1 (by positivity)) this

/-- C05 (truncation and exactness; partial: operands equal to the largest number below one are excluded, see
    `mul_nines_not_truncated`). The magnitude of the product is the exact one truncated in the last limb, and exact if the
    product is representable at all. -/
theorem mul_truncated_partial (c : Cfg) (x y : DW) (hx : Full c x) (hy : Full c y) (hx0 : x.val c ≠ 0) (hy0 : y.val c ≠ 0)
    (hok : MulOk c c.N) (hlo : -(c.maxExp : ℤ) < x.exp + y.exp) (hhi : x.exp + y.exp < c.maxExp)
    (hxn : |x.val c| ≠ 1 - 10 ^ (-((c.ed : ℤ) * c.N))) (hyn : |y.val c| ≠ 1 - 10 ^ (-((c.ed : ℤ) * c.N))) :
    |(mulAssign c x y).val c| ≤ |x.val c * y.val c| ∧
    |x.val c * y.val c| < |(mulAssign c x y).val c| + (mulAssign c x y).ulp c ∧
    (∀ z, WF c z → z.val c = x.val c * y.val c → (mulAssign c x y).val c = x.val c * y.val c) := by
  have hxz := isZero_false_of_val hx.toWF hx0
  have hyz := isZero_false_of_val hy.toWF hy0
  obtain ⟨q1, q2, q3, -, q5⟩ := mulAssign_full hx hy hxz hyz hok hlo hhi
  rw [abs_mul]
  rcases q5 with ⟨a, b⟩ | ⟨h, -, -⟩
  · refine ⟨a, b, fun z hz hv => ?_⟩
    have hzabs : |z.val c| = |x.val c| * |y.val c| := by rw [hv, abs_mul]
    have := trunc_exact q1.toWF hz q2 (by rw [hzabs]; exact a) (by rw [hzabs]; exact b)
    have h0 := abs_mul_sign (c := c) q3
    rw [this, hzabs, sub_self, mul_zero] at h0
    linarith
  · rcases h with ⟨h, -⟩ | ⟨h, -⟩
    · exact absurd h hxn
    · exact absurd h hyn

example : Full exC exX ∧ Full exC exY ∧ MulOk exC exC.N ∧
    mulAssign exC exX exY = { data := [12, 34, 56, 65, 65], exp := -2, neg := true, prec := 5 } := by decide +kernel

/-- The exclusion in `mul_truncated_partial` is needed: 100 · 0.9999999999 (8-bit limbs, 5 limbs) gives 100 although the
    exact product 99.99999999 is representable. -/
theorem mul_nines_not_truncated :
    ∃ x y z : DW, Full exC x ∧ Full exC y ∧ WF exC z ∧ z.val exC = x.val exC * y.val exC ∧
      (mulAssign exC x y).val exC ≠ x.val exC * y.val exC := by
  refine ⟨{ data := [1, 0, 0, 0, 0], exp := 2, neg := false, prec := 5 },
    { data := [99, 99, 99, 99, 99], exp := -2, neg := false, prec := 5 },
    { data := [99, 99, 99, 99, 99], exp := 0, neg := false, prec := 5 }, by decide, by decide, by decide, ?_, ?_⟩
  · have h1 : exC.N = 5 := by decide
    have h2 : exC.ed = 2 := by decide
    have h3 : exC.B = 100 := by decide
    simp only [DW.val, limbsVal, h1, h2, h3]
    norm_num
  · have e : mulAssign exC { data := [1, 0, 0, 0, 0], exp := 2, neg := false, prec := 5 }
      { data := [99, 99, 99, 99, 99], exp := -2, neg := false, prec := 5 } =
      { data := [1, 0, 0, 0, 0], exp := 2, neg := false, prec := 5 } := by decide +kernel
    rw [e]
    have h1 : exC.N = 5 := by decide
    have h2 : exC.ed = 2 := by decide
    have h3 : exC.B = 100 := by decide
    simp only [DW.val, limbsVal, h1, h2, h3]
    norm_num

/-- C06 (partial: the exponent of y must be in range and only the value is claimed; the negations below show why).
    Zero times y and y times zero denote zero. -/
theorem mul_zero_value_partial (c : Cfg) (x y : DW) (hx : Full c x) (hy : Full c y) (hz : x.val c = 0 ∨ y.val c = 0)
    (hok : MulOk c c.N) (hlo : -(c.maxExp : ℤ) < y.exp) (hhi : y.exp < c.maxExp) :
    (mulAssign c x y).val c = 0 ∧ Full c (mulAssign c x y) :=
  mulAssign_zero hx hy (hz.elim (fun h => Or.inl (hx.toWF.isZero_iff.mpr h)) (fun h => Or.inr (hy.toWF.isZero_iff.mpr h)))
    hok hlo hhi

/-- C06 is false as stated: zero times the largest number is the largest number, and zero times the smallest positive
    number is that number (the zero case of `operator*=` does not return). -/
theorem zero_times_max_is_max :
    mulAssign exC (zero exC) (maxVal exC) = maxVal exC ∧ mulAssign exC (zero exC) (minVal exC) = minVal exC ∧
    (maxVal exC).val exC ≠ 0 := by
  refine ⟨by decide +kernel, by decide +kernel, ?_⟩
  rw [maxVal_val]; positivity

/-- C06 and C17: 0 · (-1) is a zero with the negative flag, and 0 · 0.5 is a zero that `isint` does not recognise. -/
theorem zero_times_neg_is_negative_zero :
    (mulAssign exC (zero exC) (negate (one exC))).isNeg = true ∧
    (mulAssign exC (zero exC) (negate (one exC))).isZero = true ∧
    isInt exC (mulAssign exC (zero exC) (half exC)) = false := by decide +kernel

example : Full exC (zero exC) ∧ Full exC exX ∧ MulOk exC exC.N ∧ mulAssign exC exX (zero exC) = zero exC := by decide +kernel

/-- C07 (overflow). When the exponents add up to the maximal exponent or more – in particular whenever
    |x·y| ≥ 10^(maxExp + 2·limb digits) – the product is the largest number with the sign of the product. -/
theorem mul_overflow_saturates (c : Cfg) (x y : DW) (hx : WF c x) (hy : WF c y) (hx0 : x.val c ≠ 0) (hy0 : y.val c ≠ 0)
    (h1 : |x.val c| ≠ 1) (h2 : |y.val c| ≠ 1) (h1' : |x.val c| ≠ 1 - 10 ^ (-((c.ed : ℤ) * c.N)))
    (h2' : |y.val c| ≠ 1 - 10 ^ (-((c.ed : ℤ) * c.N))) (hE : 0 < c.maxExp)
    (hbig : (c.maxExp : ℤ) ≤ x.exp + y.exp ∨ (10 : ℚ) ^ ((c.maxExp : ℤ) + 2 * c.ed) ≤ |x.val c * y.val c|) :
    (mulAssign c x y).val c = (if x.val c * y.val c < 0 then -1 else 1) * (9 * 10 ^ c.maxExp) := by
  have hxz := isZero_false_of_val hx hx0
  have hyz := isZero_false_of_val hy hy0
  have o1 : isOneSN c x = false := by
    cases h : isOneSN c x
    · rfl
    · rcases isOneSN_spec hx h with ⟨a, -⟩ | ⟨a, -⟩
      · exact absurd a h1
      · exact absurd a h1'
  have o2 : isOneSN c y = false := by
    cases h : isOneSN c y
    · rfl
    · rcases isOneSN_spec hy h with ⟨a, -⟩ | ⟨a, -⟩
      · exact absurd a h2
      · exact absurd a h2'
  have he : (c.maxExp : ℤ) ≤ x.exp + y.exp := by
    rcases hbig with h | h
    · exact h
    · rw [abs_mul] at h
      have a := hx.abs_lt
      have b := hy.abs_lt
      have : (10 : ℚ) ^ ((c.maxExp : ℤ) + 2 * c.ed) < 10 ^ (x.exp + c.ed) * 10 ^ (y.exp + c.ed) :=
        lt_of_le_of_lt h (mul_lt_mul'' a b (abs_nonneg _) (abs_nonneg _))
      rw [← zpow_add₀ (by norm_num)] at this
      have := (zpow_lt_zpow_iff_right₀ (by norm_num : (1:ℚ) < 10)).mp this
      omega
  rw [mulAssign_over hxz hyz o1 o2 hE he, val_sgn, setNeg_abs c (maxVal c) (x.neg != y.neg), maxVal_val,
    abs_of_pos (by positivity)]
  congr 1
  have p1 := hx.abs_pos hxz
  have p2 := hy.abs_pos hyz
  have p3 := mul_pos p1 p2
  rw [val_sgn c x, val_sgn c y]
  cases x.neg <;> cases y.neg <;> simp [abs_mul, abs_abs, hx0, hy0] <;> intro h <;> nlinarith

/-- C07 (underflow). When the exponents add up to minus the maximal exponent or less – in particular whenever
    |x·y| < 10^(1 - maxExp) – the product is ±min(). -/
theorem mul_underflow_saturates (c : Cfg) (x y : DW) (hx : WF c x) (hy : WF c y) (hx0 : x.val c ≠ 0) (hy0 : y.val c ≠ 0)
    (h1 : |x.val c| ≠ 1) (h2 : |y.val c| ≠ 1) (h1' : |x.val c| ≠ 1 - 10 ^ (-((c.ed : ℤ) * c.N)))
    (h2' : |y.val c| ≠ 1 - 10 ^ (-((c.ed : ℤ) * c.N))) (hE : 0 < c.maxExp)
    (hsmall : x.exp + y.exp ≤ -(c.maxExp : ℤ) ∨ |x.val c * y.val c| < (10 : ℚ) ^ (1 - (c.maxExp : ℤ))) :
    (mulAssign c x y).val c = (if x.val c * y.val c < 0 then -1 else 1) * 10 ^ (-(c.maxExp : ℤ)) := by
  have hxz := isZero_false_of_val hx hx0
  have hyz := isZero_false_of_val hy hy0
  have o1 : isOneSN c x = false := by
    cases h : isOneSN c x
    · rfl
    · rcases isOneSN_spec hx h with ⟨a, -⟩ | ⟨a, -⟩
      · exact absurd a h1
      · exact absurd a h1'
  have o2 : isOneSN c y = false := by
    cases h : isOneSN c y
    · rfl
    · rcases isOneSN_spec hy h with ⟨a, -⟩ | ⟨a, -⟩
      · exact absurd a h2
      · exact absurd a h2'
  have he : x.exp + y.exp ≤ -(c.maxExp : ℤ) := by
    rcases hsmall with h | h
    · exact h
    · rw [abs_mul] at h
      have a := hx.abs_ge hxz
      have b := hy.abs_ge hyz
      have : (10 : ℚ) ^ x.exp * 10 ^ y.exp < (10 : ℚ) ^ (1 - (c.maxExp : ℤ)) :=
        lt_of_le_of_lt (mul_le_mul a b (p10_pos _).le (abs_nonneg _)) h
      rw [← zpow_add₀ (by norm_num)] at this
      have := (zpow_lt_zpow_iff_right₀ (by norm_num : (1:ℚ) < 10)).mp this
      omega
  rw [mulAssign_under hxz hyz o1 o2 hE he, val_sgn, setNeg_abs c (minVal c) (x.neg != y.neg), minVal_val,
    abs_of_pos (p10_pos _)]
  congr 1
  have p1 := hx.abs_pos hxz
  have p2 := hy.abs_pos hyz
  have p3 := mul_pos p1 p2
  rw [val_sgn c x, val_sgn c y]
  cases x.neg <;> cases y.neg <;> simp [abs_mul, abs_abs, hx0, hy0] <;> intro h <;> nlinarith

/-- Non-vacuity: (2·10^40)·(-3·10^30) overflows the int8_t configuration. -/
example : mulAssign exC { data := [2, 0, 0, 0, 0], exp := 40, neg := false, prec := 5 }
    { data := [3, 0, 0, 0, 0], exp := 30, neg := true, prec := 5 } = { maxVal exC with neg := true } ∧
    mulAssign exC { data := [2, 0, 0, 0, 0], exp := -40, neg := false, prec := 5 }
    { data := [3, 0, 0, 0, 0], exp := -30, neg := true, prec := 5 } = { minVal exC with neg := true } := by decide +kernel

/-- C08 (error, all x and n within capacity). x·n differs from the exact product by less than one unit in the last limb
    of the result and has the sign of x; x·0 = 0 and x·1 = x. -/
theorem mul_unsigned_error (c : Cfg) (x : DW) (hx : Full c x) (n : Nat) (hn : n < 2 ^ 64) (hcap : n < c.B ^ c.N)
    (hok : MulOk c c.N) (hlo : -(c.maxExp : ℤ) < x.exp) (hhi : x.exp + orderOf n < c.maxExp) :
    |(mulULL c x n).val c - x.val c * n| < (mulULL c x n).ulp c ∧ Full c (mulULL c x n) ∧
    (x.val c * n ≠ 0 → (mulULL c x n).neg = x.neg) ∧ (n = 0 → mulULL c x n = zero c) ∧
    (n = 1 → (mulULL c x n).val c = x.val c) := by
  have hz0 : (x.isZero = true ∨ n = 0) → mulULL c x n = zero c := by
    intro h
    unfold mulULL
    have : (({ x with neg := false } : DW).isZero = true ∨ n = 0) := h
    simp [this]
  cases hxz : x.isZero
  · rcases Nat.eq_zero_or_pos n with h0 | h0
    · rw [hz0 (Or.inr h0), zero_val, h0]
      refine ⟨by simpa using DW.ulp_pos c _, zero_WF c, by simp, fun _ => rfl, by simp⟩
    · obtain ⟨q1, q2, q3, q4⟩ := mulULL_spec hx hxz h0 hn hcap hok hlo hhi
      have hup := (mulULL c x n).ulp_pos c
      have hd : (mulULL c x n).val c - x.val c * n = (if x.neg then -1 else 1) * (|(mulULL c x n).val c| - |x.val c| * n) := by
        rw [val_sgn c (mulULL c x n), q3]
        conv_lhs => rw [val_sgn c x]
        simp only [abs_mul, abs_abs]
        cases x.neg <;> simp
        ring
      refine ⟨?_, q1, fun _ => q3, fun h => by omega, fun h => ?_⟩
      · rw [hd, sgn_abs, abs_lt]
        rcases q4 with ⟨a, b⟩ | ⟨-, -, a, b⟩ <;> constructor <;> linarith
      · subst h
        have hB := c.one_lt_B
        have hz' : ({ x with neg := false } : DW).isZero = false := hxz
        unfold mulULL
        simp only [hz', Bool.false_eq_true, false_or]
        rw [if_neg (by omega), if_neg (by omega), if_neg (by omega)]; simp
  · rw [hz0 (Or.inl hxz), zero_val, hx.toWF.isZero_iff.mp hxz]
    refine ⟨by simpa using DW.ulp_pos c _, zero_WF c, by simp, fun _ => rfl, by simp⟩

/-- C08 (truncation and exactness; partial: x the largest number below one together with n ≥ radix is excluded, where
    the result is rounded up instead). -/
theorem mul_unsigned_truncated_partial (c : Cfg) (x : DW) (hx : Full c x) (hx0 : x.val c ≠ 0) (n : Nat) (h0 : 0 < n)
    (hn : n < 2 ^ 64) (hcap : n < c.B ^ c.N) (hok : MulOk c c.N) (hlo : -(c.maxExp : ℤ) < x.exp)
    (hhi : x.exp + orderOf n < c.maxExp) (hnine : n < c.B ∨ |x.val c| ≠ 1 - 10 ^ (-((c.ed : ℤ) * c.N))) :
    |(mulULL c x n).val c| ≤ |x.val c * n| ∧ |x.val c * n| < |(mulULL c x n).val c| + (mulULL c x n).ulp c ∧
    (∀ z, WF c z → z.val c = x.val c * n → (mulULL c x n).val c = x.val c * n) := by
  have hxz := isZero_false_of_val hx.toWF hx0
  obtain ⟨q1, q2, q3, q4⟩ := mulULL_spec hx hxz h0 hn hcap hok hlo hhi
  have habs : |x.val c * n| = |x.val c| * n := by rw [abs_mul, abs_of_nonneg (show (0:ℚ) ≤ (n:ℚ) by positivity)]
  rw [habs]
  rcases q4 with ⟨a, b⟩ | ⟨h, hB, -, -⟩
  · refine ⟨a, b, fun z hz hv => ?_⟩
    have hzabs : |z.val c| = |x.val c| * n := by rw [hv, habs]
    have := trunc_exact q1.toWF hz q2 (by rw [hzabs]; exact a) (by rw [hzabs]; exact b)
    rw [val_sgn c (mulULL c x n), q3, this, hzabs]
    conv_rhs => rw [val_sgn c x]
    ring
  · rcases hnine with h' | h'
    · omega
    · exact absurd h h'

/-- C08 (overflow): x·n with decimal exponent beyond the range is ±max(). -/
theorem mul_unsigned_overflow (c : Cfg) (x : DW) (hx : WF c x) (hx0 : x.val c ≠ 0) (n : Nat) (h0 : 0 < n)
    (h : (c.maxExp : ℤ) ≤ x.exp + orderOf n) :
    (mulULL c x n).val c = (if x.val c < 0 then -1 else 1) * (9 * 10 ^ c.maxExp) := by
  have hxz := isZero_false_of_val hx hx0
  unfold mulULL
  have hz' : ({ x with neg := false } : DW).isZero = false := hxz
  simp only [hz', Bool.false_eq_true, false_or]
  rw [if_neg (by omega), if_pos (by omega)]
  have p1 := hx.abs_pos hxz
  have hmz : (maxVal c).isZero = false := by
    unfold maxVal isZero d0 fromLst
    have h3 := c.three_le_N
    obtain ⟨m, hm⟩ : ∃ m, c.N = m + 1 := ⟨c.N - 1, by omega⟩
    rw [hm]; simp
  have hvx := val_sgn c x
  cases hn : x.neg
  · rw [hn] at hvx
    have : ¬ x.val c < 0 := by rw [hvx]; simp
    rw [if_neg this]
    simp [maxVal_val]
  · rw [hn] at hvx
    have h' : x.val c < 0 := by rw [hvx]; simp; exact hx0
    rw [if_pos h']
    simp only [Bool.not_true, Bool.false_eq_true, if_false]
    have : (maxVal c).negate = { maxVal c with neg := true } := by
      unfold negate; rw [hmz]; rfl
    rw [this, val_sgn, setNeg_abs c (maxVal c) true, maxVal_val, abs_of_pos (by positivity)]
    simp

example : Full exC exX ∧ mulULL exC exX 77 = { data := [9, 50, 61, 72, 6], exp := 2, neg := false, prec := 5 } ∧
    mulULL exC exX 12345 = { data := [15, 24, 7, 39, 49], exp := 4, neg := false, prec := 5 } := by decide +kernel

/-- C11 (unsigned). Construction from an unsigned integer of any width up to 64 bits denotes it exactly when the object
    has capacity for its digits, and its truncation in the last limb otherwise. -/
theorem of_unsigned_exact (c : Cfg) (bits n : Nat) (hb : bits ≤ 64) (hn : n < 2 ^ bits) :
    Full c (ofUnsigned c bits n) ∧ (n < 10 ^ (c.ed * c.N) → (ofUnsigned c bits n).val c = n) ∧
    |(ofUnsigned c bits n).val c| ≤ n ∧ (n : ℚ) < |(ofUnsigned c bits n).val c| + (ofUnsigned c bits n).ulp c := by
  unfold ofUnsigned
  split
  · next h =>
    obtain ⟨a, b⟩ := ofLimbU_spec c n (lt_of_lt_of_le hn (Nat.pow_le_pow_right (by norm_num) h))
    rw [b]
    have : |(n : ℚ)| = n := abs_of_nonneg (by positivity)
    exact ⟨a, fun _ => rfl, by rw [this], by rw [this]; linarith [DW.ulp_pos c (ofLimbU c n)]⟩
  · obtain ⟨a, b, d, e, f, g⟩ := fromULL_spec c n (lt_of_lt_of_le hn (Nat.pow_le_pow_right (by norm_num) hb)) false
    refine ⟨a, fun h => ?_, b, d⟩
    rw [WF.val_of_pos (c := c) e, g (by rw [Cfg.B_eq, ← pow_mul]; exact h)]

/-- C11 (signed). -/
theorem of_signed_exact (c : Cfg) (n : ℤ) (h1 : -(2 ^ 63) ≤ n) (h2 : n < 2 ^ 63) :
    Full c (ofSigned c n) ∧ (n.natAbs < 10 ^ (c.ed * c.N) → (ofSigned c n).val c = n) ∧
    |(ofSigned c n).val c| ≤ |(n : ℚ)| ∧ |(n : ℚ)| < |(ofSigned c n).val c| + (ofSigned c n).ulp c := by
  obtain ⟨a, b, d, e⟩ := ofSigned_spec c n h1 h2
  refine ⟨a, fun h => b ?_, d, e⟩
  rw [Cfg.B_eq, ← pow_mul]; exact h

/-- Every 64-bit integer has capacity as soon as the number of decimal digits is at least 16. -/
theorem int_capacity (c : Cfg) (h : 16 ≤ c.digits10) (n : Nat) (hn : n < 2 ^ 64) : n < 10 ^ (c.ed * c.N) := by
  have h1 := c.digits_le
  have h2 := c.ed_pos
  have h3 : 2 ≤ c.ed := by unfold Cfg.ed; cases c.L <;> decide
  have h4 : c.ed * (c.N - 1) ≤ c.ed * c.N := Nat.mul_le_mul_left _ (by omega)
  calc n < 2 ^ 64 := hn
    _ ≤ 10 ^ 20 := by norm_num
    _ ≤ _ := Nat.pow_le_pow_right (by norm_num) (by omega)

example : ofSigned exC (-12345) = { data := [1, 23, 45, 0, 0], exp := 4, neg := true, prec := 5 } ∧
    (ofSigned { exC with digits10 := 20 } (-(2 ^ 63))).data = [9, 22, 33, 72, 3, 68, 54, 77, 58, 8, 0, 0, 0] := by decide

end WD
