import Verif.Props.Inv
import Verif.Props.Misc
import Verif.Props.Pow
/-
  C09, C32, C44: consequences of the division theorem – division by any built-in integer, mixed division, negative powers.
-/
namespace WD
open DW

/-- A built-in positive integer as a divisor. -/
theorem ofU64_divisor {c : Cfg} {n : ℕ} (h0 : 0 < n) (hn : n < 2 ^ 64) (hcap : n < 10 ^ (c.ed * c.N)) :
    Full c (ofUnsigned c 64 n) ∧ (ofUnsigned c 64 n).val c = n ∧ 0 ≤ (ofUnsigned c 64 n).exp ∧ (ofUnsigned c 64 n).exp ≤ 19 ∧
    unsigned (ofUnsigned c 64 n) = ofUnsigned c 64 n := by
  obtain ⟨a, b, -⟩ := of_unsigned_exact c 64 n (le_refl _) hn
  have hv := b hcap
  have hz : (ofUnsigned c 64 n).isZero = false := isZero_false_of_val a.toWF (by rw [hv]; exact_mod_cast h0.ne')
  refine ⟨a, hv, ?_, ?_, ?_⟩
  · rw [ofUnsigned64]; exact (fromULL_exp c hn h0).1
  · have h1 := a.toWF.abs_ge hz
    rw [hv, abs_of_nonneg (by positivity)] at h1
    have h2 : (n : ℚ) < 10 ^ (20 : ℤ) := by
      have : n < 10 ^ 20 := lt_trans hn (by norm_num)
      exact_mod_cast this
    have := (zpow_lt_zpow_iff_right₀ (by norm_num : (1:ℚ) < 10)).mp (lt_of_le_of_lt h1 h2)
    omega
  · rw [ofUnsigned64]; rfl

/-- Two whole limbs are at least four digits. -/
theorem eps_small (c : Cfg) : (6 : ℚ) / 10 ^ (c.digits10 + 2 * c.ed) ≤ 10 ^ (-(c.digits10 : ℤ)) / 1000 := by
  have hed : 2 ≤ c.ed := by unfold Cfg.ed; cases c.L <;> decide
  rw [zpow_neg, zpow_natCast, pow_add]
  have h1 : (10 : ℚ) ^ 4 ≤ 10 ^ (2 * c.ed) := pow_le_pow_right₀ (by norm_num) (by omega)
  have h2 : (0 : ℚ) < 10 ^ c.digits10 := by positivity
  rw [div_le_div_iff₀ (by positivity) (by norm_num)]
  have : ((10 : ℚ) ^ c.digits10)⁻¹ * (10 ^ c.digits10 * 10 ^ (2 * c.ed)) = 10 ^ (2 * c.ed) := by field_simp
  rw [this]; linarith

/-- C09, every built-in unsigned divisor n > 0 (n representable): the quotient is well formed, has the sign of x, and its
    relative error is below 10^(-digits10). For n at least the limb radix the code divides by the converted number and the
    floating-point start value of that division must be good (`StartOk`); for smaller n it is not used. -/
theorem div_unsigned_accuracy (c : Cfg) (est : DW → DW) (fdig : ℕ) (x : DW) (hx : Full c x) (hx0 : x.val c ≠ 0) (n : ℕ)
    (h0 : 0 < n) (hn : n < 2 ^ 64) (hcap : n < 10 ^ (c.ed * c.N)) (hok : MulOkAll c) (hf : 6 ≤ fdig) (hM : 64 ≤ c.maxExp)
    (hlo : -(c.maxExp : ℤ) < x.exp - 19 - 2 * c.ed) (hhi : x.exp < c.maxExp)
    (hs : c.B ≤ n → StartOk c fdig (est (ofUnsigned c 64 n)) n) :
    let r := divULL c est fdig x n
    Full c r ∧ r.val c ≠ 0 ∧ (r.val c < 0 ↔ x.val c < 0) ∧
    |r.val c - x.val c / n| < |r.val c| * 10 ^ (-(c.digits10 : ℤ)) := by
  intro r
  have hed8 : c.ed ≤ 8 := by unfold Cfg.ed; cases c.L <;> decide
  have hnq : (0 : ℚ) < n := by exact_mod_cast h0
  by_cases hB : n < c.B
  · obtain ⟨a, b, d, -⟩ := div_unsigned_partial c est fdig x hx hx0 n h0 hB (by omega)
    refine ⟨a, ?_, b, d⟩
    intro h
    change |r.val c - x.val c / n| < |r.val c| * 10 ^ (-(c.digits10 : ℤ)) at d
    rw [h] at d
    simp only [abs_zero, zero_mul] at d
    exact absurd d (not_lt.mpr (abs_nonneg _))
  · obtain ⟨a, b, e1, e2, e3⟩ := ofU64_divisor (c := c) h0 hn hcap
    have hxz := isZero_false_of_val hx.toWF hx0
    have hr : r = divAssign c est fdig x (ofUnsigned c 64 n) := by
      show divULL c est fdig x n = _
      unfold divULL
      simp only [hxz, Bool.false_eq_true, if_false]
      rw [if_neg (by omega), if_pos (by omega)]
    obtain ⟨q1, q2, q3, q4⟩ := div_accuracy c est fdig x (ofUnsigned c 64 n) hx a hx0 (by rw [b]; exact hnq.ne') hok hf (by omega)
      (by omega) (by omega) (by omega) (by omega) (by rw [e3, b, abs_of_pos hnq]; exact hs (by omega))
    rw [← hr] at q1 q2 q3 q4
    rw [b] at q3 q4
    refine ⟨q1, q2, ?_, ?_⟩
    · rw [q3]; constructor
      · intro h; by_contra hc; have := div_nonneg (not_lt.mp hc) hnq.le; linarith
      · intro h; exact div_neg_of_neg_of_pos h hnq
    · have he := eps_small c
      have hp := p10_pos (-(c.digits10 : ℤ))
      have hp1 : (10 : ℚ) ^ (-(c.digits10 : ℤ)) ≤ 1 := by
        rw [← zpow_zero (10 : ℚ)]; exact zpow_le_zpow_right₀ (by norm_num) (by omega)
      have hQ : |x.val c / n| - |r.val c| ≤ |r.val c - x.val c / n| := by
        rw [abs_sub_comm]; exact abs_sub_abs_le_abs_sub _ _
      have hQ0 := abs_nonneg (x.val c / (n : ℚ))
      have h5 : |x.val c / n| * (6 / 10 ^ (c.digits10 + 2 * c.ed)) ≤ |x.val c / n| * (10 ^ (-(c.digits10 : ℤ)) / 1000) :=
        mul_le_mul_of_nonneg_left he hQ0
      have h6 : |x.val c / n| * (10 ^ (-(c.digits10 : ℤ)) / 1000) ≤ |x.val c / n| * (1 / 1000) :=
        mul_le_mul_of_nonneg_left (by linarith) hQ0
      have h7 : |x.val c / n| ≤ 2 * |r.val c| := by linarith
      have h8 := mul_le_mul_of_nonneg_right h7 (show (0:ℚ) ≤ 10 ^ (-(c.digits10 : ℤ)) / 1000 by positivity)
      have h9 : 0 < |r.val c| := abs_pos.mpr q2
      have h10 := mul_pos h9 hp
      linarith

/-- C09/C44, signed divisors n ≠ 0, including the least `long long`. -/
theorem div_signed_accuracy (c : Cfg) (est : DW → DW) (fdig : ℕ) (x : DW) (hx : Full c x) (hx0 : x.val c ≠ 0) (n : ℤ)
    (h0 : n ≠ 0) (h1 : -(2 ^ 63) ≤ n) (h2 : n < 2 ^ 63) (hcap : n.natAbs < 10 ^ (c.ed * c.N)) (hok : MulOkAll c) (hf : 6 ≤ fdig)
    (hM : 64 ≤ c.maxExp) (hlo : -(c.maxExp : ℤ) < x.exp - 19 - 2 * c.ed) (hhi : x.exp < c.maxExp)
    (hs : c.B ≤ n.natAbs → StartOk c fdig (est (ofUnsigned c 64 n.natAbs)) n.natAbs) :
    let r := divSLL c est fdig x n
    Full c r ∧ r.val c ≠ 0 ∧ |r.val c - x.val c / n| < |r.val c| * 10 ^ (-(c.digits10 : ℤ)) := by
  intro r
  have hmag : (if n < 0 then negULL (castULL n) else castULL n) = n.natAbs := by
    split
    · next h => exact negULL_cast h h1
    · next h => rw [castULL_nonneg (by omega) (by omega)]; omega
  obtain ⟨a, b, -, d⟩ := div_unsigned_accuracy c est fdig x hx hx0 n.natAbs (by omega) (by omega) hcap hok hf hM hlo hhi hs
  have hr : r = if n < 0 then (divULL c est fdig x n.natAbs).negate else divULL c est fdig x n.natAbs := by
    show divSLL c est fdig x n = _
    unfold divSLL; simp only [hmag]
  generalize divULL c est fdig x n.natAbs = w at *
  by_cases hneg : n < 0
  · rw [if_pos hneg] at hr
    have hv : r.val c = -w.val c := by rw [hr, negate_val c a.toWF]
    have hnn : (n.natAbs : ℚ) = -(n : ℚ) := by
      have h : (n.natAbs : ℤ) = -n := by omega
      rw [← Int.cast_natCast, h, Int.cast_neg]
    refine ⟨by rw [hr]; exact negate_full a, by rw [hv]; exact neg_ne_zero.mpr b, ?_⟩
    rw [hv, abs_neg]
    rw [hnn] at d
    have e : -w.val c - x.val c / n = -(w.val c - x.val c / -(n : ℚ)) := by rw [div_neg]; ring
    rw [e, abs_neg]; exact d
  · rw [if_neg hneg] at hr
    have hnn : (n.natAbs : ℚ) = (n : ℚ) := by
      have h : (n.natAbs : ℤ) = n := by omega
      rw [← Int.cast_natCast, h]
    rw [hnn] at d
    rw [hr]; exact ⟨a, b, d⟩

/-- C44 for division: x / n agrees with x / decwide_t(n) to digits10 digits (the algorithms differ for n below the radix,
    so equality is not claimed; see `div_unsigned_not_exact`), is the same for n at least the radix, and n / x is by
    definition the division of the converted n. -/
theorem mixed_div_partial (c : Cfg) (est : DW → DW) (fdig : ℕ) (x : DW) (hx : Full c x) (hx0 : x.val c ≠ 0) (n : ℕ)
    (h0 : 0 < n) (hn : n < 2 ^ 64) (hcap : n < 10 ^ (c.ed * c.N)) (hok : MulOkAll c) (hf : 6 ≤ fdig) (hM : 64 ≤ c.maxExp)
    (hlo : -(c.maxExp : ℤ) < x.exp - 19 - 2 * c.ed) (hhi : x.exp < c.maxExp)
    (hs : StartOk c fdig (est (ofUnsigned c 64 n)) n) :
    |(divLU c est fdig x n).val c - (divAssign c est fdig x (ofUnsigned c 64 n)).val c| <
      |(divLU c est fdig x n).val c| * (2 * 10 ^ (-(c.digits10 : ℤ))) ∧
    (c.B ≤ n → divLU c est fdig x n = divAssign c est fdig x (ofUnsigned c 64 n)) ∧
    divRU c est fdig n x = divAssign c est fdig (ofUnsigned c 64 n) x := by
  have hnq : (0 : ℚ) < n := by exact_mod_cast h0
  have hed8 : c.ed ≤ 8 := by unfold Cfg.ed; cases c.L <;> decide
  have hxz := isZero_false_of_val hx.toWF hx0
  obtain ⟨a, b, e1, e2, e3⟩ := ofU64_divisor (c := c) h0 hn hcap
  obtain ⟨q1, q2, q3, q4⟩ := div_accuracy c est fdig x (ofUnsigned c 64 n) hx a hx0 (by rw [b]; exact hnq.ne') hok hf (by omega)
    (by omega) (by omega) (by omega) (by omega) (by rw [e3, b, abs_of_pos hnq]; exact hs)
  have hlarge : c.B ≤ n → divLU c est fdig x n = divAssign c est fdig x (ofUnsigned c 64 n) := by
    intro hB
    unfold divLU divULL
    simp only [hxz, Bool.false_eq_true, if_false]
    rw [if_neg (by omega), if_pos (by omega)]
  refine ⟨?_, hlarge, rfl⟩
  have hQ : 0 < |x.val c / n| := abs_pos.mpr (div_ne_zero hx0 hnq.ne')
  have hp := p10_pos (-(c.digits10 : ℤ))
  by_cases hB : c.B ≤ n
  · rw [hlarge hB, sub_self, abs_zero]
    exact mul_pos (abs_pos.mpr q2) (by positivity)
  · rw [b] at q4
    obtain ⟨d1, -, d3, -⟩ := div_unsigned_partial c est fdig x hx hx0 n h0 (by omega) (by omega)
    change |(divLU c est fdig x n).val c - x.val c / n| < |(divLU c est fdig x n).val c| * 10 ^ (-(c.digits10 : ℤ)) at d3
    generalize divLU c est fdig x n = w at *
    generalize (divAssign c est fdig x (ofUnsigned c 64 n)).val c = q at *
    generalize x.val c / (n : ℚ) = Q at *
    have he := eps_small c
    have hp1 : (10 : ℚ) ^ (-(c.digits10 : ℤ)) ≤ 1 := by
      rw [← zpow_zero (10 : ℚ)]; exact zpow_le_zpow_right₀ (by norm_num) (by omega)
    have t1 : |w.val c - q| ≤ |w.val c - Q| + |q - Q| := by
      calc |w.val c - q| = |(w.val c - Q) + -(q - Q)| := by congr 1; ring
        _ ≤ |w.val c - Q| + |-(q - Q)| := abs_add_le _ _
        _ = _ := by rw [abs_neg]
    have t2 : |Q| - |w.val c| ≤ |w.val c - Q| := by rw [abs_sub_comm]; exact abs_sub_abs_le_abs_sub _ _
    have hw0 := abs_nonneg (w.val c)
    have t3 : |w.val c| * 10 ^ (-(c.digits10 : ℤ)) ≤ |w.val c| * 1 := mul_le_mul_of_nonneg_left hp1 hw0
    have t4 : |Q| * (6 / 10 ^ (c.digits10 + 2 * c.ed)) ≤ |Q| * (10 ^ (-(c.digits10 : ℤ)) / 1000) := mul_le_mul_of_nonneg_left he hQ.le
    have t5 : |Q| * (10 ^ (-(c.digits10 : ℤ)) / 1000) ≤ (2 * |w.val c|) * (10 ^ (-(c.digits10 : ℤ)) / 1000) :=
      mul_le_mul_of_nonneg_right (by linarith) (by positivity)
    have t6 : 0 < |w.val c| := by linarith
    have := mul_pos t6 hp
    linarith

/-- C32, negative powers: for p ≥ 1 with x^p inside the exponent range, `pow(x, -p)` is well formed and differs from
    1/x^p by a relative error of at most (4p+10)·10^-(digits10+2·ed), given a good start value for the reciprocal. -/
theorem pow_negative_accuracy (c : Cfg) (est : DW → DW) (fdig : ℕ) (x : DW) (p : ℕ) (hx : Full c x) (hx0 : x.val c ≠ 0)
    (hok : MulOkAll c) (hf : 6 ≤ fdig) (hE : 6 * c.ed + 3 ≤ c.maxExp) (hp0 : 0 < p) (hp63 : p < 2 ^ 63)
    (hp : (p : ℚ) / 10 ^ (c.digits10 + 2 * c.ed) ≤ 1 / 4)
    (hhi : |x.val c ^ p| ≤ (10 : ℚ) ^ ((c.maxExp : ℤ) - 3 * c.ed - 1))
    (hlo : (10 : ℚ) ^ (-(c.maxExp : ℤ) + 2 * c.ed + 1) ≤ |x.val c ^ p|)
    (hs : StartOk c fdig (est (unsigned (powNat c x p))) |(powNat c x p).val c|) :
    ∃ r, pow c est fdig x (-(p : ℤ)) = some r ∧ Full c r ∧
      |r.val c * x.val c ^ p - 1| ≤ (4 * p + 10) / 10 ^ (c.digits10 + 2 * c.ed) := by
  have hokN := hok.ok (p := c.N) (by have := c.three_le_N; omega) (le_refl _)
  have hmono : (10 : ℚ) ^ ((c.maxExp : ℤ) - 3 * c.ed - 1) ≤ 10 ^ ((c.maxExp : ℤ) - 1) :=
    zpow_le_zpow_right₀ (by norm_num) (by omega)
  obtain ⟨a, b⟩ := pow_accuracy c x p hx hx0 hokN (by omega) (by linarith) (le_trans hhi hmono) hlo
  refine ⟨calcInv c est fdig (powNat c x p), ?_, ?_⟩
  · unfold pow
    rw [if_neg (by omega), if_pos (by omega)]
    simp
  generalize hP : powNat c x p = P at *
  have hX0 : 0 < |x.val c ^ p| := abs_pos.mpr (pow_ne_zero _ hx0)
  obtain ⟨ε, hε⟩ : ∃ ε : ℚ, ε = 1 / 10 ^ (c.digits10 + 2 * c.ed) := ⟨_, rfl⟩
  have hε0 : 0 < ε := by rw [hε]; positivity
  have hpε : (p : ℚ) * ε ≤ 1 / 4 := by rw [hε, mul_one_div]; exact hp
  have hb2 : |P.val c - x.val c ^ p| ≤ 2 * (p * ε) * |x.val c ^ p| := by
    have : 2 * (p : ℚ) / 10 ^ (c.digits10 + 2 * c.ed) = 2 * (p * ε) := by rw [hε]; ring
    rw [← this]; exact b
  have hhalf : |P.val c - x.val c ^ p| ≤ 1 / 2 * |x.val c ^ p| :=
    le_trans hb2 (mul_le_mul_of_nonneg_right (by linarith) hX0.le)
  have hPl : 1 / 2 * |x.val c ^ p| ≤ |P.val c| := by
    have := abs_sub_abs_le_abs_sub (x.val c ^ p) (P.val c)
    rw [abs_sub_comm] at this; linarith
  have hPh : |P.val c| ≤ 3 / 2 * |x.val c ^ p| := by
    have := abs_sub_abs_le_abs_sub (P.val c) (x.val c ^ p)
    linarith
  have hP0 : P.val c ≠ 0 := abs_pos.mp (by linarith)
  have hPz := isZero_false_of_val a.toWF hP0
  have e1 : -(c.maxExp : ℤ) < P.exp := by
    have h1 := a.toWF.abs_lt
    have h2 : (10 : ℚ) ^ (-(c.maxExp : ℤ) + 2 * c.ed) < 10 ^ (P.exp + c.ed) := by
      have : (10 : ℚ) ^ (-(c.maxExp : ℤ) + 2 * c.ed + 1) = 10 ^ (-(c.maxExp : ℤ) + 2 * c.ed) * 10 := by
        rw [zpow_add₀ (by norm_num)]; norm_num
      have := p10_pos (-(c.maxExp : ℤ) + 2 * c.ed)
      linarith
    have := (zpow_lt_zpow_iff_right₀ (by norm_num : (1:ℚ) < 10)).mp h2
    omega
  have e2 : P.exp + 3 * c.ed < c.maxExp := by
    have h1 := a.toWF.abs_ge hPz
    have h2 : (10 : ℚ) ^ P.exp < 10 ^ ((c.maxExp : ℤ) - 3 * c.ed) := by
      have : (10 : ℚ) ^ ((c.maxExp : ℤ) - 3 * c.ed) = 10 ^ ((c.maxExp : ℤ) - 3 * c.ed - 1) * 10 := by
        rw [← zpow_add_one₀ (by norm_num)]; congr 1; ring
      have := p10_pos ((c.maxExp : ℤ) - 3 * c.ed - 1)
      linarith
    have := (zpow_lt_zpow_iff_right₀ (by norm_num : (1:ℚ) < 10)).mp h2
    omega
  obtain ⟨i1, -, i3⟩ := inv_accuracy c est fdig P a hP0 hok hf (by omega) e1 e2 hs
  refine ⟨i1, ?_⟩
  generalize (calcInv c est fdig P).val c = r at *
  have hi : |r * P.val c - 1| < 5 * ε := by
    have : (5 : ℚ) / 10 ^ (c.digits10 + 2 * c.ed) = 5 * ε := by rw [hε]; ring
    rw [← this]; exact i3
  have hgoal : (4 * (p : ℚ) + 10) / 10 ^ (c.digits10 + 2 * c.ed) = 2 * (2 * (p * ε) + 5 * ε) := by rw [hε]; ring
  rw [hgoal]
  generalize x.val c ^ p = X at *
  have hXne : X ≠ 0 := abs_pos.mp hX0
  -- P = X (1 + θ)
  obtain ⟨θ, hθ⟩ : ∃ θ, P.val c = X * (1 + θ) := ⟨P.val c / X - 1, by field_simp; ring⟩
  have hθb : |θ| ≤ 2 * (p * ε) := by
    have e : P.val c - X = X * θ := by rw [hθ]; ring
    rw [e, abs_mul, mul_comm] at hb2
    exact le_of_mul_le_mul_right hb2 hX0
  obtain ⟨t1, t2⟩ := abs_le.mp hθb
  have ht : (1 / 2 : ℚ) ≤ 1 + θ := by linarith
  have e : (r * X - 1) * (1 + θ) = (r * P.val c - 1) - θ := by rw [hθ]; ring
  have h1 : |r * X - 1| * (1 + θ) ≤ 5 * ε + 2 * (p * ε) := by
    rw [← abs_of_pos (show 0 < 1 + θ by linarith), ← abs_mul, e]
    calc |r * P.val c - 1 - θ| = |(r * P.val c - 1) + -θ| := by congr 1; ring
      _ ≤ |r * P.val c - 1| + |-θ| := abs_add_le _ _
      _ ≤ _ := by rw [abs_neg]; linarith
  have h2 : |r * X - 1| * (1 / 2) ≤ |r * X - 1| * (1 + θ) := mul_le_mul_of_nonneg_left ht (abs_nonneg _)
  linarith

/-- A start value for 1/12345 (6 digits): 0.0000810045. -/
def exStart2 : DW := { data := [81, 0, 45, 0, 0], exp := -6, neg := false, prec := 5 }

/-- Hypotheses met: x = 12.345678 and n = 12345, which is above the radix 100 of 8-bit limbs. -/
example : StartOk exC 6 exStart2 (12345 : ℕ) ∧ exC.B ≤ 12345 ∧ 12345 < 10 ^ (exC.ed * exC.N) ∧ 64 ≤ exC.maxExp ∧
    -(exC.maxExp : ℤ) < exX.exp - 19 - 2 * exC.ed := by
  have h1 : exC.N = 5 := by decide
  have h2 : exC.ed = 2 := by decide
  have h3 : exC.B = 100 := by decide
  refine ⟨⟨by decide, ?_, ?_⟩, by decide, by decide, by decide, by decide⟩
  · simp only [DW.val, exStart2, limbsVal, h1, h2, h3]; norm_num
  · simp only [DW.val, exStart2, limbsVal, h1, h2, h3]; norm_num [abs_of_pos, abs_of_neg]

/-- A start value for 12.345678^-2: 0.00656100. -/
def exStart3 : DW := { data := [65, 61, 0, 10, 0], exp := -4, neg := false, prec := 5 }

/-- Hypotheses met for `pow(12.345678, -2)`: 12.345678² is stored as 152.41576527. -/
example : powNat exC exX 2 = { data := [1, 52, 41, 57, 65], exp := 2, neg := false, prec := 5 } ∧
    StartOk exC 6 exStart3 |(powNat exC exX 2).val exC| ∧ 6 * exC.ed + 3 ≤ exC.maxExp := by
  have h1 : exC.N = 5 := by decide
  have h2 : exC.ed = 2 := by decide
  have h3 : exC.B = 100 := by decide
  have e : powNat exC exX 2 = { data := [1, 52, 41, 57, 65], exp := 2, neg := false, prec := 5 } := by decide +kernel
  refine ⟨e, ⟨by decide, ?_, ?_⟩, by decide⟩
  · simp only [DW.val, exStart3, limbsVal, h1, h2, h3]; norm_num
  · rw [e]; simp only [DW.val, exStart3, limbsVal, h1, h2, h3]; norm_num [abs_of_pos, abs_of_neg]

end WD
