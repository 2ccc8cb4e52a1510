import Verif.Props.Pow
import Verif.Proofs.FloatConv
/-
  C02, C03: sums and differences of decimal numbers with few digits are exact.
-/
namespace WD
open DW

/-- The last limb of a number k·10^s with at most digits10 + 2·ed digits does not lie above 10^s. -/
theorem ulp_dvd {c : Cfg} {u : DW} (hu : WF c u) (hz : u.isZero = false) {a s : ℤ} (hv : u.val c = a * 10 ^ s)
    (ha : |a| < 10 ^ (c.digits10 + 2 * c.ed)) : u.lexp c ≤ s := by
  have h1 := hu.abs_ge hz
  have h3 : (10 : ℚ) ^ u.exp < 10 ^ (((c.digits10 + 2 * c.ed : ℕ) : ℤ) + s) := by
    refine lt_of_le_of_lt h1 ?_
    rw [hv, abs_mul, abs_of_pos (p10_pos s), zpow_add₀ (by norm_num), zpow_natCast]
    exact mul_lt_mul_of_pos_right (by exact_mod_cast ha) (p10_pos s)
  have h4 := (zpow_lt_zpow_iff_right₀ (by norm_num : (1 : ℚ) < 10)).mp h3
  have h5 := c.digits_le
  have h6 := c.three_le_N
  have h7 : ((c.ed * (c.N - 1) : ℕ) : ℤ) = c.ed * ((c.N : ℤ) - 1) := by
    push_cast [show 1 ≤ c.N by omega]; ring
  unfold lexp
  omega

theorem p10_split {e s : ℤ} (h : e ≤ s) : ∃ k : ℕ, (10 : ℚ) ^ s = (10 ^ k : ℤ) * 10 ^ e := by
  refine ⟨(s - e).toNat, ?_⟩
  push_cast
  rw [← zpow_natCast, ← zpow_add₀ (by norm_num)]
  congr 1; omega

/-- C02. Two numbers a·10^s and b·10^s with |a| + |b| < 10^(digits10 + 2·ed) are added without error. -/
theorem add_decimal_exact (c : Cfg) (u v : DW) (hu : Full c u) (hv : Full c v) (a b s : ℤ) (ha : u.val c = a * 10 ^ s)
    (hb : v.val c = b * 10 ^ s) (hab : |a| + |b| < 10 ^ (c.digits10 + 2 * c.ed)) :
    (addAssign c u v).val c = (a + b : ℤ) * 10 ^ s := by
  have goal : (addAssign c u v).val c = u.val c + v.val c := by
    cases huz : u.isZero
    · cases hvz : v.isZero
      · by_cases hs : u.neg = v.neg
        · obtain ⟨q1, q2, q3, q4, q5, q6, q7⟩ := addAssign_same hu hv huz hvz hs
          have hsum := same_sign_sum (c := c) hs
          have habs : |u.val c| + |v.val c| = ((|a| + |b| : ℤ) : ℚ) * 10 ^ s := by
            rw [ha, hb, abs_mul, abs_mul, abs_of_pos (p10_pos s)]; push_cast; ring
          have hsig : SigDigits (c.digits10 + 2 * c.ed + 1) (|u.val c| + |v.val c|) := by
            refine ⟨|a| + |b|, s, ?_, habs⟩
            rw [abs_of_nonneg (by positivity), pow_succ]
            have : (0 : ℤ) < 10 ^ (c.digits10 + 2 * c.ed) := by positivity
            linarith
          have := trunc_sig_exact q1 q3 q6 q7 hsig
          rw [val_sgn c (addAssign c u v), q2, hsum, this]
        · obtain ⟨q1, q2, q3, ⟨n, hn⟩, -⟩ := addAssign_opp hu hv huz hvz hs
          have hb0 := abs_nonneg b
          have ha0 := abs_nonneg a
          have l1 := ulp_dvd hu.toWF huz ha (by linarith)
          have l2 := ulp_dvd hv.toWF hvz hb (by linarith)
          have hm : ∃ m : ℤ, u.val c + v.val c = m * max (u.ulp c) (v.ulp c) := by
            have hmx : ∃ e : ℤ, e ≤ s ∧ max (u.ulp c) (v.ulp c) = 10 ^ e := by
              rcases max_choice (u.ulp c) (v.ulp c) with h | h
              · exact ⟨u.lexp c, l1, by rw [h, ulp_eq]⟩
              · exact ⟨v.lexp c, l2, by rw [h, ulp_eq]⟩
            obtain ⟨e, he, hmx⟩ := hmx
            obtain ⟨k, hk⟩ := p10_split he
            refine ⟨(a + b) * 10 ^ k, ?_⟩
            rw [hmx, ha, hb, hk]; push_cast; ring
          obtain ⟨m, hm⟩ := hm
          have hM : 0 < max (u.ulp c) (v.ulp c) := lt_of_lt_of_le (u.ulp_pos c) (le_max_left _ _)
          have := multiple_unique hM (m := n) (n := m) (by
            rw [← hn, ← hm, abs_lt]
            rcases le_total 0 (u.val c + v.val c) with h | h
            · obtain ⟨a, b⟩ := q2 h; constructor <;> linarith
            · obtain ⟨a, b⟩ := q3 h; constructor <;> linarith)
          rw [hn, hm, this]
      · rw [addAssign_zero_right huz hvz, hv.toWF.isZero_iff.mp hvz]; simp
    · rw [addAssign_zero_left huz, hu.toWF.isZero_iff.mp huz]; simp
  rw [goal, ha, hb]; push_cast; ring

/-- C03. The same for subtraction. -/
theorem sub_decimal_exact (c : Cfg) (u v : DW) (hu : Full c u) (hv : Full c v) (a b s : ℤ) (ha : u.val c = a * 10 ^ s)
    (hb : v.val c = b * 10 ^ s) (hab : |a| + |b| < 10 ^ (c.digits10 + 2 * c.ed)) :
    (subAssign c u v).val c = (a - b : ℤ) * 10 ^ s := by
  rw [subAssign_val hu hv, add_decimal_exact c u.negate v (negate_full hu) hv (-a) b s (by
    rw [negate_val c hu.toWF, ha]; push_cast; ring) hb (by rwa [abs_neg])]
  push_cast; ring

/-- 12.345678 + 0.5 and 12.345678 - 0.5 (8-bit limbs, digits10 = 4). -/
example : (addAssign exC exX (half exC)).val exC = 12845678 / 10 ^ 6 ∧ (subAssign exC exX (half exC)).val exC = 11845678 / 10 ^ 6 := by
  have hf : Full exC exX := by decide +kernel
  have hh : Full exC (half exC) := by decide +kernel
  have h1 : exX.val exC = (12345678 : ℤ) * 10 ^ (-6 : ℤ) := by
    have : exX.val exC = 12345678 / 10 ^ 6 := by decide +kernel
    rw [this]; norm_num
  have h2 : (half exC).val exC = (500000 : ℤ) * 10 ^ (-6 : ℤ) := by
    have : (half exC).val exC = 1 / 2 := by decide +kernel
    rw [this]; norm_num
  have hb : |(12345678 : ℤ)| + |(500000 : ℤ)| < 10 ^ (exC.digits10 + 2 * exC.ed) := by decide +kernel
  rw [add_decimal_exact exC exX (half exC) hf hh _ _ _ h1 h2 hb, sub_decimal_exact exC exX (half exC) hf hh _ _ _ h1 h2 hb]
  norm_num

end WD
