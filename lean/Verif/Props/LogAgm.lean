import Verif.Proofs.LogAgm
import Verif.Props.LnTwo
/-
  C60: accuracy of `log` above 51 digits when the loop is left by `break`.
-/
namespace WD
open DW Real

theorem precision_full_one (c : Cfg) : precision c (one c) (c.N * c.ed : ℕ) = one c := by
  have hed := two_le_ed c
  have h3 := c.three_le_N
  have h : ((c.N * c.ed : ℕ) : ℤ).tdiv c.ed + (if ((c.N * c.ed : ℕ) : ℤ).tmod c.ed ≠ 0 then 1 else 0) = c.N := by
    push_cast
    rw [Int.mul_tdiv_cancel _ (by omega), Int.mul_tmod_left]
    simp
  unfold precision
  simp only [h]
  rw [show (min (c.N : ℤ) (max (c.N : ℤ) 2)).toNat = c.N by omega]
  rfl

theorem logGoal_full {c : Cfg} {x : DW} (hx : x.prec = c.N) : logGoal c x = agmGoal c := by
  have hed := two_le_ed c
  have h3 := c.three_le_N
  have hdl := c.digits_le
  have hsub : c.ed * (c.N - 1) = c.ed * c.N - c.ed := by rw [Nat.mul_sub, mul_one]
  unfold logGoal agmGoal
  rw [hx, mul_comm c.N]
  have : (c.digits10 / 2 : ℕ) ≤ c.ed * c.N / 2 := Nat.div_le_div_right (by omega)
  refine min_eq_left ?_
  have : ((c.digits10 / 2 : ℕ) : ℤ) ≤ ((c.ed * c.N / 2 : ℕ) : ℤ) := by exact_mod_cast this
  omega

/-- The start value of `log`. -/
theorem log_start {c : Cfg} {F : Flt} (h : ElemOk c F) (hN : c.N < 1793) (hd : 52 ≤ c.digits10) {K : ℕ}
    (hr : 2 * ((c.digits10 + K : ℕ) : ℤ) + ((c.N : ℤ) + 8) * c.ed < c.maxExp) {x : DW} (hx : Full c x) (hx1 : 1 < x.val c)
    (hxK : x.val c ≤ 10 ^ K) {m : ℕ} (hm3 : 3 ≤ m) (hm : 100 * m ≤ 168 * c.digits10) :
    ∃ b0, ldexp c (estInv c F) F.digits10 (one c) (2 - (m : ℤ)) = some b0 ∧ Full c (divAssign c (estInv c F) F.digits10 b0 x) ∧
      |((divAssign c (estInv c F) F.digits10 b0 x).val c : ℝ) - 4 / (2 ^ m * x.val c)| ≤ 4 / (2 ^ m * x.val c) * (5 * (1 / 10 ^ c.digits10)) := by
  have hed := two_le_ed c
  have hed8 := ed_le8 c
  have h3 := c.three_le_N
  have hexp : ((c.N : ℤ) + 8) * c.ed = (c.ed * c.N : ℕ) + 8 * c.ed := by push_cast; ring
  rw [hexp] at hr
  obtain ⟨b, b1, b2, b3⟩ := agm_start h hN hd (n := m - 2) (by omega) (by omega)
  have hneg : (2 : ℤ) - m = -((m - 2 : ℕ) : ℤ) := by omega
  rw [← hneg] at b1
  refine ⟨b, b1, ?_⟩
  have h2n : (2 : ℚ) ≤ 2 ^ (m - 2) := by
    calc (2 : ℚ) = 2 ^ 1 := by norm_num
      _ ≤ _ := pow_le_pow_right₀ (by norm_num) (by omega)
  have h2d : (2 : ℚ) ^ (m - 2) * 2 ≤ 10 ^ c.digits10 := by
    have h1 : (2 : ℚ) ^ (m - 2) * 2 ≤ 2 ^ m := by
      rw [← pow_succ]; exact pow_le_pow_right₀ (by norm_num) (by omega)
    have : ((2 : ℚ) ^ m) ^ 3 ≤ (10 ^ c.digits10) ^ 3 := by
      calc ((2 : ℚ) ^ m) ^ 3 = 2 ^ (3 * m) := by rw [← pow_mul, mul_comm]
        _ ≤ 2 ^ (9 * c.digits10) := pow_le_pow_right₀ (by norm_num) (by omega)
        _ = 512 ^ c.digits10 := by rw [pow_mul]; norm_num
        _ ≤ 1000 ^ c.digits10 := pow_le_pow_left₀ (by norm_num) (by norm_num) _
        _ = _ := by rw [← pow_mul, mul_comm, pow_mul]; norm_num
    exact le_trans h1 (le_of_pow_le_pow_left₀ (by norm_num) (by positivity) this)
  obtain ⟨e, he⟩ : ∃ e : ℚ, e = 1 / 10 ^ c.digits10 := ⟨_, rfl⟩
  have e0 : 0 < e := by rw [he]; positivity
  have e1 : e ≤ 1 / 10 ^ 6 := by rw [he]; exact one_div_le_one_div_of_le (by positivity) (pow_le_pow_right₀ (by norm_num) (by omega))
  rw [show (4 : ℚ) / 10 ^ c.digits10 = 4 * e by rw [he]; ring] at b3
  obtain ⟨z, hz⟩ : ∃ z : ℚ, z = 1 / 2 ^ (m - 2) := ⟨_, rfl⟩
  rw [← hz] at b3
  have z0 : 0 < z := by rw [hz]; positivity
  have z1 : z ≤ 1 / 2 := by rw [hz]; exact one_div_le_one_div_of_le (by norm_num) h2n
  have z2 : 2 * e ≤ z := by
    rw [hz, he, mul_one_div, div_le_div_iff₀ (by positivity) (by positivity)]
    linarith
  obtain ⟨c1, c2⟩ := abs_le.mp b3
  have ze : z * (4 * e) ≤ z * (1 / 1000) := mul_le_mul_of_nonneg_left (by linarith) z0.le
  have hb0 : 0 < b.val c := by linarith
  have hb1 : b.val c < 9 / 10 := by linarith
  have hbe : e ≤ b.val c := by linarith
  have hbE := agm_exp_range b2 (D := c.digits10) (by rw [abs_of_pos hb0, zpow_neg, zpow_natCast, ← one_div, ← he]; exact hbe)
    (by rw [abs_of_pos hb0]; linarith)
  have hx0 : 0 < x.val c := by linarith
  have hxz := isZero_false_of_val hx.toWF hx0.ne'
  have hxa := hx.toWF.abs_ge hxz
  have hxb := hx.toWF.abs_lt
  rw [abs_of_pos hx0] at hxa hxb
  have xe1 : x.exp ≤ K := by
    by_contra hc
    have : (10 : ℚ) ^ ((K : ℤ) + 1) ≤ 10 ^ x.exp := zpow_le_zpow_right₀ (by norm_num) (by omega)
    rw [zpow_add₀ (by norm_num), zpow_natCast, zpow_one] at this
    have : (0 : ℚ) < 10 ^ K := by positivity
    linarith
  have xe2 : -(c.ed : ℤ) < x.exp := by
    by_contra hc
    have : (10 : ℚ) ^ (x.exp + c.ed) ≤ 10 ^ (0 : ℤ) := zpow_le_zpow_right₀ (by norm_num) (by omega)
    rw [zpow_zero] at this
    linarith
  obtain ⟨-, q2, q3, -⟩ := div_accuracy_any c F h.hF h.hK b x b2 hx hb0.ne' hx0.ne' h.hok (by omega) (by omega) (by omega) (by omega) (by omega)
  refine ⟨q3 ?_ ?_, ?_⟩
  · rw [abs_of_pos hb0]; linarith
  · rw [abs_of_pos hb0]
    unfold nearOne
    have : (10 : ℚ) ^ (-((c.ed : ℤ) * c.N)) ≤ 10 ^ (-2 : ℤ) := zpow_le_zpow_right₀ (by norm_num) (by nlinarith)
    rw [show (10 : ℚ) ^ (-2 : ℤ) = 1 / 100 by norm_num] at this
    linarith
  · have hμ : (6 : ℚ) / 10 ^ (c.digits10 + 2 * c.ed) ≤ e / 100 := by
      rw [he, pow_add, div_div, div_le_div_iff₀ (by positivity) (by positivity)]
      have : (10 : ℚ) ^ 4 ≤ 10 ^ (2 * c.ed) := pow_le_pow_right₀ (by norm_num) (by omega)
      have hp : (0 : ℚ) < 10 ^ c.digits10 := by positivity
      nlinarith
    generalize divAssign c (estInv c F) F.digits10 b x = r at *
    have key : |r.val c - z / x.val c| ≤ z / x.val c * (5 * e) := by
      have hbx : 0 < b.val c / x.val c := by positivity
      rw [abs_of_pos hbx] at q2
      have u1 : |r.val c - b.val c / x.val c| ≤ b.val c / x.val c * (e / 100) := le_trans q2.le (mul_le_mul_of_nonneg_left hμ hbx.le)
      have u2 : |b.val c / x.val c - z / x.val c| ≤ z / x.val c * (4 * e) := by
        rw [← sub_div, abs_div, abs_of_pos hx0, div_mul_eq_mul_div]
        exact div_le_div_of_nonneg_right b3 hx0.le
      have u3 : b.val c / x.val c ≤ 2 * (z / x.val c) := by
        rw [← mul_div_assoc]; exact div_le_div_of_nonneg_right (by linarith) hx0.le
      have u4 : b.val c / x.val c * (e / 100) ≤ 2 * (z / x.val c) * (e / 100) := mul_le_mul_of_nonneg_right u3 (by positivity)
      have u5 : 0 < z / x.val c * e := by positivity
      obtain ⟨v1, v2⟩ := abs_le.mp u1
      obtain ⟨v3, v4⟩ := abs_le.mp u2
      rw [abs_le]; constructor <;> linarith
    have hk := (Rat.cast_le (K := ℝ)).mpr key
    rw [hz, he] at hk
    push_cast at hk
    have h2m : (2 : ℝ) ^ m = 4 * 2 ^ (m - 2) := by
      rw [show (4 : ℝ) = 2 ^ 2 by norm_num, ← pow_add]; congr 1; omega
    have hx0R : (0 : ℝ) < x.val c := by exact_mod_cast hx0
    rw [h2m, show (4 : ℝ) / (4 * 2 ^ (m - 2) * (x.val c : ℝ)) = 1 / 2 ^ (m - 2) / x.val c by field_simp]
    exact hk

theorem agmDelta_hundredth (c : Cfg) : (agmDelta c : ℝ) ≤ 1 / 10 ^ c.digits10 / 100 := by
  have hed := two_le_ed c
  unfold agmDelta; push_cast
  rw [pow_add, div_div]
  apply one_div_le_one_div_of_le (by positivity)
  have : (10 : ℝ) ^ 2 ≤ 10 ^ c.ed := pow_le_pow_right₀ (by norm_num) hed
  have hp : (0 : ℝ) < 10 ^ c.digits10 := by positivity
  have h2 := mul_le_mul_of_nonneg_left this hp.le
  linarith

set_option maxHeartbeats 1000000 in
/-- C60, accuracy of `log` for digits10 > 51 and 1 < x ≤ 10^K, K ≤ 2500 (float or double start values, or long double with 8- or
    16-bit limbs; fewer than 1793 limbs; `log(10.0F)` and `log(2.0F)` right to six digits): if the loop ends by `break` after n further rounds, and no
    product handed to the square root is next to an even power of the radix or a quarter of one, then with a π of error at most
    κ·10^-digits10 and a ln 2 of error at most λ·10^-digits10 the result differs from log x by at most
    ((6/5·digits10 + log x)·(17 + κ/2 + 3·(n+1)·10^-ed) + 17/10·digits10·λ + 30)·10^-digits10. The full property (an error of a few
    units in the last digit, for every configuration) is false: `log_agm_inaccurate`, `log_agm_wrong`. -/
theorem log_agm_accuracy_partial (c : Cfg) (F : Flt) (h : ElemOk c F) (sq : ℚ → ℚ) (hsq : F.IsSqrt sq)
    (hd : 52 ≤ c.digits10) (K : ℕ) (hK : K ≤ 2500) (hr : 2 * ((c.digits10 + K : ℕ) : ℤ) + ((c.N : ℤ) + 8) * c.ed < c.maxExp)
    (F32 : Flt) (hF32 : F32.IsFloat) (l10 l2 : ℚ) (hl10 : |(l10 : ℝ) - log 10| ≤ 1 / 10 ^ 6) (hl2 : |(l2 : ℝ) - log 2| ≤ 8 / 10 ^ 7)
    (pi : DW) (hpi : Full c pi) (κ : ℝ) (hκ : κ ≤ 10 ^ 9) (hpe : |(pi.val c : ℝ) - π| ≤ κ / 10 ^ c.digits10)
    (ln2 : DW) (hln : Full c ln2) (lam : ℝ) (hlam : lam ≤ 10 ^ 9) (hle : |(ln2.val c : ℝ) - log 2| ≤ lam / 10 ^ c.digits10)
    (x : DW) (hx : Full c x) (hx1 : 1 < x.val c) (hxK : x.val c ≤ 10 ^ K) (r : DW) (n : ℕ)
    (hrun : logAgmAbove c (estSqrt c F sq) (estInv c F) F.digits10 F32 l10 l2 pi ln2 x = some (r, some n))
    (hoff : ∀ b0, ldexp c (estInv c F) F.digits10 (one c) (2 - logM c F32 l10 l2 x) = some b0 →
      ∀ p ∈ agmProducts c (estSqrt c F sq) (estInv c F) F.digits10 (agmGoal c) 128 (one c) (divAssign c (estInv c F) F.digits10 b0 x),
        OffSquares c (60 / 10 ^ F.digits10 + 320 / 10 ^ (c.digits10 + 2 * c.ed)) (p.val c)) :
    n < 128 ∧ Full c r ∧ |(r.val c : ℝ) - log (x.val c)| ≤ (6 / 5 * c.digits10 + log (x.val c)) * (17 + κ / 2) / 10 ^ c.digits10 +
      (6 / 5 * c.digits10 + log (x.val c)) * (3 * (n + 1)) / 10 ^ (c.digits10 + c.ed) + (17 / 10 * c.digits10 * lam + 30) / 10 ^ c.digits10 := by
  have hN : c.N < 1793 := h.hok.1
  have hed := two_le_ed c
  have hed8 := ed_le8 c
  have h3 := c.three_le_N
  have hdl := c.digits_le
  have hhi := h.hi
  have hsub : c.ed * (c.N - 1) = c.ed * c.N - c.ed := by rw [Nat.mul_sub, mul_one]
  have hexp : ((c.N : ℤ) + 8) * c.ed = (c.ed * c.N : ℕ) + 8 * c.ed := by push_cast; ring
  have hA : AgmOk c := ⟨h.hok, by omega, by omega⟩
  have hR : AgmRng c (c.digits10 + K) := ⟨hA, hr⟩
  have hx0 : 0 < x.val c := by linarith
  have hxz := isZero_false_of_val hx.toWF hx0.ne'
  -- the exponent
  obtain ⟨k1, k2⟩ := ilogb_spec hx.toWF hxz
  rw [abs_of_pos hx0] at k1 k2
  obtain ⟨k, hk⟩ : ∃ k : ℕ, ilogb x = k := by
    refine ⟨(ilogb x).toNat, ?_⟩
    have : 0 ≤ ilogb x := by
      by_contra hc
      have : (10 : ℚ) ^ (ilogb x + 1) ≤ 10 ^ (0 : ℤ) := zpow_le_zpow_right₀ (by norm_num) (by omega)
      rw [zpow_zero] at this; linarith
    omega
  rw [hk, zpow_natCast] at k1
  have lt1 := Real.log_two_gt_d9
  have lt2 := Real.log_two_lt_d9
  have lten := log_ten_interval
  obtain ⟨i1, i2⟩ := abs_le.mp hl10
  obtain ⟨j1, j2⟩ := abs_le.mp hl2
  obtain ⟨m1, m2, m3⟩ := logM_bounds (c := c) hF32 hd (l10 := l10) (l2 := l2)
    (by have : ((2302584 / 10 ^ 6 : ℚ) : ℝ) ≤ l10 := by
          have := lten.1
          norm_num at this ⊢; linarith
        exact_mod_cast this)
    (by have : (l10 : ℝ) ≤ ((2302587 / 10 ^ 6 : ℚ) : ℝ) := by
          have := lten.2
          norm_num at this ⊢; linarith
        exact_mod_cast this)
    (by have : ((693146 / 10 ^ 6 : ℚ) : ℝ) ≤ l2 := by push_cast; norm_num at lt1 ⊢; linarith
        exact_mod_cast this)
    (by have : (l2 : ℝ) ≤ ((693148 / 10 ^ 6 : ℚ) : ℝ) := by push_cast; norm_num at lt2 ⊢; linarith
        exact_mod_cast this) hk
  obtain ⟨m, hm⟩ : ∃ m : ℕ, logM c F32 l10 l2 x = m := ⟨(logM c F32 l10 l2 x).toNat, by omega⟩
  rw [hm] at m1 m2 m3
  obtain ⟨b0, b1, b2, b3⟩ := log_start h hN hd hr hx hx1 hxK (m := m) (by omega) (by omega)
  have hprec : precision c (one c) (x.prec * c.ed : ℕ) = one c := by rw [hx.full]; exact precision_full_one c
  rw [logAgmAbove_eq (by rw [hprec, hm]; exact b1), hm, logGoal_full hx.full] at hrun
  have hoff' := hoff b0 (by rw [hm]; exact b1)
  clear hoff
  generalize divAssign c (estInv c F) F.digits10 b0 x = b at *
  obtain ⟨e, he⟩ : ∃ e : ℝ, e = 1 / 10 ^ c.digits10 := ⟨_, rfl⟩
  have e0 : 0 < e := by rw [he]; positivity
  have e1 : e ≤ 1 / 10 ^ 52 := by rw [he]; exact one_div_le_one_div_of_le (by positivity) (pow_le_pow_right₀ (by norm_num) hd)
  have e20 : e ≤ 1 / 10 ^ 20 := le_trans e1 (by norm_num)
  have e6 : e ≤ 1 / 10 ^ 6 := le_trans e1 (by norm_num)
  have xR1 : (1 : ℝ) < x.val c := by exact_mod_cast hx1
  have xR0 : (0 : ℝ) < x.val c := by linarith
  obtain ⟨z, hz⟩ : ∃ z : ℝ, z = 2 ^ m * x.val c := ⟨_, rfl⟩
  have z0 : 0 < z := by rw [hz]; positivity
  rw [← hz, ← he] at b3
  have hlz : log z = m * log 2 + log (x.val c) := by
    rw [hz, Real.log_mul (by positivity) xR0.ne', Real.log_pow]
  have hz2 : 1 / (4 * e) ≤ z ^ 2 := by
    have hxk : (10 : ℝ) ^ k ≤ x.val c := by
      have := (Rat.cast_le (K := ℝ)).mpr k1; push_cast at this; exact this
    have t1 : (10 : ℝ) ^ c.digits10 ≤ 4 * (4 ^ m * 100 ^ k) := by
      by_cases hc : c.digits10 ≤ 2 * k
      · calc (10 : ℝ) ^ c.digits10 ≤ 10 ^ (2 * k) := pow_le_pow_right₀ (by norm_num) hc
          _ = 1 * (1 * 100 ^ k) := by rw [pow_mul]; norm_num
          _ ≤ _ := by gcongr; norm_num; exact one_le_pow₀ (by norm_num)
      · have := ten_le_four (d := c.digits10 - 2 * k) (m := m) (by omega)
        calc (10 : ℝ) ^ c.digits10 = 10 ^ (c.digits10 - 2 * k) * 100 ^ k := by
              rw [show (100 : ℝ) = 10 ^ 2 by norm_num, ← pow_mul, ← pow_add]; congr 1; omega
          _ ≤ 4 ^ (m + 1) * 100 ^ k := by gcongr
          _ = _ := by rw [pow_succ]; ring
    have t2 : (4 : ℝ) ^ m * 100 ^ k ≤ z ^ 2 := by
      rw [hz, mul_pow, ← pow_mul, mul_comm m 2, pow_mul, show (2 : ℝ) ^ 2 = 4 by norm_num]
      have : (100 : ℝ) ^ k ≤ (x.val c : ℝ) ^ 2 := by
        rw [show (100 : ℝ) = 10 ^ 2 by norm_num, ← pow_mul, mul_comm 2 k, pow_mul]
        exact pow_le_pow_left₀ (by positivity) hxk 2
      gcongr
    rw [div_le_iff₀ (by positivity)]
    have t3 : (10 : ℝ) ^ c.digits10 * e = 1 := by rw [he]; field_simp
    have t4 : (10 : ℝ) ^ c.digits10 * e ≤ 4 * z ^ 2 * e := mul_le_mul_of_nonneg_right (by linarith) e0.le
    linarith
  obtain ⟨s1, s2, s3, s4⟩ := ell_start2 z0 e0 e1 hz2 b3
  rw [hlz] at s3 s4
  have mR1 : (3 : ℝ) ≤ m := by have : 3 ≤ m := by omega
                               exact_mod_cast this
  have mR2 : (m : ℝ) ≤ 24045 := by have : m ≤ 24045 := by omega
                                   exact_mod_cast this
  have mR3 : 100 * (m : ℝ) ≤ 168 * c.digits10 := by have : 100 * m ≤ 168 * c.digits10 := by omega
                                                    exact_mod_cast this
  have mL1 : 3 * (69 / 100) ≤ (m : ℝ) * log 2 := mul_le_mul mR1 (by linarith) (by norm_num) (by linarith)
  have mL2 : (m : ℝ) * log 2 ≤ 24045 * (6932 / 10000) := mul_le_mul mR2 (by linarith) (by linarith) (by norm_num)
  have lx0 : 0 ≤ log (x.val c : ℝ) := Real.log_nonneg xR1.le
  have lx1 : log (x.val c : ℝ) ≤ 5757 := by
    have t1 : (x.val c : ℝ) ≤ 10 ^ K := by
      have := (Rat.cast_le (K := ℝ)).mpr hxK; push_cast at this; exact this
    have t2 := Real.log_le_log xR0 t1
    rw [Real.log_pow] at t2
    have t3 : (K : ℝ) ≤ 2500 := by exact_mod_cast hK
    have t4 : log 10 ≤ 23026 / 10000 := by have := lten.2; norm_num at this ⊢; linarith
    have t5 : (K : ℝ) * log 10 ≤ 2500 * (23026 / 10000) := mul_le_mul t3 t4 (Real.log_nonneg (by norm_num)) (by norm_num)
    linarith
  obtain ⟨Z, hZ⟩ : ∃ Z : ℝ, Z = m * log 2 + log (x.val c : ℝ) := ⟨_, rfl⟩
  rw [← hZ] at s3 s4
  have hE2 : ell 1 (b.val c) ≤ 22500 := by
    have : 1602 / 100 * e * (Z + 11 / 10) ≤ 1602 / 100 * e * 22500 := mul_le_mul_of_nonneg_left (by linarith) (by positivity)
    linarith
  have hE1 : 1 ≤ ell 1 (b.val c) := by linarith
  -- lower bound of b
  have hbl : 2 * (10 : ℚ) ^ (-((c.digits10 + K : ℕ) : ℤ)) ≤ b.val c := by
    have : (2 : ℝ) * 10 ^ (-((c.digits10 + K : ℕ) : ℤ)) ≤ b.val c := by
      rw [zpow_neg, zpow_natCast]
      have h2d : (2 : ℝ) ^ m ≤ 10 ^ c.digits10 := by
        have : ((2 : ℝ) ^ m) ^ 3 ≤ (10 ^ c.digits10) ^ 3 := by
          calc ((2 : ℝ) ^ m) ^ 3 = 2 ^ (3 * m) := by rw [← pow_mul, mul_comm]
            _ ≤ 2 ^ (9 * c.digits10) := pow_le_pow_right₀ (by norm_num) (by omega)
            _ = 512 ^ c.digits10 := by rw [pow_mul]; norm_num
            _ ≤ 1000 ^ c.digits10 := pow_le_pow_left₀ (by norm_num) (by norm_num) _
            _ = _ := by rw [← pow_mul, mul_comm, pow_mul]; norm_num
        exact le_of_pow_le_pow_left₀ (by norm_num) (by positivity) this
      have hzu : z ≤ 10 ^ (c.digits10 + K) := by
        rw [hz, pow_add]
        have := (Rat.cast_le (K := ℝ)).mpr hxK
        push_cast at this
        exact mul_le_mul h2d this xR0.le (by positivity)
      have k1 : (1 : ℝ) / 10 ^ (c.digits10 + K) ≤ 1 / z := one_div_le_one_div_of_le z0 hzu
      have k2 := (abs_le.mp b3).1
      rw [show (4 : ℝ) / z = 4 * (1 / z) by ring] at k2
      have k3 : (1 : ℝ) / z * e ≤ 1 / z * (1 / 100) := mul_le_mul_of_nonneg_left (by linarith) (by positivity)
      have k4 : (0 : ℝ) < 1 / z := by positivity
      rw [← one_div]
      linarith
    have h2 : (((2 : ℚ) * 10 ^ (-((c.digits10 + K : ℕ) : ℤ)) : ℚ) : ℝ) ≤ (b.val c : ℝ) := by push_cast at this ⊢; exact this
    exact_mod_cast h2
  have hbu : b.val c ≤ 3 := by
    have : (b.val c : ℝ) ≤ 3 := by linarith
    exact_mod_cast this
  have o3 := one_val c
  have hal : 2 * (10 : ℚ) ^ (-((c.digits10 + K : ℕ) : ℤ)) ≤ 1 := by
    have : (10 : ℚ) ^ (-((c.digits10 + K : ℕ) : ℤ)) ≤ 10 ^ (-1 : ℤ) := zpow_le_zpow_right₀ (by norm_num) (by omega)
    rw [show (10 : ℚ) ^ (-1 : ℤ) = 1 / 10 by norm_num] at this
    linarith
  have hS : AgmSqrtOk c (estSqrt c F sq) F.digits10 := fun x hx h0 => (sqrt_start_ok h.hF hsq (posi_of_val hx.toWF h0) h.hK).1
  have key := fun s n hl => agm_total (est := estInv c F) (D := c.digits10 + K) (s := s) (n := n) hR (digits10_ge h.hF) hS (one_full c) b2
    (by rw [o3]; exact hal) (by rw [o3]; norm_num) hbl hbu (by rw [o3, Rat.cast_one]; exact hE2) (by rw [o3, Rat.cast_one]; exact hE1) hl hoff'
  clear hoff'
  generalize agmLoop c (estSqrt c F sq) (estInv c F) F.digits10 (agmGoal c) 128 (one c) b = q at *
  obtain ⟨s, no⟩ := q
  simp only [Option.some.injEq, Prod.mk.injEq] at hrun
  obtain ⟨f1, f2, f3, f4, f5⟩ := key s n (by rw [hrun.2])
  replace hrun := hrun.1
  rw [o3, Rat.cast_one] at f5
  refine ⟨f1, ?_⟩
  have nonneg : ∀ t : ℝ, 0 ≤ t / 10 ^ c.digits10 → 0 ≤ t := by
    intro t ht
    by_contra hc
    exact absurd ht (not_le.mpr (div_neg_of_neg_of_pos (not_le.mp hc) (by positivity)))
  have hκ0 : 0 ≤ κ := nonneg κ (le_trans (abs_nonneg _) hpe)
  have hlam0 : 0 ≤ lam := nonneg lam (le_trans (abs_nonneg _) hle)
  rw [show κ / 10 ^ c.digits10 = κ * e by rw [he]; ring] at hpe
  rw [show lam / 10 ^ c.digits10 = lam * e by rw [he]; ring] at hle
  have hκe : κ * e ≤ 1 / 10 ^ 6 := by
    calc κ * e ≤ 10 ^ 9 * (1 / 10 ^ 52) := mul_le_mul hκ e1 e0.le (by norm_num)
      _ ≤ _ := by norm_num
  have hlame : lam * e ≤ 1 / 10 ^ 6 := by
    calc lam * e ≤ 10 ^ 9 * (1 / 10 ^ 52) := mul_le_mul hlam e1 e0.le (by norm_num)
      _ ≤ _ := by norm_num
  have d0 := agmDelta_pos c
  have d0' : (0 : ℝ) < agmDelta c := by exact_mod_cast d0
  have hδe : (agmDelta c : ℝ) ≤ e / 100 := by
    rw [he]; exact agmDelta_hundredth c
  have hnR : (n : ℝ) ≤ 128 := by exact_mod_cast f1.le
  have hn0 : (0 : ℝ) ≤ n := by positivity
  have hρ : (22 / 10 * n + 2 / 10) * (agmDelta c : ℝ) ≤ 1 / 10 ^ 5 := by
    calc (22 / 10 * n + 2 / 10) * (agmDelta c : ℝ) ≤ (22 / 10 * 128 + 2 / 10) * (e / 100) := by gcongr
      _ ≤ _ := by linarith
  have hμ : 100 * (mulEps c : ℝ) ≤ agmDelta c := by exact_mod_cast mulEps_delta c
  have hμ0 : 0 ≤ (mulEps c : ℝ) := by exact_mod_cast (mulEps_pos c).le
  obtain ⟨x1, x2⟩ := agm_quot_dw h hN hpi f2 (by linarith) hpe (by linarith) (by linarith) f3 f4 f5 (Or.inr rfl)
  generalize mulAssign c (calcInv c (estInv c F) F.digits10 s) pi = y at *
  have hsm : 34 / 100 * (κ * e) + 102 / 100 * ((22 / 10 * n + 2 / 10) * (agmDelta c : ℝ)) + 7 * (mulEps c : ℝ) ≤ 1 / 1000 := by linarith
  -- m·ln2
  have hmul : mulSLL c ln2 m = mulULL c ln2 m := by
    unfold mulSLL
    rw [castULL_nonneg (by omega) (by omega), Int.toNat_natCast]
    simp only [show ¬ ((m : ℤ) < 0) by omega, if_false]
  have lnl : (1 : ℚ) / 2 ≤ ln2.val c ∧ ln2.val c < 1 := by
    have a : ((1 / 2 : ℚ) : ℝ) ≤ ln2.val c := by push_cast; linarith [(abs_le.mp hle).1]
    have b : (ln2.val c : ℝ) < ((1 : ℚ) : ℝ) := by push_cast; linarith [(abs_le.mp hle).2]
    exact ⟨by exact_mod_cast a, by exact_mod_cast b⟩
  obtain ⟨-, xe1, xe2⟩ := exp_moderate hln (by rw [abs_of_pos (by linarith)]; linarith) (by rw [abs_of_pos (by linarith)]; linarith)
  obtain ⟨w1, w2, -⟩ := mulU_moderate hA hln (fun _ => by omega) (by rw [abs_of_pos (by linarith)]; linarith) (n := m) (by omega) (by omega)
  rw [hmul] at hrun
  generalize mulULL c ln2 m = w at *
  obtain ⟨r1, r2, -⟩ := sub_op x1 w1
  rw [hrun] at r1 r2
  refine ⟨r1, ?_⟩
  rw [abs_of_pos (by linarith : 0 < ln2.val c)] at w2
  have w2R := (Rat.cast_le (K := ℝ)).mpr w2
  have r2R := (Rat.cast_le (K := ℝ)).mpr r2
  push_cast at w2R r2R
  have hdR : (52 : ℝ) ≤ c.digits10 := by exact_mod_cast hd
  have := log_end (d := c.digits10) (L := log 2) (lx := log (x.val c)) (δ := agmDelta c) (μ := mulEps c) (lam := lam) hdR (by linarith) (by linarith)
    mR1 mR3 e0 e20 hκ0 hn0 d0'.le hμ0 hμ hδe hZ lx0 (by linarith) hlam0 (by linarith) s3 s4 hsm x2 hle w2R r2R
  refine le_trans this (le_of_eq ?_)
  rw [he]; unfold agmDelta; push_cast; ring

/-- C60: above 1 `log` is the function of `log_agm_accuracy_partial`, and log(1) = 0. -/
theorem log_agm_cases (c : Cfg) (estS : DW → DW × DW) (est : DW → DW) (fdig : ℕ) (F32 : Flt) (l10 l2 : ℚ) (pi ln2 x : DW) (hx : Full c x) (depth : ℕ) :
    (1 < x.val c → logAgm c estS est fdig F32 l10 l2 pi ln2 (depth + 1) x = (logAgmAbove c estS est fdig F32 l10 l2 pi ln2 x).map (·.1)) ∧
    (x.val c = 1 → logAgm c estS est fdig F32 l10 l2 pi ln2 (depth + 1) x = some (zero c)) ∧
    (x.val c < 1 → logAgm c estS est fdig F32 l10 l2 pi ln2 (depth + 1) x =
      (logAgm c estS est fdig F32 l10 l2 pi ln2 depth (calcInv c est fdig x)).map negate) := by
  obtain ⟨o1, -, -, -, -, o2⟩ := ordering_matches_value c x (one c) hx.toWF (one_full c).toWF
  rw [one_val] at o1 o2
  refine ⟨fun h => ?_, fun h => ?_, fun h => ?_⟩
  · rw [logAgm, if_neg (by rw [o1]; linarith), if_pos (by rw [o2]; exact h)]
  · rw [logAgm, if_neg (by rw [o1, h]; exact lt_irrefl _), if_neg (by rw [o2, h]; exact lt_irrefl _)]
  · rw [logAgm, if_pos (o1.mpr h)]

/-- C60, below 1: for 10^-K ≤ x < 1, x off the powers of the radix (and off 1) by a few units of the last limb but one, `log`
    takes the reciprocal w > 1 of x, and the result has the accuracy of `log_agm_accuracy_partial`. -/
theorem log_agm_below_partial (c : Cfg) (F : Flt) (h : ElemOk c F) (sq : ℚ → ℚ) (hsq : F.IsSqrt sq)
    (hd : 52 ≤ c.digits10) (K : ℕ) (hK : K < 2500) (hr : 2 * ((c.digits10 + (K + 1) : ℕ) : ℤ) + ((c.N : ℤ) + 8) * c.ed < c.maxExp)
    (F32 : Flt) (hF32 : F32.IsFloat) (l10 l2 : ℚ) (hl10 : |(l10 : ℝ) - log 10| ≤ 1 / 10 ^ 6) (hl2 : |(l2 : ℝ) - log 2| ≤ 8 / 10 ^ 7)
    (pi : DW) (hpi : Full c pi) (κ : ℝ) (hκ : κ ≤ 10 ^ 9) (hpe : |(pi.val c : ℝ) - π| ≤ κ / 10 ^ c.digits10)
    (ln2 : DW) (hln : Full c ln2) (lam : ℝ) (hlam : lam ≤ 10 ^ 9) (hle : |(ln2.val c : ℝ) - log 2| ≤ lam / 10 ^ c.digits10)
    (x : DW) (hx : Full c x) (hx1 : x.val c < 1) (hxK : 1 / 10 ^ K ≤ x.val c)
    (hrad : ∀ k : ℤ, 10 / 10 ^ (c.digits10 + 2 * c.ed) ≤ |x.val c * (c.B : ℚ) ^ k - 1|) (r : DW) (n : ℕ)
    (hrun : logAgmAbove c (estSqrt c F sq) (estInv c F) F.digits10 F32 l10 l2 pi ln2 (calcInv c (estInv c F) F.digits10 x) = some (r, some n))
    (hoff : ∀ b0, ldexp c (estInv c F) F.digits10 (one c) (2 - logM c F32 l10 l2 (calcInv c (estInv c F) F.digits10 x)) = some b0 →
      ∀ p ∈ agmProducts c (estSqrt c F sq) (estInv c F) F.digits10 (agmGoal c) 128 (one c)
          (divAssign c (estInv c F) F.digits10 b0 (calcInv c (estInv c F) F.digits10 x)),
        OffSquares c (60 / 10 ^ F.digits10 + 320 / 10 ^ (c.digits10 + 2 * c.ed)) (p.val c)) :
    n < 128 ∧ (∀ depth, logAgm c (estSqrt c F sq) (estInv c F) F.digits10 F32 l10 l2 pi ln2 (depth + 2) x = some (negate r)) ∧ Full c (negate r) ∧
    |((negate r).val c : ℝ) - log (x.val c)| ≤ (6 / 5 * c.digits10 + 1 - log (x.val c)) * (17 + κ / 2) / 10 ^ c.digits10 +
      (6 / 5 * c.digits10 + 1 - log (x.val c)) * (3 * (n + 1)) / 10 ^ (c.digits10 + c.ed) + (17 / 10 * c.digits10 * lam + 31) / 10 ^ c.digits10 := by
  have hN : c.N < 1793 := h.hok.1
  have hed := two_le_ed c
  have hed8 := ed_le8 c
  have h3 := c.three_le_N
  have hexp : ((c.N : ℤ) + 8) * c.ed = (c.ed * c.N : ℕ) + 8 * c.ed := by push_cast; ring
  have hx0 : 0 < x.val c := lt_of_lt_of_le (by positivity) hxK
  have hxz := isZero_false_of_val hx.toWF hx0.ne'
  obtain ⟨-, xe1, xe2⟩ := agm_exp_range hx (D := K) (by rw [abs_of_pos hx0, zpow_neg, zpow_natCast, ← one_div]; exact hxK)
    (by rw [abs_of_pos hx0]; linarith)
  obtain ⟨i1, i2, i3⟩ := inv_accuracy_any c F h.hF h.hK x hx hx0.ne' h.hok (by omega) (by omega) (by omega)
  have hcase := fun depth => (log_agm_cases c (estSqrt c F sq) (estInv c F) F.digits10 F32 l10 l2 pi ln2 x hx (depth + 1)).2.2 hx1
  generalize calcInv c (estInv c F) F.digits10 x = w at *
  obtain ⟨μ, hμ⟩ : ∃ μ : ℚ, μ = 1 / 10 ^ (c.digits10 + 2 * c.ed) := ⟨_, rfl⟩
  have μ0 : 0 < μ := by rw [hμ]; positivity
  have μ1 : μ ≤ 1 / 10 ^ 3 := by rw [hμ]; exact one_div_le_one_div_of_le (by positivity) (pow_le_pow_right₀ (by norm_num) (by omega))
  rw [show (5 : ℚ) / 10 ^ (c.digits10 + 2 * c.ed) = 5 * μ by rw [hμ]; ring] at i2
  rw [show (10 : ℚ) / 10 ^ (c.digits10 + 2 * c.ed) = 10 * μ by rw [hμ]; ring] at hrad
  have w0 : 0 < w.val c := by
    rcases lt_trichotomy (w.val c) 0 with hw | hw | hw
    · have := i1.mp hw; linarith
    · rw [hw, zero_mul] at i2; norm_num at i2; linarith
    · exact hw
  have hwF : Full c w := by
    rcases i3 with hf | ⟨hf, hdv, -⟩
    · exact hf
    · exfalso
      have := nearMal_abs hf
      rw [abs_of_pos w0] at this
      obtain ⟨j, hj⟩ := hdv
      have e : w.val c = (c.B : ℚ) ^ (j + 1) := by
        rw [this, hj, c.B_eq]; push_cast
        rw [← zpow_natCast, ← zpow_mul]; congr 1; ring
      have h2 := hrad (j + 1)
      rw [← e, mul_comm (x.val c)] at h2
      linarith
  have hw1 : 1 < w.val c := by
    have h2 := hrad 0
    rw [zpow_zero, mul_one, abs_of_neg (by linarith)] at h2
    by_contra hc
    have : w.val c * x.val c ≤ 1 * x.val c := mul_le_mul_of_nonneg_right (not_lt.mp hc) hx0.le
    have := (abs_lt.mp i2).1
    linarith
  have hwK : w.val c ≤ 10 ^ (K + 1) := by
    by_contra hc
    have : 10 ^ (K + 1) * (1 / 10 ^ K) ≤ w.val c * x.val c := mul_le_mul (not_le.mp hc).le hxK (by positivity) w0.le
    rw [pow_succ] at this
    have e : (10 : ℚ) ^ K * 10 * (1 / 10 ^ K) = 10 := by field_simp
    rw [e] at this
    have := (abs_lt.mp i2).2
    linarith
  obtain ⟨a1, a2, a3⟩ := log_agm_accuracy_partial c F h sq hsq hd (K + 1) (by omega) hr F32 hF32 l10 l2 hl10 hl2 pi hpi κ hκ hpe ln2 hln lam hlam hle
    w hwF hw1 hwK r n hrun hoff
  refine ⟨a1, fun depth => ?_, negate_full a2, ?_⟩
  · rw [hcase depth, (log_agm_cases c (estSqrt c F sq) (estInv c F) F.digits10 F32 l10 l2 pi ln2 w hwF depth).1 hw1, hrun]
    rfl
  · rw [negate_val c a2.toWF]
    push_cast
    have xR : (0 : ℝ) < x.val c := by exact_mod_cast hx0
    have wR : (0 : ℝ) < w.val c := by exact_mod_cast w0
    have i2R : |(w.val c : ℝ) * x.val c - 1| ≤ 5 * (μ : ℝ) := by
      have := (Rat.cast_le (K := ℝ)).mpr i2.le; push_cast at this; exact this
    have μ1R : (μ : ℝ) ≤ 1 / 10 ^ 3 := by
      have := (Rat.cast_le (K := ℝ)).mpr μ1; push_cast at this; exact this
    have hl := log_one_add_abs (η := (w.val c : ℝ) * x.val c - 1) (by linarith)
    rw [add_sub_cancel, Real.log_mul wR.ne' xR.ne'] at hl
    obtain ⟨e, he⟩ : ∃ e : ℝ, e = 1 / 10 ^ c.digits10 := ⟨_, rfl⟩
    have μe : (μ : ℝ) ≤ e / 10 ^ 4 := by
      rw [hμ, he]; push_cast
      rw [pow_add, div_div]
      refine one_div_le_one_div_of_le (by positivity) ?_
      gcongr
      · norm_num
      · omega
    have e0 : 0 < e := by rw [he]; positivity
    obtain ⟨p1, p2⟩ := abs_le.mp hl
    generalize log (w.val c : ℝ) = lw at *
    generalize log (x.val c : ℝ) = lx at *
    have hlw : lw ≤ 1 - lx := by linarith
    have hκ0 : 0 ≤ κ := by
      by_contra hc
      exact absurd (le_trans (abs_nonneg _) hpe) (not_le.mpr (div_neg_of_neg_of_pos (not_le.mp hc) (by positivity)))
    have t1 : (6 / 5 * (c.digits10 : ℝ) + lw) * (17 + κ / 2) / 10 ^ c.digits10 ≤ (6 / 5 * (c.digits10 : ℝ) + 1 - lx) * (17 + κ / 2) / 10 ^ c.digits10 := by
      gcongr ?_ * _ / _; linarith
    have t2 : (6 / 5 * (c.digits10 : ℝ) + lw) * (3 * (n + 1)) / 10 ^ (c.digits10 + c.ed) ≤ (6 / 5 * (c.digits10 : ℝ) + 1 - lx) * (3 * (n + 1)) / 10 ^ (c.digits10 + c.ed) := by
      gcongr ?_ * _ / _; linarith
    have t3 : (17 / 10 * (c.digits10 : ℝ) * lam + 31) / 10 ^ c.digits10 = (17 / 10 * (c.digits10 : ℝ) * lam + 30) / 10 ^ c.digits10 + e := by rw [he]; ring
    rw [t3]
    obtain ⟨q1, q2⟩ := abs_le.mp a3
    rw [abs_le]; constructor <;> linarith

theorem exU52_log_products : ∀ p ∈ agmProducts exU52 (estSqrt exU52 exDoubleK (sqK 53)) (estInv exU52 exDoubleK) 15 (agmGoal exU52) 128 (one exU52)
      (divAssign exU52 (estInv exU52 exDoubleK) 15 ((ldexp exU52 (estInv exU52 exDoubleK) 15 (one exU52)
        (2 - logM exU52 exFloatK exL10 exL2 (ofUnsigned exU52 32 10))).getD (zero exU52)) (ofUnsigned exU52 32 10)),
    ∃ j ∈ [0, -1, -2, -3, -4], offSqCheck exU52 (60 / 10 ^ 15 + 320 / 10 ^ (52 + 2 * 8)) (p.val exU52) j = true := by decide +kernel

theorem exL_err : |(exL10 : ℝ) - log 10| ≤ 1 / 10 ^ 6 ∧ |(exL2 : ℝ) - log 2| ≤ 8 / 10 ^ 7 := by
  have h1 := log_ten_interval
  have h2 := log_two_interval
  unfold exL10 exL2
  rw [abs_le, abs_le]
  norm_num at h1 h2 ⊢
  refine ⟨⟨?_, ?_⟩, ?_, ?_⟩ <;> linarith [h1.1, h1.2, h2.1, h2.2]

/-- The conditions are met by log(10) of `decwide_t<52>` with the default double: the error is at most 3·10^-49. -/
example : ∃ pi ln2 r, pi = (calcPi exU52 (estSqrt exU52 exDouble (sqK 53)) (estInv exU52 exDouble) exDouble.digits10).1 ∧
    calcLnTwo exU52 (estSqrt exU52 exDouble (sqK 53)) (estInv exU52 exDouble) exDouble.digits10 exFloat pi = some (ln2, some 10) ∧
    (∀ depth, logAgm exU52 (estSqrt exU52 exDouble (sqK 53)) (estInv exU52 exDouble) exDouble.digits10 exFloat exL10 exL2 pi ln2 (depth + 1)
      (ofUnsigned exU52 32 10) = some r) ∧
    |(r.val exU52 : ℝ) - log 10| ≤ 3 / 10 ^ 49 := by
  obtain ⟨t1, t2, -⟩ := of_unsigned_exact exU52 32 10 (by norm_num) (by norm_num)
  have t3 : (ofUnsigned exU52 32 10).val exU52 = 10 := by
    have := t2 (by decide); rw [this]; norm_num
  have hrun : logAgmAbove exU52 (estSqrt exU52 exDouble (sqK 53)) (estInv exU52 exDouble) exDouble.digits10 exFloat exL10 exL2 exU52pi exU52ln
      (ofUnsigned exU52 32 10) = some (exU52log, some 10) := by
    rw [← exDoubleK_eq, ← exFloatK_eq, show exDoubleK.digits10 = 15 from rfl, exU52_log]
  have hlnF : Full exU52 exU52ln := ⟨⟨rfl, by decide, by decide, by decide, by decide, by decide⟩, by decide⟩
  refine ⟨exU52pi, exU52ln, exU52log, exU52_pi_double.symm, exU52_ln_double, fun depth => ?_, ?_⟩
  · rw [(log_agm_cases exU52 _ _ _ _ _ _ _ _ _ t1 depth).1 (by rw [t3]; norm_num), hrun]; rfl
  · obtain ⟨-, -, e⟩ := log_agm_accuracy_partial exU52 exDouble exU52_elem (sqK 53) sqK_double (by decide) 1 (by norm_num) (by decide)
      exFloat ⟨rfl, rfl, rfl⟩ exL10 exL2 exL_err.1 exL_err.2 exU52pi exU52_pi_err.1 1 (by norm_num) exU52_pi_err.2 exU52ln hlnF 14 (by norm_num)
      exU52_ln_err (ofUnsigned exU52 32 10) t1 (by rw [t3]; norm_num) (by rw [t3]; norm_num) exU52log 10 hrun (by
        intro b hb p hpm
        rw [← exDoubleK_eq, ← exFloatK_eq, show exDoubleK.digits10 = 15 from rfl] at hb
        rw [← exDoubleK_eq, show exDoubleK.digits10 = 15 from rfl] at hpm
        obtain ⟨j, -, hj⟩ := exU52_log_products p (by rw [hb]; exact hpm)
        exact offSquares_check (by norm_num [show exDouble.digits10 = 15 from rfl, show exU52.digits10 = 52 from rfl, show exU52.ed = 8 from rfl]) hj)
    rw [t3, show exU52.digits10 = 52 from rfl, show exU52.ed = 8 from rfl] at e
    push_cast at e
    refine le_trans e ?_
    have := log_ten_interval.2
    norm_num at this ⊢
    linarith

def exU52log2 : DW := { data := [69314718, 5599453, 9417232, 12145817, 65680755, 134360, 22599756, 61858648, 38923765, 0], exp := -8, neg := false, prec := 10 }

theorem exU52_inv : calcInv exU52 (estInv exU52 exDoubleK) 15 (half exU52) = two exU52 := by decide +kernel
theorem exU52_log2 : logAgmAbove exU52 (estSqrt exU52 exDoubleK (sqK 53)) (estInv exU52 exDoubleK) 15 exFloatK exL10 exL2 exU52pi exU52ln
    (two exU52) = some (exU52log2, some 10) := by decide +kernel
theorem exU52_log2_products : ∀ p ∈ agmProducts exU52 (estSqrt exU52 exDoubleK (sqK 53)) (estInv exU52 exDoubleK) 15 (agmGoal exU52) 128 (one exU52)
      (divAssign exU52 (estInv exU52 exDoubleK) 15 ((ldexp exU52 (estInv exU52 exDoubleK) 15 (one exU52)
        (2 - logM exU52 exFloatK exL10 exL2 (two exU52))).getD (zero exU52)) (two exU52)),
    ∃ j ∈ [0, -1, -2, -3, -4], offSqCheck exU52 (60 / 10 ^ 15 + 320 / 10 ^ (52 + 2 * 8)) (p.val exU52) j = true := by decide +kernel

/-- The conditions of `log_agm_below_partial` are met by log(1/2) of `decwide_t<52>`. -/
example : (∀ depth, logAgm exU52 (estSqrt exU52 exDouble (sqK 53)) (estInv exU52 exDouble) exDouble.digits10 exFloat exL10 exL2 exU52pi exU52ln
      (depth + 2) (half exU52) = some (negate exU52log2)) ∧ |((negate exU52log2).val exU52 : ℝ) - log (1 / 2)| ≤ 3 / 10 ^ 49 := by
  have hinv : calcInv exU52 (estInv exU52 exDouble) exDouble.digits10 (half exU52) = two exU52 := by
    rw [← exDoubleK_eq]; exact exU52_inv
  have hlnF : Full exU52 exU52ln := ⟨⟨rfl, by decide, by decide, by decide, by decide, by decide⟩, by decide⟩
  have hB : (exU52.B : ℚ) = 10 ^ 8 := by norm_num [show exU52.B = 100000000 from rfl]
  obtain ⟨-, a, -, e⟩ := log_agm_below_partial exU52 exDouble exU52_elem (sqK 53) sqK_double (by decide) 1 (by norm_num) (by decide)
      exFloat ⟨rfl, rfl, rfl⟩ exL10 exL2 exL_err.1 exL_err.2 exU52pi exU52_pi_err.1 1 (by norm_num) exU52_pi_err.2 exU52ln hlnF 14 (by norm_num)
      exU52_ln_err (half exU52) (half_full exU52) (by rw [half_val]; norm_num) (by rw [half_val]; norm_num) (by
        intro k
        rw [half_val, hB, show exU52.digits10 = 52 from rfl, show exU52.ed = 8 from rfl]
        rcases lt_or_ge k 1 with hk | hk
        · have h0 : (0 : ℚ) < (10 ^ 8 : ℚ) ^ k := by positivity
          have h1 : (10 ^ 8 : ℚ) ^ k ≤ (10 ^ 8 : ℚ) ^ (0 : ℤ) := zpow_le_zpow_right₀ (by norm_num) (by omega)
          generalize (10 ^ 8 : ℚ) ^ k = y at h0 h1 ⊢
          rw [zpow_zero] at h1
          rw [abs_of_neg (by linarith)]
          norm_num
          linarith
        · have h1 : (10 ^ 8 : ℚ) ^ (1 : ℤ) ≤ (10 ^ 8 : ℚ) ^ k := zpow_le_zpow_right₀ (by norm_num) hk
          generalize (10 ^ 8 : ℚ) ^ k = y at h1 ⊢
          rw [zpow_one] at h1
          rw [abs_of_pos (by linarith)]
          norm_num at h1 ⊢
          linarith) exU52log2 10
      (by rw [hinv, ← exDoubleK_eq, ← exFloatK_eq, show exDoubleK.digits10 = 15 from rfl, exU52_log2]) (by
        intro b hb p hpm
        rw [hinv, ← exDoubleK_eq, ← exFloatK_eq, show exDoubleK.digits10 = 15 from rfl] at hb
        rw [hinv, ← exDoubleK_eq, show exDoubleK.digits10 = 15 from rfl] at hpm
        obtain ⟨j, -, hj⟩ := exU52_log2_products p (by rw [hb]; exact hpm)
        exact offSquares_check (by norm_num [show exDouble.digits10 = 15 from rfl, show exU52.digits10 = 52 from rfl, show exU52.ed = 8 from rfl]) hj)
  refine ⟨a, ?_⟩
  rw [half_val, show exU52.digits10 = 52 from rfl, show exU52.ed = 8 from rfl] at e
  push_cast at e
  refine le_trans e ?_
  have h2 : log (1 / 2 : ℝ) = -log 2 := by rw [one_div, Real.log_inv]
  rw [h2]
  have := Real.log_two_lt_d9
  norm_num at this ⊢
  linarith

end WD
