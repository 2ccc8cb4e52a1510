import Verif.Proofs.Exp2Arg
/-
  `exp` above 2000 digits of a positive argument, up to the final reciprocal.
-/
namespace WD
open DW

theorem eta_N_mulEps (c : Cfg) : eta c c.N ≤ mulEps c := by
  unfold eta mulEps
  rw [one_div, ← zpow_natCast, ← zpow_neg]
  apply zpow_le_zpow_right₀ (by norm_num)
  have h1 := c.digits_le
  have h3 := c.three_le_N
  have : ((c.ed * (c.N - 1) : ℕ) : ℤ) = (c.ed : ℤ) * ((c.N : ℤ) - 1) := by push_cast [Nat.cast_sub (show 1 ≤ c.N by omega)]; ring
  omega

set_option maxHeartbeats 1000000 in
theorem exp2_pos_core {c : Cfg} {F X : Flt} (h : Exp2Ok c F) (hX1 : F.p ≤ X.p) (hX2 : F.maxDigits10 ≤ X.maxDigits10) {minN : ℚ} (hmin : minN ≤ 1 / 2)
    {ef : ℚ → ℚ} (hef : F.IsExp ef) {ew : ℕ} (hew : 2 ≤ ew) {lg : DW → Option DW} {xx l : DW} (hx : Full c xx) (hl : Full c l) (hx0 : 0 < xx.val c)
    (hx1 : xx.val c ≤ 148 * 10 ^ 7) (hx2 : xx.val c ≤ 23 / 10 * ((c.maxExp : ℚ) - 3)) (hlo : -(c.maxExp : ℤ) + 4 * c.ed + 10 < xx.exp)
    (hle : c.ed * (c.N : ℤ) - xx.exp ≤ 10 ^ (ew - 1))
    {lam : ℝ} (hlam : lam ≤ 1 / 10 ^ 12) (hl2 : |(l.val c : ℝ) - Real.log 2| ≤ lam) {ε : ℝ} (hε0 : 0 ≤ ε) (hε : ε ≤ 1 / 10 ^ 4)
    (hz0 : 0 ≤ (exp2Arg c (estInv c F) F.digits10 l xx).val c)
    (hlg : ∀ y0, exp2Start c (estInv c F) F.digits10 X F minN ef ew (exp2Arg c (estInv c F) F.digits10 l xx) = some y0 →
      ∀ a ∈ exp2Args c lg (c.N * c.ed) (F.digits10 - 1) y0 (exp2Arg c (estInv c F) F.digits10 l xx), ∃ r, lg a = some r ∧ WF c r ∧ a.prec ≤ r.prec ∧
        0 ≤ r.val c ∧ |(r.val c : ℝ) - Real.log (a.val c)| ≤ ε + 10 * (eta c a.prec : ℝ)) :
    let n := expN c (estInv c F) F.digits10 l xx
    let z := exp2Arg c (estInv c F) F.digits10 l xx
    n < 2 ^ 31 ∧ ∃ y0 y1 r, exp2Start c (estInv c F) F.digits10 X F minN ef ew z = some y0 ∧ exp2Loop c lg (c.N * c.ed) (F.digits10 - 1) y0 z = some y1 ∧
      (if n ≠ 0 then ldexp c (estInv c F) F.digits10 (precision c y1 (c.N * c.ed : ℕ)) (n : ℤ) else some (precision c y1 (c.N * c.ed : ℕ))) = some r ∧
      Full c r ∧ 0 < r.val c ∧
      |Real.log (r.val c) - (xx.val c : ℝ)| ≤ (3 / 2 * (xx.val c : ℝ) + 2) * lam + 2 * ε + (40 + 10 * (xx.val c : ℝ)) * (mulEps c : ℝ) := by
  intro n z
  have hlam0 : 0 ≤ lam := (abs_nonneg _).trans hl2
  have hM := h.hM
  have h2 := two_le_ed c
  have h8 := ed_le8 c
  have h3N := c.three_le_N
  have lt1 := Real.log_two_gt_d9
  have lt2 := Real.log_two_lt_d9
  obtain ⟨lb, ub⟩ := abs_le.mp hl2
  have hl1q : 693 / 1000 ≤ l.val c := by
    have : ((693 / 1000 : ℚ) : ℝ) ≤ l.val c := by push_cast; norm_num at hlam lt1 ⊢; linarith
    exact_mod_cast this
  have hl2q : l.val c ≤ 6934 / 10000 := by
    have : (l.val c : ℝ) ≤ ((6934 / 10000 : ℚ) : ℝ) := by push_cast; norm_num at hlam lt2 ⊢; linarith
    exact_mod_cast this
  obtain ⟨a1, a2, a3, a4, a5, a6⟩ := exp2Arg_spec h hx hl hx0 hx1 hlo hl1q hl2q
  change n < 2 ^ 31 at a1
  change Full c z at a2
  change |z.val c| < _ at a3
  change |z.val c - (xx.val c - n * l.val c)| ≤ _ at a4
  change 0 ≤ z.val c at hz0
  change z.val c ≠ 0 → _ < z.exp at a5
  change z.val c = 0 → z.exp = 0 at a6
  obtain ⟨z1, z2⟩ := abs_lt.mp a3
  have hzexp : z.exp.natAbs < 10 ^ (ew - 1) := by
    by_cases hzz : z.val c = 0
    · rw [a6 hzz]; simp
    · have k1 := a5 hzz
      have k2 := a2.toWF.abs_ge (isZero_false_of_val a2.toWF hzz)
      have : (10 : ℚ) ^ z.exp < 10 ^ (0 : ℤ) := by rw [zpow_zero]; linarith
      rw [zpow_lt_zpow_iff_right₀ (by norm_num)] at this
      have hle' : c.ed * (c.N : ℤ) - xx.exp ≤ ((10 ^ (ew - 1) : ℕ) : ℤ) := by push_cast; exact hle
      omega
  obtain ⟨y0, b1, b2, b3, b4⟩ := exp2Start_spec h hX1 hX2 hmin hef hew a2 hz0 z2 hzexp
  obtain ⟨m0, m1⟩ := mulEps_real c
  obtain ⟨e0, e1⟩ := epsD_real h.lo
  have hηq := eta_N_mulEps c
  have hη := (Rat.cast_le (K := ℝ)).mpr hηq
  have hη0 : (0 : ℝ) < eta c c.N := by exact_mod_cast eta_pos c c.N
  have hηs : eta c c.N ≤ 1 / 10 ^ 8 := by
    have := mulEps_le20 h.lo
    norm_num at this ⊢
    linarith
  have hD0 : 5 ≤ F.digits10 - 1 := by rcases h.hF with h | h <;> rw [h.2.1] <;> omega
  obtain ⟨y1, c1, c2, k', c3, c4⟩ := exp2Loop_spec (c := c) (lg := lg) h.hok (by omega) (D0 := F.digits10 - 1) (limit := c.N * c.ed) hD0 hε0 hε hηs
    (c.N * c.ed) 0 z y0 (by omega) a2.toWF hz0 z2.le (posi_of_val b2.toWF b3)
    (by rw [pow_zero, mul_one]; linarith) (by rw [pow_zero, mul_one]; exact hlg y0 b1)
  rw [pow_zero, mul_one] at c1
  refine ⟨a1, y0, y1, ?_⟩
  -- the value at full precision
  have hpr : precision c y1 (c.N * c.ed : ℕ) = { y1 with prec := c.N } := by
    unfold precision
    have e1 : ((c.N * c.ed : ℕ) : ℤ).tdiv c.ed = c.N := by
      push_cast; exact Int.mul_tdiv_cancel _ (by have := c.ed_pos; omega)
    have e2 : ((c.N * c.ed : ℕ) : ℤ).tmod c.ed = 0 := by
      push_cast; exact Int.mul_tmod_left _ _
    simp only [e1, e2, ne_eq, not_true_eq_false, if_false, add_zero]
    congr 1
    omega
  generalize precision c y1 (c.N * c.ed : ℕ) = r0 at *
  have hr0v : r0.val c = y1.val c := by rw [hpr]; rfl
  have hr0F : Full c r0 := by
    rw [hpr]; exact ⟨⟨c2.len, c2.valid, c2.dvd, by show 2 ≤ c.N; omega, le_rfl, c2.lead⟩, rfl⟩
  have hr0p : 0 < r0.val c := by rw [hr0v]; exact c2.val_pos
  have hr0R : (0 : ℝ) < r0.val c := by exact_mod_cast hr0p
  rw [← hr0v] at c4
  have hEN : 1 / (10 : ℝ) ^ ((F.digits10 - 1) * 2 ^ k') ≤ mulEps c := by
    unfold mulEps
    push_cast
    apply one_div_le_one_div_of_le (by positivity)
    apply pow_le_pow_right₀ (by norm_num)
    refine le_trans ?_ c3
    have h1 := c.digits_le
    have : c.ed * (c.N - 1) ≤ c.N * c.ed := by rw [mul_comm]; exact Nat.mul_le_mul_right _ (by omega)
    omega
  have c5 : |Real.log (r0.val c) - z.val c| ≤ 2 * ε + 31 * (mulEps c : ℝ) := by
    refine c4.trans ?_
    generalize 1 / (10 : ℝ) ^ ((F.digits10 - 1) * 2 ^ k') = E at *
    linarith
  obtain ⟨c6, c7⟩ := abs_le.mp c5
  have a4' := (Rat.cast_le (K := ℝ)).mpr a4
  push_cast at a4'
  obtain ⟨d1, d2⟩ := abs_le.mp a4'
  have hx0' : (0 : ℝ) < xx.val c := by exact_mod_cast hx0
  have hx1' := (Rat.cast_le (K := ℝ)).mpr hx1
  have hx2' := (Rat.cast_le (K := ℝ)).mpr hx2
  push_cast at hx1' hx2'
  have hz0' : (0 : ℝ) ≤ z.val c := by exact_mod_cast hz0
  have hz1' : (z.val c : ℝ) ≤ 3 / 4 := by
    have := (Rat.cast_le (K := ℝ)).mpr z2.le; push_cast at this; exact this
  have hn0 : (0 : ℝ) ≤ n := Nat.cast_nonneg _
  have hl1R : (693 / 1000 : ℝ) ≤ l.val c := by
    have := (Rat.cast_le (K := ℝ)).mpr hl1q; push_cast at this; exact this
  have nl1 : (n : ℝ) * (693 / 1000) ≤ n * l.val c := mul_le_mul_of_nonneg_left hl1R hn0
  have mx : (mulEps c : ℝ) * xx.val c ≤ 1 / 10 ^ 20 * (148 * 10 ^ 7) :=
    mul_le_mul (by norm_num at m1 e1 ⊢; linarith) hx1' hx0'.le (by norm_num)
  have mx0 : 0 < (mulEps c : ℝ) * xx.val c := by positivity
  have hnx : (n : ℝ) ≤ 145 / 100 * xx.val c + 2 := by norm_num at mx; linarith
  have nm : (n : ℝ) * mulEps c ≤ (145 / 100 * xx.val c + 2) * mulEps c := mul_le_mul_of_nonneg_right hnx m0.le
  have nlam : (n : ℝ) * lam ≤ (145 / 100 * xx.val c + 2) * lam := mul_le_mul_of_nonneg_right hnx hlam0
  have xlam : 0 ≤ (xx.val c : ℝ) * lam := by positivity
  have nlog : |(n : ℝ) * l.val c - n * Real.log 2| ≤ n * lam := by
    rw [← mul_sub, abs_mul, abs_of_nonneg hn0]
    exact mul_le_mul_of_nonneg_left hl2 hn0
  obtain ⟨f1, f2⟩ := abs_le.mp nlog
  have nlam2 : (n : ℝ) * lam ≤ 1 / 100 := by
    have h1 : (xx.val c : ℝ) * lam ≤ 148 * 10 ^ 7 * (1 / 10 ^ 12) := mul_le_mul hx1' hlam hlam0 (by norm_num)
    norm_num at h1 hlam
    linarith
  -- range
  have h2n : (2 : ℝ) ^ n ≤ 10 ^ (c.maxExp - 2) := by
    rw [two_pow_exp]
    apply exp_le_ten
    have : ((c.maxExp - 2 : ℕ) : ℝ) = c.maxExp - 2 := by
      rw [Nat.cast_sub (by omega)]; norm_num
    rw [this]
    norm_num at mx
    linarith
  have h2nq : (2 : ℚ) ^ n ≤ 10 ^ (c.maxExp - 2) := by
    have : (((2 : ℚ) ^ n : ℚ) : ℝ) ≤ ((10 ^ (c.maxExp - 2) : ℚ) : ℝ) := by push_cast; exact h2n
    exact_mod_cast this
  have h10 : (10 : ℚ) ^ (c.maxExp - 2) * 10 = 10 ^ ((c.maxExp : ℤ) - 1) := by
    rw [← pow_succ, ← zpow_natCast]; congr 1; omega
  have h10p : (0 : ℚ) < 10 ^ (c.maxExp - 2) := by positivity
  have hm20 : (mulEps c : ℝ) ≤ 1 / 10 ^ 20 := by norm_num at m1 e1 ⊢; linarith
  have hrhi : r0.val c < 10 := by
    have : (r0.val c : ℝ) < 10 := by
      rw [← Real.exp_log hr0R]
      refine lt_of_lt_of_le ((Real.exp_lt_exp (y := 23 / 10)).mpr ?_) exp23
      norm_num at hm20 hε; linarith
    exact_mod_cast this
  have hrlo : 1 / 10 < r0.val c := by
    have h1 := Real.add_one_le_exp (Real.log (r0.val c : ℝ))
    rw [Real.exp_log hr0R] at h1
    have : ((1 / 10 : ℚ) : ℝ) < r0.val c := by push_cast; norm_num at hm20 hε; linarith
    exact_mod_cast this
  obtain ⟨x1, x2⟩ := exp_of_mid hr0F hrlo hrhi
  have h2npos : (0 : ℚ) < 2 ^ n := by positivity
  obtain ⟨r, r1, r2, r3⟩ := ldexp_up (est := estInv c F) (fdig := F.digits10) hr0F hr0p.ne' h.lo h.mulOk (by omega) a1 (by omega)
    (by rw [← h10]; linarith) (by
      rw [abs_of_pos hr0p, ← h10]
      calc r0.val c * 2 ^ n < 10 * 2 ^ n := mul_lt_mul_of_pos_right hrhi h2npos
        _ ≤ 10 * 10 ^ (c.maxExp - 2) := by linarith
        _ = _ := by ring)
  have hres : (if n ≠ 0 then ldexp c (estInv c F) F.digits10 r0 (n : ℤ) else some r0) = some r := by
    split
    · exact r1
    · next h0 =>
      have h0 : n = 0 := not_not.mp h0
      rw [h0] at r1
      simpa [ldexp] using r1
  have r3' := (Rat.cast_le (K := ℝ)).mpr r3
  push_cast at r3'
  rw [abs_of_pos hr0R] at r3'
  have ht : (2 * (n : ℝ) + 3) * mulEps c ≤ 1 / 1000 := by
    norm_num at hm20 mx
    linarith
  obtain ⟨s1, s2⟩ := log_shift (b := (r0.val c : ℝ) * 2 ^ n) (by positivity) ht r3'
  rw [Real.log_mul hr0R.ne' (by positivity), Real.log_pow] at s2
  obtain ⟨s3, s4⟩ := abs_le.mp s2
  refine ⟨r, b1, c1, hres, r2, by exact_mod_cast s1, ?_⟩
  rw [abs_le]
  constructor <;> linarith

end WD
