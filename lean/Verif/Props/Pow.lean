import Verif.Proofs.Pow
/-
  C32: integer powers.
-/
namespace WD
open DW

/-- C32 (accuracy). For x ≠ 0 and p ≥ 0 with x^p in the exponent range and p·10^-(digits10+2·ed) ≤ 1/2, the result of
    `pow(x, p)` has a relative error of at most 2·p·10^-(digits10+2·ed). -/
theorem pow_accuracy (c : Cfg) (x : DW) (p : ℕ) (hx : Full c x) (hx0 : x.val c ≠ 0) (hok : MulOk c c.N)
    (hE : 2 * c.ed + 1 ≤ c.maxExp) (hp : (p : ℚ) / 10 ^ (c.digits10 + 2 * c.ed) ≤ 1 / 2)
    (hhi : |x.val c ^ p| ≤ (10 : ℚ) ^ ((c.maxExp : ℤ) - 1))
    (hlo : (10 : ℚ) ^ (-(c.maxExp : ℤ) + 2 * c.ed + 1) ≤ |x.val c ^ p|) :
    Full c (powNat c x p) ∧
    |(powNat c x p).val c - x.val c ^ p| ≤ 2 * p / 10 ^ (c.digits10 + 2 * c.ed) * |x.val c ^ p| := by
  have e0 := mulEps_pos c
  have e1 := mulEps_lt c
  have hp' : (p : ℚ) * mulEps c ≤ 1 / 2 := by unfold mulEps; rw [mul_one_div]; exact hp
  have hlo1 : (10 : ℚ) ^ (-(c.maxExp : ℤ) + 2 * c.ed + 1) ≤ 1 := by
    rw [← zpow_zero (10 : ℚ)]; exact zpow_le_zpow_right₀ (by norm_num) (by omega)
  have hhi1 : (1 : ℚ) ≤ (10 : ℚ) ^ ((c.maxExp : ℤ) - 1) := by
    rw [← zpow_zero (10 : ℚ)]; exact zpow_le_zpow_right₀ (by norm_num) (by omega)
  -- one multiplication
  have step : ∀ (a k n m : ℕ) (r y : DW), Full c r → Full c y → Near (mulEps c) n (r.val c) (x.val c ^ a) →
      Near (mulEps c) m (y.val c) (x.val c ^ k) → a + k ≤ p → n + m ≤ p →
      Full c (mulAssign c r y) ∧ Near (mulEps c) (n + m + 1) ((mulAssign c r y).val c) (x.val c ^ (a + k)) := by
    intro a k n m r y hr hy nr ny hak hnm
    have hr0 : r.val c ≠ 0 := by intro h; have := nr.sgn; rw [h, zero_mul] at this; exact lt_irrefl _ this
    have hy0 : y.val c ≠ 0 := by intro h; have := ny.sgn; rw [h, zero_mul] at this; exact lt_irrefl _ this
    obtain ⟨l1, l2⟩ := pow_between (j := a + k) hak hlo1 hhi1 hlo hhi
    obtain ⟨n1, n2⟩ := near_bounds e0.le e1 hp' hnm
    have p1 : |x.val c ^ (a + k)| ≤ |r.val c * y.val c| * 2 := by
      rw [pow_add, abs_mul, abs_mul]
      calc |x.val c ^ a| * |x.val c ^ k| ≤ (|r.val c| * (1 + mulEps c) ^ n) * (|y.val c| * (1 + mulEps c) ^ m) :=
            mul_le_mul nr.lo ny.lo (abs_nonneg _) (by positivity)
        _ = (|r.val c| * |y.val c|) * (1 + mulEps c) ^ (n + m) := by rw [pow_add]; ring
        _ ≤ _ := mul_le_mul_of_nonneg_left n1 (by positivity)
    have p2 : |r.val c * y.val c| * (1 / 2) ≤ |x.val c ^ (a + k)| := by
      rw [pow_add, abs_mul, abs_mul]
      have hq : (0 : ℚ) ≤ 1 - mulEps c := by linarith
      calc |r.val c| * |y.val c| * (1 / 2) ≤ |r.val c| * |y.val c| * (1 - mulEps c) ^ (n + m) :=
            mul_le_mul_of_nonneg_left n2 (by positivity)
        _ = (|r.val c| * (1 - mulEps c) ^ n) * (|y.val c| * (1 - mulEps c) ^ m) := by rw [pow_add]; ring
        _ ≤ _ := mul_le_mul nr.hi ny.hi (by positivity) (abs_nonneg _)
    have hrange := exp_range hr.toWF hy.toWF hr0 hy0 (by
        have : (10 : ℚ) ^ (c.maxExp : ℤ) = 10 ^ ((c.maxExp : ℤ) - 1) * 10 := by
          rw [← zpow_add_one₀ (by norm_num)]; congr 1; ring
        rw [this]
        have : (0 : ℚ) < 10 ^ ((c.maxExp : ℤ) - 1) := by positivity
        linarith) (by
        have : (10 : ℚ) ^ (-(c.maxExp : ℤ) + 2 * c.ed + 1) = 10 ^ (-(c.maxExp : ℤ) + 2 * c.ed) * 10 := by
          rw [← zpow_add_one₀ (by norm_num)]
        rw [this] at l1
        have : (0 : ℚ) < 10 ^ (-(c.maxExp : ℤ) + 2 * c.ed) := by positivity
        linarith)
    have hm := mul_relative_error c r y hr hy hr0 hy0 hok hrange.1 hrange.2
    refine ⟨(mul_error c r y hr hy hr0 hy0 hok hrange.1 hrange.2).2.2.1, ?_⟩
    rw [pow_add]
    refine Near.mul e0.le (by linarith) nr ny ?_
    unfold mulEps; rw [mul_one_div]; exact hm
  have main : Full c (powNat c x p) ∧ Near (mulEps c) p ((powNat c x p).val c) (x.val c ^ p) := by
    refine powNat_ind (P := p) (R := fun a r => Full c r ∧ Near (mulEps c) a (r.val c) (x.val c ^ a)) (Y := fun k y => Full c y ∧ Near (mulEps c) (k - 1) (y.val c) (x.val c ^ k)) ?_ ?_ ?_ ?_ ?_
    · rintro a k r y ⟨hr, nr⟩ ⟨hy, ny⟩ hk hak
      have := step a k a (k - 1) r y hr hy nr ny hak (by omega)
      rwa [show a + (k - 1) + 1 = a + k by omega] at this
    · rintro k y ⟨hy, ny⟩ hk hkk
      have := step k k (k - 1) (k - 1) y y hy hy ny ny hkk (by omega)
      rwa [show k - 1 + (k - 1) + 1 = k + k - 1 by omega] at this
    · rintro k y ⟨hy, ny⟩
      refine ⟨hy, ?_, ?_, ny.sgn⟩
      · exact le_trans ny.lo (mul_le_mul_of_nonneg_left (pow_le_pow_right₀ (by linarith) (by omega)) (abs_nonneg _))
      · exact le_trans (mul_le_mul_of_nonneg_left (pow_le_pow_of_le_one (by linarith) (by linarith) (by omega)) (abs_nonneg _)) ny.hi
    · obtain ⟨a, b, -⟩ := ofU32_one c
      refine ⟨a, ?_⟩
      rw [b, pow_zero]; exact Near.refl e0.le (by linarith) one_ne_zero 0
    · refine ⟨hx, ?_⟩
      rw [pow_one]; exact Near.refl e0.le (by linarith) hx0 _
  obtain ⟨hF, n1, n2, n3⟩ := main
  refine ⟨hF, ?_⟩
  obtain ⟨b1, b2⟩ := near_bounds e0.le e1 hp' (le_refl p)
  have hber : 1 - (p : ℚ) * mulEps c ≤ (1 - mulEps c) ^ p := by
    have := one_add_mul_le_pow (show (-2 : ℚ) ≤ -mulEps c by linarith) p
    rw [sub_eq_add_neg, sub_eq_add_neg]; linarith
  rw [show 2 * (p : ℚ) / 10 ^ (c.digits10 + 2 * c.ed) = 2 * (p * mulEps c) by unfold mulEps; ring]
  generalize hr : (powNat c x p).val c = r at *
  generalize hq : x.val c ^ p = q at *
  generalize hd : (p : ℚ) * mulEps c = d at *
  have hd0 : 0 ≤ d := by rw [← hd]; positivity
  have hA := abs_nonneg r
  have hQ := abs_nonneg q
  have hprod : (1 + mulEps c) ^ p * (1 - mulEps c) ^ p ≤ 1 := by
    rw [← mul_pow]
    exact pow_le_one₀ (by nlinarith) (by nlinarith)
  -- upper bound of |r|
  have u1 : |r| * (1 - d) ≤ |q| := le_trans (mul_le_mul_of_nonneg_left hber hA) n2
  have u2 : |r| ≤ |q| * (1 + 2 * d) := by
    have : |r| * (1 - d) * (1 + 2 * d) ≤ |q| * (1 + 2 * d) := mul_le_mul_of_nonneg_right u1 (by linarith)
    have h3 : 1 ≤ (1 - d) * (1 + 2 * d) := by nlinarith
    nlinarith
  -- lower bound of |r|
  have l2 : |q| * (1 - d) ≤ |r| := by
    have h4 : |q| * (1 - mulEps c) ^ p ≤ |r| := by
      have hq0 : (0 : ℚ) ≤ (1 - mulEps c) ^ p := pow_nonneg (by linarith) _
      calc |q| * (1 - mulEps c) ^ p ≤ (|r| * (1 + mulEps c) ^ p) * (1 - mulEps c) ^ p := mul_le_mul_of_nonneg_right n1 hq0
        _ = |r| * ((1 + mulEps c) ^ p * (1 - mulEps c) ^ p) := by ring
        _ ≤ |r| * 1 := mul_le_mul_of_nonneg_left hprod hA
        _ = |r| := mul_one _
    exact le_trans (mul_le_mul_of_nonneg_left hber hQ) h4
  have hs : |r - q| = |(|r| - |q|)| := by
    rcases le_or_gt 0 r with h | h
    · have : 0 ≤ q := by
        by_contra hc
        have := mul_nonpos_of_nonneg_of_nonpos h (not_le.mp hc).le
        linarith
      rw [abs_of_nonneg h, abs_of_nonneg this]
    · have : q < 0 := by
        by_contra hc
        have := mul_nonpos_of_nonpos_of_nonneg h.le (not_lt.mp hc)
        linarith
      rw [abs_of_neg h, abs_of_neg this, abs_sub_comm, show -r - -q = q - r by ring]
  rw [hs, abs_le]
  constructor <;> nlinarith

/-- A product with few digits is exact. -/
theorem mul_sig_exact {c : Cfg} {r y : DW} (hr : Full c r) (hy : Full c y) (hr0 : r.val c ≠ 0) (hy0 : y.val c ≠ 0)
    (hok : MulOk c c.N) (h1 : -(c.maxExp : ℤ) < r.exp + y.exp) (h2 : r.exp + y.exp < c.maxExp)
    (hrn : |r.val c| ≠ nearOne c) (hyn : |y.val c| ≠ nearOne c)
    (hs : SigDigits (c.digits10 + 2 * c.ed + 1) (r.val c * y.val c)) :
    (mulAssign c r y).val c = r.val c * y.val c := by
  obtain ⟨t1, t2, -⟩ := mul_truncated_partial c r y hr hy hr0 hy0 hok h1 h2 hrn hyn
  obtain ⟨-, g2, g3, g4⟩ := mul_error c r y hr hy hr0 hy0 hok h1 h2
  generalize hw : mulAssign c r y = w at *
  have hwz := isZero_false_of_val g3.toWF g4
  obtain ⟨k, e, hk, hv⟩ := hs
  -- the exponent e is at least that of the last limb of w
  have hwa : |w.val c| ≤ |r.val c * y.val c| := t1
  have hwe := g3.toWF.abs_ge hwz
  have he : w.lexp c ≤ e := by
    have h3 : (10 : ℚ) ^ w.exp < 10 ^ (((c.digits10 + 2 * c.ed + 1 : ℕ) : ℤ) + e) := by
      refine lt_of_le_of_lt (le_trans hwe hwa) ?_
      rw [hv, abs_mul, abs_of_pos (p10_pos e), zpow_add₀ (by norm_num), zpow_natCast]
      exact mul_lt_mul_of_pos_right (by exact_mod_cast hk) (p10_pos e)
    have h4 := (zpow_lt_zpow_iff_right₀ (by norm_num : (1 : ℚ) < 10)).mp h3
    have h5 := c.digits_le
    have h6 := c.three_le_N
    have h7 : ((c.ed * (c.N - 1) : ℕ) : ℤ) = c.ed * ((c.N : ℤ) - 1) := by
      push_cast [show 1 ≤ c.N by omega]; ring
    unfold lexp
    omega
  obtain ⟨d, hd⟩ : ∃ d : ℕ, e = d + w.lexp c := ⟨(e - w.lexp c).toNat, by omega⟩
  have hmul : |r.val c * y.val c| = ((|k| * 10 ^ d : ℤ) : ℚ) * (10 : ℚ) ^ w.lexp c := by
    rw [hv, abs_mul, abs_of_pos (p10_pos e), hd, zpow_add₀ (by norm_num), zpow_natCast]
    push_cast; ring
  have habs : |w.val c| = |r.val c * y.val c| := by
    rw [hmul] at t1 t2 ⊢
    rw [abs_val] at t1 t2 ⊢
    rw [ulp_eq] at t2
    have := multiple_unique (p10_pos (w.lexp c)) (m := |k| * 10 ^ d) (n := w.mant c) (by
      rw [abs_lt]; push_cast at t1 t2 ⊢; constructor <;> linarith [p10_pos (w.lexp c)])
    rw [this]; push_cast; rfl
  rw [val_sgn c w, habs]
  rcases lt_or_gt_of_ne (mul_ne_zero hr0 hy0) with hn | hn
  · have : w.neg = true := g2.mpr hn
    rw [this, abs_of_neg hn]; simp
  · have : w.neg = false := by
      rw [Bool.eq_false_iff]; intro h; have := g2.mp h; linarith
    rw [this, abs_of_pos hn]; simp

/-- A number with few digits is not the largest number below one. -/
theorem sig_ne_nearOne {c : Cfg} {q : ℚ} (hs : SigDigits (c.digits10 + 2 * c.ed + 1) q) : |q| ≠ nearOne c := by
  intro h
  obtain ⟨k, e, hk, hv⟩ := hs
  have hN := c.three_le_N
  have hed2 : 2 ≤ c.ed := by unfold Cfg.ed; cases c.L <;> decide
  have hdl := c.digits_le
  have hEN : c.ed * c.N = c.ed * (c.N - 1) + c.ed := by
    obtain ⟨n, hn⟩ : ∃ n, c.N = n + 1 := ⟨c.N - 1, by omega⟩
    rw [hn]; simp; ring
  set M := c.ed * c.N with hM
  have hM' : ((c.ed : ℤ) * c.N) = (M : ℤ) := by rw [hM]; push_cast; ring
  have hbig : c.digits10 + 2 * c.ed + 1 < M := by omega
  have h1 : |(k : ℚ)| * (10 : ℚ) ^ e * 10 ^ (M : ℤ) = 10 ^ M - 1 := by
    rw [hv, abs_mul, abs_of_pos (p10_pos e)] at h
    rw [h, nearOne, hM', sub_mul, one_mul, ← zpow_add₀ (by norm_num), neg_add_cancel, zpow_zero, zpow_natCast]
  rw [mul_assoc, ← zpow_add₀ (by norm_num)] at h1
  have hten : (10 : ℤ) ^ M - 1 ≥ 10 ^ (c.digits10 + 2 * c.ed + 1) := by
    have : (10 : ℤ) ^ (c.digits10 + 2 * c.ed + 1) * 10 ≤ 10 ^ M := by
      rw [← pow_succ]; exact pow_le_pow_right₀ (by norm_num) (by omega)
    have hp : (0 : ℤ) < 10 ^ (c.digits10 + 2 * c.ed + 1) := by positivity
    omega
  rcases lt_trichotomy (e + M) 0 with hneg | hz | hpos
  · obtain ⟨d, hd⟩ : ∃ d : ℕ, e + M = -(d : ℤ) := ⟨(-(e + M)).toNat, by omega⟩
    rw [hd, zpow_neg, zpow_natCast] at h1
    have h2 : |(k : ℚ)| = (10 ^ M - 1) * 10 ^ d := by
      rw [← h1, mul_assoc, inv_mul_cancel₀ (by positivity), mul_one]
    have h3 : |k| = (10 ^ M - 1) * 10 ^ d := by exact_mod_cast h2
    have h4 : (10 ^ M - 1) * 1 ≤ (10 ^ M - 1) * (10 : ℤ) ^ d :=
      mul_le_mul_of_nonneg_left (one_le_pow₀ (by norm_num)) (le_trans (by positivity) hten)
    omega
  · rw [hz, zpow_zero, mul_one] at h1
    have h3 : |k| = 10 ^ M - 1 := by exact_mod_cast h1
    omega
  · obtain ⟨d, hd⟩ : ∃ d : ℕ, e + M = (d : ℤ) + 1 := ⟨(e + M - 1).toNat, by omega⟩
    rw [hd, show ((d : ℤ) + 1) = ((d + 1 : ℕ) : ℤ) by push_cast; ring, zpow_natCast] at h1
    have h3 : |k| * 10 ^ (d + 1) = 10 ^ M - 1 := by exact_mod_cast h1
    obtain ⟨m, hm⟩ : ∃ m, M = m + 1 := ⟨M - 1, by omega⟩
    rw [hm, pow_succ, pow_succ, ← mul_assoc] at h3
    generalize |k| * 10 ^ d = A at h3
    generalize (10 : ℤ) ^ m = B at h3
    omega

/-- C32 (exactness). If x = k·10^e with |k|^p below 10^(digits10 + 2·ed + 1) and x^p is in the exponent range,
    `pow(x, p)` is exactly x^p. -/
theorem pow_exact (c : Cfg) (x : DW) (p : ℕ) (k e : ℤ) (hx : Full c x) (hxv : x.val c = k * (10 : ℚ) ^ e) (hk0 : k ≠ 0)
    (hk : |k| ^ p < 10 ^ (c.digits10 + 2 * c.ed + 1)) (hok : MulOk c c.N) (hE : 2 * c.ed + 1 ≤ c.maxExp)
    (hhi : |x.val c ^ p| ≤ (10 : ℚ) ^ ((c.maxExp : ℤ) - 1))
    (hlo : (10 : ℚ) ^ (-(c.maxExp : ℤ) + 2 * c.ed + 1) ≤ |x.val c ^ p|) :
    Full c (powNat c x p) ∧ (powNat c x p).val c = x.val c ^ p := by
  have hx0 : x.val c ≠ 0 := by rw [hxv]; exact mul_ne_zero (by exact_mod_cast hk0) (p10_pos e).ne'
  have hlo1 : (10 : ℚ) ^ (-(c.maxExp : ℤ) + 2 * c.ed + 1) ≤ 1 := by
    rw [← zpow_zero (10 : ℚ)]; exact zpow_le_zpow_right₀ (by norm_num) (by omega)
  have hhi1 : (1 : ℚ) ≤ (10 : ℚ) ^ ((c.maxExp : ℤ) - 1) := by
    rw [← zpow_zero (10 : ℚ)]; exact zpow_le_zpow_right₀ (by norm_num) (by omega)
  have hk1 : 1 ≤ |k| := Int.one_le_abs hk0
  have hsig : ∀ j ≤ p, SigDigits (c.digits10 + 2 * c.ed + 1) (x.val c ^ j) := by
    intro j hj
    refine ⟨k ^ j, e * j, ?_, ?_⟩
    · rw [abs_pow]; exact lt_of_le_of_lt (pow_le_pow_right₀ hk1 hj) hk
    · rw [hxv, mul_pow, zpow_mul, zpow_natCast]; push_cast; rfl
  have step : ∀ (a k : ℕ) (r y : DW), Full c r ∧ r.val c = x.val c ^ a → Full c y ∧ y.val c = x.val c ^ k → a + k ≤ p →
      Full c (mulAssign c r y) ∧ (mulAssign c r y).val c = x.val c ^ (a + k) := by
    rintro a k r y ⟨hr, vr⟩ ⟨hy, vy⟩ hak
    have hr0 : r.val c ≠ 0 := by rw [vr]; exact pow_ne_zero _ hx0
    have hy0 : y.val c ≠ 0 := by rw [vy]; exact pow_ne_zero _ hx0
    obtain ⟨l1, l2⟩ := pow_between (j := a + k) hak hlo1 hhi1 hlo hhi
    have hv : r.val c * y.val c = x.val c ^ (a + k) := by rw [vr, vy, pow_add]
    obtain ⟨h1, h2⟩ := exp_range hr.toWF hy.toWF hr0 hy0 (by
      rw [hv]; exact lt_of_le_of_lt l2 (zpow_lt_zpow_right₀ (by norm_num) (by omega))) (by
      rw [hv]; exact le_trans (zpow_le_zpow_right₀ (by norm_num) (by omega)) l1)
    refine ⟨(mul_error c r y hr hy hr0 hy0 hok h1 h2).2.2.1, ?_⟩
    rw [mul_sig_exact hr hy hr0 hy0 hok h1 h2 (by rw [vr]; exact sig_ne_nearOne (hsig a (by omega)))
      (by rw [vy]; exact sig_ne_nearOne (hsig k (by omega))) (by rw [hv]; exact hsig _ hak), hv]
  refine powNat_ind (P := p) (R := fun a r => Full c r ∧ r.val c = x.val c ^ a)
    (Y := fun a r => Full c r ∧ r.val c = x.val c ^ a) ?_ ?_ ?_ ?_ ?_
  · intro a k r y hr hy _ hak; exact step a k r y hr hy hak
  · intro k y hy _ hkk; exact step k k y y hy hy hkk
  · intro k y h; exact h
  · obtain ⟨a, b, -⟩ := ofU32_one c
    exact ⟨a, by rw [b, pow_zero]⟩
  · exact ⟨hx, by rw [pow_one]⟩

/-- C32 (zero). pow(x, 0) is exactly 1 for every x, including 0, and pow(0, p) is 0 for p > 0. -/
theorem pow_zero_cases (c : Cfg) (x : DW) (hx : Full c x) (hok : MulOk c c.N) (hE : 0 < c.maxExp)
    (hlo : -(c.maxExp : ℤ) < x.exp) (hhi : x.exp < c.maxExp) :
    (powNat c x 0).val c = 1 ∧ (x.val c = 0 → ∀ p : ℕ, 0 < p → (powNat c x p).val c = 0) := by
  refine ⟨by unfold powNat; rw [if_pos rfl]; exact (ofU32_one c).2.1, fun hx0 p hp => ?_⟩
  have step : ∀ (r y : DW), Full c r → Full c y → y.val c = 0 → -(c.maxExp : ℤ) < y.exp → y.exp < c.maxExp →
      (Full c (mulAssign c r y) ∧ (mulAssign c r y).val c = 0 ∧ -(c.maxExp : ℤ) < (mulAssign c r y).exp ∧
        (mulAssign c r y).exp < c.maxExp) := by
    intro r y hr hy hy0 h1 h2
    have hz : r.isZero = true ∨ y.isZero = true := Or.inr (hy.toWF.isZero_iff.mpr hy0)
    obtain ⟨a, b⟩ := mulAssign_zero hr hy hz hok h1 h2
    refine ⟨b, a, ?_⟩
    rcases mulAssign_zero_exp hy hz hok h1 h2 with h | h <;> rw [h] <;> omega
  have main := powNat_ind (c := c) (P := p) (b := x)
    (R := fun a r => Full c r ∧ (0 < a → r.val c = 0))
    (Y := fun k y => Full c y ∧ y.val c = 0 ∧ -(c.maxExp : ℤ) < y.exp ∧ y.exp < c.maxExp) (by
      rintro a k r y ⟨hr, -⟩ ⟨hy, y0, y1, y2⟩ hk -
      obtain ⟨a, b, -⟩ := step r y hr hy y0 y1 y2
      exact ⟨a, fun _ => b⟩) (by
      rintro k y ⟨hy, y0, y1, y2⟩ - -
      exact step y y hy hy y0 y1 y2) (by
      rintro k y ⟨hy, y0, -⟩
      exact ⟨hy, fun _ => y0⟩) ⟨(ofU32_one c).1, fun h => absurd h (lt_irrefl 0)⟩ ⟨hx, hx0, hlo, hhi⟩
  exact main.2 hp

/-- C32 (undefined case). Negating the least 64-bit exponent is undefined behaviour. -/
theorem pow_min_undefined (c : Cfg) (est : DW → DW) (fdig : ℕ) (x : DW) : pow c est fdig x (-(2 ^ 63)) = none := by
  unfold pow; rw [if_pos rfl]

/-- 1.5^13 = 194.6195068359375 in `decwide_t<10>` with 32-bit limbs: 15 = k, 15^13 < 10^27. -/
example : let c : Cfg := { L := .u32, digits10 := 10, maxExp := 2 ^ 59 }
    let x : DW := { data := [1, 50000000, 0, 0, 0], exp := 0, neg := false, prec := 5 }
    Full c x ∧ MulOk c c.N ∧ (15 : ℤ) ^ 13 < 10 ^ (c.digits10 + 2 * c.ed + 1) ∧
    powNat c x 13 = { data := [194, 61950683, 59375000, 0, 0], exp := 0, neg := false, prec := 5 } := by
  decide +kernel

end WD
