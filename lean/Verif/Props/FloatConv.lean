import Verif.Proofs.FloatConv2
import Verif.Props.Round
/-
  C43: construction from built-in floating-point numbers. The numbers are ±m·2^k with a full significand m of p bits
  (`NormalF`); `minN` is the smallest normal number of the type.
-/
namespace WD
open DW

/-- C43 (exactness; partial: the digits must fit, see `float_one_not_one`). A normal number ±m·2^k is converted without
    error if it has at most digits10 + 2·ed + 1 significant decimal digits, so has the scaling power of two (of one half,
    for negative k) and the significand fits into the internal limbs; for k = -1, -2, where the code divides, if the
    significand has at most digits10 digits. -/
theorem float_exact_partial (c : Cfg) (est : DW → DW) (fdig p : ℕ) (minN : ℚ) (m : ℕ) (k : ℤ) (b : Bool)
    (hp : 0 < p) (hp64 : p ≤ 64) (hn : NormalF p minN m k) (hok : MulOk c c.N) (hE : 2 * c.ed + 1 ≤ c.maxExp)
    (hcap : m < 10 ^ (c.ed * c.N)) (hm : (m : ℚ) < 10 ^ ((c.maxExp : ℤ) - 1)) (hhi : m * (2 : ℚ) ^ k ≤ 10 ^ ((c.maxExp : ℤ) - 1))
    (hlo : (10 : ℚ) ^ (-(c.maxExp : ℤ) + 2 * c.ed + 1) ≤ (2 : ℚ) ^ k)
    (hpow : (if k < 0 then 5 else 2) ^ k.natAbs < 10 ^ (c.digits10 + 2 * c.ed + 1))
    (hsig : SigDigits (c.digits10 + 2 * c.ed + 1) (m * (2 : ℚ) ^ k))
    (hdiv : k = -1 ∨ k = -2 → m < 10 ^ c.digits10) :
    let r := fromFloat c est fdig p minN ((if b then -1 else 1) * (m * (2 : ℚ) ^ k))
    Full c r ∧ r.val c = (if b then -1 else 1) * (m * (2 : ℚ) ^ k) ∧ r.isNeg = b := by
  intro r
  have hr : r = _ := fromFloat_eq (c := c) (est := est) (fdig := fdig) hp hp64 hn b
  obtain ⟨t1, t2, t3, t4, t5, t6, t7⟩ := base_spec (c := c) hn hp64
  have hcap' : m < c.B ^ c.N := by rw [c.B_eq, ← pow_mul]; exact hcap
  have t5 := t5 hcap'
  clear t3 t4
  generalize ht : fromULL c m false = t at *
  have hmq : (1 : ℚ) ≤ m := by exact_mod_cast t7
  have hkpos : (0 : ℚ) < 2 ^ k := by positivity
  have htv : t.val c ≠ 0 := by intro h; rw [h, abs_zero] at t5; linarith
  have htexp : t.exp < (c.maxExp : ℤ) - 1 := exp_lt_of_lt t1.toWF t2 (by rw [t5]; exact hm)
  have htn : |t.val c| ≠ nearOne c := by
    rw [t5]; unfold nearOne
    have := p10_pos (-((c.ed : ℤ) * c.N)); intro h; linarith
  have hed2 : 2 ≤ c.ed := by unfold Cfg.ed; cases c.L <;> decide
  have hB5 : 5 ≤ c.B := by unfold Cfg.B; cases c.L <;> decide
  -- multiplication by a power
  have mulcase : ∀ (y : DW) (q : ℚ), Full c y → y.val c = q → 0 < q → q = 2 ^ k → SigDigits (c.digits10 + 2 * c.ed + 1) q →
      Full c (mulAssign c t y) ∧ |(mulAssign c t y).val c| = m * (2 : ℚ) ^ k := by
    intro y q hy hv hq0 hqk hsq
    have hy0 : y.val c ≠ 0 := by rw [hv]; exact hq0.ne'
    have habs : |t.val c * y.val c| = m * (2 : ℚ) ^ k := by rw [abs_mul, t5, hv, abs_of_pos hq0, hqk]
    obtain ⟨e1, e2⟩ := exp_range t1.toWF hy.toWF htv hy0 (by
      rw [habs]; exact lt_of_le_of_lt hhi (zpow_lt_zpow_right₀ (by norm_num) (by omega))) (by
      rw [habs]
      refine le_trans (zpow_le_zpow_right₀ (by norm_num) (by omega)) (le_trans hlo ?_)
      nlinarith)
    refine ⟨(mul_error c t y t1 hy htv hy0 hok e1 e2).2.2.1, ?_⟩
    have hs' : SigDigits (c.digits10 + 2 * c.ed + 1) (t.val c * y.val c) := by
      obtain ⟨j, e, hj, hje⟩ := hsig
      rcases abs_choice (t.val c * y.val c) with h | h
      · exact ⟨j, e, hj, by rw [← hje, ← habs, h]⟩
      · refine ⟨-j, e, by rwa [abs_neg], ?_⟩
        push_cast; rw [neg_mul, ← hje, ← habs, h, neg_neg]
    rw [mul_sig_exact t1 hy htv hy0 hok e1 e2 htn (by rw [hv]; exact sig_ne_nearOne hsq) hs', habs]
  have mulU : ∀ n : ℕ, 0 < n → n < c.B → orderOf n = 1 → (n : ℚ) = 2 ^ k →
      Full c (mulULL c t n) ∧ |(mulULL c t n).val c| = m * (2 : ℚ) ^ k := by
    intro n h0 hnB ho hnk
    obtain ⟨a1, a2, -, a4, a5⟩ := mulULL_small t1 t2 h0 hnB (by rw [ho]; push_cast; omega)
    rw [t5, hnk] at a4 a5
    exact ⟨a1, trunc_sig_exact a1 a2 a4 a5 hsig⟩
  have divU : ∀ n : ℕ, 1 < n → n < 5 → n ∣ 100 → ((n : ℚ))⁻¹ = 2 ^ k → m < 10 ^ c.digits10 →
      Full c (divULL c est fdig t n) ∧ |(divULL c est fdig t n).val c| = m * (2 : ℚ) ^ k := by
    intro n h1 hn5 hdvd hnk hm10
    have hmx : -(c.maxExp : ℤ) ≤ t.exp - c.ed := by omega
    refine ⟨(divULL_small t1 t2 (by omega) (by omega) hmx).1, ?_⟩
    have hx10 : t.exp < c.digits10 := exp_lt_of_lt t1.toWF t2 (by
      rw [t5, zpow_natCast]; exact_mod_cast hm10)
    obtain ⟨j, hj⟩ := t1.dvd
    have h3 := c.three_le_N
    have hdl := c.digits_le
    have h7 : ((c.ed * (c.N - 1) : ℕ) : ℤ) = c.ed * ((c.N : ℤ) - 1) := by
      push_cast [show 1 ≤ c.N by omega]; ring
    -- free digits
    have hj4 : j + 4 ≤ c.N := by
      by_contra hcon
      have : (c.N : ℤ) - 3 ≤ j := by omega
      have : (c.ed : ℤ) * ((c.N : ℤ) - 3) ≤ c.ed * j := mul_le_mul_of_nonneg_left this (by omega)
      have h8 : (c.ed : ℤ) * ((c.N : ℤ) - 3) = c.ed * ((c.N : ℤ) - 1) - 2 * c.ed := by ring
      omega
    obtain ⟨i, hi⟩ : ∃ i : ℕ, (c.N : ℤ) = j + 4 + i := ⟨(c.N - j - 4).toNat, by omega⟩
    have hmant : (t.mant c : ℚ) = m * 10 ^ (c.ed * (i + 3)) := by
      have := abs_val c t
      rw [t5] at this
      have hl : t.lexp c = -((c.ed * (i + 3) : ℕ) : ℤ) := by
        unfold lexp; rw [hj, hi]; push_cast; ring
      rw [hl, zpow_neg, zpow_natCast] at this
      rw [this, mul_assoc, inv_mul_cancel₀ (by positivity), mul_one]
    have hmant' : t.mant c = m * 10 ^ (c.ed * (i + 3)) := by exact_mod_cast hmant
    obtain ⟨g, hg⟩ := hdvd
    have hK : t.mant c = n * ((m * g * 10 ^ (c.ed * (i + 1) - 2)) * c.B ^ 2) := by
      have hei : 2 ≤ c.ed * (i + 1) := le_trans hed2 (Nat.le_mul_of_pos_right _ (by omega))
      have e1 : c.ed * (i + 3) = 2 + (c.ed * (i + 1) - 2) + c.ed * 2 := by
        have : c.ed * (i + 3) = c.ed * (i + 1) + c.ed * 2 := by ring
        omega
      rw [hmant', e1, c.B_eq, ← pow_mul, pow_add, pow_add, show (10 : ℕ) ^ 2 = n * g by rw [← hg]; norm_num]
      ring
    rw [divULL_exact t1 t2 h1 (by omega) hmx hK, t5, ← hnk]; rfl
  -- all cases
  have main : Full c (scaleF c est fdig t k) ∧ |(scaleF c est fdig t k).val c| = m * (2 : ℚ) ^ k := by
    unfold scaleF
    by_cases c1 : k < -2
    · rw [if_pos c1]
      have hk2 := zpow_two_neg k (by omega)
      obtain ⟨q1, q2⟩ := pow_half_range (c := c) hE (-k).toNat (by rw [← hk2]; exact hlo)
      have h5 : (5 : ℕ) ^ (-k).toNat < 10 ^ (c.digits10 + 2 * c.ed + 1) := by
        rw [if_pos (by omega)] at hpow
        rwa [show (-k).toNat = k.natAbs by omega]
      obtain ⟨p1, p2⟩ := pow_exact c (half c) (-k).toNat 5 (-1) (half_full c) (by rw [half_val]; norm_num) (by norm_num)
        (by rw [show |(5 : ℤ)| = 5 by norm_num]; exact_mod_cast h5) hok hE q1 q2
      rw [half_val] at p2
      refine mulcase _ _ p1 p2 (by positivity) hk2.symm ⟨5 ^ (-k).toNat, -((-k).toNat : ℤ), ?_, ?_⟩
      · rw [abs_of_pos (by positivity)]; exact_mod_cast h5
      · push_cast
        rw [zpow_neg, zpow_natCast, show (1 : ℚ) / 2 = 5 / 10 by norm_num, div_pow]; rfl
    rw [if_neg c1]
    by_cases c2 : k = -2
    · rw [if_pos c2]
      exact divU 4 (by norm_num) (by norm_num) ⟨25, by norm_num⟩ (by rw [c2]; norm_num) (hdiv (Or.inr c2))
    rw [if_neg c2]
    by_cases c3 : k = -1
    · rw [if_pos c3]
      exact divU 2 (by norm_num) (by norm_num) ⟨50, by norm_num⟩ (by rw [c3]; norm_num) (hdiv (Or.inl c3))
    rw [if_neg c3]
    by_cases c4 : k = 0
    · rw [if_pos c4]
      exact ⟨t1, by rw [t5, c4]; simp⟩
    rw [if_neg c4]
    by_cases c5 : k = 1
    · rw [if_pos c5]
      exact mulU 2 (by norm_num) (by omega) orderOf_small.1 (by rw [c5]; norm_num)
    rw [if_neg c5]
    by_cases c6 : k = 2
    · rw [if_pos c6]
      exact mulU 4 (by norm_num) (by omega) orderOf_small.2 (by rw [c6]; norm_num)
    rw [if_neg c6]
    have hk2 := zpow_two_pos k (by omega)
    obtain ⟨q1, q2⟩ := pow_two_range (c := c) hE k.toNat (by rw [← hk2]; nlinarith)
    have h5 : (2 : ℕ) ^ k.toNat < 10 ^ (c.digits10 + 2 * c.ed + 1) := by
      rw [if_neg (by omega)] at hpow
      rwa [show k.toNat = k.natAbs by omega]
    obtain ⟨p1, p2⟩ := pow_exact c (two c) k.toNat 2 0 (two_full c) (by rw [two_val]; norm_num) (by norm_num)
      (by rw [show |(2 : ℤ)| = 2 by norm_num]; exact_mod_cast h5) hok hE q1 q2
    rw [two_val] at p2
    refine mulcase _ _ p1 p2 (by positivity) hk2.symm ⟨2 ^ k.toNat, 0, ?_, by simp⟩
    rw [abs_of_pos (by positivity)]; exact_mod_cast h5
  obtain ⟨m1, m2⟩ := main
  rw [hr]
  generalize scaleF c est fdig t k = w at *
  refine ⟨⟨⟨m1.len, m1.valid, m1.dvd, m1.prec2, m1.precN, m1.lead⟩, m1.full⟩, ?_, rfl⟩
  rw [val_sgn c _, setNeg_abs, m2]

set_option maxHeartbeats 2000000 in
/-- C43 (accuracy, every normal number in range). The relative error is at most (2|k| + 4)·10^-(digits10 + 2·ed); for
    k = -1, -2, where the code divides, (2|k| + 4)·10^-digits10. The sign is that of the argument. -/
theorem float_accuracy (c : Cfg) (est : DW → DW) (fdig p : ℕ) (minN : ℚ) (m : ℕ) (k : ℤ) (b : Bool)
    (hp : 0 < p) (hp64 : p ≤ 64) (hn : NormalF p minN m k) (hok : MulOk c c.N) (hE : 2 * c.ed + 1 ≤ c.maxExp)
    (hd : 1 ≤ c.digits10) (hm : (m : ℚ) < 10 ^ ((c.maxExp : ℤ) - 1)) (hhi : m * (2 : ℚ) ^ k ≤ 10 ^ ((c.maxExp : ℤ) - 1))
    (hlo : (10 : ℚ) ^ (-(c.maxExp : ℤ) + 2 * c.ed + 1) ≤ (2 : ℚ) ^ k)
    (hk : (k.natAbs : ℚ) / 10 ^ (c.digits10 + 2 * c.ed) ≤ 1 / 4) :
    let f := (if b then -1 else 1) * (m * (2 : ℚ) ^ k)
    let r := fromFloat c est fdig p minN f
    Full c r ∧ r.isNeg = b ∧
    |r.val c - f| ≤ (2 * k.natAbs + 4) / 10 ^ (if k = -1 ∨ k = -2 then c.digits10 else c.digits10 + 2 * c.ed) * |f| := by
  intro f r
  have hr : r = _ := fromFloat_eq (c := c) (est := est) (fdig := fdig) hp hp64 hn b
  obtain ⟨t1, t2, t3, t4, -, t6, t7⟩ := base_spec (c := c) hn hp64
  generalize ht : fromULL c m false = t at *
  have hmq : (1 : ℚ) ≤ m := by exact_mod_cast t7
  have hkpos : (0 : ℚ) < 2 ^ k := by positivity
  have htv : t.val c ≠ 0 := by
    intro h; have := t1.toWF.abs_pos t2; rw [h, abs_zero] at this; exact lt_irrefl _ this
  have htexp : t.exp < (c.maxExp : ℤ) - 1 := exp_lt_of_lt t1.toWF t2 (lt_of_le_of_lt t3 hm)
  have hB5 : 5 ≤ c.B := by unfold Cfg.B; cases c.L <;> decide
  have htu := Full.ulp_le t1.toWF t2
  set H : ℚ := 10 ^ (c.digits10 + 2 * c.ed) with hH
  have hH10 : (10 : ℚ) ≤ H := by
    rw [hH]; calc (10 : ℚ) = 10 ^ 1 := by norm_num
      _ ≤ _ := pow_le_pow_right₀ (by norm_num) (by omega)
  have hH0 : 0 < H := by linarith
  have htm : (m : ℚ) - |t.val c| ≤ m / H := by
    rw [le_div_iff₀ hH0]
    nlinarith
  have ha0 := t1.toWF.abs_pos t2
  set a := |t.val c| with ha
  set q : ℚ := 2 ^ k with hq
  have comb : ∀ (w y n : ℚ), 0 ≤ n → n / H ≤ 1 / 2 → 0 ≤ w → |y - q| ≤ 2 * n / H * q → |w - a * y| ≤ w / H →
      |w - m * q| ≤ (2 * n + 4) / H * (m * q) := fun w y n => scale_comb hH10 hkpos hmq ha0 t3 htm
  have mulcase : ∀ (y : DW) (n : ℕ), Full c y → 0 < y.val c → (n : ℚ) / H ≤ 1 / 2 → |y.val c - q| ≤ 2 * n / H * q →
      10 ^ (-(c.maxExp : ℤ) + 2 * c.ed) ≤ |t.val c * y.val c| → |t.val c * y.val c| < 10 ^ (c.maxExp : ℤ) →
      Full c (mulAssign c t y) ∧ |(|(mulAssign c t y).val c| - m * q)| ≤ (2 * n + 4) / H * (m * q) := by
    intro y n hy hy0 hn2 hyq l1 l2
    obtain ⟨e1, e2⟩ := exp_range t1.toWF hy.toWF htv hy0.ne' l2 l1
    have hme := mul_relative_error c t y t1 hy htv hy0.ne' hok e1 e2
    refine ⟨(mul_error c t y t1 hy htv hy0.ne' hok e1 e2).2.2.1, ?_⟩
    refine comb _ (y.val c) n (by positivity) hn2 (abs_nonneg _) hyq ?_
    refine le_trans ?_ hme.le
    have := abs_abs_sub_abs_le_abs_sub ((mulAssign c t y).val c) (t.val c * y.val c)
    rwa [abs_mul, abs_of_pos hy0] at this
  have hη0 : (0 : ℚ) < 1 / H := by positivity
  have ha1 : 1 ≤ a := by
    refine le_trans ?_ (t1.toWF.abs_ge t2)
    rw [← zpow_zero (10 : ℚ)]; exact zpow_le_zpow_right₀ (by norm_num) t6
  have powcase : ∀ (y : DW) (v : ℚ) (j : ℕ), j = k.natAbs → Full c y → y.val c = v → 0 < v → v ^ j = q →
      |y.val c ^ j| ≤ (10 : ℚ) ^ ((c.maxExp : ℤ) - 1) →
      (10 : ℚ) ^ (-(c.maxExp : ℤ) + 2 * c.ed + 1) ≤ |y.val c ^ j| →
      Full c (mulAssign c t (powNat c y j)) ∧
      |(|(mulAssign c t (powNat c y j)).val c| - m * q)| ≤ (2 * k.natAbs + 4) / H * (m * q) := by
    intro y v j hj hy hv hv0 hvq r1 r2
    have hj4 : (j : ℚ) / H ≤ 1 / 4 := by rw [hj]; exact hk
    obtain ⟨p1, p2⟩ := pow_accuracy c y j hy (by rw [hv]; exact hv0.ne') hok hE (le_trans hj4 (by norm_num)) r1 r2
    rw [hv, hvq, abs_of_pos hkpos, ← hH] at p2
    have h2 : 2 * (j : ℚ) / H * q ≤ q / 2 := by
      rw [show 2 * (j : ℚ) / H * q = 2 * (j / H) * q by ring]; nlinarith
    have p3 := abs_le.mp (le_trans p2 h2)
    have hy0 : 0 < (powNat c y j).val c := by linarith
    have habs : |t.val c * (powNat c y j).val c| = a * (powNat c y j).val c := by
      rw [abs_mul, abs_of_pos hy0]
    rw [← hj]
    refine mulcase _ j p1 hy0 (le_trans hj4 (by norm_num)) p2 ?_ ?_
    · rw [habs]
      have e1 : (10 : ℚ) ^ (-(c.maxExp : ℤ) + 2 * c.ed + 1) = 10 ^ (-(c.maxExp : ℤ) + 2 * c.ed) * 10 := by
        rw [← zpow_add_one₀ (by norm_num)]
      rw [e1] at hlo
      have := p10_pos (-(c.maxExp : ℤ) + 2 * c.ed)
      nlinarith
    · rw [habs]
      have e1 : (10 : ℚ) ^ (c.maxExp : ℤ) = 10 ^ ((c.maxExp : ℤ) - 1) * 10 := by
        rw [← zpow_add_one₀ (by norm_num)]; congr 1; ring
      have := p10_pos ((c.maxExp : ℤ) - 1)
      have h3 : a * (powNat c y j).val c ≤ m * (3 / 2 * q) := mul_le_mul t3 (by linarith) hy0.le (by linarith)
      rw [e1]; nlinarith
  have mulU : ∀ n : ℕ, 0 < n → n < c.B → orderOf n = 1 → (n : ℚ) = q →
      Full c (mulULL c t n) ∧ |(|(mulULL c t n).val c| - m * q)| ≤ (2 * k.natAbs + 4) / H * (m * q) := by
    intro n h0 hnB ho hnk
    obtain ⟨a1, a2, -, a4, a5⟩ := mulULL_small t1 t2 h0 hnB (by rw [ho]; push_cast; omega)
    refine ⟨a1, ?_⟩
    have hu := Full.ulp_le a1.toWF a2
    rw [← hH] at hu
    rw [hnk, ← ha] at a4 a5
    refine le_trans (comb _ q 0 le_rfl (by simp) (abs_nonneg _) (by simp) ?_) ?_
    · rw [abs_le, le_div_iff₀ hH0, neg_le, neg_sub, ← sub_nonneg] 
      constructor
      · rw [sub_nonneg, le_div_iff₀ hH0]; nlinarith
      · nlinarith [abs_nonneg ((mulULL c t n).val c)]
    · refine mul_le_mul_of_nonneg_right ?_ (by positivity)
      rw [div_le_div_iff_of_pos_right hH0]
      have : (0 : ℚ) ≤ k.natAbs := by positivity
      linarith
  have hP0 : (0 : ℚ) < 10 ^ c.digits10 := by positivity
  have hP10 : (10 : ℚ) ≤ 10 ^ c.digits10 := by
    calc (10 : ℚ) = 10 ^ 1 := by norm_num
      _ ≤ _ := pow_le_pow_right₀ (by norm_num) hd
  have hPH : (10 : ℚ) ^ c.digits10 ≤ H := pow_le_pow_right₀ (by norm_num) (by omega)
  have divU : ∀ n : ℕ, 0 < n → n < 5 → ((n : ℚ))⁻¹ = q →
      Full c (divULL c est fdig t n) ∧
      |(|(divULL c est fdig t n).val c| - m * q)| ≤ (2 * k.natAbs + 4) / 10 ^ c.digits10 * (m * q) := by
    intro n h0 hn5 hnk
    obtain ⟨d1, d2, d3, -⟩ := div_unsigned_partial c est fdig t t1 htv n h0 (by omega) (by omega)
    refine ⟨d1, ?_⟩
    generalize (divULL c est fdig t n).val c = w at *
    have h4 : |(|w| - a * q)| ≤ |w| * (1 / 10 ^ c.digits10) := by
      have := abs_abs_sub_abs_le_abs_sub w (t.val c / n)
      rw [abs_div, Nat.abs_cast, div_eq_mul_inv, hnk, ← ha] at this
      rw [zpow_neg, zpow_natCast, ← one_div] at d3
      rw [div_eq_mul_inv, hnk] at d3 this
      linarith
    have h5 : (m : ℚ) - a ≤ m * (1 / 10 ^ c.digits10) := by
      refine le_trans htm ?_
      rw [mul_one_div]
      exact div_le_div_of_nonneg_left (by linarith) hP0 hPH
    have hh : 1 / (10 : ℚ) ^ c.digits10 ≤ 1 / 10 := by rw [div_le_div_iff₀ hP0 (by norm_num)]; linarith
    have hh0 : 0 < 1 / (10 : ℚ) ^ c.digits10 := by positivity
    have hkn : (0 : ℚ) ≤ k.natAbs := by positivity
    rw [show (2 * (k.natAbs : ℚ) + 4) / 10 ^ c.digits10 * (m * q) = (2 * k.natAbs + 4) * (1 / 10 ^ c.digits10 * (m * q)) by ring]
    generalize 1 / (10 : ℚ) ^ c.digits10 = h at *
    have hw0 := abs_nonneg w
    generalize |w| = w at *
    rw [abs_le] at h4
    have hmq0 : 0 < (m : ℚ) * q := by positivity
    have hx0 : 0 < h * (m * q) := by positivity
    have g1 : a * q ≤ m * q := mul_le_mul_of_nonneg_right t3 hkpos.le
    have g2 : w ≤ 2 * (m * q) := by nlinarith
    have g3 : w * h ≤ 2 * (m * q) * h := mul_le_mul_of_nonneg_right g2 hh0.le
    have g4 : (m - a) * q ≤ m * h * q := mul_le_mul_of_nonneg_right h5 hkpos.le
    have g5 : 4 * (h * (m * q)) ≤ (2 * k.natAbs + 4) * (h * (m * q)) := by nlinarith
    refine le_trans ?_ g5
    rw [abs_le]
    constructor <;> nlinarith
  have main : Full c (scaleF c est fdig t k) ∧ |(|(scaleF c est fdig t k).val c| - m * q)| ≤
      (2 * k.natAbs + 4) / 10 ^ (if k = -1 ∨ k = -2 then c.digits10 else c.digits10 + 2 * c.ed) * (m * q) := by
    unfold scaleF
    by_cases c1 : k < -2
    · rw [if_pos c1, if_neg (by omega)]
      have hk2 := zpow_two_neg k (by omega)
      obtain ⟨q1, q2⟩ := pow_half_range (c := c) hE (-k).toNat (by rw [← hk2]; exact hlo)
      exact powcase _ _ _ (by omega) (half_full c) (half_val c) (by norm_num) hk2.symm q1 q2
    rw [if_neg c1]
    by_cases c2 : k = -2
    · rw [if_pos c2, if_pos (Or.inr c2)]
      exact divU 4 (by norm_num) (by norm_num) (by rw [hq, c2]; norm_num)
    rw [if_neg c2]
    by_cases c3 : k = -1
    · rw [if_pos c3, if_pos (Or.inl c3)]
      exact divU 2 (by norm_num) (by norm_num) (by rw [hq, c3]; norm_num)
    rw [if_neg c3, if_neg (show ¬ (k = -1 ∨ k = -2) by omega)]
    by_cases c4 : k = 0
    · rw [if_pos c4]
      refine ⟨t1, ?_⟩
      have hq1 : q = 1 := by rw [hq, c4]; simp
      refine le_trans (comb _ q 0 le_rfl (by simp) (abs_nonneg _) (by simp) ?_) ?_
      · rw [hq1, mul_one, ← ha, sub_self, abs_zero]; positivity
      · rw [c4, ← hH]; simp
    rw [if_neg c4]
    by_cases c5 : k = 1
    · rw [if_pos c5]
      exact mulU 2 (by norm_num) (by omega) orderOf_small.1 (by rw [hq, c5]; norm_num)
    rw [if_neg c5]
    by_cases c6 : k = 2
    · rw [if_pos c6]
      exact mulU 4 (by norm_num) (by omega) orderOf_small.2 (by rw [hq, c6]; norm_num)
    rw [if_neg c6]
    have hk2 := zpow_two_pos k (by omega)
    obtain ⟨q1, q2⟩ := pow_two_range (c := c) hE k.toNat (by rw [← hk2]; nlinarith)
    exact powcase _ _ _ (by omega) (two_full c) (two_val c) (by norm_num) hk2.symm q1 q2
  obtain ⟨m1, m2⟩ := main
  rw [hr]
  generalize scaleF c est fdig t k = w at *
  refine ⟨⟨⟨m1.len, m1.valid, m1.dvd, m1.prec2, m1.precN, m1.lead⟩, m1.full⟩, rfl, ?_⟩
  have hfabs : |f| = m * q := by
    show |(if b then -1 else 1) * (m * q)| = _
    rw [sgn_abs, abs_of_nonneg (by positivity)]
  rw [hfabs]
  refine le_trans (le_of_eq ?_) m2
  rw [val_sgn c _, setNeg_abs]
  show |(if b then -1 else 1) * |w.val c| - (if b then -1 else 1) * (m * q)| = _
  rw [← mul_sub, sgn_abs]

/-- C43 (small numbers). Every number below the smallest normal number, zero included, is converted to zero, whatever its
    value. (The conversion of a subnormal number therefore loses everything; a negative one becomes a zero with the sign
    flag set.) -/
theorem float_subnormal_is_zero (c : Cfg) (est : DW → DW) (fdig p : ℕ) (minN f : ℚ) (hf : |f| < minN) (hp : 4 ≤ p)
    (hok : MulOk c c.N) (hE : 2 * c.ed + 1 ≤ c.maxExp) (hpH : ((p - 1 : ℕ) : ℚ) / 10 ^ (c.digits10 + 2 * c.ed) ≤ 1 / 4)
    (hlo : (10 : ℚ) ^ (-(c.maxExp : ℤ) + 2 * c.ed + 1) ≤ (1 / 2) ^ (p - 1)) :
    (fromFloat c est fdig p minN f).val c = 0 ∧ Full c (fromFloat c est fdig p minN f) ∧
    ((fromFloat c est fdig p minN f).isNeg = true ↔ f < 0) := by
  have hab : (if (!decide (f < 0)) = true then f else -f) = |f| := by
    by_cases h : f < 0
    · simp [h, abs_of_neg h]
    · simp [h, abs_of_nonneg (not_lt.mp h)]
  have hr : fromFloat c est fdig p minN f = { mulAssign c (fromULL c 0 false) (powNat c (half c) (p - 1)) with neg := decide (f < 0) } := by
    unfold fromFloat
    simp only [hab, nativeParts_zero hf]
    rw [if_pos (by omega), show (-(0 - ((p : ℤ) - 1))).toNat = p - 1 by omega]
  obtain ⟨a1, -, -, -, a5, -⟩ := fromULL_spec c 0 (by norm_num) false
  obtain ⟨q1, q2⟩ := pow_half_range (c := c) hE (p - 1) hlo
  have hv := half_val c
  obtain ⟨p1, p2⟩ := pow_accuracy c (half c) (p - 1) (half_full c) (by rw [hv]; norm_num) hok hE (le_trans hpH (by norm_num)) q1 q2
  generalize powNat c (half c) (p - 1) = y at *
  rw [hv, abs_of_pos (by positivity : (0 : ℚ) < (1 / 2) ^ (p - 1))] at p2
  have hexp : -(c.maxExp : ℤ) < y.exp ∧ y.exp < c.maxExp := by
    have hq0 : (0 : ℚ) < (1 / 2) ^ (p - 1) := by positivity
    have hq1 : ((1 : ℚ) / 2) ^ (p - 1) ≤ 1 / 2 := by
      calc ((1 : ℚ) / 2) ^ (p - 1) ≤ (1 / 2) ^ 1 := pow_le_pow_of_le_one (by norm_num) (by norm_num) (by omega)
        _ = _ := by norm_num
    rw [show 2 * ((p - 1 : ℕ) : ℚ) / 10 ^ (c.digits10 + 2 * c.ed) = 2 * (((p - 1 : ℕ) : ℚ) / 10 ^ (c.digits10 + 2 * c.ed)) by ring] at p2
    generalize ((p - 1 : ℕ) : ℚ) / 10 ^ (c.digits10 + 2 * c.ed) = g at *
    generalize ((1 : ℚ) / 2) ^ (p - 1) = q at *
    have p3 : |y.val c - q| ≤ q / 2 := le_trans p2 (by nlinarith)
    rw [abs_le] at p3
    have hy0 : 0 < y.val c := by linarith
    have hyz := isZero_false_of_val p1.toWF hy0.ne'
    have u1 : y.exp < 0 := exp_lt_of_lt p1.toWF hyz (by rw [abs_of_pos hy0, zpow_zero]; linarith)
    have u2 := p1.toWF.abs_lt
    rw [abs_of_pos hy0] at u2
    have e1 : (10 : ℚ) ^ (-(c.maxExp : ℤ) + 2 * c.ed + 1) = 10 ^ (-(c.maxExp : ℤ) + 2 * c.ed) * 10 := by
      rw [← zpow_add_one₀ (by norm_num)]
    rw [e1] at hlo
    have u3 : (10 : ℚ) ^ (-(c.maxExp : ℤ) + 2 * c.ed) < 10 ^ (y.exp + c.ed) := by
      have := p10_pos (-(c.maxExp : ℤ) + 2 * c.ed)
      linarith
    have u4 := (zpow_lt_zpow_iff_right₀ (by norm_num : (1 : ℚ) < 10)).mp u3
    have := c.ed_pos
    constructor <;> omega
  obtain ⟨z1, z2⟩ := mulAssign_zero a1 p1 (Or.inl (a5.mpr rfl)) hok hexp.1 hexp.2
  rw [hr]
  generalize mulAssign c (fromULL c 0 false) y = w at *
  refine ⟨?_, ⟨⟨z2.len, z2.valid, z2.dvd, z2.prec2, z2.precN, z2.lead⟩, z2.full⟩, by simp [isNeg]⟩
  rw [val_sgn c _, setNeg_abs, z1, abs_zero, mul_zero]

/-- 2^52·2^(-52) is a normal `double`. -/
theorem normal_one : NormalF 53 ((2 : ℚ) ^ (-1022 : ℤ)) (2 ^ 52) (-52) := by
  refine ⟨by norm_num, by norm_num, ?_⟩
  have : (((2 ^ 52 : ℕ) : ℚ)) * 2 ^ (-52 : ℤ) = 2 ^ (0 : ℤ) := by norm_num
  rw [this]
  exact zpow_le_zpow_right₀ (by norm_num) (by norm_num)

/-- The object made of 1.0 in `decwide_t<10>` with 32-bit limbs. -/
theorem float_one_limbs (est : DW → DW) (fdig : ℕ) : fromFloat exC10 est fdig 53 ((2 : ℚ) ^ (-1022 : ℤ)) 1 =
    { data := [99999999, 99999999, 99999999, 99999999, 97185250], exp := -8, neg := false, prec := 5 } := by
  have hf : (1 : ℚ) = (if false then -1 else 1) * (((2 ^ 52 : ℕ) : ℚ) * 2 ^ (-52 : ℤ)) := by norm_num
  rw [hf, fromFloat_eq (c := exC10) (est := est) (fdig := fdig) (by norm_num) (by norm_num) normal_one false]
  unfold scaleF
  rw [if_pos (by norm_num)]
  decide +kernel

/-- C43 (finding F37). Where the digits do not fit the result is not even right for one: in `decwide_t<10>` with 32-bit
    limbs the `double` 1.0 becomes a number below one, and the comparison with the constant one says so. -/
theorem float_one_not_one (est : DW → DW) (fdig : ℕ) :
    let r := fromFloat exC10 est fdig 53 ((2 : ℚ) ^ (-1022 : ℤ)) 1
    NormalF 53 ((2 : ℚ) ^ (-1022 : ℤ)) (2 ^ 52) (-52) ∧ r.val exC10 < 1 ∧ cmp r (one exC10) = -1 := by
  have hr := float_one_limbs est fdig
  refine ⟨normal_one, ?_, ?_⟩
  · rw [hr]; unfold DW.val; decide +kernel
  · rw [hr]; decide +kernel

/-- The hypotheses of `float_exact_partial` hold for -(2^52+1)·2^(-3) (a `double`) in `decwide_t<20>`. -/
example : let c : Cfg := { L := .u32, digits10 := 20, maxExp := 2 ^ 59 }
    NormalF 53 (1 / 2 ^ 1022) (2 ^ 52 + 1) (-3) ∧ MulOk c c.N ∧ 2 * c.ed + 1 ≤ c.maxExp ∧ 2 ^ 52 + 1 < 10 ^ (c.ed * c.N) ∧
    5 ^ 3 < 10 ^ (c.digits10 + 2 * c.ed + 1) ∧ SigDigits (c.digits10 + 2 * c.ed + 1) (((2 ^ 52 + 1 : ℕ) : ℚ) * 2 ^ (-3 : ℤ)) := by
  refine ⟨?_, by decide +kernel, by decide, by decide +kernel, by decide +kernel, ⟨562949953421312125, -3, by decide +kernel, by norm_num⟩⟩
  refine ⟨by norm_num, by norm_num, le_trans (b := 1) ?_ (by norm_num)⟩
  exact (div_le_one (by positivity)).mpr (one_le_pow₀ (by norm_num))

/-- 1.0 in `decwide_t<20>` is exact (5^52 < 10^37), and the hypotheses of `float_subnormal_is_zero` hold there for `double`. -/
example : let c : Cfg := { L := .u32, digits10 := 20, maxExp := 2 ^ 59 }
    (5 : ℕ) ^ 52 < 10 ^ (c.digits10 + 2 * c.ed + 1) ∧ (((53 - 1 : ℕ) : ℚ) / 10 ^ (c.digits10 + 2 * c.ed) ≤ 1 / 4) ∧
    mulAssign c (fromULL c (2 ^ 52) false) (powNat c (half c) 52) = { one c with prec := c.N } := by
  refine ⟨by decide +kernel, by decide +kernel, by decide +kernel⟩

end WD
