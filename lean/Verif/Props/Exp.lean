import Verif.Proofs.ExpMain
import Verif.Props.Radix
import Verif.Props.Const
/-
  C47: `exp`. The error bounds are stated with Mathlib's real exponential.
-/
namespace WD
open DW

/-- From the logarithm of the result to its relative error. -/
theorem rel_of_log {r x D : ℝ} (hr : 0 < r) (hD : D ≤ 1 / 100) (h : |Real.log r - x| ≤ D) :
    |r - Real.exp x| ≤ Real.exp x * (101 / 100 * D) := by
  have hD0 : 0 ≤ D := (abs_nonneg _).trans h
  have e : r - Real.exp x = Real.exp x * (Real.exp (Real.log r - x) - 1) := by
    rw [mul_sub, ← Real.exp_add, mul_one, add_sub_cancel, Real.exp_log hr]
  rw [e, abs_mul, abs_of_pos (Real.exp_pos x)]
  apply mul_le_mul_of_nonneg_left _ (Real.exp_pos x).le
  have h1 := Real.abs_exp_sub_one_sub_id_le (x := Real.log r - x) (by linarith)
  have h2 : (Real.log r - x) ^ 2 ≤ 1 / 100 * D := by
    rw [← sq_abs]
    nlinarith [abs_nonneg (Real.log r - x)]
  have h3 := abs_le.mp h
  have h1' := abs_le.mp h1
  rw [abs_le]; constructor <;> linarith [h3.1, h3.2, h1'.1, h1'.2]

/-- C47 (`exp(0) = 1`), for every configuration and every representation of zero. -/
theorem exp_zero (c : Cfg) (est : DW → DW) (fdig : ℕ) (l x : DW) (hx : WF c x) (h0 : x.val c = 0) (hn : x.neg = false) :
    expDW c est fdig l x = some (one c) := by
  unfold expDW
  rw [if_neg]
  intro h
  rcases h with h | h
  · unfold isNeg at h; rw [hn] at h; simp at h
  · obtain ⟨a, b, -⟩ := of_signed_exact c 0 (by norm_num) (by norm_num)
    have := (ordering_matches_value c x (ofSigned c 0) hx a.toWF).2.2.2.2.2.mp h
    rw [h0, b (by positivity)] at this
    simp at this

example : expDW exC (fun x => x) 15 (zero exC) (zero exC) = some (one exC) :=
  exp_zero exC _ _ _ _ (zero_WF exC).toWF (by rw [zero_val]) rfl

set_option maxHeartbeats 1000000 in
/-- C47. `exp` returns a positive number whose relative error is at most (26000 + |x|/500)·10^(-digits10): for every non-zero
    x for which the result lies inside the exponent range and |x| ≤ 1.48·10^9, every configuration of 16 to 2000 digits
    and any object in the place of ln 2 that is right to digits10 + 2·ed digits. What is missing
    for a partial claim: full accuracy to digits10 digits, which the code does not deliver (`exp_loses_digits`), and larger
    arguments, for which it is wrong (`exp_wraps`). -/
theorem exp_accuracy_partial (c : Cfg) (F : Flt) (h : ElemOk c F) (h2k : c.digits10 ≤ 2000) (l : DW) (hl : Full c l)
    (hl2 : |(l.val c : ℝ) - Real.log 2| ≤ 1 / 10 ^ (c.digits10 + 2 * c.ed)) (x : DW) (hx : Full c x)
    (hlo : (10 : ℚ) ^ (-(c.maxExp : ℤ) + 5 * c.ed + 10) ≤ |x.val c|) (h9 : |x.val c| ≤ 148 * 10 ^ 7)
    (hhi : |x.val c| ≤ 23 / 10 * ((c.maxExp : ℚ) - 3))
    (hneg : x.val c < 0 → |x.val c| ≤ 23 / 10 * ((c.maxExp : ℚ) - 3 * c.ed - 3)) :
    ∃ r, expDW c (estInv c F) F.digits10 l x = some r ∧ 0 < r.val c ∧
      (Full c r ∨ (x.val c < 0 ∧ r.data = 10 ^ c.ed :: List.replicate (c.N - 1) 0 ∧ (c.ed : ℤ) ∣ r.exp ∧ r.prec = c.N)) ∧
      |(r.val c : ℝ) - Real.exp (x.val c)| ≤ Real.exp (x.val c) * ((26000 + |(x.val c : ℝ)| / 500) / 10 ^ c.digits10) := by
  have hM := h.hM
  have h2 := two_le_ed c
  have h8 := ed_le8 c
  have hl2' : |(l.val c : ℝ) - Real.log 2| ≤ (mulEps c : ℝ) := by unfold mulEps; push_cast; exact hl2
  obtain ⟨e0, e1⟩ := epsD_real h.lo
  obtain ⟨m0, m1⟩ := mulEps_real c
  have eD : (epsD c : ℝ) = 1 / 10 ^ c.digits10 := by
    unfold epsD; push_cast; rw [zpow_neg, zpow_natCast, one_div]
  have hap : 0 < |x.val c| := lt_of_lt_of_le (p10_pos _) hlo
  have hx0 : x.val c ≠ 0 := abs_pos.mp hap
  have hxe : -(c.maxExp : ℤ) + 4 * c.ed + 10 < x.exp := by
    have := lt_of_le_of_lt hlo hx.toWF.abs_lt
    rw [zpow_lt_zpow_iff_right₀ (by norm_num)] at this
    omega
  have h9' := (Rat.cast_le (K := ℝ)).mpr h9
  push_cast at h9'
  have hfin : ∀ (r y : ℝ), 0 < r → |y| = |(x.val c : ℝ)| → |Real.log r - y| ≤ (25330 + |(x.val c : ℝ)| / 1000) * (epsD c : ℝ) →
      |r - Real.exp y| ≤ Real.exp y * ((26000 + |(x.val c : ℝ)| / 500) / 10 ^ c.digits10) := by
    intro r y hr hy hd
    have ha := abs_nonneg (x.val c : ℝ)
    have k : |(x.val c : ℝ)| * epsD c ≤ 148 * 10 ^ 7 * (1 / 10 ^ 16) := mul_le_mul h9' e1 e0.le (by norm_num)
    have := rel_of_log hr (by norm_num at k e1; linarith) hd
    refine this.trans ?_
    apply mul_le_mul_of_nonneg_left _ (Real.exp_pos y).le
    have e : (26000 + |(x.val c : ℝ)| / 500) / 10 ^ c.digits10 = (26000 + |(x.val c : ℝ)| / 500) * epsD c := by rw [eD]; ring
    rw [e]
    have : 0 ≤ |(x.val c : ℝ)| * epsD c := by positivity
    linarith
  have hexpN := expGoal_eq (c := c) hx (by have := h.lo; omega)
  rcases lt_or_gt_of_ne hx0 with hs | hs
  · -- negative argument
    have hN : c.N < 1793 := h.hok.1
    have hhi' := hneg hs
    have hxn : x.neg = true := by
      by_contra hc
      rw [val_sgn c x] at hs
      simp only [Bool.not_eq_true] at hc
      rw [hc] at hs
      simp only [Bool.false_eq_true, if_false, one_mul] at hs
      linarith [abs_nonneg (x.val c)]
    have hnf := negate_full hx
    have hnv : x.negate.val c = |x.val c| := by rw [negate_val c hx.toWF, abs_of_neg hs]
    have hne : x.negate.exp = x.exp := by unfold negate; split <;> rfl
    obtain ⟨a1, r, a2, a3, a4, a5⟩ := exp_pos_core h h2k hnf hl (by rw [hnv]; exact hap) (by rw [hnv]; exact h9) (by rw [hnv]; exact hhi)
      (by rw [hne]; exact hxe) hl2'
    have hab : ((x.negate.val c : ℚ) : ℝ) = |(x.val c : ℝ)| := by rw [hnv]; push_cast; rfl
    rw [hab] at a5
    have a5b := abs_le.mp a5
    -- the exponent of the number to be inverted
    have hrhi : (r.val c : ℝ) < 10 ^ (c.maxExp - 3 * c.ed) := by
      have hh := (Rat.cast_le (K := ℝ)).mpr hhi'
      push_cast at hh
      rw [← Real.exp_log (show (0 : ℝ) < r.val c by exact_mod_cast a4)]
      have k : |(x.val c : ℝ)| * epsD c ≤ 148 * 10 ^ 7 * (1 / 10 ^ 16) := mul_le_mul h9' e1 e0.le (by norm_num)
      refine lt_of_lt_of_le ((Real.exp_lt_exp (y := |(x.val c : ℝ)| + 1)).mpr ?_) (exp_le_ten ?_)
      · norm_num at k e1; linarith [a5b.2]
      · rw [Nat.cast_sub (by omega)]; push_cast; linarith
    have hrhi' : r.val c < 10 ^ (c.maxExp - 3 * c.ed) := by exact_mod_cast hrhi
    have hrlo : 1 / 10 < r.val c := by
      have : (((1 / 10 : ℚ)) : ℝ) < r.val c := by
        rw [← Real.exp_log (show (0 : ℝ) < r.val c by exact_mod_cast a4)]
        have k : |(x.val c : ℝ)| * epsD c ≤ 148 * 10 ^ 7 * (1 / 10 ^ 16) := mul_le_mul h9' e1 e0.le (by norm_num)
        have h1 := Real.add_one_le_exp (Real.log (r.val c : ℝ))
        have := abs_nonneg (x.val c : ℝ)
        push_cast
        norm_num at k e1 ⊢
        linarith [a5b.1]
      exact_mod_cast this
    have hrz := isZero_false_of_val a3.toWF a4.ne'
    have re1 := a3.toWF.abs_ge hrz
    have re2 := a3.toWF.abs_lt
    rw [abs_of_pos a4] at re1 re2
    have f1 : -(c.maxExp : ℤ) < r.exp := by
      have : (10 : ℚ) ^ (-1 : ℤ) < 10 ^ (r.exp + (c.ed : ℤ)) := by
        refine lt_of_le_of_lt ?_ re2; norm_num; linarith
      rw [zpow_lt_zpow_iff_right₀ (by norm_num)] at this
      omega
    have f2 : r.exp + 3 * c.ed < c.maxExp := by
      have := lt_of_le_of_lt re1 hrhi'
      rw [← zpow_natCast, zpow_lt_zpow_iff_right₀ (by norm_num)] at this
      omega
    obtain ⟨i1, i2, i3⟩ := inv_accuracy_any c F h.hF h.hK r a3 a4.ne' h.hok (by omega) f1 f2
    refine ⟨calcInv c (estInv c F) F.digits10 r, ?_, ?_, i3.imp id (fun k => ⟨hs, k⟩), ?_⟩
    · unfold expDW
      have hn' : x.isNeg = true := hxn
      rw [if_pos (Or.inl hn')]
      simp only [hn', Bool.not_true, Bool.false_eq_true, if_false, if_true, hexpN, hx.full]
      rw [if_pos a1, a2]; rfl
    · have e5 : (5 : ℚ) / 10 ^ (c.digits10 + 2 * c.ed) = 5 * mulEps c := by unfold mulEps; ring
      rw [e5] at i2
      have := mulEps_le20 h.lo
      have k := (abs_lt.mp i2).1
      have : 0 < (calcInv c (estInv c F) F.digits10 r).val c * r.val c := by norm_num at this; linarith
      exact (pos_iff_pos_of_mul_pos this).mpr a4
    · have e5 : (5 : ℚ) / 10 ^ (c.digits10 + 2 * c.ed) = 5 * mulEps c := by unfold mulEps; ring
      rw [e5] at i2
      set w := (calcInv c (estInv c F) F.digits10 r).val c with hw
      have i2' := (Rat.cast_le (K := ℝ)).mpr i2.le
      push_cast at i2'
      obtain ⟨j1, j2⟩ := log_shift (a := (w : ℝ) * r.val c) (b := 1) (t := 5 * mulEps c) one_pos (by norm_num at m1 e1 ⊢; linarith)
        (by rw [mul_one]; exact i2')
      have hr' : (0 : ℝ) < r.val c := by exact_mod_cast a4
      have hwp : (0 : ℝ) < w := (pos_iff_pos_of_mul_pos j1).mpr hr'
      rw [Real.log_mul hwp.ne' hr'.ne', Real.log_one, sub_zero] at j2
      have j2b := abs_le.mp j2
      apply hfin _ _ hwp rfl
      have hxx : (x.val c : ℝ) = -|(x.val c : ℝ)| := by
        rw [abs_of_neg (by exact_mod_cast hs)]; ring
      have ha := abs_nonneg (x.val c : ℝ)
      generalize |(x.val c : ℝ)| = A at *
      rw [hxx]
      norm_num at m1
      rw [abs_le]; constructor <;> linarith [a5b.1, a5b.2, j2b.1, j2b.2]
  · -- positive argument
    have hxn : x.neg = false := neg_of_pos hs
    have habs : |x.val c| = x.val c := abs_of_pos hs
    rw [habs] at h9 hhi
    obtain ⟨a1, r, a2, a3, a4, a5⟩ := exp_pos_core h h2k hx hl hs h9 hhi hxe hl2'
    refine ⟨r, ?_, a4, Or.inl a3, ?_⟩
    · unfold expDW
      have hn' : x.isNeg = false := hxn
      have hgt : gt x (ofSigned c 0) = true := by
        obtain ⟨a, b, -⟩ := of_signed_exact c 0 (by norm_num) (by norm_num)
        refine (ordering_matches_value c x (ofSigned c 0) hx.toWF a.toWF).2.2.2.2.2.mpr ?_
        rw [b (by positivity)]; simpa using hs
      rw [if_pos (Or.inr hgt)]
      simp only [hn', Bool.not_false, Bool.false_eq_true, if_false, if_true, hexpN, hx.full]
      rw [if_pos a1, a2]; rfl
    · apply hfin _ _ (by exact_mod_cast a4) rfl
      have e : |(x.val c : ℝ)| = x.val c := abs_of_pos (by exact_mod_cast hs)
      rw [e]
      refine a5.trans ?_
      apply mul_le_mul_of_nonneg_right _ e0.le
      linarith

/-- C47 for the configurations whose ln 2 is a table (16 to 51 digits): nothing is assumed about constants. -/
theorem exp_accuracy_low_partial (c : Cfg) (F : Flt) (h : ElemOk c F) (h51 : c.digits10 ≤ 51) (x : DW) (hx : Full c x)
    (hlo : (10 : ℚ) ^ (-(c.maxExp : ℤ) + 5 * c.ed + 10) ≤ |x.val c|) (h9 : |x.val c| ≤ 148 * 10 ^ 7)
    (hhi : |x.val c| ≤ 23 / 10 * ((c.maxExp : ℚ) - 3 * c.ed - 3)) :
    ∃ r, expDW c (estInv c F) F.digits10 (lnTwoLow c) x = some r ∧ 0 < r.val c ∧
      |(r.val c : ℝ) - Real.exp (x.val c)| ≤ Real.exp (x.val c) * ((26000 + |(x.val c : ℝ)| / 500) / 10 ^ c.digits10) := by
  obtain ⟨a, -, -, b⟩ := ln_two_correct c h51
  have hN : c.N < 1793 := by
    have h2 := two_le_ed c
    unfold Cfg.N
    have : c.digits10 / c.ed ≤ c.digits10 / 2 := Nat.div_le_div_left h2 (by norm_num)
    split <;> omega
  have hed : (0 : ℚ) ≤ c.ed := Nat.cast_nonneg _
  obtain ⟨r, r1, r2, -, r3⟩ := exp_accuracy_partial c F h (by omega) (lnTwoLow c) a (by
    refine b.le.trans ?_
    rw [one_div, ← zpow_natCast, ← zpow_neg]
    exact zpow_le_zpow_right₀ (by norm_num) (by push_cast; omega)) x hx hlo h9 (by linarith) (fun _ => hhi)
  exact ⟨r, r1, r2, r3⟩

/-- `decwide_t<20>` with the default limb and `double`. -/
def exC20 : Cfg := { L := .u32, digits10 := 20, maxExp := 2 ^ 59 }

theorem exC20_ok : ElemOk exC20 exDouble where
  hF := FloatOk.double ⟨rfl, rfl, rfl⟩
  hK := by decide +kernel
  hok := by decide +kernel
  hE := by decide +kernel
  lo := by decide
  hR := by decide +kernel
  hB := by decide +kernel

/-- 0.693 and its negative as objects. -/
def exS : DW := fromLst exC20 [69300000] (-8) false

theorem exS_full : Full exC20 exS := fromLst_single_full (by decide) (by decide)
theorem exS_val : exS.val exC20 = 693 / 1000 := by
  unfold exS; rw [fromLst_single_val]; norm_num

example : ∃ r, expDW exC20 (estInv exC20 exDouble) exDouble.digits10 (lnTwoLow exC20) exS = some r ∧ 0 < r.val exC20 ∧
      |(r.val exC20 : ℝ) - Real.exp (exS.val exC20)| ≤ Real.exp (exS.val exC20) * ((26000 + |(exS.val exC20 : ℝ)| / 500) / 10 ^ 20) := by
  refine exp_accuracy_low_partial exC20 exDouble exC20_ok (by decide) exS exS_full ?_ ?_ ?_
  · rw [exS_val]
    calc (10 : ℚ) ^ (-(exC20.maxExp : ℤ) + 5 * exC20.ed + 10) ≤ 10 ^ (-1 : ℤ) := zpow_le_zpow_right₀ (by norm_num) (by decide +kernel)
      _ ≤ _ := by norm_num
  · rw [exS_val]; norm_num
  · rw [exS_val]
    have : (exC20.maxExp : ℚ) = 2 ^ 59 := by unfold exC20; push_cast; rfl
    have h8 : (exC20.ed : ℚ) = 8 := by
      have : exC20.ed = 8 := by decide
      rw [this]; rfl
    rw [this, h8]; norm_num

theorem two_pow_ten {k : ℕ} (h : k ≤ 2 ^ 31) {M : ℕ} (hM : 10 ^ 9 ≤ M) : (2 : ℚ) ^ k ≤ 10 ^ ((M : ℤ) - 100) := by
  calc (2 : ℚ) ^ k ≤ 2 ^ (5 * 429496730) := pow_le_pow_right₀ (by norm_num) (by norm_num at h ⊢; omega)
    _ = (2 ^ 5) ^ 429496730 := by rw [pow_mul]
    _ ≤ (10 ^ 2) ^ 429496730 := pow_le_pow_left₀ (by norm_num) (by norm_num) _
    _ = 10 ^ (2 * 429496730) := by rw [← pow_mul]
    _ = 10 ^ ((2 * 429496730 : ℕ) : ℤ) := by rw [zpow_natCast]
    _ ≤ _ := zpow_le_zpow_right₀ (by norm_num) (by norm_num at hM ⊢; omega)

/-- C47 is false for large arguments: between 1.49·10^9 and 2.97·10^9 the number of halvings does not fit into an `int`. The
    result is then a number below 1 (or undefined, when it is the least `int`), although e^x > 10^600000000 is representable. -/
theorem exp_wraps (c : Cfg) (F : Flt) (h : ElemOk c F) (h2k : c.digits10 ≤ 2000) (hm : 10 ^ 9 ≤ c.maxExp) (l : DW) (hl : Full c l)
    (hl2 : |(l.val c : ℝ) - Real.log 2| ≤ 1 / 10 ^ (c.digits10 + 2 * c.ed)) (x : DW) (hx : Full c x)
    (h1 : 149 * 10 ^ 7 ≤ x.val c) (h2 : x.val c ≤ 297 * 10 ^ 7) :
    expDW c (estInv c F) F.digits10 l x = none ∨
    ∃ r, expDW c (estInv c F) F.digits10 l x = some r ∧ r.val c < 1 := by
  have hN : c.N < 1793 := h.hok.1
  have hed := two_le_ed c
  have h8 := ed_le8 c
  have hl2' : |(l.val c : ℝ) - Real.log 2| ≤ (mulEps c : ℝ) := by unfold mulEps; push_cast; exact hl2
  obtain ⟨lb1, lb2⟩ := ln2_bounds h.lo hl2'
  have hxp : 0 < x.val c := by norm_num at h1; linarith
  have hxz := isZero_false_of_val hx.toWF hxp.ne'
  have hxe : -(c.maxExp : ℤ) + 4 * c.ed + 10 < x.exp := by
    have := hx.toWF.abs_lt
    rw [abs_of_pos hxp] at this
    have : (10 : ℚ) ^ (0 : ℤ) < 10 ^ (x.exp + (c.ed : ℤ)) := by
      refine lt_of_le_of_lt ?_ this; norm_num at h1 ⊢; linarith
    rw [zpow_lt_zpow_iff_right₀ (by norm_num)] at this
    omega
  obtain ⟨a1, -, a2, a3, a4, a5, a6, a7, a8⟩ := expArg_spec h hx hl hxp h2 hxe lb1 lb2
  have a2 := a2 h1
  obtain ⟨b1, b2, b3, -⟩ := expPow_spec h h2k a3 a4 a5 a6
  have hexpN := expGoal_eq (c := c) hx (by have := h.lo; omega)
  have hn' : x.isNeg = false := neg_of_pos hxp
  have hgt : gt x (ofSigned c 0) = true := by
    obtain ⟨a, b, -⟩ := of_signed_exact c 0 (by norm_num) (by norm_num)
    refine (ordering_matches_value c x (ofSigned c 0) hx.toWF a.toWF).2.2.2.2.2.mpr ?_
    rw [b (by positivity)]; simpa using hxp
  generalize hn : expN c (estInv c F) F.digits10 l x = n at *
  generalize hz : expArg c (estInv c F) F.digits10 l x c.N = z at *
  generalize hr0 : powNat c (expSeries c (estInv c F) F.digits10 ((c.digits10 - 1 : ℕ) : ℤ) c.N z) 2048 = r0 at *
  have hunf : expDW c (estInv c F) F.digits10 l x = ldexp c (estInv c F) F.digits10 r0 ((n : ℤ) - 2 ^ 32) := by
    unfold expDW
    rw [if_pos (Or.inr hgt)]
    simp only [hn', Bool.not_false, Bool.false_eq_true, if_false, if_true, hexpN, hx.full, hn, hz, hr0]
    rw [if_pos (show n ≠ 0 by omega), if_neg (show ¬ n < 2 ^ 31 by omega)]
    simp
  rw [hunf]
  have hnhi : n ≤ 4285800000 := by
    have k : (n : ℚ) * (693 / 1000) ≤ n * l.val c := mul_le_mul_of_nonneg_left lb1 (Nat.cast_nonneg _)
    have : (n : ℚ) ≤ 4285800000 := by norm_num at a8 h2; linarith
    exact_mod_cast this
  by_cases hmin : n = 2 ^ 31
  · left
    unfold ldexp
    rw [if_neg (by rw [hmin]; norm_num), if_pos (by rw [hmin]; norm_num)]
  right
  obtain ⟨k, hk⟩ : ∃ k : ℕ, (n : ℤ) - 2 ^ 32 = -(k : ℤ) := ⟨2 ^ 32 - n, by omega⟩
  have hk1 : 9000000 ≤ k := by omega
  have hk2 : k < 2 ^ 31 := by omega
  refine ⟨divAssign c (estInv c F) F.digits10 r0 (powNat c (two c) k), ?_, ?_⟩
  · unfold ldexp
    rw [hk, if_neg (by omega), if_neg (by omega), if_pos (by omega)]
    simp
  have hpow := two_pow_ten (k := k) (by omega) hm
  obtain ⟨p1, p2, p3⟩ := powTwo_spec h.lo h.mulOk (by have := h.hM; omega) (n := k) (by omega)
    (hpow.trans (zpow_le_zpow_right₀ (by norm_num) (by omega)))
  generalize powNat c (two c) k = p at *
  have h2n : (0 : ℚ) < 2 ^ k := by positivity
  have h264 : (2 : ℚ) ^ 64 ≤ 2 ^ k := pow_le_pow_right₀ (by norm_num) (by omega)
  have kk : 2 * (k : ℚ) * mulEps c * 2 ^ k ≤ 1 / 1000000000 * 2 ^ k := mul_le_mul_of_nonneg_right p3 h2n.le
  have p2' := abs_le.mp p2
  have plo : 10 ^ 18 ≤ p.val c := by norm_num at h264 ⊢; linarith [p2'.1]
  have phi : p.val c ≤ 2 * 2 ^ k := by linarith [p2'.2]
  have pp : 0 < p.val c := by norm_num at plo; linarith
  have pz := isZero_false_of_val p1.toWF pp.ne'
  have pa := p1.toWF.abs_ge pz
  have pb := p1.toWF.abs_lt
  rw [abs_of_pos pp] at pa pb
  have pe : 0 < p.exp := by
    have : (10 : ℚ) ^ (18 - 1 : ℤ) < 10 ^ (p.exp + (c.ed : ℤ)) := by
      refine lt_of_lt_of_le ?_ (plo.trans pb.le); norm_num
    rw [zpow_lt_zpow_iff_right₀ (by norm_num)] at this
    omega
  have pe2 : p.exp < (c.maxExp : ℤ) - 99 := by
    have : (10 : ℚ) ^ p.exp < 10 ^ ((c.maxExp : ℤ) - 99) := by
      have e : (10 : ℚ) ^ ((c.maxExp : ℤ) - 99) = 10 ^ ((c.maxExp : ℤ) - 100) * 10 := by
        rw [← zpow_add_one₀ (by norm_num)]; congr 1; ring
      rw [e]
      have : (0 : ℚ) < 10 ^ ((c.maxExp : ℤ) - 100) := p10_pos _
      linarith
    rwa [zpow_lt_zpow_iff_right₀ (by norm_num)] at this
  obtain ⟨x1, x2⟩ := exp_of_mid b1 b2 b3
  obtain ⟨-, q2, -⟩ := div_accuracy_any c F h.hF h.hK r0 p b1 p1 (by linarith) pp.ne' h.hok (by omega) (by omega) (by omega)
    (by omega) (by omega)
  have e6 : (6 : ℚ) / 10 ^ (c.digits10 + 2 * c.ed) = 6 * mulEps c := by unfold mulEps; ring
  have hq0 : 0 < r0.val c / p.val c := div_pos (by linarith) pp
  rw [e6, abs_of_pos hq0] at q2
  have hq1 : r0.val c / p.val c ≤ 1 / 10 := by
    rw [div_le_iff₀ pp]; norm_num at plo; linarith
  have hμ := mulEps_le20 h.lo
  have k6 : r0.val c / p.val c * (6 * mulEps c) ≤ 1 / 10 * (6 * (1 / 10 ^ 20)) :=
    mul_le_mul hq1 (by linarith) (by have := mulEps_pos c; positivity) (by norm_num)
  have := (abs_lt.mp q2).2
  norm_num at k6
  linarith

/-- The hypotheses of `exp_wraps` are met by `decwide_t<20>` and x = 2·10^9. -/
example : ElemOk exC20 exDouble ∧ exC20.N < 1793 ∧ 10 ^ 9 ≤ exC20.maxExp ∧ Full exC20 (fromLst exC20 [20] 8 false) ∧
    (fromLst exC20 [20] 8 false).val exC20 = 2 * 10 ^ 9 := by
  refine ⟨exC20_ok, by decide +kernel, by decide +kernel, fromLst_single_full (by decide) (by decide), ?_⟩
  rw [fromLst_single_val]; norm_num

theorem exS_n : expN exC20 (estInv exC20 exDouble) exDouble.digits10 (lnTwoLow exC20) exS = 0 := by
  obtain ⟨a, b1, b2, b⟩ := ln_two_correct exC20 (by decide)
  have hb : |((lnTwoLow exC20).val exC20 : ℝ) - Real.log 2| ≤ (mulEps exC20 : ℝ) := by
    unfold mulEps
    push_cast
    refine b.le.trans ?_
    rw [one_div, ← zpow_natCast, ← zpow_neg]
    exact zpow_le_zpow_right₀ (by norm_num) (by decide)
  obtain ⟨lb1, lb2⟩ := ln2_bounds (c := exC20) (by decide) hb
  obtain ⟨-, -, -, -, -, -, -, -, a8⟩ := expArg_spec exC20_ok exS_full a (by rw [exS_val]; norm_num) (by rw [exS_val]; norm_num) (by decide +kernel)
    lb1 lb2
  have hl : 6931 / 10000 ≤ (lnTwoLow exC20).val exC20 := by
    have : ((6931 / 10000 : ℚ) : ℝ) ≤ (lnTwoLow exC20).val exC20 := by
      have h1 := Real.log_two_gt_d9
      have h3 := (Rat.cast_le (K := ℝ)).mpr (mulEps_le20 (c := exC20) (by decide))
      push_cast at h3 ⊢
      norm_num at h1 h3
      linarith [(abs_le.mp hb).1]
    exact_mod_cast this
  generalize expN exC20 (estInv exC20 exDouble) exDouble.digits10 (lnTwoLow exC20) exS = n at *
  rw [exS_val] at a8
  by_contra h0
  have h1 : (1 : ℚ) ≤ n := by exact_mod_cast Nat.one_le_iff_ne_zero.mpr h0
  have : 1 * (6931 / 10000 : ℚ) ≤ n * (lnTwoLow exC20).val exC20 := mul_le_mul h1 hl (by norm_num) (by linarith)
  norm_num at a8 this
  linarith

/-- What `exp(0.693)` of `decwide_t<20>` returns. -/
theorem exS_exp : expDW exC20 (estInv exC20 exDouble) exDouble.digits10 (lnTwoLow exC20) exS =
    some (fromLst exC20 [1, 99970566, 5411637, 47209680, 63417765, 77484429] 0 false) := by
  unfold expDW expArg
  rw [if_pos (Or.inr (by decide +kernel))]
  have hn' : exS.isNeg = false := rfl
  simp only [hn', Bool.not_false, Bool.false_eq_true, if_false, if_true, exS_n]
  decide +kernel

/-- C47 is false in full strength: `exp(0.693)` computed with 20 digits is right to 16 digits only (the series stops at
    10^(1-digits10) and its error is multiplied by 2048). -/
theorem exp_loses_digits :
    ∃ x r : DW, Full exC20 x ∧ x.val exC20 = 693 / 1000 ∧
      expDW exC20 (estInv exC20 exDouble) exDouble.digits10 (lnTwoLow exC20) x = some r ∧
      Real.exp (x.val exC20) * (7000 / 10 ^ 20) < |(r.val exC20 : ℝ) - Real.exp (x.val exC20)| := by
  refine ⟨exS, _, exS_full, exS_val, exS_exp, ?_⟩
  have hv : (fromLst exC20 [1, 99970566, 5411637, 47209680, 63417765, 77484429] 0 false).val exC20 =
      19997056605411637472096806341776577484429 / 10 ^ 40 := by decide +kernel
  rw [hv, exS_val]
  have h := Real.sum_le_exp_of_nonneg (x := 693 / 1000) (by norm_num) 25
  have hs : (1999705660541163898 / 10 ^ 18 : ℝ) ≤ ∑ i ∈ Finset.range 25, (693 / 1000 : ℝ) ^ i / (i.factorial : ℝ) := by
    norm_num [Finset.sum_range_succ, Nat.factorial]
  push_cast
  have he := hs.trans h
  have hu : Real.exp (693 / 1000) < 2 := by
    have : Real.exp (693 / 1000) < Real.exp (Real.log 2) := by
      rw [Real.exp_lt_exp]
      have := Real.log_two_gt_d9
      norm_num at this; linarith
    rwa [Real.exp_log (by norm_num)] at this
  rw [abs_sub_comm]
  refine lt_of_lt_of_le ?_ (le_abs_self _)
  norm_num at he ⊢
  linarith

end WD
