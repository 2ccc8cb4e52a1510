import Verif.Proofs.ExpArg
import Verif.Proofs.Ldexp
import Verif.Props.Misc
import Mathlib.Analysis.SpecialFunctions.Log.Basic
import Mathlib.Analysis.Complex.ExponentialBounds
/-
  The series, the power and the scaling of `exp`: the logarithm of the result is the argument up to a small error.
-/
namespace WD
open DW Finset

theorem expGoal_eq {c : Cfg} {x : DW} (hx : Full c x) (hd : 1 ≤ c.digits10) : expGoal c x = ((c.digits10 - 1 : ℕ) : ℤ) := by
  unfold expGoal
  have hl := eps_limb c
  obtain ⟨h1, h2, h3⟩ := eps_pos c
  dsimp only at hl
  generalize hd4 : (c.digits10 / c.ed + (if c.digits10 % c.ed ≠ 0 then 1 else 0)) * c.ed = d4e at h1 h2 h3 hl
  have h3N := c.three_le_N
  have hk : ilogb (epsVal c) = 1 - (c.digits10 : ℤ) := by
    rw [hl]; unfold ilogb
    have e1 : (fromLst c [10 ^ (1 + d4e - c.digits10)] (-(d4e : ℤ)) false).d0 = 10 ^ (1 + d4e - c.digits10) := by
      unfold d0 fromLst
      obtain ⟨k, hk⟩ : ∃ k, c.N = k + 1 := ⟨c.N - 1, by omega⟩
      rw [hk]; simp
    have e2 : orderOf (10 ^ (1 + d4e - c.digits10)) = 2 + d4e - c.digits10 := by
      obtain ⟨a, b, d⟩ := orderOf_digits (10 ^ (1 + d4e - c.digits10))
      have b := b (by positivity)
      rw [Nat.pow_lt_pow_iff_right (by norm_num)] at a
      rw [Nat.pow_le_pow_iff_right (by norm_num)] at b
      omega
    rw [e1, e2]
    show -(d4e : ℤ) + _ = _
    omega
  rw [hk, hx.full]
  have := c.digits_le
  have h3 : c.ed * (c.N - 1) ≤ c.ed * c.N := Nat.mul_le_mul_left _ (by omega)
  have e : (c.N : ℤ) * c.ed = ((c.ed * c.N : ℕ) : ℤ) := by push_cast; ring
  rw [e]
  omega

theorem abs_log_le {t : ℝ} (h : |t| ≤ 1 / 1000) : |Real.log (1 + t)| ≤ 1002 / 1000 * |t| := by
  have h' := abs_le.mp h
  have hp : 0 < 1 + t := by linarith [h'.1]
  have u := Real.log_le_sub_one_of_pos hp
  have l := Real.one_sub_inv_le_log_of_pos hp
  have e : 1 - (1 + t)⁻¹ = t / (1 + t) := by field_simp; ring
  rw [e] at l
  have l2 : -(1002 / 1000 * |t|) ≤ t / (1 + t) := by
    rw [le_div_iff₀ hp]
    have := neg_abs_le t
    have hn := abs_nonneg t
    nlinarith [mul_nonneg hn (show 0 ≤ 1 / 1000 + t by linarith [h'.1])]
  have := le_abs_self t
  rw [abs_le]; constructor <;> linarith [abs_nonneg t]

/-- An approximation with relative error `t` shifts the logarithm by little. -/
theorem log_shift {a b t : ℝ} (hb : 0 < b) (ht : t ≤ 1 / 1000) (h : |a - b| ≤ t * b) :
    0 < a ∧ |Real.log a - Real.log b| ≤ 1002 / 1000 * t := by
  have ha : a = b * (1 + (a - b) / b) := by field_simp; ring
  have hθ : |(a - b) / b| ≤ t := by
    rw [abs_div, abs_of_pos hb, div_le_iff₀ hb]; exact h
  have hθ' := abs_le.mp (hθ.trans ht)
  have hp : 0 < 1 + (a - b) / b := by linarith [hθ'.1]
  refine ⟨by rw [ha]; positivity, ?_⟩
  rw [ha, Real.log_mul hb.ne' hp.ne', add_sub_cancel_left]
  have := abs_log_le (hθ.trans ht)
  linarith

theorem expSum_exp {z : ℚ} (hz : |z| ≤ 1 / 2900) {m : ℕ} (hm : 5 ≤ m) :
    |Real.exp (z : ℝ) - (expSum z m : ℝ)| ≤ 6 / 5 * |(expTerm z m : ℝ)| := by
  have hz' : |(z : ℝ)| ≤ 1 := by
    have := (Rat.cast_le (K := ℝ)).mpr hz
    push_cast at this
    linarith
  have h := Real.exp_bound hz' (n := m) (by omega)
  have e1 : (expSum z m : ℝ) = ∑ k ∈ range m, (z : ℝ) ^ k / (k.factorial : ℝ) := by
    unfold expSum expTerm; push_cast; rfl
  have e2 : |(expTerm z m : ℝ)| = |(z : ℝ)| ^ m / m.factorial := by
    unfold expTerm; push_cast; rw [abs_div, abs_pow, Nat.abs_cast]
  rw [e1, e2]
  refine h.trans ?_
  have hm' : (5 : ℝ) ≤ m := by exact_mod_cast hm
  have hf : (0 : ℝ) < m.factorial := by exact_mod_cast Nat.factorial_pos m
  have e3 : |(z : ℝ)| ^ m * (m.succ / (m.factorial * m)) = |(z : ℝ)| ^ m / m.factorial * ((m + 1) / m) := by
    push_cast; field_simp
  rw [e3, mul_comm]
  apply mul_le_mul_of_nonneg_right _ (by positivity)
  rw [div_le_iff₀ (by linarith)]; linarith

theorem small_pow {D : ℕ} (h : D ≤ 14400) : (1 / 1000 : ℚ) ^ 100000 / 16 ≤ 10 ^ (-(D : ℤ)) := by
  have e1 : (1 / 1000 : ℚ) ^ 100000 = 10 ^ (-(300000 : ℤ)) := by
    have : (1 / 1000 : ℚ) = 10 ^ (-3 : ℤ) := by norm_num
    rw [this, ← zpow_natCast, ← zpow_mul]; norm_num
  rw [e1]
  have : (10 : ℚ) ^ (-(300000 : ℤ)) ≤ 10 ^ (-(D : ℤ)) := zpow_le_zpow_right₀ (by norm_num) (by omega)
  have hp : (0 : ℚ) < 10 ^ (-(300000 : ℤ)) := p10_pos _
  linarith

set_option maxHeartbeats 1000000 in
theorem expSeries_spec {c : Cfg} {F : Flt} (h : ElemOk c F) (h2k : c.digits10 ≤ 2000) {z : DW} (hz : Full c z) (hz1 : -(c.maxExp : ℤ) < z.exp)
    (hz2 : z.exp < c.maxExp) (hzb : |z.val c| ≤ 1 / 2900) :
    let H := expSeries c (estInv c F) F.digits10 ((c.digits10 - 1 : ℕ) : ℤ) c.N z
    Full c H ∧ |(H.val c : ℝ) - Real.exp (z.val c)| ≤ 123 / 10 * (epsD c : ℝ) := by
  intro H
  have hd := h.lo
  have hdh := h2k
  have hM := h.hM
  have h2 := two_le_ed c
  have hε := epsD_pos c
  have hε1 := epsD_le h.lo
  have hμ := mulEps_pos c
  have hμ1 := mulEps_le_epsD c
  have hφ := flushC_pos c
  have hφ1 := flushC_le hM
  obtain ⟨a1, a2, -⟩ := add_op (one_full c) hz
  have hg : (10 : ℚ) ^ (-((c.digits10 - 1 : ℕ) : ℤ)) = 10 * epsD c := by
    unfold epsD
    have : (-((c.digits10 - 1 : ℕ) : ℤ)) = 1 + -(c.digits10 : ℤ) := by omega
    rw [this, zpow_add₀ (by norm_num)]; norm_num
  have hinv : ExpInv c (z.val c) (c.digits10 - 1) 2 z (addAssign c (one c) z) := by
    refine ⟨le_refl _, hz, a1, ?_, fun _ => Or.inl (by norm_num), ?_⟩
    · have : expTerm (z.val c) (2 - 1) = z.val c := by simp [expTerm]
      rw [this, sub_self, abs_zero]
      have : (0 : ℚ) < 10 ^ (-(c.digits10 : ℤ)) := p10_pos _
      positivity
    · have e : expSum (z.val c) 2 = 1 + z.val c := by simp [expSum, expTerm, sum_range_succ]
      have hmin : min 2 ((c.digits10 - 1) / 3 + 6) = 2 := by omega
      rw [e, hmin]
      rw [one_val, abs_one] at a2
      have k : mulEps c * (1 + |z.val c|) ≤ mulEps c * 2 := mul_le_mul_of_nonneg_left (by linarith) hμ.le
      have : (10 : ℚ) ^ (-(c.digits10 : ℤ)) * (1 / 1000 - (1 / 1000) ^ (2 - 1)) = 0 := by norm_num
      rw [this]
      push_cast
      linarith
  have hμg : 3 * mulEps c * (((c.digits10 - 1) / 3 + 6 : ℕ) : ℚ) ≤ 3 / 10 * epsD c := by
    have : (((c.digits10 - 1) / 3 + 6 : ℕ) : ℚ) ≤ 700 := by
      have : (c.digits10 - 1) / 3 + 6 ≤ 700 := by omega
      exact_mod_cast this
    have k := mul_le_mul hμ1 this (by positivity) (by positivity)
    have : mulEps c * (((c.digits10 - 1) / 3 + 6 : ℕ) : ℚ) ≤ epsD c / 10 ^ 4 * 700 := k
    norm_num at this
    linarith
  obtain ⟨s1, m, s2, s3, s4⟩ := expLoop_spec (est := estInv c F) (fdig := F.digits10) hz h.mulOk h.hE (by omega) (by omega) hz1 hz2 hzb
    (g := c.digits10 - 1) (by rw [hg]; norm_num at hφ1 ⊢; linarith) (by norm_num at hφ1 hε1 ⊢; linarith) (by have := h.hB; omega)
    (by norm_num at hε1; linarith) 99998 2 z (addAssign c (one c) z) hinv (by norm_num)
  have hH : H = expLoop c (estInv c F) F.digits10 ((c.digits10 - 1 : ℕ) : ℤ) z 99998 2 z (addAssign c (one c) z) := by
    show expLoop _ _ _ _ _ _ _ _ (precision c (addAssign c (one c) z) (c.N * c.ed : ℕ)) = _
    rw [precision_full a1]
  rw [← hH] at s1 s3
  refine ⟨s1, ?_⟩
  have q1 : |H.val c - expSum (z.val c) m| ≤ 21 / 100 * epsD c + 10 ^ (-(c.digits10 : ℤ)) * (1 / 1000) := by
    have hμg : 3 * mulEps c * (((c.digits10 - 1) / 3 + 6 : ℕ) : ℚ) ≤ 205 / 1000 * epsD c := by
      have : (((c.digits10 - 1) / 3 + 6 : ℕ) : ℚ) ≤ 672 := by
        have : (c.digits10 - 1) / 3 + 6 ≤ 672 := by omega
        exact_mod_cast this
      have k : mulEps c * (((c.digits10 - 1) / 3 + 6 : ℕ) : ℚ) ≤ epsD c / 10 ^ 4 * 672 := mul_le_mul hμ1 this (by positivity) (by positivity)
      generalize (((c.digits10 - 1) / 3 + 6 : ℕ) : ℚ) = K at *
      norm_num at k
      linarith
    norm_num at hφ1
    linarith
  have q1 : |H.val c - expSum (z.val c) m| ≤ 22 / 100 * epsD c := by
    have e : (10 : ℚ) ^ (-(c.digits10 : ℤ)) = epsD c := rfl
    rw [e] at q1; linarith
  have q2 : |expTerm (z.val c) m| ≤ 1001 / 100 * epsD c := by
    rcases s4 with s4 | s4
    · rw [hg] at s4
      have e : (10 : ℚ) ^ (-(c.digits10 : ℤ)) = epsD c := rfl
      rw [e] at s4
      norm_num at hφ1
      linarith
    · rw [s4]
      have := expTerm_le hzb 100000 (by norm_num)
      have h3 := small_pow (show c.digits10 ≤ 14400 by omega)
      have e : (10 : ℚ) ^ (-(c.digits10 : ℤ)) = epsD c := rfl
      rw [e] at h3
      linarith
  have r1 := expSum_exp hzb s2
  have q1' := (Rat.cast_le (K := ℝ)).mpr q1
  have q2' := (Rat.cast_le (K := ℝ)).mpr q2
  push_cast at q1' q2'
  have hε' : (0 : ℝ) < epsD c := by exact_mod_cast hε
  have b1 := abs_le.mp r1
  have b2 := abs_le.mp q1'
  rw [abs_le]
  constructor <;> linarith [b1.1, b1.2, b2.1, b2.2]

theorem exp23 : Real.exp (23 / 10) ≤ 10 := by
  have h1 : Real.exp (23 / 10) ^ 10 ≤ 10 ^ 10 := by
    rw [← Real.exp_nat_mul]
    have : ((10 : ℕ) : ℝ) * (23 / 10) = (23 : ℕ) * 1 := by norm_num
    rw [this, Real.exp_nat_mul]
    have h := Real.exp_one_lt_d9
    have h0 := Real.exp_pos 1
    calc Real.exp 1 ^ 23 ≤ 2.7182818286 ^ 23 := pow_le_pow_left₀ h0.le h.le 23
      _ ≤ 10 ^ 10 := by norm_num
  exact le_of_pow_le_pow_left₀ (by norm_num) (by norm_num) h1

theorem epsD_real {c : Cfg} (h : 16 ≤ c.digits10) : (0 : ℝ) < epsD c ∧ (epsD c : ℝ) ≤ 1 / 10 ^ 16 := by
  have h1 := (Rat.cast_le (K := ℝ)).mpr (epsD_le h)
  push_cast at h1
  exact ⟨by exact_mod_cast epsD_pos c, h1⟩

theorem mulEps_real (c : Cfg) : (0 : ℝ) < mulEps c ∧ (mulEps c : ℝ) ≤ epsD c / 10 ^ 4 := by
  have h1 := (Rat.cast_le (K := ℝ)).mpr (mulEps_le_epsD c)
  push_cast at h1
  exact ⟨by exact_mod_cast mulEps_pos c, h1⟩

/-- The exponent of a number between 1/10 and 10. -/
theorem exp_of_mid {c : Cfg} {r : DW} (hr : Full c r) (h1 : 1 / 10 < r.val c) (h2 : r.val c < 10) :
    -(c.ed : ℤ) ≤ r.exp ∧ r.exp ≤ 0 := by
  have hz := isZero_false_of_val hr.toWF (by linarith)
  have a := hr.toWF.abs_ge hz
  have b := hr.toWF.abs_lt
  rw [abs_of_pos (by linarith)] at a b
  constructor
  · have : (10 : ℚ) ^ (-1 : ℤ) < 10 ^ (r.exp + (c.ed : ℤ)) := by
      refine lt_of_le_of_lt ?_ b; norm_num; linarith
    rw [zpow_lt_zpow_iff_right₀ (by norm_num)] at this
    omega
  · have : (10 : ℚ) ^ r.exp < 10 ^ (1 : ℤ) := lt_of_le_of_lt a (by simpa using h2)
    rw [zpow_lt_zpow_iff_right₀ (by norm_num)] at this
    omega

/-- The 2048th power of the series. -/
theorem expPow_spec {c : Cfg} {F : Flt} (h : ElemOk c F) (h2k : c.digits10 ≤ 2000) {z : DW} (hz : Full c z) (hz1 : -(c.maxExp : ℤ) < z.exp)
    (hz2 : z.exp < c.maxExp) (hzb : |z.val c| ≤ 1 / 2900) :
    let r := powNat c (expSeries c (estInv c F) F.digits10 ((c.digits10 - 1 : ℕ) : ℤ) c.N z) 2048
    Full c r ∧ 1 / 10 < r.val c ∧ r.val c < 10 ∧ |Real.log (r.val c) - 2048 * (z.val c : ℝ)| ≤ 25314 * (epsD c : ℝ) := by
  intro r
  obtain ⟨a1, a2⟩ := expSeries_spec h h2k hz hz1 hz2 hzb
  generalize hH : expSeries c (estInv c F) F.digits10 ((c.digits10 - 1 : ℕ) : ℤ) c.N z = H at a1 a2
  have hr : r = powNat c H 2048 := by rw [← hH]
  have h2 := two_le_ed c
  have h8 := ed_le8 c
  have hM := h.hM
  have hlo := h.lo
  obtain ⟨e0, e1⟩ := epsD_real h.lo
  obtain ⟨m0, m1⟩ := mulEps_real c
  have hzr : |(z.val c : ℝ)| ≤ 1 / 2900 := by
    have := (Rat.cast_le (K := ℝ)).mpr hzb
    push_cast at this; exact this
  have hz' := abs_le.mp hzr
  have hez : 1 - 1 / 2900 ≤ Real.exp (z.val c) := by
    have := Real.add_one_le_exp (z.val c : ℝ)
    linarith [hz'.1]
  have hp : |(H.val c : ℝ) - Real.exp (z.val c)| ≤ (1232 / 100 * epsD c) * Real.exp (z.val c) := by
    refine a2.trans ?_
    have : (1232 / 100 * (epsD c : ℝ)) * (1 - 1 / 2900) ≤ (1232 / 100 * epsD c) * Real.exp (z.val c) :=
      mul_le_mul_of_nonneg_left hez (by positivity)
    linarith
  obtain ⟨b1, b2⟩ := log_shift (Real.exp_pos _) (by norm_num at e1 ⊢; linarith) hp
  rw [Real.log_exp] at b2
  have b2' := abs_le.mp b2
  have hHr : (H.val c : ℝ) ^ 2048 = Real.exp (2048 * Real.log (H.val c)) := by
    have := Real.exp_nat_mul (Real.log (H.val c)) 2048
    push_cast at this
    rw [this, Real.exp_log b1]
  have hup : (H.val c : ℝ) ^ 2048 ≤ Real.exp 1 := by
    rw [hHr, Real.exp_le_exp]
    norm_num at e1; linarith [b2'.2, hz'.2]
  have hdn : Real.exp (-1) ≤ (H.val c : ℝ) ^ 2048 := by
    rw [hHr, Real.exp_le_exp]
    norm_num at e1; linarith [b2'.1, hz'.1]
  have he1 := Real.exp_one_lt_three
  have hup3 : (H.val c : ℝ) ^ 2048 < 3 := by linarith
  have hdn3 : 1 / 3 < (H.val c : ℝ) ^ 2048 := by
    refine lt_of_lt_of_le ?_ hdn
    rw [Real.exp_neg, one_div]
    exact inv_strictAnti₀ (Real.exp_pos 1) he1
  have hHpos : 0 < H.val c := by exact_mod_cast b1
  have u1 : H.val c ^ 2048 < 3 := by exact_mod_cast hup3
  have u2 : 1 / 3 < H.val c ^ 2048 := by
    have : (((1 / 3 : ℚ)) : ℝ) < ((H.val c ^ 2048 : ℚ) : ℝ) := by push_cast; exact hdn3
    exact_mod_cast this
  have up : 0 < H.val c ^ 2048 := by positivity
  have hmul : mulEps c ≤ 1 / 10 ^ 20 := by
    have k1 := mulEps_le_epsD c
    have k2 := epsD_le h.lo
    norm_num at k1 k2 ⊢; linarith
  have ehalf : ∀ p : ℕ, (p : ℚ) / 10 ^ (c.digits10 + 2 * c.ed) = p * mulEps c := by intro p; unfold mulEps; ring
  obtain ⟨p1, p2⟩ := pow_accuracy c H 2048 a1 hHpos.ne' h.mulOk (by omega)
    (by rw [ehalf]; push_cast; norm_num at hmul ⊢; linarith)
    (by rw [abs_of_pos up]
        calc H.val c ^ 2048 ≤ 10 ^ (1 : ℤ) := by norm_num at u1 ⊢; linarith
          _ ≤ _ := zpow_le_zpow_right₀ (by norm_num) (by omega))
    (by rw [abs_of_pos up]
        calc (10 : ℚ) ^ (-(c.maxExp : ℤ) + 2 * c.ed + 1) ≤ 10 ^ (-1 : ℤ) := zpow_le_zpow_right₀ (by norm_num) (by omega)
          _ ≤ _ := by norm_num at u2 ⊢; linarith)
  rw [← hr, abs_of_pos up] at p2
  rw [← hr] at p1
  have e2 : (2 : ℚ) * (2048 : ℕ) / 10 ^ (c.digits10 + 2 * c.ed) = 4096 * mulEps c := by unfold mulEps; push_cast; ring
  rw [e2] at p2
  have p2' := abs_le.mp p2
  have k3 : 4096 * mulEps c * H.val c ^ 2048 ≤ 1 / 10 * H.val c ^ 2048 :=
    mul_le_mul_of_nonneg_right (by norm_num at hmul ⊢; linarith) up.le
  refine ⟨p1, by linarith [p2'.1], by linarith [p2'.2], ?_⟩
  have p3 : |(r.val c : ℝ) - (H.val c : ℝ) ^ 2048| ≤ (4096 * mulEps c) * (H.val c : ℝ) ^ 2048 := by
    have := (Rat.cast_le (K := ℝ)).mpr p2
    push_cast at this; exact this
  obtain ⟨q1, q2⟩ := log_shift (b := (H.val c : ℝ) ^ 2048) (by positivity) (by norm_num at m1 e1 ⊢; linarith) p3
  rw [hHr, Real.log_exp] at q2
  have q2' := abs_le.mp q2
  norm_num at m1
  rw [abs_le]
  constructor <;> linarith [q2'.1, q2'.2, b2'.1, b2'.2]

theorem two_pow_exp (n : ℕ) : (2 : ℝ) ^ n = Real.exp (n * Real.log 2) := by
  rw [Real.exp_nat_mul, Real.exp_log (by norm_num)]

theorem exp_le_ten {k : ℕ} {y : ℝ} (h : y ≤ 23 / 10 * k) : Real.exp y ≤ 10 ^ k := by
  calc Real.exp y ≤ Real.exp (k * (23 / 10)) := by rw [Real.exp_le_exp]; linarith
    _ = Real.exp (23 / 10) ^ k := by rw [Real.exp_nat_mul]
    _ ≤ 10 ^ k := pow_le_pow_left₀ (Real.exp_pos _).le exp23 k

/-- Bounds of an object that stands for ln 2. -/
theorem ln2_bounds {c : Cfg} (hd : 16 ≤ c.digits10) {l : DW} (h : |(l.val c : ℝ) - Real.log 2| ≤ (mulEps c : ℝ)) :
    693 / 1000 ≤ l.val c ∧ l.val c ≤ 6934 / 10000 := by
  have h1 := Real.log_two_gt_d9
  have h2 := Real.log_two_lt_d9
  have h3 := (Rat.cast_le (K := ℝ)).mpr (mulEps_le20 hd)
  push_cast at h3
  have h' := abs_le.mp h
  norm_num at h1 h2 h3
  constructor
  · have : ((693 / 1000 : ℚ) : ℝ) ≤ l.val c := by push_cast; linarith [h'.1]
    exact_mod_cast this
  · have : (l.val c : ℝ) ≤ ((6934 / 10000 : ℚ) : ℝ) := by push_cast; linarith [h'.2]
    exact_mod_cast this

set_option maxHeartbeats 1000000 in
/-- `exp` of a positive argument up to the final reciprocal. -/
theorem exp_pos_core {c : Cfg} {F : Flt} (h : ElemOk c F) (h2k : c.digits10 ≤ 2000) {xx l : DW} (hx : Full c xx) (hl : Full c l) (hx0 : 0 < xx.val c)
    (hx1 : xx.val c ≤ 148 * 10 ^ 7) (hx2 : xx.val c ≤ 23 / 10 * ((c.maxExp : ℚ) - 3)) (hlo : -(c.maxExp : ℤ) + 4 * c.ed + 10 < xx.exp)
    (hl2 : |(l.val c : ℝ) - Real.log 2| ≤ (mulEps c : ℝ)) :
    let n := expN c (estInv c F) F.digits10 l xx
    let z := expArg c (estInv c F) F.digits10 l xx c.N
    let r0 := powNat c (expSeries c (estInv c F) F.digits10 ((c.digits10 - 1 : ℕ) : ℤ) c.N z) 2048
    n < 2 ^ 31 ∧ ∃ r, (if n ≠ 0 then ldexp c (estInv c F) F.digits10 r0 (n : ℤ) else some r0) = some r ∧ Full c r ∧ 0 < r.val c ∧
      |Real.log (r.val c) - (xx.val c : ℝ)| ≤ (25320 + (xx.val c : ℝ) / 1000) * (epsD c : ℝ) := by
  intro n z r0
  obtain ⟨lb1, lb2⟩ := ln2_bounds h.lo hl2
  obtain ⟨a1, a2, -, a3, a4, a5, a6, a7, -⟩ := expArg_spec h hx hl hx0 (by linarith) hlo lb1 lb2
  change n < 2 ^ 32 at a1
  have a2 : n < 2 ^ 31 := a2 hx1
  change Full c z at a3
  change _ < z.exp at a4
  change z.exp < _ at a5
  change |z.val c| ≤ _ at a6
  change |2048 * z.val c - (xx.val c - n * l.val c)| ≤ _ at a7
  obtain ⟨b1, b2, b3, b4⟩ := expPow_spec h h2k a3 a4 a5 a6
  change Full c r0 at b1
  change _ < r0.val c at b2
  change r0.val c < _ at b3
  change |Real.log (r0.val c) - _| ≤ _ at b4
  have hM := h.hM
  have h2 := two_le_ed c
  have h8 := ed_le8 c
  obtain ⟨e0, e1⟩ := epsD_real h.lo
  obtain ⟨m0, m1⟩ := mulEps_real c
  have a7' := (Rat.cast_le (K := ℝ)).mpr a7
  have a6' := (Rat.cast_le (K := ℝ)).mpr a6
  have lb1' := (Rat.cast_le (K := ℝ)).mpr lb1
  have hx1' := (Rat.cast_le (K := ℝ)).mpr hx1
  have hx2' := (Rat.cast_le (K := ℝ)).mpr hx2
  have hx0' : (0 : ℝ) < xx.val c := by exact_mod_cast hx0
  push_cast at a7' a6' lb1' hx1' hx2'
  have a7b := abs_le.mp a7'
  have a6b := abs_le.mp a6'
  have b4b := abs_le.mp b4
  have hl2b := abs_le.mp hl2
  have hn0 : (0 : ℝ) ≤ n := Nat.cast_nonneg _
  have nl1 : (n : ℝ) * (693 / 1000) ≤ n * l.val c := mul_le_mul_of_nonneg_left lb1' hn0
  have mx : (mulEps c : ℝ) * xx.val c ≤ epsD c / 10 ^ 4 * xx.val c := mul_le_mul_of_nonneg_right m1 hx0'.le
  have ex : (epsD c : ℝ) * xx.val c ≤ 1 / 10 ^ 16 * (148 * 10 ^ 7) := mul_le_mul e1 hx1' hx0'.le (by norm_num)
  have hnx : (n : ℝ) ≤ 145 / 100 * xx.val c + 2 := by
    norm_num at mx ex e1; linarith [a7b.1, a6b.1]
  have nm : (n : ℝ) * mulEps c ≤ (145 / 100 * xx.val c + 2) * mulEps c := mul_le_mul_of_nonneg_right hnx m0.le
  have nlog : |(n : ℝ) * l.val c - n * Real.log 2| ≤ n * mulEps c := by
    rw [← mul_sub, abs_mul, abs_of_nonneg hn0]
    exact mul_le_mul_of_nonneg_left hl2 hn0
  have nlogb := abs_le.mp nlog
  -- 2^n is in range
  have h2n : (2 : ℝ) ^ n ≤ 10 ^ (c.maxExp - 2) := by
    rw [two_pow_exp]
    apply exp_le_ten
    have : ((c.maxExp - 2 : ℕ) : ℝ) = c.maxExp - 2 := by
      rw [Nat.cast_sub (by omega)]; norm_num
    rw [this]
    norm_num at mx ex e1 m1
    linarith [a7b.1, a6b.1, nlogb.1]
  have h2nq : (2 : ℚ) ^ n ≤ 10 ^ (c.maxExp - 2) := by
    have : (((2 : ℚ) ^ n : ℚ) : ℝ) ≤ ((10 ^ (c.maxExp - 2) : ℚ) : ℝ) := by push_cast; exact h2n
    exact_mod_cast this
  have h10 : (10 : ℚ) ^ (c.maxExp - 2) * 10 = 10 ^ ((c.maxExp : ℤ) - 1) := by
    rw [← pow_succ, ← zpow_natCast]; congr 1; omega
  have h10p : (0 : ℚ) < 10 ^ (c.maxExp - 2) := by positivity
  obtain ⟨x1, x2⟩ := exp_of_mid b1 b2 b3
  have h2npos : (0 : ℚ) < 2 ^ n := by positivity
  obtain ⟨r, r1, r2, r3⟩ := ldexp_up (est := estInv c F) (fdig := F.digits10) b1 (by linarith) h.lo h.mulOk (by omega) a2 (by omega)
    (by rw [← h10]; linarith) (by
      rw [abs_of_pos (by linarith), ← h10]
      calc r0.val c * 2 ^ n < 10 * 2 ^ n := mul_lt_mul_of_pos_right b3 h2npos
        _ ≤ 10 * 10 ^ (c.maxExp - 2) := by linarith
        _ = _ := by ring)
  have hres : (if n ≠ 0 then ldexp c (estInv c F) F.digits10 r0 (n : ℤ) else some r0) = some r := by
    split
    · exact r1
    · next h0 =>
      have h0 : n = 0 := not_not.mp h0
      rw [h0] at r1
      simpa [ldexp] using r1
  have r3' := (Rat.cast_le (K := ℝ)).mpr r3
  push_cast at r3'
  have b2' : (1 / 10 : ℝ) < r0.val c := by
    have : (((1 / 10 : ℚ)) : ℝ) < r0.val c := by exact_mod_cast b2
    push_cast at this; exact this
  have hr0p : (0 : ℝ) < r0.val c := by linarith
  rw [abs_of_pos hr0p] at r3'
  have ht : (2 * (n : ℝ) + 3) * mulEps c ≤ 1 / 1000 := by
    norm_num at m1 e1 mx ex
    linarith
  obtain ⟨s1, s2⟩ := log_shift (b := (r0.val c : ℝ) * 2 ^ n) (by positivity) ht r3'
  rw [Real.log_mul hr0p.ne' (by positivity), Real.log_pow] at s2
  have s2b := abs_le.mp s2
  refine ⟨a2, r, hres, r2, by exact_mod_cast s1, ?_⟩
  have hxe : 0 ≤ (epsD c : ℝ) * xx.val c := by positivity
  norm_num at mx m1 e1 ex
  rw [abs_le]
  constructor <;> linarith [s2b.1, s2b.2, b4b.1, b4b.2, a7b.1, a7b.2, nlogb.1, nlogb.2]

end WD
