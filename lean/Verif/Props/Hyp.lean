import Verif.Proofs.Hyp
/-
  C51: `sinh`, `cosh`, `tanh`.
-/
namespace WD
open DW

/-- `ln_two()` of the configurations with a table (16 to 51 digits). -/
theorem lnTwo_ok {c : Cfg} (h51 : c.digits10 ≤ 51) :
    Full c (lnTwoLow c) ∧ |((lnTwoLow c).val c : ℝ) - Real.log 2| ≤ 1 / 10 ^ (c.digits10 + 2 * c.ed) ∧ c.N < 1793 := by
  obtain ⟨a, -, -, b⟩ := ln_two_correct c h51
  refine ⟨a, ?_, ?_⟩
  · refine b.le.trans ?_
    rw [one_div, ← zpow_natCast, ← zpow_neg]
    exact zpow_le_zpow_right₀ (by norm_num) (by push_cast; omega)
  · have h2 := two_le_ed c
    unfold Cfg.N
    have : c.digits10 / c.ed ≤ c.digits10 / 2 := Nat.div_le_div_left h2 (by norm_num)
    split <;> omega

theorem half_real {c : Cfg} (h : 16 ≤ c.digits10) {r s T C A : ℝ} (hC : 1 ≤ C) (hT : |T| ≤ C) (hA : 0 ≤ A)
    (hD : (26100 + A / 490) * epsD c ≤ 1 / 10 ^ 9) (hs : |s - 2 * T| ≤ 2 * C * ((26100 + A / 490) * epsD c))
    (hr : |r - s / 2| ≤ 2 * epsD c * (|s| / 2) + epsD c / 10 ^ 10) :
    |r - T| ≤ C * ((27000 + A / 400) / 10 ^ c.digits10) := by
  obtain ⟨e0, e1⟩ := epsD_real h
  have eD : (epsD c : ℝ) = 1 / 10 ^ c.digits10 := by
    unfold epsD; push_cast; rw [zpow_neg, zpow_natCast, one_div]
  have e27 : (27000 + A / 400) / 10 ^ c.digits10 = (27000 + A / 400) * epsD c := by rw [eD]; ring
  rw [e27]
  have hC0 : 0 < C := by linarith
  have k1 : 2 * C * ((26100 + A / 490) * epsD c) ≤ 2 * C * (1 / 10 ^ 9) := mul_le_mul_of_nonneg_left hD (by linarith)
  have k2 : |s| ≤ 2 * C + C := by
    have := abs_add_le (s - 2 * T) (2 * T)
    rw [sub_add_cancel, abs_mul, abs_two] at this
    norm_num at k1; linarith
  have k3 : |s| * epsD c ≤ 3 * C * epsD c := mul_le_mul_of_nonneg_right (by linarith) e0.le
  have k4 : 0 ≤ C * (A * epsD c) := by positivity
  have k5 : 1 * (epsD c : ℝ) ≤ C * epsD c := mul_le_mul_of_nonneg_right hC e0.le
  have hs' := abs_le.mp hs
  have hr' := abs_le.mp hr
  rw [abs_le]; constructor <;> linarith [hs'.1, hs'.2, hr'.1, hr'.2]

theorem half_op {c : Cfg} {F : Flt} (h : ElemOk c F) {s : DW} (hs : Full c s) :
    Full c (divULL c (estInv c F) F.digits10 s 2) ∧
    |((divULL c (estInv c F) F.digits10 s 2).val c : ℝ) - s.val c / 2| ≤ 2 * epsD c * (|(s.val c : ℝ)| / 2) + epsD c / 10 ^ 10 := by
  have hB : 2 < c.B := by have := h.hB; omega
  obtain ⟨a, b⟩ := divU_op (est := estInv c F) (fdig := F.digits10) hs (by norm_num) hB (by have := h.lo; omega)
  refine ⟨a, ?_⟩
  have hf := flushC_le h.hM
  have : |(divULL c (estInv c F) F.digits10 s 2).val c - s.val c / (2 : ℕ)| ≤ 2 * epsD c * (|s.val c| / (2 : ℕ)) + epsD c / 10 ^ 10 := by
    unfold epsD at hf ⊢; linarith
  have := (Rat.cast_le (K := ℝ)).mpr this
  push_cast at this
  exact this

/-- C51, `sinh`: the result is well formed and differs from sinh x by at most cosh x·(27000 + |x|/400)·10^(-digits10), for
    every x with |x| ≥ 30000·10^(-digits10), |x| ≤ 1.48·10^9 and e^|x| inside the exponent range (negative x: e^x not next to a
    power of the radix), every configuration of 16 to 2000 digits, given ln 2 to the working precision. What is
    missing for the full claim: an error relative to sinh x itself, which the code does not deliver for small x (`sinh_cancels`),
    and the arguments excluded here. -/
theorem sinh_accuracy_partial (c : Cfg) (F : Flt) (h : ElemOk c F) (h2k : c.digits10 ≤ 2000) (l : DW) (hl : Full c l)
    (hl2 : |(l.val c : ℝ) - Real.log 2| ≤ 1 / 10 ^ (c.digits10 + 2 * c.ed)) (x : DW) (hx : Full c x)
    (hlo : 30000 / 10 ^ c.digits10 ≤ |x.val c|) (h9 : |x.val c| ≤ 148 * 10 ^ 7)
    (hhi : |x.val c| ≤ 23 / 10 * ((c.maxExp : ℚ) - 3 * c.ed - 3)) (hoff : x.val c < 0 → OffPower c (x.val c)) :
    ∃ r, sinhDW c (estInv c F) F.digits10 l x = some r ∧ Full c r ∧
      |(r.val c : ℝ) - Real.sinh (x.val c)| ≤ Real.cosh (x.val c) * ((27000 + |(x.val c : ℝ)| / 400) / 10 ^ c.digits10) := by
  have hN : c.N < 1793 := h.hok.1
  obtain ⟨ep, q1, s1, -, hD, s2, -⟩ := hyp_core h h2k hN hl hl2 hx hlo h9 hhi hoff
  obtain ⟨d1, d2⟩ := half_op h s1
  refine ⟨_, by unfold sinhDW; rw [q1]; rfl, d1, ?_⟩
  have hC := Real.one_le_cosh (x.val c : ℝ)
  have hT : |Real.sinh (x.val c : ℝ)| ≤ Real.cosh (x.val c) := by
    rw [abs_le]; constructor
    · rw [Real.sinh_eq, Real.cosh_eq]; have := Real.exp_pos (x.val c : ℝ); linarith
    · rw [Real.sinh_eq, Real.cosh_eq]; have := Real.exp_pos (-(x.val c : ℝ)); linarith
  exact half_real h.lo hC hT (abs_nonneg _) hD s2 d2

/-- C51, `cosh`: the result is well formed and its relative error is at most (27000 + |x|/400)·10^(-digits10), under the same
    conditions. What is missing: accuracy to digits10 digits, which the code does not deliver (it inherits the error of `exp`,
    `exp_loses_digits`), and the arguments excluded here. -/
theorem cosh_accuracy_partial (c : Cfg) (F : Flt) (h : ElemOk c F) (h2k : c.digits10 ≤ 2000) (l : DW) (hl : Full c l)
    (hl2 : |(l.val c : ℝ) - Real.log 2| ≤ 1 / 10 ^ (c.digits10 + 2 * c.ed)) (x : DW) (hx : Full c x)
    (hlo : 30000 / 10 ^ c.digits10 ≤ |x.val c|) (h9 : |x.val c| ≤ 148 * 10 ^ 7)
    (hhi : |x.val c| ≤ 23 / 10 * ((c.maxExp : ℚ) - 3 * c.ed - 3)) (hoff : x.val c < 0 → OffPower c (x.val c)) :
    ∃ r, coshDW c (estInv c F) F.digits10 l x = some r ∧ Full c r ∧
      |(r.val c : ℝ) - Real.cosh (x.val c)| ≤ Real.cosh (x.val c) * ((27000 + |(x.val c : ℝ)| / 400) / 10 ^ c.digits10) := by
  have hN : c.N < 1793 := h.hok.1
  obtain ⟨ep, q1, -, s1, hD, -, s2⟩ := hyp_core h h2k hN hl hl2 hx hlo h9 hhi hoff
  obtain ⟨d1, d2⟩ := half_op h s1
  refine ⟨_, by unfold coshDW; rw [q1]; rfl, d1, ?_⟩
  have hC := Real.one_le_cosh (x.val c : ℝ)
  exact half_real h.lo hC (by rw [abs_of_pos (Real.cosh_pos _)]) (abs_nonneg _) hD s2 d2

theorem tanh_real {s a S C D r q μ : ℝ} (hC : 1 ≤ C) (hS : |S| ≤ C) (hD : D ≤ 1 / 10 ^ 9) (hD0 : 0 ≤ D) (hμ0 : 0 ≤ μ)
    (hs : |s - 2 * S| ≤ 2 * C * D) (ha : |a - 2 * C| ≤ 2 * C * D) (hq : q = s / a) (hr : |r - q| ≤ |q| * (6 * μ)) :
    |r - S / C| ≤ 201 / 100 * D + 7 * μ := by
  have hC0 : 0 < C := by linarith
  have ha' := abs_le.mp ha
  have k : C * D ≤ C * (1 / 10 ^ 9) := mul_le_mul_of_nonneg_left hD hC0.le
  have hap : 0 < a := by norm_num at k; linarith [ha'.1]
  have hT : |S / C| ≤ 1 := by rw [abs_div, abs_of_pos hC0, div_le_one hC0]; exact hS
  have e : q - S / C = ((s - 2 * S) - (a - 2 * C) * (S / C)) / a := by rw [hq]; field_simp; ring
  have h1 : |q - S / C| ≤ 201 / 100 * D := by
    rw [e, abs_div, abs_of_pos hap, div_le_iff₀ hap]
    have t1 := abs_sub (s - 2 * S) ((a - 2 * C) * (S / C))
    rw [abs_mul] at t1
    have t2 : |a - 2 * C| * |S / C| ≤ 2 * C * D * 1 := mul_le_mul ha hT (abs_nonneg _) (by positivity)
    have t3 : D * (2 * C - 2 * (C * (1 / 10 ^ 9))) ≤ D * a := mul_le_mul_of_nonneg_left (by linarith [ha'.1]) hD0
    have t4 : 0 ≤ C * D := by positivity
    norm_num at t3
    linarith
  have hq1 : |q| ≤ 11 / 10 := by
    have := abs_add_le (q - S / C) (S / C)
    rw [sub_add_cancel] at this
    norm_num at hD; linarith
  have h2 : |q| * (6 * μ) ≤ 11 / 10 * (6 * μ) := mul_le_mul_of_nonneg_right hq1 (by linarith)
  have h3 := abs_add_le (r - q) (q - S / C)
  rw [sub_add_sub_cancel] at h3
  linarith

/-- The numerator of `tanh` does not vanish. -/
theorem sinh_lower {x A e : ℝ} (hA : A = |x|) (he0 : 0 < e) (he : e ≤ 1 / 10 ^ 16) (hlo : 30000 * e ≤ A) (h9 : A ≤ 148 * 10 ^ 7) :
    Real.cosh x * (2 * ((26100 + A / 490) * e) + e) ≤ 2 * |Real.sinh x| := by
  have hpar : |Real.sinh x| = Real.sinh A := by
    rw [hA]
    rcases le_total 0 x with h | h
    · rw [abs_of_nonneg h, abs_of_nonneg (Real.sinh_nonneg_iff.mpr h)]
    · rw [abs_of_nonpos h, Real.sinh_neg, abs_of_nonpos (Real.sinh_nonpos_iff.mpr h)]
  have hcosh : Real.cosh x = Real.cosh A := by rw [hA, Real.cosh_abs]
  rw [hpar, hcosh]
  have hA0 : 0 ≤ A := by rw [hA]; exact abs_nonneg _
  have k9 : A * e ≤ 148 * 10 ^ 7 * (1 / 10 ^ 16) := mul_le_mul h9 he he0.le (by norm_num)
  have hs := Real.self_le_sinh_iff.mpr hA0
  have hc := Real.one_le_cosh A
  have hsub : Real.cosh A = Real.sinh A + Real.exp (-A) := by rw [Real.cosh_sub_sinh A |>.symm]; ring
  have hexp : Real.exp (-A) ≤ 1 := Real.exp_le_one_iff.mpr (by linarith)
  have hb : Real.cosh A ≤ Real.sinh A + 1 := by linarith
  have hs0 : 0 ≤ Real.sinh A := by linarith
  have hk : 2 * ((26100 + A / 490) * e) + e ≤ 1 / 10 ^ 5 := by norm_num at k9 he ⊢; linarith
  have hk0 : 0 ≤ 2 * ((26100 + A / 490) * e) + e := by positivity
  have h1 : Real.cosh A * (2 * ((26100 + A / 490) * e) + e) ≤ (Real.sinh A + 1) * (2 * ((26100 + A / 490) * e) + e) :=
    mul_le_mul_of_nonneg_right hb hk0
  have h2 : Real.sinh A * (2 * ((26100 + A / 490) * e) + e) ≤ Real.sinh A * (1 / 10 ^ 5) := mul_le_mul_of_nonneg_left hk hs0
  have h3 : A * e ≤ A * (1 / 10 ^ 16) := mul_le_mul_of_nonneg_left he hA0
  norm_num at h2 h3
  linarith

set_option maxHeartbeats 1000000 in
/-- C51, `tanh`: the result differs from tanh x by at most (53000 + |x|/200)·10^(-digits10) and has the sign of x, under the same
    conditions. What is missing: an error relative to tanh x itself, and the arguments excluded here. -/
theorem tanh_accuracy_partial (c : Cfg) (F : Flt) (h : ElemOk c F) (h2k : c.digits10 ≤ 2000) (l : DW) (hl : Full c l)
    (hl2 : |(l.val c : ℝ) - Real.log 2| ≤ 1 / 10 ^ (c.digits10 + 2 * c.ed)) (x : DW) (hx : Full c x)
    (hlo : 30000 / 10 ^ c.digits10 ≤ |x.val c|) (h9 : |x.val c| ≤ 148 * 10 ^ 7)
    (hhi : |x.val c| ≤ 23 / 10 * ((c.maxExp : ℚ) - 3 * c.ed - 3)) (hoff : x.val c < 0 → OffPower c (x.val c)) :
    ∃ r, tanhDW c (estInv c F) F.digits10 l x = some r ∧ (r.val c < 0 ↔ x.val c < 0) ∧ r.val c ≠ 0 ∧
      |(r.val c : ℝ) - Real.tanh (x.val c)| ≤ (53000 + |(x.val c : ℝ)| / 200) / 10 ^ c.digits10 := by
  have hN : c.N < 1793 := h.hok.1
  obtain ⟨ep, q1, s1, a1, hD, s2, a2⟩ := hyp_core h h2k hN hl hl2 hx hlo h9 hhi hoff
  refine ⟨divAssign c (estInv c F) F.digits10 (subAssign c ep (calcInv c (estInv c F) F.digits10 ep))
    (addAssign c ep (calcInv c (estInv c F) F.digits10 ep)), by unfold tanhDW; rw [q1]; rfl, ?_⟩
  generalize subAssign c ep (calcInv c (estInv c F) F.digits10 ep) = s at *
  generalize addAssign c ep (calcInv c (estInv c F) F.digits10 ep) = a at *
  obtain ⟨e0, e1⟩ := epsD_real h.lo
  obtain ⟨m0, m1⟩ := mulEps_real c
  have eD : (epsD c : ℝ) = 1 / 10 ^ c.digits10 := by
    unfold epsD; push_cast; rw [zpow_neg, zpow_natCast, one_div]
  obtain ⟨X, hX⟩ : ∃ X : ℝ, X = x.val c := ⟨_, rfl⟩
  have h9' := (Rat.cast_le (K := ℝ)).mpr h9
  have hlo' := (Rat.cast_le (K := ℝ)).mpr hlo
  have hhi' := (Rat.cast_le (K := ℝ)).mpr hhi
  push_cast at h9' hlo' hhi'
  rw [← hX] at h9' hlo' hhi' s2 a2 hD
  have hlo2 : 30000 * (epsD c : ℝ) ≤ |X| := by rw [eD]; linarith [hlo', (by ring : (30000 : ℝ) / 10 ^ c.digits10 = 30000 * (1 / 10 ^ c.digits10))]
  have hC := Real.one_le_cosh X
  have hT : |Real.sinh X| ≤ Real.cosh X := by
    rw [abs_le]; constructor
    · rw [Real.sinh_eq, Real.cosh_eq]; have := Real.exp_pos X; linarith
    · rw [Real.sinh_eq, Real.cosh_eq]; have := Real.exp_pos (-X); linarith
  have hS := sinh_lower rfl e0 e1 hlo2 h9'
  have k9 : |X| * epsD c ≤ 148 * 10 ^ 7 * (1 / 10 ^ 16) := mul_le_mul h9' e1 e0.le (by norm_num)
  have hX0 := abs_nonneg X
  have kX : 0 ≤ |X| * epsD c := by positivity
  have hD0 : 0 ≤ (26100 + |X| / 490) * (epsD c : ℝ) := by positivity
  have hDe : (53000 + |X| / 200) / 10 ^ c.digits10 = (53000 + |X| / 200) * epsD c := by rw [eD]; ring
  have hDfin : 201 / 100 * ((26100 + |X| / 490) * (epsD c : ℝ)) + 7 * mulEps c ≤ (53000 + |X| / 200) * epsD c := by
    norm_num at m1 ⊢; linarith
  rw [← hX, hDe]
  generalize hDd : (26100 + |X| / 490) * (epsD c : ℝ) = D at *
  have hsa := abs_sub_abs_le_abs_sub (2 * Real.sinh X) (s.val c : ℝ)
  rw [abs_mul, abs_two, abs_sub_comm] at hsa
  have hsb := abs_sub_abs_le_abs_sub (s.val c : ℝ) (2 * Real.sinh X)
  rw [abs_mul, abs_two] at hsb
  have hCD : Real.cosh X * D ≤ Real.cosh X * (1 / 10 ^ 9) := mul_le_mul_of_nonneg_left hD (by linarith)
  have hslow : Real.cosh X * epsD c ≤ |(s.val c : ℝ)| := by linarith
  have hshi : |(s.val c : ℝ)| ≤ 3 * Real.cosh X := by norm_num at hCD; linarith
  have a2' := abs_le.mp a2
  have halo : Real.cosh X ≤ (a.val c : ℝ) := by norm_num at hCD; linarith [a2'.1]
  have hahi : (a.val c : ℝ) ≤ 3 * Real.cosh X := by norm_num at hCD; linarith [a2'.2]
  have hapR : (0 : ℝ) < a.val c := by linarith
  have hap : 0 < a.val c := by exact_mod_cast hapR
  have hsp : 0 < |(s.val c : ℝ)| := lt_of_lt_of_le (by positivity) hslow
  have hs0 : s.val c ≠ 0 := by exact_mod_cast abs_pos.mp hsp
  have hsz := isZero_false_of_val s1.toWF hs0
  have haz := isZero_false_of_val a1.toWF hap.ne'
  have as1 := (Rat.cast_le (K := ℝ)).mpr (s1.toWF.abs_ge hsz)
  have as2 := (Rat.cast_lt (K := ℝ)).mpr s1.toWF.abs_lt
  have aa1 := (Rat.cast_le (K := ℝ)).mpr (a1.toWF.abs_ge haz)
  have aa2 := (Rat.cast_lt (K := ℝ)).mpr a1.toWF.abs_lt
  push_cast at as1 as2 aa1 aa2
  rw [abs_of_pos hapR] at aa1 aa2
  have hM := h.hM
  have hR := h.hR
  have h2 := two_le_ed c
  have h8 := ed_le8 c
  have hed0 : (0 : ℚ) ≤ c.ed := Nat.cast_nonneg _
  -- exponents
  have ae0 : 0 ≤ a.exp + c.ed := by
    have : (10 : ℝ) ^ (0 : ℤ) < 10 ^ (a.exp + (c.ed : ℤ)) := by rw [zpow_zero]; linarith
    rw [zpow_lt_zpow_iff_right₀ (by norm_num)] at this; omega
  have hbig : Real.exp (|X| + 2) ≤ 10 ^ (c.maxExp - 3 * c.ed) := by
    apply exp_le_ten
    rw [Nat.cast_sub (by omega)]; push_cast; linarith
  have hcE : 3 * Real.cosh X ≤ Real.exp (|X| + 2) := by
    have : Real.cosh X ≤ Real.exp |X| := by
      rw [← Real.cosh_abs, Real.cosh_eq]
      have : Real.exp (-|X|) ≤ Real.exp |X| := Real.exp_le_exp.mpr (by linarith)
      linarith
    rw [Real.exp_add]
    have h3 : (3 : ℝ) ≤ Real.exp 2 := by have := Real.add_one_le_exp (2 : ℝ); linarith
    have := Real.exp_pos |X|
    nlinarith
  have ae1 : a.exp + 3 * c.ed ≤ c.maxExp := by
    have : (10 : ℝ) ^ a.exp ≤ 10 ^ (((c.maxExp - 3 * c.ed : ℕ)) : ℤ) := by rw [zpow_natCast]; linarith
    rw [zpow_le_zpow_iff_right₀ (by norm_num)] at this; omega
  have ae2 : a.exp + 3 * c.ed < c.maxExp := by
    have : (10 : ℝ) ^ a.exp < 10 ^ (((c.maxExp - 3 * c.ed : ℕ)) : ℤ) := by
      rw [zpow_natCast]
      norm_num at hCD
      linarith [a2'.2]
    rw [zpow_lt_zpow_iff_right₀ (by norm_num)] at this; omega
  have se1 : -(c.digits10 : ℤ) + a.exp - 1 < s.exp + c.ed := by
    have : (10 : ℝ) ^ (-(c.digits10 : ℤ) + a.exp - 1) < 10 ^ (s.exp + (c.ed : ℤ)) := by
      refine lt_of_le_of_lt ?_ as2
      refine le_trans ?_ hslow
      have e : (10 : ℝ) ^ (-(c.digits10 : ℤ) + a.exp - 1) = epsD c * 10 ^ a.exp * (1 / 10) := by
        unfold epsD; push_cast
        rw [zpow_sub₀ (by norm_num), zpow_add₀ (by norm_num)]; norm_num [div_eq_mul_inv]
      rw [e]
      have : (epsD c : ℝ) * 10 ^ a.exp ≤ epsD c * (3 * Real.cosh X) := mul_le_mul_of_nonneg_left (by linarith) e0.le
      have : 0 ≤ (epsD c : ℝ) * Real.cosh X := by positivity
      linarith
    rwa [zpow_lt_zpow_iff_right₀ (by norm_num)] at this
  have se2 : s.exp < a.exp + c.ed + 1 := by
    have : (10 : ℝ) ^ s.exp < 10 ^ (a.exp + c.ed + 1 : ℤ) := by
      rw [zpow_add_one₀ (by norm_num)]
      have : (0 : ℝ) < 10 ^ (a.exp + c.ed : ℤ) := by positivity
      linarith
    rwa [zpow_lt_zpow_iff_right₀ (by norm_num)] at this
  have hdig : c.digits10 + 4 * c.ed + 5 < c.maxExp := by
    have h1 := c.digits_le
    have h3 := c.three_le_N
    have : c.ed * (c.N + 5) = c.ed * (c.N - 1) + 6 * c.ed := by
      have : c.N + 5 = (c.N - 1) + 6 := by omega
      rw [this]; ring
    omega
  obtain ⟨d1, d2, -⟩ := div_accuracy_any c F h.hF h.hK s a s1 a1 hs0 hap.ne' h.hok (by omega) (by omega) ae2 (by omega) (by omega)
  have e6 : (6 : ℚ) / 10 ^ (c.digits10 + 2 * c.ed) = 6 * mulEps c := by unfold mulEps; ring
  rw [e6] at d2
  have d2' := (Rat.cast_le (K := ℝ)).mpr d2.le
  push_cast at d2'
  have hsign : s.val c < 0 ↔ x.val c < 0 := by
    have hsh : |(s.val c : ℝ) - 2 * Real.sinh X| < 2 * |Real.sinh X| := lt_of_le_of_lt s2 (by
      have : 0 < Real.cosh X * epsD c := by positivity
      linarith)
    have hsh' := abs_lt.mp hsh
    have key : (s.val c : ℝ) < 0 ↔ X < 0 := by
      rcases lt_trichotomy X 0 with hneg | hz | hpos
      · have : Real.sinh X < 0 := Real.sinh_neg_iff.mpr hneg
        rw [abs_of_neg this] at hsh'
        exact ⟨fun _ => hneg, fun _ => by linarith [hsh'.2]⟩
      · rw [hz] at hlo2; simp at hlo2; linarith
      · have : 0 < Real.sinh X := Real.sinh_pos_iff.mpr hpos
        rw [abs_of_pos this] at hsh'
        exact ⟨fun hc => by linarith [hsh'.1], fun hc => by linarith⟩
    rw [hX] at key
    exact_mod_cast key
  refine ⟨?_, ?_, ?_⟩
  · rw [d1, ← hsign, div_lt_iff₀ hap, zero_mul]
  · intro h0
    rw [h0, zero_sub, abs_neg] at d2
    have : 0 < |s.val c / a.val c| := abs_pos.mpr (div_ne_zero hs0 hap.ne')
    have := mulEps_le20 h.lo
    have : |s.val c / a.val c| * (6 * mulEps c) ≤ |s.val c / a.val c| * 1 := by
      apply mul_le_mul_of_nonneg_left _ (abs_nonneg _); norm_num at this; linarith
    linarith
  · rw [Real.tanh_eq_sinh_div_cosh]
    exact (tanh_real hC hT hD hD0 m0.le s2 a2 rfl d2').trans hDfin

/-- The hypotheses are met by x = 0.693 and `decwide_t<20>`. -/
example : ∃ r, sinhDW exC20 (estInv exC20 exDouble) exDouble.digits10 (lnTwoLow exC20) exS = some r ∧ Full exC20 r ∧
      |(r.val exC20 : ℝ) - Real.sinh (exS.val exC20)| ≤ Real.cosh (exS.val exC20) * ((27000 + |(exS.val exC20 : ℝ)| / 400) / 10 ^ 20) := by
  obtain ⟨a, b, hN⟩ := lnTwo_ok (c := exC20) (by decide)
  refine sinh_accuracy_partial exC20 exDouble exC20_ok (by decide) _ a b exS exS_full ?_ ?_ ?_ ?_
  · rw [exS_val, show exC20.digits10 = 20 from rfl]; norm_num
  · rw [exS_val]; norm_num
  · rw [exS_val]
    have : (exC20.maxExp : ℚ) = 2 ^ 59 := by unfold exC20; push_cast; rfl
    have h8 : (exC20.ed : ℚ) = 8 := by
      have : exC20.ed = 8 := by decide
      rw [this]; rfl
    rw [this, h8]; norm_num
  · rw [exS_val]; norm_num

/-- -0.693 is not next to a power of the radix: e^-0.693 is about 1/2. -/
example : OffPower exC20 (-(693 / 1000)) := by
  have h8 : (exC20.ed : ℤ) = 8 := by decide
  intro k
  rw [h8]
  have hlo : (1 / 10 : ℝ) < Real.exp (-(693 / 1000)) := by have := Real.add_one_le_exp (-(693 / 1000) : ℝ); linarith
  have hhi : Real.exp (-(693 / 1000)) < 9 / 10 := by
    have := Real.exp_bound_div_one_sub_of_interval' (x := 1 / 2) (by norm_num) (by norm_num)
    rw [Real.exp_neg, inv_lt_comm₀ (Real.exp_pos _) (by norm_num)]
    have := Real.add_one_le_exp (693 / 1000 : ℝ)
    norm_num at this ⊢; linarith
  have hsm : (27000 + |(-(693 / 1000) : ℝ)| / 400) / 10 ^ exC20.digits10 < 1 / 100 := by
    rw [show exC20.digits10 = 20 from rfl, abs_neg, abs_of_pos (by norm_num)]; norm_num
  refine lt_trans hsm ?_
  rcases lt_trichotomy k 0 with hk | hk | hk
  · have h1 : (10 : ℝ) ^ (8 * k) ≤ 10 ^ (-8 : ℤ) := zpow_le_zpow_right₀ (by norm_num) (by omega)
    have h2 : Real.exp (-(693 / 1000)) * 10 ^ (8 * k) ≤ 1 * 10 ^ (-8 : ℤ) := mul_le_mul (by linarith) h1 (by positivity) (by norm_num)
    rw [abs_sub_comm]
    refine lt_of_lt_of_le ?_ (le_abs_self _)
    norm_num at h2 ⊢; linarith
  · subst hk
    rw [mul_zero, zpow_zero, mul_one, abs_sub_comm]
    refine lt_of_lt_of_le ?_ (le_abs_self _)
    linarith
  · have h1 : (10 : ℝ) ^ (8 : ℤ) ≤ 10 ^ (8 * k) := zpow_le_zpow_right₀ (by norm_num) (by omega)
    have h2 : 1 / 10 * 10 ^ (8 : ℤ) ≤ Real.exp (-(693 / 1000)) * 10 ^ (8 * k) := mul_le_mul hlo.le h1 (by positivity) (by linarith)
    refine lt_of_lt_of_le ?_ (le_abs_self _)
    norm_num at h2 ⊢; linarith

/-- Zero divided by two. -/
theorem zero_div_two {c : Cfg} {F : Flt} (h : ElemOk c F) : (divAssign c (estInv c F) F.digits10 (zero c) (two c)).val c = 0 := by
  have hM := h.hM
  have h2 := two_le_ed c
  have he : (two c).exp = 0 := rfl
  have h8 := ed_le8 c
  have hlo16 := h.lo
  unfold divAssign
  have hcmp : compareRanges (zero c).data (two c).data ≠ 0 := by
    intro hc
    have := compareRanges_spec c.B (zero c).data (two c).data (by rw [(zero_WF c).toWF.len, (two_full c).toWF.len]) (zero_WF c).toWF.valid
      (two_full c).toWF.valid
    rw [hc] at this
    have h0 : limbsVal c.B (zero c).data = limbsVal c.B (two c).data := by
      unfold cmp3 at this; split at this
      · omega
      · split at this
        · assumption
        · omega
    have hd := limbsVal_inj (zero_WF c).toWF.valid (two_full c).toWF.valid (by rw [(zero_WF c).toWF.len, (two_full c).toWF.len]) h0
    have : (two c).isZero = (zero c).isZero := by unfold isZero d0; rw [hd]
    rw [isZero_false_of_val (two_full c).toWF (by rw [two_val]; norm_num), (zero_WF c).toWF.isZero_iff.mpr (zero_val c)] at this
    simp at this
  rw [if_neg (by rintro ⟨-, k⟩; exact hcmp k)]
  have hoff : OffRadix c F |(two c).val c| := by
    rw [two_val]
    intro k ⟨a, b⟩
    have hB : (3 : ℚ) ≤ c.B := by have := h.hB; exact_mod_cast (by omega : 3 ≤ c.B)
    have hp : (1 : ℚ) / 10 ^ (F.digits10 - 1) ≤ 1 / 10 := by
      have : (10 : ℚ) ^ 1 ≤ 10 ^ (F.digits10 - 1) := pow_le_pow_right₀ (by norm_num) (by have := digits10_ge h.hF; omega)
      rw [pow_one] at this
      exact one_div_le_one_div_of_le (by norm_num) this
    rw [abs_of_pos (by norm_num)] at a b
    rcases le_or_gt k 0 with hk | hk
    · have h3 : (c.B : ℚ) ^ k ≤ (c.B : ℚ) ^ (0 : ℤ) := zpow_le_zpow_right₀ (by linarith) hk
      rw [zpow_zero] at h3
      have h5 : (0 : ℚ) < (c.B : ℚ) ^ k := zpow_pos (by linarith) _
      nlinarith
    · have h3 : (c.B : ℚ) ^ (1 : ℤ) ≤ (c.B : ℚ) ^ k := zpow_le_zpow_right₀ (by linarith) (by omega)
      rw [zpow_one] at h3
      linarith
  obtain ⟨i1, -, i3⟩ := inv_accuracy_float_partial c F h.hF h.hK (two c) (two_full c) (by rw [two_val]; norm_num) h.hok (by omega) (by omega) (by omega) hoff
  rw [two_val] at i3
  have e5 : (5 : ℚ) / 10 ^ (c.digits10 + 2 * c.ed) = 5 * mulEps c := by unfold mulEps; ring
  rw [e5] at i3
  generalize calcInv c (estInv c F) F.digits10 (two c) = w at *
  have hμ := mulEps_le20 h.lo
  have i3' := abs_lt.mp i3
  have w1 : 1 / 10 < w.val c := by norm_num at hμ; linarith [i3'.1]
  have w2 : w.val c < 10 := by norm_num at hμ; linarith [i3'.2]
  obtain ⟨x1, x2⟩ := exp_of_mid i1 w1 w2
  exact (mulAssign_zero (zero_WF c) i1 (Or.inl ((zero_WF c).toWF.isZero_iff.mpr (zero_val c))) h.mulOk (by omega) (by omega)).1

theorem single_data (c : Cfg) (a : ℕ) : (fromLst c [a] 0 false).data = a :: List.replicate (c.N - 1) 0 := by
  unfold fromLst
  obtain ⟨k, hk⟩ : ∃ k, c.N = k + 1 := ⟨c.N - 1, by have := c.three_le_N; omega⟩
  simp [hk]

theorem one_add_one (c : Cfg) : addAssign c (one c) (one c) = two c := by
  have h1 := isZero_false_of_val (one_full c).toWF (by rw [one_val]; norm_num)
  have hN := c.three_le_N
  have hd : (one c).data = 1 :: List.replicate (c.N - 1) 0 := single_data c 1
  have hl : (1 :: List.replicate (c.N - 1) 0).length = c.N := by simp; omega
  have hpos : 0 < c.N * c.ed := Nat.mul_pos (by omega) c.ed_pos
  have hz := addC_zero c.L (c.N - 1) (List.replicate (c.N - 1) 0) (by simp) (validLimbs_replicate (show 0 < c.L.mask from c.B_pos))
  have hst : addStep c.L 1 1 0 = (2, 0) := by cases c.L <;> decide
  have hp : (one c).prec = c.N := rfl
  unfold addAssign
  simp only [h1, Bool.false_eq_true, if_false, false_or, sub_self, hp, min_self]
  rw [if_neg (by push_cast; omega), if_neg (by omega), if_pos trivial]
  unfold addSame
  simp only [le_refl, if_true, Int.natAbs_zero, Nat.zero_div, Nat.cast_zero, Int.toNat_zero, hd]
  have hsh : shr c.N 0 (1 :: List.replicate (c.N - 1) 0) = 1 :: List.replicate (c.N - 1) 0 := by
    unfold shr; simp [List.take_of_length_le hl.le]
  rw [hsh, List.take_of_length_le hl.le, List.drop_of_length_le hl.le]
  unfold addN
  simp only [addC, hz, hst]
  rw [if_neg (by simp)]
  unfold one two
  have e2 := single_data c 2
  unfold fromLst at e2 ⊢
  simp only at e2 ⊢
  rw [e2]; simp

theorem one_sub_one (c : Cfg) : subAssign c (one c) (one c) = zero c := by
  have hN := c.three_le_N
  have hd : (one c).data = 1 :: List.replicate (c.N - 1) 0 := single_data c 1
  have hl : (1 :: List.replicate (c.N - 1) 0).length = c.N := by simp; omega
  have hpos : 0 < c.N * c.ed := Nat.mul_pos (by omega) c.ed_pos
  have h1 := isZero_false_of_val (one_full c).toWF (by rw [one_val]; norm_num)
  have hn : (one c).negate = { one c with neg := true } := by
    unfold negate; rw [h1]; rfl
  have hnz : ({ one c with neg := true } : DW).isZero = false := h1
  have hz := subC_zero c.L (c.N - 1) (List.replicate (c.N - 1) 0) (by simp) (validLimbs_replicate (show 0 < c.L.mask from c.B_pos))
  have hst : subStep c.L 1 1 0 = (0, 0) := by cases c.L <;> decide
  have hp : (one c).prec = c.N := rfl
  have hng : (one c).neg = false := rfl
  have hadd : addAssign c { one c with neg := true } (one c) = zero c := by
    unfold addAssign
    simp only [h1, hnz, Bool.false_eq_true, if_false, false_or, sub_self, hp, min_self]
    have g1 : ¬ ((0 : ℤ) ≤ 0 ∧ (0 : ℤ) ≥ (c.N : ℤ) * c.ed) := by
      have : (0 : ℤ) < (c.N : ℤ) * c.ed := by exact_mod_cast hpos
      omega
    have g2 : ¬ ((0 : ℤ) < 0 ∧ -(0 : ℤ) ≥ (c.N : ℤ) * c.ed) := by omega
    have g3 : ¬ (true = (one c).neg) := by rw [hng]; simp
    simp only [if_neg g1, if_neg g2, if_neg g3]
    unfold addOpp
    simp only [le_refl, if_true, Int.natAbs_zero, Nat.zero_div, Nat.cast_zero, hd, compareRanges_self]
    simp only [lt_self_iff_false, gt_iff_lt, and_false, or_self, if_false]
    apply justify_zeros
    simp only [ne_eq, not_true_eq_false, if_false]
    rw [List.take_of_length_le hl.le, List.drop_of_length_le hl.le]
    unfold subN
    simp only [subC, hz, hst, List.append_nil]
    rw [← List.replicate_succ]; congr 1
  unfold subAssign
  rw [hn, hadd]
  unfold negate
  rw [(zero_WF c).toWF.isZero_iff.mpr (zero_val c)]; rfl

theorem inv_one (c : Cfg) (est : DW → DW) (fdig : ℕ) : calcInv c est fdig (one c) = one c := by
  have h1 := isZero_false_of_val (one_full c).toWF (by rw [one_val]; norm_num)
  have h2 : isOneSN c (one c) = true := by
    unfold isOneSN d0
    have hd : (one c).data = 1 :: List.replicate (c.N - 1) 0 := single_data c 1
    rw [hd]
    have : (one c).exp = 0 := rfl
    simp [this]
  unfold calcInv
  rw [h1, h2]; rfl

/-- C51 at zero, for every representation of zero: sinh(0) = 0, cosh(0) = 1 (to digits10 digits) and tanh(0) = 0. -/
theorem hyp_zero (c : Cfg) (F : Flt) (h : ElemOk c F) (l x : DW) (hx : WF c x) (h0 : x.val c = 0) (hn : x.neg = false) :
    sinhDW c (estInv c F) F.digits10 l x = some (zero c) ∧
    (∃ r, coshDW c (estInv c F) F.digits10 l x = some r ∧ Full c r ∧ |r.val c - 1| ≤ 3 / 10 ^ c.digits10) ∧
    ∃ t, tanhDW c (estInv c F) F.digits10 l x = some t ∧ t.val c = 0 := by
  have he := exp_zero c (estInv c F) F.digits10 l x hx h0 hn
  have hB : 2 < c.B := by have := h.hB; omega
  refine ⟨?_, ?_, ?_⟩
  · unfold sinhDW
    rw [he]
    simp only [Option.map_some, inv_one, one_sub_one]
    unfold divULL
    rw [if_neg (by norm_num), if_pos ((zero_WF c).toWF.isZero_iff.mpr (zero_val c))]
    rfl
  · refine ⟨divULL c (estInv c F) F.digits10 (two c) 2, ?_, ?_⟩
    · unfold coshDW
      rw [he]
      simp only [Option.map_some, inv_one, one_add_one]
    · obtain ⟨a, b⟩ := divU_op (est := estInv c F) (fdig := F.digits10) (two_full c) (by norm_num) hB (by have := h.lo; omega)
      refine ⟨a, ?_⟩
      have hf := flushC_le h.hM
      have eDq : epsD c = 1 / 10 ^ c.digits10 := by
        unfold epsD; rw [zpow_neg, zpow_natCast, one_div]
      have hp := epsD_pos c
      change _ ≤ 2 * epsD c * _ + _ at b
      rw [two_val] at b
      norm_num at b hf
      rw [show (3 : ℚ) / 10 ^ c.digits10 = 3 * epsD c by rw [eDq]; ring]
      linarith
  · refine ⟨divAssign c (estInv c F) F.digits10 (zero c) (two c), ?_, zero_div_two h⟩
    unfold tanhDW
    rw [he]
    simp only [Option.map_some, inv_one, one_add_one, one_sub_one]

example : (zero exC20).val exC20 = 0 ∧ (zero exC20).neg = false ∧ WF exC20 (zero exC20) := ⟨zero_val _, rfl, (zero_WF _).toWF⟩

/-- 10^-40 as an object of `decwide_t<20>`. -/
def exTiny : DW := fromLst exC20 [1] (-40) false

theorem exTiny_full : Full exC20 exTiny := fromLst_single_full (by decide) (by decide)
theorem exTiny_val : exTiny.val exC20 = 1 / 10 ^ 40 := by
  unfold exTiny; rw [fromLst_single_val]; norm_num

theorem exTiny_n : expN exC20 (estInv exC20 exDouble) exDouble.digits10 (lnTwoLow exC20) exTiny = 0 := by
  obtain ⟨a, b, -⟩ := lnTwo_ok (c := exC20) (by decide)
  have hb : |((lnTwoLow exC20).val exC20 : ℝ) - Real.log 2| ≤ (mulEps exC20 : ℝ) := by unfold mulEps; push_cast; exact b
  obtain ⟨lb1, lb2⟩ := ln2_bounds (c := exC20) (by decide) hb
  obtain ⟨-, -, -, -, -, -, -, -, a8⟩ := expArg_spec exC20_ok exTiny_full a (by rw [exTiny_val]; norm_num) (by rw [exTiny_val]; norm_num) (by decide +kernel)
    lb1 lb2
  generalize expN exC20 (estInv exC20 exDouble) exDouble.digits10 (lnTwoLow exC20) exTiny = n at *
  rw [exTiny_val] at a8
  by_contra h0
  have h1 : (1 : ℚ) ≤ n := by exact_mod_cast Nat.one_le_iff_ne_zero.mpr h0
  have : 1 * (693 / 1000 : ℚ) ≤ n * (lnTwoLow exC20).val exC20 := mul_le_mul h1 lb1 (by norm_num) (by linarith)
  norm_num at a8 this
  linarith

theorem exTiny_exp : expDW exC20 (estInv exC20 exDouble) exDouble.digits10 (lnTwoLow exC20) exTiny = some (one exC20) := by
  unfold expDW expArg
  rw [if_pos (Or.inr (by decide +kernel))]
  have hn' : exTiny.isNeg = false := rfl
  simp only [hn', Bool.not_false, Bool.false_eq_true, if_false, if_true, exTiny_n]
  decide +kernel

/-- C51 is false for the error relative to the result: sinh(10^-40) and tanh(10^-40) of `decwide_t<20>` are 0, although the
    exponent range of the type goes down to 10^(-2^59). -/
theorem sinh_cancels :
    ∃ x r t : DW, Full exC20 x ∧ x.val exC20 = 1 / 10 ^ 40 ∧
      sinhDW exC20 (estInv exC20 exDouble) exDouble.digits10 (lnTwoLow exC20) x = some r ∧ r.val exC20 = 0 ∧
      tanhDW exC20 (estInv exC20 exDouble) exDouble.digits10 (lnTwoLow exC20) x = some t ∧ t.val exC20 = 0 ∧
      0 < Real.sinh (x.val exC20) ∧ 0 < Real.tanh (x.val exC20) := by
  have hinv : calcInv exC20 (estInv exC20 exDouble) exDouble.digits10 (one exC20) = one exC20 := by decide +kernel
  refine ⟨exTiny, zero exC20, divAssign exC20 (estInv exC20 exDouble) exDouble.digits10 (subAssign exC20 (one exC20) (one exC20))
    (addAssign exC20 (one exC20) (one exC20)), exTiny_full, exTiny_val, ?_, zero_val _, ?_, ?_, ?_, ?_⟩
  · unfold sinhDW
    rw [exTiny_exp]
    simp only [Option.map_some, hinv]
    decide +kernel
  · unfold tanhDW
    rw [exTiny_exp]
    simp only [Option.map_some, hinv]
  · have : subAssign exC20 (one exC20) (one exC20) = zero exC20 := by decide +kernel
    rw [this]
    have h2 : addAssign exC20 (one exC20) (one exC20) = two exC20 := by decide +kernel
    rw [h2]; exact zero_div_two exC20_ok
  · rw [exTiny_val]; exact Real.sinh_pos_iff.mpr (by norm_num)
  · rw [exTiny_val, Real.tanh_eq_sinh_div_cosh]
    exact div_pos (Real.sinh_pos_iff.mpr (by norm_num)) (Real.cosh_pos _)

end WD
