import Verif.Proofs.LogLoop
import Verif.Proofs.ExpMain
import Verif.Props.Const
import Verif.Props.FloatConv
/-
  `log` above 1: scaling by a power of ten, Taylor series, n·ln 10.
-/
namespace WD
open DW Finset

theorem tlogSum_real {Y : ℚ} (hY : |Y| ≤ 83 / 100) (n : ℕ) :
    |(tlogSum Y n : ℝ) - Real.log (1 + Y)| ≤ 6 * |(Y : ℝ)| ^ (n + 1) := by
  have hY' : |(Y : ℝ)| ≤ 83 / 100 := by
    have := (Rat.cast_le (K := ℝ)).mpr hY; push_cast at this; exact this
  have h := Real.abs_log_sub_add_sum_range_le (x := -(Y : ℝ)) (by rw [abs_neg]; linarith) n
  rw [abs_neg, sub_neg_eq_add] at h
  have e : (∑ i ∈ range n, (-(Y : ℝ)) ^ (i + 1) / (i + 1)) = -(tlogSum Y n : ℝ) := by
    unfold tlogSum
    push_cast
    rw [← sum_neg_distrib]
    refine sum_congr rfl fun i _ => ?_
    rw [neg_pow, pow_succ (-1 : ℝ)]; ring
  rw [e] at h
  have h3 : |(tlogSum Y n : ℝ) - Real.log (1 + Y)| = |-(tlogSum Y n : ℝ) + Real.log (1 + Y)| := by
    rw [← abs_neg]; congr 1; ring
  rw [h3]
  refine h.trans ?_
  rw [div_le_iff₀ (by linarith)]
  have : (0 : ℝ) ≤ |(Y : ℝ)| ^ (n + 1) := by positivity
  nlinarith

theorem pow83 {D : ℕ} (h : D ≤ 2000 / 13) : (83 / 100 : ℚ) ^ 10000 ≤ 10 ^ (-(D : ℤ)) / 1000 := by
  have h1 : (83 / 100 : ℚ) ^ 13 ≤ 1 / 10 := by norm_num
  have h2 : (83 / 100 : ℚ) ^ 10000 ≤ (83 / 100) ^ (13 * (D + 3)) := pow_le_pow_of_le_one (by norm_num) (by norm_num) (by omega)
  rw [pow_mul] at h2
  refine h2.trans ((pow_le_pow_left₀ (by positivity) h1 _).trans (le_of_eq ?_))
  rw [zpow_neg, zpow_natCast, pow_add, one_div, inv_pow]; norm_num
  ring

/-- The Taylor loop started at index 2 computes log(1+Y). -/
theorem logSeries_spec {c : Cfg} {F : Flt} (h : ElemOk c F) (hN : c.N < 1793) (hD : c.digits10 ≤ 51) {y : DW} (hy : Full c y)
    (hy1 : -(c.maxExp : ℤ) < y.exp) (hy2 : y.exp < c.maxExp) (hY : |y.val c| ≤ 83 / 100) :
    let r := logLoop c (estInv c F) F.digits10 ((c.digits10 : ℤ) + 5) y 9998 2 y y true
    Full c r ∧ |(r.val c : ℝ) - Real.log (1 + y.val c)| ≤ 1311 / 100 * (epsD c : ℝ) := by
  intro r
  have hinv : LogInv c (y.val c) 2 y y true := by
    refine ⟨le_refl _, hy, hy, rfl, ?_, ?_⟩
    · have := mulEps_pos c
      have := flushC_pos c
      rw [show 2 - 1 = 1 from rfl, pow_one, sub_self, abs_zero]; positivity
    · have h1 : tlogSum (y.val c) (2 - 1) = y.val c := by simp [tlogSum]
      have := mulEps_pos c
      have := flushC_pos c
      have := epsD_pos c
      rw [h1, sub_self, abs_zero]
      have : (0 : ℚ) ≤ 1 - (83 / 100) ^ 2 := by norm_num
      positivity
  obtain ⟨a1, m, a2, a3, a4, a5⟩ := logLoop_spec h hN hy hy1 hy2 hY 9998 2 y y true hinv rfl
  refine ⟨a1, ?_⟩
  have hp : |y.val c ^ m| ≤ epsD c / 1000 := by
    rcases a5 with a5 | a5
    · exact a5
    · rw [a5, abs_pow]
      exact (pow_le_pow_left₀ (abs_nonneg _) hY _).trans (pow83 (by omega))
  have t := tlogSum_real hY (m - 1)
  rw [show m - 1 + 1 = m by omega] at t
  have hp' := (Rat.cast_le (K := ℝ)).mpr hp
  have a4' := (Rat.cast_le (K := ℝ)).mpr a4
  push_cast at hp' a4'
  rw [abs_pow] at hp'
  change |(r.val c : ℝ) - _| ≤ _ at a4'
  have b := abs_sub_le (r.val c : ℝ) (tlogSum (y.val c) (m - 1) : ℝ) (Real.log (1 + y.val c))
  obtain ⟨e0, -⟩ := epsD_real h.lo
  linarith

/-- The scale factor of `log`. -/
theorem logScale_spec (c : Cfg) (n : ℕ) :
    Full c (logScale c n) ∧ (logScale c n).val c = 10 ^ (n : ℤ) ∧ (logScale c n).exp = ((n / c.ed * c.ed : ℕ) : ℤ) := by
  have hed := c.ed_pos
  have h8 := ed_le8 c
  have hm : n % c.ed < c.ed := Nat.mod_lt _ hed
  have e : pow10Runtime (n % c.ed) = 10 ^ (n % c.ed) := (pow10_tables_exact _ (by omega)).2
  have hB : 10 ^ (n % c.ed) < c.B := by
    rw [c.B_eq]; exact Nat.pow_lt_pow_right (by norm_num) hm
  have hW : c.B ≤ c.L.W := by unfold Cfg.B; cases c.L <;> decide
  have e2 : logScale c n = fromLst c [10 ^ (n % c.ed)] ((n / c.ed * c.ed : ℕ) : ℤ) false := by
    unfold logScale
    rw [e, Nat.mod_eq_of_lt (by omega)]
  rw [e2]
  refine ⟨fromLst_single_full hB (by push_cast; exact dvd_mul_left _ _), ?_, rfl⟩
  rw [fromLst_single_val]
  simp only [Bool.false_eq_true, if_false, one_mul]
  push_cast
  rw [← zpow_natCast, ← zpow_add₀ (by norm_num)]
  congr 1
  have := Nat.div_add_mod n c.ed
  have t : (c.ed : ℤ) * (n / c.ed : ℕ) + (n % c.ed : ℕ) = n := by exact_mod_cast this
  push_cast at t ⊢
  linarith [mul_comm (c.ed : ℤ) ((n : ℤ) / c.ed)]

/-- Scaling: x/10^n lies between 1 and 10, and the exponent of the scale factor is that of x. -/
theorem log_scaling {c : Cfg} {x : DW} (hx : Full c x) (h1 : 1 < x.val c) :
    0 ≤ x.exp ∧ 0 ≤ ilogb x ∧ (ilogb x).toNat / c.ed * c.ed = x.exp.toNat ∧ (10 : ℚ) ^ ilogb x ≤ x.val c ∧ x.val c < 10 ^ (ilogb x + 1) ∧
      ilogb x < x.exp + c.ed := by
  have hed := c.ed_pos
  have h0 : x.val c ≠ 0 := by linarith
  have hz := isZero_false_of_val hx.toWF h0
  obtain ⟨a, b⟩ := ilogb_order c x hx.toWF h0
  have p := hx.toWF.abs_ge hz
  have q := hx.toWF.abs_lt
  rw [abs_of_pos (by linarith)] at a b p q
  have t0 : (0 : ℤ) < x.exp + c.ed := by
    have : (10 : ℚ) ^ (0 : ℤ) < 10 ^ (x.exp + (c.ed : ℤ)) := by rw [zpow_zero]; linarith
    rwa [zpow_lt_zpow_iff_right₀ (by norm_num)] at this
  obtain ⟨k, hk⟩ := hx.dvd
  have hk0 : 0 ≤ k := by
    by_contra hc
    have : (c.ed : ℤ) * k ≤ c.ed * (-1) := mul_le_mul_of_nonneg_left (by omega) (by omega)
    omega
  have he : 0 ≤ x.exp := by rw [hk]; positivity
  have t1 : x.exp ≤ ilogb x := by
    have := lt_of_le_of_lt p b
    rw [zpow_lt_zpow_iff_right₀ (by norm_num)] at this
    omega
  have t2 : ilogb x < x.exp + c.ed := by
    have := lt_of_le_of_lt a q
    rwa [zpow_lt_zpow_iff_right₀ (by norm_num)] at this
  refine ⟨he, by omega, ?_, a, b, t2⟩
  obtain ⟨k', rfl⟩ : ∃ k' : ℕ, k = k' := ⟨k.toNat, by omega⟩
  have hk2 : x.exp.toNat = c.ed * k' := by rw [hk]; norm_cast
  have : (ilogb x).toNat = (ilogb x).toNat - c.ed * k' + c.ed * k' := by omega
  rw [this, Nat.add_mul_div_left _ _ hed, Nat.div_eq_of_lt (by omega), hk2]
  ring

theorem log_ten_bounds : Real.log 10 ≤ 5 / 2 ∧ 2 ≤ Real.log 10 := by
  have e : Real.log 10 = Real.log 2 + Real.log 5 := by rw [← Real.log_mul (by norm_num) (by norm_num)]; norm_num
  constructor
  · rw [Real.log_le_iff_le_exp (by norm_num)]
    have := Real.exp_one_gt_d9
    have h1 : Real.exp (5 / 2) = Real.exp 1 * Real.exp 1 * Real.exp (1 / 2) := by rw [← Real.exp_add, ← Real.exp_add]; norm_num
    have h2 := Real.add_one_le_exp (1 / 2 : ℝ)
    rw [h1]
    have : (27 / 10 : ℝ) * (27 / 10) * (3 / 2) ≤ Real.exp 1 * Real.exp 1 * Real.exp (1 / 2) := by
      apply mul_le_mul _ (by norm_num at h2; exact h2) (by norm_num) (by positivity)
      apply mul_le_mul <;> first | linarith | positivity
    norm_num at this; linarith
  · rw [Real.le_log_iff_exp_le (by norm_num)]
    have := Real.exp_one_lt_d9
    have h1 : Real.exp 2 = Real.exp 1 * Real.exp 1 := by rw [← Real.exp_add]; norm_num
    rw [h1]
    have : Real.exp 1 * Real.exp 1 ≤ 3 * 3 := mul_le_mul (by linarith) (by linarith) (by positivity) (by norm_num)
    linarith

/-- Real arithmetic of `log`: sum the errors. T = x/10^k. -/
theorem log_combine {x L S r Y p a E M : ℝ} {k : ℝ} (hE0 : 0 < E) (hE : E ≤ 1 / 10 ^ 16) (hM0 : 0 < M) (hM : M ≤ E / 10 ^ 4)
    (hx : 1 < x) (hk0 : 0 ≤ k) (hTl : 17 / 100 ≤ x / 10 ^ (0 : ℤ) * p) (hTlog : Real.log (x * p) = Real.log x - k * Real.log 10)
    (hTu : x * p ≤ 2) (hY : |1 + Y - x * p| ≤ 21 / 10 * E * (x * p) + 4 * M)
    (hS : |S - Real.log (1 + Y)| ≤ 1311 / 100 * E) (hL : |L - k * Real.log 10| ≤ 6 * M * k)
    (hr : |r - (L + S)| ≤ M * (|L| + |S|)) (ha : a = Real.log x) :
    |r - a| ≤ (16 + a / 1000) * E := by
  have hl10 : Real.log 10 ≤ 5 / 2 ∧ 2 ≤ Real.log 10 := log_ten_bounds
  have hx0 : 0 < Real.log x := Real.log_pos hx
  rw [zpow_zero, div_one] at hTl
  have hTp : 0 < x * p := by linarith
  -- log(1+Y) against log(x p)
  have s1 := log_shift (a := 1 + Y) hTp (t := 2124 / 1000 * E) (by norm_num at hE; linarith) (by
    refine hY.trans ?_
    have : E * (17 / 100) ≤ E * (x * p) := mul_le_mul_of_nonneg_left hTl hE0.le
    linarith)
  obtain ⟨-, s2⟩ := s1
  have hTl2 : -2 ≤ Real.log (x * p) := by
    have h1 := Real.one_sub_inv_le_log_of_pos hTp
    have h2 := Real.log_le_log (by norm_num) hTl
    have h3 : -2 ≤ Real.log (17 / 100) := by
      rw [Real.le_log_iff_exp_le (by norm_num)]
      have := Real.exp_one_gt_d9
      rw [Real.exp_neg]
      have h1 : Real.exp 2 = Real.exp 1 * Real.exp 1 := by rw [← Real.exp_add]; norm_num
      rw [h1]
      have : (27 / 10 : ℝ) * (27 / 10) ≤ Real.exp 1 * Real.exp 1 := by apply mul_le_mul <;> first | linarith | positivity
      rw [inv_le_comm₀ (by positivity) (by norm_num)]
      norm_num at this ⊢; linarith
    linarith
  have hTu2 : Real.log (x * p) ≤ 1 := by
    have := Real.log_le_sub_one_of_pos hTp
    linarith
  have kl : k * 2 ≤ k * Real.log 10 := mul_le_mul_of_nonneg_left hl10.2 hk0
  have hk : k ≤ Real.log x / 2 + 1 := by rw [hTlog] at hTl2; linarith
  have b1 := abs_le.mp s2
  have b2 := abs_le.mp hS
  have b3 := abs_le.mp hL
  have hMk : M * k ≤ M * (Real.log x / 2 + 1) := mul_le_mul_of_nonneg_left hk hM0.le
  have hMx : M * Real.log x ≤ E / 10 ^ 4 * Real.log x := mul_le_mul_of_nonneg_right hM hx0.le
  have hM20 : M ≤ 1 / 10 ^ 20 := by norm_num at hM hE ⊢; linarith
  have hSb : |S| ≤ 3 := by
    rw [abs_le]
    norm_num at hE
    constructor <;> linarith [b1.1, b1.2, b2.1, b2.2]
  have hLb : |L| ≤ Real.log x + 3 + 6 * (M * k) := by
    rw [hTlog] at hTl2 hTu2
    rw [abs_le]
    have : 0 ≤ M * k := by positivity
    constructor <;> linarith [b3.1, b3.2]
  have hMk2 : 6 * (M * k) ≤ Real.log x + 1 := by
    have : M * (Real.log x / 2 + 1) ≤ 1 / 10 ^ 20 * (Real.log x / 2 + 1) := mul_le_mul_of_nonneg_right hM20 (by linarith)
    norm_num at this; linarith
  have hr2 : M * (|L| + |S|) ≤ M * (2 * Real.log x + 7) := mul_le_mul_of_nonneg_left (by linarith) hM0.le
  have b4 := abs_le.mp hr
  rw [hTlog] at b1
  rw [ha, abs_le]
  norm_num at hM hMx
  constructor <;> linarith [b1.1, b1.2, b2.1, b2.2, b3.1, b3.2, b4.1, b4.2]

/-- The scaled argument of `log` and its power of ten. -/
theorem log_reduce {c : Cfg} {F : Flt} (h : ElemOk c F) (hN : c.N < 1793) {x lim : DW} (hx : Full c x) (h1 : 1 < x.val c)
    (hhi : x.exp + 3 * c.ed < c.maxExp) (hlim : WF c lim) (hl1 : 179 / 100 ≤ lim.val c) (hl2 : lim.val c ≤ 181 / 100) :
    let n := (ilogb x).toNat
    let xs := divAssign c (estInv c F) F.digits10 x (logScale c n)
    let p : DW × ℕ := if gt xs lim then (divULL c (estInv c F) F.digits10 xs 10, n + 1) else (xs, n)
    Full c p.1 ∧ 178 / 1000 ≤ p.1.val c ∧ p.1.val c ≤ 181 / 100 ∧ 17 / 100 ≤ x.val c / 10 ^ p.2 ∧ x.val c / 10 ^ p.2 ≤ 2 ∧
      |p.1.val c - x.val c / 10 ^ p.2| ≤ 21 / 10 * epsD c * (x.val c / 10 ^ p.2) ∧ p.2 ≤ c.maxExp := by
  intro n xs p
  have hM := h.hM
  have h2 := two_le_ed c
  have h8 := ed_le8 c
  have hμ0 := mulEps_pos c
  have hμ := mulEps_le_epsD c
  have hε0 := epsD_pos c
  have hε := epsD_le h.lo
  have hφ0 := flushC_pos c
  have hφ := flushC_le hM
  obtain ⟨a1, a2, a3, a4, a5, a6⟩ := log_scaling hx h1
  obtain ⟨b1, b2, b3⟩ := logScale_spec c n
  have hnn : ilogb x = (n : ℤ) := by omega
  rw [hnn] at a4 a5
  have hse : (logScale c n).exp = x.exp := by rw [b3, a3]; omega
  have hp : (0 : ℚ) < 10 ^ (n : ℤ) := p10_pos _
  obtain ⟨d1, d2, d3, -⟩ := div_accuracy_any c F h.hF h.hK x (logScale c n) hx b1 (by linarith) (by rw [b2]; exact hp.ne') h.hok (by omega)
    (by rw [hse]; omega) (by rw [hse]; exact hhi) (by rw [hse]; omega) (by rw [hse]; omega)
  have hno : nearOne c < 1 := by
    unfold nearOne; have := p10_pos (-((c.ed : ℤ) * c.N)); linarith
  have hax : |x.val c| = x.val c := abs_of_pos (by linarith)
  have d3 := d3 (by rw [hax]; exact h1.ne') (by rw [hax]; linarith)
  rw [b2] at d1 d2
  set T := x.val c / 10 ^ (n : ℤ) with hT
  have hT1 : 1 ≤ T := by rw [hT, le_div_iff₀ hp]; linarith
  have hT10 : T < 10 := by
    rw [hT, div_lt_iff₀ hp]
    rw [zpow_add₀ (by norm_num), zpow_one] at a5; linarith
  rw [abs_of_pos (show 0 < T by linarith)] at d2
  have e6 : (6 : ℚ) / 10 ^ (c.digits10 + 2 * c.ed) = 6 * mulEps c := by unfold mulEps; ring
  rw [e6] at d2
  change |xs.val c - T| < _ at d2
  change Full c xs at d3
  have d2' := abs_le.mp d2.le
  have hTμ : T * (6 * mulEps c) ≤ 10 * (6 * mulEps c) := mul_le_mul_of_nonneg_right hT10.le (by positivity)
  have hTμ2 : T * mulEps c ≤ T * (epsD c / 10 ^ 4) := mul_le_mul_of_nonneg_left hμ (by linarith)
  have hTε : 1 * epsD c ≤ T * epsD c := mul_le_mul_of_nonneg_right hT1 hε0.le
  have hTz : x.val c / 10 ^ n = T := by rw [hT, zpow_natCast]
  by_cases hg : gt xs lim = true
  · have hp2 : p = (divULL c (estInv c F) F.digits10 xs 10, n + 1) := if_pos hg
    have hgv := (ordering_matches_value c xs lim d3.toWF hlim).2.2.2.2.2.mp hg
    obtain ⟨q1, q2⟩ := divU_op (est := estInv c F) (fdig := F.digits10) d3 (n := 10) (by norm_num) (by unfold Cfg.B; cases c.L <;> decide) (by have := h.lo; omega)
    rw [hp2]
    dsimp only
    have hTz' : x.val c / 10 ^ (n + 1) = T / 10 := by rw [pow_succ, ← div_div, hTz]
    have hTl : 178 / 100 < T := by norm_num at hμ hε hTμ; linarith [d2'.1, d2'.2]
    have hxs : 0 < xs.val c := by linarith
    rw [abs_of_pos hxs] at q2
    have hee : (10 : ℚ) ^ (-(c.digits10 : ℤ)) = epsD c := rfl
    rw [hee] at q2
    push_cast at q2
    set r := divULL c (estInv c F) F.digits10 xs 10
    have q2' := abs_le.mp q2
    have hxe : epsD c * (xs.val c / 10) ≤ epsD c * (T * (1 + 6 / 10 ^ 20) / 10) := by
      apply mul_le_mul_of_nonneg_left _ hε0.le
      have : T * (mulEps c) ≤ T * (1 / 10 ^ 20) := mul_le_mul_of_nonneg_left (mulEps_le20 h.lo) (by linarith)
      norm_num at this ⊢; linarith [d2'.2]
    have hxe2 : epsD c * (T * (1 + 6 / 10 ^ 20) / 10) ≤ 1 / 10 ^ 16 * (T * (1 + 6 / 10 ^ 20) / 10) := mul_le_mul_of_nonneg_right hε (by positivity)
    rw [hTz']
    refine ⟨q1, ?_, ?_, by linarith, by linarith, ?_, by omega⟩
    · norm_num at hμ hε hTμ hxe hxe2 hφ; linarith [q2'.1, d2'.1]
    · norm_num at hμ hε hTμ hxe hxe2 hφ; linarith [q2'.2, d2'.2]
    · rw [abs_le]
      norm_num at hμ hε hTμ hTμ2 hxe hxe2 hφ
      constructor <;> linarith [q2'.1, q2'.2, d2'.1, d2'.2]
  · have hp2 : p = (xs, n) := if_neg hg
    have hgv : ¬ (xs.val c > lim.val c) := fun hc => hg ((ordering_matches_value c xs lim d3.toWF hlim).2.2.2.2.2.mpr hc)
    rw [hp2]
    dsimp only
    rw [hTz]
    refine ⟨d3, ?_, by linarith, by linarith, ?_, ?_, by omega⟩
    · norm_num at hμ hε hTμ; linarith [d2'.1]
    · norm_num at hμ hε hTμ; linarith [d2'.1]
    · rw [abs_le]
      norm_num at hμ hε hTμ hTμ2
      constructor <;> linarith [d2'.1, d2'.2]

set_option maxHeartbeats 1000000 in
/-- The end of `log`: from the reduced argument 1 + y and the decimal scaling k to the result. -/
theorem log_finish {c : Cfg} {F : Flt} (h : ElemOk c F) (hD : c.digits10 ≤ 51) (hX : c.maxExp ≤ 2 ^ 62) {y : DW} {k : ℕ} {X : ℚ}
    (h1 : 1 < X) (y1 : Full c y) (hye1 : -(c.maxExp : ℤ) < y.exp) (hye2 : y.exp < c.maxExp) (hYb : |y.val c| ≤ 83 / 100)
    (p4 : 17 / 100 ≤ X / 10 ^ k) (p5 : X / 10 ^ k ≤ 2)
    (hYr : |(1 : ℚ) + y.val c - X / 10 ^ k| ≤ 21 / 10 * epsD c * (X / 10 ^ k) + 4 * mulEps c) (p7 : k ≤ c.maxExp) :
    let R := addAssign c (mulSLL c (lnTenLow c) k) (logLoop c (estInv c F) F.digits10 ((c.digits10 : ℤ) + 5) y 9998 2 y y true)
    Full c R ∧ |(R.val c : ℝ) - Real.log X| ≤ (16 + Real.log X / 1000) * (epsD c : ℝ) := by
  intro R
  have h2 := two_le_ed c
  have h8 := ed_le8 c
  have hN : c.N < 1793 := h.hok.1
  have hM := h.hM
  have hμ0 := mulEps_pos c
  have hμ := mulEps_le_epsD c
  have hμ20 := mulEps_le20 h.lo
  have hε0 := epsD_pos c
  have hε := epsD_le h.lo
  have hR := h.hR
  have hR' : (c.ed : ℤ) * c.N + 5 * c.ed + 10 < c.maxExp := by
    have : ((c.ed * (c.N + 5) + 10 : ℕ) : ℤ) < c.maxExp := by exact_mod_cast hR
    push_cast at this; linarith
  obtain ⟨s1, s2⟩ := logSeries_spec h hN hD y1 hye1 hye2 hYb
  revert R
  intro R
  change Full c (addAssign c (mulSLL c (lnTenLow c) k) (logLoop c (estInv c F) F.digits10 ((c.digits10 : ℤ) + 5) y 9998 2 y y true)) ∧
    |((addAssign c (mulSLL c (lnTenLow c) k) (logLoop c (estInv c F) F.digits10 ((c.digits10 : ℤ) + 5) y 9998 2 y y true)).val c : ℝ) - Real.log X| ≤ _
  clear R
  set S := logLoop c (estInv c F) F.digits10 ((c.digits10 : ℤ) + 5) y 9998 2 y y true with hS
  -- k ln 10
  obtain ⟨t1, t2, t3, t4⟩ := ln_ten_correct c hD
  have hk63 : k < 2 ^ 63 := by omega
  have hm : mulSLL c (lnTenLow c) k = mulULL c (lnTenLow c) k := by
    unfold mulSLL
    rw [if_neg (by omega), if_neg (by omega)]
    congr 1
    unfold castULL; omega
  have hlexp : (lnTenLow c).exp = 0 := rfl
  have hl10 : Real.log 10 ≤ 5 / 2 ∧ 2 ≤ Real.log 10 := log_ten_bounds
  obtain ⟨e0, e1⟩ := epsD_real h.lo
  obtain ⟨m0, m1⟩ := mulEps_real c
  have hme : (mulEps c : ℝ) = (10 : ℝ) ^ (-((c.digits10 : ℤ) + 2 * c.ed)) := by
    unfold mulEps; push_cast
    rw [one_div, ← zpow_natCast, ← zpow_neg]; push_cast; rfl
  rw [← hme] at t4
  have t4' := abs_le.mp t4.le
  have hlv : (1 : ℝ) ≤ (lnTenLow c).val c := by norm_num at m1 e1; linarith [t4'.1]
  have hlv2 : ((lnTenLow c).val c : ℝ) ≤ 5 / 2 := by linarith
  have hlv0 : (lnTenLow c).val c ≠ 0 := by
    intro hc; rw [hc] at hlv; norm_num at hlv
  obtain ⟨u1, u2⟩ := mulU_op t1 hlv0 (n := k) (by omega) (cap20 h.lo (by omega)) h.mulOk (by rw [hlexp]; omega) (by
    rw [hlexp]
    have : orderOf k ≤ 20 := orderOf_le (by omega) (by norm_num)
    have := h.lo
    omega)
  rw [hm]
  set L := mulULL c (lnTenLow c) k with hL
  obtain ⟨v1, v2, -⟩ := add_op u1 s1
  refine ⟨v1, ?_⟩
  have u2r := (Rat.cast_le (K := ℝ)).mpr u2
  have v2r := (Rat.cast_le (K := ℝ)).mpr v2
  have p4r := (Rat.cast_le (K := ℝ)).mpr p4
  have p5r := (Rat.cast_le (K := ℝ)).mpr p5
  have h1r := (Rat.cast_lt (K := ℝ)).mpr h1
  have hYr' := (Rat.cast_le (K := ℝ)).mpr hYr
  push_cast at u2r v2r p4r p5r h1r hYr'
  rw [abs_of_pos (show (0 : ℝ) < (lnTenLow c).val c by linarith)] at u2r
  have hk0 : (0 : ℝ) ≤ k := Nat.cast_nonneg _
  refine log_combine (k := k) (p := (10 ^ k)⁻¹) (L := L.val c) (S := S.val c) (Y := y.val c) e0 e1 m0 m1 h1r hk0
    (by rw [zpow_zero, div_one, ← div_eq_mul_inv]; exact p4r) ?_ (by rw [← div_eq_mul_inv]; exact p5r)
    (by rw [← div_eq_mul_inv]; exact hYr') s2 ?_ v2r rfl
  · rw [Real.log_mul (by linarith) (by positivity), Real.log_inv, Real.log_pow]; ring
  · have w := abs_le.mp u2r
    have z : (mulEps c : ℝ) * ((lnTenLow c).val c * k) ≤ mulEps c * (1 * k) + mulEps c * (3 / 2 * k) := by
      rw [← mul_add]
      apply mul_le_mul_of_nonneg_left _ m0.le
      have := mul_le_mul_of_nonneg_right hlv2 hk0
      linarith
    have z1 := mul_le_mul_of_nonneg_right t4'.1 hk0
    have z2 := mul_le_mul_of_nonneg_right t4'.2 hk0
    have z3 : 0 ≤ mulEps c * k := by positivity
    rw [abs_le]
    constructor <;> linarith [w.1, w.2]

/-- The same from the scaled argument P. -/
theorem log_finish_P {c : Cfg} {F : Flt} (h : ElemOk c F) (hD : c.digits10 ≤ 51) (hX : c.maxExp ≤ 2 ^ 62) {P : DW} {k : ℕ} {X : ℚ}
    (h1 : 1 < X) (p1 : Full c P) (p2 : 178 / 1000 ≤ P.val c) (p3 : P.val c ≤ 181 / 100) (p4 : 17 / 100 ≤ X / 10 ^ k)
    (p5 : X / 10 ^ k ≤ 2) (p6 : |P.val c - X / 10 ^ k| ≤ 21 / 10 * epsD c * (X / 10 ^ k)) (p7 : k ≤ c.maxExp) :
    let y := subAssign c P (one c)
    let R := addAssign c (mulSLL c (lnTenLow c) k) (logLoop c (estInv c F) F.digits10 ((c.digits10 : ℤ) + 5) y 9998 2 y y true)
    Full c R ∧ |(R.val c : ℝ) - Real.log X| ≤ (16 + Real.log X / 1000) * (epsD c : ℝ) := by
  have h2 := two_le_ed c
  have h8 := ed_le8 c
  have hM := h.hM
  have hμ0 := mulEps_pos c
  have hμ := mulEps_le_epsD c
  have hμ20 := mulEps_le20 h.lo
  have hε0 := epsD_pos c
  have hε := epsD_le h.lo
  intro y
  obtain ⟨y1, y2, -⟩ := sub_op p1 (one_full c)
  obtain ⟨yr1, yr2⟩ := sub_range p1 (one_full c) (by linarith)
  have hy : subAssign c P (one c) = y := rfl
  clear_value y
  rw [hy] at y1 y2 yr1 yr2
  rw [one_val, abs_one, abs_of_pos (show 0 < P.val c by linarith)] at y2
  have y2' := abs_le.mp y2
  have hμP : mulEps c * (P.val c + 1) ≤ mulEps c * 3 := mul_le_mul_of_nonneg_left (by linarith) hμ0.le
  have hYb : |y.val c| ≤ 83 / 100 := by
    rw [abs_le]; norm_num at hμ20; constructor <;> linarith [y2'.1, y2'.2]
  have hPe : -(c.ed : ℤ) ≤ P.exp := by
    have : (10 : ℚ) ^ (-1 : ℤ) < 10 ^ (P.exp + c.ed) := by
      refine lt_of_lt_of_le ?_ p1.toWF.abs_lt.le
      rw [abs_of_pos (by linarith)]; norm_num; linarith
    rw [zpow_lt_zpow_iff_right₀ (by norm_num)] at this
    omega
  have hR := h.hR
  have hR' : (c.ed : ℤ) * c.N + 5 * c.ed + 10 < c.maxExp := by
    have : ((c.ed * (c.N + 5) + 10 : ℕ) : ℤ) < c.maxExp := by exact_mod_cast hR
    push_cast at this; linarith
  have hye1 : -(c.maxExp : ℤ) < y.exp := by
    by_cases h0 : y.val c = 0
    · rw [yr2 h0]; omega
    · have := yr1 h0; omega
  have hye2 : y.exp < c.maxExp := by
    by_cases h0 : y.val c = 0
    · rw [yr2 h0]; omega
    · have := y1.toWF.abs_ge (isZero_false_of_val y1.toWF h0)
      have : (10 : ℚ) ^ y.exp < 10 ^ (0 : ℤ) := by rw [zpow_zero]; linarith
      rw [zpow_lt_zpow_iff_right₀ (by norm_num)] at this
      omega
  refine log_finish h hD hX h1 y1 hye1 hye2 hYb p4 p5 ?_ p7
  have p6' := abs_le.mp p6
  rw [abs_le]
  constructor <;> linarith [p6'.1, p6'.2, y2'.1, y2'.2]

theorem logAbove_spec {c : Cfg} {F : Flt} (h : ElemOk c F) (hD : c.digits10 ≤ 51) (hX : c.maxExp ≤ 2 ^ 62) {x lim : DW} (hx : Full c x)
    (h1 : 1 < x.val c) (hhi : x.exp + 3 * c.ed < c.maxExp) (hlim : WF c lim) (hl1 : 179 / 100 ≤ lim.val c) (hl2 : lim.val c ≤ 181 / 100) :
    Full c (logAbove c (estInv c F) F.digits10 lim x) ∧
    |((logAbove c (estInv c F) F.digits10 lim x).val c : ℝ) - Real.log (x.val c)| ≤ (16 + Real.log (x.val c) / 1000) * (epsD c : ℝ) := by
  have h2 := two_le_ed c
  have h8 := ed_le8 c
  have hN : c.N < 1793 := by
    have : c.digits10 / c.ed ≤ 51 := (Nat.div_le_self _ _).trans hD
    unfold Cfg.N
    split <;> omega
  have hM := h.hM
  have hμ0 := mulEps_pos c
  have hμ := mulEps_le_epsD c
  have hμ20 := mulEps_le20 h.lo
  have hε0 := epsD_pos c
  have hε := epsD_le h.lo
  obtain ⟨p1, p2, p3, p4, p5, p6, p7⟩ := log_reduce h hN hx h1 hhi hlim hl1 hl2
  unfold logAbove
  dsimp only at p1 p2 p3 p4 p5 p6 p7 ⊢
  set n := (ilogb x).toNat with hn
  set xs := divAssign c (estInv c F) F.digits10 x (logScale c n) with hxs
  generalize (if gt xs lim then (divULL c (estInv c F) F.digits10 xs 10, n + 1) else (xs, n) : DW × ℕ) = p at *
  obtain ⟨P, k⟩ := p
  dsimp only at p1 p2 p3 p4 p5 p6 p7 ⊢
  exact log_finish_P h hD hX h1 p1 p2 p3 p4 p5 p6 p7
