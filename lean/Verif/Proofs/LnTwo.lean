import Verif.Proofs.AgmEnd
import Verif.Props.Ldexp
import Verif.Props.Radix
import Verif.Proofs.Radix2
/-
  The start value 2^(2-m) of the AGM loops.
-/
namespace WD
open DW Real

theorem lnTwoM_bounds {c : Cfg} {F32 : Flt} (hF : F32.IsFloat) (h1 : 52 ≤ c.digits10) :
    10 * (c.digits10 : ℤ) ≤ 6 * lnTwoM c F32 + 6 ∧ 100 * lnTwoM c F32 ≤ 168 * c.digits10 := by
  have hp : F32.p = 24 := hF.1
  have he := F32.rnd_err (by rw [hp]; norm_num) (c.digits10 * f167)
  have hu : F32.u = 1 / 2 ^ 24 := by unfold Flt.u; rw [hp]; norm_num
  have hd : (52 : ℚ) ≤ c.digits10 := by exact_mod_cast h1
  have hq : (0 : ℚ) < c.digits10 * f167 := by unfold f167; positivity
  rw [abs_of_pos hq, hu] at he
  obtain ⟨e1, e2⟩ := abs_le.mp he
  unfold f167 at e1 e2
  have r1 : 16699 / 10000 * (c.digits10 : ℚ) ≤ F32.rnd (c.digits10 * f167) := by unfold f167; linarith
  have r2 : F32.rnd (c.digits10 * f167) ≤ 168 / 100 * (c.digits10 : ℚ) := by unfold f167; linarith
  unfold lnTwoM
  generalize F32.rnd (c.digits10 * f167) = R at *
  have f1 := Int.lt_floor_add_one R
  have f2 := Int.floor_le R
  have hm : max ⌊R⌋ 3 = ⌊R⌋ := by
    refine max_eq_left ?_
    rw [Int.le_floor]; push_cast; linarith
  rw [hm]
  constructor
  · have : (10 * (c.digits10 : ℤ) : ℚ) ≤ ((6 * ⌊R⌋ + 6 : ℤ) : ℚ) := by push_cast; linarith
    exact_mod_cast this
  · have : ((100 * ⌊R⌋ : ℤ) : ℚ) ≤ ((168 * c.digits10 : ℤ) : ℚ) := by push_cast; linarith
    exact_mod_cast this

theorem ten_le_four {d m : ℕ} (h : 10 * d ≤ 6 * m + 6) : (10 : ℝ) ^ d ≤ 4 ^ (m + 1) := by
  have h1 : ((10 : ℝ) ^ d) ^ 3 ≤ (4 ^ (m + 1)) ^ 3 := by
    calc ((10 : ℝ) ^ d) ^ 3 = 1000 ^ d := by rw [← pow_mul, mul_comm, pow_mul]; norm_num
      _ ≤ 1024 ^ d := pow_le_pow_left₀ (by norm_num) (by norm_num) d
      _ = 2 ^ (10 * d) := by rw [pow_mul]; norm_num
      _ ≤ 2 ^ (6 * m + 6) := pow_le_pow_right₀ (by norm_num) h
      _ = (4 ^ (m + 1)) ^ 3 := by rw [← pow_mul, show (4 : ℝ) = 2 ^ 2 by norm_num, ← pow_mul]; congr 1; ring
  exact le_of_pow_le_pow_left₀ (by norm_num) (by positivity) h1

/-- No power of ten is close to a power of two. -/
theorem two_pow_off_ten {n d : ℕ} (hn : 0 < n) (hd : 52 ≤ d) (hnd : 100 * n ≤ 168 * d) {k : ℤ}
    (h : |(10 : ℚ) ^ k - 1 / 2 ^ n| ≤ 1 / 2 ^ n * (4 / 10 ^ d)) : False := by
  have h2n : (0 : ℚ) < 2 ^ n := by positivity
  have hθ : (4 : ℚ) / 10 ^ d ≤ 1 / 100 := by
    rw [div_le_div_iff₀ (by positivity) (by norm_num)]
    calc (4 : ℚ) * 100 ≤ 1 * 10 ^ 3 := by norm_num
      _ ≤ 1 * 10 ^ d := by gcongr <;> first | omega | norm_num
  have hθ0 : (0 : ℚ) < 4 / 10 ^ d := by positivity
  obtain ⟨x1, x2⟩ := abs_le.mp h
  have hk : k < 0 := by
    by_contra hc
    have : (1 : ℚ) ≤ 10 ^ k := one_le_zpow₀ (by norm_num) (not_lt.mp hc)
    have h2 : (1 : ℚ) / 2 ^ n ≤ 1 / 2 := one_div_le_one_div_of_le (by norm_num) (by
      calc (2 : ℚ) = 2 ^ 1 := by norm_num
        _ ≤ 2 ^ n := pow_le_pow_right₀ (by norm_num) hn)
    have : 1 / 2 ^ n * (4 / 10 ^ d) ≤ (1 : ℚ) / 2 * (1 / 100) := mul_le_mul h2 hθ hθ0.le (by norm_num)
    linarith
  obtain ⟨j, hj⟩ : ∃ j : ℕ, k = -(j : ℤ) := ⟨k.natAbs, by omega⟩
  have hj0 : 0 < j := by omega
  rw [hj, zpow_neg, zpow_natCast, ← one_div] at h x1 x2
  have h10 : (0 : ℚ) < 10 ^ j := by positivity
  -- |2^n - 10^j| ≤ θ 10^j
  have hd' : |(2 : ℚ) ^ n - 10 ^ j| ≤ 10 ^ j * (4 / 10 ^ d) := by
    have e : (2 : ℚ) ^ n - 10 ^ j = (1 / 10 ^ j - 1 / 2 ^ n) * (2 ^ n * 10 ^ j) := by field_simp
    rw [e, abs_mul, abs_of_pos (by positivity : (0 : ℚ) < 2 ^ n * 10 ^ j)]
    calc |(1 : ℚ) / 10 ^ j - 1 / 2 ^ n| * (2 ^ n * 10 ^ j) ≤ 1 / 2 ^ n * (4 / 10 ^ d) * (2 ^ n * 10 ^ j) := by gcongr
      _ = _ := by field_simp
  obtain ⟨y1, y2⟩ := abs_le.mp hd'
  have hle : (10 : ℚ) ^ j * (4 / 10 ^ d) ≤ 10 ^ j * (1 / 100) := mul_le_mul_of_nonneg_left hθ h10.le
  have h10n : (10 : ℚ) ^ j < 2 ^ (n + 1) := by rw [pow_succ]; linarith
  have h3j : 3 * j < n + 1 := by
    have : (2 : ℚ) ^ (3 * j) < 2 ^ (n + 1) := by
      refine lt_of_le_of_lt ?_ h10n
      rw [pow_mul]; exact pow_le_pow_left₀ (by norm_num) (by norm_num) j
    exact (pow_lt_pow_iff_right₀ (by norm_num)).mp this
  -- 2^n - 10^j is a non-zero multiple of 2^j
  have hmul : (2 : ℚ) ^ j ≤ |(2 : ℚ) ^ n - 10 ^ j| := by
    have e : (2 : ℚ) ^ n - 10 ^ j = 2 ^ j * (((2 ^ (n - j) - 5 ^ j : ℤ)) : ℚ) := by
      push_cast
      rw [mul_sub, ← pow_add, ← mul_pow]
      congr 2
      · congr 1; omega
      · norm_num
    rw [e, abs_mul, abs_of_pos (by positivity : (0 : ℚ) < 2 ^ j)]
    refine le_mul_of_one_le_right (by positivity) ?_
    have hne : (2 ^ (n - j) - 5 ^ j : ℤ) ≠ 0 := by
      intro hc
      have h5 : (2 : ℤ) ^ (n - j) = 5 ^ j := by linarith
      have h5' : (2 : ℕ) ^ (n - j) = 5 ^ j := by exact_mod_cast h5
      have d5 : 5 ∣ 2 ^ (n - j) := by rw [h5']; exact dvd_pow_self 5 hj0.ne'
      have := (Nat.prime_five).dvd_of_dvd_pow d5
      omega
    have := Int.one_le_abs hne
    exact_mod_cast this
  have hfin : (2 : ℚ) ^ j ≤ 10 ^ j * (4 / 10 ^ d) := le_trans hmul hd'
  have hpd : (10 : ℚ) ^ (j + 1) ≤ 10 ^ d := pow_le_pow_right₀ (by norm_num) (by omega)
  have : (10 : ℚ) ^ j * (4 / 10 ^ d) < 2 ^ j := by
    have h1 : (1 : ℚ) ≤ 2 ^ j := one_le_pow₀ (by norm_num)
    refine lt_of_lt_of_le ?_ h1
    rw [← mul_div_assoc, div_lt_one (by positivity)]
    rw [pow_succ] at hpd
    linarith
  linarith

theorem nearMal_abs {c : Cfg} {r : DW} (h : r.data = 10 ^ c.ed :: List.replicate (c.N - 1) 0) : |r.val c| = 10 ^ (r.exp + (c.ed : ℤ)) := by
  have hN : 0 < c.N := by have := c.three_le_N; omega
  have hd : r.data = radixLimbs c.B c.N := by rw [h, c.B_eq]; rfl
  rw [abs_val]
  unfold mant lexp
  rw [hd, radixLimbs_val hN, c.B_eq]
  push_cast
  rw [← pow_mul, ← zpow_natCast, ← zpow_add₀ (by norm_num)]
  congr 1; push_cast; ring

/-- The start value of the loops. -/
theorem agm_start {c : Cfg} {F : Flt} (h : ElemOk c F) (hN : c.N < 1793) (hd : 52 ≤ c.digits10) {n : ℕ} (h0 : 0 < n)
    (hn : 100 * n ≤ 168 * c.digits10) :
    ∃ r, ldexp c (estInv c F) F.digits10 (one c) (-(n : ℤ)) = some r ∧ Full c r ∧ |r.val c - 1 / 2 ^ n| ≤ 1 / 2 ^ n * (4 / 10 ^ c.digits10) := by
  have hi := h.hi
  have hR := h.hR
  have hdl := c.digits_le
  have h3 := c.three_le_N
  have hed := two_le_ed c
  have hsub : c.ed * (c.N - 1) = c.ed * c.N - c.ed := by rw [Nat.mul_sub, mul_one]
  have hpl : c.ed * (c.N + 5) = c.ed * c.N + 5 * c.ed := by ring
  have hbig : c.digits10 + 8 * c.ed + 10 < c.maxExp := by omega
  have h2d : (2 : ℚ) ^ n ≤ 10 ^ c.digits10 := by
    have : ((2 : ℚ) ^ n) ^ 3 ≤ (10 ^ c.digits10) ^ 3 := by
      calc ((2 : ℚ) ^ n) ^ 3 = 2 ^ (3 * n) := by rw [← pow_mul, mul_comm]
        _ ≤ 2 ^ (9 * c.digits10) := pow_le_pow_right₀ (by norm_num) (by omega)
        _ = 512 ^ c.digits10 := by rw [pow_mul]; norm_num
        _ ≤ 1000 ^ c.digits10 := pow_le_pow_left₀ (by norm_num) (by norm_num) _
        _ = _ := by rw [← pow_mul, mul_comm, pow_mul]; norm_num
    exact le_of_pow_le_pow_left₀ (by norm_num) (by positivity) this
  have h2n : (0 : ℚ) < 2 ^ n := by positivity
  have ho := one_val c
  obtain ⟨r, r1, r2, r3⟩ := ldexp_down h hN (one_full c) (by rw [ho]; norm_num) h0 (by omega) (by change (0 : ℤ) < _; omega)
    (le_trans h2d (by rw [← zpow_natCast]; exact zpow_le_zpow_right₀ (by norm_num) (by omega)))
    (by
      rw [ho, abs_of_pos (by positivity)]
      calc (10 : ℚ) ^ (-(c.maxExp : ℤ) + 4 * c.ed + 3) ≤ 10 ^ (-(c.digits10 : ℤ)) := zpow_le_zpow_right₀ (by norm_num) (by omega)
        _ = 1 / 10 ^ c.digits10 := by rw [zpow_neg, zpow_natCast, one_div]
        _ ≤ _ := one_div_le_one_div_of_le h2n h2d)
  rw [ho, abs_of_pos (by positivity : (0 : ℚ) < 1 / 2 ^ n)] at r3
  have hθ : 2 * epsD c + (3 * (n : ℚ) + 7) * mulEps c ≤ 4 / 10 ^ c.digits10 := by
    have hε : epsD c = 1 / 10 ^ c.digits10 := by unfold epsD; rw [zpow_neg, zpow_natCast, one_div]
    have hμ : mulEps c = 1 / 10 ^ c.digits10 * (1 / 10 ^ (2 * c.ed)) := by unfold mulEps; rw [pow_add]; field_simp
    rw [hε, hμ]
    have hs : (3 * (n : ℚ) + 7) ≤ 2 * 10 ^ (2 * c.ed) := by
      have : 3 * n + 7 ≤ 2 * 10 ^ (2 * c.ed) := by
        cases hL : c.L
        · have he : c.ed = 2 := by unfold Cfg.ed; rw [hL]; rfl
          rw [he] at hdl ⊢
          norm_num; omega
        · have he : c.ed = 4 := by unfold Cfg.ed; rw [hL]; rfl
          rw [he]; norm_num; omega
        · have he : c.ed = 8 := by unfold Cfg.ed; rw [hL]; rfl
          rw [he]; norm_num; omega
      exact_mod_cast this
    have e : (0 : ℚ) < 1 / 10 ^ c.digits10 := by positivity
    have : (3 * (n : ℚ) + 7) * (1 / 10 ^ c.digits10 * (1 / 10 ^ (2 * c.ed))) ≤ 2 * (1 / 10 ^ c.digits10) := by
      calc (3 * (n : ℚ) + 7) * (1 / 10 ^ c.digits10 * (1 / 10 ^ (2 * c.ed))) ≤ 2 * 10 ^ (2 * c.ed) * (1 / 10 ^ c.digits10 * (1 / 10 ^ (2 * c.ed))) := by gcongr
        _ = _ := by field_simp
    rw [show (4 : ℚ) / 10 ^ c.digits10 = 4 * (1 / 10 ^ c.digits10) by ring]
    linarith
  have r4 : |r.val c - 1 / 2 ^ n| ≤ 1 / 2 ^ n * (4 / 10 ^ c.digits10) := le_trans r3 (mul_le_mul_of_nonneg_left hθ (by positivity))
  refine ⟨r, r1, ?_, r4⟩
  rcases r2 with hf | hm
  · exact hf
  · exfalso
    have ha := nearMal_abs hm
    have hpos : 0 < r.val c := by
      have hθ1 : (4 : ℚ) / 10 ^ c.digits10 ≤ 1 / 2 := by
        rw [div_le_div_iff₀ (by positivity) (by norm_num)]
        calc (4 : ℚ) * 2 ≤ 1 * 10 ^ 1 := by norm_num
          _ ≤ 1 * 10 ^ c.digits10 := by gcongr <;> first | omega | norm_num
      have := (abs_le.mp r4).1
      have h5 : (1 : ℚ) / 2 ^ n * (4 / 10 ^ c.digits10) ≤ 1 / 2 ^ n * (1 / 2) := mul_le_mul_of_nonneg_left hθ1 (by positivity)
      have : (0 : ℚ) < 1 / 2 ^ n := by positivity
      linarith
    rw [abs_of_pos hpos] at ha
    rw [ha] at r4
    exact two_pow_off_ten h0 hd hn r4

/-- π/s against E. -/
theorem agm_quot {E s p x κ ρ μ : ℝ} (hE : 0 < E) (hs : 0 < s) (hρ0 : 0 ≤ ρ) (hρ : ρ ≤ 1 / 1000) (hμ0 : 0 ≤ μ) (hμ : μ ≤ 1 / 1000)
    (hκ0 : 0 ≤ κ) (hκ : κ ≤ 1 / 1000) (h1 : |E * s - π| ≤ π * ρ) (h2 : |p - π| ≤ κ) (h3 : |x - p / s| ≤ |p / s| * (6 * μ)) :
    |x - E| ≤ E * (34 / 100 * κ + 102 / 100 * ρ + 7 * μ) := by
  have hπ := Real.pi_gt_three
  obtain ⟨a1, a2⟩ := abs_le.mp h1
  obtain ⟨b1, b2⟩ := abs_le.mp h2
  have hp : 0 < p := by linarith
  have hps : 0 < p / s := by positivity
  rw [abs_of_pos hps] at h3
  obtain ⟨c1, c2⟩ := abs_le.mp h3
  -- p/s = E·(p/(E s))
  obtain ⟨q, hq⟩ : ∃ q, q = p / (E * s) := ⟨_, rfl⟩
  have hEs : 0 < E * s := by positivity
  have e : p / s = E * q := by rw [hq]; field_simp
  have hqe : q * (E * s) = p := by rw [hq]; field_simp
  have πρ : π * ρ ≤ π * (1 / 1000) := mul_le_mul_of_nonneg_left hρ (by linarith)
  have πρ0 : 0 ≤ π * ρ := by positivity
  have q1 : q ≤ 1 + 334 / 1000 * κ + 101 / 100 * ρ := by
    by_contra hc
    push Not at hc
    have t1 : (1 + 334 / 1000 * κ + 101 / 100 * ρ) * (E * s) < q * (E * s) := mul_lt_mul_of_pos_right hc hEs
    have t2 : (1 + 334 / 1000 * κ + 101 / 100 * ρ) * (π - π * ρ) ≤ (1 + 334 / 1000 * κ + 101 / 100 * ρ) * (E * s) :=
      mul_le_mul_of_nonneg_left (by linarith) (by positivity)
    have t3 : κ * 3 ≤ κ * π := mul_le_mul_of_nonneg_left hπ.le hκ0
    have t4 : κ * (π * ρ) ≤ κ * (π * (1 / 1000)) := mul_le_mul_of_nonneg_left πρ hκ0
    have t5 : π * ρ * ρ ≤ π * ρ * (1 / 1000) := mul_le_mul_of_nonneg_left hρ πρ0
    have t6 : κ * π * (1 - 1 / 1000) ≥ κ * 3 * (1 - 1 / 1000) := by linarith
    linarith
  have q2 : 1 - 334 / 1000 * κ - 101 / 100 * ρ ≤ q := by
    by_contra hc
    push Not at hc
    have t1 : q * (E * s) < (1 - 334 / 1000 * κ - 101 / 100 * ρ) * (E * s) := mul_lt_mul_of_pos_right hc hEs
    have t2 : (1 - 334 / 1000 * κ - 101 / 100 * ρ) * (E * s) ≤ (1 - 334 / 1000 * κ - 101 / 100 * ρ) * (π + π * ρ) :=
      mul_le_mul_of_nonneg_left (by linarith) (by linarith)
    have t3 : κ * 3 ≤ κ * π := mul_le_mul_of_nonneg_left hπ.le hκ0
    have t5 : 0 ≤ π * ρ * ρ := by positivity
    have t6 : 0 ≤ κ * (π * ρ) := by positivity
    linarith
  rw [e] at c1 c2
  have hq0 : 0 < q := by linarith
  have hq2 : q ≤ 101 / 100 := by linarith
  have m1 : q * (6 * μ) ≤ 101 / 100 * (6 * μ) := mul_le_mul_of_nonneg_right hq2 (by linarith)
  have k1 : E * (q + q * (6 * μ)) ≤ E * (1 + (34 / 100 * κ + 102 / 100 * ρ + 7 * μ)) := mul_le_mul_of_nonneg_left (by linarith) hE.le
  have k2 : E * (1 - (34 / 100 * κ + 102 / 100 * ρ + 7 * μ)) ≤ E * (q - q * (6 * μ)) := mul_le_mul_of_nonneg_left (by linarith) hE.le
  rw [abs_le]
  constructor <;> linarith

/-- |log(1+η)| ≤ 2|η|. -/
theorem log_one_add_abs {η : ℝ} (h : |η| ≤ 1 / 2) : |log (1 + η)| ≤ 2 * |η| := by
  obtain ⟨h1, h2⟩ := abs_le.mp h
  have p : 0 < 1 + η := by linarith
  have u := Real.log_le_sub_one_of_pos p
  have l := Real.one_sub_inv_le_log_of_pos p
  have hinv : 1 - (1 + η)⁻¹ = η / (1 + η) := by field_simp; ring
  rw [hinv] at l
  have ha := abs_nonneg η
  have l2 : -(2 * |η|) ≤ η / (1 + η) := by
    rw [le_div_iff₀ p]
    have k1 : 2 * |η| * (1 / 2) ≤ 2 * |η| * (1 + η) := mul_le_mul_of_nonneg_left (by linarith) (by linarith)
    linarith [neg_abs_le η]
  rw [abs_le]
  exact ⟨by linarith, by linarith [le_abs_self η]⟩

/-- The integral at the start of `calc_ln_two`. -/
theorem ell_start {m d : ℕ} {b : ℝ} (hd : 52 ≤ d) (hm : 10 * d ≤ 6 * m + 6) (hb : |b - 4 / 2 ^ m| ≤ 4 / 2 ^ m * (4 / 10 ^ d)) :
    0 < b ∧ b ≤ 1 / 4 ∧ m * log 2 - 8 / 10 ^ d ≤ ell 1 b ∧ ell 1 b ≤ m * log 2 + 8 / 10 ^ d + 1602 / 100 / 10 ^ d * (m * log 2 + 11 / 10) := by
  obtain ⟨e, he⟩ : ∃ e : ℝ, e = 1 / 10 ^ d := ⟨_, rfl⟩
  have e0 : 0 < e := by rw [he]; positivity
  have e1 : e ≤ 1 / 10 ^ 52 := by rw [he]; exact one_div_le_one_div_of_le (by positivity) (pow_le_pow_right₀ (by norm_num) hd)
  have e2 : e ≤ 1 / 10 ^ 6 := le_trans e1 (by norm_num)
  have x4 : (4 : ℝ) / 10 ^ d = 4 * e := by rw [he]; ring
  have x8 : (8 : ℝ) / 10 ^ d = 8 * e := by rw [he]; ring
  have x16 : (1602 : ℝ) / 100 / 10 ^ d = 1602 / 100 * e := by rw [he]; ring
  rw [x4] at hb
  rw [x8, x16]
  have hz : (0 : ℝ) < 4 / 2 ^ m := by positivity
  obtain ⟨η, hη⟩ : ∃ η, η = b / (4 / 2 ^ m) - 1 := ⟨_, rfl⟩
  have hbη : b = 4 / 2 ^ m * (1 + η) := by rw [hη]; field_simp; ring
  have hηa : |η| ≤ 4 * e := by
    have : b - 4 / 2 ^ m = 4 / 2 ^ m * η := by rw [hbη]; ring
    rw [this, abs_mul, abs_of_pos hz] at hb
    exact le_of_mul_le_mul_left hb hz
  obtain ⟨n1, n2⟩ := abs_le.mp hηa
  have hb0 : 0 < b := by rw [hbη]; exact mul_pos hz (by linarith)
  have h4m := ten_le_four hm
  have hm86 : 86 ≤ m := by omega
  have hsq : (4 / 2 ^ m : ℝ) ^ 2 ≤ 64 * e := by
    have : (4 / 2 ^ m : ℝ) ^ 2 = 64 * (1 / 4 ^ (m + 1)) := by
      rw [div_pow, ← pow_mul, mul_comm m 2, pow_mul, pow_succ]; norm_num; ring
    rw [this, he]
    gcongr
  have hb4 : b ≤ 1 / 4 := by
    have h2m : (2 : ℝ) ^ 86 ≤ 2 ^ m := pow_le_pow_right₀ (by norm_num) hm86
    have : (4 : ℝ) / 2 ^ m ≤ 4 / 2 ^ 86 := by gcongr
    have h3 : (4 : ℝ) / 2 ^ m * (1 + η) ≤ 4 / 2 ^ 86 * 2 := mul_le_mul this (by linarith) (by linarith) (by positivity)
    rw [hbη]
    exact le_trans h3 (by norm_num)
  obtain ⟨l1, l2⟩ := ell_log hb0 hb4
  have hlog : log (4 / b) = m * log 2 - log (1 + η) := by
    have : 4 / b = 2 ^ m / (1 + η) := by
      rw [hbη]; have : 1 + η ≠ 0 := by linarith
      field_simp
    rw [this, Real.log_div (by positivity) (by linarith), Real.log_pow]
  obtain ⟨g1, g2⟩ := abs_le.mp (log_one_add_abs (η := η) (by linarith))
  rw [hlog] at l1 l2
  have hbb : b ^ 2 / 4 ≤ 1602 / 100 * e := by
    rw [hbη, mul_pow]
    have : (1 + η) ^ 2 ≤ 1 + 1 / 1000 := by nlinarith
    have : (4 / 2 ^ m : ℝ) ^ 2 * (1 + η) ^ 2 ≤ 64 * e * (1 + 1 / 1000) := mul_le_mul hsq this (by positivity) (by positivity)
    linarith
  refine ⟨hb0, hb4, by linarith, ?_⟩
  have hL := Real.log_two_gt_d9
  have hmL : 0 ≤ (m : ℝ) * log 2 := by positivity
  have t1 : b ^ 2 / 4 * (m * log 2 - log (1 + η) + 1) ≤ 1602 / 100 * e * (m * log 2 + 11 / 10) :=
    mul_le_mul hbb (by linarith) (by linarith) (by positivity)
  linarith

end WD
