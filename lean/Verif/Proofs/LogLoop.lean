import Verif.Proofs.Ldexp
import Verif.Props.Radix
/-
  The Taylor loop of `log`: sum of (-1)^(k+1) y^k / k for |y| ≤ 0.82.
-/
namespace WD
open DW Finset

/-- Partial sum of the series of log(1+Y) with n terms. -/
def tlogSum (Y : ℚ) (n : ℕ) : ℚ := ∑ k ∈ range n, (-1) ^ k * Y ^ (k + 1) / ((k + 1 : ℕ) : ℚ)

theorem tlogSum_succ (Y : ℚ) (n : ℕ) : tlogSum Y (n + 1) = tlogSum Y n + (-1) ^ n * Y ^ (n + 1) / ((n + 1 : ℕ) : ℚ) := by
  unfold tlogSum; rw [sum_range_succ]

theorem tlogSum_le {Y : ℚ} (hY : |Y| ≤ 83 / 100) (n : ℕ) : |tlogSum Y n| ≤ 5 * (1 - (83 / 100) ^ n) := by
  induction n with
  | zero => simp [tlogSum]
  | succ n ih =>
    rw [tlogSum_succ]
    have h1 := abs_add_le (tlogSum Y n) ((-1) ^ n * Y ^ (n + 1) / ((n + 1 : ℕ) : ℚ))
    have h2 : |(-1) ^ n * Y ^ (n + 1) / ((n + 1 : ℕ) : ℚ)| ≤ (83 / 100) ^ (n + 1) := by
      rw [abs_div, abs_mul, abs_pow, abs_pow, abs_neg, abs_one, one_pow, one_mul, Nat.abs_cast]
      have h3 : |Y| ^ (n + 1) ≤ (83 / 100) ^ (n + 1) := pow_le_pow_left₀ (abs_nonneg _) hY _
      have h4 : (1 : ℚ) ≤ ((n + 1 : ℕ) : ℚ) := by exact_mod_cast Nat.succ_le_succ (Nat.zero_le n)
      refine le_trans (div_le_self (by positivity) h4) h3
    have h5 : (83 / 100 : ℚ) ^ (n + 1) = (83 / 100) ^ n * (83 / 100) := pow_succ _ _
    have h6 : (0 : ℚ) < (83 / 100) ^ n := by positivity
    rw [h5] at h2 ⊢
    linarith

theorem nb_le (n : ℕ) : (n : ℚ) * (83 / 100) ^ n ≤ 2 := by
  have base : ∀ m : ℕ, ((m + 5 : ℕ) : ℚ) * (83 / 100) ^ (m + 5) ≤ 2 := by
    intro m
    induction m with
    | zero => norm_num
    | succ m ih =>
      have e : (83 / 100 : ℚ) ^ (m + 1 + 5) = (83 / 100) ^ (m + 5) * (83 / 100) := by rw [← pow_succ]
      rw [e]
      have hp : (0 : ℚ) < (83 / 100) ^ (m + 5) := by positivity
      have hm : (0 : ℚ) ≤ m := Nat.cast_nonneg _
      push_cast at ih ⊢
      have : ((m : ℚ) + 1 + 5) * (83 / 100) ≤ m + 5 := by linarith
      have := mul_le_mul_of_nonneg_right this hp.le
      linarith
  rcases Nat.lt_or_ge n 5 with h | h
  · have : n = 0 ∨ n = 1 ∨ n = 2 ∨ n = 3 ∨ n = 4 := by omega
    rcases this with rfl | rfl | rfl | rfl | rfl <;> norm_num
  · obtain ⟨m, rfl⟩ : ∃ m, n = m + 5 := ⟨n - 5, by omega⟩
    exact base m

theorem nearOne_gt {c : Cfg} : 9 / 10 < nearOne c := by
  unfold nearOne
  have h1 := two_le_ed c
  have h2 := c.three_le_N
  have : (10 : ℚ) ^ (-((c.ed : ℤ) * c.N)) ≤ 10 ^ (-2 : ℤ) := by
    apply zpow_le_zpow_right₀ (by norm_num)
    have : (2 : ℤ) * 1 ≤ c.ed * c.N := mul_le_mul (by omega) (by omega) (by norm_num) (by omega)
    omega
  rw [show (10 : ℚ) ^ (-2 : ℤ) = 1 / 100 by norm_num] at this
  linarith

/-- Division by a small integer, through the limb loop or through the general division. -/
theorem divSmall {c : Cfg} {F : Flt} (h : ElemOk c F) (hN : c.N < 1793) {u : DW} (hu : Full c u) {n : ℕ} (h0 : 0 < n) (hn : n ≤ 10000)
    (hb : |u.val c| ≤ 9 / 10) (hl : c.B ≤ n → (10 : ℚ) ^ (-((c.digits10 : ℤ) + 5)) ≤ |u.val c|) :
    Full c (divULL c (estInv c F) F.digits10 u n) ∧
    |(divULL c (estInv c F) F.digits10 u n).val c - u.val c / n| ≤ 2 * epsD c * (|u.val c| / n) + flushC c := by
  by_cases hB : n < c.B
  · exact divU_op hu h0 hB (by have := h.lo; omega)
  · have hl := hl (by omega)
    have hR := h.hR
    have h2 := two_le_ed c
    have h8 := ed_le8 c
    have hM := h.hM
    have hu0 : u.val c ≠ 0 := abs_pos.mp (lt_of_lt_of_le (p10_pos _) hl)
    have huz := isZero_false_of_val hu.toWF hu0
    have e1 : divULL c (estInv c F) F.digits10 u n = divAssign c (estInv c F) F.digits10 u (ofUnsigned c 64 n) := by
      unfold divULL
      rw [if_neg (by omega), if_neg (by rw [huz]; simp), if_pos (by omega)]
    have hcap : n < 10 ^ (c.ed * c.N) := by
      have : c.B ^ c.N = 10 ^ (c.ed * c.N) := by rw [c.B_eq, pow_mul]
      rw [← this]; exact ten_cap (by omega) h.lo
    obtain ⟨o1, o2, o3, o4, -⟩ := ofU64_divisor (c := c) h0 (by omega) hcap
    have hue : u.exp < 1 := by
      have := lt_of_le_of_lt (hu.toWF.abs_ge huz) (by linarith : |u.val c| < 1)
      rw [← zpow_zero (10 : ℚ), zpow_lt_zpow_iff_right₀ (by norm_num)] at this
      omega
    have hue2 : -((c.digits10 : ℤ) + 5) < u.exp + c.ed := by
      have := lt_of_le_of_lt hl hu.toWF.abs_lt
      rwa [zpow_lt_zpow_iff_right₀ (by norm_num)] at this
    have o5 : (ofUnsigned c 64 n).exp ≤ 4 := by
      have hp : (0 : ℚ) < (n : ℚ) := by exact_mod_cast h0
      have h1 := o1.toWF.abs_ge (isZero_false_of_val o1.toWF (by rw [o2]; exact hp.ne'))
      rw [o2, abs_of_pos hp] at h1
      have : (10 : ℚ) ^ (ofUnsigned c 64 n).exp < 10 ^ (5 : ℤ) := by
        refine lt_of_le_of_lt h1 ?_
        have : (n : ℚ) ≤ 10000 := by exact_mod_cast hn
        norm_num; linarith
      rw [zpow_lt_zpow_iff_right₀ (by norm_num)] at this
      omega
    have hdig := c.digits_le
    have hR' : c.ed * (c.N + 5) = c.ed * (c.N - 1) + 6 * c.ed := by
      obtain ⟨k, hk⟩ : ∃ k, c.N = k + 1 := ⟨c.N - 1, by have := c.three_le_N; omega⟩
      rw [hk, Nat.add_sub_cancel]; ring
    obtain ⟨-, q2, q3, -⟩ := div_accuracy_any c F h.hF h.hK u (ofUnsigned c 64 n) hu o1 hu0 (by rw [o2]; exact_mod_cast h0.ne') h.hok
      (by omega) (by omega) (by omega) (by omega) (by omega)
    have q3 := q3 (by intro h; rw [h] at hb; norm_num at hb) (by intro h; rw [h] at hb; have := nearOne_gt (c := c); linarith)
    rw [← e1] at q2 q3
    rw [o2] at q2
    refine ⟨q3, ?_⟩
    have e6 : (6 : ℚ) / 10 ^ (c.digits10 + 2 * c.ed) = 6 * mulEps c := by unfold mulEps; ring
    have e : |u.val c / (n : ℚ)| = |u.val c| / n := by rw [abs_div, Nat.abs_cast]
    rw [e, e6] at q2
    have hμ := mulEps_le_epsD c
    have hε := epsD_pos c
    have hφ := flushC_pos c
    have hP : 0 ≤ |u.val c| / n := by positivity
    have : |u.val c| / n * (6 * mulEps c) ≤ |u.val c| / n * (2 * epsD c) := by
      apply mul_le_mul_of_nonneg_left _ hP
      norm_num at hμ; linarith
    linarith

/-- One multiplication of the power of y. -/
theorem pow_step {P Y yn m μ φ k q : ℚ} (hY : |Y| ≤ 83 / 100) (hP : |P| ≤ q) (hq : 0 ≤ q) (hμ0 : 0 ≤ μ) (hμ : μ ≤ 1 / 1000) (hφ0 : 0 ≤ φ)
    (hk0 : 0 ≤ k) (hk : 3 * μ * k ≤ 1 / 1000) (he : |yn - P| ≤ 3 * μ * k * q + 6 * φ) (hm : |m - yn * Y| ≤ 2 * μ * (|yn| * |Y|) + φ) :
    |m - P * Y| ≤ 3 * μ * (k + 1) * (q * (83 / 100)) + 6 * φ := by
  have h1 : |m - P * Y| ≤ |m - yn * Y| + |yn - P| * |Y| := by
    have := abs_add_le (m - yn * Y) ((yn - P) * Y)
    rwa [abs_mul, show m - yn * Y + (yn - P) * Y = m - P * Y by ring] at this
  have h2 : |yn| ≤ q + (3 * μ * k * q + 6 * φ) := by
    have := abs_add_le P (yn - P)
    rw [add_sub_cancel] at this
    linarith
  have h3 : |yn| * |Y| ≤ (q + (3 * μ * k * q + 6 * φ)) * (83 / 100) := mul_le_mul h2 hY (abs_nonneg _) (by positivity)
  have h4 : |yn - P| * |Y| ≤ (3 * μ * k * q + 6 * φ) * (83 / 100) := mul_le_mul he hY (abs_nonneg _) (by positivity)
  have h5 : 2 * μ * (|yn| * |Y|) ≤ 2 * μ * ((q + (3 * μ * k * q + 6 * φ)) * (83 / 100)) := mul_le_mul_of_nonneg_left h3 (by positivity)
  have h6 : μ * (3 * μ * k * q) ≤ μ * (1 / 1000 * q) := by
    apply mul_le_mul_of_nonneg_left _ hμ0
    exact mul_le_mul_of_nonneg_right hk hq
  have h7 : μ * φ ≤ 1 / 1000 * φ := mul_le_mul_of_nonneg_right hμ hφ0
  have h8 : 0 ≤ μ * q := by positivity
  nlinarith

/-- One term of the sum. -/
theorem sum_term {P yn t μ ε φ i q : ℚ} (hP : |P| ≤ q) (hq : 0 ≤ q) (hμ0 : 0 ≤ μ) (hμ : μ ≤ ε / 10 ^ 4) (hε0 : 0 ≤ ε)
    (hε : ε ≤ 1 / 1000) (hφ0 : 0 ≤ φ) (hi : 2 ≤ i) (hk : 3 * μ * i ≤ 1 / 1000) (he : |yn - P| ≤ 3 * μ * i * q + 6 * φ)
    (ht : |t - yn / i| ≤ 2 * ε * (|yn| / i) + φ) :
    |t - P / i| ≤ 102 / 100 * ε * q + 5 * φ := by
  have hi0 : 0 < i := by linarith
  have h1 : |t - P / i| ≤ |t - yn / i| + |yn - P| / i := by
    have := abs_add_le (t - yn / i) ((yn - P) / i)
    rwa [abs_div, abs_of_pos hi0, show t - yn / i + (yn - P) / i = t - P / i by ring] at this
  have h2 : |yn| ≤ q + (3 * μ * i * q + 6 * φ) := by
    have := abs_add_le P (yn - P)
    rw [add_sub_cancel] at this
    linarith
  have h3 : 3 * μ * i * q ≤ 1 / 1000 * q := mul_le_mul_of_nonneg_right hk hq
  have h4 : |yn| / i ≤ (1001 / 1000 * q + 6 * φ) / 2 := by
    apply div_le_div₀ (by positivity) (by linarith) (by norm_num) hi
  have h5 : 2 * ε * (|yn| / i) ≤ 2 * ε * ((1001 / 1000 * q + 6 * φ) / 2) := mul_le_mul_of_nonneg_left h4 (by positivity)
  have h6 : |yn - P| / i ≤ 3 * μ * q + 3 * φ := by
    rw [div_le_iff₀ hi0]
    have : φ * 2 ≤ φ * i := mul_le_mul_of_nonneg_left hi hφ0
    linarith
  have h7 : ε * φ ≤ 1 / 1000 * φ := mul_le_mul_of_nonneg_right hε hφ0
  have h8 : μ * q ≤ ε / 10 ^ 4 * q := mul_le_mul_of_nonneg_right hμ hq
  have h9 : 0 ≤ ε * q := by positivity
  norm_num at h8
  linarith

/-- The state before index i: yn approximates y^(i-1), sum the partial sum of i-1 terms. -/
structure LogInv (c : Cfg) (Y : ℚ) (i : ℕ) (yn sum : DW) (neg : Bool) : Prop where
  two : 2 ≤ i
  fy : Full c yn
  fs : Full c sum
  ng : neg = decide (i % 2 = 0)
  ey : |yn.val c - Y ^ (i - 1)| ≤ 3 * mulEps c * ((i - 1 : ℕ) : ℚ) * (83 / 100) ^ (i - 1) + 6 * flushC c
  es : |sum.val c - tlogSum Y (i - 1)| ≤ 6 * epsD c * (1 - (83 / 100) ^ i) + (7 * mulEps c + 5 * flushC c) * i

set_option maxHeartbeats 1000000 in
theorem logLoop_spec {c : Cfg} {F : Flt} (h : ElemOk c F) (hN : c.N < 1793) {y : DW} (hy : Full c y) (hy1 : -(c.maxExp : ℤ) < y.exp)
    (hy2 : y.exp < c.maxExp) (hY : |y.val c| ≤ 83 / 100) :
    ∀ (fuel i : ℕ) (yn sum : DW) (neg : Bool), LogInv c (y.val c) i yn sum neg → i + fuel = 10000 →
      let r := logLoop c (estInv c F) F.digits10 ((c.digits10 : ℤ) + 5) y fuel i yn sum neg
      Full c r ∧ ∃ m, 5 ≤ m ∧ m ≤ 10000 ∧ |r.val c - tlogSum (y.val c) (m - 1)| ≤ 131 / 10 * epsD c ∧
        (|y.val c ^ m| ≤ epsD c / 1000 ∨ m = 10000) := by
  have hφ0 := flushC_pos c
  have hM := h.hM
  have hφ := flushC_le hM
  have hμ0 := mulEps_pos c
  have hμ := mulEps_le_epsD c
  have hμ20 := mulEps_le20 h.lo
  have hε0 := epsD_pos c
  have hε := epsD_le h.lo
  have h2 := two_le_ed c
  have esB : ∀ i : ℕ, 2 ≤ i → i ≤ 10000 → 6 * epsD c * (1 - (83 / 100) ^ i) + (7 * mulEps c + 5 * flushC c) * i ≤ 131 / 10 * epsD c := by
    intro i _ hi
    have hi' : (i : ℚ) ≤ 10000 := by exact_mod_cast hi
    have b1 : (7 * mulEps c + 5 * flushC c) * i ≤ (7 * mulEps c + 5 * flushC c) * 10000 := mul_le_mul_of_nonneg_left hi' (by positivity)
    have b2 : 0 ≤ epsD c * (83 / 100) ^ i := by positivity
    norm_num at hμ hφ
    linarith
  intro fuel
  induction fuel with
  | zero =>
    intro i yn sum neg hi hn
    exact ⟨hi.fs, i, by omega, by omega, hi.es.trans (esB i hi.two (by omega)), Or.inr (by omega)⟩
  | succ fuel ih =>
    intro i yn sum neg hi hn
    have hi2 := hi.two
    obtain ⟨k, rfl⟩ : ∃ k, i = k + 1 := ⟨i - 1, by omega⟩
    have hey := hi.ey
    have hes := hi.es
    rw [Nat.add_sub_cancel] at hey hes
    have hk' : (k : ℚ) ≤ 10000 := by exact_mod_cast (by omega : k ≤ 10000)
    have hk0 : (0 : ℚ) ≤ k := Nat.cast_nonneg _
    have hμk : 3 * mulEps c * ((k : ℚ) + 1) ≤ 1 / 1000 := by
      have : mulEps c * ((k : ℚ) + 1) ≤ 1 / 10 ^ 20 * 10001 := mul_le_mul hμ20 (by linarith) (by linarith) (by norm_num)
      norm_num at this; linarith
    have hPle : |y.val c ^ k| ≤ (83 / 100) ^ k := by rw [abs_pow]; exact pow_le_pow_left₀ (abs_nonneg _) hY _
    have hq0 : (0 : ℚ) < (83 / 100) ^ k := by positivity
    have hq1 : (83 / 100 : ℚ) ^ k ≤ 1 := pow_le_one₀ (by norm_num) (by norm_num)
    obtain ⟨m1, m2⟩ := mul_op hi.fy hy h.mulOk h.hE (by omega) hy1 hy2 (by
      intro n1 n2
      have a1 := hi.fy.toWF.abs_ge (isZero_false_of_val hi.fy.toWF n1)
      have a2 := hy.toWF.abs_ge (isZero_false_of_val hy.toWF n2)
      have a3 : |yn.val c| ≤ 2 := by
        have b := abs_add_le (y.val c ^ k) (yn.val c - y.val c ^ k)
        rw [add_sub_cancel] at b
        have b3 : 3 * mulEps c * (k : ℚ) * (83 / 100) ^ k ≤ 1 / 1000 * 1 := mul_le_mul (by linarith) hq1 hq0.le (by norm_num)
        norm_num at hφ hε
        linarith
      have a4 : (10 : ℚ) ^ (yn.exp + y.exp) < 10 ^ (1 : ℤ) := by
        rw [zpow_add₀ (by norm_num), zpow_one]
        calc (10 : ℚ) ^ yn.exp * 10 ^ y.exp ≤ 2 * 1 := mul_le_mul (a1.trans a3) (by linarith) (by positivity) (by norm_num)
          _ < 10 := by norm_num
      rw [zpow_lt_zpow_iff_right₀ (by norm_num)] at a4
      omega)
    have hps := pow_step hY hPle hq0.le hμ0.le (by norm_num at hμ20; linarith) hφ0.le hk0 (by linarith) hey m2
    have hpow : y.val c ^ k * y.val c = y.val c ^ (k + 1) := (pow_succ _ _).symm
    have hqs : (83 / 100 : ℚ) ^ k * (83 / 100) = (83 / 100) ^ (k + 1) := (pow_succ _ _).symm
    rw [hpow, hqs] at hps
    set yn' := mulAssign c yn y with hyn'
    have hP1 : |y.val c ^ (k + 1)| ≤ (83 / 100) ^ (k + 1) := by rw [abs_pow]; exact pow_le_pow_left₀ (abs_nonneg _) hY _
    have hq10 : (0 : ℚ) < (83 / 100) ^ (k + 1) := by positivity
    have hun : logLoop c (estInv c F) F.digits10 ((c.digits10 : ℤ) + 5) y (fuel + 1) (k + 1) yn sum neg =
        if k + 1 > 4 ∧ (yn'.isZero ∨ max 0 (-ilogb yn') > (c.digits10 : ℤ) + 5) then sum
        else logLoop c (estInv c F) F.digits10 ((c.digits10 : ℤ) + 5) y fuel (k + 1 + 1) yn'
          (if neg then subAssign c sum (divULL c (estInv c F) F.digits10 yn' (k + 1))
           else addAssign c sum (divULL c (estInv c F) F.digits10 yn' (k + 1))) (!neg) := rfl
    rw [hun]
    have h105 : (10 : ℚ) ^ (-((c.digits10 : ℤ) + 5)) = epsD c / 10 ^ 5 := by
      unfold epsD; rw [neg_add, zpow_add₀ (by norm_num), show (10 : ℚ) ^ (-5 : ℤ) = 1 / 10 ^ 5 by norm_num]; ring
    split
    · next hbr =>
      refine ⟨hi.fs, k + 1, by omega, by omega, hes.trans (esB (k + 1) hi2 (by omega)), Or.inl ?_⟩
      have hb : |yn'.val c| ≤ epsD c / 10 ^ 5 := by
        by_cases h0 : yn'.val c = 0
        · rw [h0, abs_zero]; positivity
        · rcases hbr.2 with hz | hz
          · exact absurd (m1.toWF.isZero_iff.mp hz) h0
          · have := (ilogb_order c yn' m1.toWF h0).2
            rw [← h105]
            exact le_trans this.le (zpow_le_zpow_right₀ (by norm_num) (by omega))
      have b := abs_add_le (yn'.val c) (y.val c ^ (k + 1) - yn'.val c)
      rw [add_sub_cancel, abs_sub_comm (y.val c ^ (k + 1))] at b
      have hnb := nb_le (k + 1)
      push_cast at hnb
      have b2 : mulEps c * (((k : ℚ) + 1) * (83 / 100) ^ (k + 1)) ≤ mulEps c * 2 := mul_le_mul_of_nonneg_left hnb hμ0.le
      norm_num at hμ hφ hb
      linarith
    · next hbr =>
      apply ih _ _ _ _ _ (by omega)
      have hbig : c.B ≤ k + 1 → (10 : ℚ) ^ (-((c.digits10 : ℤ) + 5)) ≤ |yn'.val c| := by
        intro hB
        have h100 : 100 ≤ c.B := by unfold Cfg.B; cases c.L <;> decide
        have hk4 : k + 1 > 4 := by omega
        have h0 : yn'.val c ≠ 0 := fun h0 => hbr ⟨hk4, Or.inl (m1.toWF.isZero_iff.mpr h0)⟩
        have hg : -ilogb yn' ≤ (c.digits10 : ℤ) + 5 := by
          by_contra hc
          exact hbr ⟨hk4, Or.inr (by omega)⟩
        exact le_trans (zpow_le_zpow_right₀ (by norm_num) (by omega)) (ilogb_order c yn' m1.toWF h0).1
      have hq2 : (83 / 100 : ℚ) ^ (k + 1) ≤ (83 / 100) ^ 2 := pow_le_pow_of_le_one (by norm_num) (by norm_num) hi2
      have hyb : |yn'.val c| ≤ 9 / 10 := by
        have b := abs_add_le (y.val c ^ (k + 1)) (yn'.val c - y.val c ^ (k + 1))
        rw [add_sub_cancel] at b
        have b3 : 3 * mulEps c * ((k : ℚ) + 1) * (83 / 100) ^ (k + 1) ≤ 1 / 1000 * (83 / 100) ^ 2 := mul_le_mul hμk hq2 hq10.le (by norm_num)
        norm_num at hφ hε hq2 b3
        linarith
      obtain ⟨t1, t2⟩ := divSmall h hN m1 (show 0 < k + 1 by omega) (by omega) hyb hbig
      set t := divULL c (estInv c F) F.digits10 yn' (k + 1) with ht
      have hst := sum_term hP1 hq10.le hμ0.le hμ hε0.le (by norm_num at hε; linarith) hφ0.le (i := ((k + 1 : ℕ) : ℚ)) (by exact_mod_cast hi2)
        (by push_cast; exact hμk) (by push_cast; exact hps) t2
      have hSle := tlogSum_le hY k
      have hsb : |sum.val c| + |t.val c| ≤ 7 := by
        have b1 := abs_add_le (tlogSum (y.val c) k) (sum.val c - tlogSum (y.val c) k)
        rw [add_sub_cancel] at b1
        have b2 := esB (k + 1) hi2 (by omega)
        have b3 := abs_add_le (y.val c ^ (k + 1) / ((k + 1 : ℕ) : ℚ)) (t.val c - y.val c ^ (k + 1) / ((k + 1 : ℕ) : ℚ))
        rw [add_sub_cancel] at b3
        have b4 : |y.val c ^ (k + 1) / ((k + 1 : ℕ) : ℚ)| ≤ 1 := by
          rw [abs_div, Nat.abs_cast]
          have : (1 : ℚ) ≤ ((k + 1 : ℕ) : ℚ) := by exact_mod_cast (by omega : 1 ≤ k + 1)
          refine (div_le_self (abs_nonneg _) this).trans ?_
          norm_num at hq2; linarith
        have b5 : 102 / 100 * epsD c * (83 / 100) ^ (k + 1) ≤ 102 / 100 * (1 / 10 ^ 16) * (83 / 100) ^ 2 :=
          mul_le_mul (by linarith) hq2 hq10.le (by norm_num)
        norm_num at hφ hε b5
        linarith
      have hsucc := tlogSum_succ (y.val c) k
      -- the new sum
      have hnew : ∀ (s' : DW) (σ : ℚ), (σ = 1 ∨ σ = -1) → (-1 : ℚ) ^ k = σ →
          |s'.val c - (sum.val c + σ * t.val c)| ≤ mulEps c * (|sum.val c| + |t.val c|) →
          |s'.val c - tlogSum (y.val c) (k + 1)| ≤ 6 * epsD c * (1 - (83 / 100) ^ (k + 1 + 1)) +
            (7 * mulEps c + 5 * flushC c) * ((k + 1 + 1 : ℕ) : ℚ) := by
        intro s' σ hσ hσk hs'
        have c1 : mulEps c * (|sum.val c| + |t.val c|) ≤ mulEps c * 7 := mul_le_mul_of_nonneg_left hsb hμ0.le
        have c2 : |σ * t.val c - (-1) ^ k * y.val c ^ (k + 1) / ((k + 1 : ℕ) : ℚ)| ≤ 102 / 100 * epsD c * (83 / 100) ^ (k + 1) + 5 * flushC c := by
          rw [hσk, mul_div_assoc, ← mul_sub, abs_mul]
          have : |σ| = 1 := by rcases hσ with h | h <;> rw [h] <;> norm_num
          rw [this, one_mul]; exact hst
        have c3 := abs_le.mp hs'
        have c4 := abs_le.mp c2
        have c5 := abs_le.mp hes
        have e1 : (83 / 100 : ℚ) ^ (k + 1 + 1) = (83 / 100) ^ (k + 1) * (83 / 100) := pow_succ _ _
        have c6 : 0 ≤ epsD c * (83 / 100) ^ (k + 1) := by positivity
        rw [hsucc, e1]
        push_cast at c5 c4 ⊢
        rw [abs_le]
        constructor <;> linarith [c3.1, c3.2, c4.1, c4.2, c5.1, c5.2]
      have hpar : (!neg) = decide ((k + 1 + 1) % 2 = 0) := by
        rw [hi.ng]
        rcases Nat.mod_two_eq_zero_or_one k with hk | hk
        · have a : (k + 1) % 2 = 1 := by omega
          have b : (k + 1 + 1) % 2 = 0 := by omega
          rw [a, b]; rfl
        · have a : (k + 1) % 2 = 0 := by omega
          have b : (k + 1 + 1) % 2 = 1 := by omega
          rw [a, b]; rfl
      have hey' : |yn'.val c - y.val c ^ (k + 1 + 1 - 1)| ≤ 3 * mulEps c * ((k + 1 + 1 - 1 : ℕ) : ℚ) * (83 / 100) ^ (k + 1 + 1 - 1) + 6 * flushC c := by
        rw [Nat.add_sub_cancel]; push_cast; exact hps
      rcases Bool.dichotomy neg with hng | hng
      · have hk : (-1 : ℚ) ^ k = 1 := by
          have := hi.ng; rw [hng] at this
          have : Even k := by
            have : ¬ (k + 1) % 2 = 0 := by simpa using this.symm
            exact Nat.even_iff.mpr (by omega)
          exact this.neg_one_pow
        obtain ⟨s1, s2, -⟩ := add_op hi.fs t1
        refine ⟨by omega, m1, ?_, hpar, hey', ?_⟩
        · rw [hng]; simpa using s1
        · rw [hng, Nat.add_sub_cancel]
          apply hnew _ 1 (Or.inl rfl) hk
          simpa using s2
      · have hk : (-1 : ℚ) ^ k = -1 := by
          have := hi.ng; rw [hng] at this
          have : Odd k := by
            have : (k + 1) % 2 = 0 := by simpa using this.symm
            exact Nat.odd_iff.mpr (by omega)
          exact this.neg_one_pow
        obtain ⟨s1, s2, -⟩ := sub_op hi.fs t1
        refine ⟨by omega, m1, ?_, hpar, hey', ?_⟩
        · rw [hng]; simpa using s1
        · rw [hng, Nat.add_sub_cancel]
          apply hnew _ (-1) (Or.inr rfl) hk
          simpa [sub_eq_add_neg] using s2

end WD
