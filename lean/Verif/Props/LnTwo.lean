import Verif.Proofs.AgmQuot
import Verif.Props.AgmBad2
import Verif.Props.Inv2
import Verif.Props.Pi
/-
  C59: accuracy of `ln_two` above 51 digits when the loop is left by `break`.
-/
namespace WD
open DW Real

/-- A finite check for `OffSquares`. -/
def offSqCheck (c : Cfg) (t q : ℚ) (j : ℤ) : Bool :=
  (c.B : ℚ) ^ (2 * j) ≤ q ∧ q < (c.B : ℚ) ^ (2 * j + 2) ∧ t ≤ |q / (c.B : ℚ) ^ (2 * j) - 1| ∧ t ≤ |4 * q / (c.B : ℚ) ^ (2 * j) - 1| ∧
    t ≤ |q / (c.B : ℚ) ^ (2 * (j + 1)) - 1| ∧ t ≤ |4 * q / (c.B : ℚ) ^ (2 * (j + 1)) - 1|

theorem offSquares_check {c : Cfg} {t q : ℚ} {j : ℤ} (ht : t ≤ 1 / 2) (h : offSqCheck c t q j = true) : OffSquares c t q := by
  simp only [offSqCheck, decide_eq_true_eq] at h
  obtain ⟨h1, h2, h3, h4, h5, h6⟩ := h
  have hB : (10 : ℚ) ≤ c.B := by
    rw [c.B_eq]; push_cast
    calc (10 : ℚ) = 10 ^ 1 := by norm_num
      _ ≤ _ := pow_le_pow_right₀ (by norm_num) (by have := two_le_ed c; omega)
  have hB0 : (0 : ℚ) < c.B := by linarith
  intro k
  rcases lt_trichotomy k j with hk | hk | hk
  · have p0 : (0 : ℚ) < (c.B : ℚ) ^ (2 * k) := by positivity
    have e : (c.B : ℚ) ^ (2 * k) * 2 ≤ q := by
      refine le_trans ?_ h1
      calc (c.B : ℚ) ^ (2 * k) * 2 ≤ (c.B : ℚ) ^ (2 * k) * c.B := by gcongr; linarith
        _ = (c.B : ℚ) ^ (2 * k + 1) := by rw [zpow_add₀ hB0.ne', zpow_one]
        _ ≤ _ := zpow_le_zpow_right₀ (by linarith) (by omega)
    have d1 : 2 ≤ q / (c.B : ℚ) ^ (2 * k) := by rw [le_div_iff₀ p0]; linarith
    have d2 : 2 ≤ 4 * q / (c.B : ℚ) ^ (2 * k) := by rw [mul_div_assoc]; linarith
    exact ⟨by rw [abs_of_nonneg (by linarith)]; linarith, by rw [abs_of_nonneg (by linarith)]; linarith⟩
  · rw [hk]; exact ⟨h3, h4⟩
  · rcases eq_or_lt_of_le (show j + 1 ≤ k by omega) with hk2 | hk2
    · rw [← hk2]; exact ⟨h5, h6⟩
    · have p0 : (0 : ℚ) < (c.B : ℚ) ^ (2 * k) := by positivity
      have e : q * 10 ≤ (c.B : ℚ) ^ (2 * k) := by
        calc q * 10 ≤ (c.B : ℚ) ^ (2 * j + 2) * c.B := mul_le_mul h2.le hB (by norm_num) (by positivity)
          _ = (c.B : ℚ) ^ (2 * j + 3) := by rw [← zpow_add_one₀ hB0.ne']; congr 1; ring
          _ ≤ _ := zpow_le_zpow_right₀ (by linarith) (by omega)
      have q0 : 0 < q := lt_of_lt_of_le (by positivity) h1
      have d1 : q / (c.B : ℚ) ^ (2 * k) ≤ 1 / 10 := by rw [div_le_iff₀ p0]; linarith
      have d0 : 0 ≤ q / (c.B : ℚ) ^ (2 * k) := by positivity
      rw [mul_div_assoc]
      exact ⟨by rw [abs_of_nonpos (by linarith)]; linarith, by rw [abs_of_nonpos (by linarith)]; linarith⟩

/-- Division by a positive integer that may or may not fit a limb. -/
theorem div_int_rel {c : Cfg} {F : Flt} (h : ElemOk c F) (hN : c.N < 1793) {x : DW} (hx : Full c x) (h0 : 0 < x.val c) {m : ℕ}
    (hm1 : 1 ≤ m) (hm2 : m < 1000000) (he1 : -(c.maxExp : ℤ) + 20 + 2 * c.ed < x.exp) (he2 : x.exp ≤ 20) :
    |(divSLL c (estInv c F) F.digits10 x m).val c - x.val c / m| ≤ x.val c * (1 / 10 ^ c.digits10 / m) := by
  have hed := two_le_ed c
  have hed8 := ed_le8 c
  have h3 := c.three_le_N
  have hlo := h.lo
  have hR := h.hR
  have hdl := c.digits_le
  have hpl : c.ed * (c.N + 5) = c.ed * c.N + 5 * c.ed := by ring
  have hsub : c.ed * (c.N - 1) = c.ed * c.N - c.ed := by rw [Nat.mul_sub, mul_one]
  have hr : divSLL c (estInv c F) F.digits10 x m = divULL c (estInv c F) F.digits10 x m := by
    unfold divSLL
    rw [castULL_nonneg (by omega) (by omega), Int.toNat_natCast]
    simp only [show ¬ ((m : ℤ) < 0) by omega, if_false]
  rw [hr]
  have hmq : (1 : ℚ) ≤ m := by exact_mod_cast hm1
  by_cases hB : m < c.B
  · obtain ⟨-, b⟩ := div_rel (est := estInv c F) (fdig := F.digits10) hx h0 hm1 hB (by omega)
    refine le_trans b ?_
    rw [mul_comm]
    refine mul_le_mul_of_nonneg_left ?_ h0.le
    unfold agmDelta
    rw [pow_add, div_div, mul_comm (10 ^ c.digits10)]
    have : (m : ℚ) ≤ 10 ^ c.ed := by have := hB.le; rw [c.B_eq] at this; exact_mod_cast this
    rw [mul_comm]
    gcongr
  · obtain ⟨a, b, e1, e2, e3⟩ := ofU64_divisor (c := c) (n := m) (by omega) (by omega)
      (lt_of_lt_of_le hm2 (by calc 1000000 = 10 ^ 6 := by norm_num
                                _ ≤ 10 ^ (c.ed * c.N) := Nat.pow_le_pow_right (by norm_num) (by nlinarith)))
    have hxz := isZero_false_of_val hx.toWF h0.ne'
    have hr2 : divULL c (estInv c F) F.digits10 x m = divAssign c (estInv c F) F.digits10 x (ofUnsigned c 64 m) := by
      unfold divULL
      simp only [hxz, Bool.false_eq_true, if_false]
      rw [if_neg (by omega), if_pos (by omega)]
    obtain ⟨-, q, -, -⟩ := div_accuracy_any c F h.hF h.hK x (ofUnsigned c 64 m) hx a h0.ne' (by rw [b]; linarith) h.hok (by omega)
      (by omega) (by omega) (by omega) (by omega)
    rw [hr2]
    rw [b] at q
    refine le_trans q.le ?_
    have hμ : (6 : ℚ) / 10 ^ (c.digits10 + 2 * c.ed) ≤ 1 / 10 ^ c.digits10 := by
      rw [pow_add, div_le_div_iff₀ (by positivity) (by positivity)]
      have : (10 : ℚ) ^ 1 ≤ 10 ^ (2 * c.ed) := pow_le_pow_right₀ (by norm_num) (by omega)
      have hp : (0 : ℚ) < 10 ^ c.digits10 := by positivity
      nlinarith
    rw [abs_of_pos (by positivity)]
    calc x.val c / m * (6 / 10 ^ (c.digits10 + 2 * c.ed)) ≤ x.val c / m * (1 / 10 ^ c.digits10) := by gcongr
      _ = _ := by ring

/-- The last steps of `calc_ln_two`: E is the integral, e = 10^-digits10, the product x is close to it and r is x/m. -/
theorem ln_two_end {E L m x r e κ δ μ : ℝ} {n : ℝ} (hm : 86 ≤ m) (hL1 : 69 / 100 ≤ L) (hL2 : L ≤ 6932 / 10000) (he0 : 0 < e) (he1 : e ≤ 1 / 10 ^ 20)
    (hκ0 : 0 ≤ κ) (hn : 0 ≤ n) (hδ0 : 0 ≤ δ) (hδe : δ ≤ e) (hμ0 : 0 ≤ μ) (hμ : 100 * μ ≤ δ)
    (h1 : m * L - 8 * e ≤ E) (h2 : E ≤ m * L + 8 * e + 1602 / 100 * e * (m * L + 11 / 10))
    (hsm : 34 / 100 * (κ * e) + 102 / 100 * ((22 / 10 * n + 2 / 10) * δ) + 7 * μ ≤ 1 / 1000)
    (hx : |x - E| ≤ E * (34 / 100 * (κ * e) + 102 / 100 * ((22 / 10 * n + 2 / 10) * δ) + 7 * μ)) (hr : |r - x / m| ≤ x * (e / m)) :
    |r - L| ≤ (13 + κ / 4) * e + 2 * n * δ := by
  have hm0 : 0 < m := by linarith
  obtain ⟨G, hG⟩ : ∃ G, G = E / m := ⟨_, rfl⟩
  obtain ⟨X, hX⟩ : ∃ X, X = x / m := ⟨_, rfl⟩
  obtain ⟨t, ht⟩ : ∃ t, t = 34 / 100 * (κ * e) + 102 / 100 * ((22 / 10 * n + 2 / 10) * δ) + 7 * μ := ⟨_, rfl⟩
  rw [← ht] at hx hsm
  have ht0 : 0 ≤ t := by rw [ht]; positivity
  have hE : E = m * G := by rw [hG]; field_simp
  have hxX : x = m * X := by rw [hX]; field_simp
  have g1 : L - 8 / 86 * e ≤ G := by
    rw [hG, le_div_iff₀ hm0]
    nlinarith
  have g2 : G ≤ L + 8 / 86 * e + 1602 / 100 * e * (L + 11 / 860) := by
    rw [hG, div_le_iff₀ hm0]
    have : (8 / 86 * e) * 86 ≤ (8 / 86 * e) * m := mul_le_mul_of_nonneg_left hm (by positivity)
    have : (1602 / 100 * e * (11 / 860)) * 86 ≤ (1602 / 100 * e * (11 / 860)) * m := mul_le_mul_of_nonneg_left hm (by positivity)
    linarith
  have k1 : 1602 / 100 * e * (L + 11 / 860) ≤ 1602 / 100 * e * (6932 / 10000 + 11 / 860) := mul_le_mul_of_nonneg_left (by linarith) (by positivity)
  have hx2 : |X - G| ≤ G * t := by
    have : X - G = (x - E) / m := by rw [hX, hG]; ring
    rw [this, abs_div, abs_of_pos hm0, div_le_iff₀ hm0]
    calc |x - E| ≤ E * t := hx
      _ = _ := by rw [hE]; ring
  have hr2 : |r - X| ≤ X * e := by
    rw [hX]; calc |r - x / m| ≤ x * (e / m) := hr
      _ = _ := by ring
  have e1 : e ≤ 1 / 1000 := le_trans he1 (by norm_num)
  have hG1 : G ≤ 694 / 1000 := by have : e ≤ 1 / 10 ^ 6 := le_trans he1 (by norm_num); linarith
  have hGt : G * t ≤ 694 / 1000 * t := mul_le_mul_of_nonneg_right hG1 ht0
  have hX1 : X ≤ 7 / 10 := by linarith [(abs_le.mp hx2).2]
  have hXe : X * e ≤ 7 / 10 * e := mul_le_mul_of_nonneg_right hX1 he0.le
  have hnδ : 0 ≤ n * δ := by positivity
  have hκe : 0 ≤ κ * e := by positivity
  have hmain : 694 / 1000 * t ≤ 237 / 1000 * (κ * e) + 16 / 10 * (n * δ) + 2 / 10 * δ := by rw [ht]; linarith
  obtain ⟨p1, p2⟩ := abs_le.mp hx2
  obtain ⟨q1, q2⟩ := abs_le.mp hr2
  rw [abs_le]
  constructor <;> linarith

/-- C59, accuracy of `ln_two` for digits10 > 51 (float or double start values, or long double with 8- or 16-bit limbs; fewer than 1793 limbs): if the
    loop ends by `break` after n further rounds, and no product handed to the square root is next to an even power of the radix
    or a quarter of one, then with a π of error at most κ·10^-digits10 the result differs from log 2 by at most
    (13 + κ/4)·10^-digits10 + 2·n·10^(-(digits10+ed)). The full property (an error of at most one unit in the last digit, for every
    configuration) is false: `ln_two_inaccurate`, `ln_two_wrong`. -/
theorem ln_two_accuracy_partial (c : Cfg) (F : Flt) (h : ElemOk c F) (sq : ℚ → ℚ) (hsq : F.IsSqrt sq)
    (hd : 52 ≤ c.digits10) (hr : 2 * (c.digits10 : ℤ) + ((c.N : ℤ) + 8) * c.ed < c.maxExp) (F32 : Flt) (hF32 : F32.IsFloat)
    (pi : DW) (hpi : Full c pi) (κ : ℝ) (hκ : κ ≤ 10 ^ 9) (hpe : |(pi.val c : ℝ) - π| ≤ κ / 10 ^ c.digits10) (r : DW) (n : ℕ)
    (hrun : calcLnTwo c (estSqrt c F sq) (estInv c F) F.digits10 F32 pi = some (r, some n))
    (hoff : ∀ b, ldexp c (estInv c F) F.digits10 (one c) (2 - lnTwoM c F32) = some b →
      ∀ p ∈ agmProducts c (estSqrt c F sq) (estInv c F) F.digits10 (agmGoal c) 128 (ofUnsigned c 32 1) b,
        OffSquares c (60 / 10 ^ F.digits10 + 320 / 10 ^ (c.digits10 + 2 * c.ed)) (p.val c)) :
    n < 128 ∧ |(r.val c : ℝ) - log 2| ≤ (13 + κ / 4) / 10 ^ c.digits10 + 2 * n / 10 ^ (c.digits10 + c.ed) := by
  have hN : c.N < 1793 := h.hok.1
  have hed := two_le_ed c
  have hed8 := ed_le8 c
  have h3 := c.three_le_N
  have hdl := c.digits_le
  have hhi := h.hi
  have hsub : c.ed * (c.N - 1) = c.ed * c.N - c.ed := by rw [Nat.mul_sub, mul_one]
  have hexp : ((c.N : ℤ) + 8) * c.ed = (c.ed * c.N : ℕ) + 8 * c.ed := by push_cast; ring
  rw [hexp] at hr
  have hA : AgmOk c := ⟨h.hok, by omega, by rw [hexp]; omega⟩
  have hR : AgmRng c c.digits10 := ⟨hA, by rw [hexp]; exact hr⟩
  obtain ⟨m1, m2⟩ := lnTwoM_bounds (c := c) hF32 hd
  obtain ⟨m, hm⟩ : ∃ m : ℕ, lnTwoM c F32 = m := ⟨(lnTwoM c F32).toNat, by omega⟩
  rw [hm] at m1 m2
  obtain ⟨b, b1, b2, b3⟩ := agm_start h hN hd (n := m - 2) (by omega) (by omega)
  have hneg : (2 : ℤ) - lnTwoM c F32 = -((m - 2 : ℕ) : ℤ) := by rw [hm]; omega
  rw [← hneg] at b1
  rw [calcLnTwo_eq b1, hm] at hrun
  have hoff' := hoff b b1
  clear hoff
  obtain ⟨o1, o2, -⟩ := of_unsigned_exact c 32 1 (by norm_num) (by norm_num)
  have o3 : (ofUnsigned c 32 1).val c = 1 := by
    have := o2 (Nat.one_lt_pow (by nlinarith) (by norm_num)); rw [this]; norm_num
  -- b as a real number
  have h2m : (2 : ℝ) ^ m = 4 * 2 ^ (m - 2) := by
    rw [show (4 : ℝ) = 2 ^ 2 by norm_num, ← pow_add]; congr 1; omega
  have bR : |(b.val c : ℝ) - 4 / 2 ^ m| ≤ 4 / 2 ^ m * (4 / 10 ^ c.digits10) := by
    have := (Rat.cast_le (K := ℝ)).mpr b3
    push_cast at this
    rw [h2m, show (4 : ℝ) / (4 * 2 ^ (m - 2)) = 1 / 2 ^ (m - 2) by field_simp]
    exact this
  obtain ⟨s1, s2, s3, s4⟩ := ell_start hd (by omega) bR
  obtain ⟨e, he⟩ : ∃ e : ℝ, e = 1 / 10 ^ c.digits10 := ⟨_, rfl⟩
  have e0 : 0 < e := by rw [he]; positivity
  have e1 : e ≤ 1 / 10 ^ 52 := by rw [he]; exact one_div_le_one_div_of_le (by positivity) (pow_le_pow_right₀ (by norm_num) hd)
  have e20 : e ≤ 1 / 10 ^ 20 := le_trans e1 (by norm_num)
  have l1 := Real.log_two_gt_d9
  have l2 := Real.log_two_lt_d9
  have mR1 : (86 : ℝ) ≤ m := by have : 86 ≤ m := by omega
                                exact_mod_cast this
  have mR2 : (m : ℝ) ≤ 24045 := by have : m ≤ 24045 := by omega
                                   exact_mod_cast this
  rw [show (8 : ℝ) / 10 ^ c.digits10 = 8 * e by rw [he]; ring] at s3 s4
  rw [show (1602 : ℝ) / 100 / 10 ^ c.digits10 = 1602 / 100 * e by rw [he]; ring] at s4
  have mL1 : 86 * (69 / 100) ≤ (m : ℝ) * log 2 := mul_le_mul mR1 (by linarith) (by norm_num) (by linarith)
  have mL2 : (m : ℝ) * log 2 ≤ 24045 * (6932 / 10000) := mul_le_mul mR2 (by linarith) (by linarith) (by norm_num)
  have hE2 : ell 1 (b.val c) ≤ 22500 := by
    have : 1602 / 100 * e * (m * log 2 + 11 / 10) ≤ 1602 / 100 * e * (24045 * (6932 / 10000) + 11 / 10) := mul_le_mul_of_nonneg_left (by linarith) (by positivity)
    have : e ≤ 1 / 10 ^ 6 := le_trans e1 (by norm_num)
    linarith
  have hE1 : 1 ≤ ell 1 (b.val c) := by
    have : e ≤ 1 / 10 ^ 6 := le_trans e1 (by norm_num)
    linarith
  -- lower bound of b
  have h2d : (2 : ℝ) ^ m ≤ 10 ^ c.digits10 := by
    have : ((2 : ℝ) ^ m) ^ 3 ≤ (10 ^ c.digits10) ^ 3 := by
      calc ((2 : ℝ) ^ m) ^ 3 = 2 ^ (3 * m) := by rw [← pow_mul, mul_comm]
        _ ≤ 2 ^ (9 * c.digits10) := pow_le_pow_right₀ (by norm_num) (by omega)
        _ = 512 ^ c.digits10 := by rw [pow_mul]; norm_num
        _ ≤ 1000 ^ c.digits10 := pow_le_pow_left₀ (by norm_num) (by norm_num) _
        _ = _ := by rw [← pow_mul, mul_comm, pow_mul]; norm_num
    exact le_of_pow_le_pow_left₀ (by norm_num) (by positivity) this
  have hbl : 2 * (10 : ℚ) ^ (-(c.digits10 : ℤ)) ≤ b.val c := by
    have : (2 : ℝ) * 10 ^ (-(c.digits10 : ℤ)) ≤ b.val c := by
      rw [zpow_neg, zpow_natCast]
      have k1 : (1 : ℝ) / 10 ^ c.digits10 ≤ 1 / 2 ^ m := one_div_le_one_div_of_le (by positivity) h2d
      have k2 := (abs_le.mp bR).1
      rw [show (4 : ℝ) / 10 ^ c.digits10 = 4 * e by rw [he]; ring, show (4 : ℝ) / 2 ^ m = 4 * (1 / 2 ^ m) by ring] at k2
      have k3 : (1 : ℝ) / 2 ^ m * e ≤ 1 / 2 ^ m * (1 / 16) := mul_le_mul_of_nonneg_left (le_trans e1 (by norm_num)) (by positivity)
      have k4 : (0 : ℝ) < 1 / 2 ^ m := by positivity
      rw [← one_div]
      linarith
    have h2 : (((2 : ℚ) * 10 ^ (-(c.digits10 : ℤ)) : ℚ) : ℝ) ≤ (b.val c : ℝ) := by push_cast; exact this
    exact_mod_cast h2
  have hbu : b.val c ≤ 3 := by
    have : (b.val c : ℝ) ≤ 3 := by linarith
    exact_mod_cast this
  have hal : 2 * (10 : ℚ) ^ (-(c.digits10 : ℤ)) ≤ 1 := by
    have : (10 : ℚ) ^ (-(c.digits10 : ℤ)) ≤ 10 ^ (-1 : ℤ) := zpow_le_zpow_right₀ (by norm_num) (by omega)
    rw [show (10 : ℚ) ^ (-1 : ℤ) = 1 / 10 by norm_num] at this
    linarith
  have hS : AgmSqrtOk c (estSqrt c F sq) F.digits10 := fun x hx h0 => (sqrt_start_ok h.hF hsq (posi_of_val hx.toWF h0) h.hK).1
  have key := fun s n hl => agm_total (est := estInv c F) (D := c.digits10) (s := s) (n := n) hR (digits10_ge h.hF) hS o1 b2
    (by rw [o3]; exact hal) (by rw [o3]; norm_num) hbl hbu (by rw [o3, Rat.cast_one]; exact hE2) (by rw [o3, Rat.cast_one]; exact hE1) hl hoff'
  clear hoff'
  generalize agmLoop c (estSqrt c F sq) (estInv c F) F.digits10 (agmGoal c) 128 (ofUnsigned c 32 1) b = q at *
  obtain ⟨s, no⟩ := q
  simp only [Option.some.injEq, Prod.mk.injEq] at hrun
  obtain ⟨f1, f2, f3, f4, f5⟩ := key s n (by rw [hrun.2])
  replace hrun := hrun.1
  rw [o3, Rat.cast_one] at f5
  refine ⟨f1, ?_⟩
  have hκ0 : 0 ≤ κ := by
    have := le_trans (abs_nonneg _) hpe
    by_contra hc
    exact absurd this (not_le.mpr (div_neg_of_neg_of_pos (not_le.mp hc) (by positivity)))
  rw [show κ / 10 ^ c.digits10 = κ * e by rw [he]; ring] at hpe
  have hκe : κ * e ≤ 1 / 10 ^ 6 := by
    calc κ * e ≤ 10 ^ 9 * (1 / 10 ^ 52) := mul_le_mul hκ e1 e0.le (by norm_num)
      _ ≤ _ := by norm_num
  have d0 := agmDelta_pos c
  have d0' : (0 : ℝ) < agmDelta c := by exact_mod_cast d0
  have hδe : (agmDelta c : ℝ) ≤ e / 100 := by
    rw [he]; unfold agmDelta; push_cast
    rw [pow_add, div_div]
    apply one_div_le_one_div_of_le (by positivity)
    have : (10 : ℝ) ^ 2 ≤ 10 ^ c.ed := pow_le_pow_right₀ (by norm_num) hed
    nlinarith [show (0 : ℝ) < 10 ^ c.digits10 by positivity]
  have hnR : (n : ℝ) ≤ 128 := by exact_mod_cast f1.le
  have hn0 : (0 : ℝ) ≤ n := by positivity
  have e6 : e ≤ 1 / 10 ^ 6 := le_trans e1 (by norm_num)
  have hρ : (22 / 10 * n + 2 / 10) * (agmDelta c : ℝ) ≤ 1 / 10 ^ 5 := by
    calc (22 / 10 * n + 2 / 10) * (agmDelta c : ℝ) ≤ (22 / 10 * 128 + 2 / 10) * (e / 100) := by gcongr
      _ ≤ _ := by linarith
  have hμ : 100 * (mulEps c : ℝ) ≤ agmDelta c := by exact_mod_cast mulEps_delta c
  have hμ0 : 0 ≤ (mulEps c : ℝ) := by exact_mod_cast (mulEps_pos c).le
  obtain ⟨x1, x2⟩ := agm_quot_dw h hN hpi f2 (by linarith) hpe (by linarith) (by linarith) f3 f4 f5 (Or.inl rfl)
  generalize mulAssign c pi (calcInv c (estInv c F) F.digits10 s) = x at *
  have hsm : 34 / 100 * (κ * e) + 102 / 100 * ((22 / 10 * n + 2 / 10) * (agmDelta c : ℝ)) + 7 * (mulEps c : ℝ) ≤ 1 / 1000 := by linarith
  have hxl : (1 : ℝ) / 2 ≤ x.val c ∧ (x.val c : ℝ) < 10 ^ 5 := by
    have := (abs_le.mp x2).1
    have := (abs_le.mp x2).2
    have := mul_le_mul_of_nonneg_left hsm (by linarith : 0 ≤ ell 1 (b.val c))
    constructor <;> linarith
  have hx0 : 0 < x.val c := by
    have : (0 : ℝ) < x.val c := by linarith
    exact_mod_cast this
  have hxe : -1 - (c.ed : ℤ) < x.exp ∧ x.exp ≤ 5 := by
    have hz := isZero_false_of_val x1.toWF hx0.ne'
    have a := x1.toWF.abs_ge hz
    have b := x1.toWF.abs_lt
    rw [abs_of_pos hx0] at a b
    have u1 : ((1 / 2 : ℚ) : ℝ) ≤ x.val c := by push_cast; exact hxl.1
    have u2 : (x.val c : ℝ) < ((10 ^ 5 : ℚ) : ℝ) := by push_cast; exact hxl.2
    rw [Rat.cast_le] at u1
    rw [Rat.cast_lt] at u2
    constructor
    · by_contra hc
      have : (10 : ℚ) ^ (x.exp + c.ed) ≤ 10 ^ (-1 : ℤ) := zpow_le_zpow_right₀ (by norm_num) (by omega)
      norm_num at this; linarith
    · by_contra hc
      have : (10 : ℚ) ^ (5 : ℤ) ≤ 10 ^ x.exp := zpow_le_zpow_right₀ (by norm_num) (by omega)
      norm_num at this u2; linarith
  have hlast := div_int_rel h hN x1 hx0 (m := m) (by omega) (by omega) (by omega) (by omega)
  rw [hrun] at hlast
  have hlR := (Rat.cast_le (K := ℝ)).mpr hlast
  push_cast at hlR
  rw [← he] at hlR
  have := ln_two_end (L := log 2) (δ := agmDelta c) (μ := mulEps c) mR1 (by linarith) (by linarith) e0 e20 hκ0 hn0 d0'.le (by linarith) hμ0 hμ s3 s4 hsm x2 hlR
  refine le_trans this (le_of_eq ?_)
  rw [he]; unfold agmDelta; push_cast; ring

theorem exU52_rounds : (calcPi exU52 (estSqrt exU52 exDoubleK (sqK 53)) (estInv exU52 exDoubleK) exDoubleK.digits10).2[12]? = none := by decide +kernel

theorem exU52_products : ∀ p ∈ agmProducts exU52 (estSqrt exU52 exDoubleK (sqK 53)) (estInv exU52 exDoubleK) 15 (agmGoal exU52) 128
      (ofUnsigned exU52 32 1) ((ldexp exU52 (estInv exU52 exDoubleK) 15 (one exU52) (2 - lnTwoM exU52 exFloatK)).getD (zero exU52)),
    ∃ j ∈ [0, -1, -2, -3, -4], offSqCheck exU52 (60 / 10 ^ 15 + 320 / 10 ^ (52 + 2 * 8)) (p.val exU52) j = true := by decide +kernel

theorem exU52_elem : ElemOk exU52 exDouble :=
  ⟨FloatOk.double ⟨rfl, rfl, rfl⟩, by decide, ⟨by decide, by decide⟩, by decide, by decide, by decide, by decide⟩

theorem exU52_pi_double : (calcPi exU52 (estSqrt exU52 exDouble (sqK 53)) (estInv exU52 exDouble) exDouble.digits10).1 = exU52pi := by
  rw [← exDoubleK_eq, show exDoubleK.digits10 = 15 from rfl, exU52_pi]

theorem exU52_pi_err : Full exU52 exU52pi ∧ |(exU52pi.val exU52 : ℝ) - π| ≤ 1 / 10 ^ 52 := by
  obtain ⟨p1, -, -, -⟩ := calc_pi_error_partial exU52 exDouble (FloatOk.double ⟨rfl, rfl, rfl⟩) (sqK 53) sqK_double ⟨by decide, by decide⟩ (by decide) (by decide)
  have hp := calc_pi_digits_partial exU52 exDouble (FloatOk.double ⟨rfl, rfl, rfl⟩) (sqK 53) sqK_double ⟨by decide, by decide⟩ (by decide) (by decide)
  simp only [show exU52.L = Limb.u32 from rfl] at hp
  have hp12 : (calcPi exU52 (estSqrt exU52 exDouble (sqK 53)) (estInv exU52 exDouble) exDouble.digits10).2[12]? = none := by
    rw [← exDoubleK_eq]; exact exU52_rounds
  have := (hp (by rw [hp12]; simp)).le
  rw [exU52_pi_double] at p1 this
  exact ⟨p1, this⟩

theorem exU52_ln_double : calcLnTwo exU52 (estSqrt exU52 exDouble (sqK 53)) (estInv exU52 exDouble) exDouble.digits10 exFloat exU52pi =
    some (exU52ln, some 10) := by
  rw [← exDoubleK_eq, ← exFloatK_eq, show exDoubleK.digits10 = 15 from rfl, exU52_ln]

/-- The conditions are met by `decwide_t<52>` with the default double, and the loop does 10 rounds before the last: the error is
    at most 14·10^-52. -/
theorem exU52_ln_err : |(exU52ln.val exU52 : ℝ) - log 2| ≤ 14 / 10 ^ 52 := by
  have := ln_two_accuracy_partial exU52 exDouble exU52_elem (sqK 53) sqK_double (by decide) (by decide) exFloat ⟨rfl, rfl, rfl⟩ _
    exU52_pi_err.1 1 (by norm_num) exU52_pi_err.2 exU52ln 10 exU52_ln_double ?_
  · refine le_trans this.2 ?_
    norm_num [show exU52.digits10 = 52 from rfl, show exU52.ed = 8 from rfl]
  · intro b hb p hpm
    rw [← exDoubleK_eq, ← exFloatK_eq, show exDoubleK.digits10 = 15 from rfl] at hb
    rw [← exDoubleK_eq, show exDoubleK.digits10 = 15 from rfl] at hpm
    obtain ⟨j, -, hj⟩ := exU52_products p (by rw [hb]; exact hpm)
    exact offSquares_check (by norm_num [show exDouble.digits10 = 15 from rfl, show exU52.digits10 = 52 from rfl, show exU52.ed = 8 from rfl]) hj

example : ∃ r, calcLnTwo exU52 (estSqrt exU52 exDouble (sqK 53)) (estInv exU52 exDouble) exDouble.digits10 exFloat
      (calcPi exU52 (estSqrt exU52 exDouble (sqK 53)) (estInv exU52 exDouble) exDouble.digits10).1 = some (r, some 10) ∧
    |(r.val exU52 : ℝ) - log 2| ≤ 14 / 10 ^ 52 := ⟨exU52ln, by rw [exU52_pi_double]; exact exU52_ln_double, exU52_ln_err⟩

end WD
