import Verif.Props.Hyp
import Verif.Props.Log
import Verif.Props.Ldexp
import Mathlib.Analysis.SpecialFunctions.Pow.Real
/-
  C54: `pow(x, a)` for two wide decimals.
-/
namespace WD
open DW

/-- An argument error D and a relative error E of the exponential combined. -/
theorem pow_real {r p q D E : ℝ} (hD0 : 0 ≤ D) (hD : D ≤ 1 / 100) (hE : 0 ≤ E) (hp : |p - q| ≤ D) (hr : |r - Real.exp p| ≤ Real.exp p * E) :
    |r - Real.exp q| ≤ Real.exp q * (51 / 50 * E + 2 * D) := by
  have hq := Real.exp_pos q
  have e : Real.exp p = Real.exp q * Real.exp (p - q) := by rw [← Real.exp_add]; congr 1; ring
  have h1 := Real.abs_exp_sub_one_le (x := p - q) (by linarith)
  have h1' := abs_le.mp h1
  have h2 : Real.exp p ≤ Real.exp q * (51 / 50) := by
    rw [e]; apply mul_le_mul_of_nonneg_left _ hq.le; linarith
  have h3 : |Real.exp p - Real.exp q| ≤ Real.exp q * (2 * D) := by
    have : Real.exp p - Real.exp q = Real.exp q * (Real.exp (p - q) - 1) := by rw [e]; ring
    rw [this, abs_mul, abs_of_pos hq]
    apply mul_le_mul_of_nonneg_left _ hq.le; linarith
  have h4 := abs_add_le (r - Real.exp p) (Real.exp p - Real.exp q)
  rw [sub_add_sub_cancel] at h4
  have h5 : Real.exp p * E ≤ Real.exp q * (51 / 50) * E := mul_le_mul_of_nonneg_right h2 hE
  linarith

set_option maxHeartbeats 1000000 in
/-- exp(a·l) for an l near the number X. -/
theorem pow_core {c : Cfg} {F : Flt} (h : ElemOk c F) (h2k : c.digits10 ≤ 2000) (hN : c.N < 1793) {l2 : DW} (hl : Full c l2)
    (hl2 : |(l2.val c : ℝ) - Real.log 2| ≤ 1 / 10 ^ (c.digits10 + 2 * c.ed)) {a l : DW} (ha : Full c a) (hlf : Full c l) {X : ℝ}
    (hδ : |(l.val c : ℝ) - X| ≤ (17 + |X| / 1000) * epsD c) (hX : 40 * (epsD c : ℝ) ≤ |X|)
    (hlo : (10 : ℝ) ^ (-(c.maxExp : ℤ) + 5 * c.ed + 11) ≤ |(a.val c : ℝ) * X|) (h9 : |(a.val c : ℝ) * X| ≤ 147 * 10 ^ 7)
    (hhi : |(a.val c : ℝ) * X| ≤ 22 / 10 * ((c.maxExp : ℝ) - 3 * c.ed - 3))
    (hD : (18 * |(a.val c : ℝ)| + |(a.val c : ℝ) * X| / 700) * epsD c ≤ 1 / 100) :
    ∃ r, expDW c (estInv c F) F.digits10 l2 (mulAssign c a l) = some r ∧ 0 < r.val c ∧ NearFull c r ∧
      |(r.val c : ℝ) - Real.exp (a.val c * X)| ≤ Real.exp (a.val c * X) * ((27000 + 36 * |(a.val c : ℝ)| + |(a.val c : ℝ) * X| / 200) * epsD c) := by
  obtain ⟨e0, e1⟩ := epsD_real h.lo
  obtain ⟨m0, m1⟩ := mulEps_real c
  have hμ := mulEps_pos c
  have hμ1 := mulEps_le20 h.lo
  have hM := h.hM
  have hR := h.hR
  have h2 := two_le_ed c
  have h8 := ed_le8 c
  have h3N := c.three_le_N
  have hMr : ((c.ed * 8 + 10 : ℕ) : ℝ) ≤ c.maxExp := by
    have : c.ed * 8 ≤ c.ed * (c.N + 5) := Nat.mul_le_mul_left _ (by omega)
    exact_mod_cast (by omega : c.ed * 8 + 10 ≤ c.maxExp)
  push_cast at hMr
  have hedr : (2 : ℝ) ≤ c.ed := by exact_mod_cast h2
  set ε : ℝ := (epsD c : ℝ) with hεd
  set μ : ℝ := (mulEps c : ℝ) with hμd
  set A : ℝ := (a.val c : ℝ) with hAd
  set L : ℝ := (l.val c : ℝ) with hLd
  norm_num at e1 m1
  rw [abs_mul] at hlo h9 hhi hD
  have hX0 := abs_nonneg X
  have hA0 := abs_nonneg A
  have hAX0 : 0 ≤ |A| * |X| := by positivity
  have hAXp : 0 < |A| * |X| := lt_of_lt_of_le (by positivity) hlo
  have hAp : 0 < |A| := by
    rcases hA0.lt_or_eq with q | q
    · exact q
    · rw [← q] at hAXp; simp at hAXp
  -- the logarithm
  have hXε : |X| / 1000 * ε ≤ |X| / 1000 * (1 / 10000000000000000) := mul_le_mul_of_nonneg_left e1 (by positivity)
  have hL1 : |(|L| - |X|)| ≤ |L - X| := abs_abs_sub_abs_le L X
  have hL1' := abs_le.mp hL1
  have hLlo : 1 / 2 * |X| ≤ |L| := by linarith [hL1'.1]
  have hLhi : |L| ≤ 3 / 2 * |X| := by linarith [hL1'.2]
  have hXp : 0 < |X| := by linarith
  have hLp : 0 < |L| := by linarith
  have hL0 : l.val c ≠ 0 := by
    intro q; rw [hLd, q] at hLp; simp at hLp
  have ha0 : a.val c ≠ 0 := by
    intro q; rw [hAd, q] at hAp; simp at hAp
  have haz := isZero_false_of_val ha.toWF ha0
  have hlz := isZero_false_of_val hlf.toWF hL0
  have hAL1 : 1 / 2 * (|A| * |X|) ≤ |A| * |L| := by
    have := mul_le_mul_of_nonneg_left hLlo hA0; linarith
  have hAL2 : |A| * |L| ≤ 3 / 2 * (|A| * |X|) := by
    have := mul_le_mul_of_nonneg_left hLhi hA0; linarith
  have hcA : |A| = ((|a.val c| : ℚ) : ℝ) := by rw [hAd]; push_cast; rfl
  have hcL : |L| = ((|l.val c| : ℚ) : ℝ) := by rw [hLd]; push_cast; rfl
  -- exponents of the product
  have x1 : -(c.maxExp : ℤ) < a.exp + l.exp := by
    have u1 := mul_lt_mul'' ha.toWF.abs_lt hlf.toWF.abs_lt (abs_nonneg _) (abs_nonneg _)
    rw [← zpow_add₀ (by norm_num)] at u1
    have u2 : (10 : ℝ) ^ (-(c.maxExp : ℤ) + 5 * c.ed + 10) < 10 ^ (a.exp + c.ed + (l.exp + c.ed)) := by
      have u3 := (Rat.cast_lt (K := ℝ)).mpr u1
      push_cast at u3
      rw [hAd] at hAL1 hlo
      rw [hLd] at hAL1
      refine lt_of_le_of_lt ?_ u3
      have : (10 : ℝ) ^ (-(c.maxExp : ℤ) + 5 * c.ed + 11) = 10 ^ (-(c.maxExp : ℤ) + 5 * c.ed + 10) * 10 := by
        rw [← zpow_add_one₀ (by norm_num)]; congr 1; ring
      rw [this] at hlo
      have : (0 : ℝ) < 10 ^ (-(c.maxExp : ℤ) + 5 * c.ed + 10) := by positivity
      linarith
    rw [zpow_lt_zpow_iff_right₀ (by norm_num)] at u2
    omega
  have x2 : a.exp + l.exp < c.maxExp := by
    have u1 := mul_le_mul (ha.toWF.abs_ge haz) (hlf.toWF.abs_ge hlz) (p10_pos _).le (abs_nonneg _)
    rw [← zpow_add₀ (by norm_num)] at u1
    have u2 : (10 : ℝ) ^ (a.exp + l.exp) < 10 ^ (10 : ℤ) := by
      have u3 := (Rat.cast_le (K := ℝ)).mpr u1
      push_cast at u3
      rw [hAd] at hAL2 h9
      rw [hLd] at hAL2
      refine lt_of_le_of_lt u3 ?_
      norm_num at h9 ⊢; linarith
    rw [zpow_lt_zpow_iff_right₀ (by norm_num)] at u2
    have := h.lo
    omega
  obtain ⟨-, -, p1, -⟩ := mul_error c a l ha hlf ha0 hL0 h.mulOk x1 x2
  have p2 : |(mulAssign c a l).val c - a.val c * l.val c| ≤ |a.val c * l.val c| * (2 * mulEps c) := by
    have m5 := mul_relative_error c a l ha hlf ha0 hL0 h.mulOk x1 x2
    have hq : ∀ {R Q μ : ℚ}, 0 < μ → μ ≤ 1 / 10 → |R - Q| ≤ |R| * μ → |R - Q| ≤ |Q| * (2 * μ) := by
      intro R Q μ hμ0 hμ h
      have t := abs_add_le (R - Q) Q
      rw [sub_add_cancel] at t
      have : |R| * μ ≤ |R| * (1 / 10) := mul_le_mul_of_nonneg_left hμ (abs_nonneg _)
      have : |R| ≤ 2 * |Q| := by linarith [abs_nonneg Q]
      have : |R| * μ ≤ 2 * |Q| * μ := mul_le_mul_of_nonneg_right this hμ0.le
      linarith
    apply hq hμ (hμ1.trans (by norm_num))
    unfold mulEps; rw [mul_one_div]; exact m5.le
  set P := mulAssign c a l with hPd
  have p3 : |(P.val c : ℝ) - A * L| ≤ |A| * |L| * (2 * μ) := by
    have := (Rat.cast_le (K := ℝ)).mpr p2
    push_cast at this
    rw [abs_mul] at this
    exact this
  have hμ2 : |A| * |L| * (2 * μ) ≤ 3 / 2 * (|A| * |X|) * (2 * μ) := mul_le_mul_of_nonneg_right hAL2 (by linarith)
  have hμ3 : |A| * |X| * μ ≤ |A| * |X| * (ε / 10000) := mul_le_mul_of_nonneg_left m1 hAX0
  have p4 : |A * L - A * X| ≤ |A| * ((17 + |X| / 1000) * ε) := by
    rw [← mul_sub, abs_mul]; exact mul_le_mul_of_nonneg_left hδ hA0
  have p5 := abs_add_le ((P.val c : ℝ) - A * L) (A * L - A * X)
  rw [sub_add_sub_cancel] at p5
  obtain ⟨D, hDd⟩ : ∃ D, D = (18 * |A| + |A| * |X| / 700) * ε := ⟨_, rfl⟩
  rw [← hDd] at hD
  have hAXε : 0 ≤ |A| * |X| * ε := by positivity
  have hAε : 0 ≤ |A| * ε := by positivity
  have p6 : |(P.val c : ℝ) - A * X| ≤ D := by
    rw [hDd]; linarith
  have hD0 : 0 ≤ D := (abs_nonneg _).trans p6
  have p7 := abs_le.mp (abs_abs_sub_abs_le (P.val c : ℝ) (A * X))
  rw [abs_mul] at p7
  have p8 : 1 / 4 * (|A| * |X|) ≤ |(P.val c : ℝ)| := by
    have t := abs_abs_sub_abs_le (P.val c : ℝ) (A * L)
    rw [abs_mul] at t
    have t' := abs_le.mp (t.trans p3)
    have hμ4 : |A| * |L| * (2 * μ) ≤ |A| * |L| * (1 / 10) := mul_le_mul_of_nonneg_left (by linarith) (by positivity)
    linarith [t'.1]
  have p9 : |(P.val c : ℝ)| ≤ |A| * |X| + 1 / 100 := by linarith [p7.2]
  have hcP : |(P.val c : ℝ)| = ((|P.val c| : ℚ) : ℝ) := by push_cast; rfl
  have q1 : (10 : ℚ) ^ (-(c.maxExp : ℤ) + 5 * c.ed + 10) ≤ |P.val c| := by
    have : (10 : ℝ) ^ (-(c.maxExp : ℤ) + 5 * c.ed + 10) ≤ |(P.val c : ℝ)| := by
      have : (10 : ℝ) ^ (-(c.maxExp : ℤ) + 5 * c.ed + 11) = 10 ^ (-(c.maxExp : ℤ) + 5 * c.ed + 10) * 10 := by
        rw [← zpow_add_one₀ (by norm_num)]; congr 1; ring
      rw [this] at hlo
      have : (0 : ℝ) < 10 ^ (-(c.maxExp : ℤ) + 5 * c.ed + 10) := by positivity
      linarith
    apply (Rat.cast_le (K := ℝ)).mp; push_cast; exact this
  have q2 : |P.val c| ≤ 148 * 10 ^ 7 := by
    have : |(P.val c : ℝ)| ≤ 148 * 10 ^ 7 := by norm_num at h9 ⊢; linarith
    apply (Rat.cast_le (K := ℝ)).mp; push_cast; exact this
  have q3 : |P.val c| ≤ 23 / 10 * ((c.maxExp : ℚ) - 3 * c.ed - 3) := by
    have : |(P.val c : ℝ)| ≤ 23 / 10 * ((c.maxExp : ℝ) - 3 * c.ed - 3) := by linarith
    apply (Rat.cast_le (K := ℝ)).mp; push_cast; exact this
  have hedq : (0 : ℚ) ≤ c.ed := Nat.cast_nonneg _
  obtain ⟨r, r1, r2, r3, r4⟩ := exp_accuracy_partial c F h h2k l2 hl hl2 P p1 q1 q2 (by linarith) (fun _ => q3)
  refine ⟨r, r1, r2, r3.imp id (fun k => k.2.1), ?_⟩
  have eD : ε = 1 / 10 ^ c.digits10 := by
    rw [hεd]; unfold epsD; push_cast; rw [zpow_neg, zpow_natCast, one_div]
  have e26 : (26000 + |(P.val c : ℝ)| / 500) / 10 ^ c.digits10 = (26000 + |(P.val c : ℝ)| / 500) * ε := by rw [eD]; ring
  rw [e26] at r4
  refine (pow_real hD0 hD (by positivity) p6 r4).trans ?_
  apply mul_le_mul_of_nonneg_left _ (Real.exp_pos _).le
  rw [hDd, abs_mul]
  have : |(P.val c : ℝ)| * ε ≤ (|A| * |X| + 1 / 100) * ε := mul_le_mul_of_nonneg_right p9 e0.le
  linarith

/-- C54, x > 1. For every x > 1, every a with |a·ln x| at least 10^(-maxExp+5·ed+11) and inside the exponent range (and at most
    1.47·10^9), ln x ≥ 40·10^(-digits10) and an argument error below 1/100, `pow(x, a)` ends with a positive number whose
    relative error against x^a is at most (27000 + 36·|a| + |a·ln x|/200)·10^(-digits10). 16 to 51 digits. -/
theorem pow_real_above_partial (c : Cfg) (F : Flt) (h : ElemOk c F) (h51 : c.digits10 ≤ 51) (hX : c.maxExp ≤ 2 ^ 62) (x a : DW) (hx : Full c x)
    (ha : Full c a) (h1 : 1 < x.val c) (hxe : x.exp + 3 * c.ed < c.maxExp)
    (hx1 : 40 / 10 ^ c.digits10 ≤ |Real.log (x.val c)|)
    (hlo : (10 : ℝ) ^ (-(c.maxExp : ℤ) + 5 * c.ed + 11) ≤ |(a.val c : ℝ) * Real.log (x.val c)|)
    (h9 : |(a.val c : ℝ) * Real.log (x.val c)| ≤ 147 * 10 ^ 7)
    (hhi : |(a.val c : ℝ) * Real.log (x.val c)| ≤ 22 / 10 * ((c.maxExp : ℝ) - 3 * c.ed - 3))
    (hD : (18 * |(a.val c : ℝ)| + |(a.val c : ℝ) * Real.log (x.val c)| / 700) / 10 ^ c.digits10 ≤ 1 / 100) (depth : ℕ) :
    ∃ r, powDW c (estInv c F) F.digits10 (lnTwoLow c) (logLim c (estInv c F) F.digits10) (depth + 1) x a = some r ∧
      0 < r.val c ∧ NearFull c r ∧
      |(r.val c : ℝ) - (x.val c : ℝ) ^ (a.val c : ℝ)| ≤ (x.val c : ℝ) ^ (a.val c : ℝ) *
        ((27000 + 36 * |(a.val c : ℝ)| + |(a.val c : ℝ) * Real.log (x.val c)| / 200) / 10 ^ c.digits10) := by
  obtain ⟨b1, b2, hN⟩ := lnTwo_ok h51
  obtain ⟨l, l1, l2, l3⟩ := log_accuracy_above c F h h51 hX x hx h1 hxe depth
  have eD : ∀ t : ℝ, t / 10 ^ c.digits10 = t * epsD c := by
    intro t; unfold epsD; push_cast; rw [zpow_neg, zpow_natCast]; rfl
  rw [eD] at l3 hx1 hD ⊢
  have hlog : 0 < Real.log (x.val c) := Real.log_pos (by exact_mod_cast h1)
  have e0 : (0 : ℝ) < epsD c := (epsD_real h.lo).1
  have ha0 : a.isZero = false := by
    apply isZero_false_of_val ha.toWF
    intro q
    rw [q, Rat.cast_zero, zero_mul, abs_zero] at hlo
    have : (0 : ℝ) < 10 ^ (-(c.maxExp : ℤ) + 5 * c.ed + 11) := by positivity
    linarith
  obtain ⟨r, r1, r2, r3, r4⟩ := pow_core h (by omega) hN b1 b2 ha l2 (X := Real.log (x.val c)) (by
    refine l3.trans ?_
    rw [abs_of_pos hlog]
    apply mul_le_mul_of_nonneg_right _ e0.le
    linarith) hx1 hlo h9 hhi hD
  refine ⟨r, ?_, r2, r3, ?_⟩
  · unfold powDW
    rw [ha0, if_neg (by decide), l1]
    exact r1
  · rw [Real.rpow_def_of_pos (by exact_mod_cast (by linarith : 0 < x.val c)), mul_comm (Real.log _)]
    exact r4

/-- C54, 0 < x < 1: as above. -/
theorem pow_real_below_partial (c : Cfg) (F : Flt) (h : ElemOk c F) (h51 : c.digits10 ≤ 51) (hX : c.maxExp ≤ 2 ^ 62) (x a : DW) (hx : Full c x)
    (ha : Full c a) (h0 : 0 < x.val c) (h1 : x.val c < 1) (hxe : -(c.maxExp : ℤ) + 3 * c.ed < x.exp)
    (hx1 : 40 / 10 ^ c.digits10 ≤ |Real.log (x.val c)|)
    (hlo : (10 : ℝ) ^ (-(c.maxExp : ℤ) + 5 * c.ed + 11) ≤ |(a.val c : ℝ) * Real.log (x.val c)|)
    (h9 : |(a.val c : ℝ) * Real.log (x.val c)| ≤ 147 * 10 ^ 7)
    (hhi : |(a.val c : ℝ) * Real.log (x.val c)| ≤ 22 / 10 * ((c.maxExp : ℝ) - 3 * c.ed - 3))
    (hD : (18 * |(a.val c : ℝ)| + |(a.val c : ℝ) * Real.log (x.val c)| / 700) / 10 ^ c.digits10 ≤ 1 / 100) (depth : ℕ) :
    ∃ r, powDW c (estInv c F) F.digits10 (lnTwoLow c) (logLim c (estInv c F) F.digits10) (depth + 2) x a = some r ∧
      0 < r.val c ∧ NearFull c r ∧
      |(r.val c : ℝ) - (x.val c : ℝ) ^ (a.val c : ℝ)| ≤ (x.val c : ℝ) ^ (a.val c : ℝ) *
        ((27000 + 36 * |(a.val c : ℝ)| + |(a.val c : ℝ) * Real.log (x.val c)| / 200) / 10 ^ c.digits10) := by
  obtain ⟨b1, b2, hN⟩ := lnTwo_ok h51
  have hoff : x.val c ≤ 1 - 5 / 10 ^ (c.digits10 + 2 * c.ed) := by
    have hx0r : (0 : ℝ) < x.val c := by exact_mod_cast h0
    have hln : Real.log (x.val c) < 0 := Real.log_neg hx0r (by exact_mod_cast h1)
    obtain ⟨e0, e1⟩ := epsD_real h.lo
    obtain ⟨m0, m1⟩ := mulEps_real c
    have eD : (40 : ℝ) / 10 ^ c.digits10 = 40 * epsD c := by
      unfold epsD; push_cast; rw [zpow_neg, zpow_natCast]; rfl
    have hμ : (5 : ℚ) / 10 ^ (c.digits10 + 2 * c.ed) = 5 * mulEps c := by unfold mulEps; ring
    rw [hμ]
    have hq := hx1
    rw [eD, abs_of_neg hln] at hq
    have hE : 1 + 40 * (epsD c : ℝ) ≤ Real.exp (-Real.log (x.val c)) := by
      have := Real.add_one_le_exp (-Real.log (x.val c)); linarith
    rw [Real.exp_neg, Real.exp_log hx0r] at hE
    have hm : (x.val c : ℝ) * (1 + 40 * epsD c) ≤ 1 := by
      have := mul_le_mul_of_nonneg_left hE hx0r.le
      rwa [mul_inv_cancel₀ hx0r.ne'] at this
    have hgoal : (x.val c : ℝ) ≤ 1 - 5 * mulEps c := by
      norm_num at m1 e1
      by_contra hc
      have hc := not_le.mp hc
      have h40 : (0 : ℝ) < 1 + 40 * epsD c := by linarith
      have := mul_lt_mul_of_pos_right hc h40
      have k1 : (mulEps c : ℝ) * epsD c ≤ mulEps c * 1 := mul_le_mul_of_nonneg_left (by linarith) m0.le
      nlinarith
    exact_mod_cast hgoal
  obtain ⟨l, l1, l2, l3⟩ := log_accuracy_below_partial c F h h51 hX x hx h0 h1 hxe hoff depth
  have eD : ∀ t : ℝ, t / 10 ^ c.digits10 = t * epsD c := by
    intro t; unfold epsD; push_cast; rw [zpow_neg, zpow_natCast]; rfl
  rw [eD] at l3 hx1 hD ⊢
  have ha0 : a.isZero = false := by
    apply isZero_false_of_val ha.toWF
    intro q
    rw [q, Rat.cast_zero, zero_mul, abs_zero] at hlo
    have : (0 : ℝ) < 10 ^ (-(c.maxExp : ℤ) + 5 * c.ed + 11) := by positivity
    linarith
  obtain ⟨r, r1, r2, r3, r4⟩ := pow_core h (by omega) hN b1 b2 ha l2 (X := Real.log (x.val c)) l3 hx1 hlo h9 hhi hD
  refine ⟨r, ?_, r2, r3, ?_⟩
  · unfold powDW
    rw [ha0, if_neg (by decide), l1]
    exact r1
  · rw [Real.rpow_def_of_pos (by exact_mod_cast h0), mul_comm (Real.log _)]
    exact r4

/-- pow(x, 0) is 1 for every x, and pow(1, a) is 1 for every a. -/
theorem pow_real_special (c : Cfg) (est : DW → DW) (fdig : ℕ) (ln2 lim x a : DW) (depth : ℕ) :
    (WF c a → a.val c = 0 → powDW c est fdig ln2 lim depth x a = some (one c)) ∧
    (WF c x → x.val c = 1 → Full c a → MulOk c c.N → 0 < c.maxExp → powDW c est fdig ln2 lim (depth + 1) x a = some (one c)) := by
  constructor
  · intro ha h0
    unfold powDW
    rw [ha.isZero_iff.mpr h0, if_pos rfl]
  · intro hx h1 ha hok hM
    unfold powDW
    split
    · rfl
    · rw [log_one c est fdig lim x hx h1 depth]
      show expDW c est fdig ln2 (mulAssign c a (zero c)) = _
      have hz0 : (zero c).isZero = true := (zero_WF c).toWF.isZero_iff.mpr (zero_val c)
      have hze : (zero c).exp = 0 := rfl
      obtain ⟨m1, m2⟩ := mulAssign_zero ha (zero_WF c) (Or.inr hz0) hok (by rw [hze]; omega) (by rw [hze]; omega)
      refine exp_zero c est fdig ln2 _ m2.toWF m1 ?_
      unfold mulAssign
      have hz' : a.isZero = true ∨ (zero c).isZero = true := Or.inr hz0
      simp only [hz', if_true]
      rfl

/-- The hypotheses are met by pow(2, 0.693) of `decwide_t<20>`. -/
example : (∃ r, powDW exC20 (estInv exC20 exDouble) exDouble.digits10 (lnTwoLow exC20) (logLim exC20 (estInv exC20 exDouble) exDouble.digits10) 1
      (two exC20) exS = some r ∧ |(r.val exC20 : ℝ) - (2 : ℝ) ^ (693 / 1000 : ℝ)| ≤ 1 / 10 ^ 14) := by
  have hl := Real.log_two_gt_d9
  have hu := Real.log_two_lt_d9
  have hlp : 0 < Real.log 2 := by linarith
  have hd : exC20.digits10 = 20 := rfl
  have ha : |(((exS.val exC20 : ℚ)) : ℝ)| = 693 / 1000 := by rw [exS_val]; push_cast; rw [abs_of_pos (by norm_num)]
  have hv : (((two exC20).val exC20 : ℚ) : ℝ) = 2 := by rw [two_val]; norm_num
  have hal : |((exS.val exC20 : ℚ) : ℝ) * Real.log 2| = 693 / 1000 * Real.log 2 := by rw [abs_mul, ha, abs_of_pos hlp]
  obtain ⟨r, r1, -, -, r4⟩ := pow_real_above_partial exC20 exDouble exC20_ok (by decide) (by decide +kernel) (two exC20) exS (two_full exC20)
    exS_full (by rw [two_val]; norm_num) (by decide +kernel) (by rw [hv, abs_of_pos hlp, hd]; norm_num; linarith)
    (by
      rw [hv, hal]
      calc (10 : ℝ) ^ (-(exC20.maxExp : ℤ) + 5 * exC20.ed + 11) ≤ 10 ^ (-1 : ℤ) := zpow_le_zpow_right₀ (by norm_num) (by decide +kernel)
        _ ≤ _ := by norm_num; linarith)
    (by rw [hv, hal]; norm_num; linarith)
    (by
      rw [hv, hal]
      have e1 : (exC20.maxExp : ℝ) = 2 ^ 59 := by unfold exC20; norm_num
      have e2 : (exC20.ed : ℝ) = 8 := by
        have : exC20.ed = 8 := by decide
        rw [this]; norm_num
      rw [e1, e2]; norm_num; linarith)
    (by rw [hv, hal, ha, hd]; norm_num; linarith) 0
  refine ⟨r, r1, ?_⟩
  rw [hv, hal, ha, exS_val, hd] at r4
  push_cast at r4
  refine r4.trans ?_
  have : (2 : ℝ) ^ (693 / 1000 : ℝ) ≤ 2 ^ (1 : ℝ) := Real.rpow_le_rpow_of_exponent_le (by norm_num) (by norm_num)
  rw [Real.rpow_one] at this
  have h0 : (0 : ℝ) ≤ (27000 + 36 * (693 / 1000) + 693 / 1000 * Real.log 2 / 200) / 10 ^ 20 := by positivity
  refine (mul_le_mul_of_nonneg_right this h0).trans ?_
  norm_num; linarith

/-- And by pow(0.693, 0.693). -/
example : (∃ r, powDW exC20 (estInv exC20 exDouble) exDouble.digits10 (lnTwoLow exC20) (logLim exC20 (estInv exC20 exDouble) exDouble.digits10) 2
      exS exS = some r ∧ |(r.val exC20 : ℝ) - (693 / 1000 : ℝ) ^ (693 / 1000 : ℝ)| ≤ 1 / 10 ^ 14) := by
  have hd : exC20.digits10 = 20 := rfl
  have hv : ((exS.val exC20 : ℚ) : ℝ) = 693 / 1000 := by rw [exS_val]; push_cast; rfl
  have hlo : Real.log (693 / 1000) ≤ -307 / 1000 := by
    have := Real.log_le_sub_one_of_pos (show (0 : ℝ) < 693 / 1000 by norm_num); linarith
  have hhi : -1 ≤ Real.log (693 / 1000) := by
    have := Real.one_sub_inv_le_log_of_pos (show (0 : ℝ) < 693 / 1000 by norm_num); norm_num at this ⊢; linarith
  have hL : |Real.log (693 / 1000)| = -Real.log (693 / 1000) := abs_of_neg (by linarith)
  have ha : |(693 / 1000 : ℝ)| = 693 / 1000 := abs_of_pos (by norm_num)
  have hal : |(693 / 1000 : ℝ) * Real.log (693 / 1000)| = 693 / 1000 * -Real.log (693 / 1000) := by rw [abs_mul, ha, hL]
  obtain ⟨r, r1, -, -, r4⟩ := pow_real_below_partial exC20 exDouble exC20_ok (by decide) (by decide +kernel) exS exS exS_full
    exS_full (by rw [exS_val]; norm_num) (by rw [exS_val]; norm_num) (by decide +kernel) (by rw [hv, hL, hd]; norm_num; linarith)
    (by
      rw [hv, hal]
      calc (10 : ℝ) ^ (-(exC20.maxExp : ℤ) + 5 * exC20.ed + 11) ≤ 10 ^ (-1 : ℤ) := zpow_le_zpow_right₀ (by norm_num) (by decide +kernel)
        _ ≤ _ := by norm_num; linarith)
    (by rw [hv, hal]; norm_num; linarith)
    (by
      rw [hv, hal]
      have e1 : (exC20.maxExp : ℝ) = 2 ^ 59 := by unfold exC20; norm_num
      have e2 : (exC20.ed : ℝ) = 8 := by
        have : exC20.ed = 8 := by decide
        rw [this]; norm_num
      rw [e1, e2]; norm_num; linarith)
    (by rw [hv, hal, ha, hd]; norm_num; linarith) 0
  refine ⟨r, r1, ?_⟩
  rw [hv, hal, ha, hd] at r4
  refine r4.trans ?_
  have : (693 / 1000 : ℝ) ^ (693 / 1000 : ℝ) ≤ 1 := Real.rpow_le_one (by norm_num) (by norm_num) (by norm_num)
  have h0 : (0 : ℝ) ≤ (27000 + 36 * (693 / 1000) + 693 / 1000 * -Real.log (693 / 1000) / 200) / 10 ^ 20 := by
    apply div_nonneg _ (by positivity); linarith
  refine (mul_le_mul_of_nonneg_right this h0).trans ?_
  norm_num; linarith

end WD
