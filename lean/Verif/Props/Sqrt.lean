import Verif.Proofs.Sqrt2
import Verif.Props.Inv
import Verif.Props.Round
import Mathlib.Analysis.Real.Sqrt
/-
  C27: square root. The two floating-point start values are any function `est`; the accuracy theorems ask that they be positive
  well-formed numbers of relative error at most 4.3·10^(-fdig) and 5.5·10^(-fdig), `fdig` as in `Verif/Props/Inv.lean`.
-/
namespace WD
open DW

/-- The start values `s` (root) and `v` (half of its reciprocal) for the square root of q > 0 are good enough. -/
structure SqrtStartOk (c : Cfg) (fdig : ℕ) (s v : DW) (q : ℚ) : Prop where
  swf : WF c s
  spos : 0 < s.val c
  vwf : WF c v
  vpos : 0 < v.val c
  serr : |s.val c ^ 2 - q| ≤ q * (43 / 10 / 10 ^ fdig)
  verr : |2 * s.val c * v.val c - 1| ≤ 55 / 10 / 10 ^ fdig

/-- Neither q nor 4q is within a relative distance t of an even power of the limb radix: neither √q nor 2√q is close to a
    power of the limb radix. -/
def OffSquares (c : Cfg) (t q : ℚ) : Prop :=
  ∀ k : ℤ, t ≤ |q / (c.B : ℚ) ^ (2 * k) - 1| ∧ t ≤ |4 * q / (c.B : ℚ) ^ (2 * k) - 1|

theorem OffSquares.off {c : Cfg} {t q : ℚ} (h : OffSquares c t q) : OffSq c t q := by
  intro k
  have e : q * (10 : ℚ) ^ (2 * ((c.ed : ℤ) * k)) = q / (c.B : ℚ) ^ (2 * (-k)) := by
    rw [c.B_eq]; push_cast
    rw [← zpow_natCast, ← zpow_mul, div_eq_mul_inv, ← zpow_neg]
    congr 2; ring
  have e2 : 4 * q * (10 : ℚ) ^ (2 * ((c.ed : ℤ) * k)) = 4 * q / (c.B : ℚ) ^ (2 * (-k)) := by
    rw [mul_assoc, e]; ring
  rw [e, e2]; exact h (-k)

/-- C27, special values: a negative number gives zero, zero and one give themselves. -/
theorem sqrt_special (c : Cfg) (est : DW → DW × DW) (fdig : ℕ) (x : DW) (hx : WF c x) :
    (x.val c < 0 → (calcSqrt c est fdig x).val c = 0) ∧ (x.val c = 0 → (calcSqrt c est fdig x).val c = 0) ∧
    calcSqrt c est fdig (one c) = one c := by
  refine ⟨fun h => ?_, fun h => ?_, ?_⟩
  · have hn : x.neg = true := by
      by_contra hn
      rw [WF.val_of_pos (c := c) (x := x) (by simpa using hn)] at h
      have := abs_nonneg (x.val c); linarith
    unfold calcSqrt
    rw [if_pos (by unfold isNeg; exact hn)]
    exact zero_val c
  · have hz := hx.isZero_iff.mpr h
    unfold calcSqrt
    rw [if_pos hz]
    split
    · exact zero_val c
    · exact h
  · have hB := c.one_lt_B
    have h3 := c.three_le_N
    obtain ⟨n, hn⟩ : ∃ n, c.N = n + 1 := ⟨c.N - 1, by omega⟩
    unfold calcSqrt
    rw [if_neg (by simp [isNeg, one, fromLst]), if_neg (by simp [isZero, d0, one, fromLst, hn]), if_pos ?_]
    simp [isOne, isOneSN, one, fromLst, d0, hn]

theorem calcSqrt_spec {c : Cfg} {est : DW → DW × DW} {fdig : ℕ} {x : DW} (hx : Full c x) (hx0 : 0 < x.val c) (hok : MulOkAll c)
    (hd : 2 ≤ c.digits10) (hf : 6 ≤ fdig) (hlo : -x.exp + (c.N + 6) * c.ed < c.maxExp) (hhi : x.exp + (c.N + 6) * c.ed < c.maxExp)
    (hs : SqrtStartOk c fdig (est x).1 (est x).2 (x.val c))
    (hoff : 2 * (fdig : ℤ) - 1 + c.ed ≤ c.ed * ((c.N : ℤ) - 1) → OffSquares c (60 / 10 ^ fdig + 320 / 10 ^ (c.digits10 + 2 * c.ed)) (x.val c)) :
    let r := calcSqrt c est fdig x
    Full c r ∧ 0 < r.val c ∧ ∃ a, r.val c ^ 2 = x.val c * (1 + a) ∧ |a| ≤ 1401 / 100 * eta c c.N := by
  intro r
  have hr : r = calcSqrt c est fdig x := rfl
  have hed : 2 ≤ c.ed := by unfold Cfg.ed; cases c.L <;> decide
  have h3 := c.three_le_N
  have hη := eta_pos c c.N
  have hηd := eta_N_digits c
  have hη6 : eta c c.N ≤ 1 / 10 ^ 6 := by
    refine le_trans hηd (one_div_le_one_div_of_le (by positivity) (pow_le_pow_right₀ (by norm_num) (by omega)))
  have px : Posi c x := posi_of_val hx.toWF hx0
  have hall : (10 : ℚ) ^ (-((c.N * c.ed : ℕ) : ℤ)) ≤ eta c c.N / 100 := by
    calc (10 : ℚ) ^ (-(c.N * c.ed : ℕ) : ℤ) = eta c c.N * 10 ^ (-(c.ed : ℤ)) := by
          unfold eta; rw [← zpow_add₀ (by norm_num)]; congr 1; push_cast; ring
      _ ≤ eta c c.N * 10 ^ (-2 : ℤ) :=
          mul_le_mul_of_nonneg_left (zpow_le_zpow_right₀ (by norm_num) (by omega)) hη.le
      _ = _ := by norm_num; ring
  unfold calcSqrt at hr
  rw [if_neg (by unfold isNeg; rw [px.nn]; simp), if_neg (by rw [px.nz]; simp)] at hr
  by_cases h1 : isOne c x = true
  · rw [if_pos h1] at hr
    rw [hr]
    refine ⟨hx, hx0, x.val c - 1, by ring, ?_⟩
    have h1' : isOneSN c x = true := by
      unfold isOne at h1; rw [px.nn] at h1; simpa using h1
    have hall' : (10 : ℚ) ^ (-((c.ed : ℤ) * c.N)) ≤ eta c c.N / 100 := by
      rw [show -((c.ed : ℤ) * c.N) = -((c.N * c.ed : ℕ) : ℤ) by push_cast; ring]; exact hall
    rcases isOneSN_spec hx.toWF h1' with ⟨h, -⟩ | ⟨h, -⟩ <;> rw [px.abs_val] at h <;> rw [h]
    · norm_num; exact hη.le
    · have hn : nearOne c = 1 - 10 ^ (-((c.ed : ℤ) * c.N)) := rfl
      rw [hn, sub_sub_cancel_left, abs_neg, abs_of_pos (p10_pos _)]
      linarith
  · rw [if_neg h1] at hr
    obtain ⟨E, hE⟩ : ∃ E, E = (10 : ℚ) ^ (-((fdig - 1 : ℕ) : ℤ)) := ⟨_, rfl⟩
    have hE1 : (1 : ℚ) / 10 ^ fdig = E / 10 := by
      rw [hE]
      obtain ⟨k, rfl⟩ : ∃ k, fdig = k + 1 := ⟨fdig - 1, by omega⟩
      rw [Nat.add_sub_cancel, zpow_neg, zpow_natCast, pow_succ]
      field_simp
    have hE0 : 0 < E := by rw [hE]; exact p10_pos _
    have hE5 : E ≤ 1 / 10 ^ 5 := by
      rw [hE]
      calc (10 : ℚ) ^ (-((fdig - 1 : ℕ) : ℤ)) ≤ 10 ^ (-5 : ℤ) := zpow_le_zpow_right₀ (by norm_num) (by omega)
        _ = _ := by norm_num
    have serr := hs.serr
    have verr := hs.verr
    rw [show (43 : ℚ) / 10 / 10 ^ fdig = 43 / 10 * (1 / 10 ^ fdig) by ring, hE1] at serr
    rw [show (55 : ℚ) / 10 / 10 ^ fdig = 55 / 10 * (1 / 10 ^ fdig) by ring, hE1] at verr
    obtain ⟨l1, a, l2, l3⟩ := sqrtLoop_spec hok (x.prec * c.ed) (t := 6 * E + 320 * eta c c.N) (fdig - 1) (by omega) (by rw [hE]) hη6
      (x.prec * c.ed) (fdig - 1) x (est x).1 (est x).2 (by omega) le_rfl px (posi_of_val hs.swf hs.spos) (posi_of_val hs.vwf hs.vpos)
      hhi hlo (by
        intro h
        have hcast : ((fdig - 1 : ℕ) : ℤ) = fdig - 1 := by omega
        have ho := (hoff (by rw [hcast] at h; linarith)).off
        intro k
        have ht : 6 * E + 320 * eta c c.N ≤ 60 / 10 ^ fdig + 320 / 10 ^ (c.digits10 + 2 * c.ed) := by
          rw [show (60 : ℚ) / 10 ^ fdig = 60 * (1 / 10 ^ fdig) by ring, hE1,
            show (320 : ℚ) / 10 ^ (c.digits10 + 2 * c.ed) = 320 * (1 / 10 ^ (c.digits10 + 2 * c.ed)) by ring]
          linarith
        exact ⟨le_trans ht (ho k).1, le_trans ht (ho k).2⟩)
      ⟨((est x).1.val c ^ 2 - x.val c) / x.val c, by field_simp; ring, by
        rw [abs_div, abs_of_pos hx0, div_le_iff₀ hx0, ← hE]
        have := mul_pos hη hx0
        nlinarith⟩
      ⟨2 * (est x).1.val c * (est x).2.val c - 1, by ring, by
        rw [← hE, ← sq_abs]
        have : |2 * (est x).1.val c * (est x).2.val c - 1| ^ 2 ≤ (55 / 10 * (E / 10)) ^ 2 := pow_le_pow_left₀ (abs_nonneg _) verr 2
        nlinarith, by rw [← hE]; linarith⟩
    generalize sqrtLoop c (x.prec * c.ed) (fdig - 1) (est x).1 (est x).2 x = z at *
    have hrv : r.val c = z.val c := by rw [hr]; rfl
    refine ⟨?_, ?_, a, ?_, ?_⟩
    · rw [hr]; exact ⟨⟨l1.len, l1.valid, l1.dvd, hx.prec2, hx.precN, l1.lead⟩, hx.full⟩
    · rw [hrv]; exact l1.val_pos
    · rw [hrv, pow_two]; exact l2
    · rw [hx.full] at l3
      refine le_trans l3 ?_
      linarith

/-- C27: for every x > 0 inside the exponent range, if the floating-point start values are good enough, the coupled Newton
    iteration ends with a well-formed positive number whose distance from √x is below 8·10^(-(digits10+2·ed))·√x, two whole
    limbs more than advertised. Missing for the full property: x or 4x within a relative 60·10^(-fdig) + 320·10^(-(digits10+2·ed))
    of an even power of the limb radix, when the iteration works at reduced precision; there a carry out of the first limb
    would be displaced (`reduced_precision_carry_displaced`). Also FFT sizes and the end of the exponent range. -/
theorem sqrt_accuracy_partial (c : Cfg) (est : DW → DW × DW) (fdig : ℕ) (x : DW) (hx : Full c x) (hx0 : 0 < x.val c) (hok : MulOkAll c)
    (hd : 2 ≤ c.digits10) (hf : 6 ≤ fdig) (hlo : -x.exp + (c.N + 6) * c.ed < c.maxExp) (hhi : x.exp + (c.N + 6) * c.ed < c.maxExp)
    (hs : SqrtStartOk c fdig (est x).1 (est x).2 (x.val c))
    (hoff : 2 * (fdig : ℤ) - 1 + c.ed ≤ c.ed * ((c.N : ℤ) - 1) → OffSquares c (60 / 10 ^ fdig + 320 / 10 ^ (c.digits10 + 2 * c.ed)) (x.val c)) :
    let r := calcSqrt c est fdig x
    Full c r ∧ 0 < r.val c ∧ |((r.val c : ℚ) : ℝ) - √((x.val c : ℚ) : ℝ)| < √((x.val c : ℚ) : ℝ) * (8 / 10 ^ (c.digits10 + 2 * c.ed)) := by
  intro r
  obtain ⟨q1, q2, a, q3, q4⟩ := calcSqrt_spec hx hx0 hok hd hf hlo hhi hs hoff
  change Full c r at q1; change 0 < r.val c at q2; change r.val c ^ 2 = _ at q3
  have hη := eta_pos c c.N
  have hηd := eta_N_digits c
  have hη4 := eta_N_le c
  refine ⟨q1, q2, ?_⟩
  obtain ⟨S, hS⟩ : ∃ S, S = √((x.val c : ℚ) : ℝ) := ⟨_, rfl⟩
  have hxr : (0 : ℝ) < ((x.val c : ℚ) : ℝ) := by exact_mod_cast hx0
  have hS0 : 0 < S := by rw [hS]; exact Real.sqrt_pos.mpr hxr
  have hSS : S ^ 2 = ((x.val c : ℚ) : ℝ) := by rw [hS]; exact Real.sq_sqrt hxr.le
  rw [← hS]
  obtain ⟨R, hR⟩ : ∃ R, R = ((r.val c : ℚ) : ℝ) := ⟨_, rfl⟩
  have hR0 : 0 < R := by rw [hR]; exact_mod_cast q2
  rw [← hR]
  obtain ⟨A, hA⟩ : ∃ A, A = ((a : ℚ) : ℝ) := ⟨_, rfl⟩
  obtain ⟨H, hH⟩ : ∃ H, H = ((eta c c.N : ℚ) : ℝ) := ⟨_, rfl⟩
  have hH0 : 0 < H := by rw [hH]; exact_mod_cast hη
  have hH4 : H ≤ 1 / 10 ^ 4 := by
    rw [hH]
    have : ((eta c c.N : ℚ) : ℝ) ≤ ((1 / 10 ^ 4 : ℚ) : ℝ) := by exact_mod_cast le_trans hη4 (by norm_num)
    push_cast at this; exact this
  have hHd : H ≤ 1 / 10 ^ (c.digits10 + 2 * c.ed) := by
    rw [hH]
    have : ((eta c c.N : ℚ) : ℝ) ≤ ((1 / 10 ^ (c.digits10 + 2 * c.ed) : ℚ) : ℝ) := by exact_mod_cast hηd
    push_cast at this; exact this
  have e1 : R ^ 2 = S ^ 2 * (1 + A) := by
    rw [hSS, hR, hA]; exact_mod_cast q3
  have e2 : |A| ≤ 1401 / 100 * H := by
    have : ((|a| : ℚ) : ℝ) ≤ ((1401 / 100 * eta c c.N : ℚ) : ℝ) := by exact_mod_cast q4
    rw [hA, hH]; push_cast at this; exact this
  have e3 : |R - S| * (R + S) = S ^ 2 * |A| := by
    rw [← abs_of_pos (show 0 < R + S by linarith), ← abs_mul, show (R - S) * (R + S) = S ^ 2 * A by
      have : (R - S) * (R + S) = R ^ 2 - S ^ 2 := by ring
      rw [this, e1]; ring, abs_mul, abs_of_pos (show 0 < S ^ 2 by positivity)]
  have hA2 : -(1 / 100) ≤ A := by have := (abs_le.mp e2).1; linarith
  have hRS : 9 / 10 * S ≤ R := by
    by_contra hc
    push Not at hc
    have h1 : R ^ 2 < (9 / 10 * S) ^ 2 := pow_lt_pow_left₀ hc hR0.le (by norm_num)
    have h2 : (9 / 10 * S) ^ 2 = 81 / 100 * S ^ 2 := by ring
    rw [e1, h2] at h1
    have h3 : 0 < S ^ 2 := by positivity
    nlinarith
  have e4 : |R - S| * (19 / 10) ≤ S * |A| := by
    have h1 : |R - S| * (19 / 10 * S) ≤ |R - S| * (R + S) := mul_le_mul_of_nonneg_left (by linarith) (abs_nonneg _)
    rw [e3] at h1
    have h2 : (|R - S| * (19 / 10)) * S ≤ (S * |A|) * S := by nlinarith
    exact le_of_mul_le_mul_right h2 hS0
  have h5 : S * |A| ≤ S * (1401 / 100 * H) := mul_le_mul_of_nonneg_left e2 hS0.le
  have h6 : S * H ≤ S * (1 / 10 ^ (c.digits10 + 2 * c.ed)) := mul_le_mul_of_nonneg_left hHd hS0.le
  have h7 : 0 < S * (1 / 10 ^ (c.digits10 + 2 * c.ed)) := by positivity
  have h8 : S * (8 / 10 ^ (c.digits10 + 2 * c.ed)) = 8 * (S * (1 / 10 ^ (c.digits10 + 2 * c.ed))) := by ring
  rw [h8]
  linarith

/-- Start values for √12.345678 with six good digits. -/
def exSqrtStart : DW × DW :=
  ({ data := [3, 51, 36, 42, 0], exp := 0, neg := false, prec := 5 }, { data := [14, 23, 2, 48, 0], exp := -2, neg := false, prec := 5 })

/-- 12.345678 with 8-bit limbs meets the hypotheses (no round at reduced precision), and the result is 3.51364171 (exact: 3.51364170…). -/
example : SqrtStartOk exC 6 exSqrtStart.1 exSqrtStart.2 (exX.val exC) ∧ MulOkAll exC ∧ Full exC exX ∧ 2 ≤ exC.digits10 ∧
    -exX.exp + (exC.N + 6) * exC.ed < exC.maxExp ∧ exX.exp + (exC.N + 6) * exC.ed < exC.maxExp ∧
    ¬ (2 * ((6 : ℕ) : ℤ) - 1 + exC.ed ≤ exC.ed * ((exC.N : ℤ) - 1)) ∧
    calcSqrt exC (fun _ => exSqrtStart) 6 exX = { data := [3, 51, 36, 41, 71], exp := 0, neg := false, prec := 5 } := by
  have h1 : exC.N = 5 := by decide
  have h2 : exC.ed = 2 := by decide
  have h3 : exC.B = 100 := by decide
  have hx : exX.val exC = 12345678 / 1000000 := by
    simp only [DW.val, exX, limbsVal, h1, h2, h3]; norm_num
  have hs : exSqrtStart.1.val exC = 35136420 / 10 ^ 7 := by
    simp only [DW.val, exSqrtStart, limbsVal, h1, h2, h3]; norm_num
  have hv : exSqrtStart.2.val exC = 14230248 / 10 ^ 8 := by
    simp only [DW.val, exSqrtStart, limbsVal, h1, h2, h3]; norm_num
  refine ⟨⟨by decide, ?_, by decide, ?_, ?_, ?_⟩, ?_, by decide, by decide, by decide, by decide, by decide, ?_⟩
  · rw [hs]; norm_num
  · rw [hv]; norm_num
  · rw [hs, hx, abs_le]; norm_num
  · rw [hs, hv, abs_le]; norm_num
  · exact ⟨by decide, fun h => absurd h (by decide)⟩
  · have e : sqrtLoop exC (exX.prec * exC.ed) (6 - 1) exSqrtStart.1 exSqrtStart.2 exX =
        (sqrtStep exC 5 exSqrtStart.1 exSqrtStart.2 exX).1 := by
      rw [sqrtLoop, dif_pos (by decide), sqrtLoop, dif_neg (by decide)]
    unfold calcSqrt
    rw [if_neg (by decide), if_neg (by decide), if_neg (by decide)]
    change ({ sqrtLoop exC (exX.prec * exC.ed) (6 - 1) exSqrtStart.1 exSqrtStart.2 exX with prec := exX.prec } : DW) = _
    rw [e]
    decide +kernel

/-- The number 2 with 32-bit limbs and float: here rounds at reduced precision occur, and 2 is far from the even powers of
    the radix in the sense required. -/
example : 2 * ((6 : ℕ) : ℤ) - 1 + exC10.ed ≤ exC10.ed * ((exC10.N : ℤ) - 1) ∧
    OffSquares exC10 (60 / 10 ^ 6 + 320 / 10 ^ (exC10.digits10 + 2 * exC10.ed)) 2 := by
  have h2 : exC10.digits10 + 2 * exC10.ed = 26 := by decide
  have h3 : exC10.B = 100000000 := by decide
  refine ⟨by decide, fun k => ?_⟩
  rw [h2, h3]
  push_cast
  rw [zpow_mul]
  obtain ⟨P, hP⟩ : ∃ P, P = ((100000000 : ℚ) ^ (2 : ℤ)) ^ k := ⟨_, rfl⟩
  rw [← hP]
  have hP0 : 0 < P := by rw [hP]; positivity
  rcases lt_trichotomy k 0 with h | h | h
  · have : P ≤ ((100000000 : ℚ) ^ (2 : ℤ)) ^ (-1 : ℤ) := by rw [hP]; exact zpow_le_zpow_right₀ (by norm_num) (by omega)
    norm_num at this
    have a1 : 3 ≤ 2 / P := by rw [le_div_iff₀ hP0]; linarith
    have a2 : 3 ≤ 4 * 2 / P := by rw [le_div_iff₀ hP0]; linarith
    constructor
    · rw [abs_of_pos (by linarith)]; norm_num at *; linarith
    · rw [abs_of_pos (by linarith)]; norm_num at *; linarith
  · rw [hP, h]; norm_num [abs_of_pos]
  · have : ((100000000 : ℚ) ^ (2 : ℤ)) ^ (1 : ℤ) ≤ P := by rw [hP]; exact zpow_le_zpow_right₀ (by norm_num) (by omega)
    norm_num at this
    have a1 : 2 / P ≤ 1 / 2 := by rw [div_le_iff₀ hP0]; linarith
    have a2 : 4 * 2 / P ≤ 1 / 2 := by rw [div_le_iff₀ hP0]; linarith
    constructor
    · rw [abs_of_neg (by linarith)]; norm_num at *; linarith
    · rw [abs_of_neg (by linarith)]; norm_num at *; linarith

end WD
