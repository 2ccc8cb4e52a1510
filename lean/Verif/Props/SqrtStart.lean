import Verif.Proofs.SqrtStart
import Verif.Props.Start
/-
  C27 with the start values the code computes in a covered type (`FloatOk`) (`estSqrt`).
-/
namespace WD
open DW

/-- A square root function as assumed exists for every floating-point type with at least one bit. -/
theorem sqrt_fn_exists (F : Flt) (hp : 1 ≤ F.p) : ∃ sq, F.IsSqrt sq := by
  have hu0 := F.u_pos
  have hu1 := F.u_lt hp
  have key : ∀ q : ℚ, 0 < q → ∃ r : ℚ, 0 < r ∧ (1 - F.u) ^ 2 * q ≤ r ^ 2 ∧ r ^ 2 ≤ (1 + F.u) ^ 2 * q := by
    intro q hq
    have hqr : (0 : ℝ) < q := by exact_mod_cast hq
    have hS : 0 < √(q : ℝ) := Real.sqrt_pos.mpr hqr
    have hSS : √(q : ℝ) ^ 2 = q := Real.sq_sqrt hqr.le
    have hur0 : (0 : ℝ) < F.u := by exact_mod_cast hu0
    have hur1 : (F.u : ℝ) < 1 := by exact_mod_cast hu1
    obtain ⟨r, r1, r2⟩ := exists_rat_btwn (show (1 - (F.u : ℝ)) * √(q : ℝ) < (1 + (F.u : ℝ)) * √(q : ℝ) by nlinarith)
    have hl : 0 < (1 - (F.u : ℝ)) * √(q : ℝ) := mul_pos (by linarith) hS
    have hr0 : (0 : ℝ) < r := lt_trans hl r1
    refine ⟨r, by exact_mod_cast hr0, ?_, ?_⟩
    · have : ((1 - (F.u : ℝ)) * √(q : ℝ)) ^ 2 ≤ (r : ℝ) ^ 2 := pow_le_pow_left₀ hl.le r1.le 2
      rw [mul_pow, hSS] at this
      exact_mod_cast this
    · have : (r : ℝ) ^ 2 ≤ ((1 + (F.u : ℝ)) * √(q : ℝ)) ^ 2 := pow_le_pow_left₀ hr0.le r2.le 2
      rw [mul_pow, hSS] at this
      exact_mod_cast this
  refine ⟨fun q => if h : 0 < q then F.rnd (key q h).choose else 0, fun q hq => ?_⟩
  simp only [dif_pos hq]
  obtain ⟨r0, r1, r2⟩ := (key q hq).choose_spec
  generalize (key q hq).choose = r at *
  have hN : NearF F.u 1 r (F.rnd r) := F.near_rnd hp r0.le (near_refl hu0 hu1)
  have hN2 := NearF.mul hu0 hu1 r0.le r0.le hN hN
  rw [← pow_two, ← pow_two] at hN2
  have h1 : NearF F.u 2 q (r ^ 2) := ⟨r1, r2⟩
  have h2 := h1.trans hu0 hu1 hN2
  exact ⟨F.rep _, hN.pos hu0 hu1 r0, h2.1, h2.2⟩

/-- C27 with the start values the code computes in a covered type (`FloatOk`): for every x > 0 inside the exponent range (and away from
    the even powers of the limb radix, when rounds at reduced precision occur), the computed square root differs from √x by
    less than 8·10^(-(digits10+2·ed))·√x. Missing for the full property: the excluded neighbourhoods, FFT sizes, long double with 32-bit limbs,
    digits10 = 1, and numbers within (N+6) limbs of the exponent limit. -/
theorem sqrt_accuracy_float_partial (c : Cfg) (F : Flt) (hF : FloatOk c F) (sq : ℚ → ℚ) (hsq : F.IsSqrt sq)
    (hK : digitLoops c F ≤ c.N) (x : DW) (hx : Full c x) (hx0 : 0 < x.val c) (hok : MulOkAll c) (hd : 2 ≤ c.digits10)
    (hlo : -x.exp + (c.N + 6) * c.ed < c.maxExp) (hhi : x.exp + (c.N + 6) * c.ed < c.maxExp)
    (hoff : 2 * (F.digits10 : ℤ) - 1 + c.ed ≤ c.ed * ((c.N : ℤ) - 1) →
      OffSquares c (60 / 10 ^ F.digits10 + 320 / 10 ^ (c.digits10 + 2 * c.ed)) (x.val c)) :
    let r := calcSqrt c (estSqrt c F sq) F.digits10 x
    Full c r ∧ 0 < r.val c ∧ |((r.val c : ℚ) : ℝ) - √((x.val c : ℚ) : ℝ)| < √((x.val c : ℚ) : ℝ) * (8 / 10 ^ (c.digits10 + 2 * c.ed)) :=
  sqrt_accuracy_partial c (estSqrt c F sq) F.digits10 x hx hx0 hok hd (digits10_ge hF) hlo hhi
    (sqrt_start_ok hF hsq (posi_of_val hx.toWF hx0) hK).1 hoff

/-- 12.345678 with 8-bit limbs and float meets the hypotheses, with no guard needed; so does it, far from the even powers of
    the radix, with 32-bit limbs. -/
example : exFloat.IsFloat ∧ (∃ sq, exFloat.IsSqrt sq) ∧ digitLoops exC exFloat ≤ exC.N ∧ Full exC exX ∧ 0 < exX.val exC ∧
    MulOkAll exC ∧ 2 ≤ exC.digits10 ∧ -exX.exp + (exC.N + 6) * exC.ed < exC.maxExp ∧ exX.exp + (exC.N + 6) * exC.ed < exC.maxExp ∧
    ¬ (2 * (exFloat.digits10 : ℤ) - 1 + exC.ed ≤ exC.ed * ((exC.N : ℤ) - 1)) := by
  have h1 : exC.N = 5 := by decide
  have h2 : exC.ed = 2 := by decide
  have h3 : exC.B = 100 := by decide
  refine ⟨⟨rfl, rfl, rfl⟩, sqrt_fn_exists _ (by decide), by decide, by decide, ?_, by decide, by decide, by decide, by decide, by decide⟩
  simp only [DW.val, exX, limbsVal, h1, h2, h3]; norm_num

/-- With fewer limbs than a floating-point number fills, the start values of every square root are undefined behaviour (a write
    behind the end of the limb array). -/
theorem sqrt_start_out_of_bounds (c : Cfg) (F : Flt) (sq : ℚ → ℚ) (hK : c.N < digitLoops c F) (hsq : ∀ q, sq q ≠ 0) (x : DW) :
    sqrtStart c F sq x = none := by
  unfold sqrtStart
  have : ∀ q e, ofMantExp c F (sq q) e = none := by
    intro q e
    unfold ofMantExp
    rw [if_neg (hsq q)]
    exact if_neg (by omega)
  simp only [this]

/-- Such a configuration: digits10 = 4 with 8-bit limbs and double. -/
example : exC.N < digitLoops exC exDouble := by decide

end WD
