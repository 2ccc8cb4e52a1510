import Verif.Proofs.Agm1
import Mathlib.Analysis.SpecialFunctions.Gamma.Beta
/-
  The lemniscatic case: I(√2, 1)·Q(1, √2) = π/4, through the beta function.
-/
namespace WD
open MeasureTheory Set Real

theorem beta_real {u v : ℝ} (hu : 0 < u) (hv : 0 < v) :
    ∫ x in Ioo (0:ℝ) 1, x ^ (u - 1) * (1 - x) ^ (v - 1) = Real.Gamma u * Real.Gamma v / Real.Gamma (u + v) := by
  have h := Complex.Gamma_mul_Gamma_eq_betaIntegral (s := u) (t := v) (by simpa using hu) (by simpa using hv)
  have hb : Complex.betaIntegral u v = ((∫ x in Ioo (0:ℝ) 1, x ^ (u - 1) * (1 - x) ^ (v - 1) : ℝ) : ℂ) := by
    unfold Complex.betaIntegral
    rw [intervalIntegral.integral_of_le zero_le_one, integral_Ioc_eq_integral_Ioo, ← integral_complex_ofReal]
    refine setIntegral_congr_fun measurableSet_Ioo fun x hx => ?_
    beta_reduce
    rw [Complex.ofReal_mul, Complex.ofReal_cpow hx.1.le, Complex.ofReal_cpow (by linarith [hx.2])]
    push_cast
    rfl
  rw [hb, ← Complex.ofReal_add, Complex.Gamma_ofReal, Complex.Gamma_ofReal, Complex.Gamma_ofReal] at h
  have h' : Real.Gamma u * Real.Gamma v = Real.Gamma (u + v) * ∫ x in Ioo (0:ℝ) 1, x ^ (u - 1) * (1 - x) ^ (v - 1) := by exact_mod_cast h
  rw [h']
  have := (Real.Gamma_pos_of_pos (add_pos hu hv)).ne'
  field_simp

/-- The substitution x = 1/(1+t²)². -/
theorem beta_sub (u : ℝ) :
    ∫ x in Ioo (0:ℝ) 1, x ^ (u - 1) * (1 - x) ^ ((1:ℝ) / 2 - 1) = ∫ t in Ioi (0:ℝ), 4 * (((1 + t ^ 2) ^ 2)⁻¹ ^ (u - 1) * ((1 + t ^ 2) ^ 2)⁻¹ * (1 / √(t ^ 2 + 2))) := by
  have him : (fun t : ℝ => ((1 + t ^ 2) ^ 2)⁻¹) '' Ioi 0 = Ioo 0 1 := by
    ext y
    constructor
    · rintro ⟨t, ht, rfl⟩
      have ht0 : 0 < t := ht
      refine ⟨by positivity, ?_⟩
      apply inv_lt_one_of_one_lt₀
      nlinarith [sq_nonneg (t ^ 2), pow_pos ht0 2]
    · rintro ⟨h0, h1⟩
      have hs : 0 < √y := Real.sqrt_pos.mpr h0
      have hs1 : √y < 1 := by rw [Real.sqrt_lt' one_pos]; simpa using h1
      have hp : 0 < (√y)⁻¹ - 1 := by
        have := one_lt_inv_iff₀.mpr ⟨hs, hs1⟩
        linarith
      refine ⟨√((√y)⁻¹ - 1), Real.sqrt_pos.mpr hp, ?_⟩
      beta_reduce
      rw [Real.sq_sqrt hp.le, add_sub_cancel, inv_pow, inv_inv, Real.sq_sqrt h0.le]
  have key := integral_image_eq_integral_abs_deriv_smul (s := Ioi (0:ℝ)) (f := fun t => ((1 + t ^ 2) ^ 2)⁻¹) (f' := fun t => -(4 * t / (1 + t ^ 2) ^ 3))
    measurableSet_Ioi (fun t ht => by
      have hne : (1 + t ^ 2) ^ 2 ≠ 0 := by positivity
      have h1 : HasDerivAt (fun t : ℝ => (1 + t ^ 2) ^ 2) (2 * (1 + t ^ 2) * (2 * t)) t := by
        have := (((hasDerivAt_id t).pow 2).const_add 1).pow 2
        refine this.congr_deriv ?_
        simp
      refine (h1.inv hne).hasDerivWithinAt.congr_deriv ?_
      have : 1 + t ^ 2 ≠ 0 := by positivity
      field_simp
      ring) (by
      intro x hx y hy hxy
      have hx0 : 0 < x := hx
      have hy0 : 0 < y := hy
      beta_reduce at hxy
      have h2 := inv_injective hxy
      have h3 : 1 + x ^ 2 = 1 + y ^ 2 := (pow_left_inj₀ (by positivity) (by positivity) (by norm_num)).mp h2
      exact (pow_left_inj₀ hx0.le hy0.le (n := 2) (by norm_num)).mp (by linarith)) (fun x => x ^ (u - 1) * (1 - x) ^ ((1:ℝ) / 2 - 1))
  rw [him] at key
  rw [key]
  refine setIntegral_congr_fun measurableSet_Ioi fun t ht => ?_
  have ht0 : 0 < t := ht
  beta_reduce
  rw [smul_eq_mul, abs_neg, abs_of_pos (by positivity)]
  have e : (1 - ((1 + t ^ 2) ^ 2)⁻¹) ^ ((1:ℝ) / 2 - 1) = (1 + t ^ 2) / (t * √(t ^ 2 + 2)) := by
    have e1 : 1 - ((1 + t ^ 2) ^ 2)⁻¹ = (t / (1 + t ^ 2)) ^ 2 * (t ^ 2 + 2) := by
      have : 1 + t ^ 2 ≠ 0 := by positivity
      field_simp
      ring
    rw [e1, show (1:ℝ) / 2 - 1 = -(1 / 2) by norm_num, Real.rpow_neg (by positivity), ← Real.sqrt_eq_rpow, Real.sqrt_mul (by positivity),
      Real.sqrt_sq (by positivity)]
    field_simp
  rw [e]
  have : 0 < √(t ^ 2 + 2) := Real.sqrt_pos.mpr (by positivity)
  have : 0 < 1 + t ^ 2 := by positivity
  generalize ((1 + t ^ 2) ^ 2)⁻¹ ^ (u - 1) = z
  field_simp

theorem ell_lemn : 4 * ell (√2) 1 = Real.Gamma (1 / 4) * Real.Gamma (1 / 2) / Real.Gamma (1 / 4 + 1 / 2) := by
  rw [← beta_real (by norm_num) (by norm_num), beta_sub, integral_const_mul]
  unfold ell
  congr 1
  refine setIntegral_congr_fun measurableSet_Ioi fun t _ => ?_
  beta_reduce
  unfold ef
  have hp : 0 < 1 + t ^ 2 := by positivity
  rw [Real.sq_sqrt (by norm_num), mul_comm (t ^ 2 + 2), Real.sqrt_mul (by positivity), one_pow]
  have e : ((1 + t ^ 2) ^ 2)⁻¹ ^ ((1:ℝ) / 4 - 1) * ((1 + t ^ 2) ^ 2)⁻¹ = 1 / √(t ^ 2 + 1) := by
    rw [← Real.rpow_add_one (by positivity), show (1:ℝ) / 4 - 1 + 1 = 1 / 4 by norm_num, ← Real.rpow_natCast, ← Real.rpow_neg hp.le, ← Real.rpow_mul hp.le,
      Real.sqrt_eq_rpow, one_div ((t ^ 2 + 1) ^ ((1:ℝ) / 2)), ← Real.rpow_neg (by positivity), add_comm 1 (t ^ 2)]
    congr 1
    norm_num
  rw [e]
  rw [one_div_mul_one_div]

theorem ellQ_lemn : 4 * ellQ 1 (√2) = Real.Gamma (3 / 4) * Real.Gamma (1 / 2) / Real.Gamma (3 / 4 + 1 / 2) := by
  rw [← beta_real (by norm_num) (by norm_num), beta_sub, integral_const_mul]
  unfold ellQ
  congr 1
  refine setIntegral_congr_fun measurableSet_Ioi fun t _ => ?_
  beta_reduce
  unfold ef
  have hp : 0 < 1 + t ^ 2 := by positivity
  rw [Real.sq_sqrt (by norm_num), Real.sqrt_mul (by positivity), one_pow]
  have e : ((1 + t ^ 2) ^ 2)⁻¹ ^ ((3:ℝ) / 4 - 1) * ((1 + t ^ 2) ^ 2)⁻¹ = 1 / (t ^ 2 + 1) * (1 / √(t ^ 2 + 1)) := by
    rw [← Real.rpow_add_one (by positivity), show (3:ℝ) / 4 - 1 + 1 = 3 / 4 by norm_num, ← Real.rpow_natCast, ← Real.rpow_neg hp.le, ← Real.rpow_mul hp.le,
      Real.sqrt_eq_rpow, one_div, one_div, ← Real.rpow_neg (by positivity), add_comm 1 (t ^ 2), ← Real.rpow_neg_one, ← Real.rpow_add (by positivity)]
    congr 1
    norm_num
  rw [e, mul_assoc, one_div_mul_one_div, one_div_mul_one_div, one_div_mul_one_div]

/-- Legendre's relation in the lemniscatic case. -/
theorem lemniscate : ell (√2) 1 * ellQ 1 (√2) = π / 4 := by
  have h1 := ell_lemn
  have h2 := ellQ_lemn
  have g1 : Real.Gamma (3 / 4 + 1 / 2) = 1 / 4 * Real.Gamma (1 / 4) := by
    rw [show (3:ℝ) / 4 + 1 / 2 = 1 / 4 + 1 by norm_num, Real.Gamma_add_one (by norm_num)]
  rw [show (1:ℝ) / 4 + 1 / 2 = 3 / 4 by norm_num, Real.Gamma_one_half_eq] at h1
  rw [g1, Real.Gamma_one_half_eq] at h2
  have p1 : 0 < Real.Gamma (1 / 4) := Real.Gamma_pos_of_pos (by norm_num)
  have p2 : 0 < Real.Gamma (3 / 4) := Real.Gamma_pos_of_pos (by norm_num)
  have hs : √π * √π = π := Real.mul_self_sqrt Real.pi_pos.le
  have : (4 * ell (√2) 1) * (4 * ellQ 1 (√2)) = 4 * π := by
    rw [h1, h2]
    generalize Real.Gamma (1 / 4) = x at *
    generalize Real.Gamma (3 / 4) = y at *
    calc x * √π / y * (y * √π / (1 / 4 * x)) = 4 * (√π * √π) := by field_simp
      _ = _ := by rw [hs]
  linarith

end WD
