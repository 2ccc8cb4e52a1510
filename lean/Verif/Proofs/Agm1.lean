import Mathlib.MeasureTheory.Function.JacobianOneDim
import Mathlib.MeasureTheory.Measure.Lebesgue.Integral
import Mathlib.Analysis.SpecialFunctions.ImproperIntegrals
import Mathlib.Analysis.SpecialFunctions.Pow.Real
/-
  Complete elliptic integrals in Gauss' form and their invariance under the arithmetic-geometric step.
-/
namespace WD
open MeasureTheory Set Real

/-- 1/√((t²+a²)(t²+b²)). -/
noncomputable def ef (a b t : ℝ) : ℝ := 1 / √((t ^ 2 + a ^ 2) * (t ^ 2 + b ^ 2))

/-- ∫₀^∞ dt/√((t²+a²)(t²+b²)). -/
noncomputable def ell (a b : ℝ) : ℝ := ∫ t in Ioi (0:ℝ), ef a b t

/-- ∫₀^∞ a²/(t²+a²) dt/√((t²+a²)(t²+b²)). -/
noncomputable def ellQ (a b : ℝ) : ℝ := ∫ t in Ioi (0:ℝ), a ^ 2 / (t ^ 2 + a ^ 2) * ef a b t

theorem ef_comm (a b t : ℝ) : ef a b t = ef b a t := by unfold ef; rw [mul_comm]

theorem ef_nonneg (a b t : ℝ) : 0 ≤ ef a b t := by unfold ef; positivity

theorem ef_even (a b t : ℝ) : ef a b |t| = ef a b t := by unfold ef; rw [sq_abs]

theorem ef_cont {a b : ℝ} (ha : 0 < a) (hb : 0 < b) : Continuous (ef a b) := by
  unfold ef
  refine continuous_const.div (by fun_prop) fun t => ?_
  have : 0 < (t ^ 2 + a ^ 2) * (t ^ 2 + b ^ 2) := by positivity
  exact (Real.sqrt_pos.mpr this).ne'

theorem ef_le_inv {a b m t : ℝ} (hm : 0 < m) (ha : m ≤ a) (hb : m ≤ b) : ef a b t ≤ 1 / (t ^ 2 + m ^ 2) := by
  unfold ef
  refine one_div_le_one_div_of_le (by positivity) ?_
  refine Real.le_sqrt_of_sq_le ?_
  rw [pow_two]
  have h1 := pow_le_pow_left₀ hm.le ha 2
  have h2 := pow_le_pow_left₀ hm.le hb 2
  exact mul_le_mul (by linarith) (by linarith) (by positivity) (by positivity)

theorem inv_le_ef {a b m t : ℝ} (ha : 0 < a) (hb : 0 < b) (ham : a ≤ m) (hbm : b ≤ m) : 1 / (t ^ 2 + m ^ 2) ≤ ef a b t := by
  unfold ef
  refine one_div_le_one_div_of_le (by positivity) ?_
  rw [Real.sqrt_le_left (by positivity), show (t ^ 2 + m ^ 2) ^ 2 = (t ^ 2 + m ^ 2) * (t ^ 2 + m ^ 2) by ring]
  have h1 := pow_le_pow_left₀ ha.le ham 2
  have h2 := pow_le_pow_left₀ hb.le hbm 2
  exact mul_le_mul (by linarith) (by linarith) (by positivity) (by positivity)

theorem inv_scaled {m : ℝ} (hm : 0 < m) : (fun t : ℝ => 1 / (t ^ 2 + m ^ 2)) = fun t => (m ^ 2)⁻¹ * (fun x : ℝ => (1 + x ^ 2)⁻¹) (m⁻¹ * t) := by
  funext t
  beta_reduce
  have : m ≠ 0 := hm.ne'
  field_simp
  ring

theorem inv_integrable {m : ℝ} (hm : 0 < m) : Integrable fun t : ℝ => 1 / (t ^ 2 + m ^ 2) := by
  rw [inv_scaled hm]
  exact (integrable_inv_one_add_sq.comp_mul_left' (inv_ne_zero hm.ne')).const_mul _

theorem inv_integral {m : ℝ} (hm : 0 < m) : ∫ t in Ioi (0:ℝ), 1 / (t ^ 2 + m ^ 2) = π / (2 * m) := by
  rw [inv_scaled hm, integral_const_mul, integral_comp_mul_left_Ioi (fun x : ℝ => (1 + x ^ 2)⁻¹) 0 (inv_pos.mpr hm), mul_zero, integral_Ioi_inv_one_add_sq, inv_inv,
    Real.arctan_zero, smul_eq_mul]
  have : m ≠ 0 := hm.ne'
  field_simp
  ring

theorem ef_integrable {a b : ℝ} (ha : 0 < a) (hb : 0 < b) : Integrable (ef a b) := by
  have hm : 0 < min a b := lt_min ha hb
  refine (inv_integrable hm).mono' (ef_cont ha hb).aestronglyMeasurable (Filter.Eventually.of_forall fun t => ?_)
  rw [Real.norm_of_nonneg (ef_nonneg _ _ _)]
  exact ef_le_inv hm (min_le_left _ _) (min_le_right _ _)

theorem wt_le {a t : ℝ} (ha : 0 < a) : a ^ 2 / (t ^ 2 + a ^ 2) ≤ 1 := by
  rw [div_le_one (by positivity)]; nlinarith [sq_nonneg t]

theorem q_integrable {a b : ℝ} (ha : 0 < a) (hb : 0 < b) : Integrable fun t => a ^ 2 / (t ^ 2 + a ^ 2) * ef a b t := by
  refine (ef_integrable ha hb).mono' ?_ (Filter.Eventually.of_forall fun t => ?_)
  · refine (Continuous.mul ?_ (ef_cont ha hb)).aestronglyMeasurable
    exact continuous_const.div (by fun_prop) fun t => by positivity
  · have h0 : 0 ≤ a ^ 2 / (t ^ 2 + a ^ 2) := by positivity
    rw [Real.norm_of_nonneg (mul_nonneg h0 (ef_nonneg _ _ _))]
    exact mul_le_of_le_one_left (ef_nonneg _ _ _) (wt_le ha)

theorem ell_comm (a b : ℝ) : ell a b = ell b a := by
  unfold ell; simp only [ef_comm a b]

/-- π/(2a) ≤ I(a, b) ≤ π/(2b) for b ≤ a. -/
theorem ell_bounds {a b : ℝ} (hb : 0 < b) (h : b ≤ a) : π / (2 * a) ≤ ell a b ∧ ell a b ≤ π / (2 * b) := by
  have ha : 0 < a := lt_of_lt_of_le hb h
  constructor
  · rw [← inv_integral ha]
    exact setIntegral_mono (inv_integrable ha).integrableOn (ef_integrable ha hb).integrableOn (fun t => inv_le_ef ha hb le_rfl h)
  · rw [← inv_integral hb]
    exact setIntegral_mono (ef_integrable ha hb).integrableOn (inv_integrable hb).integrableOn (fun t => ef_le_inv hb h le_rfl)

theorem ell_pos {a b : ℝ} (hb : 0 < b) (h : b ≤ a) : 0 < ell a b :=
  lt_of_lt_of_le (by have := lt_of_lt_of_le hb h; positivity) (ell_bounds hb h).1

theorem ellQ_nonneg {a b : ℝ} (ha : 0 < a) : 0 ≤ ellQ a b := by
  refine setIntegral_nonneg measurableSet_Ioi fun t _ => mul_nonneg (by positivity) (ef_nonneg _ _ _)

/-- The substitution t → ab/t. -/
theorem ell_inversion {a b : ℝ} (ha : 0 < a) (hb : 0 < b) (h : ℝ → ℝ) :
    ∫ t in Ioi (0:ℝ), h t * ef a b t = ∫ t in Ioi (0:ℝ), h (a * b / t) * ef a b t := by
  have hab : 0 < a * b := mul_pos ha hb
  have him : (fun t : ℝ => a * b / t) '' Ioi 0 = Ioi 0 := by
    ext y
    constructor
    · rintro ⟨t, ht, rfl⟩; exact div_pos hab ht
    · intro hy
      refine ⟨a * b / y, div_pos hab hy, ?_⟩
      have : y ≠ 0 := (mem_Ioi.mp hy).ne'
      beta_reduce
      field_simp
  have key := integral_image_eq_integral_abs_deriv_smul (s := Ioi (0:ℝ)) (f := fun t => a * b / t) (f' := fun t => -(a * b) / t ^ 2)
    measurableSet_Ioi (fun t ht => by
      have ht0 : t ≠ 0 := (mem_Ioi.mp ht).ne'
      have := ((hasDerivAt_inv ht0).const_mul (a * b)).hasDerivWithinAt (s := Ioi 0)
      simp only [div_eq_mul_inv]
      exact this.congr_deriv (by ring)) (by
      intro x hx y hy hxy
      have hx0 : x ≠ 0 := (mem_Ioi.mp hx).ne'
      have hy0 : y ≠ 0 := (mem_Ioi.mp hy).ne'
      beta_reduce at hxy
      rw [div_eq_div_iff hx0 hy0] at hxy
      exact (mul_left_cancel₀ hab.ne' hxy).symm) (fun t => h t * ef a b t)
  rw [him] at key
  rw [key]
  refine setIntegral_congr_fun measurableSet_Ioi fun t ht => ?_
  have ht0 : 0 < t := ht
  beta_reduce
  rw [smul_eq_mul, abs_div, abs_neg, abs_of_pos hab, abs_of_pos (by positivity : 0 < t ^ 2)]
  have e : ef a b (a * b / t) = t ^ 2 / (a * b) * ef a b t := by
    unfold ef
    have : ((a * b / t) ^ 2 + a ^ 2) * ((a * b / t) ^ 2 + b ^ 2) = (a * b / t ^ 2) ^ 2 * ((t ^ 2 + a ^ 2) * (t ^ 2 + b ^ 2)) := by
      field_simp
      ring
    rw [this, Real.sqrt_mul (by positivity), Real.sqrt_sq (by positivity)]
    field_simp
  rw [e]
  field_simp

/-- Q(a, b) + Q(b, a) = I(a, b). -/
theorem ellQ_add {a b : ℝ} (ha : 0 < a) (hb : 0 < b) : ellQ a b + ellQ b a = ell a b := by
  have h := ell_inversion ha hb (fun t => a ^ 2 / (t ^ 2 + a ^ 2))
  have e : ∫ t in Ioi (0:ℝ), a ^ 2 / ((a * b / t) ^ 2 + a ^ 2) * ef a b t = ∫ t in Ioi (0:ℝ), (ef a b t - b ^ 2 / (t ^ 2 + b ^ 2) * ef b a t) := by
    refine setIntegral_congr_fun measurableSet_Ioi fun t ht => ?_
    have ht0 : 0 < t := ht
    beta_reduce
    rw [ef_comm b a]
    have : a ^ 2 / ((a * b / t) ^ 2 + a ^ 2) = 1 - b ^ 2 / (t ^ 2 + b ^ 2) := by
      have h1 : t ^ 2 + b ^ 2 ≠ 0 := by positivity
      have h2 : (a * b / t) ^ 2 + a ^ 2 = a ^ 2 * (t ^ 2 + b ^ 2) / t ^ 2 := by field_simp; ring
      rw [h2]
      field_simp
      ring
    rw [this]; ring
  unfold ellQ
  rw [h, e, integral_sub (ef_integrable ha hb).integrableOn (q_integrable hb ha).integrableOn]
  unfold ell
  ring

/-- Gauss' substitution u = (t - ab/t)/2. -/
theorem ell_landen {a b : ℝ} (ha : 0 < a) (hb : 0 < b) (h : ℝ → ℝ) :
    ∫ u : ℝ, h u * ef ((a + b) / 2) (√(a * b)) u = ∫ t in Ioi (0:ℝ), 2 * (h ((t - a * b / t) / 2) * ef a b t) := by
  have hab : 0 < a * b := mul_pos ha hb
  have him : (fun t : ℝ => (t - a * b / t) / 2) '' Ioi 0 = univ := by
    refine eq_univ_of_forall fun y => ?_
    have hs : 0 < y ^ 2 + a * b := by positivity
    have hlt : |y| < √(y ^ 2 + a * b) := by
      rw [Real.lt_sqrt (abs_nonneg _), sq_abs]; linarith
    have hpos : 0 < y + √(y ^ 2 + a * b) := by have := neg_abs_le y; linarith
    refine ⟨y + √(y ^ 2 + a * b), hpos, ?_⟩
    beta_reduce
    have hsq := Real.sq_sqrt hs.le
    generalize √(y ^ 2 + a * b) = r at *
    have : a * b = (r - y) * (r + y) := by nlinarith
    rw [this]
    have h2 : y + r ≠ 0 := hpos.ne'
    rw [show (r - y) * (r + y) / (y + r) = r - y by rw [add_comm r y]; field_simp]
    ring
  have key := integral_image_eq_integral_abs_deriv_smul (s := Ioi (0:ℝ)) (f := fun t => (t - a * b / t) / 2) (f' := fun t => (1 + a * b / t ^ 2) / 2)
    measurableSet_Ioi (fun t ht => by
      have ht0 : t ≠ 0 := (mem_Ioi.mp ht).ne'
      have := (((hasDerivAt_id t).sub ((hasDerivAt_inv ht0).const_mul (a * b))).div_const 2).hasDerivWithinAt (s := Ioi 0)
      simp only [div_eq_mul_inv] at this ⊢
      exact this.congr_deriv (by ring)) (by
      intro x hx y hy hxy
      have hx0 : 0 < x := hx
      have hy0 : 0 < y := hy
      beta_reduce at hxy
      have : (x - y) * (1 + a * b / (x * y)) = 0 := by
        have e : a * b / y - a * b / x = a * b * (x - y) / (x * y) := by field_simp
        have : x - y + (a * b / y - a * b / x) = 0 := by linarith
        rw [e] at this
        calc _ = x - y + a * b * (x - y) / (x * y) := by ring
          _ = 0 := this
      rcases mul_eq_zero.mp this with h | h
      · linarith
      · have : 0 < 1 + a * b / (x * y) := by positivity
        linarith) (fun u => h u * ef ((a + b) / 2) (√(a * b)) u)
  rw [him, setIntegral_univ] at key
  rw [key]
  refine setIntegral_congr_fun measurableSet_Ioi fun t ht => ?_
  have ht0 : 0 < t := ht
  beta_reduce
  rw [smul_eq_mul, abs_of_pos (by positivity)]
  have e : (1 + a * b / t ^ 2) / 2 * ef ((a + b) / 2) (√(a * b)) ((t - a * b / t) / 2) = 2 * ef a b t := by
    unfold ef
    rw [Real.sq_sqrt hab.le]
    have : (((t - a * b / t) / 2) ^ 2 + ((a + b) / 2) ^ 2) * (((t - a * b / t) / 2) ^ 2 + a * b) =
        ((1 + a * b / t ^ 2) / 4) ^ 2 * ((t ^ 2 + a ^ 2) * (t ^ 2 + b ^ 2)) := by
      field_simp
      ring
    rw [this, Real.sqrt_mul (by positivity), Real.sqrt_sq (by positivity)]
    have : 0 < √((t ^ 2 + a ^ 2) * (t ^ 2 + b ^ 2)) := Real.sqrt_pos.mpr (by positivity)
    have : 0 < 1 + a * b / t ^ 2 := by positivity
    generalize 1 + a * b / t ^ 2 = w at *
    field_simp
    ring
  calc _ = h ((t - a * b / t) / 2) * ((1 + a * b / t ^ 2) / 2 * ef ((a + b) / 2) (√(a * b)) ((t - a * b / t) / 2)) := by ring
    _ = _ := by rw [e]; ring

/-- I(a, b) is invariant under the arithmetic-geometric step. -/
theorem ell_agm {a b : ℝ} (ha : 0 < a) (hb : 0 < b) : ell ((a + b) / 2) (√(a * b)) = ell a b := by
  have h := ell_landen ha hb (fun _ => 1)
  simp only [one_mul] at h
  have e : ∫ u : ℝ, ef ((a + b) / 2) (√(a * b)) u = 2 * ell ((a + b) / 2) (√(a * b)) := by
    unfold ell
    rw [← integral_comp_abs]
    simp only [ef_even]
  rw [e, integral_const_mul] at h
  unfold ell at *
  linarith

/-- The step for Q: (a²-b²)·Q(a₁, b₁) = 4a₁²·(Q(a, b) - Q(b, a)). -/
theorem ellQ_agm {a b : ℝ} (ha : 0 < a) (hb : 0 < b) :
    (a ^ 2 - b ^ 2) * ellQ ((a + b) / 2) (√(a * b)) = (a + b) ^ 2 * (ellQ a b - ellQ b a) := by
  have h := ell_landen ha hb (fun u => ((a + b) / 2) ^ 2 / (u ^ 2 + ((a + b) / 2) ^ 2))
  have e : ∫ u : ℝ, ((a + b) / 2) ^ 2 / (u ^ 2 + ((a + b) / 2) ^ 2) * ef ((a + b) / 2) (√(a * b)) u = 2 * ellQ ((a + b) / 2) (√(a * b)) := by
    unfold ellQ
    rw [← integral_comp_abs]
    simp only [ef_even, sq_abs]
  rw [e] at h
  have e2 : ∫ t in Ioi (0:ℝ), (a ^ 2 - b ^ 2) * (2 * (((a + b) / 2) ^ 2 / (((t - a * b / t) / 2) ^ 2 + ((a + b) / 2) ^ 2) * ef a b t)) =
      ∫ t in Ioi (0:ℝ), 2 * (a + b) ^ 2 * (a ^ 2 / (t ^ 2 + a ^ 2) * ef a b t - b ^ 2 / (t ^ 2 + b ^ 2) * ef b a t) := by
    refine setIntegral_congr_fun measurableSet_Ioi fun t ht => ?_
    have ht0 : 0 < t := ht
    beta_reduce
    rw [ef_comm b a]
    have : ((t - a * b / t) / 2) ^ 2 + ((a + b) / 2) ^ 2 = (t ^ 2 + a ^ 2) * (t ^ 2 + b ^ 2) / (4 * t ^ 2) := by
      field_simp
      ring
    rw [this]
    have h1 : t ^ 2 + a ^ 2 ≠ 0 := by positivity
    have h2 : t ^ 2 + b ^ 2 ≠ 0 := by positivity
    field_simp
    ring
  rw [integral_const_mul, ← h, integral_const_mul, integral_sub (q_integrable ha hb).integrableOn (q_integrable hb ha).integrableOn] at e2
  change (a ^ 2 - b ^ 2) * (2 * _) = 2 * (a + b) ^ 2 * (ellQ a b - ellQ b a) at e2
  linarith

end WD
