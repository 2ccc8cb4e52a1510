import Verif.Proofs.Agm3
import Mathlib.Analysis.Complex.ExponentialBounds
/-
  The integral I(1, ε) for small ε: log(4/ε) ≤ I(1, ε) ≤ log(4/ε) + (ε²/4)·(log(4/ε) + 1). And its behaviour under relative
  perturbations of a and b.
-/
namespace WD
open Real MeasureTheory Set

theorem ell_mono {a b a' b' : ℝ} (ha : 0 < a) (hb : 0 < b) (h1 : a ≤ a') (h2 : b ≤ b') : ell a' b' ≤ ell a b := by
  unfold ell
  refine setIntegral_mono (ef_integrable (lt_of_lt_of_le ha h1) (lt_of_lt_of_le hb h2)).integrableOn (ef_integrable ha hb).integrableOn ?_
  intro t
  unfold ef
  refine one_div_le_one_div_of_le (Real.sqrt_pos.mpr (by positivity)) (Real.sqrt_le_sqrt ?_)
  gcongr

/-- A relative perturbation of both arguments by at most δ. -/
theorem ell_perturb {a b a' b' δ : ℝ} (ha : 0 < a) (hb : 0 < b) (hδ0 : 0 ≤ δ) (hδ : δ < 1) (h1 : |a' - a| ≤ δ * a) (h2 : |b' - b| ≤ δ * b) :
    (1 - δ) * ell a' b' ≤ ell a b ∧ ell a b ≤ (1 + δ) * ell a' b' := by
  obtain ⟨p1, p2⟩ := abs_le.mp h1
  obtain ⟨q1, q2⟩ := abs_le.mp h2
  have hd : 0 < 1 - δ := by linarith
  have hd' : 0 < 1 + δ := by linarith
  have ha' : 0 < a' := lt_of_lt_of_le (mul_pos hd ha) (by linarith)
  have hb' : 0 < b' := lt_of_lt_of_le (mul_pos hd hb) (by linarith)
  constructor
  · have := ell_mono (a' := a') (b' := b') (mul_pos hd ha) (mul_pos hd hb) (by linarith) (by linarith)
    rw [ell_scale hd] at this
    calc (1 - δ) * ell a' b' ≤ (1 - δ) * ((1 - δ)⁻¹ * ell a b) := mul_le_mul_of_nonneg_left this hd.le
      _ = ell a b := by field_simp
  · have := ell_mono (a' := (1 + δ) * a) (b' := (1 + δ) * b) ha' hb' (by linarith) (by linarith)
    rw [ell_scale hd'] at this
    calc ell a b = (1 + δ) * ((1 + δ)⁻¹ * ell a b) := by field_simp
      _ ≤ _ := mul_le_mul_of_nonneg_left this hd'.le

/-- I(1, ε) is twice the integral up to √ε. -/
theorem ell_half {s : ℝ} (hs : 0 < s) : ell 1 (s ^ 2) = 2 * ∫ t in (0:ℝ)..s, ef 1 (s ^ 2) t := by
  have hs2 : 0 < s ^ 2 := by positivity
  have hint := ef_integrable one_pos hs2
  have h := ell_inversion one_pos hs2 ((Iic s).indicator fun _ => (1:ℝ))
  have e1 : ∫ t in Ioi (0:ℝ), (Iic s).indicator (fun _ => (1:ℝ)) t * ef 1 (s ^ 2) t = ∫ t in Ioc 0 s, ef 1 (s ^ 2) t := by
    have : (fun t => (Iic s).indicator (fun _ => (1:ℝ)) t * ef 1 (s ^ 2) t) = (Iic s).indicator (ef 1 (s ^ 2)) := by
      funext t
      by_cases ht : t ∈ Iic s
      · rw [indicator_of_mem ht, indicator_of_mem ht, one_mul]
      · rw [indicator_of_notMem ht, indicator_of_notMem ht, zero_mul]
    rw [this, setIntegral_indicator measurableSet_Iic, Ioi_inter_Iic]
  have e2 : ∫ t in Ioi (0:ℝ), (Iic s).indicator (fun _ => (1:ℝ)) (1 * s ^ 2 / t) * ef 1 (s ^ 2) t = ∫ t in Ioi s, ef 1 (s ^ 2) t := by
    have : ∫ t in Ioi (0:ℝ), (Iic s).indicator (fun _ => (1:ℝ)) (1 * s ^ 2 / t) * ef 1 (s ^ 2) t =
        ∫ t in Ioi (0:ℝ), (Ici s).indicator (ef 1 (s ^ 2)) t := by
      refine setIntegral_congr_fun measurableSet_Ioi fun t ht => ?_
      have ht0 : 0 < t := ht
      have hiff : 1 * s ^ 2 / t ∈ Iic s ↔ t ∈ Ici s := by
        rw [mem_Iic, mem_Ici, div_le_iff₀ ht0, one_mul, pow_two]
        exact ⟨fun h => le_of_mul_le_mul_left h hs, fun h => mul_le_mul_of_nonneg_left h hs.le⟩
      beta_reduce
      by_cases hm : t ∈ Ici s
      · rw [indicator_of_mem hm, indicator_of_mem (hiff.mpr hm), one_mul]
      · rw [indicator_of_notMem hm, indicator_of_notMem (fun h => hm (hiff.mp h)), zero_mul]
    rw [this, setIntegral_indicator measurableSet_Ici, inter_eq_right.mpr, integral_Ici_eq_integral_Ioi]
    exact fun t ht => lt_of_lt_of_le hs ht
  have hsum : ell 1 (s ^ 2) = (∫ t in Ioc 0 s, ef 1 (s ^ 2) t) + ∫ t in Ioi s, ef 1 (s ^ 2) t := by
    unfold ell
    rw [← setIntegral_union (by rw [Set.disjoint_iff]; rintro t ⟨h1, h2⟩; exact absurd (mem_Ioi.mp h2) (not_lt.mpr h1.2)) measurableSet_Ioi
      hint.integrableOn hint.integrableOn, Ioc_union_Ioi_eq_Ioi hs.le]
  rw [e1, e2] at h
  rw [hsum, ← h, intervalIntegral.integral_of_le hs.le]
  ring

/-- Bounds for 1/√(1+t²). -/
theorem inv_sqrt_bounds (t : ℝ) : 1 - t ^ 2 / 2 ≤ 1 / √(1 + t ^ 2) ∧ 1 / √(1 + t ^ 2) ≤ 1 - t ^ 2 / 2 + 3 / 8 * t ^ 4 := by
  have hp : 0 < √(1 + t ^ 2) := Real.sqrt_pos.mpr (by positivity)
  have hsq : √(1 + t ^ 2) ^ 2 = 1 + t ^ 2 := Real.sq_sqrt (by positivity)
  set r := √(1 + t ^ 2) with hr
  have hr1 : 1 ≤ r := by nlinarith [sq_nonneg t]
  have ht : t ^ 2 = r ^ 2 - 1 := by linarith
  have ht4 : t ^ 4 = (r ^ 2 - 1) ^ 2 := by rw [← ht]; ring
  rw [ht4, ht]
  constructor
  · rw [le_div_iff₀ hp]
    nlinarith [sq_nonneg (r - 1), mul_nonneg (sq_nonneg (r - 1)) (by linarith : 0 ≤ r + 2)]
  · rw [div_le_iff₀ hp]
    -- 8 ≤ r (8 - 4 (r²-1) + 3 (r²-1)²) = 3 r⁵ - 10 r³ + 15 r; 3 r⁵ - 10 r³ + 15 r - 8 = (r-1)³ (3 r² + 9 r + 8)
    have : 0 ≤ (r - 1) ^ 3 * (3 * r ^ 2 + 9 * r + 8) := mul_nonneg (pow_nonneg (by linarith) 3) (by positivity)
    nlinarith [this]

/-- The antiderivative of (1 - t²/2)/√(t²+ε²). -/
theorem agm_deriv {e : ℝ} (he : 0 < e) (t : ℝ) (ht : 0 ≤ t) :
    HasDerivAt (fun t => (1 + e ^ 2 / 4) * log (t + √(t ^ 2 + e ^ 2)) - t * √(t ^ 2 + e ^ 2) / 4) ((1 - t ^ 2 / 2) / √(t ^ 2 + e ^ 2)) t := by
  have hpos : 0 < t ^ 2 + e ^ 2 := by positivity
  have hq : 0 < √(t ^ 2 + e ^ 2) := Real.sqrt_pos.mpr hpos
  have hsq : √(t ^ 2 + e ^ 2) ^ 2 = t ^ 2 + e ^ 2 := Real.sq_sqrt hpos.le
  have d1 : HasDerivAt (fun t : ℝ => t ^ 2 + e ^ 2) (2 * t) t := by
    have := (hasDerivAt_pow 2 t).add_const (e ^ 2)
    exact this.congr_deriv (by norm_num)
  have d2 : HasDerivAt (fun t : ℝ => √(t ^ 2 + e ^ 2)) (t / √(t ^ 2 + e ^ 2)) t := by
    have := d1.sqrt hpos.ne'
    exact this.congr_deriv (by field_simp)
  have d3 : HasDerivAt (fun t : ℝ => log (t + √(t ^ 2 + e ^ 2))) (1 / √(t ^ 2 + e ^ 2)) t := by
    have := ((hasDerivAt_id t).add d2).log (by change t + √(t ^ 2 + e ^ 2) ≠ 0; positivity)
    refine this.congr_deriv ?_
    change (1 + t / √(t ^ 2 + e ^ 2)) / (t + √(t ^ 2 + e ^ 2)) = _
    have : t + √(t ^ 2 + e ^ 2) ≠ 0 := by positivity
    field_simp
    ring
  have d4 : HasDerivAt (fun t : ℝ => t * √(t ^ 2 + e ^ 2)) (√(t ^ 2 + e ^ 2) + t * (t / √(t ^ 2 + e ^ 2))) t := by
    have := (hasDerivAt_id t).mul d2
    exact this.congr_deriv (by simp)
  have := (d3.const_mul (1 + e ^ 2 / 4)).sub (d4.div_const 4)
  refine this.congr_deriv ?_
  field_simp
  rw [hsq]
  ring

theorem agm_integral {s : ℝ} (hs : 0 < s) : ∫ t in (0:ℝ)..s, (1 - t ^ 2 / 2) / √(t ^ 2 + (s ^ 2) ^ 2) =
    (1 + (s ^ 2) ^ 2 / 4) * log ((1 + √(1 + s ^ 2)) / s) - s ^ 2 * √(1 + s ^ 2) / 4 := by
  have he : 0 < s ^ 2 := by positivity
  have hc : Continuous fun t : ℝ => (1 - t ^ 2 / 2) / √(t ^ 2 + (s ^ 2) ^ 2) := by
    refine Continuous.div (by fun_prop) (by fun_prop) fun t => ?_
    exact (Real.sqrt_pos.mpr (by positivity)).ne'
  rw [intervalIntegral.integral_eq_sub_of_hasDerivAt (f := fun t => (1 + (s ^ 2) ^ 2 / 4) * log (t + √(t ^ 2 + (s ^ 2) ^ 2)) - t * √(t ^ 2 + (s ^ 2) ^ 2) / 4)
    (fun t ht => agm_deriv he t ?_) (hc.intervalIntegrable _ _)]
  · have h1 : √(s ^ 2 + (s ^ 2) ^ 2) = s * √(1 + s ^ 2) := by
      rw [show s ^ 2 + (s ^ 2) ^ 2 = s ^ 2 * (1 + s ^ 2) by ring, Real.sqrt_mul (by positivity), Real.sqrt_sq hs.le]
    have h2 : √((0:ℝ) ^ 2 + (s ^ 2) ^ 2) = s ^ 2 := by
      rw [show (0:ℝ) ^ 2 + (s ^ 2) ^ 2 = (s ^ 2) ^ 2 by ring, Real.sqrt_sq he.le]
    simp only [h1, h2]
    have hw : 0 < 1 + √(1 + s ^ 2) := by positivity
    have h3 : log (s + s * √(1 + s ^ 2)) = log ((1 + √(1 + s ^ 2)) / s) + log (s ^ 2) := by
      rw [← Real.log_mul (by positivity) (by positivity)]
      congr 1; field_simp
    rw [h3, zero_add]
    ring
  · rw [uIcc_of_le hs.le] at ht; exact ht.1

theorem ef_split (e t : ℝ) : ef 1 e t = 1 / √(1 + t ^ 2) / √(t ^ 2 + e ^ 2) := by
  unfold ef
  rw [Real.sqrt_mul (by positivity), one_pow, add_comm (t ^ 2) 1]
  field_simp

/-- I(1, ε) against log(4/ε). -/
theorem ell_log {ε : ℝ} (h0 : 0 < ε) (h1 : ε ≤ 1 / 4) :
    log (4 / ε) ≤ ell 1 ε ∧ ell 1 ε ≤ log (4 / ε) + ε ^ 2 / 4 * (log (4 / ε) + 1) := by
  set s := √ε with hsd
  have hs : 0 < s := Real.sqrt_pos.mpr h0
  have hse : ε = s ^ 2 := (Real.sq_sqrt h0.le).symm
  have hint : ∀ f : ℝ → ℝ, Continuous f → Continuous fun t : ℝ => f t / √(t ^ 2 + ε ^ 2) := fun f hf =>
    Continuous.div hf (by fun_prop) fun t => (Real.sqrt_pos.mpr (by positivity)).ne'
  have hefc := ef_cont one_pos h0
  have hA := agm_integral hs
  rw [← hse] at hA
  have hell : ell 1 ε = 2 * ∫ t in (0:ℝ)..s, ef 1 ε t := by
    have := ell_half hs
    rwa [← hse] at this
  -- the two bounds by integrals
  have lo : (∫ t in (0:ℝ)..s, (1 - t ^ 2 / 2) / √(t ^ 2 + ε ^ 2)) ≤ ∫ t in (0:ℝ)..s, ef 1 ε t := by
    refine intervalIntegral.integral_mono_on hs.le ((hint _ (by fun_prop)).intervalIntegrable _ _) (hefc.intervalIntegrable _ _) fun t _ => ?_
    rw [ef_split]
    exact div_le_div_of_nonneg_right (inv_sqrt_bounds t).1 (Real.sqrt_nonneg _)
  have hi : (∫ t in (0:ℝ)..s, ef 1 ε t) ≤ (∫ t in (0:ℝ)..s, (1 - t ^ 2 / 2) / √(t ^ 2 + ε ^ 2)) + 3 / 32 * ε ^ 2 := by
    have h3 : (∫ t in (0:ℝ)..s, 3 / 8 * t ^ 3) = 3 / 32 * ε ^ 2 := by
      rw [intervalIntegral.integral_const_mul, integral_pow, hse]; ring
    rw [← h3, ← intervalIntegral.integral_add ((hint _ (by fun_prop)).intervalIntegrable _ _) ((by fun_prop : Continuous fun t : ℝ => 3 / 8 * t ^ 3).intervalIntegrable _ _)]
    refine intervalIntegral.integral_mono_on hs.le (hefc.intervalIntegrable _ _)
      (((hint _ (by fun_prop)).add (by fun_prop)).intervalIntegrable _ _) fun t ht => ?_
    rw [ef_split]
    have hq : 0 < √(t ^ 2 + ε ^ 2) := Real.sqrt_pos.mpr (by positivity)
    have hqt : t ≤ √(t ^ 2 + ε ^ 2) := Real.le_sqrt_of_sq_le (by linarith [sq_nonneg ε])
    calc 1 / √(1 + t ^ 2) / √(t ^ 2 + ε ^ 2) ≤ (1 - t ^ 2 / 2 + 3 / 8 * t ^ 4) / √(t ^ 2 + ε ^ 2) :=
          div_le_div_of_nonneg_right (inv_sqrt_bounds t).2 hq.le
      _ = (1 - t ^ 2 / 2) / √(t ^ 2 + ε ^ 2) + 3 / 8 * t ^ 3 * (t / √(t ^ 2 + ε ^ 2)) := by ring
      _ ≤ _ := by
        have : t / √(t ^ 2 + ε ^ 2) ≤ 1 := by rw [div_le_one hq]; exact hqt
        have h3 : 0 ≤ 3 / 8 * t ^ 3 := by have := ht.1; positivity
        have := mul_le_mul_of_nonneg_left this h3
        linarith
  -- the logarithm
  set w := √(1 + ε) with hw
  have hww : w ^ 2 = 1 + ε := Real.sq_sqrt (by positivity)
  have hw0 : 0 ≤ w := Real.sqrt_nonneg _
  have hw1 : 1 ≤ w := by nlinarith
  have hw2 : w ≤ 1 + ε / 2 := by nlinarith [sq_nonneg ε]
  have hlog : 2 * log ((1 + w) / s) = log (4 / ε) + 2 * log ((1 + w) / 2) := by
    have : log ((1 + w) / s) * 2 = log (((1 + w) / s) ^ 2) := by rw [Real.log_pow]; push_cast; ring
    rw [mul_comm, this, mul_comm 2, show log ((1 + w) / 2) * 2 = log (((1 + w) / 2) ^ 2) by rw [Real.log_pow]; push_cast; ring,
      ← Real.log_mul (by positivity) (by positivity)]
    congr 1
    rw [div_pow, div_pow, ← hse]
    field_simp
    norm_num
  obtain ⟨z, hz⟩ : ∃ z, z = (w - 1) / 2 := ⟨_, rfl⟩
  have hz0 : 0 ≤ z := by rw [hz]; linarith
  have hzs : (1 + w) / 2 = 1 + z := by rw [hz]; ring
  have hz1 : z ≤ ε / 4 := by rw [hz]; linarith
  have hz2 : ε / 4 - ε ^ 2 / 16 ≤ z := by
    rw [hz]
    have : (1 + ε / 2 - ε ^ 2 / 8) ^ 2 ≤ w ^ 2 := by rw [hww]; nlinarith [pow_pos h0 3, pow_pos h0 2]
    have := (abs_le_of_sq_le_sq' this hw0).2
    linarith
  have hl1 : log (1 + z) ≤ z := by have := Real.log_le_sub_one_of_pos (show 0 < 1 + z by linarith); linarith
  have hl2 : z - z ^ 2 / 2 ≤ log (1 + z) := by
    have := Real.le_log_one_add_of_nonneg hz0
    refine le_trans ?_ this
    rw [le_div_iff₀ (by linarith)]
    nlinarith [pow_nonneg hz0 3]
  rw [hell]
  rw [hA] at lo hi
  rw [hzs] at hlog
  have hL : 2 < log (4 / ε) := by
    have h16 : (16 : ℝ) ≤ 4 / ε := by rw [le_div_iff₀ h0]; linarith
    have : log 16 ≤ log (4 / ε) := Real.log_le_log (by norm_num) h16
    have h2 : log 16 = 4 * log 2 := by rw [show (16:ℝ) = 2 ^ 4 by norm_num, Real.log_pow]; push_cast; ring
    have := Real.log_two_gt_d9
    linarith
  generalize log (4 / ε) = L at *
  generalize log ((1 + w) / s) = A at *
  generalize log (1 + z) = l at *
  generalize (∫ t in (0:ℝ)..s, ef 1 ε t) = I at *
  have hzz : z ^ 2 ≤ ε ^ 2 / 16 := by nlinarith
  have hA2 : A = (L + 2 * l) / 2 := by linarith
  rw [hA2] at lo hi
  have hε2 : 0 < ε ^ 2 := by positivity
  have hl0 : 0 ≤ l := by nlinarith
  constructor
  · -- 2I ≥ (1+ε²/4)(L+2l) - εw/2 ≥ L + ε²L/4 - 7ε²/16
    have k1 : 2 * ((1 + ε ^ 2 / 4) * ((L + 2 * l) / 2) - ε * w / 4) = L + ε ^ 2 / 4 * L + 2 * l + ε ^ 2 / 2 * l - ε * w / 2 := by ring
    have k2 : ε * w ≤ ε * (1 + ε / 2) := mul_le_mul_of_nonneg_left hw2 h0.le
    have k3 : ε ^ 2 / 4 * 2 ≤ ε ^ 2 / 4 * L := mul_le_mul_of_nonneg_left hL.le (by positivity)
    have k4 : 0 ≤ ε ^ 2 / 2 * l := by positivity
    have k5 : ε * (1 + ε / 2) = ε + ε ^ 2 / 2 := by ring
    linarith
  · have k1 : 2 * ((1 + ε ^ 2 / 4) * ((L + 2 * l) / 2) - ε * w / 4) = L + ε ^ 2 / 4 * L + 2 * l + ε ^ 2 / 2 * l - ε * w / 2 := by ring
    have k2 : ε * 1 ≤ ε * w := mul_le_mul_of_nonneg_left hw1 h0.le
    have k3 : ε ^ 2 / 2 * l ≤ ε ^ 2 / 2 * (1 / 16) := mul_le_mul_of_nonneg_left (by linarith) (by positivity)
    linarith

end WD
