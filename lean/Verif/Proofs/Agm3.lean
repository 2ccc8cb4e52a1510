import Verif.Proofs.Agm2
/-
  The arithmetic-geometric mean and the formula of Gauss and Legendre for π.
-/
namespace WD
open MeasureTheory Set Real Finset

theorem ef_scale {s : ℝ} (hs : 0 < s) (a b t : ℝ) : ef (s * a) (s * b) (s * t) = (s ^ 2)⁻¹ * ef a b t := by
  unfold ef
  have : ((s * t) ^ 2 + (s * a) ^ 2) * ((s * t) ^ 2 + (s * b) ^ 2) = (s ^ 2) ^ 2 * ((t ^ 2 + a ^ 2) * (t ^ 2 + b ^ 2)) := by ring
  rw [this, Real.sqrt_mul (by positivity), Real.sqrt_sq (by positivity), one_div, one_div, mul_inv]

theorem ell_scale {s : ℝ} (hs : 0 < s) (a b : ℝ) : ell (s * a) (s * b) = s⁻¹ * ell a b := by
  have h := integral_comp_mul_left_Ioi' (ef (s * a) (s * b)) 0 hs
  rw [mul_zero] at h
  unfold ell
  rw [← h]
  simp only [ef_scale hs]
  rw [integral_const_mul, smul_eq_mul]
  field_simp

theorem ellQ_scale {s : ℝ} (hs : 0 < s) (a b : ℝ) : ellQ (s * a) (s * b) = s⁻¹ * ellQ a b := by
  have h := integral_comp_mul_left_Ioi' (fun t => (s * a) ^ 2 / (t ^ 2 + (s * a) ^ 2) * ef (s * a) (s * b) t) 0 hs
  rw [mul_zero] at h
  unfold ellQ
  rw [← h]
  have e : ∀ t : ℝ, (s * a) ^ 2 / ((s * t) ^ 2 + (s * a) ^ 2) = a ^ 2 / (t ^ 2 + a ^ 2) := fun t => by
    rw [mul_pow, mul_pow, ← mul_add, mul_div_mul_left _ _ (by positivity)]
  have e2 : (fun t : ℝ => a ^ 2 / (t ^ 2 + a ^ 2) * ((s ^ 2)⁻¹ * ef a b t)) = fun t => (s ^ 2)⁻¹ * (a ^ 2 / (t ^ 2 + a ^ 2) * ef a b t) := by
    funext t; ring
  simp only [ef_scale hs, e]
  rw [e2, integral_const_mul, smul_eq_mul]
  field_simp

/-- The arithmetic-geometric iteration. -/
noncomputable def agmSeq (a b : ℝ) : ℕ → ℝ × ℝ
  | 0 => (a, b)
  | n + 1 => (((agmSeq a b n).1 + (agmSeq a b n).2) / 2, √((agmSeq a b n).1 * (agmSeq a b n).2))

/-- a_n² - b_n². -/
noncomputable def agmC (a b : ℝ) (n : ℕ) : ℝ := (agmSeq a b n).1 ^ 2 - (agmSeq a b n).2 ^ 2

section
variable {a b : ℝ} (hb : 0 < b) (h : b ≤ a)
include hb h

theorem agmSeq_pos (n : ℕ) : 0 < (agmSeq a b n).2 ∧ (agmSeq a b n).2 ≤ (agmSeq a b n).1 := by
  induction n with
  | zero => exact ⟨hb, h⟩
  | succ n ih =>
    obtain ⟨h0, h1⟩ := ih
    show 0 < √_ ∧ √_ ≤ _ / 2
    have h2 := lt_of_lt_of_le h0 h1
    refine ⟨Real.sqrt_pos.mpr (mul_pos h2 h0), ?_⟩
    rw [Real.sqrt_le_left (by positivity)]
    nlinarith [sq_nonneg ((agmSeq a b n).1 - (agmSeq a b n).2)]

theorem agm_ell (n : ℕ) : ell (agmSeq a b n).1 (agmSeq a b n).2 = ell a b := by
  induction n with
  | zero => rfl
  | succ n ih =>
    obtain ⟨h0, h1⟩ := agmSeq_pos hb h n
    exact (ell_agm (lt_of_lt_of_le h0 h1) h0).trans ih

/-- The arithmetic-geometric mean π/(2I(a, b)) is between b_n and a_n. -/
theorem agm_between (n : ℕ) : (agmSeq a b n).2 ≤ π / (2 * ell a b) ∧ π / (2 * ell a b) ≤ (agmSeq a b n).1 := by
  obtain ⟨h0, h1⟩ := agmSeq_pos hb h n
  obtain ⟨b1, b2⟩ := ell_bounds h0 h1
  rw [agm_ell hb h n] at b1 b2
  have hp := ell_pos hb h
  have h2 := lt_of_lt_of_le h0 h1
  rw [div_le_iff₀ (by positivity)] at b1
  rw [le_div_iff₀ (by positivity)] at b2
  rw [le_div_iff₀ (by positivity), div_le_iff₀ (by positivity)]
  constructor <;> linarith

theorem agmC_succ (n : ℕ) : agmC a b (n + 1) = (((agmSeq a b n).1 - (agmSeq a b n).2) / 2) ^ 2 := by
  obtain ⟨h0, h1⟩ := agmSeq_pos hb h n
  unfold agmC
  show ((_ + _) / 2) ^ 2 - √_ ^ 2 = _
  rw [Real.sq_sqrt (mul_nonneg (lt_of_lt_of_le h0 h1).le h0.le)]
  ring

theorem agmC_nonneg (n : ℕ) : 0 ≤ agmC a b n := by
  obtain ⟨h0, h1⟩ := agmSeq_pos hb h n
  unfold agmC
  have := pow_le_pow_left₀ h0.le h1 2
  linarith

/-- The telescoping sum. -/
theorem agm_tele (n : ℕ) : (a ^ 2 - b ^ 2) * (ellQ a b - ellQ b a) =
    2 ^ n * agmC a b n * (ellQ (agmSeq a b n).1 (agmSeq a b n).2 - ellQ (agmSeq a b n).2 (agmSeq a b n).1) +
      ell a b * ∑ k ∈ range n, 2 ^ (k + 1) * agmC a b (k + 1) := by
  induction n with
  | zero => simp [agmC, agmSeq]
  | succ n ih =>
    obtain ⟨h0, h1⟩ := agmSeq_pos hb h n
    have hp := lt_of_lt_of_le h0 h1
    rw [ih, sum_range_succ, agmC_succ hb h n]
    have hq := ellQ_agm hp h0
    have hs := ellQ_add (agmSeq_pos hb h (n + 1)).1 (lt_of_lt_of_le (agmSeq_pos hb h (n + 1)).1 (agmSeq_pos hb h (n + 1)).2)
    rw [ell_comm, agm_ell hb h (n + 1)] at hs
    have e1 : (agmSeq a b (n + 1)).1 = ((agmSeq a b n).1 + (agmSeq a b n).2) / 2 := rfl
    have e2 : (agmSeq a b (n + 1)).2 = √((agmSeq a b n).1 * (agmSeq a b n).2) := rfl
    rw [e1, e2] at hs ⊢
    unfold agmC
    generalize ellQ (((agmSeq a b n).1 + (agmSeq a b n).2) / 2) (√((agmSeq a b n).1 * (agmSeq a b n).2)) = Q1 at *
    generalize ellQ (√((agmSeq a b n).1 * (agmSeq a b n).2)) (((agmSeq a b n).1 + (agmSeq a b n).2) / 2) = Q2 at *
    generalize ellQ (agmSeq a b n).1 (agmSeq a b n).2 - ellQ (agmSeq a b n).2 (agmSeq a b n).1 = R at *
    generalize (agmSeq a b n).1 = x at *
    generalize (agmSeq a b n).2 = y at *
    generalize ell a b = I at *
    have hq2 : (x - y) * Q1 = (x + y) * R := by
      have : (x + y) * ((x - y) * Q1) = (x + y) * ((x + y) * R) := by linarith
      exact mul_left_cancel₀ (by positivity) this
    have hq3 : (x - y) ^ 2 * Q1 = (x ^ 2 - y ^ 2) * R := by
      calc (x - y) ^ 2 * Q1 = (x - y) * ((x - y) * Q1) := by ring
        _ = _ := by rw [hq2]; ring
    have hQ2 : Q2 = I - Q1 := by linarith
    rw [hQ2, pow_succ]
    linear_combination (-(2:ℝ) ^ n) * hq3

theorem agm_partial (n : ℕ) :
    |(a ^ 2 - b ^ 2) * (ellQ a b - ellQ b a) - ell a b * ∑ k ∈ range n, 2 ^ (k + 1) * agmC a b (k + 1)| ≤ 2 ^ (n + 2) * agmC a b (n + 1) * ell a b := by
  have t := agm_tele hb h (n + 1)
  rw [sum_range_succ] at t
  have hs := ellQ_add (agmSeq_pos hb h (n + 1)).1 (lt_of_lt_of_le (agmSeq_pos hb h (n + 1)).1 (agmSeq_pos hb h (n + 1)).2)
  rw [ell_comm, agm_ell hb h (n + 1)] at hs
  have p1 := ellQ_nonneg (a := (agmSeq a b (n + 1)).1) (b := (agmSeq a b (n + 1)).2) (lt_of_lt_of_le (agmSeq_pos hb h (n + 1)).1 (agmSeq_pos hb h (n + 1)).2)
  have p2 := ellQ_nonneg (a := (agmSeq a b (n + 1)).2) (b := (agmSeq a b (n + 1)).1) (agmSeq_pos hb h (n + 1)).1
  have hc := agmC_nonneg hb h (n + 1)
  rw [t]
  generalize ∑ k ∈ range n, 2 ^ (k + 1) * agmC a b (k + 1) = S at *
  generalize ellQ (agmSeq a b (n + 1)).1 (agmSeq a b (n + 1)).2 = Q1 at *
  generalize ellQ (agmSeq a b (n + 1)).2 (agmSeq a b (n + 1)).1 = Q2 at *
  generalize ell a b = I at *
  have hz : 0 ≤ 2 ^ (n + 1) * agmC a b (n + 1) := by positivity
  rw [show (2:ℝ) ^ (n + 2) = 2 * 2 ^ (n + 1) by ring]
  generalize agmC a b (n + 1) = c at *
  generalize (2:ℝ) ^ (n + 1) = z at *
  have e : z * c * (Q1 - Q2) + I * (S + z * c) - I * S = z * c * (2 * Q1) := by rw [← hs]; ring
  rw [e, abs_of_nonneg (by positivity)]
  calc z * c * (2 * Q1) ≤ z * c * (2 * I) := mul_le_mul_of_nonneg_left (by linarith) hz
    _ = _ := by ring
end

/-- The formula of Gauss and Legendre with its remainder: M is the arithmetic-geometric mean of 1 and √(1/2). -/
theorem gauss_legendre : ∃ M : ℝ, ∀ n, (agmSeq 1 (√(1 / 2)) n).2 ≤ M ∧ M ≤ (agmSeq 1 (√(1 / 2)) n).1 ∧
    |2 * M ^ 2 - π * (1 / 2 - ∑ k ∈ range n, 2 ^ (k + 1) * agmC 1 (√(1 / 2)) (k + 1))| ≤ π * (2 ^ (n + 2) * agmC 1 (√(1 / 2)) (n + 1)) := by
  have hb : 0 < √((1:ℝ) / 2) := Real.sqrt_pos.mpr (by norm_num)
  have hsq : √((1:ℝ) / 2) ^ 2 = 1 / 2 := Real.sq_sqrt (by norm_num)
  have h : √((1:ℝ) / 2) ≤ 1 := by rw [Real.sqrt_le_left (by norm_num)]; norm_num
  have s2 : √(2:ℝ) ^ 2 = 2 := Real.sq_sqrt (by norm_num)
  have e2 : √((1:ℝ) / 2) * √2 = 1 := by rw [← Real.sqrt_mul (by norm_num)]; norm_num
  have hI : ell 1 (√(1 / 2)) = (√((1:ℝ) / 2))⁻¹ * ell (√2) 1 := by
    rw [← ell_scale hb, e2, mul_one]
  have hQ : ellQ (√(1 / 2)) 1 = (√((1:ℝ) / 2))⁻¹ * ellQ 1 (√2) := by
    rw [← ellQ_scale hb, e2, mul_one]
  have hleg : ell 1 (√(1 / 2)) * ellQ (√(1 / 2)) 1 = π / 2 := by
    rw [hI, hQ]
    calc (√((1:ℝ) / 2))⁻¹ * ell (√2) 1 * ((√((1:ℝ) / 2))⁻¹ * ellQ 1 (√2)) = (√((1:ℝ) / 2) ^ 2)⁻¹ * (ell (√2) 1 * ellQ 1 (√2)) := by rw [pow_two, mul_inv]; ring
      _ = π / 2 := by rw [lemniscate, hsq]; ring
  refine ⟨π / (2 * ell 1 (√(1 / 2))), fun n => ⟨(agm_between hb h n).1, (agm_between hb h n).2, ?_⟩⟩
  have hp := agm_partial hb h n
  have hadd := ellQ_add one_pos hb
  have hpos := ell_pos hb h
  rw [hsq] at hp
  generalize ∑ k ∈ range n, 2 ^ (k + 1) * agmC 1 (√(1 / 2)) (k + 1) = S at *
  generalize 2 ^ (n + 2) * agmC 1 (√(1 / 2)) (n + 1) = θ at *
  generalize ell 1 (√(1 / 2)) = I at *
  generalize ellQ 1 (√(1 / 2)) = Q1 at *
  generalize ellQ (√(1 / 2)) 1 = Q2 at *
  have hq : Q1 = I - Q2 := by linarith
  have hQ2 : Q2 = π / (2 * I) := by field_simp; linarith
  have e : 2 * (π / (2 * I)) ^ 2 - π * (1 / 2 - S) = -(π / I) * ((1 ^ 2 - 1 / 2) * (Q1 - Q2) - I * S) := by
    rw [hq, hQ2]; field_simp; ring
  rw [e, abs_mul, abs_neg, abs_of_pos (by positivity)]
  calc π / I * _ ≤ π / I * (θ * I) := mul_le_mul_of_nonneg_left hp (by positivity)
    _ = _ := by field_simp

end WD
