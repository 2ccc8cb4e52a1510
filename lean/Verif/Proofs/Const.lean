import Mathlib.Analysis.SpecialFunctions.Complex.Arctan
import Mathlib.Analysis.SpecialFunctions.Log.Deriv
import Mathlib.Analysis.SpecificLimits.Normed
import Mathlib.Tactic.Linarith
import Mathlib.Tactic.Positivity
import Mathlib.Tactic.NormNum
/-
  Rational enclosures of π, log 2 and log 10, evaluated by the kernel.
-/
namespace WD
open Finset Filter Topology

/-- Partial sum of the series of arctan (1/q). -/
def atanSum (q : ℕ) : ℕ → ℚ
  | 0 => 0
  | n + 1 => atanSum q n + (-1) ^ n / ((2 * n + 1) * (q : ℚ) ^ (2 * n + 1))

theorem atanSum_cast (q n : ℕ) : ((atanSum q n : ℚ) : ℝ) = ∑ i ∈ range n, (-1) ^ i * (((q : ℝ)⁻¹) ^ (2 * i + 1) / ((2 * i + 1 : ℕ) : ℝ)) := by
  induction n with
  | zero => simp [atanSum]
  | succ n ih =>
    rw [sum_range_succ, ← ih, atanSum]
    push_cast
    congr 1
    rw [inv_pow, div_eq_mul_inv, mul_inv, div_eq_mul_inv]; ring

theorem atan_bounds {q : ℕ} (hq : 2 ≤ q) (k : ℕ) :
    ((atanSum q (2 * k) : ℚ) : ℝ) ≤ Real.arctan (q : ℝ)⁻¹ ∧ Real.arctan (q : ℝ)⁻¹ ≤ ((atanSum q (2 * k + 1) : ℚ) : ℝ) := by
  have hq' : (2 : ℝ) ≤ q := by exact_mod_cast hq
  have hx0 : 0 < (q : ℝ)⁻¹ := by positivity
  have hx1 : (q : ℝ)⁻¹ < 1 := inv_lt_one_of_one_lt₀ (by linarith)
  have hs := (Real.hasSum_arctan (x := (q : ℝ)⁻¹) (by rw [Real.norm_eq_abs, abs_of_pos hx0]; exact hx1)).tendsto_sum_nat
  have hs' : Tendsto (fun n ↦ ∑ i ∈ range n, (-1 : ℝ) ^ i * ((q : ℝ)⁻¹ ^ (2 * i + 1) / ((2 * i + 1 : ℕ) : ℝ))) atTop (𝓝 (Real.arctan (q : ℝ)⁻¹)) := by
    refine hs.congr fun n => sum_congr rfl fun i _ => ?_
    rw [mul_div_assoc]
  have ha : Antitone fun i : ℕ => (q : ℝ)⁻¹ ^ (2 * i + 1) / ((2 * i + 1 : ℕ) : ℝ) := by
    refine antitone_nat_of_succ_le fun n => ?_
    refine div_le_div₀ (by positivity) (pow_le_pow_of_le_one hx0.le hx1.le (by omega)) (by positivity) ?_
    push_cast; linarith
  rw [atanSum_cast, atanSum_cast]
  exact ⟨ha.alternating_series_le_tendsto hs' k, ha.tendsto_le_alternating_series hs' k⟩

theorem pi_enclosure {lo hi : ℚ} (k m : ℕ)
    (h1 : lo ≤ 16 * atanSum 5 (2 * k) - 4 * atanSum 239 (2 * m + 1))
    (h2 : 16 * atanSum 5 (2 * k + 1) - 4 * atanSum 239 (2 * m) < hi) : (lo : ℝ) ≤ Real.pi ∧ Real.pi < hi := by
  have hm := Real.four_mul_arctan_inv_5_sub_arctan_inv_239
  obtain ⟨a1, a2⟩ := atan_bounds (q := 5) (by norm_num) k
  obtain ⟨b1, b2⟩ := atan_bounds (q := 239) (by norm_num) m
  have h1' : (lo : ℝ) ≤ 16 * (atanSum 5 (2 * k) : ℚ) - 4 * (atanSum 239 (2 * m + 1) : ℚ) := by exact_mod_cast h1
  have h2' : 16 * ((atanSum 5 (2 * k + 1) : ℚ) : ℝ) - 4 * (atanSum 239 (2 * m) : ℚ) < hi := by exact_mod_cast h2
  push_cast at a1 a2 b1 b2
  constructor <;> linarith

/-- Partial sum of the series of -log (1 - 1/q). -/
def logSum (q : ℕ) : ℕ → ℚ
  | 0 => 0
  | n + 1 => logSum q n + 1 / ((n + 1) * (q : ℚ) ^ (n + 1))

theorem logSum_cast (q n : ℕ) : ((logSum q n : ℚ) : ℝ) = ∑ i ∈ range n, ((q : ℝ)⁻¹) ^ (i + 1) / (i + 1) := by
  induction n with
  | zero => simp [logSum]
  | succ n ih =>
    rw [sum_range_succ, ← ih, logSum]
    push_cast
    congr 1
    rw [inv_pow, one_div, mul_inv, div_eq_mul_inv]; ring

theorem logSum_bounds {q : ℕ} (hq : 2 ≤ q) (n : ℕ) :
    |((logSum q n : ℚ) : ℝ) - Real.log ((q : ℝ) / (q - 1))| ≤ 2 / (q : ℝ) ^ (n + 1) := by
  have hq' : (2 : ℝ) ≤ q := by exact_mod_cast hq
  have hx0 : 0 < (q : ℝ)⁻¹ := by positivity
  have hx2 : (q : ℝ)⁻¹ ≤ 1 / 2 := by rw [inv_eq_one_div]; exact one_div_le_one_div_of_le (by norm_num) hq'
  have h := Real.abs_log_sub_add_sum_range_le (x := (q : ℝ)⁻¹) (by rw [abs_of_pos hx0]; linarith) n
  rw [← logSum_cast, abs_of_pos hx0] at h
  have e : Real.log (1 - (q : ℝ)⁻¹) = - Real.log ((q : ℝ) / (q - 1)) := by
    rw [← Real.log_inv]; congr 1
    have : (q : ℝ) ≠ 0 := by positivity
    have : (q : ℝ) - 1 ≠ 0 := by linarith
    field_simp
  rw [e, ← sub_eq_add_neg] at h
  refine h.trans ?_
  rw [inv_pow, div_eq_mul_inv, mul_comm, div_eq_mul_inv]
  refine mul_le_mul_of_nonneg_right ?_ (by positivity)
  rw [inv_le_comm₀ (by linarith) (by norm_num)]
  linarith

theorem log_two_enclosure {lo hi : ℚ} (n : ℕ) (h1 : lo ≤ logSum 2 n - 2 / 2 ^ (n + 1)) (h2 : logSum 2 n + 2 / 2 ^ (n + 1) < hi) :
    (lo : ℝ) ≤ Real.log 2 ∧ Real.log 2 < hi := by
  have h := logSum_bounds (q := 2) (by norm_num) n
  norm_num at h
  rw [abs_le] at h
  have h1' : (lo : ℝ) ≤ (logSum 2 n : ℚ) - 2 / 2 ^ (n + 1) := by
    have := (Rat.cast_le (K := ℝ)).mpr h1
    push_cast at this; exact this
  have h2' : ((logSum 2 n : ℚ) : ℝ) + 2 / 2 ^ (n + 1) < hi := by
    have := (Rat.cast_lt (K := ℝ)).mpr h2
    push_cast at this; exact this
  constructor <;> linarith [h.1, h.2]

theorem log_ten_enclosure {lo hi : ℚ} (n m : ℕ)
    (h1 : lo ≤ 3 * (logSum 2 n - 2 / 2 ^ (n + 1)) + (logSum 5 m - 2 / 5 ^ (m + 1)))
    (h2 : 3 * (logSum 2 n + 2 / 2 ^ (n + 1)) + (logSum 5 m + 2 / 5 ^ (m + 1)) < hi) :
    (lo : ℝ) ≤ Real.log 10 ∧ Real.log 10 < hi := by
  have h := logSum_bounds (q := 2) (by norm_num) n
  have h' := logSum_bounds (q := 5) (by norm_num) m
  norm_num at h h'
  rw [abs_le] at h h'
  have e : Real.log 10 = 3 * Real.log 2 + Real.log (5 / 4) := by
    rw [show (10 : ℝ) = 2 ^ 3 * (5 / 4) by norm_num, Real.log_mul (by norm_num) (by norm_num), Real.log_pow]; norm_num
  have h1' : (lo : ℝ) ≤ 3 * ((logSum 2 n : ℚ) - 2 / 2 ^ (n + 1)) + ((logSum 5 m : ℚ) - 2 / 5 ^ (m + 1)) := by
    have := (Rat.cast_le (K := ℝ)).mpr h1
    push_cast at this; exact this
  have h2' : 3 * (((logSum 2 n : ℚ) : ℝ) + 2 / 2 ^ (n + 1)) + ((logSum 5 m : ℚ) + 2 / 5 ^ (m + 1)) < hi := by
    have := (Rat.cast_lt (K := ℝ)).mpr h2
    push_cast at this; exact this
  rw [e]
  constructor <;> linarith [h.1, h.2, h'.1, h'.2]

end WD
