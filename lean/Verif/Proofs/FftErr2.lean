import Verif.Proofs.FftErr1
import Mathlib.Analysis.Real.Pi.Bounds
/-
  Rounding errors of the recurrence of the factors.
-/
namespace WD
open Finset Complex

namespace Rnd
variable {K : Type} {O : FOps K} {ι : K → ℝ} {u : ℝ} (H : Rnd O ι u)
include H

theorem norm_p {n : ℕ} (fwd : Bool) (hn : 0 < n) : ‖rootU fwd n - 1‖ ≤ 6.2832 / n := by
  refine le_trans (norm_rootU_sub_one fwd hn) ?_
  have := Real.pi_lt_d4
  have hn' : (0:ℝ) < n := by exact_mod_cast hn
  rw [div_le_div_iff_of_pos_right hn']
  linarith

/-- One step of the recurrence. -/
theorem twStep (fwd : Bool) {j : ℕ} (h2 : 2 ≤ j) (hj : j ≤ 31) (w : K × K) :
    ‖C ι (O.twStep fwd (2 ^ j) w) - C ι w * rootU fwd (2 ^ j)‖ ≤ u * (1 + 77 / (2 ^ j : ℕ)) * ‖C ι w‖ := by
  have hu := H.u0
  have hu1 := H.u1
  have hp := H.wp fwd h2 hj
  have hP := H.norm_p fwd (n := 2 ^ j) (by positivity)
  set p := rootU fwd (2 ^ j) - 1 with hpdef
  set q := toC (ι (O.wpReal fwd (2 ^ j)), ι (O.wpImag fwd (2 ^ j))) with hq
  have hroot : rootU fwd (2 ^ j) = 1 + p := by rw [hpdef]; ring
  set t : K × K := (O.sub (O.mul w.1 (O.wpReal fwd (2 ^ j))) (O.mul w.2 (O.wpImag fwd (2 ^ j))),
    O.add (O.mul w.2 (O.wpReal fwd (2 ^ j))) (O.mul w.1 (O.wpImag fwd (2 ^ j)))) with ht
  have e1 : O.twStep fwd (2 ^ j) w = O.cadd w t := rfl
  have a1 : ‖C ι t - C ι w * q‖ ≤ 3 * u * (‖C ι w‖ * ‖q‖) := by
    have h1 : |(C ι t - C ι w * q).re| ≤ (2 * u + u ^ 2) * (‖C ι w‖ * ‖q‖) := by
      have e : (C ι t - C ι w * q).re = ι t.1 - (ι w.1 * ι (O.wpReal fwd (2 ^ j)) - ι w.2 * ι (O.wpImag fwd (2 ^ j))) := by
        simp [C, toC, hq]
      rw [e]
      exact le_trans (H.dot' _ (H.sub _ _)) (mul_le_mul_of_nonneg_left (cs_le _ _ _ _) (by positivity))
    have h2 : |(C ι t - C ι w * q).im| ≤ (2 * u + u ^ 2) * (‖C ι w‖ * ‖q‖) := by
      have e : (C ι t - C ι w * q).im = ι t.2 - (ι w.2 * ι (O.wpReal fwd (2 ^ j)) + ι w.1 * ι (O.wpImag fwd (2 ^ j))) := by
        simp [C, toC, hq]; ring
      rw [e]
      refine le_trans (H.dot _ (H.add _ _)) (mul_le_mul_of_nonneg_left ?_ (by positivity))
      have := cs_le' (ι w.1) (ι w.2) (ι (O.wpReal fwd (2 ^ j))) (ι (O.wpImag fwd (2 ^ j)))
      rw [add_comm]; exact this
    refine le_trans (norm_box (by positivity) h1 h2) ?_
    have hq : (0:ℝ) ≤ ‖C ι w‖ * ‖q‖ := by positivity
    have : 1.415 * (2 * u + u ^ 2) ≤ 3 * u := by nlinarith
    nlinarith
  have a2 := H.cadd w t
  rw [e1, hroot]
  have hw := norm_nonneg (C ι w)
  have hpn := norm_nonneg p
  have a3 : ‖q‖ ≤ 1.001 * ‖p‖ := by
    have : ‖q‖ ≤ ‖q - p‖ + ‖p‖ := by simpa using norm_add_le (q - p) p
    nlinarith
  have a4 : ‖C ι t - C ι w * p‖ ≤ 12.004 * u * (‖C ι w‖ * ‖p‖) := by
    have b1 : C ι t - C ι w * p = (C ι t - C ι w * q) + C ι w * (q - p) := by ring
    have b2 : ‖C ι w * (q - p)‖ ≤ ‖C ι w‖ * (9 * u * ‖p‖) := by rw [norm_mul]; exact mul_le_mul_of_nonneg_left hp hw
    have b3 : 3 * u * (‖C ι w‖ * ‖q‖) ≤ 3 * u * (‖C ι w‖ * (1.001 * ‖p‖)) :=
      mul_le_mul_of_nonneg_left (mul_le_mul_of_nonneg_left a3 hw) (by positivity)
    have b4 : 0 ≤ u * (‖C ι w‖ * ‖p‖) := by positivity
    rw [b1]
    refine le_trans (norm_add_le _ _) ?_
    nlinarith
  have hr1 : ‖(1:ℂ) + p‖ = 1 := by rw [← hroot]; exact norm_rootU fwd _
  have a5 : ‖C ι w + C ι t‖ ≤ ‖C ι w‖ + 12.004 * u * (‖C ι w‖ * ‖p‖) := by
    have b1 : C ι w + C ι t = C ι w * (1 + p) + (C ι t - C ι w * p) := by ring
    rw [b1]
    refine le_trans (norm_add_le _ _) ?_
    rw [norm_mul, hr1, mul_one]; linarith
  have b1 : C ι (O.cadd w t) - C ι w * (1 + p) = (C ι (O.cadd w t) - (C ι w + C ι t)) + (C ι t - C ι w * p) := by ring
  rw [b1]
  refine le_trans (norm_add_le _ _) ?_
  have b2 := mul_le_mul_of_nonneg_left a5 hu
  have b3 : 0 ≤ u * (‖C ι w‖ * ‖p‖) := by positivity
  have b4 : u * (12.004 * u * (‖C ι w‖ * ‖p‖)) ≤ 0.01 * (u * (‖C ι w‖ * ‖p‖)) := by nlinarith
  have b5 : u * (‖C ι w‖ * ‖p‖) ≤ u * (‖C ι w‖ * (6.2832 / (2 ^ j : ℕ))) :=
    mul_le_mul_of_nonneg_left (mul_le_mul_of_nonneg_left hP hw) hu
  have b6 : 0 ≤ u * ‖C ι w‖ / (2 ^ j : ℕ) := by positivity
  have b7 : u * (‖C ι w‖ * (6.2832 / (2 ^ j : ℕ))) = 6.2832 * (u * ‖C ι w‖ / (2 ^ j : ℕ)) := by ring
  have b8 : u * (1 + 77 / (2 ^ j : ℕ)) * ‖C ι w‖ = u * ‖C ι w‖ + 77 * (u * ‖C ι w‖ / (2 ^ j : ℕ)) := by ring
  rw [b8]
  linarith

/-- The factor of one step, rounded. -/
theorem init (fwd : Bool) {j : ℕ} (h2 : 2 ≤ j) (hj : j ≤ 31) (x : K)
    (hx : |ι x - (1 + ι (O.wpReal fwd (2 ^ j)))| ≤ u * |1 + ι (O.wpReal fwd (2 ^ j))|) :
    ‖C ι (x, O.wpImag fwd (2 ^ j)) - rootU fwd (2 ^ j)‖ ≤ u * (1 + 77 / (2 ^ j : ℕ)) := by
  have hu := H.u0
  have hu1 := H.u1
  have hp := H.wp fwd h2 hj
  have hP := H.norm_p fwd (n := 2 ^ j) (by positivity)
  set p := rootU fwd (2 ^ j) - 1 with hpdef
  set q := toC (ι (O.wpReal fwd (2 ^ j)), ι (O.wpImag fwd (2 ^ j))) with hq
  have hroot : rootU fwd (2 ^ j) = 1 + p := by rw [hpdef]; ring
  have hr1 : ‖(1:ℂ) + p‖ = 1 := by rw [← hroot]; exact norm_rootU fwd _
  have a1 : ‖C ι (x, O.wpImag fwd (2 ^ j)) - (1 + q)‖ ≤ u * ‖1 + q‖ := by
    refine norm_comp hu ?_ ?_
    · simpa [C, toC, hq] using hx
    · have : (C ι (x, O.wpImag fwd (2 ^ j))).im - (1 + q).im = 0 := by simp [C, toC, hq]
      rw [this, abs_zero]; positivity
  have hpn := norm_nonneg p
  have a2 : ‖1 + q‖ ≤ 1 + 9 * u * ‖p‖ := by
    have : (1:ℂ) + q = (1 + p) + (q - p) := by ring
    rw [this]
    refine le_trans (norm_add_le _ _) ?_
    rw [hr1]; linarith
  have b1 : C ι (x, O.wpImag fwd (2 ^ j)) - rootU fwd (2 ^ j) = (C ι (x, O.wpImag fwd (2 ^ j)) - (1 + q)) + (q - p) := by rw [hroot]; ring
  rw [b1]
  refine le_trans (norm_add_le _ _) ?_
  have b2 := mul_le_mul_of_nonneg_left a2 hu
  have b3 : u * (9 * u * ‖p‖) ≤ 0.001 * (u * ‖p‖) := by nlinarith [mul_nonneg hu hpn]
  have b4 : u * ‖p‖ ≤ u * (6.2832 / (2 ^ j : ℕ)) := mul_le_mul_of_nonneg_left hP hu
  have b5 : 0 ≤ u / (2 ^ j : ℕ) := by positivity
  have b6 : u * (6.2832 / (2 ^ j : ℕ)) = 6.2832 * (u / (2 ^ j : ℕ)) := by ring
  have b7 : u * (1 + 77 / (2 ^ j : ℕ)) = u + 77 * (u / (2 ^ j : ℕ)) := by ring
  rw [b7]
  linarith

theorem small {j k : ℕ} (hk : 2 * k ≤ 2 ^ j) (hu : u * (2 ^ j : ℕ) ≤ 1 / 100) :
    1.01 * k * (u * (1 + 77 / (2 ^ j : ℕ))) ≤ u * (0.505 * (2 ^ j : ℕ) + 40) ∧ u * (0.505 * (2 ^ j : ℕ) + 40) ≤ 1 / 100 := by
  have hu0 := H.u0
  have hu1 := H.u1
  have hn : (0:ℝ) < (2 ^ j : ℕ) := by positivity
  have hk' : (2:ℝ) * k ≤ (2 ^ j : ℕ) := by exact_mod_cast hk
  generalize ((2 ^ j : ℕ) : ℝ) = n at *
  constructor
  · have h1 : k * (1 + 77 / n) ≤ n / 2 + 38.5 := by
      have : (k:ℝ) * (1 + 77 / n) ≤ n / 2 * (1 + 77 / n) := mul_le_mul_of_nonneg_right (by linarith) (by positivity)
      have e : n / 2 * (1 + 77 / n) = n / 2 + 38.5 := by field_simp; ring
      linarith
    have : 1.01 * k * (u * (1 + 77 / n)) = 1.01 * u * (k * (1 + 77 / n)) := by ring
    rw [this]
    have := mul_le_mul_of_nonneg_left h1 (by positivity : 0 ≤ 1.01 * u)
    nlinarith
  · nlinarith

/-- The k-th factor of the butterflies. -/
theorem tw (fwd : Bool) {j : ℕ} (h2 : 2 ≤ j) (hj : j ≤ 31) (hu : u * (2 ^ j : ℕ) ≤ 1 / 100) (k : ℕ) (hk : 2 * k ≤ 2 ^ j) :
    ‖C ι (O.tw fwd (2 ^ j) k) - rootU fwd (2 ^ j) ^ k‖ ≤ 1.01 * k * (u * (1 + 77 / (2 ^ j : ℕ))) := by
  induction k with
  | zero =>
    have e : C ι (O.tw fwd (2 ^ j) 0) = 1 := by
      apply Complex.ext <;> simp [C, toC, FOps.tw, H.one, H.zero]
    rw [e, pow_zero]; simp
  | succ k ih =>
    have ih := ih (by omega)
    have hs := H.twStep fwd h2 hj (O.tw fwd (2 ^ j) k)
    obtain ⟨s1, s2⟩ := H.small (j := j) (k := k) (by omega) hu
    have hg : 0 ≤ u * (1 + 77 / (2 ^ j : ℕ)) := by have := H.u0; positivity
    have hn : ‖C ι (O.tw fwd (2 ^ j) k)‖ ≤ 1.01 := by
      have : ‖C ι (O.tw fwd (2 ^ j) k)‖ ≤ ‖C ι (O.tw fwd (2 ^ j) k) - rootU fwd (2 ^ j) ^ k‖ + ‖rootU fwd (2 ^ j) ^ k‖ := by
        simpa using norm_add_le (C ι (O.tw fwd (2 ^ j) k) - rootU fwd (2 ^ j) ^ k) (rootU fwd (2 ^ j) ^ k)
      rw [norm_pow, norm_rootU, one_pow] at this
      linarith
    rw [FOps.tw]
    have b1 : C ι (O.twStep fwd (2 ^ j) (O.tw fwd (2 ^ j) k)) - rootU fwd (2 ^ j) ^ (k + 1) =
        (C ι (O.twStep fwd (2 ^ j) (O.tw fwd (2 ^ j) k)) - C ι (O.tw fwd (2 ^ j) k) * rootU fwd (2 ^ j)) +
        (C ι (O.tw fwd (2 ^ j) k) - rootU fwd (2 ^ j) ^ k) * rootU fwd (2 ^ j) := by ring
    rw [b1]
    refine le_trans (norm_add_le _ _) ?_
    rw [norm_mul, norm_rootU, mul_one]
    have := mul_le_mul_of_nonneg_left hn hg
    push_cast at *
    linarith

/-- The k-th factor of the real transform. -/
theorem rtw (fwd : Bool) {j : ℕ} (h2 : 2 ≤ j) (hj : j ≤ 31) (hu : u * (2 ^ j : ℕ) ≤ 1 / 100) (k : ℕ) (hk : 2 * (k + 1) ≤ 2 ^ j) :
    ‖C ι (O.rtw fwd (2 ^ j) k) - rootU fwd (2 ^ j) ^ (k + 1)‖ ≤ 1.01 * (k + 1 : ℕ) * (u * (1 + 77 / (2 ^ j : ℕ))) := by
  have hg : 0 ≤ u * (1 + 77 / (2 ^ j : ℕ)) := by have := H.u0; positivity
  induction k with
  | zero =>
    rw [zero_add, pow_one]
    have h := H.init fwd h2 hj (O.add O.one (O.wpReal fwd (2 ^ j))) (by have := H.add O.one (O.wpReal fwd (2 ^ j)); rwa [H.one] at this)
    refine le_trans h ?_
    rw [show (((1:ℕ)):ℝ) = 1 by norm_num, mul_one]
    linarith
  | succ k ih =>
    have ih := ih (by omega)
    have hs := H.twStep fwd h2 hj (O.rtw fwd (2 ^ j) k)
    obtain ⟨s1, s2⟩ := H.small (j := j) (k := k + 1) (by omega) hu
    have hn : ‖C ι (O.rtw fwd (2 ^ j) k)‖ ≤ 1.01 := by
      have : ‖C ι (O.rtw fwd (2 ^ j) k)‖ ≤ ‖C ι (O.rtw fwd (2 ^ j) k) - rootU fwd (2 ^ j) ^ (k + 1)‖ + ‖rootU fwd (2 ^ j) ^ (k + 1)‖ := by
        simpa using norm_add_le (C ι (O.rtw fwd (2 ^ j) k) - rootU fwd (2 ^ j) ^ (k + 1)) (rootU fwd (2 ^ j) ^ (k + 1))
      rw [norm_pow, norm_rootU, one_pow] at this
      linarith
    rw [FOps.rtw]
    have b1 : C ι (O.twStep fwd (2 ^ j) (O.rtw fwd (2 ^ j) k)) - rootU fwd (2 ^ j) ^ (k + 1 + 1) =
        (C ι (O.twStep fwd (2 ^ j) (O.rtw fwd (2 ^ j) k)) - C ι (O.rtw fwd (2 ^ j) k) * rootU fwd (2 ^ j)) +
        (C ι (O.rtw fwd (2 ^ j) k) - rootU fwd (2 ^ j) ^ (k + 1)) * rootU fwd (2 ^ j) := by ring
    rw [b1]
    refine le_trans (norm_add_le _ _) ?_
    rw [norm_mul, norm_rootU, mul_one]
    have := mul_le_mul_of_nonneg_left hn hg
    push_cast at *
    linarith

end Rnd
end WD
