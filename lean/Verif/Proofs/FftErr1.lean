import Verif.Proofs.Dft2
import Mathlib.Analysis.SpecialFunctions.Trigonometric.Bounds
/-
  Rounding errors of the complex operations and of the factors of the FFT.
-/
namespace WD
open Finset Complex

/-- Operations with relative error u; `ι` is the value of a number. -/
structure Rnd {K : Type} (O : FOps K) (ι : K → ℝ) (u : ℝ) : Prop where
  u0 : 0 ≤ u
  u1 : u ≤ 1 / 1000000
  add : ∀ a b, |ι (O.add a b) - (ι a + ι b)| ≤ u * |ι a + ι b|
  sub : ∀ a b, |ι (O.sub a b) - (ι a - ι b)| ≤ u * |ι a - ι b|
  mul : ∀ a b, |ι (O.mul a b) - ι a * ι b| ≤ u * |ι a * ι b|
  div : ∀ a b, |ι (O.div a b) - ι a / ι b| ≤ u * |ι a / ι b|
  half : ∀ a, |ι (O.half a) - ι a / 2| ≤ u * |ι a / 2|
  neg : ∀ a, ι (O.neg a) = -ι a
  zero : ι O.zero = 0
  one : ι O.one = 1
  minusTwo : ι O.minusTwo = -2
  sin1 : ∀ k, 1 ≤ k → k ≤ 31 → |ι (O.sin1 (2 ^ k)) - Real.sin (Real.pi / (2 ^ k : ℕ))| ≤ 3 * u * Real.sin (Real.pi / (2 ^ k : ℕ))

theorem norm_le_of_re_im {z : ℂ} {a b : ℝ} (h1 : |z.re| ≤ a) (h2 : |z.im| ≤ b) : ‖z‖ ≤ Real.sqrt (a ^ 2 + b ^ 2) := by
  rw [Complex.norm_def, Complex.normSq_apply]
  apply Real.sqrt_le_sqrt
  have := abs_nonneg z.re
  have := abs_nonneg z.im
  nlinarith [abs_mul_abs_self z.re, abs_mul_abs_self z.im]

/-- Componentwise relative errors. -/
theorem norm_comp {z w : ℂ} {c : ℝ} (hc : 0 ≤ c) (h1 : |z.re - w.re| ≤ c * |w.re|) (h2 : |z.im - w.im| ≤ c * |w.im|) : ‖z - w‖ ≤ c * ‖w‖ := by
  refine le_trans (norm_le_of_re_im (z := z - w) h1 h2) ?_
  rw [show (c * |w.re|) ^ 2 + (c * |w.im|) ^ 2 = c ^ 2 * (w.re * w.re + w.im * w.im) by
    rw [mul_pow, mul_pow, sq_abs, sq_abs]; ring]
  rw [Real.sqrt_mul (by positivity), Real.sqrt_sq hc, Complex.norm_def, Complex.normSq_apply]

/-- Componentwise absolute errors. -/
theorem norm_box {z : ℂ} {c : ℝ} (hc : 0 ≤ c) (h1 : |z.re| ≤ c) (h2 : |z.im| ≤ c) : ‖z‖ ≤ 1.415 * c := by
  refine le_trans (norm_le_of_re_im h1 h2) ?_
  rw [Real.sqrt_le_left (by positivity)]
  nlinarith

/-- Cauchy-Schwarz for two pairs. -/
theorem cs_le (a b c d : ℝ) : |a| * |c| + |b| * |d| ≤ ‖(⟨a, b⟩ : ℂ)‖ * ‖(⟨c, d⟩ : ℂ)‖ := by
  have h : (|a| * |c| + |b| * |d|) ^ 2 ≤ (‖(⟨a, b⟩ : ℂ)‖ * ‖(⟨c, d⟩ : ℂ)‖) ^ 2 := by
    rw [mul_pow, Complex.sq_norm, Complex.sq_norm, Complex.normSq_apply, Complex.normSq_apply]
    simp only
    have := sq_nonneg (|a| * |d| - |b| * |c|)
    nlinarith [abs_mul_abs_self a, abs_mul_abs_self b, abs_mul_abs_self c, abs_mul_abs_self d]
  exact abs_le_of_sq_le_sq' h (by positivity) |>.2

theorem cs_le' (a b c d : ℝ) : |a| * |d| + |b| * |c| ≤ ‖(⟨a, b⟩ : ℂ)‖ * ‖(⟨c, d⟩ : ℂ)‖ := by
  have h := cs_le a b d c
  have e : ‖(⟨d, c⟩ : ℂ)‖ = ‖(⟨c, d⟩ : ℂ)‖ := by
    rw [Complex.norm_def, Complex.norm_def, Complex.normSq_apply, Complex.normSq_apply]; simp only; rw [add_comm]
  rwa [e] at h

namespace Rnd
variable {K : Type} {O : FOps K} {ι : K → ℝ} {u : ℝ} (H : Rnd O ι u)

/-- The complex value of a pair. -/
def C (ι : K → ℝ) (a : K × K) : ℂ := toC (ι a.1, ι a.2)

include H

theorem cadd (a b : K × K) : ‖C ι (O.cadd a b) - (C ι a + C ι b)‖ ≤ u * ‖C ι a + C ι b‖ :=
  norm_comp H.u0 (by simpa [C, toC, FOps.cadd] using H.add a.1 b.1) (by simpa [C, toC, FOps.cadd] using H.add a.2 b.2)

theorem csub (a b : K × K) : ‖C ι (O.csub a b) - (C ι a - C ι b)‖ ≤ u * ‖C ι a - C ι b‖ :=
  norm_comp H.u0 (by simpa [C, toC, FOps.csub] using H.sub a.1 b.1) (by simpa [C, toC, FOps.csub] using H.sub a.2 b.2)

/-- Sum of two products, in the reals. -/
theorem dot {x y z w : K} (s : K) (hs : |ι s - (ι (O.mul x y) + ι (O.mul z w))| ≤ u * |ι (O.mul x y) + ι (O.mul z w)|) :
    |ι s - (ι x * ι y + ι z * ι w)| ≤ (2 * u + u ^ 2) * (|ι x| * |ι y| + |ι z| * |ι w|) := by
  have h1 := H.mul x y
  have h2 := H.mul z w
  have hu := H.u0
  rw [abs_mul] at h1 h2
  have t1 : |ι (O.mul x y) + ι (O.mul z w) - (ι x * ι y + ι z * ι w)| ≤ u * (|ι x| * |ι y| + |ι z| * |ι w|) := by
    calc _ = |(ι (O.mul x y) - ι x * ι y) + (ι (O.mul z w) - ι z * ι w)| := by congr 1; ring
      _ ≤ _ := abs_add_le _ _
      _ ≤ _ := by linarith
  have t2 : |ι (O.mul x y) + ι (O.mul z w)| ≤ (1 + u) * (|ι x| * |ι y| + |ι z| * |ι w|) := by
    have e1 : |ι x * ι y + ι z * ι w| ≤ |ι x| * |ι y| + |ι z| * |ι w| := by
      rw [← abs_mul, ← abs_mul]; exact abs_add_le _ _
    have := abs_sub_abs_le_abs_sub (ι (O.mul x y) + ι (O.mul z w)) (ι x * ι y + ι z * ι w)
    linarith
  have t3 : |ι s - (ι x * ι y + ι z * ι w)| ≤ |ι s - (ι (O.mul x y) + ι (O.mul z w))| + |ι (O.mul x y) + ι (O.mul z w) - (ι x * ι y + ι z * ι w)| :=
    abs_sub_le _ _ _
  have t4 := mul_le_mul_of_nonneg_left t2 hu
  nlinarith

theorem dot' {x y z w : K} (s : K) (hs : |ι s - (ι (O.mul x y) - ι (O.mul z w))| ≤ u * |ι (O.mul x y) - ι (O.mul z w)|) :
    |ι s - (ι x * ι y - ι z * ι w)| ≤ (2 * u + u ^ 2) * (|ι x| * |ι y| + |ι z| * |ι w|) := by
  have h1 := H.mul x y
  have h2 := H.mul z w
  have hu := H.u0
  rw [abs_mul] at h1 h2
  have t1 : |ι (O.mul x y) - ι (O.mul z w) - (ι x * ι y - ι z * ι w)| ≤ u * (|ι x| * |ι y| + |ι z| * |ι w|) := by
    calc _ = |(ι (O.mul x y) - ι x * ι y) - (ι (O.mul z w) - ι z * ι w)| := by congr 1; ring
      _ ≤ _ := abs_sub _ _
      _ ≤ _ := by linarith
  have t2 : |ι (O.mul x y) - ι (O.mul z w)| ≤ (1 + u) * (|ι x| * |ι y| + |ι z| * |ι w|) := by
    have e1 : |ι x * ι y - ι z * ι w| ≤ |ι x| * |ι y| + |ι z| * |ι w| := by
      rw [← abs_mul, ← abs_mul]; exact abs_sub _ _
    have := abs_sub_abs_le_abs_sub (ι (O.mul x y) - ι (O.mul z w)) (ι x * ι y - ι z * ι w)
    linarith
  have t3 : |ι s - (ι x * ι y - ι z * ι w)| ≤ |ι s - (ι (O.mul x y) - ι (O.mul z w))| + |ι (O.mul x y) - ι (O.mul z w) - (ι x * ι y - ι z * ι w)| :=
    abs_sub_le _ _ _
  have t4 := mul_le_mul_of_nonneg_left t2 hu
  nlinarith

theorem cmul (w z : K × K) : ‖C ι (O.cmul w z) - C ι w * C ι z‖ ≤ 3 * u * (‖C ι w‖ * ‖C ι z‖) := by
  have hu := H.u0
  have h1 : |(C ι (O.cmul w z) - C ι w * C ι z).re| ≤ (2 * u + u ^ 2) * (‖C ι w‖ * ‖C ι z‖) := by
    have e : (C ι (O.cmul w z) - C ι w * C ι z).re = ι (O.sub (O.mul w.1 z.1) (O.mul w.2 z.2)) - (ι w.1 * ι z.1 - ι w.2 * ι z.2) := by
      simp [C, toC, FOps.cmul]
    rw [e]
    refine le_trans (H.dot' _ (H.sub _ _)) (mul_le_mul_of_nonneg_left (cs_le _ _ _ _) (by positivity))
  have h2 : |(C ι (O.cmul w z) - C ι w * C ι z).im| ≤ (2 * u + u ^ 2) * (‖C ι w‖ * ‖C ι z‖) := by
    have e : (C ι (O.cmul w z) - C ι w * C ι z).im = ι (O.add (O.mul w.1 z.2) (O.mul w.2 z.1)) - (ι w.1 * ι z.2 + ι w.2 * ι z.1) := by
      simp [C, toC, FOps.cmul]
    rw [e]
    refine le_trans (H.dot _ (H.add _ _)) (mul_le_mul_of_nonneg_left (cs_le' _ _ _ _) (by positivity))
  refine le_trans (norm_box (by positivity) h1 h2) ?_
  have hq : (0:ℝ) ≤ ‖C ι w‖ * ‖C ι z‖ := by positivity
  have hu1 := H.u1
  have : 1.415 * (2 * u + u ^ 2) ≤ 3 * u := by nlinarith
  nlinarith

/-- The increment of the recurrence of the factors. -/
theorem wp (fwd : Bool) {k : ℕ} (h2 : 2 ≤ k) (hk : k ≤ 31) :
    ‖toC (ι (O.wpReal fwd (2 ^ k)), ι (O.wpImag fwd (2 ^ k))) - (rootU fwd (2 ^ k) - 1)‖ ≤ 9 * u * ‖rootU fwd (2 ^ k) - 1‖ := by
  have hu := H.u0
  have hu1 := H.u1
  have hpos : ∀ k : ℕ, 1 ≤ k → 0 < Real.sin (Real.pi / (2 ^ k : ℕ)) := by
    intro k hk
    have hpk : (2:ℝ) ≤ ((2 ^ k : ℕ) : ℝ) := by
      have : 2 ^ 1 ≤ 2 ^ k := Nat.pow_le_pow_right (by norm_num) hk
      exact_mod_cast this
    apply Real.sin_pos_of_pos_of_lt_pi (by positivity)
    rw [div_lt_iff₀ (by positivity)]
    nlinarith [Real.pi_pos]
  have hd : 2 ^ k / 2 = 2 ^ (k - 1) := by
    obtain ⟨j, rfl⟩ : ∃ j, k = j + 1 := ⟨k - 1, by omega⟩
    rw [Nat.add_sub_cancel, pow_succ]; omega
  have hw := wp_exact fwd (n := 2 ^ k) (by
    obtain ⟨j, rfl⟩ : ∃ j, k = j + 1 := ⟨k - 1, by omega⟩
    exact ⟨2 ^ j, by ring⟩)
  rw [← hw]
  have s1 := H.sin1 k (by omega) hk
  have s2 := H.sin1 (k - 1) (by omega) (by omega)
  have p1 := hpos k (by omega)
  have p2 := hpos (k - 1) (by omega)
  refine norm_comp (by positivity) ?_ ?_
  · show |ι (O.wpReal fwd (2 ^ k)) - exactOps.wpReal fwd (2 ^ k)| ≤ 9 * u * |exactOps.wpReal fwd (2 ^ k)|
    have e : exactOps.wpReal fwd (2 ^ k) = -2 * (Real.sin (Real.pi / (2 ^ k : ℕ)) * Real.sin (Real.pi / (2 ^ k : ℕ))) := by
      cases fwd <;> simp [FOps.wpReal, FOps.wpInit, exactOps]
    rw [e]
    have hi : ∃ t : ℝ, |t| ≤ 3 * u ∧ ι (O.wpInit fwd (2 ^ k)) * ι (O.wpInit fwd (2 ^ k)) =
        (Real.sin (Real.pi / (2 ^ k : ℕ)) * (1 + t)) * (Real.sin (Real.pi / (2 ^ k : ℕ)) * (1 + t)) := by
      refine ⟨ι (O.sin1 (2 ^ k)) / Real.sin (Real.pi / (2 ^ k : ℕ)) - 1, ?_, ?_⟩
      · rw [show ι (O.sin1 (2 ^ k)) / Real.sin (Real.pi / (2 ^ k : ℕ)) - 1 =
          (ι (O.sin1 (2 ^ k)) - Real.sin (Real.pi / (2 ^ k : ℕ))) / Real.sin (Real.pi / (2 ^ k : ℕ)) by field_simp, abs_div, abs_of_pos p1, div_le_iff₀ p1]
        exact s1
      · have e : Real.sin (Real.pi / (2 ^ k : ℕ)) * (1 + (ι (O.sin1 (2 ^ k)) / Real.sin (Real.pi / (2 ^ k : ℕ)) - 1)) = ι (O.sin1 (2 ^ k)) := by
          field_simp; ring
        rw [e]
        cases fwd
        · simp [FOps.wpInit, H.neg]
        · simp [FOps.wpInit]
    obtain ⟨t, ht, hm⟩ := hi
    have m1 := H.mul (O.wpInit fwd (2 ^ k)) (O.wpInit fwd (2 ^ k))
    have m2 := H.mul O.minusTwo (O.mul (O.wpInit fwd (2 ^ k)) (O.wpInit fwd (2 ^ k)))
    rw [H.minusTwo] at m2
    rw [hm] at m1
    change |ι (O.wpReal fwd (2 ^ k)) - _| ≤ _ at m2
    generalize Real.sin (Real.pi / (2 ^ k : ℕ)) = s at *
    generalize ι (O.wpReal fwd (2 ^ k)) = W at *
    generalize ι (O.mul (O.wpInit fwd (2 ^ k)) (O.wpInit fwd (2 ^ k))) = V at *
    have hs2 : 0 < s * s := by positivity
    have ht' := abs_le.mp ht
    have e1 : s * (1 + t) * (s * (1 + t)) = s * s * (1 + t) ^ 2 := by ring
    rw [e1, abs_of_nonneg (by positivity : 0 ≤ s * s * (1 + t) ^ 2)] at m1
    have a1 : |(1 + t) ^ 2 - 1| ≤ 6 * u + 9 * u ^ 2 := by rw [abs_le]; constructor <;> nlinarith
    have a2 : |V - s * s| ≤ (7.01 * u) * (s * s) := by
      have : |V - s * s| ≤ |V - s * s * (1 + t) ^ 2| + |s * s * (1 + t) ^ 2 - s * s| := abs_sub_le _ _ _
      have e2 : |s * s * (1 + t) ^ 2 - s * s| = s * s * |(1 + t) ^ 2 - 1| := by
        rw [show s * s * (1 + t) ^ 2 - s * s = s * s * ((1 + t) ^ 2 - 1) by ring, abs_mul, abs_of_pos hs2]
      have e3 : s * s * |(1 + t) ^ 2 - 1| ≤ s * s * (6 * u + 9 * u ^ 2) := mul_le_mul_of_nonneg_left a1 hs2.le
      have e4 : (1 + t) ^ 2 ≤ 1.001 := by nlinarith
      have e5 : u * (s * s * (1 + t) ^ 2) ≤ u * (s * s) * 1.001 := by
        have := mul_le_mul_of_nonneg_left e4 (by positivity : 0 ≤ u * (s * s))
        linarith
      have e6 : u ^ 2 * (s * s) ≤ 1 / 10000 * (u * (s * s)) := by
        have : 0 ≤ u * (s * s) := by positivity
        nlinarith
      have : s * s * (6 * u + 9 * u ^ 2) = 6 * (u * (s * s)) + 9 * (u ^ 2 * (s * s)) := by ring
      nlinarith [mul_nonneg hu hs2.le]
    have a3 : |V| ≤ 1.001 * (s * s) := by
      have := abs_sub_abs_le_abs_sub V (s * s)
      rw [abs_of_pos hs2] at this
      have : 7.01 * u * (s * s) ≤ 0.001 * (s * s) := mul_le_mul_of_nonneg_right (by linarith) hs2.le
      linarith
    rw [abs_mul, abs_neg, abs_two] at m2
    have a4 : |W - -2 * (s * s)| ≤ |W - -2 * V| + |-2 * V - -2 * (s * s)| := abs_sub_le _ _ _
    have a5 : |-2 * V - -2 * (s * s)| = 2 * |V - s * s| := by
      rw [show -2 * V - -2 * (s * s) = -2 * (V - s * s) by ring, abs_mul, abs_neg, abs_two]
    rw [abs_mul (-2) (s * s), abs_neg, abs_two, abs_of_pos hs2]
    have a6 : u * (2 * |V|) ≤ u * (2 * (1.001 * (s * s))) := mul_le_mul_of_nonneg_left (by linarith) hu
    nlinarith [mul_nonneg hu hs2.le]
  · show |ι (O.wpImag fwd (2 ^ k)) - exactOps.wpImag fwd (2 ^ k)| ≤ 9 * u * |exactOps.wpImag fwd (2 ^ k)|
    have e : |ι (O.wpImag fwd (2 ^ k)) - exactOps.wpImag fwd (2 ^ k)| = |ι (O.sin1 (2 ^ (k - 1))) - Real.sin (Real.pi / (2 ^ (k - 1) : ℕ))| := by
      cases fwd
      · simp only [FOps.wpImag, exactOps, hd, Bool.false_eq_true, if_false, H.neg]
        rw [← neg_add', abs_neg, sub_eq_add_neg]
      · simp only [FOps.wpImag, exactOps, hd, if_true]
    have e2 : |exactOps.wpImag fwd (2 ^ k)| = Real.sin (Real.pi / (2 ^ (k - 1) : ℕ)) := by
      cases fwd
      · simp only [FOps.wpImag, exactOps, hd, Bool.false_eq_true, if_false]
        rw [abs_neg, abs_of_pos p2]
      · simp only [FOps.wpImag, exactOps, hd, if_true]
        rw [abs_of_pos p2]
    rw [e, e2]
    nlinarith

end Rnd

theorem norm_rootU (fwd : Bool) (n : ℕ) : ‖rootU fwd n‖ = 1 := by
  unfold rootU
  have e : (if fwd then (1:ℂ) else -1) * (2 * Real.pi / n) * I = (((if fwd then 1 else -1) * (2 * Real.pi / n) : ℝ) : ℂ) * I := by
    cases fwd <;> simp
  rw [e, norm_exp_ofReal_mul_I]

/-- The distance of the root of unity from 1. -/
theorem norm_rootU_sub_one (fwd : Bool) {n : ℕ} (hn : 0 < n) : ‖rootU fwd n - 1‖ ≤ 2 * Real.pi / n := by
  unfold rootU
  have e : (if fwd then (1:ℂ) else -1) * (2 * Real.pi / n) * I = I * (((if fwd then 1 else -1) * (2 * Real.pi / n) : ℝ) : ℂ) := by
    cases fwd <;> simp <;> ring
  rw [e]
  refine le_trans (Real.norm_exp_I_mul_ofReal_sub_one_le) ?_
  rw [Real.norm_eq_abs, abs_mul]
  have h1 : |if fwd then (1:ℝ) else -1| = 1 := by cases fwd <;> simp
  rw [h1, one_mul, abs_of_nonneg (by positivity)]

end WD
