import Verif.Proofs.FftReal
import Mathlib.Analysis.SpecialFunctions.Trigonometric.Basic
import Mathlib.Analysis.SpecialFunctions.Complex.Log
import Mathlib.Algebra.BigOperators.Field
import Mathlib.Tactic.LinearCombination
import Mathlib.Tactic.FieldSimp
/-
  The FFT routines in exact real arithmetic compute discrete Fourier transforms.
-/
namespace WD
open Finset Complex

/-- Discrete Fourier transform of N numbers with the root of unity w. -/
def dft (w : ℂ) (N : ℕ) (z : ℕ → ℂ) (k : ℕ) : ℂ := ∑ j ∈ range N, z j * w ^ (j * k)

theorem dft_congr {w : ℂ} {N : ℕ} {z z' : ℕ → ℂ} (h : ∀ j, j < N → z j = z' j) (k : ℕ) : dft w N z k = dft w N z' k :=
  sum_congr rfl fun j hj => by rw [h j (mem_range.mp hj)]

theorem sum_range_even_odd (f : ℕ → ℂ) (H : ℕ) : ∑ j ∈ range (2 * H), f j = ∑ j ∈ range H, f (2 * j) + ∑ j ∈ range H, f (2 * j + 1) := by
  induction H with
  | zero => simp
  | succ H ih =>
    rw [show 2 * (H + 1) = 2 * H + 1 + 1 by ring, sum_range_succ, sum_range_succ, ih, sum_range_succ, sum_range_succ]
    ring

theorem dft_split {w : ℂ} {H : ℕ} (z : ℕ → ℂ) (k : ℕ) :
    dft w (2 * H) z k = dft (w ^ 2) H (fun j => z (2 * j)) k + w ^ k * dft (w ^ 2) H (fun j => z (2 * j + 1)) k := by
  unfold dft
  rw [sum_range_even_odd, mul_sum]
  congr 1
  · refine sum_congr rfl fun j _ => ?_
    rw [← pow_mul]; congr 2; ring
  · refine sum_congr rfl fun j _ => ?_
    rw [← pow_mul, mul_left_comm, ← pow_add]; congr 2; ring

theorem dft_period {w : ℂ} {H : ℕ} (hw : w ^ H = 1) (z : ℕ → ℂ) (k : ℕ) : dft w H z (H + k) = dft w H z k := by
  unfold dft
  refine sum_congr rfl fun j _ => ?_
  rw [mul_add, pow_add, mul_comm j H, pow_mul, hw, one_pow, one_mul]

/-- The root of unity of the forward (e^{2πi/n}) or backward (e^{-2πi/n}) transform. -/
noncomputable def rootU (fwd : Bool) (n : ℕ) : ℂ := exp ((if fwd then 1 else -1) * (2 * Real.pi / n) * I)

theorem rootU_pow (fwd : Bool) (n k : ℕ) : rootU fwd n ^ k = exp ((if fwd then 1 else -1) * (2 * Real.pi / n * k) * I) := by
  unfold rootU
  rw [← exp_nat_mul]; congr 1; ring

theorem rootU_sq (fwd : Bool) {n : ℕ} (hn : 0 < n) : rootU fwd (2 * n) ^ 2 = rootU fwd n := by
  rw [rootU_pow, rootU]
  have : (n : ℂ) ≠ 0 := by exact_mod_cast hn.ne'
  congr 1; push_cast; field_simp

theorem rootU_half (fwd : Bool) {n : ℕ} (hn : 0 < n) : rootU fwd (2 * n) ^ n = -1 := by
  rw [rootU_pow]
  have hc : (n : ℂ) ≠ 0 := by exact_mod_cast hn.ne'
  have e : (2 * (Real.pi : ℂ) / ((2 * n : ℕ) : ℂ) * n) = Real.pi := by push_cast; field_simp
  rw [e]
  cases fwd
  · rw [if_neg (by simp), neg_one_mul, neg_mul, exp_neg, exp_pi_mul_I]; norm_num
  · rw [if_pos rfl, one_mul, exp_pi_mul_I]

theorem rootU_one (fwd : Bool) {n : ℕ} (hn : 0 < n) : rootU fwd n ^ n = 1 := by
  rw [← rootU_sq fwd hn, pow_right_comm, rootU_half fwd hn]; norm_num

theorem rootU_ne (fwd : Bool) (n : ℕ) : rootU fwd n ≠ 0 := exp_ne_zero _

theorem rootU_inv (n : ℕ) : rootU true n * rootU false n = 1 := by
  unfold rootU
  rw [← exp_add, if_pos rfl, if_neg (by simp), ← exp_zero]; congr 1; ring

theorem rootU_conj (fwd : Bool) (n : ℕ) : (starRingEnd ℂ) (rootU fwd n) = rootU (!fwd) n := by
  unfold rootU
  rw [← exp_conj]
  congr 1
  have h2 : (starRingEnd ℂ) 2 = 2 := conj_ofNat 2
  cases fwd <;> simp [h2]

/-- The operations on real numbers without rounding, and the exact sines. -/
noncomputable def exactOps : FOps ℝ :=
  { add := (· + ·), sub := (· - ·), mul := (· * ·), div := (· / ·), nat := fun n => n, neg := fun a => -a, half := fun a => a / 2, zero := 0, one := 1, minusTwo := -2,
    sin1 := fun n => Real.sin (Real.pi / n) }

/-- A pair of reals as a complex number. -/
def toC (p : ℝ × ℝ) : ℂ := ⟨p.1, p.2⟩

theorem toC_inj {a b : ℝ × ℝ} (h : toC a = toC b) : a = b := by
  have := Complex.ext_iff.mp h
  exact Prod.ext this.1 this.2

theorem toC_cadd (a b : ℝ × ℝ) : toC (exactOps.cadd a b) = toC a + toC b := by
  apply Complex.ext <;> simp [toC, FOps.cadd, exactOps]
theorem toC_csub (a b : ℝ × ℝ) : toC (exactOps.csub a b) = toC a - toC b := by
  apply Complex.ext <;> simp [toC, FOps.csub, exactOps]
theorem toC_cmul (a b : ℝ × ℝ) : toC (exactOps.cmul a b) = toC a * toC b := by
  apply Complex.ext <;> simp [toC, FOps.cmul, exactOps]

theorem rootU_re_im (fwd : Bool) (n : ℕ) :
    rootU fwd n = ⟨Real.cos (2 * Real.pi / n), (if fwd then 1 else -1) * Real.sin (2 * Real.pi / n)⟩ := by
  unfold rootU
  have e : (if fwd then (1:ℂ) else -1) * (2 * Real.pi / n) * I = (((if fwd then 1 else -1) * (2 * Real.pi / n) : ℝ) : ℂ) * I := by
    cases fwd <;> simp
  rw [e, exp_mul_I]
  apply Complex.ext
  · rw [← ofReal_cos, ← ofReal_sin]
    cases fwd <;> simp [-ofReal_cos, -ofReal_sin, Real.cos_neg]
  · rw [← ofReal_cos, ← ofReal_sin]
    cases fwd <;> simp [-ofReal_cos, -ofReal_sin, Real.sin_neg]

theorem wp_exact (fwd : Bool) {n : ℕ} (hn : 2 ∣ n) : (⟨exactOps.wpReal fwd n, exactOps.wpImag fwd n⟩ : ℂ) = rootU fwd n - 1 := by
  obtain ⟨m, rfl⟩ := hn
  rw [rootU_re_im]
  have e1 : Real.cos (2 * Real.pi / ((2 * m : ℕ) : ℝ)) = 1 - 2 * Real.sin (Real.pi / ((2 * m : ℕ) : ℝ)) ^ 2 := by
    rw [show 2 * Real.pi / ((2 * m : ℕ) : ℝ) = 2 * (Real.pi / ((2 * m : ℕ) : ℝ)) by ring, Real.cos_two_mul]
    have := Real.sin_sq_add_cos_sq (Real.pi / ((2 * m : ℕ) : ℝ))
    linarith
  have e2 : 2 * Real.pi / ((2 * m : ℕ) : ℝ) = Real.pi / m := by
    push_cast
    rw [mul_div_mul_left _ _ (by norm_num)]
  apply Complex.ext
  · show exactOps.wpReal fwd (2 * m) = Real.cos (2 * Real.pi / ((2 * m : ℕ) : ℝ)) - 1
    rw [e1]
    cases fwd <;> simp [FOps.wpReal, FOps.wpInit, exactOps] <;> ring
  · show exactOps.wpImag fwd (2 * m) = (if fwd then 1 else -1) * Real.sin (2 * Real.pi / ((2 * m : ℕ) : ℝ)) - 0
    rw [e2]
    cases fwd <;> simp [FOps.wpImag, exactOps]

theorem toC_twStep (fwd : Bool) {n : ℕ} (hn : 2 ∣ n) (w : ℝ × ℝ) : toC (exactOps.twStep fwd n w) = toC w * rootU fwd n := by
  have h := wp_exact fwd hn
  have hr : exactOps.wpReal fwd n = (rootU fwd n - 1).re := by rw [← h]
  have hi : exactOps.wpImag fwd n = (rootU fwd n - 1).im := by rw [← h]
  unfold FOps.twStep
  rw [hr, hi]
  apply Complex.ext <;> simp [toC, exactOps] <;> ring

theorem toC_tw (fwd : Bool) {n : ℕ} (hn : 2 ∣ n) (k : ℕ) : toC (exactOps.tw fwd n k) = rootU fwd n ^ k := by
  induction k with
  | zero => apply Complex.ext <;> simp [toC, FOps.tw, exactOps]
  | succ k ih => rw [FOps.tw, toC_twStep fwd hn, ih, pow_succ]

theorem toC_rtw (fwd : Bool) {n : ℕ} (hn : 2 ∣ n) (k : ℕ) : toC (exactOps.rtw fwd n k) = rootU fwd n ^ (k + 1) := by
  induction k with
  | zero =>
    rw [FOps.rtw, zero_add, pow_one]
    have h := wp_exact fwd hn
    rw [show rootU fwd n = 1 + (rootU fwd n - 1) by ring, ← h]
    apply Complex.ext <;> simp [toC, FOps.rInit, exactOps]
  | succ k ih => rw [FOps.rtw, toC_twStep fwd hn, ih, ← pow_succ]

/-- The butterflies of two transforms are the transform of twice the length. -/
theorem toC_bfly (fwd : Bool) {H : ℕ} (hH : 0 < H) (z : ℕ → ℂ) (y : ℕ → ℝ × ℝ)
    (he : ∀ k, k < H → toC (y k) = dft (rootU fwd H) H (fun j => z (2 * j)) k)
    (ho : ∀ k, k < H → toC (y (H + k)) = dft (rootU fwd H) H (fun j => z (2 * j + 1)) k) {k : ℕ} (hk : k < 2 * H) :
    toC (exactOps.bfly H (exactOps.tw fwd (2 * H)) y k) = dft (rootU fwd (2 * H)) (2 * H) z k := by
  rw [dft_split, rootU_sq fwd hH]
  unfold FOps.bfly
  split
  · next h => rw [toC_cadd, toC_cmul, toC_tw fwd ⟨H, rfl⟩, he k h, ho k h]
  · next h =>
    have h' : k - H < H := by omega
    have hs := ho (k - H) h'
    rw [show H + (k - H) = k by omega] at hs
    rw [toC_csub, toC_cmul, toC_tw fwd ⟨H, rfl⟩, he _ h', hs]
    have e : k = H + (k - H) := by omega
    generalize k - H = q at *
    subst e
    rw [dft_period (rootU_one fwd hH), dft_period (rootU_one fwd hH), pow_add, rootU_half fwd hH]
    ring

theorem toC_four (fwd : Bool) (z : ℕ → ℂ) (y : ℕ → ℝ × ℝ) (h : ∀ k, k < 4 → toC (y k) = z (brev 2 k)) {k : ℕ} (hk : k < 4) :
    toC (exactOps.four fwd y k) = dft (rootU fwd 4) 4 z k := by
  have hw : toC (exactOps.add (exactOps.wpReal fwd 4) exactOps.one, exactOps.wpImag fwd 4) = rootU fwd 4 := by
    have := wp_exact fwd (n := 4) ⟨2, rfl⟩
    rw [show rootU fwd 4 = (rootU fwd 4 - 1) + 1 by ring, ← this]
    apply Complex.ext <;> simp [toC, exactOps]
  have hq : rootU fwd 4 ^ 2 = -1 := rootU_half fwd (n := 2) (by norm_num)
  have h0 := h 0 (by norm_num)
  have h1 := h 1 (by norm_num)
  have h2 := h 2 (by norm_num)
  have h3 := h 3 (by norm_num)
  have b0 : brev 2 0 = 0 := by decide
  have b1 : brev 2 1 = 2 := by decide
  have b2 : brev 2 2 = 1 := by decide
  have b3 : brev 2 3 = 3 := by decide
  rw [b0] at h0; rw [b1] at h1; rw [b2] at h2; rw [b3] at h3
  unfold FOps.four dft
  simp only [sum_range_succ, sum_range_zero, zero_add]
  generalize rootU fwd 4 = w at *
  have q3 : w ^ 3 = -w := by rw [pow_succ, hq]; ring
  have q4 : w ^ 4 = 1 := by rw [show (4:ℕ) = 2 * 2 by norm_num, pow_mul, hq]; norm_num
  have q6 : w ^ 6 = -1 := by rw [show (6:ℕ) = 2 * 3 by norm_num, pow_mul, hq]; norm_num
  have q9 : w ^ 9 = w := by rw [show (9:ℕ) = 2 * 4 + 1 by norm_num, pow_succ, pow_mul, hq]; norm_num
  interval_cases k
  · simp only [toC_cadd, toC_csub, toC_cmul, hw, h0, h1, h2, h3, if_true, mul_zero, pow_zero, mul_one]
    ring
  · simp only [toC_cadd, toC_csub, toC_cmul, hw, h0, h1, h2, h3, if_true, one_ne_zero, if_false, mul_one, pow_zero, pow_one, hq, q3]
    ring
  · simp only [toC_cadd, toC_csub, toC_cmul, hw, h0, h1, h2, h3, if_true, OfNat.ofNat_ne_zero, OfNat.ofNat_ne_one, if_false, zero_mul, one_mul, pow_zero, hq,
      Nat.reduceMul, q4, q6]
    ring
  · simp only [toC_cadd, toC_csub, toC_cmul, hw, h0, h1, h2, h3, OfNat.ofNat_ne_zero, OfNat.ofNat_ne_one, if_false, zero_mul, one_mul, pow_zero, q3,
      Nat.reduceMul, q9, q6, Nat.reduceEqDiff]
    ring

/-- `danielson_lanczos_apply` after the bit reversal is the Fourier transform. -/
theorem toC_dlf (fwd : Bool) (m : ℕ) : ∀ (z : ℕ → ℂ) (y : ℕ → ℝ × ℝ), (∀ k, k < 8 * 2 ^ m → toC (y k) = z (brev (m + 3) k)) →
    ∀ k, k < 8 * 2 ^ m → toC (exactOps.dlf fwd m y k) = dft (rootU fwd (8 * 2 ^ m)) (8 * 2 ^ m) z k := by
  induction m with
  | zero =>
    intro z y h k hk
    refine toC_bfly fwd (H := 4) (by norm_num) z _ (fun k hk => ?_) (fun k hk => ?_) (by omega)
    · rw [if_pos hk]
      refine toC_four fwd _ _ (fun k hk => ?_) hk
      rw [h k (by omega), (brev_low 2 k (by omega)).1]
    · rw [if_neg (by omega), show 4 + k - 4 = k by omega]
      refine toC_four fwd _ _ (fun k hk => ?_) hk
      rw [h _ (by omega), show (4:ℕ) = 2 ^ 2 by norm_num, (brev_low 2 k (by omega)).2]
  | succ m ih =>
    intro z y h k hk
    have e8 : 8 * 2 ^ m = 2 ^ (m + 3) := by rw [pow_add]; ring
    have e1 : 8 * 2 ^ (m + 1) = 2 * (8 * 2 ^ m) := by ring
    rw [FOps.dlf]
    rw [e1] at hk h ⊢
    refine toC_bfly fwd (H := 8 * 2 ^ m) (by positivity) z _ (fun k hk => ?_) (fun k hk => ?_) hk
    · rw [if_pos hk]
      refine ih _ _ (fun k hk => ?_) k hk
      rw [h k (by omega), (brev_low (m + 3) k (by omega)).1]
    · rw [if_neg (by omega), show 8 * 2 ^ m + k - 8 * 2 ^ m = k by omega]
      refine ih _ _ (fun k hk => ?_) k hk
      rw [h _ (by omega)]
      conv_lhs => rw [e8]
      rw [(brev_low (m + 3) k (by omega)).2]

/-- `fft_lanczos_fft` in exact arithmetic. -/
theorem toC_cfft (fwd : Bool) (m : ℕ) (d : ℕ → ℝ) (k : ℕ) (hk : k < 8 * 2 ^ m) :
    toC (FOps.cx (exactOps.cfft fwd m d) 0 k) = dft (rootU fwd (8 * 2 ^ m)) (8 * 2 ^ m) (fun j => toC (FOps.cx d 0 j)) k := by
  rw [(exactOps.cfft_spec fwd m d).1 k hk]
  exact toC_dlf fwd m _ _ (fun k _ => rfl) k hk

end WD
