import Verif.Proofs.FftFill
/-
  C56: the Fourier transforms of the FFT multiplication, in exact arithmetic.
-/
namespace WD
open Finset

theorem dft_eq_exp (x : ℕ → ℝ) (n k : ℕ) :
    dft (rootU true n) n (fun j => (x j : ℂ)) k = ∑ j ∈ range n, x j * Complex.exp (2 * Real.pi * Complex.I * j * k / n) := by
  unfold dft
  refine sum_congr rfl fun j _ => ?_
  rw [rootU_pow, if_pos rfl, one_mul]
  congr 2
  push_cast; ring

/-- C56. The forward transform of n = 16·2^m real numbers, with exact arithmetic: the Fourier coefficients
    X_k = Σ x_j e^(2πi·jk/n), 0 ≤ k ≤ n/2, are stored as X_0, X_(n/2) (both real), Re X_1, Im X_1, Re X_2, … -/
theorem fft_forward_exact (m : ℕ) (x : ℕ → ℝ) :
    let n := 16 * 2 ^ m
    let X : ℕ → ℂ := fun k => ∑ j ∈ range n, x j * Complex.exp (2 * Real.pi * Complex.I * j * k / n)
    let y := exactOps.rfftF m x
    (y 0 : ℂ) = X 0 ∧ (y 1 : ℂ) = X (n / 2) ∧ ∀ k, 0 < k → k < n / 2 → y (2 * k) + y (2 * k + 1) * Complex.I = X k := by
  intro n X y
  obtain ⟨h0, h1, hk⟩ := rfftF_exact m x
  have e : n / 2 = 8 * 2 ^ m := by show 16 * 2 ^ m / 2 = _; omega
  refine ⟨h0.trans (dft_eq_exp x n 0), ?_, fun k k0 hkk => ?_⟩
  · rw [e]; exact h1.trans (dft_eq_exp x n _)
  · rw [e] at hkk
    refine Eq.trans ?_ ((hk k k0 hkk).trans (dft_eq_exp x n k))
    unfold toC FOps.cx
    rw [zero_add, zero_add]
    apply Complex.ext <;> simp [y]

/-- C56. With exact arithmetic the inverse transform of the forward transform is n/2 times the original. -/
theorem fft_roundtrip_exact (m : ℕ) (x : ℕ → ℝ) :
    ∀ j, j < 16 * 2 ^ m → exactOps.rfftB m (exactOps.rfftF m x) j = (16 * 2 ^ m : ℝ) / 2 * x j := by
  intro j hj
  rw [rfftB_exact m _ x (rfftF_exact m x) j hj]
  push_cast; ring

/-- C56. With exact arithmetic, transforming two sequences, multiplying the transforms as `mul_loop_fft` does and transforming
    back gives n/2 times the cyclic convolution: the sum of a_s·b_t over s + t ≡ j (mod n). -/
theorem fft_convolution_exact (m : ℕ) (a b : ℕ → ℝ) :
    let n := 16 * 2 ^ m
    ∀ j, j < n → exactOps.fftConv m a b j = (n : ℝ) / 2 * ∑ s ∈ range n, ∑ t ∈ range n, if (s + t) % n = j then a s * b t else 0 := by
  intro n j hj
  rw [fftConv_exact m a b j hj]
  unfold cyc
  show ((8 * 2 ^ m : ℕ) : ℝ) * _ = ((16 * 2 ^ m : ℕ) : ℝ) / 2 * _
  push_cast; ring

/-- C56. The size of the transform `eval_mul_dispatch_multiplication_method` chooses (at most 2^29 limbs): a power of two with room
    for the product, so that with exact arithmetic `mul_loop_fft` obtains exactly the convolution of the half-limbs, for every
    index and all limbs u, v. -/
theorem fft_limbs_exact (L : Limb) (p : ℕ) (hp : p ≤ 2 ^ 29) (u v : List ℕ) (hu : u.length = p) (hv : v.length = p) :
    let m := Nat.log2 (nFft p / 16)
    nFft p = 16 * 2 ^ m ∧ 4 * p ≤ nFft p ∧ ∀ j, j < nFft p → exactOps.xaj L m p u v j = conv (splitHalf L u) (splitHalf L v) j := by
  intro m
  obtain ⟨h1, h2, -⟩ := nFft_spec hp
  refine ⟨h1, h2, fun j hj => ?_⟩
  change nFft p = 16 * 2 ^ m at h1
  have f : ∀ w : List ℕ, w.length = p → exactOps.fillHalf L p w = fun i => ((splitHalf L w).getD i 0 : ℝ) := fun w hw => by
    funext i
    rw [fillHalf_eq exactOps L hw (by simp [exactOps])]; rfl
  unfold FOps.xaj
  rw [f u hu, f v hv, fftConv_exact m _ _ j (by omega),
    cyc_eq_conv (q := 2 * p) _ _ (by rw [splitHalf_length, hu]) (by rw [splitHalf_length, hv]) (by omega) (by omega)]
  have e : 16 * 2 ^ m / 2 = 8 * 2 ^ m := by omega
  rw [e]
  show ((8 * 2 ^ m : ℕ) : ℝ) * _ / ((8 * 2 ^ m : ℕ) : ℝ) = _
  have : ((8 * 2 ^ m : ℕ) : ℝ) ≠ 0 := by positivity
  field_simp

/-- The smallest FFT multiplication uses 8192 points. -/
example : nFft 1793 = 8192 ∧ 16 * 2 ^ Nat.log2 (nFft 1793 / 16) = 8192 := by
  have h : Nat.log2 512 = 9 := Nat.log2_two_pow (n := 9)
  have e : nFft 1793 = 8192 := by decide
  rw [e]
  exact ⟨rfl, by rw [show 8192 / 16 = 512 by norm_num, h]; norm_num⟩

/-- 12 34 times 56 78 in one-digit half-limbs, 8-bit limbs: the coefficients 5, 16, 34, 60. -/
example : (List.range 4).map (fun j => exactOps.xaj .u8 (Nat.log2 (nFft 2 / 16)) 2 [12, 34] [56, 78] j) = [5, 16, 34, 60] := by
  have h := (fft_limbs_exact .u8 2 (by norm_num) [12, 34] [56, 78] rfl rfl).2.2
  have hn : nFft 2 = 32 := by decide
  rw [hn] at h ⊢
  simp only [List.range, List.range.loop, List.map_cons, List.map_nil]
  rw [h 0 (by norm_num), h 1 (by norm_num), h 2 (by norm_num), h 3 (by norm_num)]
  have c0 : conv (splitHalf .u8 [12, 34]) (splitHalf .u8 [56, 78]) 0 = 5 := by decide
  have c1 : conv (splitHalf .u8 [12, 34]) (splitHalf .u8 [56, 78]) 1 = 16 := by decide
  have c2 : conv (splitHalf .u8 [12, 34]) (splitHalf .u8 [56, 78]) 2 = 34 := by decide
  have c3 : conv (splitHalf .u8 [12, 34]) (splitHalf .u8 [56, 78]) 3 = 60 := by decide
  rw [c0, c1, c2, c3]; norm_num

end WD
