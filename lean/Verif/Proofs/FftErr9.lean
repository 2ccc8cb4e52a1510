import Verif.Proofs.FftErr8
/-
  Rounding errors of the product in transform space and of the convolution.
-/
namespace WD
open Finset Complex

/-- The product of two stored transforms at the index k. -/
noncomputable def pm (k : ℕ) (a b : ℂ) : ℂ := if k = 0 then ⟨a.re * b.re, a.im * b.im⟩ else a * b

theorem pm_le (k : ℕ) (a b : ℂ) : ‖pm k a b‖ ≤ ‖a‖ * ‖b‖ := by
  unfold pm
  split
  · apply abs_le_of_sq_le_sq' _ (by positivity) |>.2
    rw [mul_pow, Rnd.norm_sq_parts, Rnd.norm_sq_parts, Rnd.norm_sq_parts]
    simp only
    nlinarith [sq_nonneg (a.re * b.im), sq_nonneg (a.im * b.re)]
  · rw [norm_mul]

theorem pm_comm (k : ℕ) (a b : ℂ) : pm k a b = pm k b a := by
  unfold pm
  split
  · rw [mul_comm a.re, mul_comm a.im]
  · rw [mul_comm]

theorem pm_sub (k : ℕ) (a b a' b' : ℂ) : pm k a b - pm k a' b' = pm k (a - a') b + pm k (b - b') a' := by
  unfold pm
  split
  · apply Complex.ext <;> simp <;> ring
  · ring

namespace Rnd
variable {K : Type} {O : FOps K} {ι : K → ℝ} {u : ℝ} (H : Rnd O ι u)
include H

theorem pointwise_err {N : ℕ} (a b : ℕ → K) {k : ℕ} (hk : k < N) :
    ‖C ι (FOps.cx (O.pointwise (2 * N) a b) 0 k) - pm k (C ι (FOps.cx a 0 k)) (C ι (FOps.cx b 0 k))‖ ≤ 3 * u * (‖C ι (FOps.cx a 0 k)‖ * ‖C ι (FOps.cx b 0 k)‖) := by
  have hu := H.u0
  obtain ⟨p0, pk⟩ := O.pointwise_spec N a b
  rcases Nat.eq_zero_or_pos k with rfl | h0
  · have hp := pm_le 0 (C ι (FOps.cx a 0 0)) (C ι (FOps.cx b 0 0))
    rw [p0]
    have e : pm 0 (C ι (FOps.cx a 0 0)) (C ι (FOps.cx b 0 0)) = ⟨ι (a 0) * ι (b 0), ι (a 1) * ι (b 1)⟩ := by
      unfold pm; rw [if_pos rfl]; rfl
    have h1 : ‖C ι (O.mul (a 0) (b 0), O.mul (a 1) (b 1)) - pm 0 (C ι (FOps.cx a 0 0)) (C ι (FOps.cx b 0 0))‖ ≤ u * ‖pm 0 (C ι (FOps.cx a 0 0)) (C ι (FOps.cx b 0 0))‖ := by
      rw [e]
      exact norm_comp hu (H.mul _ _) (H.mul _ _)
    refine le_trans h1 (le_trans (mul_le_mul_of_nonneg_left hp hu) ?_)
    have : 0 ≤ u * (‖C ι (FOps.cx a 0 0)‖ * ‖C ι (FOps.cx b 0 0)‖) := by positivity
    nlinarith
  · rw [pk k h0 hk]
    have h := H.cmul (FOps.cx a 0 k) (FOps.cx b 0 k)
    unfold pm
    rw [if_neg (by omega)]
    exact h

/-- The relative errors of the transforms and of the product. -/
noncomputable def theta (u : ℝ) (T : ℕ → ℝ) (T' : ℝ) (m : ℕ) : ℝ := sig u T' * (1 + eps u T m) + eps u T m
noncomputable def phi (u : ℝ) (T : ℕ → ℝ) (T' : ℝ) (m : ℕ) : ℝ :=
  3 * u * (1 + theta u T T' m) ^ 2 + theta u T T' m * (1 + theta u T T' m) + theta u T T' m

theorem theta_nonneg {m : ℕ} {T : ℕ → ℝ} {T' : ℝ} (B : TwB O ι T T' m) : 0 ≤ theta u T T' m := by
  have := H.sig_nonneg B.rnonneg
  have := H.eps_nonneg m fun i h1 h2 => B.nonneg h1 h2
  unfold theta; positivity

theorem phi_nonneg {m : ℕ} {T : ℕ → ℝ} {T' : ℝ} (B : TwB O ι T T' m) : 0 ≤ phi u T T' m := by
  have := H.theta_nonneg B
  have := H.u0
  unfold phi; positivity

end Rnd

theorem pointwise_exact {N : ℕ} (a b : ℕ → ℝ) {k : ℕ} (hk : k < N) :
    toC (FOps.cx (exactOps.pointwise (2 * N) a b) 0 k) = pm k (toC (FOps.cx a 0 k)) (toC (FOps.cx b 0 k)) := by
  obtain ⟨p0, pk⟩ := exactOps.pointwise_spec N a b
  rcases Nat.eq_zero_or_pos k with rfl | h0
  · rw [p0]; unfold pm; rw [if_pos rfl]; rfl
  · rw [pk k h0 hk]; unfold pm; rw [if_neg (by omega)]
    apply Complex.ext <;> simp [toC, FOps.pmul, exactOps]

namespace Rnd
variable {K : Type} {O : FOps K} {ι : K → ℝ} {u : ℝ} (H : Rnd O ι u)
include H

/-- The convolution by the transforms. -/
theorem fftConv_err {m : ℕ} {T : ℕ → ℝ} {T' : ℝ} (B : TwB O ι T T' m) (a b : ℕ → K) {A : ℝ}
    (ha : nrm (8 * 2 ^ m) (fun j => C ι (FOps.cx a 0 j)) ≤ A) (hb : nrm (8 * 2 ^ m) (fun j => C ι (FOps.cx b 0 j)) ≤ A) {j : ℕ} (hj : j < 16 * 2 ^ m) :
    |ι (O.fftConv m a b j) - (8 * 2 ^ m : ℕ) * cyc (16 * 2 ^ m) (fun i => ι (a i)) (fun i => ι (b i)) j| ≤
      2 * (8 * 2 ^ m : ℕ) * A ^ 2 *
        ((eps u T m * (Real.sqrt 2 + 2 * sig u T') + 2 * sig u T') * (1 + phi u T T' m) + Real.sqrt 2 * phi u T T' m) ∧
    |(8 * 2 ^ m : ℕ) * cyc (16 * 2 ^ m) (fun i => ι (a i)) (fun i => ι (b i)) j| ≤ 2 * (8 * 2 ^ m : ℕ) * A ^ 2 * Real.sqrt 2 := by
  have hu := H.u0
  have hσ := H.sig_nonneg B.rnonneg
  have hε := H.eps_nonneg m fun i h1 h2 => B.nonneg h1 h2
  have hθ := H.theta_nonneg B
  have hφ := H.phi_nonneg B
  have hN : 0 < 8 * 2 ^ m := by positivity
  have e16 : 16 * 2 ^ m = 2 * (8 * 2 ^ m) := by ring
  have q0 : 0 ≤ Real.sqrt (8 * 2 ^ m : ℕ) := Real.sqrt_nonneg _
  have r2 : 0 ≤ Real.sqrt 2 := Real.sqrt_nonneg _
  set x : ℕ → ℝ := fun i => ι (a i) with hx
  set y : ℕ → ℝ := fun i => ι (b i) with hy
  set G := Real.sqrt 2 * (Real.sqrt (8 * 2 ^ m : ℕ) * A) with hG
  have hA0 : 0 ≤ A := le_trans (nrm_nonneg _ _) ha
  have hG0 : 0 ≤ G := by positivity
  have hGG : G * G = 2 * (8 * 2 ^ m : ℕ) * A ^ 2 := by
    have e1 : Real.sqrt 2 * Real.sqrt 2 = 2 := Real.mul_self_sqrt (by norm_num)
    have e2 : Real.sqrt (8 * 2 ^ m : ℕ) * Real.sqrt (8 * 2 ^ m : ℕ) = (8 * 2 ^ m : ℕ) := Real.mul_self_sqrt (Nat.cast_nonneg _)
    calc G * G = (Real.sqrt 2 * Real.sqrt 2) * (Real.sqrt (8 * 2 ^ m : ℕ) * Real.sqrt (8 * 2 ^ m : ℕ)) * A ^ 2 := by rw [hG]; ring
      _ = _ := by rw [e1, e2]
  set X : ℕ → ℂ := fun k => toC (FOps.cx (exactOps.rfftF m x) 0 k) with hX
  set Y : ℕ → ℂ := fun k => toC (FOps.cx (exactOps.rfftF m y) 0 k) with hY
  set X' : ℕ → ℂ := fun k => C ι (FOps.cx (O.rfftF m a) 0 k) with hX'
  set Y' : ℕ → ℂ := fun k => C ι (FOps.cx (O.rfftF m b) 0 k) with hY'
  set θ := theta u T T' m with hθd
  -- the transforms
  have tr : ∀ d : ℕ → K, nrm (8 * 2 ^ m) (fun j => C ι (FOps.cx d 0 j)) ≤ A →
      nrm (8 * 2 ^ m) (fun k => C ι (FOps.cx (O.rfftF m d) 0 k) - toC (FOps.cx (exactOps.rfftF m (fun i => ι (d i))) 0 k)) ≤ θ * G ∧
      nrm (8 * 2 ^ m) (fun k => toC (FOps.cx (exactOps.rfftF m (fun i => ι (d i))) 0 k)) ≤ G := by
    intro d hd
    have hle : Real.sqrt 2 * (Real.sqrt (8 * 2 ^ m : ℕ) * nrm (8 * 2 ^ m) (fun j => C ι (FOps.cx d 0 j))) ≤ G :=
      mul_le_mul_of_nonneg_left (mul_le_mul_of_nonneg_left hd q0) r2
    constructor
    · have h := H.rfftF_err B d
      refine le_trans (le_of_eq (nrm_congr fun k hk => ?_)) (le_trans h ?_)
      · rw [rfftF_Uv _ hk]; rfl
      · rw [mul_comm θ]
        exact mul_le_mul_of_nonneg_right hle hθ
    · rw [nrm_congr fun k hk => rfftF_Uv _ hk]
      refine le_trans (nrm_UvF hN _) ?_
      rw [parseval_nrm true]
      exact hle
  obtain ⟨dX, nX⟩ := tr a ha
  obtain ⟨dY, nY⟩ := tr b hb
  have nX' : nrm (8 * 2 ^ m) X' ≤ (1 + θ) * G := by
    have := nrm_le_add (8 * 2 ^ m) X' X
    linarith
  have nY' : nrm (8 * 2 ^ m) Y' ≤ (1 + θ) * G := by
    have := nrm_le_add (8 * 2 ^ m) Y' Y
    linarith
  have g1 : 0 ≤ (1 + θ) * G := by positivity
  have g2 : 0 ≤ θ * G := by positivity
  -- the product
  set p : ℕ → K := O.pointwise (16 * 2 ^ m) (O.rfftF m a) (O.rfftF m b) with hp
  set q : ℕ → ℝ := exactOps.pointwise (16 * 2 ^ m) (exactOps.rfftF m x) (exactOps.rfftF m y) with hq
  set Q : ℕ → ℂ := fun k => toC (FOps.cx q 0 k) with hQ
  have hQe : ∀ k, k < 8 * 2 ^ m → Q k = pm k (X k) (Y k) := by
    intro k hk
    rw [hQ, hq, e16]
    exact pointwise_exact _ _ hk
  have nQ : s1 (8 * 2 ^ m) Q ≤ G * G := by
    refine le_trans (nrm_mul_le _ X Y Q fun k hk => ?_) (mul_le_mul nX nY (nrm_nonneg _ _) hG0)
    rw [hQe k hk]
    exact pm_le _ _ _
  have dP : s1 (8 * 2 ^ m) (fun k => C ι (FOps.cx p 0 k) - Q k) ≤ phi u T T' m * (G * G) := by
    have s1' : s1 (8 * 2 ^ m) (fun k => C ι (FOps.cx p 0 k) - pm k (X' k) (Y' k)) ≤ 3 * u * (((1 + θ) * G) * ((1 + θ) * G)) := by
      have c0 : s1 (8 * 2 ^ m) (fun k => C ι (FOps.cx p 0 k) - pm k (X' k) (Y' k)) ≤ 3 * u * s1 (8 * 2 ^ m) (fun k => X' k * Y' k) := by
        unfold s1
        rw [mul_sum]
        refine sum_le_sum fun k hk => ?_
        rw [norm_mul, hp, e16]
        exact H.pointwise_err _ _ (mem_range.mp hk)
      refine le_trans c0 (mul_le_mul_of_nonneg_left ?_ (by positivity))
      exact le_trans (nrm_mul_le _ X' Y' _ fun k hk => le_of_eq (norm_mul _ _)) (mul_le_mul nX' nY' (nrm_nonneg _ _) g1)
    have s2 : s1 (8 * 2 ^ m) (fun k => pm k (X' k - X k) (Y' k)) ≤ (θ * G) * ((1 + θ) * G) :=
      le_trans (nrm_mul_le _ (fun k => X' k - X k) Y' _ fun k hk => pm_le _ _ _) (mul_le_mul dX nY' (nrm_nonneg _ _) g2)
    have s3 : s1 (8 * 2 ^ m) (fun k => pm k (Y' k - Y k) (X k)) ≤ (θ * G) * G :=
      le_trans (nrm_mul_le _ (fun k => Y' k - Y k) X _ fun k hk => pm_le _ _ _) (mul_le_mul dY nX (nrm_nonneg _ _) g2)
    have s4 := s1_sub_le (8 * 2 ^ m) (fun k => C ι (FOps.cx p 0 k)) (fun k => pm k (X' k) (Y' k)) Q
    have s5 : s1 (8 * 2 ^ m) (fun k => pm k (X' k) (Y' k) - Q k) ≤ s1 (8 * 2 ^ m) (fun k => pm k (X' k - X k) (Y' k)) + s1 (8 * 2 ^ m) (fun k => pm k (Y' k - Y k) (X k)) := by
      refine le_trans (le_of_eq (s1_congr fun k hk => ?_)) (s1_add_le _ _ _)
      rw [hQe k hk, pm_sub]
    have fin : phi u T T' m * (G * G) = 3 * u * (((1 + θ) * G) * ((1 + θ) * G)) + (θ * G) * ((1 + θ) * G) + (θ * G) * G := by
      unfold phi; rw [← hθd]; ring
    rw [fin]
    linarith
  have nP : s1 (8 * 2 ^ m) (fun k => C ι (FOps.cx p 0 k)) ≤ (1 + phi u T T' m) * (G * G) := by
    have := s1_le_add (8 * 2 ^ m) (fun k => C ι (FOps.cx p 0 k)) Q
    linarith
  -- the inverse transform
  have hBe : ∀ k, k < 8 * 2 ^ m → toC (FOps.cx (exactOps.fftConv m x y) 0 k) = dft (rootU false (8 * 2 ^ m)) (8 * 2 ^ m) (Uv false (8 * 2 ^ m) Q) k := fun k hk => rfftB_Uv q hk
  have nB : ∀ k, k < 8 * 2 ^ m → ‖toC (FOps.cx (exactOps.fftConv m x y) 0 k)‖ ≤ G * G * Real.sqrt 2 := by
    intro k hk
    rw [hBe k hk]
    refine le_trans (norm_dft_le (norm_rootU _ _) _ _ _) (le_trans (s1_UvB hN _) ?_)
    rw [mul_comm (G * G)]
    exact mul_le_mul_of_nonneg_left nQ r2
  have hBd : ∀ k, k < 8 * 2 ^ m → ‖C ι (FOps.cx (O.fftConv m a b) 0 k) - toC (FOps.cx (exactOps.fftConv m x y) 0 k)‖ ≤
      G * G * ((eps u T m * (Real.sqrt 2 + 2 * sig u T') + 2 * sig u T') * (1 + phi u T T' m) + Real.sqrt 2 * phi u T T' m) := by
    intro k hk
    rw [hBe k hk]
    refine le_trans (H.rfftB_err B p Q hk) ?_
    have t0 : 0 ≤ eps u T m * (Real.sqrt 2 + 2 * sig u T') + 2 * sig u T' := by positivity
    have t1 := mul_le_mul_of_nonneg_left nP t0
    have t2 := mul_le_mul_of_nonneg_left dP r2
    refine le_trans (add_le_add t1 t2) (le_of_eq ?_)
    ring
  have hex := fftConv_exact m x y j hj
  have comp : ∀ (f : ℕ → ℂ) (g : ℕ → ℝ) (Z : ℝ), (∀ k, k < 8 * 2 ^ m → f k = toC (g (2 * k), g (2 * k + 1))) → (∀ k, k < 8 * 2 ^ m → ‖f k‖ ≤ Z) → |g j| ≤ Z := by
    intro f g Z hfg hZ
    have hk : j / 2 < 8 * 2 ^ m := by omega
    have := hZ _ hk
    rw [hfg _ hk] at this
    refine le_trans ?_ this
    rcases Nat.mod_two_eq_zero_or_one j with h | h
    · have := abs_re_le_norm (toC (g (2 * (j / 2)), g (2 * (j / 2) + 1)))
      rw [show 2 * (j / 2) = j by omega] at this ⊢
      exact this
    · have := abs_im_le_norm (toC (g (2 * (j / 2)), g (2 * (j / 2) + 1)))
      rw [show 2 * (j / 2) + 1 = j by omega] at this ⊢
      exact this
  rw [← hex, ← hGG]
  constructor
  · refine comp _ (fun i => ι (O.fftConv m a b i) - exactOps.fftConv m x y i) _ (fun k hk => ?_) hBd
    apply Complex.ext <;> simp [toC, C, FOps.cx]
  · refine comp _ (exactOps.fftConv m x y) _ (fun k hk => ?_) nB
    apply Complex.ext <;> simp [toC, FOps.cx]

end Rnd
end WD
