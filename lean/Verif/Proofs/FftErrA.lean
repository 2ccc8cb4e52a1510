import Verif.Proofs.FftErr9
import Verif.Proofs.FftFill
/-
  The values after the inverse transform in `mul_loop_fft`.
-/
namespace WD
open Finset Complex

namespace Rnd
variable {K : Type} {O : FOps K} {ι : K → ℝ} {u : ℝ} (H : Rnd O ι u)
include H

/-- The relative error of a value after the inverse transform. -/
noncomputable def fin (u : ℝ) (T : ℕ → ℝ) (T' : ℝ) (m : ℕ) : ℝ :=
  Real.sqrt 2 * u + (1 + u) * ((eps u T m * (Real.sqrt 2 + 2 * sig u T') + 2 * sig u T') * (1 + phi u T T' m) + Real.sqrt 2 * phi u T T' m)

/-- The factors of the transforms, bounded from the relative error of the operations only. -/
theorem twB {m : ℕ} (hm : m ≤ 27) (hun : u * (16 * 2 ^ m : ℕ) ≤ 1 / 100) :
    TwB O ι (fun i => u * (0.505 * (2 * 2 ^ i : ℕ) + 40)) (u * (0.505 * (8 * 2 ^ m : ℕ) + 19.6)) m := by
  have hu0 := H.u0
  have hu1 := H.u1
  have hle : ∀ i, i ≤ m + 2 → u * (2 ^ (i + 1) : ℕ) ≤ 1 / 100 := by
    intro i hi
    refine le_trans (mul_le_mul_of_nonneg_left ?_ hu0) hun
    have : 2 ^ (i + 1) ≤ 2 ^ (m + 4) := Nat.pow_le_pow_right (by norm_num) (by omega)
    have e : 2 ^ (m + 4) = 16 * 2 ^ m := by ring
    exact_mod_cast (by omega : 2 ^ (i + 1) ≤ 16 * 2 ^ m)
  refine ⟨?_, ?_, ?_, ?_⟩
  · intro fwd i h2 hi k hk
    have e : 2 * 2 ^ i = 2 ^ (i + 1) := by ring
    simp only [e]
    exact le_trans (H.tw fwd (by omega) (by omega) (hle i hi) k (by omega)) (H.small (by omega) (hle i hi)).1
  · intro i h2 hi
    have e : 2 * 2 ^ i = 2 ^ (i + 1) := by ring
    simp only [e]
    exact (H.small (k := 0) (by simp) (hle i hi)).2
  · intro fwd k hk
    have e : 16 * 2 ^ m = 2 ^ (m + 4) := by ring
    have h := H.rtw fwd (j := m + 4) (by omega) (by omega) (by rw [← e]; exact hun) k (by omega)
    rw [← e] at h
    refine le_trans h ?_
    have hk' : ((k + 1 : ℕ) : ℝ) ≤ 4 * 2 ^ m := by exact_mod_cast (by omega : k + 1 ≤ 4 * 2 ^ m)
    have hN : (0:ℝ) < 2 ^ m := by positivity
    push_cast at hk' ⊢
    generalize (2:ℝ) ^ m = n at *
    have h1 : ((k:ℝ) + 1) * (1 + 77 / (16 * n)) ≤ 4 * n + 19.25 := by
      have : ((k:ℝ) + 1) * (1 + 77 / (16 * n)) ≤ 4 * n * (1 + 77 / (16 * n)) := mul_le_mul_of_nonneg_right hk' (by positivity)
      have e : 4 * n * (1 + 77 / (16 * n)) = 4 * n + 19.25 := by field_simp; ring
      linarith
    have e2 : 1.01 * ((k:ℝ) + 1) * (u * (1 + 77 / (16 * n))) = 1.01 * u * (((k:ℝ) + 1) * (1 + 77 / (16 * n))) := by ring
    rw [e2]
    have := mul_le_mul_of_nonneg_left h1 (by positivity : 0 ≤ 1.01 * u)
    nlinarith
  · push_cast at hun ⊢
    nlinarith

theorem eps_le {m : ℕ} (hm : m ≤ 27) (hun : u * (16 * 2 ^ m : ℕ) ≤ 1 / 100) :
    eps u (fun i => u * (0.505 * (2 * 2 ^ i : ℕ) + 40)) m ≤ u * (1.03 * (8 * 2 ^ m : ℕ) + 47 * (m + 2 : ℕ)) := by
  have hu0 := H.u0
  have hu1 := H.u1
  induction m with
  | zero =>
    have q : u * u ≤ 1 / 1000000 * u := mul_le_mul_of_nonneg_right hu1 hu0
    simp only [eps, lvl]
    push_cast
    ring_nf
    nlinarith
  | succ m ih =>
    have e1 : u * (16 * 2 ^ (m + 1) : ℕ) = 32 * (u * 2 ^ m) := by push_cast; ring
    rw [e1] at hun
    have ih := ih (by omega) (by
      have : u * (16 * 2 ^ m : ℕ) = 16 * (u * 2 ^ m) := by push_cast; ring
      rw [this]; have : 0 ≤ u * 2 ^ m := by positivity
      linarith)
    have hM : ((m + 2 : ℕ) : ℝ) ≤ 28 := by exact_mod_cast (by omega : m + 2 ≤ 28)
    have hM0 : (0:ℝ) ≤ ((m + 2 : ℕ) : ℝ) := Nat.cast_nonneg _
    rw [eps]
    have hl : lvl u (u * (0.505 * (2 * 2 ^ (m + 3) : ℕ) + 40)) ≤ u * (8.0882 * 2 ^ m + 44.15) := by
      unfold lvl
      have : 0 ≤ u * 2 ^ m := by positivity
      push_cast
      rw [show (2:ℝ) ^ (m + 3) = 8 * 2 ^ m by ring]
      nlinarith
    have hl0 : 0 ≤ u * (8.0882 * 2 ^ m + 44.15) := by positivity
    have g : u * (1.03 * (8 * 2 ^ (m + 1) : ℕ) + 47 * (m + 1 + 2 : ℕ)) = u * (16.48 * 2 ^ m) + u * (47 * (m + 2 : ℕ)) + 47 * u := by
      push_cast; ring
    rw [g]
    have ih' : u * (1.03 * (8 * 2 ^ m : ℕ) + 47 * (m + 2 : ℕ)) = 8.24 * (u * 2 ^ m) + u * (47 * (m + 2 : ℕ)) := by push_cast; ring
    rw [ih'] at ih
    have hum := mul_le_mul_of_nonneg_left hM hu0
    have small : eps u (fun i => u * (0.505 * (2 * 2 ^ i : ℕ) + 40)) m ≤ 0.0067 := by linarith
    have h1 := mul_le_mul hl (by linarith : 1 + eps u (fun i => u * (0.505 * (2 * 2 ^ i : ℕ) + 40)) m ≤ 1.0067)
      (by have := H.eps_nonneg (T := fun i => u * (0.505 * (2 * 2 ^ i : ℕ) + 40)) m (fun i _ _ => by positivity); linarith) hl0
    have : 0 ≤ u * 2 ^ m := by positivity
    nlinarith

theorem fin_le {m : ℕ} (hm : m ≤ 27) (hun : u * (16 * 2 ^ m : ℕ) ≤ 1 / 100) :
    fin u (fun i => u * (0.505 * (2 * 2 ^ i : ℕ) + 40)) (u * (0.505 * (8 * 2 ^ m : ℕ) + 19.6)) m ≤ u * (7 * (8 * 2 ^ m : ℕ) + 210 * (m + 3 : ℕ)) := by
  have hu := H.u0
  have hu1 := H.u1
  have B := H.twB hm hun
  have hσ := H.sig_nonneg B.rnonneg
  have hε := H.eps_nonneg m fun i h1 h2 => B.nonneg h1 h2
  have hθ := H.theta_nonneg B
  have hφ := H.phi_nonneg B
  have he := H.eps_le hm hun
  have e16 : ((16 * 2 ^ m : ℕ) : ℝ) = 2 * (8 * 2 ^ m : ℕ) := by push_cast; ring
  rw [e16] at hun
  have hM : ((m + 2 : ℕ) : ℝ) ≤ 29 := by exact_mod_cast (by omega : m + 2 ≤ 29)
  have eM : ((m + 3 : ℕ) : ℝ) = (m + 2 : ℕ) + 1 := by push_cast; ring
  have hN0 : (0:ℝ) ≤ (8 * 2 ^ m : ℕ) := Nat.cast_nonneg _
  have hM0 : (0:ℝ) ≤ (m + 2 : ℕ) := Nat.cast_nonneg _
  have hs : Real.sqrt 2 ≤ 1.4143 := by rw [Real.sqrt_le_left (by norm_num)]; norm_num
  have hs0 : 0 ≤ Real.sqrt 2 := Real.sqrt_nonneg _
  unfold fin
  have e2 : sig u (u * (0.505 * (8 * 2 ^ m : ℕ) + 19.6)) = u * (0.505 * (8 * 2 ^ m : ℕ) + 19.6) + 6.4 * u := rfl
  generalize (fun i => u * (0.505 * (2 * 2 ^ i : ℕ) + 40)) = T at *
  generalize eT : u * (0.505 * (8 * 2 ^ m : ℕ) + 19.6) = T' at *
  have e3 : theta u T T' m = sig u T' * (1 + eps u T m) + eps u T m := rfl
  have e4 : phi u T T' m = 3 * u * (1 + theta u T T' m) ^ 2 + theta u T T' m * (1 + theta u T T' m) + theta u T T' m := rfl
  rw [eM]
  generalize ((8 * 2 ^ m : ℕ) : ℝ) = N at *
  generalize ((m + 2 : ℕ) : ℝ) = M at *
  generalize Real.sqrt 2 = s at *
  generalize eps u T m = ε at *
  generalize sig u T' = σ at *
  generalize theta u T T' m = θ at *
  generalize phi u T T' m = φ at *
  have uN := mul_nonneg hu hN0
  have uM := mul_nonneg hu hM0
  have uM1 := mul_le_mul_of_nonneg_left hM hu
  have c1 : ε ≤ 1.03 * (u * N) + 47 * (u * M) := by linarith
  have c2 : σ = 0.505 * (u * N) + 26 * u := by rw [e2, ← eT]; ring
  have b1 : ε ≤ 0.0066 := by linarith
  have b2 : σ ≤ 0.0026 := by linarith
  have b3 : θ ≤ 1.0066 * σ + ε := by
    rw [e3]
    have := mul_le_mul_of_nonneg_left b1 hσ
    linarith
  have b4 : θ ≤ 0.0093 := by linarith
  have b5 : φ ≤ 3.1 * u + 2.01 * θ := by
    rw [e4]
    have h1 : (1 + θ) ^ 2 ≤ 1.02 := by nlinarith
    have h2 := mul_le_mul_of_nonneg_left h1 (by linarith : 0 ≤ 3 * u)
    have h3 : θ * θ ≤ 0.0093 * θ := mul_le_mul_of_nonneg_right b4 hθ
    nlinarith
  have b6 : φ ≤ 0.019 := by linarith
  have b8 : ε * (s + 2 * σ) + 2 * σ ≤ 1.4195 * ε + 2 * σ := by
    have : ε * (s + 2 * σ) ≤ ε * 1.4195 := mul_le_mul_of_nonneg_left (by linarith) hε
    linarith
  have b9 : (ε * (s + 2 * σ) + 2 * σ) * (1 + φ) ≤ 1.4465 * ε + 2.038 * σ := by
    have h0 : 0 ≤ 1.4195 * ε + 2 * σ := by positivity
    have h1 := mul_le_mul_of_nonneg_right b8 (by linarith : 0 ≤ 1 + φ)
    have h2 := mul_le_mul_of_nonneg_left b6 h0
    linarith
  have b7 : s * φ ≤ 1.4143 * φ := mul_le_mul_of_nonneg_right hs hφ
  have b10 : (ε * (s + 2 * σ) + 2 * σ) * (1 + φ) + s * φ ≤ 4.2894 * ε + 4.8997 * σ + 4.4 * u := by linarith
  have b11 : (1 + u) * ((ε * (s + 2 * σ) + 2 * σ) * (1 + φ) + s * φ) ≤ 4.29 * ε + 4.9 * σ + 4.5 * u := by
    have h1 := mul_le_mul_of_nonneg_left b10 (by linarith : 0 ≤ 1 + u)
    have h2 := mul_le_mul_of_nonneg_right hu1 hε
    have h3 := mul_le_mul_of_nonneg_right hu1 hσ
    have h4 := mul_le_mul_of_nonneg_right hu1 hu
    have h5 : (1 + u) * (4.2894 * ε + 4.8997 * σ + 4.4 * u) = 4.2894 * ε + 4.8997 * σ + 4.4 * u + 4.2894 * (u * ε) + 4.8997 * (u * σ) + 4.4 * (u * u) := by ring
    linarith
  have b12 := mul_le_mul_of_nonneg_right hs hu
  have c3 : u * (7 * N + 210 * (M + 1)) = 7 * (u * N) + 210 * (u * M) + 210 * u := by ring
  rw [c3]
  linarith

/-- A value after the inverse transform, from bounds of the inputs. -/
theorem xaj_core {m : ℕ} {T : ℕ → ℝ} {T' : ℝ} (B : TwB O ι T T' m) (hnN : ι (O.nat (8 * 2 ^ m)) = (8 * 2 ^ m : ℕ)) (a b : ℕ → K) {A : ℝ}
    (ha : nrm (8 * 2 ^ m) (fun j => C ι (FOps.cx a 0 j)) ≤ A) (hb : nrm (8 * 2 ^ m) (fun j => C ι (FOps.cx b 0 j)) ≤ A) {j : ℕ} (hj : j < 16 * 2 ^ m) :
    |ι (O.div (O.fftConv m a b j) (O.nat (8 * 2 ^ m))) - cyc (16 * 2 ^ m) (fun i => ι (a i)) (fun i => ι (b i)) j| ≤ 2 * A ^ 2 * fin u T T' m := by
  obtain ⟨h1, h2⟩ := H.fftConv_err B a b ha hb hj
  have hu := H.u0
  have hd := H.div (O.fftConv m a b j) (O.nat (8 * 2 ^ m))
  rw [hnN] at hd
  have hN : (0:ℝ) < (8 * 2 ^ m : ℕ) := by positivity
  have hW : 0 ≤ 2 * A ^ 2 := by positivity
  unfold fin
  rw [show 2 * ((8 * 2 ^ m : ℕ) : ℝ) * A ^ 2 = (8 * 2 ^ m : ℕ) * (2 * A ^ 2) by ring, mul_assoc] at h1 h2
  generalize 2 * A ^ 2 = W at *
  generalize ι (O.div (O.fftConv m a b j) (O.nat (8 * 2 ^ m))) = z at *
  generalize ι (O.fftConv m a b j) = f at *
  generalize cyc (16 * 2 ^ m) (fun i => ι (a i)) (fun i => ι (b i)) j = c at *
  generalize (eps u T m * (Real.sqrt 2 + 2 * sig u T') + 2 * sig u T') * (1 + phi u T T' m) + Real.sqrt 2 * phi u T T' m = β at *
  generalize ((8 * 2 ^ m : ℕ) : ℝ) = N at *
  generalize Real.sqrt 2 = s at *
  have k1 : |f / N - c| ≤ W * β := by
    rw [show f / N - c = (f - N * c) / N by field_simp, abs_div, abs_of_pos hN, div_le_iff₀ hN]
    linarith
  have k2 : |c| ≤ W * s := by
    rw [abs_mul, abs_of_pos hN] at h2
    exact le_of_mul_le_mul_left h2 hN
  have k3 : |f / N| ≤ W * β + W * s := by
    have := abs_sub_abs_le_abs_sub (f / N) c
    linarith
  have k4 : |z - c| ≤ |z - f / N| + |f / N - c| := abs_sub_le _ _ _
  have k5 := mul_le_mul_of_nonneg_left k3 hu
  have k6 : W * (s * u + (1 + u) * β) = u * (W * β + W * s) + W * β := by ring
  rw [k6]
  linarith

/-- The values after the inverse transform for the half-limbs of u and v. -/
theorem xaj_err (L : Limb) {m p : ℕ} {T : ℕ → ℝ} {T' : ℝ} (B : TwB O ι T T' m) (hp : 4 * p ≤ 16 * 2 ^ m) (hp0 : 0 < p)
    (hnN : ι (O.nat (8 * 2 ^ m)) = (8 * 2 ^ m : ℕ)) (h0 : O.nat 0 = O.zero) (hnat : ∀ n, n < L.half → ι (O.nat n) = n)
    (a b : List ℕ) (ha : a.length = p) (hb : b.length = p) (hav : ValidLimbs L.mask a) (hbv : ValidLimbs L.mask b) {j : ℕ} (hj : j < 16 * 2 ^ m) :
    |ι (O.xaj L m p a b j) - conv (splitHalf L a) (splitHalf L b) j| ≤
      4 * p * (L.half - 1) ^ 2 * fin u T T' m := by
  have hh := L.half_ge
  -- the digits
  have dig : ∀ w : List ℕ, w.length = p → ValidLimbs L.mask w → ∀ i, (splitHalf L w).getD i 0 < L.half ∧ (2 * p ≤ i → (splitHalf L w).getD i 0 = 0) ∧
      ι (O.fillHalf L p w i) = (splitHalf L w).getD i 0 := by
    intro w hw hwv i
    have hl : (splitHalf L w).length = 2 * p := by rw [splitHalf_length, hw]
    have h1 : (splitHalf L w).getD i 0 < L.half := by
      by_cases hi : i < 2 * p
      · have := splitHalf_valid L hwv
        have hg : (splitHalf L w).getD i 0 = (splitHalf L w)[i]'(by omega) := by simp [List.getD, List.getElem?_eq_getElem (by omega : i < (splitHalf L w).length)]
        rw [hg]
        exact this _ (List.getElem_mem _)
      · rw [getD_ge (by omega)]; omega
    refine ⟨h1, fun hi => getD_ge (by omega), ?_⟩
    rw [fillHalf_eq O L hw h0]
    exact hnat _ h1
  have hA : ∀ w : List ℕ, w.length = p → ValidLimbs L.mask w → nrm (8 * 2 ^ m) (fun j => C ι (FOps.cx (O.fillHalf L p w) 0 j)) ≤ Real.sqrt (2 * p) * (L.half - 1) := by
    intro w hw hwv
    have h1 : (0:ℝ) ≤ (L.half : ℝ) - 1 := sub_nonneg.mpr (by exact_mod_cast (by omega : 1 ≤ L.half))
    unfold nrm
    rw [Real.sqrt_le_left (by positivity), mul_pow, Real.sq_sqrt (by positivity)]
    unfold en
    have : ∀ i ∈ range (8 * 2 ^ m), ‖C ι (FOps.cx (O.fillHalf L p w) 0 i)‖ ^ 2 ≤ if i < p then 2 * ((L.half : ℝ) - 1) ^ 2 else 0 := by
      intro i _
      rw [norm_sq_parts]
      show ι (O.fillHalf L p w (0 + 2 * i)) ^ 2 + ι (O.fillHalf L p w (0 + (2 * i + 1))) ^ 2 ≤ _
      rw [zero_add, zero_add]
      obtain ⟨a1, a2, a3⟩ := dig w hw hwv (2 * i)
      obtain ⟨b1, b2, b3⟩ := dig w hw hwv (2 * i + 1)
      rw [a3, b3]
      split
      · have q1 : (((splitHalf L w).getD (2 * i) 0 + 1 : ℕ) : ℝ) ≤ L.half := by exact_mod_cast a1
        have q2 : (((splitHalf L w).getD (2 * i + 1) 0 + 1 : ℕ) : ℝ) ≤ L.half := by exact_mod_cast b1
        push_cast at q1 q2
        have := pow_le_pow_left₀ (Nat.cast_nonneg _) (by linarith : ((splitHalf L w).getD (2 * i) 0 : ℝ) ≤ (L.half : ℝ) - 1) 2
        have := pow_le_pow_left₀ (Nat.cast_nonneg _) (by linarith : ((splitHalf L w).getD (2 * i + 1) 0 : ℝ) ≤ (L.half : ℝ) - 1) 2
        linarith
      · next hi => rw [a2 (by omega), b2 (by omega)]; simp
    refine le_trans (sum_le_sum this) (le_of_eq ?_)
    rw [← sum_filter, show (range (8 * 2 ^ m)).filter (· < p) = range p by ext i; simp; omega, sum_const, card_range, nsmul_eq_mul]
    ring
  have h1 : (0:ℝ) ≤ (L.half : ℝ) - 1 := sub_nonneg.mpr (by exact_mod_cast (by omega : 1 ≤ L.half))
  have key := H.xaj_core B hnN (O.fillHalf L p a) (O.fillHalf L p b) (hA a ha hav) (hA b hb hbv) hj
  have e : 16 * 2 ^ m / 2 = 8 * 2 ^ m := by omega
  have fa : (fun i => ι (O.fillHalf L p a i)) = fun i => ((splitHalf L a).getD i 0 : ℝ) := funext fun i => (dig a ha hav i).2.2
  have fb : (fun i => ι (O.fillHalf L p b i)) = fun i => ((splitHalf L b).getD i 0 : ℝ) := funext fun i => (dig b hb hbv i).2.2
  rw [fa, fb, cyc_eq_conv (q := 2 * p) _ _ (by rw [splitHalf_length, ha]) (by rw [splitHalf_length, hb]) (by omega) (by omega)] at key
  unfold FOps.xaj
  rw [e]
  refine le_trans key (le_of_eq ?_)
  rw [mul_pow, Real.sq_sqrt (by positivity)]
  ring

end Rnd
end WD
