import Verif.Proofs.SinTab
/-
  The operations of a floating-point type satisfy the hypotheses of the error analysis.
-/
namespace WD
open Finset

theorem Flt.u_eq (F : Flt) : ((F.u : ℚ) : ℝ) * 2 ^ F.p = 1 := by
  unfold Flt.u
  push_cast
  rw [zpow_neg, zpow_natCast, inv_mul_cancel₀ (by positivity)]

theorem Flt.rnd_errR (F : Flt) (hp : 1 ≤ F.p) (q : ℚ) : |((F.rnd q : ℚ) : ℝ) - q| ≤ (F.u : ℝ) * |(q : ℝ)| := by
  have := (Rat.cast_le (K := ℝ)).mpr (F.rnd_err hp q)
  push_cast at this
  rw [abs_sub_comm, mul_comm]; exact this

theorem Flt.u_anti {F G : Flt} (h : F.p ≤ G.p) : (G.u : ℝ) ≤ F.u := by
  have : G.u ≤ F.u := by
    unfold Flt.u
    exact zpow_le_zpow_right₀ (by norm_num) (by omega)
  exact_mod_cast this

theorem RepF.nat {p n : ℕ} (h : n ≤ 2 ^ p) : RepF p (n : ℚ) := ⟨n, 0, by
  rw [abs_of_nonneg (by positivity)]; exact_mod_cast h, by simp⟩

theorem RepF.pow2 {p : ℕ} (k : ℕ) : RepF p ((2 ^ k : ℕ) : ℚ) := ⟨1, k, by
  rw [abs_one]; exact one_le_pow₀ (by norm_num), by push_cast; simp⟩

theorem fltOps_rnd {F FL : Flt} (h1 : 20 ≤ F.p) (h2 : F.p ≤ FL.p) (h3 : F.p ≤ 113) : Rnd (fltOps F FL) (fun q => (q : ℝ)) F.u := by
  have hu : (0:ℝ) < F.u := by exact_mod_cast F.u_pos
  have hp : 1 ≤ F.p := by omega
  have hue := F.u_eq
  have hu1 : (F.u : ℝ) ≤ 1 / 1000000 := by
    have : (2:ℝ) ^ 20 ≤ 2 ^ F.p := pow_le_pow_right₀ (by norm_num) h1
    rw [le_div_iff₀ (by norm_num)]
    have := mul_le_mul_of_nonneg_left this hu.le
    rw [hue] at this
    norm_num at this
    nlinarith
  have hu2 : 1 / 10 ^ 35 ≤ (F.u : ℝ) := by
    have : (2:ℝ) ^ F.p ≤ 2 ^ 113 := pow_le_pow_right₀ (by norm_num) h3
    have := mul_le_mul_of_nonneg_left this hu.le
    rw [hue] at this
    rw [div_le_iff₀ (by norm_num)]
    norm_num at this ⊢
    nlinarith
  refine { u0 := hu.le, u1 := hu1, add := ?_, sub := ?_, mul := ?_, div := ?_, half := ?_, neg := ?_, zero := ?_, one := ?_, minusTwo := ?_, sin1 := ?_ }
  · intro a b; simpa [fltOps] using F.rnd_errR hp (a + b)
  · intro a b; simpa [fltOps] using F.rnd_errR hp (a - b)
  · intro a b
    have := F.rnd_errR hp (a * b)
    rw [Rat.cast_mul] at this
    exact this
  · intro a b
    have := F.rnd_errR hp (a / b)
    rw [Rat.cast_div] at this
    exact this
  · intro a
    have := F.rnd_errR hp (a / 2)
    rw [Rat.cast_div, Rat.cast_ofNat] at this
    exact this
  · intro a; exact Rat.cast_neg a
  · exact Rat.cast_zero
  · exact Rat.cast_one
  · show (((-2 : ℚ)) : ℝ) = -2; norm_num
  · intro k hk hk2
    have e := sinLit_err hk hk2
    have s0 : 0 ≤ Real.sin (Real.pi / (2 ^ k : ℕ)) := by
      apply Real.sin_nonneg_of_nonneg_of_le_pi
      · positivity
      · apply div_le_self Real.pi_pos.le
        exact_mod_cast Nat.one_le_two_pow
    show |((F.rnd (FL.rnd (sinLit (2 ^ k))) : ℚ) : ℝ) - _| ≤ _
    have a1 := F.rnd_errR hp (FL.rnd (sinLit (2 ^ k)))
    have a2 := FL.rnd_errR (by omega) (sinLit (2 ^ k))
    have a3 := Flt.u_anti h2
    generalize Real.sin (Real.pi / (2 ^ k : ℕ)) = S at *
    generalize ((F.rnd (FL.rnd (sinLit (2 ^ k))) : ℚ) : ℝ) = r at *
    generalize ((FL.rnd (sinLit (2 ^ k)) : ℚ) : ℝ) = t at *
    generalize ((sinLit (2 ^ k) : ℚ) : ℝ) = q at *
    generalize (F.u : ℝ) = u at *
    have b2 : |t - q| ≤ u * |q| := le_trans a2 (mul_le_mul_of_nonneg_right a3 (abs_nonneg _))
    have q1 : |q| ≤ S * (1 + 1 / 10 ^ 38) := by
      have := abs_sub_abs_le_abs_sub q S
      rw [abs_of_nonneg s0] at this
      linarith
    have b3 : u * |q| ≤ u * (S * (1 + 1 / 10 ^ 38)) := mul_le_mul_of_nonneg_left q1 hu.le
    have t1 : |t| ≤ S * (1 + 1 / 10 ^ 38) * (1 + u) := by
      have := abs_sub_abs_le_abs_sub t q
      linarith
    have b4 : u * |t| ≤ u * (S * (1 + 1 / 10 ^ 38) * (1 + u)) := mul_le_mul_of_nonneg_left t1 hu.le
    have tr : |r - S| ≤ |r - t| + |t - q| + |q - S| := by
      have := abs_add_three (r - t) (t - q) (q - S)
      rwa [show r - t + (t - q) + (q - S) = r - S by ring] at this
    have w : u * ((1 + 1 / 10 ^ 38) * (1 + u)) + u * (1 + 1 / 10 ^ 38) + 1 / 10 ^ 38 ≤ 3 * u := by nlinarith
    have := mul_le_mul_of_nonneg_left w s0
    linarith

end WD
