import Verif.Proofs.FftErr6
/-
  Rounding errors of the real transforms.
-/
namespace WD
open Finset Complex

local notation "conj" => starRingEnd ℂ

theorem en_pairs {N : ℕ} (hN : 0 < N) {a b : ℕ → ℂ} {D : ℝ} (h0 : ‖a 0‖ ^ 2 ≤ D * ‖b 0‖ ^ 2)
    (hk : ∀ k, 0 < k → k < N → ‖a k‖ ^ 2 + ‖a (N - k)‖ ^ 2 ≤ D * (‖b k‖ ^ 2 + ‖b (N - k)‖ ^ 2)) : en N a ≤ D * en N b := by
  obtain ⟨n, rfl⟩ : ∃ n, N = n + 1 := ⟨N - 1, by omega⟩
  have key : ∀ z : ℕ → ℂ, 2 * (en (n + 1) z - ‖z 0‖ ^ 2) = ∑ k ∈ range n, (‖z (k + 1)‖ ^ 2 + ‖z (n + 1 - (k + 1))‖ ^ 2) := by
    intro z
    have e1 : en (n + 1) z - ‖z 0‖ ^ 2 = ∑ k ∈ range n, ‖z (k + 1)‖ ^ 2 := by unfold en; rw [sum_range_succ']; ring
    have e2 : ∑ k ∈ range n, ‖z (n + 1 - (k + 1))‖ ^ 2 = ∑ k ∈ range n, ‖z (k + 1)‖ ^ 2 := by
      rw [← sum_range_reflect]
      refine sum_congr rfl fun k hk => ?_
      have := mem_range.mp hk
      rw [show n + 1 - (n - 1 - k + 1) = k + 1 by omega]
    rw [sum_add_distrib, e2, e1]; ring
  have s : ∑ k ∈ range n, (‖a (k + 1)‖ ^ 2 + ‖a (n + 1 - (k + 1))‖ ^ 2) ≤ D * ∑ k ∈ range n, (‖b (k + 1)‖ ^ 2 + ‖b (n + 1 - (k + 1))‖ ^ 2) := by
    rw [mul_sum]
    refine sum_le_sum fun k hk' => ?_
    have := mem_range.mp hk'
    exact hk (k + 1) (by omega) (by omega)
  rw [← key, ← key] at s
  nlinarith

theorem s1_pairs {N : ℕ} (hN : 0 < N) {a b : ℕ → ℂ} {D : ℝ} (h0 : ‖a 0‖ ≤ D * ‖b 0‖)
    (hk : ∀ k, 0 < k → k < N → ‖a k‖ + ‖a (N - k)‖ ≤ D * (‖b k‖ + ‖b (N - k)‖)) : s1 N a ≤ D * s1 N b := by
  obtain ⟨n, rfl⟩ : ∃ n, N = n + 1 := ⟨N - 1, by omega⟩
  have key : ∀ z : ℕ → ℂ, 2 * (s1 (n + 1) z - ‖z 0‖) = ∑ k ∈ range n, (‖z (k + 1)‖ + ‖z (n + 1 - (k + 1))‖) := by
    intro z
    have e1 : s1 (n + 1) z - ‖z 0‖ = ∑ k ∈ range n, ‖z (k + 1)‖ := by unfold s1; rw [sum_range_succ']; ring
    have e2 : ∑ k ∈ range n, ‖z (n + 1 - (k + 1))‖ = ∑ k ∈ range n, ‖z (k + 1)‖ := by
      rw [← sum_range_reflect]
      refine sum_congr rfl fun k hk => ?_
      have := mem_range.mp hk
      rw [show n + 1 - (n - 1 - k + 1) = k + 1 by omega]
    rw [sum_add_distrib, e2, e1]; ring
  have s : ∑ k ∈ range n, (‖a (k + 1)‖ + ‖a (n + 1 - (k + 1))‖) ≤ D * ∑ k ∈ range n, (‖b (k + 1)‖ + ‖b (n + 1 - (k + 1))‖) := by
    rw [mul_sum]
    refine sum_le_sum fun k hk' => ?_
    have := mem_range.mp hk'
    exact hk (k + 1) (by omega) (by omega)
  rw [← key, ← key] at s
  nlinarith

namespace Rnd

theorem norm_hAB_add (a b : ℂ) : ‖hA a b‖ + ‖hB a b‖ ≤ ‖a‖ + ‖b‖ := by
  have h1 : ‖hA a b‖ ≤ (‖a‖ + ‖b‖) / 2 := by
    unfold hA
    rw [norm_div, Complex.norm_two]
    have := norm_add_le a (conj b)
    rw [Complex.norm_conj] at this
    linarith
  have h2 : ‖hB a b‖ ≤ (‖a‖ + ‖b‖) / 2 := by
    unfold hB
    rw [norm_mul, norm_neg, norm_I, one_mul, norm_div, Complex.norm_two]
    have := norm_sub_le a (conj b)
    rw [Complex.norm_conj] at this
    linarith
  linarith

theorem norm_hAB (a b : ℂ) : ‖hA a b‖ ^ 2 + ‖hB a b‖ ^ 2 = (‖a‖ ^ 2 + ‖b‖ ^ 2) / 2 := by
  have h := parallelogram a (conj b)
  rw [Complex.norm_conj] at h
  unfold hA hB
  rw [norm_mul, norm_div, norm_div, norm_neg, norm_I, one_mul, Complex.norm_two, div_pow, div_pow]
  linarith

theorem norm_hAB_le (a b : ℂ) : (‖hA a b‖ + ‖hB a b‖) ^ 2 ≤ ‖a‖ ^ 2 + ‖b‖ ^ 2 := by
  have := norm_hAB a b
  nlinarith [sq_nonneg (‖hA a b‖ - ‖hB a b‖)]

/-- The step from the complex to the real transform (fwd), and back, on exact numbers. -/
noncomputable def Uv (fwd : Bool) (N : ℕ) (Z : ℕ → ℂ) (k : ℕ) : ℂ :=
  if k = 0 then (if fwd then ⟨(Z 0).re + (Z 0).im, (Z 0).re - (Z 0).im⟩ else ⟨((Z 0).re + (Z 0).im) / 2, ((Z 0).re - (Z 0).im) / 2⟩)
  else if fwd then hA (Z k) (Z (N - k)) + rootU true (2 * N) ^ k * hB (Z k) (Z (N - k))
  else hA (Z k) (Z (N - k)) - rootU false (2 * N) ^ k * hB (Z k) (Z (N - k))

theorem hA_sub (a b a' b' : ℂ) : hA a b - hA a' b' = hA (a - a') (b - b') := by unfold hA; rw [map_sub]; ring
theorem hB_sub (a b a' b' : ℂ) : hB a b - hB a' b' = hB (a - a') (b - b') := by unfold hB; rw [map_sub]; ring
theorem hA_comm (a b : ℂ) : hA b a = conj (hA a b) := by
  unfold hA; rw [map_div₀, map_add, conj_conj, conj_ofNat]; ring
theorem hB_comm (a b : ℂ) : hB b a = conj (hB a b) := by
  unfold hB; rw [map_mul, map_neg, conj_I, map_div₀, map_sub, conj_conj, conj_ofNat]; ring

theorem Uv_sub (fwd : Bool) (N : ℕ) (Z Z' : ℕ → ℂ) (k : ℕ) : Uv fwd N Z k - Uv fwd N Z' k = Uv fwd N (fun k => Z k - Z' k) k := by
  unfold Uv
  split
  · cases fwd <;> apply Complex.ext <;> simp <;> ring
  · cases fwd
    · simp only [Bool.false_eq_true, if_false, ← hA_sub, ← hB_sub]; ring
    · simp only [if_true, ← hA_sub, ← hB_sub]; ring

theorem root_refl (fwd : Bool) {N k : ℕ} (hN : 0 < N) (hk : k ≤ N) : rootU fwd (2 * N) ^ (N - k) = -conj (rootU fwd (2 * N) ^ k) := by
  have h1 : rootU fwd (2 * N) ^ (N - k) * rootU fwd (2 * N) ^ k = -1 := by rw [← pow_add, Nat.sub_add_cancel hk, rootU_half fwd hN]
  have h2 : conj (rootU fwd (2 * N) ^ k) * rootU fwd (2 * N) ^ k = 1 := by
    rw [← normSq_eq_conj_mul_self, normSq_eq_norm_sq, norm_pow, norm_rootU]; simp
  have h3 : rootU fwd (2 * N) ^ k ≠ 0 := pow_ne_zero _ (rootU_ne _ _)
  have : (rootU fwd (2 * N) ^ (N - k) + conj (rootU fwd (2 * N) ^ k)) * rootU fwd (2 * N) ^ k = 0 := by rw [add_mul, h1, h2]; ring
  rcases mul_eq_zero.mp this with h | h
  · exact eq_neg_of_add_eq_zero_left h
  · exact absurd h h3

/-- The values at N - k. -/
theorem Uv_refl (fwd : Bool) {N k : ℕ} (Z : ℕ → ℂ) (h0 : 0 < k) (hk : k < N) :
    Uv fwd N Z (N - k) = conj (hA (Z k) (Z (N - k)) - (if fwd then 1 else -1) * (rootU fwd (2 * N) ^ k * hB (Z k) (Z (N - k)))) := by
  unfold Uv
  rw [if_neg (by omega), show N - (N - k) = k by omega, hA_comm, hB_comm]
  cases fwd
  · simp only [Bool.false_eq_true, if_false]
    rw [root_refl false (by omega) hk.le]
    simp only [map_sub, map_mul, map_neg, map_one]; ring
  · simp only [if_true]
    rw [root_refl true (by omega) hk.le]
    simp only [map_sub, map_mul, map_one]; ring

theorem Uv_pos (fwd : Bool) {N k : ℕ} (Z : ℕ → ℂ) (h0 : 0 < k) :
    Uv fwd N Z k = hA (Z k) (Z (N - k)) + (if fwd then 1 else -1) * (rootU fwd (2 * N) ^ k * hB (Z k) (Z (N - k))) := by
  unfold Uv
  rw [if_neg (by omega)]
  cases fwd
  · simp only [Bool.false_eq_true, if_false]; ring
  · simp only [if_true]; ring

theorem Uv_energy (fwd : Bool) {N k : ℕ} (Z : ℕ → ℂ) (h0 : 0 < k) (hk : k < N) :
    ‖Uv fwd N Z k‖ ^ 2 + ‖Uv fwd N Z (N - k)‖ ^ 2 = ‖Z k‖ ^ 2 + ‖Z (N - k)‖ ^ 2 := by
  rw [Uv_refl fwd Z h0 hk, Uv_pos fwd Z h0, Complex.norm_conj, parallelogram, norm_mul, norm_mul, norm_pow, norm_rootU, one_pow, one_mul]
  have : ‖if fwd then (1:ℂ) else -1‖ = 1 := by cases fwd <;> simp
  rw [this, one_mul, norm_hAB]; ring

theorem norm_sq_parts (z : ℂ) : ‖z‖ ^ 2 = z.re ^ 2 + z.im ^ 2 := by rw [← normSq_eq_norm_sq, normSq_apply]; ring

theorem nrm_UvF {N : ℕ} (hN : 0 < N) (Z : ℕ → ℂ) : nrm N (Uv true N Z) ≤ Real.sqrt 2 * nrm N Z := by
  apply nrm_le_of_en (Real.sqrt_nonneg _)
  rw [Real.sq_sqrt (by norm_num)]
  refine en_pairs hN ?_ fun k h0 hk => ?_
  · unfold Uv; simp only [if_true]
    rw [norm_sq_parts, norm_sq_parts (Z 0)]; nlinarith
  · rw [Uv_energy true Z h0 hk]
    nlinarith [sq_nonneg ‖Z k‖, sq_nonneg ‖Z (N - k)‖]

theorem nrm_UvB {N : ℕ} (hN : 0 < N) (Z : ℕ → ℂ) : nrm N (Uv false N Z) ≤ nrm N Z := by
  rw [← one_mul (nrm N Z)]
  apply nrm_le_of_en zero_le_one
  rw [one_pow]
  refine en_pairs hN ?_ fun k h0 hk => ?_
  · unfold Uv; simp only [if_true, Bool.false_eq_true, if_false]
    rw [norm_sq_parts, norm_sq_parts (Z 0)]; nlinarith [sq_nonneg (Z 0).re, sq_nonneg (Z 0).im]
  · rw [Uv_energy false Z h0 hk, one_mul]

theorem s1_UvB {N : ℕ} (hN : 0 < N) (Z : ℕ → ℂ) : s1 N (Uv false N Z) ≤ Real.sqrt 2 * s1 N Z := by
  have s2 : Real.sqrt 2 ^ 2 = 2 := Real.sq_sqrt (by norm_num)
  have r2 : 1 ≤ Real.sqrt 2 := by rw [Real.one_le_sqrt]; norm_num
  refine s1_pairs hN ?_ fun k h0 hk => ?_
  · have : ‖Uv false N Z 0‖ ≤ ‖Z 0‖ := by
      apply abs_le_of_sq_le_sq' _ (norm_nonneg _) |>.2
      unfold Uv; simp only [if_true, Bool.false_eq_true, if_false]
      rw [norm_sq_parts, norm_sq_parts (Z 0)]; nlinarith [sq_nonneg (Z 0).re, sq_nonneg (Z 0).im]
    nlinarith [norm_nonneg (Z 0)]
  · have e := Uv_energy false Z h0 hk
    have n1 := norm_nonneg (Z k)
    have n2 := norm_nonneg (Z (N - k))
    apply abs_le_of_sq_le_sq' _ (by positivity) |>.2
    rw [mul_pow, s2]
    nlinarith [sq_nonneg (‖Uv false N Z k‖ - ‖Uv false N Z (N - k)‖), mul_nonneg n1 n2]

variable {K : Type} {O : FOps K} {ι : K → ℝ} {u : ℝ} (H : Rnd O ι u)
include H

/-- The relative error of the step. -/
noncomputable def sig (u T' : ℝ) : ℝ := T' + 6.4 * u

theorem sig_nonneg {T' : ℝ} (h : 0 ≤ T') : 0 ≤ sig u T' := by have := H.u0; unfold sig; positivity

/-- The step in the code; the array after it. -/
theorem Uv_key (fwd : Bool) {m : ℕ} {T : ℕ → ℝ} {T' : ℝ} (B : TwB O ι T T' m) (d g : ℕ → K)
    (hg : ∀ k, 0 < k → k < 8 * 2 ^ m → FOps.cx g 0 k = FOps.cx (O.rLoop fwd (16 * 2 ^ m) d) 0 k) {k : ℕ} (h0 : 0 < k) (hk : k < 8 * 2 ^ m) :
    ‖C ι (FOps.cx g 0 k) - Uv fwd (8 * 2 ^ m) (fun k => C ι (FOps.cx d 0 k)) k‖ ≤
      sig u T' * (‖hA (C ι (FOps.cx d 0 k)) (C ι (FOps.cx d 0 (8 * 2 ^ m - k)))‖ + ‖hB (C ι (FOps.cx d 0 k)) (C ι (FOps.cx d 0 (8 * 2 ^ m - k)))‖) := by
  have hσ := H.sig_nonneg B.rnonneg
  obtain ⟨M, hM⟩ : ∃ M, M = 4 * 2 ^ m := ⟨_, rfl⟩
  have hM0 : 0 < M := by rw [hM]; positivity
  have e8 : 8 * 2 ^ m = 2 * M := by rw [hM]; ring
  have e16 : 16 * 2 ^ m = 4 * M := by rw [hM]; ring
  obtain ⟨l1, l2, l3, -⟩ := O.rLoop_spec fwd M hM0 d
  rw [e16, e8] at hg
  -- one pair
  have key : ∀ i, 0 < i → i < M →
      ‖C ι (FOps.cx g 0 i) - Uv fwd (2 * M) (fun k => C ι (FOps.cx d 0 k)) i‖ ≤
        sig u T' * (‖hA (C ι (FOps.cx d 0 i)) (C ι (FOps.cx d 0 (2 * M - i)))‖ + ‖hB (C ι (FOps.cx d 0 i)) (C ι (FOps.cx d 0 (2 * M - i)))‖) ∧
      ‖C ι (FOps.cx g 0 (2 * M - i)) - Uv fwd (2 * M) (fun k => C ι (FOps.cx d 0 k)) (2 * M - i)‖ ≤
        sig u T' * (‖hA (C ι (FOps.cx d 0 i)) (C ι (FOps.cx d 0 (2 * M - i)))‖ + ‖hB (C ι (FOps.cx d 0 i)) (C ι (FOps.cx d 0 (2 * M - i)))‖) := by
    intro i i0 hi
    have ht := B.rtw fwd (i - 1) (by omega)
    rw [show i - 1 + 1 = i by omega, e16] at ht
    have hW : ‖rootU fwd (4 * M) ^ i‖ = 1 := by rw [norm_pow, norm_rootU, one_pow]
    obtain ⟨u1, u2, u3, u4⟩ := H.unpk_err B.rsmall hW ht (FOps.cx d 0 i) (FOps.cx d 0 (2 * M - i))
    obtain ⟨a1, a2⟩ := l1 i i0 hi
    rw [hg i i0 (by omega), hg (2 * M - i) (by omega) (by omega), a1, a2, Uv_refl fwd _ i0 (by omega), Uv_pos fwd _ i0]
    have e4 : 2 * (2 * M) = 4 * M := by ring
    rw [e4]
    unfold sig
    cases fwd
    · simp only [Bool.false_eq_true, if_false, neg_one_mul, sub_neg_eq_add]
      rw [← sub_eq_add_neg]
      exact ⟨u3, u4⟩
    · simp only [if_true, one_mul]
      exact ⟨u1, u2⟩
  rw [e8] at hk ⊢
  rcases lt_trichotomy k M with h | h | h
  · exact (key k h0 h).1
  · subst h
    have hmid : C ι (FOps.cx g 0 k) = Uv fwd (2 * k) (fun k => C ι (FOps.cx d 0 k)) k := by
      rw [hg k h0 (by omega), l3, Uv_pos fwd _ h0, show 2 * k - k = k by omega, show 2 * (2 * k) = 4 * k by ring]
      have hI : rootU fwd (4 * k) ^ k = (if fwd then 1 else -1) * I := by
        cases fwd
        · rw [← conj_rootU_pow, rootU_quarter h0, conj_I]; simp
        · rw [rootU_quarter h0]; simp
      have hs : (if fwd then (1:ℂ) else -1) * (if fwd then (1:ℂ) else -1) = 1 := by cases fwd <;> simp
      rw [hI]
      generalize C ι (FOps.cx d 0 k) = z at *
      unfold hA hB
      have eI := I_mul_I
      generalize (if fwd then (1:ℂ) else -1) = s at *
      linear_combination (-(z - conj z) / 2) * hs + (s * s * (z - conj z) / 2) * eI
    rw [hmid, sub_self, norm_zero]
    positivity
  · have := (key (2 * M - k) (by omega) (by omega)).2
    rw [show 2 * M - (2 * M - k) = k by omega, hA_comm, hB_comm, Complex.norm_conj, Complex.norm_conj] at this
    exact this

theorem Uv_err (fwd : Bool) {m : ℕ} {T : ℕ → ℝ} {T' : ℝ} (B : TwB O ι T T' m) (d g : ℕ → K)
    (hg0 : ‖C ι (FOps.cx g 0 0) - Uv fwd (8 * 2 ^ m) (fun k => C ι (FOps.cx d 0 k)) 0‖ ≤ 3 * u * ‖C ι (FOps.cx d 0 0)‖)
    (hg : ∀ k, 0 < k → k < 8 * 2 ^ m → FOps.cx g 0 k = FOps.cx (O.rLoop fwd (16 * 2 ^ m) d) 0 k) :
    nrm (8 * 2 ^ m) (fun k => C ι (FOps.cx g 0 k) - Uv fwd (8 * 2 ^ m) (fun k => C ι (FOps.cx d 0 k)) k) ≤
      (Real.sqrt 2 * sig u T') * nrm (8 * 2 ^ m) (fun k => C ι (FOps.cx d 0 k)) ∧
    s1 (8 * 2 ^ m) (fun k => C ι (FOps.cx g 0 k) - Uv fwd (8 * 2 ^ m) (fun k => C ι (FOps.cx d 0 k)) k) ≤
      2 * sig u T' * s1 (8 * 2 ^ m) (fun k => C ι (FOps.cx d 0 k)) := by
  have hu := H.u0
  have hσ := H.sig_nonneg B.rnonneg
  have hσ3 : 6.4 * u ≤ sig u T' := by have := B.rnonneg; unfold sig; linarith
  have s2 : Real.sqrt 2 ^ 2 = 2 := Real.sq_sqrt (by norm_num)
  have key : ∀ k, 0 < k → k < 8 * 2 ^ m → _ := fun k h0 hk => H.Uv_key fwd B d g hg h0 hk
  have sqle : ∀ {x a b : ℝ}, 0 ≤ x → x ≤ sig u T' * a → a ^ 2 ≤ b → x ^ 2 ≤ sig u T' ^ 2 * b := by
    intro x a b hx h1 h2
    have := pow_le_pow_left₀ hx h1 2
    rw [mul_pow] at this
    exact le_trans this (mul_le_mul_of_nonneg_left h2 (by positivity))
  constructor
  · apply nrm_le_of_en (by positivity)
    rw [mul_pow, s2]
    refine en_pairs (by positivity) ?_ fun k h0 hk => ?_
    · have := pow_le_pow_left₀ (norm_nonneg _) hg0 2
      refine le_trans this ?_
      rw [mul_pow]
      apply mul_le_mul_of_nonneg_right _ (by positivity)
      nlinarith
    · have a1 := sqle (norm_nonneg _) (key k h0 hk) (norm_hAB_le _ _)
      have a2 := sqle (norm_nonneg _) (key (8 * 2 ^ m - k) (by omega) (by omega)) (norm_hAB_le _ _)
      rw [show 8 * 2 ^ m - (8 * 2 ^ m - k) = k by omega] at a2
      linarith
  · refine s1_pairs (by positivity) ?_ fun k h0 hk => ?_
    · refine le_trans hg0 (mul_le_mul_of_nonneg_right (by linarith) (norm_nonneg _))
    · have a1 := le_trans (key k h0 hk) (mul_le_mul_of_nonneg_left (norm_hAB_add _ _) hσ)
      have a2 := le_trans (key (8 * 2 ^ m - k) (by omega) (by omega)) (mul_le_mul_of_nonneg_left (norm_hAB_add _ _) hσ)
      rw [show 8 * 2 ^ m - (8 * 2 ^ m - k) = k by omega] at a2
      linarith

end Rnd
end WD
