import Verif.Proofs.Dft
import Mathlib.RingTheory.RootsOfUnity.Complex
/-
  The real transforms in exact arithmetic, the inversion and the convolution theorem.
-/
namespace WD
open Finset Complex

local notation "conj" => starRingEnd ℂ

theorem toC_unpk (w a b : ℝ × ℝ) :
    toC (exactOps.unpk true w a b).1 = (toC a + conj (toC b)) / 2 + toC w * (-I * ((toC a - conj (toC b)) / 2)) ∧
    toC (exactOps.unpk true w a b).2 = conj ((toC a + conj (toC b)) / 2 - toC w * (-I * ((toC a - conj (toC b)) / 2))) ∧
    toC (exactOps.unpk false w a b).1 = (toC a + conj (toC b)) / 2 - toC w * (-I * ((toC a - conj (toC b)) / 2)) ∧
    toC (exactOps.unpk false w a b).2 = conj ((toC a + conj (toC b)) / 2 + toC w * (-I * ((toC a - conj (toC b)) / 2))) := by
  obtain ⟨a1, a2⟩ := a
  obtain ⟨b1, b2⟩ := b
  obtain ⟨w1, w2⟩ := w
  refine ⟨?_, ?_, ?_, ?_⟩
  all_goals
    apply Complex.ext <;> simp [toC, FOps.unpk, exactOps, -map_add, -map_sub, -map_mul, -map_div₀, -map_neg] <;> ring

/-- The transform of real numbers is symmetric. -/
theorem conj_dft (fwd : Bool) {n : ℕ} (hn : 0 < n) (x : ℕ → ℝ) {k : ℕ} (hk : k ≤ n) :
    conj (dft (rootU fwd n) n (fun j => (x j : ℂ)) (n - k)) = dft (rootU fwd n) n (fun j => (x j : ℂ)) k := by
  unfold dft
  rw [map_sum]
  refine sum_congr rfl fun j _ => ?_
  rw [map_mul, map_pow, conj_ofReal, rootU_conj]
  congr 1
  have h1 : rootU fwd n * rootU (!fwd) n = 1 := by
    cases fwd
    · rw [mul_comm]; exact rootU_inv n
    · exact rootU_inv n
  have h2 : rootU fwd n ^ (j * (n - k)) * rootU fwd n ^ (j * k) = 1 := by
    rw [← pow_add, ← mul_add, Nat.sub_add_cancel hk, mul_comm, pow_mul, rootU_one fwd hn, one_pow]
  have h3 : rootU (!fwd) n ^ (j * (n - k)) * rootU fwd n ^ (j * (n - k)) = 1 := by
    rw [← mul_pow, mul_comm, h1, one_pow]
  calc rootU (!fwd) n ^ (j * (n - k)) = rootU (!fwd) n ^ (j * (n - k)) * (rootU fwd n ^ (j * (n - k)) * rootU fwd n ^ (j * k)) := by rw [h2, mul_one]
    _ = rootU fwd n ^ (j * k) := by rw [← mul_assoc, h3, one_mul]

/-- Even and odd parts of the transform of n = 2N real numbers. -/
structure Parts (x : ℕ → ℝ) (N : ℕ) where
  E : ℕ → ℂ
  Q : ℕ → ℂ
  hF : ∀ k, dft (rootU true (2 * N)) (2 * N) (fun j => (x j : ℂ)) k = E k + rootU true (2 * N) ^ k * Q k
  hFN : ∀ k, dft (rootU true (2 * N)) (2 * N) (fun j => (x j : ℂ)) (N + k) = E k - rootU true (2 * N) ^ k * Q k
  hZ : ∀ k, dft (rootU true N) N (fun j => toC (x (2 * j), x (2 * j + 1))) k = E k + I * Q k
  hE : ∀ k, k ≤ N → conj (E (N - k)) = E k
  hQ : ∀ k, k ≤ N → conj (Q (N - k)) = Q k
  hEN : ∀ k, E (N + k) = E k
  hQN : ∀ k, Q (N + k) = Q k

noncomputable def parts (x : ℕ → ℝ) {N : ℕ} (hN : 0 < N) : Parts x N where
  E := dft (rootU true N) N (fun j => (x (2 * j) : ℂ))
  Q := dft (rootU true N) N (fun j => (x (2 * j + 1) : ℂ))
  hF k := by rw [dft_split, rootU_sq true hN]
  hFN k := by
    rw [dft_split, rootU_sq true hN, dft_period (rootU_one true hN), dft_period (rootU_one true hN), pow_add, rootU_half true hN]
    ring
  hZ k := by
    unfold dft
    rw [mul_sum, ← sum_add_distrib]
    refine sum_congr rfl fun j _ => ?_
    have : toC (x (2 * j), x (2 * j + 1)) = x (2 * j) + I * x (2 * j + 1) := by
      apply Complex.ext <;> simp [toC]
    beta_reduce
    rw [this]; ring
  hE k hk := conj_dft true hN (fun j => x (2 * j)) hk
  hQ k hk := conj_dft true hN (fun j => x (2 * j + 1)) hk
  hEN k := dft_period (rootU_one true hN) _ k
  hQN k := dft_period (rootU_one true hN) _ k

theorem conj_rootU_pow (n k : ℕ) : conj (rootU true n ^ k) = rootU false n ^ k := by
  rw [map_pow, rootU_conj]; rfl

theorem rootU_inv_pow (n k : ℕ) : rootU false n ^ k * rootU true n ^ k = 1 := by
  rw [← mul_pow, mul_comm, rootU_inv, one_pow]

namespace Parts
variable {x : ℕ → ℝ} {N : ℕ} (P : Parts x N)
include P

theorem conj_E {k : ℕ} (hk : k ≤ N) : conj (P.E k) = P.E (N - k) := by
  have := P.hE (N - k) (by omega)
  rwa [show N - (N - k) = k by omega] at this

theorem conj_Q {k : ℕ} (hk : k ≤ N) : conj (P.Q k) = P.Q (N - k) := by
  have := P.hQ (N - k) (by omega)
  rwa [show N - (N - k) = k by omega] at this

theorem conj_Z {k : ℕ} (hk : k ≤ N) : conj (dft (rootU true N) N (fun j => toC (x (2 * j), x (2 * j + 1))) (N - k)) = P.E k - I * P.Q k := by
  rw [P.hZ, map_add, map_mul, P.hE k hk, P.hQ k hk, conj_I]; ring

theorem F_neg (hN : 0 < N) {k : ℕ} (hk : k ≤ N) :
    dft (rootU true (2 * N)) (2 * N) (fun j => (x j : ℂ)) (N - k) = conj (P.E k - rootU true (2 * N) ^ k * P.Q k) := by
  rw [← P.hFN, ← conj_dft true (n := 2 * N) (by omega) x (k := N - k) (by omega), show 2 * N - (N - k) = N + k by omega]

theorem E0 (hN : 0 < N) : conj (P.E 0) = P.E 0 := by
  have h1 := P.hE 0 (by omega)
  have h2 := P.hEN 0
  rw [add_zero] at h2
  rwa [Nat.sub_zero, h2] at h1

theorem Q0 (hN : 0 < N) : conj (P.Q 0) = P.Q 0 := by
  have h1 := P.hQ 0 (by omega)
  have h2 := P.hQN 0
  rw [add_zero] at h2
  rwa [Nat.sub_zero, h2] at h1

end Parts

theorem rootU_quarter {M : ℕ} (hM : 0 < M) : rootU true (4 * M) ^ M = I := by
  rw [rootU_pow, if_pos rfl, one_mul]
  have hc : (M : ℂ) ≠ 0 := by exact_mod_cast hM.ne'
  have e : (2 * (Real.pi : ℂ) / ((4 * M : ℕ) : ℂ) * M) = Real.pi / 2 := by push_cast; field_simp; norm_num
  rw [e, exp_pi_div_two_mul_I]

/-- The transform of real numbers as `rfft_lanczos_rfft` stores it. -/
def Packed (N : ℕ) (d : ℕ → ℝ) (F : ℕ → ℂ) : Prop :=
  (d 0 : ℂ) = F 0 ∧ (d 1 : ℂ) = F N ∧ ∀ k, 0 < k → k < N → toC (FOps.cx d 0 k) = F k

/-- The forward real transform in exact arithmetic. -/
theorem rfftF_exact (m : ℕ) (x : ℕ → ℝ) :
    Packed (8 * 2 ^ m) (exactOps.rfftF m x) (dft (rootU true (16 * 2 ^ m)) (16 * 2 ^ m) (fun j => (x j : ℂ))) := by
  obtain ⟨M, hM⟩ : ∃ M, M = 4 * 2 ^ m := ⟨_, rfl⟩
  have hM0 : 0 < M := by rw [hM]; positivity
  have e8 : 8 * 2 ^ m = 2 * M := by rw [hM]; ring
  have e16 : 16 * 2 ^ m = 2 * (2 * M) := by rw [hM]; ring
  have e4 : 2 * (2 * M) = 4 * M := by ring
  have hc := toC_cfft true m x
  unfold FOps.rfftF
  rw [e8] at hc ⊢
  rw [e16]
  generalize hd : exactOps.cfft true m x = d at *
  have P := parts x (N := 2 * M) (by omega)
  have hz : ∀ j, toC (FOps.cx x 0 j) = toC (x (2 * j), x (2 * j + 1)) := fun j => by simp [FOps.cx]
  simp only [hz] at hc
  obtain ⟨l1, l2, l3, -⟩ := exactOps.rLoop_spec true M hM0 d
  rw [← e4] at l1 l2 l3
  generalize hr : exactOps.rLoop true (2 * (2 * M)) d = r at *
  have g0 : toC (FOps.cx r 0 0) = P.E 0 + I * P.Q 0 := by rw [l2, hc 0 (by omega), P.hZ]
  have hE0 := conj_eq_iff_im.mp (P.E0 (by omega))
  have hQ0 := conj_eq_iff_im.mp (P.Q0 (by omega))
  have r0 : r 0 = (P.E 0).re := by
    have := congrArg Complex.re g0
    simp [toC, FOps.cx, hQ0] at this; exact this
  have r1 : r 1 = (P.Q 0).re := by
    have := congrArg Complex.im g0
    simp [toC, FOps.cx, hE0] at this; exact this
  have hFN0 := P.hFN 0
  rw [add_zero] at hFN0
  refine ⟨?_, ?_, fun k h0 hk => ?_⟩
  · show ((Function.update (Function.update r 0 _) 1 _ 0 : ℝ) : ℂ) = _
    rw [Function.update_of_ne (by norm_num), Function.update_self, P.hF, pow_zero, one_mul, r0, r1]
    apply Complex.ext <;> simp [exactOps, hE0, hQ0]
  · show ((Function.update (Function.update r 0 _) 1 _ 1 : ℝ) : ℂ) = _
    rw [Function.update_self, Function.update_of_ne (by norm_num), hFN0, pow_zero, one_mul, r0, r1]
    apply Complex.ext <;> simp [exactOps, hE0, hQ0]
  · have hu : FOps.cx (Function.update (Function.update r 0 (exactOps.add (r 0) (r 1))) 1
        (exactOps.sub (r 0) (Function.update r 0 (exactOps.add (r 0) (r 1)) 1))) 0 k = FOps.cx r 0 k := by
      unfold FOps.cx
      rw [Function.update_of_ne (by omega), Function.update_of_ne (by omega), Function.update_of_ne (by omega), Function.update_of_ne (by omega)]
    refine (congrArg toC hu).trans ?_
    have key : ∀ i, 0 < i → i < M → toC (FOps.cx r 0 i) = dft (rootU true (2 * (2 * M))) (2 * (2 * M)) (fun j => (x j : ℂ)) i ∧
        toC (FOps.cx r 0 (2 * M - i)) = dft (rootU true (2 * (2 * M))) (2 * (2 * M)) (fun j => (x j : ℂ)) (2 * M - i) := by
      intro i i0 hi
      obtain ⟨a1, a2⟩ := l1 i i0 hi
      obtain ⟨u1, u2, -, -⟩ := toC_unpk (exactOps.rtw true (2 * (2 * M)) (i - 1)) (FOps.cx d 0 i) (FOps.cx d 0 (2 * M - i))
      rw [a1, a2, u1, u2, hc i (by omega), hc (2 * M - i) (by omega), P.conj_Z (by omega), P.hZ, toC_rtw true ⟨2 * M, rfl⟩,
        show i - 1 + 1 = i by omega, P.F_neg (by omega) (by omega), P.hF]
      have eI := I_mul_I
      refine ⟨?_, congrArg _ ?_⟩
      · linear_combination (-(rootU true (2 * (2 * M)) ^ i * P.Q i)) * eI
      · linear_combination ((rootU true (2 * (2 * M)) ^ i * P.Q i)) * eI
    rcases lt_trichotomy k M with h | h | h
    · exact (key k h0 h).1
    · subst h
      rw [l3, hc k (by omega), P.hZ, P.hF, e4, rootU_quarter h0]
    · have := (key (2 * M - k) (by omega) (by omega)).2
      rwa [show 2 * M - (2 * M - k) = k by omega] at this

/-- The inverse Fourier transform. -/
theorem dft_inv {N : ℕ} (hN : 0 < N) (z : ℕ → ℂ) {k : ℕ} (hk : k < N) :
    dft (rootU false N) N (dft (rootU true N) N z) k = N * z k := by
  have hp : IsPrimitiveRoot (rootU true N) N := by
    have := isPrimitiveRoot_exp N hN.ne'
    unfold rootU
    rw [if_pos rfl, one_mul]
    convert this using 2
    ring
  unfold dft
  simp only [sum_mul]
  rw [sum_comm]
  have inner : ∀ l ∈ range N, ∑ j ∈ range N, z l * rootU true N ^ (l * j) * rootU false N ^ (j * k) = if l = k then N * z k else 0 := by
    intro l hl
    have hl := mem_range.mp hl
    have e : ∀ j, z l * rootU true N ^ (l * j) * rootU false N ^ (j * k) = z l * (rootU true N ^ l * rootU false N ^ k) ^ j := by
      intro j
      rw [mul_pow, ← pow_mul, ← pow_mul, mul_comm k j]; ring
    simp only [e]
    rw [← mul_sum]
    split
    · next h =>
      subst h
      rw [mul_comm (rootU true N ^ l), rootU_inv_pow]
      simp [mul_comm]
    · next h =>
      have hq : (rootU true N ^ l * rootU false N ^ k) ^ N = 1 := by
        rw [mul_pow, pow_right_comm, rootU_one true hN, pow_right_comm, rootU_one false hN]; simp
      have hq1 : rootU true N ^ l * rootU false N ^ k ≠ 1 := by
        intro hh
        apply h
        apply hp.pow_inj hl hk
        calc rootU true N ^ l = rootU true N ^ l * (rootU false N ^ k * rootU true N ^ k) := by rw [rootU_inv_pow, mul_one]
          _ = rootU true N ^ k := by rw [← mul_assoc, hh, one_mul]
      rw [geom_sum_eq hq1, hq, sub_self, zero_div, mul_zero]
  rw [sum_congr rfl inner, sum_ite_eq' (range N) k, if_pos (mem_range.mpr hk)]

/-- The inverse real transform in exact arithmetic, applied to a transform. -/
theorem rfftB_exact (m : ℕ) (d : ℕ → ℝ) (x : ℕ → ℝ)
    (h : Packed (8 * 2 ^ m) d (dft (rootU true (16 * 2 ^ m)) (16 * 2 ^ m) (fun j => (x j : ℂ)))) :
    ∀ j, j < 16 * 2 ^ m → exactOps.rfftB m d j = (8 * 2 ^ m : ℕ) * x j := by
  obtain ⟨M, hM⟩ : ∃ M, M = 4 * 2 ^ m := ⟨_, rfl⟩
  have hM0 : 0 < M := by rw [hM]; positivity
  have e8 : 8 * 2 ^ m = 2 * M := by rw [hM]; ring
  have e16 : 16 * 2 ^ m = 2 * (2 * M) := by rw [hM]; ring
  have e4 : 2 * (2 * M) = 4 * M := by ring
  obtain ⟨f0, f1, fk⟩ := h
  have P := parts x (N := 2 * M) (by omega)
  unfold FOps.rfftB
  rw [e8] at f1 fk
  rw [e16] at f0 f1 fk ⊢
  obtain ⟨l1, l2, l3, -⟩ := exactOps.rLoop_spec false M hM0 d
  rw [← e4] at l1 l2 l3
  generalize hr : exactOps.rLoop false (2 * (2 * M)) d = r at *
  have hE0 := conj_eq_iff_im.mp (P.E0 (by omega))
  have hQ0 := conj_eq_iff_im.mp (P.Q0 (by omega))
  rw [P.hF, pow_zero, one_mul] at f0
  have hFN0 := P.hFN 0
  rw [add_zero] at hFN0
  rw [hFN0, pow_zero, one_mul] at f1
  have r0 : r 0 = (P.E 0).re + (P.Q 0).re := by
    have h1 : r 0 = d 0 := congrArg Prod.fst l2
    have := congrArg Complex.re f0
    rw [h1]; simpa using this
  have r1 : r 1 = (P.E 0).re - (P.Q 0).re := by
    have h1 : r 1 = d 1 := congrArg Prod.snd l2
    have := congrArg Complex.re f1
    rw [h1]; simpa using this
  -- the array before the complex transform
  have main : ∀ g : ℕ → ℝ, g = Function.update (Function.update r 0 (exactOps.half (exactOps.add (r 0) (r 1)))) 1
        (exactOps.half (exactOps.sub (r 0) (Function.update r 0 (exactOps.half (exactOps.add (r 0) (r 1))) 1))) →
      ∀ k, k < 2 * M → toC (FOps.cx g 0 k) = dft (rootU true (2 * M)) (2 * M) (fun j => toC (x (2 * j), x (2 * j + 1))) k := by
    intro g hg k hk
    rcases Nat.eq_zero_or_pos k with rfl | h0
    · rw [P.hZ]
      have g0 : g 0 = (P.E 0).re := by
        rw [hg, Function.update_of_ne (by norm_num), Function.update_self, r0, r1]; simp [exactOps]
      have g1 : g 1 = (P.Q 0).re := by
        rw [hg, Function.update_self, Function.update_of_ne (by norm_num), r0, r1]; simp [exactOps]
      apply Complex.ext
      · simp [toC, FOps.cx, hQ0, g0]
      · simp [toC, FOps.cx, hE0, g1]
    · have hu : FOps.cx g 0 k = FOps.cx r 0 k := by
        unfold FOps.cx
        rw [hg, Function.update_of_ne (by omega), Function.update_of_ne (by omega), Function.update_of_ne (by omega), Function.update_of_ne (by omega)]
      rw [hu]
      have key : ∀ i, 0 < i → i < M → toC (FOps.cx r 0 i) = dft (rootU true (2 * M)) (2 * M) (fun j => toC (x (2 * j), x (2 * j + 1))) i ∧
          toC (FOps.cx r 0 (2 * M - i)) = dft (rootU true (2 * M)) (2 * M) (fun j => toC (x (2 * j), x (2 * j + 1))) (2 * M - i) := by
        intro i i0 hi
        obtain ⟨a1, a2⟩ := l1 i i0 hi
        obtain ⟨-, -, u1, u2⟩ := toC_unpk (exactOps.rtw false (2 * (2 * M)) (i - 1)) (FOps.cx d 0 i) (FOps.cx d 0 (2 * M - i))
        have hz := P.conj_Z (k := i) (by omega)
        rw [a1, a2, u1, u2, fk i i0 (by omega), fk (2 * M - i) (by omega) (by omega), P.F_neg (by omega) (by omega), P.hF,
          toC_rtw false ⟨2 * M, rfl⟩, show i - 1 + 1 = i by omega, conj_conj, P.hZ]
        have eW := rootU_inv_pow (2 * (2 * M)) i
        generalize rootU false (2 * (2 * M)) ^ i = w' at *
        generalize rootU true (2 * (2 * M)) ^ i = w at *
        constructor
        · linear_combination I * P.Q i * eW
        · rw [← conj_conj (dft _ _ _ (2 * M - i)), hz]
          congr 1
          linear_combination (-I * P.Q i) * eW
      rcases lt_trichotomy k M with h | h | h
      · exact (key k h0 h).1
      · subst h
        rw [l3, fk k h0 (by omega), P.hZ, P.hF, e4, rootU_quarter h0]
      · have := (key (2 * M - k) (by omega) (by omega)).2
        rwa [show 2 * M - (2 * M - k) = k by omega] at this
  have hmain := main _ rfl
  generalize Function.update (Function.update r 0 (exactOps.half (exactOps.add (r 0) (r 1)))) 1
        (exactOps.half (exactOps.sub (r 0) (Function.update r 0 (exactOps.half (exactOps.add (r 0) (r 1))) 1))) = g at *
  have fin : ∀ k, k < 2 * M → toC (FOps.cx (exactOps.cfft false m g) 0 k) = (2 * M : ℕ) * toC (x (2 * k), x (2 * k + 1)) := by
    intro k hk
    rw [toC_cfft false m g k (by omega), e8, ← dft_inv (N := 2 * M) (by omega) (fun j => toC (x (2 * j), x (2 * j + 1))) hk]
    exact dft_congr hmain k
  intro j hj
  rw [e8]
  have hf := fin (j / 2) (by omega)
  rcases Nat.mod_two_eq_zero_or_one j with h | h
  · have := congrArg Complex.re hf
    simp only [toC, FOps.cx, zero_add, mul_re, natCast_re, natCast_im, zero_mul, sub_zero] at this
    rwa [show 2 * (j / 2) = j by omega] at this
  · have := congrArg Complex.im hf
    simp only [toC, FOps.cx, zero_add, mul_im, natCast_re, natCast_im, zero_mul, add_zero] at this
    rwa [show 2 * (j / 2) + 1 = j by omega] at this

/-- Cyclic convolution of period n. -/
noncomputable def cyc (n : ℕ) (a b : ℕ → ℝ) (j : ℕ) : ℝ := ∑ s ∈ range n, ∑ t ∈ range n, if (s + t) % n = j then a s * b t else 0

theorem dft_cyc {w : ℂ} {n : ℕ} (hn : 0 < n) (hw : w ^ n = 1) (a b : ℕ → ℝ) (k : ℕ) :
    dft w n (fun j => (cyc n a b j : ℂ)) k = dft w n (fun j => (a j : ℂ)) k * dft w n (fun j => (b j : ℂ)) k := by
  unfold dft cyc
  rw [sum_mul_sum]
  push_cast
  simp only [sum_mul]
  rw [sum_comm]
  refine sum_congr rfl fun s _ => ?_
  rw [sum_comm]
  refine sum_congr rfl fun t _ => ?_
  have e : ∀ j ∈ range n, ((if (s + t) % n = j then a s * b t else 0 : ℝ) : ℂ) * w ^ (j * k) =
      if (s + t) % n = j then (a s * b t : ℂ) * w ^ ((s + t) % n * k) else 0 := by
    intro j _
    split
    · next h => rw [h, ofReal_mul]
    · rw [ofReal_zero, zero_mul]
  rw [sum_congr rfl e, sum_ite_eq, if_pos (mem_range.mpr (Nat.mod_lt _ hn))]
  have hm : w ^ ((s + t) % n * k) = w ^ ((s + t) * k) := by
    conv_rhs => rw [← Nat.mod_add_div (s + t) n, add_mul, pow_add, mul_assoc, pow_mul w n, hw, one_pow, mul_one]
  rw [hm, add_mul, pow_add]; ring

/-- The three transforms and the product in exact arithmetic. -/
theorem fftConv_exact (m : ℕ) (a b : ℕ → ℝ) : ∀ j, j < 16 * 2 ^ m → exactOps.fftConv m a b j = (8 * 2 ^ m : ℕ) * cyc (16 * 2 ^ m) a b j := by
  refine rfftB_exact m _ _ ?_
  obtain ⟨a0, a1, ak⟩ := rfftF_exact m a
  obtain ⟨b0, b1, bk⟩ := rfftF_exact m b
  have e16 : 16 * 2 ^ m = 2 * (8 * 2 ^ m) := by ring
  have hn : 0 < 16 * 2 ^ m := by positivity
  obtain ⟨p0, pk⟩ := exactOps.pointwise_spec (8 * 2 ^ m) (exactOps.rfftF m a) (exactOps.rfftF m b)
  rw [← e16] at p0 pk
  simp only [Packed, dft_cyc hn (rootU_one true hn)]
  refine ⟨?_, ?_, fun k h0 hk => ?_⟩
  · have : exactOps.pointwise (16 * 2 ^ m) (exactOps.rfftF m a) (exactOps.rfftF m b) 0 = _ := congrArg Prod.fst p0
    rw [this, ← a0, ← b0]; simp [exactOps]
  · have : exactOps.pointwise (16 * 2 ^ m) (exactOps.rfftF m a) (exactOps.rfftF m b) 1 = _ := congrArg Prod.snd p0
    rw [this, ← a1, ← b1]; simp [exactOps]
  · rw [pk k h0 hk, ← ak k h0 hk, ← bk k h0 hk]
    apply Complex.ext <;> simp [toC, FOps.pmul, exactOps]

end WD
