import Verif.Proofs.FftErr7
/-
  Rounding errors of the real transforms, of the product and of the convolution.
-/
namespace WD
open Finset Complex

namespace Rnd
variable {K : Type} {O : FOps K} {ι : K → ℝ} {u : ℝ} (H : Rnd O ι u)
include H

/-- The forward real transform. -/
theorem rfftF_err {m : ℕ} {T : ℕ → ℝ} {T' : ℝ} (B : TwB O ι T T' m) (d : ℕ → K) :
    nrm (8 * 2 ^ m) (fun k => C ι (FOps.cx (O.rfftF m d) 0 k) -
        Uv true (8 * 2 ^ m) (dft (rootU true (8 * 2 ^ m)) (8 * 2 ^ m) (fun j => C ι (FOps.cx d 0 j))) k) ≤
      Real.sqrt 2 * (Real.sqrt (8 * 2 ^ m : ℕ) * nrm (8 * 2 ^ m) (fun j => C ι (FOps.cx d 0 j))) * (sig u T' * (1 + eps u T m) + eps u T m) := by
  have hu := H.u0
  have hu1 := H.u1
  have hσ := H.sig_nonneg B.rnonneg
  have hε := H.eps_nonneg m fun i h1 h2 => B.nonneg h1 h2
  have hN : 0 < 8 * 2 ^ m := by positivity
  have hc := (H.cfft_err true B d).1
  have hp := parseval_nrm true m (fun j => C ι (FOps.cx d 0 j))
  set z := fun j => C ι (FOps.cx d 0 j) with hz
  set Z := dft (rootU true (8 * 2 ^ m)) (8 * 2 ^ m) z with hZ
  set c := O.cfft true m d with hcd
  obtain ⟨hU, -⟩ := H.Uv_err true B c (O.rfftF m d) (by
    have l2 : FOps.cx (O.rLoop true (16 * 2 ^ m) c) 0 0 = FOps.cx c 0 0 := by
      have := (O.rLoop_spec true (4 * 2 ^ m) (by positivity) c).2.1
      rwa [show 4 * (4 * 2 ^ m) = 16 * 2 ^ m by ring] at this
    have e1 : FOps.cx (O.rfftF m d) 0 0 = (O.add (c 0) (c 1), O.sub (c 0) (c 1)) := by
      have r0 : O.rLoop true (16 * 2 ^ m) c 0 = c 0 := congrArg Prod.fst l2
      have r1 : O.rLoop true (16 * 2 ^ m) c 1 = c 1 := congrArg Prod.snd l2
      unfold FOps.cx FOps.rfftF
      rw [← hcd]
      simp [Function.update_apply, r0, r1]
    rw [e1]
    have e2 : C ι (FOps.cx c 0 0) = ⟨ι (c 0), ι (c 1)⟩ := rfl
    have h1 := H.add (c 0) (c 1)
    have h2 := H.sub (c 0) (c 1)
    have e3 : Uv true (8 * 2 ^ m) (fun k => C ι (FOps.cx c 0 k)) 0 = ⟨ι (c 0) + ι (c 1), ι (c 0) - ι (c 1)⟩ := by
      unfold Uv; rw [if_pos rfl, if_pos rfl]; beta_reduce; rw [e2]
    rw [e3, e2]
    refine le_trans (norm_comp hu h1 h2) ?_
    have : ‖(⟨ι (c 0) + ι (c 1), ι (c 0) - ι (c 1)⟩ : ℂ)‖ ≤ 3 * ‖(⟨ι (c 0), ι (c 1)⟩ : ℂ)‖ := by
      apply abs_le_of_sq_le_sq' _ (by positivity) |>.2
      rw [mul_pow, norm_sq_parts, norm_sq_parts]
      simp only
      nlinarith [sq_nonneg (ι (c 0)), sq_nonneg (ι (c 1))]
    have := mul_le_mul_of_nonneg_left this hu
    linarith) (by
    intro k h0 hk
    unfold FOps.cx FOps.rfftF
    rw [← hcd]
    rw [Function.update_of_ne (by omega), Function.update_of_ne (by omega), Function.update_of_ne (by omega), Function.update_of_ne (by omega)])
  have t1 : nrm (8 * 2 ^ m) (fun k => Uv true (8 * 2 ^ m) (fun k => C ι (FOps.cx c 0 k)) k - Uv true (8 * 2 ^ m) Z k) ≤
      Real.sqrt 2 * nrm (8 * 2 ^ m) (fun k => C ι (FOps.cx c 0 k) - Z k) := by
    refine le_trans (le_of_eq (nrm_congr fun k _ => ?_)) (nrm_UvF hN _)
    rw [Uv_sub]
  have t2 := nrm_le_add (8 * 2 ^ m) (fun k => C ι (FOps.cx c 0 k)) Z
  have t3 := nrm_sub_le (8 * 2 ^ m) (fun k => C ι (FOps.cx (O.rfftF m d) 0 k)) (Uv true (8 * 2 ^ m) (fun k => C ι (FOps.cx c 0 k))) (Uv true (8 * 2 ^ m) Z)
  rw [hp] at t2
  refine le_trans t3 (le_trans (add_le_add hU t1) ?_)
  set g := Real.sqrt (8 * 2 ^ m : ℕ) * nrm (8 * 2 ^ m) z with hgd
  have hg : 0 ≤ g := mul_nonneg (Real.sqrt_nonneg _) (nrm_nonneg _ _)
  have t4 : nrm (8 * 2 ^ m) (fun k => C ι (FOps.cx c 0 k)) ≤ (1 + eps u T m) * g := by linarith
  have t5 := mul_le_mul_of_nonneg_left t4 (mul_nonneg (Real.sqrt_nonneg 2) hσ)
  have t6 := mul_le_mul_of_nonneg_left hc (Real.sqrt_nonneg 2)
  calc _ ≤ Real.sqrt 2 * sig u T' * ((1 + eps u T m) * g) + Real.sqrt 2 * (eps u T m * g) := add_le_add t5 t6
    _ = _ := by ring

/-- The inverse real transform. -/
theorem rfftB_err {m : ℕ} {T : ℕ → ℝ} {T' : ℝ} (B : TwB O ι T T' m) (d : ℕ → K) (P : ℕ → ℂ) {k : ℕ} (hk : k < 8 * 2 ^ m) :
    ‖C ι (FOps.cx (O.rfftB m d) 0 k) - dft (rootU false (8 * 2 ^ m)) (8 * 2 ^ m) (Uv false (8 * 2 ^ m) P) k‖ ≤
      (eps u T m * (Real.sqrt 2 + 2 * sig u T') + 2 * sig u T') * s1 (8 * 2 ^ m) (fun k => C ι (FOps.cx d 0 k)) +
        Real.sqrt 2 * s1 (8 * 2 ^ m) (fun k => C ι (FOps.cx d 0 k) - P k) := by
  have hu := H.u0
  have hu1 := H.u1
  have hσ := H.sig_nonneg B.rnonneg
  have hε := H.eps_nonneg m fun i h1 h2 => B.nonneg h1 h2
  have hN : 0 < 8 * 2 ^ m := by positivity
  set r := O.rLoop false (16 * 2 ^ m) d with hr
  set g := Function.update (Function.update r 0 (O.half (O.add (r 0) (r 1)))) 1
    (O.half (O.sub (r 0) (Function.update r 0 (O.half (O.add (r 0) (r 1))) 1))) with hg
  have e : O.rfftB m d = O.cfft false m g := rfl
  rw [e]
  have hc := (H.cfft_err false B g).2 k hk
  obtain ⟨-, hU⟩ := H.Uv_err false B d g (by
    have l2 : FOps.cx r 0 0 = FOps.cx d 0 0 := by
      have := (O.rLoop_spec false (4 * 2 ^ m) (by positivity) d).2.1
      rwa [show 4 * (4 * 2 ^ m) = 16 * 2 ^ m by ring] at this
    have e1 : FOps.cx g 0 0 = (O.half (O.add (d 0) (d 1)), O.half (O.sub (d 0) (d 1))) := by
      have r0 : r 0 = d 0 := congrArg Prod.fst l2
      have r1 : r 1 = d 1 := congrArg Prod.snd l2
      unfold FOps.cx
      rw [hg]
      simp [Function.update_apply, r0, r1]
    rw [e1]
    have e2 : C ι (FOps.cx d 0 0) = ⟨ι (d 0), ι (d 1)⟩ := rfl
    have h1 := H.halfadd (d 0) (d 1)
    have h2 := H.halfsub (d 0) (d 1)
    have e3 : Uv false (8 * 2 ^ m) (fun k => C ι (FOps.cx d 0 k)) 0 = ⟨(ι (d 0) + ι (d 1)) / 2, (ι (d 0) - ι (d 1)) / 2⟩ := by
      unfold Uv; rw [if_pos rfl, if_neg (by simp)]; beta_reduce; rw [e2]
    rw [e3, e2]
    refine le_trans (norm_comp (c := 2.001 * u) (by positivity) h1 h2) ?_
    have : ‖(⟨(ι (d 0) + ι (d 1)) / 2, (ι (d 0) - ι (d 1)) / 2⟩ : ℂ)‖ ≤ ‖(⟨ι (d 0), ι (d 1)⟩ : ℂ)‖ := by
      apply abs_le_of_sq_le_sq' _ (by positivity) |>.2
      rw [norm_sq_parts, norm_sq_parts]
      simp only
      nlinarith [sq_nonneg (ι (d 0)), sq_nonneg (ι (d 1))]
    have := mul_le_mul_of_nonneg_left this hu
    nlinarith [norm_nonneg (⟨ι (d 0), ι (d 1)⟩ : ℂ), mul_nonneg hu (norm_nonneg (⟨ι (d 0), ι (d 1)⟩ : ℂ))]) (by
    intro k h0 hk
    unfold FOps.cx
    rw [hg, Function.update_of_ne (by omega), Function.update_of_ne (by omega), Function.update_of_ne (by omega), Function.update_of_ne (by omega)])
  set D := s1 (8 * 2 ^ m) (fun k => C ι (FOps.cx d 0 k)) with hD
  have hD0 : 0 ≤ D := s1_nonneg _ _
  set V := fun k => C ι (FOps.cx g 0 k) with hV
  have t1 : s1 (8 * 2 ^ m) (fun k => Uv false (8 * 2 ^ m) (fun k => C ι (FOps.cx d 0 k)) k - Uv false (8 * 2 ^ m) P k) ≤
      Real.sqrt 2 * s1 (8 * 2 ^ m) (fun k => C ι (FOps.cx d 0 k) - P k) := by
    refine le_trans (le_of_eq (s1_congr fun k _ => ?_)) (s1_UvB hN _)
    rw [Uv_sub]
  have t2 := s1_le_add (8 * 2 ^ m) V (Uv false (8 * 2 ^ m) (fun k => C ι (FOps.cx d 0 k)))
  have t3 := s1_UvB hN (fun k => C ι (FOps.cx d 0 k))
  have t4 : s1 (8 * 2 ^ m) V ≤ (Real.sqrt 2 + 2 * sig u T') * D := by linarith
  have t5 := s1_sub_le (8 * 2 ^ m) V (Uv false (8 * 2 ^ m) (fun k => C ι (FOps.cx d 0 k))) (Uv false (8 * 2 ^ m) P)
  have t7 : ‖dft (rootU false (8 * 2 ^ m)) (8 * 2 ^ m) V k - dft (rootU false (8 * 2 ^ m)) (8 * 2 ^ m) (Uv false (8 * 2 ^ m) P) k‖ ≤
      s1 (8 * 2 ^ m) (fun k => V k - Uv false (8 * 2 ^ m) P k) := by
    rw [dft_sub]
    exact norm_dft_le (norm_rootU _ _) _ _ _
  have t6 : ‖C ι (FOps.cx (O.cfft false m g) 0 k) - dft (rootU false (8 * 2 ^ m)) (8 * 2 ^ m) (Uv false (8 * 2 ^ m) P) k‖ ≤
      ‖C ι (FOps.cx (O.cfft false m g) 0 k) - dft (rootU false (8 * 2 ^ m)) (8 * 2 ^ m) V k‖ +
      ‖dft (rootU false (8 * 2 ^ m)) (8 * 2 ^ m) V k - dft (rootU false (8 * 2 ^ m)) (8 * 2 ^ m) (Uv false (8 * 2 ^ m) P) k‖ := by
    refine le_trans (le_of_eq ?_) (norm_add_le _ _)
    congr 1; ring
  have t9 := mul_le_mul_of_nonneg_left t4 hε
  linarith

end Rnd

theorem eq_of_nrm {N : ℕ} {a b : ℕ → ℂ} (h : nrm N (fun k => a k - b k) ≤ 0) {k : ℕ} (hk : k < N) : a k = b k := by
  have := le_trans (le_nrm (fun k => a k - b k) hk) h
  exact sub_eq_zero.mp (norm_le_zero_iff.mp this)

theorem eps_zero (m : ℕ) : Rnd.eps 0 (fun _ => 0) m = 0 := by
  induction m with
  | zero => unfold Rnd.eps Rnd.lvl; simp
  | succ m ih => unfold Rnd.eps Rnd.lvl; rw [ih]; simp
theorem sig_zero : Rnd.sig 0 0 = 0 := by unfold Rnd.sig; simp

/-- The exact forward transform. -/
theorem rfftF_Uv {m : ℕ} (x : ℕ → ℝ) {k : ℕ} (hk : k < 8 * 2 ^ m) :
    toC (FOps.cx (exactOps.rfftF m x) 0 k) = Rnd.Uv true (8 * 2 ^ m) (dft (rootU true (8 * 2 ^ m)) (8 * 2 ^ m) (fun j => toC (FOps.cx x 0 j))) k := by
  have h := exact_rnd.rfftF_err (exact_twB m) x
  rw [eps_zero, sig_zero, add_zero, zero_mul, mul_zero] at h
  exact eq_of_nrm h hk

/-- The exact inverse transform. -/
theorem rfftB_Uv {m : ℕ} (x : ℕ → ℝ) {k : ℕ} (hk : k < 8 * 2 ^ m) :
    toC (FOps.cx (exactOps.rfftB m x) 0 k) =
      dft (rootU false (8 * 2 ^ m)) (8 * 2 ^ m) (Rnd.Uv false (8 * 2 ^ m) (fun j => toC (FOps.cx x 0 j))) k := by
  have h := exact_rnd.rfftB_err (exact_twB m) x (fun j => toC (FOps.cx x 0 j)) hk
  have e : s1 (8 * 2 ^ m) (fun k => Rnd.C id (FOps.cx x 0 k) - toC (FOps.cx x 0 k)) = 0 := by
    unfold s1
    refine sum_eq_zero fun k _ => ?_
    have : Rnd.C id (FOps.cx x 0 k) = toC (FOps.cx x 0 k) := rfl
    beta_reduce
    rw [this, sub_self]; simp
  rw [eps_zero, sig_zero, e] at h
  simp only [zero_mul, mul_zero, add_zero] at h
  exact sub_eq_zero.mp (norm_le_zero_iff.mp h)

end WD
