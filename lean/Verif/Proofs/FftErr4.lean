import Verif.Proofs.FftErr3
/-
  Rounding errors of the complex transform.
-/
namespace WD
open Finset Complex

namespace Rnd
variable {K : Type} {O : FOps K} {ι : K → ℝ} {u : ℝ} (H : Rnd O ι u)
include H

theorem caddW {a t : K × K} {V : ℂ} {x : ℝ} (ht : ‖C ι t - V‖ ≤ x) : ‖C ι (O.cadd a t) - (C ι a + V)‖ ≤ u * ‖C ι a + V‖ + (1 + u) * x := by
  have hu := H.u0
  have h := H.cadd a t
  have e : C ι (O.cadd a t) - (C ι a + V) = (C ι (O.cadd a t) - (C ι a + C ι t)) + (C ι t - V) := by ring
  have h1 : ‖C ι a + C ι t‖ ≤ ‖C ι a + V‖ + x := by
    rw [show C ι a + C ι t = (C ι a + V) + (C ι t - V) by ring]
    exact le_trans (norm_add_le _ _) (by linarith)
  rw [e]
  refine le_trans (norm_add_le _ _) ?_
  have := mul_le_mul_of_nonneg_left h1 hu
  linarith

theorem csubW {a t : K × K} {V : ℂ} {x : ℝ} (ht : ‖C ι t - V‖ ≤ x) : ‖C ι (O.csub a t) - (C ι a - V)‖ ≤ u * ‖C ι a - V‖ + (1 + u) * x := by
  have hu := H.u0
  have h := H.csub a t
  have e : C ι (O.csub a t) - (C ι a - V) = (C ι (O.csub a t) - (C ι a - C ι t)) - (C ι t - V) := by ring
  have h1 : ‖C ι a - C ι t‖ ≤ ‖C ι a - V‖ + x := by
    rw [show C ι a - C ι t = (C ι a - V) - (C ι t - V) by ring]
    exact le_trans (norm_sub_le _ _) (by linarith)
  rw [e]
  refine le_trans (norm_sub_le _ _) ?_
  have := mul_le_mul_of_nonneg_left h1 hu
  linarith

theorem cmulW {w z : K × K} {W : ℂ} {τ : ℝ} (hW : ‖W‖ = 1) (hw : ‖C ι w - W‖ ≤ τ) : ‖C ι (O.cmul w z) - W * C ι z‖ ≤ (τ + 3 * u * (1 + τ)) * ‖C ι z‖ := by
  have hu := H.u0
  have h := H.cmul w z
  have hz := norm_nonneg (C ι z)
  have h1 : ‖C ι w‖ ≤ 1 + τ := by
    have : ‖C ι w‖ ≤ ‖C ι w - W‖ + ‖W‖ := by simpa using norm_add_le (C ι w - W) W
    linarith
  have e : C ι (O.cmul w z) - W * C ι z = (C ι (O.cmul w z) - C ι w * C ι z) + (C ι w - W) * C ι z := by ring
  rw [e]
  refine le_trans (norm_add_le _ _) ?_
  rw [norm_mul (C ι w - W)]
  have h2 := mul_le_mul_of_nonneg_right hw hz
  have h3 := mul_le_mul_of_nonneg_left (mul_le_mul_of_nonneg_right h1 hz) (by positivity : 0 ≤ 3 * u)
  linarith

/-- The exact values of the numbers. -/
def R (ι : K → ℝ) (z : ℕ → K × K) (k : ℕ) : ℝ × ℝ := (ι (z k).1, ι (z k).2)

omit H in
theorem toC_R (z : ℕ → K × K) (k : ℕ) : toC (R ι z k) = C ι (z k) := rfl

theorem four_err (fwd : Bool) (z : ℕ → K × K) :
    nrm 4 (fun k => C ι (O.four fwd z k) - toC (exactOps.four fwd (R ι z) k)) ≤ 26 * u * nrm 4 (fun k => toC (exactOps.four fwd (R ι z) k)) ∧
    en 4 (fun k => toC (exactOps.four fwd (R ι z) k)) = 4 * en 4 (fun k => C ι (z k)) := by
  have hu := H.u0
  have hu1 := H.u1
  set E1 : ℕ → ℂ := fun k => if k < 2 then cbf 1 (fun _ => 1) (fun k => C ι (z k)) k else cbf 1 (fun _ => 1) (fun k => C ι (z (2 + k))) (k - 2) with hE1
  set Y1 : ℕ → ℂ := fun k => if k = 0 then C ι (O.cadd (z 0) (z 1)) else if k = 1 then C ι (O.csub (z 0) (z 1)) else
    if k = 2 then C ι (O.cadd (z 2) (z 3)) else C ι (O.csub (z 2) (z 3)) with hY1
  set W : ℕ → ℂ := fun k => rootU fwd 4 ^ k with hWd
  have hW : ∀ k, k < 2 → ‖W k‖ = 1 := fun k _ => by rw [hWd]; beta_reduce; rw [norm_pow, norm_rootU, one_pow]
  have hw : toC (exactOps.add (exactOps.wpReal fwd 4) exactOps.one, exactOps.wpImag fwd 4) = rootU fwd 4 := by
    have := wp_exact fwd (n := 4) ⟨2, rfl⟩
    rw [show rootU fwd 4 = (rootU fwd 4 - 1) + 1 by ring, ← this]
    apply Complex.ext <;> simp [toC, exactOps]
  have hX : ∀ k, k < 4 → toC (exactOps.four fwd (R ι z) k) = cbf 2 W E1 k := by
    intro k hk
    interval_cases k <;> simp [FOps.four, cbf, hE1, hWd, toC_cadd, toC_csub, toC_cmul, hw, toC_R, -map_add, -map_sub, -map_mul]
  have e1 : ∀ z : ℕ → ℂ, en 2 (cbf 1 (fun _ => 1) z) = 2 * en 2 z := fun z => en_cbf (H := 1) (fun _ _ => by simp) z
  have enE1 : en 4 E1 = 2 * en 4 (fun k => C ι (z k)) := by
    rw [show (4:ℕ) = 2 * 2 from rfl, en_split, en_split, mul_add, ← e1, ← e1]
    congr 1
  have enX : en 4 (fun k => toC (exactOps.four fwd (R ι z) k)) = 4 * en 4 (fun k => C ι (z k)) := by
    rw [en_congr hX, show (4:ℕ) = 2 * 2 from rfl, en_cbf hW, show 2 * 2 = 4 from rfl, enE1]; ring
  refine ⟨?_, enX⟩
  -- the first level
  have l1 : nrm 4 (fun k => Y1 k - E1 k) ≤ u * nrm 4 E1 := by
    apply nrm_mono hu
    intro k hk
    have a0 := H.cadd (z 0) (z 1)
    have a1 := H.csub (z 0) (z 1)
    have a2 := H.cadd (z 2) (z 3)
    have a3 := H.csub (z 2) (z 3)
    interval_cases k <;> simp [hY1, hE1, cbf] <;> assumption
  have hinit := H.init fwd (j := 2) le_rfl (by norm_num) (O.add (O.wpReal fwd 4) O.one)
    (by have := H.add (O.wpReal fwd 4) O.one; rw [H.one] at this; rwa [add_comm (1:ℝ)])
  have hτ : ‖C ι (O.add (O.wpReal fwd 4) O.one, O.wpImag fwd 4) - rootU fwd 4‖ ≤ 20.25 * u := by
    refine le_trans hinit (le_of_eq ?_)
    norm_num; ring
  have hgle : 20.25 * u + 3 * u * (1 + 20.25 * u) ≤ 23.3 * u := by nlinarith
  have l2 : nrm 4 (fun k => C ι (O.four fwd z k) - cbf 2 W E1 k) ≤ _ :=
    level (H := 2) (W := W) (Y := Y1) (Y' := fun k => C ι (O.four fwd z k)) (E := E1) (u := u) (g := (1 + u) * (23.3 * u)) (ε := u)
      hu (by positivity) hu hW (by
        intro k hk
        interval_cases k
        · have := H.cadd (O.cadd (z 0) (z 1)) (O.cadd (z 2) (z 3))
          simp [FOps.four, hY1, hWd]
          refine le_trans this ?_
          have : 0 ≤ (1 + u) * (23.3 * u) * ‖C ι (O.cadd (z 2) (z 3))‖ := by positivity
          linarith
        · have t := H.cmulW (z := O.csub (z 2) (z 3)) (norm_rootU fwd 4) hτ
          have t := le_trans t (mul_le_mul_of_nonneg_right hgle (norm_nonneg _))
          have := H.caddW (a := O.csub (z 0) (z 1)) t
          simp [FOps.four, hY1, hWd]
          rw [mul_assoc]; exact this) (by
        intro k hk
        interval_cases k
        · have := H.csub (O.cadd (z 0) (z 1)) (O.cadd (z 2) (z 3))
          simp [FOps.four, hY1, hWd]
          refine le_trans this ?_
          have : 0 ≤ (1 + u) * (23.3 * u) * ‖C ι (O.cadd (z 2) (z 3))‖ := by positivity
          linarith
        · have t := H.cmulW (z := O.csub (z 2) (z 3)) (norm_rootU fwd 4) hτ
          have t := le_trans t (mul_le_mul_of_nonneg_right hgle (norm_nonneg _))
          have := H.csubW (a := O.csub (z 0) (z 1)) t
          simp [FOps.four, hY1, hWd]
          rw [mul_assoc]; exact this) l1
  have f1 : nrm 4 (fun k => C ι (O.four fwd z k) - toC (exactOps.four fwd (R ι z) k)) = nrm 4 (fun k => C ι (O.four fwd z k) - cbf 2 W E1 k) :=
    nrm_congr fun k hk => by rw [hX k hk]
  rw [f1, nrm_congr hX]
  refine le_trans l2 (mul_le_mul_of_nonneg_right ?_ (nrm_nonneg _ _))
  nlinarith

end Rnd
end WD
