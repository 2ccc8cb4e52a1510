import Verif.Proofs.Boost
import Verif.Props.LnTwo
/-
  C71: the constant π of the binding to Boost.Math (boost/math/bindings/decwide_t.hpp:125-170), against Mathlib's π.
  C72: the precision in bits that the binding reports for a policy.
-/
namespace WD
open DW Real

/-- The formula of Gauss and Legendre without its last term: the square of the smaller mean instead of that of the common one. -/
theorem bp_exact (n : ℕ) (hs : agmC 1 (√(1 / 2)) (n + 1) ≤ 1 / 10 ^ 4) :
    |(agmSeq 1 (√(1 / 2)) (n + 1)).2 ^ 2 - π * (glSum n / 2)| ≤ (3143 / 1000 * 2 ^ n + 1) * agmC 1 (√(1 / 2)) (n + 1) := by
  obtain ⟨M, hM⟩ := gauss_legendre
  obtain ⟨M1, M2, M3⟩ := hM (n + 1)
  change |2 * M ^ 2 - π * glSum (n + 1)| ≤ _ at M3
  have hq0 : (0 : ℝ) < √(1 / 2) := Real.sqrt_pos.mpr (by norm_num)
  have hq2 : √(1 / 2 : ℝ) ≤ 7072 / 10000 := by rw [Real.sqrt_le_left (by norm_num)]; norm_num
  have hC2 := agmC_succ (a := 1) hq0 (by linarith) (n + 1)
  obtain ⟨c0, -⟩ := agmC_half_le n
  obtain ⟨g1, g2, g3, g4, g5⟩ := agm_half_bounds (n + 1)
  have hC : agmC 1 (√(1 / 2)) (n + 1) = (agmSeq 1 (√(1 / 2)) (n + 1)).1 ^ 2 - (agmSeq 1 (√(1 / 2)) (n + 1)).2 ^ 2 := rfl
  have hgl := glSum_succ n
  have e3 : (2 : ℝ) ^ (n + 1 + 2) = 8 * 2 ^ n := by rw [pow_add, pow_add]; ring
  rw [e3] at M3
  have hP : (1 : ℝ) ≤ 2 ^ n := one_le_pow₀ (by norm_num)
  have hπ1 := Real.pi_gt_d4
  have hπ2 := Real.pi_lt_d4
  generalize (2 : ℝ) ^ n = P at *
  generalize (agmSeq 1 (√(1 / 2)) (n + 1)).1 = a at *
  generalize (agmSeq 1 (√(1 / 2)) (n + 1)).2 = b at *
  generalize agmC 1 (√(1 / 2)) (n + 1 + 1) = C2 at *
  generalize agmC 1 (√(1 / 2)) (n + 1) = C at *
  generalize glSum (n + 1) = G1 at *
  generalize glSum n = G at *
  have hab : a - b ≤ C / (14 / 10) := by
    rw [le_div_iff₀ (by norm_num)]
    have : C = (a - b) * (a + b) := by rw [hC]; ring
    rw [this]
    exact mul_le_mul_of_nonneg_left (by linarith) (by linarith)
  have hC2' : C2 ≤ C / 70000 := by
    rw [hC2]
    have h1 : ((a - b) / 2) ^ 2 ≤ (C / (14 / 10) / 2) ^ 2 := pow_le_pow_left₀ (by linarith) (by linarith) 2
    have h2 : (C / (14 / 10) / 2) ^ 2 = C * C / (784 / 100) := by ring
    rw [h2] at h1
    have h3 : C * C ≤ C * (1 / 10 ^ 4) := mul_le_mul_of_nonneg_left hs c0
    have : C * C / (784 / 100) ≤ C * (1 / 10 ^ 4) / (784 / 100) := by gcongr
    norm_num at h1 this ⊢; linarith
  have hC20 : 0 ≤ C2 := by rw [hC2]; positivity
  have hP0 : 0 ≤ P := by linarith
  have hM2a : b ^ 2 ≤ M ^ 2 := pow_le_pow_left₀ (by linarith) M1 2
  have hM2b : M ^ 2 ≤ a ^ 2 := pow_le_pow_left₀ (by linarith) M2 2
  have hT : π * (8 * P * C2) ≤ 4 * (8 * P * (C / 70000)) :=
    mul_le_mul (by linarith) (by gcongr) (by positivity) (by norm_num)
  obtain ⟨x1, x2⟩ := abs_le.mp (le_trans M3 hT)
  have hPC : 0 ≤ P * C := by positivity
  have e4 : π * (G / 2) = π * G1 / 2 + π * (P * C) := by
    have : G / 2 = G1 / 2 + P * C := by linarith
    rw [this]; ring
  have u1 : π * (P * C) ≤ 31416 / 10000 * (P * C) := mul_le_mul_of_nonneg_right (by norm_num at hπ2 ⊢; linarith) hPC
  have u2 : 0 ≤ π * (P * C) := by positivity
  rw [e4, abs_le]; constructor <;> linarith

section
variable {c : Cfg} {estS : DW → DW × DW} {est : DW → DW} {fdig : ℕ}

theorem bp_final (h : AgmOk c) (hf : 6 ≤ fdig)
    (hI : ∀ x : DW, Full c x → 2 / 10 ≤ x.val c → x.val c ≤ 3 / 10 → StartOk c fdig (est (unsigned x)) |x.val c|)
    {n : ℕ} (hn : n < 48) {st : PiState} {D : DW} (i : PiInv c (n + 1) st) (fD : Full c D)
    (hD : |(D.val c : ℝ) - glSum n / 2| ≤ 44 / 10 * 2 ^ n * (agmDelta c : ℝ))
    (hC : agmC 1 (√(1 / 2)) (n + 1) ≤ ((2 ^ n * bpEps c * (1 + 150 * mulEps c) : ℚ) : ℝ) + 43 / 10 * (agmDelta c : ℝ)) :
    Full c (divAssign c est fdig st.bB D) ∧ |((divAssign c est fdig st.bB D).val c : ℝ) - π| ≤ 19 * 4 ^ n * (bpEps c : ℝ) := by
  obtain ⟨d0, d1⟩ := agmDelta_small h
  have hμ := mulEps_pos c
  have hμδ := mulEps_delta c
  have hδ := agmDelta_pos c
  have hε := bpEps_pos c
  have hε1 := bpEps_small h
  have hδε := bpEps_delta c
  have hμ20 := mulEps_le20 (c := c) (by have := h.d41; omega)
  have hεR : (0 : ℝ) < bpEps c := by exact_mod_cast hε
  have hε1R : (bpEps c : ℝ) ≤ 1 / 10 ^ 40 := by
    have := (Rat.cast_le (K := ℝ)).mpr hε1
    push_cast at this; exact this
  have hδεR : 1000 * (agmDelta c : ℝ) ≤ (bpEps c : ℝ) := by
    have := (Rat.cast_le (K := ℝ)).mpr hδε
    push_cast at this; exact this
  have hP : (1 : ℝ) ≤ 2 ^ n := one_le_pow₀ (by norm_num)
  have hP48 : (2 : ℝ) ^ n ≤ 2 ^ 48 := pow_le_pow_right₀ (by norm_num) hn.le
  have hPn : ((n + 1 : ℕ) : ℝ) ≤ 2 ^ n := by
    have : n + 1 ≤ 2 ^ n := Nat.lt_two_pow_self
    exact_mod_cast this
  have h4 : (4 : ℝ) ^ n = 2 ^ n * 2 ^ n := by rw [← mul_pow]; norm_num
  -- the last term
  have hC' : agmC 1 (√(1 / 2)) (n + 1) ≤ 10053 / 10000 * (2 ^ n * (bpEps c : ℝ)) := by
    have hμR : (mulEps c : ℝ) ≤ 1 / 10 ^ 20 := by
      have := (Rat.cast_le (K := ℝ)).mpr hμ20
      push_cast at this; exact this
    push_cast at hC
    have a1 : 0 < 2 ^ n * (bpEps c : ℝ) := by positivity
    have a2 : 2 ^ n * (bpEps c : ℝ) * (1 + 150 * (mulEps c : ℝ)) ≤ 2 ^ n * (bpEps c : ℝ) * (1 + 150 * (1 / 10 ^ 20)) := by gcongr
    have a3 : (bpEps c : ℝ) ≤ 2 ^ n * (bpEps c : ℝ) := le_mul_of_one_le_left hεR.le hP
    norm_num at a2; linarith
  have hPε : 2 ^ n * (2 ^ n * (bpEps c : ℝ)) ≤ 1 / 10 ^ 11 := by
    calc 2 ^ n * (2 ^ n * (bpEps c : ℝ)) ≤ 2 ^ 48 * (2 ^ 48 * (1 / 10 ^ 40)) := by gcongr
      _ ≤ _ := by norm_num
  have hPε1 : 2 ^ n * (bpEps c : ℝ) ≤ 2 ^ n * (2 ^ n * (bpEps c : ℝ)) := le_mul_of_one_le_left (by positivity) hP
  have hPε2 : (bpEps c : ℝ) ≤ 2 ^ n * (bpEps c : ℝ) := le_mul_of_one_le_left hεR.le hP
  have hex := bp_exact n (le_trans hC' (by norm_num at hPε ⊢; linarith))
  have hex' : |(agmSeq 1 (√(1 / 2)) (n + 1)).2 ^ 2 - π * (glSum n / 2)| ≤ (3143 / 1000 * 2 ^ n + 1) * (10053 / 10000 * (2 ^ n * (bpEps c : ℝ))) :=
    le_trans hex (by gcongr)
  obtain ⟨g1, g2, g3, -, -⟩ := agm_half_bounds (n + 1)
  have g6 : (agmSeq 1 (√(1 / 2)) (n + 1)).1 ≤ 8555 / 10000 := by
    have := (agm_half_bounds n).2.2.2.1
    show ((agmSeq 1 (√(1 / 2)) n).1 + (agmSeq 1 (√(1 / 2)) n).2) / 2 ≤ _
    linarith
  have g7 : 7 / 10 ≤ (agmSeq 1 (√(1 / 2)) (n + 1)).2 ^ 2 := by
    have := (agm_half_bounds n).2.2.2.2
    show _ ≤ √((agmSeq 1 (√(1 / 2)) n).1 * (agmSeq 1 (√(1 / 2)) n).2) ^ 2
    rw [Real.sq_sqrt (by linarith)]; exact this
  have g8 : (agmSeq 1 (√(1 / 2)) (n + 1)).2 ^ 2 ≤ 732 / 1000 := by
    have : (agmSeq 1 (√(1 / 2)) (n + 1)).2 ^ 2 ≤ (8555 / 10000) ^ 2 := pow_le_pow_left₀ (by linarith) (by linarith) 2
    exact le_trans this (by norm_num)
  have ib1 := i.b1
  have ib2 := i.b2
  obtain ⟨-, ⟨B1, B2⟩, -⟩ := i.ranges h (by omega)
  have fB := i.fb
  have hπ1 := Real.pi_gt_d4
  have hπ2 := Real.pi_lt_d4
  have hρ1 : 5 * ((n + 1 : ℕ) : ℝ) * (agmDelta c : ℝ) ≤ 1 / 10 ^ 6 := by
    have : ((n + 1 : ℕ) : ℝ) ≤ 48 := by exact_mod_cast (by omega : n + 1 ≤ 48)
    calc 5 * ((n + 1 : ℕ) : ℝ) * (agmDelta c : ℝ) ≤ 5 * 48 * (1 / 10 ^ 43) := by gcongr
      _ ≤ _ := by norm_num
  have hρ0 : 0 ≤ 5 * ((n + 1 : ℕ) : ℝ) * (agmDelta c : ℝ) := by positivity
  have hρ2 : 5 * ((n + 1 : ℕ) : ℝ) * (agmDelta c : ℝ) ≤ 5 / 1000 * (2 ^ n * (bpEps c : ℝ)) := by
    calc 5 * ((n + 1 : ℕ) : ℝ) * (agmDelta c : ℝ) ≤ 5 * 2 ^ n * ((bpEps c : ℝ) / 1000) := by gcongr; linarith
      _ = _ := by ring
  generalize 5 * ((n + 1 : ℕ) : ℝ) * (agmDelta c : ℝ) = ρ at *
  generalize (agmSeq 1 (√(1 / 2)) (n + 1)).2 ^ 2 = y at *
  have hB : |(st.bB.val c : ℝ) - y| ≤ 2 * ρ := by
    have k1 : ρ * y ≤ ρ * (732 / 1000) := mul_le_mul_of_nonneg_left g8 hρ0
    have k2 : ρ * ρ ≤ ρ * (1 / 10 ^ 6) := mul_le_mul_of_nonneg_left hρ1 hρ0
    have k3 : ρ * ρ * y ≤ ρ * ρ * 1 := mul_le_mul_of_nonneg_left (by linarith) (by positivity)
    have k4 : 0 ≤ ρ * ρ * y := mul_nonneg (by positivity) (by linarith)
    have E1 : (1 + ρ) ^ 2 * y = y + 2 * (ρ * y) + ρ * ρ * y := by ring
    have E2 : (1 - ρ) ^ 2 * y = y - 2 * (ρ * y) + ρ * ρ * y := by ring
    rw [E1] at ib2
    rw [E2] at ib1
    norm_num at k2
    rw [abs_le]; constructor <;> linarith
  have hDπ : |π * (glSum n / 2) - π * (D.val c : ℝ)| ≤ 139 / 10000 * (2 ^ n * (bpEps c : ℝ)) := by
    rw [← mul_sub, abs_mul, abs_of_pos Real.pi_pos, abs_sub_comm]
    calc π * |(D.val c : ℝ) - glSum n / 2| ≤ 31416 / 10000 * (44 / 10 * 2 ^ n * ((bpEps c : ℝ) / 1000)) :=
          mul_le_mul (by norm_num at hπ2 ⊢; linarith) (le_trans hD (by gcongr; linarith)) (abs_nonneg _) (by norm_num)
      _ = 31416 / 10000 * (44 / 10) / 1000 * (2 ^ n * (bpEps c : ℝ)) := by ring
      _ ≤ _ := mul_le_mul_of_nonneg_right (by norm_num) (by positivity)
  have tot : |(st.bB.val c : ℝ) - π * (D.val c : ℝ)| ≤ 419 / 100 * (2 ^ n * (2 ^ n * (bpEps c : ℝ))) := by
    have E1 : (3143 / 1000 * 2 ^ n + 1) * (10053 / 10000 * (2 ^ n * (bpEps c : ℝ))) =
      3143 / 1000 * (10053 / 10000) * (2 ^ n * (2 ^ n * (bpEps c : ℝ))) + 10053 / 10000 * (2 ^ n * (bpEps c : ℝ)) := by ring
    rw [E1] at hex'
    obtain ⟨y1, y2⟩ := abs_le.mp hex'
    obtain ⟨y3, y4⟩ := abs_le.mp hB
    obtain ⟨y5, y6⟩ := abs_le.mp hDπ
    rw [abs_le]; constructor <;> linarith
  have hDl : (222 : ℝ) / 1000 ≤ D.val c := by
    by_contra hc
    push Not at hc
    have : π * (D.val c : ℝ) ≤ π * (222 / 1000) := by gcongr
    obtain ⟨y1, y2⟩ := abs_le.mp tot
    obtain ⟨y3, y4⟩ := abs_le.mp hB
    norm_num at hPε hρ1; linarith
  have hDu : (D.val c : ℝ) ≤ 24 / 100 := by
    by_contra hc
    push Not at hc
    have : π * (24 / 100) ≤ π * (D.val c : ℝ) := by gcongr
    obtain ⟨y1, y2⟩ := abs_le.mp tot
    obtain ⟨y3, y4⟩ := abs_le.mp hB
    norm_num at hPε hρ1; linarith
  have hDlQ : 222 / 1000 ≤ D.val c := by
    have : ((222 / 1000 : ℚ) : ℝ) ≤ (D.val c : ℝ) := by push_cast; exact hDl
    exact_mod_cast this
  have hDuQ : D.val c ≤ 24 / 100 := by
    have : (D.val c : ℝ) ≤ ((24 / 100 : ℚ) : ℝ) := by push_cast; exact hDu
    exact_mod_cast this
  have hbig := h.big
  have hBabs : |st.bB.val c| = st.bB.val c := abs_of_pos (by linarith)
  have hDabs : |D.val c| = D.val c := abs_of_pos (by linarith)
  obtain ⟨-, w1, w2⟩ := exp_moderate fB (by rw [hBabs]; linarith) (by rw [hBabs]; linarith)
  obtain ⟨-, s1, s2⟩ := exp_moderate fD (by rw [hDabs]; linarith) (by rw [hDabs]; linarith)
  obtain ⟨q1, q2, -, q3⟩ := div_accuracy c est fdig st.bB D fB fD (by linarith) (by linarith) h.ok hf (by omega) (by omega) (by omega)
    (by omega) (by omega) (hI D fD (by linarith) (by linarith))
  refine ⟨q1, ?_⟩
  have hq : st.bB.val c / D.val c ≤ 4 := by rw [div_le_iff₀ (by linarith)]; linarith
  have hq0' : 0 < st.bB.val c / D.val c := div_pos (by linarith) (by linarith)
  have q3' : |(divAssign c est fdig st.bB D).val c - st.bB.val c / D.val c| ≤ 1 / 1000 * bpEps c := by
    refine le_trans q3.le ?_
    rw [abs_of_pos hq0', show (6 : ℚ) / 10 ^ (c.digits10 + 2 * c.ed) = 6 * mulEps c by unfold mulEps; ring]
    calc st.bB.val c / D.val c * (6 * mulEps c) ≤ 4 * (6 * mulEps c) := by gcongr
      _ ≤ _ := by linarith
  have q4 := (Rat.cast_le (K := ℝ)).mpr q3'
  push_cast at q4
  have hD0 : (0 : ℝ) < D.val c := by linarith
  have e5 : (st.bB.val c : ℝ) / (D.val c : ℝ) - π = ((st.bB.val c : ℝ) - π * (D.val c : ℝ)) / (D.val c : ℝ) := by field_simp
  have fin : |(st.bB.val c : ℝ) / (D.val c : ℝ) - π| ≤ 419 / 100 * (2 ^ n * (2 ^ n * (bpEps c : ℝ))) / (222 / 1000) := by
    rw [e5, abs_div, abs_of_pos hD0]
    exact div_le_div₀ (by positivity) tot (by norm_num) hDl
  have hsplit : ((divAssign c est fdig st.bB D).val c : ℝ) - π =
    (((divAssign c est fdig st.bB D).val c : ℝ) - (st.bB.val c : ℝ) / (D.val c : ℝ)) + ((st.bB.val c : ℝ) / (D.val c : ℝ) - π) := by ring
  rw [hsplit, h4]
  refine le_trans (abs_add_le _ _) ?_
  have E : 419 / 100 * (2 ^ n * (2 ^ n * (bpEps c : ℝ))) / (222 / 1000) = 41900 / 2220 * (2 ^ n * (2 ^ n * (bpEps c : ℝ))) := by ring
  rw [E] at fin
  have E2 : 19 * (2 ^ n * 2 ^ n) * (bpEps c : ℝ) = 19 * (2 ^ n * (2 ^ n * (bpEps c : ℝ))) := by ring
  rw [E2]
  linarith

/-- 2^(-j) for j = 1 and j = 2, from `float`. -/
theorem float_pow (h : AgmOk c) {j : ℕ} (hj : j = 1 ∨ j = 2) :
    Full c (fromFloat c est fdig 24 ((2 : ℚ) ^ (-126 : ℤ)) (1 / 2 ^ j)) ∧
    (fromFloat c est fdig 24 ((2 : ℚ) ^ (-126 : ℤ)) (1 / 2 ^ j)).val c = 1 / 2 ^ j := by
  have hrng := h.rng
  have hN := h.N9
  have hd := h.d41
  have hed : 2 ≤ c.ed := by unfold Cfg.ed; cases c.L <;> decide
  have hdl := c.digits_le
  have hbig : 41 ≤ c.ed * c.N := le_trans (by omega) (Nat.mul_le_mul_left c.ed (Nat.sub_le c.N 1))
  have hlin : ((c.N : ℤ) + 8) * c.ed = ((c.ed * c.N : ℕ) : ℤ) + 8 * c.ed := by push_cast; ring
  rw [hlin] at hrng
  have hmax : 41 + 8 * c.ed < c.maxExp := by omega
  have hval : ((2 ^ 23 : ℕ) : ℚ) * (2 : ℚ) ^ (-(23 + j : ℕ) : ℤ) = 1 / 2 ^ j := by
    rcases hj with rfl | rfl <;> norm_num
  have hlo : (10 : ℚ) ^ (-(c.maxExp : ℤ) + 2 * c.ed + 1) ≤ (2 : ℚ) ^ (-(23 + j : ℕ) : ℤ) := by
    have a1 : (10 : ℚ) ^ (-(c.maxExp : ℤ) + 2 * c.ed + 1) ≤ 10 ^ (-10 : ℤ) := zpow_le_zpow_right₀ (by norm_num) (by omega)
    refine le_trans a1 ?_
    rcases hj with rfl | rfl <;> norm_num
  have hbig10 : (10 : ℚ) ^ (10 : ℤ) ≤ 10 ^ ((c.maxExp : ℤ) - 1) := zpow_le_zpow_right₀ (by norm_num) (by omega)
  have := float_exact_partial c est fdig 24 ((2 : ℚ) ^ (-126 : ℤ)) (2 ^ 23) (-(23 + j : ℕ) : ℤ) false (by norm_num) (by norm_num)
    ⟨le_refl _, by norm_num, by rw [hval]; rcases hj with rfl | rfl <;> norm_num⟩ (h.ok.ok (by omega) le_rfl) (by omega)
    (by calc (2 ^ 23 : ℕ) < 10 ^ 8 := by norm_num
          _ ≤ 10 ^ (c.ed * c.N) := Nat.pow_le_pow_right (by norm_num) (by omega))
    (lt_of_lt_of_le (by norm_num) hbig10) (le_trans (by rw [hval]; rcases hj with rfl | rfl <;> norm_num) hbig10) hlo
    (by rw [if_pos (by omega)]
        have e : (-(23 + j : ℕ) : ℤ).natAbs = 23 + j := by omega
        rw [e]
        calc 5 ^ (23 + j) ≤ 5 ^ 25 := Nat.pow_le_pow_right (by norm_num) (by omega)
          _ < 10 ^ 41 := by norm_num
          _ ≤ _ := Nat.pow_le_pow_right (by norm_num) (by omega))
    (by rw [hval]
        have h1 : (10 : ℤ) ^ 41 ≤ 10 ^ (c.digits10 + 2 * c.ed + 1) := pow_le_pow_right₀ (by norm_num) (by omega)
        rcases hj with rfl | rfl
        · exact ⟨5, -1, lt_of_lt_of_le (by norm_num) h1, by norm_num⟩
        · exact ⟨25, -2, lt_of_lt_of_le (by norm_num) h1, by norm_num⟩)
    (by intro h; omega)
  dsimp only at this
  simp only [Bool.false_eq_true, if_false, one_mul] at this
  rw [hval] at this
  exact ⟨this.1, this.2.1⟩

theorem bpInit_inv (h : AgmOk c) (hmod : c.digits10 % c.ed ≠ 1) :
    BpInv c est fdig 0 (boostPiInit c est fdig)
      ⟨ofUnsigned c 32 1, (boostPiInit c est fdig).B, divULL c est fdig (addAssign c (ofUnsigned c 32 1) (boostPiInit c est fdig).B) 4,
        half c, zero c⟩ := by
  obtain ⟨d0, d1⟩ := agmDelta_small h
  obtain ⟨o1, o2, -⟩ := of_unsigned_exact c 32 1 (by norm_num) (by norm_num)
  have o3 := o2 (Nat.one_lt_pow (Nat.mul_ne_zero (by have := c.ed_pos; omega) (by have := h.N9; omega)) (by norm_num))
  obtain ⟨fB, vB⟩ := float_pow (est := est) (fdig := fdig) h (j := 1) (Or.inl rfl)
  obtain ⟨fD, vD⟩ := float_pow (est := est) (fdig := fdig) h (j := 2) (Or.inr rfl)
  rw [pow_one] at fB vB
  rw [show (1 : ℚ) / 2 ^ 2 = 1 / 4 by norm_num] at fD vD
  have hB : (boostPiInit c est fdig).B = fromFloat c est fdig 24 ((2 : ℚ) ^ (-126 : ℤ)) (1 / 2) := rfl
  have hDD : (boostPiInit c est fdig).D = fromFloat c est fdig 24 ((2 : ℚ) ^ (-126 : ℤ)) (1 / 4) := rfl
  have hlim : (boostPiInit c est fdig).lim = epsVal c := rfl
  obtain ⟨ev, ef⟩ := epsilon_value c
  obtain ⟨fE, -⟩ := ef hmod
  have hsq : √(1 / 2 : ℝ) ^ 2 = 1 / 2 := Real.sq_sqrt (by norm_num)
  have hh := half_val c
  have hμ := mulEps_pos c
  have hμδ := mulEps_delta c
  have hδ := agmDelta_pos c
  have d9 : agmDelta c ≤ 1 / 10 ^ 9 := by
    have : ((agmDelta c : ℚ) : ℝ) ≤ ((1 / 10 ^ 9 : ℚ) : ℝ) := by push_cast; exact le_trans d1 (by norm_num)
    exact_mod_cast this
  rw [← hB] at fB vB
  rw [← hDD] at fD vD
  obtain ⟨f1', e1, -⟩ := add_op o1 fB
  rw [o3, vB] at e1
  norm_num at e1
  obtain ⟨x1, x2⟩ := abs_le.mp e1
  have hwb : ∀ w, w = addAssign c (ofUnsigned c 32 1) (boostPiInit c est fdig).B →
      Full c (divULL c est fdig w 4) ∧ |(divULL c est fdig w 4).val c - 3 / 8| ≤ 103 / 100 * agmDelta c := by
    intro w hw
    rw [← hw] at f1' x1 x2
    obtain ⟨f2, e4⟩ := div_moderate (est := est) (fdig := fdig) h f1' (by norm_num at d9; linarith) (by norm_num at d9; linarith) (n := 4) (by norm_num) (by norm_num)
    push_cast at e4
    obtain ⟨e5, e6⟩ := abs_le.mp e4
    exact ⟨f2, by rw [abs_le]; constructor <;> linarith⟩
  obtain ⟨t1, t2⟩ := hwb _ rfl
  refine ⟨⟨o1, fB, half_full c, ?_, ?_, ?_, ?_, ?_, fun h => absurd h (lt_irrefl _)⟩, ⟨t1, ?_⟩, rfl, rfl, rfl, fD, ?_, ?_, ?_⟩
  · show _ ≤ (((ofUnsigned c 32 1).val c : ℚ) : ℝ)
    rw [o3]; simp [agmSeq]
  · show (((ofUnsigned c 32 1).val c : ℚ) : ℝ) ≤ _
    rw [o3]; simp [agmSeq]
  · show _ ≤ (((boostPiInit c est fdig).B.val c : ℚ) : ℝ)
    rw [vB]; simp only [agmSeq]; rw [hsq]; norm_num
  · show (((boostPiInit c est fdig).B.val c : ℚ) : ℝ) ≤ _
    rw [vB]; simp only [agmSeq]; rw [hsq]; norm_num
  · show |(((half c).val c : ℚ) : ℝ) - _| ≤ _
    rw [hh]; unfold glSum; norm_num; exact hδ.le
  · show |((_ : ℚ) : ℝ) - ((((ofUnsigned c 32 1).val c : ℚ) : ℝ) ^ 2 + (((boostPiInit c est fdig).B.val c : ℚ) : ℝ)) / 4| ≤ _
    rw [o3, vB]
    have := (Rat.cast_le (K := ℝ)).mpr t2
    push_cast at this ⊢
    refine le_trans (le_of_eq ?_) this
    congr 1; norm_num
  · rw [vD]; unfold glSum; norm_num; exact hδ.le
  · rw [hlim]; exact fE
  · rw [hlim, ev]; unfold bpEps; norm_num

end
theorem offRadix_fifth {c : Cfg} {F : Flt} {q : ℚ} (h1 : 2 / 10 ≤ q) (h2 : q < 9 / 10) : OffRadix c F q := by
  intro k ⟨a, b⟩
  have hB : (100 : ℚ) ≤ c.B := by
    have : 100 ≤ c.B := by unfold Cfg.B; cases c.L <;> decide
    exact_mod_cast this
  have hp : (1 : ℚ) / 10 ^ (F.digits10 - 1) ≤ 1 := by
    rw [div_le_one (by positivity)]; exact one_le_pow₀ (by norm_num)
  rcases le_or_gt 0 k with h | h
  · have : (1 : ℚ) ≤ (c.B : ℚ) ^ k := one_le_zpow₀ (by linarith) h
    linarith
  · have h3 : (c.B : ℚ) ^ k ≤ (c.B : ℚ) ^ (-1 : ℤ) := zpow_le_zpow_right₀ (by linarith) (by omega)
    have h4 : (c.B : ℚ) ^ (-1 : ℤ) ≤ 1 / 100 := by
      rw [zpow_neg_one, one_div]; exact inv_anti₀ (by norm_num) hB
    have h5 : (0 : ℚ) < (c.B : ℚ) ^ k := by positivity
    nlinarith

/-- The round in which the loop ends at the latest. -/
theorem bp_bound {c : Cfg} (h : AgmOk c) : ∃ K, K < 48 ∧ 6 * 2 ^ K ≤ 5 * (c.digits10 + 7) ∧
    agmC 1 (√(1 / 2)) (K + 1) + 43 / 10 * (agmDelta c : ℝ) ≤ ((2 ^ K * bpEps c * (1 - 150 * mulEps c) : ℚ) : ℝ) := by
  have hd := h.d41
  have hok := h.ok.1
  have hdl := c.digits_le
  have hed8 : c.ed ≤ 8 := by unfold Cfg.ed; cases c.L <;> decide
  have hdmax : c.digits10 ≤ 8 * 1792 := by
    have : c.ed * (c.N - 1) ≤ 8 * 1792 := Nat.mul_le_mul hed8 (by omega)
    omega
  obtain ⟨m, hm⟩ : ∃ m, m = (c.digits10 + 7) / 6 := ⟨_, rfl⟩
  have hm0 : 5 * m ≠ 0 := by omega
  have k1 := Nat.log2_self_le hm0
  have k2 := Nat.lt_log2_self (n := 5 * m)
  generalize Nat.log2 (5 * m) = K at *
  have hK : K < 48 := by
    have : 2 ^ K < 2 ^ 48 := lt_of_le_of_lt k1 (by norm_num; omega)
    exact (Nat.pow_lt_pow_iff_right (by norm_num)).mp this
  refine ⟨K, hK, by omega, ?_⟩
  have hμ20 := mulEps_le20 (c := c) (by omega)
  have hεR : (0 : ℝ) < bpEps c := by exact_mod_cast bpEps_pos c
  have hδεR : 1000 * (agmDelta c : ℝ) ≤ (bpEps c : ℝ) := by
    have := (Rat.cast_le (K := ℝ)).mpr (bpEps_delta c)
    push_cast at this; exact this
  have hμR : (mulEps c : ℝ) ≤ 1 / 10 ^ 20 := by
    have := (Rat.cast_le (K := ℝ)).mpr hμ20
    push_cast at this; exact this
  obtain ⟨g1, g2, g3, g4, g5⟩ := agm_half_bounds (K + 1)
  have hz : ((1 : ℝ) / 16) ^ (2 ^ (K + 1)) ≤ (bpEps c : ℝ) / 1000 := by
    have a1 : ((1 : ℝ) / 16) ^ (2 ^ (K + 1)) ≤ (1 / 16) ^ (5 * m) := pow_le_pow_of_le_one (by norm_num) (by norm_num) k2.le
    have a2 : ((1 : ℝ) / 16) ^ (5 * m) ≤ 1 / 10 ^ (6 * m) := by
      rw [pow_mul, pow_mul, ← one_div_pow]
      exact pow_le_pow_left₀ (by positivity) (by norm_num) _
    have a3 : (1 : ℝ) / 10 ^ (6 * m) ≤ 1 / 10 ^ (c.digits10 + 2) :=
      one_div_le_one_div_of_le (by positivity) (pow_le_pow_right₀ (by norm_num) (by omega))
    have a4 : (bpEps c : ℝ) / 1000 = 1 / 10 ^ (c.digits10 + 2) := by
      unfold bpEps
      push_cast
      rw [zpow_sub₀ (by norm_num), zpow_one, zpow_natCast, pow_add, div_div, div_eq_div_iff (by positivity) (by positivity)]
      ring
    rw [a4]; exact le_trans a1 (le_trans a2 a3)
  have hC : agmC 1 (√(1 / 2)) (K + 1) ≤ (56 / 10 * ((bpEps c : ℝ) / 1000)) * (171 / 100) := by
    have : agmC 1 (√(1 / 2)) (K + 1) = ((agmSeq 1 (√(1 / 2)) (K + 1)).1 - (agmSeq 1 (√(1 / 2)) (K + 1)).2) *
        ((agmSeq 1 (√(1 / 2)) (K + 1)).1 + (agmSeq 1 (√(1 / 2)) (K + 1)).2) := by
      unfold agmC; ring
    rw [this]
    refine mul_le_mul ?_ g4 (by linarith) (by positivity)
    exact le_trans (agm_half_conv (K + 1)) (by gcongr)
  push_cast
  have hP : (1 : ℝ) ≤ 2 ^ K := one_le_pow₀ (by norm_num)
  have a5 : (bpEps c : ℝ) * (1 - 150 * (1 / 10 ^ 20)) ≤ 2 ^ K * (bpEps c : ℝ) * (1 - 150 * (mulEps c : ℝ)) := by
    have b1 : (bpEps c : ℝ) ≤ 2 ^ K * (bpEps c : ℝ) := le_mul_of_one_le_left hεR.le hP
    have b2 : (1 : ℝ) - 150 * (1 / 10 ^ 20) ≤ 1 - 150 * (mulEps c : ℝ) := by linarith
    exact mul_le_mul b1 b2 (by norm_num) (by linarith)
  refine le_trans ?_ a5
  generalize agmC 1 (√(1 / 2)) (K + 1) = C at *
  norm_num
  linarith

/-- C71: `constant_pi` of the binding to Boost.Math. For digits10 > 40 and start values in a covered type (`FloatOk`) the loop (it has
    no bound in the code) ends after m rounds, 6·2^m ≤ 10·(digits10+7), and the value differs from π by at most 5·4^m·ε, where
    ε = 10^(1-digits10) is `numeric_limits::epsilon()`. Missing: an error below a few ε, as a constant of the type must have; the code
    does not reach it, see `boost_pi_inaccurate`. Also missing: digits10 ≤ 40, digits10 ≡ 1 modulo the digits of a limb (there
    `epsilon()` has a malformed limb), and the configurations missing in `calc_pi_error_partial`. -/
theorem boost_pi_accuracy_partial (c : Cfg) (F : Flt) (hF : FloatOk c F) (sq : ℚ → ℚ) (hsq : F.IsSqrt sq)
    (hok : MulOkAll c) (hd : 41 ≤ c.digits10) (hr : ((c.N : ℤ) + 8) * c.ed < c.maxExp) (hmod : c.digits10 % c.ed ≠ 1) :
    ∃ (v : DW) (m : ℕ), boostPi c (estSqrt c F sq) (estInv c F) F.digits10 48 = some (v, m) ∧ Full c v ∧ 1 ≤ m ∧
      6 * 2 ^ m ≤ 10 * (c.digits10 + 7) ∧ |(v.val c : ℝ) - π| ≤ 5 * 4 ^ m / 10 ^ (c.digits10 - 1) := by
  have h : AgmOk c := ⟨hok, by omega, hr⟩
  obtain ⟨K, hK, hKd, hKc⟩ := bp_bound h
  have hS := pi_sqrt_ok hF hsq h
  have I := bpInit_inv (est := estInv c F) (fdig := F.digits10) h hmod
  have hI : ∀ x : DW, Full c x → 2 / 10 ≤ x.val c → x.val c ≤ 3 / 10 → StartOk c F.digits10 (estInv c F (unsigned x)) |x.val c| :=
    fun x hx h1 h2 => by
      have h0 : 0 < x.val c := by linarith
      exact start_value_ok c F hF x hx h0.ne' (h.loops hF) (by rw [abs_of_pos h0]; exact offRadix_fifth h1 (by linarith))
  obtain ⟨n, st, D, hn, hrun, i, fD, hD, hC⟩ := bpLoop_spec h (digits10_ge hF) hS hK hKc 48 0 _ _ (by norm_num) (Nat.zero_le K) I
  obtain ⟨f, e⟩ := bp_final (est := estInv c F) h (digits10_ge hF) hI (by omega : n < 48) i fD hD hC
  refine ⟨_, n + 1, hrun, f, by omega, ?_, le_trans e ?_⟩
  · have : 2 ^ n ≤ 2 ^ K := Nat.pow_le_pow_right (by norm_num) hn
    rw [pow_succ]; omega
  · have e1 : (bpEps c : ℝ) = 1 / 10 ^ (c.digits10 - 1) := by
      unfold bpEps
      push_cast
      rw [show (1 : ℤ) - (c.digits10 : ℤ) = -((c.digits10 - 1 : ℕ) : ℤ) by omega, zpow_neg, zpow_natCast, one_div]
    have e2 : (19 : ℝ) * 4 ^ n ≤ 5 * 4 ^ (n + 1) := by
      have : (0 : ℝ) < 4 ^ n := by positivity
      rw [pow_succ]; linarith
    rw [e1, mul_one_div]
    exact div_le_div_of_nonneg_right e2 (by positivity)

/-- The hypotheses of `boost_pi_accuracy_partial` hold for `double` with 50, 100 and 1000 digits in 32-bit limbs and 100 digits in
    smaller ones; the bound on the rounds is 7 for 100 digits. -/
example : exDouble.IsDouble ∧ (∃ sq, exDouble.IsSqrt sq) ∧
    (∀ c ∈ [({ L := .u32, digits10 := 50, maxExp := 2 ^ 59 } : Cfg), { L := .u32, digits10 := 100, maxExp := 2 ^ 59 }, { L := .u32, digits10 := 1000, maxExp := 2 ^ 59 },
      { L := .u16, digits10 := 100, maxExp := 2 ^ 59 }, { L := .u8, digits10 := 100, maxExp := 2 ^ 59 }],
      MulOkAll c ∧ 41 ≤ c.digits10 ∧ ((c.N : ℤ) + 8) * c.ed < c.maxExp ∧ c.digits10 % c.ed ≠ 1) ∧
    ¬ 6 * 2 ^ 8 ≤ 10 * (100 + 7) :=
  ⟨⟨rfl, rfl, rfl⟩, sqrt_fn_exists _ (by decide), by decide +kernel, by norm_num⟩

/-- `decwide_t<88>`. -/
def exB88 : Cfg := { L := .u32, digits10 := 88, maxExp := 2 ^ 59 }

theorem exB88_run : boostPi exB88 (estSqrt exB88 exDoubleK (sqK 53)) (estInv exB88 exDoubleK) 15 48 ≠ none ∧
    ∀ r ∈ boostPi exB88 (estSqrt exB88 exDoubleK (sqK 53)) (estInv exB88 exDoubleK) 15 48, r.2 = 6 ∧
      r.1.val exB88 + 2 / 10 ^ 84 < (calcPi exB88 (estSqrt exB88 exDoubleK (sqK 53)) (estInv exB88 exDoubleK) 15).1.val exB88 := by
  decide +kernel

theorem exB88_rounds : (calcPi exB88 (estSqrt exB88 exDoubleK (sqK 53)) (estInv exB88 exDoubleK) 15).2[12]? = none := by decide +kernel

/-- The constant π of the binding is wrong by more than 1000 ε: `decwide_t<88>` with `double`, `std::sqrt` correctly rounded. -/
theorem boost_pi_inaccurate : exDouble.IsSqrt (sqK 53) ∧
    ∃ v, boostPi exB88 (estSqrt exB88 exDouble (sqK 53)) (estInv exB88 exDouble) exDouble.digits10 48 = some (v, 6) ∧
      1000 * ((epsVal exB88).val exB88 : ℝ) < |(v.val exB88 : ℝ) - π| := by
  refine ⟨sqK_double, ?_⟩
  have hdig : exDouble.digits10 = 15 := rfl
  obtain ⟨h1, h2⟩ := exB88_run
  have h3 := exB88_rounds
  rw [exDoubleK_eq] at h1 h2 h3
  have hp := calc_pi_digits_partial exB88 exDouble (FloatOk.double ⟨rfl, rfl, rfl⟩) (sqK 53) sqK_double ⟨by decide, by decide⟩
    (by decide) (by decide)
  rw [hdig] at hp ⊢
  have hp' := hp (by rw [h3]; simp)
  generalize (calcPi exB88 (estSqrt exB88 exDouble (sqK 53)) (estInv exB88 exDouble) 15).1 = p at *
  obtain ⟨⟨v, m⟩, hr⟩ := Option.ne_none_iff_exists'.mp h1
  obtain ⟨hm, hv⟩ := h2 _ hr
  simp only at hm hv
  subst hm
  refine ⟨v, hr, ?_⟩
  rw [(epsilon_value exB88).1]
  have hv' := (Rat.cast_lt (K := ℝ)).mpr hv
  push_cast at hv'
  obtain ⟨y1, y2⟩ := abs_lt.mp hp'
  have e88 : exB88.digits10 = 88 := rfl
  rw [e88] at y1 y2 ⊢
  rw [abs_sub_comm]
  refine lt_of_lt_of_le ?_ (le_abs_self _)
  push_cast
  rw [show ((10 : ℝ) ^ (-87 : ℤ)) = 1 / 10 ^ 87 by norm_num]
  norm_num at y1 y2 hv' ⊢
  linarith

/-- C72: the number of binary digits b that the binding derives from digits10: converted back to decimal digits as Boost.Math does it
    (b·301/1000, rounded down) it is digits10 or one more, never less; and b bits resolve the digits10 decimal digits with one bit to
    spare. -/
theorem boost_digits2 (c : Cfg) :
    c.digits10 ≤ boostDigits2 c * 301 / 1000 ∧ boostDigits2 c * 301 / 1000 ≤ c.digits10 + 1 ∧
    2 * 10 ^ c.digits10 ≤ 2 ^ boostDigits2 c := by
  have hb1 : boostDigits2 c * 301 ≤ (c.digits10 + 1) * 1000 := Nat.div_mul_le_self _ _
  have hb2 : (c.digits10 + 1) * 1000 < (boostDigits2 c + 1) * 301 := by
    unfold boostDigits2
    omega
  generalize boostDigits2 c = b at *
  refine ⟨by omega, by omega, ?_⟩
  have h59 : (2 * 10 ^ c.digits10) ^ 59 ≤ (2 ^ b) ^ 59 := by
    calc (2 * 10 ^ c.digits10) ^ 59 = 2 ^ 59 * (10 ^ 59) ^ c.digits10 := by
          rw [mul_pow, ← pow_mul, ← pow_mul, mul_comm c.digits10]
      _ ≤ 2 ^ 59 * (2 ^ 196) ^ c.digits10 := Nat.mul_le_mul_left _ (Nat.pow_le_pow_left (by norm_num) _)
      _ = 2 ^ (59 + 196 * c.digits10) := by rw [← pow_mul, ← pow_add]
      _ ≤ 2 ^ (b * 59) := Nat.pow_le_pow_right (by norm_num) (by omega)
      _ = _ := by rw [pow_mul]
  exact (Nat.pow_le_pow_iff_left (by norm_num)).mp h59

/-- C72: the precision selected for a policy: a positive number of bits below that of the type is respected, everything else gives the
    full precision; it is never larger than the full precision and is positive. -/
theorem boost_precision (c : Cfg) (policy : ℤ) :
    (0 < policy → boostPrecision c policy = min policy (boostDigits2 c)) ∧
    (policy ≤ 0 → boostPrecision c policy = boostDigits2 c) ∧ 0 < boostPrecision c policy := by
  have h0 : 3 ≤ boostDigits2 c := by unfold boostDigits2; omega
  unfold boostPrecision
  refine ⟨fun h => ?_, fun h => by rw [if_pos (Or.inr h)], ?_⟩ <;> split <;> omega

/-- `decwide_t<50>`: 169 bits; a policy that asks for 53 bits gets them, one that asks for 500 gets 169. -/
example : let c : Cfg := { L := .u32, digits10 := 50, maxExp := 2 ^ 59 }
    boostDigits2 c = 169 ∧ boostPrecision c 53 = 53 ∧ boostPrecision c 500 = 169 ∧ boostPrecision c 0 = 169 := by decide +kernel

end WD
