import Verif.Proofs.ExpArg
/-
  `ldexp` with a non-negative exponent.
-/
namespace WD
open DW

theorem cap20 {c : Cfg} (hd : 16 ≤ c.digits10) {n : ℕ} (hn : n < 2 ^ 64) : n < c.B ^ c.N := by
  have e : c.B ^ c.N = 10 ^ (c.ed * c.N) := by rw [c.B_eq, pow_mul]
  rw [e]
  have h1 := c.digits_le
  have h2 := two_le_ed c
  have h3 : c.ed * (c.N - 1) ≤ c.ed * c.N := Nat.mul_le_mul_left _ (by omega)
  calc n < 2 ^ 64 := hn
    _ ≤ 10 ^ 20 := by norm_num
    _ ≤ _ := Nat.pow_le_pow_right (by norm_num) (by omega)

theorem mulEps_le20 {c : Cfg} (hd : 16 ≤ c.digits10) : mulEps c ≤ 1 / 10 ^ 20 := by
  have k1 := mulEps_le_epsD c
  have k2 := epsD_le hd
  norm_num at k1 k2 ⊢; linarith

/-- A power of two computed by `pow`. -/
theorem powTwo_spec {c : Cfg} (hd : 16 ≤ c.digits10) (hok : MulOk c c.N) (hE : 2 * c.ed + 1 ≤ c.maxExp) {n : ℕ} (hn : n ≤ 2 ^ 32)
    (hr : (2 : ℚ) ^ n ≤ 10 ^ ((c.maxExp : ℤ) - 1)) :
    Full c (powNat c (two c) n) ∧ |(powNat c (two c) n).val c - 2 ^ n| ≤ 2 * n * mulEps c * 2 ^ n ∧ 2 * (n : ℚ) * mulEps c ≤ 1 / 1000000000 := by
  have hμ := mulEps_pos c
  have hμ1 := mulEps_le20 hd
  have hn' : (n : ℚ) ≤ 2 ^ 32 := by exact_mod_cast hn
  have hnμ : (n : ℚ) * mulEps c ≤ 2 ^ 32 * (1 / 10 ^ 20) := mul_le_mul hn' hμ1 hμ.le (by norm_num)
  have h2n : (1 : ℚ) ≤ 2 ^ n := one_le_pow₀ (by norm_num)
  obtain ⟨p1, p2⟩ := pow_accuracy c (two c) n (two_full c) (by rw [two_val]; norm_num) hok hE
    (by rw [div_eq_mul_one_div]; change (n : ℚ) * mulEps c ≤ _; norm_num at hnμ ⊢; linarith)
    (by rw [two_val, abs_of_pos (by positivity)]; exact hr)
    (by rw [two_val, abs_of_pos (by positivity)]
        refine le_trans ?_ h2n
        rw [← zpow_zero (10 : ℚ)]
        exact zpow_le_zpow_right₀ (by norm_num) (by omega))
  rw [two_val, abs_of_pos (show (0 : ℚ) < 2 ^ n by positivity)] at p2
  refine ⟨p1, ?_, ?_⟩
  · have e : 2 * (n : ℚ) / 10 ^ (c.digits10 + 2 * c.ed) = 2 * n * mulEps c := by unfold mulEps; ring
    rw [e] at p2; exact p2
  · norm_num at hnμ ⊢; linarith

set_option maxHeartbeats 1000000 in
theorem ldexp_up {c : Cfg} {est : DW → DW} {fdig : ℕ} {v : DW} (hv : Full c v) (hv0 : v.val c ≠ 0) (hd : 16 ≤ c.digits10)
    (hok : MulOk c c.N) (hE : 2 * c.ed + 1 ≤ c.maxExp) {n : ℕ} (hn : n < 2 ^ 31) (hlo : -(c.maxExp : ℤ) < v.exp)
    (hr : (2 : ℚ) ^ n ≤ 10 ^ ((c.maxExp : ℤ) - 1)) (hhi : |v.val c| * 2 ^ n < 10 ^ ((c.maxExp : ℤ) - 1)) :
    ∃ r, ldexp c est fdig v (n : ℤ) = some r ∧ Full c r ∧
      |r.val c - v.val c * 2 ^ n| ≤ (2 * n + 3) * mulEps c * (|v.val c| * 2 ^ n) := by
  have hμ := mulEps_pos c
  have hμ1 := mulEps_le20 hd
  have h2 := two_le_ed c
  have h8 := ed_le8 c
  have hvz := isZero_false_of_val hv.toWF hv0
  have va := hv.toWF.abs_ge hvz
  have hva : 0 < |v.val c| := abs_pos.mpr hv0
  by_cases h0 : n = 0
  · refine ⟨v, by unfold ldexp; simp [h0], hv, ?_⟩
    rw [h0]; simp; positivity
  have hP : 0 ≤ |v.val c| * 2 ^ n := by positivity
  by_cases h64 : n < 64
  · have hlt : (2 : ℕ) ^ n < 2 ^ 64 := Nat.pow_lt_pow_right (by norm_num) h64
    have hord : v.exp + orderOf (2 ^ n) < c.maxExp := by
      obtain ⟨-, o2, o3⟩ := orderOf_digits (2 ^ n)
      have o2 := o2 (by positivity)
      have o2' : (10 : ℚ) ^ (orderOf (2 ^ n) - 1) ≤ 2 ^ n := by exact_mod_cast o2
      have : (10 : ℚ) ^ (v.exp + ((orderOf (2 ^ n) - 1 : ℕ) : ℤ)) < 10 ^ ((c.maxExp : ℤ) - 1) := by
        refine lt_of_le_of_lt ?_ hhi
        rw [zpow_add₀ (by norm_num), zpow_natCast]
        exact mul_le_mul va o2' (by positivity) hva.le
      rw [zpow_lt_zpow_iff_right₀ (by norm_num)] at this
      omega
    obtain ⟨m1, m2⟩ := mulU_op hv hv0 hlt (cap20 hd hlt) hok hlo hord
    refine ⟨mulULL c v (2 ^ n), ?_, m1, ?_⟩
    · unfold ldexp
      rw [if_neg (by omega), if_neg (by omega), if_neg (by omega), if_neg (by omega), if_neg (by omega)]
      rfl
    · push_cast at m2
      refine m2.trans ?_
      apply mul_le_mul_of_nonneg_right _ hP
      apply mul_le_mul_of_nonneg_right _ hμ.le
      have : (0 : ℚ) ≤ n := Nat.cast_nonneg _
      linarith
  · obtain ⟨p1, p2, p3⟩ := powTwo_spec hd hok hE (n := n) (by omega) hr
    generalize hpd : powNat c (two c) n = p at p1 p2
    have h2n : (0 : ℚ) < 2 ^ n := by positivity
    have h264 : (2 : ℚ) ^ 64 ≤ 2 ^ n := pow_le_pow_right₀ (by norm_num) (by omega)
    have k : 2 * (n : ℚ) * mulEps c * 2 ^ n ≤ 1 / 1000000000 * 2 ^ n := mul_le_mul_of_nonneg_right p3 h2n.le
    have p2' := abs_le.mp p2
    have plo : 10 ^ 18 ≤ p.val c := by norm_num at h264 ⊢; linarith [p2'.1]
    have phi : p.val c ≤ 2 * 2 ^ n := by linarith [p2'.2]
    have pz := isZero_false_of_val p1.toWF (by linarith : p.val c ≠ 0)
    have pa := p1.toWF.abs_ge pz
    have pb := p1.toWF.abs_lt
    rw [abs_of_pos (by linarith)] at pa pb
    have pe : 0 < p.exp := by
      have : (10 : ℚ) ^ (18 - 1 : ℤ) < 10 ^ (p.exp + (c.ed : ℤ)) := by
        refine lt_of_lt_of_le ?_ (plo.trans pb.le); norm_num
      rw [zpow_lt_zpow_iff_right₀ (by norm_num)] at this
      omega
    have hsum : v.exp + p.exp < c.maxExp := by
      have : (10 : ℚ) ^ (v.exp + p.exp) < 10 ^ (c.maxExp : ℤ) := by
        rw [zpow_add₀ (by norm_num)]
        calc (10 : ℚ) ^ v.exp * 10 ^ p.exp ≤ |v.val c| * (2 * 2 ^ n) := mul_le_mul va (pa.trans phi) (by positivity) hva.le
          _ = 2 * (|v.val c| * 2 ^ n) := by ring
          _ < 2 * 10 ^ ((c.maxExp : ℤ) - 1) := by linarith
          _ ≤ 10 ^ (c.maxExp : ℤ) := by
            rw [zpow_sub₀ (by norm_num)]
            have : (0 : ℚ) < 10 ^ (c.maxExp : ℤ) := p10_pos _
            rw [zpow_one]; linarith
      rwa [zpow_lt_zpow_iff_right₀ (by norm_num)] at this
    have hm := mul_relative_error c v p hv p1 hv0 (by linarith) hok (by omega) hsum
    have hmf : Full c (mulAssign c v p) := mulAssign_full hv p1 hvz pz hok (by omega) hsum |>.1
    refine ⟨mulAssign c v p, ?_, hmf, ?_⟩
    · unfold ldexp
      rw [if_neg (by omega), if_neg (by omega), if_neg (by omega), if_pos (by omega), ← hpd]
      rfl
    · rw [div_eq_mul_one_div] at hm
      change _ < |(mulAssign c v p).val c| * mulEps c at hm
      have t1 : |(mulAssign c v p).val c| ≤ |v.val c * p.val c| + |(mulAssign c v p).val c - v.val c * p.val c| := by
        have := abs_add_le (v.val c * p.val c) ((mulAssign c v p).val c - v.val c * p.val c)
        simpa using this
      have t2 : |(mulAssign c v p).val c - v.val c * 2 ^ n| ≤ |(mulAssign c v p).val c - v.val c * p.val c| + |v.val c * (p.val c - 2 ^ n)| := by
        have := abs_add_le ((mulAssign c v p).val c - v.val c * p.val c) (v.val c * (p.val c - 2 ^ n))
        rwa [show (mulAssign c v p).val c - v.val c * p.val c + v.val c * (p.val c - 2 ^ n) = (mulAssign c v p).val c - v.val c * 2 ^ n by ring] at this
      rw [abs_mul] at t1 t2
      rw [abs_of_pos (by linarith : 0 < p.val c)] at t1
      have t3 : |v.val c| * |p.val c - 2 ^ n| ≤ |v.val c| * (2 * n * mulEps c * 2 ^ n) := mul_le_mul_of_nonneg_left p2 hva.le
      have t4 : |v.val c| * p.val c ≤ |v.val c| * (11 / 10 * 2 ^ n) := mul_le_mul_of_nonneg_left (by linarith [p2'.2]) hva.le
      have hR := abs_nonneg ((mulAssign c v p).val c)
      generalize |(mulAssign c v p).val c - v.val c * p.val c| = D at *
      generalize |(mulAssign c v p).val c - v.val c * 2 ^ n| = G at *
      generalize |(mulAssign c v p).val c| = R at *
      have t5 : R * mulEps c ≤ R * (1 / 10 ^ 20) := mul_le_mul_of_nonneg_left hμ1 hR
      have t6 : R ≤ 2 * (|v.val c| * 2 ^ n) := by norm_num at t5; nlinarith
      have t7 : R * mulEps c ≤ 2 * (|v.val c| * 2 ^ n) * mulEps c := mul_le_mul_of_nonneg_right t6 hμ.le
      have t8 : 0 ≤ |v.val c| * 2 ^ n * mulEps c := by positivity
      have e : (2 * (n : ℚ) + 3) * mulEps c * (|v.val c| * 2 ^ n) = |v.val c| * (2 * n * mulEps c * 2 ^ n) + 3 * (|v.val c| * 2 ^ n * mulEps c) := by ring
      rw [e]
      linarith

end WD
