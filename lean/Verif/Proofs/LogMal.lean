import Verif.Proofs.LogMain
import Verif.Proofs.MalAdd
import Verif.Props.Radix

/-! `log` of the malformed power of the radix `[B, 0, …, 0]`, which the reciprocal of a negative power returns (F34). -/

namespace WD
open DW

variable {c : Cfg}

/-- Two radix powers, at the sizes of `log` for at most 51 digits. -/
theorem schoolMul_radix_both : ∀ p : ℕ, p < 30 → 0 < p →
    schoolMul .u8 (radixLimbs (Limb.mask .u8) p) (radixLimbs (Limb.mask .u8) p) = radixLimbs (Limb.mask .u8) p ++ List.replicate p 0 ∧
    schoolMul .u16 (radixLimbs (Limb.mask .u16) p) (radixLimbs (Limb.mask .u16) p) = radixLimbs (Limb.mask .u16) p ++ List.replicate p 0 ∧
    schoolMul .u32 (radixLimbs (Limb.mask .u32) p) (radixLimbs (Limb.mask .u32) p) = radixLimbs (Limb.mask .u32) p ++ List.replicate p 0 := by
  decide +kernel

theorem Mal.mul_mal {y z : DW} (h : Mal c y) (h' : Mal c z) (hN : c.N < 30) (hp : y.prec = c.N) (hp' : z.prec = c.N)
    (hlo : -(c.maxExp : ℤ) < y.exp + z.exp) (hhi : y.exp + z.exp < c.maxExp) :
    mulAssign c y z = { data := radixLimbs c.B c.N, exp := y.exp + z.exp + c.ed, neg := (y.neg != z.neg), prec := c.N } := by
  have h3 := c.three_le_N
  rcases mulAssign_cases (c := c) h.nz h'.nz with ⟨h1, -⟩ | ⟨-, h1, -⟩ | ⟨-, -, h', -⟩ | ⟨-, -, -, h', -⟩ | ⟨-, -, -, -, h2⟩
  · rw [h.not_one] at h1; exact absurd h1 (by simp)
  · rw [h'.not_one] at h1; exact absurd h1 (by simp)
  · omega
  · omega
  · rw [h2, hp, hp', Nat.min_self]
    have hl : (radixLimbs c.B c.N).length = c.N := radixLimbs_length (by omega)
    have hs : schoolMul c.L (radixLimbs c.B c.N) (radixLimbs c.B c.N) = radixLimbs c.B c.N ++ List.replicate c.N 0 := by
      obtain ⟨a1, a2, a3⟩ := schoolMul_radix_both c.N hN (by omega)
      unfold Cfg.B
      cases hL : c.L
      · exact a1
      · exact a2
      · exact a3
    unfold mulDispatch
    simp only [h.data, h'.data, List.take_of_length_le hl.le, List.drop_of_length_le hl.le]
    rw [if_pos (show c.N < elemsForFft by unfold elemsForFft; omega)]
    rw [if_pos (show c.N < elemsForKara by unfold elemsForKara; omega)]
    simp only [hs]
    have hhd : (radixLimbs c.B c.N ++ List.replicate c.N 0).headD 0 ≠ 0 := by
      unfold radixLimbs; simp; exact c.B_pos.ne'
    rw [if_pos hhd, List.take_append_of_le_length hl.ge, List.take_of_length_le hl.le, List.append_nil]

/-- The malformed one minus one is zero. -/
theorem Mal.sub_one {y : DW} (h : Mal c y) (hp : y.prec = c.N) (he : y.exp = -(c.ed : ℤ)) (hn : y.neg = false) :
    subAssign c y (one c) = zero c := by
  have h3 := c.three_le_N
  have hed := c.ed_pos
  have h1z : (one c).isZero = false := isZero_false_of_val (one_full c).toWF (by rw [one_val]; exact one_ne_zero)
  have hng : y.negate = { y with neg := true } := by
    unfold DW.negate; rw [h.nz]; simp [hn]
  have hm : Mal c { y with neg := true } := ⟨h.data, h.dvd, h.prec2, h.precN⟩
  have hod : (one c).data = 1 :: List.replicate (c.N - 1) 0 := rfl
  obtain ⟨s1, s2⟩ := shr_radix (B := c.B) (N := c.N) (j := 0) (by omega)
  have e0 : shr c.N 0 (1 :: List.replicate (c.N - 1) 0) = 1 :: List.replicate (c.N - 1) 0 := by
    unfold shr; simp; omega
  have hsub : (subN c.L (one c).data (shr c.N 1 y.data)).1 = List.replicate c.N 0 := by
    have e1 : subN c.L (one c).data (shr c.N 1 y.data) = subN c.L (one c).data (one c).data := by
      rw [h.data, s1]
      have := subC_radix c.L (c.N - 2 - 0) 0 (one c).data (by rw [(one_full c).len]; omega) (one_full c).valid
      refine this.trans ?_
      rw [← s2, e0, ← hod]; rfl
    rw [e1]
    obtain ⟨z1, z2, z3, z4⟩ := subC_spec c.L (bin := 0) (by omega) (one c).data (one c).data rfl (one_full c).valid (one_full c).valid
    have z5 : limbsVal c.L.mask (subC c.L 0 (one c).data (one c).data).1 < c.L.mask ^ (one c).data.length := by
      have := limbsVal_lt z2; rwa [z1] at this
    have z6 : limbsVal c.L.mask (subC c.L 0 (one c).data (one c).data).1 = 0 := by
      have : (subC c.L 0 (one c).data (one c).data).2 = 0 := by
        by_contra hne
        have : 1 * c.L.mask ^ (one c).data.length ≤ (subC c.L 0 (one c).data (one c).data).2 * c.L.mask ^ (one c).data.length :=
          Nat.mul_le_mul_right _ (by omega)
        omega
      rw [this] at z4; omega
    apply limbsVal_inj z2 (validLimbs_replicate c.B_pos) (by rw [z1, (one_full c).len]; simp)
    rw [limbsVal_replicate_zero]; exact z6
  have hadd : addAssign c { y with neg := true } (one c) = zero c := by
    have h1e : (one c).exp = 0 := rfl
    have h1n : (one c).neg = false := rfl
    have h1p : (one c).prec = c.N := (one_full c).full
    have ol : (one c).data.length = c.N := (one_full c).len
    obtain ⟨u, hu⟩ : ∃ u : DW, u = { y with neg := true } := ⟨_, rfl⟩
    rw [← hu] at hm ⊢
    have ud : u.data = y.data := by rw [hu]
    have ue : u.exp = -(c.ed : ℤ) := by rw [hu]; exact he
    have un : u.neg = true := by rw [hu]
    have up : u.prec = c.N := by rw [hu]; exact hp
    clear hu
    have hM : (c.ed : ℤ) < (c.N : ℤ) * c.ed := by
      have : (2 : ℤ) * c.ed ≤ (c.N : ℤ) * c.ed := mul_le_mul_of_nonneg_right (by omega) (by omega)
      omega
    have hq : (-(c.ed : ℤ)).natAbs / c.ed = 1 := by rw [Int.natAbs_neg, Int.natAbs_natCast, Nat.div_self hed]
    unfold addAssign
    rw [if_neg (by rw [hm.nz]; simp)]
    simp only [h1z, up, h1p, min_self, ue, h1e, sub_zero, h1n, un, hq, Bool.false_eq_true, false_or, Bool.true_eq_false, if_false]
    generalize (c.N : ℤ) * (c.ed : ℤ) = M at *
    have f1 : ¬ (0 ≤ -(c.ed : ℤ) ∧ -(c.ed : ℤ) ≥ M) := by omega
    have f2 : ¬ (-(c.ed : ℤ) < 0 ∧ - -(c.ed : ℤ) ≥ M) := by omega
    have f3 : ¬ (0 ≤ -(c.ed : ℤ)) := by omega
    simp only [if_neg f1, if_neg f2, if_neg f3]
    unfold addOpp
    rw [if_neg (by norm_num)]
    simp only [Nat.cast_one, neg_neg, Int.toNat_one]
    rw [if_pos (by norm_num), ud]
    have sl : (shr c.N 1 y.data).length = c.N := by
      rw [h.data, s1]; unfold alignR; simp; omega
    apply justify_zeros
    simp only [List.take_of_length_le ol.le, List.take_of_length_le sl.le, List.drop_of_length_le sl.le, List.append_nil]
    exact hsub
  unfold subAssign
  rw [hng, hadd]
  unfold DW.negate
  rw [if_pos (zero_isZero c)]

/-- The value of the malformed object. -/
theorem Mal.val_eq {y : DW} (h : Mal c y) (hn : y.neg = false) : y.val c = 10 ^ (y.exp + c.ed) := by
  rw [← h.twin_val]
  have h1 : (twin c y).val c = |(twin c y).val c| := WF.val_of_pos (show (twin c y).neg = false from hn)
  rw [h1, abs_val]
  unfold mant lexp
  simp only [twin]
  rw [limbsVal_cons, limbsVal_replicate_zero, List.length_replicate]
  have h1 := c.p10_mul_B (y.exp + c.ed - (c.ed : ℤ) * ((c.N : ℤ) - 1)) (c.N - 1)
  have hN1 : ((c.N - 1 : ℕ) : ℤ) = (c.N : ℤ) - 1 := by have := N_pos c; omega
  rw [hN1, sub_add_cancel] at h1
  rw [← h1]; push_cast; ring

/-- The malformed B^k, k ≥ 1, compares above one. -/
theorem Mal.gt_one {w : DW} (q : Mal c w) (hwn : w.neg = false) (he : 0 ≤ w.exp) : DW.cmp w (one c) > 0 := by
  have h1z : (one c).isZero = false := isZero_false_of_val (one_full c).toWF (by rw [one_val]; exact one_ne_zero)
  have hn1 : (one c).neg = false := rfl
  have he1 : (one c).exp = 0 := rfl
  have hd : (one c).data = 1 :: List.replicate (c.N - 1) 0 := rfl
  have hB : 2 ≤ c.B := one_lt_B c
  unfold DW.cmp
  rw [if_neg (by rw [q.nz]; simp), if_neg (by rw [h1z]; simp), if_neg (by rw [hwn, hn1]; simp), he1, hwn]
  by_cases hw : w.exp = 0
  · rw [if_neg (by simp [hw])]
    have : compareRanges w.data (one c).data = 1 := by
      rw [q.data, hd]
      unfold radixLimbs compareRanges
      rw [if_pos (by omega), if_pos (by omega)]
    simp [this]
  · rw [if_pos hw]
    dsimp only
    rw [if_neg (show ¬ w.exp < 0 by omega)]
    simp

theorem orderOf_radix (c : Cfg) : (orderOf c.B : ℤ) = c.ed + 1 := by
  unfold Cfg.B Cfg.ed
  cases c.L <;> decide +kernel

set_option maxHeartbeats 1000000 in
/-- `log` of the malformed power B^k, k ≥ 1. -/
theorem logAbove_mal {F : Flt} (h : ElemOk c F) (hD : c.digits10 ≤ 51) (hX : c.maxExp ≤ 2 ^ 62) {w lim : DW} (hm : Mal c w)
    (hp : w.prec = c.N) (hn : w.neg = false) (he : 0 ≤ w.exp) (hhi : w.exp + 4 * c.ed < c.maxExp)
    (hlim : WF c lim) (hl1 : 179 / 100 ≤ lim.val c) :
    Full c (logAbove c (estInv c F) F.digits10 lim w) ∧
    |((logAbove c (estInv c F) F.digits10 lim w).val c : ℝ) - Real.log (w.val c)| ≤ (16 + Real.log (w.val c) / 1000) * (epsD c : ℝ) := by
  have h2 := two_le_ed c
  have h8 := ed_le8 c
  have hed := c.ed_pos
  have h3 := c.three_le_N
  have hN : c.N < 30 := by
    have : c.digits10 / c.ed ≤ 51 / 2 := Nat.div_le_div hD h2 (by norm_num)
    unfold Cfg.N
    split <;> omega
  have hM := h.hM
  have hμ0 := mulEps_pos c
  have hμ := mulEps_le_epsD c
  have hμ20 := mulEps_le20 h.lo
  have hε0 := epsD_pos c
  have hε := epsD_le h.lo
  have hR := h.hR
  obtain ⟨n, hnn⟩ : ∃ n : ℕ, (n : ℤ) = w.exp + c.ed := ⟨(w.exp + c.ed).toNat, by omega⟩
  have hil : (ilogb w).toNat = n := by
    unfold ilogb
    rw [hm.d0, orderOf_radix]; omega
  have hwv : w.val c = 10 ^ (n : ℤ) := by rw [hm.val_eq hn, hnn]
  obtain ⟨b1, b2, b3⟩ := logScale_spec c n
  have hdn : c.ed ∣ n := by
    have : (c.ed : ℤ) ∣ (n : ℤ) := by rw [hnn]; exact dvd_add hm.dvd (dvd_refl _)
    exact_mod_cast this
  have hse : (logScale c n).exp = n := by rw [b3, Nat.div_mul_cancel hdn]
  have hp0 : (0 : ℚ) < 10 ^ (n : ℤ) := p10_pos _
  have hX1 : 1 < w.val c := by
    rw [hwv, zpow_natCast]
    exact one_lt_pow₀ (by norm_num) (by omega)
  have hXn : w.val c / 10 ^ n = 1 := by rw [hwv, zpow_natCast]; exact div_self (by positivity)
  have hsz : (logScale c n).isZero = false := isZero_false_of_val b1.toWF (by rw [b2]; exact hp0.ne')
  obtain ⟨i1, i2, -⟩ := inv_accuracy_any c F h.hF h.hK (logScale c n) b1 (by rw [b2]; exact hp0.ne') h.hok (by omega) (by omega) (by omega)
  obtain ⟨q1, q2, q3, -⟩ := calcInv_any h.hF h.hK b1 hsz h.hok h.hok.1 (by omega) (by omega) (by omega)
  have hdiv : divAssign c (estInv c F) F.digits10 w (logScale c n) = mulAssign c w (calcInv c (estInv c F) F.digits10 (logScale c n)) := by
    unfold divAssign
    rw [if_neg]
    rintro ⟨h1, -⟩
    omega
  generalize calcInv c (estInv c F) F.digits10 (logScale c n) = s at *
  have hneg : s.neg = false := by
    rw [q3]; exact neg_of_pos (c := c) (by rw [b2]; exact hp0)
  rw [b2] at i2
  have hμe : (5 : ℚ) / 10 ^ (c.digits10 + 2 * c.ed) = 5 * mulEps c := by unfold mulEps; ring
  rw [hμe] at i2
  have i2' := abs_lt.mp i2
  have hμs : 5 * mulEps c ≤ 1 / 1000 := by norm_num at hμ20; linarith
  have hμt : 5 * mulEps c ≤ epsD c := by norm_num at hμ; linarith
  have t1 : (10 : ℚ) ^ (1 : ℤ) = 10 := by norm_num
  have t2 : (10 : ℚ) ^ (-1 : ℤ) = 1 / 10 := by norm_num
  have t3 : (10 : ℚ) ^ (2 : ℤ) = 100 := by norm_num
  unfold logAbove
  dsimp only
  rw [hil, hdiv]
  rcases q1 with q | ⟨q, qp⟩
  · -- well-formed reciprocal
    have hsv : s.val c = |s.val c| := WF.val_of_pos hneg
    have e1 := q.toWF.abs_ge q2
    have e2 := q.toWF.abs_lt
    rw [← hsv] at e1 e2
    have ub : s.exp + n ≤ 0 := by
      by_contra hc
      have : (10 : ℚ) ^ (1 : ℤ) ≤ 10 ^ (s.exp + n) := zpow_le_zpow_right₀ (by norm_num) (by omega)
      rw [zpow_add₀ (by norm_num), t1] at this
      have := mul_le_mul_of_nonneg_right e1 hp0.le
      linarith
    have lb : 0 ≤ s.exp + c.ed + n := by
      by_contra hc
      have : (10 : ℚ) ^ (s.exp + c.ed + n) ≤ 10 ^ (-1 : ℤ) := zpow_le_zpow_right₀ (by norm_num) (by omega)
      rw [zpow_add₀ (by norm_num), t2] at this
      have := mul_le_mul_of_nonneg_right e2.le hp0.le
      linarith
    have hs1 : isOneSN c s = false := by
      by_contra hc
      simp only [Bool.not_eq_false] at hc
      obtain ⟨a1, -⟩ := isOneSN_absp q.toWF q2 hc (p := c.N) (by omega) (le_refl _)
      have b1 := q.toWF.absp_le (le_refl c.N)
      rw [← hsv] at b1
      have hη := eta_N_le c
      have h10 : (10 : ℚ) ^ (2 : ℤ) ≤ 10 ^ (n : ℤ) := zpow_le_zpow_right₀ (by norm_num) (by omega)
      have : (1 / 2 : ℚ) * 10 ^ (2 : ℤ) ≤ s.val c * 10 ^ (n : ℤ) := mul_le_mul (by norm_num at hη; linarith) h10 (by positivity) (by linarith)
      rw [t3] at this; linarith
    have hx := hm.mul_left q.toWF q2 hs1 (by omega) (by omega) h.hok.1
    rw [hp, q.full, Nat.min_self, List.take_of_length_le q.len.le, Nat.sub_self, List.replicate_zero, List.append_nil, hn, hneg] at hx
    generalize mulAssign c w s = P at *
    have hPf : Full c P := by
      rw [hx]
      refine ⟨⟨q.len, q.valid, dvd_add (dvd_add hm.dvd q.dvd) (dvd_refl _), by show 2 ≤ c.N; omega, le_refl _, ?_⟩, rfl⟩
      intro h0; exact absurd (show s.isZero = true by unfold isZero; have h1 : s.d0 = 0 := h0; rw [h1]; rfl) (by rw [q2]; simp)
    have hPv : P.val c = s.val c * 10 ^ (n : ℤ) := by
      have h1 : P.val c = |P.val c| := WF.val_of_pos (by rw [hx]; rfl)
      rw [h1, hsv, abs_val, abs_val, hx]
      unfold mant lexp
      simp only
      rw [show w.exp + s.exp + (c.ed : ℤ) - (c.ed : ℤ) * ((c.N : ℤ) - 1) = s.exp - (c.ed : ℤ) * ((c.N : ℤ) - 1) + n by rw [hnn]; ring,
        zpow_add₀ (by norm_num)]
      ring
    have hgt : ¬ gt P lim = true := by
      rw [(ordering_matches_value c P lim hPf.toWF hlim).2.2.2.2.2, hPv]
      linarith
    rw [if_neg hgt]
    dsimp only
    refine log_finish_P h hD hX hX1 hPf ?_ ?_ ?_ ?_ ?_ (by omega)
    · rw [hPv]; linarith
    · rw [hPv]; linarith
    · rw [hXn]; norm_num
    · rw [hXn]; norm_num
    · rw [hXn, hPv, mul_one]
      rw [abs_le]; constructor <;> linarith
  · -- malformed reciprocal
    have hsv := q.val_eq hneg
    have hse0 : s.exp + c.ed + n = 0 := by
      rw [hsv, ← zpow_add₀ (by norm_num)] at i2'
      rcases lt_trichotomy (s.exp + c.ed + n) 0 with hc | hc | hc
      · have : (10 : ℚ) ^ (s.exp + c.ed + n) ≤ 10 ^ (-1 : ℤ) := zpow_le_zpow_right₀ (by norm_num) (by omega)
        rw [t2] at this; linarith
      · exact hc
      · have : (10 : ℚ) ^ (1 : ℤ) ≤ 10 ^ (s.exp + c.ed + n) := zpow_le_zpow_right₀ (by norm_num) (by omega)
        rw [t1] at this; linarith
    have hx := hm.mul_mal q hN hp qp (by omega) (by omega)
    rw [hn, hneg] at hx
    generalize mulAssign c w s = P at *
    have hPm : Mal c P := by
      rw [hx]
      exact ⟨rfl, dvd_add (dvd_add hm.dvd q.dvd) (dvd_refl _), by show 2 ≤ c.N; omega, le_refl _⟩
    have hPn : P.neg = false := by rw [hx]; rfl
    have hPp : P.prec = c.N := by rw [hx]
    have hPe : P.exp = -(c.ed : ℤ) := by rw [hx]; show w.exp + s.exp + (c.ed : ℤ) = _; omega
    have hgt : ¬ gt P lim = true := by
      have hle : 0 ≤ lim.exp := by
        have := hlim.abs_lt
        have : (10 : ℚ) ^ (0 : ℤ) < 10 ^ (lim.exp + c.ed) := by
          rw [zpow_zero]; rw [abs_of_pos (by linarith)] at this; linarith
        rw [zpow_lt_zpow_iff_right₀ (by norm_num)] at this
        obtain ⟨k, hk⟩ := hlim.dvd
        have : 0 ≤ k := by
          by_contra hc
          have : (c.ed : ℤ) * k ≤ c.ed * (-1) := mul_le_mul_of_nonneg_left (by omega) (by omega)
          omega
        rw [hk]; positivity
      have hlz := isZero_false_of_val hlim (show lim.val c ≠ 0 by linarith)
      have hln : lim.neg = false := neg_of_pos (c := c) (by linarith)
      unfold DW.gt DW.cmp
      simp [hPm.nz, hlz, hPn, hln, hPe]
      omega
    rw [if_neg hgt]
    dsimp only
    rw [hPm.sub_one hPp hPe hPn]
    refine log_finish h hD hX hX1 (zero_WF c) ?_ ?_ ?_ ?_ ?_ ?_ (by omega)
    · show -(c.maxExp : ℤ) < 0; omega
    · show (0 : ℤ) < c.maxExp; omega
    · rw [zero_val]; norm_num
    · rw [hXn]; norm_num
    · rw [hXn]; norm_num
    · rw [hXn, zero_val]; norm_num; positivity

end WD
