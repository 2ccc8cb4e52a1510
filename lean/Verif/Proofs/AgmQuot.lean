import Verif.Proofs.LnTwo
/-
  The quotient π/s at the end of `calc_ln_two` and `log`, computed as π times the reciprocal of s in either order.
-/
namespace WD
open DW Real

theorem small_exp {c : Cfg} {s : DW} (f2 : Full c s) (hs1 : (1 : ℚ) / 15000 ≤ s.val c) (hs2 : s.val c < 10) :
    -(5 : ℤ) - c.ed < s.exp ∧ s.exp ≤ 0 := by
  have hs0 : 0 < s.val c := by linarith
  have hed := two_le_ed c
  have hz := isZero_false_of_val f2.toWF hs0.ne'
  have a := f2.toWF.abs_ge hz
  have b := f2.toWF.abs_lt
  rw [abs_of_pos hs0] at a b
  constructor
  · by_contra hc
    have : (10 : ℚ) ^ (s.exp + c.ed) ≤ 10 ^ (-5 : ℤ) := zpow_le_zpow_right₀ (by norm_num) (by omega)
    norm_num at this; linarith
  · by_contra hc
    have : (10 : ℚ) ^ (1 : ℤ) ≤ 10 ^ s.exp := zpow_le_zpow_right₀ (by norm_num) (by omega)
    norm_num at this; linarith

/-- The product of the computed reciprocal of v and u. -/
theorem inv_mul_any {c : Cfg} {F : Flt} (hF : FloatOk c F) (hK : digitLoops c F ≤ c.N) {u v : DW} (hu : Full c u)
    (hv : Full c v) (hu3 : 3 ≤ u.val c) (hu4 : u.val c < 4) (hv1 : (1 : ℚ) / 15000 ≤ v.val c) (hv2 : v.val c < 10) (hok : MulOkAll c)
    (hN : c.N < 1793) (hm : 20 + 6 * (c.ed : ℤ) < c.maxExp) :
    let r := mulAssign c (calcInv c (estInv c F) F.digits10 v) u
    Full c r ∧ |r.val c - u.val c / v.val c| ≤ |u.val c / v.val c| * (6 / 10 ^ (c.digits10 + 2 * c.ed)) := by
  intro r
  have hed := two_le_ed c
  have hu0 : u.val c ≠ 0 := by linarith
  have hv0 : v.val c ≠ 0 := by linarith
  have huz := isZero_false_of_val hu.toWF hu0
  have hvz := isZero_false_of_val hv.toWF hv0
  obtain ⟨xv1, xv2⟩ := small_exp hv hv1 hv2
  obtain ⟨xu1, xu2⟩ := small_exp hu (by linarith) (by linarith)
  obtain ⟨p1, p2, p3, -⟩ := mul_inv_any c F hF hK u v hu hv hu0 hv0 hok (by omega) (by omega) (by omega) (by omega) (by omega)
  have hn1 := (nearOne_lt c).1
  have hone : isOneSN c u = false := by
    rcases Bool.dichotomy (isOneSN c u) with h1 | h1
    · exact h1
    · exfalso
      rcases isOneSN_spec hu.toWF h1 with ⟨h, -⟩ | ⟨h, -⟩ <;> rw [abs_of_pos (by linarith)] at h <;> linarith
  obtain ⟨q1, q2, q3, q4⟩ := calcInv_any hF hK hv hvz hok hN (by omega) (by omega) (by omega)
  have hrw : r = mulAssign c (calcInv c (estInv c F) F.digits10 v) u := rfl
  generalize calcInv c (estInv c F) F.digits10 v = w at *
  have hη := eta_N_digits c
  have hη0 := eta_pos c c.N
  obtain ⟨ε, hε⟩ : ∃ ε : ℚ, ε = 1 / 10 ^ (c.digits10 + 2 * c.ed) := ⟨_, rfl⟩
  have hε0 : 0 < ε := by rw [hε]; positivity
  have hε1 : ε ≤ 1 / 10000 := by
    rw [hε, div_le_div_iff_of_pos_left (by norm_num) (by positivity) (by norm_num)]
    calc (10000 : ℚ) = 10 ^ 4 := by norm_num
      _ ≤ _ := pow_le_pow_right₀ (by norm_num) (by omega)
  have e6 : (6 : ℚ) / 10 ^ (c.digits10 + 2 * c.ed) = 6 * ε := by rw [hε]; ring
  rw [← hε] at hη
  have hθ : |w.val c * v.val c - 1| ≤ 44 / 10 * ε := by
    rw [signed_product q3]; linarith
  have hw0 : w.val c ≠ 0 := by
    intro h; rw [h, zero_mul] at hθ; norm_num at hθ; linarith
  obtain ⟨k1, k2⟩ := abs_le.mp hθ
  have hwpos : 0 < w.val c := by
    by_contra hc
    have : w.val c * v.val c ≤ 0 := mul_nonpos_of_nonpos_of_nonneg (not_lt.mp hc) (by linarith)
    linarith
  have hw1 : w.val c < 10 ^ 5 := by
    by_contra hc
    have : (10 : ℚ) ^ 5 * (1 / 15000) ≤ w.val c * v.val c := mul_le_mul (not_lt.mp hc) hv1 (by norm_num) hwpos.le
    norm_num at this; linarith
  have hw2 : 1 / 10 ^ 2 < w.val c := by
    by_contra hc
    have : w.val c * v.val c ≤ 1 / 10 ^ 2 * 10 := mul_le_mul (not_lt.mp hc) hv2.le (by linarith) (by norm_num)
    norm_num at this; linarith
  rcases q1 with hq | ⟨hq, hqp⟩
  · have hokN := hok.ok (p := c.N) (by have := c.three_le_N; omega) (le_refl _)
    have e1 := hq.toWF.abs_ge q2
    have e2 := hq.toWF.abs_lt
    rw [abs_of_pos hwpos] at e1 e2
    have we1 : w.exp ≤ 5 := by
      by_contra hc
      have : (10 : ℚ) ^ (5 : ℤ) ≤ 10 ^ w.exp := zpow_le_zpow_right₀ (by norm_num) (by omega)
      rw [show (10 : ℚ) ^ (5 : ℤ) = 10 ^ 5 by norm_num] at this; linarith
    have we2 : -2 - (c.ed : ℤ) ≤ w.exp := by
      by_contra hc
      have : (10 : ℚ) ^ (w.exp + c.ed) ≤ 10 ^ (-2 : ℤ) := zpow_le_zpow_right₀ (by norm_num) (by omega)
      rw [show (10 : ℚ) ^ (-2 : ℤ) = 1 / 10 ^ 2 by norm_num] at this; linarith
    obtain ⟨-, -, m3, m4⟩ := mul_error c w u hq hu hw0 hu0 hokN (by omega) (by omega)
    have m5 := mul_relative_error c w u hq hu hw0 hu0 hokN (by omega) (by omega)
    rw [← hrw] at m3 m4 m5
    refine ⟨m3, ?_⟩
    rw [e6]
    refine (quot_close hu0 hv0 hε0 hε1 hθ ?_).1.le
    rw [hε, mul_one_div, mul_comm (u.val c)]; exact m5
  · have hwv : |w.val c| = 10 ^ (w.exp + (c.ed : ℤ)) := nearMal_abs (by rw [hq.data, ← c.B_eq]; rfl)
    rw [abs_of_pos hwpos] at hwv
    rw [hwv] at hw1 hw2
    have we1 : w.exp + c.ed < 5 := by
      by_contra hc
      have : (10 : ℚ) ^ (5 : ℤ) ≤ 10 ^ (w.exp + (c.ed : ℤ)) := zpow_le_zpow_right₀ (by norm_num) (by omega)
      rw [show (10 : ℚ) ^ (5 : ℤ) = 10 ^ 5 by norm_num] at this; linarith
    have we2 : -2 < w.exp + (c.ed : ℤ) := by
      by_contra hc
      have : (10 : ℚ) ^ (w.exp + (c.ed : ℤ)) ≤ 10 ^ (-2 : ℤ) := zpow_le_zpow_right₀ (by norm_num) (by omega)
      rw [show (10 : ℚ) ^ (-2 : ℤ) = 1 / 10 ^ 2 by norm_num] at this; linarith
    have hl := hq.mul_left hu.toWF huz hone (by omega) (by omega) hN
    have hr := hq.mul_right hu.toWF huz hone (by omega) (by omega) hN
    have hEq : r = mulAssign c u w := by
      rw [hrw, hl, hr]
      have hup := hu.full
      rw [hqp, hup, Nat.min_self, Nat.sub_self, List.replicate_zero, List.append_nil, List.take_of_length_le (by rw [hu.len])]
      cases u with
      | mk d e n p =>
        simp only at hup ⊢
        congr 1 <;> first | omega | exact hup.symm | (cases n <;> cases w.neg <;> rfl)
    rw [hEq]
    exact ⟨p3 (by rw [abs_of_pos (by linarith)]; linarith) (by rw [abs_of_pos (by linarith)]; linarith), p2.le⟩

/-- Both orders: E is the integral, e = 10^-digits10. -/
theorem agm_quot_dw {c : Cfg} {F : Flt} (h : ElemOk c F) (hN : c.N < 1793) {pi s x : DW} (hpi : Full c pi) (hs : Full c s)
    {κ E ρ : ℝ} (hκ : κ ≤ 1 / 1000) (hpe : |(pi.val c : ℝ) - π| ≤ κ) (hE : 0 < E) (hρ : ρ ≤ 1 / 1000)
    (f3 : (1 : ℝ) / 15000 ≤ s.val c) (f4 : (s.val c : ℝ) < 10) (f5 : |E * s.val c - π| ≤ π * ρ)
    (hx : x = mulAssign c pi (calcInv c (estInv c F) F.digits10 s) ∨ x = mulAssign c (calcInv c (estInv c F) F.digits10 s) pi) :
    Full c x ∧ |(x.val c : ℝ) - E| ≤ E * (34 / 100 * κ + 102 / 100 * ρ + 7 * (mulEps c : ℝ)) := by
  have hed := two_le_ed c
  have hR := h.hR
  have hlo := h.lo
  have hdl := c.digits_le
  have h3 := c.three_le_N
  have hpl : c.ed * (c.N + 5) = c.ed * c.N + 5 * c.ed := by ring
  have hsub : c.ed * (c.N - 1) = c.ed * c.N - c.ed := by rw [Nat.mul_sub, mul_one]
  have hκ0 : 0 ≤ κ := le_trans (abs_nonneg _) hpe
  have hρ0 : 0 ≤ ρ := by
    have hπ := Real.pi_pos
    have := le_trans (abs_nonneg _) f5
    by_contra hc
    have := mul_neg_of_pos_of_neg hπ (not_le.mp hc)
    linarith
  have hs1 : (1 : ℚ) / 15000 ≤ s.val c := by
    have : (((1 : ℚ) / 15000 : ℚ) : ℝ) ≤ s.val c := by push_cast; exact f3
    exact_mod_cast this
  have hs2 : s.val c < 10 := by exact_mod_cast f4
  have hs0 : s.val c ≠ 0 := by linarith
  have hp3 : (3 : ℚ) ≤ pi.val c ∧ pi.val c < 4 := by
    have := Real.pi_gt_d2
    have := Real.pi_lt_d2
    have a : (3 : ℝ) ≤ pi.val c := by linarith [(abs_le.mp hpe).1]
    have b : (pi.val c : ℝ) < 4 := by linarith [(abs_le.mp hpe).2]
    exact ⟨by exact_mod_cast a, by exact_mod_cast b⟩
  obtain ⟨xv1, xv2⟩ := small_exp hs hs1 hs2
  obtain ⟨xu1, xu2⟩ := small_exp hpi (by linarith [hp3.1]) (by linarith [hp3.2])
  have key : Full c x ∧ |x.val c - pi.val c / s.val c| ≤ |pi.val c / s.val c| * (6 / 10 ^ (c.digits10 + 2 * c.ed)) := by
    rcases hx with hx | hx
    · obtain ⟨-, p2, p3, -⟩ := mul_inv_any c F h.hF h.hK pi s hpi hs (by linarith [hp3.1]) hs0 h.hok (by omega) (by omega) (by omega) (by omega) (by omega)
      rw [hx]
      have hn1 := (nearOne_lt c).1
      exact ⟨p3 (by rw [abs_of_pos (by linarith [hp3.1])]; linarith [hp3.1]) (by rw [abs_of_pos (by linarith [hp3.1])]; linarith [hp3.1]), p2.le⟩
    · rw [hx]
      exact inv_mul_any h.hF h.hK hpi hs hp3.1 hp3.2 hs1 hs2 h.hok hN (by omega)
  refine ⟨key.1, agm_quot (s := s.val c) (p := pi.val c) hE (by linarith) hρ0 hρ (by exact_mod_cast (mulEps_pos c).le) ?_ hκ0 hκ f5 hpe ?_⟩
  · have a : (mulEps c) ≤ 1 / 10 ^ 3 := by
      unfold mulEps
      exact one_div_le_one_div_of_le (by positivity) (pow_le_pow_right₀ (by norm_num) (by omega))
    have := (Rat.cast_le (K := ℝ)).mpr a
    push_cast at this
    linarith
  · have := (Rat.cast_le (K := ℝ)).mpr key.2
    unfold mulEps
    push_cast at this ⊢
    rw [show (6 : ℝ) * (1 / 10 ^ (c.digits10 + 2 * c.ed)) = 6 / 10 ^ (c.digits10 + 2 * c.ed) by ring]
    exact this

end WD
