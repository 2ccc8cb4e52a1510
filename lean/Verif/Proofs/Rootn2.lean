import Verif.Proofs.Rootn
/-
  The loop of `calculate_rootn_inv`: quadratic convergence down to the working precision.
-/
namespace WD
open DW

/-- The working precision of a round. -/
theorem round_prec3 {c : Cfg} (D : ℕ) (hD : 14 ≤ D) : ∃ q : ℕ, 3 ≤ q ∧ q ≤ c.N ∧
    (∀ x : DW, precision c x ((D : ℤ) * 2 + min ((c.ed : ℤ) + 1) 9) = { x with prec := q }) ∧
    (q < c.N → eta c q ≤ (10 : ℚ) ^ (-(2 * (D : ℤ) + 2)) ∧ (Even D → c.ed ≠ 2 → eta c q ≤ (10 : ℚ) ^ (-(2 * (D : ℤ) + 4)))) := by
  have h3 := c.three_le_N
  have hed := c.ed_pos
  have hedc : c.ed = 2 ∨ c.ed = 4 ∨ c.ed = 8 := by unfold Cfg.ed; cases c.L <;> decide
  set np : ℤ := (D : ℤ) * 2 + min ((c.ed : ℤ) + 1) 9 with hnp
  have hnp0 : 0 ≤ np := by omega
  set need : ℤ := np.tdiv c.ed + (if np.tmod c.ed ≠ 0 then 1 else 0) with hneed
  have hneed2 : np ≤ c.ed * need := by
    have h1 := Int.mul_tdiv_add_tmod np c.ed
    have h2 : np.tmod c.ed < c.ed := Int.tmod_lt_of_pos _ (by exact_mod_cast hed)
    have h4 : 0 ≤ np.tmod c.ed := Int.tmod_nonneg _ hnp0
    rw [hneed]
    split
    · rw [mul_add, mul_one]; linarith
    · next h => rw [add_zero]; push Not at h; linarith
  have h6 : min ((c.ed : ℤ) + 1) 9 = c.ed + 1 := by omega
  rw [h6] at hnp
  have hneed3 : np + 1 ≤ c.ed * need := by
    rcases hedc with h | h | h <;> rw [h] at hneed2 hnp ⊢ <;> push_cast at * <;> omega
  have hn3 : 3 ≤ need := by
    rcases hedc with h | h | h <;> rw [h] at hneed2 hnp <;> push_cast at * <;> omega
  refine ⟨(min (c.N : ℤ) (max need 2)).toNat, by omega, by omega, fun x => rfl, ?_⟩
  set q := (min (c.N : ℤ) (max need 2)).toNat with hq
  intro hqN
  have hqn : need ≤ q := by omega
  have h5 : (c.ed : ℤ) * need ≤ c.ed * q := mul_le_mul_of_nonneg_left hqn (by positivity)
  unfold eta
  refine ⟨?_, fun hev h2 => ?_⟩
  · apply zpow_le_zpow_right₀ (by norm_num)
    rw [mul_sub]
    linarith
  · have hneed4 : np + 3 ≤ c.ed * need := by
      obtain ⟨m, hm⟩ := hev
      rcases hedc with h | h | h
      · exact absurd h h2
      all_goals rw [h] at hneed2 hnp ⊢; push_cast at *; omega
    apply zpow_le_zpow_right₀ (by norm_num)
    rw [mul_sub]
    linarith

/-- The degrees for which the working precision suffices. -/
def RootDeg (c : Cfg) (D0 p : ℕ) : Prop := 3 ≤ p ∧ p < c.B ∧ (p ≤ 3 ∨ p ≤ 300 ∧ c.ed ≠ 2 ∧ Even D0)

theorem rootn_close {E m δ δ' e : ℚ} (hE0 : 0 < E) (hE : E ≤ 1 / 10 ^ 12) (hm0 : 0 < m) (hm : m ≤ 1 / 10 ^ 14) (hδ : |δ| ≤ 17 / 25 * E + 11 * m)
    (he : e ≤ 3 / 100 * E ^ 2 ∨ e = m) (h : |δ'| ≤ 74 / 100 * δ ^ 2 + 1002 / 100 * e) : |δ'| ≤ 17 / 25 * E ^ 2 + 11 * m := by
  have h1 : δ ^ 2 ≤ (17 / 25 * E + 11 * m) ^ 2 := by
    rw [← sq_abs]; exact pow_le_pow_left₀ (abs_nonneg _) hδ 2
  have h2 : (17 / 25 * E + 11 * m) ^ 2 = 289 / 625 * E ^ 2 + 374 / 25 * (E * m) + 121 * (m * m) := by ring
  have h3 : E * m ≤ 1 / 10 ^ 12 * m := mul_le_mul_of_nonneg_right hE hm0.le
  have h4 : m * m ≤ 1 / 10 ^ 14 * m := mul_le_mul_of_nonneg_right hm hm0.le
  have h5 : 0 ≤ E ^ 2 := sq_nonneg _
  refine h.trans ?_
  rcases he with he | he <;> linarith

theorem rootnLoop_spec {c : Cfg} {est : DW → DW} {fdig : ℕ} (hok : MulOkAll c) (limit : ℕ) {A D0 p : ℕ} (hA : 12 ≤ A) (hAD : A ≤ D0) (hD0 : 14 ≤ D0)
    (hp : RootDeg c D0 p) (hm : p * eta c c.N ≤ 1 / 10 ^ 14) :
    ∀ (n k : ℕ) (x r : DW), limit ≤ D0 * 2 ^ k + n → Posi c x → Posi c r →
    x.exp + (c.N + 6) * c.ed < c.maxExp → -x.exp + (c.N + 6) * c.ed < c.maxExp →
    |x.val c * r.val c ^ p - 1| ≤ 17 / 25 * (1 / 10 ^ (A * 2 ^ k)) + 11 * (p * eta c c.N) →
    Posi c (rootnLoop c est fdig p limit (D0 * 2 ^ k) r x) ∧ ∃ k' : ℕ, limit ≤ D0 * 2 ^ k' ∧
      |x.val c * (rootnLoop c est fdig p limit (D0 * 2 ^ k) r x).val c ^ p - 1| ≤ 17 / 25 * (1 / 10 ^ (A * 2 ^ k')) + 11 * (p * eta c c.N) := by
  intro n
  have hstop : ∀ (k : ℕ) (x r : DW), limit ≤ D0 * 2 ^ k → Posi c r →
      |x.val c * r.val c ^ p - 1| ≤ 17 / 25 * (1 / 10 ^ (A * 2 ^ k)) + 11 * (p * eta c c.N) →
      Posi c (rootnLoop c est fdig p limit (D0 * 2 ^ k) r x) ∧ ∃ k' : ℕ, limit ≤ D0 * 2 ^ k' ∧
      |x.val c * (rootnLoop c est fdig p limit (D0 * 2 ^ k) r x).val c ^ p - 1| ≤ 17 / 25 * (1 / 10 ^ (A * 2 ^ k')) + 11 * (p * eta c c.N) := by
    intro k x r hl hr h
    have e : rootnLoop c est fdig p limit (D0 * 2 ^ k) r x = r := by rw [rootnLoop]; rw [dif_neg (by omega)]
    rw [e]
    exact ⟨hr, k, hl, h⟩
  obtain ⟨hp3, hpB, hdeg⟩ := hp
  induction n with
  | zero => intro k x r hl hx hr _ _ h; exact hstop k x r (by omega) hr h
  | succ n ih =>
    intro k x r hl hx hr r1 r2 h
    by_cases hc : D0 * 2 ^ k < limit
    swap
    · exact hstop k x r (by omega) hr h
    have hDpos : D0 ≤ D0 * 2 ^ k := Nat.le_mul_of_pos_right _ (by positivity)
    have e : rootnLoop c est fdig p limit (D0 * 2 ^ k) r x = rootnLoop c est fdig p limit (D0 * 2 ^ (k + 1))
        (rootnStep c est fdig p (D0 * 2 ^ k) r x).1 (rootnStep c est fdig p (D0 * 2 ^ k) r x).2 := by
      rw [rootnLoop]; rw [dif_pos ⟨hc, by omega⟩, pow_succ, mul_assoc]
    obtain ⟨q, q3, qN, hq, hqη⟩ := round_prec3 (c := c) (D0 * 2 ^ k) (by omega)
    obtain ⟨E, hE⟩ : ∃ E : ℚ, E = 1 / 10 ^ (A * 2 ^ k) := ⟨_, rfl⟩
    have hE0 : 0 < E := by rw [hE]; positivity
    have hE1 : E ≤ 1 / 10 ^ 12 := by
      rw [hE]
      apply one_div_le_one_div_of_le (by positivity)
      apply pow_le_pow_right₀ (by norm_num)
      have : A ≤ A * 2 ^ k := Nat.le_mul_of_pos_right _ (by positivity)
      omega
    have hE2 : 1 / (10 : ℚ) ^ (A * 2 ^ (k + 1)) = E ^ 2 := by
      rw [hE, div_pow, one_pow, ← pow_mul]; congr 2; ring
    have hDE : (10 : ℚ) ^ (-(2 * ((D0 * 2 ^ k : ℕ) : ℤ))) ≤ E ^ 2 := by
      rw [← hE2, one_div, ← zpow_natCast, ← zpow_neg]
      apply zpow_le_zpow_right₀ (by norm_num)
      have : A * 2 ^ (k + 1) ≤ 2 * (D0 * 2 ^ k) := by
        rw [pow_succ, ← mul_assoc]
        have := Nat.mul_le_mul_right (2 ^ k) hAD
        omega
      omega
    rw [← hE] at h
    have hn0 := eta_pos c c.N
    have hpp : (3 : ℚ) ≤ p := by exact_mod_cast hp3
    have hm0 : 0 < p * eta c c.N := by positivity
    have he : p * eta c q ≤ 3 / 100 * E ^ 2 ∨ p * eta c q = p * eta c c.N := by
      rcases Nat.lt_or_ge q c.N with hlt | hge
      · left
        obtain ⟨z1, z2⟩ := hqη hlt
        have hη := eta_pos c q
        rcases hdeg with hd | ⟨hd, hd2, hev⟩
        · have : (p : ℚ) ≤ 3 := by exact_mod_cast hd
          have h1 := mul_le_mul_of_nonneg_right this hη.le
          have e2 : (10 : ℚ) ^ (-(2 * ((D0 * 2 ^ k : ℕ) : ℤ) + 2)) = 10 ^ (-(2 * ((D0 * 2 ^ k : ℕ) : ℤ))) * (1 / 100) := by
            rw [neg_add, zpow_add₀ (by norm_num)]; norm_num
          rw [e2] at z1
          linarith
        · have : (p : ℚ) ≤ 300 := by exact_mod_cast hd
          have h1 := mul_le_mul_of_nonneg_right this hη.le
          have z3 := z2 (hev.mul_right _) hd2
          have e2 : (10 : ℚ) ^ (-(2 * ((D0 * 2 ^ k : ℕ) : ℤ) + 4)) = 10 ^ (-(2 * ((D0 * 2 ^ k : ℕ) : ℤ))) * (1 / 10000) := by
            rw [neg_add, zpow_add₀ (by norm_num)]; norm_num
          rw [e2] at z3
          linarith
      · right; rw [show q = c.N by omega]
    have hpη : p * eta c q ≤ 1 / 10 ^ 14 := by
      rcases he with h1 | h1
      · have : E ^ 2 ≤ 1 / 10 ^ 12 * E := by rw [pow_two]; exact mul_le_mul_of_nonneg_right hE1 hE0.le
        linarith
      · linarith
    obtain ⟨δ, hδ⟩ : ∃ δ, δ = 1 - x.val c * r.val c ^ p := ⟨_, rfl⟩
    have hδa : |δ| ≤ 17 / 25 * E + 11 * (p * eta c c.N) := by rw [hδ, abs_sub_comm]; exact h
    obtain ⟨s1, s2, s3⟩ := rootnStep_spec (est := est) (fdig := fdig) hok hx hr hp3 hpB (δ := δ) (by rw [hδ]; ring) (by linarith) r1 r2 (D0 * 2 ^ k) q3 qN hq hpη
    have hnew := rootn_close hE0 hE1 hm0 hm hδa he s3
    rw [e]
    have hx' : Posi c (rootnStep c est fdig p (D0 * 2 ^ k) r x).2 := by rw [s2]; exact hx.setPrec (by omega) qN
    have hxe : (rootnStep c est fdig p (D0 * 2 ^ k) r x).2.exp = x.exp := by rw [s2]
    have hxv : (rootnStep c est fdig p (D0 * 2 ^ k) r x).2.val c = x.val c := by rw [s2]; rfl
    have := ih (k + 1) (rootnStep c est fdig p (D0 * 2 ^ k) r x).2 (rootnStep c est fdig p (D0 * 2 ^ k) r x).1 (by
        rw [pow_succ, ← mul_assoc]; omega) hx' s1
      (by rw [hxe]; exact r1) (by rw [hxe]; exact r2) (by rw [hxv, hE2]; exact hnew)
    rw [hxv] at this
    exact this

end WD
