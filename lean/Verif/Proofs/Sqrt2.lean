import Verif.Proofs.Sqrt
/-
  The loop of `calculate_sqrt`: quadratic convergence down to the working precision.
-/
namespace WD
open DW

theorem sqrtLoop_spec {c : Cfg} (hok : MulOkAll c) (limit : ℕ) {t : ℚ} (D0 : ℕ) (hD0 : 5 ≤ D0)
    (ht : t = 6 * (10 : ℚ) ^ (-(D0 : ℤ)) + 320 * eta c c.N) (hn : eta c c.N ≤ 1 / 10 ^ 6) :
    ∀ (n D : ℕ) (x s v : DW), limit ≤ D + n → D0 ≤ D → Posi c x → Posi c s → Posi c v →
    x.exp + (c.N + 6) * c.ed < c.maxExp → -x.exp + (c.N + 6) * c.ed < c.maxExp →
    (2 * (D0 : ℤ) + c.ed + 1 ≤ c.ed * ((c.N : ℤ) - 1) → OffSq c t (x.val c)) →
    (∃ a, s.val c * s.val c = x.val c * (1 + a) ∧ |a| ≤ 43 / 100 * (10 : ℚ) ^ (-(D : ℤ)) + 14 * eta c c.N) →
    (∃ g, 2 * (s.val c * v.val c) = 1 + g ∧ g ^ 2 ≤ 7 / 25 * (10 : ℚ) ^ (-(D : ℤ)) + eta c c.N ∧
      |g| ≤ 11 / 20 * (10 : ℚ) ^ (-(D0 : ℤ)) + 32 * eta c c.N) →
    Posi c (sqrtLoop c limit D s v x) ∧
    ∃ a, (sqrtLoop c limit D s v x).val c * (sqrtLoop c limit D s v x).val c = x.val c * (1 + a) ∧
      |a| ≤ 43 / 100 * (10 : ℚ) ^ (-(limit : ℤ)) + 14 * eta c c.N := by
  intro n
  have hstop : ∀ (D : ℕ) (x s v : DW), limit ≤ D → Posi c s →
      (∃ a, s.val c * s.val c = x.val c * (1 + a) ∧ |a| ≤ 43 / 100 * (10 : ℚ) ^ (-(D : ℤ)) + 14 * eta c c.N) →
      Posi c (sqrtLoop c limit D s v x) ∧
      ∃ a, (sqrtLoop c limit D s v x).val c * (sqrtLoop c limit D s v x).val c = x.val c * (1 + a) ∧
        |a| ≤ 43 / 100 * (10 : ℚ) ^ (-(limit : ℤ)) + 14 * eta c c.N := by
    intro D x s v hl hs ha
    have e : sqrtLoop c limit D s v x = s := by rw [sqrtLoop]; rw [dif_neg (by omega)]
    rw [e]
    obtain ⟨a, a1, a2⟩ := ha
    refine ⟨hs, a, a1, le_trans a2 ?_⟩
    have : (10 : ℚ) ^ (-(D : ℤ)) ≤ 10 ^ (-(limit : ℤ)) := zpow_le_zpow_right₀ (by norm_num) (by omega)
    linarith
  induction n with
  | zero =>
    intro D x s v hl hD hx hs hv _ _ _ ha _
    exact hstop D x s v (by omega) hs ha
  | succ n ih =>
    intro D x s v hl hD hx hs hv r1 r2 hoff ha hg
    by_cases hc : D < limit
    swap
    · exact hstop D x s v (by omega) hs ha
    have e : sqrtLoop c limit D s v x = sqrtLoop c limit (D * 2) (sqrtStep c D s v x).1 (sqrtStep c D s v x).2.1
        (sqrtStep c D s v x).2.2 := by
      rw [sqrtLoop]; rw [dif_pos ⟨hc, by omega⟩]
    obtain ⟨a, a1, a2⟩ := ha
    obtain ⟨g, g1, g2, g3⟩ := hg
    have hn0 := eta_pos c c.N
    obtain ⟨E, hEd⟩ : ∃ E, E = (10 : ℚ) ^ (-(D : ℤ)) := ⟨_, rfl⟩
    obtain ⟨E0, hE0d⟩ : ∃ E, E = (10 : ℚ) ^ (-(D0 : ℤ)) := ⟨_, rfl⟩
    have hE0 : 0 < E := by rw [hEd]; exact p10_pos _
    have hEE : E ≤ E0 := by rw [hEd, hE0d]; exact zpow_le_zpow_right₀ (by norm_num) (by omega)
    have hE5 : E0 ≤ 1 / 10 ^ 5 := by
      rw [hE0d]
      calc (10 : ℚ) ^ (-(D0 : ℤ)) ≤ 10 ^ (-5 : ℤ) := zpow_le_zpow_right₀ (by norm_num) (by omega)
        _ = _ := by norm_num
    have hE2 : E ^ 2 ≤ 1 / 10 ^ 5 * E := by rw [pow_two]; exact mul_le_mul_of_nonneg_right (by linarith) hE0.le
    have hηE : (10 : ℚ) ^ (-(2 * (D : ℤ) + 2)) = E ^ 2 / 100 := by
      rw [hEd, show -(2 * (D : ℤ) + 2) = -(D : ℤ) + -(D : ℤ) + (-2) by ring, zpow_add₀ (by norm_num), zpow_add₀ (by norm_num)]
      norm_num; ring
    have hE2' : (10 : ℚ) ^ (-((D * 2 : ℕ) : ℤ)) = E ^ 2 := by
      rw [hEd, show -((D * 2 : ℕ) : ℤ) = -(D : ℤ) + -(D : ℤ) by push_cast; ring, zpow_add₀ (by norm_num)]
      ring
    rw [← hEd] at a2 g2
    rw [← hE0d] at g3 ht
    obtain ⟨q, q2, qN, hq, hqη⟩ := round_prec2 (c := c) D
    rw [hηE] at hqη
    have hη0 := eta_pos c q
    have hη : eta c q ≤ E ^ 2 / 100 + eta c c.N := by
      rcases Nat.lt_or_ge q c.N with h | h
      · have := (hqη h).1; linarith
      · rw [show q = c.N by omega]; have := sq_nonneg E; linarith
    obtain ⟨s1, s2, s3, g1', a1', g', z1, z2, z3, z4, z5⟩ := sqrtStep_spec hok hx hs hv (t := t) a1 (by linarith) g1 (by linarith) r1 r2 D
      q2 qN hq (by linarith) (by
        intro h
        obtain ⟨h1, h2⟩ := hqη h
        have : (D0 : ℤ) ≤ D := by exact_mod_cast hD
        refine ⟨hoff (by linarith), by rw [ht]; linarith, by rw [ht]; linarith, by rw [ht]; linarith, by rw [ht]; linarith, by rw [ht]; linarith⟩)
    obtain ⟨k1, k2, k3⟩ := sqrt_close hE0 (by linarith) hn0 hn hη0 hη a2 g2 z1 z3 z5
    rw [e]
    have hx' : Posi c (sqrtStep c D s v x).2.2 := by rw [s3]; exact hx.setPrec q2 qN
    have hxe : (sqrtStep c D s v x).2.2.exp = x.exp := by rw [s3]
    have hxv : (sqrtStep c D s v x).2.2.val c = x.val c := by rw [s3]; rfl
    have := ih (D * 2) (sqrtStep c D s v x).2.2 (sqrtStep c D s v x).1 (sqrtStep c D s v x).2.1 (by omega) (by omega) hx' s1 s2
      (by rw [hxe]; exact r1) (by rw [hxe]; exact r2) (by rw [hxv]; exact hoff) (by
        rw [hxv, hE2']; exact ⟨a1', z2, k1⟩) (by
        rw [hE2']; exact ⟨g', z4, k2, by rw [← hE0d]; linarith⟩)
    rw [hxv] at this
    exact this

end WD
