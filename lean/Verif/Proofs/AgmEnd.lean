import Verif.Proofs.AgmRun
/-
  The end of the AGM loop: E·s is π up to rounding, E being the integral at the start and s the sum at the end.
-/
namespace WD
open DW Real

/-- At the end a and b are close enough that E·(a+b) is π up to the square of their difference. -/
theorem ell_end {a b g H : ℝ} (ha : 0 < a) (hb : 0 < b) (hH : 1 ≤ H) (hE : ell a b ≤ H) (hg : |a - b| ≤ g) (hg2 : g ≤ 1 / (2 * H)) :
    π ≤ ell a b * (a + b) ∧ ell a b * (a + b) ≤ π * (1 + g ^ 2 * H ^ 2 / 4) ∧ 2 / H ≤ a + b := by
  have hA : 0 < (a + b) / 2 := by linarith
  have hG0 : 0 < √(a * b) := Real.sqrt_pos.mpr (mul_pos ha hb)
  have hGG : √(a * b) ^ 2 = a * b := Real.sq_sqrt (mul_pos ha hb).le
  have hGA : √(a * b) ≤ (a + b) / 2 := by
    rw [Real.sqrt_le_left hA.le]; nlinarith [sq_nonneg (a - b)]
  obtain ⟨e1, e2⟩ := ell_bounds hG0 hGA
  rw [ell_agm ha hb] at e1 e2
  have hπ := Real.pi_gt_three
  have hE0 : 0 < ell a b := lt_of_lt_of_le (by positivity) e1
  set E := ell a b with hEd
  rw [div_le_iff₀ (by positivity)] at e1
  rw [le_div_iff₀ (by positivity)] at e2
  have hlow : π ≤ E * (a + b) := by linarith
  have hH0 : 0 < H := by linarith
  -- both are at least 1/H
  have hg0 : 0 ≤ g := le_trans (abs_nonneg _) hg
  have hsum : 3 / H ≤ a + b := by
    rw [div_le_iff₀ hH0]
    have : E * (a + b) ≤ H * (a + b) := mul_le_mul_of_nonneg_right hE (by linarith)
    linarith
  have hh : 1 / (2 * H) = (1 / H) / 2 := by field_simp
  have h3 : 3 / H = 3 * (1 / H) := by ring
  have hi : 0 < 1 / H := by positivity
  obtain ⟨d1, d2⟩ := abs_le.mp hg
  rw [hh] at hg2
  rw [h3] at hsum
  have ha1 : 1 / H ≤ a := by linarith
  have hb1 : 1 / H ≤ b := by linarith
  have hab : (1 / H) * (1 / H) ≤ a * b := mul_le_mul ha1 hb1 hi.le ha.le
  refine ⟨hlow, ?_, by rw [show 2 / H = 2 * (1 / H) by ring]; linarith⟩
  -- 2 G E ≤ π, (a+b)/(2G) ≤ ((a+b)/(2G))² = 1 + (a-b)²/(4ab)
  have hx : (a + b) * (a + b) ≤ (4 * (a * b)) * (1 + g ^ 2 * H ^ 2 / 4) := by
    have h1 : (a - b) ^ 2 ≤ g ^ 2 := by
      rw [← sq_abs]; exact pow_le_pow_left₀ (abs_nonneg _) hg 2
    have h2 : g ^ 2 = (1 / H * (1 / H)) * (g ^ 2 * H ^ 2) := by field_simp
    have h4 : (1 / H * (1 / H)) * (g ^ 2 * H ^ 2) ≤ a * b * (g ^ 2 * H ^ 2) := mul_le_mul_of_nonneg_right hab (by positivity)
    nlinarith
  have hy : 2 * √(a * b) ≤ a + b := by linarith
  have hz : E * (a + b) * (2 * √(a * b)) ≤ E * (a + b) * (a + b) := mul_le_mul_of_nonneg_left hy (by positivity)
  -- E (a+b)² ≤ E·4G²·(1+τ) = (2GE)·2G·(1+τ) ≤ π·2G·(1+τ)
  have k1 : E * ((a + b) * (a + b)) ≤ E * ((4 * (a * b)) * (1 + g ^ 2 * H ^ 2 / 4)) := mul_le_mul_of_nonneg_left hx hE0.le
  have k2 : E * ((4 * (a * b)) * (1 + g ^ 2 * H ^ 2 / 4)) = (E * (2 * √(a * b))) * (2 * √(a * b) * (1 + g ^ 2 * H ^ 2 / 4)) := by
    have hab' := hGG.symm
    clear_value E
    clear hy hz hx k1 hGA e2 e1
    generalize √(a * b) = q at *
    rw [hab']; ring
  have k3 : (E * (2 * √(a * b))) * (2 * √(a * b) * (1 + g ^ 2 * H ^ 2 / 4)) ≤ π * (2 * √(a * b) * (1 + g ^ 2 * H ^ 2 / 4)) :=
    mul_le_mul_of_nonneg_right e2 (by positivity)
  have k4 : E * (a + b) * (2 * √(a * b)) ≤ π * (1 + g ^ 2 * H ^ 2 / 4) * (2 * √(a * b)) := by
    calc E * (a + b) * (2 * √(a * b)) ≤ E * ((a + b) * (a + b)) := by linarith
      _ ≤ _ := k1
      _ = _ := k2
      _ ≤ _ := k3
      _ = _ := by ring
  exact le_of_mul_le_mul_right k4 (by positivity)

theorem one_add_pow_le {δ : ℝ} {n : ℕ} (h0 : 0 ≤ δ) (h1 : n * δ ≤ 1 / 1000) :
    1 - n * δ ≤ (1 - δ) ^ n ∧ (1 + δ) ^ n ≤ 1 + 101 / 100 * (n * δ) := by
  rcases Nat.eq_zero_or_pos n with hn | hn
  · subst hn; norm_num
  have hn1 : (1 : ℝ) ≤ n := by exact_mod_cast hn
  have hδ : δ ≤ 1 / 1000 := by
    have : 1 * δ ≤ n * δ := mul_le_mul_of_nonneg_right hn1 h0
    linarith
  have b1 := one_add_mul_le_pow (show (-2 : ℝ) ≤ -δ by linarith) n
  have e1 : (1 + -δ) ^ n = (1 - δ) ^ n := by ring
  rw [e1] at b1
  refine ⟨by linarith, ?_⟩
  have hp : (1 + δ) ^ n * (1 - δ) ^ n ≤ 1 := by
    rw [← mul_pow]; exact pow_le_one₀ (by nlinarith) (by nlinarith)
  have hq : 1 - n * δ ≤ (1 - δ) ^ n := by linarith
  have hP : 0 < (1 + δ) ^ n := by positivity
  have h2 : (1 + δ) ^ n * (1 - n * δ) ≤ 1 := le_trans (mul_le_mul_of_nonneg_left hq hP.le) hp
  have hnδ : 0 ≤ n * δ := by positivity
  generalize (1 + δ) ^ n = P at *
  generalize n * δ = x at *
  nlinarith

theorem agmGoal_eq (c : Cfg) : agmGoal c = ((c.digits10 / 2 + 9 : ℕ) : ℤ) := by
  have hed8 := ed_le8 c
  have hed2 := two_le_ed c
  unfold agmGoal; push_cast; omega

/-- The whole loop: E the integral at the start, s the returned sum, n the number of rounds before the last. -/
theorem agm_total {c : Cfg} {estS : DW → DW × DW} {est : DW → DW} {fdig D : ℕ} (h : AgmRng c D) (hf : 6 ≤ fdig) (hS : AgmSqrtOk c estS fdig)
    {a b s : DW} {n : ℕ} (ha : Full c a) (hb : Full c b) (ha1 : 2 * (10 : ℚ) ^ (-(D : ℤ)) ≤ a.val c) (ha2 : a.val c ≤ 3)
    (hb1 : 2 * (10 : ℚ) ^ (-(D : ℤ)) ≤ b.val c) (hb2 : b.val c ≤ 3)
    (hE : ell (a.val c) (b.val c) ≤ 22500) (hE1 : 1 ≤ ell (a.val c) (b.val c))
    (hl : agmLoop c estS est fdig (agmGoal c) 128 a b = (s, some n))
    (hoff : ∀ p ∈ agmProducts c estS est fdig (agmGoal c) 128 a b, OffSquares c (60 / 10 ^ fdig + 320 / 10 ^ (c.digits10 + 2 * c.ed)) (p.val c)) :
    n < 128 ∧ Full c s ∧ (1 : ℝ) / 15000 ≤ s.val c ∧ (s.val c : ℝ) < 10 ∧
    |ell (a.val c) (b.val c) * s.val c - π| ≤ π * ((22 / 10 * n + 2 / 10) * (agmDelta c : ℝ)) := by
  have hδ := agmRel_pos c
  have hδs := agmRel_small h.toAgmOk
  have hq1 := (one_add_pow_le (n := 128) hδ.le (by push_cast; linarith [show (128 : ℝ) * (1 / 10 ^ 40) ≤ 1 / 1000 by norm_num])).1
  have hq2 := (one_add_pow_le (n := 128) hδ.le (by push_cast; linarith [show (128 : ℝ) * (1 / 10 ^ 40) ≤ 1 / 1000 by norm_num])).2
  push_cast at hq1 hq2
  have h50 : (1 : ℝ) / 10 ^ 40 ≤ 1 / 100000 := by norm_num
  obtain ⟨hn, a', b', f1, f2, f3, f4, f5, f6, f7, f8, f9, f10⟩ := agmLoop_ell (est := est) h hf hS 128 a b (2 * (10 : ℝ) ^ (-(D : ℤ))) 3 s n ha hb
    (by have := (Rat.cast_le (K := ℝ)).mpr ha1; push_cast at this; exact this)
    (by have := (Rat.cast_le (K := ℝ)).mpr hb1; push_cast at this; exact this)
    (by have := (Rat.cast_le (K := ℝ)).mpr ha2; push_cast at this; exact this)
    (by have := (Rat.cast_le (K := ℝ)).mpr hb2; push_cast at this; exact this)
    (by
      have hD : (0 : ℝ) < 10 ^ (-(D : ℤ)) := by positivity
      have : (10 : ℝ) ^ (-(D : ℤ)) * 1 ≤ 10 ^ (-(D : ℤ)) * (2 * (1 - agmRel c) ^ 128) := mul_le_mul_of_nonneg_left (by linarith) hD.le
      linarith)
    (by linarith) hl hoff
  clear hq1 hq2 hl hoff
  refine ⟨hn, ?_⟩
  have hn' : (n : ℝ) ≤ 128 := by exact_mod_cast hn.le
  have hn0 : (0 : ℝ) ≤ n := Nat.cast_nonneg n
  have hnδ : n * agmRel c ≤ 1 / 100000 := by
    calc n * agmRel c ≤ 128 * (1 / 10 ^ 40) := mul_le_mul hn' hδs hδ.le (by norm_num)
      _ ≤ _ := by norm_num
  obtain ⟨w1, w2⟩ := one_add_pow_le (n := n) hδ.le (by linarith)
  have hnd0 : 0 ≤ n * agmRel c := by positivity
  -- the integral at the end
  have a0 : (0 : ℝ) < a'.val c := by exact_mod_cast f3
  have b0 : (0 : ℝ) < b'.val c := by exact_mod_cast f4
  set E := ell (a.val c) (b.val c) with hEd
  set E' := ell (a'.val c) (b'.val c) with hEd'
  have hE'0 : 0 ≤ E' := by
    rw [hEd']; unfold ell
    exact MeasureTheory.setIntegral_nonneg measurableSet_Ioi fun t _ => ef_nonneg _ _ _
  have k1 : (1 - n * agmRel c) * E' ≤ E := le_trans (mul_le_mul_of_nonneg_right w1 hE'0) f9
  have k2 : E ≤ (1 + 101 / 100 * (n * agmRel c)) * E' := le_trans f10 (mul_le_mul_of_nonneg_right w2 hE'0)
  have hE'1 : E' ≤ 22600 := by
    have : (1 - 1 / 100000) * E' ≤ (1 - n * agmRel c) * E' := mul_le_mul_of_nonneg_right (by linarith) hE'0
    linarith
  -- the difference
  have hgoal := agmGoal_eq c
  obtain ⟨u1, u2, -⟩ := sub_op f1 f2
  have hdg := agmDigits_gt u1 (by rw [hgoal]; positivity) f8
  rw [abs_of_pos f3, abs_of_pos f4] at u2
  have hμ := mulEps_pos c
  have hd := h.d41
  have hed := two_le_ed c
  obtain ⟨G, hG⟩ : ∃ G : ℝ, G = 1 / 10 ^ (c.digits10 / 2 + 9) := ⟨_, rfl⟩
  have hG0 : 0 < G := by rw [hG]; positivity
  have hG1 : G ≤ 1 / 10 ^ 29 := by
    rw [hG]; exact one_div_le_one_div_of_le (by positivity) (pow_le_pow_right₀ (by norm_num) (by omega))
  have hμG : (mulEps c : ℝ) ≤ G / 1000 := by
    rw [hG]; unfold mulEps; push_cast
    rw [div_div]
    refine one_div_le_one_div_of_le (by positivity) ?_
    calc (10 : ℝ) ^ (c.digits10 / 2 + 9) * 1000 = 10 ^ (c.digits10 / 2 + 9 + 3) := by rw [pow_add _ (c.digits10 / 2 + 9) 3]; norm_num
      _ ≤ _ := pow_le_pow_right₀ (by norm_num) (by omega)
  have hdiff : |(a'.val c : ℝ) - b'.val c| ≤ 11 / 10 * G := by
    have x1 : (((|(subAssign c a' b').val c| : ℚ)) : ℝ) < (((10 : ℚ) ^ (-agmGoal c) : ℚ) : ℝ) := by exact_mod_cast hdg
    have x2 : (((|(subAssign c a' b').val c - (a'.val c - b'.val c)| : ℚ)) : ℝ) ≤ ((mulEps c * (a'.val c + b'.val c) : ℚ) : ℝ) := by exact_mod_cast u2
    push_cast at x1 x2
    rw [hgoal, zpow_neg, zpow_natCast, ← one_div, ← hG] at x1
    have c4 : (a'.val c : ℝ) < 4 := by exact_mod_cast f5
    have c5 : (b'.val c : ℝ) < 4 := by exact_mod_cast f6
    have hμR : (0 : ℝ) < mulEps c := by exact_mod_cast hμ
    have x3 : (mulEps c : ℝ) * (a'.val c + b'.val c) ≤ mulEps c * 8 := mul_le_mul_of_nonneg_left (by linarith) hμR.le
    have x4 := abs_sub_abs_le_abs_sub ((a'.val c : ℝ) - b'.val c) ((subAssign c a' b').val c)
    rw [abs_sub_comm ((a'.val c : ℝ) - b'.val c)] at x4
    linarith
  obtain ⟨z1, z2, z3⟩ := ell_end a0 b0 (H := 22600) (by norm_num) hE'1 hdiff (by linarith [show (11 : ℝ) / 10 * (1 / 10 ^ 29) ≤ 1 / (2 * 22600) by norm_num])
  rw [← hEd'] at z1 z2
  have hΔ0 : (0 : ℝ) < agmDelta c := by exact_mod_cast agmDelta_pos c
  have hGG : G ^ 2 * 10 ^ 9 ≤ agmDelta c := by
    rw [hG]; unfold agmDelta; push_cast
    rw [div_pow, one_pow, ← pow_mul, div_mul_eq_mul_div, one_mul, div_le_div_iff₀ (by positivity) (by positivity), one_mul, ← pow_add]
    exact pow_le_pow_right₀ (by norm_num) (by have := ed_le8 c; omega)
  have hτ : (11 / 10 * G) ^ 2 * 22600 ^ 2 / 4 ≤ 16 / 100 * agmDelta c := by nlinarith
  -- the sum
  obtain ⟨s1, s2, -⟩ := add_op f1 f2
  rw [abs_of_pos f3, abs_of_pos f4, ← f7] at s2
  rw [← f7] at s1
  have hμΔ := mulEps_delta c
  have s2' : |(s.val c : ℝ) - (a'.val c + b'.val c)| ≤ mulEps c * (a'.val c + b'.val c) := by
    have := (Rat.cast_le (K := ℝ)).mpr s2; push_cast at this; exact this
  have hμΔR : 100 * (mulEps c : ℝ) ≤ agmDelta c := by exact_mod_cast hμΔ
  have hμR : (0 : ℝ) < mulEps c := by exact_mod_cast hμ
  have c4 : (a'.val c : ℝ) < 4 := by exact_mod_cast f5
  have c5 : (b'.val c : ℝ) < 4 := by exact_mod_cast f6
  have hπ := Real.pi_gt_three
  have hΔ1 : (agmDelta c : ℝ) ≤ 1 / 10 ^ 40 := by unfold agmRel at hδs; linarith
  have hreldef : n * agmRel c = 21 / 10 * (n * (agmDelta c : ℝ)) := by unfold agmRel; ring
  rw [hreldef] at k1 k2 hnδ hnd0
  have hnΔ : 0 ≤ n * (agmDelta c : ℝ) := by positivity
  rw [show (22 / 10 * (n : ℝ) + 2 / 10) * (agmDelta c : ℝ) = 22 / 10 * (n * (agmDelta c : ℝ)) + 2 / 10 * agmDelta c by ring]
  have hτ2 : π * (1 + (11 / 10 * G) ^ 2 * 22600 ^ 2 / 4) ≤ π * (1 + 16 / 100 * agmDelta c) := mul_le_mul_of_nonneg_left (by linarith) (by linarith)
  have z2' := le_trans z2 hτ2
  clear z2 hτ2 hτ hGG w1 w2 f9 f10 hdiff hreldef
  have hS0 : (0 : ℝ) < a'.val c + b'.val c := by linarith
  have hS8 : (a'.val c : ℝ) + b'.val c < 8 := by linarith
  generalize (a'.val c : ℝ) + b'.val c = S at *
  generalize (s.val c : ℝ) = σ at *
  generalize (agmDelta c : ℝ) = Δ at *
  generalize (mulEps c : ℝ) = μ at *
  generalize (n : ℝ) * Δ = x at *
  obtain ⟨y1, y2⟩ := abs_le.mp s2'
  have hμ2 : μ ≤ 1 / 10 ^ 40 := by linarith
  have m1 : μ * S ≤ Δ / 100 * S := mul_le_mul_of_nonneg_right (by linarith) hS0.le
  have m2 : μ * S ≤ 1 / 100 * S := mul_le_mul_of_nonneg_right (by linarith) hS0.le
  have hσ0 : 0 < σ := by linarith
  refine ⟨s1, by linarith, by linarith, ?_⟩
  -- E'·σ
  have n1 : E' * (μ * S) ≤ E' * (Δ / 100 * S) := mul_le_mul_of_nonneg_left m1 hE'0
  have n2 : E' * σ ≤ E' * (S + μ * S) := mul_le_mul_of_nonneg_left (by linarith) hE'0
  have n3 : E' * (S - μ * S) ≤ E' * σ := mul_le_mul_of_nonneg_left (by linarith) hE'0
  have n4 : Δ / 100 * (E' * S) ≤ Δ / 100 * (π * (1 + 16 / 100 * Δ)) := mul_le_mul_of_nonneg_left z2' (by linarith)
  have n5 : π * Δ * Δ ≤ π * Δ * 1 := mul_le_mul_of_nonneg_left (by linarith) (by positivity)
  have hπΔ : 0 < π * Δ := by positivity
  have p1 : E' * σ ≤ π + 18 / 100 * (π * Δ) := by linarith
  have p2 : π - 2 / 100 * (π * Δ) ≤ E' * σ := by linarith
  -- E·σ
  have q1 : (1 - 21 / 10 * x) * E' * σ ≤ E * σ := mul_le_mul_of_nonneg_right k1 hσ0.le
  have q2 : E * σ ≤ (1 + 101 / 100 * (21 / 10 * x)) * E' * σ := mul_le_mul_of_nonneg_right k2 hσ0.le
  have hπx : 0 ≤ π * x := by positivity
  have r1 : x * (E' * σ) ≤ x * (π + 18 / 100 * (π * Δ)) := mul_le_mul_of_nonneg_left p1 hnΔ
  have r2 : π * x * Δ ≤ π * x * (1 / 1000) := mul_le_mul_of_nonneg_left (by linarith) hπx
  rw [abs_le]
  constructor
  · linarith
  · linarith

end WD
