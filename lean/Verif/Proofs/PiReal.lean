import Verif.Proofs.Agm3
/-
  Rounding errors in the Gauss–Legendre (Schönhage) iteration: pure real analysis. `δ` is the size of the error of one
  division by a small integer; the other operations are much more accurate.
-/
namespace WD
open Real

set_option maxHeartbeats 1000000 in
/-- One round. `a`, `b` approximate the AGM pair `α`, `β` with relative error ρ. -/
theorem pi_step {α β a b ρ δ t a' P B' : ℝ} (hβ : 7 / 10 ≤ β) (hα : β ≤ α) (hs : α + β ≤ 171 / 100) (hp : 7 / 10 ≤ α * β)
    (hρ0 : 0 ≤ ρ) (hρ : ρ ≤ 1 / 1000) (hδ0 : 0 < δ) (hδ : δ ≤ 1 / 100000)
    (ha1 : (1 - ρ) * α ≤ a) (ha2 : a ≤ (1 + ρ) * α) (hb1 : (1 - ρ) * β ≤ b) (hb2 : b ≤ (1 + ρ) * β)
    (ht : |t - (a ^ 2 + b ^ 2) / 4| ≤ 103 / 100 * δ) (h1 : |a' - (a + b) / 2| ≤ 11 / 10 * δ)
    (h2 : |P - a' ^ 2| ≤ 2 / 100 * δ) (h3 : |B' - 2 * (P - t)| ≤ 7 / 100 * δ) :
    ((1 - (ρ + 5 * δ)) * ((α + β) / 2) ≤ a' ∧ a' ≤ (1 + (ρ + 5 * δ)) * ((α + β) / 2)) ∧
    ((1 - (ρ + 5 * δ)) ^ 2 * (α * β) ≤ B' ∧ B' ≤ (1 + (ρ + 5 * δ)) ^ 2 * (α * β)) ∧
    |(B' - P) + (a - b) ^ 2 / 4| ≤ 405 / 100 * δ := by
  have hαp : 0 < α := by linarith
  have hβp : 0 < β := by linarith
  obtain ⟨t1, t2⟩ := abs_le.mp ht
  obtain ⟨u1, u2⟩ := abs_le.mp h1
  obtain ⟨v1, v2⟩ := abs_le.mp h2
  obtain ⟨w1, w2⟩ := abs_le.mp h3
  have ha0 : 0 < a := lt_of_lt_of_le (mul_pos (by linarith) hαp) ha1
  have hb0 : 0 < b := lt_of_lt_of_le (mul_pos (by linarith) hβp) hb1
  have hab : a + b ≤ 1712 / 1000 := by nlinarith
  -- a'^2 against ((a+b)/2)^2
  obtain ⟨e, he⟩ : ∃ e, e = a' - (a + b) / 2 := ⟨_, rfl⟩
  rw [← he] at u1 u2
  have hae : a' = (a + b) / 2 + e := by linarith
  have hsq : a' ^ 2 = ((a + b) / 2) ^ 2 + e * (a + b + e) := by rw [hae]; ring
  have hee : |e * (a + b + e)| ≤ 19 / 10 * δ := by
    rw [abs_mul]
    have x1 : |e| ≤ 11 / 10 * δ := abs_le.mpr ⟨by linarith, u2⟩
    have x2 : |a + b + e| ≤ 1713 / 1000 := by
      have : |e| ≤ 1 / 1000 := by linarith
      have y := abs_le.mp this
      exact abs_le.mpr ⟨by linarith [y.1], by linarith [y.2]⟩
    calc |e| * |a + b + e| ≤ (11 / 10 * δ) * (1713 / 1000) := by gcongr
      _ ≤ _ := by linarith
  obtain ⟨z1, z2⟩ := abs_le.mp hee
  generalize e * (a + b + e) = z at *
  have hexp : ((a + b) / 2) ^ 2 = a ^ 2 / 4 + a * b / 2 + b ^ 2 / 4 := by ring
  have hexp2 : (a - b) ^ 2 / 4 = a ^ 2 / 4 - a * b / 2 + b ^ 2 / 4 := by ring
  rw [hexp] at hsq
  have k1 : B' - a * b ≤ 6 * δ := by linarith
  have k2 : -(6 * δ) ≤ B' - a * b := by linarith
  have hab1 : (1 - ρ) ^ 2 * (α * β) ≤ a * b := by
    have := mul_le_mul ha1 hb1 (mul_nonneg (by linarith) hβp.le) ha0.le
    calc _ = (1 - ρ) * α * ((1 - ρ) * β) := by ring
      _ ≤ _ := this
  have hab2 : a * b ≤ (1 + ρ) ^ 2 * (α * β) := by
    have := mul_le_mul ha2 hb2 hb0.le (mul_nonneg (by linarith) hαp.le)
    calc _ ≤ (1 + ρ) * α * ((1 + ρ) * β) := this
      _ = _ := by ring
  have hδs : 11 / 10 * δ ≤ 5 * δ * ((α + β) / 2) := by nlinarith
  refine ⟨⟨by linarith, by linarith⟩, ⟨?_, ?_⟩, ?_⟩
  · have : (1 - (ρ + 5 * δ)) ^ 2 = (1 - ρ) ^ 2 - δ * (10 * (1 - ρ) - 25 * δ) := by ring
    rw [this, sub_mul]
    have h9 : (9 : ℝ) ≤ 10 * (1 - ρ) - 25 * δ := by linarith
    have : 6 * δ ≤ δ * (10 * (1 - ρ) - 25 * δ) * (α * β) := by
      calc 6 * δ ≤ δ * 9 * (7 / 10) := by linarith
        _ ≤ _ := by gcongr
    linarith
  · have : (1 + (ρ + 5 * δ)) ^ 2 = (1 + ρ) ^ 2 + δ * (10 * (1 + ρ) + 25 * δ) := by ring
    rw [this, add_mul]
    have h9 : (9 : ℝ) ≤ 10 * (1 + ρ) + 25 * δ := by linarith
    have : 6 * δ ≤ δ * (10 * (1 + ρ) + 25 * δ) * (α * β) := by
      calc 6 * δ ≤ δ * 9 * (7 / 10) := by linarith
        _ ≤ _ := by gcongr
    linarith
  · rw [hexp2, abs_le]; constructor <;> linarith

/-- The AGM pair of 1 and √(1/2), with the bounds used. -/
theorem agm_half_bounds (n : ℕ) :
    7 / 10 ≤ (agmSeq 1 (√(1 / 2)) n).2 ∧ (agmSeq 1 (√(1 / 2)) n).2 ≤ (agmSeq 1 (√(1 / 2)) n).1 ∧
    (agmSeq 1 (√(1 / 2)) n).1 ≤ 1 ∧
    (agmSeq 1 (√(1 / 2)) n).1 + (agmSeq 1 (√(1 / 2)) n).2 ≤ 171 / 100 ∧
    7 / 10 ≤ (agmSeq 1 (√(1 / 2)) n).1 * (agmSeq 1 (√(1 / 2)) n).2 := by
  have hq0 : (0 : ℝ) < √(1 / 2) := Real.sqrt_pos.mpr (by norm_num)
  have hqq : √(1 / 2 : ℝ) ^ 2 = 1 / 2 := Real.sq_sqrt (by norm_num)
  have hq1 : (7071 : ℝ) / 10000 ≤ √(1 / 2) := by apply Real.le_sqrt_of_sq_le; norm_num
  have hq2 : √(1 / 2 : ℝ) ≤ 7072 / 10000 := by rw [Real.sqrt_le_left (by norm_num)]; norm_num
  induction n with
  | zero => simp only [agmSeq]; refine ⟨by linarith, by linarith, le_refl _, by linarith, by linarith⟩
  | succ n ih =>
    obtain ⟨i1, i2, i3, i4, i5⟩ := ih
    obtain ⟨p0, p1⟩ := agmSeq_pos hq0 (by linarith : √(1 / 2 : ℝ) ≤ 1) (n + 1)
    have e1 : (agmSeq 1 (√(1 / 2)) (n + 1)).1 = ((agmSeq 1 (√(1 / 2)) n).1 + (agmSeq 1 (√(1 / 2)) n).2) / 2 := rfl
    have e2 : (agmSeq 1 (√(1 / 2)) (n + 1)).2 = √((agmSeq 1 (√(1 / 2)) n).1 * (agmSeq 1 (√(1 / 2)) n).2) := rfl
    generalize (agmSeq 1 (√(1 / 2)) n).1 = x at *
    generalize (agmSeq 1 (√(1 / 2)) n).2 = y at *
    rw [e1, e2] at p1 ⊢
    rw [e2] at p0
    have hs := Real.sq_sqrt (show 0 ≤ x * y by linarith)
    have hr : (83 : ℝ) / 100 ≤ √(x * y) := by apply Real.le_sqrt_of_sq_le; linarith
    refine ⟨by linarith, p1, by linarith, by linarith, ?_⟩
    have : (83 : ℝ) / 100 ≤ (x + y) / 2 := le_trans hr p1
    nlinarith

/-- Quadratic convergence of the differences. -/
theorem agm_half_diff (n : ℕ) : (agmSeq 1 (√(1 / 2)) (n + 1)).1 - (agmSeq 1 (√(1 / 2)) (n + 1)).2 ≤
    ((agmSeq 1 (√(1 / 2)) n).1 - (agmSeq 1 (√(1 / 2)) n).2) ^ 2 / (56 / 10) := by
  obtain ⟨h1, h2, h3, -, h5⟩ := agm_half_bounds n
  obtain ⟨g1, g2, -⟩ := agm_half_bounds (n + 1)
  have e1 : (agmSeq 1 (√(1 / 2)) (n + 1)).1 = ((agmSeq 1 (√(1 / 2)) n).1 + (agmSeq 1 (√(1 / 2)) n).2) / 2 := rfl
  have e2 : (agmSeq 1 (√(1 / 2)) (n + 1)).2 = √((agmSeq 1 (√(1 / 2)) n).1 * (agmSeq 1 (√(1 / 2)) n).2) := rfl
  generalize (agmSeq 1 (√(1 / 2)) n).1 = x at *
  generalize (agmSeq 1 (√(1 / 2)) n).2 = y at *
  rw [e1, e2] at g2 ⊢
  have hs := Real.sq_sqrt (show 0 ≤ x * y by linarith)
  have hy : y ≤ √(x * y) := by apply Real.le_sqrt_of_sq_le; nlinarith
  generalize √(x * y) = r at *
  -- ((x+y)/2 - r) ((x+y)/2 + r) = (x-y)^2/4
  have key : ((x + y) / 2 - r) * ((x + y) / 2 + r) = (x - y) ^ 2 / 4 := by
    have : ((x + y) / 2 - r) * ((x + y) / 2 + r) = ((x + y) / 2) ^ 2 - r ^ 2 := by ring
    rw [this, hs]; ring
  have h14 : (14 : ℝ) / 10 ≤ (x + y) / 2 + r := by linarith
  have := mul_le_mul_of_nonneg_left h14 (show 0 ≤ (x + y) / 2 - r by linarith)
  rw [le_div_iff₀ (by norm_num)]
  linarith

theorem agm_half_diff_nonneg (n : ℕ) : 0 ≤ (agmSeq 1 (√(1 / 2)) n).1 - (agmSeq 1 (√(1 / 2)) n).2 := by
  have := (agm_half_bounds n).2.1; linarith

/-- The first differences. -/
theorem agm_half_small (n : ℕ) : (agmSeq 1 (√(1 / 2)) (n + 1)).1 - (agmSeq 1 (√(1 / 2)) (n + 1)).2 ≤ 155 / 10000 ∧
    (agmSeq 1 (√(1 / 2)) (n + 2)).1 - (agmSeq 1 (√(1 / 2)) (n + 2)).2 ≤ 5 / 100000 := by
  have hq1 : (7071 : ℝ) / 10000 ≤ √(1 / 2) := by apply Real.le_sqrt_of_sq_le; norm_num
  have h0 : ∀ n, (agmSeq 1 (√(1 / 2)) n).1 - (agmSeq 1 (√(1 / 2)) n).2 ≤ 2929 / 10000 := by
    intro n
    induction n with
    | zero => simp only [agmSeq]; linarith
    | succ n ih =>
      have := agm_half_diff n
      have h := agm_half_diff_nonneg n
      rw [le_div_iff₀ (by norm_num)] at this
      generalize (agmSeq 1 (√(1 / 2)) n).1 - (agmSeq 1 (√(1 / 2)) n).2 = D at *
      nlinarith
  have h1 : ∀ n, (agmSeq 1 (√(1 / 2)) (n + 1)).1 - (agmSeq 1 (√(1 / 2)) (n + 1)).2 ≤ 155 / 10000 := by
    intro n
    have := agm_half_diff n
    have h := agm_half_diff_nonneg n
    have hh := h0 n
    rw [le_div_iff₀ (by norm_num)] at this
    generalize (agmSeq 1 (√(1 / 2)) n).1 - (agmSeq 1 (√(1 / 2)) n).2 = D at *
    nlinarith
  refine ⟨h1 n, ?_⟩
  have := agm_half_diff (n + 1)
  have h := agm_half_diff_nonneg (n + 1)
  have hh := h1 n
  rw [le_div_iff₀ (by norm_num)] at this
  rw [show n + 2 = n + 1 + 1 from rfl]
  generalize (agmSeq 1 (√(1 / 2)) (n + 1)).1 - (agmSeq 1 (√(1 / 2)) (n + 1)).2 = D at *
  nlinarith

/-- The exact terms decrease doubly exponentially. -/
theorem agm_half_conv (n : ℕ) : (agmSeq 1 (√(1 / 2)) n).1 - (agmSeq 1 (√(1 / 2)) n).2 ≤ 56 / 10 * (1 / 16) ^ (2 ^ n) := by
  have hq1 : (7071 : ℝ) / 10000 ≤ √(1 / 2) := by apply Real.le_sqrt_of_sq_le; norm_num
  induction n with
  | zero => simp only [agmSeq]; norm_num at *; linarith
  | succ n ih =>
    have := agm_half_diff n
    have h := agm_half_diff_nonneg n
    refine le_trans this ?_
    rw [pow_succ 2 n, pow_mul]
    generalize (agmSeq 1 (√(1 / 2)) n).1 - (agmSeq 1 (√(1 / 2)) n).2 = D at *
    have hz : (0 : ℝ) ≤ (1 / 16) ^ (2 ^ n) := by positivity
    generalize ((1 : ℝ) / 16) ^ (2 ^ n) = z at *
    rw [div_le_iff₀ (by norm_num)]
    nlinarith

/-- The computed term against the exact one: the difference of the means' squares depends on the errors only in second order
    once the means are close. -/
theorem pi_term {k : ℕ} (hk : k ≤ 48) {a b δ : ℝ} (hδ0 : 0 < δ) (hδ : δ ≤ 1 / 10 ^ 9)
    (ha1 : (1 - 5 * k * δ) * (agmSeq 1 (√(1 / 2)) k).1 ≤ a) (ha2 : a ≤ (1 + 5 * k * δ) * (agmSeq 1 (√(1 / 2)) k).1)
    (hb1 : (1 - 5 * k * δ) * (agmSeq 1 (√(1 / 2)) k).2 ≤ b) (hb2 : b ≤ (1 + 5 * k * δ) * (agmSeq 1 (√(1 / 2)) k).2) :
    |(a - b) ^ 2 / 4 - agmC 1 (√(1 / 2)) (k + 1)| ≤ 1 / 10 * δ := by
  have hq0 : (0 : ℝ) < √(1 / 2) := Real.sqrt_pos.mpr (by norm_num)
  have hq2 : √(1 / 2 : ℝ) ≤ 7072 / 10000 := by rw [Real.sqrt_le_left (by norm_num)]; norm_num
  rw [agmC_succ hq0 (by linarith)]
  obtain ⟨h1, h2, h3, -, -⟩ := agm_half_bounds k
  have hD0 := agm_half_diff_nonneg k
  have hk' : (k : ℝ) ≤ 48 := by exact_mod_cast hk
  have hk0 : (0 : ℝ) ≤ k := Nat.cast_nonneg k
  have hD : 5 * (k : ℝ) * ((agmSeq 1 (√(1 / 2)) k).1 - (agmSeq 1 (√(1 / 2)) k).2) ≤ 8 / 100 := by
    match k, hk' with
    | 0, _ => norm_num
    | 1, _ => have := (agm_half_small 0).1; norm_num at *; linarith
    | k + 2, h => have := (agm_half_small k).2; nlinarith
  generalize (agmSeq 1 (√(1 / 2)) k).1 = x at *
  generalize (agmSeq 1 (√(1 / 2)) k).2 = y at *
  obtain ⟨ρ, hρ⟩ : ∃ ρ, ρ = 5 * (k : ℝ) * δ := ⟨_, rfl⟩
  rw [← hρ] at ha1 ha2 hb1 hb2
  have hρ0 : 0 ≤ ρ := by rw [hρ]; positivity
  have hρ1 : ρ ≤ 240 * δ := by rw [hρ]; nlinarith
  have hDρ : ρ * (x - y) ≤ 8 / 100 * δ := by rw [hρ]; nlinarith
  -- (a-b) - (x-y) is at most 2ρ
  have g1 : |(a - b) - (x - y)| ≤ 2 * ρ := by rw [abs_le]; constructor <;> nlinarith
  have e : (a - b) ^ 2 / 4 - ((x - y) / 2) ^ 2 = ((a - b) - (x - y)) * (((a - b) - (x - y)) + 2 * (x - y)) / 4 := by ring
  rw [e, abs_div, abs_mul, abs_of_pos (by norm_num : (0:ℝ) < 4)]
  have g2 : |((a - b) - (x - y)) + 2 * (x - y)| ≤ 2 * ρ + 2 * (x - y) := by
    refine le_trans (abs_add_le _ _) ?_
    rw [abs_of_nonneg (by linarith : 0 ≤ 2 * (x - y))]; linarith
  have : |(a - b) - (x - y)| * |((a - b) - (x - y)) + 2 * (x - y)| ≤ 2 * ρ * (2 * ρ + 2 * (x - y)) := by gcongr
  have h9 : ρ * ρ ≤ 1 / 100 * δ := by
    have : ρ * ρ ≤ 240 * δ * (240 * δ) := mul_le_mul hρ1 hρ1 hρ0 (by linarith)
    nlinarith
  rw [div_le_iff₀ (by norm_num)]
  nlinarith

end WD
