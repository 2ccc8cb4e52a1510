import Verif.Proofs.AgmLog
import Verif.Proofs.PiOps
import Verif.Props.Mul
import Verif.Props.Pi
/-
  The AGM loop of `calc_ln_two` and `log`: the integral I(a, b) is preserved up to rounding, and π/(a+b) is close to it at the end.
-/
namespace WD
open DW Real

/-- The products whose square roots the loop takes, in order. -/
def agmProducts (c : Cfg) (estS : DW → DW × DW) (est : DW → DW) (fdig : ℕ) (goal : ℤ) : (fuel : ℕ) → (a b : DW) → List DW
  | 0, _, _ => []
  | fuel + 1, a, b =>
    if agmDigits (subAssign c a b) > goal then []
    else mulAssign c b a :: agmProducts c estS est fdig goal fuel (divULL c est fdig (addAssign c a b) 2)
      (calcSqrt c estS fdig (mulAssign c b a))

theorem agm_exp_range {c : Cfg} {x : DW} (hx : Full c x) {D : ℕ} (h1 : (10 : ℚ) ^ (-(D : ℤ)) ≤ |x.val c|) (h2 : |x.val c| < 10) :
    x.isZero = false ∧ -((D : ℤ) + c.ed) < x.exp ∧ x.exp ≤ 0 := by
  have hed := two_le_ed c
  have hz : x.isZero = false := isZero_false_of_val hx.toWF (by
    intro h; rw [h, abs_zero] at h1; exact absurd h1 (not_le.mpr (p10_pos _)))
  refine ⟨hz, ?_, ?_⟩
  · have a := lt_of_le_of_lt h1 hx.toWF.abs_lt
    rw [zpow_lt_zpow_iff_right₀ (by norm_num)] at a
    omega
  · have a := lt_of_le_of_lt (hx.toWF.abs_ge hz) h2
    have b : (10 : ℚ) ^ x.exp < 10 ^ (1 : ℤ) := by rw [zpow_one]; exact a
    rw [zpow_lt_zpow_iff_right₀ (by norm_num)] at b
    omega

theorem agm_sqrt_close {P T μ : ℝ} (hT : 0 < T) (hP : 0 < P) (h : |P - T| ≤ 2 * μ * T) : |√P - √T| ≤ 2 * μ * √T := by
  have u0 : 0 < √T := Real.sqrt_pos.mpr hT
  have u1 : √T * √T = T := Real.mul_self_sqrt hT.le
  have v0 : 0 < √P := Real.sqrt_pos.mpr hP
  have v1 : √P * √P = P := Real.mul_self_sqrt hP.le
  have hsub : |√P - √T| * (√P + √T) = |P - T| := by
    rw [← abs_of_pos (add_pos v0 u0), ← abs_mul]
    congr 1
    calc (√P - √T) * (√P + √T) = √P * √P - √T * √T := by ring
      _ = _ := by rw [u1, v1]
  have h1 : |√P - √T| * √T ≤ |√P - √T| * (√P + √T) := mul_le_mul_of_nonneg_left (by linarith) (abs_nonneg _)
  rw [hsub] at h1
  refine le_of_mul_le_mul_right ?_ u0
  calc |√P - √T| * √T ≤ 2 * μ * T := le_trans h1 h
    _ = 2 * μ * (√T * √T) := by rw [u1]
    _ = _ := by ring

/-- Division by a small integer, relative error. -/
theorem div_rel {c : Cfg} {est : DW → DW} {fdig : ℕ} {x : DW} (hx : Full c x) (h0 : 0 < x.val c) {n : ℕ} (hn1 : 1 ≤ n) (hn2 : n < c.B)
    (he : -(c.maxExp : ℤ) ≤ x.exp - c.ed) :
    Full c (divULL c est fdig x n) ∧ |(divULL c est fdig x n).val c - x.val c / n| ≤ agmDelta c * x.val c := by
  have habs : |x.val c| = x.val c := abs_of_pos h0
  have hz := isZero_false_of_val hx.toWF h0.ne'
  obtain ⟨q1, q2, q3, q4, q5, q6⟩ := divULL_small (est := est) (fdig := fdig) hx hz (n := n) (by omega) hn2 he
  refine ⟨q1, ?_⟩
  generalize divULL c est fdig x n = r at *
  have hrv : r.val c = |r.val c| := by rw [val_sgn c r, q3, neg_of_pos h0]; simp
  rw [hrv]
  rw [habs] at q4 q5
  have hΔ := agmDelta_pos c
  have hμΔ := mulEps_delta c
  have hμ := mulEps_pos c
  have hn : (1 : ℚ) ≤ n := by exact_mod_cast hn1
  have hxn : x.val c / n ≤ x.val c := div_le_self h0.le hn
  rcases q6 with he | he
  · obtain ⟨a, b⟩ := q5 he
    have hu := Full.ulp_le q1.toWF q2
    have hu' : r.ulp c ≤ mulEps c * |r.val c| := by
      unfold mulEps; rw [one_div, inv_mul_eq_div, le_div_iff₀ (by positivity)]; exact hu
    have k1 : mulEps c * |r.val c| ≤ mulEps c * x.val c := mul_le_mul_of_nonneg_left (by linarith) hμ.le
    have k2 : mulEps c * x.val c ≤ agmDelta c * x.val c := mul_le_mul_of_nonneg_right (by linarith) h0.le
    rw [abs_le]; constructor <;> linarith
  · refine le_trans q4.le ?_
    have hu := Full.ulp_le hx.toWF hz
    rw [habs] at hu
    have e : r.ulp c * (c.B : ℚ) = x.ulp c := by
      rw [ulp_eq, ulp_eq, c.B_eq]
      push_cast
      rw [← zpow_natCast, ← zpow_add₀ (by norm_num)]
      congr 1; unfold lexp; omega
    rw [pow_two, ← mul_assoc, e]
    have e2 : agmDelta c = c.B * mulEps c := by
      unfold agmDelta mulEps
      rw [c.B_eq]; push_cast
      rw [show c.digits10 + 2 * c.ed = c.digits10 + c.ed + c.ed by ring, pow_add _ (c.digits10 + c.ed)]
      field_simp
    rw [e2, mul_assoc, mul_comm]
    refine mul_le_mul_of_nonneg_left ?_ (by positivity)
    unfold mulEps; rw [one_div, inv_mul_eq_div, le_div_iff₀ (by positivity)]; exact hu

/-- Product of positive numbers, relative error. -/
theorem mul_rel_pos {c : Cfg} {u v : DW} (hu : Full c u) (hv : Full c v) (hu0 : 0 < u.val c) (hv0 : 0 < v.val c) (hok : MulOkAll c)
    (hlo : -(c.maxExp : ℤ) < u.exp + v.exp) (hhi : u.exp + v.exp < c.maxExp) :
    Full c (mulAssign c u v) ∧ |(mulAssign c u v).val c - u.val c * v.val c| ≤ 2 * mulEps c * (u.val c * v.val c) := by
  have h3 := c.three_le_N
  have hk := hok.ok (p := c.N) (by omega) (le_refl _)
  obtain ⟨-, m2, m3, -⟩ := mul_error c u v hu hv hu0.ne' hv0.ne' hk hlo hhi
  have m5 := mul_relative_error c u v hu hv hu0.ne' hv0.ne' hk hlo hhi
  refine ⟨m3, ?_⟩
  have hμ := mulEps_pos c
  have hμ1 := mulEps_lt c
  rw [div_eq_mul_one_div, show (1 : ℚ) / 10 ^ (c.digits10 + 2 * c.ed) = mulEps c from rfl] at m5
  generalize (mulAssign c u v).val c = R at *
  have hT : 0 < u.val c * v.val c := mul_pos hu0 hv0
  generalize u.val c * v.val c = T at *
  have h1 : |R| ≤ |R - T| + T := by
    have := abs_add_le (R - T) T; rw [sub_add_cancel, abs_of_pos hT] at this; exact this
  have h2 : |R| * mulEps c ≤ |R| * (1 / 2) := mul_le_mul_of_nonneg_left (by linarith) (abs_nonneg _)
  have h3 : |R| ≤ 2 * T := by linarith
  have h4 : |R| * mulEps c ≤ 2 * T * mulEps c := mul_le_mul_of_nonneg_right h3 hμ.le
  linarith

/-- The exponent range suffices for numbers down to 10^-D and for roots of their products. -/
structure AgmRng (c : Cfg) (D : ℕ) : Prop extends AgmOk c where
  rng2 : 2 * (D : ℤ) + ((c.N : ℤ) + 8) * c.ed < c.maxExp

/-- The start values of the roots of the products are good enough, and the products keep off the even powers of the radix. -/
def AgmSqrtOk (c : Cfg) (estS : DW → DW × DW) (fdig : ℕ) : Prop :=
  ∀ x, Full c x → 0 < x.val c → SqrtStartOk c fdig (estS x).1 (estS x).2 (x.val c)

/-- Relative error of one round. -/
noncomputable def agmRel (c : Cfg) : ℝ := 21 / 10 * (agmDelta c : ℝ)

theorem agmRel_pos (c : Cfg) : 0 < agmRel c := by
  unfold agmRel; have : (0 : ℝ) < agmDelta c := by exact_mod_cast agmDelta_pos c
  positivity

theorem agmRel_small {c : Cfg} (h : AgmOk c) : agmRel c ≤ 1 / 10 ^ 40 := by
  unfold agmRel agmDelta
  have hed := two_le_ed c
  have := h.d41
  have h1 : (10 : ℝ) ^ 43 ≤ 10 ^ (c.digits10 + c.ed) := pow_le_pow_right₀ (by norm_num) (by omega)
  push_cast
  have : (1 : ℝ) / 10 ^ (c.digits10 + c.ed) ≤ 1 / 10 ^ 43 := one_div_le_one_div_of_le (by positivity) h1
  calc (21 : ℝ) / 10 * (1 / 10 ^ (c.digits10 + c.ed)) ≤ 21 / 10 * (1 / 10 ^ 43) := by gcongr
    _ ≤ _ := by norm_num

/-- One round that is not the last. -/
theorem agm_round {c : Cfg} {estS : DW → DW × DW} {est : DW → DW} {fdig D : ℕ} (h : AgmRng c D) (hf : 6 ≤ fdig) (hS : AgmSqrtOk c estS fdig)
    {a b : DW} (ha : Full c a) (hb : Full c b) (ha1 : (10 : ℚ) ^ (-(D : ℤ)) ≤ a.val c) (ha2 : a.val c < 4)
    (hb1 : (10 : ℚ) ^ (-(D : ℤ)) ≤ b.val c) (hb2 : b.val c < 4)
    (hoff : OffSquares c (60 / 10 ^ fdig + 320 / 10 ^ (c.digits10 + 2 * c.ed)) ((mulAssign c b a).val c)) :
    let a' := divULL c est fdig (addAssign c a b) 2
    let b' := calcSqrt c estS fdig (mulAssign c b a)
    Full c a' ∧ Full c b' ∧ |(a'.val c : ℝ) - (a.val c + b.val c) / 2| ≤ agmRel c * ((a.val c + b.val c) / 2) ∧
    |(b'.val c : ℝ) - √(a.val c * b.val c)| ≤ agmRel c * √(a.val c * b.val c) := by
  intro a' b'
  have hD := p10_pos (-(D : ℤ))
  have ha0 : 0 < a.val c := by linarith
  have hb0 : 0 < b.val c := by linarith
  obtain ⟨-, ae1, ae2⟩ := agm_exp_range ha (by rw [abs_of_pos ha0]; exact ha1) (by rw [abs_of_pos ha0]; linarith)
  obtain ⟨-, be1, be2⟩ := agm_exp_range hb (by rw [abs_of_pos hb0]; exact hb1) (by rw [abs_of_pos hb0]; linarith)
  have hrng := h.rng2
  have hN := h.toAgmOk.N9
  have hed := two_le_ed c
  have hNe : ((c.N : ℤ) + 8) * c.ed = c.N * c.ed + 8 * c.ed := by ring
  have hNe6 : ((c.N : ℤ) + 6) * c.ed = c.N * c.ed + 6 * c.ed := by ring
  have hNp : (0 : ℤ) ≤ c.N * c.ed := by positivity
  have hμ := mulEps_pos c
  have hμ1 := mulEps_lt c
  have hΔ := agmDelta_pos c
  have hμΔ := mulEps_delta c
  have hμR : (0 : ℝ) < mulEps c := by exact_mod_cast hμ
  have hμΔR : 100 * (mulEps c : ℝ) ≤ agmDelta c := by exact_mod_cast hμΔ
  have hrs := agmRel_small h.toAgmOk
  have hrp := agmRel_pos c
  have hΔ1 : (agmDelta c : ℝ) ≤ 1 / 10 ^ 40 := by
    unfold agmRel at hrs hrp; linarith
  -- the sum
  obtain ⟨s1, s2, -⟩ := add_op ha hb
  rw [abs_of_pos ha0, abs_of_pos hb0] at s2
  set s := addAssign c a b with hs
  obtain ⟨t1, t2⟩ := abs_le.mp s2
  have hsum : 0 < a.val c + b.val c := by linarith
  have hμs : mulEps c * (a.val c + b.val c) ≤ 1 / 100 * (a.val c + b.val c) := mul_le_mul_of_nonneg_right (by linarith) hsum.le
  have hs0 : 0 < s.val c := by linarith
  obtain ⟨-, se1, se2⟩ := agm_exp_range s1 (D := D) (by rw [abs_of_pos hs0]; linarith) (by rw [abs_of_pos hs0]; linarith)
  have hB : 100 ≤ c.B := by unfold Cfg.B; cases c.L <;> decide
  obtain ⟨d1, d2⟩ := div_rel (est := est) (fdig := fdig) s1 hs0 (n := 2) (by norm_num) (by omega) (by omega)
  -- the product
  obtain ⟨m1, m2⟩ := mul_rel_pos hb ha hb0 ha0 h.ok (by omega) (by omega)
  have hpq : 0 < b.val c * a.val c := mul_pos hb0 ha0
  set p := mulAssign c b a with hp
  obtain ⟨m3, m4⟩ := abs_le.mp m2
  have hμp : 2 * mulEps c * (b.val c * a.val c) ≤ 1 / 50 * (b.val c * a.val c) := mul_le_mul_of_nonneg_right (by linarith) hpq.le
  have hp0 : 0 < p.val c := by linarith
  have hDD : (10 : ℚ) ^ (-((2 * D + 1 : ℕ) : ℤ)) ≤ |p.val c| := by
    rw [abs_of_pos hp0]
    have e : (10 : ℚ) ^ (-((2 * D + 1 : ℕ) : ℤ)) = 1 / 10 * (10 ^ (-(D : ℤ)) * 10 ^ (-(D : ℤ))) := by
      rw [← zpow_add₀ (by norm_num), show (1 : ℚ) / 10 = 10 ^ (-1 : ℤ) by norm_num, ← zpow_add₀ (by norm_num)]
      congr 1; push_cast; ring
    rw [e]
    have := mul_le_mul hb1 ha1 hD.le hb0.le
    linarith
  have hpz := isZero_false_of_val m1.toWF hp0.ne'
  have pe1 : -((2 * D + 1 : ℕ) + (c.ed : ℤ)) < p.exp := by
    have x := lt_of_le_of_lt hDD m1.toWF.abs_lt
    rw [zpow_lt_zpow_iff_right₀ (by norm_num)] at x
    omega
  have pe2 : p.exp ≤ 1 := by
    have x := m1.toWF.abs_ge hpz
    rw [abs_of_pos hp0] at x
    have hba : b.val c * a.val c < 4 * 4 := mul_lt_mul'' hb2 ha2 hb0.le ha0.le
    have y : (10 : ℚ) ^ p.exp < 10 ^ (2 : ℤ) := lt_of_le_of_lt x (by norm_num; linarith)
    rw [zpow_lt_zpow_iff_right₀ (by norm_num)] at y
    omega
  obtain ⟨r1, r2, r3⟩ := sqrt_accuracy_partial c estS fdig p m1 hp0 h.ok (by have := h.d41; omega) hf (by push_cast at pe1; omega) (by omega)
    (hS p m1 hp0) (fun _ => hoff)
  refine ⟨d1, r1, ?_, ?_⟩
  · have d2' : |((a'.val c : ℝ) - s.val c / 2)| ≤ agmDelta c * s.val c := by
      have := (Rat.cast_le (K := ℝ)).mpr d2; push_cast at this; exact this
    have t' : |(s.val c : ℝ) - (a.val c + b.val c)| ≤ mulEps c * (a.val c + b.val c) := by
      have := (Rat.cast_le (K := ℝ)).mpr s2; push_cast at this; exact this
    have hsumR : (0 : ℝ) < a.val c + b.val c := by exact_mod_cast hsum
    unfold agmRel
    generalize (a'.val c : ℝ) = A at *
    generalize (s.val c : ℝ) = S at *
    generalize (a.val c : ℝ) + b.val c = T at *
    generalize (agmDelta c : ℝ) = Δ at *
    generalize (mulEps c : ℝ) = μ at *
    obtain ⟨x1, x2⟩ := abs_le.mp d2'
    obtain ⟨y1, y2⟩ := abs_le.mp t'
    have hμT : μ * T ≤ Δ / 100 * T := mul_le_mul_of_nonneg_right (by linarith) hsumR.le
    have hΔ0 : 0 < Δ := by linarith
    have hS' : S ≤ 101 / 100 * T := by
      have : Δ / 100 * T ≤ 1 / 100 * T := mul_le_mul_of_nonneg_right (by linarith [show (1 : ℝ) / 10 ^ 40 ≤ 1 by norm_num]) hsumR.le
      linarith
    have hΔS : Δ * S ≤ Δ * (101 / 100 * T) := mul_le_mul_of_nonneg_left hS' hΔ0.le
    have hΔT : 0 < Δ * T := mul_pos hΔ0 hsumR
    rw [abs_le]; constructor <;> linarith
  · have hq : |(p.val c : ℝ) - b.val c * a.val c| ≤ 2 * mulEps c * (b.val c * a.val c) := by
      have := (Rat.cast_le (K := ℝ)).mpr m2; push_cast at this; exact this
    have hpR : (0 : ℝ) < p.val c := by exact_mod_cast hp0
    have hTR : (0 : ℝ) < b.val c * a.val c := by exact_mod_cast hpq
    rw [mul_comm (a.val c : ℝ)]
    have r3' : |(b'.val c : ℝ) - √(p.val c)| < √(p.val c) * (8 * mulEps c) := by
      refine lt_of_lt_of_le r3 (le_of_eq ?_); unfold mulEps; push_cast; ring
    unfold agmRel
    generalize (b'.val c : ℝ) = R at *
    generalize (p.val c : ℝ) = P at *
    generalize (b.val c : ℝ) * a.val c = T at *
    generalize (agmDelta c : ℝ) = Δ at *
    generalize (mulEps c : ℝ) = μ at *
    obtain ⟨x1, x2⟩ := abs_le.mp hq
    have hμs : μ ≤ 1 / 1000 := by linarith [show (1 : ℝ) / 10 ^ 40 ≤ 1 / 1000 by norm_num]
    have u0 : 0 < √T := Real.sqrt_pos.mpr hTR
    have u1 : √T ^ 2 = T := Real.sq_sqrt hTR.le
    have v0 : 0 < √P := Real.sqrt_pos.mpr hpR
    have v1 : √P ^ 2 = P := Real.sq_sqrt hpR.le
    have hv := agm_sqrt_close hTR hpR hq
    obtain ⟨y1, y2⟩ := abs_le.mp hv
    obtain ⟨z1, z2⟩ := abs_lt.mp r3'
    have k0 : 2 * μ * √T ≤ 1 / 4 * √T := mul_le_mul_of_nonneg_right (by linarith) u0.le
    have k1 : √P ≤ 5 / 4 * √T := by linarith
    have k2 : √P * (8 * μ) ≤ 5 / 4 * √T * (8 * μ) := mul_le_mul_of_nonneg_right k1 (by linarith)
    have k3 : μ * √T ≤ Δ / 100 * √T := mul_le_mul_of_nonneg_right (by linarith) u0.le
    have k4 : 0 < Δ * √T := mul_pos (by linarith) u0
    rw [abs_le]; constructor <;> linarith

/-- The loop, if it is left by `break` after n further rounds. -/
theorem agmLoop_ell {c : Cfg} {estS : DW → DW × DW} {est : DW → DW} {fdig D : ℕ} (h : AgmRng c D) (hf : 6 ≤ fdig) (hS : AgmSqrtOk c estS fdig)
    {goal : ℤ} : ∀ (fuel : ℕ) (a b : DW) (lo hi : ℝ) (s : DW) (n : ℕ), Full c a → Full c b → lo ≤ a.val c → lo ≤ b.val c →
    a.val c ≤ hi → b.val c ≤ hi → (10 : ℝ) ^ (-(D : ℤ)) ≤ lo * (1 - agmRel c) ^ fuel → hi * (1 + agmRel c) ^ fuel < 4 →
    agmLoop c estS est fdig goal fuel a b = (s, some n) →
    (∀ p ∈ agmProducts c estS est fdig goal fuel a b, OffSquares c (60 / 10 ^ fdig + 320 / 10 ^ (c.digits10 + 2 * c.ed)) (p.val c)) →
    n < fuel ∧ ∃ a' b' : DW, Full c a' ∧ Full c b' ∧ 0 < a'.val c ∧ 0 < b'.val c ∧ a'.val c < 4 ∧ b'.val c < 4 ∧
      s = addAssign c a' b' ∧ agmDigits (subAssign c a' b') > goal ∧
      (1 - agmRel c) ^ n * ell (a'.val c) (b'.val c) ≤ ell (a.val c) (b.val c) ∧
      ell (a.val c) (b.val c) ≤ (1 + agmRel c) ^ n * ell (a'.val c) (b'.val c) := by
  have hδ := agmRel_pos c
  have hδ1 : agmRel c < 1 := lt_of_le_of_lt (agmRel_small h.toAgmOk) (by norm_num)
  intro fuel
  induction fuel with
  | zero => intro a b lo hi s n _ _ _ _ _ _ _ _ hl; simp [agmLoop] at hl
  | succ fuel ih =>
    intro a b lo hi s n ha hb la lb ua ub hlo hhi hl hoff
    have hD : (0 : ℝ) < 10 ^ (-(D : ℤ)) := by positivity
    have q1 : (1 - agmRel c) ^ (fuel + 1) ≤ 1 := pow_le_one₀ (by linarith) (by linarith)
    have q0 : 0 < (1 - agmRel c) ^ (fuel + 1) := pow_pos (by linarith) _
    have q2 : 1 ≤ (1 + agmRel c) ^ (fuel + 1) := one_le_pow₀ (by linarith)
    have hlo0 : 0 < lo := by
      by_contra hc
      have : lo * (1 - agmRel c) ^ (fuel + 1) ≤ 0 := mul_nonpos_of_nonpos_of_nonneg (not_lt.mp hc) q0.le
      linarith
    have hlo1 : (10 : ℝ) ^ (-(D : ℤ)) ≤ lo := le_trans hlo (mul_le_of_le_one_right hlo0.le q1)
    have hhi0 : 0 < hi := by linarith
    have hhi1 : hi < 4 := lt_of_le_of_lt (le_mul_of_one_le_right hhi0.le q2) hhi
    have aq : (10 : ℚ) ^ (-(D : ℤ)) ≤ a.val c := by
      have : (((10 : ℚ) ^ (-(D : ℤ)) : ℚ) : ℝ) ≤ (a.val c : ℝ) := by push_cast; linarith
      exact_mod_cast this
    have bq : (10 : ℚ) ^ (-(D : ℤ)) ≤ b.val c := by
      have : (((10 : ℚ) ^ (-(D : ℤ)) : ℚ) : ℝ) ≤ (b.val c : ℝ) := by push_cast; linarith
      exact_mod_cast this
    have aq2 : a.val c < 4 := by
      have : (a.val c : ℝ) < ((4 : ℚ) : ℝ) := by push_cast; linarith
      exact_mod_cast this
    have bq2 : b.val c < 4 := by
      have : (b.val c : ℝ) < ((4 : ℚ) : ℝ) := by push_cast; linarith
      exact_mod_cast this
    have haR : (0 : ℝ) < a.val c := by linarith
    have hbR : (0 : ℝ) < b.val c := by linarith
    simp only [agmLoop] at hl
    simp only [agmProducts] at hoff
    split at hl
    · next hb' =>
      simp only [Prod.mk.injEq, Option.some.injEq] at hl
      refine ⟨by omega, a, b, ha, hb, by exact_mod_cast haR, by exact_mod_cast hbR, aq2, bq2, hl.1.symm, hb', ?_⟩
      rw [← hl.2]; simp
    · next hb' =>
      rw [if_neg hb'] at hoff
      obtain ⟨r1, r2, r3, r4⟩ := agm_round (est := est) h hf hS ha hb aq aq2 bq bq2 (hoff _ (List.mem_cons_self ..))
      have hoff' := fun p hp => hoff p (List.mem_cons_of_mem _ hp)
      generalize divULL c est fdig (addAssign c a b) 2 = A at *
      generalize calcSqrt c estS fdig (mulAssign c b a) = B at *
      obtain ⟨k, hk1, hk2⟩ : ∃ k, (agmLoop c estS est fdig goal fuel A B).2 = some k ∧ n = k + 1 := by
        generalize (agmLoop c estS est fdig goal fuel A B).2 = o at hl
        cases o with
        | none => simp at hl
        | some k => simp only [Option.map_some, Prod.mk.injEq, Option.some.injEq] at hl; exact ⟨k, rfl, hl.2.symm⟩
      have hl' : agmLoop c estS est fdig goal fuel A B = (s, some k) := by
        rw [← hk1]; simp only [Prod.mk.injEq] at hl; rw [← hl.1]
      obtain ⟨x1, x2⟩ := abs_le.mp r3
      obtain ⟨y1, y2⟩ := abs_le.mp r4
      have hg1 : lo ≤ √((a.val c : ℝ) * b.val c) := by
        apply Real.le_sqrt_of_sq_le
        rw [pow_two]; exact mul_le_mul la lb hlo0.le haR.le
      have hg2 : √((a.val c : ℝ) * b.val c) ≤ hi := by
        rw [Real.sqrt_le_left hhi0.le, pow_two]; exact mul_le_mul ua ub hbR.le hhi0.le
      have hm1 : lo ≤ ((a.val c : ℝ) + b.val c) / 2 := by linarith
      have hm2 : ((a.val c : ℝ) + b.val c) / 2 ≤ hi := by linarith
      have hd1 : 0 < 1 - agmRel c := by linarith
      have z1 : ∀ g : ℝ, lo ≤ g → lo * (1 - agmRel c) ≤ g - agmRel c * g := fun g hg => by
        have := mul_le_mul_of_nonneg_right hg hd1.le; linarith
      have z2 : ∀ g : ℝ, g ≤ hi → g + agmRel c * g ≤ hi * (1 + agmRel c) := fun g hg => by
        have := mul_le_mul_of_nonneg_right hg (by linarith : 0 ≤ 1 + agmRel c); linarith
      obtain ⟨hn, a', b', e1, e2, e3, e4, e5, e6, e7, e8, e9, e10⟩ := ih A B (lo * (1 - agmRel c)) (hi * (1 + agmRel c)) s k r1 r2
        (by linarith [z1 _ hm1]) (by linarith [z1 _ hg1]) (by linarith [z2 _ hm2]) (by linarith [z2 _ hg2])
        (by rw [mul_assoc, ← pow_succ']; exact hlo) (by rw [mul_assoc, ← pow_succ']; exact hhi) hl' hoff'
      refine ⟨by omega, a', b', e1, e2, e3, e4, e5, e6, e7, e8, ?_⟩
      obtain ⟨f1, f2⟩ := ell_perturb (by linarith : (0 : ℝ) < ((a.val c : ℝ) + b.val c) / 2) (Real.sqrt_pos.mpr (mul_pos haR hbR)) hδ.le hδ1 r3 r4
      rw [ell_agm haR hbR] at f1 f2
      rw [hk2, pow_succ', pow_succ']
      constructor
      · calc (1 - agmRel c) * (1 - agmRel c) ^ k * ell (a'.val c) (b'.val c) = (1 - agmRel c) * ((1 - agmRel c) ^ k * ell (a'.val c) (b'.val c)) := by ring
          _ ≤ (1 - agmRel c) * ell (A.val c) (B.val c) := mul_le_mul_of_nonneg_left e9 hd1.le
          _ ≤ _ := f1
      · calc ell (a.val c) (b.val c) ≤ (1 + agmRel c) * ell (A.val c) (B.val c) := f2
          _ ≤ (1 + agmRel c) * ((1 + agmRel c) ^ k * ell (a'.val c) (b'.val c)) := mul_le_mul_of_nonneg_left e10 (by linarith)
          _ = _ := by ring

end WD
