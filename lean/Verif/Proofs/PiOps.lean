import Verif.Model.Agm
import Verif.Proofs.ExpArg
import Verif.Props.SqrtStart
/-
  The operations of the AGM iterations with absolute error bounds, for operands of moderate size.
-/
namespace WD
open DW

/-- Error of a division by a small integer (the last limb but one may be lost). -/
def agmDelta (c : Cfg) : ℚ := 1 / 10 ^ (c.digits10 + c.ed)

theorem agmDelta_pos (c : Cfg) : 0 < agmDelta c := by unfold agmDelta; positivity

theorem mulEps_delta (c : Cfg) : 100 * mulEps c ≤ agmDelta c := by
  have hed : 2 ≤ c.ed := by unfold Cfg.ed; cases c.L <;> decide
  unfold mulEps agmDelta
  rw [mul_one_div, div_le_div_iff₀ (by positivity) (by positivity), one_mul,
    show c.digits10 + 2 * c.ed = c.digits10 + c.ed + c.ed by ring, pow_add _ (c.digits10 + c.ed), mul_comm]
  have h1 : (10 : ℚ) ^ 2 ≤ 10 ^ c.ed := pow_le_pow_right₀ (by norm_num) hed
  have h2 : (0 : ℚ) < 10 ^ (c.digits10 + c.ed) := by positivity
  nlinarith

/-- Configurations of the AGM iterations: more than 40 digits, the multiplication is exact up to truncation, and the range of
    the exponent exceeds the precision. -/
structure AgmOk (c : Cfg) : Prop where
  ok : MulOkAll c
  d41 : 41 ≤ c.digits10
  rng : ((c.N : ℤ) + 8) * c.ed < c.maxExp

theorem AgmOk.N9 {c : Cfg} (h : AgmOk c) : 9 ≤ c.N ∧ 41 + 2 * c.ed < c.ed * c.N := by
  have h1 := c.digits_le
  have h2 := h.d41
  have h3 := c.three_le_N
  have h4 : c.ed * (c.N - 1) = c.ed * c.N - c.ed := by rw [Nat.mul_sub, mul_one]
  have hed8 : c.ed ≤ 8 := by unfold Cfg.ed; cases c.L <;> decide
  have hp := c.ed_pos
  have h5 : c.ed ≤ c.ed * c.N := Nat.le_mul_of_pos_right _ (by omega)
  refine ⟨?_, by omega⟩
  by_contra hn
  have h6 : c.N ≤ 8 := by omega
  have : c.ed * c.N ≤ c.ed * 8 := Nat.mul_le_mul_left _ h6
  omega

theorem AgmOk.big {c : Cfg} (h : AgmOk c) : 41 + 10 * (c.ed : ℤ) < c.maxExp := by
  have h1 := h.N9.2
  have h2 := h.rng
  have h3 : ((c.N : ℤ) + 8) * c.ed = ((c.ed * c.N : ℕ) : ℤ) + 8 * c.ed := by push_cast; ring
  omega

theorem exp_moderate {c : Cfg} {x : DW} (hx : Full c x) (h1 : 1 / 100 ≤ |x.val c|) (h2 : |x.val c| < 10) :
    x.isZero = false ∧ -(2 * (c.ed : ℤ)) < x.exp ∧ x.exp ≤ 0 := by
  have hed : 2 ≤ c.ed := by unfold Cfg.ed; cases c.L <;> decide
  have hz : x.isZero = false := isZero_false_of_val hx.toWF (by intro h; rw [h, abs_zero] at h1; norm_num at h1)
  refine ⟨hz, ?_, ?_⟩
  · have a := lt_of_le_of_lt h1 hx.toWF.abs_lt
    rw [show (1 : ℚ) / 100 = 10 ^ (-2 : ℤ) by norm_num] at a
    have := (zpow_lt_zpow_iff_right₀ (by norm_num : (1:ℚ) < 10)).mp a
    have hd := hx.dvd
    by_contra hn
    obtain ⟨k, hk⟩ := hd
    have : k ≤ -2 := by
      by_contra hk2
      have : (c.ed : ℤ) * (-1) ≤ c.ed * k := mul_le_mul_of_nonneg_left (by omega) (by omega)
      omega
    have : (c.ed : ℤ) * k ≤ c.ed * (-2) := mul_le_mul_of_nonneg_left this (by omega)
    omega
  · have a := lt_of_le_of_lt (hx.toWF.abs_ge hz) h2
    have := (zpow_lt_zpow_iff_right₀ (by norm_num : (1:ℚ) < 10)).mp (by simpa using a : (10 : ℚ) ^ x.exp < 10 ^ (1 : ℤ))
    omega

/-- Division by a small integer. -/
theorem div_moderate {c : Cfg} {est : DW → DW} {fdig : ℕ} (h : AgmOk c) {x : DW} (hx : Full c x) (h1 : 1 / 100 ≤ x.val c)
    (h2 : x.val c < 10) {n : ℕ} (hn1 : 2 ≤ n) (hn2 : n < 100) :
    Full c (divULL c est fdig x n) ∧ |(divULL c est fdig x n).val c - x.val c / n| ≤ agmDelta c := by
  have hpos : 0 < x.val c := by linarith
  have habs : |x.val c| = x.val c := abs_of_pos hpos
  obtain ⟨hz, e1, e2⟩ := exp_moderate hx (by rw [habs]; exact h1) (by rw [habs]; exact h2)
  have hbig := h.big
  have hB : 100 ≤ c.B := by unfold Cfg.B; cases c.L <;> decide
  obtain ⟨q1, q2, q3, q4, q5, q6⟩ := divULL_small (est := est) (fdig := fdig) hx hz (n := n) (by omega) (by omega) (by omega)
  refine ⟨q1, ?_⟩
  generalize divULL c est fdig x n = r at *
  have hrv : r.val c = |r.val c| := by
    rw [val_sgn c r, q3, neg_of_pos hpos]; simp
  rw [hrv]
  rw [habs] at q4 q5
  have hed := c.ed_pos
  have hdig := c.digits_le
  have h3 := c.three_le_N
  have hcast : ((c.ed * (c.N - 1) : ℕ) : ℤ) = (c.ed : ℤ) * ((c.N : ℤ) - 1) := by
    push_cast [Nat.cast_sub (show 1 ≤ c.N by omega)]; ring
  have hδ : agmDelta c = 10 ^ (-((c.digits10 : ℤ) + c.ed)) := by
    unfold agmDelta; rw [zpow_neg, one_div, ← zpow_natCast]; push_cast; rfl
  rw [hδ]
  rcases q6 with he | he
  · obtain ⟨a, b⟩ := q5 he
    have hu : r.ulp c ≤ 10 ^ (-((c.digits10 : ℤ) + c.ed)) := by
      rw [ulp_eq]; exact zpow_le_zpow_right₀ (by norm_num) (by unfold lexp; omega)
    rw [abs_le]; constructor <;> linarith [p10_pos (-((c.digits10 : ℤ) + c.ed))]
  · refine le_trans q4.le ?_
    rw [ulp_eq, c.B_eq]
    push_cast
    rw [← pow_mul, ← zpow_natCast, ← zpow_add₀ (by norm_num)]
    refine zpow_le_zpow_right₀ (by norm_num) ?_
    push_cast
    unfold lexp
    omega

/-- Multiplication of a possibly tiny number by an integer below 2^64. -/
theorem mulU_moderate {c : Cfg} (h : AgmOk c) {x : DW} (hx : Full c x) (hlo : x.val c ≠ 0 → -(c.maxExp : ℤ) < x.exp)
    (h2 : |x.val c| < 10) {n : ℕ} (h0 : 0 < n) (hn : n < 2 ^ 64) :
    Full c (mulULL c x n) ∧ |(mulULL c x n).val c - x.val c * n| ≤ 2 * mulEps c * (|x.val c| * n) ∧
    (mulULL c x n = zero c ∨ (mulULL c x n).isZero = false) := by
  have hμ := mulEps_pos c
  have hμ1 := mulEps_lt c
  by_cases hx0 : x.val c = 0
  · have hz := hx.toWF.isZero_iff.mpr hx0
    have e : mulULL c x n = zero c := by
      unfold mulULL
      have hz' : ({ x with neg := false } : DW).isZero = true := hz
      simp [hz']
    rw [e, zero_val, hx0]
    exact ⟨zero_WF c, by simp, Or.inl rfl⟩
  · have hz := isZero_false_of_val hx.toWF hx0
    have hbig := h.big
    have hN := h.N9
    have hB : 100 ≤ c.B := by unfold Cfg.B; cases c.L <;> decide
    have hcap : n < c.B ^ c.N := by
      calc n < 2 ^ 64 := hn
        _ ≤ 100 ^ 10 := by norm_num
        _ ≤ c.B ^ c.N := by
          rw [c.B_eq, ← pow_mul]
          calc (100 : ℕ) ^ 10 = 10 ^ 20 := by norm_num
            _ ≤ _ := Nat.pow_le_pow_right (by norm_num) (by omega)
    have he0 : x.exp ≤ 0 := by
      have a := lt_of_le_of_lt (hx.toWF.abs_ge hz) h2
      have := (zpow_lt_zpow_iff_right₀ (by norm_num : (1:ℚ) < 10)).mp (by simpa using a : (10 : ℚ) ^ x.exp < 10 ^ (1 : ℤ))
      omega
    have ho : orderOf n ≤ 20 := orderOf_le (lt_of_lt_of_le hn (by norm_num)) (by norm_num)
    obtain ⟨q1, q2, q3, q4⟩ := mulULL_spec hx hz h0 hn hcap (h.ok.ok (by omega) (le_refl _)) (hlo hx0) (by omega)
    refine ⟨q1, ?_, Or.inr q2⟩
    have hul := Full.ulp_le q1.toWF q2
    have hul' : (mulULL c x n).ulp c ≤ mulEps c * |(mulULL c x n).val c| := by
      unfold mulEps
      rw [one_div, inv_mul_eq_div, le_div_iff₀ (by positivity)]; exact hul
    have hnq : (0 : ℚ) ≤ n := Nat.cast_nonneg n
    have e : (mulULL c x n).val c - x.val c * n = (if x.neg then -1 else 1) * (|(mulULL c x n).val c| - |x.val c| * n) := by
      rw [val_sgn c (mulULL c x n), val_sgn c x, q3]
      simp only [abs_mul, abs_abs]
      split <;> simp <;> ring
    rw [e, abs_mul]
    have hone : |(if x.neg = true then (-1 : ℚ) else 1)| = 1 := by split <;> simp
    rw [hone, one_mul]
    have hT : 0 ≤ |x.val c| * n := by positivity
    have hR := abs_nonneg ((mulULL c x n).val c)
    generalize |(mulULL c x n).val c| = R at *
    generalize |x.val c| * (n : ℚ) = T at *
    generalize (mulULL c x n).ulp c = U at *
    have hc : |R - T| ≤ U := by
      rcases q4 with ⟨a, b⟩ | ⟨-, -, a, b⟩
      · rw [abs_le]; constructor <;> linarith
      · rw [abs_le]; constructor <;> linarith
    obtain ⟨c1, c2⟩ := abs_le.mp hc
    have hRT : R ≤ 2 * T := by nlinarith
    have := mul_le_mul_of_nonneg_left hRT hμ.le
    linarith

/-- Product of two moderate numbers. -/
theorem mul_moderate {c : Cfg} (h : AgmOk c) {u v : DW} (hu : Full c u) (hv : Full c v) (hu1 : 1 / 100 ≤ |u.val c|)
    (hu2 : |u.val c| < 10) (hv1 : 1 / 100 ≤ |v.val c|) (hv2 : |v.val c| < 10) :
    Full c (mulAssign c u v) ∧ |(mulAssign c u v).val c - u.val c * v.val c| ≤ 2 * mulEps c * (|u.val c| * |v.val c|) := by
  obtain ⟨uz, ue1, ue2⟩ := exp_moderate hu hu1 hu2
  obtain ⟨vz, ve1, ve2⟩ := exp_moderate hv hv1 hv2
  have hbig := h.big
  have hN := h.N9
  have hμ := mulEps_pos c
  have hμ1 := mulEps_lt c
  obtain ⟨q1, q2, q3, -, q5⟩ := mulAssign_full hu hv uz vz (h.ok.ok (by omega) (le_refl _)) (by omega) (by omega)
  refine ⟨q1, ?_⟩
  have hul := Full.ulp_le q1.toWF q2
  have hul' : (mulAssign c u v).ulp c ≤ mulEps c * |(mulAssign c u v).val c| := by
    unfold mulEps
    rw [one_div, inv_mul_eq_div, le_div_iff₀ (by positivity)]; exact hul
  have e : |(mulAssign c u v).val c - u.val c * v.val c| = |(|(mulAssign c u v).val c| - |u.val c| * |v.val c|)| := by
    have key : ∀ (a b : Bool) (R S T : ℚ), |(if (a != b) = true then (-1 : ℚ) else 1) * R - (if a = true then -1 else 1) * S * ((if b = true then -1 else 1) * T)|
        = |R - S * T| := by
      intro a b R S T
      cases a <;> cases b <;> simp
      · rw [← abs_neg]; congr 1; ring
      · rw [← abs_neg]; congr 1; ring
    conv_lhs => rw [val_sgn c (mulAssign c u v), val_sgn c u, val_sgn c v, q3]
    exact key _ _ _ _ _
  rw [e]
  have hT : 0 ≤ |u.val c| * |v.val c| := by positivity
  have hR := abs_nonneg ((mulAssign c u v).val c)
  have hc : |(|(mulAssign c u v).val c| - |u.val c| * |v.val c|)| ≤ (mulAssign c u v).ulp c := by
    rcases q5 with ⟨a, b⟩ | ⟨-, a, b⟩
    · rw [abs_le]; constructor <;> linarith
    · rw [abs_le]; constructor <;> linarith
  generalize |(mulAssign c u v).val c| = R at *
  generalize |u.val c| * |v.val c| = T at *
  generalize (mulAssign c u v).ulp c = U at *
  obtain ⟨c1, c2⟩ := abs_le.mp hc
  have hRT : R ≤ 2 * T := by nlinarith
  have := mul_le_mul_of_nonneg_left hRT hμ.le
  refine le_trans hc ?_
  linarith

/-- Magnitude of a term that ends the iteration. -/
theorem agmDigits_gt {c : Cfg} {x : DW} (hx : Full c x) {g : ℤ} (hg : 0 ≤ g) (h : agmDigits x > g) : |x.val c| < 10 ^ (-g) := by
  unfold agmDigits at h
  rcases Bool.dichotomy x.isZero with hz | hz
  · obtain ⟨-, b⟩ := ilogb_spec hx.toWF hz
    refine lt_of_lt_of_le b (zpow_le_zpow_right₀ (by norm_num) ?_)
    omega
  · rw [hx.toWF.isZero_iff.mp hz, abs_zero]; positivity

end WD
