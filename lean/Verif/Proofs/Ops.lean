import Verif.Props.Mul
import Verif.Props.Div
import Verif.Proofs.Pow
import Verif.Proofs.Closure
/-
  The basic operations with error bounds that need no lower limit on the operands: what underflow flushes is below
  `flushC c`. Used for the series of `exp` and `log`.
-/
namespace WD
open DW

/-- Bound for what is lost to underflow. -/
def flushC (c : Cfg) : ℚ := 10 ^ (-(c.maxExp : ℤ) + 2 * c.ed)

theorem flushC_pos (c : Cfg) : 0 < flushC c := p10_pos _

theorem add_op {c : Cfg} {u v : DW} (hu : Full c u) (hv : Full c v) :
    Full c (addAssign c u v) ∧ |(addAssign c u v).val c - (u.val c + v.val c)| ≤ mulEps c * (|u.val c| + |v.val c|) ∧
    (v.val c = 0 → (addAssign c u v).val c = u.val c) := by
  refine ⟨addAssign_full hu hv, ?_, ?_⟩
  · have := addAssign_error hu hv
    have hp : (0 : ℚ) < 10 ^ (c.digits10 + 2 * c.ed) := by positivity
    unfold mulEps
    rw [one_div, inv_mul_eq_div, le_div_iff₀ hp]; exact this
  · intro h
    have hz := hv.toWF.isZero_iff.mpr h
    unfold addAssign
    split
    · next hu0 => rw [h, hu.toWF.isZero_iff.mp hu0]
    · simp [hz]

theorem sub_op {c : Cfg} {u v : DW} (hu : Full c u) (hv : Full c v) :
    Full c (subAssign c u v) ∧ |(subAssign c u v).val c - (u.val c - v.val c)| ≤ mulEps c * (|u.val c| + |v.val c|) ∧
    (v.val c = 0 → (subAssign c u v).val c = u.val c) := by
  refine ⟨subAssign_full hu hv, ?_, ?_⟩
  · have := subAssign_error hu hv
    have hp : (0 : ℚ) < 10 ^ (c.digits10 + 2 * c.ed) := by positivity
    unfold mulEps
    rw [one_div, inv_mul_eq_div, le_div_iff₀ hp]; exact this
  · intro h
    rw [subAssign_val hu hv, (add_op (negate_full hu) hv).2.2 h, negate_val c hu.toWF, neg_neg]

theorem mul_op {c : Cfg} {u v : DW} (hu : Full c u) (hv : Full c v) (hok : MulOk c c.N) (hE : (c.ed : ℤ) ∣ c.maxExp)
    (hM : 2 * (c.ed : ℤ) < c.maxExp)
    (hv1 : -(c.maxExp : ℤ) < v.exp) (hv2 : v.exp < c.maxExp) (hhi : u.val c ≠ 0 → v.val c ≠ 0 → u.exp + v.exp < c.maxExp) :
    Full c (mulAssign c u v) ∧
    |(mulAssign c u v).val c - u.val c * v.val c| ≤ 2 * mulEps c * (|u.val c| * |v.val c|) + flushC c := by
  refine ⟨mulAssign_closed hu hv hok hE, ?_⟩
  have hφ := flushC_pos c
  have hμ := mulEps_pos c
  have hμ1 := mulEps_lt c
  have hnn : 0 ≤ 2 * mulEps c * (|u.val c| * |v.val c|) := by positivity
  by_cases hz : u.isZero = true ∨ v.isZero = true
  · have h1 := (mulAssign_zero hu hv hz hok hv1 hv2).1
    have h2 : u.val c * v.val c = 0 := by
      rcases hz with h | h
      · rw [hu.toWF.isZero_iff.mp h, zero_mul]
      · rw [hv.toWF.isZero_iff.mp h, mul_zero]
    rw [h1, h2, sub_self, abs_zero]; linarith
  · have huz : u.isZero = false := by cases h : u.isZero <;> simp_all
    have hvz : v.isZero = false := by cases h : v.isZero <;> simp_all
    have hu0 : u.val c ≠ 0 := fun h => by rw [hu.toWF.isZero_iff.mpr h] at huz; simp at huz
    have hv0 : v.val c ≠ 0 := fun h => by rw [hv.toWF.isZero_iff.mpr h] at hvz; simp at hvz
    have hhi := hhi hu0 hv0
    have huv : 0 < |u.val c| * |v.val c| := mul_pos (abs_pos.mpr hu0) (abs_pos.mpr hv0)
    by_cases hlo : -(c.maxExp : ℤ) < u.exp + v.exp
    · have h := mul_relative_error c u v hu hv hu0 hv0 hok hlo hhi
      have h' : |(mulAssign c u v).val c - u.val c * v.val c| < |(mulAssign c u v).val c| * mulEps c := by
        unfold mulEps; rw [mul_one_div]; exact h
      have h3 : |(mulAssign c u v).val c| ≤ |u.val c * v.val c| + |(mulAssign c u v).val c - u.val c * v.val c| := by
        have := abs_add_le (u.val c * v.val c) ((mulAssign c u v).val c - u.val c * v.val c)
        simpa using this
      rw [abs_mul] at h3
      have hR := abs_nonneg ((mulAssign c u v).val c)
      generalize |(mulAssign c u v).val c| = R at *
      generalize |(mulAssign c u v).val c - u.val c * v.val c| = D at *
      generalize |u.val c| * |v.val c| = P at *
      have h4 : R * mulEps c ≤ R / 100 := by
        have := mul_le_mul_of_nonneg_left hμ1 hR
        linarith
      have h5 : R ≤ 2 * P := by linarith
      have h6 := mul_le_mul_of_nonneg_right h5 hμ.le
      linarith
    · -- underflow
      have b1 := hu.toWF.abs_lt
      have b2 := hv.toWF.abs_lt
      have hP : |u.val c| * |v.val c| < flushC c := by
        calc |u.val c| * |v.val c| < 10 ^ (u.exp + (c.ed : ℤ)) * 10 ^ (v.exp + (c.ed : ℤ)) :=
              mul_lt_mul'' b1 b2 (abs_nonneg _) (abs_nonneg _)
          _ = 10 ^ (u.exp + (c.ed : ℤ) + (v.exp + (c.ed : ℤ))) := (zpow_add₀ (by norm_num) _ _).symm
          _ ≤ _ := by
            unfold flushC
            exact zpow_le_zpow_right₀ (by norm_num) (by omega)
      have hsg : ∀ r : DW, r.neg = (u.neg != v.neg) →
          |r.val c - u.val c * v.val c| = |(|r.val c| - |u.val c| * |v.val c|)| := by
        intro r hr
        have : r.val c - u.val c * v.val c = (if r.neg then -1 else 1) * (|r.val c| - |u.val c| * |v.val c|) := by
          rw [val_sgn c r, val_sgn c u, val_sgn c v, hr]
          simp only [abs_mul, abs_abs]
          cases u.neg <;> cases v.neg <;> simp <;> ring
        rw [this, abs_mul]
        have : |(if r.neg = true then (-1 : ℚ) else 1)| = 1 := by split <;> simp
        rw [this, one_mul]
      have hsmall : ∀ r : DW, r.neg = (u.neg != v.neg) → |r.val c| ≤ flushC c →
          |r.val c - u.val c * v.val c| ≤ 2 * mulEps c * (|u.val c| * |v.val c|) + flushC c := by
        intro r h1 h2
        rw [hsg r h1]
        have : |(|r.val c| - |u.val c| * |v.val c|)| ≤ flushC c := by
          rw [abs_le]; constructor <;> linarith [abs_nonneg (r.val c)]
        linarith
      have hnear : ∀ {a b : DW}, WF c a → isOneSN c a = true → a.exp + b.exp ≤ -(c.maxExp : ℤ) → -(c.maxExp : ℤ) < b.exp →
          WF c b → |b.val c| ≤ flushC c := by
        intro a b ha h1 h2 h3 hb
        have b3 := hb.abs_lt
        have ha1 : a.exp = 0 ∨ a.exp = -(c.ed : ℤ) := by
          rcases isOneSN_spec ha h1 with ⟨-, h⟩ | ⟨-, h⟩
          · exact Or.inl h
          · exact Or.inr h
        refine le_trans b3.le (zpow_le_zpow_right₀ (by norm_num) ?_)
        omega
      rcases mulAssign_cases (c := c) huz hvz with ⟨h1, h2⟩ | ⟨-, h1, h2⟩ | ⟨-, -, h1, -⟩ | ⟨-, -, -, -, h2⟩ | ⟨-, -, h1, -, -⟩
      · rw [h2]
        refine hsmall _ rfl ?_
        rw [setNeg_abs]
        exact hnear hu.toWF h1 (by omega) hv1 hv.toWF
      · rw [h2]
        refine hsmall _ rfl ?_
        rw [setNeg_abs]
        have b3 := hu.toWF.abs_lt
        have ha1 : v.exp = 0 ∨ v.exp = -(c.ed : ℤ) := by
          rcases isOneSN_spec hv.toWF h1 with ⟨-, h⟩ | ⟨-, h⟩
          · exact Or.inl h
          · exact Or.inr h
        exact le_trans b3.le (zpow_le_zpow_right₀ (by norm_num) (by omega))
      · omega
      · rw [h2]
        refine hsmall _ rfl ?_
        rw [setNeg_abs]
        have hmin : |(minVal c).val c| < 10 ^ ((minVal c).exp + (c.ed : ℤ)) := (minVal_full c hE).toWF.abs_lt
        have : (minVal c).exp = -(c.maxExp : ℤ) := rfl
        rw [this] at hmin
        refine le_trans hmin.le (zpow_le_zpow_right₀ (by norm_num) ?_)
        have := c.ed_pos
        omega
      · omega

/-- Division by an integer below the radix. -/
theorem divU_op {c : Cfg} {est : DW → DW} {fdig : ℕ} {u : DW} (hu : Full c u) {n : ℕ} (h0 : 0 < n) (hn : n < c.B)
    (hd : 1 ≤ c.digits10) :
    Full c (divULL c est fdig u n) ∧
    |(divULL c est fdig u n).val c - u.val c / n| ≤ 2 * 10 ^ (-(c.digits10 : ℤ)) * (|u.val c| / n) + flushC c := by
  refine ⟨divULL_closed hu hn, ?_⟩
  have hφ := flushC_pos c
  have hnq : (0 : ℚ) < n := by exact_mod_cast h0
  have hε : (0 : ℚ) < 10 ^ (-(c.digits10 : ℤ)) := p10_pos _
  have hε1 : (10 : ℚ) ^ (-(c.digits10 : ℤ)) ≤ 1 / 10 := by
    rw [show (1 : ℚ) / 10 = 10 ^ (-1 : ℤ) by norm_num]
    exact zpow_le_zpow_right₀ (by norm_num) (by omega)
  have hP : 0 ≤ |u.val c| / n := by positivity
  have hnn : 0 ≤ 2 * (10 : ℚ) ^ (-(c.digits10 : ℤ)) * (|u.val c| / n) := by positivity
  by_cases hu0 : u.val c = 0
  · have hz := hu.toWF.isZero_iff.mpr hu0
    have : (divULL c est fdig u n).val c = 0 := by
      unfold divULL
      rw [if_neg (by omega), if_pos hz]
      exact (setNeg_wf hu.toWF false).isZero_iff.mp hz
    rw [this, hu0, zero_div, sub_zero, abs_zero]; linarith [hu0 ▸ hnn]
  · by_cases he : -(c.maxExp : ℤ) ≤ u.exp - c.ed
    · obtain ⟨-, -, h, -⟩ := div_unsigned_partial c est fdig u hu hu0 n h0 hn he
      have h3 : |(divULL c est fdig u n).val c| ≤ |u.val c / n| + |(divULL c est fdig u n).val c - u.val c / n| := by
        have := abs_add_le (u.val c / n) ((divULL c est fdig u n).val c - u.val c / n)
        simpa using this
      rw [abs_div, abs_of_pos hnq] at h3
      have hR := abs_nonneg ((divULL c est fdig u n).val c)
      generalize |(divULL c est fdig u n).val c| = R at *
      generalize |(divULL c est fdig u n).val c - u.val c / n| = D at *
      generalize |u.val c| / n = P at *
      generalize (10 : ℚ) ^ (-(c.digits10 : ℤ)) = ε at *
      have h4 := mul_le_mul_of_nonneg_left hε1 hR
      have h5 : R ≤ 2 * P := by linarith
      have h6 := mul_le_mul_of_nonneg_right h5 hε.le
      linarith
    · have hz := isZero_false_of_val hu.toWF hu0
      have b1 := hu.toWF.abs_lt
      have hb : |u.val c| ≤ flushC c := le_trans b1.le (zpow_le_zpow_right₀ (by norm_num) (by omega))
      have hdiv : |u.val c| / n ≤ flushC c := by
        rw [div_le_iff₀ hnq]
        have : (1 : ℚ) ≤ n := by exact_mod_cast h0
        nlinarith
      have hed := c.ed_pos
      have hres : divULL c est fdig u n = zero c ∨ ((divULL c est fdig u n).neg = u.neg ∧ (divULL c est fdig u n).exp ≤ u.exp) := by
        have key : ∀ w r : DW, w.exp ≤ u.exp → r = (if w.exp < -(c.maxExp : Int) then zero c else { w with neg := u.neg }) →
            r = zero c ∨ (r.neg = u.neg ∧ r.exp ≤ u.exp) := by
          intro w r hw hr
          split at hr
          · left; exact hr
          · right; rw [hr]; exact ⟨rfl, hw⟩
        unfold divULL
        simp only [hz, Bool.false_eq_true, if_false]
        rw [if_neg (by omega), if_neg (by omega)]
        refine key _ _ ?_ rfl
        split
        · split
          · dsimp only; omega
          · exact le_refl _
        · exact le_refl _
      have hfull : Full c (divULL c est fdig u n) := divULL_closed hu hn
      rcases hres with h | ⟨h1, h2⟩
      · rw [h, zero_val, zero_sub, abs_neg, abs_div, abs_of_pos hnq]; linarith
      · have b2 := hfull.toWF.abs_lt
        have h3 : |(divULL c est fdig u n).val c| ≤ flushC c := le_trans b2.le (zpow_le_zpow_right₀ (by norm_num) (by omega))
        generalize divULL c est fdig u n = r at *
        have : r.val c - u.val c / n = (if r.neg then -1 else 1) * (|r.val c| - |u.val c| / n) := by
          rw [val_sgn c r, val_sgn c u, h1]
          simp only [abs_mul, abs_abs]
          cases u.neg <;> simp
          ring
        rw [this, abs_mul]
        have : |(if r.neg = true then (-1 : ℚ) else 1)| = 1 := by split <;> simp
        rw [this, one_mul]
        have : |(|r.val c| - |u.val c| / n)| ≤ flushC c := by
          rw [abs_le]; constructor <;> linarith [abs_nonneg (r.val c)]
        linarith

end WD
