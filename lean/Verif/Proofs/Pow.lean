import Verif.Props.Mul
import Verif.Model.Pow
import Mathlib.Algebra.Order.Ring.Pow
import Mathlib.Tactic.Linarith
import Mathlib.Tactic.Positivity
import Mathlib.Tactic.FieldSimp
/-
  The ladder of `pow`: error and exactness.
-/
namespace WD
open DW

/-- `q` is `r` times at most `n` factors between 1-ε and 1+ε. -/
structure Near (ε : ℚ) (n : ℕ) (r q : ℚ) : Prop where
  lo : |q| ≤ |r| * (1 + ε) ^ n
  hi : |r| * (1 - ε) ^ n ≤ |q|
  sgn : 0 < r * q

theorem Near.refl {ε q : ℚ} (h0 : 0 ≤ ε) (h1 : ε < 1) (hq : q ≠ 0) (n : ℕ) : Near ε n q q := by
  refine ⟨?_, ?_, mul_self_pos.mpr hq⟩
  · have : 1 ≤ (1 + ε) ^ n := one_le_pow₀ (by linarith)
    nlinarith [abs_nonneg q]
  · have : (1 - ε) ^ n ≤ 1 := pow_le_one₀ (by linarith) (by linarith)
    nlinarith [abs_nonneg q]

theorem Near.mul {ε r q s t w : ℚ} {n m : ℕ} (h0 : 0 ≤ ε) (h1 : ε < 1) (h : Near ε n r q) (k : Near ε m s t)
    (hw : |w - r * s| < |w| * ε) : Near ε (n + m + 1) w (q * t) := by
  have hr : r ≠ 0 := by intro e; have := h.sgn; rw [e, zero_mul] at this; exact lt_irrefl _ this
  have hs : s ≠ 0 := by intro e; have := k.sgn; rw [e, zero_mul] at this; exact lt_irrefl _ this
  have hwne : w ≠ 0 := by
    intro e; rw [e, abs_zero, zero_mul] at hw; exact absurd hw (not_lt.mpr (abs_nonneg _))
  have hwp : 0 < |w| := abs_pos.mpr hwne
  have hrp : 0 < |r| := abs_pos.mpr hr
  have hsp : 0 < |s| := abs_pos.mpr hs
  have hlt : |w| * ε < |w| := by nlinarith
  -- |rs| between |w|(1-ε) and |w|(1+ε)
  have b1 : |r * s| ≤ |w| * (1 + ε) := by
    have : |r * s| ≤ |w| + |w - r * s| := by
      have := abs_sub_abs_le_abs_sub (r * s) w
      rw [abs_sub_comm] at this; linarith
    linarith
  have b2 : |w| * (1 - ε) ≤ |r * s| := by
    have := abs_sub_abs_le_abs_sub w (r * s)
    linarith
  rw [abs_mul] at b1 b2
  have e1 : (0 : ℚ) < (1 - ε) := by linarith
  refine ⟨?_, ?_, ?_⟩
  · rw [abs_mul]
    calc |q| * |t| ≤ (|r| * (1 + ε) ^ n) * (|s| * (1 + ε) ^ m) := mul_le_mul h.lo k.lo (abs_nonneg _) (by positivity)
      _ = (|r| * |s|) * (1 + ε) ^ (n + m) := by rw [pow_add]; ring
      _ ≤ (|w| * (1 + ε)) * (1 + ε) ^ (n + m) := mul_le_mul_of_nonneg_right b1 (by positivity)
      _ = _ := by rw [pow_succ]; ring
  · rw [abs_mul]
    calc |w| * (1 - ε) ^ (n + m + 1) = (|w| * (1 - ε)) * (1 - ε) ^ (n + m) := by rw [pow_succ]; ring
      _ ≤ (|r| * |s|) * (1 - ε) ^ (n + m) := mul_le_mul_of_nonneg_right b2 (by positivity)
      _ = (|r| * (1 - ε) ^ n) * (|s| * (1 - ε) ^ m) := by rw [pow_add]; ring
      _ ≤ _ := mul_le_mul h.hi k.hi (by positivity) (abs_nonneg _)
  · have hws : 0 < w * (r * s) := by
      rcases lt_or_gt_of_ne hwne with hn | hp
      · rw [abs_of_neg hn] at hw hlt
        have := (abs_lt.mp hw).1
        have hneg : r * s < 0 := by linarith
        exact mul_pos_of_neg_of_neg hn hneg
      · rw [abs_of_pos hp] at hw hlt
        have := (abs_lt.mp hw).2
        have hpos : 0 < r * s := by linarith
        exact mul_pos hp hpos
    have hh := mul_pos h.sgn k.sgn
    have h2 : 0 < (w * (q * t)) * ((r * s) * (r * s)) := by
      have := mul_pos hws hh
      calc (0 : ℚ) < w * (r * s) * (r * q * (s * t)) := this
        _ = _ := by ring
    have h3 : 0 < (r * s) * (r * s) := mul_self_pos.mpr (mul_ne_zero hr hs)
    exact (mul_pos_iff_of_pos_right h3).mp h2

/-- The relative accuracy of one multiplication. -/
def mulEps (c : Cfg) : ℚ := 1 / 10 ^ (c.digits10 + 2 * c.ed)

theorem mulEps_pos (c : Cfg) : 0 < mulEps c := by unfold mulEps; positivity
theorem mulEps_lt (c : Cfg) : mulEps c ≤ 1 / 100 := by
  unfold mulEps
  rw [div_le_div_iff_of_pos_left (by norm_num) (by positivity) (by norm_num)]
  calc (100 : ℚ) = 10 ^ 2 := by norm_num
    _ ≤ _ := pow_le_pow_right₀ (by norm_num) (by have := c.ed_pos; omega)

theorem mulAssign_zero_exp {c : Cfg} {x y : DW} (hy : Full c y) (hz : x.isZero = true ∨ y.isZero = true)
    (hok : MulOk c c.N) (hlo : -(c.maxExp : ℤ) < y.exp) (hhi : y.exp < c.maxExp) :
    (mulAssign c x y).exp = y.exp ∨ (mulAssign c x y).exp = 0 := by
  have hz0 : (zero c).isZero = true := (zero_WF c).toWF.isZero_iff.mpr (zero_val c)
  have h1 : isOneSN c { zero c with neg := false } = false := isOneSN_zero c _ hz0
  unfold mulAssign
  have hz' : x.isZero = true ∨ y.isZero = true := hz
  simp only [hz', if_true, h1, Bool.false_eq_true, if_false]
  split
  · exact Or.inr rfl
  · have he : (zero c).exp = 0 := rfl
    rw [if_neg (by rw [he]; omega), if_neg (by rw [he]; omega)]
    have hp : min (zero c).prec y.prec = c.N := by rw [(zero_WF c).full, hy.full, Nat.min_self]
    rw [hp]
    have hu : WF c { zero c with neg := false, exp := (zero c).exp + y.exp } :=
      ⟨(zero_WF c).len, (zero_WF c).valid, by rw [he, zero_add]; exact hy.dvd, (zero_WF c).prec2, (zero_WF c).precN, (zero_WF c).lead⟩
    obtain ⟨-, -, q3, -⟩ := mulDispatch_zero hu hy.len hy.valid ((zero_WF c).lead (by simpa [isZero] using hz0)) (le_refl _) hok
    left
    show (mulDispatch c c.N { zero c with neg := false, exp := (zero c).exp + y.exp } y).exp = y.exp
    rw [q3]; show (zero c).exp + y.exp = y.exp
    rw [he, zero_add]

/-- The ladder with abstract relations: `R a r` for "r stands for x^a" (accumulator) and `Y k y` for the squares. -/
theorem powLoop_ind {c : Cfg} {R Y : ℕ → DW → Prop} {P : ℕ}
    (hR : ∀ a k r y, R a r → Y k y → 1 ≤ k → a + k ≤ P → R (a + k) (mulAssign c r y))
    (hY : ∀ k y, Y k y → 1 ≤ k → k + k ≤ P → Y (k + k) (mulAssign c y y)) :
    ∀ (p : ℕ) (r y : DW) (a k : ℕ), 0 < p → 1 ≤ k → R a r → Y k y → a + p * k = P → R P (powLoop c p r y) := by
  intro p
  induction p using Nat.strong_induction_on with
  | _ p ih =>
    intro r y a k hp hk hr hy hP
    rw [powLoop]
    have hmod : p = 2 * (p / 2) + p % 2 := by omega
    have hstep : R (a + (p % 2) * k) (if p % 2 ≠ 0 then mulAssign c r y else r) := by
      by_cases h : p % 2 ≠ 0
      · rw [if_pos h, show p % 2 = 1 by omega, Nat.one_mul]
        refine hR a k r y hr hy hk ?_
        have : 1 * k ≤ p * k := Nat.mul_le_mul_right k hp
        omega
      · rw [if_neg h, show p % 2 = 0 by omega, Nat.zero_mul, Nat.add_zero]; exact hr
    by_cases h : p / 2 = 0
    · rw [dif_pos h]
      have hp1 : p % 2 = p := by omega
      rw [hp1, hP] at hstep
      rw [hp1]; exact hstep
    · rw [dif_neg h]
      refine ih (p / 2) (by omega) _ _ (a + (p % 2) * k) (k + k) (by omega) (by omega) hstep (hY k y hy hk ?_) ?_
      · have : 2 * k ≤ p * k := Nat.mul_le_mul_right k (by omega)
        omega
      · rw [← hP]
        conv_rhs => rw [hmod]
        ring

/-- The whole of `pow` for p ≥ 0. -/
theorem powNat_ind {c : Cfg} {R Y : ℕ → DW → Prop} {P : ℕ} {b : DW}
    (hR : ∀ a k r y, R a r → Y k y → 1 ≤ k → a + k ≤ P → R (a + k) (mulAssign c r y))
    (hY : ∀ k y, Y k y → 1 ≤ k → k + k ≤ P → Y (k + k) (mulAssign c y y))
    (hYR : ∀ k y, Y k y → R k y) (h1 : R 0 (ofUnsigned c 32 1)) (hb : Y 1 b) : R P (powNat c b P) := by
  unfold powNat
  by_cases h0 : P = 0
  · rw [if_pos h0, h0]; exact h1
  rw [if_neg h0]
  by_cases p1 : P = 1
  · rw [if_pos p1, p1]; exact hYR _ _ hb
  rw [if_neg p1]
  by_cases p2 : P = 2
  · rw [if_pos p2, p2]; exact hYR _ _ (hY 1 b hb (le_refl _) (by omega))
  rw [if_neg p2]
  by_cases p3 : P = 3
  · rw [if_pos p3, p3]; exact hR 2 1 _ _ (hYR _ _ (hY 1 b hb (le_refl _) (by omega))) hb (le_refl _) (by omega)
  rw [if_neg p3]
  by_cases p4 : P = 4
  · rw [if_pos p4, p4]; exact hYR _ _ (hY 2 _ (hY 1 b hb (le_refl _) (by omega)) (by omega) (by omega))
  rw [if_neg p4]
  exact powLoop_ind hR hY P _ _ 0 1 (by omega) (le_refl _) h1 hb (by omega)

theorem ofU32_one (c : Cfg) : Full c (ofUnsigned c 32 1) ∧ (ofUnsigned c 32 1).val c = 1 ∧ (ofUnsigned c 32 1).exp = 0 := by
  obtain ⟨a, b, -, -⟩ := of_unsigned_exact c 32 1 (by norm_num) (by norm_num)
  have hcap : 1 < 10 ^ (c.ed * c.N) := by
    have := c.ed_pos; have := c.three_le_N
    exact Nat.one_lt_pow (by positivity) (by norm_num)
  have hv := b hcap
  refine ⟨a, by exact_mod_cast hv, ?_⟩
  have hz := isZero_false_of_val a.toWF (by rw [hv]; norm_num)
  have g1 := a.toWF.abs_ge hz
  have g2 := a.toWF.abs_lt
  rw [hv] at g1 g2
  obtain ⟨k, hk⟩ := a.dvd
  have e1 : (ofUnsigned c 32 1).exp ≤ 0 := by
    have : (10 : ℚ) ^ (ofUnsigned c 32 1).exp ≤ 10 ^ (0 : ℤ) := by simpa using g1
    exact (zpow_le_zpow_iff_right₀ (by norm_num)).mp this
  have e2 : 0 < (ofUnsigned c 32 1).exp + c.ed := by
    have : (10 : ℚ) ^ (0 : ℤ) < 10 ^ ((ofUnsigned c 32 1).exp + c.ed) := by simpa using g2
    exact (zpow_lt_zpow_iff_right₀ (by norm_num)).mp this
  have hed : (0 : ℤ) < c.ed := by exact_mod_cast c.ed_pos
  rw [hk] at e1 e2 ⊢
  have : k = 0 := by
    have : k ≤ 0 := by
      by_contra hc
      have : 0 < (c.ed : ℤ) * k := mul_pos hed (by omega)
      omega
    have : -1 < k := by
      by_contra hc
      have : (c.ed : ℤ) * k ≤ (c.ed : ℤ) * (-1) := mul_le_mul_of_nonneg_left (by omega) hed.le
      omega
    omega
  rw [this, mul_zero]

/-- From a magnitude estimate to the exponent condition of the multiplication. -/
theorem exp_range {c : Cfg} {r y : DW} (hr : WF c r) (hy : WF c y) (hr0 : r.val c ≠ 0) (hy0 : y.val c ≠ 0)
    (h1 : |r.val c * y.val c| < (10 : ℚ) ^ (c.maxExp : ℤ))
    (h2 : (10 : ℚ) ^ (-(c.maxExp : ℤ) + 2 * c.ed) ≤ |r.val c * y.val c|) :
    -(c.maxExp : ℤ) < r.exp + y.exp ∧ r.exp + y.exp < c.maxExp := by
  have a1 := hr.abs_ge (isZero_false_of_val hr hr0)
  have a2 := hy.abs_ge (isZero_false_of_val hy hy0)
  have b1 := hr.abs_lt
  have b2 := hy.abs_lt
  rw [abs_mul] at h1 h2
  constructor
  · have : (10 : ℚ) ^ (-(c.maxExp : ℤ) + 2 * c.ed) < 10 ^ ((r.exp + c.ed) + (y.exp + c.ed)) := by
      rw [zpow_add₀ (by norm_num) (r.exp + c.ed)]
      exact lt_of_le_of_lt h2 (mul_lt_mul'' b1 b2 (abs_nonneg _) (abs_nonneg _))
    have := (zpow_lt_zpow_iff_right₀ (by norm_num : (1 : ℚ) < 10)).mp this
    omega
  · have : (10 : ℚ) ^ (r.exp + y.exp) < 10 ^ (c.maxExp : ℤ) := by
      rw [zpow_add₀ (by norm_num)]
      exact lt_of_le_of_lt (mul_le_mul a1 a2 (by positivity) (abs_nonneg _)) h1
    exact (zpow_lt_zpow_iff_right₀ (by norm_num : (1 : ℚ) < 10)).mp this

/-- Powers between 1 and the last one. -/
theorem pow_between {q lo hi : ℚ} {P j : ℕ} (hj : j ≤ P) (hlo : lo ≤ 1) (hhi : 1 ≤ hi) (h1 : lo ≤ |q ^ P|) (h2 : |q ^ P| ≤ hi) :
    lo ≤ |q ^ j| ∧ |q ^ j| ≤ hi := by
  rw [abs_pow] at h1 h2 ⊢
  rcases le_total 1 |q| with h | h
  · have : |q| ^ j ≤ |q| ^ P := pow_le_pow_right₀ h hj
    have : 1 ≤ |q| ^ j := one_le_pow₀ h
    exact ⟨by linarith, by linarith⟩
  · have : |q| ^ P ≤ |q| ^ j := pow_le_pow_of_le_one (abs_nonneg _) h hj
    have : |q| ^ j ≤ 1 := pow_le_one₀ (abs_nonneg _) h
    exact ⟨by linarith, by linarith⟩

theorem near_bounds {ε : ℚ} {P : ℕ} (h0 : 0 ≤ ε) (h1 : ε ≤ 1 / 100) (hP : (P : ℚ) * ε ≤ 1 / 2) {n : ℕ} (hn : n ≤ P) :
    (1 + ε) ^ n ≤ 2 ∧ 1 / 2 ≤ (1 - ε) ^ n := by
  have b : 1 + (P : ℚ) * (-ε) ≤ (1 + -ε) ^ P := one_add_mul_le_pow (by linarith) P
  have lo : 1 / 2 ≤ (1 - ε) ^ P := by
    rw [sub_eq_add_neg]; linarith
  have lo' : 1 / 2 ≤ (1 - ε) ^ n := le_trans lo (pow_le_pow_of_le_one (by linarith) (by linarith) hn)
  refine ⟨?_, lo'⟩
  have hprod : (1 + ε) ^ n * (1 - ε) ^ n ≤ 1 := by
    rw [← mul_pow]
    exact pow_le_one₀ (by nlinarith) (by nlinarith)
  have hp : 0 ≤ (1 + ε) ^ n := by positivity
  nlinarith

end WD
