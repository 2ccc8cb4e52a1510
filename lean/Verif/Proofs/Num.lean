import Verif.Spec.Num
import Verif.Proofs.Limb
import Mathlib.Tactic.Positivity
import Mathlib.Tactic.FieldSimp
import Mathlib.Tactic.Push
import Mathlib.Algebra.Order.AbsoluteValue.Basic

namespace WD
open DW

theorem Cfg.B_eq (c : Cfg) : c.B = 10 ^ c.ed := rfl
theorem Cfg.B_pos (c : Cfg) : 0 < c.B := c.L.mask_pos
theorem Cfg.one_lt_B (c : Cfg) : 1 < c.B := c.L.one_lt_mask
theorem Cfg.ed_pos (c : Cfg) : 0 < c.ed := by unfold Cfg.ed; cases c.L <;> decide
theorem Cfg.three_le_N (c : Cfg) : 3 ≤ c.N := Nat.le_add_left 3 _
theorem Cfg.B_cast (c : Cfg) : (c.B : ℚ) = 10 ^ c.ed := by rw [Cfg.B_eq]; push_cast; rfl

theorem p10_pos (e : ℤ) : (0 : ℚ) < 10 ^ e := by positivity

/-- 10^e · B^k = 10^(e + ed·k). -/
theorem Cfg.p10_mul_B (c : Cfg) (e : ℤ) (k : Nat) : (10 : ℚ) ^ e * (c.B : ℚ) ^ k = 10 ^ (e + (c.ed : ℤ) * k) := by
  rw [Cfg.B_cast, zpow_add₀ (by norm_num), ← pow_mul, ← zpow_natCast (10 : ℚ) (c.ed * k)]
  push_cast; rfl

/-- The unsigned mantissa as a natural number. -/
def DW.mant (c : Cfg) (x : DW) : Nat := limbsVal c.B x.data

/-- Exponent of the last limb. -/
def DW.lexp (c : Cfg) (x : DW) : ℤ := x.exp - (c.ed : ℤ) * ((c.N : ℤ) - 1)

def DW.sgn (x : DW) : ℚ := if x.neg then -1 else 1

theorem DW.val_eq (c : Cfg) (x : DW) : x.val c = x.sgn * x.mant c * 10 ^ x.lexp c := rfl
theorem DW.ulp_eq (c : Cfg) (x : DW) : x.ulp c = 10 ^ x.lexp c := rfl
theorem DW.ulp_pos (c : Cfg) (x : DW) : 0 < x.ulp c := p10_pos _

theorem DW.abs_val (c : Cfg) (x : DW) : |x.val c| = x.mant c * 10 ^ x.lexp c := by
  rw [val_eq, sgn]
  split
  · rw [abs_mul, abs_mul, abs_neg, abs_one, one_mul, abs_of_nonneg (by positivity), abs_of_pos (p10_pos _)]
  · rw [abs_mul, abs_mul, abs_one, one_mul, abs_of_nonneg (by positivity), abs_of_pos (p10_pos _)]

theorem limbsVal_eq_zero {B : Nat} {l : List Nat} (h : ∀ d ∈ l, d = 0) : limbsVal B l = 0 := by
  induction l with
  | nil => rfl
  | cons x xs ih =>
    rw [limbsVal_cons, ih (fun d hd => h d (List.mem_cons_of_mem _ hd)), h x (List.mem_cons_self ..)]; simp

theorem limbsVal_pos_of_head {B : Nat} (_hB : 0 < B) {l : List Nat} (h : l.headD 0 ≠ 0) :
    B ^ (l.length - 1) ≤ limbsVal B l := by
  cases l with
  | nil => simp at h
  | cons x xs =>
    simp only [List.headD_cons] at h
    rw [limbsVal_cons]
    simp only [List.length_cons, Nat.add_sub_cancel]
    have : 1 * B ^ xs.length ≤ x * B ^ xs.length := Nat.mul_le_mul_right _ (by omega)
    omega

theorem limbsVal_zero_iff {B : Nat} (hB : 0 < B) {l : List Nat} : limbsVal B l = 0 ↔ ∀ d ∈ l, d = 0 := by
  constructor
  · intro h
    induction l with
    | nil => simp
    | cons x xs ih =>
      rw [limbsVal_cons] at h
      have hp : 0 < B ^ xs.length := Nat.pow_pos hB
      have h1 : x * B ^ xs.length = 0 := by omega
      have hx : x = 0 := by
        rcases Nat.mul_eq_zero.mp h1 with h | h
        · exact h
        · omega
      intro d hd
      rcases List.mem_cons.mp hd with rfl | hd
      · exact hx
      · exact ih (by omega) d hd
  · exact limbsVal_eq_zero

namespace WF
variable {c : Cfg} {x : DW}

theorem isZero_iff_mant (h : WF c x) : x.isZero = true ↔ x.mant c = 0 := by
  constructor
  · intro hz
    exact limbsVal_eq_zero (h.lead (by simpa [isZero] using hz))
  · intro hm
    have : x.d0 = 0 := by
      by_contra hd
      have := limbsVal_pos_of_head c.B_pos (l := x.data) hd
      have hp : 0 < c.B ^ (x.data.length - 1) := Nat.pow_pos c.B_pos
      unfold mant at hm; omega
    simp [isZero, this]

theorem isZero_iff (h : WF c x) : x.isZero = true ↔ x.val c = 0 := by
  rw [h.isZero_iff_mant, ← abs_eq_zero, abs_val]
  have := p10_pos (x.lexp c)
  constructor
  · intro h; rw [h]; simp
  · intro h
    rcases mul_eq_zero.mp h with h | h
    · exact_mod_cast h
    · linarith

theorem mant_lt (h : WF c x) : x.mant c < c.B ^ c.N := by
  have := limbsVal_lt h.valid
  rwa [h.len] at this

theorem mant_ge (h : WF c x) (hz : x.isZero = false) : c.B ^ (c.N - 1) ≤ x.mant c := by
  have := limbsVal_pos_of_head c.B_pos (l := x.data) (by simpa [isZero, d0] using hz)
  rwa [h.len] at this

/-- A non-zero number lies between 10^exp and 10^(exp+ed). -/
theorem abs_ge (h : WF c x) (hz : x.isZero = false) : (10 : ℚ) ^ x.exp ≤ |x.val c| := by
  rw [abs_val]
  have h1 : ((c.B ^ (c.N - 1) : Nat) : ℚ) ≤ x.mant c := by exact_mod_cast h.mant_ge hz
  have h2 := c.p10_mul_B (x.lexp c) (c.N - 1)
  have h3 : x.lexp c + (c.ed : ℤ) * ((c.N - 1 : Nat) : ℤ) = x.exp := by
    have := c.three_le_N
    have : ((c.N - 1 : Nat) : ℤ) = (c.N : ℤ) - 1 := by omega
    rw [this]; unfold lexp; ring
  rw [h3] at h2
  rw [← h2, mul_comm]
  push_cast at h1
  exact mul_le_mul_of_nonneg_right h1 (p10_pos _).le

theorem abs_lt (h : WF c x) : |x.val c| < (10 : ℚ) ^ (x.exp + c.ed) := by
  rw [abs_val]
  have h1 : (x.mant c : ℚ) < ((c.B ^ c.N : Nat) : ℚ) := by exact_mod_cast h.mant_lt
  have h2 := c.p10_mul_B (x.lexp c) c.N
  have h3 : x.lexp c + (c.ed : ℤ) * (c.N : ℤ) = x.exp + c.ed := by unfold lexp; ring
  rw [h3] at h2
  rw [← h2, mul_comm]
  push_cast at h1
  exact mul_lt_mul_of_pos_left h1 (p10_pos _)

theorem abs_pos (h : WF c x) (hz : x.isZero = false) : 0 < |x.val c| :=
  lt_of_lt_of_le (p10_pos _) (h.abs_ge hz)

theorem val_of_neg (hn : x.neg = true) : x.val c = -|x.val c| := by
  rw [abs_val, val_eq, sgn, hn]; simp

theorem val_of_pos (hn : x.neg = false) : x.val c = |x.val c| := by
  rw [abs_val, val_eq, sgn, hn]; simp

end WF

/-- Different exponents decide the order of magnitudes. -/
theorem abs_lt_of_exp_lt {c : Cfg} {x y : DW} (hx : WF c x) (hy : WF c y) (hyz : y.isZero = false)
    (he : x.exp < y.exp) : |x.val c| < |y.val c| := by
  have h1 : x.exp + c.ed ≤ y.exp := by
    obtain ⟨a, ha⟩ := hx.dvd
    obtain ⟨b, hb⟩ := hy.dvd
    have hp : (0 : ℤ) < c.ed := by exact_mod_cast c.ed_pos
    have : a < b := by
      rw [ha, hb] at he
      exact lt_of_mul_lt_mul_left he hp.le
    rw [ha, hb]
    nlinarith
  calc |x.val c| < 10 ^ (x.exp + c.ed) := hx.abs_lt
    _ ≤ 10 ^ y.exp := zpow_le_zpow_right₀ (by norm_num) h1
    _ ≤ |y.val c| := hy.abs_ge hyz

/-- Equal exponents: the limbs decide. -/
theorem compare_data {c : Cfg} {x y : DW} (hx : WF c x) (hy : WF c y) (he : x.exp = y.exp) :
    (|x.val c| < |y.val c| ↔ compareRanges x.data y.data = -1) ∧
    (|x.val c| = |y.val c| ↔ compareRanges x.data y.data = 0) ∧
    (|y.val c| < |x.val c| ↔ compareRanges x.data y.data = 1) := by
  have hl : lexp c x = lexp c y := by unfold lexp; rw [he]
  rw [abs_val, abs_val, hl, compareRanges_spec c.B x.data y.data (by rw [hx.len, hy.len]) hx.valid hy.valid]
  have hp := p10_pos (lexp c y)
  unfold cmp3
  have e1 : (x.mant c : ℚ) * 10 ^ lexp c y < y.mant c * 10 ^ lexp c y ↔ limbsVal c.B x.data < limbsVal c.B y.data := by
    rw [mul_lt_mul_iff_of_pos_right hp]; exact_mod_cast Iff.rfl
  have e2 : (y.mant c : ℚ) * 10 ^ lexp c y < x.mant c * 10 ^ lexp c y ↔ limbsVal c.B y.data < limbsVal c.B x.data := by
    rw [mul_lt_mul_iff_of_pos_right hp]; exact_mod_cast Iff.rfl
  have e3 : (x.mant c : ℚ) * 10 ^ lexp c y = y.mant c * 10 ^ lexp c y ↔ limbsVal c.B x.data = limbsVal c.B y.data := by
    rw [mul_left_inj' hp.ne']; exact_mod_cast Iff.rfl
  rw [e1, e2, e3]
  refine ⟨?_, ?_, ?_⟩ <;> split_ifs <;> simp <;> omega

/-- `cmp` is the three-way comparison of the denoted rationals. -/
theorem cmp_spec {c : Cfg} {x y : DW} (hx : WF c x) (hy : WF c y) :
    (DW.cmp x y = -1 ∧ x.val c < y.val c) ∨ (DW.cmp x y = 0 ∧ x.val c = y.val c) ∨ (DW.cmp x y = 1 ∧ y.val c < x.val c) := by
  unfold DW.cmp
  cases hxz : x.isZero
  · cases hyz : y.isZero
    · have px := hx.abs_pos hxz
      have py := hy.abs_pos hyz
      cases hxn : x.neg <;> cases hyn : y.neg <;> simp only [Bool.false_eq_true, if_false, if_true, bne_self_eq_false,
        bne_iff_ne, ne_eq, not_true_eq_false, not_false_eq_true, reduceCtorEq, Bool.not_false, Bool.not_true]
      · rw [WF.val_of_pos (c := c) hxn, WF.val_of_pos (c := c) hyn]
        by_cases he : x.exp = y.exp
        · obtain ⟨h1, h2, h3⟩ := compare_data hx hy he
          simp only [he, not_true_eq_false, if_false]
          rcases lt_trichotomy |x.val c| |y.val c| with h | h | h
          · exact Or.inl ⟨h1.mp h, h⟩
          · exact Or.inr (Or.inl ⟨h2.mp h, h⟩)
          · exact Or.inr (Or.inr ⟨h3.mp h, h⟩)
        · simp only [he, not_false_eq_true, if_true]
          rcases lt_or_gt_of_ne he with h | h
          · simp only [h, if_true]; exact Or.inl ⟨by first | trivial | rfl | simp, abs_lt_of_exp_lt hx hy hyz h⟩
          · rw [if_neg (by omega)]; exact Or.inr (Or.inr ⟨by first | trivial | rfl | simp, abs_lt_of_exp_lt hy hx hxz h⟩)
      · rw [WF.val_of_pos (c := c) hxn, WF.val_of_neg (c := c) hyn]
        exact Or.inr (Or.inr ⟨by first | trivial | rfl | simp, by linarith⟩)
      · rw [WF.val_of_neg (c := c) hxn, WF.val_of_pos (c := c) hyn]
        exact Or.inl ⟨by first | trivial | rfl | simp, by linarith⟩
      · rw [WF.val_of_neg (c := c) hxn, WF.val_of_neg (c := c) hyn]
        by_cases he : x.exp = y.exp
        · obtain ⟨h1, h2, h3⟩ := compare_data hx hy he
          simp only [he, not_true_eq_false, if_false]
          rcases lt_trichotomy |x.val c| |y.val c| with h | h | h
          · exact Or.inr (Or.inr ⟨by rw [h1.mp h]; rfl, by linarith⟩)
          · exact Or.inr (Or.inl ⟨by rw [h2.mp h]; rfl, by linarith⟩)
          · exact Or.inl ⟨by rw [h3.mp h], by linarith⟩
        · simp only [he, not_false_eq_true, if_true]
          rcases lt_or_gt_of_ne he with h | h
          · simp only [h, if_true]
            exact Or.inr (Or.inr ⟨by first | trivial | rfl | simp, by have := abs_lt_of_exp_lt hx hy hyz h; linarith⟩)
          · rw [if_neg (by omega)]
            exact Or.inl ⟨by first | trivial | rfl | simp, by have := abs_lt_of_exp_lt hy hx hxz h; linarith⟩
    · have h0 := hy.isZero_iff.mp hyz
      have px := hx.abs_pos hxz
      rw [h0]
      cases hxn : x.neg <;> simp only [Bool.false_eq_true, if_false, if_true]
      · rw [WF.val_of_pos (c := c) hxn]; exact Or.inr (Or.inr ⟨by first | trivial | rfl | simp, px⟩)
      · rw [WF.val_of_neg (c := c) hxn]; exact Or.inl ⟨by first | trivial | rfl | simp, by linarith⟩
  · have h0 := hx.isZero_iff.mp hxz
    rw [h0]
    cases hyz : y.isZero
    · have py := hy.abs_pos hyz
      cases hyn : y.neg <;> simp only [Bool.false_eq_true, if_false, if_true]
      · rw [WF.val_of_pos (c := c) hyn]; exact Or.inl ⟨by first | trivial | rfl | simp, py⟩
      · rw [WF.val_of_neg (c := c) hyn]; exact Or.inr (Or.inr ⟨by first | trivial | rfl | simp, by linarith⟩)
    · exact Or.inr (Or.inl ⟨by first | trivial | rfl | simp, (hy.isZero_iff.mp hyz).symm⟩)

end WD
