import Verif.Proofs.Round2
import Verif.Proofs.Mul3

namespace WD
open DW

theorem roundSelf_zero {c : Cfg} {x : DW} (h : x.isZero = true) : roundSelf c x = x := by
  unfold roundSelf; rw [if_pos h]

theorem roundSelf_full {c : Cfg} {x : DW} (hx : Full c x) (hg : c.ed ≤ c.digits10 + 4) : Full c (roundSelf c x) := by
  cases hz : x.isZero
  · obtain ⟨a, -, -, b, -⟩ := roundSelf_val hx.toWF hz hg
    exact ⟨a, by rw [b]; exact hx.full⟩
  · rw [roundSelf_zero hz]; exact hx

theorem roundSelf_wf {c : Cfg} {x : DW} (hx : WF c x) (hg : c.ed ≤ c.digits10 + 4) :
    WF c (roundSelf c x) ∧ (roundSelf c x).isZero = x.isZero ∧ (roundSelf c x).neg = x.neg ∧ x.exp ≤ (roundSelf c x).exp := by
  cases hz : x.isZero
  · obtain ⟨a, b, d, -, f, -⟩ := roundSelf_val hx hz hg
    exact ⟨a, b, d, f⟩
  · rw [roundSelf_zero hz]; exact ⟨hx, hz, rfl, le_rfl⟩

/-- A number with at most `max_digits10` significant digits is not changed by rounding. -/
theorem roundSelf_multiple {c : Cfg} {x : DW} (hx : WF c x) (hg : c.ed ≤ c.digits10 + 4)
    (hm : ∃ k : ℤ, x.val c = k * roundUnit c x) : (roundSelf c x).val c = x.val c ∧ (roundSelf c x).exp = x.exp := by
  cases hz : x.isZero
  · obtain ⟨a, b, d, -, -, m, r, e, -, -, -, -, -, f⟩ := roundSelf_val hx hz hg
    obtain ⟨k, hk⟩ := hm
    have hU : 0 < roundUnit c x := p10_pos _
    have hk' : |x.val c| = (k.natAbs : ℕ) * roundUnit c x := by
      rw [hk, abs_mul, abs_of_pos hU, Nat.cast_natAbs]; push_cast; rfl
    obtain ⟨f1, f2, f3⟩ := f _ hk'
    refine ⟨?_, f3⟩
    rw [val_sgn c (roundSelf c x), d, e, f1, f2, add_zero, ← hk', ← val_sgn]
  · rw [roundSelf_zero hz]; exact ⟨rfl, rfl⟩

/-- Truncating at a unit that divides one does not change the integer part. -/
theorem floor_trunc {c : Cfg} {r : DW} {z : ℚ} (hl : r.lexp c ≤ 0) (h1 : |r.val c| ≤ z) (h2 : z < |r.val c| + r.ulp c) :
    ⌊z⌋ = ⌊|r.val c|⌋ := by
  apply le_antisymm
  · rw [Int.le_floor]
    by_contra h
    push Not at h
    obtain ⟨j, hj⟩ : ∃ j : ℕ, r.lexp c = -(j : ℤ) := ⟨(-r.lexp c).toNat, by omega⟩
    have hu : r.ulp c * 10 ^ j = 1 := by
      rw [ulp_eq, hj, zpow_neg, zpow_natCast]; field_simp
    have hr : |r.val c| * 10 ^ j = r.mant c := by
      rw [abs_val, mul_assoc, ← ulp_eq, hu, mul_one]
    have hf := Int.floor_le z
    have hp : (0 : ℚ) < 10 ^ j := by positivity
    have a1 : (r.mant c : ℚ) < (⌊z⌋ * 10 ^ j : ℤ) := by
      push_cast; rw [← hr]; exact mul_lt_mul_of_pos_right h hp
    have a2 : ((⌊z⌋ * 10 ^ j : ℤ) : ℚ) < r.mant c + 1 := by
      push_cast; rw [← hr, ← hu, ← add_mul]; exact mul_lt_mul_of_pos_right (by linarith) hp
    have a1' : ((r.mant c : ℤ)) < ⌊z⌋ * 10 ^ j := by exact_mod_cast a1
    have a2' : ⌊z⌋ * 10 ^ j < (r.mant c : ℤ) + 1 := by exact_mod_cast a2
    omega
  · exact Int.floor_le_floor h1

theorem lexp_nonpos {c : Cfg} {r : DW} (h : r.exp < (c.digits10 : ℤ) - 1) : r.lexp c ≤ 0 := by
  unfold lexp
  have := c.digits_le
  have h3 := c.three_le_N
  have e2 : (c.ed : ℤ) * ((c.N : ℤ) - 1) = ((c.ed * (c.N - 1) : Nat) : ℤ) := by
    push_cast [Nat.cast_sub (show 1 ≤ c.N by omega)]; ring
  rw [e2]; omega

theorem exp_lt_of_abs {c : Cfg} {r : DW} (hr : WF c r) (hz : r.isZero = false) {e : ℤ} (h : |r.val c| < 10 ^ e) : r.exp < e :=
  (zpow_lt_zpow_iff_right₀ (by norm_num : (1:ℚ) < 10)).mp (lt_of_le_of_lt (hr.abs_ge hz) h)

theorem one_isZero (c : Cfg) : (one c).isZero = false := by
  cases h : (one c).isZero
  · rfl
  · have := (one_full c).toWF.isZero_iff.mp h
    rw [one_val] at this; norm_num at this

/-- |y| + 1 computed, then truncated: the magnitude is ⌊|y|⌋ + 1. -/
theorem step_out {c : Cfg} {y : DW} (hy : Full c y) (hyz : y.isZero = false) (hn : y.neg = false)
    (hb : |y.val c| + 1 < 10 ^ ((c.digits10 : ℤ) - 1)) :
    (integerPart c (addAssign c y (one c))).val c = (⌊|y.val c|⌋ + 1 : ℤ) ∧
    (integerPart c (addAssign c y (one c)).negate).val c = -((⌊|y.val c|⌋ + 1 : ℤ) : ℚ) := by
  obtain ⟨q1, q2, q3, -, q5, q6, q7⟩ := addAssign_same hy (one_full c) hyz (one_isZero c) (by rw [hn]; rfl)
  rw [one_val, abs_one] at q6 q7
  set r := addAssign c y (one c) with hr
  have hexp : r.exp < (c.digits10 : ℤ) - 1 := exp_lt_of_abs q1.toWF q3 (lt_of_le_of_lt q6 hb)
  have hf := floor_trunc (lexp_nonpos hexp) q6 q7
  rw [Int.floor_add_one] at hf
  constructor
  · rw [integerPart_val q1.toWF hexp, val_sgn c r, truncQ_sgn _ (abs_nonneg _), q2, hn, hf]; simp
  · have e : r.negate.exp = r.exp := negate_exp r
    rw [integerPart_val (negate_WF q1.toWF) (by rw [e]; exact hexp), negate_val c q1.toWF, val_sgn c r, q2, hn, hf]
    have := truncQ_sgn true (abs_nonneg (r.val c))
    simp only [if_true, neg_one_mul] at this
    simp only [Bool.false_eq_true, if_false, one_mul]
    rw [this]; push_cast; rfl

theorem negate_eq {x : DW} (h : x.isZero = false) : x.negate = { x with neg := !x.neg } := by
  unfold negate; rw [h]; rfl

/-- floor of the rounded number. -/
theorem floor_spec {c : Cfg} {x : DW} (hx : Full c x) (hg : c.ed ≤ c.digits10 + 4) (h0 : x.isZero = false ∨ 0 ≤ x.exp)
    (hb : (∃ m : ℤ, (roundSelf c x).val c = m) ∨ |(roundSelf c x).val c| + 1 < 10 ^ ((c.digits10 : ℤ) - 1)) :
    (floor c x).val c = (⌊(roundSelf c x).val c⌋ : ℤ) ∧ (ceil c x).val c = (⌈(roundSelf c x).val c⌉ : ℤ) := by
  have hy := roundSelf_full hx hg
  obtain ⟨-, hyz', hyn, hye⟩ := roundSelf_wf hx.toWF hg
  have h0' : (roundSelf c x).isZero = false ∨ 0 ≤ (roundSelf c x).exp := by
    rcases h0 with h | h
    · left; rw [hyz']; exact h
    · right; omega
  set y := roundSelf c x with hyd
  unfold floor ceil
  simp only [← hyd]
  have hi := isInt_spec hy.toWF h0'
  cases hint : isInt c y
  · have hni : ¬ ∃ m : ℤ, y.val c = m := by rw [← hi, hint]; simp
    have hb' : |y.val c| + 1 < 10 ^ ((c.digits10 : ℤ) - 1) := hb.resolve_left hni
    have hyz : y.isZero = false := by
      cases h : y.isZero
      · rfl
      · exact absurd ⟨0, by rw [hy.toWF.isZero_iff.mp h]; simp⟩ hni
    have hexp : y.exp < (c.digits10 : ℤ) - 1 := exp_lt_of_abs hy.toWF hyz (by linarith)
    have hni' : ¬ ∃ m : ℤ, |y.val c| = m := by rw [← int_iff_abs]; exact hni
    have hceil : ⌈|y.val c|⌉ = ⌊|y.val c|⌋ + 1 := by
      rw [Int.ceil_eq_iff]
      have h1 := Int.floor_le |y.val c|
      have h2 := Int.lt_floor_add_one |y.val c|
      refine ⟨?_, by push_cast; exact h2.le⟩
      push_cast
      rcases lt_or_eq_of_le h1 with h | h
      · linarith
      · exact absurd ⟨_, h.symm⟩ hni'
    simp only [Bool.not_false, if_true, isNeg]
    rcases Bool.dichotomy y.neg with hn | hn
    · have hv : y.val c = |y.val c| := WF.val_of_pos hn
      simp only [hn, Bool.false_eq_true, if_false, Bool.not_false, if_true]
      refine ⟨?_, ?_⟩
      · rw [integerPart_val hy.toWF hexp, hv]; unfold truncQ; rw [if_pos (abs_nonneg _)]
      · rw [(step_out hy hyz hn hb').1, hv, abs_abs, hceil]
    · have hv : y.val c = -|y.val c| := WF.val_of_neg hn
      simp only [hn, Bool.not_true, Bool.false_eq_true, if_false, if_true]
      refine ⟨?_, ?_⟩
      · unfold subAssign
        have hfn : Full c y.negate := negate_full hy
        have ha : |y.negate.val c| = |y.val c| := by rw [negate_val c hy.toWF, abs_neg]
        rw [(step_out hfn (by rw [negate_isZero]; exact hyz) (by rw [negate_neg hyz, hn]; rfl) (by rw [ha]; exact hb')).2,
          ha, hv, Int.floor_neg, abs_neg, abs_abs, hceil]; push_cast; rfl
      · rw [integerPart_val hy.toWF hexp, hv]
        unfold truncQ
        rw [if_neg]
        have := hy.toWF.abs_pos hyz
        linarith
  · obtain ⟨m, hm⟩ := hi.mp hint
    simp only [Bool.not_true, Bool.false_eq_true, if_false]
    rw [hm]; simp

theorem ilogb_spec {c : Cfg} {x : DW} (hx : WF c x) (hz : x.isZero = false) :
    (10 : ℚ) ^ ilogb x ≤ |x.val c| ∧ |x.val c| < 10 ^ (ilogb x + 1) := by
  obtain ⟨n1, n2, n3, n4⟩ := nd_bounds hx hz
  have h3 := c.three_le_N
  obtain ⟨y, ys, hd⟩ : ∃ y ys, x.data = y :: ys := by
    cases h : x.data with
    | nil => have := hx.len; rw [h] at this; simp at this; omega
    | cons y ys => exact ⟨y, ys, rfl⟩
  have hyl : ys.length = c.N - 1 := by have := hx.len; rw [hd, List.length_cons] at this; omega
  have hd0 : x.d0 = y := by simp [d0, hd]
  have hm : x.mant c = y * c.B ^ (c.N - 1) + limbsVal c.B ys := by
    unfold mant; rw [hd, limbsVal_cons, hyl]
  have hlt : limbsVal c.B ys < c.B ^ (c.N - 1) := by
    have h := hx.valid; rw [hd] at h
    have := limbsVal_lt (validLimbs_cons.mp h).2
    rwa [hyl] at this
  rw [hd0] at n3 n4
  have h1 : 10 ^ (x.nd - 1) * c.B ^ (c.N - 1) ≤ x.mant c := by
    rw [hm]; exact le_trans (Nat.mul_le_mul_right _ n3) (Nat.le_add_right _ _)
  have h2 : x.mant c < 10 ^ x.nd * c.B ^ (c.N - 1) := by
    rw [hm]
    calc y * c.B ^ (c.N - 1) + limbsVal c.B ys < y * c.B ^ (c.N - 1) + c.B ^ (c.N - 1) := by omega
      _ = (y + 1) * c.B ^ (c.N - 1) := by ring
      _ ≤ _ := Nat.mul_le_mul_right _ n4
  have hb := c.p10_mul_B (x.lexp c) (c.N - 1)
  have he : x.lexp c + (c.ed : ℤ) * ((c.N - 1 : Nat) : ℤ) = x.exp := by
    push_cast [Nat.cast_sub (show 1 ≤ c.N by omega)]; unfold lexp; ring
  rw [he] at hb
  have hil : ilogb x = x.exp + ((x.nd - 1 : Nat) : ℤ) := by
    unfold ilogb; push_cast [Nat.cast_sub n1]; rfl
  have hil1 : ilogb x + 1 = x.exp + (x.nd : ℤ) := by rw [hil]; push_cast [Nat.cast_sub n1]; ring
  rw [abs_val, hil1, hil, zpow_add₀ (by norm_num), zpow_add₀ (by norm_num), zpow_natCast, zpow_natCast, ← hb]
  have hp := p10_pos (x.lexp c)
  constructor
  · have : ((10 ^ (x.nd - 1) * c.B ^ (c.N - 1) : Nat) : ℚ) ≤ x.mant c := by exact_mod_cast h1
    push_cast at this
    calc (10 : ℚ) ^ lexp c x * ↑c.B ^ (c.N - 1) * 10 ^ (x.nd - 1) = (10 ^ (x.nd - 1) * ↑c.B ^ (c.N - 1)) * 10 ^ lexp c x := by ring
      _ ≤ _ := mul_le_mul_of_nonneg_right this hp.le
  · have : (x.mant c : ℚ) < ((10 ^ x.nd * c.B ^ (c.N - 1) : Nat) : ℚ) := by exact_mod_cast h2
    push_cast at this
    calc (x.mant c : ℚ) * 10 ^ lexp c x < (10 ^ x.nd * ↑c.B ^ (c.N - 1)) * 10 ^ lexp c x := mul_lt_mul_of_pos_right this hp
      _ = _ := by ring

end WD
