import Verif.Proofs.Add4
import Mathlib.Tactic.Linarith

namespace WD
open DW

theorem Cfg.digits_le (c : Cfg) : c.digits10 + 2 * c.ed ≤ c.ed * (c.N - 1) := by
  have hp := c.ed_pos
  unfold Cfg.N
  have h := Nat.div_add_mod c.digits10 c.ed
  have hm := Nat.mod_lt c.digits10 hp
  split
  · have : c.digits10 / c.ed + 1 + 3 - 1 = c.digits10 / c.ed + 3 := by rfl
    rw [this, Nat.mul_add]; omega
  · next h0 =>
    have : c.digits10 / c.ed + 0 + 3 - 1 = c.digits10 / c.ed + 2 := by rfl
    rw [this, Nat.mul_add]; omega

theorem multiple_unique {q : ℚ} (hq : 0 < q) {m n : ℤ} (h : |(m : ℚ) * q - n * q| < q) : m = n := by
  rw [← sub_mul, abs_mul, abs_of_pos hq] at h
  have h1 : |((m : ℚ) - n)| < 1 := by
    by_contra hh
    have : 1 * q ≤ |((m : ℚ) - n)| * q := mul_le_mul_of_nonneg_right (not_lt.mp hh) hq.le
    linarith
  have h2 : |m - n| < 1 := by exact_mod_cast h1
  rw [Int.abs_lt_one_iff] at h2
  omega

theorem Full.ulp_le {c : Cfg} {x : DW} (h : WF c x) (hz : x.isZero = false) :
    x.ulp c * 10 ^ (c.digits10 + 2 * c.ed) ≤ |x.val c| := by
  refine le_trans ?_ (h.abs_ge hz)
  rw [ulp_eq, ← zpow_natCast, ← zpow_add₀ (by norm_num)]
  refine zpow_le_zpow_right₀ (by norm_num) ?_
  have h1 := c.digits_le
  have h3 := c.three_le_N
  unfold lexp
  have : ((c.ed * (c.N - 1) : Nat) : ℤ) = c.ed * ((c.N : ℤ) - 1) := by
    push_cast [show 1 ≤ c.N by omega]; ring
  omega

/-! ### negate -/

theorem negate_val (c : Cfg) {x : DW} (h : WF c x) : (x.negate).val c = -(x.val c) := by
  unfold negate
  split
  · next hz => rw [h.isZero_iff.mp hz]; simp
  · rw [val_eq, val_eq]
    simp only [sgn, mant, lexp]
    cases x.neg <;> simp

theorem negate_full {c : Cfg} {x : DW} (h : Full c x) : Full c x.negate := by
  unfold negate
  split
  · exact h
  · exact ⟨⟨h.len, h.valid, h.dvd, h.prec2, h.precN, h.lead⟩, h.full⟩

theorem negate_WF {c : Cfg} {x : DW} (h : WF c x) : WF c x.negate := by
  unfold negate
  split
  · exact h
  · exact ⟨h.len, h.valid, h.dvd, h.prec2, h.precN, h.lead⟩

theorem negate_isZero {x : DW} : x.negate.isZero = x.isZero := by
  unfold negate; split <;> rfl

theorem negate_ulp (c : Cfg) (x : DW) : x.negate.ulp c = x.ulp c := by unfold negate; split <;> rfl
theorem negate_exp (x : DW) : x.negate.exp = x.exp := by unfold negate; split <;> rfl
theorem negate_prec (x : DW) : x.negate.prec = x.prec := by unfold negate; split <;> rfl
theorem negate_neg {x : DW} (h : x.isZero = false) : x.negate.neg = !x.neg := by unfold negate; rw [h]; rfl

/-! ### small constants -/

theorem fromLst_single_full {c : Cfg} {d : Nat} (hd : d < c.B) {e : ℤ} (he : (c.ed : ℤ) ∣ e) {n : Bool} :
    Full c (fromLst c [d] e n) := by
  have h3 := c.three_le_N
  have ht : ([d] : List Nat).take c.N = [d] := by
    obtain ⟨m, hm⟩ : ∃ m, c.N = m + 1 := ⟨c.N - 1, by omega⟩
    rw [hm]; simp
  refine ⟨⟨?_, ?_, he, ?_, ?_, ?_⟩, rfl⟩
  · simp [fromLst]; omega
  · simp only [fromLst, ht, validLimbs_append]
    exact ⟨by rw [validLimbs_cons]; exact ⟨hd, validLimbs_nil _⟩, validLimbs_replicate c.B_pos⟩
  · simp [fromLst]; omega
  · simp [fromLst]
  · simp only [fromLst, ht, d0]
    intro h
    simp at h
    simp [h]

theorem fromLst_single_val {c : Cfg} {d : Nat} {e : ℤ} {n : Bool} :
    (fromLst c [d] e n).val c = (if n then -1 else 1) * d * 10 ^ e := by
  have h3 := c.three_le_N
  have ht : ([d] : List Nat).take c.N = [d] := by
    obtain ⟨m, hm⟩ : ∃ m, c.N = m + 1 := ⟨c.N - 1, by omega⟩
    rw [hm]; simp
  rw [val_eq]
  have hm : (fromLst c [d] e n).mant c = d * c.B ^ (c.N - 1) := by
    simp only [mant, fromLst, ht]
    rw [limbsVal_append, limbsVal_replicate_zero, List.length_replicate]
    simp [limbsVal]
  have h2 := c.p10_mul_B ((fromLst c [d] e n).lexp c) (c.N - 1)
  have h3 : (fromLst c [d] e n).lexp c + (c.ed : ℤ) * ((c.N - 1 : Nat) : ℤ) = e := by
    have : ((c.N - 1 : Nat) : ℤ) = (c.N : ℤ) - 1 := by omega
    rw [this]; unfold lexp fromLst; ring
  rw [h3] at h2
  rw [hm, ← h2]
  have hs : (fromLst c [d] e n).sgn = (if n then -1 else 1) := rfl
  rw [hs]
  push_cast; ring

theorem one_full (c : Cfg) : Full c (one c) := fromLst_single_full c.one_lt_B (dvd_zero _)
theorem one_val (c : Cfg) : (one c).val c = 1 := by rw [one, fromLst_single_val]; simp
theorem two_full (c : Cfg) : Full c (two c) := fromLst_single_full (by unfold Cfg.B; cases c.L <;> decide) (dvd_zero _)
theorem two_val (c : Cfg) : (two c).val c = 2 := by rw [two, fromLst_single_val]; simp

/-! ### full-precision addition, all cases together -/

theorem addAssign_zero_left {c : Cfg} {u v : DW} (h : u.isZero = true) : addAssign c u v = v := by
  unfold addAssign; rw [if_pos h]

theorem addAssign_zero_right {c : Cfg} {u v : DW} (hu : u.isZero = false) (h : v.isZero = true) : addAssign c u v = u := by
  unfold addAssign; simp [hu, h]

theorem addAssign_full {c : Cfg} {u v : DW} (hu : Full c u) (hv : Full c v) : Full c (addAssign c u v) := by
  cases huz : u.isZero
  · cases hvz : v.isZero
    · by_cases hs : u.neg = v.neg
      · exact (addAssign_same hu hv huz hvz hs).1
      · exact (addAssign_opp hu hv huz hvz hs).1
    · rw [addAssign_zero_right huz hvz]; exact hu
  · rw [addAssign_zero_left huz]; exact hv

theorem same_sign_sum {c : Cfg} {u v : DW} (hs : u.neg = v.neg) :
    u.val c + v.val c = (if u.neg then -1 else 1) * (|u.val c| + |v.val c|) := by
  cases h : u.neg
  · have h1 := WF.val_of_pos (c := c) h
    have h2 := WF.val_of_pos (c := c) (hs ▸ h : v.neg = false)
    simp only [Bool.false_eq_true, if_false]; linarith
  · have h1 := WF.val_of_neg (c := c) h
    have h2 := WF.val_of_neg (c := c) (hs ▸ h : v.neg = true)
    simp only [if_true]; linarith

theorem val_sgn (c : Cfg) (x : DW) : x.val c = (if x.neg then -1 else 1) * |x.val c| := by
  rw [abs_val, val_eq, sgn]; ring

/-- Relative error of a full-precision addition. -/
theorem addAssign_error {c : Cfg} {u v : DW} (hu : Full c u) (hv : Full c v) :
    |(addAssign c u v).val c - (u.val c + v.val c)| * 10 ^ (c.digits10 + 2 * c.ed) ≤ |u.val c| + |v.val c| := by
  have hn : ∀ x : ℚ, 0 ≤ |x| := abs_nonneg
  cases huz : u.isZero
  · cases hvz : v.isZero
    · by_cases hs : u.neg = v.neg
      · obtain ⟨q1, q2, q3, q4, q5, q6, q7⟩ := addAssign_same hu hv huz hvz hs
        have hu' := Full.ulp_le q1.toWF q3
        have he : |(addAssign c u v).val c - (u.val c + v.val c)| ≤ (addAssign c u v).ulp c := by
          rw [same_sign_sum hs, val_sgn c (addAssign c u v), q2, ← mul_sub, abs_mul]
          have : |(if u.neg = true then (-1 : ℚ) else 1)| = 1 := by split <;> simp
          rw [this, one_mul, abs_le]
          constructor <;> linarith
        calc _ ≤ (addAssign c u v).ulp c * 10 ^ (c.digits10 + 2 * c.ed) :=
              mul_le_mul_of_nonneg_right he (by positivity)
          _ ≤ _ := le_trans hu' q6
      · obtain ⟨q1, q2, q3, -⟩ := addAssign_opp hu hv huz hvz hs
        have h1 := Full.ulp_le hu.toWF huz
        have h2 := Full.ulp_le hv.toWF hvz
        have he : |(addAssign c u v).val c - (u.val c + v.val c)| ≤ max (u.ulp c) (v.ulp c) := by
          rw [abs_le]
          rcases le_total 0 (u.val c + v.val c) with h | h
          · obtain ⟨a, b⟩ := q2 h; constructor <;> linarith [le_max_left (u.ulp c) (v.ulp c), u.ulp_pos c]
          · obtain ⟨a, b⟩ := q3 h; constructor <;> linarith [le_max_left (u.ulp c) (v.ulp c), u.ulp_pos c]
        calc _ ≤ max (u.ulp c) (v.ulp c) * 10 ^ (c.digits10 + 2 * c.ed) := mul_le_mul_of_nonneg_right he (by positivity)
          _ ≤ _ := by
            rcases max_choice (u.ulp c) (v.ulp c) with h | h <;> rw [h] <;> linarith [hn (u.val c), hn (v.val c)]
    · rw [addAssign_zero_right huz hvz, hv.toWF.isZero_iff.mp hvz]; simp
  · rw [addAssign_zero_left huz, hu.toWF.isZero_iff.mp huz]; simp

/-- A representable number in the bracket of another has the same exponent. -/
theorem exp_eq_of_bracket {c : Cfg} {r z : DW} (hr : WF c r) (hz : WF c z) (hrz : r.isZero = false)
    (h1 : |r.val c| ≤ |z.val c|) (h2 : |z.val c| < |r.val c| + r.ulp c) : z.exp = r.exp := by
  have hzz : z.isZero = false := by
    cases h : z.isZero
    · rfl
    · have := hz.isZero_iff.mp h
      have := hr.abs_pos hrz
      simp_all
  -- |r| + ulp r ≤ 10^(r.exp+ed)
  have h3 : |r.val c| + r.ulp c ≤ 10 ^ (r.exp + c.ed) := by
    rw [abs_val, ulp_eq]
    have h1 : (r.mant c : ℚ) + 1 ≤ ((c.B ^ c.N : Nat) : ℚ) := by exact_mod_cast hr.mant_lt
    have h2 := c.p10_mul_B (r.lexp c) c.N
    have h3 : r.lexp c + (c.ed : ℤ) * (c.N : ℤ) = r.exp + c.ed := by unfold lexp; ring
    rw [h3] at h2
    rw [← h2]
    push_cast at h1
    have := mul_le_mul_of_nonneg_right h1 (p10_pos (r.lexp c)).le
    linarith
  have hzge := hz.abs_ge hzz
  have hzlt := hz.abs_lt
  have hrge := hr.abs_ge hrz
  have a1 : z.exp < r.exp + c.ed := (zpow_lt_zpow_iff_right₀ (by norm_num : (1:ℚ) < 10)).mp (by linarith)
  have a2 : r.exp < z.exp + c.ed := (zpow_lt_zpow_iff_right₀ (by norm_num : (1:ℚ) < 10)).mp (by linarith)
  obtain ⟨a, ha⟩ := hz.dvd
  obtain ⟨b, hb⟩ := hr.dvd
  have hp : (0 : ℤ) < c.ed := by exact_mod_cast c.ed_pos
  have : a = b := by
    rw [ha, hb] at a1 a2
    have b1 : a < b + 1 := by
      have : (c.ed : ℤ) * a < c.ed * (b + 1) := by linarith
      exact lt_of_mul_lt_mul_left this hp.le
    have b2 : b < a + 1 := by
      have : (c.ed : ℤ) * b < c.ed * (a + 1) := by linarith
      exact lt_of_mul_lt_mul_left this hp.le
    omega
  rw [ha, hb, this]

/-- Truncation in the last limb of a representable magnitude is exact. -/
theorem trunc_exact {c : Cfg} {r z : DW} (hr : WF c r) (hz : WF c z) (hrz : r.isZero = false)
    (h1 : |r.val c| ≤ |z.val c|) (h2 : |z.val c| < |r.val c| + r.ulp c) : |r.val c| = |z.val c| := by
  have he := exp_eq_of_bracket hr hz hrz h1 h2
  have hl : z.lexp c = r.lexp c := by unfold lexp; rw [he]
  rw [abs_val, abs_val, hl] at h1 h2 ⊢
  have := multiple_unique (p10_pos (r.lexp c)) (m := z.mant c) (n := r.mant c) (by
    rw [abs_lt]; rw [ulp_eq] at h2; push_cast; constructor <;> linarith [p10_pos (r.lexp c)])
  have : z.mant c = r.mant c := by exact_mod_cast this
  rw [this]

theorem addAssign_exact {c : Cfg} {u v z : DW} (hu : Full c u) (hv : Full c v) (hz : WF c z)
    (hzv : z.val c = u.val c + v.val c) (hm : ∃ m : ℤ, u.val c + v.val c = m * max (u.ulp c) (v.ulp c)) :
    (addAssign c u v).val c = u.val c + v.val c := by
  cases huz : u.isZero
  · cases hvz : v.isZero
    · by_cases hs : u.neg = v.neg
      · obtain ⟨q1, q2, q3, q4, q5, q6, q7⟩ := addAssign_same hu hv huz hvz hs
        have hsum := same_sign_sum (c := c) hs
        have habs : |z.val c| = |u.val c| + |v.val c| := by
          rw [hzv, hsum, abs_mul]
          have : |(if u.neg = true then (-1 : ℚ) else 1)| = 1 := by split <;> simp
          rw [this, one_mul, abs_of_nonneg (add_nonneg (abs_nonneg _) (abs_nonneg _))]
        have := trunc_exact q1.toWF hz q3 (by rw [habs]; exact q6) (by rw [habs]; exact q7)
        rw [val_sgn c (addAssign c u v), q2, hsum, this, habs]
      · obtain ⟨q1, q2, q3, ⟨n, hn⟩, -⟩ := addAssign_opp hu hv huz hvz hs
        obtain ⟨m, hm⟩ := hm
        have hM : 0 < max (u.ulp c) (v.ulp c) := lt_of_lt_of_le (u.ulp_pos c) (le_max_left _ _)
        have := multiple_unique hM (m := n) (n := m) (by
          rw [← hn, ← hm, abs_lt]
          rcases le_total 0 (u.val c + v.val c) with h | h
          · obtain ⟨a, b⟩ := q2 h; constructor <;> linarith
          · obtain ⟨a, b⟩ := q3 h; constructor <;> linarith)
        rw [hn, hm, this]
    · rw [addAssign_zero_right huz hvz, hv.toWF.isZero_iff.mp hvz]; simp
  · rw [addAssign_zero_left huz, hu.toWF.isZero_iff.mp huz]; simp

/-! ### subtraction -/

theorem subAssign_full {c : Cfg} {u v : DW} (hu : Full c u) (hv : Full c v) : Full c (subAssign c u v) :=
  negate_full (addAssign_full (negate_full hu) hv)

theorem subAssign_val {c : Cfg} {u v : DW} (hu : Full c u) (hv : Full c v) :
    (subAssign c u v).val c = -((addAssign c u.negate v).val c) :=
  negate_val c (addAssign_full (negate_full hu) hv).toWF

theorem subAssign_error {c : Cfg} {u v : DW} (hu : Full c u) (hv : Full c v) :
    |(subAssign c u v).val c - (u.val c - v.val c)| * 10 ^ (c.digits10 + 2 * c.ed) ≤ |u.val c| + |v.val c| := by
  have h := addAssign_error (negate_full hu) hv
  rw [negate_val c hu.toWF, abs_neg] at h
  rw [subAssign_val hu hv]
  have : -(addAssign c u.negate v).val c - (u.val c - v.val c) = -((addAssign c u.negate v).val c - (-u.val c + v.val c)) := by
    ring
  rwa [this, abs_neg]

theorem subAssign_exact {c : Cfg} {u v z : DW} (hu : Full c u) (hv : Full c v) (hz : WF c z)
    (hzv : z.val c = u.val c - v.val c) (hm : ∃ m : ℤ, u.val c - v.val c = m * max (u.ulp c) (v.ulp c)) :
    (subAssign c u v).val c = u.val c - v.val c := by
  rw [subAssign_val hu hv, addAssign_exact (negate_full hu) hv (negate_WF hz), negate_val c hu.toWF]
  · ring
  · rw [negate_val c hz, negate_val c hu.toWF, hzv]; ring
  · obtain ⟨m, hm⟩ := hm
    refine ⟨-m, ?_⟩
    rw [negate_val c hu.toWF, negate_ulp, Int.cast_neg, neg_mul, ← hm]; ring

end WD
