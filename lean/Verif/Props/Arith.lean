import Verif.Proofs.Add6
/-
  C01, C02, C03, C17, C33: order, addition, subtraction, sign and increment, stated about the rational number
  `x.val c` each object denotes.
-/
namespace WD
open DW

instance (c : Cfg) (x : DW) : Decidable (WF c x) :=
  decidable_of_iff (x.data.length = c.N ∧ ValidLimbs c.B x.data ∧ (c.ed : ℤ) ∣ x.exp ∧ 2 ≤ x.prec ∧ x.prec ≤ c.N ∧
    (x.d0 = 0 → ∀ d ∈ x.data, d = 0))
    ⟨fun ⟨a, b, d, e, f, g⟩ => ⟨a, b, d, e, f, g⟩, fun ⟨a, b, d, e, f, g⟩ => ⟨a, b, d, e, f, g⟩⟩

instance (c : Cfg) (x : DW) : Decidable (Full c x) :=
  decidable_of_iff (WF c x ∧ x.prec = c.N) ⟨fun ⟨a, b⟩ => ⟨a, b⟩, fun h => ⟨h.toWF, h.full⟩⟩

/-- A concrete configuration for examples: 8-bit limbs, 4 decimal digits (5 limbs of two digits), `int8_t` exponents. -/
def exC : Cfg := { L := .u8, digits10 := 4, maxExp := 64 }
/-- 12.345678 and 0.00999999 as objects. -/
def exX : DW := { data := [12, 34, 56, 78, 0], exp := 0, neg := false, prec := 5 }
def exY : DW := { data := [99, 99, 99, 0, 0], exp := -4, neg := true, prec := 5 }

/-- C01. Every comparison operator returns exactly what the comparison of the denoted rationals returns, whatever the
    representation (all zeros are equal, whatever their exponent and sign). -/
theorem ordering_matches_value (c : Cfg) (x y : DW) (hx : WF c x) (hy : WF c y) :
    (DW.lt x y = true ↔ x.val c < y.val c) ∧ (DW.le x y = true ↔ x.val c ≤ y.val c) ∧
    (DW.eq x y = true ↔ x.val c = y.val c) ∧ (DW.ne x y = true ↔ x.val c ≠ y.val c) ∧
    (DW.ge x y = true ↔ x.val c ≥ y.val c) ∧ (DW.gt x y = true ↔ x.val c > y.val c) := by
  unfold DW.lt DW.le DW.eq DW.ne DW.ge DW.gt
  rcases cmp_spec hx hy with ⟨h, hv⟩ | ⟨h, hv⟩ | ⟨h, hv⟩ <;> rw [h]
  · refine ⟨?_, ?_, ?_, ?_, ?_, ?_⟩ <;> simp <;> linarith
  · refine ⟨?_, ?_, ?_, ?_, ?_, ?_⟩ <;> simp <;> linarith
  · refine ⟨?_, ?_, ?_, ?_, ?_, ?_⟩ <;> simp <;> first | linarith | exact hv.ne'

/-- The comparison is a total order on well-formed numbers (C01, consequence). -/
theorem ordering_total (c : Cfg) (x y z : DW) (hx : WF c x) (hy : WF c y) (hz : WF c z) :
    (DW.le x y = true ∨ DW.le y x = true) ∧ (DW.le x y = true → DW.le y z = true → DW.le x z = true) ∧
    (DW.le x y = true → DW.le y x = true → DW.eq x y = true) := by
  have a := ordering_matches_value c x y hx hy
  have b := ordering_matches_value c y x hy hx
  have d := ordering_matches_value c y z hy hz
  have e := ordering_matches_value c x z hx hz
  rw [a.2.1, b.2.1, d.2.1, e.2.1, a.2.2.1]
  exact ⟨le_total _ _, le_trans, le_antisymm⟩

example : WF exC exX ∧ WF exC exY ∧ DW.gt exX exY = true ∧ DW.eq (zero exC) { zero exC with exp := 6, neg := true } = true := by
  decide

/-- C02 (error). The sum of two full-precision numbers is off by at most 10^-(digits10 + 2·limb digits) relative to
    |x|+|y|. -/
theorem add_error (c : Cfg) (x y : DW) (hx : Full c x) (hy : Full c y) :
    |(addAssign c x y).val c - (x.val c + y.val c)| ≤ (|x.val c| + |y.val c|) / 10 ^ (c.digits10 + 2 * c.ed) := by
  rw [le_div_iff₀ (by positivity)]
  exact addAssign_error hx hy

/-- C02 (last limb). Equal signs: the sum is truncated in the last limb of the result. Opposite signs: it is rounded
    away from zero by less than one unit in the last limb of the larger operand. -/
theorem add_last_limb (c : Cfg) (x y : DW) (hx : Full c x) (hy : Full c y) (hxz : x.val c ≠ 0) (hyz : y.val c ≠ 0) :
    (x.neg = y.neg → |(addAssign c x y).val c| ≤ |x.val c + y.val c| ∧
      |x.val c + y.val c| < |(addAssign c x y).val c| + (addAssign c x y).ulp c) ∧
    (x.neg ≠ y.neg → |x.val c + y.val c| ≤ |(addAssign c x y).val c| ∧
      |(addAssign c x y).val c| < |x.val c + y.val c| + max (x.ulp c) (y.ulp c)) := by
  have hx' : x.isZero = false := by
    cases h : x.isZero
    · rfl
    · exact absurd (hx.toWF.isZero_iff.mp h) hxz
  have hy' : y.isZero = false := by
    cases h : y.isZero
    · rfl
    · exact absurd (hy.toWF.isZero_iff.mp h) hyz
  constructor
  · intro hs
    obtain ⟨-, -, -, -, -, q6, q7⟩ := addAssign_same hx hy hx' hy' hs
    have habs : |x.val c + y.val c| = |x.val c| + |y.val c| := by
      rw [same_sign_sum hs, abs_mul]
      have : |(if x.neg = true then (-1 : ℚ) else 1)| = 1 := by split <;> simp
      rw [this, one_mul, abs_of_nonneg (add_nonneg (abs_nonneg _) (abs_nonneg _))]
    rw [habs]
    exact ⟨q6, q7⟩
  · intro hs
    obtain ⟨-, q2, q3, -⟩ := addAssign_opp hx hy hx' hy' hs
    rcases le_total 0 (x.val c + y.val c) with h | h
    · obtain ⟨a, b⟩ := q2 h
      rw [abs_of_nonneg h, abs_of_nonneg (by linarith)]; exact ⟨a, b⟩
    · obtain ⟨a, b⟩ := q3 h
      rw [abs_of_nonpos h, abs_of_nonpos (by linarith)]; constructor <;> linarith

/-- C02 (exactness). If the exact sum is representable (some well-formed number denotes it) and is a multiple of the
    last-limb unit of the larger operand, the computed sum denotes it exactly. -/
theorem add_exact (c : Cfg) (x y z : DW) (hx : Full c x) (hy : Full c y) (hz : WF c z)
    (hv : z.val c = x.val c + y.val c) (hm : ∃ m : ℤ, x.val c + y.val c = m * max (x.ulp c) (y.ulp c)) :
    (addAssign c x y).val c = x.val c + y.val c :=
  addAssign_exact hx hy hz hv hm

/-- C02 (algebra). Addition is commutative in value and 0 is neutral. -/
theorem add_comm_value (c : Cfg) (x y : DW) (hx : Full c x) (hy : Full c y) :
    (addAssign c x y).val c = (addAssign c y x).val c ∧
    (y.val c = 0 → (addAssign c x y).val c = x.val c) := by
  refine ⟨addAssign_comm hx hy, fun h => ?_⟩
  have hyz := hy.toWF.isZero_iff.mpr h
  rw [addAssign_comm hx hy, addAssign_zero_left hyz]

/-- C10 (part). Sums and differences of full-precision well-formed numbers are full-precision and well-formed. -/
theorem add_wf (c : Cfg) (x y : DW) (hx : Full c x) (hy : Full c y) :
    Full c (addAssign c x y) ∧ Full c (subAssign c x y) :=
  ⟨addAssign_full hx hy, subAssign_full hx hy⟩

example : Full exC exX ∧ Full exC exY ∧
    (addAssign exC exX exY) = { data := [12, 33, 56, 78, 1], exp := 0, neg := false, prec := 5 } := by decide

/-- Carry over the top: 99.99999999 + 0.01 (8-bit limbs). -/
example : addAssign exC { exX with data := [99, 99, 99, 99, 99] } { exX with data := [1, 0, 0, 0, 0], exp := -2 }
    = { data := [1, 0, 0, 99, 99], exp := 2, neg := false, prec := 5 } := by decide

/-- C03 (error). -/
theorem sub_error (c : Cfg) (x y : DW) (hx : Full c x) (hy : Full c y) :
    |(subAssign c x y).val c - (x.val c - y.val c)| ≤ (|x.val c| + |y.val c|) / 10 ^ (c.digits10 + 2 * c.ed) := by
  rw [le_div_iff₀ (by positivity)]
  exact subAssign_error hx hy

/-- C03 (exactness). -/
theorem sub_exact (c : Cfg) (x y z : DW) (hx : Full c x) (hy : Full c y) (hz : WF c z)
    (hv : z.val c = x.val c - y.val c) (hm : ∃ m : ℤ, x.val c - y.val c = m * max (x.ulp c) (y.ulp c)) :
    (subAssign c x y).val c = x.val c - y.val c :=
  subAssign_exact hx hy hz hv hm

/-- C03 (cancellation). x - x is zero for two distinct objects of the same value, and x - y = -(y - x) exactly. -/
theorem sub_self_antisymm (c : Cfg) (x y : DW) (hx : Full c x) (hy : Full c y) :
    (subAssign c x x).val c = 0 ∧ (subAssign c x y).val c = -(subAssign c y x).val c :=
  ⟨subAssign_self hx, subAssign_antisymm hx hy⟩

/-- Subtraction, sign: the computed difference has the sign of the exact one, and is zero exactly when x = y; hence
    x < y ↔ x - y < 0. -/
theorem sub_sign (c : Cfg) (x y : DW) (hx : Full c x) (hy : Full c y) :
    ((subAssign c x y).val c = 0 ↔ x.val c = y.val c) ∧ ((subAssign c x y).val c < 0 ↔ x.val c < y.val c) := by
  have key : ∀ u v : DW, Full c u → Full c v →
      ((0 < u.val c + v.val c → 0 < (addAssign c u v).val c) ∧ (u.val c + v.val c < 0 → (addAssign c u v).val c < 0) ∧
       (u.val c + v.val c = 0 → (addAssign c u v).val c = 0)) := by
    intro u v hu hv
    cases huz : u.isZero
    · cases hvz : v.isZero
      · by_cases hs : u.neg = v.neg
        · obtain ⟨q1, q2, q3, -, -, q6, q7⟩ := addAssign_same hu hv huz hvz hs
          have hp := q1.toWF.abs_pos q3
          have hu0 := hu.toWF.abs_pos huz
          have hv0 := hv.toWF.abs_pos hvz
          rw [same_sign_sum hs, val_sgn c (addAssign c u v), q2]
          cases u.neg <;> simp <;> refine ⟨?_, ?_, ?_⟩ <;> intro h <;> first | linarith | (simp at hp; exact hp)
        · obtain ⟨-, q2, q3, -⟩ := addAssign_opp hu hv huz hvz hs
          refine ⟨fun h => by have := q2 h.le; linarith [this.1], fun h => by have := q3 h.le; linarith [this.1], fun h => ?_⟩
          have a := q2 h.ge; have b := q3 h.le; linarith [a.1, b.1]
      · rw [addAssign_zero_right huz hvz, hv.toWF.isZero_iff.mp hvz, add_zero]; exact ⟨id, id, id⟩
    · rw [addAssign_zero_left huz, hu.toWF.isZero_iff.mp huz, zero_add]; exact ⟨id, id, id⟩
  obtain ⟨k1, k2, k3⟩ := key x.negate y (negate_full hx) hy
  rw [subAssign_val hx hy]
  rw [negate_val c hx.toWF] at k1 k2 k3
  rcases lt_trichotomy (x.val c) (y.val c) with h | h | h
  · have := k1 (by linarith); constructor <;> constructor <;> intro <;> linarith
  · have := k3 (by linarith); constructor <;> constructor <;> intro <;> linarith
  · have := k2 (by linarith); constructor <;> constructor <;> intro <;> linarith

example : subAssign exC exX exX = zero exC ∧
    subAssign exC exX { exX with data := [12, 34, 56, 77, 99] } = { data := [1, 0, 0, 0, 0], exp := -8, neg := false, prec := 5 } := by
  decide

/-- C17. Negation denotes -x and is involutive, fabs denotes |x|, unary minus and fabs keep well-formedness. -/
theorem sign_operations (c : Cfg) (x : DW) (hx : WF c x) :
    (x.negate).val c = -(x.val c) ∧ x.negate.negate = x ∧ (fabs x).val c = |x.val c| ∧ WF c x.negate ∧ WF c (fabs x) := by
  refine ⟨negate_val c hx, negate_negate x, ?_, negate_WF hx, ?_⟩
  · unfold fabs isNeg
    split
    · next h => rw [negate_val c hx, WF.val_of_neg (c := c) h, abs_neg, abs_abs, neg_neg]
    · next h => exact WF.val_of_pos (c := c) (by simpa using h)
  · unfold fabs; split
    · exact negate_WF hx
    · exact hx

/-- C17 (partial: zero excluded; a zero with the negative flag is reachable, see `zero_times_neg_is_negative_zero`).
    `isneg` means negative. -/
theorem isneg_negative_partial (c : Cfg) (x : DW) (h : x.val c ≠ 0) : (x.isNeg = true ↔ x.val c < 0) := by
  have hz : 0 < |x.val c| := abs_pos.mpr h
  unfold isNeg
  cases hn : x.neg
  · rw [WF.val_of_pos (c := c) hn]; simp
  · rw [WF.val_of_neg (c := c) hn]; simp; exact h

example : WF exC exY ∧ (fabs exY).neg = false ∧ exY.isNeg = true ∧ exY.negate.isNeg = false := by decide

/-- C33. ++x and --x denote x + 1 and x - 1 exactly whenever that is representable without digits below the last limb
    of the larger of x and 1. -/
theorem incr_decr_exact (c : Cfg) (x z : DW) (hx : Full c x) (hz : WF c z) :
    (z.val c = x.val c + 1 → (∃ m : ℤ, x.val c + 1 = m * max (x.ulp c) ((one c).ulp c)) → (incr c x).val c = x.val c + 1) ∧
    (z.val c = x.val c - 1 → (∃ m : ℤ, x.val c - 1 = m * max (x.ulp c) ((one c).ulp c)) → (decr c x).val c = x.val c - 1) := by
  have h1 := one_val c
  refine ⟨fun hv hm => ?_, fun hv hm => ?_⟩
  · have := addAssign_exact hx (one_full c) hz (by rw [h1]; exact hv) (by rw [h1]; exact hm)
    rw [h1] at this; exact this
  · have := subAssign_exact hx (one_full c) hz (by rw [h1]; exact hv) (by rw [h1]; exact hm)
    rw [h1] at this; exact this

/-- C33, error form for all x. -/
theorem incr_decr_error (c : Cfg) (x : DW) (hx : Full c x) :
    |(incr c x).val c - (x.val c + 1)| ≤ (|x.val c| + 1) / 10 ^ (c.digits10 + 2 * c.ed) ∧
    |(decr c x).val c - (x.val c - 1)| ≤ (|x.val c| + 1) / 10 ^ (c.digits10 + 2 * c.ed) := by
  have h1 := add_error c x (one c) hx (one_full c)
  have h2 := sub_error c x (one c) hx (one_full c)
  rw [one_val, abs_one] at h1 h2
  exact ⟨h1, h2⟩

example : incr exC exX = { exX with data := [13, 34, 56, 78, 0] } ∧ decr exC (one exC) = zero exC := by decide

end WD
