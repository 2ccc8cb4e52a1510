import Verif.Proofs.Radix3
/-
  C26 once more: reciprocal and quotient with the start value the code computes in a covered type (`FloatOk`), for every divisor. When
  the divisor is a power of the limb radix (or just above one) the start value has the limb 10^ed in it, which no number may
  contain; the iteration still converges, and the only trace that can remain is the malformed reciprocal of an exact power
  (`reciprocal_of_radix_malformed`). Fewer than 1793 limbs (schoolbook and Karatsuba, which multiply such a limb correctly, `prod_mal_left`).
-/
namespace WD
open DW

/-- Relative closeness of a quotient from the closeness of the reciprocal and of the product. -/
theorem quot_close {U V W R ε : ℚ} (hU : U ≠ 0) (hV : V ≠ 0) (hε0 : 0 < ε) (hε1 : ε ≤ 1 / 10000)
    (hθ : |W * V - 1| ≤ 44 / 10 * ε) (hm : |R - U * W| < |R| * ε) :
    |R - U / V| < |U / V| * (6 * ε) ∧ (R < 0 ↔ U / V < 0) := by
  obtain ⟨Q, hQ⟩ : ∃ Q, Q = U / V := ⟨_, rfl⟩
  have hq0 : Q ≠ 0 := by rw [hQ]; exact div_ne_zero hU hV
  rw [← hQ]
  have hqp : 0 < |Q| := abs_pos.mpr hq0
  have huw : U * W - Q = Q * (W * V - 1) := by rw [hQ]; field_simp
  have hd1 : |U * W - Q| ≤ |Q| * (44 / 10 * ε) := by
    rw [huw, abs_mul]; exact mul_le_mul_of_nonneg_left hθ (abs_nonneg _)
  have hrQ : |R - Q| ≤ |R| * ε + |Q| * (44 / 10 * ε) := by
    calc |R - Q| = |(R - U * W) + (U * W - Q)| := by congr 1; ring
      _ ≤ _ := abs_add_le _ _
      _ ≤ _ := add_le_add hm.le hd1
  have hrle : |R| ≤ |Q| * (101 / 100) := by
    have h1 : |R| - |Q| ≤ |R - Q| := abs_sub_abs_le_abs_sub _ _
    have h2 : |R| * ε ≤ |R| * (1 / 10000) := mul_le_mul_of_nonneg_left hε1 (abs_nonneg _)
    have h3 : |Q| * (44 / 10 * ε) ≤ |Q| * (44 / 100000) := mul_le_mul_of_nonneg_left (by linarith) (abs_nonneg _)
    linarith
  have hfin : |R - Q| < |Q| * (6 * ε) := by
    have h1 : |R| * ε ≤ |Q| * (101 / 100) * ε := mul_le_mul_of_nonneg_right hrle hε0.le
    have h2 : 0 < |Q| * ε := mul_pos hqp hε0
    linarith
  refine ⟨hfin, ?_⟩
  have hlt : |R - Q| < |Q| := by
    have : |Q| * (6 * ε) ≤ |Q| * 1 := mul_le_mul_of_nonneg_left (by linarith) (abs_nonneg _)
    linarith
  rcases lt_or_gt_of_ne hq0 with h | h
  · rw [abs_of_neg h] at hlt
    have := (abs_lt.mp hlt).2
    exact ⟨fun _ => h, fun _ => by linarith⟩
  · rw [abs_of_pos h] at hlt
    have := (abs_lt.mp hlt).1
    exact ⟨fun h' => by linarith, fun h' => by linarith⟩

theorem signed_product {c : Cfg} {w v : DW} (h : w.neg = v.neg) : w.val c * v.val c = |w.val c| * |v.val c| := by
  rw [val_sgn c w, val_sgn c v, h]
  simp only [abs_mul, abs_abs]
  cases v.neg <;> simp

/-- C26, reciprocal, no divisor excluded: for every non-zero x inside the exponent range the computed 1/x has the sign of x
    and its product with x differs from 1 by less than 5·10^(-(digits10+2·ed)); it is well formed, or its limbs are
    `[10^ed, 0, …, 0]`. -/
theorem inv_accuracy_any (c : Cfg) (F : Flt) (hF : FloatOk c F) (hK : digitLoops c F ≤ c.N) (x : DW) (hx : Full c x)
    (hx0 : x.val c ≠ 0) (hok : MulOkAll c) (hm : 2 * (c.ed : ℤ) < c.maxExp) (hlo : -(c.maxExp : ℤ) < x.exp)
    (hhi : x.exp + 3 * c.ed < c.maxExp) :
    let r := calcInv c (estInv c F) F.digits10 x
    (r.val c < 0 ↔ x.val c < 0) ∧ |r.val c * x.val c - 1| < 5 / 10 ^ (c.digits10 + 2 * c.ed) ∧
    (Full c r ∨ (r.data = 10 ^ c.ed :: List.replicate (c.N - 1) 0 ∧ (c.ed : ℤ) ∣ r.exp ∧ r.prec = c.N)) := by
  have hN : c.N < 1793 := hok.1
  intro r
  have hxz := isZero_false_of_val hx.toWF hx0
  obtain ⟨q1, q2, q3, q4⟩ := calcInv_any hF hK hx hxz hok hN hm hlo hhi
  change Quasi c r at q1; change r.isZero = false at q2; change r.neg = x.neg at q3
  have hη := eta_N_digits c
  have hη0 := eta_pos c c.N
  have hfin : 44 / 10 * eta c c.N < 5 / 10 ^ (c.digits10 + 2 * c.ed) := by
    have : (5 : ℚ) / 10 ^ (c.digits10 + 2 * c.ed) = 5 * (1 / 10 ^ (c.digits10 + 2 * c.ed)) := by ring
    rw [this]; linarith
  have hp := signed_product (c := c) q3
  change |(|r.val c| * |x.val c|) - 1| ≤ _ at q4
  refine ⟨?_, by rw [hp]; exact lt_of_le_of_lt q4 hfin, ?_⟩
  · have hη4 := eta_N_le c
    have hpos : 0 < r.val c * x.val c := by rw [hp]; have := (abs_le.mp q4).1; linarith
    constructor
    · intro h; by_contra h'; have := mul_nonpos_of_nonpos_of_nonneg h.le (not_lt.mp h'); linarith
    · intro h; by_contra h'; have := mul_nonpos_of_nonneg_of_nonpos (not_lt.mp h') h.le; linarith
  · rcases q1 with h | ⟨h, h'⟩
    · exact Or.inl h
    · right; rw [h.data, ← c.B_eq]; exact ⟨rfl, h.dvd, h'⟩

/-- The product of u and the computed reciprocal of v. -/
theorem mul_inv_any (c : Cfg) (F : Flt) (hF : FloatOk c F) (hK : digitLoops c F ≤ c.N) (u v : DW) (hu : Full c u)
    (hv : Full c v) (hu0 : u.val c ≠ 0) (hv0 : v.val c ≠ 0) (hok : MulOkAll c) (hm : 2 * (c.ed : ℤ) < c.maxExp)
    (hlo : -(c.maxExp : ℤ) < v.exp) (hhi : v.exp + 3 * c.ed < c.maxExp) (hlo' : -(c.maxExp : ℤ) < u.exp - v.exp - 2 * c.ed)
    (hhi' : u.exp - v.exp < c.maxExp) :
    let r := mulAssign c u (calcInv c (estInv c F) F.digits10 v)
    (r.val c < 0 ↔ u.val c / v.val c < 0) ∧
    |r.val c - u.val c / v.val c| < |u.val c / v.val c| * (6 / 10 ^ (c.digits10 + 2 * c.ed)) ∧
    (|u.val c| ≠ 1 → |u.val c| ≠ nearOne c → Full c r) ∧ (Full c r ∨ (r.data = 10 ^ c.ed :: List.replicate (c.N - 1) 0 ∧ (c.ed : ℤ) ∣ r.exp)) := by
  have hN : c.N < 1793 := hok.1
  intro r
  have huz := isZero_false_of_val hu.toWF hu0
  have hvz := isZero_false_of_val hv.toWF hv0
  have hxp : Posi c (unsigned v) := ⟨⟨hv.len, hv.valid, hv.dvd, hv.prec2, hv.precN, hv.lead⟩, hvz, rfl⟩
  have hxv : |(unsigned v).val c| = |v.val c| := setNeg_abs c v false
  have hf := digits10_ge hF
  obtain ⟨q1, q2, q3, q4⟩ := calcInv_any hF hK hv hvz hok hN hm hlo hhi
  set w := calcInv c (estInv c F) F.digits10 v with hw
  have hr : r = mulAssign c u w := rfl
  have hη4 := eta_N_le c
  have hη := eta_N_digits c
  have hη0 := eta_pos c c.N
  have hed : 2 ≤ c.ed := by unfold Cfg.ed; cases c.L <;> decide
  obtain ⟨k1, k2⟩ := abs_le.mp q4
  obtain ⟨ε, hε⟩ : ∃ ε : ℚ, ε = 1 / 10 ^ (c.digits10 + 2 * c.ed) := ⟨_, rfl⟩
  have hε0 : 0 < ε := by rw [hε]; positivity
  have hε1 : ε ≤ 1 / 10000 := by
    rw [hε, div_le_div_iff_of_pos_left (by norm_num) (by positivity) (by norm_num)]
    calc (10000 : ℚ) = 10 ^ 4 := by norm_num
      _ ≤ _ := pow_le_pow_right₀ (by norm_num) (by omega)
  have e6 : (6 : ℚ) / 10 ^ (c.digits10 + 2 * c.ed) = 6 * ε := by rw [hε]; ring
  rw [← hε] at hη
  have hθ : |w.val c * v.val c - 1| ≤ 44 / 10 * ε := by
    rw [signed_product q3]; linarith
  have key : |r.val c - u.val c * w.val c| < |r.val c| * ε ∧ (|u.val c| ≠ 1 → |u.val c| ≠ nearOne c → Full c r) ∧
      (Full c r ∨ (r.data = 10 ^ c.ed :: List.replicate (c.N - 1) 0 ∧ (c.ed : ℤ) ∣ r.exp)) := by
    have e3 := hv.toWF.abs_ge hvz
    have e4 := hv.toWF.abs_lt
    rcases q1 with hq | ⟨hq, hqp⟩
    · have e1 := hq.toWF.abs_ge q2
      have e2 := hq.toWF.abs_lt
      have ex1 : w.exp + v.exp ≤ 0 := by
        by_contra hc
        have : (10 : ℚ) ^ (1 : ℤ) ≤ 10 ^ (w.exp + v.exp) := zpow_le_zpow_right₀ (by norm_num) (by omega)
        rw [zpow_add₀ (by norm_num)] at this
        have h := mul_le_mul e1 e3 (p10_pos _).le (abs_nonneg _)
        norm_num at this; linarith
      have ex2 : 0 ≤ w.exp + v.exp + 2 * c.ed := by
        by_contra hc
        have : (10 : ℚ) ^ (w.exp + c.ed + (v.exp + c.ed)) ≤ 10 ^ (-1 : ℤ) := zpow_le_zpow_right₀ (by norm_num) (by omega)
        rw [zpow_add₀ (by norm_num)] at this
        have h := mul_le_mul e2.le e4.le (abs_nonneg _) (p10_pos _).le
        norm_num at this; linarith
      have hw0 : w.val c ≠ 0 := fun h => by have := hq.toWF.isZero_iff.mpr h; rw [q2] at this; exact absurd this (by simp)
      have hokN := hok.ok (p := c.N) (by have := c.three_le_N; omega) (le_refl _)
      obtain ⟨-, -, m3, m4⟩ := mul_error c u w hu hq hu0 hw0 hokN (by omega) (by omega)
      have m5 := mul_relative_error c u w hu hq hu0 hw0 hokN (by omega) (by omega)
      rw [← hr] at m3 m4 m5
      refine ⟨?_, fun _ _ => m3, Or.inl m3⟩
      rw [hε, mul_one_div]; exact m5
    · have hwv := hq.twin_val
      have e1 := hq.twin_wf.abs_ge Mal.twin_nz
      have e2 := hq.twin_wf.abs_lt
      have hte : (twin c w).exp = w.exp + c.ed := rfl
      rw [hwv] at e1 e2
      have ex1 : w.exp + c.ed + v.exp ≤ 0 := by
        by_contra hc
        have : (10 : ℚ) ^ (1 : ℤ) ≤ 10 ^ ((twin c w).exp + v.exp) := zpow_le_zpow_right₀ (by norm_num) (by omega)
        rw [zpow_add₀ (by norm_num)] at this
        have h := mul_le_mul e1 e3 (p10_pos _).le (abs_nonneg _)
        norm_num at this; linarith
      have ex2 : 0 ≤ w.exp + v.exp + 2 * c.ed := by
        have htv : |w.val c| = 10 ^ (twin c w).exp := by
          rw [← hwv, abs_val]
          unfold mant lexp
          simp only [twin]
          rw [limbsVal_cons, limbsVal_replicate_zero, List.length_replicate]
          have h1 := c.p10_mul_B (w.exp + c.ed - (c.ed : ℤ) * ((c.N : ℤ) - 1)) (c.N - 1)
          have hN1 : ((c.N - 1 : ℕ) : ℤ) = (c.N : ℤ) - 1 := by have := c.three_le_N; omega
          rw [hN1, sub_add_cancel] at h1
          rw [← h1]; push_cast; ring
        by_contra hc
        have h := mul_lt_mul_of_pos_left e4 (p10_pos (twin c w).exp)
        rw [← zpow_add₀ (by norm_num), ← htv] at h
        have : (10 : ℚ) ^ ((twin c w).exp + (v.exp + c.ed)) ≤ 10 ^ (-1 : ℤ) := zpow_le_zpow_right₀ (by norm_num) (by omega)
        norm_num at this
        linarith
      have hwp : 0 < |w.val c| := lt_of_lt_of_le (p10_pos _) e1
      rcases Bool.dichotomy (isOneSN c u) with h1 | h1
      · have hm := hq.mul_right hu.toWF huz h1 (by omega) (by omega) hN
        rw [← hr] at hm
        have hfull : Full c r := by
          rw [hm]
          exact ⟨⟨hu.len, hu.valid, dvd_add (dvd_add hu.dvd hq.dvd) (dvd_refl _), hu.prec2, hu.precN, hu.lead⟩, hu.full⟩
        have habs : |r.val c| = |u.val c| * |w.val c| := by
          have htv : |w.val c| = 10 ^ (w.exp + c.ed) := by
            rw [← hwv, abs_val]
            unfold mant lexp
            simp only [twin]
            rw [limbsVal_cons, limbsVal_replicate_zero, List.length_replicate]
            have h1 := c.p10_mul_B (w.exp + c.ed - (c.ed : ℤ) * ((c.N : ℤ) - 1)) (c.N - 1)
            have hN1 : ((c.N - 1 : ℕ) : ℤ) = (c.N : ℤ) - 1 := by have := c.three_le_N; omega
            rw [hN1, sub_add_cancel] at h1
            rw [← h1]; push_cast; ring
          rw [htv, abs_val, abs_val, hm]
          unfold mant lexp
          simp only
          rw [show u.exp + w.exp + (c.ed : ℤ) - (c.ed : ℤ) * ((c.N : ℤ) - 1) = (u.exp - (c.ed : ℤ) * ((c.N : ℤ) - 1)) + (w.exp + c.ed) by ring,
            zpow_add₀ (by norm_num)]
          ring
        have hneg : r.neg = (u.neg != w.neg) := by rw [hm]
        have hval : r.val c = u.val c * w.val c := by
          rw [val_sgn c r, val_sgn c u, val_sgn c w, habs, hneg]
          cases u.neg <;> cases w.neg <;> simp
        refine ⟨?_, fun _ _ => hfull, Or.inl hfull⟩
        rw [hval, sub_self, abs_zero]
        have : 0 < |u.val c * w.val c| := by rw [abs_mul]; exact mul_pos (abs_pos.mpr hu0) hwp
        exact mul_pos this hε0
      · have hm : r = { w with neg := (u.neg != w.neg) } := by
          rw [hr]
          rcases mulAssign_cases (c := c) huz q2 with ⟨-, h2⟩ | ⟨h', -⟩ | ⟨h', -⟩ | ⟨h', -⟩ | ⟨h', -⟩
          · exact h2
          all_goals (rw [h1] at h'; exact absurd h' (by simp))
        have habs : |r.val c| = |w.val c| := by rw [hm]; exact setNeg_abs c w _
        have hneg : r.neg = (u.neg != w.neg) := by rw [hm]
        have hu1 : |u.val c| = 1 ∨ |u.val c| = nearOne c := by
          rcases isOneSN_spec hu.toWF h1 with ⟨h, -⟩ | ⟨h, -⟩
          · exact Or.inl h
          · exact Or.inr h
        refine ⟨?_, ?_, Or.inr ?_⟩
        · have hdiff : r.val c - u.val c * w.val c = (if r.neg then -1 else 1) * (|w.val c| * (1 - |u.val c|)) := by
            rw [val_sgn c r, val_sgn c u, val_sgn c w, habs, hneg]
            simp only [abs_mul, abs_abs]
            cases u.neg <;> cases w.neg <;> simp <;> ring
          rw [hdiff, abs_mul]
          have : |(if r.neg = true then (-1 : ℚ) else 1)| = 1 := by split <;> simp
          rw [this, one_mul, abs_mul, abs_abs, habs]
          apply mul_lt_mul_of_pos_left _ hwp
          rcases hu1 with h | h
          · rw [h, sub_self, abs_zero]; exact hε0
          · rw [h]
            obtain ⟨n1, n2⟩ := nearOne_lt c
            rw [abs_of_pos (by linarith)]
            have hn : nearOne c = 1 - 10 ^ (-((c.ed : ℤ) * c.N)) := rfl
            rw [hn, sub_sub_cancel]
            refine lt_of_lt_of_le ?_ hη
            unfold eta
            apply zpow_lt_zpow_right₀ (by norm_num)
            have : (0 : ℤ) < c.ed := by omega
            nlinarith
        · intro h2 h3
          rcases hu1 with h | h
          · exact absurd h h2
          · exact absurd h h3
        · rw [hm]
          refine ⟨?_, hq.dvd⟩
          show w.data = _
          rw [hq.data, ← c.B_eq]; rfl
  obtain ⟨f1, f2⟩ := quot_close hu0 hv0 hε0 hε1 hθ key.1
  exact ⟨f2, by rw [e6]; exact f1, key.2⟩

/-- C26, quotient, no divisor excluded: for non-zero u and v inside the exponent range u/v has the right sign and relative
    error below 6·10^(-(digits10+2·ed)); it is well formed unless |u| is 1 (or the largest number below 1). -/
theorem div_accuracy_any (c : Cfg) (F : Flt) (hF : FloatOk c F) (hK : digitLoops c F ≤ c.N) (u v : DW) (hu : Full c u)
    (hv : Full c v) (hu0 : u.val c ≠ 0) (hv0 : v.val c ≠ 0) (hok : MulOkAll c) (hm : 2 * (c.ed : ℤ) < c.maxExp)
    (hlo : -(c.maxExp : ℤ) < v.exp) (hhi : v.exp + 3 * c.ed < c.maxExp) (hlo' : -(c.maxExp : ℤ) < u.exp - v.exp - 2 * c.ed)
    (hhi' : u.exp - v.exp < c.maxExp) :
    let r := divAssign c (estInv c F) F.digits10 u v
    (r.val c < 0 ↔ u.val c / v.val c < 0) ∧
    |r.val c - u.val c / v.val c| < |u.val c / v.val c| * (6 / 10 ^ (c.digits10 + 2 * c.ed)) ∧
    (|u.val c| ≠ 1 → |u.val c| ≠ nearOne c → Full c r) ∧ (Full c r ∨ (r.data = 10 ^ c.ed :: List.replicate (c.N - 1) 0 ∧ (c.ed : ℤ) ∣ r.exp)) := by
  have hN : c.N < 1793 := hok.1
  intro r
  have hvz := isZero_false_of_val hv.toWF hv0
  by_cases hcond : u.exp = v.exp ∧ compareRanges u.data v.data = 0
  · -- equal magnitudes: no reciprocal is computed, so any start value will do
    have hr : r = divAssign c (fun _ => calcInv c (estInv c F) F.digits10 v) 6 u v := by
      show divAssign c (estInv c F) F.digits10 u v = _
      unfold divAssign; rw [if_pos hcond, if_pos hcond]
    have hdata : limbsVal c.B u.data = limbsVal c.B v.data := by
      have := compareRanges_spec c.B u.data v.data (by rw [hu.len, hv.len]) hu.valid hv.valid
      rw [hcond.2] at this
      unfold cmp3 at this
      split_ifs at this with h1 h2
      · exact h2
      · omega
    have habs : |u.val c| = |v.val c| := by
      rw [abs_val, abs_val]; unfold mant lexp; rw [hdata, hcond.1]
    have hEpos : 0 < (c.maxExp : ℤ) := by omega
    have hokN := hok.ok (p := c.N) (by have := c.three_le_N; omega) (le_refl _)
    obtain ⟨d1, d2, -⟩ := division_special_partial c (estInv c F) F.digits10 u v hu hv hu0 hokN (by omega)
    have hpos : (0 : ℚ) < 6 / 10 ^ (c.digits10 + 2 * c.ed) := by positivity
    rcases abs_eq_abs.mp habs with h | h
    · have hr' : r = one c := d1 h
      rw [hr', one_val, h, div_self hv0]
      exact ⟨Iff.rfl, by rw [sub_self, abs_zero, abs_one]; linarith, fun _ _ => one_full c, Or.inl (one_full c)⟩
    · have hr' : r = (one c).negate := d2 h
      rw [hr', negate_val c (one_full c).toWF, one_val, h, neg_div, div_self hv0]
      exact ⟨Iff.rfl, by rw [sub_self, abs_zero, abs_neg, abs_one]; linarith, fun _ _ => negate_full (one_full c), Or.inl (negate_full (one_full c))⟩
  · have hr : r = mulAssign c u (calcInv c (estInv c F) F.digits10 v) := by
      show divAssign c (estInv c F) F.digits10 u v = _
      unfold divAssign; rw [if_neg hcond]
    rw [hr]
    exact mul_inv_any c F hF hK u v hu hv hu0 hv0 hok hm hlo hhi hlo' hhi'

/-- 10^8 with 32-bit limbs and double: the divisor is a power of the radix, which `OffRadix` excludes; 12345.678 / 10^8 is
    exact and well formed. -/
example : let c : Cfg := { L := .u32, digits10 := 10, maxExp := 2 ^ 59 }
    let u : DW := { data := [12345, 67800000, 0, 0, 0], exp := 0, neg := false, prec := 5 }
    let v : DW := { data := [1, 0, 0, 0, 0], exp := 8, neg := false, prec := 5 }
    Full c u ∧ Full c v ∧ MulOkAll c ∧ c.N < 1793 ∧ 2 * (c.ed : ℤ) < c.maxExp ∧ ¬ OffRadix c exDouble |v.val c| := by
  refine ⟨by decide, by decide, by decide, by decide, by decide, ?_⟩
  intro h
  apply h 1
  have hv : ({ data := [1, 0, 0, 0, 0], exp := 8, neg := false, prec := 5 } : DW).val { L := .u32, digits10 := 10, maxExp := 2 ^ 59 } = 10 ^ 8 := by
    rw [val_sgn, abs_val]
    norm_num [mant, lexp, limbsVal, Cfg.N, Cfg.ed, Cfg.B, Limb.ed, Limb.mask]
  rw [hv]
  norm_num [Cfg.B, Limb.mask, Limb.ed, exDouble]

end WD
