import Verif.Proofs.Exp2Main
import Verif.Props.Exp
/-
  C62: `exp` for more than 2000 digits. The logarithm it iterates with is a parameter here; what is required of it is stated
  for the arguments that occur in the run (`exp2Args`).
-/
namespace WD
open DW

/-- C62 (`exp(0) = 1`), for every configuration and every representation of zero. -/
theorem exp_high_zero (c : Cfg) (est : DW → DW) (fdig : ℕ) (X G : Flt) (minN : ℚ) (ef : ℚ → ℚ) (ew : ℕ) (lg : DW → Option DW) (l x : DW)
    (hx : WF c x) (h0 : x.val c = 0) (hn : x.neg = false) : expHigh c est fdig X G minN ef ew lg l x = some (one c) := by
  unfold expHigh
  rw [if_neg]
  intro h
  rcases h with h | h
  · unfold isNeg at h; rw [hn] at h; simp at h
  · obtain ⟨a, b, -⟩ := of_signed_exact c 0 (by norm_num) (by norm_num)
    have := (ordering_matches_value c x (ofSigned c 0) hx a.toWF).2.2.2.2.2.mp h
    rw [h0, b (by positivity)] at this
    simp at this

/-- C62 (`exp(-x)`): for every positive x the value of `exp(-x)` is the reciprocal, as the code computes it, of `exp(x)`; either
    both return or none does. -/
theorem exp_high_negative (c : Cfg) (est : DW → DW) (fdig : ℕ) (X G : Flt) (minN : ℚ) (ef : ℚ → ℚ) (ew : ℕ) (lg : DW → Option DW) (l x : DW)
    (hx : WF c x) (h0 : 0 < x.val c) :
    expHigh c est fdig X G minN ef ew lg l x.negate = (expHigh c est fdig X G minN ef ew lg l x).map (calcInv c est fdig) := by
  have hn : x.neg = false := neg_of_pos h0
  have hz := isZero_false_of_val hx h0.ne'
  have hnn : x.negate.neg = true := by unfold negate; rw [hz, hn]; rfl
  have hpr : x.negate.prec = x.prec := by unfold negate; split <;> rfl
  have hneg2 : x.negate.negate = x := by
    have e1 : x.negate = { x with neg := true } := by unfold negate; rw [hz, hn]; rfl
    rw [e1]
    unfold negate
    have : ({ x with neg := true } : DW).isZero = false := hz
    rw [this]
    cases x; simp_all
  have hgt : gt x (ofSigned c 0) = true := by
    obtain ⟨a, b, -⟩ := of_signed_exact c 0 (by norm_num) (by norm_num)
    refine (ordering_matches_value c x (ofSigned c 0) hx a.toWF).2.2.2.2.2.mpr ?_
    rw [b (by positivity)]; simpa using h0
  unfold expHigh
  have i1 : x.negate.isNeg = true := hnn
  have i2 : x.isNeg = false := hn
  rw [if_pos (Or.inl i1), if_pos (Or.inr hgt)]
  simp only [i1, i2, Bool.not_true, Bool.not_false, Bool.false_eq_true, if_false, if_true, hneg2, hpr]
  cases exp2Start c est fdig X G minN ef ew (exp2Arg c est fdig l x) with
  | none => rfl
  | some y0 =>
    simp only [Option.bind_some]
    cases exp2Loop c lg (x.prec * c.ed) (fdig - 1) y0 (exp2Arg c est fdig l x) with
    | none => rfl
    | some y => simp only [Option.bind_some, Option.map_map]; rfl

set_option maxHeartbeats 1000000 in
/-- C62. Accuracy of `exp` above 2000 digits for positive x. Given an object in the place of ln 2 with error at most `lam`, a
    `log` whose error at the arguments a of the run is at most `ε` plus ten units of the last limb of a, and a `std::exp` with an
    error of at most four units, the result is positive and its relative error is at most 1.01·((1.5·x + 2)·lam + 2·ε +
    (40 + 10·x)·10^(-(digits10 + 2·ed))).
    What is missing for a partial claim: the accuracy of `log` above 880 digits, which C60 does not cover, a reduced argument
    below zero (possible by rounding, next to multiples of ln 2), and arguments for which the conversion of x / ln 2 to 32 bits
    wraps (as in `exp_wraps`). -/
theorem exp_high_accuracy_partial (c : Cfg) (F X : Flt) (h : Exp2Ok c F) (hX1 : F.p ≤ X.p) (hX2 : F.maxDigits10 ≤ X.maxDigits10)
    (minN : ℚ) (hmin : minN ≤ 1 / 2) (ef : ℚ → ℚ) (hef : F.IsExp ef) (ew : ℕ) (hew : 2 ≤ ew) (lg : DW → Option DW)
    (l : DW) (hl : Full c l) (lam : ℝ) (hlam : lam ≤ 1 / 10 ^ 12) (hl2 : |(l.val c : ℝ) - Real.log 2| ≤ lam)
    (x : DW) (hx : Full c x) (hx0 : 0 < x.val c) (hx1 : x.val c ≤ 148 * 10 ^ 7) (hx2 : x.val c ≤ 23 / 10 * ((c.maxExp : ℚ) - 3))
    (hlo : (10 : ℚ) ^ (-(c.maxExp : ℤ) + 5 * c.ed + 10) ≤ x.val c) (hle : (10 : ℚ) ^ ((c.ed : ℤ) * (c.N + 1) - 10 ^ (ew - 1)) ≤ x.val c)
    (ε : ℝ) (hε : ε ≤ 1 / 10 ^ 12) (hz0 : 0 ≤ (exp2Arg c (estInv c F) F.digits10 l x).val c)
    (hlg : ∀ y0, exp2Start c (estInv c F) F.digits10 X F minN ef ew (exp2Arg c (estInv c F) F.digits10 l x) = some y0 →
      ∀ a ∈ exp2Args c lg (c.N * c.ed) (F.digits10 - 1) y0 (exp2Arg c (estInv c F) F.digits10 l x),
        ∃ r, lg a = some r ∧ WF c r ∧ a.prec ≤ r.prec ∧ 0 ≤ r.val c ∧
          |(r.val c : ℝ) - Real.log (a.val c)| ≤ ε + 10 * (10 : ℝ) ^ (-((c.ed : ℤ) * ((a.prec : ℤ) - 1)))) (hε0 : 0 ≤ ε) :
    ∃ r, expHigh c (estInv c F) F.digits10 X F minN ef ew lg l x = some r ∧ Full c r ∧ 0 < r.val c ∧
      |(r.val c : ℝ) - Real.exp (x.val c)| ≤ Real.exp (x.val c) * (101 / 100 * ((3 / 2 * (x.val c : ℝ) + 2) * lam + 2 * ε +
        (40 + 10 * (x.val c : ℝ)) / 10 ^ (c.digits10 + 2 * c.ed))) := by
  have hxe : ∀ t : ℤ, (10 : ℚ) ^ t ≤ x.val c → t - c.ed < x.exp := by
    intro t ht
    have := lt_of_le_of_lt (ht.trans (le_abs_self _)) hx.toWF.abs_lt
    rw [zpow_lt_zpow_iff_right₀ (by norm_num)] at this
    omega
  have k1 := hxe _ hlo
  have k2 := hxe _ hle
  obtain ⟨a1, y0, y1, r, a2, a3, a4, a5, a6, a7⟩ := exp2_pos_core h hX1 hX2 hmin hef hew (lg := lg) hx hl hx0 hx1 hx2 (by omega)
    (by rw [mul_add, mul_one] at k2; omega) hlam hl2 hε0 (hε.trans (by norm_num)) hz0
    (fun y0 hy0 a ha => by
      obtain ⟨r, b1, b2, b3, b4, b5⟩ := hlg y0 hy0 a ha
      refine ⟨r, b1, b2, b3, b4, b5.trans (le_of_eq ?_)⟩
      unfold eta; push_cast; rfl)
  refine ⟨r, ?_, a5, a6, ?_⟩
  · have hgt : gt x (ofSigned c 0) = true := by
      obtain ⟨a, b, -⟩ := of_signed_exact c 0 (by norm_num) (by norm_num)
      refine (ordering_matches_value c x (ofSigned c 0) hx.toWF a.toWF).2.2.2.2.2.mpr ?_
      rw [b (by positivity)]; simpa using hx0
    have i2 : x.isNeg = false := neg_of_pos hx0
    unfold expHigh
    rw [if_pos (Or.inr hgt)]
    simp only [i2, Bool.not_false, Bool.false_eq_true, if_false, if_true, hx.full, a2, a3, Option.bind_some]
    rw [if_pos a1, a4]; rfl
  · obtain ⟨m0, m1⟩ := mulEps_real c
    obtain ⟨e0, e1⟩ := epsD_real h.lo
    have hx0' : (0 : ℝ) < x.val c := by exact_mod_cast hx0
    have hx1' := (Rat.cast_le (K := ℝ)).mpr hx1
    push_cast at hx1'
    have hlam0 : 0 ≤ lam := (abs_nonneg _).trans hl2
    have q1 : (x.val c : ℝ) * lam ≤ 148 * 10 ^ 7 * (1 / 10 ^ 12) := mul_le_mul hx1' hlam hlam0 (by norm_num)
    have hm : (mulEps c : ℝ) ≤ 1 / 10 ^ 20 := by norm_num at m1 e1 ⊢; linarith
    have q2 : (x.val c : ℝ) * mulEps c ≤ 148 * 10 ^ 7 * (1 / 10 ^ 20) := mul_le_mul hx1' hm m0.le (by norm_num)
    have := rel_of_log (r := r.val c) (by exact_mod_cast a6) (by norm_num at q1 q2 hm hε hlam ⊢; linarith) a7
    refine this.trans (le_of_eq ?_)
    unfold mulEps
    push_cast
    ring

end WD
