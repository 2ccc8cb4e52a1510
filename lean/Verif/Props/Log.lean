import Verif.Proofs.LogMain
import Verif.Proofs.LogMal
import Verif.Props.Exp
/-
  C48: `log` (at most 51 digits). The error bounds are stated with Mathlib's real logarithm.
-/
namespace WD
open DW

/-- `log(1) = 0`, for every configuration and every representation of 1. -/
theorem log_one (c : Cfg) (est : DW → DW) (fdig : ℕ) (lim x : DW) (hx : WF c x) (h1 : x.val c = 1) (depth : ℕ) :
    logDW c est fdig lim (depth + 1) x = some (zero c) := by
  unfold logDW
  obtain ⟨a, -, -, -, -, b⟩ := ordering_matches_value c x (one c) hx (one_full c).toWF
  rw [if_neg (by rw [a, h1, one_val]; exact lt_irrefl _), if_neg (by rw [b, h1, one_val]; exact lt_irrefl _)]

example : logDW exC (fun x => x) 15 (zero exC) 1 (one exC) = some (zero exC) :=
  log_one exC _ _ _ _ (one_full exC).toWF (one_val exC) 0

theorem lt_one_of_nonpos {c : Cfg} {x : DW} (h : x.isZero = true ∨ x.neg = true) : DW.lt x (one c) = true := by
  have h1 : (one c).isZero = false := isZero_false_of_val (one_full c).toWF (by rw [one_val]; exact one_ne_zero)
  have h2 : (one c).neg = false := neg_of_pos (c := c) (by rw [one_val]; exact one_pos)
  unfold DW.lt DW.cmp
  by_cases hz : x.isZero = true
  · simp [hz, h1, h2]
  · have hn : x.neg = true := by rcases h with h | h; exacts [absurd h hz, h]
    simp [hz, h1, h2, hn]

/-- C48 is false below and at zero: for every x ≤ 0 the recursion of `log` never ends (1/x has the sign of x, 1/0 is 0). -/
theorem log_nonpositive_diverges (c : Cfg) (est : DW → DW) (fdig : ℕ) (lim x : DW) (hx : WF c x) (h0 : x.val c ≤ 0) (depth : ℕ) :
    logDW c est fdig lim depth x = none := by
  have hs : x.isZero = true ∨ x.neg = true := by
    rcases h0.lt_or_eq with h | h
    · right
      by_contra hc
      simp only [Bool.not_eq_true] at hc
      rw [val_sgn c x, hc] at h
      simp only [Bool.false_eq_true, if_false, one_mul] at h
      exact absurd h (not_lt.mpr (abs_nonneg _))
    · exact Or.inl (hx.isZero_iff.mpr h)
  clear h0 hx
  induction depth generalizing x with
  | zero => rfl
  | succ n ih =>
    unfold logDW
    rw [if_pos (lt_one_of_nonpos hs), ih]
    · rfl
    · unfold calcInv
      split
      · left; rfl
      · next hz =>
        have hn : x.neg = true := by rcases hs with h | h; exacts [absurd h hz, h]
        split
        · exact Or.inr hn
        · exact Or.inr hn

example : WF exC (ofSigned exC (-77)) ∧ (ofSigned exC (-77)).val exC < 0 ∧ WF exC (zero exC) ∧ (zero exC).val exC ≤ 0 := by
  obtain ⟨a, b, -⟩ := of_signed_exact exC (-77) (by norm_num) (by norm_num)
  refine ⟨a.toWF, ?_, (zero_WF exC).toWF, by rw [zero_val]⟩
  rw [b (by decide)]; norm_num

/-- The largest number below 1. -/
def belowOne (c : Cfg) : DW := { data := List.replicate c.N (c.B - 1), exp := -(c.ed : ℤ), neg := false, prec := c.N }

theorem belowOne_full (c : Cfg) : Full c (belowOne c) := by
  have h3 := c.three_le_N
  have hB := c.B_pos
  refine ⟨⟨List.length_replicate, ?_, ?_, by simp [belowOne]; omega, le_refl _, ?_⟩, rfl⟩
  · intro d hd
    have := List.eq_of_mem_replicate hd
    omega
  · simp [belowOne]
  · intro h d hd
    have e : (belowOne c).d0 = c.B - 1 := by
      obtain ⟨m, hm⟩ : ∃ m, c.N = m + 1 := ⟨c.N - 1, by omega⟩
      unfold belowOne DW.d0; rw [hm, List.replicate_succ]; rfl
    have := List.eq_of_mem_replicate hd
    rw [this, ← e, h]

theorem belowOne_sn (c : Cfg) : isOneSN c (belowOne c) = true := by
  have h3 := c.three_le_N
  obtain ⟨m, hm⟩ : ∃ m, c.N = m + 1 := ⟨c.N - 1, by omega⟩
  have hd : (belowOne c).data = (c.B - 1) :: List.replicate m (c.B - 1) := by
    unfold belowOne; rw [hm, List.replicate_succ]
  have h2 : c.B - 1 ≠ 1 := by unfold Cfg.B; cases c.L <;> decide
  unfold isOneSN DW.d0
  rw [hd]
  simp [belowOne, h2]

theorem belowOne_val (c : Cfg) : (belowOne c).val c = 1 - 10 ^ (-((c.ed : ℤ) * c.N)) := by
  have hv := isOneSN_spec (belowOne_full c).toWF (belowOne_sn c)
  have hed := c.ed_pos
  have hp : (belowOne c).val c = |(belowOne c).val c| := by
    conv_lhs => rw [val_sgn c]
    simp [belowOne]
  rcases hv with ⟨-, h⟩ | ⟨h, -⟩
  · have : -(c.ed : ℤ) = 0 := h
    omega
  · rw [hp, h]; rfl

/-- C48 is false just below 1: `log` of the largest number below 1 never ends (its reciprocal is taken to be itself). -/
theorem log_below_one_diverges (c : Cfg) (est : DW → DW) (fdig : ℕ) (lim : DW) :
    ∃ x, Full c x ∧ x.val c = 1 - 10 ^ (-((c.ed : ℤ) * c.N)) ∧ ∀ depth, logDW c est fdig lim depth x = none := by
  refine ⟨belowOne c, belowOne_full c, belowOne_val c, fun depth => ?_⟩
  induction depth with
  | zero => rfl
  | succ n ih =>
    have hlt : DW.lt (belowOne c) (one c) = true := by
      rw [(ordering_matches_value c _ _ (belowOne_full c).toWF (one_full c).toWF).1, belowOne_val, one_val]
      have := p10_pos (-((c.ed : ℤ) * c.N)); linarith
    have hi : calcInv c est fdig (belowOne c) = belowOne c := by
      unfold calcInv
      have hz : (belowOne c).isZero = false := by
        apply isZero_false_of_val (belowOne_full c).toWF
        rw [belowOne_val]
        have := nearOne_gt (c := c)
        unfold nearOne at this
        linarith
      rw [if_neg (by rw [hz]; decide), if_pos (belowOne_sn c)]
    unfold logDW
    rw [if_pos hlt, hi, ih]; rfl

/-- The limit 1.8F of the code is within 0.01 of 1.8. -/
theorem logLim_bounds {c : Cfg} {F : Flt} (h : ElemOk c F) (est : DW → DW) (fdig : ℕ) :
    Full c (logLim c est fdig) ∧ 179 / 100 ≤ (logLim c est fdig).val c ∧ (logLim c est fdig).val c ≤ 181 / 100 := by
  have hM := h.hM
  have h2 := two_le_ed c
  have hd := h.lo
  have hμ := mulEps_le20 h.lo
  unfold mulEps at hμ
  have hn : NormalF 24 ((2 : ℚ) ^ (-126 : ℤ)) 15099494 (-23) := by
    refine ⟨by norm_num, by norm_num, ?_⟩
    have : (2 : ℚ) ^ (-126 : ℤ) ≤ 2 ^ (-23 : ℤ) := zpow_le_zpow_right₀ (by norm_num) (by norm_num)
    have hp : (0 : ℚ) < 2 ^ (-23 : ℤ) := by positivity
    push_cast; linarith
  have h10 : (10 : ℚ) ^ (7 : ℤ) ≤ 10 ^ ((c.maxExp : ℤ) - 1) := zpow_le_zpow_right₀ (by norm_num) (by omega)
  have h23 : (2 : ℚ) ^ (-23 : ℤ) = 1 / 8388608 := by norm_num
  obtain ⟨a, -, b⟩ := float_accuracy c est fdig 24 ((2 : ℚ) ^ (-126 : ℤ)) 15099494 (-23) false (by norm_num) (by norm_num) hn h.mulOk
    (by omega) (by omega) (by
      have : (10 : ℚ) ^ (8 : ℤ) ≤ 10 ^ ((c.maxExp : ℤ) - 1) := zpow_le_zpow_right₀ (by norm_num) (by omega)
      norm_num at this ⊢; linarith)
    (by rw [h23]; norm_num at h10 ⊢; linarith)
    (by
      have : (10 : ℚ) ^ (-(c.maxExp : ℤ) + 2 * c.ed + 1) ≤ 10 ^ (-9 : ℤ) := zpow_le_zpow_right₀ (by norm_num) (by omega)
      rw [h23]; norm_num at this ⊢; linarith)
    (by
      have : (((-23 : ℤ).natAbs : ℕ) : ℚ) / 10 ^ (c.digits10 + 2 * c.ed) = 23 * (1 / 10 ^ (c.digits10 + 2 * c.ed)) := by
        rw [show (-23 : ℤ).natAbs = 23 from rfl]; push_cast; ring
      rw [this]; norm_num at hμ ⊢; linarith)
  have e : (if false = true then (-1 : ℚ) else 1) * (((15099494 : ℕ) : ℚ) * 2 ^ (-23 : ℤ)) = 15099494 * 2 ^ (-23 : ℤ) := by simp
  rw [e] at a b
  have e2 : ((2 * ((-23 : ℤ).natAbs : ℚ) + 4) / 10 ^ (if (-23 : ℤ) = -1 ∨ (-23 : ℤ) = -2 then c.digits10 else c.digits10 + 2 * c.ed)) =
      50 * (1 / 10 ^ (c.digits10 + 2 * c.ed)) := by
    rw [if_neg (by norm_num), show (-23 : ℤ).natAbs = 23 from rfl]; push_cast; ring
  rw [e2] at b
  refine ⟨a, ?_⟩
  unfold logLim
  rw [h23] at b ⊢
  generalize (fromFloat c est fdig 24 ((2 : ℚ) ^ (-126 : ℤ)) (15099494 * (1 / 8388608))).val c = v at *
  generalize (1 : ℚ) / 10 ^ (c.digits10 + 2 * c.ed) = m at *
  rw [abs_of_pos (show (0 : ℚ) < 15099494 * (1 / 8388608) by norm_num)] at b
  have b' := abs_le.mp b
  norm_num at hμ b' ⊢
  constructor <;> linarith [b'.1, b'.2]

/-- C48, above 1: for every x > 1 inside the exponent range, every configuration of 16 to 51 digits, `log` ends and its result
    differs from ln x by at most (16 + ln(x)/1000)·10^(-digits10). -/
theorem log_accuracy_above (c : Cfg) (F : Flt) (h : ElemOk c F) (h51 : c.digits10 ≤ 51) (hX : c.maxExp ≤ 2 ^ 62) (x : DW) (hx : Full c x)
    (h1 : 1 < x.val c) (hhi : x.exp + 3 * c.ed < c.maxExp) (depth : ℕ) :
    ∃ r, logDW c (estInv c F) F.digits10 (logLim c (estInv c F) F.digits10) (depth + 1) x = some r ∧ Full c r ∧
      |(r.val c : ℝ) - Real.log (x.val c)| ≤ (16 + Real.log (x.val c) / 1000) / 10 ^ c.digits10 := by
  obtain ⟨l1, l2, l3⟩ := logLim_bounds h (estInv c F) F.digits10
  obtain ⟨a, b⟩ := logAbove_spec h h51 hX hx h1 hhi l1.toWF l2 l3
  obtain ⟨o1, -, -, -, -, o2⟩ := ordering_matches_value c x (one c) hx.toWF (one_full c).toWF
  refine ⟨_, ?_, a, ?_⟩
  · unfold logDW
    rw [if_neg (by rw [o1, one_val]; linarith), if_pos (by rw [o2, one_val]; exact h1)]
  · refine b.trans (le_of_eq ?_)
    have eD : (epsD c : ℝ) = 1 / 10 ^ c.digits10 := by
      unfold epsD; push_cast; rw [zpow_neg, zpow_natCast, one_div]
    rw [eD]; ring

/-- C48, below 1: the same for 0 < x < 1, with 17 in the place of 16, unless 1 - x is below 5·10^(-(digits10+2·ed)). Powers of the
    limb radix are included: their reciprocal has a limb equal to the radix (F34), and `log` is right on that object too. What is missing:
    the numbers next to 1; the largest number below 1 is one of them (`log_below_one_diverges`). -/
theorem log_accuracy_below_partial (c : Cfg) (F : Flt) (h : ElemOk c F) (h51 : c.digits10 ≤ 51) (hX : c.maxExp ≤ 2 ^ 62) (x : DW)
    (hx : Full c x) (h0 : 0 < x.val c) (h1 : x.val c < 1) (hlo : -(c.maxExp : ℤ) + 3 * c.ed < x.exp)
    (hoff : x.val c ≤ 1 - 5 / 10 ^ (c.digits10 + 2 * c.ed)) (depth : ℕ) :
    ∃ r, logDW c (estInv c F) F.digits10 (logLim c (estInv c F) F.digits10) (depth + 2) x = some r ∧ Full c r ∧
      |(r.val c : ℝ) - Real.log (x.val c)| ≤ (17 + |Real.log (x.val c)| / 1000) / 10 ^ c.digits10 := by
  have hM := h.hM
  have h2 := two_le_ed c
  have h8 := ed_le8 c
  have hN : c.N < 1793 := by
    have : c.digits10 / c.ed ≤ 51 := (Nat.div_le_self _ _).trans h51
    unfold Cfg.N
    split <;> omega
  have hz := isZero_false_of_val hx.toWF h0.ne'
  have hxe : x.exp < 0 := by
    have := hx.toWF.abs_ge hz
    rw [abs_of_pos h0] at this
    have : (10 : ℚ) ^ x.exp < 10 ^ (0 : ℤ) := by rw [zpow_zero]; linarith
    rwa [zpow_lt_zpow_iff_right₀ (by norm_num)] at this
  have hR := h.hR
  have hR' : 3 * c.ed < c.maxExp := by
    have : c.ed * 5 ≤ c.ed * (c.N + 5) := Nat.mul_le_mul_left _ (by omega)
    omega
  obtain ⟨i1, i2, -⟩ := inv_accuracy_any c F h.hF h.hK x hx h0.ne' h.hok (by omega) (by omega) (by omega)
  obtain ⟨q1, q2, q3, -⟩ := calcInv_any h.hF h.hK hx hz h.hok hN (by omega) (by omega) (by omega)
  set w := calcInv c (estInv c F) F.digits10 x with hw
  have i2' := abs_lt.mp i2
  have hμ : (5 : ℚ) / 10 ^ (c.digits10 + 2 * c.ed) = 5 * mulEps c := by unfold mulEps; ring
  have hμ20 := mulEps_le20 h.lo
  rw [hμ] at i2'
  have hwx : 0 < w.val c * x.val c := by norm_num at hμ20; linarith [i2'.1]
  have hw0 : 0 < w.val c := pos_of_mul_pos_left hwx h0.le
  have hw1 : 1 < w.val c := by
    rw [hμ] at hoff
    have h3 : x.val c < w.val c * x.val c := by linarith [i2'.1]
    by_contra hc
    have : w.val c * x.val c ≤ 1 * x.val c := mul_le_mul_of_nonneg_right (not_lt.mp hc) h0.le
    linarith
  have hkey : ∃ r, logDW c (estInv c F) F.digits10 (logLim c (estInv c F) F.digits10) (depth + 1) w = some r ∧ Full c r ∧
      |(r.val c : ℝ) - Real.log (w.val c)| ≤ (16 + Real.log (w.val c) / 1000) / 10 ^ c.digits10 := by
    have b2 := hx.toWF.abs_ge hz
    rw [abs_of_pos h0] at b2
    rcases q1 with hwf | ⟨q, qp⟩
    · have hwe : w.exp + 3 * c.ed < c.maxExp := by
        have b1 := hwf.toWF.abs_ge q2
        rw [abs_of_pos hw0] at b1
        have b3 : (10 : ℚ) ^ (w.exp + x.exp) < 10 ^ (1 : ℤ) := by
          rw [zpow_add₀ (by norm_num), zpow_one]
          calc (10 : ℚ) ^ w.exp * 10 ^ x.exp ≤ w.val c * x.val c := mul_le_mul b1 b2 (by positivity) hw0.le
            _ < 10 := by norm_num at hμ20; linarith [i2'.2]
        rw [zpow_lt_zpow_iff_right₀ (by norm_num)] at b3
        omega
      exact log_accuracy_above c F h h51 hX w hwf hw1 hwe depth
    · have hwn : w.neg = false := by rw [q3]; exact neg_of_pos h0
      have hwv := q.val_eq hwn
      have b3 : (10 : ℚ) ^ (w.exp + c.ed + x.exp) < 10 ^ (1 : ℤ) := by
        rw [zpow_add₀ (by norm_num), zpow_one, ← hwv]
        calc w.val c * 10 ^ x.exp ≤ w.val c * x.val c := mul_le_mul_of_nonneg_left b2 hw0.le
          _ < 10 := by norm_num at hμ20; linarith [i2'.2]
      rw [zpow_lt_zpow_iff_right₀ (by norm_num)] at b3
      have b4 : (10 : ℚ) ^ (0 : ℤ) < 10 ^ (w.exp + c.ed) := by rw [zpow_zero, ← hwv]; exact hw1
      rw [zpow_lt_zpow_iff_right₀ (by norm_num)] at b4
      have he : 0 ≤ w.exp := by
        obtain ⟨k, hk⟩ := q.dvd
        have : 0 ≤ k := by
          by_contra hc
          have : (c.ed : ℤ) * k ≤ c.ed * (-1) := mul_le_mul_of_nonneg_left (by omega) (by omega)
          omega
        rw [hk]; positivity
      obtain ⟨l1, l2, l3⟩ := logLim_bounds h (estInv c F) F.digits10
      obtain ⟨m1, m2⟩ := logAbove_mal h h51 hX q qp hwn he (by omega) l1.toWF l2
      have hcmp := q.gt_one hwn he
      refine ⟨_, ?_, m1, ?_⟩
      · unfold logDW
        rw [if_neg (by unfold DW.lt; simp; omega), if_pos (by unfold DW.gt; simp; omega)]
      · refine m2.trans (le_of_eq ?_)
        have eD : (epsD c : ℝ) = 1 / 10 ^ c.digits10 := by
          unfold epsD; push_cast; rw [zpow_neg, zpow_natCast, one_div]
        rw [eD]; ring
  obtain ⟨r, r1, r2, r3⟩ := hkey
  obtain ⟨o1, -⟩ := ordering_matches_value c x (one c) hx.toWF (one_full c).toWF
  refine ⟨r.negate, ?_, negate_full r2, ?_⟩
  · have hun : logDW c (estInv c F) F.digits10 (logLim c (estInv c F) F.digits10) (depth + 2) x =
        if DW.lt x (one c) then (logDW c (estInv c F) F.digits10 (logLim c (estInv c F) F.digits10) (depth + 1) w).map negate
        else if gt x (one c) then some (logAbove c (estInv c F) F.digits10 (logLim c (estInv c F) F.digits10) x) else some (zero c) := rfl
    rw [hun, if_pos (by rw [o1, one_val]; exact h1), r1]; rfl
  · rw [negate_val c r2.toWF]
    have hx0r : (0 : ℝ) < x.val c := by exact_mod_cast h0
    obtain ⟨m0, m1⟩ := mulEps_real c
    obtain ⟨e0, e1⟩ := epsD_real h.lo
    have hr := (Rat.cast_le (K := ℝ)).mpr i2.le
    rw [hμ] at hr
    push_cast at hr
    have hsh := log_shift (a := (w.val c : ℝ) * x.val c) (b := 1) one_pos (t := 5 * mulEps c) (by norm_num at m1 e1; linarith) (by linarith)
    have hw0r : (0 : ℝ) < w.val c := by exact_mod_cast hw0
    rw [Real.log_one, sub_zero, Real.log_mul hw0r.ne' hx0r.ne'] at hsh
    have hs := abs_le.mp hsh.2
    have r3' := abs_le.mp r3
    have hln : Real.log (x.val c) < 0 := Real.log_neg hx0r (by exact_mod_cast h1)
    rw [abs_of_neg hln]
    have eD : (epsD c : ℝ) = 1 / 10 ^ c.digits10 := by
      unfold epsD; push_cast; rw [zpow_neg, zpow_natCast, one_div]
    have e2 : ∀ t : ℝ, t / 10 ^ c.digits10 = t * epsD c := by intro t; rw [eD]; ring
    rw [e2] at r3' ⊢
    have k : Real.log (w.val c) * epsD c ≤ (-Real.log (x.val c) + 1) * epsD c := by
      apply mul_le_mul_of_nonneg_right _ e0.le
      norm_num at m1 e1; linarith [hs.2]
    push_cast
    rw [abs_le]
    norm_num at m1
    constructor <;> linarith [hs.1, hs.2, r3'.1, r3'.2]

/-- `pow(x, a)` goes through `log`: for x ≤ 0 (or the largest number below 1) and a ≠ 0 it never ends, integer exponents included. -/
theorem pow_nonpositive_diverges (c : Cfg) (est : DW → DW) (fdig : ℕ) (ln2 lim x a : DW) (hx : WF c x) (h0 : x.val c ≤ 0) (ha : WF c a)
    (ha0 : a.val c ≠ 0) (depth : ℕ) : powDW c est fdig ln2 lim depth x a = none := by
  unfold powDW
  rw [if_neg (by rw [isZero_false_of_val ha ha0]; decide), log_nonpositive_diverges c est fdig lim x hx h0]; rfl

/-- 10^-8: the reciprocal of the limb radix, whose own reciprocal is malformed (F34). -/
def exR : DW := fromLst exC20 [1] (-8) false

theorem exR_val : exR.val exC20 = 10 ^ (-8 : ℤ) := by
  unfold exR; rw [fromLst_single_val]; simp

theorem exR_full : Full exC20 exR := by
  refine ⟨⟨by decide, ?_, by decide, by decide, by decide, by decide⟩, rfl⟩
  intro d hd
  revert d
  decide

/-- log(2), log(0.693) and log(10^-8) of `decwide_t<20>`. -/
example : (∃ r, logDW exC20 (estInv exC20 exDouble) exDouble.digits10 (logLim exC20 (estInv exC20 exDouble) exDouble.digits10) 1 (two exC20) = some r ∧
      |(r.val exC20 : ℝ) - Real.log 2| ≤ (16 + Real.log 2 / 1000) / 10 ^ 20) ∧
    (∃ r, logDW exC20 (estInv exC20 exDouble) exDouble.digits10 (logLim exC20 (estInv exC20 exDouble) exDouble.digits10) 2 exS = some r ∧
      |(r.val exC20 : ℝ) - Real.log (693 / 1000)| ≤ (17 + |Real.log (693 / 1000)| / 1000) / 10 ^ 20) ∧
    (∃ r, logDW exC20 (estInv exC20 exDouble) exDouble.digits10 (logLim exC20 (estInv exC20 exDouble) exDouble.digits10) 2 exR = some r ∧
      |(r.val exC20 : ℝ) - Real.log (10 ^ (-8 : ℤ))| ≤ (17 + |Real.log (10 ^ (-8 : ℤ))| / 1000) / 10 ^ 20) := by
  have e : exC20.digits10 + 2 * exC20.ed = 36 := by decide
  refine ⟨?_, ?_, ?_⟩
  · obtain ⟨r, r1, -, r3⟩ := log_accuracy_above exC20 exDouble exC20_ok (by decide) (by decide +kernel) (two exC20) (two_full exC20)
      (by rw [two_val]; norm_num) (by decide +kernel) 0
    refine ⟨r, r1, ?_⟩
    rw [two_val] at r3
    exact_mod_cast r3
  · obtain ⟨r, r1, -, r3⟩ := log_accuracy_below_partial exC20 exDouble exC20_ok (by decide) (by decide +kernel) exS exS_full
      (by rw [exS_val]; norm_num) (by rw [exS_val]; norm_num) (by decide +kernel) (by rw [exS_val, e]; norm_num) 0
    refine ⟨r, r1, ?_⟩
    rw [exS_val] at r3
    push_cast at r3
    exact r3
  · obtain ⟨r, r1, -, r3⟩ := log_accuracy_below_partial exC20 exDouble exC20_ok (by decide) (by decide +kernel) exR exR_full
      (by rw [exR_val]; norm_num) (by rw [exR_val]; norm_num) (by decide +kernel) (by rw [exR_val, e]; norm_num) 0
    refine ⟨r, r1, ?_⟩
    rw [exR_val] at r3
    push_cast at r3
    exact r3

end WD
