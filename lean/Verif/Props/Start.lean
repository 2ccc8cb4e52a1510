import Verif.Proofs.Start3
import Verif.Props.Misc
import Verif.Props.Round
/-
  C26 with the start value the code computes (`estInv`): the parameter of `Verif/Props/Inv.lean` is replaced by the
  floating-point computation itself, for IEEE float and double. What remains excluded, because the code is wrong there:
  divisors that exceed a power of the limb radix by less than a relative 10^(-(digits10-1)) of the floating-point type, and
  configurations with fewer limbs than a floating-point number fills.
-/
namespace WD
open DW

/-- q is not just above a power of the limb radix. -/
def OffRadix (c : Cfg) (F : Flt) (q : ℚ) : Prop :=
  ∀ k : ℤ, ¬ ((c.B : ℚ) ^ k ≤ q ∧ q < (1 + 1 / 10 ^ (F.digits10 - 1)) * (c.B : ℚ) ^ k)

theorem OffRadix.guard {c : Cfg} {F : Flt} {x : DW} (hx : WF c x) (hz : x.isZero = false) (h : OffRadix c F |x.val c|) :
    (1 + 1 / 10 ^ (F.digits10 - 1)) * 10 ^ x.exp ≤ |x.val c| := by
  obtain ⟨k, hk⟩ := hx.dvd
  have e : (10 : ℚ) ^ x.exp = (c.B : ℚ) ^ k := by
    rw [hk, c.B_eq, zpow_mul]; push_cast; rw [zpow_natCast]
  have h1 := hx.abs_ge hz
  rw [e] at h1 ⊢
  by_contra hc
  exact h k ⟨h1, not_le.mp hc⟩

theorem unsigned_posi {c : Cfg} {x : DW} (hx : WF c x) (hz : x.isZero = false) : Posi c (unsigned x) :=
  ⟨⟨hx.len, hx.valid, hx.dvd, hx.prec2, hx.precN, hx.lead⟩, hz, rfl⟩

/-- The start value computed in a covered type (`FloatOk`) meets the hypothesis of the accuracy theorems. -/
theorem start_value_ok (c : Cfg) (F : Flt) (hF : FloatOk c F) (x : DW) (hx : Full c x) (hx0 : x.val c ≠ 0)
    (hK : digitLoops c F ≤ c.N) (hg : OffRadix c F |x.val c|) :
    StartOk c F.digits10 (estInv c F (unsigned x)) |x.val c| := by
  have hz := isZero_false_of_val hx.toWF hx0
  have hp := unsigned_posi hx.toWF hz
  have hv : |(unsigned x).val c| = |x.val c| := setNeg_abs c x false
  have hgu := hg.guard hx.toWF hz
  have := (start_ok hF hp hK (by rw [hv]; exact hgu)).1
  rwa [hv] at this

theorem digits10_ge {c : Cfg} {F : Flt} (hF : FloatOk c F) : 6 ≤ F.digits10 := by
  rcases hF with ⟨-, h, -⟩ | ⟨-, h, -⟩ | ⟨⟨-, h, -⟩, -⟩ <;> rw [h] <;> norm_num

/-- C26, reciprocal with the start value the code computes in a covered type (`FloatOk`): for every non-zero x inside the exponent range
    that is not just above a power of the limb radix, |r·x - 1| < 5·10^(-(digits10+2·ed)). Missing for the full property:
    the divisors just above a power of the radix (see `inv_radix_power_malformed`), FFT sizes, long double with 32-bit limbs. -/
theorem inv_accuracy_float_partial (c : Cfg) (F : Flt) (hF : FloatOk c F) (hK : digitLoops c F ≤ c.N) (x : DW)
    (hx : Full c x) (hx0 : x.val c ≠ 0) (hok : MulOkAll c) (hm : 2 * (c.ed : ℤ) < c.maxExp) (hlo : -(c.maxExp : ℤ) < x.exp)
    (hhi : x.exp + 3 * c.ed < c.maxExp) (hg : OffRadix c F |x.val c|) :
    let r := calcInv c (estInv c F) F.digits10 x
    Full c r ∧ (r.val c < 0 ↔ x.val c < 0) ∧ |r.val c * x.val c - 1| < 5 / 10 ^ (c.digits10 + 2 * c.ed) :=
  inv_accuracy c (estInv c F) F.digits10 x hx hx0 hok (digits10_ge hF) hm hlo hhi (start_value_ok c F hF x hx hx0 hK hg)

/-- C26, quotient with the start value the code computes in a covered type (`FloatOk`). -/
theorem div_accuracy_float_partial (c : Cfg) (F : Flt) (hF : FloatOk c F) (hK : digitLoops c F ≤ c.N) (u v : DW)
    (hu : Full c u) (hv : Full c v) (hu0 : u.val c ≠ 0) (hv0 : v.val c ≠ 0) (hok : MulOkAll c) (hm : 2 * (c.ed : ℤ) < c.maxExp)
    (hlo : -(c.maxExp : ℤ) < v.exp) (hhi : v.exp + 3 * c.ed < c.maxExp) (hlo' : -(c.maxExp : ℤ) < u.exp - v.exp - 2 * c.ed)
    (hhi' : u.exp - v.exp < c.maxExp) (hg : OffRadix c F |v.val c|) :
    let r := divAssign c (estInv c F) F.digits10 u v
    Full c r ∧ r.val c ≠ 0 ∧ (r.val c < 0 ↔ u.val c / v.val c < 0) ∧
    |r.val c - u.val c / v.val c| < |u.val c / v.val c| * (6 / 10 ^ (c.digits10 + 2 * c.ed)) :=
  div_accuracy c (estInv c F) F.digits10 u v hu hv hu0 hv0 hok (digits10_ge hF) hm hlo hhi hlo' hhi'
    (start_value_ok c F hF v hv hv0 hK hg)

/-- Both kinds of floating-point type exist, and -0.00999999 with 8-bit limbs and float meets the hypotheses. -/
example : exFloat.IsFloat ∧ exDouble.IsDouble ∧ digitLoops exC exFloat ≤ exC.N ∧ Full exC exY ∧ exY.val exC ≠ 0 ∧
    OffRadix exC exFloat |exY.val exC| := by
  have h1 : exC.N = 5 := by decide
  have h2 : exC.ed = 2 := by decide
  have h3 : exC.B = 100 := by decide
  have hv : |exY.val exC| = 999999 / 100000000 := by
    simp only [DW.val, exY, limbsVal, h1, h2, h3]; norm_num [abs_of_neg, abs_of_pos]
  refine ⟨⟨rfl, rfl, rfl⟩, ⟨rfl, rfl, rfl⟩, by decide, by decide, ?_, ?_⟩
  · intro h
    rw [h] at hv; norm_num at hv
  · intro k ⟨a, b⟩
    rw [hv, h3] at a b
    push_cast at a b
    rcases le_or_gt k (-2) with h | h
    · have : (100 : ℚ) ^ k ≤ 100 ^ (-2 : ℤ) := zpow_le_zpow_right₀ (by norm_num) h
      rw [show exFloat.digits10 = 6 from rfl] at b
      norm_num at b this
      linarith
    · have : (100 : ℚ) ^ (-1 : ℤ) ≤ 100 ^ k := zpow_le_zpow_right₀ (by norm_num) (by omega)
      norm_num at this a
      linarith

/-! ### Too few limbs -/

/-- With fewer limbs than a floating-point number fills, the start value of every reciprocal is undefined behaviour (a write
    behind the end of the limb array), whatever the operand, as long as its floating-point reciprocal is not zero. -/
theorem start_out_of_bounds (c : Cfg) (F : Flt) (hK : c.N < digitLoops c F) (x : DW) (h : F.rnd (1 / (extractParts c F x).1) ≠ 0) :
    invStart c F x = none := by
  change ofMantExp c F (F.rnd (1 / (extractParts c F x).1)) (-(extractParts c F x).2) = none
  unfold ofMantExp
  rw [if_neg h]
  exact if_neg (by omega)

/-- The limbs a number of the type fills: nine, five, three for double, five, three, two for float. Every 32-bit
    configuration has room; 8-bit limbs and double need nine limbs, 16-bit limbs and double five. -/
theorem digit_loops (c : Cfg) (F : Flt) :
    (F.IsDouble → digitLoops c F = match c.L with | .u8 => 9 | .u16 => 5 | .u32 => 3) ∧
    (F.IsFloat → digitLoops c F = match c.L with | .u8 => 5 | .u16 => 3 | .u32 => 2) ∧
    (F.IsDouble ∨ F.IsFloat → c.L = .u32 → digitLoops c F ≤ c.N) := by
  have h3 := c.three_le_N
  unfold digitLoops Cfg.ed
  refine ⟨fun ⟨_, _, h⟩ => ?_, fun ⟨_, _, h⟩ => ?_, ?_⟩
  · rw [h]; cases c.L <;> decide
  · rw [h]; cases c.L <;> decide
  · rintro (⟨_, _, h⟩ | ⟨_, _, h⟩) hL <;> rw [h, hL]
    · exact le_trans (by decide) h3
    · exact le_trans (by decide) h3

/-- 1/12.345678 with 8-bit limbs, digits10 = 4 and double: undefined behaviour. -/
theorem inv_undefined_small_config (F : Flt) (hF : F.IsDouble) : invStart exC F exX = none := by
  apply start_out_of_bounds
  · rw [(digit_loops exC F).1 hF]; decide
  · have hp1 : 1 ≤ F.p := by rw [hF.1]; norm_num
    have hu0 := F.u_pos
    have hu1 := F.u_lt hp1
    have h3 : exC.B = 100 := by decide
    have ho : orderP10 exC.L.bits exX.d0 = 100 := by decide +kernel
    have hs : NearF F.u 1 (1 / 100) (F.rnd (1 / ((orderP10 exC.L.bits exX.d0 : ℕ) : ℚ))) := by
      rw [ho]; push_cast
      exact F.near_rnd hp1 (by norm_num) (near_refl hu0 hu1)
    have h0 : NearF F.u 3 0 0 := by constructor <;> simp
    have hl : exX.data.take (min exX.data.length (digitLoops exC F)) = exX.data := by
      rw [(digit_loops exC F).1 hF]; decide
    have := partsLoop_near (c := exC) hp1 exX.data _ _ _ _ 3 1 (le_refl 0) (by norm_num) (by norm_num) h0 hs
    have hpos : (0 : ℚ) < 0 + 1 / 100 * ((limbsVal exC.B exX.data : ℚ) * exC.B / exC.B ^ exX.data.length) := by
      rw [h3]
      have : (0 : ℚ) < limbsVal 100 exX.data := by
        have : 0 < limbsVal 100 exX.data := by decide
        exact_mod_cast this
      positivity
    have hdd : 0 < (extractParts exC F exX).1 := by
      unfold extractParts
      simp only [hl, show exX.neg = false from rfl, Bool.false_eq_true, if_false]
      exact this.pos hu0 hu1 hpos
    have := (F.near_rnd hp1 (by positivity) (near_refl hu0 hu1 (S := 1 / (extractParts exC F exX).1))).pos hu0 hu1 (by positivity)
    exact this.ne'

/-! ### Powers of the radix -/

/-- The number B^k as the code represents it. -/
def radixPower (c : Cfg) (k : ℤ) : DW := { data := 1 :: List.replicate (c.N - 1) 0, exp := c.ed * k, neg := false, prec := c.N }

theorem radixPower_spec (c : Cfg) (k : ℤ) : Full c (radixPower c k) ∧ (radixPower c k).val c = (c.B : ℚ) ^ k := by
  have h3 := c.three_le_N
  have hB := c.one_lt_B
  refine ⟨⟨⟨?_, ?_, ⟨k, rfl⟩, ?_, le_refl _, ?_⟩, rfl⟩, ?_⟩
  · simp [radixPower]; omega
  · show ValidLimbs c.B (1 :: _)
    rw [validLimbs_cons]; exact ⟨hB, validLimbs_replicate c.B_pos⟩
  · show 2 ≤ c.N; omega
  · intro h; simp [radixPower, d0] at h
  · rw [WF.val_of_pos (c := c) (x := radixPower c k) rfl, abs_val]
    unfold mant lexp radixPower
    simp only
    rw [limbsVal_cons, limbsVal_replicate_zero, List.length_replicate, one_mul, add_zero]
    have h := c.p10_mul_B ((c.ed : ℤ) * k - (c.ed : ℤ) * ((c.N : ℤ) - 1)) (c.N - 1)
    rw [show (c.ed : ℤ) * k - (c.ed : ℤ) * ((c.N : ℤ) - 1) + (c.ed : ℤ) * ((c.N - 1 : ℕ) : ℤ) = c.ed * k by
      push_cast [Nat.cast_sub (show 1 ≤ c.N by omega)]; ring] at h
    have e : (10 : ℚ) ^ ((c.ed : ℤ) * k) = (c.B : ℚ) ^ k := by
      rw [c.B_eq, zpow_mul]; push_cast; rw [zpow_natCast]
    rw [← e, ← h]; push_cast; ring

theorem partsLoop_zeros {c : Cfg} {F : Flt} : ∀ (n : ℕ) (m s : ℚ), RepF F.p m → partsLoop c F (List.replicate n 0) m s = m
  | 0, m, s, _ => rfl
  | n + 1, m, s, h => by
    have h0 : F.rnd ((0 : ℕ) : ℚ) = 0 := by rw [Nat.cast_zero]; exact F.rnd_zero
    rw [List.replicate_succ, partsLoop, h0, zero_mul, F.rnd_zero, add_zero, F.rnd_eq h]
    exact partsLoop_zeros n m _ h

theorem mantLoop_zeros {c : Cfg} {F : Flt} : ∀ n : ℕ, mantLoop c F n 0 = List.replicate n 0
  | 0 => rfl
  | n + 1 => by
    rw [mantLoop]
    simp only [Nat.floor_zero, Nat.zero_mod, Nat.cast_zero, sub_zero, F.rnd_zero, zero_mul, List.replicate_succ]
    rw [mantLoop_zeros n]

/-- The floating-point reciprocal of the rounded number 1/10 is exactly 10, in float and in double. -/
theorem rnd_tenth {c : Cfg} (F : Flt) (hF : FloatOk c F) : F.rnd (1 / F.rnd (1 / 10)) = 10 := by
  obtain ⟨m, k, hr⟩ := F.rep (1 / F.rnd (1 / 10))
  -- a general bound on the spacing above 8
  have key : ∀ r : ℚ, RepF F.p r → |r - 10| < 2 ^ (4 - (F.p : ℤ)) → r = 10 := by
    rintro r ⟨m, k, hm, hr⟩ hd
    have hp24 : 24 ≤ F.p := by rcases hF with h | h | ⟨h, -⟩ <;> rw [h.1] <;> norm_num
    have hsm : (2 : ℚ) ^ (4 - (F.p : ℤ)) ≤ 1 := by
      calc (2 : ℚ) ^ (4 - (F.p : ℤ)) ≤ 2 ^ (0 : ℤ) := zpow_le_zpow_right₀ (by norm_num) (by omega)
        _ = 1 := by norm_num
    have h8 : 8 < r := by have := (abs_lt.mp hd).1; linarith
    have hk : 4 - (F.p : ℤ) ≤ k := by
      by_contra hc
      have h1 : (2 : ℚ) ^ k ≤ 2 ^ (3 - (F.p : ℤ)) := zpow_le_zpow_right₀ (by norm_num) (by omega)
      have h2 : (m : ℚ) ≤ 2 ^ F.p := by exact_mod_cast le_trans (le_abs_self m) hm
      have h3 : r ≤ 2 ^ F.p * 2 ^ (3 - (F.p : ℤ)) := by
        rw [hr]
        exact le_trans (mul_le_mul_of_nonneg_right h2 (p2_pos _).le) (mul_le_mul_of_nonneg_left h1 (by positivity))
      rw [← zpow_natCast, ← zpow_add₀ (by norm_num), show ((F.p : ℤ)) + (3 - F.p) = 3 by ring] at h3
      norm_num at h3
      linarith
    obtain ⟨j, hj⟩ := Int.eq_ofNat_of_zero_le (show 0 ≤ k - (4 - (F.p : ℤ)) by omega)
    obtain ⟨i, hi⟩ := Int.eq_ofNat_of_zero_le (show 0 ≤ (F.p : ℤ) - 4 by omega)
    set s := (2 : ℚ) ^ (4 - (F.p : ℤ)) with hs
    have hspos : 0 < s := p2_pos _
    have e1 : r = ((m * 2 ^ j : ℤ) : ℚ) * s := by
      rw [hr, show k = (j : ℤ) + (4 - (F.p : ℤ)) by have : (j : ℤ) = k - (4 - (F.p : ℤ)) := hj.symm
                                                    linarith, zpow_add₀ (by norm_num), zpow_natCast]
      push_cast; ring
    have e2 : (10 : ℚ) = ((10 * 2 ^ i : ℤ) : ℚ) * s := by
      have : (2 : ℚ) ^ i * s = 1 := by
        rw [hs, ← zpow_natCast, ← zpow_add₀ (by norm_num), ← show (F.p : ℤ) - 4 = (i : ℤ) from hi]
        rw [show (F.p : ℤ) - 4 + (4 - F.p) = 0 by ring, zpow_zero]
      push_cast
      rw [mul_assoc, this, mul_one]
    rw [e2] at hd
    conv at hd => lhs; rw [e1]
    rw [← sub_mul, abs_mul, abs_of_pos hspos] at hd
    have h1 : |((m * 2 ^ j : ℤ) : ℚ) - ((10 * 2 ^ i : ℤ) : ℚ)| < 1 := by
      by_contra hc
      have := mul_le_mul_of_nonneg_right (not_lt.mp hc) hspos.le
      linarith
    have h2 : |m * 2 ^ j - 10 * 2 ^ i| < 1 := by exact_mod_cast h1
    have h3 : m * 2 ^ j = 10 * 2 ^ i := by
      have := abs_lt.mp h2; omega
    rw [e1, h3, ← e2]
  apply key _ (F.rep _)
  -- the error of the two roundings
  have hten : RepF F.p 10 := by
    refine ⟨5, 1, ?_, by norm_num⟩
    rw [abs_of_pos (by norm_num)]
    have hp24 : 24 ≤ F.p := by rcases hF with h | h | ⟨h, -⟩ <;> rw [h.1] <;> norm_num
    calc (5 : ℤ) ≤ 2 ^ 3 := by norm_num
      _ ≤ 2 ^ F.p := pow_le_pow_right₀ (by norm_num) (by omega)
  have n2 := F.nearest (1 / F.rnd (1 / 10)) 10 hten
  have two : ∀ E : ℚ, 0 < E → E ≤ 1 / 1000 → |1 / 10 - F.rnd (1 / 10)| ≤ E → |F.rnd (1 / F.rnd (1 / 10)) - 10| ≤ 2 * (E * 10 / (1 / 10 - E)) := by
    intro E hE hE1 h1
    obtain ⟨a, b⟩ := abs_le.mp h1
    set t := F.rnd (1 / 10)
    have ht : 1 / 10 - E ≤ t := by linarith
    have ht0 : 0 < t := by linarith
    have h2 : |1 / t - 10| ≤ E * 10 / (1 / 10 - E) := by
      rw [show 1 / t - 10 = (1 / 10 - t) * 10 / t by field_simp, abs_div, abs_mul, abs_of_pos ht0, abs_of_pos (by norm_num : (0 : ℚ) < 10)]
      rw [div_le_div_iff₀ ht0 (by linarith)]
      have := mul_le_mul h1 ht (by linarith) hE.le
      nlinarith
    calc |F.rnd (1 / t) - 10| = |(1 / t - 10) - (1 / t - F.rnd (1 / t))| := by congr 1; ring
      _ ≤ |1 / t - 10| + |1 / t - F.rnd (1 / t)| := abs_sub _ _
      _ ≤ _ := by linarith
  rcases hF with h | h | ⟨h, -⟩
  · have n1 := F.nearest (1 / 10) (13421773 * (2 : ℚ) ^ (-27 : ℤ)) ⟨13421773, -27, by rw [h.1]; norm_num, by norm_num⟩
    have n3 : |(1 : ℚ) / 10 - 13421773 * (2 : ℚ) ^ (-27 : ℤ)| ≤ 2 / 10 / 2 ^ 27 := by norm_num [abs_of_neg]
    refine lt_of_le_of_lt (two (2 / 10 / 2 ^ 27) (by norm_num) (by norm_num) (le_trans n1 n3)) ?_
    rw [h.1]; norm_num
  · have n1 := F.nearest (1 / 10) (7205759403792794 * (2 : ℚ) ^ (-56 : ℤ)) ⟨7205759403792794, -56, by rw [h.1]; norm_num, by norm_num⟩
    have n3 : |(1 : ℚ) / 10 - 7205759403792794 * (2 : ℚ) ^ (-56 : ℤ)| ≤ 4 / 10 / 2 ^ 56 := by norm_num [abs_of_neg]
    refine lt_of_le_of_lt (two (4 / 10 / 2 ^ 56) (by norm_num) (by norm_num) (le_trans n1 n3)) ?_
    rw [h.1]; norm_num
  · have n1 := F.nearest (1 / 10) (14757395258967641293 * (2 : ℚ) ^ (-67 : ℤ)) ⟨14757395258967641293, -67, by rw [h.1]; norm_num, by norm_num⟩
    have n3 : |(1 : ℚ) / 10 - 14757395258967641293 * (2 : ℚ) ^ (-67 : ℤ)| ≤ 2 / 10 / 2 ^ 67 := by norm_num [abs_of_neg]
    refine lt_of_le_of_lt (two (2 / 10 / 2 ^ 67) (by norm_num) (by norm_num) (le_trans n1 n3)) ?_
    rw [h.1]; norm_num

/-- C10, C26 are false at the powers of the limb radix: for every configuration (with enough limbs), float or double, and
    every k, the start value for 1/B^k has the limb B itself in front: not a limb. -/
theorem start_radix_power_malformed (c : Cfg) (F : Flt) (hF : FloatOk c F) (hK : digitLoops c F ≤ c.N) (k : ℤ) :
    estInv c F (radixPower c k) =
      { data := c.B :: List.replicate (c.N - 1) 0, exp := -(c.ed * k) - c.ed, neg := false, prec := c.N } ∧
    ¬ WF c (estInv c F (radixPower c k)) := by
  obtain ⟨K, hKe, hK8, hK1, hKed⟩ := digitLoops_eq (c := c) hF
  obtain ⟨-, hp⟩ := startNum (c := c) hF hKed
  have hed := c.ed_pos
  have hed8 : c.ed ≤ 8 := by unfold Cfg.ed; cases c.L <;> decide
  have h3 := c.three_le_N
  have hone : RepF F.p 1 := by simpa using F.rep_pow10 hp (i := 0) (by norm_num)
  have hten : RepF F.p 10 := by simpa using F.rep_pow10 hp (i := 1) (by norm_num)
  have hd0 : (radixPower c k).d0 = 1 := rfl
  have ho : orderOf 1 = 1 := by decide +kernel
  have hop : orderP10 c.L.bits 1 = 10 := by
    rw [(orderP10_limb (c := c) c.one_lt_B).1, ho, pow_one]
  have e1 : extractParts c F (radixPower c k) = (F.rnd (1 / 10), 1 + c.ed * k) := by
    unfold extractParts
    rw [hd0, hop, ho]
    have hl : (radixPower c k).data.take (min (radixPower c k).data.length (digitLoops c F)) = 1 :: List.replicate K 0 := by
      have : (radixPower c k).data.length = c.N := (radixPower_spec c k).1.len
      rw [this, hKe, Nat.min_eq_right (by omega)]
      show (1 :: List.replicate (c.N - 1) 0).take (K + 1) = _
      rw [List.take_succ_cons, List.take_replicate, Nat.min_eq_left (by omega)]
    rw [hl, partsLoop]
    have hr1 : F.rnd ((1 : ℕ) : ℚ) = 1 := by rw [Nat.cast_one]; exact F.rnd_eq hone
    have hc : (((10 : ℕ)) : ℚ) = 10 := by norm_num
    rw [hr1, hc, one_mul, F.rnd_eq (F.rep _), zero_add, F.rnd_eq (F.rep _), partsLoop_zeros _ _ _ (F.rep _)]
    simp [radixPower]
  have e2 : invStart c F (radixPower c k) = ofMantExp c F 10 (-(1 + c.ed * k)) := by
    unfold invStart
    rw [e1]
    simp only
    rw [rnd_tenth F hF]
  have htt : timesTen F (c.ed - 1) 10 = c.B := by
    have hgen : ∀ (s j : ℕ), s + j ≤ 8 → timesTen F s (10 ^ j) = 10 ^ (s + j) := by
      intro s
      induction s with
      | zero => intro j _; simp [timesTen]
      | succ s ih =>
        intro j hj
        rw [timesTen, ← pow_succ, F.rnd_eq (F.rep_pow10 hp (by omega)), ih (j + 1) (by omega)]
        congr 1; omega
    have := hgen (c.ed - 1) 1 (by omega)
    rw [pow_one, Nat.sub_add_cancel hed] at this
    rw [this, c.B_eq]; push_cast; rfl
  have hmod : (-(1 + (c.ed : ℤ) * k)) % c.ed = ((c.ed - 1 : ℕ) : ℤ) := by
    rw [show (-(1 + (c.ed : ℤ) * k)) = ((c.ed - 1 : ℕ) : ℤ) + c.ed * (-k - 1) by push_cast [Nat.cast_sub hed]; ring,
      Int.add_mul_emod_self_left]
    exact Int.emod_eq_of_lt (by omega) (by omega)
  have hsh : shiftLoop c F c.ed (10, -(1 + (c.ed : ℤ) * k)) ((-(1 + (c.ed : ℤ) * k)).tmod c.ed) =
      ((c.B : ℚ), -(1 + (c.ed : ℤ) * k) - ((c.ed - 1 : ℕ) : ℤ)) := by
    rw [shiftLoop_eq c.ed (c.ed - 1) _ _ _ (by omega) (by rw [tmod_emod', hmod]) (fun _ => by rw [tmod_emod', hmod]), htt]
  have e3 : ofMantExp c F 10 (-(1 + c.ed * k)) =
      some { data := c.B :: List.replicate (c.N - 1) 0, exp := -(c.ed * k) - c.ed, neg := false, prec := c.N } := by
    unfold ofMantExp
    rw [if_neg (by norm_num)]
    have hd : decide ((10 : ℚ) < 0) = false := by decide
    simp only [hd, Bool.false_eq_true, if_false]
    rw [scaleDown_id _ (le_refl _), scaleUp_id _ (by norm_num), hsh, if_pos hK, hKe]
    have hm : mantLoop c F (K + 1) (c.B : ℚ) = c.B :: List.replicate K 0 := by
      rw [mantLoop]
      have hW : c.B % c.L.W = c.B := Nat.mod_eq_of_lt (by unfold Cfg.B; cases c.L <;> decide)
      simp only [Nat.floor_natCast, hW, sub_self, F.rnd_zero, zero_mul]
      rw [mantLoop_zeros]
    rw [hm]
    congr 2
    · rw [List.cons_append, List.replicate_append_replicate]
      congr 2; omega
    · push_cast [Nat.cast_sub hed]; ring
  have e4 : estInv c F (radixPower c k) =
      { data := c.B :: List.replicate (c.N - 1) 0, exp := -(c.ed * k) - c.ed, neg := false, prec := c.N } := by
    unfold estInv; rw [e2, e3]; rfl
  refine ⟨e4, fun h => ?_⟩
  rw [e4] at h
  have := h.valid c.B (by simp)
  exact absurd this (lt_irrefl _)

/-- The malformed limb survives the iteration: with 32-bit limbs, digits10 = 10 and double, 1/10^8 is an object whose first
    limb is 10^8. Its value is 10^(-8), but it is not well formed, and it compares unequal to the same number in its
    normal form (`radixPower (-1)`). -/
theorem inv_radix_power_malformed (F : Flt) (hF : F.IsDouble) :
    let r := calcInv exC10 (estInv exC10 F) F.digits10 (radixPower exC10 1)
    r = { data := [100000000, 0, 0, 0, 0], exp := -16, neg := false, prec := 5 } ∧ r.val exC10 = 1 / 10 ^ 8 ∧ ¬ WF exC10 r ∧
    Full exC10 (radixPower exC10 (-1)) ∧ (radixPower exC10 (-1)).val exC10 = 1 / 10 ^ 8 ∧ cmp r (radixPower exC10 (-1)) ≠ 0 := by
  have h1 : exC10.N = 5 := by decide
  have h2 : exC10.ed = 8 := by decide
  have h3 : exC10.B = 100000000 := by decide
  have e0 : estInv exC10 F (radixPower exC10 1) = { data := [100000000, 0, 0, 0, 0], exp := -16, neg := false, prec := 5 } := by
    rw [(start_radix_power_malformed exC10 F (FloatOk.double hF) (by rw [(digit_loops exC10 F).1 hF]; decide) 1).1, h1, h2, h3]
    rfl
  have e1 : calcInv exC10 (estInv exC10 F) F.digits10 (radixPower exC10 1) =
      { data := [100000000, 0, 0, 0, 0], exp := -16, neg := false, prec := 5 } := by
    unfold calcInv
    rw [if_neg (by decide), if_neg (by decide), hF.2.1]
    change ({ invLoop exC10 _ (15 - 1) (estInv exC10 F (radixPower exC10 1)) (radixPower exC10 1) with
      neg := false, prec := 5 } : DW) = _
    rw [e0, invLoop, dif_pos (by decide), invLoop, dif_pos (by decide), invLoop, dif_neg (by decide)]
    decide +kernel
  intro r
  have hr : r = { data := [100000000, 0, 0, 0, 0], exp := -16, neg := false, prec := 5 } := e1
  obtain ⟨p1, p2⟩ := radixPower_spec exC10 (-1)
  refine ⟨hr, ?_, ?_, p1, ?_, ?_⟩
  · rw [hr]; simp only [DW.val, limbsVal, h1, h2, h3]; norm_num
  · rw [hr]; intro h
    have := h.valid 100000000 (by simp)
    rw [h3] at this
    exact absurd this (lt_irrefl _)
  · rw [p2, h3]; norm_num
  · rw [hr]; decide +kernel

end WD
