import Verif.Proofs.Frexp
import Verif.Proofs.Fuel
import Verif.Props.FloatK
/-
  C53: `frexp`.
-/
namespace WD
open DW

/-- Three relative errors in a row. -/
theorem rel_three {X A C D e0 e1 e2 : ℚ} (hX : 0 < X) (h0 : 0 ≤ e0) (h1 : 0 ≤ e1) (h2 : 0 ≤ e2) (l0 : e0 ≤ 1 / 20) (l1 : e1 ≤ 1 / 20)
    (a : |A - X| ≤ e0 * X) (b : |C - A| ≤ e1 * A) (d : |D - C| ≤ e2 * C) : |D - X| ≤ X * (e0 + 4 / 3 * e1 + 4 / 3 * e2) := by
  have a' := abs_le.mp a
  have b' := abs_le.mp b
  have k0 : e0 * X ≤ 1 / 20 * X := mul_le_mul_of_nonneg_right l0 hX.le
  have hA : 0 < A := by linarith [a'.1]
  have k1 : e1 * A ≤ 1 / 20 * A := mul_le_mul_of_nonneg_right l1 hA.le
  have k2 : e1 * A ≤ e1 * (4 / 3 * X) := mul_le_mul_of_nonneg_left (by linarith [a'.2]) h1
  have k3 : e2 * C ≤ e2 * (4 / 3 * X) := mul_le_mul_of_nonneg_left (by linarith [a'.2, b'.2]) h2
  have t1 := abs_add_le (D - C) (C - A)
  have t2 := abs_add_le (D - A) (A - X)
  rw [sub_add_sub_cancel] at t1 t2
  linarith

/-- The positive case. -/
theorem frexp_core {c : Cfg} {F : Flt} (h : ElemOk c F) (hN : c.N < 1793) {tMax : ℤ} {x : DW} (hx : Full c x)
    (hx0 : 0 < x.val c) {t : ℤ} (ht : |301 * t - 1000 * ilogb x| ≤ 602) (ht0 : ilogb x = 0 → t = 0) (hk : |ilogb x| ≤ 640000000)
    (hr : |ilogb x| + |ilogb x| / 1000 + 4 * c.ed + 10 ≤ c.maxExp) (htM : 4 * |ilogb x| + 40 ≤ tMax) {fuel : ℕ}
    (hf : |ilogb x| / 1000 + 8 ≤ fuel) :
    ∃ p r1 t1 r e, pow c (estInv c F) F.digits10 (two c) (-t) = some p ∧
      frexpDown c (estInv c F) F.digits10 tMax fuel (mulAssign c x p) t = some (r1, t1) ∧ frexpUp c tMax fuel r1 t1 = some (r, e) ∧
      Full c r ∧ 1 / 2 ≤ r.val c ∧ r.val c < 1 ∧ |e| < 2 ^ 31 ∧
      |r.val c * 2 ^ e - x.val c| ≤ x.val c * ((4 * |(ilogb x : ℚ)| / 1000 + 28) * epsD c + (11 * |(ilogb x : ℚ)| + 30) * mulEps c) := by
  have hε := epsD_pos c
  have hε1 := epsD_le h.lo
  have hμ := mulEps_pos c
  have hμ1 := mulEps_le20 h.lo
  have hM := h.hM
  have h2 := two_le_ed c
  have hz := isZero_false_of_val hx.toWF hx0.ne'
  obtain ⟨p, hp, s1, s2⟩ := frexp_scaled h hN hx hx0 ht ht0 hk hr
  obtain ⟨y1, y2⟩ := ilogb_spec hx.toWF hz
  rw [abs_of_pos hx0] at y1 y2
  obtain ⟨z1, z2⟩ := two_ten_z ht
  have ht' := abs_le.mp ht
  set k := ilogb x with hkd
  have hK : ((k.natAbs : ℕ) : ℤ) = |k| := Int.natCast_natAbs k
  have hKq : |(k : ℚ)| = (k.natAbs : ℚ) := by
    rw [← Int.cast_abs, ← hK, Int.cast_natCast]
  rw [hKq]
  set K := k.natAbs with hKd
  rw [← hK] at hk hr htM hf
  have hkK : k ≤ K ∧ -(K : ℤ) ≤ k := by rw [hK]; exact ⟨le_abs_self k, neg_abs_le k⟩
  have hG0 : 1 ≤ growth K := growth_ge K
  have htb : -(10 * (K : ℤ) + 6) ≤ 3 * t ∧ 3 * t ≤ 10 * K + 6 := by omega
  have hta : 3 * |(t : ℚ)| ≤ 10 * K + 6 := by
    have h1 : ((3 * t : ℤ) : ℚ) ≤ ((10 * K + 6 : ℤ) : ℚ) := by exact_mod_cast htb.2
    have h2 : ((-(10 * (K : ℤ) + 6) : ℤ) : ℚ) ≤ ((3 * t : ℤ) : ℚ) := by exact_mod_cast htb.1
    push_cast at h1 h2
    rcases abs_cases (t : ℚ) with ⟨q, -⟩ | ⟨q, -⟩ <;> rw [q] <;> linarith
  have hKq' : (K : ℚ) ≤ 640000000 := by exact_mod_cast hk
  have hK0 : (0 : ℚ) ≤ K := Nat.cast_nonneg _
  have hn : ((K / 1000 + 7 : ℕ) : ℚ) ≤ K / 1000 + 7 := by
    push_cast
    have : ((K / 1000 : ℕ) : ℚ) ≤ (K : ℚ) / ((1000 : ℕ) : ℚ) := Nat.cast_div_le
    push_cast at this; linarith
  have hn0 : (0 : ℚ) ≤ ((K / 1000 + 7 : ℕ) : ℚ) := Nat.cast_nonneg _
  have hE0 : (3 * |(t : ℚ)| + 7) * mulEps c ≤ 1 / 10 ^ 6 := by
    calc (3 * |(t : ℚ)| + 7) * mulEps c ≤ 10 ^ 14 * (1 / 10 ^ 20) := by
          apply mul_le_mul _ hμ1 hμ.le (by norm_num)
          norm_num; linarith
      _ = _ := by norm_num
  have hE00 : 0 ≤ (3 * |(t : ℚ)| + 7) * mulEps c := by positivity
  have h2t : (0 : ℚ) < 2 ^ t := by positivity
  have hQ : 0 < x.val c / 2 ^ t := by positivity
  have hQlo : 1 / (4 * growth K) ≤ x.val c / 2 ^ t := by
    rw [div_le_div_iff₀ (by linarith) h2t]
    have : 4 * growth K * 10 ^ k ≤ 4 * growth K * x.val c := mul_le_mul_of_nonneg_left y1 (by linarith)
    linarith
  have hQhi : x.val c / 2 ^ t < 40 * growth K := by
    rw [div_lt_iff₀ h2t]
    rw [zpow_add_one₀ (by norm_num)] at y2
    linarith
  generalize hr0 : mulAssign c x p = r0 at *
  have s2' := abs_le.mp s2
  have s3 : x.val c / 2 ^ t * ((3 * |(t : ℚ)| + 7) * mulEps c) ≤ x.val c / 2 ^ t * (1 / 10 ^ 6) := mul_le_mul_of_nonneg_left hE0 hQ.le
  norm_num at s3
  have eG : growth K * (19 / 10) ^ 6 = (19 / 10) ^ (K / 1000 + 7) := by
    unfold growth; rw [← pow_add]
  have hE1 : 3 * ((K / 1000 + 7 : ℕ) : ℚ) * epsD c ≤ 1 / 10 ^ 6 := by
    calc 3 * ((K / 1000 + 7 : ℕ) : ℚ) * epsD c ≤ 10 ^ 10 * (1 / 10 ^ 16) := by
          apply mul_le_mul _ hε1 hε.le (by norm_num)
          linarith
      _ = _ := by norm_num
  obtain ⟨r1, m1, f1, f2, f3, f4, f5, f6, f7⟩ := frexpDown_spec (est := estInv c F) (fdig := F.digits10) (tMax := tMax) h.lo (by omega)
    (K / 1000 + 7) fuel r0 t (by omega) s1 (by linarith) (by
      rw [← eG]; norm_num; linarith) (by push_cast; omega) (hE1.trans (by norm_num))
  have hr1 : 1 / 2 ≤ r1.val c * (19 / 10) ^ (K / 1000 + 7) := by
    rcases f6 with f6 | f6
    · rw [f6]
      have : 99 / 100 * (1 / (4 * growth K)) ≤ r0.val c := by linarith
      have := mul_le_mul_of_nonneg_right this (show (0 : ℚ) ≤ (19 / 10) ^ (K / 1000 + 7) by positivity)
      refine le_trans ?_ this
      rw [← eG]
      have hg : growth K ≠ 0 := by linarith
      have : 99 / 100 * (1 / (4 * growth K)) * (growth K * (19 / 10) ^ 6) = 99 / 100 / 4 * (19 / 10) ^ 6 := by field_simp
      rw [this]; norm_num
    · have : (19 / 10 : ℚ) ^ 7 ≤ (19 / 10) ^ (K / 1000 + 7) := pow_le_pow_right₀ (by norm_num) (by omega)
      have : 2 / 5 * (19 / 10) ^ 7 ≤ r1.val c * (19 / 10) ^ (K / 1000 + 7) := mul_le_mul f6 this (by norm_num) f4.le
      refine le_trans (by norm_num) this
  obtain ⟨r, m2, g1, g2, g3, g4, g5, g6⟩ := frexpUp_spec (tMax := tMax) h.lo (by omega) (K / 1000 + 7) fuel r1 (t + m1) (by omega) f3 f4 f5
    hr1 (by push_cast; omega)
  refine ⟨p, r1, t + m1, r, t + m1 - m2, hp, by rw [hr0]; exact f1, g1, g3, g4, g5, ?_, ?_⟩
  · rw [abs_lt]; constructor <;> omega
  · have h2m1 : (0 : ℚ) < 2 ^ m1 := by positivity
    have h2m2 : (0 : ℚ) < 2 ^ m2 := by positivity
    have a : |r0.val c * 2 ^ t - x.val c| ≤ ((3 * |(t : ℚ)| + 7) * mulEps c) * x.val c := by
      have e : r0.val c * 2 ^ t - x.val c = (r0.val c - x.val c / 2 ^ t) * 2 ^ t := by field_simp
      rw [e, abs_mul, abs_of_pos h2t]
      have := mul_le_mul_of_nonneg_right s2 h2t.le
      refine this.trans (le_of_eq ?_)
      field_simp
    have b : |r1.val c * 2 ^ m1 * 2 ^ t - r0.val c * 2 ^ t| ≤ (3 * ((K / 1000 + 7 : ℕ) : ℚ) * epsD c) * (r0.val c * 2 ^ t) := by
      rw [← sub_mul, abs_mul, abs_of_pos h2t]
      have := mul_le_mul_of_nonneg_right f7 h2t.le
      linarith
    have d : |r.val c * 2 ^ (t + m1 - m2) - r1.val c * 2 ^ m1 * 2 ^ t| ≤ (((K / 1000 + 7 : ℕ) : ℚ) * mulEps c) * (r1.val c * 2 ^ m1 * 2 ^ t) := by
      have e : (2 : ℚ) ^ (t + m1 - m2) = 2 ^ t * 2 ^ m1 / 2 ^ m2 := by
        rw [zpow_sub₀ (by norm_num), zpow_add₀ (by norm_num), zpow_natCast, zpow_natCast]
      have e2 : r.val c * 2 ^ (t + m1 - m2) - r1.val c * 2 ^ m1 * 2 ^ t = (r.val c - r1.val c * 2 ^ m2) * (2 ^ t * 2 ^ m1 / 2 ^ m2) := by
        rw [e]; field_simp
      have hp : (0 : ℚ) < 2 ^ t * 2 ^ m1 / 2 ^ m2 := by positivity
      rw [e2, abs_mul, abs_of_pos hp]
      refine (mul_le_mul_of_nonneg_right g6 hp.le).trans (le_of_eq ?_)
      field_simp
    refine (rel_three hx0 hE00 (by positivity) (by positivity) (hE0.trans (by norm_num)) (hE1.trans (by norm_num)) a b d).trans ?_
    apply mul_le_mul_of_nonneg_left _ hx0.le
    have j1 : ((K / 1000 + 7 : ℕ) : ℚ) * epsD c ≤ (K / 1000 + 7) * epsD c := mul_le_mul_of_nonneg_right hn hε.le
    have j2 : ((K / 1000 + 7 : ℕ) : ℚ) * mulEps c ≤ (K / 1000 + 7) * mulEps c := mul_le_mul_of_nonneg_right hn hμ.le
    have j3 : (3 * |(t : ℚ)| + 7) * mulEps c ≤ (10 * K + 13) * mulEps c := mul_le_mul_of_nonneg_right (by linarith) hμ.le
    have j4 : 0 ≤ (K : ℚ) * mulEps c := by positivity
    linarith

/-- C53. For every non-zero x with decimal exponent k, |k| ≤ 640000000 and 10^(1.001|k|) inside the exponent range, `frexp`
    returns r and e with 1/2 ≤ |r| < 1, the sign of x, and r·2^e = x up to a relative error of
    (|k|/250 + 28)·10^(-digits10) + (11|k| + 30)·10^-(digits10+2·ed). `t` is the truncated product of k and 1000/301. -/
theorem frexp_accuracy_partial (c : Cfg) (F : Flt) (h : ElemOk c F) (tEst : ℤ → ℤ) (tMax : ℤ) (x : DW) (hx : Full c x)
    (hx0 : x.val c ≠ 0) (ht : |301 * tEst (ilogb x) - 1000 * ilogb x| ≤ 602) (ht0 : tEst 0 = 0) (hk : |ilogb x| ≤ 640000000)
    (hr : |ilogb x| + |ilogb x| / 1000 + 4 * c.ed + 10 ≤ c.maxExp) (htM : 4 * |ilogb x| + 40 ≤ tMax) (fuel : ℕ)
    (hf : |ilogb x| / 1000 + 8 ≤ fuel) :
    ∃ r e, frexp c (estInv c F) F.digits10 tEst tMax fuel x = some (r, e) ∧ Full c r ∧ 1 / 2 ≤ |r.val c| ∧ |r.val c| < 1 ∧
      (r.val c < 0 ↔ x.val c < 0) ∧
      |r.val c * 2 ^ e - x.val c| ≤ |x.val c| * ((4 * |(ilogb x : ℚ)| / 1000 + 28) / 10 ^ c.digits10 +
        (11 * |(ilogb x : ℚ)| + 30) / 10 ^ (c.digits10 + 2 * c.ed)) := by
  have hN : c.N < 1793 := h.hok.1
  have eμ : ∀ a : ℚ, a / 10 ^ (c.digits10 + 2 * c.ed) = a * mulEps c := by intro a; unfold mulEps; ring
  have eε : ∀ a : ℚ, a / 10 ^ c.digits10 = a * epsD c := by intro a; unfold epsD; rw [zpow_neg, zpow_natCast]; rfl
  rw [eμ, eε]
  have hz := isZero_false_of_val hx.toWF hx0
  have htM' : ¬ (tEst (ilogb x) > tMax ∨ tEst (ilogb x) < -tMax) := by
    have := abs_le.mp ht
    have h1 := le_abs_self (ilogb x)
    have h2 := neg_abs_le (ilogb x)
    omega
  have hcast : ∀ e : ℤ, |e| < 2 ^ 31 → castInt e = e := by
    intro e he
    have := abs_lt.mp he
    unfold castInt; omega
  rcases Bool.dichotomy x.neg with hn | hn
  · have hxp : 0 < x.val c := by
      have := val_sgn c x
      rw [hn] at this
      simp only [Bool.false_eq_true, if_false, one_mul] at this
      rw [this]; exact abs_pos.mpr hx0
    obtain ⟨p, r1, t1, r, e, a1, a2, a3, a4, a5, a6, a7, a8⟩ := frexp_core h hN hx hxp ht (fun q => by rw [q]; exact ht0) hk hr htM hf
    refine ⟨r, e, ?_, a4, ?_, ?_, ?_, ?_⟩
    · unfold frexp calcFrexp
      simp only [hz, hn, Bool.false_eq_true, if_false, if_neg htM', a1, a2, a3, Option.map_some, hcast e a7]
    · rw [abs_of_pos (by linarith)]; exact a5
    · rw [abs_of_pos (show 0 < r.val c by linarith)]; exact a6
    · constructor <;> intro <;> linarith
    · rw [abs_of_pos hxp]; exact a8
  · have hxn := negate_val c hx.toWF
    have hxf := negate_full hx
    have hxp : 0 < x.negate.val c := by
      have := val_sgn c x
      rw [hn] at this
      simp only [if_true] at this
      rw [hxn, this]; have := abs_pos.mpr hx0; linarith
    have hil : ilogb x.negate = ilogb x := by unfold negate; rw [hz]; rfl
    rw [← hil] at ht hk hr htM hf
    obtain ⟨p, r1, t1, r, e, a1, a2, a3, a4, a5, a6, a7, a8⟩ := frexp_core h hN hxf hxp ht (fun q => by rw [q]; exact ht0) hk hr htM hf
    have hrn := negate_val c a4.toWF
    rw [hxn] at hxp a8
    rw [hil] at a8
    refine ⟨r.negate, e, ?_, negate_full a4, ?_, ?_, ?_, ?_⟩
    · unfold frexp calcFrexp
      rw [← hil] at htM'
      simp only [hz, hn, Bool.false_eq_true, if_false, if_true, if_neg htM', a1, a2, a3, Option.map_some, hcast e a7]
    · rw [hrn, abs_neg, abs_of_pos (by linarith)]; exact a5
    · rw [hrn, abs_neg, abs_of_pos (show 0 < r.val c by linarith)]; exact a6
    · rw [hrn]; constructor <;> intro <;> linarith
    · rw [hrn, abs_of_neg (show x.val c < 0 by linarith)]
      have e1 : -(r.val c) * 2 ^ e - x.val c = -(r.val c * 2 ^ e - -(x.val c)) := by ring
      rw [e1, abs_neg]; exact a8

/-- frexp of zero is zero with exponent 0. -/
theorem frexp_zero (c : Cfg) (est : DW → DW) (fdig : ℕ) (tEst : ℤ → ℤ) (tMax : ℤ) (fuel : ℕ) (x : DW) (h : x.isZero = true) :
    frexp c est fdig tEst tMax fuel x = some (x, 0) := by
  unfold frexp calcFrexp; rw [if_pos h]; rfl

/-- The truncated product of k and 1000/301: what the code computes when no rounding of the `long double` product matters. -/
def exTEst (k : ℤ) : ℤ := (1000 * k).tdiv 301

/-- The hypotheses are met by frexp(0.693). -/
example : ∃ r e, frexp exC20 (estInv exC20 exDouble) exDouble.digits10 exTEst (2 ^ 63 - 1) 8 exS = some (r, e) ∧ Full exC20 r ∧
    1 / 2 ≤ |r.val exC20| ∧ |r.val exC20| < 1 ∧ (r.val exC20 < 0 ↔ exS.val exC20 < 0) ∧
      |r.val exC20 * 2 ^ e - exS.val exC20| ≤ |exS.val exC20| * ((4 * |(ilogb exS : ℚ)| / 1000 + 28) / 10 ^ exC20.digits10 +
        (11 * |(ilogb exS : ℚ)| + 30) / 10 ^ (exC20.digits10 + 2 * exC20.ed)) := by
  have hk : ilogb exS = -1 := by decide +kernel
  refine frexp_accuracy_partial exC20 exDouble exC20_ok exTEst (2 ^ 63 - 1) exS exS_full (by rw [exS_val]; norm_num) ?_ ?_ ?_ ?_ ?_ 8 ?_
  all_goals (try rw [hk])
  all_goals decide +kernel

/-! ### Where the claim is false -/

/-- 20 digits, 32-bit limbs, 32-bit exponents. -/
def exC20i : Cfg := { L := .u32, digits10 := 20, maxExp := 2 ^ 28 }
/-- 9·10^(2^28 - 8) -/
def exBig : DW := { data := [9, 0, 0, 0, 0, 0], exp := 268435448, neg := false, prec := 6 }
def exMax : DW := { data := [9, 0, 0, 0, 0, 0], exp := 268435456, neg := false, prec := 6 }
def exMaxInv : DW := { data := [1, 0, 0, 0, 0, 0], exp := -268435456, neg := false, prec := 6 }

theorem exBig_pow : powNat exC20i (two exC20i) 891812119 = exMax := by
  unfold powNat
  rw [if_neg (by norm_num), if_neg (by norm_num), if_neg (by norm_num), if_neg (by norm_num), if_neg (by norm_num),
    powLoop_eq_fuel _ 30 _ _ _ (by norm_num) (by norm_num)]
  decide +kernel

theorem exBig_inv : calcInv exC20i (estInv exC20i exDouble) exDouble.digits10 exMax = exMaxInv := by
  unfold calcInv
  rw [if_neg (by decide +kernel), if_neg (by decide +kernel)]
  dsimp only
  rw [invLoop_eq_fuel _ _ 5 _ _ _ (by decide +kernel), ← exDoubleK_eq]
  decide +kernel

theorem exBig_frexp : frexp exC20i (estInv exC20i exDouble) exDouble.digits10 exTEst (2 ^ 31 - 1) 30 exBig =
    some ({ data := [75497472, 0, 0, 0, 0, 0], exp := -8, neg := false, prec := 6 }, 891812096) := by
  have hp : pow exC20i (estInv exC20i exDouble) exDouble.digits10 (two exC20i) (-exTEst (ilogb exBig)) = some exMaxInv := by
    have ht : exTEst (ilogb exBig) = 891812119 := by decide +kernel
    rw [ht]
    unfold pow
    rw [if_neg (by norm_num), if_pos (by norm_num), ← exBig_inv, ← exBig_pow]
    rfl
  unfold frexp calcFrexp
  have hz : exBig.isZero = false := by decide +kernel
  have hn : exBig.neg = false := rfl
  have ht : exTEst (ilogb exBig) = 891812119 := by decide +kernel
  simp only [hz, hn, Bool.false_eq_true, if_false]
  rw [hp, ht]
  rw [if_neg (by norm_num), ← exDoubleK_eq]
  decide +kernel

theorem exBig_val : exBig.val exC20i = 9 * 10 ^ (268435448 : ℤ) := by
  rw [show exBig = fromLst exC20i [9] 268435448 false from by decide +kernel, fromLst_single_val]
  simp

/-- F47. The claim is false near the upper end of the exponent range: 2^t overflows and saturates. frexp(9·10^(2^28 - 8)) with
    32-bit exponents returns r, e with r·2^e larger than x by a factor of more than 10^18000. -/
theorem frexp_near_max_wrong : ∃ r e, frexp exC20i (estInv exC20i exDouble) exDouble.digits10 exTEst (2 ^ 31 - 1) 30 exBig = some (r, e) ∧
    Full exC20i exBig ∧ exBig.val exC20i * 10 ^ (18000 : ℤ) < r.val exC20i * 2 ^ e := by
  refine ⟨_, _, exBig_frexp, by decide, ?_⟩
  have hv : ({ data := [75497472, 0, 0, 0, 0, 0], exp := -8, neg := false, prec := 6 } : DW).val exC20i = 75497472 / 10 ^ 8 := by
    rw [show ({ data := [75497472, 0, 0, 0, 0, 0], exp := -8, neg := false, prec := 6 } : DW) = fromLst exC20i [75497472] (-8) false from by
      decide +kernel, fromLst_single_val]
    simp; norm_num
  rw [hv, exBig_val, mul_assoc, ← zpow_add₀ (by norm_num)]
  have h1 : (10 : ℚ) ^ 59 ≤ 2 ^ 196 := by norm_num
  have h2 : (10 : ℚ) ^ (59 * 4550061) ≤ 2 ^ (196 * 4550061) := by
    rw [pow_mul, pow_mul]; exact pow_le_pow_left₀ (by norm_num) h1 _
  have h3 : (2 : ℚ) ^ (196 * 4550061) ≤ 2 ^ (891812096 : ℤ) := by
    rw [← zpow_natCast]; exact zpow_le_zpow_right₀ (by norm_num) (by norm_num)
  have h4 : (10 : ℚ) ^ ((268435448 : ℤ) + 18000 + 2) ≤ 10 ^ (59 * 4550061) := by
    rw [← zpow_natCast]; exact zpow_le_zpow_right₀ (by norm_num) (by norm_num)
  have h5 : (10 : ℚ) ^ ((268435448 : ℤ) + 18000 + 2) = 10 ^ ((268435448 : ℤ) + 18000) * 100 := by
    rw [zpow_add₀ (by norm_num) _ 2]; norm_num
  rw [h5] at h4
  have h6 : (0 : ℚ) < 10 ^ ((268435448 : ℤ) + 18000) := p10_pos _
  generalize (10 : ℚ) ^ ((268435448 : ℤ) + 18000) = A at *
  generalize (2 : ℚ) ^ (891812096 : ℤ) = D at *
  generalize (10 : ℚ) ^ (59 * 4550061) = B at *
  generalize (2 : ℚ) ^ (196 * 4550061) = C at *
  norm_num
  linarith

/-- F48. The exponent is returned in an `int`: for |x| ≥ 2^(2^31) no pair with |r| < 1 that `frexp` can return satisfies
    r·2^e = x, it is too small by a factor of more than 1. -/
theorem frexp_int_wrong (c : Cfg) (est : DW → DW) (fdig : ℕ) (tEst : ℤ → ℤ) (tMax : ℤ) (fuel : ℕ) (x r : DW) (e : ℤ)
    (h : frexp c est fdig tEst tMax fuel x = some (r, e)) (hr : |r.val c| < 1) (hx : (2 : ℚ) ^ (2 ^ 31 - 1 : ℤ) ≤ |x.val c|) :
    |r.val c * 2 ^ e| < |x.val c| := by
  unfold frexp at h
  obtain ⟨⟨r', e'⟩, -, h2⟩ := Option.map_eq_some_iff.mp h
  have he : e < 2 ^ 31 := by
    have := congrArg Prod.snd h2
    dsimp only at this
    rw [← this]; unfold castInt; omega
  rw [abs_mul, abs_of_pos (show (0 : ℚ) < 2 ^ e by positivity)]
  have h2e : (2 : ℚ) ^ e ≤ 2 ^ (2 ^ 31 - 1 : ℤ) := zpow_le_zpow_right₀ (by norm_num) (by omega)
  have h0 : (0 : ℚ) < 2 ^ e := by positivity
  calc |r.val c| * 2 ^ e < 1 * 2 ^ e := mul_lt_mul_of_pos_right hr h0
    _ ≤ _ := by rw [one_mul]; exact h2e.trans hx

end WD
