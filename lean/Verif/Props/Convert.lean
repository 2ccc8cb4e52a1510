import Verif.Model.Convert
import Verif.Spec.ConvertSat
import Verif.Props.Round
import Verif.Props.Mul
/-
  C67: conversion to and from every built-in integer type and to `bool` (decwide_t.h:652-714, 2555-2569).
-/
namespace WD
open DW

theorem IntT.pow_pred {t : IntT} (h : t.Ok) : (2 : ℤ) ^ t.bits = 2 * 2 ^ (t.bits - 1) := by
  obtain ⟨n, hn⟩ : ∃ n, t.bits = n + 1 := ⟨t.bits - 1, by have := h.1; omega⟩
  rw [hn, pow_succ]; simp [mul_comm]

theorem IntT.pow_le {t : IntT} (h : t.Ok) : (2 : ℤ) ^ t.bits ≤ 2 ^ 64 := pow_le_pow_right₀ (by norm_num) h.2

theorem IntT.pow_le' {t : IntT} (h : t.Ok) : (2 : ℤ) ^ (t.bits - 1) ≤ 2 ^ 63 :=
  pow_le_pow_right₀ (by norm_num) (by have := h.2; omega)

theorem narrow_id {t : IntT} (h : t.Ok) {n : ℤ} (hn : t.Has n) : narrow t n = n := by
  have hp := IntT.pow_pred h
  have h0 : (0 : ℤ) < 2 ^ (t.bits - 1) := by positivity
  obtain ⟨a, b⟩ := hn
  unfold IntT.lo at a; unfold IntT.hi at b; unfold narrow
  generalize (2 : ℤ) ^ (t.bits - 1) = P at *
  rw [hp] at *
  cases hs : t.signed
  · rw [hs] at a b
    simp only [Bool.false_eq_true, if_false, false_and] at *
    exact Int.emod_eq_of_lt a (by omega)
  · rw [hs] at a b
    simp only [if_true, true_and] at *
    rcases lt_or_ge n 0 with hlt | hge
    · have : n % (2 * P) = n + 2 * P := by
        rw [← Int.add_emod_right]; exact Int.emod_eq_of_lt (by omega) (by omega)
      rw [this, if_pos (by omega)]; omega
    · rw [Int.emod_eq_of_lt hge (by omega), if_neg (by omega)]

/-- Narrowing yields a value of the type congruent to the operand. -/
theorem narrow_spec {t : IntT} (h : t.Ok) (n : ℤ) : t.Has (narrow t n) ∧ (2 : ℤ) ^ t.bits ∣ n - narrow t n := by
  have hp := IntT.pow_pred h
  have h0 : (0 : ℤ) < 2 ^ (t.bits - 1) := by positivity
  unfold IntT.Has IntT.lo IntT.hi narrow
  generalize (2 : ℤ) ^ (t.bits - 1) = P at *
  rw [hp] at *
  have e1 := Int.emod_nonneg n (show 2 * P ≠ 0 by omega)
  have e2 := Int.emod_lt_of_pos n (show 0 < 2 * P by omega)
  have e3 : 2 * P ∣ n - n % (2 * P) := Int.dvd_self_sub_emod
  dsimp only
  generalize n % (2 * P) = r at *
  cases t.signed
  · simp only [Bool.false_eq_true, if_false, false_and]
    exact ⟨⟨e1, by omega⟩, e3⟩
  · simp only [if_true, true_and]
    split
    · exact ⟨⟨by omega, by omega⟩, by rw [show n - (r - 2 * P) = n - r + 2 * P by ring]; exact dvd_add e3 dvd_rfl⟩
    · exact ⟨⟨by omega, by omega⟩, e3⟩

theorem narrow_congr {t : IntT} {a b : ℤ} (h : (2 : ℤ) ^ t.bits ∣ a - b) : narrow t a = narrow t b := by
  have : a % (2 : ℤ) ^ t.bits = b % (2 : ℤ) ^ t.bits := Int.emod_eq_emod_iff_emod_sub_eq_zero.mpr (Int.emod_eq_zero_of_dvd h)
  unfold narrow; rw [this]

theorem toSLL_clamp {c : Cfg} {x : DW} (hx : WF c x) (hD : 16 ≤ c.digits10) (hs : SigDigits c.maxDigits10 (x.val c)) :
    toSLL c x = max (-(2 ^ 63)) (min (2 ^ 63 - 1) (truncQ (x.val c))) := by
  rw [to_signed_truncates_partial c x hx hD hs]
  generalize x.val c = q
  unfold truncQ
  rcases le_or_gt 0 q with h0 | h0
  · rw [if_pos h0]
    have hf : 0 ≤ ⌊q⌋ := Int.floor_nonneg.mpr h0
    by_cases h1 : 2 ^ 63 - 1 < q
    · rw [if_pos h1]
      have : (2 : ℤ) ^ 63 - 1 ≤ ⌊q⌋ := Int.le_floor.mpr (by push_cast; linarith)
      rw [min_eq_left this]; rfl
    · rw [if_neg h1, if_neg (by rw [not_lt]; exact le_trans (by norm_num) h0)]
      have : ⌊q⌋ ≤ (2 : ℤ) ^ 63 - 1 := by
        have := (Int.floor_le q).trans (not_lt.mp h1)
        exact_mod_cast this
      rw [min_eq_right this, max_eq_right (by omega)]
  · rw [if_neg (not_le.mpr h0), if_neg (by rw [not_lt]; exact le_trans h0.le (by norm_num))]
    have hc : ⌈q⌉ ≤ 0 := Int.ceil_le.mpr (by push_cast; exact h0.le)
    rw [min_eq_right (by omega)]
    by_cases h1 : q < -(2 ^ 63)
    · rw [if_pos h1, max_eq_left]
      exact Int.ceil_le.mpr (by push_cast; exact h1.le)
    · rw [if_neg h1, max_eq_right]
      have := (not_lt.mp h1).trans (Int.le_ceil q)
      exact_mod_cast this

theorem castTo_eq {c : Cfg} {t : IntT} (ht : t.Ok) {x : DW} (hx : WF c x) (hD : 16 ≤ c.digits10)
    (hs : SigDigits c.maxDigits10 (x.val c)) : castTo c t x = narrow t (sat64 t (x.val c)) := by
  have hS := toSLL_clamp hx hD hs
  unfold castTo sat64
  cases htS : t.signed
  · simp only [Bool.false_eq_true, if_false, false_or]
    cases hn : x.isNeg
    · have hU := to_unsigned_truncates_partial c x hx hD hs hn
      have hv : x.val c = |x.val c| := WF.val_of_pos (c := c) hn
      have h0 : 0 ≤ x.val c := by rw [hv]; exact abs_nonneg _
      rw [if_neg (not_lt.mpr h0), hU, min_comm]
      unfold truncQ; rw [if_pos h0]
    · have hU : (toULL c x : ℤ) = toSLL c x % 2 ^ 64 := by
        unfold toULL castULL
        rw [if_pos hn, Int.toNat_of_nonneg (Int.emod_nonneg _ (by norm_num))]
      have e1 : narrow t (toULL c x) = narrow t (toSLL c x) := by
        apply narrow_congr
        rw [hU]
        have h1 : (2 : ℤ) ^ 64 ∣ toSLL c x % 2 ^ 64 - toSLL c x := by
          rw [← Int.neg_sub]; exact (Int.dvd_neg).mpr Int.dvd_self_sub_emod
        exact dvd_trans (pow_dvd_pow _ ht.2) h1
      rw [e1, hS]
      have hle : x.val c ≤ 0 := by
        have := WF.val_of_neg (c := c) hn
        rw [this]; simp
      rcases hle.lt_or_eq with h | h
      · rw [if_pos h]
      · rw [h, if_neg (lt_irrefl _)]; simp [truncQ]
  · simp only [if_true, true_or]
    rw [hS]

/-- C67 (value; partial: at least 16 digits, at most max_digits10 significant digits, as for C12). Converting to any
    built-in integer type gives the value truncated toward zero whenever that truncation is a value of the type; in
    particular a value strictly between -1 and 0 converts to 0 in an unsigned type. -/
theorem cast_truncates_partial (c : Cfg) (t : IntT) (ht : t.Ok) (x : DW) (hx : WF c x) (hD : 16 ≤ c.digits10)
    (hs : SigDigits c.maxDigits10 (x.val c)) (hr : t.Has (truncQ (x.val c))) : castTo c t x = truncQ (x.val c) := by
  rw [castTo_eq ht hx hD hs]
  have hp := IntT.pow_pred ht
  have hl := IntT.pow_le' ht
  have hl2 := IntT.pow_le ht
  suffices h : sat64 t (x.val c) = truncQ (x.val c) by rw [h, narrow_id ht hr]
  have hneg : x.val c < 0 → truncQ (x.val c) ≤ 0 := by
    intro h; unfold truncQ; rw [if_neg (not_le.mpr h)]; exact Int.ceil_le.mpr (by push_cast; exact h.le)
  obtain ⟨r1, r2⟩ := hr
  unfold sat64
  unfold IntT.lo at r1; unfold IntT.hi at r2
  generalize truncQ (x.val c) = k at *
  generalize (2 : ℤ) ^ (t.bits - 1) = P at *
  cases hts : t.signed
  · rw [hts] at r1 r2
    simp only [Bool.false_eq_true, if_false, false_or] at *
    split
    · next h => have := hneg h; omega
    · omega
  · rw [hts] at r1 r2
    simp only [if_true, true_or] at *
    omega

/-- C67 (all values; partial as above). Outside the range of the type the result is not saturated: it is the value of
    the type congruent modulo 2^bits to the truncation saturated to `long long` (signed types and negative values) or
    `unsigned long long` (unsigned types). -/
theorem cast_wraps_partial (c : Cfg) (t : IntT) (ht : t.Ok) (x : DW) (hx : WF c x) (hD : 16 ≤ c.digits10)
    (hs : SigDigits c.maxDigits10 (x.val c)) :
    t.Has (castTo c t x) ∧ (2 : ℤ) ^ t.bits ∣ sat64 t (x.val c) - castTo c t x := by
  rw [castTo_eq ht hx hD hs]; exact narrow_spec ht _

theorem ofInt_spec (c : Cfg) (t : IntT) (ht : t.Ok) (hD : 16 ≤ c.digits10) (n : ℤ) (hn : t.Has n) :
    Full c (ofInt c t n) ∧ (ofInt c t n).val c = n := by
  have hp := IntT.pow_pred ht
  have hl := IntT.pow_le' ht
  have hl2 := IntT.pow_le ht
  obtain ⟨r1, r2⟩ := hn
  unfold IntT.lo at r1; unfold IntT.hi at r2
  unfold ofInt
  cases hts : t.signed
  · rw [hts] at r1 r2
    simp only [Bool.false_eq_true, if_false] at *
    have hlt : n.toNat < 2 ^ t.bits := by zify; rw [Int.toNat_of_nonneg r1]; omega
    obtain ⟨a, b, -, -⟩ := of_unsigned_exact c t.bits n.toNat ht.2 hlt
    refine ⟨a, ?_⟩
    rw [b (int_capacity c hD _ (lt_of_lt_of_le hlt (Nat.pow_le_pow_right (by norm_num) ht.2)))]
    have := Int.toNat_of_nonneg r1
    exact_mod_cast this
  · rw [hts] at r1 r2
    simp only [if_true] at *
    obtain ⟨a, b, -, -⟩ := of_signed_exact c n (by omega) (by omega)
    exact ⟨a, b (int_capacity c hD _ (by omega))⟩

/-- C67 (round trip). With at least 16 decimal digits every value of every built-in integer type converts to a
    wide-decimal of exactly that value and back to itself. -/
theorem cast_round_trip (c : Cfg) (t : IntT) (ht : t.Ok) (hD : 16 ≤ c.digits10) (n : ℤ) (hn : t.Has n) :
    (ofInt c t n).val c = n ∧ castTo c t (ofInt c t n) = n := by
  obtain ⟨a, b⟩ := ofInt_spec c t ht hD n hn
  have hT : truncQ ((ofInt c t n).val c) = n := by rw [b]; unfold truncQ; split <;> simp
  have hmd : (2 : ℤ) ^ 64 < 10 ^ c.maxDigits10 := by
    have : (10 : ℤ) ^ 20 ≤ 10 ^ c.maxDigits10 := pow_le_pow_right₀ (by norm_num) (by unfold Cfg.maxDigits10; omega)
    exact lt_of_lt_of_le (by norm_num) this
  have hab : |n| < 10 ^ c.maxDigits10 := by
    have hp := IntT.pow_pred ht
    have hl := IntT.pow_le' ht
    have hl2 := IntT.pow_le ht
    obtain ⟨r1, r2⟩ := hn
    unfold IntT.lo at r1; unfold IntT.hi at r2
    refine lt_trans (abs_lt.mpr ⟨?_, ?_⟩) hmd
    · split at r1 <;> omega
    · split at r2 <;> omega
  refine ⟨b, ?_⟩
  rw [cast_truncates_partial c t ht _ a.toWF hD (by rw [b]; exact SigDigits.of_int _ _ hab) (by rw [hT]; exact hn), hT]

/-- C67 (bool). A value converts to `true` exactly when it is not zero, and `bool` survives the round trip. -/
theorem to_bool_iff (c : Cfg) (x : DW) (hx : WF c x) : DW.toBool x = true ↔ x.val c ≠ 0 := by
  rw [Ne, ← hx.isZero_iff]; unfold DW.toBool; simp

theorem bool_round_trip (c : Cfg) (hD : 16 ≤ c.digits10) (b : Bool) :
    DW.toBool (ofInt c ⟨1, false⟩ (if b then 1 else 0)) = b := by
  have ht : IntT.Ok ⟨1, false⟩ := ⟨by norm_num, by norm_num⟩
  have hn : IntT.Has ⟨1, false⟩ (if b then 1 else 0) := by cases b <;> (unfold IntT.Has; decide)
  obtain ⟨a, hv⟩ := ofInt_spec c _ ht hD _ hn
  have := to_bool_iff c _ a.toWF
  rw [hv] at this
  cases b
  · rw [Bool.eq_false_iff]; simpa using this
  · simpa using this

/-- C67 is not a saturating conversion for the narrower types, although the 64-bit ones saturate (C12): the number
    10^20 converts to -1 as a 32-bit `int`, 300 to 44 as an 8-bit unsigned, and -5 to 2^64 - 5 as `unsigned long long`. -/
theorem cast_narrow_wraps :
    let c20 : Cfg := { exC with digits10 := 20 }
    castTo c20 ⟨32, true⟩ { data := 1 :: List.replicate 12 0, exp := 20, neg := false, prec := 13 } = -1 ∧
    castTo c20 ⟨8, false⟩ { data := 3 :: List.replicate 12 0, exp := 2, neg := false, prec := 13 } = 44 ∧
    castTo c20 ⟨64, false⟩ { data := 5 :: List.replicate 12 0, exp := 0, neg := true, prec := 13 } = 2 ^ 64 - 5 := by
  decide +kernel

-- the hypotheses of `cast_truncates_partial` hold, and the result is as stated, for -123.45 as a 16-bit `short` …
example :
    let c20 : Cfg := { exC with digits10 := 20 }
    castTo c20 ⟨16, true⟩ { data := [1, 23, 45] ++ List.replicate 10 0, exp := 2, neg := true, prec := 13 } = -123 ∧
    IntT.Has ⟨16, true⟩ (-123) := by
  refine ⟨by decide +kernel, by unfold IntT.Has; decide⟩
-- … and for -0.75 as `unsigned char`
example :
    let c20 : Cfg := { exC with digits10 := 20 }
    castTo c20 ⟨8, false⟩ { data := 75 :: List.replicate 12 0, exp := -2, neg := true, prec := 13 } = 0 := by decide +kernel
-- round trip of the extreme values of `short`, hypotheses included
example : castTo { exC with digits10 := 20 } ⟨16, true⟩ (ofInt { exC with digits10 := 20 } ⟨16, true⟩ (-32768)) = -32768 :=
  (cast_round_trip _ ⟨16, true⟩ ⟨by norm_num, by norm_num⟩ (by decide) (-32768) (by unfold IntT.Has; decide)).2
-- a non-trivial instance with every hypothesis of `cast_truncates_partial` discharged: 12345 as a 32-bit `int`
example : castTo { exC with digits10 := 20 } ⟨32, true⟩ (ofSigned { exC with digits10 := 20 } 12345) = 12345 := by
  obtain ⟨a, b, -, -⟩ := of_signed_exact { exC with digits10 := 20 } 12345 (by norm_num) (by norm_num)
  have hv := b (int_capacity _ (by decide) _ (by norm_num))
  have hT : truncQ ((ofSigned { exC with digits10 := 20 } 12345).val { exC with digits10 := 20 }) = 12345 := by
    rw [hv]; unfold truncQ; norm_num
  rw [cast_truncates_partial _ ⟨32, true⟩ ⟨by norm_num, by norm_num⟩ _ a.toWF (by decide)
    (by rw [hv]; exact SigDigits.of_int _ _ (by norm_num [Cfg.maxDigits10])) (by rw [hT]; unfold IntT.Has; decide), hT]

end WD
