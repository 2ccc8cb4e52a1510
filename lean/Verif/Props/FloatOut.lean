import Verif.Proofs.FloatOut
import Verif.Props.FloatConv
/-
  C61: conversion to built-in floating-point types (`static_cast<long double>(x)`, `double`, `float`).

  `F` is `long double` with `F.maxDigits10` = max_digits10, `G` the target type; `ew` is digits10 of the unsigned exponent
  type (19, 9, 4, 2 for exponents of 64, 32, 16, 8 bits). All numbers whose decimal exponent has fewer than `ew` digits are
  covered, that is |x| between about 10^(-10^(ew-1)) and 10^(10^(ew-1)); for 64-bit exponents this is every number in range.
-/
namespace WD
open DW Util

/-- A number next to a representable number is rounded to it. -/
theorem Flt.rnd_near_eq (F : Flt) {v r : ℚ} (hr : RepF F.p r) (h : 2 ^ (F.p + 2) * |v - r| < |r|) : F.rnd v = r := by
  by_contra hne
  have h1 := repF_gap hr (F.rep v) (fun h => hne h.symm)
  have h2 := F.nearest v r hr
  have h3 : |r - F.rnd v| ≤ |v - r| + |v - F.rnd v| := by
    have := abs_add_le (r - v) (v - F.rnd v)
    rw [sub_add_sub_cancel, abs_sub_comm r v] at this
    exact this
  have h4 : (0 : ℚ) < 2 ^ (F.p + 1) := by positivity
  have h5 : 2 ^ (F.p + 1) * |r - F.rnd v| ≤ 2 ^ (F.p + 1) * (2 * |v - r|) := mul_le_mul_of_nonneg_left (by linarith) h4.le
  have h6 : (2 : ℚ) ^ (F.p + 2) = 2 ^ (F.p + 1) * 2 := by rw [← pow_succ]
  rw [h6] at h
  linarith

/-- The exponent is bounded by the value. -/
theorem exp_of_range {c : Cfg} {x : DW} (hx : WF c x) (hx0 : x.val c ≠ 0) {n : ℕ} (hlo : (10 : ℚ) ^ ((c.ed : ℤ) - n) ≤ |x.val c|)
    (hhi : |x.val c| < (10 : ℚ) ^ (n : ℤ)) : x.exp.natAbs < n := by
  have hz : x.isZero = false := by
    by_contra h
    exact hx0 (hx.isZero_iff.mp (by simpa using h))
  have h1 := exp_lt_of_lt hx hz hhi
  have h2 : (c.ed : ℤ) - n < x.exp + c.ed := (zpow_lt_zpow_iff_right₀ (by norm_num : (1 : ℚ) < 10)).mp (lt_of_le_of_lt hlo hx.abs_lt)
  omega

/-- The number read by `strtold` differs from x by less than one unit in the digit max_digits10 + 1. -/
theorem ld_text_close {c : Cfg} {x : DW} (md : ℕ) {ew : ℕ} (hx : WF c x) (hx0 : x.val c ≠ 0) (hew : 2 ≤ ew) (he : x.exp.natAbs < 10 ^ (ew - 1)) :
    ∃ s, ldText c md ew x = some s ∧ |x.val c - scanDec s| ≤ |x.val c| / 10 ^ md := by
  obtain ⟨s, h1, h2⟩ := ldText_fits hx md hew he
  obtain ⟨q1, q2⟩ := cut_err hx hx0 md
  refine ⟨s, h1, ?_⟩
  rw [h2]
  generalize (⌊|x.val c| / (10 : ℚ) ^ (x.exp - c.ed * ((ldElems c md : ℤ) - 1))⌋ * (10 : ℚ) ^ (x.exp - c.ed * ((ldElems c md : ℤ) - 1)) : ℚ) = v at *
  have h3 : x.val c - (if x.neg then -1 else 1) * v = (if x.neg then -1 else 1) * (|x.val c| - v) := by
    conv_lhs => rw [val_sgn c x]
    ring
  rw [h3, abs_mul, show |(if x.neg then (-1 : ℚ) else 1)| = 1 by split <;> norm_num, one_mul, abs_of_nonneg (by linarith)]
  exact q2

/-- C61: for every number with an exponent of the stated size the conversion to `long double` gives a representable number,
    and no representable number is closer to x by more than 2·10^(-max_digits10) relative (the digits behind are cut off). -/
theorem to_long_double_nearest (c : Cfg) (F : Flt) (ew : ℕ) (x : DW) (hx : WF c x) (hx0 : x.val c ≠ 0) (hew : 2 ≤ ew)
    (hlo : (10 : ℚ) ^ ((c.ed : ℤ) - (10 ^ (ew - 1) : ℕ)) ≤ |x.val c|) (hhi : |x.val c| < (10 : ℚ) ^ ((10 ^ (ew - 1) : ℕ) : ℤ)) :
    ∃ r, toLongDouble c F ew x = some r ∧ RepF F.p r ∧
      ∀ f, RepF F.p f → |x.val c - r| ≤ |x.val c - f| + 2 / 10 ^ F.maxDigits10 * |x.val c| := by
  obtain ⟨s, h1, h2⟩ := ld_text_close F.maxDigits10 hx hx0 hew (exp_of_range hx hx0 hlo hhi)
  refine ⟨F.rnd (scanDec s), by rw [toLongDouble, h1]; rfl, F.rep _, fun f hf => ?_⟩
  have h3 := F.nearest (scanDec s) f hf
  have h4 := abs_sub_le (x.val c) (scanDec s) (F.rnd (scanDec s))
  have h5 := abs_sub_le (scanDec s) (x.val c) f
  rw [abs_sub_comm (scanDec s) (x.val c)] at h5
  have : 2 / 10 ^ F.maxDigits10 * |x.val c| = 2 * (|x.val c| / 10 ^ F.maxDigits10) := by ring
  linarith

/-- C61, `double` and `float`: the number is rounded twice. No number of the target type is closer by more than the error of the
    intermediate `long double`, 2·(2^(-p) + 2·10^(-max_digits10)) relative. -/
theorem to_float_near (c : Cfg) (F G : Flt) (hp : 1 ≤ F.p) (ew : ℕ) (x : DW) (hx : WF c x) (hx0 : x.val c ≠ 0) (hew : 2 ≤ ew)
    (hlo : (10 : ℚ) ^ ((c.ed : ℤ) - (10 ^ (ew - 1) : ℕ)) ≤ |x.val c|) (hhi : |x.val c| < (10 : ℚ) ^ ((10 ^ (ew - 1) : ℕ) : ℤ)) :
    ∃ r, toFloat c F G ew x = some r ∧ RepF G.p r ∧
      ∀ f, RepF G.p f → |x.val c - r| ≤ |x.val c - f| + 2 * ((2 : ℚ) ^ (-(F.p : ℤ)) + 2 / 10 ^ F.maxDigits10) * |x.val c| := by
  obtain ⟨s, h1, h2⟩ := ld_text_close F.maxDigits10 hx hx0 hew (exp_of_range hx hx0 hlo hhi)
  refine ⟨G.rnd (F.rnd (scanDec s)), by rw [toFloat, toLongDouble, h1]; rfl, G.rep _, fun f hf => ?_⟩
  have e1 := F.rnd_err hp (scanDec s)
  rw [show F.u = (2 : ℚ) ^ (-(F.p : ℤ)) from rfl] at e1
  set y := F.rnd (scanDec s)
  set v := scanDec s
  have hu : (2 : ℚ) ^ (-(F.p : ℤ)) ≤ 1 := by
    rw [zpow_neg, zpow_natCast]; exact inv_le_one_of_one_le₀ (one_le_pow₀ (by norm_num))
  have hu0 : (0 : ℚ) < (2 : ℚ) ^ (-(F.p : ℤ)) := by positivity
  set u := (2 : ℚ) ^ (-(F.p : ℤ))
  have hv : |v| ≤ |x.val c| + |x.val c| / 10 ^ F.maxDigits10 := by
    have := abs_sub_abs_le_abs_sub v (x.val c)
    rw [abs_sub_comm] at this
    linarith
  have e2 : |v - y| ≤ |x.val c| * u + |x.val c| / 10 ^ F.maxDigits10 := by
    have a : |v| * u ≤ (|x.val c| + |x.val c| / 10 ^ F.maxDigits10) * u := mul_le_mul_of_nonneg_right hv hu0.le
    have b : |x.val c| / 10 ^ F.maxDigits10 * u ≤ |x.val c| / 10 ^ F.maxDigits10 * 1 := mul_le_mul_of_nonneg_left hu (by positivity)
    linarith
  have e3 := G.nearest y f hf
  have h4 := abs_sub_le (x.val c) v y
  have h5 := abs_sub_le (x.val c) y (G.rnd y)
  have h6 := abs_sub_le y (x.val c) f
  rw [abs_sub_comm y (x.val c)] at h6
  have : 2 * (u + 2 / 10 ^ F.maxDigits10) * |x.val c| = 2 * (|x.val c| * u) + 4 * (|x.val c| / 10 ^ F.maxDigits10) := by ring
  linarith

/-- C61: a number that is exactly representable in the target type is converted without error, through `long double`
    (`max_digits10` digits are enough: 2^p ≤ 10^(max_digits10 - 1)). -/
theorem to_float_exact (c : Cfg) (F G : Flt) (hGF : G.p ≤ F.p) (hmd : 2 ^ F.p * 10 ≤ 10 ^ F.maxDigits10) (ew : ℕ) (x : DW) (hx : WF c x)
    (hx0 : x.val c ≠ 0) (hew : 2 ≤ ew)
    (hlo : (10 : ℚ) ^ ((c.ed : ℤ) - (10 ^ (ew - 1) : ℕ)) ≤ |x.val c|) (hhi : |x.val c| < (10 : ℚ) ^ ((10 ^ (ew - 1) : ℕ) : ℤ))
    (hrep : RepF G.p (x.val c)) : toLongDouble c F ew x = some (x.val c) ∧ toFloat c F G ew x = some (x.val c) := by
  obtain ⟨s, h1, h2⟩ := ld_text_close F.maxDigits10 hx hx0 hew (exp_of_range hx hx0 hlo hhi)
  have hrF : RepF F.p (x.val c) := by
    obtain ⟨m, k, hm, e⟩ := hrep
    exact ⟨m, k, le_trans hm (pow_le_pow_right₀ (by norm_num) hGF), e⟩
  have hr : F.rnd (scanDec s) = x.val c := by
    apply F.rnd_near_eq hrF
    rw [abs_sub_comm]
    have hpos : 0 < |x.val c| := abs_pos.mpr hx0
    have hq : (2 : ℚ) ^ F.p * 10 ≤ 10 ^ F.maxDigits10 := by exact_mod_cast hmd
    calc 2 ^ (F.p + 2) * |x.val c - scanDec s| ≤ 2 ^ (F.p + 2) * (|x.val c| / 10 ^ F.maxDigits10) := mul_le_mul_of_nonneg_left h2 (by positivity)
      _ = (2 ^ F.p * 4) / 10 ^ F.maxDigits10 * |x.val c| := by rw [pow_add]; ring
      _ < 1 * |x.val c| := by
        refine mul_lt_mul_of_pos_right ?_ hpos
        rw [div_lt_one (by positivity)]
        have : (0 : ℚ) < 2 ^ F.p := by positivity
        linarith
      _ = |x.val c| := one_mul _
  have h3 : toLongDouble c F ew x = some (x.val c) := by rw [toLongDouble, h1, Option.map_some, hr]
  refine ⟨h3, ?_⟩
  rw [toFloat, h3, Option.map_some, G.rnd_eq hrep]

/-- C61: the conversions keep the order (all three types: `G` may be `long double` itself). -/
theorem to_float_monotone (c : Cfg) (F G : Flt) (ew : ℕ) (x y : DW) (hx : WF c x) (hy : WF c y) (hew : 2 ≤ ew)
    (hxe : x.exp.natAbs < 10 ^ (ew - 1)) (hye : y.exp.natAbs < 10 ^ (ew - 1)) (h : x.val c ≤ y.val c) :
    ∃ r s, toLongDouble c F ew x = some r ∧ toLongDouble c F ew y = some s ∧ r ≤ s ∧
      ∃ r' s', toFloat c F G ew x = some r' ∧ toFloat c F G ew y = some s' ∧ r' ≤ s' := by
  obtain ⟨s, s1, s2⟩ := ldText_fits hx F.maxDigits10 hew hxe
  obtain ⟨t, t1, t2⟩ := ldText_fits hy F.maxDigits10 hew hye
  have hst : scanDec s ≤ scanDec t := by
    rw [s2, t2]
    have cm := fun h => cut_mono hx hy h F.maxDigits10
    have cm' := fun h => cut_mono hy hx h F.maxDigits10
    have xs := val_sgn c x
    have ys := val_sgn c y
    have nn : ∀ (q : ℚ) (e : ℤ), (0 : ℚ) ≤ ⌊|q| / (10 : ℚ) ^ e⌋ * (10 : ℚ) ^ e := by
      intro q e
      have : (0 : ℤ) ≤ ⌊|q| / (10 : ℚ) ^ e⌋ := Int.floor_nonneg.mpr (by positivity)
      have : (0 : ℚ) ≤ ⌊|q| / (10 : ℚ) ^ e⌋ := by exact_mod_cast this
      positivity
    have nx := nn (x.val c) (x.exp - c.ed * ((ldElems c F.maxDigits10 : ℤ) - 1))
    have ny := nn (y.val c) (y.exp - c.ed * ((ldElems c F.maxDigits10 : ℤ) - 1))
    have ax := abs_nonneg (x.val c)
    have ay := abs_nonneg (y.val c)
    have hx0 : x.val c = 0 → (⌊|x.val c| / (10 : ℚ) ^ (x.exp - c.ed * ((ldElems c F.maxDigits10 : ℤ) - 1))⌋ *
        (10 : ℚ) ^ (x.exp - c.ed * ((ldElems c F.maxDigits10 : ℤ) - 1)) : ℚ) = 0 := by
      intro h0; rw [h0]; simp
    have hy0 : y.val c = 0 → (⌊|y.val c| / (10 : ℚ) ^ (y.exp - c.ed * ((ldElems c F.maxDigits10 : ℤ) - 1))⌋ *
        (10 : ℚ) ^ (y.exp - c.ed * ((ldElems c F.maxDigits10 : ℤ) - 1)) : ℚ) = 0 := by
      intro h0; rw [h0]; simp
    generalize (⌊|x.val c| / (10 : ℚ) ^ (x.exp - c.ed * ((ldElems c F.maxDigits10 : ℤ) - 1))⌋ *
        (10 : ℚ) ^ (x.exp - c.ed * ((ldElems c F.maxDigits10 : ℤ) - 1)) : ℚ) = vx at *
    generalize (⌊|y.val c| / (10 : ℚ) ^ (y.exp - c.ed * ((ldElems c F.maxDigits10 : ℤ) - 1))⌋ *
        (10 : ℚ) ^ (y.exp - c.ed * ((ldElems c F.maxDigits10 : ℤ) - 1)) : ℚ) = vy at *
    rcases hxn : x.neg <;> rcases hyn : y.neg <;> simp only [hxn, hyn, if_true, if_false, Bool.false_eq_true, one_mul, neg_one_mul] at xs ys ⊢
    · exact cm (by linarith)
    · have h1 : |x.val c| = 0 := by linarith
      have h2 : |y.val c| = 0 := by linarith
      rw [hx0 (abs_eq_zero.mp h1), hy0 (abs_eq_zero.mp h2)]; simp
    · linarith
    · have := cm' (by linarith); linarith
  have m1 := F.rnd_mono hst
  refine ⟨_, _, by rw [toLongDouble, s1]; rfl, by rw [toLongDouble, t1]; rfl, m1, _, _, by rw [toFloat, toLongDouble, s1]; rfl,
    by rw [toFloat, toLongDouble, t1]; rfl, G.rnd_mono m1⟩

/-- C61: a number whose exponent fits has the sign and the zero of the conversion: zero is converted to zero. -/
theorem to_float_zero (c : Cfg) (F G : Flt) (ew : ℕ) (x : DW) (hx : WF c x) (hx0 : x.val c = 0) (hew : 2 ≤ ew) (he : x.exp.natAbs < 10 ^ (ew - 1)) :
    toLongDouble c F ew x = some 0 ∧ toFloat c F G ew x = some 0 := by
  obtain ⟨s, s1, s2⟩ := ldText_fits hx F.maxDigits10 hew he
  have : scanDec s = 0 := by rw [s2, hx0]; simp
  have h3 : toLongDouble c F ew x = some 0 := by rw [toLongDouble, s1, Option.map_some, this, F.rnd_zero]
  exact ⟨h3, by rw [toFloat, h3, Option.map_some, G.rnd_zero]⟩

/-- C61 with C43: a built-in number converted to `decwide_t` and back is the same number, where the first conversion is exact
    (`float_exact_partial`; without its digit condition even 1.0 is not preserved, `float_one_not_one`). -/
theorem float_round_trip_partial (c : Cfg) (est : DW → DW) (fdig : ℕ) (F G : Flt) (hGF : G.p ≤ F.p) (hmd : 2 ^ F.p * 10 ≤ 10 ^ F.maxDigits10)
    (minN : ℚ) (m : ℕ) (k : ℤ) (b : Bool) (ew : ℕ) (hew : 2 ≤ ew)
    (hp : 0 < G.p) (hp64 : G.p ≤ 64) (hn : NormalF G.p minN m k) (hok : MulOk c c.N) (hE : 2 * c.ed + 1 ≤ c.maxExp)
    (hcap : m < 10 ^ (c.ed * c.N)) (hm : (m : ℚ) < 10 ^ ((c.maxExp : ℤ) - 1)) (hhi : m * (2 : ℚ) ^ k ≤ 10 ^ ((c.maxExp : ℤ) - 1))
    (hlo : (10 : ℚ) ^ (-(c.maxExp : ℤ) + 2 * c.ed + 1) ≤ (2 : ℚ) ^ k)
    (hpow : (if k < 0 then 5 else 2) ^ k.natAbs < 10 ^ (c.digits10 + 2 * c.ed + 1))
    (hsig : SigDigits (c.digits10 + 2 * c.ed + 1) (m * (2 : ℚ) ^ k))
    (hdiv : k = -1 ∨ k = -2 → m < 10 ^ c.digits10)
    (hlo' : (10 : ℚ) ^ ((c.ed : ℤ) - (10 ^ (ew - 1) : ℕ)) ≤ m * (2 : ℚ) ^ k) (hhi' : m * (2 : ℚ) ^ k < (10 : ℚ) ^ ((10 ^ (ew - 1) : ℕ) : ℤ)) :
    let f := (if b then -1 else 1) * (m * (2 : ℚ) ^ k)
    toFloat c F G ew (fromFloat c est fdig G.p minN f) = some f := by
  intro f
  obtain ⟨r1, r2, -⟩ := float_exact_partial c est fdig G.p minN m k b hp hp64 hn hok hE hcap hm hhi hlo hpow hsig hdiv
  have hpos : 0 < m * (2 : ℚ) ^ k := by
    have h1 : 0 < m := lt_of_lt_of_le (by positivity) hn.1
    have h2 : (0 : ℚ) < m := by exact_mod_cast h1
    positivity
  have hf : |f| = m * (2 : ℚ) ^ k := by
    show |(if b then (-1 : ℚ) else 1) * (m * (2 : ℚ) ^ k)| = _
    rw [abs_mul, show |(if b then (-1 : ℚ) else 1)| = 1 by split <;> norm_num, one_mul, abs_of_pos hpos]
  have hf0 : f ≠ 0 := by rw [← abs_pos, hf]; exact hpos
  change (fromFloat c est fdig G.p minN f).val c = f at r2
  change Full c (fromFloat c est fdig G.p minN f) at r1
  have := to_float_exact c F G hGF hmd ew _ r1.toWF (by rw [r2]; exact hf0) hew (by rw [r2, hf]; exact hlo') (by rw [r2, hf]; exact hhi') (by
    rw [r2]
    refine ⟨(if b then -1 else 1) * m, k, ?_, ?_⟩
    · rw [abs_mul, show |(if b then (-1 : ℤ) else 1)| = 1 by split <;> norm_num, one_mul, abs_of_nonneg (by positivity)]
      exact_mod_cast hn.2.1.le
    · show (if b then (-1 : ℚ) else 1) * (m * (2 : ℚ) ^ k) = _
      push_cast; ring)
  rw [this.2, r2]

/-- C61 is false for numbers whose leading limb and exponent both have the full number of digits: the text fills the buffer, there is
    no terminating zero, and `strtold` reads behind its end (undefined; F57). -/
theorem to_long_double_overread (c : Cfg) (F : Flt) (ew : ℕ) (x : DW) (hx : WF c x) (hew : 2 ≤ ew) (hd : 10 ^ (c.ed - 1) ≤ x.d0)
    (he : 10 ^ (ew - 1) ≤ x.exp.natAbs) (he' : x.exp.natAbs < 10 ^ ew) : toLongDouble c F ew x = none := by
  obtain ⟨s, h1, -⟩ := ldText_spec hx F.maxDigits10 (ew := ew) (by omega) he'
  have o1 := pow_le_orderOf hd
  have o2 := pow_le_orderOf he
  have := c.ed_pos
  rw [toLongDouble, h1, if_neg (by omega)]; rfl

/-- Such a number: 12345678·10^1000 with 16-bit exponents, well inside the range of `long double`. -/
theorem to_long_double_overread_witness (F : Flt) : let c : Cfg := { L := .u32, digits10 := 20, maxExp := 2 ^ 13 }
    Full c (ofString c "12345678e1000".toList) ∧ toLongDouble c F 4 (ofString c "12345678e1000".toList) = none := by
  intro c
  have e : ofString c "12345678e1000".toList = { data := [12345678, 0, 0, 0, 0, 0], exp := 1000, neg := false, prec := 6 } := by decide +kernel
  rw [e]
  have hf : Full c { data := [12345678, 0, 0, 0, 0, 0], exp := 1000, neg := false, prec := 6 } :=
    ⟨⟨by decide, by decide, by decide, by decide, by decide, by decide⟩, by decide⟩
  exact ⟨hf, to_long_double_overread c F 4 _ hf.toWF (by norm_num) (by decide) (by decide) (by decide)⟩

/-- There is no `double` between 1 and 1 + 2^-52. -/
theorem no_double_between {r : ℚ} (h : RepF 53 r) : r ≤ 1 ∨ 1 + 1 / 2 ^ 52 ≤ r := by
  by_contra hc
  push Not at hc
  obtain ⟨h1, h2⟩ := hc
  obtain ⟨m, k, hm, rfl⟩ := h
  have pk : (0 : ℚ) < 2 ^ k := by positivity
  have hk : -53 < k := by
    have hmq : (m : ℚ) ≤ 2 ^ 53 := le_trans (le_abs_self _) (by exact_mod_cast hm)
    have : (2 : ℚ) ^ (-53 : ℤ) < 2 ^ k := by
      have : 1 < 2 ^ 53 * (2 : ℚ) ^ k := lt_of_lt_of_le h1 (mul_le_mul_of_nonneg_right hmq pk.le)
      norm_num at this ⊢
      linarith
    exact (zpow_lt_zpow_iff_right₀ (by norm_num)).mp this
  obtain ⟨j, rfl⟩ : ∃ j : ℕ, k = -52 + j := ⟨(k + 52).toNat, by omega⟩
  have e : (m : ℚ) * 2 ^ (-52 + (j : ℤ)) = ((m * 2 ^ j : ℤ) : ℚ) / 2 ^ 52 := by
    rw [zpow_add₀ (by norm_num), zpow_natCast]; push_cast; norm_num; ring
  rw [e] at h1 h2
  rw [lt_div_iff₀ (by norm_num), one_mul] at h1
  rw [div_lt_iff₀ (by norm_num)] at h2
  have a : (2 ^ 52 : ℤ) < m * 2 ^ j := by exact_mod_cast h1
  have b : m * 2 ^ j < (2 ^ 52 + 1 : ℤ) := by
    have : ((m * 2 ^ j : ℤ) : ℚ) < ((2 ^ 52 + 1 : ℤ) : ℚ) := by push_cast at h2 ⊢; linarith
    exact_mod_cast this
  omega

/-- The conversion to `double` is not correctly rounded: of 1.0000000000000001110224 and 1.000000000000000111022300, on the two sides
    of the midpoint of 1 and the next `double`, at least one is converted to the farther of the two, whatever way the hardware breaks ties (F58). -/
theorem to_double_not_nearest (F G : Flt) (hF : F.p = 64 ∧ F.maxDigits10 = 21) (hG : G.p = 53) :
    let c : Cfg := { L := .u32, digits10 := 24, maxExp := 2 ^ 59 }
    ∃ t ∈ ["1.000000000000000111022400", "1.000000000000000111022300"], ∃ r f, toFloat c F G 19 (ofString c t.toList) = some r ∧ RepF G.p f ∧
      |(ofString c t.toList).val c - f| < |(ofString c t.toList).val c - r| := by
  intro c
  have e1 : ofString c "1.000000000000000111022400".toList = { data := [1, 0, 1, 11022400, 0, 0], exp := 0, neg := false, prec := 6 } := by decide +kernel
  have e2 : ofString c "1.000000000000000111022300".toList = { data := [1, 0, 1, 11022300, 0, 0], exp := 0, neg := false, prec := 6 } := by decide +kernel
  have t1 : ldText c 21 19 { data := [1, 0, 1, 11022400, 0, 0], exp := 0, neg := false, prec := 6 } = some "+1.000000000000000111022400E+0".toList := by decide +kernel
  have t2 : ldText c 21 19 { data := [1, 0, 1, 11022300, 0, 0], exp := 0, neg := false, prec := 6 } = some "+1.000000000000000111022300E+0".toList := by decide +kernel
  have s1 : scanDec "+1.000000000000000111022400E+0".toList = 1000000000000000111022400 / 10 ^ 24 := by decide +kernel
  have s2 : scanDec "+1.000000000000000111022300E+0".toList = 1000000000000000111022300 / 10 ^ 24 := by decide +kernel
  have v1 : DW.val c { data := [1, 0, 1, 11022400, 0, 0], exp := 0, neg := false, prec := 6 } = 1000000000000000111022400 / 10 ^ 24 := by decide +kernel
  have v2 : DW.val c { data := [1, 0, 1, 11022300, 0, 0], exp := 0, neg := false, prec := 6 } = 1000000000000000111022300 / 10 ^ 24 := by decide +kernel
  have hmid : RepF F.p (1 + 1 / 2 ^ 53 : ℚ) := by
    rw [hF.1]
    exact ⟨2 ^ 53 + 1, -53, by norm_num, by norm_num⟩
  have h1 : F.rnd (1000000000000000111022400 / 10 ^ 24) = 1 + 1 / 2 ^ 53 := by
    apply F.rnd_near_eq hmid
    rw [hF.1]; norm_num [abs_of_pos]
  have h2 : F.rnd (1000000000000000111022300 / 10 ^ 24) = 1 + 1 / 2 ^ 53 := by
    apply F.rnd_near_eq hmid
    rw [hF.1]; norm_num [abs_of_neg, abs_of_pos]
  have r1 : toFloat c F G 19 (ofString c "1.000000000000000111022400".toList) = some (G.rnd (1 + 1 / 2 ^ 53)) := by
    rw [e1, toFloat, toLongDouble, hF.2, t1, Option.map_some, Option.map_some, s1, h1]
  have r2 : toFloat c F G 19 (ofString c "1.000000000000000111022300".toList) = some (G.rnd (1 + 1 / 2 ^ 53)) := by
    rw [e2, toFloat, toLongDouble, hF.2, t2, Option.map_some, Option.map_some, s2, h2]
  have g1 : RepF G.p 1 := ⟨1, 0, by rw [hG]; norm_num, by norm_num⟩
  have g2 : RepF G.p (1 + 1 / 2 ^ 52 : ℚ) := by
    rw [hG]
    exact ⟨2 ^ 52 + 1, -52, by norm_num, by norm_num⟩
  rcases no_double_between (by rw [← hG]; exact G.rep (1 + 1 / 2 ^ 53)) with hle | hgt
  · refine ⟨_, List.mem_cons_self, _, _, r1, g2, ?_⟩
    rw [e1, v1, abs_of_neg (by norm_num), abs_of_pos (by norm_num at hle ⊢; linarith)]
    norm_num at hle ⊢
    linarith
  · refine ⟨_, List.mem_cons_of_mem _ List.mem_cons_self, _, _, r2, g1, ?_⟩
    rw [e2, v2, abs_of_pos (by norm_num), abs_of_neg (by norm_num at hgt ⊢; linarith)]
    norm_num at hgt ⊢
    linarith

/-- The hypotheses hold for 12.345678 and its negative: converted to numbers in the same order. -/
example : let c : Cfg := { L := .u32, digits10 := 20, maxExp := 2 ^ 59 }
    let x : DW := { data := [12, 34567800, 0, 0, 0, 0], exp := 0, neg := false, prec := 6 }
    Full c x ∧ x.val c = 12345678 / 10 ^ 6 ∧ x.exp.natAbs < 10 ^ (19 - 1) ∧ ldText c 21 19 x = some "+12.345678000000000000000000E+0".toList := by
  refine ⟨⟨⟨rfl, by decide, by decide, by decide, by decide, by decide⟩, by decide⟩, by decide +kernel, by decide, by decide +kernel⟩

/-- The hypotheses of `float_round_trip_partial` hold for the `double` (2^52 + 1)/8 and `decwide_t<20>`. -/
example : let c : Cfg := { L := .u32, digits10 := 20, maxExp := 2 ^ 59 }
    (10 : ℚ) ^ ((c.ed : ℤ) - (10 ^ (19 - 1) : ℕ)) ≤ ((2 ^ 52 + 1 : ℕ) : ℚ) * 2 ^ (-3 : ℤ) ∧
    ((2 ^ 52 + 1 : ℕ) : ℚ) * 2 ^ (-3 : ℤ) < (10 : ℚ) ^ ((10 ^ (19 - 1) : ℕ) : ℤ) ∧ (2 : ℕ) ^ 64 * 10 ≤ 10 ^ 21 := by
  intro c
  have hed : (c.ed : ℤ) = 8 := rfl
  refine ⟨?_, ?_, by norm_num⟩
  · refine le_trans (zpow_le_zpow_right₀ (by norm_num) (show _ ≤ (0 : ℤ) by rw [hed]; norm_num)) ?_
    norm_num
  · refine lt_of_lt_of_le ?_ (zpow_le_zpow_right₀ (by norm_num) (show (20 : ℤ) ≤ _ by norm_num))
    norm_num

end WD
