import Verif.Proofs.Print3
import Verif.Props.Text
import Verif.Props.Round
/-
  C30: formatting. C31: the print/parse round trip. C45: uniqueness of the representation.
-/
namespace WD
open DW

theorem ilogb_unique {c : Cfg} {x : DW} (hx : WF c x) {E : ℤ} (h1 : (10 : ℚ) ^ E ≤ |x.val c|)
    (h2 : |x.val c| < (10 : ℚ) ^ (E + 1)) : ilogb x = E := by
  have h0 : x.val c ≠ 0 := by
    intro h; rw [h, abs_zero] at h1
    exact absurd h1 (not_le.mpr (by positivity))
  obtain ⟨a, b⟩ := ilogb_spec hx (isZero_false_of_val hx h0)
  have e1 : ilogb x < E + 1 := (zpow_lt_zpow_iff_right₀ (by norm_num : (1 : ℚ) < 10)).mp (lt_of_le_of_lt a h2)
  have e2 : E < ilogb x + 1 := (zpow_lt_zpow_iff_right₀ (by norm_num : (1 : ℚ) < 10)).mp (lt_of_le_of_lt h1 b)
  omega

theorem roundHalfUp_zero (k : ℤ) : roundHalfUp k 0 = 0 := by
  unfold roundHalfUp
  norm_num

/-- The sign factor in terms of the value. -/
theorem sgn_round (c : Cfg) (x : DW) (hx : WF c x) (k : ℤ) :
    (if x.neg then (-1 : ℚ) else 1) * roundHalfUp k |x.val c| =
    (if x.val c < 0 then -1 else 1) * roundHalfUp k |x.val c| := by
  by_cases h0 : x.val c = 0
  · rw [h0, abs_zero, roundHalfUp_zero, mul_zero, mul_zero]
  · have hz := isZero_false_of_val hx h0
    have hp := hx.abs_pos hz
    have := val_sgn c x
    rcases Bool.dichotomy x.neg with h | h
    · rw [h] at this ⊢
      simp only [Bool.false_eq_true, if_false] at this ⊢
      rw [if_neg (by linarith)]
    · rw [h] at this ⊢
      simp only [if_true] at this ⊢
      rw [if_pos (by linarith)]

/-- C30 (scientific notation). With `std::scientific` and precision p the output is always produced; it is a decimal text
    with one digit before the point, exactly p digits behind it and an exponent part, filled to the stream width; the
    digit before the point is not zero unless the number is; and the number it denotes is the object's value rounded half
    up (on the magnitude) at the p-th digit behind the leading one, at most digits10+4 digits behind it. -/
theorem print_scientific (c : Cfg) (x : DW) (f : Fmt) (hx : WF c x) (hexp : x.exp.natAbs < 2 ^ 63)
    (hf : f.scientific = true) :
    ∃ t : DecText, t.Valid ∧ wrString c x f = some (padTo f.width f.fill f.left t.chars) ∧
      t.ip.length = 1 ∧ t.frac.length = f.precision.toNat ∧
      t.sign = (if x.isNeg then some true else if f.showpos then some false else none) ∧
      (x.val c = 0 → t.value = 0) ∧ (x.val c ≠ 0 → t.ip ≠ ['0']) ∧
      ∀ E : ℤ, (10 : ℚ) ^ E ≤ |x.val c| → |x.val c| < (10 : ℚ) ^ (E + 1) →
        t.value = (if x.val c < 0 then -1 else 1) *
          roundHalfUp (E - min f.precision.toNat (c.digits10 + 4)) |x.val c| := by
  obtain ⟨h1, h2⟩ := wrString_spec (f := f) hx hexp
  obtain ⟨out, ho⟩ := Option.isSome_iff_exists.mp (h2 (Or.inr (Or.inl hf)))
  obtain ⟨t, e', len, t1, t2, t3, t4, t5, t6, t7, t8⟩ := h1 out ho
  have hu : f.useScientific c (ilogb x) = true := by unfold Fmt.useScientific; rw [hf]; rfl
  obtain ⟨i1, i2, -, i3⟩ := t7 hu
  have hop : f.osPrec = f.precision.toNat := by
    rw [osPrec_eq, hf]; simp only [if_true]; split <;> omega
  rw [sgn_round c x hx] at t4
  refine ⟨t, t1, by rw [ho, t2], i1, by rw [i3 hf, hop], t3, ?_, fun h => i2 (isZero_false_of_val hx h), ?_⟩
  · intro h; rw [t4, h, abs_zero, roundHalfUp_zero, mul_zero]
  · intro E hE1 hE2
    rw [t4, ilogb_unique hx hE1 hE2]
    have hnd : f.numDigits c E = min (c.digits10 + 4) f.precision.toNat + 1 := by
      unfold Fmt.numDigits Fmt.useScientific; dsimp only
      rw [hf, hop]
      simp only [if_true, Bool.true_or]
      unfold Cfg.maxDigits10; omega
    rw [hnd]
    congr 2
    push_cast
    rw [min_comm]; ring

/-- C30 (fixed notation, magnitude at least 1). With `std::fixed` and a precision p ≥ 1 the output is always produced; it is a decimal text without exponent
    with exactly p digits behind the point, and denotes the value rounded half up at the p-th decimal (or at the last of digits10+5
    significant digits if that comes first). Precision 0 is not honoured, see `fixed_precision_zero`. -/
theorem print_fixed (c : Cfg) (x : DW) (f : Fmt) (hx : WF c x) (hexp : x.exp.natAbs < 2 ^ 63)
    (hf : f.scientific = false) (hf' : f.fixed = true) (hp : 1 ≤ f.precision)
    (E : ℤ) (hE : 0 ≤ E) (hE1 : (10 : ℚ) ^ E ≤ |x.val c|) (hE2 : |x.val c| < (10 : ℚ) ^ (E + 1)) :
    ∃ t : DecText, t.Valid ∧ wrString c x f = some (padTo f.width f.fill f.left t.chars) ∧
      t.ex = none ∧ t.frac.length = f.precision.toNat ∧
      t.sign = (if x.isNeg then some true else if f.showpos then some false else none) ∧
      t.value = (if x.val c < 0 then -1 else 1) *
          roundHalfUp (max (-f.precision) (E - (c.digits10 + 4))) |x.val c| := by
  obtain ⟨h1, h2⟩ := wrString_spec (f := f) hx hexp
  obtain ⟨out, ho⟩ := Option.isSome_iff_exists.mp (h2 (Or.inr (Or.inr hf')))
  obtain ⟨t, e', len, t1, t2, t3, t4, t5, t6, t7, t8⟩ := h1 out ho
  have hu : f.useScientific c E = false := by unfold Fmt.useScientific; rw [hf, hf']; rfl
  rw [sgn_round c x hx] at t4
  rw [ilogb_unique hx hE1 hE2] at t4 t5 t6 t7 t8
  obtain ⟨i1, i2⟩ := t8 hu
  have hop : f.osPrec = f.precision.toNat := by
    rw [osPrec_eq]; split <;> omega
  have hnd : (f.numDigits c E : ℤ) = min (E + 1 + f.precision) ((c.digits10 : ℤ) + 5) := by
    unfold Fmt.numDigits; dsimp only
    rw [hu, hf, hf', hop]
    simp only [Bool.false_eq_true, if_false, Bool.false_or, if_true, if_pos hE]
    unfold Cfg.maxDigits10; omega
  refine ⟨t, t1, by rw [ho, t2], i1, ?_, t3, ?_⟩
  · rw [(i2 hf').1 (by omega) (by rw [hop]; omega), hop]
  · rw [t4, hnd]
    congr 2
    omega

/-- C30 (fixed notation, magnitude below 1; partial: the C++ rule asks for p decimals, the library gives p significant
    digits). The text denotes the value rounded half up at the p-th significant digit. -/
theorem print_fixed_small_partial (c : Cfg) (x : DW) (f : Fmt) (hx : WF c x) (hexp : x.exp.natAbs < 2 ^ 63)
    (hf : f.scientific = false) (hf' : f.fixed = true) (hp : 1 ≤ f.precision)
    (E : ℤ) (hE : E < 0) (hE1 : (10 : ℚ) ^ E ≤ |x.val c|) (hE2 : |x.val c| < (10 : ℚ) ^ (E + 1)) :
    ∃ t : DecText, t.Valid ∧ wrString c x f = some (padTo f.width f.fill f.left t.chars) ∧ t.ex = none ∧
      f.precision.toNat ≤ t.frac.length ∧
      t.sign = (if x.isNeg then some true else if f.showpos then some false else none) ∧
      t.value = (if x.val c < 0 then -1 else 1) *
          roundHalfUp (E + 1 - min f.precision (c.digits10 + 5)) |x.val c| := by
  obtain ⟨h1, h2⟩ := wrString_spec (f := f) hx hexp
  obtain ⟨out, ho⟩ := Option.isSome_iff_exists.mp (h2 (Or.inr (Or.inr hf')))
  obtain ⟨t, e', len, t1, t2, t3, t4, t5, t6, t7, t8⟩ := h1 out ho
  have hu : f.useScientific c E = false := by unfold Fmt.useScientific; rw [hf, hf']; rfl
  rw [sgn_round c x hx] at t4
  rw [ilogb_unique hx hE1 hE2] at t4 t5 t6 t7 t8
  obtain ⟨i1, i2⟩ := t8 hu
  have hop : f.osPrec = f.precision.toNat := by
    rw [osPrec_eq]; split <;> omega
  have hnd : (f.numDigits c E : ℤ) = min f.precision ((c.digits10 : ℤ) + 5) := by
    unfold Fmt.numDigits; dsimp only
    rw [hu, hf, hf', hop]
    simp only [Bool.false_eq_true, if_false, Bool.false_or, if_true, if_neg (show ¬ 0 ≤ E by omega)]
    unfold Cfg.maxDigits10; omega
  refine ⟨t, t1, by rw [ho, t2], i1, ?_, t3, ?_⟩
  · by_cases he : 0 ≤ e'
    · rw [(i2 hf').1 he (by rw [hop]; omega), hop]
    · have := (i2 hf').2 (by omega)
      rw [hop] at this; omega
  · rw [t4, hnd]
    congr 2
    omega

/-- C30 (default format). Without a float-field flag and without `std::showpoint`, output is always produced and denotes the value rounded half up
    to p significant digits, where p is the stream precision (6 if that is zero or negative), at most digits10+4. -/
theorem print_general (c : Cfg) (x : DW) (f : Fmt) (hx : WF c x) (hexp : x.exp.natAbs < 2 ^ 63)
    (hf : f.scientific = false) (hf' : f.fixed = false) (hsp : f.showpoint = false) (p : ℕ)
    (hp : p = if f.precision ≤ 0 then 6 else f.precision.toNat) :
    ∃ t : DecText, t.Valid ∧ wrString c x f = some (padTo f.width f.fill f.left t.chars) ∧
      t.sign = (if x.isNeg then some true else if f.showpos then some false else none) ∧
      (x.val c = 0 → t.value = 0) ∧
      ∀ E : ℤ, (10 : ℚ) ^ E ≤ |x.val c| → |x.val c| < (10 : ℚ) ^ (E + 1) →
        t.value = (if x.val c < 0 then -1 else 1) *
          roundHalfUp (E + 1 - min p (c.digits10 + 4)) |x.val c| := by
  obtain ⟨h1, h2⟩ := wrString_spec (f := f) hx hexp
  obtain ⟨out, ho⟩ := Option.isSome_iff_exists.mp (h2 (Or.inl hsp))
  obtain ⟨t, e', len, t1, t2, t3, t4, t5, t6, t7, t8⟩ := h1 out ho
  rw [sgn_round c x hx] at t4
  have hop : f.osPrec = p := by
    rw [osPrec_eq, hf, hp]; simp
  refine ⟨t, t1, by rw [ho, t2], t3, ?_, ?_⟩
  · intro h; rw [t4, h, abs_zero, roundHalfUp_zero, mul_zero]
  · intro E hE1 hE2
    rw [t4, ilogb_unique hx hE1 hE2]
    have hnd : f.numDigits c E = min p (c.digits10 + 4) := by
      unfold Fmt.numDigits; dsimp only
      rw [hf, hf', hop]
      unfold Cfg.maxDigits10
      simp only [Bool.or_false, Bool.false_eq_true, if_false]
      split
      · omega
      · split <;> omega
    rw [hnd]
    congr 2
    push_cast
    ring

/-- A number with at most n significant digits is not changed by rounding at its n-th digit. -/
theorem roundHalfUp_sig {q : ℚ} {n : ℕ} {E : ℤ} (hq : SigDigits n q) (hE : (10 : ℚ) ^ E ≤ |q|) :
    roundHalfUp (E + 1 - n) |q| = |q| := by
  obtain ⟨k, j, hk, rfl⟩ := hq
  have hj : E + 1 - n ≤ j := by
    by_contra hc
    rw [not_le] at hc
    have h1 : (10 : ℚ) ^ E < (10 : ℚ) ^ (n : ℤ) * (10 : ℚ) ^ j := by
      apply lt_of_le_of_lt hE
      rw [abs_mul, abs_of_pos (show (0 : ℚ) < 10 ^ j by positivity)]
      apply mul_lt_mul_of_pos_right _ (by positivity)
      rw [zpow_natCast]; exact_mod_cast hk
    rw [← zpow_add₀ (by norm_num)] at h1
    have := (zpow_lt_zpow_iff_right₀ (by norm_num : (1 : ℚ) < 10)).mp h1
    omega
  obtain ⟨d, hd⟩ : ∃ d : ℕ, j = d + (E + 1 - n) := ⟨(j - (E + 1 - n)).toNat, by omega⟩
  have : |(k : ℚ) * (10 : ℚ) ^ j| = ((|k| * 10 ^ d : ℤ) : ℚ) * (10 : ℚ) ^ (E + 1 - n) := by
    rw [abs_mul, abs_of_pos (show (0 : ℚ) < 10 ^ j by positivity), hd, zpow_add₀ (by norm_num), zpow_natCast]
    push_cast; ring
  rw [this]
  exact roundHalfUp_int _ _

theorem sgn_mul_abs (q : ℚ) : (if q < 0 then (-1 : ℚ) else 1) * |q| = q := by
  split
  · rename_i h; rw [abs_of_neg h]; ring
  · rename_i h; rw [abs_of_nonneg (by linarith)]; ring

theorem padTo_of_le {w : ℤ} (hw : w ≤ 0) (ch : Char) (l : Bool) (s : List Char) : padTo w ch l s = s := by
  unfold padTo
  rw [show w.toNat - s.length = 0 by omega]
  cases l <;> simp

/-- From a printed text with the exact value to the object. -/
theorem reparse {c : Cfg} {x : DW} (hx : Full c x) {t : DecText} (ht : t.Valid) (hlo : -(2 ^ 63) ≤ t.exponent)
    (hhi : t.exponent < 2 ^ 63) (hv : t.value = x.val c) :
    (ofString c t.chars).val c = x.val c ∧ (x.val c ≠ 0 → ofString c t.chars = x) := by
  have h1 := parse_exact c t ht hlo hhi x hx.toWF hv.symm
  rw [hv] at h1
  refine ⟨h1, fun h => ?_⟩
  exact (repr_unique hx (parse_truncates c t ht hlo hhi).1 h h1.symm).symm

/-- Bounds of the printed exponent. -/
theorem print_exponent {c : Cfg} {x : DW} (hx : WF c x) (hexp : x.exp.natAbs ≤ 2 ^ 62) :
    (ilogb x).natAbs < 2 ^ 62 + 100 := by
  have hE : ilogb x = x.exp + ((orderOf x.d0 : ℤ) - 1) := rfl
  have ho : 1 ≤ orderOf x.d0 := (orderOf_digits x.d0).2.2
  have ho2 : orderOf x.d0 ≤ 9 := by
    have hlt : x.d0 < 10 ^ 8 := by
      have h1 : x.d0 < c.B := by
        unfold d0
        rcases hdd : x.data with - | ⟨y, ys⟩
        · show 0 < c.B
          exact c.B_pos
        · exact hx.valid y (by rw [hdd]; exact List.mem_cons_self)
      have h2 : c.B ≤ 10 ^ 8 := by
        show 10 ^ c.L.ed ≤ _
        cases c.L <;> decide
      omega
    by_contra hc
    by_cases h0 : 0 < x.d0
    · have := (orderOf_digits x.d0).2.1 h0
      have : 10 ^ 9 ≤ 10 ^ (orderOf x.d0 - 1) := Nat.pow_le_pow_right (by norm_num) (by omega)
      omega
    · have : x.d0 = 0 := by omega
      rw [this, orderOf] at hc; simp at hc
  omega

/-- C31. Printing a number with n ≤ digits10+5 significant digits in scientific notation with n-1 ≤ p ≤ digits10+4
    decimals (no fill) and parsing the text gives back the very same object (for zero: a zero). -/
theorem print_parse_round_trip (c : Cfg) (x : DW) (f : Fmt) (p : ℕ) (hx : Full c x) (hexp : x.exp.natAbs ≤ 2 ^ 62)
    (hf : f.scientific = true) (hw : f.width ≤ 0) (hp : f.precision = p) (hpm : p ≤ c.digits10 + 4)
    (hsig : SigDigits (p + 1) (x.val c)) :
    ∃ s, wrString c x f = some s ∧ (ofString c s).val c = x.val c ∧ (x.val c ≠ 0 → ofString c s = x) := by
  obtain ⟨h1, h2⟩ := wrString_spec (f := f) hx.toWF (by omega)
  obtain ⟨out, ho⟩ := Option.isSome_iff_exists.mp (h2 (Or.inr (Or.inl hf)))
  obtain ⟨t, e', len, t1, t2, t3, t4, t5, t6, t7, t8⟩ := h1 out ho
  have hu : f.useScientific c (ilogb x) = true := by unfold Fmt.useScientific; rw [hf]; rfl
  obtain ⟨i1, i2, i4, i3⟩ := t7 hu
  have hb := print_exponent hx.toWF hexp
  rw [padTo_of_le hw] at t2
  rw [sgn_round c x hx.toWF] at t4
  have hnd : f.numDigits c (ilogb x) = p + 1 := by
    unfold Fmt.numDigits Fmt.useScientific Fmt.osPrec; dsimp only
    rw [hf, hp]
    simp only [if_true, Bool.true_or]
    unfold Cfg.maxDigits10
    split <;> omega
  have hv : t.value = x.val c := by
    by_cases h0 : x.val c = 0
    · rw [t4, h0, abs_zero, roundHalfUp_zero, mul_zero]
    · have := roundHalfUp_sig (E := ilogb x) hsig (ilogb_spec hx.toWF (isZero_false_of_val hx.toWF h0)).1
      rw [t4, hnd, show ilogb x - ((p + 1 : ℕ) : ℤ) + 1 = ilogb x + 1 - ((p + 1 : ℕ) : ℤ) by ring, this, sgn_mul_abs]
  have := reparse hx t1 (by rw [i4]; omega) (by rw [i4]; omega) hv
  rw [t2] at ho
  exact ⟨t.chars, ho, this⟩

/-- C31 (default format). A number with n significant digits printed with a stream precision between n and digits10+4
    in the default format (no fill, no showpoint) parses back to the very same object (for zero: a zero). -/
theorem print_parse_round_trip_general (c : Cfg) (x : DW) (f : Fmt) (p : ℕ) (hx : Full c x) (hexp : x.exp.natAbs ≤ 2 ^ 62)
    (hf : f.scientific = false) (hf' : f.fixed = false) (hsp : f.showpoint = false) (hw : f.width ≤ 0)
    (hp : f.precision = p) (hp1 : 1 ≤ p) (hpm : p ≤ c.digits10 + 4) (hsig : SigDigits p (x.val c)) :
    ∃ s, wrString c x f = some s ∧ (ofString c s).val c = x.val c ∧ (x.val c ≠ 0 → ofString c s = x) := by
  obtain ⟨h1, h2⟩ := wrString_spec (f := f) hx.toWF (by omega)
  obtain ⟨out, ho⟩ := Option.isSome_iff_exists.mp (h2 (Or.inl hsp))
  obtain ⟨t, e', len, t1, t2, t3, t4, t5, t6, t7, t8⟩ := h1 out ho
  have hb := print_exponent hx.toWF hexp
  rw [padTo_of_le hw] at t2
  rw [sgn_round c x hx.toWF] at t4
  have hop : f.osPrec = p := by
    rw [osPrec_eq, hf, hp]; split <;> omega
  have hnd : f.numDigits c (ilogb x) = p := by
    unfold Fmt.numDigits; dsimp only
    rw [hf, hf', hop]
    unfold Cfg.maxDigits10
    simp only [Bool.or_false, Bool.false_eq_true, if_false]
    split
    · omega
    · split <;> omega
  have hv : t.value = x.val c := by
    by_cases h0 : x.val c = 0
    · rw [t4, h0, abs_zero, roundHalfUp_zero, mul_zero]
    · have := roundHalfUp_sig (E := ilogb x) hsig (ilogb_spec hx.toWF (isZero_false_of_val hx.toWF h0)).1
      rw [t4, hnd, show ilogb x - (p : ℤ) + 1 = ilogb x + 1 - (p : ℤ) by ring, this, sgn_mul_abs]
  have hex : t.exponent = e' ∨ t.exponent = 0 := by
    rcases Bool.dichotomy (f.useScientific c (ilogb x)) with hu | hu
    · right; unfold DecText.exponent; rw [(t8 hu).1]
    · left; exact (t7 hu).2.2.1
  have := reparse hx t1 (by omega) (by omega) hv
  rw [t2] at ho
  exact ⟨t.chars, ho, this⟩

/-- C45. The representation of non-zero numbers is unique: two full-precision objects with the same value have the same
    digits, exponent and sign. -/
theorem representation_unique (c : Cfg) (x y : DW) (hx : Full c x) (hy : Full c y) (hx0 : x.val c ≠ 0)
    (h : x.val c = y.val c) : x = y := repr_unique hx hy hx0 h

/-! ### Concrete instances and the findings -/

/-- A stream with `std::scientific`. -/
def sciFmt (p : ℤ) : Fmt := { scientific := true, precision := p }
/-- A stream with `std::fixed`. -/
def fixFmt (p : ℤ) : Fmt := { fixed := true, precision := p }

example : wrString exC exX (sciFmt 3) = some "1.235e+001".toList := by decide +kernel
example : wrString exC exY (sciFmt 5) = some "-9.99999e-003".toList := by decide +kernel
example : wrString exC exY (sciFmt 1) = some "-1.0e-002".toList := by decide +kernel
example : wrString exC exX (fixFmt 2) = some "12.35".toList := by decide +kernel
example : wrString exC exY {} = some "-0.00999999".toList := by decide +kernel
example : wrString exC exX { precision := 3, width := 8, fill := '*' } = some "****12.3".toList := by decide +kernel

theorem exX_val : exX.val exC = 12345678 * (10 : ℚ) ^ (-6 : ℤ) := by
  have h1 : exC.B = 100 := rfl
  have h2 : exC.N = 5 := rfl
  have h3 : exC.ed = 2 := rfl
  unfold DW.val
  rw [h1, h2, h3]
  norm_num [exX, limbsVal]

/-- The hypotheses of the round trip are met by 12.345678 with 7 decimals in `decwide_t<4>` with 8-bit limbs. -/
example : Full exC exX ∧ SigDigits 8 (exX.val exC) ∧ exX.val exC ≠ 0 ∧ 7 ≤ exC.digits10 + 4 ∧
    ((wrString exC exX (sciFmt 7)).map (ofString exC)) = some exX := by
  refine ⟨by decide, ⟨12345678, -6, by norm_num, ?_⟩, ?_, by decide, by decide +kernel⟩
  · rw [exX_val]; norm_num
  · rw [exX_val]; norm_num

/-- The bracket of the other theorems: 10 ≤ 12.345678 < 100. -/
example : (10 : ℚ) ^ (1 : ℤ) ≤ |exX.val exC| ∧ |exX.val exC| < (10 : ℚ) ^ ((1 : ℤ) + 1) := by
  rw [exX_val]; norm_num [abs_of_pos]

/-- Finding: with `std::showpoint` in the default format the fill count is a wrapped difference and
    `std::string::insert` throws `std::length_error`: 1234 with precision 1 ... -/
theorem showpoint_throws :
    Full exC { data := [12, 34, 0, 0, 0], exp := 2, neg := false, prec := 5 } ∧
    wrString exC { data := [12, 34, 0, 0, 0], exp := 2, neg := false, prec := 5 } { precision := 1, showpoint := true } = none := by
  decide +kernel

/-- ... and even with the default precision 6, for 999999.9 in `decwide_t<10>`, where the carry adds a digit. -/
theorem showpoint_throws_default :
    Full exC10 { data := [999999, 90000000, 0, 0, 0], exp := 0, neg := false, prec := 5 } ∧
    wrString exC10 { data := [999999, 90000000, 0, 0, 0], exp := 0, neg := false, prec := 5 } { showpoint := true } = none ∧
    wrString exC10 { data := [999999, 90000000, 0, 0, 0], exp := 0, neg := false, prec := 5 } {} = some "1000000".toList := by
  decide +kernel

/-- Finding: `std::fixed` with precision 0 writes six decimals. -/
theorem fixed_precision_zero : wrString exC exX (fixFmt 0) = some "12.345678".toList := by decide +kernel

/-- Finding: `std::fixed` with precision 3 writes three significant digits instead of three decimals for a number
    below one: 0.00001234 is written as 0.0000123 (0.000 expected). -/
theorem fixed_small_significant :
    Full exC { data := [12, 34, 0, 0, 0], exp := -6, neg := false, prec := 5 } ∧
    wrString exC { data := [12, 34, 0, 0, 0], exp := -6, neg := false, prec := 5 } (fixFmt 3) = some "0.0000123".toList := by
  decide +kernel

/-- Finding: parsing has no exponent overflow check: the text 1e100 is accepted by a type whose largest value is
    below 1e66 and gives a number above `max()`. -/
theorem parse_above_max : Full exC (ofString exC "1e100".toList) ∧ DW.lt (maxVal exC) (ofString exC "1e100".toList) = true := by
  decide +kernel

end WD
