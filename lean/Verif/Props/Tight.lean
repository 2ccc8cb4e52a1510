import Verif.Props.Inv2
import Verif.Props.Start
import Verif.Props.Util
import Verif.Props.Print
import Verif.Model.Mixed
/-
  Statements added after wrong programs had passed: the caller's buffer (C35), integer divided by number (C44), the choice
  of notation (C30).
-/
namespace WD
open DW Util

theorem blcLoop_len {base cap : ℕ} (upper : Bool) (x : ℕ) (out : List Char) :
    ∀ s, blcLoop base cap upper x out = some s → s.length ≤ max cap out.length := by
  induction x using Nat.strong_induction_on generalizing out with
  | _ x ih =>
    intro s hs
    rw [blcLoop] at hs
    split at hs
    · next h =>
      split at hs
      · next hl =>
        have := ih (x / base) (Nat.div_lt_self (by omega) (by omega)) _ s hs
        simp only [List.length_append, List.length_singleton] at this
        omega
      · exact absurd hs (by simp)
    · simp only [Option.some.injEq] at hs
      rw [← hs]; omega

/-- C35: whatever the number and the buffer, the characters written never exceed the buffer; the outcome "write past the
    buffer" occurs only for numbers with more digits than the buffer has room for. -/
theorem baselexical_cast_in_buffer (base cap : ℕ) (upper : Bool) (u : ℕ) (hb : 1 < base) (hb' : base ≤ 16) :
    (∀ s, blc base cap upper u = some s → s.length ≤ cap) ∧ (blc base cap upper u = none → cap = 0 ∨ base ^ cap ≤ u) := by
  constructor
  · intro s hs
    unfold blc at hs
    split at hs
    · split at hs
      · next h => simp only [Option.some.injEq] at hs; rw [← hs]; simpa [Nat.succ_le_iff] using h
      · exact absurd hs (by simp)
    · rw [Option.map_eq_some_iff] at hs
      obtain ⟨t, ht, rfl⟩ := hs
      have := blcLoop_len upper u [] t ht
      simpa using this
  · intro h
    by_contra hc
    push Not at hc
    obtain ⟨s, e, -⟩ := baselexical_cast_canonical base cap upper u cap hb hb' hc.2 le_rfl (by omega)
    rw [e] at h; exact absurd h (by simp)

example : blc 10 3 true 1234 = none ∧ blc 10 4 true 1234 = some "1234".toList := by decide +kernel

/-- C44: n / x with an unsigned n is the quotient n/x, to a relative error of 6·10^-(digits10+2·ed). -/
theorem int_div_unsigned_partial (c : Cfg) (F : Flt) (hF : FloatOk c F) (hK : digitLoops c F ≤ c.N) (x : DW) (n : ℕ)
    (h0 : 0 < n) (hn : n < 2 ^ 64) (hcap : n < 10 ^ (c.ed * c.N)) (hx : Full c x) (hx0 : x.val c ≠ 0) (hok : MulOkAll c)
    (hm : 2 * (c.ed : ℤ) < c.maxExp) (hlo : -(c.maxExp : ℤ) < x.exp) (hhi : x.exp + 3 * c.ed < c.maxExp)
    (hlo' : -(c.maxExp : ℤ) < -x.exp - 2 * c.ed) (hhi' : 19 - x.exp < c.maxExp) (hg : OffRadix c F |x.val c|) :
    let r := divRU c (estInv c F) F.digits10 n x
    Full c r ∧ (r.val c < 0 ↔ x.val c < 0) ∧ |r.val c - n / x.val c| < |n / x.val c| * (6 / 10 ^ (c.digits10 + 2 * c.ed)) := by
  obtain ⟨a, b, e1, e2, -⟩ := ofU64_divisor (c := c) h0 hn hcap
  have hnq : (0 : ℚ) < n := by exact_mod_cast h0
  obtain ⟨q1, -, q3, q4⟩ := div_accuracy_float_partial c F hF hK (ofUnsigned c 64 n) x a hx (by rw [b]; exact hnq.ne') hx0 hok hm hlo
    hhi (by omega) (by omega) hg
  rw [b] at q3 q4
  refine ⟨q1, ?_, q4⟩
  rw [show (divRU c (estInv c F) F.digits10 n x).val c < 0 ↔ (n : ℚ) / x.val c < 0 from q3]
  constructor
  · intro h
    by_contra hc
    have : 0 ≤ (n : ℚ) / x.val c := div_nonneg hnq.le (not_lt.mp hc)
    linarith
  · intro h; exact div_neg_of_pos_of_neg hnq h

/-- C44: n / x with a signed n ≠ 0. -/
theorem int_div_signed_partial (c : Cfg) (F : Flt) (hF : FloatOk c F) (hK : digitLoops c F ≤ c.N) (x : DW) (n : ℤ)
    (h0 : n ≠ 0) (h1 : -(2 ^ 63) ≤ n) (h2 : n < 2 ^ 63) (hcap : n.natAbs < 10 ^ (c.ed * c.N)) (hx : Full c x) (hx0 : x.val c ≠ 0)
    (hok : MulOkAll c) (hm : 2 * (c.ed : ℤ) < c.maxExp) (hlo : -(c.maxExp : ℤ) < x.exp) (hhi : x.exp + 3 * c.ed < c.maxExp)
    (hlo' : -(c.maxExp : ℤ) < -x.exp - 2 * c.ed) (hhi' : 19 - x.exp < c.maxExp) (hg : OffRadix c F |x.val c|) :
    let r := divRS c (estInv c F) F.digits10 n x
    Full c r ∧ |r.val c - n / x.val c| < |n / x.val c| * (6 / 10 ^ (c.digits10 + 2 * c.ed)) := by
  obtain ⟨a, b, -, -⟩ := of_signed_exact c n h1 h2
  have b := b hcap
  have hnq : (n : ℚ) ≠ 0 := by exact_mod_cast h0
  have hz : (ofSigned c n).isZero = false := isZero_false_of_val a.toWF (by rw [b]; exact hnq)
  have hge := a.toWF.abs_ge hz
  have hlt := a.toWF.abs_lt
  have hn1 : (1 : ℚ) ≤ |(n : ℚ)| := by exact_mod_cast Int.one_le_abs h0
  have hn2 : |(n : ℚ)| < 10 ^ (20 : ℤ) := by
    have : |n| < 10 ^ 20 := by rw [abs_lt]; constructor <;> omega
    have h3 : ((|n| : ℤ) : ℚ) < ((10 ^ 20 : ℤ) : ℚ) := Int.cast_lt.mpr this
    rw [Int.cast_abs] at h3
    refine lt_of_lt_of_eq h3 ?_
    norm_num
  rw [b] at hge hlt
  have e2 : (ofSigned c n).exp < 20 := (zpow_lt_zpow_iff_right₀ (by norm_num : (1 : ℚ) < 10)).mp (lt_of_le_of_lt hge hn2)
  have e1 : 0 < (ofSigned c n).exp + c.ed := by
    have := lt_of_le_of_lt hn1 hlt
    rw [← zpow_zero (10 : ℚ)] at this
    exact (zpow_lt_zpow_iff_right₀ (by norm_num : (1 : ℚ) < 10)).mp this
  have e3 : 0 ≤ (ofSigned c n).exp := by
    obtain ⟨k, hk⟩ := a.dvd
    have hedp : (0 : ℤ) < c.ed := by exact_mod_cast c.ed_pos
    have : 0 < (c.ed : ℤ) * (k + 1) := by rw [mul_add, mul_one, ← hk]; exact e1
    have : 0 < k + 1 := by
      by_contra hc
      have := mul_nonpos_of_nonneg_of_nonpos hedp.le (not_lt.mp hc)
      omega
    rw [hk]; exact mul_nonneg hedp.le (by omega)
  obtain ⟨q1, -, -, q4⟩ := div_accuracy_float_partial c F hF hK (ofSigned c n) x a hx (by rw [b]; exact hnq) hx0 hok hm hlo
    hhi (by omega) (by omega) hg
  rw [b] at q4
  exact ⟨q1, q4⟩

/-- C30, choice of notation: in the default format the text has no exponent part exactly for zero and for numbers with
    10^(-4) ≤ |x| < 10^min(digits10, max(precision, 6)). -/
theorem default_notation (c : Cfg) (x : DW) (f : Fmt) (hx : WF c x) (hexp : x.exp.natAbs < 2 ^ 63) (hf : f.scientific = false)
    (hf' : f.fixed = false) (hd : 1 ≤ c.digits10) (out : List Char) (hout : wrString c x f = some out)
    (hz0 : x.val c = 0 → x.exp = 0) :
    ∃ t : DecText, t.Valid ∧ out = padTo f.width f.fill f.left t.chars ∧
      (t.ex = none ↔ x.val c = 0 ∨ ((10 : ℚ) ^ (-4 : ℤ) ≤ |x.val c| ∧ |x.val c| < 10 ^ min c.digits10 (max f.osPrec 6))) := by
  obtain ⟨t, e', len, t1, t2, t3, t4, t5, t6, t7, t8⟩ := (wrString_spec (f := f) hx hexp).1 out hout
  refine ⟨t, t1, t2, ?_⟩
  have hm1 : 1 ≤ min c.digits10 (max f.osPrec 6) := by omega
  have hu : f.useScientific c (ilogb x) = decide (ilogb x < -4 ∨ ilogb x ≥ ((min c.digits10 (max f.osPrec 6) : ℕ) : ℤ)) := by
    unfold Fmt.useScientific
    rw [hf, hf']
    simp
  generalize min c.digits10 (max f.osPrec 6) = m at *
  have hiff : (x.val c = 0 ∨ ((10 : ℚ) ^ (-4 : ℤ) ≤ |x.val c| ∧ |x.val c| < 10 ^ m)) ↔ ¬ (ilogb x < -4 ∨ ilogb x ≥ (m : ℤ)) := by
    by_cases h0 : x.val c = 0
    · have hz := hx.isZero_iff.mpr h0
      constructor
      · intro _
        have hil : ilogb x = x.exp + ((orderOf x.d0 : ℤ) - 1) := rfl
        have h1 : (1 : ℕ) ≤ m := hm1
        have h2 : orderOf x.d0 = 1 := by
          have : x.d0 = 0 := by simpa [DW.isZero] using hz
          rw [this]; decide +kernel
        rw [hil, hz0 h0, h2]; push Not; omega
      · intro _; left; exact h0
    · obtain ⟨i1, i2⟩ := ilogb_spec hx (isZero_false_of_val hx h0)
      have hone : (1 : ℚ) < 10 := by norm_num
      constructor
      · rintro (h | ⟨h1, h2⟩)
        · exact absurd h h0
        · push Not
          have a := (zpow_lt_zpow_iff_right₀ hone).mp (lt_of_le_of_lt h1 i2)
          rw [← zpow_natCast] at h2
          have b := (zpow_lt_zpow_iff_right₀ hone).mp (lt_of_le_of_lt i1 h2)
          omega
      · intro h
        push Not at h
        right
        refine ⟨le_trans (zpow_le_zpow_right₀ hone.le h.1) i1, lt_of_lt_of_le i2 ?_⟩
        rw [← zpow_natCast]
        exact zpow_le_zpow_right₀ hone.le (by omega)
  rw [hiff]
  by_cases hc : ilogb x < -4 ∨ ilogb x ≥ (m : ℤ)
  · have : f.useScientific c (ilogb x) = true := by rw [hu]; simpa using hc
    obtain ⟨-, -, h3, -⟩ := t7 this
    constructor
    · intro hn
      exfalso
      have h0 : t.exponent = 0 := by unfold DecText.exponent; rw [hn]
      omega
    · intro h; exact absurd hc h
  · have : f.useScientific c (ilogb x) = false := by rw [hu]; simpa using hc
    exact ⟨fun _ => hc, fun _ => (t8 this).1⟩

example : wrString exC exX {} = some "12.3457".toList ∧ wrString exC { exX with exp := 8 } {} = some "1.23457e+009".toList := by
  decide +kernel

end WD
