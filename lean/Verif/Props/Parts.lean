import Verif.Props.Start
import Verif.Proofs.Floor
import Verif.Props.Fmod
/-
  C50: `extract_parts`, the decomposition of a number into a floating-point mantissa and a decimal exponent.
-/
namespace WD
open DW

theorem extractParts_sign (c : Cfg) (F : Flt) (x : DW) :
    extractParts c F x = (if x.neg then -(extractParts c F (unsigned x)).1 else (extractParts c F (unsigned x)).1, (extractParts c F (unsigned x)).2) := by
  unfold extractParts unsigned
  simp only [Bool.false_eq_true, if_false]
  rfl

/-- C50. `extract_parts` of a non-zero x in float, double, or long double (8- or 16-bit limbs): the exponent e is the one with 10^(e-1) ≤ |x| < 10^e, the mantissa m has
    the sign of x, and m·10^e differs from x by at most 2·10^(-digits10) relative (digits10 of the floating-point type). -/
theorem extract_parts_accuracy (c : Cfg) (F : Flt) (hF : FloatOk c F) (hK : digitLoops c F ≤ c.N) (x : DW) (hx : WF c x)
    (hx0 : x.val c ≠ 0) :
    let p := extractParts c F x
    (10 : ℚ) ^ (p.2 - 1) ≤ |x.val c| ∧ |x.val c| < 10 ^ p.2 ∧ (p.1 < 0 ↔ x.val c < 0) ∧
      |p.1 * 10 ^ p.2 - x.val c| ≤ |x.val c| * (2 / 10 ^ F.digits10) := by
  have hz := isZero_false_of_val hx hx0
  have hp := unsigned_posi hx hz
  obtain ⟨i1, i2⟩ := ilogb_spec hx hz
  have he : (extractParts c F x).2 = ilogb x + 1 := by
    unfold extractParts ilogb; simp only; ring
  obtain ⟨K, hKe, hK8, hK1, hKed⟩ := digitLoops_eq (c := c) hF
  obtain ⟨hn, hp24⟩ := startNum (c := c) hF hKed
  have hp1 : 1 ≤ F.p := by omega
  have hu0 := F.u_pos
  have hu1 := F.u_lt hp1
  obtain ⟨p1, p2⟩ := extractParts_near (c := c) (F := F) hp1 hp (by omega) hK
  rw [hKe] at p2 hK
  have hX := hp.toWF.absp_pos hp.nz (p := K + 1) (by omega) hK
  have hxl := hp.toWF.absp_le (p := K + 1) hK
  have hxu := hp.toWF.lt_absp_rel hp.nz (p := K + 1) (by omega) hK
  rw [eta_eq] at hxu
  have hxv : |(unsigned x).val c| = |x.val c| := setNeg_abs c x false
  rw [hxv] at hxl hxu
  have hs := extractParts_sign c F x
  have he' : (extractParts c F (unsigned x)).2 = ilogb x + 1 := by rw [← he, hs]
  rw [← p1, he'] at p2
  set m := (extractParts c F (unsigned x)).1 with hm
  set X := (unsigned x).absp c (K + 1) with hXd
  set T := (10 : ℚ) ^ (ilogb x + 1) with hT
  have hTp : 0 < T := p10_pos _
  have hτ : 0 < 1 / (c.B : ℚ) ^ K := by have : (0 : ℚ) < c.B := by exact_mod_cast c.B_pos
                                        positivity
  obtain ⟨n1, n2⟩ := p2
  have a1 : (1 - F.u) ^ 14 * X ≤ m * T := by
    have h1 : (1 - F.u) ^ 14 ≤ (1 - F.u) ^ (K + 1 + 3) := pow_le_pow_of_le_one (by linarith) (by linarith) (by omega)
    have h2 := mul_le_mul_of_nonneg_right n1 hTp.le
    rw [mul_assoc, div_mul_cancel₀ _ hTp.ne'] at h2
    exact (mul_le_mul_of_nonneg_right h1 hX.le).trans h2
  have a2 : m * T ≤ (1 + F.u) ^ 14 * X := by
    have h1 : (1 + F.u) ^ (K + 1 + 3) ≤ (1 + F.u) ^ 14 := pow_le_pow_right₀ (by linarith) (by omega)
    have h2 := mul_le_mul_of_nonneg_right n2 hTp.le
    rw [mul_assoc, div_mul_cancel₀ _ hTp.ne'] at h2
    exact h2.trans (mul_le_mul_of_nonneg_right h1 hX.le)
  have num : (1 + F.u) ^ 14 ≤ 1 + 2 / 10 ^ F.digits10 ∧ (1 - 2 / 10 ^ F.digits10) * (1 + 1 / (c.B : ℚ) ^ K) ≤ (1 - F.u) ^ 14 ∧
      (2 : ℚ) / 10 ^ F.digits10 ≤ 1 := by
    have hB : ((c.B : ℚ)) ^ K = 10 ^ (c.ed * K) := by rw [c.B_eq]; push_cast; rw [← pow_mul]
    unfold Flt.u
    rcases hF with ⟨h1, h2, h3⟩ | ⟨h1, h2, h3⟩ | ⟨⟨h1, h2, h3⟩, -⟩ <;> rw [hB, hKed, h1, h2] <;> norm_num [zpow_neg]
  obtain ⟨b1, b2, b3⟩ := num
  set δ := (2 : ℚ) / 10 ^ F.digits10 with hδ
  set τ := 1 / (c.B : ℚ) ^ K with hτd
  have hmp : 0 < m := by
    have h1 : 0 < (1 - F.u) ^ 14 * X := mul_pos (pow_pos (by linarith) _) hX
    by_contra hc
    have := mul_nonpos_of_nonpos_of_nonneg (not_lt.mp hc) hTp.le
    linarith
  have key : |(m * T - |x.val c|)| ≤ |x.val c| * δ := by
    rw [abs_le]
    constructor
    · have h1 : (1 - δ) * |x.val c| ≤ (1 - δ) * (X * (1 + τ)) := mul_le_mul_of_nonneg_left hxu.le (by linarith)
      have h2 := mul_le_mul_of_nonneg_right b2 hX.le
      linarith
    · have h1 := mul_le_mul_of_nonneg_right b1 hX.le
      have h2 : δ * X ≤ δ * |x.val c| := mul_le_mul_of_nonneg_left hxl (by positivity)
      linarith
  show _ ∧ _ ∧ _ ∧ _
  rw [he, add_sub_cancel_right]
  refine ⟨i1, i2, ?_, ?_⟩
  · rw [hs, val_sgn c x]
    have hxp := abs_pos.mpr hx0
    cases x.neg
    · simp only [Bool.false_eq_true, if_false]; constructor <;> intro h <;> linarith
    · simp only [if_true]; constructor <;> intro h <;> linarith
  · rw [hs]
    have h1 : (if x.neg = true then -m else m) * T - x.val c = (if x.neg = true then -1 else 1) * (m * T - |x.val c|) := by
      conv_lhs => rw [val_sgn c x]
      cases x.neg <;> simp <;> ring
    simp only
    rw [h1, abs_mul]
    have h2 : |(if x.neg = true then (-1 : ℚ) else 1)| = 1 := by cases x.neg <;> simp
    rw [h2, one_mul]
    exact key

/-- `extract_parts` of -873 in double: mantissa -0.873 up to its rounding error, exponent 3. -/
example : (extractParts exC12 exDouble (ex12 873 true)).2 = 3 ∧ (extractParts exC12 exDouble (ex12 873 true)).1 < 0 ∧
    |(extractParts exC12 exDouble (ex12 873 true)).1 + 873 / 1000| ≤ 1 / 10 ^ 15 := by
  rw [← exDoubleK_eq]
  refine ⟨by decide +kernel, by decide +kernel, by decide +kernel⟩

end WD
