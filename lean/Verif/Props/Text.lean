import Verif.Proofs.Parse3
import Verif.Props.Mul
/-
  C29: reading decimal texts.
-/
namespace WD
open DW

/-- C29. Constructing from a decimal text gives a well-formed full-precision number with the sign of the denoted number
    whose magnitude is the denoted one truncated in the last internal limb; a text denoting zero gives exactly zero. -/
theorem parse_truncates (c : Cfg) (t : DecText) (ht : t.Valid) (hlo : -(2 ^ 63) ≤ t.exponent) (hhi : t.exponent < 2 ^ 63) :
    Full c (ofString c t.chars) ∧
    |(ofString c t.chars).val c| ≤ |t.value| ∧
    (t.value = 0 → ofString c t.chars = zero c) ∧
    (t.value ≠ 0 → |t.value| < |(ofString c t.chars).val c| + (ofString c t.chars).ulp c ∧
      (ofString c t.chars).val c ≠ 0 ∧ ((ofString c t.chars).isNeg = true ↔ t.value < 0)) := by
  have hN := c.three_le_N
  rcases rdString_spec c c.N t ht hlo hhi (by omega) (le_refl _) with ⟨h1, h2⟩ | ⟨h1, h2, h3, h4, h5, h6, h7⟩
  · have he : ofString c t.chars = zero c := h2
    rw [he, h1]
    refine ⟨zero_WF c, by rw [zero_val], fun _ => rfl, fun h => absurd rfl h⟩
  · refine ⟨⟨h2, h3⟩, h6, fun h => absurd h h1, fun _ => ⟨h7, ?_, ?_⟩⟩
    · intro h; have := h2.isZero_iff.mpr h; rw [h4] at this; exact absurd this (by decide)
    · show (rdString c c.N t.chars).neg = true ↔ _
      rw [h5]
      have hpos : (0 : ℚ) < (digitsVal (t.ip ++ t.frac) : ℚ) * (10 : ℚ) ^ (t.exponent - t.frac.length) := by
        have : t.value = (if t.sign = some true then -1 else 1) *
          ((digitsVal (t.ip ++ t.frac) : ℚ) * (10 : ℚ) ^ (t.exponent - t.frac.length)) := by
          unfold DecText.value; ring
        have hne : (digitsVal (t.ip ++ t.frac) : ℚ) * (10 : ℚ) ^ (t.exponent - t.frac.length) ≠ 0 := by
          intro h; rw [h, mul_zero] at this; exact h1 this
        exact lt_of_le_of_ne (by positivity) hne.symm
      unfold DecText.value
      rw [mul_assoc]
      by_cases hs : t.sign = some true
      · simp only [hs, decide_true, if_true, true_iff]; linarith
      · simp only [hs, decide_false, if_false, one_mul]
        constructor
        · intro h; exact absurd h (by decide)
        · intro h; linarith

/-- C29 (exactness). If the denoted number is representable, parsing is exact. -/
theorem parse_exact (c : Cfg) (t : DecText) (ht : t.Valid) (hlo : -(2 ^ 63) ≤ t.exponent) (hhi : t.exponent < 2 ^ 63)
    (z : DW) (hz : WF c z) (hv : z.val c = t.value) : (ofString c t.chars).val c = t.value := by
  obtain ⟨h1, h2, h3, h4⟩ := parse_truncates c t ht hlo hhi
  by_cases h0 : t.value = 0
  · rw [h3 h0, zero_val, h0]
  · obtain ⟨h5, h6, h7⟩ := h4 h0
    have hrz := isZero_false_of_val h1.toWF h6
    have := trunc_exact h1.toWF hz hrz (by rw [hv]; exact h2) (by rw [hv]; exact h5)
    rw [hv] at this
    rw [val_sgn c (ofString c t.chars), this]
    rcases lt_or_ge t.value 0 with hn | hn
    · have : (ofString c t.chars).neg = true := h7.mpr hn
      rw [this, abs_of_neg hn]; simp
    · have : (ofString c t.chars).neg = false := by
        rw [Bool.eq_false_iff]; intro h; have := h7.mp h; linarith
      rw [this, abs_of_nonneg hn]; simp

/-- Reading into an existing object with `>>` gives the same digits, but keeps the precision set before
    (unless the text denotes zero). -/
theorem istream_read (c : Cfg) (p : ℕ) (t : DecText) (ht : t.Valid) (hlo : -(2 ^ 63) ≤ t.exponent)
    (hhi : t.exponent < 2 ^ 63) (hp2 : 2 ≤ p) (hpN : p ≤ c.N) :
    WF c (rdString c p t.chars) ∧ (rdString c p t.chars).val c = (ofString c t.chars).val c ∧
    (rdString c p t.chars).prec = (if t.value = 0 then c.N else p) := by
  have hN := c.three_le_N
  rcases rdString_spec c p t ht hlo hhi hp2 hpN with ⟨h1, h2⟩ | ⟨h1, h2, h3, h4, h5, h6, h7⟩
  · rcases rdString_spec c c.N t ht hlo hhi (by omega) (le_refl _) with ⟨k1, k2⟩ | ⟨k1, -⟩
    · rw [h2, if_pos h1]
      exact ⟨(zero_WF c).toWF, by rw [show ofString c t.chars = zero c from k2], rfl⟩
    · exact absurd h1 k1
  · rcases rdString_spec c c.N t ht hlo hhi (by omega) (le_refl _) with ⟨k1, -⟩ | ⟨k1, k2, k3, k4, k5, k6, k7⟩
    · exact absurd k1 h1
    · refine ⟨h2, ?_, by rw [if_neg h1]; exact h3⟩
      have := same_unique h2 k2 h4 k4 h6 h7 k6 k7
      show _ = (rdString c c.N t.chars).val c
      rw [val_sgn c (rdString c p t.chars), val_sgn c (rdString c c.N t.chars), this, h5, k5]

/-- A text with sign, leading zeros, fraction and exponent. -/
def exT : DecText := { sign := some true, ip := "007".toList, fp := some "25".toList, ex := some (false, some true, "3".toList) }

example : exT.Valid ∧ exT.chars = "-007.25e-3".toList ∧ exT.exponent = -3 ∧
    ofString exC exT.chars = { data := [72, 50, 0, 0, 0], exp := -4, neg := true, prec := 5 } := by
  refine ⟨⟨by decide, by decide, by decide, ?_⟩, by decide, by decide, by decide⟩
  intro up s d h
  simp only [exT, Option.some.injEq, Prod.mk.injEq] at h
  obtain ⟨-, -, rfl⟩ := h
  exact ⟨by decide, by decide⟩

end WD
