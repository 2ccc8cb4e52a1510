import Verif.Proofs.Extract
import Verif.Props.Round
/-
  Extraction to unsigned integers of any non-negative number: the integer part of the number rounded at max_digits10 digits.
-/
namespace WD
open DW

theorem toULL_round {c : Cfg} {x : DW} (hx : WF c x) (hD : 16 ≤ c.digits10) (hn : x.neg = false) (h0 : 0 ≤ x.exp) :
    (toULL c x : ℤ) = min ⌊(roundSelf c x).val c⌋ (2 ^ 64 - 1) := by
  obtain ⟨hcap, hg⟩ := cap64 c hD
  have hcapQ : ((2 : ℚ) ^ 64) ≤ c.B ^ c.N := by exact_mod_cast hcap
  obtain ⟨w1, w2, w3, w4⟩ := roundSelf_wf hx hg
  unfold toULL
  simp only [isNeg, hn, Bool.false_eq_true, if_false]
  rw [if_pos h0]
  have hv : (roundSelf c x).val c = |(roundSelf c x).val c| := WF.val_of_pos (by rw [w3]; exact hn)
  have h0' : 0 ≤ (roundSelf c x).exp := le_trans h0 w4
  generalize roundSelf c x = r at *
  have hnn := abs_nonneg (r.val c)
  obtain ⟨t1, t2, t3⟩ := integerPart_take w1 h0'
  obtain ⟨i1, i2⟩ := integerPart_wf w1
  rw [ofUnsigned64]
  obtain ⟨m1, -, -, m4, -, m6⟩ := fromULL_spec c (2 ^ 64 - 1) (by norm_num) false
  have m6' := m6 (lt_of_lt_of_le (by norm_num) hcap)
  have mv : (fromULL c (2 ^ 64 - 1) false).val c = 2 ^ 64 - 1 := by
    rw [WF.val_of_pos (c := c) m4, m6']; norm_num
  have hiv : (integerPart c r).val c = ⌊r.val c⌋ ∨ (integerPart c r).val c = r.val c := by
    by_cases hd : r.exp < (c.digits10 : ℤ) - 1
    · left
      rw [integerPart_val w1 hd]; unfold truncQ; rw [if_pos (by rw [hv]; exact hnn)]
    · right
      unfold integerPart; rw [if_neg (by omega), if_pos (by omega)]
  have c1 := cmp_spec i1 m1.toWF
  rw [mv] at c1
  have hfl0 : 0 ≤ ⌊r.val c⌋ := Int.floor_nonneg.mpr (by rw [hv]; exact hnn)
  have hf1 := Int.floor_le (r.val c)
  have hf2 := Int.lt_floor_add_one (r.val c)
  by_cases hbig : (2 ^ 64 - 1 : ℚ) < (integerPart c r).val c
  · have : gt (integerPart c r) (fromULL c (2 ^ 64 - 1) false) = true := by
      unfold DW.gt
      rcases c1 with ⟨h, h'⟩ | ⟨h, h'⟩ | ⟨h, h'⟩ <;> rw [h] <;> simp <;> linarith
    rw [if_pos this]
    have : (2 ^ 64 - 1 : ℤ) ≤ ⌊r.val c⌋ := by
      rw [Int.le_floor]; push_cast
      rcases hiv with h | h <;> rw [h] at hbig <;> linarith
    rw [min_eq_right this]; norm_num
  · have hng : ¬ gt (integerPart c r) (fromULL c (2 ^ 64 - 1) false) = true := by
      unfold DW.gt
      rcases c1 with ⟨h, h'⟩ | ⟨h, h'⟩ | ⟨h, h'⟩ <;> rw [h] <;> simp <;> linarith
    rw [if_neg hng]
    have hfle : ⌊r.val c⌋ ≤ 2 ^ 64 - 1 := by
      have : (⌊r.val c⌋ : ℚ) ≤ 2 ^ 64 - 1 := by rcases hiv with h | h <;> rw [h] at hbig <;> linarith
      exact_mod_cast this
    have hb : |r.val c| < c.B ^ c.N := by
      have : (⌊r.val c⌋ : ℚ) ≤ 2 ^ 64 - 1 := by exact_mod_cast hfle
      rw [← hv]; linarith
    have g := gather_int (w := integerPart c r) w1 h0' hb t1 t2 t3
    rw [g, ← hv, Int.emod_eq_of_lt hfl0 (by omega), min_eq_left hfle]

/-- The extracted integer against the number itself, for numbers that fit. -/
theorem toULL_near {c : Cfg} {x : DW} (hx : WF c x) (hD : 16 ≤ c.digits10) (hn : x.neg = false) (hb : x.val c < 2 ^ 63) :
    (toULL c x : ℚ) ≤ x.val c + x.val c * (2 / 10 ^ (c.digits10 + 3)) ∧
    x.val c < toULL c x + 1 + x.val c * (2 / 10 ^ (c.digits10 + 3)) := by
  have hv : x.val c = |x.val c| := WF.val_of_pos hn
  have hnn := abs_nonneg (x.val c)
  rw [← hv] at hnn
  have hδ : (0 : ℚ) < 2 / 10 ^ (c.digits10 + 3) := by positivity
  have hxd : 0 ≤ x.val c * (2 / 10 ^ (c.digits10 + 3)) := by positivity
  by_cases h0 : 0 ≤ x.exp
  · have h := toULL_round hx hD hn h0
    obtain ⟨hcap, hg⟩ := cap64 c hD
    have hr : |(roundSelf c x).val c - x.val c| ≤ x.val c * (2 / 10 ^ (c.digits10 + 3)) := by
      by_cases hx0 : x.val c = 0
      · have hz := hx.isZero_iff.mpr hx0
        rw [roundSelf_zero hz, sub_self, abs_zero]; exact hxd
      · obtain ⟨r1, -, -⟩ := round_near c x hx hx0 hg
        have i1 := (ilogb_order c x hx hx0).1
        refine le_trans r1.le ?_
        have e : (10 : ℚ) ^ (ilogb x - c.maxDigits10 + 1) = 10 ^ ilogb x * (1 / 10 ^ (c.digits10 + 3)) := by
          rw [one_div, ← zpow_natCast, ← zpow_neg, ← zpow_add₀ (by norm_num)]
          congr 1
          unfold Cfg.maxDigits10; push_cast; ring
        rw [e, hv]
        have p : (0 : ℚ) < 1 / 10 ^ (c.digits10 + 3) := by positivity
        have := mul_le_mul_of_nonneg_right i1 p.le
        have e2 : (2 : ℚ) / 10 ^ (c.digits10 + 3) = 2 * (1 / 10 ^ (c.digits10 + 3)) := by ring
        rw [e2]
        have q := mul_pos (p10_pos (ilogb x)) p
        linarith
    have hδ1 : (2 : ℚ) / 10 ^ (c.digits10 + 3) ≤ 1 / 2 := by
      rw [div_le_div_iff₀ (by positivity) (by norm_num)]
      have : (10 : ℚ) ^ 1 ≤ 10 ^ (c.digits10 + 3) := pow_le_pow_right₀ (by norm_num) (by omega)
      linarith
    have h1 : x.val c * (2 / 10 ^ (c.digits10 + 3)) ≤ x.val c * (1 / 2) := mul_le_mul_of_nonneg_left hδ1 hnn
    rw [abs_le] at hr
    have f1 := Int.floor_le ((roundSelf c x).val c)
    have f2 := Int.lt_floor_add_one ((roundSelf c x).val c)
    have f3 : ⌊(roundSelf c x).val c⌋ ≤ 2 ^ 64 - 1 := by
      have : (⌊(roundSelf c x).val c⌋ : ℚ) < 2 ^ 64 := by linarith
      have : ⌊(roundSelf c x).val c⌋ < 2 ^ 64 := by exact_mod_cast this
      omega
    rw [min_eq_left f3] at h
    have h' : (toULL c x : ℚ) = (⌊(roundSelf c x).val c⌋ : ℚ) := by exact_mod_cast congrArg (fun z : ℤ => (z : ℚ)) h
    rw [h']
    constructor <;> linarith
  · have h1 := lt_one_of_exp_neg hx (by omega)
    rw [← hv] at h1
    have : toULL c x = 0 := by
      unfold toULL
      simp only [isNeg, hn, Bool.false_eq_true, if_false]
      rw [if_neg h0]
    rw [this]
    constructor
    · push_cast; linarith
    · push_cast; linarith

end WD
