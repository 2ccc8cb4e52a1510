import Verif.Proofs.FftInt
import Verif.Proofs.FftRnd
/-
  The factors of the transforms in `double` (53 bits, ties to even): from the computation in integers.
-/
namespace WD
open Finset Complex
namespace KInt

/-- The sines of π/4, π/8, …, π/2^14 in `double`: significand and (negated) exponent. -/
def sinD : List (ℕ × ℕ) :=
  [(6369051672525773, 53), (6893811853601123, 54), (7028869612283403, 55), (7062879306626092, 56), (7071397114140692, 57), (7073527528384126, 58),
   (7074060192106372, 59), (7074193361797233, 60), (7074226654454970, 61), (7074234977634094, 62), (7074237058429792, 63), (7074237578628774, 64),
   (7074237708678524, 65)]

def sm (k : ℕ) : ℕ := (sinD.getD (k - 2) (0, 0)).1
def se (k : ℕ) : ℕ := (sinD.getD (k - 2) (0, 0)).2

theorem sinD_checks : ∀ i ∈ List.range 13, 2 ^ 52 < sm (i + 2) ∧ sm (i + 2) < 2 ^ 53 ∧
    ((sm (i + 2) : ℚ) - 1 / 2) < sinTable.getD (i + 1) 0 * (1 - 1 / 2 ^ 64) * 2 ^ se (i + 2) ∧
    sinTable.getD (i + 1) 0 * (1 + 1 / 2 ^ 64) * 2 ^ se (i + 2) < sm (i + 2) + 1 / 2 ∧ 0 < sinTable.getD (i + 1) 0 := by decide +kernel

variable {F FL : Flt} (hp : F.p = 53) (hF : F.rnd = roundEven 53) (hFL : FL = F ∨ 64 ≤ FL.p)
include hp hF hFL

theorem sin1_val {k : ℕ} (h1 : 2 ≤ k) (h2 : k ≤ 14) : (fltOps F FL).sin1 (2 ^ k) = (sm k : ℚ) / 2 ^ se k := by
  obtain ⟨i, rfl⟩ : ∃ i, k = i + 2 := ⟨k - 2, by omega⟩
  obtain ⟨c1, c2, c3, c4, c5⟩ := sinD_checks i (List.mem_range.mpr (by omega))
  show F.rnd (FL.rnd (sinLit (2 ^ (i + 2)))) = _
  rw [sinLit_pow (by omega), show i + 2 - 1 = i + 1 by omega]
  generalize sinTable.getD (i + 1) 0 = q at *
  generalize sm (i + 2) = m at *
  generalize se (i + 2) = e at *
  have he : (2 : ℚ) ^ (-(e : ℤ)) = 1 / 2 ^ e := by rw [zpow_neg, zpow_natCast, one_div]
  have key : ∀ r : ℚ, q * (1 - 1 / 2 ^ 64) ≤ r → r ≤ q * (1 + 1 / 2 ^ 64) → roundEven 53 r = m / 2 ^ e := by
    intro r r1 r2
    have h2e : (0:ℚ) < 2 ^ e := by positivity
    rw [roundEven_eq (m := m) (e := -(e : ℤ)) (by norm_num) (by simpa using c1) (by simpa using c2), he]
    · ring
    · rw [he, mul_one_div, div_lt_iff₀ h2e]
      exact lt_of_lt_of_le c3 (mul_le_mul_of_nonneg_right r1 h2e.le)
    · rw [he, mul_one_div, lt_div_iff₀ h2e]
      exact lt_of_le_of_lt (mul_le_mul_of_nonneg_right r2 h2e.le) c4
  rcases hFL with rfl | h64
  · rw [FL.rnd_eq (FL.rep _), hF]
    exact key q (by linarith) (by linarith)
  · rw [hF]
    have := FL.rnd_err (by omega) q
    have hu : FL.u ≤ 1 / 2 ^ 64 := by
      unfold Flt.u
      calc (2 : ℚ) ^ (-(FL.p : ℤ)) ≤ 2 ^ (-(64 : ℤ)) := zpow_le_zpow_right₀ (by norm_num) (by omega)
        _ = _ := by norm_num
    rw [abs_of_pos c5] at this
    have h3 := mul_le_mul_of_nonneg_left hu c5.le
    obtain ⟨a1, a2⟩ := abs_le.mp this
    exact key _ (by linarith) (by linarith)

omit hp hF hFL in
/-- Conditions on the parameters of `run` for the transform of 2^k points. -/
def ParOk (k : ℕ) (wr wi c s : ℤ) : Prop :=
  se k ≤ 66 ∧ se (k - 1) ≤ 90 ∧ rI ((sm k * 2 ^ (66 - se k) : ℕ) * (sm k * 2 ^ (66 - se k) : ℕ)) none (fun y => rI (-2 * y) none some) = some (wr * 2 ^ 42) ∧
  wi = (sm (k - 1) * 2 ^ (90 - se (k - 1)) : ℕ) ∧ |(c : ℚ) - (1 - 2 * sinTable.getD (k - 1) 0 ^ 2) * 2 ^ 120| ≤ 1 ∧
  |(s : ℚ) - sinTable.getD (k - 2) 0 * 2 ^ 120| ≤ 1

omit hp hF hFL in
instance (k : ℕ) (wr wi c s : ℤ) : Decidable (ParOk k wr wi c s) := by unfold ParOk; infer_instance

theorem wp_val {k : ℕ} (h1 : 3 ≤ k) (h2 : k ≤ 14) {wr wi c s : ℤ} (P : ParOk k wr wi c s) :
    (fltOps F FL).wpReal true (2 ^ k) = (wr : ℚ) / 2 ^ 90 ∧ (fltOps F FL).wpImag true (2 ^ k) = (wi : ℚ) / 2 ^ 90 := by
  obtain ⟨p1, p2, p3, p4, -, -⟩ := P
  constructor
  · unfold FOps.wpReal FOps.wpInit
    rw [if_pos rfl, sin1_val hp hF hFL (by omega) h2]
    have e : (sm k : ℚ) / 2 ^ se k = (((sm k * 2 ^ (66 - se k) : ℕ) : ℤ) : ℚ) / 2 ^ 66 := by
      have : (2:ℚ) ^ 66 = 2 ^ (66 - se k) * 2 ^ se k := by rw [← pow_add]; congr 1; omega
      rw [this]; push_cast
      rw [mul_comm ((2:ℚ) ^ (66 - se k)), mul_div_mul_right _ _ (by positivity)]
    rw [e]
    generalize ((sm k * 2 ^ (66 - se k) : ℕ) : ℤ) = X at *
    show F.rnd (-2 * F.rnd ((X : ℚ) / 2 ^ 66 * (X / 2 ^ 66))) = _
    rw [hF]
    rcases rI_spec (X * X) (none : Option ℤ) with h | ⟨y, h, r⟩
    · rw [h] at p3; exact absurd p3 (by simp)
    rw [h] at p3
    rcases rI_spec (-2 * y) (none : Option ℤ) with h | ⟨z, h, r'⟩
    · rw [h] at p3; exact absurd p3 (by simp)
    rw [h] at p3
    injection p3 with p3
    rw [show (X : ℚ) / 2 ^ 66 * (X / 2 ^ 66) = ((X * X : ℤ) : ℚ) / 2 ^ 132 by push_cast; ring, r,
      show (-2 : ℚ) * ((y : ℚ) / 2 ^ 132) = ((-2 * y : ℤ) : ℚ) / 2 ^ 132 by push_cast; ring, r', p3]
    push_cast; ring
  · unfold FOps.wpImag
    have e2 : 2 ^ k / 2 = 2 ^ (k - 1) := by
      obtain ⟨j, rfl⟩ : ∃ j, k = j + 1 := ⟨k - 1, by omega⟩
      rw [pow_succ]; simp
    rw [if_pos rfl, e2, sin1_val hp hF hFL (by omega) (by omega), p4]
    have : (2:ℚ) ^ 90 = 2 ^ (90 - se (k - 1)) * 2 ^ se (k - 1) := by rw [← pow_add]; congr 1; omega
    rw [this]; push_cast
    rw [mul_comm ((2:ℚ) ^ (90 - se (k - 1))), mul_div_mul_right _ _ (by positivity)]

omit hp hF hFL in
/-- The root of unity of the parameters. -/
theorem root_err {k : ℕ} (h1 : 3 ≤ k) (h2 : k ≤ 14) {wr wi c s : ℤ} (P : ParOk k wr wi c s) :
    ‖(⟨(c : ℝ) / 2 ^ 120, (s : ℝ) / 2 ^ 120⟩ : ℂ) - rootU true (2 ^ k)‖ ≤ 1 / 2 ^ 118 := by
  obtain ⟨-, -, -, -, p5, p6⟩ := P
  have l1 := sinLit_err (k := k) (by omega) (by omega)
  have l2 := sinLit_err (k := k - 1) (by omega) (by omega)
  rw [sinLit_pow (by omega)] at l1 l2
  rw [show k - 1 - 1 = k - 2 by omega] at l2
  have hk : ((2 ^ k : ℕ) : ℝ) = 2 * (2 ^ (k - 1) : ℕ) := by
    obtain ⟨j, rfl⟩ : ∃ j, k = j + 1 := ⟨k - 1, by omega⟩
    rw [Nat.add_sub_cancel]; push_cast; ring
  have hpos : (0:ℝ) < (2 ^ (k - 1) : ℕ) := by positivity
  have hpos2 : (0:ℝ) < (2 ^ k : ℕ) := by positivity
  rw [rootU_re_im, if_pos rfl, one_mul]
  have ec : Real.cos (2 * Real.pi / (2 ^ k : ℕ)) = 1 - 2 * Real.sin (Real.pi / (2 ^ k : ℕ)) ^ 2 := by
    rw [show 2 * Real.pi / ((2 ^ k : ℕ) : ℝ) = 2 * (Real.pi / (2 ^ k : ℕ)) by ring, Real.cos_two_mul, Real.sin_sq]; ring
  have es : Real.sin (2 * Real.pi / (2 ^ k : ℕ)) = Real.sin (Real.pi / (2 ^ (k - 1) : ℕ)) := by
    congr 1; rw [hk]; field_simp
  rw [ec, es]
  have sp : ∀ n : ℕ, 1 ≤ n → 0 ≤ Real.sin (Real.pi / n) ∧ Real.sin (Real.pi / n) ≤ 1 := by
    intro n hn
    refine ⟨Real.sin_nonneg_of_nonneg_of_le_pi (by positivity) (div_le_self Real.pi_pos.le (by exact_mod_cast hn)), Real.sin_le_one _⟩
  obtain ⟨x0, x1⟩ := sp (2 ^ k) Nat.one_le_two_pow
  obtain ⟨y0, y1⟩ := sp (2 ^ (k - 1)) Nat.one_le_two_pow
  have p5' : |(c : ℝ) - (1 - 2 * ((sinTable.getD (k - 1) 0 : ℚ) : ℝ) ^ 2) * 2 ^ 120| ≤ 1 := by exact_mod_cast p5
  have p6' : |(s : ℝ) - ((sinTable.getD (k - 2) 0 : ℚ) : ℝ) * 2 ^ 120| ≤ 1 := by exact_mod_cast p6
  generalize Real.sin (Real.pi / (2 ^ k : ℕ)) = x at *
  generalize Real.sin (Real.pi / (2 ^ (k - 1) : ℕ)) = y at *
  generalize ((sinTable.getD (k - 1) 0 : ℚ) : ℝ) = X at *
  generalize ((sinTable.getD (k - 2) 0 : ℚ) : ℝ) = Y at *
  have a1 : |X - x| ≤ 1 / 10 ^ 38 := le_trans l1 (by nlinarith)
  have a2 : |Y - y| ≤ 1 / 10 ^ 38 := le_trans l2 (by nlinarith)
  have b1 : |X ^ 2 - x ^ 2| ≤ 3 / 10 ^ 38 := by
    rw [show X ^ 2 - x ^ 2 = (X - x) * (X - x + 2 * x) by ring, abs_mul]
    have : |X - x + 2 * x| ≤ 3 := by
      refine le_trans (abs_add_le _ _) ?_
      rw [abs_of_nonneg (by linarith : 0 ≤ 2 * x)]
      norm_num at a1 ⊢; linarith
    calc _ ≤ 1 / 10 ^ 38 * 3 := mul_le_mul a1 this (abs_nonneg _) (by positivity)
      _ = _ := by ring
  have c1 : |(c : ℝ) / 2 ^ 120 - (1 - 2 * x ^ 2)| ≤ 1.2 / 2 ^ 120 := by
    have e : (c : ℝ) / 2 ^ 120 - (1 - 2 * x ^ 2) = (c - (1 - 2 * X ^ 2) * 2 ^ 120) / 2 ^ 120 + -2 * (X ^ 2 - x ^ 2) := by
      field_simp; ring
    rw [e]
    refine le_trans (abs_add_le _ _) ?_
    rw [abs_div, abs_of_pos (by positivity : (0:ℝ) < 2 ^ 120), abs_mul, abs_neg, abs_two]
    have := div_le_div_of_nonneg_right p5' (by positivity : (0:ℝ) ≤ 2 ^ 120)
    norm_num at this b1 ⊢
    linarith
  have c2 : |(s : ℝ) / 2 ^ 120 - y| ≤ 1.2 / 2 ^ 120 := by
    have e : (s : ℝ) / 2 ^ 120 - y = (s - Y * 2 ^ 120) / 2 ^ 120 + (Y - y) := by field_simp; ring
    rw [e]
    refine le_trans (abs_add_le _ _) ?_
    rw [abs_div, abs_of_pos (by positivity : (0:ℝ) < 2 ^ 120)]
    have := div_le_div_of_nonneg_right p6' (by positivity : (0:ℝ) ≤ 2 ^ 120)
    norm_num at this a2 ⊢
    linarith
  refine le_trans (norm_box (c := 1.2 / 2 ^ 120) (by positivity) (by simpa using c1) (by simpa using c2)) ?_
  norm_num

omit hp hF hFL in
theorem floor_err (a : ℤ) : |((a / (2 ^ 120 : ℕ) : ℤ) : ℝ) - (a : ℝ) / 2 ^ 120| ≤ 1 := by
  have h1 := Int.ediv_mul_add_emod a (2 ^ 120 : ℕ)
  have h2 := Int.emod_nonneg a (b := ((2 ^ 120 : ℕ) : ℤ)) (by norm_num)
  have h3 := Int.emod_lt_of_pos a (b := ((2 ^ 120 : ℕ) : ℤ)) (by norm_num)
  generalize a / ((2 ^ 120 : ℕ) : ℤ) = q at *
  generalize a % ((2 ^ 120 : ℕ) : ℤ) = r at *
  have e : (a : ℝ) = q * 2 ^ 120 + r := by
    have : (((q * (2 ^ 120 : ℕ) + r : ℤ)) : ℝ) = a := by rw [h1]
    rw [← this]; push_cast; norm_num
  have r0 : (0:ℝ) ≤ r := by exact_mod_cast h2
  have r1 : (r:ℝ) < 2 ^ 120 := by exact_mod_cast h3
  rw [e, add_div, mul_div_cancel_right₀ _ (by positivity)]
  rw [show (q:ℝ) - (q + r / 2 ^ 120) = -(r / 2 ^ 120) by ring, abs_neg, abs_of_nonneg (by positivity), div_le_one (by positivity)]
  exact r1.le

/-- The factors of the butterflies of 2^k points, from a run of `run`. -/
theorem tw_run {k : ℕ} (h1 : 3 ≤ k) (h2 : k ≤ 14) {wr wi c s : ℤ} (P : ParOk k wr wi c s) {bd B : ℕ} (hB : bd ≤ B ^ 2) : ∀ (N j0 : ℕ) (re im C Z : ℤ) (st : St),
    run wr wi c s bd N re im C Z = some st → (fltOps F FL).tw true (2 ^ k) j0 = ((re : ℚ) / 2 ^ 66, (im : ℚ) / 2 ^ 66) →
    ‖(⟨(C : ℝ) / 2 ^ 120, (Z : ℝ) / 2 ^ 120⟩ : ℂ) - rootU true (2 ^ k) ^ j0‖ ≤ j0 / 2 ^ 117 → j0 + N ≤ 4096 →
    ∀ j, j0 ≤ j → j < j0 + N → ‖Rnd.C (fun q : ℚ => (q : ℝ)) ((fltOps F FL).tw true (2 ^ k) j) - rootU true (2 ^ k) ^ j‖ ≤ B / 2 ^ 120 + 1 / 2 ^ 105 := by
  obtain ⟨w1, w2⟩ := wp_val hp hF hFL h1 h2 P
  have hw := root_err h1 h2 P
  have hn1 : ‖rootU true (2 ^ k)‖ = 1 := norm_rootU _ _
  intro N
  induction N with
  | zero => intro j0 re im C Z st _ _ _ _ j hj hj'; omega
  | succ N ih =>
    intro j0 re im C Z st hr ht hz hN j hj hj'
    rw [run] at hr
    rcases step_spec wr wi c s bd re im C Z with h | ⟨re', im', h, hb, q1, q2⟩
    · rw [h] at hr; exact absurd hr (by simp)
    rw [h] at hr
    have j0le : (j0 : ℝ) ≤ 4096 := by exact_mod_cast (by omega : j0 ≤ 4096)
    rcases Nat.eq_or_lt_of_le hj with rfl | hlt
    · -- the comparison with bd
      rw [ht]
      have hd : ‖Rnd.C (fun q : ℚ => (q : ℝ)) ((re : ℚ) / 2 ^ 66, (im : ℚ) / 2 ^ 66) - (⟨(C : ℝ) / 2 ^ 120, (Z : ℝ) / 2 ^ 120⟩ : ℂ)‖ ≤ B / 2 ^ 120 := by
        apply abs_le_of_sq_le_sq' _ (by positivity) |>.2
        rw [Rnd.norm_sq_parts]
        have e1 : (Rnd.C (fun q : ℚ => (q : ℝ)) ((re : ℚ) / 2 ^ 66, (im : ℚ) / 2 ^ 66) - (⟨(C : ℝ) / 2 ^ 120, (Z : ℝ) / 2 ^ 120⟩ : ℂ)).re = ((re * 2 ^ 54 - C : ℤ) : ℝ) / 2 ^ 120 := by
          simp [Rnd.C, toC]; ring
        have e2 : (Rnd.C (fun q : ℚ => (q : ℝ)) ((re : ℚ) / 2 ^ 66, (im : ℚ) / 2 ^ 66) - (⟨(C : ℝ) / 2 ^ 120, (Z : ℝ) / 2 ^ 120⟩ : ℂ)).im = ((im * 2 ^ 54 - Z : ℤ) : ℝ) / 2 ^ 120 := by
          simp [Rnd.C, toC]; ring
        rw [e1, e2, div_pow, div_pow, div_pow, ← add_div]
        apply div_le_div_of_nonneg_right _ (by positivity)
        have : (re * 2 ^ 54 - C) ^ 2 + (im * 2 ^ 54 - Z) ^ 2 ≤ ((B ^ 2 : ℕ) : ℤ) := le_trans hb (by exact_mod_cast hB)
        exact_mod_cast this
      have h3 := norm_sub_le_norm_sub_add_norm_sub (Rnd.C (fun q : ℚ => (q : ℝ)) ((re : ℚ) / 2 ^ 66, (im : ℚ) / 2 ^ 66)) (⟨(C : ℝ) / 2 ^ 120, (Z : ℝ) / 2 ^ 120⟩ : ℂ) (rootU true (2 ^ k) ^ j0)
      refine le_trans h3 (add_le_add hd (le_trans hz ?_))
      rw [div_le_div_iff₀ (by positivity) (by positivity)]
      norm_num; linarith
    · refine ih (j0 + 1) _ _ _ _ st hr ?_ ?_ (by omega) j (by omega) (by omega)
      · rw [FOps.tw, ht]
        show (F.rnd ((re : ℚ) / 2 ^ 66 + F.rnd (F.rnd ((re : ℚ) / 2 ^ 66 * (fltOps F FL).wpReal true (2 ^ k)) - F.rnd ((im : ℚ) / 2 ^ 66 * (fltOps F FL).wpImag true (2 ^ k)))),
          F.rnd ((im : ℚ) / 2 ^ 66 + F.rnd (F.rnd ((im : ℚ) / 2 ^ 66 * (fltOps F FL).wpReal true (2 ^ k)) + F.rnd ((re : ℚ) / 2 ^ 66 * (fltOps F FL).wpImag true (2 ^ k))))) = _
        rw [w1, w2, hF, q1, q2]
      · -- the root of unity
        set z : ℂ := ⟨(C : ℝ) / 2 ^ 120, (Z : ℝ) / 2 ^ 120⟩
        set w : ℂ := ⟨(c : ℝ) / 2 ^ 120, (s : ℝ) / 2 ^ 120⟩
        set ω := rootU true (2 ^ k)
        have hzn : ‖z‖ ≤ 1.001 := by
          have : ‖z‖ ≤ ‖z - ω ^ j0‖ + ‖ω ^ j0‖ := by simpa using norm_add_le (z - ω ^ j0) (ω ^ j0)
          rw [norm_pow, hn1, one_pow] at this
          have h4 : (j0 : ℝ) / 2 ^ 117 ≤ 0.001 := by rw [div_le_iff₀ (by positivity)]; norm_num; linarith
          linarith
        have hf : ‖(⟨(((C * c - Z * s) / (2 ^ 120 : ℕ) : ℤ) : ℝ) / 2 ^ 120, (((C * s + Z * c) / (2 ^ 120 : ℕ) : ℤ) : ℝ) / 2 ^ 120⟩ : ℂ) - z * w‖ ≤ 1.415 * (1 / 2 ^ 120) := by
          apply norm_box (by positivity)
          · have := floor_err (C * c - Z * s)
            have e : ((⟨(((C * c - Z * s) / (2 ^ 120 : ℕ) : ℤ) : ℝ) / 2 ^ 120, (((C * s + Z * c) / (2 ^ 120 : ℕ) : ℤ) : ℝ) / 2 ^ 120⟩ : ℂ) - z * w).re =
                ((((C * c - Z * s) / (2 ^ 120 : ℕ) : ℤ) : ℝ) - ((C * c - Z * s : ℤ) : ℝ) / 2 ^ 120) / 2 ^ 120 := by
              rw [Complex.sub_re, Complex.mul_re]
              simp only [z, w]
              push_cast; ring
            rw [e, abs_div, abs_of_pos (by positivity : (0:ℝ) < 2 ^ 120)]
            exact div_le_div_of_nonneg_right this (by positivity)
          · have := floor_err (C * s + Z * c)
            have e : ((⟨(((C * c - Z * s) / (2 ^ 120 : ℕ) : ℤ) : ℝ) / 2 ^ 120, (((C * s + Z * c) / (2 ^ 120 : ℕ) : ℤ) : ℝ) / 2 ^ 120⟩ : ℂ) - z * w).im =
                ((((C * s + Z * c) / (2 ^ 120 : ℕ) : ℤ) : ℝ) - ((C * s + Z * c : ℤ) : ℝ) / 2 ^ 120) / 2 ^ 120 := by
              rw [Complex.sub_im, Complex.mul_im]
              simp only [z, w]
              push_cast; ring
            rw [e, abs_div, abs_of_pos (by positivity : (0:ℝ) < 2 ^ 120)]
            exact div_le_div_of_nonneg_right this (by positivity)
        set z' : ℂ := (⟨(((C * c - Z * s) / (2 ^ 120 : ℕ) : ℤ) : ℝ) / 2 ^ 120, (((C * s + Z * c) / (2 ^ 120 : ℕ) : ℤ) : ℝ) / 2 ^ 120⟩ : ℂ)
        have e : z' - ω ^ (j0 + 1) = (z' - z * w) + (z * (w - ω) + (z - ω ^ j0) * ω) := by ring
        rw [e]
        refine le_trans (norm_add_le _ _) (le_trans (add_le_add hf (norm_add_le _ _)) ?_)
        rw [norm_mul, norm_mul, hn1, mul_one]
        have g1 := mul_le_mul hzn hw (norm_nonneg _) (by norm_num)
        push_cast
        rw [add_div]
        norm_num at g1 ⊢
        norm_num at hz
        linarith

end KInt
end WD
