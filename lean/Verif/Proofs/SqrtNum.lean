import Mathlib.Data.Rat.Cast.Order
import Mathlib.Tactic.Linarith
import Mathlib.Tactic.Positivity
import Mathlib.Tactic.FieldSimp
import Mathlib.Tactic.Ring
/-
  Numerics of one round of the coupled Newton iteration for the square root.
-/
namespace WD

/-- The new value of v: `h` is the computed 1 - 2sv. -/
theorem sqrt_num_v {s v t1 t2 h w v1 g η : ℚ} (hη0 : 0 < η) (hη : η ≤ 1 / 10 ^ 4) (hv : 0 < v)
    (hg : 2 * (s * v) = 1 + g) (hg1 : |g| ≤ 1 / 10)
    (a1 : |t1 - s * v| ≤ 3 * η * (s * v)) (a2 : |t2 + t1 * 2| ≤ 2 * η * (|t1| * 2))
    (a3 : |h - (t2 + 1)| ≤ 3 * (max |t2| 1 * η)) (a4 : |w - v * h| ≤ 3 * η * (v * |h|)) (a5 : |v1 - (v + w)| ≤ 3 * (max v |w| * η)) :
    |h + g| ≤ 19 / 2 * η ∧ |w| ≤ v * (|g| + 10 * η) ∧ ∃ e, |e| ≤ 13 * η ∧ v1 = v * (1 - g + e) := by
  obtain ⟨g1, g2⟩ := abs_le.mp hg1
  have hsv : s * v ≤ 55 / 100 := by linarith
  have hsv0 : 45 / 100 ≤ s * v := by linarith
  have b1 : |t1 - s * v| ≤ 165 / 100 * η := le_trans a1 (by nlinarith)
  have ht1 : |t1| ≤ 551 / 1000 := by
    have : |t1| ≤ |t1 - s * v| + |s * v| := by
      have := abs_add_le (t1 - s * v) (s * v); simpa using this
    rw [abs_of_pos (show 0 < s * v by linarith)] at this
    linarith
  have b2 : |t2 + t1 * 2| ≤ 2204 / 1000 * η := le_trans a2 (by nlinarith [abs_nonneg t1])
  have hD : |t2 + (1 + g)| ≤ 551 / 100 * η := by
    have : t2 + (1 + g) = (t2 + t1 * 2) - 2 * (t1 - s * v) := by rw [← hg]; ring
    rw [this]
    have h1 := abs_sub (t2 + t1 * 2) (2 * (t1 - s * v))
    rw [abs_mul, abs_of_pos (show (0 : ℚ) < 2 by norm_num)] at h1
    linarith
  have ht2 : |t2| ≤ 11 / 10 + 1 / 1000 := by
    have : |t2| ≤ |t2 + (1 + g)| + |1 + g| := by
      have := abs_sub (t2 + (1 + g)) (1 + g); simpa using this
    rw [abs_of_pos (show 0 < 1 + g by linarith)] at this
    linarith
  have hmx : max |t2| 1 ≤ 1101 / 1000 := max_le (by linarith) (by norm_num)
  have b3 : |h - (t2 + 1)| ≤ 3303 / 1000 * η := le_trans a3 (by nlinarith)
  have hh : |h + g| ≤ 89 / 10 * η := by
    have : h + g = (h - (t2 + 1)) + (t2 + (1 + g)) := by ring
    rw [this]
    have := abs_add_le (h - (t2 + 1)) (t2 + (1 + g))
    linarith
  have hha : |h| ≤ |g| + 89 / 10 * η := by
    have := abs_sub (h + g) g
    simp only [add_sub_cancel_right] at this
    linarith
  have hh1 : |h| ≤ 102 / 1000 := by linarith
  have b4 : |w - v * h| ≤ 31 / 100 * η * v := le_trans a4 (by
    have := mul_le_mul_of_nonneg_left hh1 (mul_pos hη0 hv).le
    nlinarith)
  have hw : |w| ≤ v * (|g| + 10 * η) := by
    have h1 : |w| ≤ |w - v * h| + |v * h| := by
      have := abs_add_le (w - v * h) (v * h); simpa using this
    rw [abs_mul, abs_of_pos hv] at h1
    have := mul_le_mul_of_nonneg_left hha hv.le
    nlinarith [mul_pos hη0 hv]
  have hmv : max v |w| = v := max_eq_left (le_trans hw (by nlinarith))
  rw [hmv] at a5
  refine ⟨by linarith, hw, (v1 - v * (1 - g)) / v, ?_, by field_simp; ring⟩
  rw [abs_div, abs_of_pos hv, div_le_iff₀ hv]
  have e1 : v1 - v * (1 - g) = (v1 - (v + w)) + (w - v * h) + v * (h + g) := by ring
  rw [e1]
  have h1 := abs_add_le ((v1 - (v + w)) + (w - v * h)) (v * (h + g))
  have h2 := abs_add_le (v1 - (v + w)) (w - v * h)
  rw [abs_mul, abs_of_pos hv] at h1
  have h3 := mul_le_mul_of_nonneg_left hh hv.le
  nlinarith [mul_pos hη0 hv]

/-- The new value of s. -/
theorem sqrt_num_s {X s m y z s1 v1 a g1 η : ℚ} (hη0 : 0 < η) (hη : η ≤ 1 / 10 ^ 4) (hX : 0 < X) (hs : 0 < s) (hv1 : 0 < v1)
    (ha : s * s = X * (1 + a)) (ha1 : |a| ≤ 1 / 100) (hg : 2 * (s * v1) = 1 + g1) (hg1 : |g1| ≤ 1 / 50)
    (a1 : |m - s * s| ≤ 3 * η * (s * s)) (a2 : |y - (X - m)| ≤ 3 * (max |m| X * η)) (a3 : |z - v1 * y| ≤ 3 * η * (v1 * |y|))
    (a4 : |s1 - (s + z)| ≤ 3 * (max s |z| * η)) :
    |y| ≤ X / 50 ∧ |z| ≤ s * (11 / 20 * |a| + 4 * η) ∧ ∃ e, |e| ≤ 13 / 2 * η ∧ s1 = s * (1 - (1 + g1) / (2 * (1 + a)) * a + e) := by
  obtain ⟨ha2, ha3⟩ := abs_le.mp ha1
  obtain ⟨hg2, hg3⟩ := abs_le.mp hg1
  have hs2 : s * s ≤ 101 / 100 * X := by rw [ha]; nlinarith
  have b1 : |m - s * s| ≤ 303 / 100 * η * X := le_trans a1 (by nlinarith)
  have hηX := mul_pos hη0 hX
  have hm : |m| ≤ 1011 / 1000 * X := by
    have : |m| ≤ |m - s * s| + |s * s| := by
      have := abs_add_le (m - s * s) (s * s); simpa using this
    rw [abs_of_pos (mul_pos hs hs)] at this
    nlinarith
  have hmx : max |m| X ≤ 1011 / 1000 * X := max_le hm (by linarith)
  have b2 : |y - (X - m)| ≤ 3033 / 1000 * η * X := le_trans a2 (by nlinarith)
  have by' : |y + X * a| ≤ 607 / 100 * η * X := by
    have : y + X * a = (y - (X - m)) - (m - s * s) := by rw [ha]; ring
    rw [this]
    have := abs_sub (y - (X - m)) (m - s * s)
    nlinarith
  have hy : |y| ≤ X * (|a| + 607 / 100 * η) := by
    have := abs_sub (y + X * a) (X * a)
    simp only [add_sub_cancel_right] at this
    rw [abs_mul, abs_of_pos hX] at this
    linarith
  have hy2 : |y| ≤ X / 50 := le_trans hy (by nlinarith)
  -- v1 X against s
  have h1a : 0 < 1 + a := by linarith
  obtain ⟨l, hl⟩ : ∃ l, l = (1 + g1) / (2 * (1 + a)) := ⟨_, rfl⟩
  have hl1 : l * (2 * (1 + a)) = 1 + g1 := by rw [hl]; field_simp
  have hl2 : l ≤ 516 / 1000 := by rw [hl, div_le_iff₀ (by linarith)]; linarith
  have hl0 : 0 < l := by rw [hl]; exact div_pos (by linarith) (by linarith)
  have hvX : v1 * X = l * s := by
    have h1 : v1 * X * (2 * (1 + a)) = 1 * s * (1 + g1) := by
      rw [← hg]
      have : v1 * X * (2 * (1 + a)) = 2 * v1 * (X * (1 + a)) := by ring
      rw [this, ← ha]; ring
    have h2 : v1 * X * (2 * (1 + a)) = l * s * (2 * (1 + a)) := by rw [h1, ← hl1]; ring
    exact mul_right_cancel₀ (by linarith : (2 * (1 + a)) ≠ 0) h2
  have hηs := mul_pos hη0 hs
  have hvy : v1 * |y| ≤ l * s * (|a| + 607 / 100 * η) := by
    have := mul_le_mul_of_nonneg_left hy hv1.le
    rw [← mul_assoc, hvX] at this; exact this
  have hvy2 : v1 * |y| ≤ s * (516 / 1000 * |a| + 314 / 100 * η) := by
    refine le_trans hvy ?_
    have h3 : 0 ≤ |a| + 607 / 100 * η := by positivity
    have h4 := mul_le_mul_of_nonneg_right hl2 (mul_nonneg hs.le h3)
    have h5 : s * (516 / 1000 * |a| + 314 / 100 * η) = 516 / 1000 * (s * (|a| + 607 / 100 * η)) + (314 / 100 - 516 * 607 / 100000) * (η * s) := by ring
    rw [h5, mul_assoc]; linarith
  have hvy3 : v1 * |y| ≤ s * (6 / 1000) := le_trans hvy2 (mul_le_mul_of_nonneg_left (by linarith) hs.le)
  have b3 : |z - v1 * y| ≤ 18 / 1000 * (η * s) := le_trans a3 (by nlinarith)
  have hz : |z| ≤ s * (11 / 20 * |a| + 4 * η) := by
    have h1 : |z| ≤ |z - v1 * y| + |v1 * y| := by
      have := abs_add_le (z - v1 * y) (v1 * y); simpa using this
    rw [abs_mul, abs_of_pos hv1] at h1
    have h2 := mul_nonneg hs.le (abs_nonneg a)
    have h3 : s * (516 / 1000 * |a| + 314 / 100 * η) = 516 / 1000 * (s * |a|) + 314 / 100 * (η * s) := by ring
    have h4 : s * (11 / 20 * |a| + 4 * η) = 11 / 20 * (s * |a|) + 4 * (η * s) := by ring
    rw [h3] at hvy2; rw [h4]
    linarith
  have hmz : max s |z| = s := max_eq_left (le_trans hz (by nlinarith))
  rw [hmz] at a4
  refine ⟨hy2, hz, (s1 - s * (1 - l * a)) / s, ?_, by rw [← hl]; field_simp; ring⟩
  rw [abs_div, abs_of_pos hs, div_le_iff₀ hs]
  have e1 : s1 - s * (1 - l * a) = (s1 - (s + z)) + (z - v1 * y) + v1 * (y + X * a) := by
    have : v1 * (y + X * a) = v1 * y + l * s * a := by rw [mul_add, ← mul_assoc, hvX]
    rw [this]; ring
  rw [e1]
  have h1 := abs_add_le ((s1 - (s + z)) + (z - v1 * y)) (v1 * (y + X * a))
  have h2 := abs_add_le (s1 - (s + z)) (z - v1 * y)
  rw [abs_mul, abs_of_pos hv1] at h1
  have h3 : v1 * |y + X * a| ≤ 314 / 100 * (η * s) := by
    have h4 := mul_le_mul_of_nonneg_left by' hv1.le
    have h5 : v1 * (607 / 100 * η * X) = 607 / 100 * η * (l * s) := by rw [← hvX]; ring
    rw [h5] at h4
    have h6 := mul_le_mul_of_nonneg_right hl2 hηs.le
    have h7 : 607 / 100 * η * (l * s) = 607 / 100 * (l * (η * s)) := by ring
    rw [h7] at h4
    linarith
  have h8 : 13 / 2 * η * s = 13 / 2 * (η * s) := by ring
  have h9 : s * η = η * s := mul_comm _ _
  rw [h9] at a4
  rw [h8]
  linarith

/-- New errors of the round. -/
theorem sqrt_num_round {X s v s1 v1 a g e f η : ℚ} (hη0 : 0 < η) (hη : η ≤ 1 / 10 ^ 4)
    (ha : s * s = X * (1 + a)) (ha1 : |a| ≤ 1 / 100) (hg : 2 * (s * v) = 1 + g) (hg1 : |g| ≤ 1 / 10)
    (he : |e| ≤ 13 * η) (hv1 : v1 = v * (1 - g + e)) :
    ∃ g1, 2 * (s * v1) = 1 + g1 ∧ |g1| ≤ g ^ 2 + 15 * η ∧ |g1| ≤ 1 / 50 ∧
      (|f| ≤ 13 / 2 * η → s1 = s * (1 - (1 + g1) / (2 * (1 + a)) * a + f) →
        (∃ a1, s1 * s1 = X * (1 + a1) ∧ |a1| ≤ |g1| * |a| + 3 / 10 * a ^ 2 + 27 / 2 * η) ∧
        (∃ g', 2 * (s1 * v1) = 1 + g' ∧ |g'| ≤ |g1| + 53 / 100 * |a| + 7 * η)) := by
  obtain ⟨ha2, ha3⟩ := abs_le.mp ha1
  obtain ⟨hg2, hg3⟩ := abs_le.mp hg1
  have h1a : 0 < 1 + a := by linarith
  have hgsq : g ^ 2 ≤ 1 / 100 := by
    have := sq_le_sq' hg2 hg3; norm_num at this; linarith
  refine ⟨-g ^ 2 + (1 + g) * e, ?_, ?_, ?_, ?_⟩
  · rw [hv1, show 2 * (s * (v * (1 - g + e))) = 2 * (s * v) * (1 - g + e) by ring, hg]; ring
  · have h1 := abs_add_le (-g ^ 2) ((1 + g) * e)
    rw [abs_neg, abs_of_nonneg (sq_nonneg g), abs_mul, abs_of_pos (show 0 < 1 + g by linarith)] at h1
    have : (1 + g) * |e| ≤ 11 / 10 * (13 * η) := mul_le_mul (by linarith) he (abs_nonneg _) (by norm_num)
    linarith
  · have h1 := abs_add_le (-g ^ 2) ((1 + g) * e)
    rw [abs_neg, abs_of_nonneg (sq_nonneg g), abs_mul, abs_of_pos (show 0 < 1 + g by linarith)] at h1
    have : (1 + g) * |e| ≤ 11 / 10 * (13 * η) := mul_le_mul (by linarith) he (abs_nonneg _) (by norm_num)
    linarith
  · intro hf hs1
    obtain ⟨g1, hg1d⟩ : ∃ g1, g1 = -g ^ 2 + (1 + g) * e := ⟨_, rfl⟩
    have hg1b : |g1| ≤ 12 / 1000 := by
      rw [hg1d]
      have h1 := abs_add_le (-g ^ 2) ((1 + g) * e)
      rw [abs_neg, abs_of_nonneg (sq_nonneg g), abs_mul, abs_of_pos (show 0 < 1 + g by linarith)] at h1
      have : (1 + g) * |e| ≤ 11 / 10 * (13 * η) := mul_le_mul (by linarith) he (abs_nonneg _) (by norm_num)
      linarith
    rw [← hg1d] at hs1 ⊢
    obtain ⟨k1, k2⟩ := abs_le.mp hg1b
    have hgv : 2 * (s * v1) = 1 + g1 := by
      rw [hv1, show 2 * (s * (v * (1 - g + e))) = 2 * (s * v) * (1 - g + e) by ring, hg, hg1d]; ring
    obtain ⟨l, hl⟩ : ∃ l, l = (1 + g1) / (2 * (1 + a)) := ⟨_, rfl⟩
    have hl1 : 2 * (l * (1 + a)) = 1 + g1 := by rw [hl]; field_simp
    have hl2 : l ≤ 512 / 1000 := by rw [hl, div_le_iff₀ (by linarith)]; linarith
    have hl0 : 0 < l := by rw [hl]; exact div_pos (by linarith) (by linarith)
    rw [← hl] at hs1
    have hla : |l * a| ≤ 512 / 1000 * |a| := by
      rw [abs_mul, abs_of_pos hl0]; exact mul_le_mul_of_nonneg_right hl2 (abs_nonneg _)
    have hla2 : |l * a| ≤ 6 / 1000 := by linarith
    obtain ⟨m1, m2⟩ := abs_le.mp hla2
    have hasq : a ^ 2 = |a| ^ 2 := (sq_abs a).symm
    constructor
    · refine ⟨-g1 * a + l ^ 2 * a ^ 2 * (1 + a) + (1 + a) * (2 * (1 - l * a) * f + f ^ 2), ?_, ?_⟩
      · have e1 : s1 * s1 = X * (1 + a) * (1 - l * a + f) ^ 2 := by rw [hs1, ← ha]; ring
        rw [e1]
        have e2 : (1 + a) * (1 - l * a + f) ^ 2 = 1 + (a - 2 * (l * (1 + a)) * a + l ^ 2 * a ^ 2 * (1 + a) +
            (1 + a) * (2 * (1 - l * a) * f + f ^ 2)) := by ring
        rw [mul_assoc, e2, hl1]; ring
      · have h1 := abs_add_le (-g1 * a + l ^ 2 * a ^ 2 * (1 + a)) ((1 + a) * (2 * (1 - l * a) * f + f ^ 2))
        have h2 := abs_add_le (-g1 * a) (l ^ 2 * a ^ 2 * (1 + a))
        have h3 : |-g1 * a| = |g1| * |a| := by rw [abs_mul, abs_neg]
        have h4 : |l ^ 2 * a ^ 2 * (1 + a)| ≤ 3 / 10 * a ^ 2 := by
          rw [abs_of_nonneg (by positivity)]
          have : l ^ 2 * (1 + a) ≤ 3 / 10 := by
            have h5 : l ^ 2 ≤ (512 / 1000) ^ 2 := pow_le_pow_left₀ hl0.le hl2 2
            have : l ^ 2 * (1 + a) ≤ (512 / 1000) ^ 2 * (101 / 100) := mul_le_mul h5 (by linarith) h1a.le (by positivity)
            linarith
          have := mul_le_mul_of_nonneg_right this (sq_nonneg a)
          linarith
        have h5 : |(1 + a) * (2 * (1 - l * a) * f + f ^ 2)| ≤ 27 / 2 * η := by
          rw [abs_mul, abs_of_pos h1a]
          have h6 : |2 * (1 - l * a) * f + f ^ 2| ≤ 1325 / 100 * η := by
            have := abs_add_le (2 * (1 - l * a) * f) (f ^ 2)
            rw [abs_mul, abs_of_pos (show 0 < 2 * (1 - l * a) by linarith), abs_of_nonneg (sq_nonneg f)] at this
            have h7 : 2 * (1 - l * a) * |f| ≤ 2012 / 1000 * (13 / 2 * η) := mul_le_mul (by linarith) hf (abs_nonneg _) (by norm_num)
            have h8 : f ^ 2 ≤ (13 / 2 * η) ^ 2 := by
              rw [← sq_abs f]; exact pow_le_pow_left₀ (abs_nonneg _) hf 2
            have h9 : η * η ≤ 1 / 10 ^ 4 * η := mul_le_mul_of_nonneg_right hη hη0.le
            nlinarith
          have := mul_le_mul (show 1 + a ≤ 101 / 100 by linarith) h6 (abs_nonneg _) (by norm_num)
          linarith
        linarith
    · refine ⟨g1 + (1 + g1) * (-(l * a) + f), ?_, ?_⟩
      · rw [hs1, show 2 * (s * (1 - l * a + f) * v1) = 2 * (s * v1) * (1 - l * a + f) by ring, hgv]; ring
      · have h1 := abs_add_le g1 ((1 + g1) * (-(l * a) + f))
        have h2 := abs_add_le (-(l * a)) f
        rw [abs_neg] at h2
        rw [abs_mul, abs_of_pos (show 0 < 1 + g1 by linarith)] at h1
        have h3 : (1 + g1) * |-(l * a) + f| ≤ 1012 / 1000 * (512 / 1000 * |a| + 13 / 2 * η) :=
          mul_le_mul (by linarith) (by linarith) (abs_nonneg _) (by norm_num)
        have := abs_nonneg a
        linarith

/-- The closing inequalities of the precision-doubling recursion. -/
theorem sqrt_close {E n a g g1 a1 g' η : ℚ} (hE0 : 0 < E) (hE : E ≤ 1 / 10 ^ 5) (hn0 : 0 < n) (hn : n ≤ 1 / 10 ^ 6) (hη0 : 0 < η)
    (hη : η ≤ E ^ 2 / 100 + n) (ha : |a| ≤ 43 / 100 * E + 14 * n) (hg : g ^ 2 ≤ 7 / 25 * E + n) (h1 : |g1| ≤ g ^ 2 + 15 * η)
    (h2 : |a1| ≤ |g1| * |a| + 3 / 10 * a ^ 2 + 27 / 2 * η) (h3 : |g'| ≤ |g1| + 53 / 100 * |a| + 7 * η) :
    |a1| ≤ 43 / 100 * E ^ 2 + 14 * n ∧ g' ^ 2 ≤ 7 / 25 * E ^ 2 + n ∧ |g'| ≤ 11 / 20 * E + 32 * n := by
  have hE2 : E ^ 2 ≤ 1 / 10 ^ 5 * E := by rw [pow_two]; exact mul_le_mul_of_nonneg_right hE hE0.le
  have hE20 : 0 < E ^ 2 := by positivity
  have g1b : |g1| ≤ 281 / 1000 * E + 16 * n := by linarith
  have a0 := abs_nonneg a
  have g0 := abs_nonneg g1
  have hEn : E * n ≤ 1 / 10 ^ 5 * n := mul_le_mul_of_nonneg_right hE hn0.le
  have hnn : n * n ≤ 1 / 10 ^ 6 * n := mul_le_mul_of_nonneg_right hn hn0.le
  have hp : |g1| * |a| ≤ (281 / 1000 * E + 16 * n) * (43 / 100 * E + 14 * n) := mul_le_mul g1b ha a0 (by positivity)
  have hsq : a ^ 2 ≤ (43 / 100 * E + 14 * n) ^ 2 := by
    rw [← sq_abs a]; exact pow_le_pow_left₀ a0 ha 2
  have hg'b : |g'| ≤ 511 / 1000 * E + 31 * n := by linarith
  refine ⟨?_, ?_, by linarith⟩
  · have e1 : (281 / 1000 * E + 16 * n) * (43 / 100 * E + 14 * n) = 281 * 43 / 100000 * E ^ 2 + (281 * 14 / 1000 + 16 * 43 / 100) * (E * n) + 224 * (n * n) := by ring
    have e2 : (43 / 100 * E + 14 * n) ^ 2 = 43 * 43 / 10000 * E ^ 2 + 2 * 43 * 14 / 100 * (E * n) + 196 * (n * n) := by ring
    rw [e1] at hp; rw [e2] at hsq
    linarith
  · have h4 : g' ^ 2 ≤ (511 / 1000 * E + 31 * n) ^ 2 := by
      rw [← sq_abs g']; exact pow_le_pow_left₀ (abs_nonneg _) hg'b 2
    have e1 : (511 / 1000 * E + 31 * n) ^ 2 = 511 * 511 / 1000000 * E ^ 2 + 2 * 511 * 31 / 1000 * (E * n) + 961 * (n * n) := by ring
    rw [e1] at h4
    linarith

end WD
