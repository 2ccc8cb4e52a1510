import Mathlib.Tactic.Linarith
import Mathlib.Tactic.Positivity
import Mathlib.Tactic.FieldSimp
import Mathlib.Tactic.Ring
import Mathlib.Algebra.Order.Field.Rat
import Mathlib.Algebra.Order.Ring.Pow
import Mathlib.Algebra.Order.Ring.Abs
/-
  The numerics of one Newton round for the inverse p-th root.
-/
namespace WD

theorem pow_lower {z : ℚ} {p : ℕ} (hp : 2 ≤ p) (hz : (p : ℚ) * |z| ≤ 1 / 2) :
    1 + p * z + 2 * (p * (p - 1)) / 5 * z ^ 2 ≤ (1 + z) ^ p := by
  induction p, hp using Nat.le_induction with
  | base => push_cast; nlinarith [sq_nonneg z]
  | succ p hp ih =>
    push_cast at hz ⊢
    have hp2 : (2 : ℚ) ≤ p := by exact_mod_cast hp
    have ha := abs_nonneg z
    have h1 := ih (by linarith)
    have hz1 : |z| ≤ 1 / 6 := by nlinarith
    obtain ⟨z1, z2⟩ := abs_le.mp hz1
    have h2 := mul_le_mul_of_nonneg_right h1 (show 0 ≤ 1 + z by linarith)
    rw [← pow_succ] at h2
    refine le_trans ?_ h2
    have h3 : ((p : ℚ) - 1) * |z| ≤ 1 / 2 := by nlinarith
    have h4 : -(1 / 2) ≤ ((p : ℚ) - 1) * z := by
      have := mul_le_mul_of_nonneg_left (neg_abs_le z) (show 0 ≤ (p : ℚ) - 1 by linarith)
      linarith
    have h5 : 0 ≤ (p : ℚ) * z ^ 2 := by positivity
    have h6 := mul_le_mul_of_nonneg_left h4 h5
    linarith

theorem pow_upper {z : ℚ} (p : ℕ) (hz : (p : ℚ) * |z| ≤ 1 / 2) (hz1 : |z| ≤ 1 / 2) : (1 + z) ^ p * (1 - p * z) ≤ 1 := by
  obtain ⟨z1, z2⟩ := abs_le.mp hz1
  have h1 : 1 + (p : ℚ) * (-z) ≤ (1 + -z) ^ p := one_add_mul_le_pow (by linarith) p
  have h2 : (1 + z) ^ p * (1 - p * z) ≤ (1 + z) ^ p * (1 + -z) ^ p :=
    mul_le_mul_of_nonneg_left (by linarith) (pow_nonneg (by linarith) _)
  rw [← mul_pow] at h2
  refine h2.trans (pow_le_one₀ ?_ ?_)
  · exact mul_nonneg (by linarith) (by linarith)
  · nlinarith [sq_nonneg z]

/-- The quadratic convergence. -/
theorem rootn_conv {y z δ κ : ℚ} {p : ℕ} (hp : 3 ≤ p) (hy : y = 1 - δ) (hδ : |δ| ≤ 1 / 10 ^ 6) (hκ : κ ≤ 1 / 10 ^ 6) (hZ : |p * z - δ| ≤ κ) :
    |y * (1 + z) ^ p - 1| ≤ 74 / 100 * δ ^ 2 + 10001 / 10000 * κ := by
  have hp3 : (3 : ℚ) ≤ p := by exact_mod_cast hp
  obtain ⟨d1, d2⟩ := abs_le.mp hδ
  obtain ⟨e1, e2⟩ := abs_le.mp hZ
  have hκ0 : 0 ≤ κ := (abs_nonneg _).trans hZ
  have hZ1 : |(p : ℚ) * z| ≤ 2 / 10 ^ 6 := by rw [abs_le]; constructor <;> linarith
  have hpz : (p : ℚ) * |z| ≤ 2 / 10 ^ 6 := by
    rw [abs_mul, abs_of_nonneg (by linarith : (0 : ℚ) ≤ p)] at hZ1; exact hZ1
  have ha := abs_nonneg z
  have hz1 : |z| ≤ 2 / 10 ^ 6 := by nlinarith
  have hl := pow_lower (p := p) (z := z) (by omega) (by linarith)
  have hu := pow_upper (z := z) p (by linarith) (by linarith)
  obtain ⟨Z, hZd⟩ : ∃ Z, Z = (p : ℚ) * z := ⟨_, rfl⟩
  rw [← hZd] at hl hu e1 e2 hZ1
  obtain ⟨Z1, Z2⟩ := abs_le.mp hZ1
  have hw0 : 0 ≤ (1 + z) ^ p := pow_nonneg (by linarith [(abs_le.mp hz1).1]) _
  have hc : 4 / 15 * Z ^ 2 ≤ 2 * ((p : ℚ) * (p - 1)) / 5 * z ^ 2 := by
    have e : 2 * ((p : ℚ) * (p - 1)) / 5 * z ^ 2 - 4 / 15 * Z ^ 2 = 2 / 15 * (p * (p - 3)) * z ^ 2 := by rw [hZd]; ring
    have : 0 ≤ 2 / 15 * ((p : ℚ) * (p - 3)) * z ^ 2 := by
      apply mul_nonneg _ (sq_nonneg _)
      apply mul_nonneg (by norm_num) (mul_nonneg (by linarith) (by linarith))
    linarith
  generalize (1 + z) ^ p = w at *
  clear hz1 hpz hZd hp ha
  have hsq := sq_nonneg δ
  rw [hy, abs_le]
  constructor
  · have h1 : 1 + Z + 4 / 15 * Z ^ 2 ≤ w := by linarith
    have h2 := mul_le_mul_of_nonneg_left h1 (show 0 ≤ 1 - δ by linarith)
    obtain ⟨ε, hε⟩ : ∃ ε, Z = δ + ε := ⟨Z - δ, by ring⟩
    have e3 : |ε| ≤ κ := by rw [abs_le]; constructor <;> linarith
    have e4 : |δ * ε| ≤ 1 / 10 ^ 6 * κ := by rw [abs_mul]; exact mul_le_mul hδ e3 (abs_nonneg _) (by norm_num)
    have e5 := abs_le.mp e4
    have hZs : δ ^ 2 + 2 * (δ * ε) ≤ Z ^ 2 := by rw [hε]; nlinarith [sq_nonneg ε]
    have hZ0 := sq_nonneg Z
    have h3 : Z ^ 2 * δ ≤ Z ^ 2 * (1 / 10 ^ 6) := mul_le_mul_of_nonneg_left d2 hZ0
    have h4 : (1 - δ) * (1 + Z + 4 / 15 * Z ^ 2) = 1 - δ ^ 2 + ε - δ * ε + 4 / 15 * Z ^ 2 - 4 / 15 * (Z ^ 2 * δ) := by rw [hε]; ring
    linarith [e5.1, e5.2]
  · skip
    -- (1-δ) w ≤ 1 + (Z-δ)/(1-Z)
    have h3 : (1 - δ) * (w * (1 - Z)) ≤ (1 - δ) * 1 := mul_le_mul_of_nonneg_left hu (by linarith)
    have h4 : (1 - Z) * ((1 - δ) * w - 1) ≤ κ := by linarith
    by_contra hcn
    push Not at hcn
    have hpos : 0 < (1 - δ) * w - 1 := by linarith
    have h5 : (1 - 2 / 10 ^ 6) * ((1 - δ) * w - 1) ≤ (1 - Z) * ((1 - δ) * w - 1) := mul_le_mul_of_nonneg_right (by linarith) hpos.le
    linarith

set_option maxHeartbeats 2000000 in
/-- One round of the iteration, all rounding errors included. -/
theorem rootn_num {p : ℕ} (hp : 3 ≤ p) {B η δ r x P T h d t r' : ℚ} (hη : 0 < η) (hpη : p * η ≤ 1 / 10 ^ 14) (hδ : |δ| ≤ 1 / 10 ^ 12)
    (hB0 : 0 ≤ B) (hB : B ≤ 10 ^ 8) (hr : 0 < r) (hx : 0 < x) (hy : x * r ^ p = 1 - δ)
    (hP1 : r ^ p * (1 - 3 * η) ^ (p - 1) ≤ P) (hP2 : P ≤ r ^ p * (1 + 3 * η) ^ (p - 1))
    (hT : |T + P * x| ≤ 3 * η * (P * x)) (hh : |h - (T + 1)| ≤ 3 * (max |T| 1 * η))
    (hd : |d - h / p| ≤ 2 * p * B * η * (|h| / p)) (ht : |t - (d + 1)| ≤ 3 * (max |d| 1 * η)) (hr' : |r' - r * t| ≤ 3 * η * (r * |t|)) :
    |x * r' ^ p - 1| ≤ 74 / 100 * δ ^ 2 + 1002 / 100 * (p * η) := by
  have hp3 : (3 : ℚ) ≤ p := by exact_mod_cast hp
  obtain ⟨d1, d2⟩ := abs_le.mp hδ
  have hη1 : η ≤ 1 / (3 * 10 ^ 14) := by
    have := mul_le_mul_of_nonneg_right hp3 hη.le
    linarith
  -- P x
  have hq1 : 1 - 3 * ((p : ℚ) - 1) * η ≤ (1 - 3 * η) ^ (p - 1) := by
    have := one_add_mul_le_pow (show (-2 : ℚ) ≤ -(3 * η) by linarith) (p - 1)
    rw [Nat.cast_sub (by omega), Nat.cast_one] at this
    have e : (1 : ℚ) + -(3 * η) = 1 - 3 * η := by ring
    rw [e] at this; linarith
  have hq2 : (1 + 3 * η) ^ (p - 1) ≤ 1 + 3001 / 1000 * ((p : ℚ) - 1) * η := by
    have ha : |3 * η| = 3 * η := abs_of_pos (by linarith)
    have e1 : ((p - 1 : ℕ) : ℚ) = p - 1 := by rw [Nat.cast_sub (by omega), Nat.cast_one]
    have := pow_upper (z := 3 * η) (p - 1) (by rw [ha, e1]; nlinarith) (by rw [ha]; linarith)
    rw [e1] at this
    obtain ⟨s, hs⟩ : ∃ s, s = ((p : ℚ) - 1) * η := ⟨_, rfl⟩
    have hs0 : 0 ≤ s := by rw [hs]; exact mul_nonneg (by linarith) hη.le
    have hs1 : s ≤ 1 / 10 ^ 14 := by rw [hs]; nlinarith
    have e2 : ((p : ℚ) - 1) * (3 * η) = 3 * s := by rw [hs]; ring
    have e3 : 3001 / 1000 * ((p : ℚ) - 1) * η = 3001 / 1000 * s := by rw [hs]; ring
    rw [e2] at this
    rw [e3]
    have hw0 : 0 ≤ (1 + 3 * η) ^ (p - 1) := pow_nonneg (by linarith) _
    generalize (1 + 3 * η) ^ (p - 1) = w at *
    by_contra hc
    push Not at hc
    have h2 : (1 + 3001 / 1000 * s) * (1 - 3 * s) < w * (1 - 3 * s) := mul_lt_mul_of_pos_right hc (by linarith)
    nlinarith [mul_nonneg hs0 hs0]
  have hR : 0 < r ^ p := pow_pos hr p
  have hx1 : x * (r ^ p * (1 - 3 * η) ^ (p - 1)) ≤ x * P := mul_le_mul_of_nonneg_left hP1 hx.le
  have hx2 : x * P ≤ x * (r ^ p * (1 + 3 * η) ^ (p - 1)) := mul_le_mul_of_nonneg_left hP2 hx.le
  rw [← mul_assoc, hy] at hx1 hx2
  obtain ⟨s, hs⟩ : ∃ s, s = (p : ℚ) * η := ⟨_, rfl⟩
  have hs3 : 3 * η ≤ s := by rw [hs]; exact mul_le_mul_of_nonneg_right hp3 hη.le
  rw [← hs] at hpη ⊢
  have hq1' : 1 - 3 * s + 3 * η ≤ (1 - 3 * η) ^ (p - 1) := by rw [hs]; linarith
  have hq2' : (1 + 3 * η) ^ (p - 1) ≤ 1 + 3001 / 1000 * s - 3001 / 1000 * η := by rw [hs]; linarith
  have hY0 : 0 < 1 - δ := by linarith
  have g1 : (1 - δ) * (1 - 3 * s + 3 * η) ≤ x * P := le_trans (mul_le_mul_of_nonneg_left hq1' hY0.le) hx1
  have g2 : x * P ≤ (1 - δ) * (1 + 3001 / 1000 * s - 3001 / 1000 * η) := le_trans hx2 (mul_le_mul_of_nonneg_left hq2' hY0.le)
  have g1' : 1 - δ - 3001 / 1000 * s + 3 * η - 1 / 10 ^ 6 * η ≤ x * P := by
    refine le_trans ?_ g1
    have e : (1 - δ) * (1 - 3 * s + 3 * η) = 1 - δ - 3 * s + 3 * η + δ * (3 * s - 3 * η) := by ring
    rw [e]
    have : -(1 / 10 ^ 12) * (3 * s - 3 * η) ≤ δ * (3 * s - 3 * η) := mul_le_mul_of_nonneg_right d1 (by linarith)
    linarith
  have g2' : x * P ≤ 1 - δ + 30011 / 10000 * s - 3 * η := by
    refine le_trans g2 ?_
    have e : (1 - δ) * (1 + 3001 / 1000 * s - 3001 / 1000 * η) = 1 - δ + 3001 / 1000 * s - 3001 / 1000 * η - δ * (3001 / 1000 * s - 3001 / 1000 * η) := by ring
    rw [e]
    have : -(1 / 10 ^ 12) * (3001 / 1000 * s - 3001 / 1000 * η) ≤ δ * (3001 / 1000 * s - 3001 / 1000 * η) := mul_le_mul_of_nonneg_right d1 (by linarith)
    linarith
  rw [mul_comm] at g1' g2'
  obtain ⟨T1, T2⟩ := abs_le.mp hT
  have hPx0 : 0 < P * x := by linarith
  have hPx1 : P * x ≤ 10001 / 10000 := by linarith
  have hPxη : η * (P * x) ≤ η * (10001 / 10000) := mul_le_mul_of_nonneg_left hPx1 hη.le
  have hTa : |T| ≤ 10002 / 10000 := by rw [abs_le]; constructor <;> linarith
  have hTm : max |T| 1 * η ≤ 10002 / 10000 * η := mul_le_mul_of_nonneg_right (max_le hTa (by norm_num)) hη.le
  obtain ⟨H1, H2⟩ := abs_le.mp hh
  -- h
  have hhδ : |h - δ| ≤ 4002 / 1000 * s := by rw [abs_le]; constructor <;> linarith
  obtain ⟨K1, K2⟩ := abs_le.mp hhδ
  have hha : |h| ≤ 105 / 10 ^ 14 := by rw [abs_le]; constructor <;> linarith
  have hnp : (0 : ℚ) < p := by linarith
  have hd' : |d - h / p| ≤ 1 / 1000 * η := by
    refine hd.trans ?_
    have e : 2 * (p : ℚ) * B * η * (|h| / p) = 2 * (B * |h|) * η := by field_simp
    rw [e]
    have : B * |h| ≤ 10 ^ 8 * (105 / 10 ^ 14) := mul_le_mul hB hha (abs_nonneg _) (by norm_num)
    apply mul_le_mul_of_nonneg_right _ hη.le
    linarith
  -- multiply everything by p
  have hpd : |p * d - h| ≤ 1 / 1000 * s := by
    have e : p * d - h = p * (d - h / p) := by field_simp
    rw [e, abs_mul, abs_of_pos hnp, hs]
    have := mul_le_mul_of_nonneg_left hd' hnp.le
    linarith
  obtain ⟨D1, D2⟩ := abs_le.mp hpd
  have hda : |d| ≤ 1 / 10 ^ 6 := by
    have : (p : ℚ) * |d| ≤ 1 / 10 ^ 6 := by
      rw [← abs_of_pos hnp, ← abs_mul, abs_le]; constructor <;> linarith
    have h3 := mul_le_mul_of_nonneg_right hp3 (abs_nonneg d)
    have h4 := abs_nonneg d
    linarith
  rw [max_eq_right (by linarith), one_mul] at ht
  obtain ⟨t1, t2⟩ := abs_le.mp ht
  obtain ⟨dd1, dd2⟩ := abs_le.mp hda
  have hta : |t| ≤ 10001 / 10000 := by rw [abs_le]; constructor <;> linarith
  obtain ⟨z, hz⟩ : ∃ z, r' = r * (1 + z) := ⟨r' / r - 1, by field_simp; ring⟩
  have hzt : |1 + z - t| ≤ 30003 / 10000 * η := by
    have e : r' - r * t = r * (1 + z - t) := by rw [hz]; ring
    rw [e, abs_mul, abs_of_pos hr] at hr'
    have e2 : 3 * η * (r * |t|) = r * (3 * η * |t|) := by ring
    rw [e2] at hr'
    have := le_of_mul_le_mul_left hr' hr
    have h3 : 3 * η * |t| ≤ 3 * η * (10001 / 10000) := mul_le_mul_of_nonneg_left hta (by linarith)
    linarith
  obtain ⟨z1, z2⟩ := abs_le.mp hzt
  have hzd : |z - d| ≤ 60004 / 10000 * η := by rw [abs_le]; constructor <;> linarith
  have hpzd : |p * z - p * d| ≤ 60004 / 10000 * s := by
    rw [← mul_sub, abs_mul, abs_of_pos hnp, hs]
    have := mul_le_mul_of_nonneg_left hzd hnp.le
    linarith
  obtain ⟨w1, w2⟩ := abs_le.mp hpzd
  have hZ : |p * z - δ| ≤ 1001 / 100 * s := by rw [abs_le]; constructor <;> linarith
  have hfin := rootn_conv hp hy (by linarith) (by linarith) hZ
  have e : x * r' ^ p = x * r ^ p * (1 + z) ^ p := by rw [hz, mul_pow]; ring
  rw [e]
  refine hfin.trans ?_
  linarith

end WD
