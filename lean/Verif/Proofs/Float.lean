import Verif.Model.Float
import Mathlib.Algebra.Order.Round
import Mathlib.Data.Int.Log
import Mathlib.Tactic.Linarith
import Mathlib.Tactic.Positivity
import Mathlib.Tactic.Ring
import Mathlib.Tactic.FieldSimp
import Mathlib.Tactic.NormNum
/-
  Round to nearest: a concrete instance, relative error, monotonicity, gaps.
-/
namespace WD

theorem p2_pos (e : ℤ) : (0 : ℚ) < 2 ^ e := by positivity

/-- A concrete rounding to `p` bits. -/
def roundBits (p : ℕ) (q : ℚ) : ℚ :=
  if q = 0 then 0 else round (q / (2 : ℚ) ^ (Int.log 2 |q| - p + 1)) * (2 : ℚ) ^ (Int.log 2 |q| - p + 1)

theorem log_bounds {q : ℚ} (h : q ≠ 0) : (2 : ℚ) ^ (Int.log 2 |q|) ≤ |q| ∧ |q| < (2 : ℚ) ^ (Int.log 2 |q| + 1) := by
  have h0 : 0 < |q| := abs_pos.mpr h
  exact ⟨by exact_mod_cast Int.zpow_log_le_self (by norm_num) h0, by exact_mod_cast Int.lt_zpow_succ_log_self (by norm_num) |q|⟩

theorem roundBits_rep (p : ℕ) (hp : 1 ≤ p) (q : ℚ) : RepF p (roundBits p q) := by
  unfold roundBits
  split
  · exact ⟨0, 0, by simp, by simp⟩
  · next h =>
    obtain ⟨h1, h2⟩ := log_bounds h
    set e := Int.log 2 |q|
    refine ⟨round (q / (2 : ℚ) ^ (e - p + 1)), e - p + 1, ?_, rfl⟩
    have hb : |q / (2 : ℚ) ^ (e - p + 1)| < 2 ^ p := by
      rw [abs_div, abs_of_pos (p2_pos _), div_lt_iff₀ (p2_pos _), ← zpow_natCast, ← zpow_add₀ (by norm_num)]
      rwa [show (p : ℤ) + (e - p + 1) = e + 1 by ring]
    rw [abs_lt] at hb
    have l : -(2 ^ p : ℤ) ≤ round (q / (2 : ℚ) ^ (e - p + 1)) := by
      have : (-(2 ^ p : ℤ) : ℤ) = round ((-(2 ^ p) : ℤ) : ℚ) := by rw [round_intCast]
      rw [this, round_eq, round_eq]
      apply Int.floor_le_floor
      push_cast; linarith [hb.1]
    have r : round (q / (2 : ℚ) ^ (e - p + 1)) ≤ (2 ^ p : ℤ) := by
      have : ((2 ^ p : ℤ) : ℤ) = round (((2 ^ p) : ℤ) : ℚ) := by rw [round_intCast]
      rw [this, round_eq, round_eq]
      apply Int.floor_le_floor
      push_cast; linarith [hb.2]
    exact abs_le.mpr ⟨l, r⟩

/-- The rounding error is at most half a unit. -/
theorem roundBits_err (p : ℕ) (q : ℚ) : |q - roundBits p q| ≤ |q| * (2 : ℚ) ^ (-(p : ℤ)) := by
  unfold roundBits
  split
  · next h => rw [h]; simp
  · next h =>
    obtain ⟨h1, h2⟩ := log_bounds h
    set e := Int.log 2 |q|
    have h3 := abs_sub_round (q / (2 : ℚ) ^ (e - p + 1))
    have h4 := p2_pos (e - p + 1)
    have h5 : |q - round (q / (2 : ℚ) ^ (e - p + 1)) * (2 : ℚ) ^ (e - p + 1)| =
        |q / (2 : ℚ) ^ (e - p + 1) - round (q / (2 : ℚ) ^ (e - p + 1))| * (2 : ℚ) ^ (e - p + 1) := by
      rw [← abs_of_pos h4, ← abs_mul, abs_of_pos h4, sub_mul, div_mul_cancel₀ _ h4.ne']
    rw [h5]
    calc _ ≤ 1 / 2 * (2 : ℚ) ^ (e - p + 1) := mul_le_mul_of_nonneg_right h3 h4.le
      _ = (2 : ℚ) ^ e * (2 : ℚ) ^ (-(p : ℤ)) := by
          rw [show e - (p : ℤ) + 1 = e + -(p : ℤ) + 1 by ring, zpow_add₀ (by norm_num), zpow_add₀ (by norm_num), zpow_one]; ring
      _ ≤ _ := mul_le_mul_of_nonneg_right h1 (p2_pos _).le

theorem roundBits_nearest (p : ℕ) (hp : 1 ≤ p) (q f : ℚ) (hf : RepF p f) : |q - roundBits p q| ≤ |q - f| := by
  unfold roundBits
  split
  · next h => rw [h]; simp
  · next h =>
    obtain ⟨h1, h2⟩ := log_bounds h
    set e := Int.log 2 |q|
    have h4 := p2_pos (e - p + 1)
    have near : ∀ z : ℤ, |q - round (q / (2 : ℚ) ^ (e - p + 1)) * (2 : ℚ) ^ (e - p + 1)| ≤ |q - z * (2 : ℚ) ^ (e - p + 1)| := by
      intro z
      have h3 := round_le (q / (2 : ℚ) ^ (e - p + 1)) z
      have h5 : ∀ w : ℤ, |q - w * (2 : ℚ) ^ (e - p + 1)| = |q / (2 : ℚ) ^ (e - p + 1) - w| * (2 : ℚ) ^ (e - p + 1) := by
        intro w
        rw [← abs_of_pos h4, ← abs_mul, abs_of_pos h4, sub_mul, div_mul_cancel₀ _ h4.ne']
      rw [h5, h5]
      exact mul_le_mul_of_nonneg_right h3 h4.le
    obtain ⟨m, k, hm, rfl⟩ := hf
    by_cases hk : e - p + 1 ≤ k
    · obtain ⟨j, hj⟩ := Int.eq_ofNat_of_zero_le (show 0 ≤ k - (e - p + 1) by omega)
      have hk' : k = (j : ℤ) + (e - p + 1) := by omega
      have := near (m * 2 ^ j)
      have e2 : (m : ℚ) * 2 ^ k = ((m * 2 ^ j : ℤ) : ℚ) * 2 ^ (e - p + 1) := by
        rw [hk', zpow_add₀ (by norm_num), ← mul_assoc, zpow_natCast]; push_cast; rfl
      rw [e2]; exact this
    · have hle : |(m : ℚ) * 2 ^ k| ≤ 2 ^ e := by
        rw [abs_mul, abs_of_pos (p2_pos k)]
        have h6 : |(m : ℚ)| ≤ 2 ^ p := by rw [← Int.cast_abs]; exact_mod_cast hm
        calc |(m : ℚ)| * 2 ^ k ≤ 2 ^ p * 2 ^ k := mul_le_mul_of_nonneg_right h6 (p2_pos _).le
          _ = (2 : ℚ) ^ ((p : ℤ) + k) := by rw [zpow_add₀ (by norm_num), zpow_natCast]
          _ ≤ 2 ^ e := zpow_le_zpow_right₀ (by norm_num) (by omega)
      have hpe : (2 : ℚ) ^ e = ((2 ^ (p - 1) : ℤ) : ℚ) * (2 : ℚ) ^ (e - p + 1) := by
        push_cast
        rw [← zpow_natCast, ← zpow_add₀ (by norm_num)]
        congr 1; omega
      rcases le_or_gt 0 q with hq | hq
      · have := near (2 ^ (p - 1))
        rw [← hpe] at this
        refine le_trans this ?_
        rw [abs_of_nonneg hq] at h1
        rw [abs_of_nonneg (by linarith)]
        have h7 := abs_le.mp hle
        refine le_trans ?_ (le_abs_self _)
        linarith
      · have := near (-(2 ^ (p - 1)))
        rw [Int.cast_neg, neg_mul, ← hpe] at this
        refine le_trans this ?_
        rw [abs_of_neg hq] at h1
        rw [abs_of_nonpos (by linarith)]
        have h7 := abs_le.mp hle
        refine le_trans ?_ (neg_le_abs _)
        linarith

/-- The type `float`. -/
def exFloat : Flt := ⟨24, 6, 9, roundBits 24, roundBits_rep 24 (by norm_num), roundBits_nearest 24 (by norm_num)⟩
/-- The type `double`. -/
def exDouble : Flt := ⟨53, 15, 17, roundBits 53, roundBits_rep 53 (by norm_num), roundBits_nearest 53 (by norm_num)⟩

namespace Flt
variable (F : Flt)

/-- The unit roundoff. -/
def u : ℚ := (2 : ℚ) ^ (-(F.p : ℤ))

theorem u_pos : 0 < F.u := p2_pos _

theorem rnd_eq {f : ℚ} (h : RepF F.p f) : F.rnd f = f := by
  have := F.nearest f f h
  rw [sub_self, abs_zero] at this
  have := abs_eq_zero.mp (le_antisymm this (abs_nonneg _))
  linarith

theorem rnd_zero : F.rnd 0 = 0 := F.rnd_eq ⟨0, 0, by simp, by simp⟩

theorem rnd_err (hp : 1 ≤ F.p) (q : ℚ) : |q - F.rnd q| ≤ |q| * F.u :=
  le_trans (F.nearest q _ (roundBits_rep F.p hp q)) (roundBits_err F.p q)

theorem rnd_mono {q r : ℚ} (h : q ≤ r) : F.rnd q ≤ F.rnd r := by
  rcases eq_or_lt_of_le h with rfl | h
  · exact le_refl _
  by_contra hc
  push_neg at hc
  have h1 := F.nearest q _ (F.rep r)
  have h2 := F.nearest r _ (F.rep q)
  set a := F.rnd q
  set b := F.rnd r
  -- both are on the wrong side of the midpoint
  have m1 : (a + b) / 2 ≤ q := by
    by_contra hm
    push_neg at hm
    rcases le_or_gt b q with hb | hb
    · rw [abs_of_nonneg (by linarith : 0 ≤ q - b), abs_of_neg (by linarith)] at h1; linarith
    · rw [abs_of_neg (by linarith : q - b < 0), abs_of_neg (by linarith)] at h1; linarith
  have m2 : r ≤ (a + b) / 2 := by
    by_contra hm
    push_neg at hm
    rcases le_or_gt r a with ha | ha
    · rw [abs_of_nonpos (by linarith : r - a ≤ 0), abs_of_nonneg (by linarith)] at h2; linarith
    · rw [abs_of_pos (by linarith : 0 < r - a), abs_of_pos (by linarith)] at h2; linarith
  linarith

theorem rnd_nonneg {q : ℚ} (h : 0 ≤ q) : 0 ≤ F.rnd q := by
  have := F.rnd_mono h
  rwa [F.rnd_zero] at this

/-- Rounding down to below a representable bound. -/
theorem rnd_lt (hp : 1 ≤ F.p) {q T : ℚ} (hq : 0 ≤ q) (hT : 0 < T) (h : q ≤ T * (1 - F.u)) : F.rnd q < T := by
  have h1 := F.rnd_err hp q
  rw [abs_of_nonneg hq] at h1
  have h2 := (abs_le.mp h1).1
  have hu := F.u_pos
  have h3 : F.rnd q ≤ q * (1 + F.u) := by linarith
  have h4 : q * (1 + F.u) ≤ T * (1 - F.u) * (1 + F.u) := mul_le_mul_of_nonneg_right h (by linarith)
  have h5 : 0 < T * (F.u * F.u) := by positivity
  nlinarith

/-- The gap below a representable number. -/
theorem gap (hp : 1 ≤ F.p) {x T : ℚ} (hx : RepF F.p x) (hT : RepF F.p T) (h0 : 0 < T) (h : x < T) : x ≤ T * (1 - F.u) := by
  obtain ⟨M0, j0, hM0, rfl⟩ := hT
  have hM0p : 0 < M0 := by
    by_contra hc
    push_neg at hc
    have : (M0 : ℚ) ≤ 0 := by exact_mod_cast hc
    have := mul_nonpos_of_nonpos_of_nonneg this (p2_pos j0).le
    linarith
  rw [abs_of_pos hM0p] at hM0
  -- normalise the significand
  obtain ⟨M, j, hM1, hM2, hMe⟩ : ∃ M j : ℤ, 2 ^ F.p ≤ 2 * M ∧ M ≤ 2 ^ F.p ∧ (M0 : ℚ) * 2 ^ j0 = M * 2 ^ j := by
    have : ∀ (n : ℕ) (M : ℤ) (j : ℤ), 0 < M → M ≤ 2 ^ F.p → (2 ^ F.p - M).toNat ≤ n →
        ∃ M' j' : ℤ, 2 ^ F.p ≤ 2 * M' ∧ M' ≤ 2 ^ F.p ∧ (M : ℚ) * 2 ^ j = M' * 2 ^ j' := by
      intro n
      induction n with
      | zero => intro M j h1 h2 h3; exact ⟨M, j, by omega, h2, rfl⟩
      | succ n ih =>
        intro M j h1 h2 h3
        by_cases hc : 2 ^ F.p ≤ 2 * M
        · exact ⟨M, j, hc, h2, rfl⟩
        · obtain ⟨M', j', a, b, e⟩ := ih (2 * M) (j - 1) (by omega) (by omega) (by omega)
          refine ⟨M', j', a, b, ?_⟩
          rw [← e, zpow_sub₀ (by norm_num)]
          push_cast; ring
    exact this _ M0 j0 hM0p hM0 (le_refl _)
  rw [hMe] at h h0 ⊢
  have hu : F.u = 1 / 2 ^ F.p := by unfold u; rw [zpow_neg, zpow_natCast, one_div]
  have hMq : (M : ℚ) ≤ 2 ^ F.p := by exact_mod_cast hM2
  have hP : (0 : ℚ) < 2 ^ F.p := by positivity
  have hMu : (M : ℚ) * F.u ≤ 1 := by rw [hu, mul_one_div, div_le_one hP]; exact hMq
  obtain ⟨m, k, hm, rfl⟩ := hx
  have hj := p2_pos j
  rcases le_or_gt j k with hk | hk
  · -- a multiple of the last place
    obtain ⟨i, hi⟩ := Int.eq_ofNat_of_zero_le (show 0 ≤ k - j by omega)
    have hk' : k = (i : ℤ) + j := by omega
    have e : (m : ℚ) * 2 ^ k = ((m * 2 ^ i : ℤ) : ℚ) * 2 ^ j := by
      rw [hk', zpow_add₀ (by norm_num), ← mul_assoc]; push_cast; simp
    rw [e] at h ⊢
    have h1 : (((m * 2 ^ i : ℤ)) : ℚ) < M := lt_of_mul_lt_mul_right h hj.le
    have h2 : m * 2 ^ i + 1 ≤ M := by exact_mod_cast h1
    have h3 : (((m * 2 ^ i : ℤ)) : ℚ) + 1 ≤ M := by exact_mod_cast h2
    calc _ ≤ ((M : ℚ) - M * F.u) * 2 ^ j := mul_le_mul_of_nonneg_right (by linarith) hj.le
      _ = _ := by ring
  · -- a finer number
    have hmq : (m : ℚ) ≤ 2 ^ F.p := by
      have := (abs_le.mp hm).2
      exact_mod_cast this
    have hM1q : (2 : ℚ) ^ F.p ≤ 2 * M := by exact_mod_cast hM1
    have hk1 : (2 : ℚ) ^ j = 2 * 2 ^ (j - 1) := by
      rw [zpow_sub₀ (by norm_num)]; norm_num; ring
    have hj1 := p2_pos (j - 1)
    rcases eq_or_lt_of_le hM1 with he | hl
    · -- a power of two
      have heq : (2 : ℚ) ^ F.p = 2 * M := by exact_mod_cast he
      obtain ⟨i, hi⟩ := Int.eq_ofNat_of_zero_le (show 0 ≤ j - 1 - k by omega)
      have hj' : (2 : ℚ) ^ (j - 1) = 2 ^ i * 2 ^ k := by
        rw [show j - 1 = (i : ℤ) + k by omega, zpow_add₀ (by norm_num), zpow_natCast]
      have hkp := p2_pos k
      have h1 : (m : ℚ) * 2 ^ k < ((2 * M * 2 ^ i : ℤ) : ℚ) * 2 ^ k := by
        rw [hk1, hj'] at h
        push_cast
        linarith
      have h2 : (m : ℚ) < ((2 * M * 2 ^ i : ℤ) : ℚ) := lt_of_mul_lt_mul_right h1 hkp.le
      have h3 : m + 1 ≤ 2 * M * 2 ^ i := by exact_mod_cast h2
      have h4 : (m : ℚ) + 1 ≤ 2 * M * 2 ^ i := by exact_mod_cast h3
      have hM0q : (M : ℚ) ≠ 0 := by
        intro h0'; rw [h0', mul_zero] at heq; linarith
      have h5 : M * F.u = 1 / 2 := by rw [hu, heq]; field_simp
      -- either the finest scale, or m ≤ 2^p leaves room
      have h6 : (m : ℚ) ≤ (2 * M - 1) * 2 ^ i := by
        rcases Nat.eq_zero_or_pos i with hi0 | hi0
        · subst hi0; simp at h4 ⊢; linarith
        · have h7 : (2 : ℚ) ≤ 2 ^ i := by
            calc (2 : ℚ) = 2 ^ 1 := by norm_num
              _ ≤ 2 ^ i := pow_le_pow_right₀ (by norm_num) hi0
          have hpp : (0 : ℤ) < 2 ^ F.p := by positivity
          have h8 : (1 : ℚ) ≤ M := by exact_mod_cast (show 1 ≤ M by omega)
          have : (2 * (M : ℚ) - 1) * 2 ≤ (2 * M - 1) * 2 ^ i := mul_le_mul_of_nonneg_left h7 (by linarith)
          linarith
      calc (m : ℚ) * 2 ^ k ≤ (2 * M - 1) * 2 ^ i * 2 ^ k := mul_le_mul_of_nonneg_right h6 hkp.le
        _ = (2 * M - 1) * 2 ^ (j - 1) := by rw [hj']; ring
        _ = (M - M * F.u) * 2 ^ j := by rw [h5, hk1]; ring
        _ = _ := by ring
    · have h1 : (2 : ℚ) ^ F.p + 1 ≤ 2 * M := by exact_mod_cast hl
      have hk2 : (2 : ℚ) ^ k ≤ 2 ^ (j - 1) := zpow_le_zpow_right₀ (by norm_num) (by omega)
      -- 2^p is even
      have h2 : (2 : ℚ) ^ F.p + 2 ≤ 2 * M := by
        obtain ⟨q, hq⟩ : ∃ q, F.p = q + 1 := ⟨F.p - 1, by omega⟩
        have : (2 : ℤ) ^ F.p = 2 * 2 ^ q := by rw [hq]; ring
        have : (2 : ℤ) ^ F.p + 2 ≤ 2 * M := by omega
        exact_mod_cast this
      calc (m : ℚ) * 2 ^ k ≤ 2 ^ F.p * 2 ^ k := mul_le_mul_of_nonneg_right hmq (p2_pos _).le
        _ ≤ 2 ^ F.p * 2 ^ (j - 1) := mul_le_mul_of_nonneg_left hk2 hP.le
        _ ≤ (2 * M - 2) * 2 ^ (j - 1) := mul_le_mul_of_nonneg_right (by linarith) hj1.le
        _ = (M - 1) * 2 ^ j := by rw [hk1]; ring
        _ ≤ (M - M * F.u) * 2 ^ j := mul_le_mul_of_nonneg_right (by linarith) hj.le
        _ = _ := by ring

end Flt
end WD
