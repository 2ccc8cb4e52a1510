import Verif.Proofs.FftErrA
import Verif.Proofs.Float
/-
  The sine table of the FFT, and the operations of a floating-point type.
-/
namespace WD

def sinLo (k : ℕ) : ℚ := sinTable.getD (k - 1) 0 * (1 - 2 * k / 10 ^ 40)
def sinHi (k : ℕ) : ℚ := sinTable.getD (k - 1) 0 * (1 + 2 * k / 10 ^ 40)

theorem sin_checks : sinLo 2 ^ 2 ≤ 1 / 2 ∧ 1 / 2 ≤ sinHi 2 ^ 2 ∧ 0 < sinLo 2 ∧ ∀ i ∈ List.range 29,
    4 * sinLo (i + 3) ^ 2 * (1 - sinLo (i + 3) ^ 2) ≤ sinLo (i + 2) ^ 2 ∧ sinHi (i + 2) ^ 2 ≤ 4 * sinHi (i + 3) ^ 2 * (1 - sinHi (i + 3) ^ 2) ∧
    sinHi (i + 3) ^ 2 ≤ 1 / 2 ∧ sinLo (i + 3) ^ 2 ≤ 1 / 2 ∧ 0 < sinLo (i + 3) ∧ 0 < sinHi (i + 3) := by decide +kernel

theorem f_mono {x y : ℝ} (hx : 0 ≤ x) (hxy : x < y) (hy : y ^ 2 ≤ 1 / 2) : 4 * x ^ 2 * (1 - x ^ 2) < 4 * y ^ 2 * (1 - y ^ 2) := by
  have h1 : x ^ 2 < y ^ 2 := pow_lt_pow_left₀ hxy hx (by norm_num)
  nlinarith

theorem sin_double (k : ℕ) : Real.sin (Real.pi / (2 ^ k : ℕ)) ^ 2 =
    4 * Real.sin (Real.pi / (2 ^ (k + 1) : ℕ)) ^ 2 * (1 - Real.sin (Real.pi / (2 ^ (k + 1) : ℕ)) ^ 2) := by
  have e : Real.pi / (2 ^ k : ℕ) = 2 * (Real.pi / (2 ^ (k + 1) : ℕ)) := by push_cast; rw [pow_succ]; field_simp
  rw [e, Real.sin_two_mul]
  have := Real.sin_sq_add_cos_sq (Real.pi / (2 ^ (k + 1) : ℕ))
  have e2 : 1 - Real.sin (Real.pi / (2 ^ (k + 1) : ℕ)) ^ 2 = Real.cos (Real.pi / (2 ^ (k + 1) : ℕ)) ^ 2 := by linarith
  rw [e2]; ring

theorem sin_small {k : ℕ} (hk : 1 ≤ k) : Real.sin (Real.pi / (2 ^ (k + 1) : ℕ)) ^ 2 ≤ 1 / 2 ∧ 0 < Real.sin (Real.pi / (2 ^ (k + 1) : ℕ)) := by
  have hpi := Real.pi_pos
  have h2 : (2:ℝ) ≤ (2 ^ k : ℕ) := by
    have : 2 ^ 1 ≤ 2 ^ k := Nat.pow_le_pow_right (by norm_num) hk
    exact_mod_cast this
  constructor
  · have e : Real.pi / (2 ^ k : ℕ) = 2 * (Real.pi / (2 ^ (k + 1) : ℕ)) := by push_cast; rw [pow_succ]; field_simp
    have hc : 0 ≤ Real.cos (Real.pi / (2 ^ k : ℕ)) := by
      apply Real.cos_nonneg_of_mem_Icc
      constructor
      · have : 0 ≤ Real.pi / (2 ^ k : ℕ) := by positivity
        linarith
      · rw [div_le_div_iff₀ (by linarith) (by norm_num)]
        nlinarith
    rw [e, Real.cos_two_mul] at hc
    have := Real.sin_sq_add_cos_sq (Real.pi / (2 ^ (k + 1) : ℕ))
    linarith
  · apply Real.sin_pos_of_pos_of_lt_pi (by positivity)
    rw [div_lt_iff₀ (by positivity)]
    have : (2:ℝ) ≤ (2 ^ (k + 1) : ℕ) := by
      have : 2 ^ 1 ≤ 2 ^ (k + 1) := Nat.pow_le_pow_right (by norm_num) (by omega)
      exact_mod_cast this
    nlinarith

theorem sin_bounds (i : ℕ) (hi : i ≤ 29) : (sinLo (i + 2) : ℝ) ≤ Real.sin (Real.pi / (2 ^ (i + 2) : ℕ)) ∧ Real.sin (Real.pi / (2 ^ (i + 2) : ℕ)) ≤ sinHi (i + 2) := by
  obtain ⟨c1, c2, c3, c4⟩ := sin_checks
  induction i with
  | zero =>
    have e : Real.sin (Real.pi / (2 ^ (0 + 2) : ℕ)) ^ 2 = 1 / 2 := by
      have : Real.pi / (2 ^ (0 + 2) : ℕ) = Real.pi / 4 := by norm_num
      rw [this, Real.sin_pi_div_four, div_pow, Real.sq_sqrt (by norm_num)]; norm_num
    have hp := (sin_small (k := 1) le_rfl).2
    have d1 := (Rat.cast_le (K := ℝ)).mpr c1
    have d2 := (Rat.cast_le (K := ℝ)).mpr c2
    push_cast at d1 d2
    have hh : (0:ℝ) ≤ sinHi 2 := by
      have : (0:ℚ) ≤ sinHi 2 := by decide +kernel
      exact_mod_cast this
    constructor
    · apply abs_le_of_sq_le_sq' _ hp.le |>.2
      rw [e]; exact d1
    · apply abs_le_of_sq_le_sq' _ hh |>.2
      rw [e]; exact d2
  | succ i ih =>
    obtain ⟨l, h⟩ := ih (by omega)
    obtain ⟨k1, k2, k3, k4, k5, k6⟩ := c4 i (List.mem_range.mpr (by omega))
    have g1 := (Rat.cast_le (K := ℝ)).mpr k1
    have g2 := (Rat.cast_le (K := ℝ)).mpr k2
    have g3 := (Rat.cast_le (K := ℝ)).mpr k3
    have g4 := (Rat.cast_le (K := ℝ)).mpr k4
    have g5 : (0:ℝ) < sinLo (i + 3) := by exact_mod_cast k5
    have g6 : (0:ℝ) < sinHi (i + 3) := by exact_mod_cast k6
    push_cast at g1 g2 g3 g4
    obtain ⟨s1, s2⟩ := sin_small (k := i + 2) (by omega)
    have sd := sin_double (i + 2)
    have hp := (sin_small (k := i + 1) (by omega)).2
    rw [show i + 1 + 2 = i + 2 + 1 by ring]
    have hl0 : (0:ℝ) ≤ sinLo (i + 2) := by
      rcases Nat.eq_zero_or_pos i with rfl | h0
      · exact_mod_cast c3.le
      · obtain ⟨-, -, -, -, q, -⟩ := c4 (i - 1) (List.mem_range.mpr (by omega))
        rw [show i - 1 + 3 = i + 2 by omega] at q
        exact_mod_cast q.le
    have l2 := pow_le_pow_left₀ hl0 l 2
    have h2 := pow_le_pow_left₀ hp.le h 2
    constructor
    · by_contra hlt
      have := f_mono s2.le (not_le.mp hlt) g4
      linarith
    · by_contra hlt
      have := f_mono g6.le (not_le.mp hlt) s1
      linarith

theorem sinLit_pow {k : ℕ} (hk : 1 ≤ k) : sinLit (2 ^ k) = sinTable.getD (k - 1) 0 := by
  unfold sinLit
  rw [Nat.log2_two_pow, if_pos ⟨rfl, by
    have : 2 ^ 1 ≤ 2 ^ k := Nat.pow_le_pow_right (by norm_num) hk
    omega⟩]

/-- The literals of the sine table. -/
theorem sinLit_err {k : ℕ} (hk : 1 ≤ k) (hk2 : k ≤ 31) :
    |(sinLit (2 ^ k) : ℝ) - Real.sin (Real.pi / (2 ^ k : ℕ))| ≤ 1 / 10 ^ 38 * Real.sin (Real.pi / (2 ^ k : ℕ)) := by
  rw [sinLit_pow hk]
  rcases Nat.lt_or_ge k 2 with h | h
  · have : k = 1 := by omega
    subst this
    have e : (sinTable.getD (1 - 1) 0 : ℚ) = 1 := by decide +kernel
    have e2 : Real.pi / (2 ^ 1 : ℕ) = Real.pi / 2 := by norm_num
    rw [e, e2, Real.sin_pi_div_two]; norm_num
  · obtain ⟨i, rfl⟩ : ∃ i, k = i + 2 := ⟨k - 2, by omega⟩
    obtain ⟨l, u⟩ := sin_bounds i (by omega)
    obtain ⟨-, hs⟩ := sin_small (k := i + 1) (by omega)
    rw [show i + 1 + 1 = i + 2 by ring] at hs
    unfold sinLo at l
    unfold sinHi at u
    rw [Rat.cast_mul] at l u
    have hi : (i:ℝ) + 2 ≤ 31 := by exact_mod_cast hk2
    have ht : (0:ℝ) ≤ (sinTable.getD (i + 2 - 1) 0 : ℚ) := by
      have : ∀ q ∈ sinTable, (0:ℚ) ≤ q := by decide +kernel
      have : (0:ℚ) ≤ sinTable.getD (i + 2 - 1) 0 := by
        rw [List.getD]
        cases h : sinTable[i + 2 - 1]? with
        | none => simp
        | some q => exact this q (List.mem_of_getElem? h)
      exact_mod_cast this
    have e1 : (((1 - 2 * ((i + 2 : ℕ) : ℚ) / 10 ^ 40 : ℚ)) : ℝ) = 1 - 2 * ((i:ℝ) + 2) / 10 ^ 40 := by push_cast; ring
    have e2 : (((1 + 2 * ((i + 2 : ℕ) : ℚ) / 10 ^ 40 : ℚ)) : ℝ) = 1 + 2 * ((i:ℝ) + 2) / 10 ^ 40 := by push_cast; ring
    rw [e1] at l
    rw [e2] at u
    generalize ((sinTable.getD (i + 2 - 1) 0 : ℚ) : ℝ) = t at *
    generalize Real.sin (Real.pi / (2 ^ (i + 2) : ℕ)) = s at *
    have hi' : t * (2 * ((i:ℝ) + 2) / 10 ^ 40) ≤ t * (62 / 10 ^ 40) := mul_le_mul_of_nonneg_left (by rw [div_le_div_iff_of_pos_right (by positivity)]; linarith) ht
    have l' : t - t * (62 / 10 ^ 40) ≤ s := by linarith
    have u' : s ≤ t + t * (62 / 10 ^ 40) := by linarith
    rw [abs_le]
    constructor <;> linarith

end WD
