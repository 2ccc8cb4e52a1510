import Verif.Spec.RoundEven
import Verif.Proofs.Float
/-
  `roundEven` is a rounding to nearest.
-/
namespace WD

theorem halfEven_eq {x : ℚ} {m : ℤ} (h1 : (m : ℚ) - 1 / 2 < x) (h2 : x < m + 1 / 2) : halfEven x = m := by
  unfold halfEven
  rcases le_or_gt (m : ℚ) x with h | h
  · have f : ⌊x⌋ = m := Int.floor_eq_iff.mpr ⟨h, by linarith⟩
    rw [f, if_pos (by linarith)]
  · have f : ⌊x⌋ = m - 1 := Int.floor_eq_iff.mpr ⟨by push_cast; linarith, by push_cast; linarith⟩
    rw [f, if_neg (by push_cast; linarith), if_pos (by push_cast; linarith)]; ring

/-- No integer is closer. -/
theorem halfEven_near (x : ℚ) (z : ℤ) : |x - halfEven x| ≤ |x - z| := by
  have f1 := Int.floor_le x
  have f2 := Int.lt_floor_add_one x
  have hz : (z : ℚ) ≤ ⌊x⌋ ∨ (⌊x⌋ : ℚ) + 1 ≤ z := by
    rcases le_or_gt z ⌊x⌋ with h | h
    · left; exact_mod_cast h
    · right; exact_mod_cast h
  have key : |x - halfEven x| ≤ min (x - ⌊x⌋) (⌊x⌋ + 1 - x) := by
    unfold halfEven
    split
    · rw [abs_of_nonneg (by linarith)]; exact le_min le_rfl (by linarith)
    · split
      · push_cast; rw [abs_of_neg (by linarith)]; exact le_min (by linarith) (by linarith)
      · split
        · rw [abs_of_nonneg (by linarith)]; exact le_min le_rfl (by linarith)
        · push_cast; rw [abs_of_neg (by linarith)]; exact le_min (by linarith) (by linarith)
  refine le_trans key ?_
  rcases hz with h | h
  · exact le_trans (min_le_left _ _) (le_trans (by linarith) (le_abs_self _))
  · exact le_trans (min_le_right _ _) (le_trans (by linarith) (neg_le_abs _))

theorem roundEven_neg (p : ℕ) (q : ℚ) : roundEven p (-q) = -roundEven p q := by
  unfold roundEven
  rw [abs_neg]
  rcases lt_trichotomy q 0 with h | rfl | h
  · simp only [neg_nonneg, if_pos h.le, if_neg (not_le.mpr h), neg_neg]
  · have : halfEven 0 = 0 := halfEven_eq (by norm_num) (by norm_num)
    simp [this]
  · simp only [neg_nonneg, if_neg (not_le.mpr h), if_pos h.le]

theorem roundEven_pos {p : ℕ} {q : ℚ} (h : 0 ≤ q) :
    roundEven p q = halfEven (q / (2 : ℚ) ^ (Int.log 2 |q| - p + 1)) * (2 : ℚ) ^ (Int.log 2 |q| - p + 1) := by
  unfold roundEven
  simp only [if_pos h, abs_of_nonneg h]

theorem RepF.neg {p : ℕ} {f : ℚ} (h : RepF p f) : RepF p (-f) := by
  obtain ⟨m, k, hm, rfl⟩ := h
  exact ⟨-m, k, by rwa [abs_neg], by push_cast; ring⟩

theorem roundEven_zero (p : ℕ) : roundEven p 0 = 0 := by
  have : halfEven 0 = 0 := halfEven_eq (by norm_num) (by norm_num)
  rw [roundEven_pos le_rfl]; simp [this]

/-- The same distance as the rounding half up. -/
theorem roundEven_dist (p : ℕ) {q : ℚ} (h : 0 < q) : |q - roundEven p q| = |q - roundBits p q| := by
  rw [roundEven_pos h.le]
  unfold roundBits
  rw [if_neg h.ne']
  have h4 := p2_pos (Int.log 2 |q| - p + 1)
  generalize (2 : ℚ) ^ (Int.log 2 |q| - p + 1) = t at *
  have h5 : ∀ w : ℤ, |q - w * t| = |q / t - w| * t := by
    intro w
    rw [← abs_of_pos h4, ← abs_mul, abs_of_pos h4, sub_mul, div_mul_cancel₀ _ h4.ne']
  rw [h5, h5]
  congr 1
  exact le_antisymm (halfEven_near _ _) (round_le _ _)

theorem halfEven_bounds {x : ℚ} {n : ℕ} (h0 : 0 ≤ x) (h : x < n) : 0 ≤ halfEven x ∧ halfEven x ≤ n := by
  have f0 : 0 ≤ ⌊x⌋ := Int.floor_nonneg.mpr h0
  have f1 : ⌊x⌋ < n := Int.floor_lt.mpr (by exact_mod_cast h)
  unfold halfEven
  split_ifs <;> constructor <;> omega

theorem roundEven_rep (p : ℕ) (q : ℚ) : RepF p (roundEven p q) := by
  have pos : ∀ q : ℚ, 0 < q → RepF p (roundEven p q) := by
    intro q h
    rw [roundEven_pos h.le]
    refine ⟨_, _, ?_, rfl⟩
    obtain ⟨h1, h2⟩ := log_bounds h.ne'
    rw [abs_of_pos h] at h1 h2 ⊢
    set e := Int.log 2 q
    have hb : q / (2 : ℚ) ^ (e - p + 1) < (2 ^ p : ℕ) := by
      rw [div_lt_iff₀ (p2_pos _)]
      push_cast
      rw [← zpow_natCast, ← zpow_add₀ (by norm_num)]
      rwa [show (p : ℤ) + (e - p + 1) = e + 1 by ring]
    obtain ⟨b1, b2⟩ := halfEven_bounds (div_nonneg h.le (p2_pos _).le) hb
    rw [abs_of_nonneg b1]
    exact_mod_cast b2
  rcases lt_trichotomy q 0 with h | rfl | h
  · have := pos (-q) (by linarith)
    rw [roundEven_neg] at this
    simpa using this.neg
  · rw [roundEven_zero]; exact ⟨0, 0, by simp, by simp⟩
  · exact pos q h

theorem roundEven_nearest (p : ℕ) (hp : 1 ≤ p) (q f : ℚ) (hf : RepF p f) : |q - roundEven p q| ≤ |q - f| := by
  have pos : ∀ q : ℚ, 0 < q → ∀ f, RepF p f → |q - roundEven p q| ≤ |q - f| := by
    intro q h f hf
    rw [roundEven_dist p h]
    exact roundBits_nearest p hp q f hf
  rcases lt_trichotomy q 0 with h | rfl | h
  · have := pos (-q) (by linarith) _ hf.neg
    rw [roundEven_neg] at this
    rw [show -q - -roundEven p q = -(q - roundEven p q) by ring, show -q - -f = -(q - f) by ring, abs_neg, abs_neg] at this
    exact this
  · rw [roundEven_zero]; simp
  · exact pos q h f hf

/-- The type `double` with the default rounding of IEEE 754. -/
def exDoubleE : Flt := ⟨53, 15, 17, roundEven 53, roundEven_rep 53, roundEven_nearest 53 (by norm_num)⟩

/-- Rounding by comparison with the middles between neighbours. -/
theorem roundEven_eq {p : ℕ} (hp : 1 ≤ p) {q : ℚ} {m : ℕ} {e : ℤ} (hm1 : 2 ^ (p - 1) < m) (hm2 : m < 2 ^ p)
    (h1 : ((m : ℚ) - 1 / 2) * 2 ^ e < q) (h2 : q < (m + 1 / 2) * 2 ^ e) : roundEven p q = m * 2 ^ e := by
  have he := p2_pos e
  have q1 : (2 : ℚ) ^ (p - 1) + 1 ≤ m := by exact_mod_cast hm1
  have q2 : (m : ℚ) + 1 ≤ 2 ^ p := by exact_mod_cast hm2
  have h2p : (0:ℚ) < 2 ^ (p - 1) := by positivity
  have hq : 0 < q := lt_trans (mul_pos (by linarith) he) h1
  have hl : Int.log 2 |q| = e + p - 1 := by
    obtain ⟨l1, l2⟩ := log_bounds hq.ne'
    rw [abs_of_pos hq] at l1 l2 ⊢
    have a1 : (2 : ℚ) ^ (e + p - 1) ≤ q := by
      have : (2 : ℚ) ^ (e + p - 1) = 2 ^ (p - 1) * 2 ^ e := by
        rw [← zpow_natCast, ← zpow_add₀ (by norm_num)]; congr 1; omega
      rw [this]
      exact le_trans (mul_le_mul_of_nonneg_right (by linarith) he.le) h1.le
    have a2 : q < (2 : ℚ) ^ (e + p) := by
      have : (2 : ℚ) ^ (e + p) = 2 ^ p * 2 ^ e := by
        rw [← zpow_natCast, ← zpow_add₀ (by norm_num)]; congr 1; omega
      rw [this]
      exact lt_of_lt_of_le h2 (mul_le_mul_of_nonneg_right (by linarith) he.le)
    have b1 := (zpow_lt_zpow_iff_right₀ (by norm_num : (1 : ℚ) < 2)).mp (lt_of_le_of_lt a1 l2)
    have b2 := (zpow_lt_zpow_iff_right₀ (by norm_num : (1 : ℚ) < 2)).mp (lt_of_le_of_lt l1 a2)
    omega
  rw [roundEven_pos hq.le, hl, show e + p - 1 - p + 1 = e by ring, halfEven_eq (m := m)]
  · push_cast; rfl
  · rw [lt_div_iff₀ he]; push_cast; exact h1
  · rw [div_lt_iff₀ he]; push_cast; exact h2

end WD
