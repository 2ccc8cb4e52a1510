import Verif.Proofs.Float
/-
  The types `float` and `double` with a rounding function the kernel can evaluate: used for concrete witnesses only.
-/
namespace WD

/-- The binary exponent of q from the bit lengths of numerator and denominator. -/
def binExp (q : ℚ) : ℤ :=
  let k : ℤ := (Nat.log2 q.num.natAbs : ℤ) - Nat.log2 q.den
  if (2 : ℚ) ^ k ≤ |q| then k else k - 1

theorem binExp_eq {q : ℚ} (h : q ≠ 0) : binExp q = Int.log 2 |q| := by
  have hn : q.num.natAbs ≠ 0 := by simpa using h
  have hd : q.den ≠ 0 := q.den_nz
  have hq : |q| = (q.num.natAbs : ℚ) / q.den := by
    conv_lhs => rw [← Rat.num_div_den q, abs_div]
    rw [Nat.cast_natAbs]; simp
  have n1 : (2 : ℚ) ^ ((Nat.log2 q.num.natAbs : ℕ) : ℤ) ≤ q.num.natAbs := by
    rw [zpow_natCast]; exact_mod_cast Nat.log2_self_le hn
  have n2 : (q.num.natAbs : ℚ) < 2 ^ (((Nat.log2 q.num.natAbs : ℕ) : ℤ) + 1) := by
    have := Nat.lt_log2_self (n := q.num.natAbs)
    have h2 : (q.num.natAbs : ℚ) < ((2 ^ (Nat.log2 q.num.natAbs + 1) : ℕ) : ℚ) := by exact_mod_cast this
    push_cast at h2
    rw [← zpow_natCast] at h2
    exact_mod_cast h2
  have d1 : (2 : ℚ) ^ ((Nat.log2 q.den : ℕ) : ℤ) ≤ q.den := by
    rw [zpow_natCast]; exact_mod_cast Nat.log2_self_le hd
  have d2 : (q.den : ℚ) < 2 ^ (((Nat.log2 q.den : ℕ) : ℤ) + 1) := by
    have := Nat.lt_log2_self (n := q.den)
    have h2 : (q.den : ℚ) < ((2 ^ (Nat.log2 q.den + 1) : ℕ) : ℚ) := by exact_mod_cast this
    push_cast at h2
    rw [← zpow_natCast] at h2
    exact_mod_cast h2
  have hdp : (0 : ℚ) < q.den := by exact_mod_cast q.den_pos
  set A : ℤ := ((Nat.log2 q.num.natAbs : ℕ) : ℤ)
  set D : ℤ := ((Nat.log2 q.den : ℕ) : ℤ)
  have lo : (2 : ℚ) ^ (A - D - 1) < |q| := by
    rw [hq, lt_div_iff₀ hdp]
    calc (2 : ℚ) ^ (A - D - 1) * q.den < 2 ^ (A - D - 1) * 2 ^ (D + 1) := mul_lt_mul_of_pos_left d2 (p2_pos _)
      _ = 2 ^ A := by rw [← zpow_add₀ (by norm_num)]; congr 1; ring
      _ ≤ _ := n1
  have hi : |q| < (2 : ℚ) ^ (A - D + 1) := by
    rw [hq, div_lt_iff₀ hdp]
    calc (q.num.natAbs : ℚ) < 2 ^ (A + 1) := n2
      _ = 2 ^ (A - D + 1) * 2 ^ D := by rw [← zpow_add₀ (by norm_num)]; congr 1; ring
      _ ≤ _ := mul_le_mul_of_nonneg_left d1 (p2_pos _).le
  obtain ⟨l1, l2⟩ := log_bounds h
  have uniq : ∀ L : ℤ, (2 : ℚ) ^ L ≤ |q| → |q| < 2 ^ (L + 1) → L = Int.log 2 |q| := by
    intro L h1 h2
    have a1 := (zpow_lt_zpow_iff_right₀ (by norm_num : (1 : ℚ) < 2)).mp (lt_of_le_of_lt h1 l2)
    have a2 := (zpow_lt_zpow_iff_right₀ (by norm_num : (1 : ℚ) < 2)).mp (lt_of_le_of_lt l1 h2)
    omega
  unfold binExp
  simp only
  split
  · rename_i hk
    exact uniq _ hk hi
  · rename_i hk
    exact uniq _ lo.le (by rw [sub_add_cancel]; exact not_le.mp hk)

/-- `roundBits` with the binary exponent from `binExp`. -/
def roundFast (p : ℕ) (q : ℚ) : ℚ :=
  if q = 0 then 0 else round (q / (2 : ℚ) ^ (binExp q - p + 1)) * (2 : ℚ) ^ (binExp q - p + 1)

theorem roundFast_eq (p : ℕ) : roundFast p = roundBits p := by
  funext q
  unfold roundFast roundBits
  split
  · rfl
  · rename_i h; rw [binExp_eq h]

/-- The type `double`, evaluable in the kernel. -/
def exDoubleK : Flt := ⟨53, 15, 17, roundFast 53, by rw [roundFast_eq]; exact roundBits_rep 53 (by norm_num),
  by rw [roundFast_eq]; exact roundBits_nearest 53 (by norm_num)⟩

theorem exDoubleK_eq : exDoubleK = exDouble := by
  unfold exDoubleK exDouble
  congr 1
  exact roundFast_eq 53

example : roundFast 53 (1 / 3) = 6004799503160661 / 2 ^ 54 := by decide +kernel

end WD
