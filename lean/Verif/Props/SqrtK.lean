import Verif.Props.FloatK
import Verif.Props.SqrtStart
import Mathlib.Data.Nat.Sqrt
/-
  The correctly rounded square root of `double`, in a form the kernel can evaluate, for the witnesses that need one.
-/
namespace WD

/-- ⌊√(q·4^s)⌋ for a scale s that makes it larger than 2^64, plus 1/2 unless the root is exact, scaled back and rounded. -/
def sqK (p : ℕ) (q : ℚ) : ℚ :=
  let s : ℤ := 64 - binExp q / 2
  let r := Nat.sqrt ⌊q * 4 ^ s⌋.toNat
  roundFast p (((r : ℚ) + (if (r : ℚ) ^ 2 = q * 4 ^ s then 0 else 1 / 2)) / 2 ^ s)

theorem sqK_isSqrt (F : Flt) (hp : 1 ≤ F.p) (hp' : F.p ≤ 60) (hr : F.rnd = roundFast F.p) : F.IsSqrt (sqK F.p) := by
  intro q hq
  have hu0 := F.u_pos
  have hu1 := F.u_lt hp
  have hu60 : (1 : ℚ) / 2 ^ 60 ≤ F.u := by
    unfold Flt.u
    rw [zpow_neg, zpow_natCast, one_div]
    exact inv_anti₀ (by positivity) (pow_le_pow_right₀ (by norm_num) hp')
  simp only [sqK]
  have hb := binExp_eq hq.ne'
  have hl := log_bounds hq.ne'
  rw [← hb, abs_of_pos hq] at hl
  set s : ℤ := 64 - binExp q / 2 with hs
  have h4 : (4 : ℚ) ^ s = 2 ^ (2 * s) := by rw [zpow_mul]; norm_num
  have h4' : (2 : ℚ) ^ (2 * s) = 2 ^ s * 2 ^ s := by rw [← zpow_add₀ (by norm_num)]; congr 1; ring
  have hp2 : (0 : ℚ) < 2 ^ s := by positivity
  have hQ : (2 : ℚ) ^ 128 ≤ q * 4 ^ s := by
    calc (2 : ℚ) ^ 128 = 2 ^ (128 : ℤ) := by norm_cast
      _ ≤ 2 ^ (binExp q + 2 * s) := zpow_le_zpow_right₀ (by norm_num) (by omega)
      _ = 2 ^ binExp q * 4 ^ s := by rw [zpow_add₀ (by norm_num), h4]
      _ ≤ _ := by gcongr; exact hl.1
  have hqs : q = q * 4 ^ s / (2 ^ s * 2 ^ s) := by rw [h4, h4']; field_simp
  generalize hQe : q * 4 ^ s = Q at *
  have hfl : (0 : ℤ) ≤ ⌊Q⌋ := Int.floor_nonneg.mpr (by linarith [show (0 : ℚ) < 2 ^ 128 by positivity])
  have hn : ((⌊Q⌋.toNat : ℕ) : ℚ) = (⌊Q⌋ : ℚ) := by
    have : ((⌊Q⌋.toNat : ℕ) : ℤ) = ⌊Q⌋ := Int.toNat_of_nonneg hfl
    exact_mod_cast this
  generalize hne : ⌊Q⌋.toNat = n at *
  have hn1 : (n : ℚ) ≤ Q := by rw [hn]; exact Int.floor_le Q
  have hn2 : Q < n + 1 := by rw [hn]; exact Int.lt_floor_add_one Q
  have k1 : ((Nat.sqrt n : ℕ) : ℚ) ^ 2 ≤ n := by exact_mod_cast Nat.sqrt_le' n
  have k2 : (n : ℚ) + 1 ≤ ((Nat.sqrt n : ℕ) + 1 : ℚ) ^ 2 := by exact_mod_cast Nat.succ_le_succ_sqrt' n
  generalize ((Nat.sqrt n : ℕ) : ℚ) = r at *
  have hrr : (2 : ℚ) ^ 63 ≤ r := by
    by_contra hc
    push Not at hc
    have : (r + 1) ^ 2 ≤ (2 ^ 63 + 1 : ℚ) ^ 2 := by
      have hr0 : 0 ≤ r + 1 := by
        by_contra h0
        nlinarith
      exact pow_le_pow_left₀ hr0 (by linarith) 2
    have : (2 ^ 63 + 1 : ℚ) ^ 2 < 2 ^ 128 := by norm_num
    linarith
  have hr0 : 0 < r := lt_of_lt_of_le (by positivity) hrr
  set y : ℚ := r + (if r ^ 2 = Q then 0 else 1 / 2) with hy
  have hyr : r ≤ y ∧ y ≤ r + 1 / 2 := by rw [hy]; split <;> constructor <;> linarith
  have hy1 : (1 - F.u) ^ 2 * Q ≤ y ^ 2 := by
    rw [hy]
    split
    · next h =>
      rw [add_zero, h]
      have : (1 - F.u) ^ 2 ≤ 1 := pow_le_one₀ (by linarith) (by linarith)
      nlinarith
    · have hQr : Q ≤ (r + 1) ^ 2 := by linarith
      have : (r + 1) * (1 - F.u) ≤ r + 1 / 2 := by
        have : 1 / 2 ^ 60 * 2 ^ 63 ≤ F.u * r := mul_le_mul hu60 hrr (by positivity) hu0.le
        nlinarith
      have h2 : ((r + 1) * (1 - F.u)) ^ 2 ≤ (r + 1 / 2) ^ 2 := pow_le_pow_left₀ (mul_nonneg (by linarith) (by linarith)) this 2
      have h3 : 0 ≤ (1 - F.u) ^ 2 := sq_nonneg _
      calc (1 - F.u) ^ 2 * Q ≤ (1 - F.u) ^ 2 * (r + 1) ^ 2 := by gcongr
        _ = ((r + 1) * (1 - F.u)) ^ 2 := by ring
        _ ≤ _ := h2
  have hy2 : y ^ 2 ≤ (1 + F.u) ^ 2 * Q := by
    have h1 : y ≤ (1 + F.u) * r := by
      have : 1 / 2 ^ 60 * 2 ^ 63 ≤ F.u * r := mul_le_mul hu60 hrr (by positivity) hu0.le
      nlinarith [hyr.2]
    calc y ^ 2 ≤ ((1 + F.u) * r) ^ 2 := pow_le_pow_left₀ (by linarith [hyr.1]) h1 2
      _ = (1 + F.u) ^ 2 * r ^ 2 := by ring
      _ ≤ _ := by gcongr; linarith
  have hz0 : 0 < y / 2 ^ s := div_pos (by linarith [hyr.1]) hp2
  have hzq : (y / 2 ^ s) ^ 2 = y ^ 2 / (2 ^ s * 2 ^ s) := by rw [div_pow]; ring
  have h1 : NearF F.u 2 q ((y / 2 ^ s) ^ 2) := by
    rw [hzq, hqs]
    constructor
    · rw [mul_div_assoc']; gcongr
    · rw [mul_div_assoc']; gcongr
  rw [← hr]
  generalize y / 2 ^ s = z at *
  have hN : NearF F.u 1 z (F.rnd z) := F.near_rnd hp hz0.le (near_refl hu0 hu1)
  have hN2 := NearF.mul hu0 hu1 hz0.le hz0.le hN hN
  rw [← pow_two, ← pow_two] at hN2
  have h2 := h1.trans hu0 hu1 hN2
  exact ⟨F.rep _, hN.pos hu0 hu1 hz0, h2.1, h2.2⟩

theorem sqK_double : exDouble.IsSqrt (sqK 53) := by
  rw [← exDoubleK_eq]; exact sqK_isSqrt exDoubleK (by decide) (by decide) rfl

end WD
