import Verif.Proofs.FloatConv
import Verif.Spec.Float
/-
  The steps of `from_builtin_float_type` for a normal number.
-/
namespace WD
open DW

section
variable {c : Cfg} {est : DW → DW} {fdig p : ℕ} {minN : ℚ} {m : ℕ} {k : ℤ}

/-- The scaled significand, before the sign is set. -/
def scaleF (c : Cfg) (est : DW → DW) (fdig : ℕ) (t : DW) (p2 : ℤ) : DW :=
  if p2 < -2 then mulAssign c t (powNat c (half c) (-p2).toNat)
  else if p2 = -2 then divULL c est fdig t 4
  else if p2 = -1 then divULL c est fdig t 2
  else if p2 = 0 then t
  else if p2 = 1 then mulULL c t 2
  else if p2 = 2 then mulULL c t 4
  else mulAssign c t (powNat c (two c) p2.toNat)

theorem fromFloat_eq (hp : 0 < p) (hp64 : p ≤ 64) (hn : NormalF p minN m k) (b : Bool) :
    fromFloat c est fdig p minN ((if b then -1 else 1) * (m * (2 : ℚ) ^ k)) =
      { scaleF c est fdig (fromULL c m false) k with neg := b } := by
  obtain ⟨h1, h2, h3⟩ := hn
  have hm : 0 < m := lt_of_lt_of_le (Nat.two_pow_pos _) h1
  have hpos : (0 : ℚ) < m * 2 ^ k := by
    have : (0 : ℚ) < m := by exact_mod_cast hm
    positivity
  have hb : decide (((if b then -1 else 1) * (m * (2 : ℚ) ^ k) : ℚ) < 0) = b := by
    cases b
    · simp only [Bool.false_eq_true, if_false, one_mul, decide_eq_false_iff_not, not_lt]; exact hpos.le
    · simp only [if_true, decide_eq_true_eq]; linarith
  have hab : (if (!b) = true then ((if b then -1 else 1) * (m * (2 : ℚ) ^ k) : ℚ) else -((if b then -1 else 1) * (m * (2 : ℚ) ^ k))) = m * (2 : ℚ) ^ k := by
    cases b <;> simp
  unfold fromFloat scaleF
  simp only [hb, hab, nativeParts_spec hp hp64 h1 h2 h3]
  rw [show k + (p : ℤ) - 1 - ((p : ℤ) - 1) = k by ring]

theorem base_spec (hn : NormalF p minN m k) (hp64 : p ≤ 64) :
    let t := fromULL c m false
    Full c t ∧ t.isZero = false ∧ |t.val c| ≤ m ∧ (m : ℚ) < |t.val c| + t.ulp c ∧ (m < c.B ^ c.N → |t.val c| = m) ∧
    0 ≤ t.exp ∧ 0 < m := by
  obtain ⟨h1, h2, h3⟩ := hn
  have hm : 0 < m := lt_of_lt_of_le (Nat.two_pow_pos _) h1
  have hm64 : m < 2 ^ 64 := lt_of_lt_of_le h2 (Nat.pow_le_pow_right (by norm_num) hp64)
  obtain ⟨a, b, d, -, e, f⟩ := fromULL_spec c m hm64 false
  refine ⟨a, ?_, b, d, f, (fromULL_exp c hm64 hm).1, hm⟩
  cases hz : (fromULL c m false).isZero
  · rfl
  · have := e.mp hz; omega

theorem pow_two_range (hE : 2 * c.ed + 1 ≤ c.maxExp) (j : ℕ) (hhi : (2 : ℚ) ^ j ≤ 10 ^ ((c.maxExp : ℤ) - 1)) :
    |(two c).val c ^ j| ≤ (10 : ℚ) ^ ((c.maxExp : ℤ) - 1) ∧
    (10 : ℚ) ^ (-(c.maxExp : ℤ) + 2 * c.ed + 1) ≤ |(two c).val c ^ j| := by
  rw [two_val, abs_of_pos (by positivity)]
  refine ⟨hhi, le_trans ?_ (one_le_pow₀ (by norm_num))⟩
  rw [← zpow_zero (10 : ℚ)]; exact zpow_le_zpow_right₀ (by norm_num) (by omega)

theorem pow_half_range (hE : 2 * c.ed + 1 ≤ c.maxExp) (j : ℕ)
    (hlo : (10 : ℚ) ^ (-(c.maxExp : ℤ) + 2 * c.ed + 1) ≤ (1 / 2) ^ j) :
    |(half c).val c ^ j| ≤ (10 : ℚ) ^ ((c.maxExp : ℤ) - 1) ∧
    (10 : ℚ) ^ (-(c.maxExp : ℤ) + 2 * c.ed + 1) ≤ |(half c).val c ^ j| := by
  rw [half_val, abs_of_pos (by positivity)]
  refine ⟨le_trans (pow_le_one₀ (by norm_num) (by norm_num)) ?_, hlo⟩
  rw [← zpow_zero (10 : ℚ)]; exact zpow_le_zpow_right₀ (by norm_num) (by omega)

theorem exp_lt_of_lt {x : DW} (hx : WF c x) (hz : x.isZero = false) {e : ℤ} (h : |x.val c| < (10 : ℚ) ^ e) : x.exp < e :=
  (zpow_lt_zpow_iff_right₀ (by norm_num : (1 : ℚ) < 10)).mp (lt_of_le_of_lt (hx.abs_ge hz) h)

theorem zpow_two_neg (k : ℤ) (hk : k < 0) : (2 : ℚ) ^ k = (1 / 2) ^ (-k).toNat := by
  obtain ⟨j, rfl⟩ : ∃ j : ℕ, k = -(j : ℤ) := ⟨(-k).toNat, by omega⟩
  rw [neg_neg, Int.toNat_natCast, zpow_neg, zpow_natCast, one_div, inv_pow]

theorem zpow_two_pos (k : ℤ) (hk : 0 ≤ k) : (2 : ℚ) ^ k = 2 ^ k.toNat := by
  obtain ⟨j, rfl⟩ : ∃ j : ℕ, k = (j : ℤ) := ⟨k.toNat, by omega⟩
  rw [Int.toNat_natCast, zpow_natCast]

/-- The combination of a truncated factor, an approximate power and a rounded product. -/
theorem scale_comb {H q a w y n : ℚ} {m : ℕ} (hH10 : (10 : ℚ) ≤ H) (hkpos : 0 < q) (hmq : (1 : ℚ) ≤ m) (ha0 : 0 < a) (t3 : a ≤ m)
    (htm : (m : ℚ) - a ≤ m / H) (hn0 : 0 ≤ n) (hn2 : n / H ≤ 1 / 2) (hw : 0 ≤ w) (hy : |y - q| ≤ 2 * n / H * q)
    (hwy : |w - a * y| ≤ w / H) : |w - m * q| ≤ (2 * n + 4) / H * (m * q) := by
  have hH0 : 0 < H := by linarith
  have hη : (0 : ℚ) < 1 / H := by positivity
  have hη1 : 1 / H ≤ 1 / 10 := by rw [div_le_div_iff₀ hH0 (by norm_num)]; linarith
  rw [show 2 * n / H * q = 2 * (n * (1 / H)) * q by ring] at hy
  rw [div_eq_mul_one_div] at hwy hn2 htm
  rw [show (2 * n + 4) / H * (m * q) = (2 * (n * (1 / H)) + 4 * (1 / H)) * (m * q) by ring]
  generalize 1 / H = h at *
  generalize hnh : n * h = g at *
  have hg0 : 0 ≤ g := by rw [← hnh]; positivity
  rw [abs_le] at hy hwy
  have hm0 : (0 : ℚ) < m := by linarith
  have hmq0 : 0 < (m : ℚ) * q := by positivity
  have hgq : 2 * g * q ≤ q := by nlinarith
  have hy2 : y ≤ 2 * q := by linarith
  have hy0 : 0 ≤ y := by linarith
  have hay : a * y ≤ m * (2 * q) := mul_le_mul t3 hy2 hy0 hm0.le
  have hwh0 : w * h ≤ w * (1 / 10) := mul_le_mul_of_nonneg_left hη1 hw
  have hw2 : w ≤ 3 * (m * q) := by linarith
  have hwh : w * h ≤ 3 * (m * q) * h := mul_le_mul_of_nonneg_right hw2 hη.le
  have e1 : a * y ≤ m * (q + 2 * g * q) := mul_le_mul t3 (by linarith) hy0 hm0.le
  have f1 : a * (q - y) ≤ m * (2 * g * q) := by
    by_cases hs : q - y ≤ 0
    · have : a * (q - y) ≤ 0 := mul_nonpos_of_nonneg_of_nonpos ha0.le hs
      have : (0 : ℚ) ≤ m * (2 * g * q) := by positivity
      linarith
    · exact mul_le_mul t3 (by linarith) (by linarith) hm0.le
  have f2 : (m - a) * q ≤ m * h * q := mul_le_mul_of_nonneg_right htm hkpos.le
  have hx0 : 0 ≤ h * (m * q) := by positivity
  rw [abs_le]
  constructor <;> linarith

theorem orderOf_small : orderOf 2 = 1 ∧ orderOf 4 = 1 := by
  constructor <;> (rw [orderOf]; rfl)

end
end WD
