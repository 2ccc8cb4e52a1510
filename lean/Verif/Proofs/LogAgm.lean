import Verif.Proofs.AgmQuot
/-
  `log` above 51 digits: the exponent m, the start value, and the last steps.
-/
namespace WD
open DW Real

/-- The exponent m of `log`: at least 3, at most 1.68·digits10, and 2^m·x is at least half of the root of 10^digits10. -/
theorem logM_bounds {c : Cfg} {F32 : Flt} (hF : F32.IsFloat) (h1 : 52 ≤ c.digits10) {l10 l2 : ℚ} (a1 : 2302584 / 10 ^ 6 ≤ l10)
    (a2 : l10 ≤ 2302587 / 10 ^ 6) (b1 : 693146 / 10 ^ 6 ≤ l2) (b2 : l2 ≤ 693148 / 10 ^ 6) {x : DW} {k : ℕ} (hk : ilogb x = k) :
    3 ≤ logM c F32 l10 l2 x ∧ 100 * logM c F32 l10 l2 x ≤ 168 * c.digits10 ∧
    10 * (c.digits10 : ℤ) ≤ 20 * k + 6 * logM c F32 l10 l2 x + 6 := by
  have hp : F32.p = 24 := hF.1
  have hp1 : 1 ≤ F32.p := by rw [hp]; norm_num
  have hu : F32.u = 1 / 2 ^ 24 := by unfold Flt.u; rw [hp]; norm_num
  have hd : (52 : ℚ) ≤ c.digits10 := by exact_mod_cast h1
  have err : ∀ q : ℚ, 0 ≤ q → 0 ≤ F32.rnd q ∧ F32.rnd q ≤ q * (1 + 1 / 2 ^ 24) ∧ q * (1 - 1 / 2 ^ 24) ≤ F32.rnd q := by
    intro q hq
    have := F32.rnd_err hp1 q
    rw [abs_of_nonneg hq, hu] at this
    obtain ⟨e1, e2⟩ := abs_le.mp this
    exact ⟨F32.rnd_nonneg hq, by linarith, by linarith⟩
  unfold logM
  rw [hk]
  have hk0 : (0 : ℚ) ≤ k := by positivity
  obtain ⟨p1, p2, p3⟩ := err (c.digits10 * f167) (by unfold f167; positivity)
  obtain ⟨q1, q2, -⟩ := err (((k : ℕ) : ℤ) : ℚ) (by push_cast; exact hk0)
  generalize hA : F32.rnd (c.digits10 * f167) = A at *
  generalize F32.rnd (((k : ℕ) : ℤ) : ℚ) = K at *
  have hKl : 0 ≤ K * l10 := mul_nonneg q1 (by linarith)
  obtain ⟨r1, r2, -⟩ := err (K * l10) hKl
  generalize F32.rnd (K * l10) = R at *
  obtain ⟨s1, s2, -⟩ := err (R / l2) (div_nonneg r1 (by linarith))
  generalize F32.rnd (R / l2) = S at *
  push_cast at q2
  have k1 : K * l10 ≤ (k * (1 + 1 / 2 ^ 24)) * (2302587 / 10 ^ 6) := mul_le_mul q2 a2 (by linarith) (by positivity)
  have k2 : R / l2 ≤ k * (33222 / 10000) := by
    rw [div_le_iff₀ (by linarith)]
    have : (k : ℚ) * (33222 / 10000) * (693146 / 10 ^ 6) ≤ k * (33222 / 10000) * l2 := mul_le_mul_of_nonneg_left b1 (by positivity)
    linarith
  have hv1 : A - S - (A + S) / 2 ^ 24 ≤ F32.rnd (A - S) := by
    have := F32.rnd_err hp1 (A - S)
    rw [hu] at this
    have h2 : |A - S| ≤ A + S := by rw [abs_le]; constructor <;> linarith
    have h3 := (abs_le.mp this).2
    linarith
  have hv2 : F32.rnd (A - S) ≤ A * (1 + 1 / 2 ^ 24) := le_trans (F32.rnd_mono (by linarith : A - S ≤ A)) (err A p1).2.1
  generalize F32.rnd (A - S) = v at *
  have g1 := Int.lt_floor_add_one (max v 3)
  have g2 := Int.floor_le (max v 3)
  have hm1 := le_max_left v 3
  have hm3 : (3 : ℤ) ≤ ⌊max v 3⌋ := by rw [Int.le_floor]; push_cast; exact le_max_right v 3
  unfold f167 at p2 p3
  refine ⟨hm3, ?_, ?_⟩
  · have : max v 3 ≤ 168 / 100 * (c.digits10 : ℚ) := max_le (by linarith) (by linarith)
    have : ((100 * ⌊max v 3⌋ : ℤ) : ℚ) ≤ ((168 * c.digits10 : ℤ) : ℚ) := by push_cast; linarith
    exact_mod_cast this
  · have : (10 * (c.digits10 : ℤ) : ℚ) ≤ ((20 * k + 6 * ⌊max v 3⌋ + 6 : ℤ) : ℚ) := by push_cast; linarith
    exact_mod_cast this

/-- The integral at the start of `log`: z is 2^m·x. -/
theorem ell_start2 {z e b : ℝ} (hz0 : 0 < z) (e0 : 0 < e) (e1 : e ≤ 1 / 10 ^ 52) (hz : 1 / (4 * e) ≤ z ^ 2) (hb : |b - 4 / z| ≤ 4 / z * (5 * e)) :
    0 < b ∧ b ≤ 1 / 4 ∧ log z - 10 * e ≤ ell 1 b ∧ ell 1 b ≤ log z + 10 * e + 1602 / 100 * e * (log z + 11 / 10) := by
  have e2 : e ≤ 1 / 10 ^ 6 := le_trans e1 (by norm_num)
  have h4 : (0 : ℝ) < 4 / z := by positivity
  obtain ⟨η, hη⟩ : ∃ η, η = b / (4 / z) - 1 := ⟨_, rfl⟩
  have hbη : b = 4 / z * (1 + η) := by rw [hη]; field_simp; ring
  have hηa : |η| ≤ 5 * e := by
    have : b - 4 / z = 4 / z * η := by rw [hbη]; ring
    rw [this, abs_mul, abs_of_pos h4] at hb
    exact le_of_mul_le_mul_left hb h4
  obtain ⟨n1, n2⟩ := abs_le.mp hηa
  have hb0 : 0 < b := by rw [hbη]; exact mul_pos h4 (by linarith)
  have hsq : (4 / z) ^ 2 ≤ 64 * e := by
    rw [div_pow, div_le_iff₀ (by positivity)]
    rw [div_le_iff₀ (by positivity)] at hz
    linarith
  have hz1 : 1000 ≤ z := by
    by_contra hc
    have : z ^ 2 < 1000 ^ 2 := pow_lt_pow_left₀ (not_le.mp hc) hz0.le (by norm_num)
    have h5 : (1 : ℝ) / (4 * (1 / 10 ^ 10)) ≤ 1 / (4 * e) := one_div_le_one_div_of_le (by positivity) (by linarith [show (1 : ℝ) / 10 ^ 52 ≤ 1 / 10 ^ 10 by norm_num])
    norm_num at this h5 hz
    linarith
  have hb4 : b ≤ 1 / 4 := by
    have : (4 : ℝ) / z ≤ 4 / 1000 := by gcongr
    have h3 : (4 : ℝ) / z * (1 + η) ≤ 4 / 1000 * 2 := mul_le_mul this (by linarith) (by linarith) (by positivity)
    rw [hbη]
    linarith
  obtain ⟨l1, l2⟩ := ell_log hb0 hb4
  have hlog : log (4 / b) = log z - log (1 + η) := by
    have : 4 / b = z / (1 + η) := by
      rw [hbη]; have : 1 + η ≠ 0 := by linarith
      field_simp
    rw [this, Real.log_div hz0.ne' (by linarith)]
  obtain ⟨g1, g2⟩ := abs_le.mp (log_one_add_abs (η := η) (by linarith))
  rw [hlog] at l1 l2
  have hbb : b ^ 2 / 4 ≤ 1602 / 100 * e := by
    rw [hbη, mul_pow]
    have : (1 + η) ^ 2 ≤ 1 + 1 / 1000 := by nlinarith
    have : (4 / z) ^ 2 * (1 + η) ^ 2 ≤ 64 * e * (1 + 1 / 1000) := mul_le_mul hsq this (by positivity) (by positivity)
    linarith
  have hl0 : 0 ≤ log z := Real.log_nonneg (by linarith)
  refine ⟨hb0, hb4, by linarith, ?_⟩
  have : b ^ 2 / 4 * (log z - log (1 + η) + 1) ≤ 1602 / 100 * e * (log z + 11 / 10) :=
    mul_le_mul hbb (by linarith) (by linarith) (by positivity)
  linarith

/-- The last steps of `log`: E is the integral, e = 10^-digits10, Z = log(2^m·x), q is the quotient π/s, w the product m·ln2. -/
theorem log_end {E Z m q w r L lx e κ δ μ d lam : ℝ} {n : ℝ} (hd : 52 ≤ d) (hL1 : 69 / 100 ≤ L) (hL2 : L ≤ 6932 / 10000) (hm1 : 3 ≤ m) (hm2 : 100 * m ≤ 168 * d)
    (he0 : 0 < e) (he1 : e ≤ 1 / 10 ^ 20) (hκ0 : 0 ≤ κ) (hn : 0 ≤ n) (hδ0 : 0 ≤ δ) (hμ0 : 0 ≤ μ) (hμ : 100 * μ ≤ δ) (hδe : δ ≤ e / 100)
    (hZ : Z = m * L + lx) (hlx : 0 ≤ lx) (hZu : Z ≤ 22600) (hlam0 : 0 ≤ lam) (hlam : lam * e ≤ 1 / 1000)
    (h1 : Z - 10 * e ≤ E) (h2 : E ≤ Z + 10 * e + 1602 / 100 * e * (Z + 11 / 10))
    (hsm : 34 / 100 * (κ * e) + 102 / 100 * ((22 / 10 * n + 2 / 10) * δ) + 7 * μ ≤ 1 / 1000)
    (hq : |q - E| ≤ E * (34 / 100 * (κ * e) + 102 / 100 * ((22 / 10 * n + 2 / 10) * δ) + 7 * μ))
    {l2 : ℝ} (hl2 : |l2 - L| ≤ lam * e) (hw : |w - l2 * m| ≤ 2 * μ * (l2 * m)) (hr : |r - (q - w)| ≤ μ * (|q| + |w|)) :
    |r - lx| ≤ (6 / 5 * d + lx) * (17 + κ / 2) * e + (6 / 5 * d + lx) * (3 * (n + 1)) * δ + 17 / 10 * d * lam * e + 30 * e := by
  obtain ⟨t, ht⟩ : ∃ t, t = 34 / 100 * (κ * e) + 102 / 100 * ((22 / 10 * n + 2 / 10) * δ) + 7 * μ := ⟨_, rfl⟩
  rw [← ht] at hq hsm
  have hκe : 0 ≤ κ * e := by positivity
  have hnδ : 0 ≤ n * δ := by positivity
  have ht0 : 0 ≤ t := by rw [ht]; positivity
  have e6 : e ≤ 1 / 10 ^ 6 := le_trans he1 (by norm_num)
  have mL0 : 3 * (69 / 100) ≤ m * L := mul_le_mul hm1 hL1 (by norm_num) (by linarith)
  have hZ0 : 2 ≤ Z := by linarith
  have mL : m * L ≤ 6 / 5 * d := by
    calc m * L ≤ 168 / 100 * d * (6932 / 10000) := mul_le_mul (by linarith) hL2 (by linarith) (by linarith)
      _ ≤ _ := by linarith
  -- E
  have hZe : 1602 / 100 * e * (Z + 11 / 10) ≤ 1602 / 100 * e * 22602 := mul_le_mul_of_nonneg_left (by linarith) (by positivity)
  have hE0 : 0 ≤ E := by linarith
  have hEu : E ≤ 11 / 10 * Z := by linarith
  have hEt : E * t ≤ 11 / 10 * Z * t := mul_le_mul_of_nonneg_right hEu ht0
  have hEt1 : E * t ≤ E * (1 / 1000) := mul_le_mul_of_nonneg_left hsm hE0
  obtain ⟨q1, q2⟩ := abs_le.mp hq
  have qa : |q| ≤ 12 / 10 * Z := by rw [abs_le]; constructor <;> linarith
  -- l2
  obtain ⟨a1, a2⟩ := abs_le.mp hl2
  have hm0 : 0 ≤ m := by linarith
  have l2m0 : 0 ≤ l2 * m := mul_nonneg (by linarith) hm0
  have l2m : l2 * m ≤ 12 / 10 * Z := by
    calc l2 * m ≤ (L * (11 / 10)) * m := mul_le_mul_of_nonneg_right (by linarith) hm0
      _ ≤ _ := by linarith
  have l2d : |l2 * m - L * m| ≤ lam * e * m := by
    rw [← sub_mul, abs_mul, abs_of_nonneg hm0]
    exact mul_le_mul_of_nonneg_right hl2 hm0
  have lamm : lam * e * m ≤ lam * e * (17 / 10 * d) := mul_le_mul_of_nonneg_left (by linarith) (by positivity)
  obtain ⟨w1, w2⟩ := abs_le.mp hw
  have hμ1 : μ ≤ 1 / 10 ^ 6 := by linarith
  have wm : 2 * μ * (l2 * m) ≤ 2 * μ * (12 / 10 * Z) := mul_le_mul_of_nonneg_left l2m (by linarith)
  have wm1 : 2 * μ * (l2 * m) ≤ 2 * (1 / 10 ^ 6) * (l2 * m) := mul_le_mul_of_nonneg_right (by linarith) l2m0
  have wa : |w| ≤ 13 / 10 * Z := by rw [abs_le]; constructor <;> linarith
  have hr2 : μ * (|q| + |w|) ≤ μ * (25 / 10 * Z) := mul_le_mul_of_nonneg_left (by linarith) hμ0
  obtain ⟨r1, r2⟩ := abs_le.mp hr
  obtain ⟨d1, d2⟩ := abs_le.mp l2d
  -- collect
  have hZμ : 0 ≤ Z * μ := by positivity
  have hZδ : Z * (100 * μ) ≤ Z * δ := mul_le_mul_of_nonneg_left hμ (by linarith)
  have hZt : Z * t = 34 / 100 * (Z * (κ * e)) + 102 / 100 * (22 / 10 * (Z * (n * δ)) + 2 / 10 * (Z * δ)) + 7 * (Z * μ) := by rw [ht]; ring
  have hZn : 0 ≤ Z * (n * δ) := by positivity
  have hZd : 0 ≤ Z * δ := by positivity
  have hZk : 0 ≤ Z * (κ * e) := by positivity
  have hZe2 : 0 ≤ Z * e := by positivity
  have B : (6 / 5 * d + lx) * ((17 + κ / 2) * e + (3 * (n + 1)) * δ) ≥ Z * ((17 + κ / 2) * e + (3 * (n + 1)) * δ) :=
    mul_le_mul_of_nonneg_right (by linarith) (by positivity)
  have tot : |r - lx| ≤ 10 * e + 1602 / 100 * e * (Z + 11 / 10) + 11 / 10 * (Z * t) + lam * e * (17 / 10 * d) + 5 * (Z * μ) := by
    rw [abs_le]; constructor <;> linarith
  refine le_trans tot ?_
  rw [hZt]
  linarith

end WD
