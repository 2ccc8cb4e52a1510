import Verif.Proofs.SqrtStart
import Verif.Proofs.Rootn2
/-
  The start value of the inverse p-th root in floating-point arithmetic.
-/
namespace WD
open DW
variable {c : Cfg} {F : Flt}

theorem rootnShift_near (hp1 : 1 ≤ F.p) {p : ℕ} : ∀ (t n : ℕ) (d : ℚ) (e : ℤ) (a : ℕ) (S : ℚ), t ≤ n → (p : ℤ) ∣ e + t →
    (∀ j : ℕ, j < t → ¬ (p : ℤ) ∣ e + j) → 0 ≤ S → NearF F.u a S d →
    (rootnShift F p n (d, e)).2 = e + t ∧ NearF F.u (a + t) (S / 10 ^ t) (rootnShift F p n (d, e)).1 := by
  intro t
  induction t with
  | zero =>
    intro n d e a S _ hd _ _ hN
    have h0 : e.tmod p = 0 := Int.tmod_eq_zero_of_dvd (by simpa using hd)
    cases n with
    | zero => simpa [rootnShift] using hN
    | succ n =>
      rw [rootnShift, if_neg (by rw [h0]; simp)]
      simpa using hN
  | succ t ih =>
    intro n d e a S hn hd hj hS hN
    obtain ⟨n, rfl⟩ : ∃ m, n = m + 1 := ⟨n - 1, by omega⟩
    have h0 : e.tmod p ≠ 0 := fun h => hj 0 (by omega) (by simpa using Int.dvd_of_tmod_eq_zero h)
    rw [rootnShift, if_pos h0]
    have hN' := F.near_rnd hp1 (by positivity) (hN.const F.u_pos (F.u_lt hp1) (k := 1 / 10) (by norm_num))
    rw [← div_eq_mul_one_div d] at hN'
    obtain ⟨i1, i2⟩ := ih n (F.rnd (d / 10)) (e + 1) (a + 1) (S * (1 / 10)) (by omega) (by
      have : e + 1 + (t : ℤ) = e + ((t + 1 : ℕ) : ℤ) := by push_cast; ring
      rw [this]; exact hd) (by
      intro j hjt
      have := hj (j + 1) (by omega)
      rwa [show e + ((j + 1 : ℕ) : ℤ) = e + 1 + (j : ℤ) by push_cast; ring] at this) (by positivity) hN'
    refine ⟨by rw [i1]; push_cast; ring, ?_⟩
    rw [show a + (t + 1) = a + 1 + t by ring, pow_succ, show S / (10 ^ t * 10) = S * (1 / 10) / 10 ^ t by field_simp]
    exact i2

/-- The number of rounds of the exponent adjustment. -/
theorem shift_count {p : ℕ} (hp : 0 < p) (e : ℤ) : ∃ t : ℕ, t ≤ p - 1 ∧ (p : ℤ) ∣ e + t ∧ ∀ j : ℕ, j < t → ¬ (p : ℤ) ∣ e + j := by
  classical
  have hex : ∃ t : ℕ, (p : ℤ) ∣ e + t := by
    refine ⟨((-e) % p).toNat, ?_⟩
    rw [Int.toNat_of_nonneg (Int.emod_nonneg _ (by omega))]
    have := Int.emod_add_mul_ediv (-e) p
    exact ⟨-((-e) / p), by linarith⟩
  refine ⟨Nat.find hex, ?_, Nat.find_spec hex, fun j hj => Nat.find_min hex hj⟩
  have h1 : Nat.find hex ≤ ((-e) % p).toNat := Nat.find_min' hex (by
    rw [Int.toNat_of_nonneg (Int.emod_nonneg _ (by omega))]
    have := Int.emod_add_mul_ediv (-e) p
    exact ⟨-((-e) / p), by linarith⟩)
  have h2 := Int.emod_lt_of_pos (-e) (show (0 : ℤ) < p by omega)
  omega

/-- Pure arithmetic: powers of rounding factors against their linear parts. -/
theorem near_linear {u w τ : ℚ} (hu0 : 0 < u) (hw0 : 0 ≤ w) (hτ0 : 0 ≤ τ) {n p : ℕ} {S : ℚ} (hS : S = τ + p * w + n * u) (hS1 : S ≤ 1 / 10 ^ 6)
    (hw1 : w ≤ 1 / 2) (hu1 : u ≤ 1 / 2) {y : ℚ}
    (hl : (1 - w) ^ p * (1 - u) ^ n ≤ y) (hu : y * ((1 - τ) * ((1 - w) ^ p * (1 - u) ^ n)) ≤ 1) : |y - 1| ≤ 10001 / 10000 * S := by
  have b1 : 1 + (p : ℚ) * (-w) ≤ (1 + -w) ^ p := one_add_mul_le_pow (by linarith) p
  have b2 : 1 + (n : ℚ) * (-u) ≤ (1 + -u) ^ n := one_add_mul_le_pow (by linarith) n
  rw [← sub_eq_add_neg] at b1 b2
  have hpw : 0 ≤ (p : ℚ) * w := by positivity
  have hnu : 0 ≤ (n : ℚ) * u := by positivity
  have c1 : 0 ≤ 1 - p * w := by linarith
  have c2 : 0 ≤ 1 - n * u := by linarith
  have h1 : (1 + p * -w) * (1 + n * -u) ≤ (1 - w) ^ p * (1 - u) ^ n := mul_le_mul b1 b2 (by linarith) (by linarith)
  have h2 : 1 - p * w - n * u ≤ (1 - w) ^ p * (1 - u) ^ n := by nlinarith
  have h3 : 1 - S ≤ (1 - τ) * ((1 - w) ^ p * (1 - u) ^ n) := by
    have := mul_le_mul_of_nonneg_left h2 (show 0 ≤ 1 - τ by linarith)
    nlinarith
  have hS0 : 0 ≤ S := by linarith
  have hy0 : 0 ≤ y := by linarith
  have h4 := mul_le_mul_of_nonneg_left h3 hy0
  have h5 : y * S ≤ y * (1 / 10 ^ 6) := mul_le_mul_of_nonneg_left hS1 hy0
  have hy1 : y ≤ 10001 / 10000 := by linarith
  have h6 := mul_le_mul_of_nonneg_right hy1 hS0
  rw [abs_le]
  constructor <;> linarith

/-- The quality of the start value in decimal digits, by degree. -/
def rootDigits (p : ℕ) : ℕ := if p ≤ 3 then 14 else if p ≤ 35 then 13 else 12

theorem rootnNum (hF : F.IsDouble) : ∃ K, digitLoops c F = K + 1 ∧ (c.ed = 2 ∧ K = 8 ∨ c.ed = 4 ∧ K = 4 ∨ c.ed = 8 ∧ K = 2) ∧ F.p = 53 ∧
    F.u ≤ 11103 / 10 ^ 20 ∧ 1 / (c.B : ℚ) ^ K = 1 / 10 ^ 16 := by
  refine ⟨digitLoops c F - 1, ?_⟩
  unfold digitLoops Cfg.ed Flt.u Cfg.B
  obtain ⟨h1, h2, h3⟩ := hF
  rw [h1, h3]
  cases c.L <;> refine ⟨by decide, by decide, by decide, by norm_num [zpow_neg], by norm_num [zpow_neg, Limb.ed, Limb.mask]⟩

theorem rootn_start_bound {u : ℚ} (hu0 : 0 < u) (hu : u ≤ 11103 / 10 ^ 20) {ed K : ℕ} (h : ed = 2 ∧ K = 8 ∨ ed = 4 ∧ K = 4 ∨ ed = 8 ∧ K = 2) {p : ℕ} (p3 : 3 ≤ p)
    (p300 : p ≤ 300) : 10001 / 10000 * (1 / 10 ^ 16 + p * (2 * u + 1 / 10 ^ 16) + ((p * ed + 5 * p + (K + 1 + 3 + (p - 1)) : ℕ) : ℚ) * u) ≤
      17 / 25 * (1 / 10 ^ rootDigits p) := by
  have hn : p * ed + 5 * p + (K + 1 + 3 + (p - 1)) ≤ 14 * p + 5 := by
    rcases h with ⟨rfl, rfl⟩ | ⟨rfl, rfl⟩ | ⟨rfl, rfl⟩ <;> omega
  have hn' : ((p * ed + 5 * p + (K + 1 + 3 + (p - 1)) : ℕ) : ℚ) ≤ 14 * p + 5 := by exact_mod_cast hn
  have hpq : (3 : ℚ) ≤ p := by exact_mod_cast p3
  have hpq3 : (p : ℚ) ≤ 300 := by exact_mod_cast p300
  have h1 : ((p * ed + 5 * p + (K + 1 + 3 + (p - 1)) : ℕ) : ℚ) * u ≤ (14 * p + 5) * (11103 / 10 ^ 20) := mul_le_mul hn' hu hu0.le (by linarith)
  have h2 : (p : ℚ) * (2 * u + 1 / 10 ^ 16) ≤ p * (2 * (11103 / 10 ^ 20) + 1 / 10 ^ 16) := mul_le_mul_of_nonneg_left (by linarith) (by linarith)
  clear hn hn' h
  generalize ((p * ed + 5 * p + (K + 1 + 3 + (p - 1)) : ℕ) : ℚ) * u = y at *
  unfold rootDigits
  split_ifs with a1 a2
  · have h3 : (p : ℚ) ≤ 3 := by exact_mod_cast a1
    generalize (p : ℚ) = P at *
    generalize P * (2 * u + 1 / 10 ^ 16) = z at *
    norm_num at *
    linarith
  · have h3 : (p : ℚ) ≤ 35 := by exact_mod_cast a2
    generalize (p : ℚ) = P at *
    generalize P * (2 * u + 1 / 10 ^ 16) = z at *
    norm_num at *
    linarith
  · generalize (p : ℚ) = P at *
    generalize P * (2 * u + 1 / 10 ^ 16) = z at *
    norm_num at *
    linarith

theorem one_sub_pow_mul {u : ℚ} (hu0 : 0 ≤ u) (hu1 : u ≤ 1) (a : ℕ) : (1 + u) ^ a * (1 - u) ^ a ≤ 1 := by
  rw [← mul_pow]
  exact pow_le_one₀ (mul_nonneg (by linarith) (by linarith)) (by nlinarith)

/-- Pure arithmetic: the error of the start value. -/
theorem rootn_compose {u w τ : ℚ} (hu0 : 0 < u) (hu1 : u ≤ 1 / 2) (hw0 : 0 ≤ w) (hw1 : w ≤ 1 / 2) (hτ0 : 0 ≤ τ) (hτ1 : τ ≤ 1) {p a b : ℕ} {X x d σ q s T : ℚ} (hT : 0 < T)
    (hX : 0 < X) (hxl : X ≤ x) (hxu : x < X * (1 + τ)) (hd : NearF u a (X / T ^ p) d) (hd0 : 0 < d) (hσ0 : 0 < σ) (hσ1 : (1 - u) ^ (5 * p) ≤ d * σ ^ p)
    (hσ2 : d * σ ^ p ≤ (1 + u) ^ (5 * p)) (hq0 : 0 < q) (hq : NearF u b (σ / T) q) (hs : |s - q| ≤ q * w) (hs0 : 0 < s) {S : ℚ}
    (hS : S = τ + p * w + ((p * b + 5 * p + a : ℕ) : ℚ) * u) (hS1 : S ≤ 1 / 10 ^ 6) :
    |x * s ^ p - 1| ≤ 10001 / 10000 * S := by
  have hu2 : 0 ≤ 1 - u := by linarith
  have hw2 : 0 ≤ 1 - w := by linarith
  obtain ⟨s1, s2⟩ := abs_le.mp hs
  have hTp : 0 < T ^ p := pow_pos hT p
  have e1 : (1 - u) ^ (p * b + 5 * p + a) = ((1 - u) ^ b) ^ p * (1 - u) ^ (5 * p) * (1 - u) ^ a := by
    rw [pow_add, pow_add, ← pow_mul, mul_comm b p]
  have pb := pow_nonneg hu2 b
  have pa := pow_nonneg hu2 a
  have p5 := pow_nonneg hu2 (5 * p)
  have pbp := pow_nonneg pb p
  have pw := pow_nonneg hw2 p
  have hXT : 0 < X / T ^ p := by positivity
  have hσT : (σ / T) ^ p = σ ^ p / T ^ p := div_pow _ _ _
  have hσp : 0 < σ ^ p := pow_pos hσ0 p
  have hx0 : 0 < x := by linarith
  apply near_linear hu0 hw0 hτ0 hS hS1 hw1 hu1
  · have h1 : (1 - w) * (1 - u) ^ b * (σ / T) ≤ s := by
      have := mul_le_mul_of_nonneg_left hq.1 hw2
      linarith
    have h2 : ((1 - w) * (1 - u) ^ b * (σ / T)) ^ p ≤ s ^ p := pow_le_pow_left₀ (by positivity) h1 p
    rw [mul_pow, mul_pow, hσT] at h2
    have h3 : d * (1 - u) ^ a ≤ X / T ^ p := by
      have k1 := mul_le_mul_of_nonneg_right hd.2 pa
      have k2 := mul_le_mul_of_nonneg_right (one_sub_pow_mul hu0.le (by linarith) a) hXT.le
      linarith
    have h4 : X * ((1 - w) ^ p * ((1 - u) ^ b) ^ p * (σ ^ p / T ^ p)) ≤ x * s ^ p := mul_le_mul hxl h2 (by positivity) hx0.le
    refine le_trans ?_ h4
    rw [e1]
    have e2 : X * ((1 - w) ^ p * ((1 - u) ^ b) ^ p * (σ ^ p / T ^ p)) = (1 - w) ^ p * ((1 - u) ^ b) ^ p * σ ^ p * (X / T ^ p) := by ring
    rw [e2]
    have h5 : (1 - w) ^ p * ((1 - u) ^ b) ^ p * σ ^ p * (d * (1 - u) ^ a) ≤ (1 - w) ^ p * ((1 - u) ^ b) ^ p * σ ^ p * (X / T ^ p) :=
      mul_le_mul_of_nonneg_left h3 (by positivity)
    refine le_trans ?_ h5
    have h6 : (1 - w) ^ p * ((1 - u) ^ b) ^ p * (1 - u) ^ a * (1 - u) ^ (5 * p) ≤ (1 - w) ^ p * ((1 - u) ^ b) ^ p * (1 - u) ^ a * (d * σ ^ p) :=
      mul_le_mul_of_nonneg_left hσ1 (by positivity)
    linarith
  · have h1 : s * ((1 - w) * (1 - u) ^ b) ≤ σ / T := by
      have k1 : s * (1 - w) ≤ q := by
        have := mul_le_mul_of_nonneg_right (show s ≤ q + q * w by linarith) hw2
        have : 0 ≤ q * w * w := by positivity
        linarith
      have k2 := mul_le_mul_of_nonneg_right k1 pb
      have k3 := mul_le_mul_of_nonneg_right hq.2 pb
      have k4 := mul_le_mul_of_nonneg_right (one_sub_pow_mul hu0.le (by linarith) b) (show 0 ≤ σ / T by positivity)
      linarith
    have h2 : (s * ((1 - w) * (1 - u) ^ b)) ^ p ≤ (σ / T) ^ p := pow_le_pow_left₀ (by positivity) h1 p
    rw [mul_pow, mul_pow, hσT] at h2
    have h3 : x * (1 - τ) ≤ X := by
      have k1 := mul_le_mul_of_nonneg_right hxu.le (show 0 ≤ 1 - τ by linarith)
      have : 0 ≤ X * τ * τ := by positivity
      linarith
    rw [e1]
    have e2 : x * s ^ p * ((1 - τ) * ((1 - w) ^ p * (((1 - u) ^ b) ^ p * (1 - u) ^ (5 * p) * (1 - u) ^ a))) =
        x * (1 - τ) * (s ^ p * ((1 - w) ^ p * ((1 - u) ^ b) ^ p)) * ((1 - u) ^ (5 * p) * (1 - u) ^ a) := by ring
    rw [e2]
    have h4 : x * (1 - τ) * (s ^ p * ((1 - w) ^ p * ((1 - u) ^ b) ^ p)) ≤ X * (σ ^ p / T ^ p) := mul_le_mul h3 h2 (by positivity) hX.le
    have h5 := mul_le_mul_of_nonneg_right h4 (show 0 ≤ (1 - u) ^ (5 * p) * (1 - u) ^ a by positivity)
    refine h5.trans ?_
    have h6 : (1 - u) ^ a * (X / T ^ p) * (σ ^ p * (1 - u) ^ (5 * p)) ≤ d * (σ ^ p * (1 - u) ^ (5 * p)) := mul_le_mul_of_nonneg_right hd.1 (by positivity)
    have h7 := mul_le_mul_of_nonneg_right hσ2 p5
    have h8 := one_sub_pow_mul hu0.le (show u ≤ 1 by linarith) (5 * p)
    have e3 : X * (σ ^ p / T ^ p) * ((1 - u) ^ (5 * p) * (1 - u) ^ a) = (1 - u) ^ a * (X / T ^ p) * (σ ^ p * (1 - u) ^ (5 * p)) := by ring
    rw [e3]
    linarith

/-- The start value: it exists, is well formed, and has the stated quality, unless the floating-point root is exactly ten and
    the limb radix divides the scaled result. -/
theorem rootn_start_ok (hF : F.IsDouble) {pw : ℕ → ℚ → ℚ} (hpw : F.IsInvRoot pw) {x : DW} (hx : Posi c x) (hK : digitLoops c F ≤ c.N) {p : ℕ} (p3 : 3 ≤ p)
    (p300 : p ≤ 300) (hoff : (∀ k : ℤ, 1 / 10 ^ 12 < |x.val c * 10 ^ ((c.ed : ℤ) * k * p) - 1|) ∨ pw p (rootnShift F p p (extractParts c F x)).1 ≠ 10) :
    ∃ r, rootnStart c F pw p x = some r ∧ Posi c r ∧ r.prec = c.N ∧ |x.val c * r.val c ^ p - 1| ≤ 17 / 25 * (1 / 10 ^ rootDigits p) := by
  obtain ⟨K, hKe, hKed, hFp, hu, hτe⟩ := rootnNum (c := c) hF
  have hK1 : 1 ≤ K := by omega
  have hp1 : 1 ≤ F.p := by omega
  have hu0 := F.u_pos
  have hu1 := F.u_lt hp1
  have hB : (0 : ℚ) < c.B := by exact_mod_cast c.B_pos
  obtain ⟨p1, p2⟩ := extractParts_near (c := c) (F := F) hp1 hx (by omega) hK
  rw [hKe] at p2 hK
  have hX := hx.toWF.absp_pos hx.nz (p := K + 1) (by omega) hK
  have hxl := hx.toWF.absp_le (p := K + 1) hK
  have hxu := hx.toWF.lt_absp_rel hx.nz (p := K + 1) (by omega) hK
  rw [eta_eq, hx.abs_val, hτe] at hxu
  rw [hx.abs_val] at hxl
  obtain ⟨l1, l2⟩ := hx.toWF.absp_limb (p := K + 1) (by omega) hK
  have hd0 : 0 < x.d0 := by
    have := hx.nz
    unfold isZero at this
    simp at this
    omega
  obtain ⟨o3, o2, o1⟩ := orderOf_digits x.d0
  have o2' := o2 hd0
  have hpx := p10_pos x.exp
  set o := orderOf x.d0 with ho
  set X := x.absp c (K + 1) with hXdef
  obtain ⟨dd, hdd⟩ : ∃ dd, dd = (extractParts c F x).1 := ⟨_, rfl⟩
  obtain ⟨ne, hne⟩ : ∃ ne : ℤ, ne = (o : ℤ) + x.exp := ⟨_, rfl⟩
  rw [← hdd] at p2
  rw [← hne] at p1 p2
  have hnep := p10_pos ne
  have e10 : (10 : ℚ) ^ ne = 10 ^ o * 10 ^ x.exp := by rw [hne, zpow_add₀ (by norm_num), zpow_natCast]
  have S1 : 1 / 10 ≤ X / 10 ^ ne := by
    rw [le_div_iff₀ hnep, e10]
    have h1 : (10 : ℚ) ^ (o - 1) ≤ x.d0 := by exact_mod_cast o2'
    have h2 : (10 : ℚ) ^ o = 10 * 10 ^ (o - 1) := by
      rw [← pow_succ', Nat.sub_add_cancel o1]
    rw [h2]
    have := mul_le_mul_of_nonneg_right h1 hpx.le
    linarith
  have S2 : X / 10 ^ ne < 1 := by
    rw [div_lt_iff₀ hnep, e10, one_mul]
    have h1 : (x.d0 : ℚ) + 1 ≤ 10 ^ o := by exact_mod_cast o3
    exact lt_of_lt_of_le l2 (mul_le_mul_of_nonneg_right h1 hpx.le)
  have hpe : extractParts c F x = (dd, ne) := Prod.ext hdd.symm p1
  -- the exponent becomes a multiple of p
  obtain ⟨t, tp, td, tm⟩ := shift_count (p := p) (by omega) ne
  obtain ⟨z1, z2⟩ := rootnShift_near (F := F) hp1 (p := p) t p dd ne (K + 1 + 3) (X / 10 ^ ne) (by omega) td tm (by linarith) p2
  rw [hpe] at hoff
  obtain ⟨D, hD⟩ : ∃ D, D = rootnShift F p p (dd, ne) := ⟨_, rfl⟩
  rw [← hD] at z1 z2 hoff
  obtain ⟨h, hh⟩ := td
  have hT0 := p10_pos h
  have hTp : ((10 : ℚ) ^ h) ^ p = 10 ^ ne * 10 ^ t := by
    rw [← zpow_natCast, ← zpow_mul, mul_comm, ← hh, zpow_add₀ (by norm_num), zpow_natCast]
  have hXT : X / 10 ^ ne / 10 ^ t = X / ((10 : ℚ) ^ h) ^ p := by rw [hTp, div_div]
  rw [hXT] at z2
  have hXT0 : 0 < X / ((10 : ℚ) ^ h) ^ p := by positivity
  have z3 : NearF F.u (K + 1 + 3 + (p - 1)) (X / ((10 : ℚ) ^ h) ^ p) D.1 := z2.mono hu0 hu1 (by omega) hXT0.le
  have hD0 := z3.pos hu0 hu1 hXT0
  -- size of the argument
  have hpq : (3 : ℚ) ≤ p := by exact_mod_cast p3
  have hpq3 : (p : ℚ) ≤ 300 := by exact_mod_cast p300
  have hn14 : (K + 1 + 3 + (p - 1) : ℕ) ≤ 400 := by omega
  have hun : 9 / 10 ≤ (1 - F.u) ^ (K + 1 + 3 + (p - 1)) ∧ (1 + F.u) ^ (K + 1 + 3 + (p - 1)) ≤ 11 / 10 + 1 / 50 := by
    have b2 : 1 + ((K + 1 + 3 + (p - 1) : ℕ) : ℚ) * (-F.u) ≤ (1 + -F.u) ^ (K + 1 + 3 + (p - 1)) := one_add_mul_le_pow (by linarith) _
    rw [← sub_eq_add_neg] at b2
    have h4 : ((K + 1 + 3 + (p - 1) : ℕ) : ℚ) ≤ 400 := by exact_mod_cast hn14
    have h5 := mul_le_mul h4 hu hu0.le (by norm_num)
    have h6 : 9 / 10 ≤ (1 - F.u) ^ (K + 1 + 3 + (p - 1)) := by linarith
    refine ⟨h6, ?_⟩
    have h7 := one_sub_pow_mul hu0.le hu1.le (K + 1 + 3 + (p - 1))
    have h8 : 0 ≤ (1 + F.u) ^ (K + 1 + 3 + (p - 1)) := by positivity
    have := mul_le_mul_of_nonneg_left h6 h8
    linarith
  have hup : X / ((10 : ℚ) ^ h) ^ p ≤ 1 := by
    rw [← hXT]
    exact (div_le_self (by linarith) (one_le_pow₀ (by norm_num))).trans S2.le
  have hlo : 1 / 10 ^ p ≤ X / ((10 : ℚ) ^ h) ^ p := by
    rw [← hXT]
    have : (10 : ℚ) ^ p = 10 * 10 ^ (p - 1) := by rw [← pow_succ', Nat.sub_add_cancel (by omega)]
    rw [this, ← div_div]
    exact div_le_div₀ (by linarith) S1 (by positivity) (pow_le_pow_right₀ (by norm_num) tp)
  have h10p : (0 : ℚ) < 10 ^ p := by positivity
  have dlo : 9 / 10 * (1 / 10 ^ p) ≤ D.1 := le_trans (mul_le_mul hun.1 hlo (by positivity) (by linarith [hun.1])) z3.1
  have dhi : D.1 ≤ 2 := by
    have := mul_le_mul hun.2 hup hXT0.le (by norm_num)
    linarith [z3.2]
  obtain ⟨r1, r2, r3, r4⟩ := hpw p D.1 p3 (by
    refine le_trans ?_ dlo
    rw [one_div, mul_inv, ← one_div, ← one_div]
    have : 0 < 1 / (10 : ℚ) ^ p := by positivity
    linarith) dhi
  change (1 - F.u) ^ (5 * p) ≤ _ at r3
  change _ ≤ (1 + F.u) ^ (5 * p) at r4
  obtain ⟨σ, hσ⟩ : ∃ σ, σ = pw p D.1 := ⟨_, rfl⟩
  rw [← hσ] at r1 r2 r3 r4 hoff
  have hu5 : 9 / 10 ≤ (1 - F.u) ^ (5 * p) ∧ (1 + F.u) ^ (5 * p) ≤ 11 / 10 + 1 / 50 := by
    have b2 : 1 + ((5 * p : ℕ) : ℚ) * (-F.u) ≤ (1 + -F.u) ^ (5 * p) := one_add_mul_le_pow (by linarith) _
    rw [← sub_eq_add_neg] at b2
    have h4 : ((5 * p : ℕ) : ℚ) ≤ 1500 := by push_cast; linarith
    have h5 := mul_le_mul h4 hu hu0.le (by norm_num)
    have h6 : 9 / 10 ≤ (1 - F.u) ^ (5 * p) := by linarith
    refine ⟨h6, ?_⟩
    have h7 := one_sub_pow_mul hu0.le hu1.le (5 * p)
    have h8 : 0 ≤ (1 + F.u) ^ (5 * p) := by positivity
    have := mul_le_mul_of_nonneg_left h6 h8
    linarith
  have hσp := pow_pos r2 p
  have σl : 1 / 2 ≤ σ := by
    by_contra hc
    push Not at hc
    have h1 : σ ^ p ≤ (1 / 2) ^ p := pow_le_pow_left₀ r2.le hc.le p
    have h2 : (1 / 2 : ℚ) ^ p ≤ (1 / 2) ^ 3 := pow_le_pow_of_le_one (by norm_num) (by norm_num) p3
    have h3 : D.1 * σ ^ p ≤ 2 * (1 / 2) ^ 3 := mul_le_mul dhi (h1.trans h2) hσp.le (by norm_num)
    norm_num at h3
    linarith [hu5.1]
  have σu : σ ≤ 20 := by
    by_contra hc
    push Not at hc
    have h1 : (20 : ℚ) ^ p ≤ σ ^ p := pow_le_pow_left₀ (by norm_num) hc.le p
    have h2 : (2 : ℚ) ^ 3 ≤ 2 ^ p := pow_le_pow_right₀ (by norm_num) p3
    have h3 : (20 : ℚ) ^ p = 2 ^ p * 10 ^ p := by rw [← mul_pow]; norm_num
    have h4 : 9 / 10 * (1 / 10 ^ p) * 20 ^ p ≤ D.1 * σ ^ p := mul_le_mul dlo h1 (by positivity) hD0.le
    have h5 : 9 / 10 * (1 / (10 : ℚ) ^ p) * 20 ^ p = 9 / 10 * 2 ^ p := by rw [h3]; field_simp
    rw [h5] at h4
    linarith [hu5.2]
  have hDh : (-D.2).tdiv (p : ℤ) = -h := by
    rw [z1, hh, ← mul_neg]
    exact Int.mul_tdiv_cancel_left _ (by omega)
  have hbad : σ = 10 → (-h) % c.ed ≠ (c.ed : ℤ) - 1 := by
    intro h10 hmod
    rcases hoff with ho | ho
    · have hem := Int.emod_add_mul_ediv (-h) c.ed
      rw [hmod] at hem
      have hk := ho ((-h) / c.ed + 1)
      obtain ⟨S, hS⟩ : ∃ S : ℚ, S = 1 / 10 ^ 16 + p * 0 + ((p * 0 + 5 * p + (K + 1 + 3 + (p - 1)) : ℕ) : ℚ) * F.u := ⟨_, rfl⟩
      have hSb : S ≤ 1 / 10 ^ 12 / 2 := by
        have h4 : ((p * 0 + 5 * p + (K + 1 + 3 + (p - 1)) : ℕ) : ℚ) ≤ 1900 := by
          have : p * 0 + 5 * p + (K + 1 + 3 + (p - 1)) ≤ 1900 := by omega
          exact_mod_cast this
        have h5 := mul_le_mul h4 hu hu0.le (by norm_num)
        rw [hS]
        linarith
      have hcmp := rootn_compose (u := F.u) (w := 0) (τ := 1 / 10 ^ 16) hu0 (by linarith) le_rfl (by norm_num) (by norm_num) (by norm_num) (p := p) (a := K + 1 + 3 + (p - 1)) (b := 0)
        (T := 10 ^ h) (s := σ / 10 ^ h) hT0 hX hxl hxu z3 hD0 r2 r3 r4 (by positivity) (near_refl hu0 hu1) (by simp) (by positivity) hS (by linarith)
      have hexp : (σ / 10 ^ h) ^ p = (10 : ℚ) ^ ((c.ed : ℤ) * ((-h) / c.ed + 1) * p) := by
        rw [h10, zpow_mul, zpow_natCast]
        congr 1
        rw [div_eq_mul_inv, ← zpow_neg, mul_comm, ← zpow_add_one₀ (by norm_num)]
        congr 1
        linarith
      rw [hexp] at hcmp
      linarith
    · exact ho h10
  obtain ⟨s, hs1, hs2, hs3, q, hs4, hs5, hs6⟩ := ofMantExp_spec (c := c) (F := F) (m := σ) (e := -h) (by omega) r1 σl σu hKe hK hbad
  have hq := hs5 0 σ r2.le (near_refl hu0 hu1)
  rw [zero_add, zpow_neg, ← div_eq_mul_inv] at hq
  rw [hτe] at hs6
  refine ⟨s, ?_, hs2, hs3, ?_⟩
  · unfold rootnStart
    simp only [hpe]
    rw [← hD, if_neg (by linarith), hDh, ← hσ]
    exact hs1
  · have hbnd := rootn_start_bound hu0 hu hKed p3 p300
    have hfin := rootn_compose (u := F.u) (w := 2 * F.u + 1 / 10 ^ 16) (τ := 1 / 10 ^ 16) hu0 (by linarith) (by linarith) (by linarith) (by norm_num) (by norm_num) (p := p)
      (a := K + 1 + 3 + (p - 1)) (b := c.ed) (T := 10 ^ h) hT0 hX hxl hxu z3 hD0 r2 r3 r4 hs4 hq hs6 hs2.val_pos rfl (by
        have h12 : 17 / 25 * (1 / (10 : ℚ) ^ rootDigits p) ≤ 1 / 10 ^ 6 := by
          unfold rootDigits; split_ifs <;> norm_num
        linarith)
    exact hfin.trans hbnd

end WD
