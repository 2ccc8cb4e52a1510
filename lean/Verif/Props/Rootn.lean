import Verif.Proofs.RootnStart
import Verif.Props.Radix
import Verif.Props.FloatK
import Verif.Props.Exp
import Mathlib.Analysis.SpecialFunctions.Pow.Real
/-
  C55: `rootn`, `cbrt` and `rootn_inv`.
-/
namespace WD
open DW

/-- From the p-th power back to the root. -/
theorem root_of_power {u ε : ℝ} (hu : 0 < u) {p : ℕ} (hp : 1 ≤ p) (hε : |u ^ p - 1| ≤ ε) (h1 : ε < 1) : |u - 1| * (p * (1 - ε)) ≤ ε := by
  have hg : u ^ p - 1 = (u - 1) * ∑ i ∈ Finset.range p, u ^ i := by rw [mul_comm, geom_sum_mul]
  have hε0 : 0 ≤ ε := (abs_nonneg _).trans hε
  have hs : (p : ℝ) * (1 - ε) ≤ ∑ i ∈ Finset.range p, u ^ i := by
    have : ∑ _i ∈ Finset.range p, (1 - ε) ≤ ∑ i ∈ Finset.range p, u ^ i := by
      refine Finset.sum_le_sum fun i hi => ?_
      rcases le_or_gt 1 u with h | h
      · have := one_le_pow₀ h (n := i); linarith
      · have : u ^ p ≤ u ^ i := pow_le_pow_of_le_one hu.le h.le (Finset.mem_range.mp hi).le
        have := (abs_le.mp hε).1
        linarith
    rwa [Finset.sum_const, Finset.card_range, nsmul_eq_mul] at this
  have hs0 : 0 < ∑ i ∈ Finset.range p, u ^ i := Finset.sum_pos (fun i _ => pow_pos hu i) ⟨0, by simp; omega⟩
  calc |u - 1| * (p * (1 - ε)) ≤ |u - 1| * ∑ i ∈ Finset.range p, u ^ i := mul_le_mul_of_nonneg_left hs (abs_nonneg _)
    _ = |u ^ p - 1| := by rw [hg, abs_mul, abs_of_pos hs0]
    _ ≤ ε := hε

/-- The exponent of a number y whose p-th power is about 1/x. -/
theorem root_exp {c : Cfg} {x r : DW} {p : ℕ} (hp : 1 ≤ p) (hx : Posi c x) (hr : Posi c r) (h : |x.val c * r.val c ^ p - 1| ≤ 1 / 2) {b : ℤ} (hb0 : 0 < b)
    (h1 : x.exp + c.ed + 1 ≤ b) (h2 : -x.exp + 1 ≤ b) : -b - c.ed ≤ r.exp ∧ r.exp ≤ b := by
  have hxp := hx.val_pos
  have hrp := hr.val_pos
  have xa := hx.toWF.abs_ge hx.nz
  have xb := hx.toWF.abs_lt
  have ra := hr.toWF.abs_ge hr.nz
  have rb := hr.toWF.abs_lt
  rw [hx.abs_val] at xa xb
  rw [hr.abs_val] at ra rb
  obtain ⟨l, u⟩ := abs_le.mp h
  constructor
  · by_contra hc
    push Not at hc
    have hlt : r.val c < 10 ^ (-b) := rb.trans_le (zpow_le_zpow_right₀ (by norm_num) (by omega))
    have h1' : r.val c ≤ 1 := hlt.le.trans (by rw [zpow_neg]; exact inv_le_one_of_one_le₀ (one_le_zpow₀ (by norm_num) hb0.le))
    have hpow : r.val c ^ p ≤ r.val c := by
      have := pow_le_pow_of_le_one hrp.le h1' hp
      simpa using this
    have hlt2 : x.val c * r.val c ^ p < 10 ^ (x.exp + c.ed) * 10 ^ (-b) := mul_lt_mul'' xb (hpow.trans_lt hlt) hxp.le (by positivity)
    rw [← zpow_add₀ (by norm_num)] at hlt2
    have : (10 : ℚ) ^ (x.exp + c.ed + -b) ≤ 10 ^ (-1 : ℤ) := zpow_le_zpow_right₀ (by norm_num) (by omega)
    norm_num at this hlt2
    linarith
  · by_contra hc
    push Not at hc
    have hge : (10 : ℚ) ^ (b + 1) ≤ r.val c := (zpow_le_zpow_right₀ (by norm_num) (by omega)).trans ra
    have h1' : 1 ≤ r.val c := (one_le_zpow₀ (by norm_num) (by omega)).trans hge
    have hpow : r.val c ≤ r.val c ^ p := le_self_pow₀ h1' (by omega)
    have hlt2 : 10 ^ x.exp * 10 ^ (b + 1) ≤ x.val c * r.val c ^ p := mul_le_mul xa (hge.trans hpow) (by positivity) hxp.le
    rw [← zpow_add₀ (by norm_num)] at hlt2
    have : (10 : ℚ) ^ (1 : ℤ) ≤ 10 ^ (x.exp + (b + 1)) := zpow_le_zpow_right₀ (by norm_num) (by omega)
    norm_num at this hlt2
    linarith

/-- What is needed of a configuration, a floating-point type and an argument: double; enough limbs to hold one, few enough for the
    Karatsuba and schoolbook multiplication (no FFT); at least 16 digits; a degree p from 3 to 300 (8-bit limbs: 3 only) below
    the radix; an exponent more than (N+6) limbs inside the exponent range. -/
structure RootOk (c : Cfg) (F : Flt) (p : ℕ) (e : ℤ) : Prop where
  hF : F.IsDouble
  hK : digitLoops c F ≤ c.N
  hok : MulOkAll c
  lo : 16 ≤ c.digits10
  p3 : 3 ≤ p
  p300 : p ≤ 300
  p8 : c.ed = 2 → p = 3
  hlo : -e + (c.N + 6) * c.ed < c.maxExp
  hhi : e + (c.N + 6) * c.ed < c.maxExp

/-- The guard: either x is not within a relative distance of 10^(-12) of a power of the radix whose exponent is a multiple of
    p, or `std::pow` does not return exactly ten in the start value. -/
def RootOff (c : Cfg) (F : Flt) (pw : ℕ → ℚ → ℚ) (p : ℕ) (x : DW) : Prop :=
  (∀ k : ℤ, 1 / 10 ^ 12 < |x.val c * 10 ^ ((c.ed : ℤ) * k * p) - 1|) ∨ pw p (rootnShift F p p (extractParts c F x)).1 ≠ 10

variable {c : Cfg} {F : Flt} {pw : ℕ → ℚ → ℚ} {x : DW}

theorem rootn_inv_core {p : ℕ} (hc : RootOk c F p x.exp) (hpw : F.IsInvRoot pw) (hx : Full c x) (hx0 : 0 < x.val c) (hoff : RootOff c F pw p x)
    (est : DW → DW) :
    ∃ r k, calcRootnInv c est F.digits10 (rootnStart c F pw) p x = some r ∧ Full c r ∧ Posi c r ∧ c.N * c.ed ≤ 14 * 2 ^ k ∧
      |x.val c * r.val c ^ p - 1| ≤ 17 / 25 * (1 / 10 ^ (rootDigits p * 2 ^ k)) + 11 * (p * eta c c.N) := by
  have px := posi_of_val hx.toWF hx0
  have p3 := hc.p3
  have hd := hc.lo
  have h2 := two_le_ed c
  obtain ⟨r0, e0, q0, f0, b0⟩ := rootn_start_ok hc.hF hpw px hc.hK hc.p3 hc.p300 hoff
  have hη := eta_N_digits c
  have hη0 := eta_pos c c.N
  have hm : p * eta c c.N ≤ 1 / 10 ^ 14 := by
    have h1 : (1 : ℚ) / 10 ^ (c.digits10 + 2 * c.ed) ≤ 1 / 10 ^ 20 := one_div_le_one_div_of_le (by positivity) (pow_le_pow_right₀ (by norm_num) (by omega))
    have h3 : (p : ℚ) ≤ 300 := by exact_mod_cast hc.p300
    calc p * eta c c.N ≤ 300 * (1 / 10 ^ 20) := mul_le_mul h3 (hη.trans h1) hη0.le (by norm_num)
      _ ≤ _ := by norm_num
  have hfd : F.digits10 = 15 := hc.hF.2.1
  have hB : p < c.B := by
    rw [c.B_eq]
    have hcases : c.ed = 2 ∨ c.ed = 4 ∨ c.ed = 8 := by
      obtain ⟨L, _, _⟩ := c; cases L <;> simp [Cfg.ed, Limb.ed]
    rcases hcases with h | h | h
    · rw [h, hc.p8 h]; norm_num
    · rw [h]; have := hc.p300; norm_num; omega
    · rw [h]; have := hc.p300; norm_num; omega
  have hdeg : RootDeg c 14 p := by
    refine ⟨p3, hB, ?_⟩
    by_cases h : c.ed = 2
    · left; exact (hc.p8 h).le
    · right; exact ⟨hc.p300, h, by decide⟩
  have hAd : 12 ≤ rootDigits p ∧ rootDigits p ≤ 14 := by unfold rootDigits; split_ifs <;> omega
  have hpη : 0 ≤ p * eta c c.N := by positivity
  obtain ⟨s1, k, s2, s3⟩ := rootnLoop_spec (c := c) (est := est) (fdig := F.digits10) hc.hok (x.prec * c.ed) hAd.1 hAd.2 (le_refl 14) hdeg hm (x.prec * c.ed) 0 x r0
    (by omega) px q0 hc.hhi hc.hlo (by rw [pow_zero, mul_one]; linarith)
  rw [hx.full] at s1 s2 s3
  norm_num at s1 s3
  refine ⟨{ rootnLoop c est F.digits10 p (c.N * c.ed) 14 r0 x with prec := c.N }, k, ?_, ?_, ?_, s2, ?_⟩
  · unfold calcRootnInv
    rw [if_neg (by omega), if_neg (by omega), Int.toNat_natCast, e0, hx.full]
    simp only [Option.map_some, hfd]
  · exact ⟨(s1.setPrec (by have := c.three_le_N; omega) le_rfl).toWF, rfl⟩
  · exact s1.setPrec (by have := c.three_le_N; omega) le_rfl
  · rw [one_div]; exact s3

/-- The reciprocal p-th root, as a real number. -/
theorem root_pow {x : ℝ} (hx : 0 < x) {p : ℕ} (hp : p ≠ 0) : 0 < x ^ (-(1 / (p : ℝ))) ∧ x * (x ^ (-(1 / (p : ℝ)))) ^ p = 1 := by
  have h0 : 0 < x ^ (-(1 / (p : ℝ))) := Real.rpow_pos_of_pos hx _
  refine ⟨h0, ?_⟩
  rw [← Real.rpow_natCast, ← Real.rpow_mul hx.le]
  have : -(1 / (p : ℝ)) * (p : ℝ) = -1 := by
    have : (p : ℝ) ≠ 0 := by exact_mod_cast hp
    field_simp
  rw [this, Real.rpow_neg hx.le, Real.rpow_one]
  field_simp

theorem rootn_real {x r E η : ℝ} (hx : 0 < x) (hr : 0 < r) {p : ℕ} (hp : 3 ≤ p) (hE0 : 0 < E) (hE : E ≤ 1 / 10 ^ 12) (hη0 : 0 < η) (hη : p * η ≤ 1 / 10 ^ 14)
    (h : |x * r ^ p - 1| ≤ 17 / 25 * E + 11 * (p * η)) :
    |r - x ^ (-(1 / (p : ℝ)))| ≤ x ^ (-(1 / (p : ℝ))) * (1 / 4 * E + 12 * η) := by
  obtain ⟨h0, h1⟩ := root_pow hx (p := p) (by omega)
  generalize x ^ (-(1 / (p : ℝ))) = ρ at *
  have hu : 0 < r / ρ := div_pos hr h0
  have hpow : (r / ρ) ^ p = x * r ^ p := by
    rw [div_pow, div_eq_iff (by positivity)]
    calc r ^ p = r ^ p * (x * ρ ^ p) := by rw [h1, mul_one]
      _ = _ := by ring
  have hp3 : (3 : ℝ) ≤ p := by exact_mod_cast hp
  rw [← hpow] at h
  have hε : 17 / 25 * E + 11 * (p * η) ≤ 1 / 10 ^ 6 := by norm_num at hE hη ⊢; linarith
  have k := root_of_power hu (by omega) h (by linarith)
  have key : |r / ρ - 1| ≤ 1 / 4 * E + 12 * η := by
    by_contra hc
    push Not at hc
    have hpη : 0 < p * η := by positivity
    have a1 : (1 / 4 * E + 12 * η) * p ≤ |r / ρ - 1| * p := mul_le_mul_of_nonneg_right hc.le (by positivity)
    have a2 : 3 / 4 * E + 12 * (p * η) ≤ (1 / 4 * E + 12 * η) * p := by
      have := mul_le_mul_of_nonneg_left hp3 hE0.le
      linarith
    have a3 : (3 / 4 * E + 12 * (p * η)) * (1 - 1 / 10 ^ 6) ≤ |r / ρ - 1| * p * (1 - (17 / 25 * E + 11 * (p * η))) :=
      mul_le_mul (a2.trans a1) (by linarith) (by norm_num) (by positivity)
    rw [← mul_assoc] at k
    norm_num at a3
    linarith
  have e : r - ρ = ρ * (r / ρ - 1) := by field_simp
  rw [e, abs_mul, abs_of_pos h0]
  exact mul_le_mul_of_nonneg_left key h0.le

/-- C55 for `rootn_inv`: for every x > 0 and every degree p from 3 to 300 the result r is a proper full-precision positive
    number with |r - x^(-1/p)| ≤ x^(-1/p)·(10^(-A·2^k)/4 + 12·10^(-(digits10+2·ed))), where k is the number of rounds, so that
    14·2^k is at least the number N·ed of stored digits, and A is 14 for p = 3, 13 for p ≤ 35, else 12. Missing for the full
    property: the guards in `RootOk` and `RootOff`; see `rootn_one_wrong` for what happens without the latter. -/
theorem rootn_inv_accuracy_partial {p : ℕ} (hc : RootOk c F p x.exp) (hpw : F.IsInvRoot pw) (hx : Full c x) (hx0 : 0 < x.val c)
    (hoff : RootOff c F pw p x) :
    ∃ r k, rootnInv c (estInv c F) F.digits10 (rootnStart c F pw) x p = some r ∧ Full c r ∧ 0 < r.val c ∧ c.N * c.ed ≤ 14 * 2 ^ k ∧
      |(r.val c : ℝ) - (x.val c : ℝ) ^ (-(1 / (p : ℝ)))| ≤
        (x.val c : ℝ) ^ (-(1 / (p : ℝ))) * (1 / 4 / 10 ^ ((if p ≤ 3 then 14 else if p ≤ 35 then 13 else 12) * 2 ^ k) + 12 / 10 ^ (c.digits10 + 2 * c.ed)) := by
  obtain ⟨r, k, h1, h2, h3, h4, h5⟩ := rootn_inv_core hc hpw hx hx0 hoff (estInv c F)
  refine ⟨r, k, h1, h2, h3.val_pos, h4, ?_⟩
  have hd := hc.lo
  have hed := two_le_ed c
  have hη := eta_N_digits c
  have hη0 := eta_pos c c.N
  have hm : p * (1 / 10 ^ (c.digits10 + 2 * c.ed) : ℝ) ≤ 1 / 10 ^ 14 := by
    have h1 : (1 : ℝ) / 10 ^ (c.digits10 + 2 * c.ed) ≤ 1 / 10 ^ 20 := one_div_le_one_div_of_le (by positivity) (pow_le_pow_right₀ (by norm_num) (by omega))
    have h3 : (p : ℝ) ≤ 300 := by exact_mod_cast hc.p300
    calc _ ≤ 300 * ((1 : ℝ) / 10 ^ 20) := mul_le_mul h3 h1 (by positivity) (by norm_num)
      _ ≤ _ := by norm_num
  have h6 : |x.val c * r.val c ^ p - 1| ≤ 17 / 25 * (1 / 10 ^ (rootDigits p * 2 ^ k)) + 11 * (p * (1 / 10 ^ (c.digits10 + 2 * c.ed))) := by
    have := mul_le_mul_of_nonneg_left hη (show (0 : ℚ) ≤ p by positivity)
    linarith
  have h7 := (Rat.cast_le (K := ℝ)).mpr h6
  push_cast at h7
  have hE : (1 : ℝ) / 10 ^ (rootDigits p * 2 ^ k) ≤ 1 / 10 ^ 12 := by
    have h12 : 12 ≤ rootDigits p := by unfold rootDigits; split_ifs <;> omega
    have : 12 * 1 ≤ rootDigits p * 2 ^ k := Nat.mul_le_mul h12 Nat.one_le_two_pow
    exact one_div_le_one_div_of_le (by positivity) (pow_le_pow_right₀ (by norm_num) (by omega))
  have fin := rootn_real (x := (x.val c : ℝ)) (r := (r.val c : ℝ)) (by exact_mod_cast hx0) (by exact_mod_cast h3.val_pos) hc.p3 (by positivity) hE (by positivity) hm h7
  refine fin.trans (le_of_eq ?_)
  congr 1
  unfold rootDigits
  ring

/-- For cube roots this is 13·10^(-(digits10+2·ed)), always. -/
theorem cbrt_inv_accuracy_partial (hc : RootOk c F 3 x.exp) (hpw : F.IsInvRoot pw) (hx : Full c x) (hx0 : 0 < x.val c)
    (hoff : RootOff c F pw 3 x) :
    ∃ r, rootnInv c (estInv c F) F.digits10 (rootnStart c F pw) x 3 = some r ∧ Full c r ∧ 0 < r.val c ∧
      |(r.val c : ℝ) - (x.val c : ℝ) ^ (-(1 / 3 : ℝ))| ≤ (x.val c : ℝ) ^ (-(1 / 3 : ℝ)) * (13 / 10 ^ (c.digits10 + 2 * c.ed)) := by
  obtain ⟨r, k, h1, h2, h3, h4, h5⟩ := rootn_inv_accuracy_partial hc hpw hx hx0 hoff
  refine ⟨r, h1, h2, h3, ?_⟩
  rw [if_pos le_rfl, Nat.cast_ofNat] at h5
  refine h5.trans (mul_le_mul_of_nonneg_left ?_ (Real.rpow_nonneg (by exact_mod_cast hx0.le) _))
  have hN : c.digits10 + 2 * c.ed ≤ 14 * 2 ^ k := by
    have h1 := c.digits_le
    have h2 : c.ed * (c.N - 1) ≤ c.N * c.ed := by rw [mul_comm]; exact Nat.mul_le_mul_right _ (Nat.sub_le _ _)
    omega
  have : (1 : ℝ) / 10 ^ (14 * 2 ^ k) ≤ 1 / 10 ^ (c.digits10 + 2 * c.ed) :=
    one_div_le_one_div_of_le (by positivity) (pow_le_pow_right₀ (by norm_num) hN)
  have e1 : (1 : ℝ) / 4 / 10 ^ (14 * 2 ^ k) = 1 / 4 * (1 / 10 ^ (14 * 2 ^ k)) := by ring
  have e2 : (12 : ℝ) / 10 ^ (c.digits10 + 2 * c.ed) = 12 * (1 / 10 ^ (c.digits10 + 2 * c.ed)) := by ring
  have e3 : (13 : ℝ) / 10 ^ (c.digits10 + 2 * c.ed) = 13 * (1 / 10 ^ (c.digits10 + 2 * c.ed)) := by ring
  have : (0 : ℝ) < 1 / 10 ^ (c.digits10 + 2 * c.ed) := by positivity
  rw [e1, e2, e3]
  linarith

theorem negate_val_nz (c : Cfg) {x : DW} (h : x.isZero = false) : (x.negate).val c = -(x.val c) := by
  unfold negate
  rw [if_neg (by simp [h])]
  unfold DW.val
  cases x.neg <;> simp

/-- The result of a root: positive, and either a proper full-precision number or a power of the limb radix in the malformed
    representation whose only non-zero limb equals the radix (F1). -/
def RootRes (c : Cfg) (y : DW) : Prop :=
  Full c y ∨ (y.data = 10 ^ c.ed :: List.replicate (c.N - 1) 0 ∧ (c.ed : ℤ) ∣ y.exp ∧ y.prec = c.N)

theorem RootRes.nz {y : DW} (h : RootRes c y) (h0 : y.val c ≠ 0) : y.isZero = false := by
  rcases h with h | h
  · exact isZero_false_of_val h.toWF h0
  · unfold DW.isZero DW.d0
    rw [h.1]
    have : (10 : ℕ) ^ c.ed ≠ 0 := by positivity
    simpa using this

theorem RootRes.negate {y : DW} (h : RootRes c y) : RootRes c y.negate := by
  rcases h with h | h
  · exact Or.inl (negate_full h)
  · right
    unfold DW.negate
    split <;> exact h

/-- Reciprocal of the reciprocal root. -/
theorem rootn_final {x r y E m : ℝ} {p : ℕ} (hx : 0 < x) (hE0 : 0 < E) (hE : E ≤ 1 / 10 ^ 12) (hm0 : 0 < m) (hm : m ≤ 1 / 10 ^ 14)
    (h : |r - x ^ (-(1 / (p : ℝ)))| ≤ x ^ (-(1 / (p : ℝ))) * (1 / 4 * E + 12 * m)) (hy : |y * r - 1| ≤ 5 * m) :
    |y - x ^ (1 / (p : ℝ))| ≤ x ^ (1 / (p : ℝ)) * (1 / 3 * E + 18 * m) := by
  have hR : 0 < x ^ (1 / (p : ℝ)) := Real.rpow_pos_of_pos hx _
  rw [Real.rpow_neg hx.le] at h
  generalize x ^ (1 / (p : ℝ)) = R at *
  have e1 : |r * R - 1| ≤ 1 / 4 * E + 12 * m := by
    have : r * R - 1 = R * (r - R⁻¹) := by field_simp
    rw [this, abs_mul, abs_of_pos hR]
    calc R * |r - R⁻¹| ≤ R * (R⁻¹ * (1 / 4 * E + 12 * m)) := mul_le_mul_of_nonneg_left h hR.le
      _ = _ := by field_simp
  have hs : 1 / 4 * E + 12 * m ≤ 1 / 10 ^ 10 := by norm_num at hE hm ⊢; linarith
  have hrR : 1 - 1 / 10 ^ 10 ≤ r * R := by have := (abs_le.mp e1).1; linarith
  have e2 : (y - R) * (r * R) = R * ((y * r - 1) - (r * R - 1)) := by ring
  have e3 : |y - R| * (r * R) ≤ R * (5 * m + (1 / 4 * E + 12 * m)) := by
    rw [← abs_of_pos (show 0 < r * R by linarith), ← abs_mul, e2, abs_mul, abs_of_pos hR]
    refine mul_le_mul_of_nonneg_left ?_ hR.le
    exact (abs_sub _ _).trans (add_le_add hy e1)
  have e4 : |y - R| * (1 - 1 / 10 ^ 10) ≤ R * (5 * m + (1 / 4 * E + 12 * m)) := (mul_le_mul_of_nonneg_left hrR (abs_nonneg _)).trans e3
  have e5 : R * (5 * m + (1 / 4 * E + 12 * m)) ≤ R * (1 / 3 * E + 18 * m) * (1 - 1 / 10 ^ 10) := by
    rw [mul_assoc]
    refine mul_le_mul_of_nonneg_left ?_ hR.le
    norm_num
    linarith
  exact le_of_mul_le_mul_right (e4.trans e5) (by norm_num)

/-- The reciprocal of `rootn_inv` as computed by `rootn`. -/
theorem rootn_core {p : ℕ} (hc : RootOk c F p x.exp) (hN : c.N < 1793) (hpw : F.IsInvRoot pw) (hx : Full c x) (hx0 : 0 < x.val c)
    (hoff : RootOff c F pw p x) :
    ∃ y k, (calcRootnInv c (estInv c F) F.digits10 (rootnStart c F pw) p x).map (calcInv c (estInv c F) F.digits10) = some y ∧
      0 < y.val c ∧ RootRes c y ∧ c.N * c.ed ≤ 14 * 2 ^ k ∧
      |(y.val c : ℝ) - (x.val c : ℝ) ^ (1 / (p : ℝ))| ≤
        (x.val c : ℝ) ^ (1 / (p : ℝ)) * (1 / 3 / 10 ^ ((if p ≤ 3 then 14 else if p ≤ 35 then 13 else 12) * 2 ^ k) + 18 / 10 ^ (c.digits10 + 2 * c.ed)) := by
  obtain ⟨r, k, h1, h2, h3, h4, h5⟩ := rootn_inv_accuracy_partial hc hpw hx hx0 hoff
  obtain ⟨r', k', h1', -, q3, q4, q5⟩ := rootn_inv_core hc hpw hx hx0 hoff (estInv c F)
  have hr : r' = r := by
    have : rootnInv c (estInv c F) F.digits10 (rootnStart c F pw) x p = some r' := h1'
    rw [h1] at this
    exact (Option.some.inj this).symm
  subst hr
  have px := posi_of_val hx.toWF hx0
  have hd := hc.lo
  have hed := two_le_ed c
  have hN3 := c.three_le_N
  have hlo := hc.hlo
  have hhi := hc.hhi
  have h9 : (9 : ℤ) * c.ed ≤ (c.N + 6) * c.ed := mul_le_mul_of_nonneg_right (by omega) (by omega)
  have hη := eta_N_digits c
  have hη0 := eta_pos c c.N
  have hm1 : (1 : ℚ) / 10 ^ (c.digits10 + 2 * c.ed) ≤ 1 / 10 ^ 20 := one_div_le_one_div_of_le (by positivity) (pow_le_pow_right₀ (by norm_num) (by omega))
  have h12 : 12 ≤ rootDigits p := by unfold rootDigits; split_ifs <;> omega
  have h12k : 12 ≤ rootDigits p * 2 ^ k := by
    have : 12 * 1 ≤ rootDigits p * 2 ^ k := Nat.mul_le_mul h12 Nat.one_le_two_pow
    omega
  have h12k' : 12 ≤ rootDigits p * 2 ^ k' := by
    have : 12 * 1 ≤ rootDigits p * 2 ^ k' := Nat.mul_le_mul h12 Nat.one_le_two_pow
    omega
  have half : |x.val c * r'.val c ^ p - 1| ≤ 1 / 2 := by
    have h3 : (p : ℚ) ≤ 300 := by exact_mod_cast hc.p300
    have a1 : p * eta c c.N ≤ 300 * (1 / 10 ^ 20) := mul_le_mul h3 (hη.trans hm1) hη0.le (by norm_num)
    have a2 : (1 : ℚ) / 10 ^ (rootDigits p * 2 ^ k') ≤ 1 / 10 ^ 12 := one_div_le_one_div_of_le (by positivity) (pow_le_pow_right₀ (by norm_num) h12k')
    norm_num at a1 a2 q5 ⊢
    linarith
  obtain ⟨x1, x2⟩ := root_exp (by have := hc.p3; omega) px q3 half (b := (c.maxExp : ℤ) - 4 * c.ed) (by omega) (by omega) (by omega)
  obtain ⟨i1, i2, i3⟩ := inv_accuracy_any c F (FloatOk.double hc.hF) hc.hK r' h2 h3.ne' hc.hok (by omega) (by omega) (by omega)
  have hy0 : (calcInv c (estInv c F) F.digits10 r').val c ≠ 0 := by
    intro h0
    rw [h0, zero_mul] at i2
    have : (5 : ℚ) / 10 ^ (c.digits10 + 2 * c.ed) = 5 * (1 / 10 ^ (c.digits10 + 2 * c.ed)) := by ring
    rw [this] at i2
    norm_num at i2 hm1
    linarith
  have hypos : 0 < (calcInv c (estInv c F) F.digits10 r').val c := by
    have : ¬ (calcInv c (estInv c F) F.digits10 r').val c < 0 := fun h => by have := i1.mp h; linarith
    exact lt_of_le_of_ne (not_lt.mp this) (Ne.symm hy0)
  refine ⟨calcInv c (estInv c F) F.digits10 r', k, ?_, hypos, i3, h4, ?_⟩
  · change (rootnInv c (estInv c F) F.digits10 (rootnStart c F pw) x p).map _ = _
    rw [h1]; rfl
  · have i2' := (Rat.cast_le (K := ℝ)).mpr i2.le
    push_cast at i2'
    have hE : (1 : ℝ) / 10 ^ (rootDigits p * 2 ^ k) ≤ 1 / 10 ^ 12 := one_div_le_one_div_of_le (by positivity) (pow_le_pow_right₀ (by norm_num) h12k)
    have hm2 : (1 : ℝ) / 10 ^ (c.digits10 + 2 * c.ed) ≤ 1 / 10 ^ 14 := one_div_le_one_div_of_le (by positivity) (pow_le_pow_right₀ (by norm_num) (by omega))
    have fin := rootn_final (x := (x.val c : ℝ)) (r := (r'.val c : ℝ)) (y := ((calcInv c (estInv c F) F.digits10 r').val c : ℝ)) (p := p)
      (by exact_mod_cast hx0) (by positivity) hE (by positivity) hm2 (h5.trans (le_of_eq (by unfold rootDigits; ring))) (i2'.trans (le_of_eq (by ring)))
    refine fin.trans (le_of_eq ?_)
    unfold rootDigits
    ring

theorem lt_zero_iff (c : Cfg) {x : DW} (hx : WF c x) : DW.lt x (ofSigned c 0) = true ↔ x.val c < 0 := by
  obtain ⟨a, b, -, -⟩ := of_signed_exact c 0 (by norm_num) (by norm_num)
  rw [(ordering_matches_value c x _ hx a.toWF).1, b (by simp)]
  simp

/-- C55 for `rootn`: for every x > 0 and every degree p from 3 to 300 the result y is positive with
    |y - x^(1/p)| ≤ x^(1/p)·(10^(-A·2^k)/3 + 18·10^(-(digits10+2·ed))), k and A as in `rootn_inv_accuracy_partial`. -/
theorem rootn_accuracy_partial {p : ℕ} (hc : RootOk c F p x.exp) (hpw : F.IsInvRoot pw) (sst : DW → DW × DW) (hx : Full c x)
    (hx0 : 0 < x.val c) (hoff : RootOff c F pw p x) :
    ∃ y k, rootn c (estInv c F) F.digits10 sst (rootnStart c F pw) x p = some y ∧ 0 < y.val c ∧ RootRes c y ∧ c.N * c.ed ≤ 14 * 2 ^ k ∧
      |(y.val c : ℝ) - (x.val c : ℝ) ^ (1 / (p : ℝ))| ≤
        (x.val c : ℝ) ^ (1 / (p : ℝ)) * (1 / 3 / 10 ^ ((if p ≤ 3 then 14 else if p ≤ 35 then 13 else 12) * 2 ^ k) + 18 / 10 ^ (c.digits10 + 2 * c.ed)) := by
  have hN : c.N < 1793 := hc.hok.1
  obtain ⟨y, k, h1, h2⟩ := rootn_core hc hN hpw hx hx0 hoff
  refine ⟨y, k, ?_, h2⟩
  have hnl : ¬ (DW.lt x (ofSigned c 0) = true) := fun h => by have := (lt_zero_iff c hx.toWF).mp h; linarith
  have hn : x.neg = false := (posi_of_val hx.toWF hx0).nn
  have hfab : fabs x = x := by unfold fabs isNeg; rw [hn]; rfl
  have p3 := hc.p3
  unfold rootn
  rw [if_neg (by omega), if_neg (by omega), Int.toNat_natCast]
  unfold rootnNat
  rw [if_neg (by rintro (h | h); · omega
                 · exact hnl h.1), if_neg (by omega), if_neg (by omega)]
  split
  · next h =>
    subst h
    rw [hfab]
    exact h1
  · exact h1

/-- C55 for `cbrt`: for every x ≠ 0 the result y has the sign of x and | |y| - |x|^(1/3) | ≤ 19·10^(-(digits10+2·ed))·|x|^(1/3). -/
theorem cbrt_accuracy_partial (hc : RootOk c F 3 x.exp) (hpw : F.IsInvRoot pw) (sst : DW → DW × DW) (hx : Full c x)
    (hx0 : x.val c ≠ 0) (hoff : RootOff c F pw 3 (fabs x)) :
    ∃ y, cbrt c (estInv c F) F.digits10 sst (rootnStart c F pw) x = some y ∧ y.val c ≠ 0 ∧ (y.val c < 0 ↔ x.val c < 0) ∧ RootRes c y ∧
      |(|(y.val c : ℝ)| - |(x.val c : ℝ)| ^ (1 / 3 : ℝ))| ≤ |(x.val c : ℝ)| ^ (1 / 3 : ℝ) * (19 / 10 ^ (c.digits10 + 2 * c.ed)) := by
  have hN : c.N < 1793 := hc.hok.1
  have hfv : (fabs x).val c = |x.val c| := (sign_operations c x hx.toWF).2.2.1
  have hff : Full c (fabs x) := by
    unfold fabs; split
    · exact negate_full hx
    · exact hx
  have hfe : (fabs x).exp = x.exp := (limbs_of_fabs x).2
  obtain ⟨y, k, h1, h2, h3, h4, h5⟩ := rootn_core (x := fabs x) (by rw [hfe]; exact hc) hN hpw hff (by rw [hfv]; exact abs_pos.mpr hx0) hoff
  have hb : |(y.val c : ℝ) - |(x.val c : ℝ)| ^ (1 / 3 : ℝ)| ≤ |(x.val c : ℝ)| ^ (1 / 3 : ℝ) * (19 / 10 ^ (c.digits10 + 2 * c.ed)) := by
    rw [if_pos le_rfl, Nat.cast_ofNat, hfv, Rat.cast_abs] at h5
    refine h5.trans (mul_le_mul_of_nonneg_left ?_ (Real.rpow_nonneg (abs_nonneg _) _))
    have hN : c.digits10 + 2 * c.ed ≤ 14 * 2 ^ k := by
      have h1 := c.digits_le
      have h2 : c.ed * (c.N - 1) ≤ c.N * c.ed := by rw [mul_comm]; exact Nat.mul_le_mul_right _ (Nat.sub_le _ _)
      omega
    have : (1 : ℝ) / 10 ^ (14 * 2 ^ k) ≤ 1 / 10 ^ (c.digits10 + 2 * c.ed) :=
      one_div_le_one_div_of_le (by positivity) (pow_le_pow_right₀ (by norm_num) hN)
    have e1 : (1 : ℝ) / 3 / 10 ^ (14 * 2 ^ k) = 1 / 3 * (1 / 10 ^ (14 * 2 ^ k)) := by ring
    have e2 : (18 : ℝ) / 10 ^ (c.digits10 + 2 * c.ed) = 18 * (1 / 10 ^ (c.digits10 + 2 * c.ed)) := by ring
    have e3 : (19 : ℝ) / 10 ^ (c.digits10 + 2 * c.ed) = 19 * (1 / 10 ^ (c.digits10 + 2 * c.ed)) := by ring
    have : (0 : ℝ) < 1 / 10 ^ (c.digits10 + 2 * c.ed) := by positivity
    rw [e1, e2, e3]
    linarith
  obtain ⟨r, hr1, hr2⟩ := Option.map_eq_some_iff.mp h1
  have hcb : cbrt c (estInv c F) F.digits10 sst (rootnStart c F pw) x = some (if DW.lt x (ofSigned c 0) then y.negate else y) := by
    unfold cbrt rootn
    rw [if_neg (by norm_num), if_neg (by norm_num)]
    change rootnNat c (estInv c F) F.digits10 sst (rootnStart c F pw) 3 x = _
    unfold rootnNat
    rw [if_neg (by norm_num), if_neg (by norm_num), if_neg (by norm_num), if_pos rfl]
    change Option.map _ (calcRootnInv c (estInv c F) F.digits10 (rootnStart c F pw) ((3 : ℕ) : ℤ) (fabs x)) = _
    rw [hr1]
    simp only [Option.map_some, hr2]
  rw [hcb]
  have hyr : (0 : ℝ) < y.val c := by exact_mod_cast h2
  by_cases hs : x.val c < 0
  · rw [if_pos ((lt_zero_iff c hx.toWF).mpr hs)]
    have hv := negate_val_nz c (h3.nz h2.ne')
    refine ⟨_, rfl, by rw [hv]; linarith [h2.ne'] , by rw [hv]; constructor <;> intro <;> linarith, h3.negate, ?_⟩
    rw [hv]
    push_cast
    rw [abs_neg, abs_of_pos hyr]
    exact hb
  · rw [if_neg (fun h => hs ((lt_zero_iff c hx.toWF).mp h))]
    refine ⟨_, rfl, h2.ne', by constructor <;> intro <;> linarith, h3, ?_⟩
    rw [abs_of_pos hyr]
    exact hb

end WD
