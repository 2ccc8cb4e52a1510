import Verif.Proofs.Const
import Verif.Model.Const
import Verif.Proofs.Mul2
/-
  C39: the tabulated constants against the real numbers π, log 2 and log 10.
-/
namespace WD
open DW

/-- Cutting an exact limb expansion of ξ to N limbs. -/
theorem table_spec {c : Cfg} {tab : List ℕ} {e : ℤ} {ξ : ℝ} (hN : c.N ≤ tab.length) (hv : ValidLimbs c.B tab) (hh : tab.headD 0 ≠ 0)
    (he : (c.ed : ℤ) ∣ e) {T : ℕ} (hT : limbsVal c.B tab = T) {k : ℤ} (hk : e - (c.ed : ℤ) * (tab.length - 1) = k)
    (h1 : (T : ℝ) * (10 : ℝ) ^ k ≤ ξ) (h2 : ξ < ((T : ℝ) + 1) * (10 : ℝ) ^ k) :
    Full c (fromLst c tab e false) ∧ ((fromLst c tab e false).val c : ℝ) ≤ ξ ∧
    ξ < (fromLst c tab e false).val c + (10 : ℝ) ^ (e - (c.ed : ℤ) * ((c.N : ℤ) - 1)) := by
  have h3 := c.three_le_N
  have hB := c.B_pos
  have hdata : (fromLst c tab e false).data = tab.take c.N := by
    show tab.take c.N ++ List.replicate (c.N - tab.length) 0 = _
    rw [Nat.sub_eq_zero_of_le hN]; simp
  have hfull : Full c (fromLst c tab e false) := by
    refine ⟨⟨?_, ?_, he, ?_, le_refl _, ?_⟩, rfl⟩
    · rw [hdata, List.length_take]; omega
    · rw [hdata]; exact hv.take _
    · show 2 ≤ c.N; omega
    · intro h; exfalso
      unfold d0 at h; rw [hdata] at h
      cases tab with
      | nil => simp at hh
      | cons y ys =>
        obtain ⟨n, hn⟩ : ∃ n, c.N = n + 1 := ⟨c.N - 1, by omega⟩
        rw [hn, List.take_succ_cons] at h
        exact hh h
  refine ⟨hfull, ?_⟩
  have hval : (fromLst c tab e false).val c = ((T / c.B ^ (tab.length - c.N) : ℕ) : ℚ) * (10 : ℚ) ^ (e - (c.ed : ℤ) * ((c.N : ℤ) - 1)) := by
    rw [val_sgn, abs_val, show (fromLst c tab e false).neg = false from rfl]
    simp only [Bool.false_eq_true, if_false, one_mul]
    unfold mant lexp
    rw [hdata, limbsVal_take hB hv, hT]; rfl
  have hpow : (10 : ℝ) ^ (e - (c.ed : ℤ) * ((c.N : ℤ) - 1)) = (c.B : ℝ) ^ (tab.length - c.N) * (10 : ℝ) ^ k := by
    rw [← hk]
    have hBp : (c.B : ℝ) ^ (tab.length - c.N) = (10 : ℝ) ^ ((c.ed : ℤ) * (tab.length - c.N)) := by
      rw [c.B_eq]; push_cast
      rw [← pow_mul, ← zpow_natCast]; congr 1; push_cast [Nat.cast_sub hN]; ring
    rw [hBp, ← zpow_add₀ (by norm_num)]; congr 1; ring
  have hpk : (0 : ℝ) < (10 : ℝ) ^ k := by positivity
  rw [hval]
  push_cast
  rw [hpow]
  have hdm := Nat.div_add_mod T (c.B ^ (tab.length - c.N))
  have hml := Nat.mod_lt T (Nat.pow_pos (n := tab.length - c.N) hB)
  have hQ : (0 : ℝ) < (c.B : ℝ) ^ (tab.length - c.N) := by
    have : (0 : ℝ) < c.B := by exact_mod_cast hB
    positivity
  have g1 : ((T / c.B ^ (tab.length - c.N) : ℕ) : ℝ) * (c.B : ℝ) ^ (tab.length - c.N) ≤ T := by
    have := Nat.div_mul_le_self T (c.B ^ (tab.length - c.N))
    exact_mod_cast this
  have g2 : (T : ℝ) + 1 ≤ (((T / c.B ^ (tab.length - c.N) : ℕ) : ℝ) + 1) * (c.B : ℝ) ^ (tab.length - c.N) := by
    have : T + 1 ≤ (T / c.B ^ (tab.length - c.N) + 1) * c.B ^ (tab.length - c.N) := by
      rw [add_mul, one_mul, mul_comm]; omega
    exact_mod_cast this
  generalize ((T / c.B ^ (tab.length - c.N) : ℕ) : ℝ) = q at *
  generalize (c.B : ℝ) ^ (tab.length - c.N) = Q at *
  constructor
  · rw [← mul_assoc]
    exact (mul_le_mul_of_nonneg_right g1 hpk.le).trans h1
  · have := mul_le_mul_of_nonneg_right g2 hpk.le
    refine lt_of_lt_of_le h2 ?_
    linarith

theorem pi_interval : ((3141592653589793238462643383279502884197169399375105820974944592307816406286208998628034825342117 : ℕ) : ℝ) * (10 : ℝ) ^ (-96 : ℤ) ≤ Real.pi ∧ Real.pi < (((3141592653589793238462643383279502884197169399375105820974944592307816406286208998628034825342117 : ℕ) : ℝ) + 1) * (10 : ℝ) ^ (-96 : ℤ) := by
  have h := pi_enclosure (lo := 3141592653589793238462643383279502884197169399375105820974944592307816406286208998628034825342117 / 10 ^ 96) (hi := 3141592653589793238462643383279502884197169399375105820974944592307816406286208998628034825342118 / 10 ^ 96) 36 12 (by decide +kernel) (by decide +kernel)
  constructor
  · refine le_trans (le_of_eq ?_) h.1; push_cast; norm_num
  · refine lt_of_lt_of_le h.2 (le_of_eq ?_); push_cast; norm_num

theorem log_two_interval : ((69314718055994530941723212145817656807550013436025525412068000949339362196969471560586332699641868754200 : ℕ) : ℝ) * (10 : ℝ) ^ (-104 : ℤ) ≤ Real.log 2 ∧ Real.log 2 < (((69314718055994530941723212145817656807550013436025525412068000949339362196969471560586332699641868754200 : ℕ) : ℝ) + 1) * (10 : ℝ) ^ (-104 : ℤ) := by
  have h := log_two_enclosure (lo := 69314718055994530941723212145817656807550013436025525412068000949339362196969471560586332699641868754200 / 10 ^ 104) (hi := 69314718055994530941723212145817656807550013436025525412068000949339362196969471560586332699641868754201 / 10 ^ 104) 352 (by decide +kernel) (by decide +kernel)
  constructor
  · refine le_trans (le_of_eq ?_) h.1; push_cast; norm_num
  · refine lt_of_lt_of_le h.2 (le_of_eq ?_); push_cast; norm_num

theorem log_ten_interval : ((2302585092994045684017991454684364207601101488628772976033327900967572609677352480235997205089598 : ℕ) : ℝ) * (10 : ℝ) ^ (-96 : ℤ) ≤ Real.log 10 ∧ Real.log 10 < (((2302585092994045684017991454684364207601101488628772976033327900967572609677352480235997205089598 : ℕ) : ℝ) + 1) * (10 : ℝ) ^ (-96 : ℤ) := by
  have h := log_ten_enclosure (lo := 2302585092994045684017991454684364207601101488628772976033327900967572609677352480235997205089598 / 10 ^ 96) (hi := 2302585092994045684017991454684364207601101488628772976033327900967572609677352480235997205089599 / 10 ^ 96) 352 145 (by decide +kernel) (by decide +kernel)
  constructor
  · refine le_trans (le_of_eq ?_) h.1; push_cast; norm_num
  · refine lt_of_lt_of_le h.2 (le_of_eq ?_); push_cast; norm_num

theorem Cfg.N_le_of_51 {c : Cfg} (h : c.digits10 ≤ 51) : c.N ≤ match c.L with | .u8 => 29 | .u16 => 16 | .u32 => 10 := by
  unfold Cfg.N Cfg.ed
  have hi : ∀ (m : ℕ) (i : Decidable (m ≠ 0)), @ite ℕ (m ≠ 0) i 1 0 ≤ 1 := by
    intro m i; split <;> omega
  have h' := hi (c.digits10 % c.L.ed) inferInstance
  cases hL : c.L <;> rw [hL] at h' <;> simp only [Limb.ed] at h' ⊢
  all_goals refine le_trans (Nat.add_le_add_right (Nat.add_le_add_left (hi _ _) _) _) ?_
  all_goals omega

theorem const_core {c : Cfg} (h51 : c.digits10 ≤ 51) (t : Limb → List ℕ) (e : ℤ) (he : (c.ed : ℤ) ∣ e) (T : ℕ) (k : ℤ) (ξ : ℝ)
    (ht : ∀ L : Limb, 29 ≤ (t .u8).length ∧ 16 ≤ (t .u16).length ∧ 10 ≤ (t .u32).length ∧ ValidLimbs L.mask (t L) ∧ (t L).headD 0 ≠ 0 ∧
      limbsVal L.mask (t L) = T)
    (hk : e - (c.ed : ℤ) * ((t c.L).length - 1) = k)
    (hξ : (T : ℝ) * (10 : ℝ) ^ k ≤ ξ ∧ ξ < ((T : ℝ) + 1) * (10 : ℝ) ^ k) :
    Full c (fromLst c (t c.L) e false) ∧ ((fromLst c (t c.L) e false).val c : ℝ) ≤ ξ ∧
    ξ < (fromLst c (t c.L) e false).val c + (10 : ℝ) ^ (e - (c.ed : ℤ) * ((c.N : ℤ) - 1)) := by
  obtain ⟨a, b, d, f, g, i⟩ := ht c.L
  refine table_spec ?_ f g he i hk hξ.1 hξ.2
  have hN := Cfg.N_le_of_51 h51
  cases hL : c.L <;> rw [hL] at hN <;> simp only at hN <;> omega

theorem ulp_digits (c : Cfg) (e : ℤ) : (10 : ℝ) ^ (e - (c.ed : ℤ) * ((c.N : ℤ) - 1)) ≤ (10 : ℝ) ^ (e - ((c.digits10 : ℤ) + 2 * c.ed)) := by
  refine zpow_le_zpow_right₀ (by norm_num) ?_
  have h := c.digits_le
  have h3 := c.three_le_N
  have : ((c.ed * (c.N - 1) : ℕ) : ℤ) = (c.ed : ℤ) * ((c.N : ℤ) - 1) := by push_cast [Nat.cast_sub (show 1 ≤ c.N by omega)]; ring
  omega

theorem tables_ok (L : Limb) :
    (29 ≤ (piTable .u8).length ∧ 16 ≤ (piTable .u16).length ∧ 10 ≤ (piTable .u32).length ∧ ValidLimbs L.mask (piTable L) ∧
      (piTable L).headD 0 ≠ 0 ∧ limbsVal L.mask (piTable L) = 3141592653589793238462643383279502884197169399375105820974944592307816406286208998628034825342117) ∧
    (29 ≤ (lnTwoTable .u8).length ∧ 16 ≤ (lnTwoTable .u16).length ∧ 10 ≤ (lnTwoTable .u32).length ∧ ValidLimbs L.mask (lnTwoTable L) ∧
      (lnTwoTable L).headD 0 ≠ 0 ∧ limbsVal L.mask (lnTwoTable L) = 69314718055994530941723212145817656807550013436025525412068000949339362196969471560586332699641868754200) ∧
    (29 ≤ (lnTenTable .u8).length ∧ 16 ≤ (lnTenTable .u16).length ∧ 10 ≤ (lnTenTable .u32).length ∧ ValidLimbs L.mask (lnTenTable L) ∧
      (lnTenTable L).headD 0 ≠ 0 ∧ limbsVal L.mask (lnTenTable L) = 2302585092994045684017991454684364207601101488628772976033327900967572609677352480235997205089598) := by
  unfold ValidLimbs
  cases L <;> decide +kernel

/-- C39: for up to 51 digits and every limb type, `pi()` is π truncated to the N limbs of the type: it does not exceed π and
    misses it by less than one unit of its last limb, so the error is below 10^-(digits10 + 2·ed). -/
theorem pi_correct (c : Cfg) (h : c.digits10 ≤ 51) :
    Full c (piLow c) ∧ ((piLow c).val c : ℝ) ≤ Real.pi ∧ Real.pi < (piLow c).val c + (10 : ℝ) ^ (-(c.ed : ℤ) * ((c.N : ℤ) - 1)) ∧
    |((piLow c).val c : ℝ) - Real.pi| < (10 : ℝ) ^ (-((c.digits10 : ℤ) + 2 * c.ed)) := by
  obtain ⟨a, b, d⟩ := const_core h piTable 0 (dvd_zero _) _ (-96) Real.pi (fun L => (tables_ok L).1)
    (by unfold Cfg.ed; cases c.L <;> decide) pi_interval
  have hu := ulp_digits c 0
  rw [zero_sub] at hu
  refine ⟨a, b, ?_, ?_⟩
  · rw [zero_sub, ← neg_mul] at d; exact d
  · rw [zero_sub] at d hu; unfold piLow
    rw [abs_sub_comm, abs_of_nonneg (by linarith)]; linarith

/-- C39: the same for `ln_two()`; its first limb lies behind the decimal point. -/
theorem ln_two_correct (c : Cfg) (h : c.digits10 ≤ 51) :
    Full c (lnTwoLow c) ∧ ((lnTwoLow c).val c : ℝ) ≤ Real.log 2 ∧ Real.log 2 < (lnTwoLow c).val c + (10 : ℝ) ^ (-(c.ed : ℤ) * (c.N : ℤ)) ∧
    |((lnTwoLow c).val c : ℝ) - Real.log 2| < (10 : ℝ) ^ (-((c.digits10 : ℤ) + 3 * c.ed)) := by
  obtain ⟨a, b, d⟩ := const_core h lnTwoTable (-(c.ed : ℤ)) ((dvd_refl _).neg_right) _ (-104) (Real.log 2) (fun L => (tables_ok L).2.1)
    (by unfold Cfg.ed; cases c.L <;> decide) log_two_interval
  have hu := ulp_digits c (-(c.ed : ℤ))
  refine ⟨a, b, ?_, ?_⟩
  · rw [show -(c.ed : ℤ) * (c.N : ℤ) = -(c.ed : ℤ) - (c.ed : ℤ) * ((c.N : ℤ) - 1) by ring]; exact d
  · rw [show -(c.ed : ℤ) - ((c.digits10 : ℤ) + 2 * c.ed) = -((c.digits10 : ℤ) + 3 * c.ed) by ring] at hu
    unfold lnTwoLow
    rw [abs_sub_comm, abs_of_nonneg (by linarith)]; linarith

/-- C39: the same for the natural logarithm of 10. -/
theorem ln_ten_correct (c : Cfg) (h : c.digits10 ≤ 51) :
    Full c (lnTenLow c) ∧ ((lnTenLow c).val c : ℝ) ≤ Real.log 10 ∧ Real.log 10 < (lnTenLow c).val c + (10 : ℝ) ^ (-(c.ed : ℤ) * ((c.N : ℤ) - 1)) ∧
    |((lnTenLow c).val c : ℝ) - Real.log 10| < (10 : ℝ) ^ (-((c.digits10 : ℤ) + 2 * c.ed)) := by
  obtain ⟨a, b, d⟩ := const_core h lnTenTable 0 (dvd_zero _) _ (-96) (Real.log 10) (fun L => (tables_ok L).2.2)
    (by unfold Cfg.ed; cases c.L <;> decide) log_ten_interval
  have hu := ulp_digits c 0
  refine ⟨a, b, ?_, ?_⟩
  · rw [zero_sub, ← neg_mul] at d; exact d
  · rw [zero_sub] at d hu; unfold lnTenLow
    rw [zero_sub] at hu
    rw [abs_sub_comm, abs_of_nonneg (by linarith)]; linarith

/-- The hypothesis is met by small and by the largest tabulated configurations, and the values are the expected ones. -/
example : ({ L := .u32, digits10 := 51, maxExp := 2 ^ 59 } : Cfg).digits10 ≤ 51 ∧
    (piLow { L := .u8, digits10 := 2, maxExp := 64 }).data = [3, 14, 15, 92] := by decide

end WD
