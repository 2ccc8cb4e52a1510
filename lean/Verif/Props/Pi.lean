import Verif.Proofs.PiMain
import Verif.Props.SqrtStart
import Verif.Props.Start
/-
  C58: the value of `pi<...>()` for more than 51 decimal digits (`calc_pi`), against Mathlib's π.
-/
namespace WD
open DW Real

theorem offRadix_half {c : Cfg} {F : Flt} {q : ℚ} (h1 : 4 / 10 ≤ q) (h2 : q < 1) : OffRadix c F q := by
  intro k ⟨a, b⟩
  have hB : (100 : ℚ) ≤ c.B := by
    have : 100 ≤ c.B := by unfold Cfg.B; cases c.L <;> decide
    exact_mod_cast this
  have hp : (1 : ℚ) / 10 ^ (F.digits10 - 1) ≤ 1 := by
    rw [div_le_one (by positivity)]; exact one_le_pow₀ (by norm_num)
  rcases le_or_gt 0 k with h | h
  · have : (1 : ℚ) ≤ (c.B : ℚ) ^ k := one_le_zpow₀ (by linarith) h
    linarith
  · have h3 : (c.B : ℚ) ^ k ≤ (c.B : ℚ) ^ (-1 : ℤ) := zpow_le_zpow_right₀ (by linarith) (by omega)
    have h4 : (c.B : ℚ) ^ (-1 : ℤ) ≤ 1 / 100 := by
      rw [zpow_neg_one, one_div]; exact inv_anti₀ (by norm_num) hB
    have h5 : (0 : ℚ) < (c.B : ℚ) ^ k := by positivity
    nlinarith

theorem AgmOk.loops {c : Cfg} {F : Flt} (h : AgmOk c) (hF : FloatOk c F) : digitLoops c F ≤ c.N := by
  have h1 := c.digits_le
  have h2 := h.d41
  unfold digitLoops
  rcases hF with ⟨-, -, hd⟩ | ⟨-, -, hd⟩ | ⟨⟨-, -, hd⟩, -⟩ <;> rw [hd] <;> revert h1 <;> unfold Cfg.ed <;> cases c.L <;> intro h1 <;> norm_num [Limb.ed] at h1 ⊢ <;> omega

theorem pi_sqrt_ok {c : Cfg} {F : Flt} (hF : FloatOk c F) {sq : ℚ → ℚ} (hsq : F.IsSqrt sq) (h : AgmOk c) :
    PiSqrtOk c (estSqrt c F sq) F.digits10 := fun x hx h1 _ =>
  (sqrt_start_ok hF hsq (posi_of_val hx.toWF (by linarith)) (h.loops hF)).1

theorem pi_inv_ok {c : Cfg} {F : Flt} (hF : FloatOk c F) (h : AgmOk c) : PiInvOk c (estInv c F) F.digits10 := fun x hx h1 h2 => by
  have h0 : 0 < x.val c := by linarith
  exact start_value_ok c F hF x hx h0.ne' (h.loops hF) (by rw [abs_of_pos h0]; exact offRadix_half h1 (by linarith))

theorem pi_term_small {c : Cfg} (h : AgmOk c) {K m : ℕ} (hK : K ≤ 13) (hm : 5 * m ≤ 2 ^ K) (hd : c.digits10 / 2 + 15 ≤ 6 * m) :
    2 ^ K * agmC 1 (√(1 / 2)) K + 42 / 10 * 2 ^ K * (agmDelta c : ℝ) < (10 : ℝ) ^ (-agmGoal c) := by
  have hed8 : c.ed ≤ 8 := by unfold Cfg.ed; cases c.L <;> decide
  have hed2 : 2 ≤ c.ed := by unfold Cfg.ed; cases c.L <;> decide
  have hd52 := h.d41
  have hgoal : agmGoal c = ((c.digits10 / 2 + 9 : ℕ) : ℤ) := by unfold agmGoal; push_cast; omega
  have hp : (2 : ℝ) ^ K ≤ 8192 := le_trans (pow_le_pow_right₀ (by norm_num) hK) (by norm_num)
  have hp0 : (0 : ℝ) < 2 ^ K := by positivity
  obtain ⟨g1, g2, g3, g4, g5⟩ := agm_half_bounds K
  have hD0 := agm_half_diff_nonneg K
  have hz : ((1 : ℝ) / 16) ^ (2 ^ K) ≤ 1 / 10 ^ (6 * m) := by
    refine le_trans (pow_le_pow_of_le_one (by norm_num) (by norm_num) hm) ?_
    rw [pow_mul, pow_mul, ← one_div_pow]
    exact pow_le_pow_left₀ (by positivity) (by norm_num) _
  have hz2 : (1 : ℝ) / 10 ^ (6 * m) ≤ 1 / 10 ^ (c.digits10 / 2 + 9) / 10 ^ 6 := by
    rw [div_div, ← pow_add]
    exact one_div_le_one_div_of_le (by positivity) (pow_le_pow_right₀ (by norm_num) (by omega))
  have hδ : (agmDelta c : ℝ) ≤ 1 / 10 ^ (c.digits10 / 2 + 9) / 10 ^ 6 := by
    unfold agmDelta
    push_cast
    rw [div_div, ← pow_add]
    exact one_div_le_one_div_of_le (by positivity) (pow_le_pow_right₀ (by norm_num) (by omega))
  rw [hgoal, zpow_neg, zpow_natCast, ← one_div]
  have hG : (0 : ℝ) < 1 / 10 ^ (c.digits10 / 2 + 9) := by positivity
  generalize (1 : ℝ) / 10 ^ (c.digits10 / 2 + 9) = G at *
  have hC : agmC 1 (√(1 / 2)) K ≤ (56 / 10 * (G / 10 ^ 6)) * (171 / 100) := by
    have : agmC 1 (√(1 / 2)) K = ((agmSeq 1 (√(1 / 2)) K).1 - (agmSeq 1 (√(1 / 2)) K).2) * ((agmSeq 1 (√(1 / 2)) K).1 + (agmSeq 1 (√(1 / 2)) K).2) := by
      unfold agmC; ring
    rw [this]
    refine mul_le_mul ?_ g4 (by linarith) (by positivity)
    exact le_trans (agm_half_conv K) (by gcongr; exact le_trans hz hz2)
  calc 2 ^ K * agmC 1 (√(1 / 2)) K + 42 / 10 * 2 ^ K * (agmDelta c : ℝ)
      ≤ 8192 * ((56 / 10 * (G / 10 ^ 6)) * (171 / 100)) + 42 / 10 * 8192 * (G / 10 ^ 6) := by
        refine add_le_add (mul_le_mul hp hC ?_ (by norm_num)) ?_
        · unfold agmC; nlinarith
        · have d0 : (0 : ℝ) ≤ agmDelta c := by exact_mod_cast (agmDelta_pos c).le
          gcongr
    _ < G := by norm_num; linarith

theorem agmDigits_zero (c : Cfg) : agmDigits (zero c) = 0 := by
  have h3 := c.three_le_N
  obtain ⟨n, hn⟩ : ∃ n, c.N = n + 1 := ⟨c.N - 1, by omega⟩
  have : (zero c).d0 = 0 := by simp [d0, zero, fromLst, hn]
  unfold agmDigits ilogb
  rw [this]
  simp [orderOf, zero, fromLst]

/-- A round that is not the last one although its exact term is below the goal reports zero: its computed term is zero. -/
theorem piLoop_zero {c : Cfg} {estS : DW → DW × DW} {est : DW → DW} {fdig : ℕ} (h : AgmOk c) (hf : 6 ≤ fdig)
    (hS : PiSqrtOk c estS fdig) {K : ℕ} (hs : 2 ^ K * agmC 1 (√(1 / 2)) K + 42 / 10 * 2 ^ K * (agmDelta c : ℝ) < (10 : ℝ) ^ (-agmGoal c)) :
    ∀ (fuel k : ℕ) (st : PiState), k + fuel = 48 → PiInv c k st → PiT c st → k < K →
    K < k + (piLoop c estS est fdig fuel k st).2.length → (piLoop c estS est fdig fuel k st).2[K - 1 - k]? = some 0 := by
  intro fuel
  induction fuel with
  | zero => intro k st hk i _ h1 h2; simp only [piLoop, List.length_nil] at h2; omega
  | succ fuel ih =>
    intro k st hk i ht h1 h2
    obtain ⟨i', f, hterm, hz0⟩ := i.round (est := est) h hf hS (by omega : k < 48) ht
    have i'' := i'.nextT (est := est) (fdig := fdig) h (by omega)
    simp only [piLoop] at h2 ⊢
    split at h2
    · simp only [List.length_singleton] at h2; omega
    · next hb =>
      rw [if_neg hb]
      simp only [List.length_cons] at h2 ⊢
      by_cases hkK : k + 1 = K
      · have e : K - 1 - k = 0 := by omega
        rw [e, List.getElem?_cons_zero]
        congr 1
        rw [hkK] at hterm
        generalize (piRound c estS est fdig k st).2 = t at *
        have hlt : |(t.val c : ℝ)| < (10 : ℝ) ^ (-agmGoal c) := by
          have hC0 : 0 ≤ agmC 1 (√(1 / 2)) K := by
            have := agm_half_bounds K; unfold agmC; nlinarith
          have hp0 : 0 ≤ 2 ^ K * agmC 1 (√(1 / 2)) K := by positivity
          obtain ⟨x1, x2⟩ := abs_le.mp hterm
          rw [abs_lt]; constructor <;> linarith
        have hltQ : |t.val c| < (10 : ℚ) ^ (-agmGoal c) := by
          have : ((|t.val c| : ℚ) : ℝ) < (((10 : ℚ) ^ (-agmGoal c) : ℚ) : ℝ) := by push_cast; exact hlt
          exact_mod_cast this
        rcases hz0.symm with hz | hz
        · exfalso
          obtain ⟨a, -⟩ := ilogb_spec f.toWF hz
          have := (zpow_lt_zpow_iff_right₀ (by norm_num : (1 : ℚ) < 10)).mp (lt_of_le_of_lt a hltQ)
          apply hb
          unfold agmDigits
          omega
        · rw [hz]; exact agmDigits_zero c
      · have := ih (k + 1) _ (by omega) (i'.setT _) i'' (by omega) (by omega)
        rw [show K - 1 - k = (K - 1 - (k + 1)) + 1 by omega, List.getElem?_cons_succ]
        exact this

/-- C58, error of `calc_pi`: for digits10 > 51 and start values in a covered type (`FloatOk`), the computed value differs from π by at most
    (61·2^n + 34·n)·10^(-(digits10+ed)), n being the number of rounds of the loop (one report to the callback each), at most
    48. Missing for the full property (an error below the unit of the last of the digits10 digits for all configurations):
    configurations that multiply by FFT, long double with 32-bit limbs, 16-bit limbs with more than 42 limbs, and a bound on n that holds
    without looking at the reports (see `calc_pi_rounds`). -/
theorem calc_pi_error_partial (c : Cfg) (F : Flt) (hF : FloatOk c F) (sq : ℚ → ℚ) (hsq : F.IsSqrt sq)
    (hok : MulOkAll c) (hd : 52 ≤ c.digits10) (hr : ((c.N : ℤ) + 8) * c.ed < c.maxExp) :
    let r := calcPi c (estSqrt c F sq) (estInv c F) F.digits10
    let n := r.2.length
    Full c r.1 ∧ 1 ≤ n ∧ n ≤ 48 ∧ |(r.1.val c : ℝ) - π| ≤ (61 * 2 ^ n + 34 * n) / 10 ^ (c.digits10 + c.ed) := by
  intro r n
  have h : AgmOk c := ⟨hok, by omega, hr⟩
  obtain ⟨a, b, d, e⟩ := calcPi_spec h (digits10_ge hF) (pi_sqrt_ok hF hsq h) (pi_inv_ok hF h)
  refine ⟨a, b, d, le_trans e (le_of_eq ?_)⟩
  unfold agmDelta
  push_cast
  ring

theorem pi_rounds_small {c : Cfg} (h : AgmOk c) :
    2 ^ (match c.L with | .u8 => 11 | .u16 => 7 | .u32 => 13) * agmC 1 (√(1 / 2)) (match c.L with | .u8 => 11 | .u16 => 7 | .u32 => 13) +
      42 / 10 * 2 ^ (match c.L with | .u8 => 11 | .u16 => 7 | .u32 => 13) * (agmDelta c : ℝ) < (10 : ℝ) ^ (-agmGoal c) := by
  have ok1 := h.ok.1
  have ok2 := h.ok.2
  have hdl := c.digits_le
  cases hL : c.L
  · have hed : c.ed = 2 := by unfold Cfg.ed; rw [hL]; rfl
    rw [hed] at hdl
    exact pi_term_small h (m := 409) (by norm_num) (by norm_num) (by omega)
  · have hed : c.ed = 4 := by unfold Cfg.ed; rw [hL]; rfl
    rw [hed] at hdl
    have := ok2 hL
    exact pi_term_small h (m := 25) (by norm_num) (by norm_num) (by omega)
  · have hed : c.ed = 8 := by unfold Cfg.ed; rw [hL]; rfl
    rw [hed] at hdl
    exact pi_term_small h (m := 1638) (by norm_num) (by norm_num) (by omega)

/-- C58, number of rounds: more than K rounds (13 with 32-bit limbs, 7 with 16-bit limbs, 11 with 8-bit limbs) are done only
    if the K-th round reports zero digits to the callback, which happens when its computed term is exactly zero. -/
theorem calc_pi_rounds (c : Cfg) (F : Flt) (hF : FloatOk c F) (sq : ℚ → ℚ) (hsq : F.IsSqrt sq)
    (hok : MulOkAll c) (hd : 52 ≤ c.digits10) (hr : ((c.N : ℤ) + 8) * c.ed < c.maxExp) :
    let L := (calcPi c (estSqrt c F sq) (estInv c F) F.digits10).2
    let K := match c.L with | .u8 => 11 | .u16 => 7 | .u32 => 13
    K < L.length → L[K - 1]? = some 0 := by
  have h : AgmOk c := ⟨hok, by omega, hr⟩
  obtain ⟨i0, t0⟩ := piInit_inv (est := estInv c F) (fdig := F.digits10) h
  have hK0 : 0 < (match c.L with | .u8 => 11 | .u16 => 7 | .u32 => 13) := by cases c.L <;> norm_num
  have hs := pi_rounds_small h
  have hl : (calcPi c (estSqrt c F sq) (estInv c F) F.digits10).2 =
    (piLoop c (estSqrt c F sq) (estInv c F) F.digits10 48 0 (piInit c (estInv c F) F.digits10)).2 := by
    unfold calcPi; generalize 48 = f; rfl
  dsimp only
  rw [hl]
  have pz := piLoop_zero (est := estInv c F) h (digits10_ge hF) (pi_sqrt_ok hF hsq h) hs 48 0 _ (by norm_num) i0 t0 hK0
  clear hs hl
  generalize (piLoop c (estSqrt c F sq) (estInv c F) F.digits10 48 0 (piInit c (estInv c F) F.digits10)).2 = L at *
  generalize (match c.L with | .u8 => 11 | .u16 => 7 | .u32 => 13) = K at *
  intro hlt
  rw [zero_add, Nat.sub_zero] at pz
  exact pz hlt

/-- C58, digits: unless the K-th round reports zero, the error is below one unit of the digits10-th decimal with 32- and 16-bit
    limbs, and below 1254 units with 8-bit limbs. -/
theorem calc_pi_digits_partial (c : Cfg) (F : Flt) (hF : FloatOk c F) (sq : ℚ → ℚ) (hsq : F.IsSqrt sq)
    (hok : MulOkAll c) (hd : 52 ≤ c.digits10) (hr : ((c.N : ℤ) + 8) * c.ed < c.maxExp) :
    let r := calcPi c (estSqrt c F sq) (estInv c F) F.digits10
    match c.L with
    | .u8 => r.2[10]? ≠ some 0 → |(r.1.val c : ℝ) - π| < 1254 / 10 ^ c.digits10
    | .u16 => r.2[6]? ≠ some 0 → |(r.1.val c : ℝ) - π| < 1 / 10 ^ c.digits10
    | .u32 => r.2[12]? ≠ some 0 → |(r.1.val c : ℝ) - π| < 1 / 10 ^ c.digits10 := by
  intro r
  obtain ⟨-, h1, -, h3⟩ := calc_pi_error_partial c F hF sq hsq hok hd hr
  have hq := calc_pi_rounds c F hF sq hsq hok hd hr
  change |(r.1.val c : ℝ) - π| ≤ (61 * 2 ^ r.2.length + 34 * (r.2.length : ℝ)) / 10 ^ (c.digits10 + c.ed) at h3
  change 1 ≤ r.2.length at h1
  have hq' : (match c.L with | .u8 => 11 | .u16 => 7 | .u32 => 13) < r.2.length →
    r.2[(match c.L with | .u8 => 11 | .u16 => 7 | .u32 => 13) - 1]? = some 0 := hq
  clear hq
  have key : ∀ K : ℕ, r.2.length ≤ K → |(r.1.val c : ℝ) - π| ≤ (61 * 2 ^ K + 34 * (K : ℝ)) / 10 ^ c.ed / 10 ^ c.digits10 := by
    intro K hK
    refine le_trans h3 ?_
    rw [div_div, add_comm, ← pow_add]
    have : (2 : ℝ) ^ r.2.length ≤ 2 ^ K := pow_le_pow_right₀ (by norm_num) hK
    have : (r.2.length : ℝ) ≤ K := by exact_mod_cast hK
    rw [add_comm c.digits10]
    gcongr ?_ / _
    linarith
  cases hL : c.L <;> rw [hL] at hq' <;> simp only at hq' ⊢ <;> intro hne
  · have hed : c.ed = 2 := by unfold Cfg.ed; rw [hL]; rfl
    have := key 11 (by by_contra hc; exact hne (hq' (by omega)))
    rw [hed] at this
    refine lt_of_le_of_lt this ?_
    gcongr; norm_num
  · have hed : c.ed = 4 := by unfold Cfg.ed; rw [hL]; rfl
    have := key 7 (by by_contra hc; exact hne (hq' (by omega)))
    rw [hed] at this
    refine lt_of_le_of_lt this ?_
    gcongr; norm_num
  · have hed : c.ed = 8 := by unfold Cfg.ed; rw [hL]; rfl
    have := key 13 (by by_contra hc; exact hne (hq' (by omega)))
    rw [hed] at this
    refine lt_of_le_of_lt this ?_
    gcongr; norm_num

/-- 100 and 1000 digits with 32-bit limbs, 100 digits with 16- and 8-bit limbs meet the hypotheses, with double. -/
example : exDouble.IsDouble ∧ (∃ sq, exDouble.IsSqrt sq) ∧
    ∀ c ∈ [({ L := .u32, digits10 := 100, maxExp := 2 ^ 59 } : Cfg), { L := .u32, digits10 := 1000, maxExp := 2 ^ 59 },
      { L := .u16, digits10 := 100, maxExp := 2 ^ 59 }, { L := .u8, digits10 := 100, maxExp := 2 ^ 59 }],
      MulOkAll c ∧ 52 ≤ c.digits10 ∧ ((c.N : ℤ) + 8) * c.ed < c.maxExp :=
  ⟨⟨rfl, rfl, rfl⟩, sqrt_fn_exists _ (by decide), by decide +kernel⟩

end WD
