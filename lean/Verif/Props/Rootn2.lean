import Verif.Props.Rootn
import Verif.Props.InvInv
/-
  C55: special values, existence of the start functions, non-vacuity, and the cases in which the roots are wrong.
-/
namespace WD
open DW

/-- Functions meeting the requirement on `std::pow` exist for every floating-point type. -/
theorem invroot_fn_exists (F : Flt) (hp : 1 ≤ F.p) : ∃ pw, F.IsInvRoot pw := by
  have hu0 := F.u_pos
  have hu1 := F.u_lt hp
  have key : ∀ (p : ℕ) (q : ℚ), 3 ≤ p → 0 < q → ∃ r : ℚ, 0 < r ∧ NearF F.u p 1 (q * r ^ p) := by
    intro p q hp3 hq
    have hqr : (0 : ℝ) < q := by exact_mod_cast hq
    obtain ⟨hS, hSS⟩ := root_pow hqr (p := p) (by omega)
    generalize (q : ℝ) ^ (-(1 / (p : ℝ))) = S at *
    have hur0 : (0 : ℝ) < F.u := by exact_mod_cast hu0
    have hur1 : (F.u : ℝ) < 1 := by exact_mod_cast hu1
    obtain ⟨r, r1, r2⟩ := exists_rat_btwn (show (1 - (F.u : ℝ)) * S < (1 + (F.u : ℝ)) * S by nlinarith)
    have hl : 0 < (1 - (F.u : ℝ)) * S := mul_pos (by linarith) hS
    have hr0 : (0 : ℝ) < r := lt_trans hl r1
    refine ⟨r, by exact_mod_cast hr0, ?_, ?_⟩
    · have h1 : ((1 - (F.u : ℝ)) * S) ^ p ≤ (r : ℝ) ^ p := pow_le_pow_left₀ hl.le r1.le p
      have h2 := mul_le_mul_of_nonneg_left h1 hqr.le
      rw [mul_pow, mul_left_comm, hSS, mul_one] at h2
      rw [mul_one]
      exact_mod_cast h2
    · have h1 : (r : ℝ) ^ p ≤ ((1 + (F.u : ℝ)) * S) ^ p := pow_le_pow_left₀ hr0.le r2.le p
      have h2 := mul_le_mul_of_nonneg_left h1 hqr.le
      rw [mul_pow, mul_left_comm, hSS, mul_one] at h2
      rw [mul_one]
      exact_mod_cast h2
  refine ⟨fun p q => if h : 3 ≤ p ∧ 0 < q then F.rnd (key p q h.1 h.2).choose else 0, fun p q h3 hlo _ => ?_⟩
  have hq : 0 < q := lt_of_lt_of_le (by positivity) hlo
  simp only [dif_pos (And.intro h3 hq)]
  obtain ⟨r0, r1⟩ := (key p q h3 hq).choose_spec
  generalize (key p q h3 hq).choose = r at *
  have hN : NearF F.u 1 r (F.rnd r) := F.near_rnd hp r0.le (near_refl hu0 hu1)
  have hpos := hN.pos hu0 hu1 r0
  have hpw : NearF F.u p (r ^ p) (F.rnd r ^ p) := by
    constructor
    · rw [← mul_pow]; exact pow_le_pow_left₀ (mul_nonneg (by linarith) r0.le) (by simpa using hN.1) p
    · rw [← mul_pow]; exact pow_le_pow_left₀ hpos.le (by simpa using hN.2) p
  have h2 : NearF F.u p (q * r ^ p) (q * F.rnd r ^ p) := by
    have := NearF.const hu0 hu1 hq.le hpw
    rwa [mul_comm, mul_comm (F.rnd r ^ p)] at this
  have h3' := (r1.trans hu0 hu1 h2).mono hu0 hu1 (b := 5 * p) (by omega) (by norm_num)
  rw [NearF, mul_one, mul_one] at h3'
  exact ⟨F.rep _, hpos, h3'.1, h3'.2⟩

/-- C55, special values: the zeroth root is zero, the first and second roots of x ≥ 0 are x and sqrt(x), a negative degree is
    one over the root, every root of a negative number but the third is zero, and `rootn_inv` is zero for degrees below 1. -/
theorem rootn_special (c : Cfg) (est : DW → DW) (fdig : ℕ) (sst : DW → DW × DW) (rst : ℕ → DW → Option DW) (x : DW) (hx : WF c x) :
    rootn c est fdig sst rst x 0 = some (zero c) ∧
    (0 ≤ x.val c → rootn c est fdig sst rst x 1 = some x ∧ rootn c est fdig sst rst x 2 = some (calcSqrt c sst fdig x)) ∧
    (∀ p : ℕ, 0 < p → p < 2 ^ 31 → rootn c est fdig sst rst x (-p) = (rootn c est fdig sst rst x p).map (divAssign c est fdig (one c))) ∧
    (x.val c < 0 → ∀ p : ℕ, p ≠ 3 → rootn c est fdig sst rst x p = some (zero c)) ∧
    (∀ p : ℤ, p < 1 → rootnInv c est fdig rst x p = some (zero c)) := by
  have hz := lt_zero_iff c hx
  refine ⟨?_, fun h => ?_, fun p h1 h2 => ?_, fun h p hp => ?_, fun p hp => ?_⟩
  · unfold rootn
    rw [if_neg (by norm_num), if_neg (by norm_num)]
    unfold rootnNat
    rw [if_pos (by simp)]
  · have hl : ¬ (DW.lt x (ofSigned c 0) = true) := fun h' => by have := hz.mp h'; linarith
    constructor
    · unfold rootn
      rw [if_neg (by norm_num), if_neg (by norm_num)]
      unfold rootnNat
      rw [if_neg (by rintro (h | h); · simp at h
                     · exact hl h.1), if_pos (by decide)]
    · unfold rootn
      rw [if_neg (by norm_num), if_neg (by norm_num)]
      unfold rootnNat
      rw [if_neg (by rintro (h | h); · simp at h
                     · exact hl h.1), if_neg (by decide), if_pos (by decide)]
  · unfold rootn
    rw [if_neg (by omega), if_pos (by omega), if_neg (by omega), if_neg (by omega)]
    simp
  · unfold rootn
    rw [if_neg (by omega), if_neg (by omega), Int.toNat_natCast]
    unfold rootnNat
    rw [if_pos (Or.inr ⟨hz.mpr h, hp⟩)]
  · unfold rootnInv calcRootnInv
    rw [if_pos hp]

/-- F51: the root of zero is not computed. For every floating-point type, every p ≥ 3 and every representation of zero, `rootn`
    and `rootn_inv` (hence `cbrt`) have no result: `pow(0, -1/p)` is infinite and its conversion never ends. -/
theorem rootn_zero_never (c : Cfg) (F : Flt) (est : DW → DW) (fdig : ℕ) (sst : DW → DW × DW) (pw : ℕ → ℚ → ℚ) (x : DW) (hx : WF c x) (h0 : x.val c = 0)
    (p : ℕ) (hp : 3 ≤ p) : rootn c est fdig sst (rootnStart c F pw) x p = none ∧ rootnInv c est fdig (rootnStart c F pw) x p = none := by
  have hl : ¬ (DW.lt x (ofSigned c 0) = true) := fun h' => by have := (lt_zero_iff c hx).mp h'; linarith
  have hparts : ∀ (l : List ℕ) (s : ℚ), (∀ d ∈ l, d = 0) → partsLoop c F l 0 s = 0 := by
    intro l
    induction l with
    | nil => intro s _; rfl
    | cons a as ih =>
      intro s h
      rw [partsLoop, h a (by simp), Nat.cast_zero, F.rnd_zero, zero_mul, F.rnd_zero, add_zero, F.rnd_zero]
      exact ih _ fun d hd => h d (by simp [hd])
  have hshift : ∀ (n : ℕ) (e : ℤ), (rootnShift F p n (0, e)).1 = 0 := by
    intro n
    induction n with
    | zero => intro e; rfl
    | succ n ih =>
      intro e
      rw [rootnShift]
      split
      · rw [zero_div, F.rnd_zero]; exact ih _
      · rfl
  have hall : ∀ d ∈ x.data, d = 0 := hx.lead (by have := hx.isZero_iff.mpr h0; simpa [isZero] using this)
  have hst : ∀ y : DW, (∀ d ∈ y.data, d = 0) → rootnStart c F pw p y = none := by
    intro y hy
    have he : (extractParts c F y).1 = 0 := by
      unfold extractParts
      simp only [hparts _ _ (fun d hd => hy d (List.mem_of_mem_take hd))]
      split <;> simp
    unfold rootnStart
    have hpair : extractParts c F y = (0, (extractParts c F y).2) := Prod.ext he rfl
    rw [hpair]
    exact if_pos (hshift p _).le
  have hinv : ∀ y : DW, (∀ d ∈ y.data, d = 0) → ∀ q : ℕ, q = p → calcRootnInv c est fdig (rootnStart c F pw) q y = none := by
    intro y hy q hq
    subst hq
    unfold calcRootnInv
    rw [if_neg (by omega), if_neg (by omega), Int.toNat_natCast, hst y hy]
    rfl
  refine ⟨?_, hinv x hall p rfl⟩
  unfold rootn
  rw [if_neg (by omega), if_neg (by omega), Int.toNat_natCast]
  unfold rootnNat
  rw [if_neg (by rintro (h | h); · omega
                 · exact hl h.1), if_neg (by omega), if_neg (by omega)]
  split
  · next h =>
    have := hinv (fabs x) (by rw [(limbs_of_fabs x).1]; exact hall) 3 h.symm
    change Option.map _ (calcRootnInv c est fdig (rootnStart c F pw) ((3 : ℕ) : ℤ) (fabs x)) = _
    rw [this]; rfl
  · rw [hinv x hall p rfl]; rfl

/-- Zero itself is such an x. -/
example : WF exC20 (zero exC20) ∧ (zero exC20).val exC20 = 0 := ⟨(zero_WF _).toWF, zero_val _⟩

/-- F52: `rootn_inv(x, 1)` is x, not 1/x. -/
theorem rootn_inv_one_wrong (c : Cfg) (est : DW → DW) (fdig : ℕ) (rst : ℕ → DW → Option DW) :
    rootnInv c est fdig rst (two c) 1 = some (two c) ∧ (two c).val c = 2 := ⟨rfl, two_val c⟩

/-- F53: the odd roots of negative numbers other than the third are zero, even the first: rootn(-1, 1) = 0 and rootn(-1, 5) = 0,
    although both roots are -1. -/
theorem rootn_odd_wrong (c : Cfg) (est : DW → DW) (fdig : ℕ) (sst : DW → DW × DW) (rst : ℕ → DW → Option DW) :
    (one c).negate.val c = -1 ∧ rootn c est fdig sst rst (one c).negate 1 = some (zero c) ∧
    rootn c est fdig sst rst (one c).negate 5 = some (zero c) ∧ (zero c).val c = 0 := by
  have hv : (one c).negate.val c = -1 := by rw [negate_val c (one_full c).toWF, one_val]
  have h := (rootn_special c est fdig sst rst (one c).negate (negate_WF (one_full c).toWF)).2.2.2.1 (by rw [hv]; norm_num)
  exact ⟨hv, h 1 (by norm_num), h 5 (by norm_num), zero_val c⟩

/-- The argument of `std::pow` in the fourth root of one: the double 1/10/10/10/10. -/
def exQ4 : ℚ := 7378697629483821 / 73786976294838206464

/-- A `std::pow` that returns exactly ten for (0.0001, -1/4), as the one of glibc does; it meets the requirement. -/
theorem invroot_ten_exists : ∃ pw, exDouble.IsInvRoot pw ∧ pw 4 exQ4 = 10 := by
  obtain ⟨pw, h⟩ := invroot_fn_exists exDouble (by decide)
  refine ⟨fun p q => if p = 4 ∧ q = exQ4 then 10 else pw p q, fun p q h3 h1 h2 => ?_, if_pos ⟨rfl, rfl⟩⟩
  by_cases hc : p = 4 ∧ q = exQ4
  · obtain ⟨rfl, rfl⟩ := hc
    simp only [and_self, if_true]
    refine ⟨⟨10, 0, by norm_num [exDouble], by norm_num⟩, by norm_num, ?_, ?_⟩
    · have : exDouble.p = 53 := rfl
      rw [this, exQ4]
      norm_num
    · have : exDouble.p = 53 := rfl
      rw [this, exQ4]
      norm_num
  · simp only [if_neg hc]
    exact h p q h3 h1 h2

/-- F50: the fourth root of one. With 16-bit limbs, 20 digits, double and a `std::pow` of the required accuracy that returns
    exactly 10 where the exact value is 10 - 3·10^(-16), rootn(1, 4) is less than 0.8156: the start value is the malformed power of
    the radix, and the reciprocal taken at the end is wrong for it (F49). -/
theorem rootn_one_wrong : ∃ pw, exDouble.IsInvRoot pw ∧ ∀ sst, ∃ y,
    rootn exC20h (estInv exC20h exDouble) exDouble.digits10 sst (rootnStart exC20h exDouble pw) (one exC20h) 4 = some y ∧
    y.val exC20h < 8156 / 10000 := by
  obtain ⟨pw, h1, h2⟩ := invroot_ten_exists
  refine ⟨pw, h1, fun sst => ?_⟩
  have hst : rootnStart exC20h exDouble pw 4 (one exC20h) = some { data := [10000, 0, 0, 0, 0, 0, 0, 0], exp := -4, neg := false, prec := 8 } := by
    have e : rootnShift exDouble 4 4 (extractParts exC20h exDouble (one exC20h)) = (exQ4, 4) := by
      rw [← exDoubleK_eq]; decide +kernel
    unfold rootnStart
    rw [e]
    change (if exQ4 ≤ 0 then none else ofMantExp exC20h exDouble (pw 4 exQ4) _) = _
    rw [if_neg (by unfold exQ4; norm_num), h2, ← exDoubleK_eq]
    decide +kernel
  have hri : calcRootnInv exC20h (estInv exC20h exDouble) exDouble.digits10 (rootnStart exC20h exDouble pw) (4 : ℕ) (one exC20h) =
      some { data := [10000, 0, 0, 0, 0, 0, 0, 0], exp := -4, neg := false, prec := 8 } := by
    unfold calcRootnInv
    rw [if_neg (by norm_num), if_neg (by norm_num), Int.toNat_natCast, hst]
    simp only [Option.map_some]
    rw [rootnLoop_eq_fuel _ _ _ _ _ 5 _ _ _ (by decide +kernel), ← exDoubleK_eq]
    decide +kernel
  have hin : calcInv exC20h (estInv exC20h exDouble) exDouble.digits10 { data := [10000, 0, 0, 0, 0, 0, 0, 0], exp := -4, neg := false, prec := 8 } =
      { data := [8155, 3255, 9262, 9044, 9407, 4430, 1532, 5648], exp := -4, neg := false, prec := 8 } := by
    unfold calcInv
    rw [if_neg (by decide +kernel), if_neg (by decide +kernel)]
    dsimp only
    rw [invLoop_eq_fuel _ _ 5 _ _ _ (by decide +kernel), ← exDoubleK_eq]
    decide +kernel
  refine ⟨{ data := [8155, 3255, 9262, 9044, 9407, 4430, 1532, 5648], exp := -4, neg := false, prec := 8 }, ?_, ?_⟩
  · unfold rootn
    rw [if_neg (by norm_num), if_neg (by norm_num)]
    change rootnNat exC20h _ _ sst _ 4 _ = _
    unfold rootnNat
    rw [if_neg (by decide +kernel), if_neg (by norm_num), if_neg (by norm_num), if_neg (by norm_num), hri, Option.map_some, hin]
  · have h1 : exC20h.N = 8 := by decide
    have h2 : exC20h.ed = 4 := by decide
    have h3 : exC20h.B = 10000 := by decide
    simp only [DW.val, limbsVal, h1, h2, h3]; norm_num [zpow_neg]

/-- Non-vacuity of the accuracy theorems: 20 digits, 32-bit limbs, double, x = 2, every degree from 3 to 300; the guard holds for
    every function `pw`. -/
theorem exTwo_off (p : ℕ) (hp : 3 ≤ p) (pw : ℕ → ℚ → ℚ) : RootOff exC20 exDouble pw p (two exC20) := by
  left
  intro k
  rw [two_val]
  have h8 : exC20.ed = 8 := by decide
  rw [h8]
  have hs : ((8 : ℕ) : ℤ) * k * p = 8 * k * p := by norm_num
  rw [hs]
  rcases lt_trichotomy k 0 with h | h | h
  · have : (10 : ℚ) ^ (8 * k * p) ≤ 10 ^ (-1 : ℤ) := by
      refine zpow_le_zpow_right₀ (by norm_num) ?_
      have : k * p ≤ -1 * p := mul_le_mul_of_nonneg_right (by omega) (by omega)
      have e : 8 * k * p = 8 * (k * p) := by ring
      rw [e]; omega
    have h0 : (0 : ℚ) < 10 ^ (8 * k * p) := by positivity
    rw [abs_sub_comm, abs_of_pos (by norm_num at this; linarith)]
    norm_num at this ⊢
    linarith
  · rw [h]; norm_num
  · have : (10 : ℚ) ^ (1 : ℤ) ≤ 10 ^ (8 * k * p) := by
      refine zpow_le_zpow_right₀ (by norm_num) ?_
      have : 1 * (p : ℤ) ≤ k * p := mul_le_mul_of_nonneg_right (by omega) (by omega)
      have e : 8 * k * p = 8 * (k * p) := by ring
      rw [e]; omega
    rw [abs_of_pos (by norm_num at this; linarith)]
    norm_num at this ⊢
    linarith

example (p : ℕ) (h3 : 3 ≤ p) (h300 : p ≤ 300) : RootOk exC20 exDouble p (two exC20).exp ∧ exC20.N < 1793 ∧ (∃ pw, exDouble.IsInvRoot pw) ∧
    Full exC20 (two exC20) ∧ 0 < (two exC20).val exC20 ∧ (∀ pw, RootOff exC20 exDouble pw p (two exC20)) ∧
    (∀ pw, RootOff exC20 exDouble pw 3 (fabs (two exC20).negate)) := by
  refine ⟨⟨⟨rfl, rfl, rfl⟩, by decide +kernel, by decide +kernel, by decide, h3, h300, fun h => absurd h (by decide), by decide +kernel, by decide +kernel⟩,
    by decide +kernel, invroot_fn_exists _ (by decide), two_full _, by rw [two_val]; norm_num, exTwo_off p h3, fun pw => ?_⟩
  have : fabs (two exC20).negate = two exC20 := by decide +kernel
  rw [this]
  exact exTwo_off 3 le_rfl pw

end WD
