import Verif.Props.Alias
import Verif.Props.Div
import Verif.Model.Mixed
/-
  C28 (division by zero and of equals), C34 (precision), C40 (numeric_limits), C44 (mixed operands).
-/
namespace WD
open DW

theorem limbsVal_inj {B : ℕ} : ∀ {a b : List ℕ}, ValidLimbs B a → ValidLimbs B b → a.length = b.length →
    limbsVal B a = limbsVal B b → a = b
  | [], [], _, _, _, _ => rfl
  | [], _ :: _, _, _, h, _ => by simp at h
  | _ :: _, [], _, _, h, _ => by simp at h
  | x :: xs, y :: ys, ha, hb, h, he => by
    obtain ⟨hx, hxs⟩ := validLimbs_cons.mp ha
    obtain ⟨hy, hys⟩ := validLimbs_cons.mp hb
    have hl : xs.length = ys.length := by simpa using h
    rw [limbsVal_cons, limbsVal_cons, hl] at he
    have l1 := limbsVal_lt hxs
    have l2 := limbsVal_lt hys
    rw [hl] at l1
    have hxy : x = y := by
      rcases lt_trichotomy x y with h | h | h
      · have := Nat.mul_le_mul_right (B ^ ys.length) (show x + 1 ≤ y by omega)
        rw [Nat.add_mul] at this; omega
      · exact h
      · have := Nat.mul_le_mul_right (B ^ ys.length) (show y + 1 ≤ x by omega)
        rw [Nat.add_mul] at this; omega
    subst hxy
    rw [limbsVal_inj hxs hys hl (by omega)]

/-- C28 (partial: 0/0 is excluded, see `zero_div_zero_depends_on_representation`). Dividing equal numbers gives exactly 1 and opposite ones
    exactly -1 (with the representation 1, whatever the floating-point start), and x/0 is zero for x ≠ 0 of in-range exponent: there is no infinity or
    NaN, the outcome is always the same. -/
theorem division_special_partial (c : Cfg) (est : DW → DW) (fdig : ℕ) (x y : DW) (hx : Full c x) (hy : Full c y)
    (hx0 : x.val c ≠ 0) (hok : MulOk c c.N) (hE : 0 < c.maxExp) :
    (x.val c = y.val c → divAssign c est fdig x y = one c) ∧
    (x.val c = -(y.val c) → divAssign c est fdig x y = (one c).negate) ∧
    (y.val c = 0 → (divAssign c est fdig x y).val c = 0) := by
  have hxz := isZero_false_of_val hx.toWF hx0
  have ident : ∀ y, Full c y → |x.val c| = |y.val c| → x.exp = y.exp ∧ x.data = y.data := by
    intro y hy h
    have hyz : y.isZero = false := isZero_false_of_val hy.toWF (by
      intro h'; rw [h', abs_zero, abs_eq_zero] at h; exact hx0 h)
    have he := exp_eq_of_bracket hx.toWF hy.toWF hxz (by rw [h]) (by rw [h]; linarith [x.ulp_pos c])
    refine ⟨he.symm, ?_⟩
    rw [abs_val, abs_val] at h
    have hl : x.lexp c = y.lexp c := by unfold lexp; rw [he]
    rw [hl] at h
    have hm : x.mant c = y.mant c := by
      have := mul_right_cancel₀ (p10_pos (y.lexp c)).ne' h
      exact_mod_cast this
    exact limbsVal_inj hx.valid hy.valid (hx.len.trans hy.len.symm) hm
  have sg : ∀ y, Full c y → |x.val c| = |y.val c| →
      divAssign c est fdig x y = if x.neg != y.neg then (one c).negate else one c := by
    intro y hy h
    obtain ⟨h1, h2⟩ := ident y hy h
    unfold divAssign
    rw [if_pos ⟨h1, by rw [h2]; exact compareRanges_self _⟩]
  have hxp := hx.toWF.abs_pos hxz
  refine ⟨fun h => ?_, fun h => ?_, fun h => ?_⟩
  · rw [sg y hy (by rw [h]), if_neg]
    intro hb
    have a := val_sgn c x; have b := val_sgn c y
    rw [h] at a hxp
    rcases Bool.dichotomy x.neg with h1 | h1 <;> rcases Bool.dichotomy y.neg with h2 | h2 <;> simp [h1, h2] at a b hb <;> linarith [abs_pos.mp hxp |>.symm, abs_nonneg (y.val c)]
  · have hab : |x.val c| = |y.val c| := by rw [h, abs_neg]
    rw [sg y hy hab, if_pos]
    have a := val_sgn c x; have b := val_sgn c y
    rw [hab] at a
    rw [hab] at hxp
    rcases Bool.dichotomy x.neg with h1 | h1 <;> rcases Bool.dichotomy y.neg with h2 | h2 <;> simp [h1, h2] at a b ⊢ <;> linarith
  · have hyz := hy.toWF.isZero_iff.mpr h
    have hne : ¬ (x.exp = y.exp ∧ compareRanges x.data y.data = 0) := by
      rintro ⟨-, h2⟩
      have h0 : y.mant c = 0 := hy.toWF.isZero_iff_mant.mp hyz
      have : compareRanges x.data y.data = cmp3 (limbsVal c.B x.data) (limbsVal c.B y.data) :=
        compareRanges_spec c.B _ _ (hx.len.trans hy.len.symm) hx.valid hy.valid
      rw [h2] at this
      unfold cmp3 at this
      have hm := hx.toWF.mant_ge hxz
      have hp : 0 < c.B ^ (c.N - 1) := Nat.pow_pos c.B_pos
      unfold mant at hm h0
      rw [h0, if_neg (by omega), if_neg (by omega)] at this
      simp at this
    unfold divAssign
    rw [if_neg hne]
    have : calcInv c est fdig y = zero c := by unfold calcInv; rw [if_pos hyz]
    rw [this]
    exact (mulAssign_zero hx (zero_WF c) (Or.inr (zero_isZero c)) hok (by simpa [zero, fromLst] using hE) (by simpa [zero, fromLst] using hE)).1

/-- C28 fails for 0/0: it is 1 when the two zeros have the same exponent and 0 otherwise – both zeros here are results
    of multiplications and compare equal. -/
theorem zero_div_zero_depends_on_representation :
    let z := zero exC
    let z' := mulAssign exC (zero exC) exY
    DW.eq z z' = true ∧ ∀ est fdig, (divAssign exC est fdig z z) = one exC ∧ (divAssign exC est fdig z z').val exC = 0 := by
  intro z z'
  refine ⟨by decide +kernel, fun est fdig => ⟨divAssign_self .., ?_⟩⟩
  have hz' : z' = { zero exC with exp := -4, neg := true } := by decide +kernel
  unfold divAssign
  rw [if_neg (by rw [hz']; decide)]
  have : calcInv exC est fdig z' = zero exC := by unfold calcInv; rw [if_pos (by rw [hz']; decide)]
  rw [this]
  have e : mulAssign exC z (zero exC) = zero exC := by decide +kernel
  rw [e, zero_val]

example : Full exC exX ∧ exX.isZero = false ∧ divAssign exC id 15 exX exX.negate = (one exC).negate ∧
    divAssign exC id 15 exX (zero exC) = zero exC := by decide +kernel

/-- C34. `precision(d)` changes only the working precision, never the value or any other member; the precision is at
    least 2 limbs and at most all N; it holds at least d digits unless d exceeds the capacity; it is the least number of limbs
    (not below 2) that does; and `get_precision` reports it in digits. -/
theorem precision_spec (c : Cfg) (x : DW) (d : ℤ) :
    let r := precision c x d
    r.val c = x.val c ∧ r.data = x.data ∧ r.exp = x.exp ∧ r.neg = x.neg ∧
    2 ≤ r.prec ∧ r.prec ≤ c.N ∧ (d ≤ getPrecision c r ∨ r.prec = c.N) ∧
    (∀ k : ℕ, 2 ≤ k → d ≤ (k : ℤ) * c.ed → r.prec ≤ k) ∧ getPrecision c r = r.prec * c.ed := by
  intro r
  have hed : (0 : ℤ) < c.ed := by exact_mod_cast c.ed_pos
  have h3 := c.three_le_N
  have hdiv := Int.mul_tdiv_add_tmod d c.ed
  have hneed : (d ≤ (d.tdiv c.ed + (if d.tmod c.ed ≠ 0 then 1 else 0)) * c.ed) ∧
      ∀ k : ℤ, 0 ≤ k → d ≤ k * c.ed → d.tdiv c.ed + (if d.tmod c.ed ≠ 0 then 1 else 0) ≤ max k 1 := by
    rcases le_or_gt 0 d with h | h
    · have hm0 := Int.tmod_nonneg (c.ed : ℤ) h
      have hm1 := Int.tmod_lt_of_pos d hed
      refine ⟨?_, fun k hk hkd => ?_⟩
      · split
        · nlinarith
        · next h0 => have h0' : d.tmod c.ed = 0 := by simpa using h0
                     nlinarith
      · refine le_trans ?_ (le_max_left _ _)
        split
        · have : d.tdiv c.ed < k := by
            by_contra hcon
            have : k * (c.ed : ℤ) ≤ d.tdiv c.ed * c.ed := mul_le_mul_of_nonneg_right (by omega) hed.le
            have : 0 < d.tmod c.ed := by omega
            nlinarith
          omega
        · next h0 =>
          have h0' : d.tmod c.ed = 0 := by simpa using h0
          by_contra hcon
          have : (k + 1) * (c.ed : ℤ) ≤ d.tdiv c.ed * c.ed := mul_le_mul_of_nonneg_right (by omega) hed.le
          nlinarith
    · have hm : d.tmod c.ed = -((-d).tmod c.ed) := by rw [Int.neg_tmod]; ring
      have hm0 := Int.tmod_nonneg (c.ed : ℤ) (show 0 ≤ -d by omega)
      have hq : d.tdiv c.ed ≤ 0 := by
        have := Int.tdiv_nonneg (show 0 ≤ -d by omega) hed.le
        rw [Int.neg_tdiv] at this; omega
      refine ⟨?_, fun k hk hkd => ?_⟩
      · have hm1 : d.tmod c.ed ≤ 0 := by omega
        split <;> nlinarith
      · refine le_trans ?_ (le_max_right _ _)
        split <;> omega
  generalize hN : (d.tdiv c.ed + (if d.tmod c.ed ≠ 0 then 1 else 0) : ℤ) = need at hneed
  have hr : r.prec = (min (c.N : ℤ) (max need 2)).toNat := by rw [← hN]; rfl
  refine ⟨rfl, rfl, rfl, rfl, by omega, by omega, ?_, ?_, rfl⟩
  · by_cases h : r.prec = c.N
    · exact Or.inr h
    · left
      have : need ≤ r.prec := by omega
      unfold getPrecision
      push_cast
      nlinarith [hneed.1]
  · intro k hk hkd
    have := hneed.2 k (by omega) hkd
    omega

example : (precision exC exX 5).prec = 3 ∧ (precision exC exX (-7)).prec = 2 ∧ (precision exC exX 1000).prec = 5 := by decide

/-! ### C40 numeric_limits -/

/-- The digit position of the epsilon limb: between 1 and ed, and ed exactly when digits10 mod ed = 1. -/
theorem eps_pos (c : Cfg) :
    let d4e := (c.digits10 / c.ed + (if c.digits10 % c.ed ≠ 0 then 1 else 0)) * c.ed
    c.digits10 ≤ d4e ∧ 1 + d4e - c.digits10 ≤ c.ed ∧ (1 + d4e - c.digits10 = c.ed ↔ c.digits10 % c.ed = 1) := by
  intro d4e
  have h := Nat.div_add_mod c.digits10 c.ed
  have hm := Nat.mod_lt c.digits10 c.ed_pos
  have he : 2 ≤ c.ed := by unfold Cfg.ed; cases c.L <;> decide
  have hd : d4e = c.ed * (c.digits10 / c.ed) + (if c.digits10 % c.ed ≠ 0 then c.ed else 0) := by
    show (_ + _) * _ = _
    split <;> ring
  split at hd <;> omega

theorem eps_limb (c : Cfg) :
    let d4e := (c.digits10 / c.ed + (if c.digits10 % c.ed ≠ 0 then 1 else 0)) * c.ed
    epsVal c = fromLst c [10 ^ (1 + d4e - c.digits10)] (-(d4e : ℤ)) false := by
  intro d4e
  obtain ⟨h1, h2, h3⟩ := eps_pos c
  change c.digits10 ≤ d4e at h1
  change 1 + d4e - c.digits10 ≤ c.ed at h2
  have key : ∀ k, k ≤ c.ed → pow10Maker k % c.L.W = 10 ^ k := by
    intro k hk
    have hb : ∀ L : Limb, ∀ k ≤ L.ed, pow10Maker k % L.W = 10 ^ k := by
      intro L; cases L <;> decide +kernel
    exact hb c.L k hk
  show fromLst c [pow10Maker (1 + d4e - c.digits10) % c.L.W] _ _ = _
  rw [key _ h2]

/-- C40 (epsilon). `epsilon()` denotes 10^(1 - digits10), the distance from 1 to the next number of digits10 digits, for
    every configuration; and it is well formed, with 1 + epsilon() computed exactly (hence different from 1), unless
    digits10 leaves remainder 1 on division by the limb digits. -/
theorem epsilon_value (c : Cfg) :
    (epsVal c).val c = 10 ^ (1 - (c.digits10 : ℤ)) ∧
    (c.digits10 % c.ed ≠ 1 → Full c (epsVal c) ∧
      (addAssign c (one c) (epsVal c)).val c = 1 + 10 ^ (1 - (c.digits10 : ℤ)) ∧
      DW.gt (addAssign c (one c) (epsVal c)) (one c) = true) := by
  obtain ⟨h1, h2, h3⟩ := eps_pos c
  have hl := eps_limb c
  dsimp only at hl
  generalize hd : (c.digits10 / c.ed + (if c.digits10 % c.ed ≠ 0 then 1 else 0)) * c.ed = d4e at h1 h2 h3 hl
  have hv : (epsVal c).val c = 10 ^ (1 - (c.digits10 : ℤ)) := by
    rw [hl, fromLst_single_val]
    simp only [Bool.false_eq_true, if_false, one_mul]
    push_cast
    rw [← zpow_natCast, ← zpow_add₀ (by norm_num)]
    congr 1; omega
  refine ⟨hv, fun hne => ?_⟩
  have hfull : Full c (epsVal c) := by
    rw [hl]
    apply fromLst_single_full
    · rw [Cfg.B_eq]; apply Nat.pow_lt_pow_right (by norm_num); omega
    · rw [← hd]; push_cast; exact Dvd.dvd.neg_right (Dvd.intro_left _ rfl)
  have hq := p10_pos (1 - (c.digits10 : ℤ))
  have hez : (epsVal c).isZero = false := isZero_false_of_val hfull.toWF (by rw [hv]; exact hq.ne')
  have hoz : (one c).isZero = false := isZero_false_of_val (one_full c).toWF (by rw [one_val]; norm_num)
  have hneg : (one c).neg = (epsVal c).neg := by rw [hl]; rfl
  -- exactness: the sum is a multiple of the last-limb unit of 1, and representable as the computed one
  have hmul : ∃ m : ℤ, (one c).val c + (epsVal c).val c = m * max ((one c).ulp c) ((epsVal c).ulp c) := by
    have hexp : (epsVal c).exp ≤ (one c).exp := by rw [hl]; simp [one, fromLst]
    rw [max_ulp hexp, one_val, hv]
    have hdl := c.digits_le
    have h3 := c.three_le_N
    have hk : ∃ k : ℕ, (k : ℤ) = (c.ed : ℤ) * ((c.N : ℤ) - 1) ∧ c.digits10 ≤ k + 1 := by
      refine ⟨c.ed * (c.N - 1), ?_, by omega⟩
      push_cast [Nat.cast_sub (show 1 ≤ c.N by omega)]; ring
    obtain ⟨k, hk1, hk2⟩ := hk
    have hu : (one c).ulp c = 10 ^ (-(k : ℤ)) := by
      rw [ulp_eq]; unfold lexp; rw [hk1]; simp [one, fromLst]
    rw [hu]
    refine ⟨10 ^ k + 10 ^ (k + 1 - c.digits10), ?_⟩
    push_cast
    rw [add_mul, ← zpow_natCast, ← zpow_natCast, ← zpow_add₀ (by norm_num), ← zpow_add₀ (by norm_num)]
    congr 1
    · simp
    · congr 1; omega
  obtain ⟨q1, q2, q3, q4, q5, q6, q7⟩ := addAssign_same (one_full c) hfull hoz hez hneg
  have hex : (addAssign c (one c) (epsVal c)).val c = (one c).val c + (epsVal c).val c := by
    have hr0 : (addAssign c (one c) (epsVal c)).exp = 0 := by
      have g1 := q1.toWF.abs_ge q3
      have g2 : (10 : ℚ) ^ (addAssign c (one c) (epsVal c)).exp < 10 ^ (c.ed : ℤ) := by
        refine lt_of_le_of_lt (le_trans g1 q6) ?_
        rw [one_val, hv, abs_one, abs_of_pos hq]
        have a1 : (10 : ℚ) ^ (1 - (c.digits10 : ℤ)) ≤ 10 ^ (1 : ℤ) := zpow_le_zpow_right₀ (by norm_num) (by omega)
        have a2 : (10 : ℚ) ^ (2 : ℤ) ≤ 10 ^ (c.ed : ℤ) := zpow_le_zpow_right₀ (by norm_num) (by
          have : 2 ≤ c.ed := by unfold Cfg.ed; cases c.L <;> decide
          omega)
        norm_num at a1 a2 ⊢
        linarith
      have g3 := (zpow_lt_zpow_iff_right₀ (by norm_num : (1:ℚ) < 10)).mp g2
      have g4 : 0 ≤ (addAssign c (one c) (epsVal c)).exp := q4
      obtain ⟨j, hj⟩ := q1.dvd
      have hed : (0 : ℤ) < c.ed := by exact_mod_cast c.ed_pos
      have : 0 ≤ j := by by_contra hc; nlinarith
      have : j < 1 := by by_contra hc; nlinarith
      have : j = 0 := by omega
      rw [hj, this, mul_zero]
    have hexp : (epsVal c).exp ≤ (one c).exp := by rw [hl]; simp [one, fromLst]
    obtain ⟨m, hm⟩ := hmul
    obtain ⟨n, hn⟩ := val_mul_ulp c (addAssign c (one c) (epsVal c))
    have hu : (addAssign c (one c) (epsVal c)).ulp c = (one c).ulp c := by
      rw [ulp_eq, ulp_eq]; unfold lexp; rw [hr0]; rfl
    rw [max_ulp hexp] at hm
    rw [hu] at hn q7
    have hp := (one c).ulp_pos c
    have hrp : (addAssign c (one c) (epsVal c)).val c = |(addAssign c (one c) (epsVal c)).val c| :=
      WF.val_of_pos (c := c) (q2.trans rfl)
    have s1 : |(one c).val c| = (one c).val c := by rw [one_val, abs_one]
    have s2 : |(epsVal c).val c| = (epsVal c).val c := by rw [hv, abs_of_pos hq]
    rw [s1, s2, ← hrp] at q6 q7
    have := multiple_unique hp (m := n) (n := m) (by rw [← hn, ← hm, abs_lt]; constructor <;> linarith)
    rw [hn, hm, this]
  rw [one_val, hv] at hex
  refine ⟨hfull, hex, ?_⟩
  rw [(ordering_matches_value c _ _ q1.toWF (one_full c).toWF).2.2.2.2.2, hex, one_val]
  linarith

example : epsVal exC = { data := [10, 0, 0, 0, 0], exp := -4, neg := false, prec := 5 } ∧ exC.digits10 % exC.ed ≠ 1 := by decide

/-- C40 (epsilon, limit). With digits10 = 5 and 8-bit limbs, epsilon() is not a well-formed number: its first limb
    equals the radix 100. -/
theorem epsilon_malformed : let c : Cfg := { L := .u8, digits10 := 5, maxExp := 64 }
    ¬ WF c (epsVal c) ∧ (epsVal c).d0 = c.B := by decide +kernel

/-- C40 (min and max). min() is positive and well formed, max() is its counterpart 9·10^maxExp; every non-zero
    well-formed number whose exponent is in the documented range (-maxExp ≤ exp < maxExp) lies between them in magnitude. -/
theorem numeric_limits_min_max (c : Cfg) (hE : (c.ed : ℤ) ∣ c.maxExp) :
    Full c (minVal c) ∧ Full c (maxVal c) ∧ 0 < (minVal c).val c ∧
    ∀ x, WF c x → x.val c ≠ 0 → -(c.maxExp : ℤ) ≤ x.exp → x.exp < c.maxExp →
      (minVal c).val c ≤ |x.val c| ∧ |x.val c| ≤ (maxVal c).val c := by
  refine ⟨minVal_full c hE, maxVal_full c hE, by rw [minVal_val]; exact p10_pos _, fun x hx h0 h1 h2 => ?_⟩
  have hz := isZero_false_of_val hx h0
  rw [minVal_val, maxVal_val]
  constructor
  · exact le_trans (zpow_le_zpow_right₀ (by norm_num) h1) (hx.abs_ge hz)
  · have h3 := hx.abs_lt
    have h4 : x.exp + c.ed ≤ c.maxExp := by
      obtain ⟨a, ha⟩ := hx.dvd
      obtain ⟨b, hb⟩ := hE
      have hed : (0 : ℤ) < c.ed := by exact_mod_cast c.ed_pos
      rw [ha, hb] at h2 ⊢
      have : a < b := lt_of_mul_lt_mul_left h2 hed.le
      nlinarith
    have h5 : (10 : ℚ) ^ (x.exp + c.ed) ≤ 10 ^ (c.maxExp : ℤ) := zpow_le_zpow_right₀ (by norm_num) h4
    rw [zpow_natCast] at h5
    have : (0 : ℚ) < 10 ^ c.maxExp := by positivity
    linarith

/-- C40 is false: `lowest()` is zero, so it is not below -1; and sums are not bounded by max(): max() + max() > max(). -/
theorem numeric_limits_false :
    DW.lt (one exC).negate (lowestVal exC) = true ∧ Full exC (one exC).negate ∧
    DW.gt (addAssign exC (maxVal exC) (maxVal exC)) (maxVal exC) = true ∧ Full exC (addAssign exC (maxVal exC) (maxVal exC)) := by
  decide +kernel

example : (exC.ed : ℤ) ∣ exC.maxExp ∧ WF exC exY ∧ -(exC.maxExp : ℤ) ≤ exY.exp ∧ exY.exp < exC.maxExp := by decide

/-! ### C44 mixed operands -/

theorem ofSigned_eq (c : Cfg) {n : ℤ} (h1 : -(2 ^ 63) ≤ n) (h2 : n < 2 ^ 63) :
    ofSigned c n = fromULL c n.natAbs (decide (n < 0)) := by
  unfold ofSigned
  by_cases h : n < 0
  · simp [h, negULL_cast h h1]
  · simp [h, castULL_nonneg (by omega) (show n < 2 ^ 64 by omega)]
    congr 1; omega

theorem fromULL_setNeg (c : Cfg) (n : ℕ) (b : Bool) : fromULL c n b = { fromULL c n false with neg := b } := rfl

/-- Converting -|n| is negating the conversion of |n|. -/
theorem ofSigned_neg (c : Cfg) {n : ℤ} (h0 : n < 0) (h1 : -(2 ^ 63) ≤ n) :
    ofSigned c n = (ofUnsigned c 64 n.natAbs).negate := by
  rw [ofSigned_eq c h1 (by omega), ofUnsigned64, fromULL_setNeg]
  obtain ⟨-, -, -, e, f, -⟩ := fromULL_spec c n.natAbs (by omega) false
  have hz : (fromULL c n.natAbs false).isZero = false := by
    rcases Bool.dichotomy (fromULL c n.natAbs false).isZero with h | h
    · exact h
    · have := f.mp h; omega
  unfold negate
  rw [hz]
  simp [h0, e]

theorem ofSigned_nonneg (c : Cfg) {n : ℤ} (h0 : 0 ≤ n) (h2 : n < 2 ^ 63) : ofSigned c n = ofUnsigned c 64 n.natAbs := by
  rw [ofSigned_eq c (by omega) h2, ofUnsigned64]; simp [show ¬ n < 0 by omega]

theorem u64_full {c : Cfg} {n : ℕ} (hn : n < 2 ^ 64) : Full c (ofUnsigned c 64 n) := by
  rw [ofUnsigned64]; exact (fromULL_spec c n hn false).1

theorem addSLL_eq {c : Cfg} {x : DW} (hx : Full c x) {n : ℤ} (h1 : -(2 ^ 63) ≤ n) (h2 : n < 2 ^ 63) :
    (addSLL c x n).val c = (addAssign c x (ofSigned c n)).val c := by
  unfold addSLL
  split
  · next h =>
    rw [negULL_cast h h1, ofSigned_neg c h h1]
    have hf : Full c (ofUnsigned c 64 n.natAbs) := u64_full (by omega)
    rw [negate_val c (addAssign_full (negate_full hx) hf).toWF]
    have := addAssign_neg hx (negate_full hf)
    rw [negate_negate] at this
    rw [this, neg_neg]
  · next h =>
    rw [ofSigned_nonneg c (by omega) h2, castULL_nonneg (by omega) (by omega)]
    congr 3; omega

/-- C44 (addition and subtraction). With a built-in integer on either side, + and - denote the same number as converting
    the integer first, for every 64-bit integer; the only undefined case is x - n with n the least `long long`. -/
theorem mixed_add_sub (c : Cfg) (x : DW) (hx : Full c x) (n : ℤ) (h1 : -(2 ^ 63) ≤ n) (h2 : n < 2 ^ 63) (m : ℕ) (hm : m < 2 ^ 64) :
    (addLS c x n).val c = (addAssign c x (ofSigned c n)).val c ∧
    (addRS c n x).val c = (addAssign c (ofSigned c n) x).val c ∧
    (addLU c x m).val c = (addAssign c x (ofUnsigned c 64 m)).val c ∧
    (addRU c m x).val c = (addAssign c (ofUnsigned c 64 m) x).val c ∧
    (subLS c x n).map (DW.val c) = (if n = -(2 ^ 63) then none else some ((subAssign c x (ofSigned c n)).val c)) ∧
    (subLU c x m).val c = (subAssign c x (ofUnsigned c 64 m)).val c ∧
    (subRS c n x).val c = -((subAssign c x (ofSigned c n)).val c) ∧
    (subRU c m x).val c = -((subAssign c x (ofUnsigned c 64 m)).val c) := by
  have hf := (ofSigned_spec c n h1 h2).1
  have hu : Full c (ofUnsigned c 64 m) := u64_full hm
  refine ⟨addSLL_eq hx h1 h2, ?_, rfl, addAssign_comm hx hu, ?_, rfl, subAssign_antisymm hf hx, subAssign_antisymm hu hx⟩
  · rw [addRS, addSLL_eq hx h1 h2, addAssign_comm hx hf]
  · unfold subLS subSLL
    by_cases h : n = -(2 ^ 63)
    · rw [if_pos h, if_pos h]; rfl
    · rw [if_neg h, if_neg h]
      simp only [Option.map_some, Option.some.injEq]
      rw [addSLL_eq hx (by omega) (by omega)]
      have hneg : (ofSigned c (-n)).val c = (ofSigned c n).negate.val c ∧ ofSigned c (-n) = (ofSigned c n).negate ∨ n = 0 := by
        rcases lt_trichotomy n 0 with h0 | h0 | h0
        · left
          have : ofSigned c (-n) = (ofSigned c n).negate := by
            rw [ofSigned_nonneg c (show 0 ≤ -n by omega) (by omega), ofSigned_neg c h0 h1, negate_negate, Int.natAbs_neg]
          exact ⟨by rw [this], this⟩
        · right; exact h0
        · left
          have : ofSigned c (-n) = (ofSigned c n).negate := by
            rw [ofSigned_neg c (show -n < 0 by omega) (by omega), ofSigned_nonneg c h0.le h2, Int.natAbs_neg]
          exact ⟨by rw [this], this⟩
      rw [subAssign_val hx hf]
      rcases hneg with ⟨-, h'⟩ | h'
      · rw [h']
        have := addAssign_neg hx (negate_full hf)
        rw [negate_negate] at this
        rw [this, neg_neg]
      · subst h'
        have hz : (ofSigned c 0).isZero = true := by
          rw [hf.toWF.isZero_iff]
          have := (ofSigned_spec c 0 (by omega) (by omega)).2.2.1
          simpa using this
        rcases Bool.dichotomy x.isZero with hxz | hxz
        · rw [neg_zero, addAssign_zero_right hxz hz, addAssign_zero_right (by rw [negate_isZero, hxz]) hz, negate_val c hx.toWF, neg_neg]
        · rw [neg_zero, addAssign_zero_left hxz, addAssign_zero_left (by rw [negate_isZero, hxz]), hf.toWF.isZero_iff.mp hz, neg_zero]

/-- C44 (multiplication; partial: numbers below one by one unit of the last limb, out-of-range exponents and integers of
    more digits than the capacity are excluded). x·n and n·x denote the same number as converting n first. -/
theorem mixed_mul_partial (c : Cfg) (x : DW) (hx : Full c x) (n : ℤ) (h1 : -(2 ^ 63) ≤ n) (h2 : n < 2 ^ 63)
    (hcap : n.natAbs < c.B ^ c.N) (hok : MulOk c c.N) (hlo : -(c.maxExp : ℤ) < x.exp)
    (hhi : x.exp + orderOf n.natAbs < c.maxExp) (hhi' : (orderOf n.natAbs : ℤ) < c.maxExp)
    (hnine : |x.val c| ≠ 1 - 10 ^ (-((c.ed : ℤ) * c.N))) :
    (mulLS c x n).val c = (mulAssign c x (ofSigned c n)).val c ∧
    (mulRS c n x).val c = (mulAssign c (ofSigned c n) x).val c := by
  have hf := ofSigned_spec c n h1 h2
  have hN64 : n.natAbs < 2 ^ 64 := by omega
  have hmag : (if n < 0 then negULL (castULL n) else castULL n) = n.natAbs := by
    split
    · next h => exact negULL_cast h h1
    · next h => rw [castULL_nonneg (by omega) (by omega)]; omega
  have hv := hf.2.1 hcap
  have hrs : mulRS c n x = mulLS c x n := rfl
  have hexp : 0 ≤ (ofSigned c n).exp ∧ ((n ≠ 0 → (ofSigned c n).exp < orderOf n.natAbs) ∧ (n = 0 → (ofSigned c n).exp = 0)) := by
    rw [ofSigned_eq c h1 h2, fromULL_setNeg]
    show 0 ≤ (fromULL c n.natAbs false).exp ∧ ((_ → (fromULL c n.natAbs false).exp < _) ∧ (_ → (fromULL c n.natAbs false).exp = 0))
    by_cases hn0 : n = 0
    · subst hn0
      have : (fromULL c 0 false).exp = 0 := by simp [fromULL, ullDigits]
      simp [this]
    · have := fromULL_exp c hN64 (by omega)
      exact ⟨this.1, fun _ => this.2, fun h => absurd h hn0⟩
  have hyle : (ofSigned c n).exp ≤ orderOf n.natAbs := by
    by_cases hn0 : n = 0
    · rw [hexp.2.2 hn0]; positivity
    · exact (hexp.2.1 hn0).le
  -- the code's product with |n|
  have hcode : (mulLS c x n).val c = (if n < 0 then -1 else 1) * (mulULL c x n.natAbs).val c := by
    unfold mulLS mulSLL
    simp only [hmag]
    split
    · next h =>
      rcases Bool.dichotomy x.isZero with hz | hz
      · rw [negate_val c (mulULL_spec hx hz (show 0 < n.natAbs by omega) hN64 hcap hok hlo hhi).1.toWF]; ring
      · have : mulULL c x n.natAbs = zero c := by
          unfold mulULL
          have : (({ x with neg := false } : DW).isZero = true ∨ n.natAbs = 0) := Or.inl hz
          simp only [this, if_true]
        rw [this, negate_val c (zero_WF c).toWF]; ring
    · ring
  by_cases hzz : x.isZero = true ∨ n = 0
  · have hcz : (mulULL c x n.natAbs) = zero c := by
      unfold mulULL
      have : (({ x with neg := false } : DW).isZero = true ∨ n.natAbs = 0) := by
        rcases hzz with h | h
        · exact Or.inl h
        · exact Or.inr (by omega)
      simp only [this, if_true]
    have hz' : x.isZero = true ∨ (ofSigned c n).isZero = true := by
      rcases hzz with h | h
      · exact Or.inl h
      · right; rw [hf.1.toWF.isZero_iff, hv, h]; simp
    rw [hrs, hcode, hcz, zero_val, mul_zero]
    refine ⟨(mulAssign_zero hx hf.1 hz' hok (by omega) (by omega)).1.symm, (mulAssign_zero hf.1 hx hz'.symm hok hlo (by omega)).1.symm⟩
  · rw [not_or] at hzz
    have hxz : x.isZero = false := by simpa using hzz.1
    have hn0 : n ≠ 0 := hzz.2
    have hyz : (ofSigned c n).isZero = false := isZero_false_of_val hf.1.toWF (by rw [hv]; exact_mod_cast hn0)
    obtain ⟨q1, q2, q3, q4⟩ := mulULL_spec hx hxz (show 0 < n.natAbs by omega) hN64 hcap hok hlo hhi
    have ht := hexp.2.1 hn0
    obtain ⟨p1, p2, p3, -, p5⟩ := mulAssign_full hx hf.1 hxz hyz hok (by omega) (by omega)
    obtain ⟨r1, r2, r3, -, r5⟩ := mulAssign_full hf.1 hx hyz hxz hok (by omega) (by omega)
    have habs : |(ofSigned c n).val c| = (n.natAbs : ℚ) := by
      rw [hv, ← Int.cast_abs, Int.abs_eq_natAbs]; simp
    have hy1 : |(ofSigned c n).val c| ≠ nearOne c := by
      rw [habs]; have := (nearOne_lt c).1
      have h1 : (1:ℚ) ≤ n.natAbs := by exact_mod_cast (show 1 ≤ n.natAbs by omega)
      intro h; linarith
    have hx1 : |x.val c| ≠ nearOne c := hnine
    have t1 : |(mulAssign c x (ofSigned c n)).val c| = |(mulULL c x n.natAbs).val c| := by
      rcases q4 with ⟨a, b⟩ | ⟨h, -⟩
      · rcases p5 with ⟨a', b'⟩ | ⟨h, -⟩
        · rw [habs] at a' b'
          exact same_unique p1.toWF q1.toWF p2 q2 a' b' a b
        · rcases h with ⟨h, -⟩ | ⟨h, -⟩
          · exact absurd h hx1
          · exact absurd h hy1
      · exact absurd h hx1
    have t2 : |(mulAssign c (ofSigned c n) x).val c| = |(mulULL c x n.natAbs).val c| := by
      rcases q4 with ⟨a, b⟩ | ⟨h, -⟩
      · rcases r5 with ⟨a', b'⟩ | ⟨h, -⟩
        · rw [habs, mul_comm] at a' b'
          exact same_unique r1.toWF q1.toWF r2 q2 a' b' a b
        · rcases h with ⟨h, -⟩ | ⟨h, -⟩
          · exact absurd h hy1
          · exact absurd h hx1
      · exact absurd h hx1
    have hng : (ofSigned c n).neg = decide (n < 0) := by rw [ofSigned_eq c h1 h2]; rfl
    rw [hrs, hcode, val_sgn c (mulULL c x n.natAbs), val_sgn c (mulAssign c x (ofSigned c n)), val_sgn c (mulAssign c (ofSigned c n) x),
      p3, r3, t1, t2, q3, hng]
    by_cases hn : n < 0 <;> rcases Bool.dichotomy x.neg with h | h <;> simp [hn, h]

/-- Unsigned factor (C44, same exclusions). -/
theorem mixed_mul_unsigned_partial (c : Cfg) (x : DW) (hx : Full c x) (n : ℕ) (hn : n < 2 ^ 64) (h0 : 0 < n) (hx0 : x.val c ≠ 0)
    (hcap : n < c.B ^ c.N) (hok : MulOk c c.N) (hlo : -(c.maxExp : ℤ) < x.exp) (hhi : x.exp + orderOf n < c.maxExp)
    (hnine : |x.val c| ≠ 1 - 10 ^ (-((c.ed : ℤ) * c.N))) :
    (mulLU c x n).val c = (mulAssign c x (ofUnsigned c 64 n)).val c ∧ (mulRU c n x).val c = (mulLU c x n).val c := by
  refine ⟨?_, rfl⟩
  have hxz := isZero_false_of_val hx.toWF hx0
  obtain ⟨q1, q2, q3, q4⟩ := mulULL_spec hx hxz h0 hn hcap hok hlo hhi
  rw [ofUnsigned64]
  obtain ⟨a, b, d, e, f, g⟩ := fromULL_spec c n hn false
  have hyz : (fromULL c n false).isZero = false := by
    rcases Bool.dichotomy (fromULL c n false).isZero with h | h
    · exact h
    · have := f.mp h; omega
  obtain ⟨x1, x2⟩ := fromULL_exp c hn h0
  obtain ⟨p1, p2, p3, -, p5⟩ := mulAssign_full hx a hxz hyz hok (by omega) (by omega)
  rw [g hcap] at p5
  have hx1 : |x.val c| ≠ nearOne c := hnine
  have hy1 : (n : ℚ) ≠ nearOne c := by
    have := (nearOne_lt c).1
    have h1 : (1:ℚ) ≤ n := by exact_mod_cast h0
    intro h; linarith
  have t1 : |(mulAssign c x (fromULL c n false)).val c| = |(mulULL c x n).val c| := by
    rcases q4 with ⟨a, b⟩ | ⟨h, -⟩
    · rcases p5 with ⟨a', b'⟩ | ⟨h, -⟩
      · exact same_unique p1.toWF q1.toWF p2 q2 a' b' a b
      · rcases h with ⟨h, -⟩ | ⟨h, -⟩
        · exact absurd h hx1
        · exact absurd h hy1
    · exact absurd h hx1
  rw [mulLU, val_sgn c (mulULL c x n), val_sgn c (mulAssign c x (fromULL c n false)), p3, t1, q3, e]
  simp

/-- 12.345678 - (-300), (-300)·12.345678, 5 - 12.345678. -/
example : Full exC exX ∧ (addLS exC exX (-300)) = { data := [2, 87, 65, 43, 22], exp := 2, neg := true, prec := 5 } ∧
    mulRS exC (-300) exX = { data := [37, 3, 70, 34, 0], exp := 2, neg := true, prec := 5 } ∧
    subRS exC 5 exX = { data := [7, 34, 56, 78, 0], exp := 0, neg := true, prec := 5 } ∧
    subLS exC exX (-9223372036854775808) = none := by decide +kernel

end WD
