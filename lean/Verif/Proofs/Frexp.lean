import Verif.Model.Frexp
import Verif.Proofs.Ldexp
import Verif.Proofs.FloatConv
import Verif.Proofs.ExpArg
import Verif.Props.Ldexp
/-
  `frexp`: the scaled number, the two loops.
-/
namespace WD
open DW

/-- Bound for the quotient of 10^k and the power of two used for it. -/
def growth (j : ℕ) : ℚ := (19 / 10) ^ (j / 1000 + 1)

theorem growth_ge (j : ℕ) : 1 ≤ growth j := one_le_pow₀ (by norm_num)

set_option exponentiation.threshold 2000 in
theorem two_thousand : (10 : ℚ) ^ 301 ≤ 2 ^ 1000 ∧ (2 : ℚ) ^ 1000 ≤ 1072 / 1000 * 10 ^ 301 := by constructor <;> norm_num

set_option exponentiation.threshold 2000 in
theorem small_growth : (1072 / 1000 : ℚ) ^ 1000 ≤ ((19 / 10) ^ 301) := by norm_num

theorem two_ten (j : ℕ) : (10 : ℚ) ^ (301 * j) ≤ 2 ^ (1000 * j) ∧ (2 : ℚ) ^ (1000 * j) ≤ growth j ^ 301 * 10 ^ (301 * j) := by
  constructor
  · rw [pow_mul, pow_mul]; exact pow_le_pow_left₀ (by positivity) two_thousand.1 _
  · rw [pow_mul, pow_mul]
    refine (pow_le_pow_left₀ (by positivity) two_thousand.2 _).trans ?_
    rw [mul_pow]
    apply mul_le_mul_of_nonneg_right _ (by positivity)
    unfold growth
    rw [← pow_mul, mul_comm (j / 1000 + 1) 301, pow_mul (19 / 10 : ℚ)]
    calc (1072 / 1000 : ℚ) ^ j ≤ (1072 / 1000) ^ (1000 * (j / 1000 + 1)) := pow_le_pow_right₀ (by norm_num) (by omega)
      _ = ((1072 / 1000) ^ 1000) ^ (j / 1000 + 1) := pow_mul _ _ _
      _ ≤ _ := pow_le_pow_left₀ (by positivity) small_growth _

theorem two_ten_z {k t : ℤ} (h : |301 * t - 1000 * k| ≤ 602) :
    (10 : ℚ) ^ k ≤ 4 * growth k.natAbs * 2 ^ t ∧ (2 : ℚ) ^ t ≤ 4 * growth k.natAbs * 10 ^ k := by
  have hg := growth_ge k.natAbs
  have h' := abs_le.mp h
  obtain ⟨a1, a2⟩ := two_ten k.natAbs
  have e4 : (4 : ℚ) ^ 301 = 2 ^ (602 : ℤ) := by
    rw [show (4 : ℚ) = 2 ^ 2 by norm_num, ← pow_mul, ← zpow_natCast]; rfl
  have hG : (1 : ℚ) ≤ growth k.natAbs ^ 301 := one_le_pow₀ hg
  have hmono : ∀ a b : ℤ, a ≤ b → (2 : ℚ) ^ a ≤ 2 ^ b := fun a b h => zpow_le_zpow_right₀ (by norm_num) h
  have hpos : ∀ a : ℤ, (0 : ℚ) < 2 ^ a := fun a => by positivity
  have P1 : ((2 : ℚ) ^ t) ^ 301 = 2 ^ (301 * t) := by rw [← zpow_natCast, ← zpow_mul, mul_comm]; rfl
  have P2 : ((10 : ℚ) ^ k) ^ 301 = 10 ^ (301 * k) := by rw [← zpow_natCast, ← zpow_mul, mul_comm]; rfl
  have key1 : (10 : ℚ) ^ (301 * k) ≤ growth k.natAbs ^ 301 * 2 ^ (1000 * k) ∧ (2 : ℚ) ^ (1000 * k) ≤ growth k.natAbs ^ 301 * 10 ^ (301 * k) := by
    rcases le_or_gt 0 k with hk | hk
    · have e1 : (10 : ℚ) ^ (301 * k) = 10 ^ (301 * k.natAbs) := by
        rw [← zpow_natCast]; congr 1; push_cast; rw [abs_of_nonneg hk]
      have e2 : (2 : ℚ) ^ (1000 * k) = 2 ^ (1000 * k.natAbs) := by
        rw [← zpow_natCast]; congr 1; push_cast; rw [abs_of_nonneg hk]
      rw [e1, e2]
      refine ⟨?_, a2⟩
      have := mul_le_mul hG a1 (by positivity) (by positivity)
      linarith
    · have e1 : (10 : ℚ) ^ (301 * k) = (10 ^ (301 * k.natAbs))⁻¹ := by
        rw [← zpow_natCast, ← zpow_neg]; congr 1; push_cast; rw [abs_of_neg hk]; ring
      have e2 : (2 : ℚ) ^ (1000 * k) = (2 ^ (1000 * k.natAbs))⁻¹ := by
        rw [← zpow_natCast, ← zpow_neg]; congr 1; push_cast; rw [abs_of_neg hk]; ring
      rw [e1, e2]
      generalize growth k.natAbs ^ 301 = G at *
      generalize (10 : ℚ) ^ (301 * k.natAbs) = T, hT : (10 : ℚ) ^ (301 * k.natAbs) = T' at *
      have hTp : 0 < T' := by rw [← hT]; positivity
      generalize (2 : ℚ) ^ (1000 * k.natAbs) = U at *
      have hUp : 0 < U := lt_of_lt_of_le hTp a1
      rw [← div_eq_mul_inv, ← div_eq_mul_inv, inv_eq_one_div, inv_eq_one_div]
      constructor
      · rw [div_le_div_iff₀ hTp hUp]; linarith
      · rw [div_le_div_iff₀ hUp hTp]
        have := mul_le_mul hG a1 hTp.le (by linarith)
        linarith
  constructor
  · rw [← pow_le_pow_iff_left₀ (by positivity) (by positivity) (n := 301) (by norm_num), mul_pow, mul_pow, P1, P2, e4]
    refine key1.1.trans ?_
    have : (2 : ℚ) ^ (1000 * k) ≤ 2 ^ (602 : ℤ) * 2 ^ (301 * t) := by
      rw [← zpow_add₀ (by norm_num)]; exact hmono _ _ (by omega)
    have := mul_le_mul_of_nonneg_left this (show (0 : ℚ) ≤ growth k.natAbs ^ 301 by linarith)
    linarith
  · rw [← pow_le_pow_iff_left₀ (by positivity) (by positivity) (n := 301) (by norm_num), mul_pow, mul_pow, P1, P2, e4]
    have : (2 : ℚ) ^ (301 * t) ≤ 2 ^ (602 : ℤ) * 2 ^ (1000 * k) := by
      rw [← zpow_add₀ (by norm_num)]; exact hmono _ _ (by omega)
    refine this.trans ?_
    have := mul_le_mul_of_nonneg_left key1.2 (hpos 602).le
    rwa [← mul_assoc] at this

section loops
variable {c : Cfg} {est : DW → DW} {fdig : ℕ}

theorem two_lt_B (c : Cfg) : 2 < c.B := by unfold Cfg.B; cases c.L <;> decide

theorem divS_two (r : DW) : divSLL c est fdig r 2 = divULL c est fdig r 2 := rfl
theorem mulS_two (r : DW) : mulSLL c r 2 = mulULL c r 2 := rfl

theorem cmp_ge_iff {x y : DW} (hx : WF c x) (hy : WF c y) : DW.cmp x y ≥ 0 ↔ y.val c ≤ x.val c := by
  have := (ordering_matches_value c x y hx hy).2.2.2.2.1
  unfold DW.ge at this
  rw [decide_eq_true_iff] at this
  exact this

theorem cmp_lt_iff {x y : DW} (hx : WF c x) (hy : WF c y) : DW.cmp x y < 0 ↔ x.val c < y.val c := by
  have := (ordering_matches_value c x y hx hy).1
  unfold DW.lt at this
  rw [decide_eq_true_iff] at this
  exact this

theorem half_step (hd : 16 ≤ c.digits10) (hM : 2 * (c.ed : ℤ) ≤ c.maxExp) {r : DW} (hr : Full c r) (h1 : 1 ≤ r.val c) :
    Full c (divSLL c est fdig r 2) ∧ |(divSLL c est fdig r 2).val c - r.val c / 2| ≤ 2 * epsD c * (r.val c / 2) := by
  rw [divS_two]
  have hb := hr.toWF.abs_lt
  rw [abs_of_pos (show 0 < r.val c by linarith)] at hb
  have he : 0 < r.exp + (c.ed : ℤ) := by
    have : (10 : ℚ) ^ (0 : ℤ) < 10 ^ (r.exp + (c.ed : ℤ)) := by rw [zpow_zero]; linarith
    rwa [zpow_lt_zpow_iff_right₀ (by norm_num)] at this
  obtain ⟨d1, -, d2, -⟩ := div_unsigned_partial c est fdig r hr (by linarith) 2 (by norm_num) (two_lt_B c) (by omega)
  refine ⟨d1, ?_⟩
  push_cast at d2
  change _ < _ * epsD c at d2
  have hε := epsD_pos c
  have hε1 := epsD_le hd
  generalize (divULL c est fdig r 2).val c = R at *
  have hQ : 0 < r.val c / 2 := by linarith
  generalize r.val c / 2 = Q at *
  have t := abs_add_le (R - Q) Q
  rw [sub_add_cancel, abs_of_pos hQ] at t
  have t1 : |R| * epsD c ≤ |R| * (1 / 10 ^ 16) := mul_le_mul_of_nonneg_left hε1 (abs_nonneg _)
  have t2 : |R| ≤ 2 * Q := by norm_num at t1; linarith
  have t3 : |R| * epsD c ≤ 2 * Q * epsD c := mul_le_mul_of_nonneg_right t2 hε.le
  linarith

theorem double_step (hM : 1 < c.maxExp) {r : DW} (hr : Full c r) (h0 : 0 < r.val c) (h1 : r.val c < 1 / 2) :
    Full c (mulSLL c r 2) ∧ (mulSLL c r 2).val c ≤ 2 * r.val c ∧ 2 * r.val c * (1 - mulEps c) ≤ (mulSLL c r 2).val c := by
  rw [mulS_two]
  have hz := isZero_false_of_val hr.toWF h0.ne'
  have ha := hr.toWF.abs_ge hz
  rw [abs_of_pos h0] at ha
  have he : r.exp < 0 := by
    have : (10 : ℚ) ^ r.exp < 10 ^ (0 : ℤ) := by rw [zpow_zero]; linarith
    rwa [zpow_lt_zpow_iff_right₀ (by norm_num)] at this
  have h2 : orderOf 2 = 1 := by decide +kernel
  obtain ⟨m1, m2, m3, m4, m5⟩ := mulULL_small hr hz (n := 2) (by norm_num) (two_lt_B c) (by rw [h2]; push_cast; omega)
  have hu := Full.ulp_le m1.toWF m2
  have hrn : r.neg = false := by
    by_contra hn
    have hn : r.neg = true := by simpa using hn
    have := val_sgn c r
    rw [hn] at this
    simp only [if_true] at this
    have := abs_nonneg (r.val c); linarith
  have hv : (mulULL c r 2).val c = |(mulULL c r 2).val c| := by
    have := val_sgn c (mulULL c r 2)
    rw [m3, hrn] at this
    simpa using this
  have hp : (0 : ℚ) < 10 ^ (c.digits10 + 2 * c.ed) := by positivity
  have hu' : (mulULL c r 2).ulp c ≤ |(mulULL c r 2).val c| * mulEps c := by
    unfold mulEps; rw [mul_one_div, le_div_iff₀ hp]; exact hu
  rw [abs_of_pos h0] at m4 m5
  rw [← hv] at m4 m5 hu'
  push_cast at m4 m5
  have hμ := mulEps_pos c
  refine ⟨m1, by linarith, ?_⟩
  have : (mulULL c r 2).val c * mulEps c ≤ 2 * r.val c * mulEps c := mul_le_mul_of_nonneg_right (by linarith) hμ.le
  linarith

theorem frexpDown_spec (hd : 16 ≤ c.digits10) (hM : 2 * (c.ed : ℤ) ≤ c.maxExp) {tMax : ℤ} : ∀ (n fuel : ℕ) (r : DW) (t : ℤ), n < fuel →
    Full c r → 0 < r.val c → r.val c < (19 / 10) ^ n → t + n ≤ tMax → 3 * (n : ℚ) * epsD c ≤ 1 / 2 →
    ∃ (r' : DW) (m : ℕ), frexpDown c est fdig tMax fuel r t = some (r', t + m) ∧ m ≤ n ∧ Full c r' ∧ 0 < r'.val c ∧ r'.val c < 1 ∧
      (r' = r ∨ 2 / 5 ≤ r'.val c) ∧ |r'.val c * 2 ^ m - r.val c| ≤ 3 * n * epsD c * r.val c := by
  have hε := epsD_pos c
  have hε1 := epsD_le hd
  have exit : ∀ (n fuel : ℕ) (r : DW) (t : ℤ), n < fuel → Full c r → 0 < r.val c → r.val c < 1 →
      ∃ (r' : DW) (m : ℕ), frexpDown c est fdig tMax fuel r t = some (r', t + m) ∧ m ≤ n ∧ Full c r' ∧ 0 < r'.val c ∧ r'.val c < 1 ∧
      (r' = r ∨ 2 / 5 ≤ r'.val c) ∧ |r'.val c * 2 ^ m - r.val c| ≤ 3 * n * epsD c * r.val c := by
    intro n fuel r t hf hr h0 h1
    obtain ⟨f, rfl⟩ : ∃ f, fuel = f + 1 := ⟨fuel - 1, by omega⟩
    have : ¬ (DW.cmp r (one c) ≥ 0) := by
      rw [cmp_ge_iff hr.toWF (one_full c).toWF, one_val]; linarith
    refine ⟨r, 0, ?_, Nat.zero_le _, hr, h0, h1, Or.inl rfl, ?_⟩
    · unfold frexpDown; rw [if_neg this]; simp
    · rw [pow_zero, mul_one, sub_self, abs_zero]; positivity
  intro n
  induction n with
  | zero =>
    intro fuel r t hf hr h0 h1 ht hn
    exact exit 0 fuel r t hf hr h0 (by simpa using h1)
  | succ n ih =>
    intro fuel r t hf hr h0 h1 ht hn
    rcases lt_or_ge (r.val c) 1 with h | h
    · exact exit (n + 1) fuel r t hf hr h0 h
    · obtain ⟨f, rfl⟩ : ∃ f, fuel = f + 1 := ⟨fuel - 1, by omega⟩
      have hge : DW.cmp r (one c) ≥ 0 := by rw [cmp_ge_iff hr.toWF (one_full c).toWF, one_val]; exact h
      obtain ⟨s1, s2⟩ := half_step (est := est) (fdig := fdig) hd hM hr h
      obtain ⟨s3, s4⟩ := abs_le.mp s2
      push_cast at hn ht
      have hεn : 0 ≤ (n : ℚ) * epsD c := by positivity
      have q1 : epsD c * r.val c ≤ 1 / 10 ^ 16 * r.val c := mul_le_mul_of_nonneg_right hε1 h0.le
      obtain ⟨r', m, i1, i2, i3, i4, i5, i6, i7⟩ := ih f (divSLL c est fdig r 2) (t + 1) (by omega) s1 (by linarith)
        (by rw [pow_succ] at h1; norm_num at q1 h1 ⊢; linarith) (by omega) (by linarith)
      refine ⟨r', m + 1, ?_, by omega, i3, i4, i5, Or.inr ?_, ?_⟩
      · unfold frexpDown
        rw [if_pos hge, if_neg (by omega), i1]
        congr 2; push_cast; ring
      · rcases i6 with i6 | i6
        · rw [i6]; norm_num at q1 ⊢; linarith
        · exact i6
      · have e : r'.val c * 2 ^ (m + 1) - r.val c = 2 * (r'.val c * 2 ^ m - (divSLL c est fdig r 2).val c)
            + 2 * ((divSLL c est fdig r 2).val c - r.val c / 2) := by rw [pow_succ]; ring
        rw [e]
        refine (abs_add_le _ _).trans ?_
        rw [abs_mul, abs_mul, abs_of_pos (show (0 : ℚ) < 2 by norm_num)]
        push_cast
        generalize (divSLL c est fdig r 2).val c = R at *
        have k1 : 3 * (n : ℚ) * epsD c * R ≤ 3 * n * epsD c * (r.val c / 2 + 2 * epsD c * (r.val c / 2)) :=
          mul_le_mul_of_nonneg_left (by linarith) (by linarith)
        have k2 : 3 * (n : ℚ) * epsD c * (epsD c * r.val c) ≤ 1 / 2 * (epsD c * r.val c) :=
          mul_le_mul_of_nonneg_right (by linarith) (by positivity)
        linarith

theorem frexpUp_spec (hd : 16 ≤ c.digits10) (hM : 1 < c.maxExp) {tMax : ℤ} : ∀ (n fuel : ℕ) (r : DW) (t : ℤ), n < fuel →
    Full c r → 0 < r.val c → r.val c < 1 → 1 / 2 ≤ r.val c * (19 / 10) ^ n → -tMax ≤ t - n →
    ∃ (r' : DW) (m : ℕ), frexpUp c tMax fuel r t = some (r', t - m) ∧ m ≤ n ∧ Full c r' ∧ 1 / 2 ≤ r'.val c ∧ r'.val c < 1 ∧
      |r'.val c - r.val c * 2 ^ m| ≤ n * mulEps c * (r.val c * 2 ^ m) := by
  have hμ := mulEps_pos c
  have hμ1 := mulEps_le20 hd
  have exit : ∀ (n fuel : ℕ) (r : DW) (t : ℤ), n < fuel → Full c r → 1 / 2 ≤ r.val c → r.val c < 1 →
      ∃ (r' : DW) (m : ℕ), frexpUp c tMax fuel r t = some (r', t - m) ∧ m ≤ n ∧ Full c r' ∧ 1 / 2 ≤ r'.val c ∧ r'.val c < 1 ∧
      |r'.val c - r.val c * 2 ^ m| ≤ n * mulEps c * (r.val c * 2 ^ m) := by
    intro n fuel r t hf hr h0 h1
    obtain ⟨f, rfl⟩ : ∃ f, fuel = f + 1 := ⟨fuel - 1, by omega⟩
    have : ¬ (DW.cmp r (half c) < 0) := by
      rw [cmp_lt_iff hr.toWF (half_full c).toWF, half_val]; linarith
    refine ⟨r, 0, ?_, Nat.zero_le _, hr, h0, h1, ?_⟩
    · unfold frexpUp; rw [if_neg this]; simp
    · rw [pow_zero, mul_one, sub_self, abs_zero]
      have : 0 ≤ r.val c := by linarith
      positivity
  intro n
  induction n with
  | zero =>
    intro fuel r t hf hr h0 h1 h2 ht
    exact exit 0 fuel r t hf hr (by simpa using h2) h1
  | succ n ih =>
    intro fuel r t hf hr h0 h1 h2 ht
    rcases lt_or_ge (r.val c) (1 / 2) with h | h
    · obtain ⟨f, rfl⟩ : ∃ f, fuel = f + 1 := ⟨fuel - 1, by omega⟩
      have hlt : DW.cmp r (half c) < 0 := by rw [cmp_lt_iff hr.toWF (half_full c).toWF, half_val]; exact h
      obtain ⟨s1, s2, s3⟩ := double_step hM hr h0 h
      push_cast at ht
      have q1 : r.val c * mulEps c ≤ r.val c * (1 / 10 ^ 20) := mul_le_mul_of_nonneg_left hμ1 h0.le
      have q2 : 19 / 10 * r.val c ≤ (mulSLL c r 2).val c := by norm_num at q1; linarith
      have hp : (0 : ℚ) < (19 / 10) ^ n := by positivity
      obtain ⟨r', m, i1, i2, i3, i4, i5, i6⟩ := ih f (mulSLL c r 2) (t - 1) (by omega) s1 (by linarith) (by linarith)
        (by have := mul_le_mul_of_nonneg_right q2 hp.le
            rw [pow_succ] at h2; linarith) (by omega)
      refine ⟨r', m + 1, ?_, by omega, i3, i4, i5, ?_⟩
      · unfold frexpUp
        rw [if_pos hlt, if_neg (by omega), i1]
        congr 2; push_cast; ring
      · generalize (mulSLL c r 2).val c = R at *
        have hm : (0 : ℚ) < 2 ^ m := by positivity
        have hR : 0 < R := by linarith
        have e : r'.val c - r.val c * 2 ^ (m + 1) = (r'.val c - R * 2 ^ m) + (R - 2 * r.val c) * 2 ^ m := by rw [pow_succ]; ring
        rw [e]
        refine (abs_add_le _ _).trans ?_
        rw [abs_mul, abs_of_pos hm]
        have k0 : |R - 2 * r.val c| ≤ 2 * r.val c * mulEps c := by rw [abs_le]; constructor <;> linarith [mul_pos h0 hμ]
        have k1 : |R - 2 * r.val c| * 2 ^ m ≤ 2 * r.val c * mulEps c * 2 ^ m := mul_le_mul_of_nonneg_right k0 hm.le
        have k2 : R * 2 ^ m ≤ 2 * r.val c * 2 ^ m := mul_le_mul_of_nonneg_right s2 hm.le
        have k3 : (n : ℚ) * mulEps c * (R * 2 ^ m) ≤ n * mulEps c * (2 * r.val c * 2 ^ m) :=
          mul_le_mul_of_nonneg_left k2 (by positivity)
        push_cast
        rw [pow_succ]
        linarith
    · exact exit (n + 1) fuel r t hf hr h h1

end loops

theorem growth_le (j : ℕ) : growth j ≤ 10 ^ (j / 1000 + 1) := pow_le_pow_left₀ (by norm_num) (by norm_num) _

theorem exp_near_ilogb {c : Cfg} {x : DW} (hx : WF c x) (hz : x.isZero = false) : x.exp ≤ ilogb x ∧ ilogb x < x.exp + c.ed := by
  obtain ⟨k1, k2⟩ := ilogb_spec hx hz
  constructor
  · have := lt_of_le_of_lt (hx.abs_ge hz) k2
    rw [zpow_lt_zpow_iff_right₀ (by norm_num)] at this
    omega
  · have := lt_of_le_of_lt k1 hx.abs_lt
    rwa [zpow_lt_zpow_iff_right₀ (by norm_num)] at this

/-- From the relative error of the computed value to one of the exact value. -/
theorem rel_flip {R Q μ : ℚ} (hμ0 : 0 < μ) (hμ : μ ≤ 1 / 10) (h : |R - Q| ≤ |R| * μ) : |R - Q| ≤ |Q| * (2 * μ) := by
  have t := abs_add_le (R - Q) Q
  rw [sub_add_cancel] at t
  have : |R| * μ ≤ |R| * (1 / 10) := mul_le_mul_of_nonneg_left hμ (abs_nonneg _)
  have : |R| ≤ 2 * |Q| := by linarith [abs_nonneg Q]
  have : |R| * μ ≤ 2 * |Q| * μ := mul_le_mul_of_nonneg_right this hμ0.le
  linarith

set_option maxHeartbeats 1000000 in
/-- The scaled number `result * pow(2, -t)`. -/
theorem frexp_scaled {c : Cfg} {F : Flt} (h : ElemOk c F) (hN : c.N < 1793) {x : DW} (hx : Full c x) (hx0 : 0 < x.val c) {t : ℤ}
    (ht : |301 * t - 1000 * ilogb x| ≤ 602) (ht0 : ilogb x = 0 → t = 0) (hk : |ilogb x| ≤ 640000000)
    (hr : |ilogb x| + |ilogb x| / 1000 + 4 * c.ed + 10 ≤ c.maxExp) :
    ∃ p, pow c (estInv c F) F.digits10 (two c) (-t) = some p ∧ Full c (mulAssign c x p) ∧
      |(mulAssign c x p).val c - x.val c / 2 ^ t| ≤ x.val c / 2 ^ t * ((3 * |(t : ℚ)| + 7) * mulEps c) := by
  have hμ := mulEps_pos c
  have hμ1 := mulEps_le20 h.lo
  have hM := h.hM
  have h2 := two_le_ed c
  have h8 := ed_le8 c
  have hz := isZero_false_of_val hx.toWF hx0.ne'
  obtain ⟨x1, x2⟩ := exp_near_ilogb hx.toWF hz
  obtain ⟨y1, y2⟩ := ilogb_spec hx.toWF hz
  rw [abs_of_pos hx0] at y1 y2
  obtain ⟨z1, z2⟩ := two_ten_z ht
  have ht' := abs_le.mp ht
  have hgl := growth_le (ilogb x).natAbs
  set k := ilogb x with hkd
  have hK : ((k.natAbs : ℕ) : ℤ) = |k| := Int.natCast_natAbs k
  set K := k.natAbs with hKd
  rw [← hK] at hk hr
  have hkK : k ≤ K ∧ -(K : ℤ) ≤ k := by rw [hK]; exact ⟨le_abs_self k, neg_abs_le k⟩
  have hG0 : 1 ≤ growth K := growth_ge K
  have h4G : 4 * growth K ≤ 10 ^ (K / 1000 + 2) := by rw [pow_succ]; linarith
  have t31 : |t| < 2 ^ 31 := by
    rw [abs_lt]; constructor <;> omega
  have hidv : ((K / 1000 : ℕ) : ℤ) = (K : ℤ) / 1000 := by omega
  -- 2^|t| is in range
  have hpw : ∀ n : ℕ, (t = n ∨ t = -(n : ℤ)) → (2 : ℚ) ^ n ≤ 10 ^ (K + K / 1000 + 2) := by
    intro n hn
    rcases hn with hn | hn
    · rw [hn, zpow_natCast] at z2
      refine z2.trans ?_
      have e : (10 : ℚ) ^ (K + K / 1000 + 2) = 10 ^ (K / 1000 + 2) * 10 ^ (K : ℤ) := by
        rw [zpow_natCast, ← pow_add]; congr 1; ring
      rw [e]
      exact mul_le_mul h4G (zpow_le_zpow_right₀ (by norm_num) hkK.1) (p10_pos _).le (by positivity)
    · rw [hn, zpow_neg, zpow_natCast] at z1
      have e : (10 : ℚ) ^ (K + K / 1000 + 2) = 10 ^ (K / 1000 + 2) * 10 ^ (K : ℤ) := by
        rw [zpow_natCast, ← pow_add]; congr 1; ring
      rw [e]
      have hn2 : (0 : ℚ) < 2 ^ n := by positivity
      rw [← div_eq_mul_inv, le_div_iff₀ hn2] at z1
      have e2 : (10 : ℚ) ^ k * 10 ^ (-k) = 1 := by rw [← zpow_add₀ (by norm_num), add_neg_cancel, zpow_zero]
      have z1' := mul_le_mul_of_nonneg_right z1 (p10_pos (-k)).le
      have : (2 : ℚ) ^ n = 10 ^ k * 2 ^ n * 10 ^ (-k) := by
        rw [mul_comm ((10 : ℚ) ^ k), mul_assoc, e2, mul_one]
      rw [this]
      refine z1'.trans (mul_le_mul h4G (zpow_le_zpow_right₀ (by norm_num) (by omega)) (p10_pos _).le (by positivity))
  rcases lt_trichotomy t 0 with htn | rfl | htp
  · -- multiplication by 2^|t|
    obtain ⟨n, rfl⟩ : ∃ n : ℕ, t = -(n : ℤ) := ⟨(-t).toNat, by omega⟩
    have hpn := hpw n (Or.inr rfl)
    rw [abs_neg, Nat.abs_cast] at t31
    have hn1 : 0 < n := by omega
    obtain ⟨p1, p2, p3⟩ := powTwo_spec h.lo h.mulOk (by omega) (n := n) (by omega)
      (hpn.trans (by rw [← zpow_natCast]; exact zpow_le_zpow_right₀ (by norm_num) (by push_cast; omega)))
    refine ⟨powNat c (two c) n, ?_, ?_⟩
    · unfold pow
      rw [if_neg (by omega), if_neg (by omega)]
      simp
    · set P := powNat c (two c) n
      have h2n : (0 : ℚ) < 2 ^ n := by positivity
      have h21 : (1 : ℚ) ≤ 2 ^ n := one_le_pow₀ (by norm_num)
      have kk : 2 * (n : ℚ) * mulEps c * 2 ^ n ≤ 1 / 1000000000 * 2 ^ n := mul_le_mul_of_nonneg_right p3 h2n.le
      have p2' := abs_le.mp p2
      have hP0 : 0 < P.val c := by linarith
      have hPz := isZero_false_of_val p1.toWF hP0.ne'
      have a1 := p1.toWF.abs_ge hPz
      have a2 := p1.toWF.abs_lt
      rw [abs_of_pos hP0] at a1 a2
      have pe : -(c.ed : ℤ) - 1 < P.exp := by
        have : (10 : ℚ) ^ (-1 : ℤ) < 10 ^ (P.exp + (c.ed : ℤ)) := by
          refine lt_of_le_of_lt ?_ a2; norm_num; linarith
        rw [zpow_lt_zpow_iff_right₀ (by norm_num)] at this
        omega
      have pe2 : P.exp < (K : ℤ) + K / 1000 + 3 := by
        have : (10 : ℚ) ^ P.exp < 10 ^ ((K : ℤ) + K / 1000 + 3) := by
          have e : (10 : ℚ) ^ ((K : ℤ) + K / 1000 + 3) = 10 ^ (K + K / 1000 + 2) * 10 := by
            rw [← pow_succ, ← zpow_natCast]; congr 1
          rw [e]
          have : (0 : ℚ) < 10 ^ (K + K / 1000 + 2) := by positivity
          linarith
        rwa [zpow_lt_zpow_iff_right₀ (by norm_num)] at this
      have hkn : k < 0 := by omega
      have hkK' : k = -(K : ℤ) := by rw [hK, abs_of_neg hkn]; ring
      obtain ⟨-, -, m3, -⟩ := mul_error c x P hx p1 hx0.ne' hP0.ne' h.mulOk (by omega) (by omega)
      have m5 := mul_relative_error c x P hx p1 hx0.ne' hP0.ne' h.mulOk (by omega) (by omega)
      refine ⟨m3, ?_⟩
      have m6 : |(mulAssign c x P).val c - x.val c * P.val c| ≤ |x.val c * P.val c| * (2 * mulEps c) := by
        apply rel_flip hμ (hμ1.trans (by norm_num))
        unfold mulEps; rw [mul_one_div]; exact m5.le
      rw [abs_of_pos (mul_pos hx0 hP0)] at m6
      rw [zpow_neg, div_inv_eq_mul, zpow_natCast]
      push_cast
      rw [abs_neg, Nat.abs_cast]
      generalize (mulAssign c x P).val c = R at *
      generalize P.val c = Q at *
      generalize x.val c = X at *
      have k1 : |X * Q - X * 2 ^ n| ≤ X * (2 * n * mulEps c * 2 ^ n) := by
        rw [← mul_sub, abs_mul, abs_of_pos hx0]; exact mul_le_mul_of_nonneg_left p2 hx0.le
      have k2 : X * Q * (2 * mulEps c) ≤ X * (2 * 2 ^ n) * (2 * mulEps c) := by
        apply mul_le_mul_of_nonneg_right _ (by linarith)
        apply mul_le_mul_of_nonneg_left _ hx0.le
        linarith
      have k3 := abs_add_le (R - X * Q) (X * Q - X * 2 ^ n)
      rw [sub_add_sub_cancel] at k3
      have k4 : 0 ≤ X * 2 ^ n * mulEps c := by positivity
      have k5 : 0 ≤ X * 2 ^ n * (n * mulEps c) := by positivity
      linarith
  · -- multiplication by one
    obtain ⟨o1, o2⟩ : Full c (ofUnsigned c 32 1) ∧ (ofUnsigned c 32 1).val c = 1 := by
      have := powTwo_spec h.lo h.mulOk (by omega) (n := 0) (by norm_num) (by
        rw [pow_zero, ← zpow_zero (10 : ℚ)]; exact zpow_le_zpow_right₀ (by norm_num) (by omega))
      have e : powNat c (two c) 0 = ofUnsigned c 32 1 := by unfold powNat; rw [if_pos rfl]
      rw [e] at this
      refine ⟨this.1, ?_⟩
      have h3 := this.2.1
      rw [Nat.cast_zero, mul_zero, zero_mul, zero_mul, pow_zero] at h3
      have := abs_nonpos_iff.mp h3
      linarith
    refine ⟨ofUnsigned c 32 1, ?_, ?_⟩
    · unfold pow powNat
      rw [neg_zero, if_neg (by norm_num), if_neg (by norm_num), if_pos (by rfl)]
    · generalize ofUnsigned c 32 1 = one' at *
      have oz := isZero_false_of_val o1.toWF (by rw [o2]; norm_num)
      have oa := o1.toWF.abs_ge oz
      have ob := o1.toWF.abs_lt
      rw [o2, abs_one, ← zpow_zero (10 : ℚ)] at oa ob
      rw [zpow_le_zpow_iff_right₀ (by norm_num)] at oa
      rw [zpow_lt_zpow_iff_right₀ (by norm_num)] at ob
      obtain ⟨-, -, m3, -⟩ := mul_error c x one' hx o1 hx0.ne' (by rw [o2]; norm_num) h.mulOk (by omega) (by omega)
      have m5 := mul_relative_error c x one' hx o1 hx0.ne' (by rw [o2]; norm_num) h.mulOk (by omega) (by omega)
      rw [o2, mul_one] at m5
      refine ⟨m3, ?_⟩
      have m6 : |(mulAssign c x one').val c - x.val c| ≤ |x.val c| * (2 * mulEps c) := by
        apply rel_flip hμ (hμ1.trans (by norm_num))
        unfold mulEps; rw [mul_one_div]; exact m5.le
      rw [abs_of_pos hx0] at m6
      simp only [zpow_zero, div_one, Int.cast_zero, abs_zero, mul_zero, zero_add]
      have : 0 ≤ x.val c * mulEps c := by positivity
      linarith
  · -- multiplication by the reciprocal of 2^t
    obtain ⟨n, rfl⟩ : ∃ n : ℕ, t = n := ⟨t.toNat, by omega⟩
    have hpn := hpw n (Or.inl rfl)
    rw [Nat.abs_cast] at t31
    have hn1 : 0 < n := by omega
    obtain ⟨p1, p2, p3⟩ := powTwo_spec h.lo h.mulOk (by omega) (n := n) (by omega)
      (hpn.trans (by rw [← zpow_natCast]; exact zpow_le_zpow_right₀ (by norm_num) (by push_cast; omega)))
    refine ⟨calcInv c (estInv c F) F.digits10 (powNat c (two c) n), ?_, ?_⟩
    · unfold pow
      rw [if_neg (by omega), if_pos (by omega)]
      simp
    · set P := powNat c (two c) n
      have h2n : (0 : ℚ) < 2 ^ n := by positivity
      have h21 : (1 : ℚ) ≤ 2 ^ n := one_le_pow₀ (by norm_num)
      have kk : 2 * (n : ℚ) * mulEps c * 2 ^ n ≤ 1 / 1000000000 * 2 ^ n := mul_le_mul_of_nonneg_right p3 h2n.le
      have p2' := abs_le.mp p2
      have hP0 : 0 < P.val c := by linarith
      have hPz := isZero_false_of_val p1.toWF hP0.ne'
      have a1 := p1.toWF.abs_ge hPz
      have a2 := p1.toWF.abs_lt
      rw [abs_of_pos hP0] at a1 a2
      have pe : -(c.ed : ℤ) - 1 < P.exp := by
        have : (10 : ℚ) ^ (-1 : ℤ) < 10 ^ (P.exp + (c.ed : ℤ)) := by
          refine lt_of_le_of_lt ?_ a2; norm_num; linarith
        rw [zpow_lt_zpow_iff_right₀ (by norm_num)] at this
        omega
      have pe2 : P.exp < (K : ℤ) + K / 1000 + 3 := by
        have : (10 : ℚ) ^ P.exp < 10 ^ ((K : ℤ) + K / 1000 + 3) := by
          have e : (10 : ℚ) ^ ((K : ℤ) + K / 1000 + 3) = 10 ^ (K + K / 1000 + 2) * 10 := by
            rw [← pow_succ, ← zpow_natCast]; congr 1
          rw [e]
          have : (0 : ℚ) < 10 ^ (K + K / 1000 + 2) := by positivity
          linarith
        rwa [zpow_lt_zpow_iff_right₀ (by norm_num)] at this
      have hkp : 0 < k := by
        rcases lt_trichotomy k 0 with q | q | q
        · omega
        · have := ht0 q; omega
        · exact q
      have hkK' : k = (K : ℤ) := by rw [hK, abs_of_pos hkp]
      have hx10 : 10 ≤ x.val c := by
        refine le_trans ?_ y1
        calc (10 : ℚ) = 10 ^ (1 : ℤ) := by norm_num
          _ ≤ _ := zpow_le_zpow_right₀ (by norm_num) (by omega)
      obtain ⟨-, q2, q3, -⟩ := mul_inv_any c F h.hF h.hK x P hx p1 hx0.ne' hP0.ne' h.hok (by omega) (by omega) (by omega) (by omega) (by omega)
      have hab : |x.val c| = x.val c := abs_of_pos hx0
      have nl : nearOne c < 1 := (nearOne_lt c).1
      refine ⟨q3 (by rw [hab]; intro hh; linarith) (by rw [hab]; intro hh; linarith), ?_⟩
      have e6 : (6 : ℚ) / 10 ^ (c.digits10 + 2 * c.ed) = 6 * mulEps c := by unfold mulEps; ring
      rw [e6] at q2
      have := down_real h2n (Nat.cast_nonneg n) hμ hμ1 p3 p2 q2.le
      rw [abs_of_pos (show 0 < x.val c / 2 ^ n by positivity)] at this
      rw [zpow_natCast]
      push_cast
      rw [Nat.abs_cast]
      exact this

end WD
