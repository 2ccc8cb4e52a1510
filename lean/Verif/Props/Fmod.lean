import Verif.Props.Sums
import Verif.Props.Radix
import Verif.Props.Round
import Verif.Proofs.ExpArg
import Verif.Proofs.LogLoop
import Verif.Model.Elem
import Verif.Props.FloatK
/-
  C49: `fmod`. The operands are decimal numbers a·10^s and b·10^s with integers a, b of at most digits10 - 2 digits.
-/
namespace WD
open DW

/-- What the configuration must satisfy for division to be accurate. -/
structure DivOk (c : Cfg) (F : Flt) : Prop where
  hF : FloatOk c F
  hK : digitLoops c F ≤ c.N
  hok : MulOkAll c
  hd : 4 ≤ c.digits10

theorem DivOk.mulOk {c : Cfg} {F : Flt} (h : DivOk c F) : MulOk c c.N :=
  h.hok.ok (by have := c.three_le_N; omega) (le_refl _)

/-- Exponents of a number a·10^s. -/
theorem exp_of_decimal {c : Cfg} {u : DW} (hu : WF c u) {a s : ℤ} (ha0 : a ≠ 0) (hv : u.val c = a * 10 ^ s) {D : ℕ} (ha : |a| < 10 ^ D) :
    s - c.ed < u.exp ∧ u.exp < s + D ∧ u.val c ≠ 0 := by
  have hp := p10_pos s
  have h0 : u.val c ≠ 0 := by
    rw [hv]; exact mul_ne_zero (by exact_mod_cast ha0) hp.ne'
  have hz := isZero_false_of_val hu h0
  have h1 := hu.abs_ge hz
  have h2 := hu.abs_lt
  rw [hv, abs_mul, abs_of_pos hp] at h1 h2
  have ha1 : (1 : ℚ) ≤ |(a : ℚ)| := by
    have : 1 ≤ |a| := Int.one_le_abs ha0
    exact_mod_cast this
  have ha2 : |(a : ℚ)| < 10 ^ (D : ℤ) := by rw [zpow_natCast]; exact_mod_cast ha
  refine ⟨?_, ?_, h0⟩
  · have : (10 : ℚ) ^ s < 10 ^ (u.exp + (c.ed : ℤ)) := by
      refine lt_of_le_of_lt ?_ h2
      have := mul_le_mul_of_nonneg_right ha1 hp.le
      linarith
    have := (zpow_lt_zpow_iff_right₀ (by norm_num : (1 : ℚ) < 10)).mp this
    omega
  · have : (10 : ℚ) ^ u.exp < 10 ^ (s + (D : ℤ)) := by
      refine lt_of_le_of_lt h1 ?_
      rw [zpow_add₀ (by norm_num), mul_comm ((10 : ℚ) ^ s)]
      exact mul_lt_mul_of_pos_right ha2 hp
    exact (zpow_lt_zpow_iff_right₀ (by norm_num : (1 : ℚ) < 10)).mp this

/-- floor and ceiling do not change when the error is below the distance to the next integer. -/
theorem floor_near {a b : ℤ} (hb : b ≠ 0) (hd : ¬ b ∣ a) {y : ℚ} (h : |y - (a : ℚ) / b| < 1 / |(b : ℚ)|) :
    ⌊y⌋ = ⌊(a : ℚ) / b⌋ ∧ ⌈y⌉ = ⌈(a : ℚ) / b⌉ := by
  have hbq : (b : ℚ) ≠ 0 := by exact_mod_cast hb
  have hbp : 0 < |(b : ℚ)| := abs_pos.mpr hbq
  have far : ∀ k : ℤ, 1 / |(b : ℚ)| ≤ |(a : ℚ) / b - k| := by
    intro k
    have e : (a : ℚ) / b - k = ((a - k * b : ℤ) : ℚ) / b := by push_cast; field_simp
    rw [e, abs_div]
    apply div_le_div_of_nonneg_right _ hbp.le
    have : a - k * b ≠ 0 := fun h0 => hd ⟨k, by linarith⟩
    have := Int.one_le_abs this
    exact_mod_cast this
  have h' := abs_lt.mp h
  set Q := (a : ℚ) / b with hQ
  have key : ∀ k : ℤ, ((k : ℚ) ≤ y ↔ (k : ℚ) ≤ Q) ∧ (y ≤ (k : ℚ) ↔ Q ≤ (k : ℚ)) := by
    intro k
    have hk := far k
    rcases le_total (k : ℚ) Q with h1 | h1
    · rw [abs_of_nonneg (show 0 ≤ Q - k by linarith)] at hk
      refine ⟨⟨fun _ => h1, fun _ => by linarith [h'.1]⟩, ⟨fun h2 => ?_, fun h2 => ?_⟩⟩
      · have : 0 < 1 / |(b : ℚ)| := by positivity
        linarith [h'.1]
      · have : 0 < 1 / |(b : ℚ)| := by positivity
        linarith
    · rw [abs_of_nonpos (show Q - k ≤ 0 by linarith)] at hk
      refine ⟨⟨fun h2 => ?_, fun h2 => ?_⟩, ⟨fun _ => h1, fun _ => by linarith [h'.2]⟩⟩
      · have : 0 < 1 / |(b : ℚ)| := by positivity
        linarith [h'.2]
      · have : 0 < 1 / |(b : ℚ)| := by positivity
        linarith
  constructor
  · apply le_antisymm
    · rw [Int.le_floor]; exact (key _).1.mp (Int.floor_le y)
    · rw [Int.le_floor]; exact (key _).1.mpr (Int.floor_le Q)
  · apply le_antisymm
    · rw [Int.ceil_le]; exact (key _).2.mpr (Int.le_ceil Q)
    · rw [Int.ceil_le]; exact (key _).2.mp (Int.le_ceil y)

theorem abs_mul_self_abs {x y : ℚ} (h : 0 < y) : |x * y| = |x| * y := by rw [abs_mul, abs_of_pos h]

/-- An integer of at most D digits times a power of ten within 10^-D of 1 is 1. -/
theorem near_power {b n : ℤ} {D : ℕ} (hb : |b| < 10 ^ D) (h : |(|(b : ℚ)| * 10 ^ n) - 1| < 1 / 10 ^ D) : |(b : ℚ)| * 10 ^ n = 1 := by
  have hD : (1 : ℚ) / 10 ^ D ≤ 1 := by
    rw [div_le_one (by positivity)]; exact one_le_pow₀ (by norm_num)
  rcases le_or_gt 0 n with hn | hn
  · obtain ⟨k, rfl⟩ := Int.eq_ofNat_of_zero_le hn
    have : (|b| * 10 ^ k : ℤ) = 1 := by
      apply multiple_unique (q := 1) one_pos
      push_cast
      simp only [Int.ofNat_eq_natCast, zpow_natCast] at h
      rw [mul_one, mul_one]; linarith
    simp only [Int.ofNat_eq_natCast, zpow_natCast]
    exact_mod_cast this
  · obtain ⟨k, hk⟩ : ∃ k : ℕ, n = -(k : ℤ) := ⟨(-n).toNat, by omega⟩
    subst hk
    have hp : (0 : ℚ) < 10 ^ k := by positivity
    rw [zpow_neg, zpow_natCast] at h ⊢
    have hbq : |(b : ℚ)| < 10 ^ D := by exact_mod_cast hb
    have h' := abs_lt.mp h
    have hm : |(b : ℚ)| * ((10 : ℚ) ^ k)⁻¹ * 10 ^ k = |(b : ℚ)| := by field_simp
    have hlt : (10 : ℚ) ^ k * (1 - 1 / 10 ^ D) < 10 ^ D := by
      have := mul_lt_mul_of_pos_right (show 1 - 1 / 10 ^ D < |(b : ℚ)| * ((10 : ℚ) ^ k)⁻¹ by linarith [h'.1]) hp
      rw [hm] at this; linarith
    have hkD : k ≤ D := by
      by_contra hc
      have h1 : (10 : ℚ) ^ (D + 1) ≤ 10 ^ k := pow_le_pow_right₀ (by norm_num) (by omega)
      have hD1 : (1 : ℚ) ≤ 10 ^ D := one_le_pow₀ (by norm_num)
      rcases Nat.eq_zero_or_pos D with h0 | h0
      · subst h0
        have : |b| < 1 := by simpa using hb
        have hb0 : b = 0 := by have := abs_nonneg b; exact abs_eq_zero.mp (by omega)
        rw [hb0] at h; simp at h
      · have h2 : (1 : ℚ) / 10 ^ D ≤ 1 / 10 := by
          apply one_div_le_one_div_of_le (by norm_num)
          calc (10 : ℚ) = 10 ^ 1 := by norm_num
            _ ≤ _ := pow_le_pow_right₀ (by norm_num) h0
        have h3 : (10 : ℚ) ^ k * (9 / 10) ≤ 10 ^ k * (1 - 1 / 10 ^ D) := mul_le_mul_of_nonneg_left (by linarith) hp.le
        rw [pow_succ] at h1
        linarith
    have : (|b| : ℤ) = 10 ^ k := by
      apply multiple_unique (q := 1) one_pos
      push_cast
      rw [mul_one, mul_one]
      have h4 := mul_lt_mul_of_pos_right h hp
      rw [← abs_of_pos hp, ← abs_mul, abs_of_pos hp, sub_mul, hm, one_mul] at h4
      refine lt_of_lt_of_le h4 ?_
      rw [div_mul_eq_mul_div, one_mul, div_le_one (by positivity)]
      exact pow_le_pow_right₀ (by norm_num) hkD
    have e : |(b : ℚ)| = 10 ^ k := by exact_mod_cast this
    rw [e]; field_simp

/-- The magnitude of an object with a leading radix limb. -/
theorem Mal.abs_val {c : Cfg} {w : DW} (h : Mal c w) : |w.val c| = 10 ^ (w.exp + (c.ed : ℤ)) := by
  rw [← h.twin_val, DW.abs_val]
  unfold mant lexp
  simp only [twin]
  rw [limbsVal_cons, limbsVal_replicate_zero, List.length_replicate]
  have h1 := c.p10_mul_B (w.exp + c.ed - (c.ed : ℤ) * ((c.N : ℤ) - 1)) (c.N - 1)
  have hN1 : ((c.N - 1 : ℕ) : ℤ) = (c.N : ℤ) - 1 := by have := c.three_le_N; omega
  rw [hN1, sub_add_cancel] at h1
  rw [← h1]; push_cast; ring

set_option maxHeartbeats 1000000 in
/-- The quotient of `fmod` after the rounding of `floor` and `ceil`. -/
theorem fmod_quot {c : Cfg} {F : Flt} (h : DivOk c F) {u v : DW} (hu : Full c u) (hv : Full c v) {a b s : ℤ}
    (ha : u.val c = a * 10 ^ s) (hb : v.val c = b * 10 ^ s) (ha0 : a ≠ 0) (hb0 : b ≠ 0) (ha2 : |a| < 10 ^ (c.digits10 - 2))
    (hb2 : |b| < 10 ^ (c.digits10 - 2)) (hs : |s| + c.digits10 + 5 * c.ed < c.maxExp)
    (hoff : |u.val c| = 1 → ∀ k : ℤ, |v.val c| ≠ 10 ^ ((c.ed : ℤ) * k)) :
    let q := divAssign c (estInv c F) F.digits10 u v
    let y := (roundSelf c q).val c
    Full c q ∧ q.val c ≠ 0 ∧ (q.val c < 0 ↔ (a : ℚ) / b < 0) ∧ (y < 0 ↔ (a : ℚ) / b < 0) ∧ |y| + 1 < 10 ^ ((c.digits10 : ℤ) - 1) ∧
      (¬ b ∣ a → ⌊y⌋ = ⌊(a : ℚ) / b⌋ ∧ ⌈y⌉ = ⌈(a : ℚ) / b⌉) ∧
      (b ∣ a → c.ed ≠ 2 → |(a : ℚ) / b| ≤ |y| ∧ |y| < |(a : ℚ) / b| + 1) := by
  intro q y
  have hed := two_le_ed c
  have h8 := ed_le8 c
  have hd := h.hd
  have hg : c.ed ≤ c.digits10 + 4 := by omega
  obtain ⟨u1, u2, hu0⟩ := exp_of_decimal hu.toWF ha0 ha ha2
  obtain ⟨v1, v2, hv0⟩ := exp_of_decimal hv.toWF hb0 hb hb2
  have hsb := abs_le.mp (show |s| ≤ (c.maxExp : ℤ) - c.digits10 - 5 * c.ed - 1 by omega)
  have hcast : ((c.digits10 - 2 : ℕ) : ℤ) = (c.digits10 : ℤ) - 2 := by omega
  rw [hcast] at u2 v2
  have hQe : u.val c / v.val c = (a : ℚ) / b := by
    rw [ha, hb]; exact mul_div_mul_right _ _ (p10_pos s).ne'
  obtain ⟨d1, d2, d3, d4⟩ := div_accuracy_any c F h.hF h.hK u v hu hv hu0 hv0 h.hok (by omega) (by omega) (by omega) (by omega) (by omega)
  change (q.val c < 0 ↔ _) at d1
  change |q.val c - _| < _ at d2
  rw [hQe] at d1 d2
  set Q := (a : ℚ) / b with hQ
  have haq : (a : ℚ) ≠ 0 := by exact_mod_cast ha0
  have hbq : (b : ℚ) ≠ 0 := by exact_mod_cast hb0
  have hQ0 : Q ≠ 0 := div_ne_zero haq hbq
  have hQp : 0 < |Q| := abs_pos.mpr hQ0
  have hμ : (6 : ℚ) / 10 ^ (c.digits10 + 2 * c.ed) = 6 * mulEps c := by unfold mulEps; ring
  have hμ0 := mulEps_pos c
  have hε : epsD c ≤ 1 / 10 ^ 4 := by
    unfold epsD
    rw [one_div, ← zpow_natCast, ← zpow_neg]
    exact zpow_le_zpow_right₀ (by norm_num) (by push_cast; omega)
  have hε0 := epsD_pos c
  have hμ1 := mulEps_le_epsD c
  rw [hμ] at d2
  -- q is well formed
  have hqf : Full c q := by
    by_cases h1 : |u.val c| = 1
    · rcases d4 with d4 | ⟨d4, ⟨k, hk⟩⟩
      · exact d4
      · exfalso
        have hqa : |q.val c| = 10 ^ ((c.ed : ℤ) * (k + 1)) := by
          have hmal : Mal c { q with prec := c.N } :=
            ⟨by show q.data = _; rw [d4, ← c.B_eq]; rfl, ⟨k, hk⟩, by have := c.three_le_N; show 2 ≤ c.N; omega, le_refl _⟩
          have e := hmal.abs_val
          have e2 : |({ q with prec := c.N } : DW).val c| = |q.val c| := by rw [DW.abs_val, DW.abs_val]; rfl
          rw [e2] at e
          rw [e]; congr 1; show q.exp + _ = _; rw [hk]; ring
        apply hoff h1 (-(k + 1))
        have hQv : |Q| * |v.val c| = 1 := by
          rw [← hQe, abs_div, h1, one_div, inv_mul_cancel₀ (abs_pos.mpr hv0).ne']
        have t0 := abs_abs_sub_abs_le_abs_sub (q.val c) Q
        rw [hqa] at t0
        have hvp := abs_pos.mpr hv0
        have t := mul_lt_mul_of_pos_right (t0.trans_lt d2) hvp
        have t1 : |((10 : ℚ) ^ ((c.ed : ℤ) * (k + 1)) - |Q|)| * |v.val c| = |((|v.val c|) * 10 ^ ((c.ed : ℤ) * (k + 1)) - 1)| := by
          rw [← abs_mul_self_abs hvp, sub_mul, hQv, mul_comm (|v.val c|)]
        have t2 : |Q| * (6 * mulEps c) * |v.val c| = 6 * mulEps c := by
          rw [show |Q| * (6 * mulEps c) * |v.val c| = (|Q| * |v.val c|) * (6 * mulEps c) by ring, hQv, one_mul]
        rw [t1, t2] at t
        have hvb : |v.val c| * 10 ^ ((c.ed : ℤ) * (k + 1)) = |(b : ℚ)| * 10 ^ (s + (c.ed : ℤ) * (k + 1)) := by
          rw [hb, abs_mul, abs_of_pos (p10_pos s), mul_assoc, ← zpow_add₀ (by norm_num)]
        have hnp := near_power hb2 (n := s + (c.ed : ℤ) * (k + 1)) (by
          rw [← hvb]
          refine t.trans_le ?_
          unfold mulEps
          rw [mul_one_div, div_le_div_iff₀ (by positivity) (by positivity)]
          have : (6 : ℚ) * 10 ^ (c.digits10 - 2) ≤ 10 ^ (c.digits10 - 2 + 1) := by
            rw [pow_succ]; have : (0 : ℚ) < 10 ^ (c.digits10 - 2) := by positivity
            linarith
          rw [one_mul]
          exact this.trans (pow_le_pow_right₀ (by norm_num) (by omega)))
        rw [← hvb] at hnp
        rw [mul_neg, zpow_neg]
        exact eq_inv_of_mul_eq_one_left hnp
    · refine d3 h1 (sig_ne_nearOne ⟨a, s, lt_of_lt_of_le ha2 (pow_le_pow_right₀ (by norm_num) (by omega)), ha⟩)
  have hq0 : q.val c ≠ 0 := by
    intro h0
    rw [h0, zero_sub, abs_neg] at d2
    have : |Q| * (6 * mulEps c) ≤ |Q| * 1 := mul_le_mul_of_nonneg_left (by norm_num at hμ1 hε; linarith) hQp.le
    linarith
  have hqz := isZero_false_of_val hqf.toWF hq0
  have hqs : |(|q.val c| - |Q|)| ≤ |Q| * (6 * mulEps c) := (abs_abs_sub_abs_le_abs_sub _ _).trans d2.le
  have hqs' := abs_le.mp hqs
  obtain ⟨r1, r2, r3, -, r5, m, r, r6, r7, r8, r9, r10, -, -⟩ := roundSelf_val hqf.toWF hqz hg
  obtain ⟨l1, l2⟩ := ilogb_spec hqf.toWF hqz
  obtain ⟨n1, -, -⟩ := round_near c q hqf.toWF hq0 hg
  change |y| = _ at r6
  change |y - q.val c| < _ at n1
  set U := roundUnit c q with hU
  have hUe : U = 10 ^ ilogb q * (epsD c / 1000) := by
    rw [hU]; unfold roundUnit epsD Cfg.maxDigits10
    push_cast
    rw [show ilogb q - ((c.digits10 : ℤ) + 4) + 1 = ilogb q + -(c.digits10 : ℤ) + -3 by ring, zpow_add₀ (by norm_num), zpow_add₀ (by norm_num)]
    norm_num; ring
  have hUU : (10 : ℚ) ^ (ilogb q - (c.maxDigits10 : ℤ) + 1) = U := rfl
  rw [hUU] at n1
  have hUp : 0 < U := p10_pos _
  have hUq : U ≤ |q.val c| * (epsD c / 1000) := by rw [hUe]; exact mul_le_mul_of_nonneg_right l1 (by positivity)
  have hQε : |Q| * mulEps c ≤ |Q| * (epsD c / 10 ^ 4) := mul_le_mul_of_nonneg_left hμ1 hQp.le
  have hQε2 : |Q| * epsD c ≤ |Q| * (1 / 10 ^ 4) := mul_le_mul_of_nonneg_left hε hQp.le
  have hqQ : |q.val c| ≤ |Q| * (1001 / 1000) := by norm_num at hQε hQε2; linarith [hqs'.2]
  have hUQ : U ≤ |Q| * (1001 / 1000) * (epsD c / 1000) := hUq.trans (mul_le_mul_of_nonneg_right hqQ (by positivity))
  have herr : |y - Q| < |Q| * (3 / 1000 * epsD c) := by
    have t := abs_add_le (y - q.val c) (q.val c - Q)
    rw [sub_add_sub_cancel] at t
    have : 0 < |Q| * epsD c := by positivity
    norm_num at hQε; linarith
  -- the error is below 1/|b|
  have hbp : 0 < |(b : ℚ)| := abs_pos.mpr hbq
  have haE : |(a : ℚ)| * epsD c ≤ 1 / 100 := by
    have h1 : |(a : ℚ)| < 10 ^ ((c.digits10 : ℤ) - 2) := by
      rw [← hcast, zpow_natCast]; exact_mod_cast ha2
    have h2 : (10 : ℚ) ^ ((c.digits10 : ℤ) - 2) * epsD c = 1 / 100 := by
      unfold epsD; rw [← zpow_add₀ (by norm_num), show (c.digits10 : ℤ) - 2 + -(c.digits10 : ℤ) = -2 by ring]; norm_num
    have := mul_le_mul_of_nonneg_right h1.le hε0.le
    linarith
  have hQab : |Q| = |(a : ℚ)| / |(b : ℚ)| := by rw [hQ, abs_div]
  have hbe : |y - Q| < 1 / |(b : ℚ)| := by
    refine herr.trans ?_
    rw [hQab, div_mul_eq_mul_div]
    apply div_lt_div_of_pos_right _ hbp
    linarith
  have hQle : |Q| ≤ |(a : ℚ)| := by
    rw [hQab]
    have : (1 : ℚ) ≤ |(b : ℚ)| := by
      have := Int.one_le_abs hb0
      exact_mod_cast this
    exact div_le_self (abs_nonneg _) this
  have hyneg : (y < 0 ↔ Q < 0) := by
    have : |y - Q| < |Q| := by
      refine herr.trans_le ?_
      have : |Q| * (3 / 1000 * epsD c) ≤ |Q| * 1 := mul_le_mul_of_nonneg_left (by norm_num at hε; linarith) hQp.le
      linarith
    rcases lt_or_gt_of_ne hQ0 with hn | hp
    · rw [abs_of_neg hn] at this
      exact ⟨fun _ => hn, fun _ => by linarith [(abs_lt.mp this).2]⟩
    · rw [abs_of_pos hp] at this
      exact ⟨fun h' => by linarith [(abs_lt.mp this).1], fun h' => by linarith⟩
  refine ⟨hqf, hq0, d1, hyneg, ?_, fun hdv => floor_near hb0 hdv hbe, ?_⟩
  · have h1 : |(a : ℚ)| ≤ 10 ^ ((c.digits10 : ℤ) - 2) := by
      rw [← hcast, zpow_natCast]; exact_mod_cast ha2.le
    have h2 : (10 : ℚ) ^ ((c.digits10 : ℤ) - 1) = 10 ^ ((c.digits10 : ℤ) - 2) * 10 := by
      rw [← zpow_add_one₀ (by norm_num)]; congr 1; ring
    have h3 : (10 : ℚ) ^ (2 : ℤ) ≤ 10 ^ ((c.digits10 : ℤ) - 2) := zpow_le_zpow_right₀ (by norm_num) (by omega)
    have h4 : |y| ≤ |Q| + |y - Q| := by
      have := abs_add_le Q (y - Q); rwa [add_sub_cancel] at this
    have h5 : |Q| * (3 / 1000 * epsD c) ≤ |Q| * 1 := mul_le_mul_of_nonneg_left (by norm_num at hε; linarith) hQp.le
    rw [h2]
    norm_num at h3
    linarith
  · rintro ⟨k, hk⟩ hed2
    have hed4 : 4 ≤ c.ed := by
      have : c.ed = 2 ∨ c.ed = 4 ∨ c.ed = 8 := by unfold Cfg.ed; cases c.L <;> decide
      omega
    have hQk : Q = k := by rw [hQ, hk]; push_cast; field_simp
    -- μ ≤ ε/10^8
    have hμ8 : mulEps c ≤ epsD c / 10 ^ 8 := by
      unfold mulEps epsD
      have : (10 : ℚ) ^ (-(c.digits10 : ℤ)) / 10 ^ 8 = 1 / 10 ^ (c.digits10 + 8) := by
        rw [zpow_neg, zpow_natCast, pow_add]; field_simp
      rw [this]
      apply one_div_le_one_div_of_le (by positivity)
      exact pow_le_pow_right₀ (by norm_num) (by omega)
    -- the unit of rounding divides 1
    have hil : ilogb q ≤ (c.digits10 : ℤ) + 3 := by
      have h1 : |(a : ℚ)| < 10 ^ ((c.digits10 : ℤ) - 2) := by
        rw [← hcast, zpow_natCast]; exact_mod_cast ha2
      have h3 : (10 : ℚ) ^ ilogb q < 10 ^ ((c.digits10 : ℤ) - 2 + 1) := by
        refine lt_of_le_of_lt l1 ?_
        rw [zpow_add_one₀ (by norm_num)]
        linarith
      have := (zpow_lt_zpow_iff_right₀ (by norm_num : (1 : ℚ) < 10)).mp h3
      omega
    obtain ⟨j, hj⟩ : ∃ j : ℕ, (1 : ℚ) = (10 ^ j : ℤ) * U := by
      have := p10_split (e := ilogb q - c.maxDigits10 + 1) (s := 0) (by unfold Cfg.maxDigits10; push_cast; omega)
      obtain ⟨j, hj⟩ := this
      exact ⟨j, by rw [zpow_zero] at hj; exact hj⟩
    have hmk : (m : ℤ) = |k| * 10 ^ j := by
      apply multiple_unique hUp
      have hk2 : ((|k| * 10 ^ j : ℤ) : ℚ) * U = |Q| := by
        rw [hQk]; push_cast
        have : ((10 : ℚ) ^ j) * U = 1 := by rw [hj]; push_cast; ring
        rw [mul_assoc, this, mul_one]
      rw [hk2]
      -- |Q| (6 μ) < U / 2
      have hQU : |Q| * (6 * mulEps c) < U / 2 := by
        have hQ2 : |Q| ≤ 2 * |q.val c| := by norm_num at hQε hQε2; linarith [hqs'.1]
        have hq10 : |q.val c| < 10 ^ ilogb q * 10 := by rw [← zpow_add_one₀ (by norm_num)]; exact l2
        have h1 : |Q| * (6 * mulEps c) ≤ (20 * 10 ^ ilogb q) * (6 * (epsD c / 10 ^ 8)) :=
          mul_le_mul (by linarith) (by linarith) (by positivity) (by positivity)
        have h2 : 0 < (10 : ℚ) ^ ilogb q * epsD c := mul_pos (p10_pos _) hε0
        rw [hUe]
        norm_num at h1
        linarith
      rw [abs_lt]
      push_cast
      constructor <;> linarith [hqs'.1, hqs'.2]
    have hmU : (m : ℚ) * U = |Q| := by
      have : ((m : ℤ) : ℚ) = ((|k| * 10 ^ j : ℤ) : ℚ) := by rw [hmk]
      have e : (m : ℚ) = |(k : ℚ)| * 10 ^ j := by push_cast at this; exact this
      have hju : ((10 : ℚ) ^ j) * U = 1 := by rw [hj]; push_cast; ring
      rw [e, mul_assoc, hju, mul_one, hQk]
    have hU1 : U ≤ 1 := by
      rw [hj]
      have : (1 : ℚ) ≤ ((10 ^ j : ℤ) : ℚ) := by push_cast; exact one_le_pow₀ (by norm_num)
      have := mul_le_mul_of_nonneg_right this hUp.le
      linarith
    rw [r6, hmU]
    exact ⟨by linarith, by linarith⟩

/-- The last two steps of `fmod`: u - n·v is exact for an integer n when n·b stays below 10^(digits10 - 1). -/
theorem fmod_tail {c : Cfg} {F : Flt} (h : DivOk c F) {u v w : DW} (hu : Full c u) (hv : Full c v) (hw : Full c w) {a b s n : ℤ}
    (ha : u.val c = a * 10 ^ s) (hb : v.val c = b * 10 ^ s) (hb0 : b ≠ 0) (ha2 : |a| < 10 ^ (c.digits10 - 2))
    (hb2 : |b| < 10 ^ (c.digits10 - 2)) (hs : |s| + c.digits10 + 5 * c.ed < c.maxExp) (hn : w.val c = n)
    (hnb : |n * b| < 10 ^ (c.digits10 - 1)) :
    (subAssign c u (mulAssign c w v)).val c = (a - n * b : ℤ) * 10 ^ s := by
  have hed := two_le_ed c
  have hd := h.hd
  have hsb := abs_le.mp (show |s| ≤ (c.maxExp : ℤ) - c.digits10 - 5 * c.ed - 1 by omega)
  have hcast : ((c.digits10 - 2 : ℕ) : ℤ) = (c.digits10 : ℤ) - 2 := by omega
  have hcast1 : ((c.digits10 - 1 : ℕ) : ℤ) = (c.digits10 : ℤ) - 1 := by omega
  obtain ⟨v1, v2, hv0⟩ := exp_of_decimal hv.toWF hb0 hb hb2
  have hm : (mulAssign c w v).val c = (n * b : ℤ) * 10 ^ s ∧ Full c (mulAssign c w v) := by
    by_cases hn0 : n = 0
    · subst hn0
      have hz : w.isZero = true := hw.toWF.isZero_iff.mpr (by rw [hn]; simp)
      obtain ⟨m1, m2⟩ := mulAssign_zero hw hv (Or.inl hz) h.mulOk (by omega) (by omega)
      exact ⟨by rw [m1]; simp, m2⟩
    · have hn1 : |n| < 10 ^ (c.digits10 - 1) := by
        refine lt_of_le_of_lt ?_ hnb
        rw [abs_mul]
        have := Int.one_le_abs hb0
        nlinarith [abs_nonneg n]
      obtain ⟨w1, w2, hw0⟩ := exp_of_decimal hw.toWF hn0 (s := 0) (by rw [hn, zpow_zero, mul_one]) hn1
      have hpr : w.val c * v.val c = (n * b : ℤ) * 10 ^ s := by rw [hn, hb]; push_cast; ring
      have hbig : (10 : ℤ) ^ (c.digits10 - 1) ≤ 10 ^ (c.digits10 + 2 * c.ed + 1) := pow_le_pow_right₀ (by norm_num) (by omega)
      have hbig2 : (10 : ℤ) ^ (c.digits10 - 2) ≤ 10 ^ (c.digits10 + 2 * c.ed + 1) := pow_le_pow_right₀ (by norm_num) (by omega)
      have hwz := isZero_false_of_val hw.toWF hw0
      have hvz := isZero_false_of_val hv.toWF hv0
      have hexp : w.exp + v.exp < s + (c.digits10 - 1 : ℕ) := by
        have h1 := mul_le_mul (hw.toWF.abs_ge hwz) (hv.toWF.abs_ge hvz) (p10_pos _).le (abs_nonneg _)
        rw [← abs_mul, hpr, abs_mul, abs_of_pos (p10_pos s), ← zpow_add₀ (by norm_num)] at h1
        have h2 : |((n * b : ℤ) : ℚ)| < 10 ^ ((c.digits10 - 1 : ℕ) : ℤ) := by rw [zpow_natCast]; exact_mod_cast hnb
        have h3 := mul_lt_mul_of_pos_right h2 (p10_pos s)
        rw [← zpow_add₀ (by norm_num)] at h3
        have := (zpow_lt_zpow_iff_right₀ (by norm_num : (1 : ℚ) < 10)).mp (lt_of_le_of_lt h1 h3)
        omega
      have hm := mul_sig_exact hw hv hw0 hv0 h.mulOk (by omega) (by omega)
        (sig_ne_nearOne ⟨n, 0, by linarith, by rw [hn, zpow_zero, mul_one]⟩) (sig_ne_nearOne ⟨b, s, by linarith, hb⟩)
        ⟨n * b, s, by linarith, hpr⟩
      exact ⟨by rw [hm, hpr], (mulAssign_full hw hv (isZero_false_of_val hw.toWF hw0) (isZero_false_of_val hv.toWF hv0) h.mulOk
        (by omega) (by omega)).1⟩
  refine sub_decimal_exact c u _ hu hm.2 a (n * b) s ha hm.1 ?_
  have h1 : (10 : ℤ) ^ (c.digits10 - 2) ≤ 10 ^ (c.digits10 - 1) := pow_le_pow_right₀ (by norm_num) (by omega)
  have h2 : (10 : ℤ) ^ (c.digits10 - 1) * 10 ≤ 10 ^ (c.digits10 + 2 * c.ed) := by
    rw [← pow_succ]; exact pow_le_pow_right₀ (by norm_num) (by omega)
  have h3 : (0 : ℤ) < 10 ^ (c.digits10 - 1) := by positivity
  linarith

/-- A non-zero object is negative when its value is. -/
theorem isNeg_iff {c : Cfg} {u : DW} (h0 : u.val c ≠ 0) : u.isNeg = true ↔ u.val c < 0 := by
  have hp := abs_pos.mpr h0
  rw [val_sgn c u, isNeg]
  cases u.neg <;> simp [h0]

/-- The quotient splits into the truncated quotient and a fraction of the same sign. -/
theorem tdiv_split {a b : ℤ} (hb : b ≠ 0) : ∃ f : ℚ, (a : ℚ) / b = a.tdiv b + f ∧ |f| < 1 ∧ (0 ≤ (a : ℚ) / b → 0 ≤ f) ∧
    ((a : ℚ) / b ≤ 0 → f ≤ 0) ∧ (f = 0 → b ∣ a) := by
  have hbq : (b : ℚ) ≠ 0 := by exact_mod_cast hb
  have hbp : 0 < |(b : ℚ)| := abs_pos.mpr hbq
  have h0 := Int.mul_tdiv_add_tmod a b
  have hlt : |a.tmod b| < |b| := by
    rw [Int.abs_eq_natAbs, Int.abs_eq_natAbs, Int.natAbs_tmod]
    exact_mod_cast Nat.mod_lt _ (Int.natAbs_pos.mpr hb)
  have hpos : 0 ≤ a → 0 ≤ a.tmod b := fun h => Int.tmod_nonneg b h
  have hneg : a ≤ 0 → a.tmod b ≤ 0 := by
    intro h
    have := Int.tmod_nonneg (a := -a) b (by omega)
    rw [Int.neg_tmod] at this; omega
  have hsplit : (a : ℚ) / b = a.tdiv b + (a.tmod b : ℚ) / b := by
    rw [div_eq_iff hbq, add_mul, div_mul_cancel₀ _ hbq]
    have : (b : ℚ) * a.tdiv b + a.tmod b = a := by exact_mod_cast h0
    linarith
  refine ⟨(a.tmod b : ℚ) / b, hsplit, ?_, ?_, ?_, ?_⟩
  · rw [abs_div, div_lt_one hbp]; exact_mod_cast hlt
  · intro h
    rcases div_nonneg_iff.mp h with ⟨h1, h2⟩ | ⟨h1, h2⟩
    · exact div_nonneg (by exact_mod_cast hpos (by exact_mod_cast h1)) h2
    · exact div_nonneg_of_nonpos (by exact_mod_cast hneg (by exact_mod_cast h1)) h2
  · intro h
    rcases div_nonpos_iff.mp h with ⟨h1, h2⟩ | ⟨h1, h2⟩
    · exact div_nonpos_of_nonneg_of_nonpos (by exact_mod_cast hpos (by exact_mod_cast h1)) h2
    · exact div_nonpos_of_nonpos_of_nonneg (by exact_mod_cast hneg (by exact_mod_cast h1)) h2
  · intro h
    have : (a.tmod b : ℚ) = 0 := by
      rcases div_eq_zero_iff.mp h with h | h
      · exact h
      · exact absurd h hbq
    have : a.tmod b = 0 := by exact_mod_cast this
    exact Int.dvd_of_tmod_eq_zero this

theorem tdiv_mul_le (a b : ℤ) : |a.tdiv b * b| ≤ |a| := by
  rw [abs_mul, Int.abs_eq_natAbs, Int.abs_eq_natAbs, Int.abs_eq_natAbs, Int.natAbs_tdiv]
  exact_mod_cast Nat.div_mul_le_self _ _

/-- The value of `fmod` in terms of the rounded quotient: `floor` for u ≥ 0, `ceil` for u < 0. -/
theorem fmod_val {c : Cfg} {F : Flt} (h : DivOk c F) {u v : DW} (hu : Full c u) (hv : Full c v) {a b s : ℤ}
    (ha : u.val c = a * 10 ^ s) (hb : v.val c = b * 10 ^ s) (ha0 : a ≠ 0) (hb0 : b ≠ 0) (ha2 : |a| < 10 ^ (c.digits10 - 2))
    (hb2 : |b| < 10 ^ (c.digits10 - 2)) (hs : |s| + c.digits10 + 5 * c.ed < c.maxExp)
    (hoff : |u.val c| = 1 → ∀ k : ℤ, |v.val c| ≠ 10 ^ ((c.ed : ℤ) * k)) {n : ℤ}
    (hn : n = if a < 0 then ⌈(roundSelf c (divAssign c (estInv c F) F.digits10 u v)).val c⌉ else ⌊(roundSelf c (divAssign c (estInv c F) F.digits10 u v)).val c⌋)
    (hnb : |n * b| < 10 ^ (c.digits10 - 1)) :
    (fmod c (estInv c F) F.digits10 u v).val c = (a - n * b : ℤ) * 10 ^ s := by
  have h8 := ed_le8 c
  have hd := h.hd
  have hg : c.ed ≤ c.digits10 + 4 := by omega
  obtain ⟨q1, q2, -, -, q5, -, -⟩ := fmod_quot h hu hv ha hb ha0 hb0 ha2 hb2 hs hoff
  obtain ⟨f1, f2⟩ := floor_spec q1 hg (Or.inl (isZero_false_of_val q1.toWF q2)) (Or.inr q5)
  obtain ⟨g1, g2⟩ := floor_closed q1 hg
  have hu0 := (exp_of_decimal hu.toWF ha0 ha ha2).2.2
  have hneg : u.isNeg = true ↔ a < 0 := by
    rw [isNeg_iff hu0, ha]
    have := p10_pos s
    constructor
    · intro h
      by_contra hc
      have : (0 : ℚ) ≤ a := by exact_mod_cast not_lt.mp hc
      have := mul_nonneg this (p10_pos s).le
      linarith
    · intro h; exact mul_neg_of_neg_of_pos (by exact_mod_cast h) this
  unfold fmod
  by_cases hlt : a < 0
  · simp only [hneg.mpr hlt, if_true]
    rw [if_pos hlt] at hn
    exact fmod_tail h hu hv g2 ha hb hb0 ha2 hb2 hs (by rw [f2, hn]) hnb
  · have : u.isNeg = false := by
      cases hx : u.isNeg
      · rfl
      · exact absurd (hneg.mp hx) hlt
    simp only [this, Bool.false_eq_true, if_false]
    rw [if_neg hlt] at hn
    exact fmod_tail h hu hv g1 ha hb hb0 ha2 hb2 hs (by rw [f1, hn]) hnb

/-- C49. For u = a·10^s ≠ 0 and v = b·10^s with b > 0, where a and b have at most digits10 - 2 digits, `fmod(u, v)` is the
    exact remainder of the truncated division, as `std::fmod` defines it. Missing for the full claim: negative v (`fmod_negative_divisor`),
    multiples with 8-bit limbs (`fmod_u8_wrong`), u = ±1 with v a power of the radix, longer operands. -/
theorem fmod_exact_partial (c : Cfg) (F : Flt) (h : DivOk c F) (u v : DW) (hu : Full c u) (hv : Full c v) (a b s : ℤ)
    (ha : u.val c = a * 10 ^ s) (hb : v.val c = b * 10 ^ s) (ha0 : a ≠ 0) (hb0 : 0 < b) (ha2 : |a| < 10 ^ (c.digits10 - 2))
    (hb2 : |b| < 10 ^ (c.digits10 - 2)) (hs : |s| + c.digits10 + 5 * c.ed < c.maxExp)
    (hoff : |u.val c| = 1 → ∀ k : ℤ, |v.val c| ≠ 10 ^ ((c.ed : ℤ) * k)) (h8 : c.ed = 2 → ¬ b ∣ a) :
    (fmod c (estInv c F) F.digits10 u v).val c = (a.tmod b : ℤ) * 10 ^ s := by
  have hb0' : b ≠ 0 := by omega
  obtain ⟨-, -, -, q4, -, q6, q7⟩ := fmod_quot h hu hv ha hb ha0 hb0' ha2 hb2 hs hoff
  obtain ⟨f, s1, s2, s3, s4, -⟩ := tdiv_split (a := a) hb0'
  have hbq : (0 : ℚ) < b := by exact_mod_cast hb0
  have key : a.tdiv b = if a < 0 then ⌈(roundSelf c (divAssign c (estInv c F) F.digits10 u v)).val c⌉ else ⌊(roundSelf c (divAssign c (estInv c F) F.digits10 u v)).val c⌋ := by
    set y := (roundSelf c (divAssign c (estInv c F) F.digits10 u v)).val c
    have s2' := abs_lt.mp s2
    by_cases hlt : a < 0
    · rw [if_pos hlt]
      have hQ : (a : ℚ) / b < 0 := div_neg_of_neg_of_pos (by exact_mod_cast hlt) hbq
      symm
      by_cases hdv : b ∣ a
      · obtain ⟨r1, r2⟩ := q7 hdv (fun h2 => h8 h2 hdv)
        have hk : (a : ℚ) / b = (a.tdiv b : ℤ) := by
          obtain ⟨k, rfl⟩ := hdv
          rw [Int.mul_tdiv_cancel_left _ hb0']; push_cast; field_simp
        rw [abs_of_neg hQ, abs_of_neg (q4.mpr hQ)] at r1 r2
        rw [Int.ceil_eq_iff, ← hk]
        constructor <;> linarith
      · rw [(q6 hdv).2, Int.ceil_eq_iff, s1]
        have := s4 hQ.le
        constructor <;> linarith [s2'.1]
    · rw [if_neg hlt]
      have hQ : 0 < (a : ℚ) / b := div_pos (by exact_mod_cast (show 0 < a by omega)) hbq
      have hy : 0 ≤ y := by by_contra hc; have := q4.mp (not_le.mp hc); linarith
      symm
      by_cases hdv : b ∣ a
      · obtain ⟨r1, r2⟩ := q7 hdv (fun h2 => h8 h2 hdv)
        have hk : (a : ℚ) / b = (a.tdiv b : ℤ) := by
          obtain ⟨k, rfl⟩ := hdv
          rw [Int.mul_tdiv_cancel_left _ hb0']; push_cast; field_simp
        rw [abs_of_pos hQ, abs_of_nonneg hy] at r1 r2
        rw [Int.floor_eq_iff, ← hk]
        constructor <;> linarith
      · rw [(q6 hdv).1, Int.floor_eq_iff, s1]
        have := s3 hQ.le
        constructor <;> linarith [s2'.2]
  have hle := tdiv_mul_le a b
  have h1 : (10 : ℤ) ^ (c.digits10 - 2) ≤ 10 ^ (c.digits10 - 1) := pow_le_pow_right₀ (by norm_num) (by omega)
  rw [fmod_val h hu hv ha hb ha0 hb0' ha2 hb2 hs hoff key (by linarith)]
  congr 2
  have := Int.mul_tdiv_add_tmod a b
  rw [mul_comm]; omega

/-- C49 (finding F42). With a negative divisor that does not divide the first operand the result is off by |v| and has the
    sign opposite to the first operand. -/
theorem fmod_negative_divisor (c : Cfg) (F : Flt) (h : DivOk c F) (u v : DW) (hu : Full c u) (hv : Full c v) (a b s : ℤ)
    (ha : u.val c = a * 10 ^ s) (hb : v.val c = b * 10 ^ s) (hb0 : b < 0) (ha2 : |a| < 10 ^ (c.digits10 - 2))
    (hb2 : |b| < 10 ^ (c.digits10 - 2)) (hs : |s| + c.digits10 + 5 * c.ed < c.maxExp)
    (hoff : |u.val c| = 1 → ∀ k : ℤ, |v.val c| ≠ 10 ^ ((c.ed : ℤ) * k)) (hdv : ¬ b ∣ a) :
    (fmod c (estInv c F) F.digits10 u v).val c = (a.tmod b + (if a < 0 then -b else b) : ℤ) * 10 ^ s := by
  have hb0' : b ≠ 0 := by omega
  have ha0 : a ≠ 0 := fun h => hdv (by rw [h]; exact dvd_zero b)
  obtain ⟨-, -, -, -, -, q6, -⟩ := fmod_quot h hu hv ha hb ha0 hb0' ha2 hb2 hs hoff
  obtain ⟨f, s1, s2, s3, s4, s5⟩ := tdiv_split (a := a) hb0'
  have hf : f ≠ 0 := fun h => hdv (s5 h)
  have hbq : (b : ℚ) < 0 := by exact_mod_cast hb0
  have key : a.tdiv b + (if a < 0 then 1 else -1) = if a < 0 then ⌈(roundSelf c (divAssign c (estInv c F) F.digits10 u v)).val c⌉ else ⌊(roundSelf c (divAssign c (estInv c F) F.digits10 u v)).val c⌋ := by
    set y := (roundSelf c (divAssign c (estInv c F) F.digits10 u v)).val c
    have s2' := abs_lt.mp s2
    by_cases hlt : a < 0
    · rw [if_pos hlt, if_pos hlt]
      have hQ : 0 < (a : ℚ) / b := div_pos_of_neg_of_neg (by exact_mod_cast hlt) hbq
      have := lt_of_le_of_ne (s3 hQ.le) (Ne.symm hf)
      symm
      rw [(q6 hdv).2, Int.ceil_eq_iff, s1]
      push_cast
      constructor <;> linarith [s2'.2]
    · rw [if_neg hlt, if_neg hlt]
      have hQ : (a : ℚ) / b < 0 := div_neg_of_pos_of_neg (by exact_mod_cast (show 0 < a by omega)) hbq
      have := lt_of_le_of_ne (s4 hQ.le) hf
      symm
      rw [(q6 hdv).1, Int.floor_eq_iff, s1]
      push_cast
      constructor <;> linarith [s2'.1]
  have hle := tdiv_mul_le a b
  have h1 : (10 : ℤ) ^ (c.digits10 - 2) * 10 = 10 ^ (c.digits10 - 1) := by
    rw [← pow_succ]; congr 1; have := h.hd; omega
  have h2 : (0 : ℤ) < 10 ^ (c.digits10 - 2) := by positivity
  have h3 : |(a.tdiv b + (if a < 0 then 1 else -1)) * b| ≤ |a| + |b| := by
    rw [add_mul]
    refine (abs_add_le _ _).trans (add_le_add hle ?_)
    rw [abs_mul]; split <;> simp
  rw [fmod_val h hu hv ha hb ha0 hb0' ha2 hb2 hs hoff key (by linarith)]
  congr 2
  have := Int.mul_tdiv_add_tmod a b
  split <;> [rw [add_mul]; rw [add_mul]] <;> linarith [mul_comm b (a.tdiv b)]

/-- 8-bit limbs, 12 digits. -/
def exC12 : Cfg := { L := .u8, digits10 := 12, maxExp := 64 }

/-- A whole number below 10000 for `exC12`. -/
def ex12 (n : Nat) (neg : Bool) : DW :=
  if n < 100 then { data := [n, 0, 0, 0, 0, 0, 0, 0, 0], exp := 0, neg := neg, prec := 9 }
  else { data := [n / 100, n % 100, 0, 0, 0, 0, 0, 0, 0], exp := 2, neg := neg, prec := 9 }

theorem calcInv_one_step (c : Cfg) (est : DW → DW) (fdig : Nat) (x : DW) (h0 : x.isZero = false) (h1 : isOneSN c x = false)
    (h2 : fdig - 1 < x.prec * c.ed ∧ 0 < fdig - 1) (h3 : x.prec * c.ed ≤ (fdig - 1) * 2) :
    calcInv c est fdig x = { (invStep c (fdig - 1) (est { x with neg := false }) { x with neg := false }).1 with neg := x.neg, prec := x.prec } := by
  have e : invLoop c (x.prec * c.ed) (fdig - 1) (est { x with neg := false }) { x with neg := false } = (invStep c (fdig - 1) (est { x with neg := false }) { x with neg := false }).1 := by
    rw [invLoop, dif_pos h2, invLoop, dif_neg (by omega)]
  unfold calcInv
  rw [if_neg (by rw [h0]; simp), if_neg (by rw [h1]; simp)]
  simp only [e]

/-- 1/97 with `double`. -/
theorem inv97 : calcInv exC12 (estInv exC12 exDouble) exDouble.digits10 (ex12 97 false) =
    { data := [1, 3, 9, 27, 83, 50, 51, 54, 63], exp := -2, neg := false, prec := 9 } := by
  rw [← exDoubleK_eq, calcInv_one_step _ _ _ _ (by decide) (by decide) (by decide) (by decide)]
  decide +kernel

/-- C49 (finding F43). With 8-bit limbs the remainder of an exact multiple can come out as the divisor: 873 = 9·97, but
    `fmod(873, 97)` is 97 for `decwide_t<12, uint8_t, …, double>`. -/
theorem fmod_u8_wrong : (ex12 873 false).val exC12 = 873 ∧ (ex12 97 false).val exC12 = 97 ∧ Full exC12 (ex12 873 false) ∧ Full exC12 (ex12 97 false) ∧
    fmod exC12 (estInv exC12 exDouble) exDouble.digits10 (ex12 873 false) (ex12 97 false) = ex12 97 false := by
  have h1 : exC12.N = 9 := by decide
  have h2 : exC12.ed = 2 := by decide
  have h3 : exC12.B = 100 := by decide
  refine ⟨?_, ?_, by decide, by decide, ?_⟩
  · simp only [DW.val, ex12, h1, h2, h3]; norm_num [limbsVal]
  · simp only [DW.val, ex12, h1, h2, h3]; norm_num [limbsVal]
  · unfold fmod divAssign
    rw [if_neg (by decide), inv97]
    decide +kernel

/-- Zero times y keeps the exponent of y. -/
theorem mulAssign_zero_exp' {c : Cfg} {x y : DW} (hy : Full c y) (hz : x.isZero = true) (hy1 : isOneSN c y = false)
    (hok : MulOk c c.N) (hlo : -(c.maxExp : ℤ) < y.exp) (hhi : y.exp < c.maxExp) : (mulAssign c x y).exp = y.exp := by
  have hz0 : (zero c).isZero = true := (zero_WF c).toWF.isZero_iff.mpr (zero_val c)
  have h1 : isOneSN c { zero c with neg := false } = false := isOneSN_zero c _ hz0
  unfold mulAssign
  have hz' : x.isZero = true ∨ y.isZero = true := Or.inl hz
  simp only [hz', if_true, h1, hy1, Bool.false_eq_true, if_false]
  have he : (zero c).exp = 0 := rfl
  rw [if_neg (by rw [he]; omega), if_neg (by rw [he]; omega)]
  have hp : min (zero c).prec y.prec = c.N := by rw [(zero_WF c).full, hy.full, Nat.min_self]
  rw [hp]
  have hu : WF c { zero c with neg := false, exp := (zero c).exp + y.exp } :=
    ⟨(zero_WF c).len, (zero_WF c).valid, by rw [he, zero_add]; exact hy.dvd, (zero_WF c).prec2, (zero_WF c).precN, (zero_WF c).lead⟩
  obtain ⟨-, -, q3, -⟩ := mulDispatch_zero hu hy.len hy.valid ((zero_WF c).lead (by simpa [isZero] using hz0)) (le_refl _) hok
  show (mulDispatch c c.N { zero c with neg := false, exp := (zero c).exp + y.exp } y).exp = y.exp
  rw [q3]; show (zero c).exp + y.exp = y.exp
  rw [he, zero_add]

theorem mulAssign_zero_neg {c : Cfg} {x y : DW} (hz : x.isZero = true) : (mulAssign c x y).neg = y.neg := by
  unfold mulAssign
  have hz' : x.isZero = true ∨ y.isZero = true := Or.inl hz
  simp only [hz', if_true]
  show ((zero c).neg != y.neg) = y.neg
  have : (zero c).neg = false := rfl
  rw [this]; cases y.neg <;> rfl

set_option maxHeartbeats 1000000 in
/-- The quotient 0/v: a zero that carries the sign and the exponent of 1/v. -/
theorem div_zero_num {c : Cfg} {F : Flt} (h : DivOk c F) {u v : DW} (hu : Full c u) (hv : Full c v) (hu0 : u.val c = 0) {b s : ℤ}
    (hb : v.val c = b * 10 ^ s) (hb0 : b ≠ 0) (hb2 : |b| < 10 ^ (c.digits10 - 2)) (hs : |s| + c.digits10 + 5 * c.ed < c.maxExp)
    (hoff : ∀ k : ℤ, |v.val c| ≠ 10 ^ ((c.ed : ℤ) * k)) :
    let q := divAssign c (estInv c F) F.digits10 u v
    Full c q ∧ q.isZero = true ∧ q.neg = v.neg ∧ (2 ≤ |v.val c| → q.exp < 0) := by
  intro q
  have hed := two_le_ed c
  have hd := h.hd
  have hsb := abs_le.mp (show |s| ≤ (c.maxExp : ℤ) - c.digits10 - 5 * c.ed - 1 by omega)
  have hcast : ((c.digits10 - 2 : ℕ) : ℤ) = (c.digits10 : ℤ) - 2 := by omega
  obtain ⟨v1, v2, hv0⟩ := exp_of_decimal hv.toWF hb0 hb hb2
  rw [hcast] at v2
  have huz := hu.toWF.isZero_iff.mpr hu0
  have hvz := isZero_false_of_val hv.toWF hv0
  have hvp := abs_pos.mpr hv0
  obtain ⟨q1, q2, q3, q4⟩ := calcInv_any h.hF h.hK hv hvz h.hok h.hok.1 (by omega) (by omega) (by omega)
  have hcond : ¬ (u.exp = v.exp ∧ compareRanges u.data v.data = 0) := by
    rintro ⟨-, hc⟩
    have := compareRanges_spec c.B u.data v.data (by rw [hu.len, hv.len]) hu.valid hv.valid
    rw [hc] at this
    have hdata : limbsVal c.B u.data = limbsVal c.B v.data := by
      unfold cmp3 at this
      split_ifs at this with h1 h2
      · exact h2
      · omega
    have h1 := hu.toWF.isZero_iff_mant.mp huz
    have h2 : v.isZero = true := hv.toWF.isZero_iff_mant.mpr (by unfold mant at h1 ⊢; rw [← hdata]; exact h1)
    rw [hvz] at h2; exact absurd h2 (by simp)
  have hq : q = mulAssign c u (calcInv c (estInv c F) F.digits10 v) := by
    show divAssign c (estInv c F) F.digits10 u v = _
    unfold divAssign; rw [if_neg hcond]
  generalize hw : calcInv c (estInv c F) F.digits10 v = w at *
  have hη := eta_N_digits c
  have hη0 := eta_pos c c.N
  have hη4 := eta_N_le c
  have hwf : Full c w := by
    rcases q1 with q1 | ⟨q1, -⟩
    · exact q1
    · exfalso
      obtain ⟨k, hk⟩ := q1.dvd
      have ha := q1.abs_val
      rw [hk, ← mul_add_one] at ha
      rw [ha, mul_comm] at q4
      have hvb : |v.val c| * 10 ^ ((c.ed : ℤ) * (k + 1)) = |(b : ℚ)| * 10 ^ (s + (c.ed : ℤ) * (k + 1)) := by
        rw [hb, abs_mul, abs_of_pos (p10_pos s), mul_assoc, ← zpow_add₀ (by norm_num)]
      have hnp := near_power hb2 (n := s + (c.ed : ℤ) * (k + 1)) (by
        rw [← hvb]
        refine lt_of_le_of_lt q4 ?_
        have h1 : 44 / 10 * eta c c.N ≤ 44 / 10 * (1 / 10 ^ (c.digits10 + 2 * c.ed)) := by linarith
        refine lt_of_le_of_lt h1 ?_
        rw [mul_one_div, div_lt_div_iff₀ (by positivity) (by positivity)]
        have : (44 / 10 : ℚ) * 10 ^ (c.digits10 - 2) < 10 ^ (c.digits10 - 2 + 1) := by
          rw [pow_succ]; have : (0 : ℚ) < 10 ^ (c.digits10 - 2) := by positivity
          linarith
        rw [one_mul]
        exact this.trans_le (pow_le_pow_right₀ (by norm_num) (by omega)))
      rw [← hvb] at hnp
      apply hoff (-(k + 1))
      rw [mul_neg, zpow_neg]
      exact eq_inv_of_mul_eq_one_left hnp
  have hwb := abs_le.mp q4
  have e1 := hwf.toWF.abs_ge q2
  have e2 := hwf.toWF.abs_lt
  have e3 := hv.toWF.abs_ge hvz
  have e4 := hv.toWF.abs_lt
  have ex1 : w.exp + v.exp ≤ 0 := by
    by_contra hc
    have : (10 : ℚ) ^ (1 : ℤ) ≤ 10 ^ (w.exp + v.exp) := zpow_le_zpow_right₀ (by norm_num) (by omega)
    rw [zpow_add₀ (by norm_num)] at this
    have h := mul_le_mul e1 e3 (p10_pos _).le (abs_nonneg _)
    norm_num at this; linarith [hwb.2]
  have ex2 : 0 ≤ w.exp + v.exp + 2 * c.ed := by
    by_contra hc
    have : (10 : ℚ) ^ (w.exp + c.ed + (v.exp + c.ed)) ≤ 10 ^ (-1 : ℤ) := zpow_le_zpow_right₀ (by norm_num) (by omega)
    rw [zpow_add₀ (by norm_num)] at this
    have h := mul_le_mul e2.le e4.le (abs_nonneg _) (p10_pos _).le
    norm_num at this; linarith [hwb.1]
  obtain ⟨m1, m2⟩ := mulAssign_zero hu hwf (Or.inl huz) h.mulOk (by omega) (by omega)
  rw [hq]
  refine ⟨m2, m2.toWF.isZero_iff.mpr m1, by rw [mulAssign_zero_neg huz, q3], ?_⟩
  intro h2
  have hwlt : |w.val c| < 6 / 10 := by
    have := mul_le_mul_of_nonneg_left h2 (abs_nonneg (w.val c))
    linarith [hwb.2]
  have hone : isOneSN c w = false := by
    cases ho : isOneSN c w
    · rfl
    · exfalso
      rcases isOneSN_spec hwf.toWF ho with ⟨g, -⟩ | ⟨g, -⟩
      · linarith
      · have := nearOne_gt (c := c)
        norm_num at this
        linarith
  rw [mulAssign_zero_exp' hwf huz hone h.mulOk (by omega) (by omega)]
  by_contra hc
  have : (10 : ℚ) ^ (0 : ℤ) ≤ 10 ^ w.exp := zpow_le_zpow_right₀ (by norm_num) (by omega)
  rw [zpow_zero] at this
  linarith

theorem isInt_zero {c : Cfg} {q : DW} (h : q.isZero = true) (he : 0 ≤ q.exp) : isInt c q = true := by
  unfold isInt; rw [if_neg (by omega), h]; simp

/-- C49. `fmod(0, v)` is 0 for positive v (not a power of the radix). -/
theorem fmod_zero_partial (c : Cfg) (F : Flt) (h : DivOk c F) (u v : DW) (hu : Full c u) (hv : Full c v) (b s : ℤ) (hu0 : u.val c = 0)
    (hun : u.neg = false) (hb : v.val c = b * 10 ^ s) (hb0 : 0 < b) (hb2 : |b| < 10 ^ (c.digits10 - 2))
    (hs : |s| + c.digits10 + 5 * c.ed < c.maxExp) (hoff : ∀ k : ℤ, |v.val c| ≠ 10 ^ ((c.ed : ℤ) * k)) :
    (fmod c (estInv c F) F.digits10 u v).val c = 0 := by
  obtain ⟨q1, q2, q3, -⟩ := div_zero_num h hu hv hu0 hb (by omega) hb2 hs hoff
  have hg : c.ed ≤ c.digits10 + 4 := by have := ed_le8 c; have := h.hd; omega
  have hvpos : 0 < v.val c := by rw [hb]; exact mul_pos (by exact_mod_cast hb0) (p10_pos s)
  have hvn : v.neg = false := by
    cases hx : v.neg
    · rfl
    · have := (isNeg_iff (c := c) (u := v) hvpos.ne').mp hx; linarith
  have hfl : (floor c (divAssign c (estInv c F) F.digits10 u v)).val c = (0 : ℤ) := by
    unfold floor
    simp only [roundSelf_zero q2]
    split
    · rename_i hi
      simp only [isNeg, q3, hvn, Bool.false_eq_true, if_false]
      have he : (divAssign c (estInv c F) F.digits10 u v).exp < 0 := by
        by_contra hc
        rw [isInt_zero q2 (by omega)] at hi
        simp at hi
      unfold integerPart
      rw [if_pos he, zero_val]; simp
    · rw [q1.toWF.isZero_iff.mp q2]; simp
  unfold fmod
  simp only [isNeg, hun, Bool.false_eq_true, if_false]
  have h0 : |(0 : ℤ)| < 10 ^ (c.digits10 - 2) := by rw [abs_zero]; positivity
  rw [fmod_tail h hu hv (floor_closed q1 hg).1 (a := 0) (by rw [hu0]; simp) hb (by omega) h0 hb2 hs hfl (by
    rw [zero_mul, abs_zero]; positivity)]
  simp

/-- C49 (finding F44). `fmod(0, v)` is v instead of 0 for every v ≤ -2 (not a power of the radix): the quotient is a zero with
    negative exponent and a minus sign, which `floor` takes to -1. -/
theorem fmod_zero_negative (c : Cfg) (F : Flt) (h : DivOk c F) (u v : DW) (hu : Full c u) (hv : Full c v) (b s : ℤ) (hu0 : u.val c = 0)
    (hun : u.neg = false) (hb : v.val c = b * 10 ^ s) (hb0 : v.val c ≤ -2) (hb2 : |b| < 10 ^ (c.digits10 - 2))
    (hs : |s| + c.digits10 + 5 * c.ed < c.maxExp) (hoff : ∀ k : ℤ, |v.val c| ≠ 10 ^ ((c.ed : ℤ) * k)) :
    (fmod c (estInv c F) F.digits10 u v).val c = v.val c := by
  have hbn : b ≠ 0 := by
    intro h0; rw [hb, h0] at hb0; norm_num at hb0
  obtain ⟨q1, q2, q3, q4⟩ := div_zero_num h hu hv hu0 hb hbn hb2 hs hoff
  have he := q4 (by rw [abs_of_neg (by linarith)]; linarith)
  have hg : c.ed ≤ c.digits10 + 4 := by have := ed_le8 c; have := h.hd; omega
  have hd := h.hd
  have hvn : v.neg = true := (isNeg_iff (c := c) (u := v) (by linarith)).mpr (by linarith)
  have hfl : (floor c (divAssign c (estInv c F) F.digits10 u v)).val c = (-1 : ℤ) := by
    unfold floor
    have hi : isInt c (divAssign c (estInv c F) F.digits10 u v) = false := by unfold isInt; rw [if_pos he]
    simp only [roundSelf_zero q2, hi, isNeg, q3, hvn, Bool.not_false, if_true]
    have hsub : subAssign c (divAssign c (estInv c F) F.digits10 u v) (one c) = (one c).negate := by
      unfold subAssign
      rw [show negate (divAssign c (estInv c F) F.digits10 u v) = divAssign c (estInv c F) F.digits10 u v by unfold negate; rw [if_pos q2],
        addAssign_zero_left q2]
    have hoz : (one c).isZero = false := isZero_false_of_val (one_full c).toWF (by rw [one_val]; norm_num)
    have hexp : (one c).negate.exp = 0 := by unfold negate; rw [hoz]; rfl
    rw [hsub, integerPart_val (negate_full (one_full c)).toWF (by rw [hexp]; omega), negate_val c (one_full c).toWF, one_val]
    unfold truncQ
    norm_num
  unfold fmod
  simp only [isNeg, hun, Bool.false_eq_true, if_false]
  have h0 : |(0 : ℤ)| < 10 ^ (c.digits10 - 2) := by rw [abs_zero]; positivity
  have hlt : (10 : ℤ) ^ (c.digits10 - 2) ≤ 10 ^ (c.digits10 - 1) := pow_le_pow_right₀ (by norm_num) (by omega)
  rw [fmod_tail h hu hv (floor_closed q1 hg).1 (a := 0) (by rw [hu0]; simp) hb hbn h0 hb2 hs hfl (by
    rw [neg_one_mul, abs_neg]; linarith), hb]
  push_cast; ring

theorem exC12_ok : DivOk exC12 exDouble := ⟨FloatOk.double ⟨rfl, rfl, rfl⟩, by decide, by decide, by decide⟩

theorem ex12_val (n : Nat) (neg : Bool) (h : n < 100) : (ex12 n neg).val exC12 = ((if neg then -(n : ℤ) else n : ℤ) : ℚ) * 10 ^ (0 : ℤ) := by
  have h1 : exC12.N = 9 := by decide
  have h2 : exC12.ed = 2 := by decide
  have h3 : exC12.B = 100 := by decide
  simp only [DW.val, ex12, h1, h2, h3, h, if_true]
  cases neg <;> norm_num [limbsVal] <;> ring

/-- No integer 2 ≤ n < 100 is a power of 100. -/
theorem ex12_off (n : Nat) (neg : Bool) (h2 : 2 ≤ n) (h : n < 100) : ∀ k : ℤ, |(ex12 n neg).val exC12| ≠ 10 ^ ((exC12.ed : ℤ) * k) := by
  intro k hk
  have ha : |(ex12 n neg).val exC12| = n := by rw [ex12_val n neg h]; cases neg <;> simp
  rw [ha] at hk
  have he : exC12.ed = 2 := by decide
  rw [he] at hk
  rcases le_or_gt k 0 with h0 | h0
  · have : (10 : ℚ) ^ (((2 : ℕ) : ℤ) * k) ≤ 10 ^ (0 : ℤ) := zpow_le_zpow_right₀ (by norm_num) (by push_cast; omega)
    rw [← hk] at this
    have h3 : (2 : ℚ) ≤ n := by exact_mod_cast h2
    norm_num at this; linarith
  · have : (10 : ℚ) ^ (2 : ℤ) ≤ 10 ^ (((2 : ℕ) : ℤ) * k) := zpow_le_zpow_right₀ (by norm_num) (by push_cast; omega)
    rw [← hk] at this
    have h3 : (n : ℚ) < 100 := by exact_mod_cast h
    norm_num at this; linarith

/-- `fmod(17, 5)` is 2, `fmod(5, -3)` is -1 (should be 2), `fmod(0, 7)` is 0, `fmod(0, -2)` is -2 (should be 0). -/
example : (fmod exC12 (estInv exC12 exDouble) exDouble.digits10 (ex12 17 false) (ex12 5 false)).val exC12 = 2 ∧
    (fmod exC12 (estInv exC12 exDouble) exDouble.digits10 (ex12 5 false) (ex12 3 true)).val exC12 = -1 ∧
    (fmod exC12 (estInv exC12 exDouble) exDouble.digits10 (ex12 0 false) (ex12 7 false)).val exC12 = 0 ∧
    (fmod exC12 (estInv exC12 exDouble) exDouble.digits10 (ex12 0 false) (ex12 2 true)).val exC12 = -2 := by
  have hd : exC12.digits10 = 12 := rfl
  have he : exC12.ed = 2 := by decide
  have hm : exC12.maxExp = 64 := rfl
  refine ⟨?_, ?_, ?_, ?_⟩
  · rw [fmod_exact_partial exC12 exDouble exC12_ok _ _ (by decide) (by decide) 17 5 0 (ex12_val 17 false (by decide)) (ex12_val 5 false (by decide))
      (by decide) (by decide) (by rw [hd]; decide) (by rw [hd]; decide) (by rw [hd, he, hm]; decide)
      (fun _ => ex12_off 5 false (by decide) (by decide)) (fun _ => by decide)]
    norm_num [show (17 : ℤ).tmod 5 = 2 by decide]
  · rw [fmod_negative_divisor exC12 exDouble exC12_ok _ _ (by decide) (by decide) 5 (-3) 0 (ex12_val 5 false (by decide)) (ex12_val 3 true (by decide))
      (by decide) (by rw [hd]; decide) (by rw [hd]; decide) (by rw [hd, he, hm]; decide)
      (fun _ => ex12_off 3 true (by decide) (by decide)) (by decide)]
    norm_num [show (5 : ℤ).tmod (-3) = 2 by decide]
  · exact fmod_zero_partial exC12 exDouble exC12_ok _ _ (by decide) (by decide) 7 0 (by rw [ex12_val 0 false (by decide)]; simp) rfl
      (ex12_val 7 false (by decide)) (by decide) (by rw [hd]; decide) (by rw [hd, he, hm]; decide) (ex12_off 7 false (by decide) (by decide))
  · rw [fmod_zero_negative exC12 exDouble exC12_ok _ _ (by decide) (by decide) (-2) 0 (by rw [ex12_val 0 false (by decide)]; simp) rfl
      (ex12_val 2 true (by decide)) (by rw [ex12_val 2 true (by decide)]; norm_num) (by rw [hd]; decide) (by rw [hd, he, hm]; decide)
      (ex12_off 2 true (by decide) (by decide)), ex12_val 2 true (by decide)]
    norm_num

end WD
