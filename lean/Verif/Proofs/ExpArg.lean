import Verif.Proofs.ExpLoop
import Verif.Proofs.Extract2
import Verif.Proofs.Near
import Verif.Props.Start
import Verif.Props.Inv2
/-
  The argument reduction of `exp`: x = n·ln2 + 2048·xh up to a small error, with |xh| < 1/2900.
-/
namespace WD
open DW

/-- What the configuration must satisfy for the theorems about elementary functions. -/
structure ElemOk (c : Cfg) (F : Flt) : Prop where
  hF : FloatOk c F
  hK : digitLoops c F ≤ c.N
  hok : MulOkAll c
  hE : (c.ed : ℤ) ∣ c.maxExp
  lo : 16 ≤ c.digits10
  hR : c.ed * (c.N + 5) + 10 < c.maxExp
  hB : c.digits10 / 3 + 6 < c.B

theorem ed_le8 (c : Cfg) : c.ed ≤ 8 := by unfold Cfg.ed; cases c.L <;> decide
theorem two_le_ed (c : Cfg) : 2 ≤ c.ed := by unfold Cfg.ed; cases c.L <;> decide

/-- The number of digits is bounded by the size at which the code switches to the FFT. -/
theorem ElemOk.hi {c : Cfg} {F : Flt} (h : ElemOk c F) : c.digits10 ≤ 14312 := by
  have h1 := c.digits_le
  have h2 := h.hok.1
  have h3 := ed_le8 c
  have h4 := two_le_ed c
  have h5 : c.ed * (c.N - 1) ≤ c.ed * 1791 := Nat.mul_le_mul_left _ (by omega)
  omega

theorem ElemOk.mulOk {c : Cfg} {F : Flt} (h : ElemOk c F) : MulOk c c.N :=
  h.hok.ok (by have := c.three_le_N; omega) (le_refl _)

theorem ElemOk.hM {c : Cfg} {F : Flt} (h : ElemOk c F) : c.digits10 + 2 * c.ed + 10 ≤ c.maxExp := by
  have h1 := c.digits_le
  have h2 := h.hR
  have : c.ed * (c.N + 5) = c.ed * c.N + 5 * c.ed := by ring
  have h3 : c.ed * (c.N - 1) ≤ c.ed * c.N := Nat.mul_le_mul_left _ (by omega)
  omega

/-- One unit of the digits10-th digit. -/
def epsD (c : Cfg) : ℚ := 10 ^ (-(c.digits10 : ℤ))

theorem epsD_pos (c : Cfg) : 0 < epsD c := p10_pos _

theorem epsD_le {c : Cfg} (h : 16 ≤ c.digits10) : epsD c ≤ 1 / 10 ^ 16 := by
  unfold epsD
  rw [one_div, ← zpow_natCast, ← zpow_neg]
  exact zpow_le_zpow_right₀ (by norm_num) (by push_cast; omega)

theorem mulEps_le_epsD (c : Cfg) : mulEps c ≤ epsD c / 10 ^ 4 := by
  unfold mulEps epsD
  have : (10 : ℚ) ^ (-(c.digits10 : ℤ)) / 10 ^ 4 = 1 / 10 ^ (c.digits10 + 4) := by
    rw [zpow_neg, zpow_natCast, pow_add]; field_simp
  rw [this]
  apply one_div_le_one_div_of_le (by positivity)
  exact pow_le_pow_right₀ (by norm_num) (by have := two_le_ed c; omega)

theorem flushC_le {c : Cfg} (h : c.digits10 + 2 * c.ed + 10 ≤ c.maxExp) : flushC c ≤ epsD c / 10 ^ 10 := by
  unfold flushC epsD
  have : (10 : ℚ) ^ (-(c.digits10 : ℤ)) / 10 ^ 10 = 10 ^ (-(c.digits10 : ℤ) - 10) := by
    rw [zpow_sub₀ (by norm_num)]; norm_num
  rw [this]
  exact zpow_le_zpow_right₀ (by norm_num) (by push_cast at *; omega)

theorem neg_of_pos {c : Cfg} {x : DW} (h : 0 < x.val c) : x.neg = false := by
  rcases Bool.dichotomy x.neg with hn | hn
  · exact hn
  · have := val_sgn c x
    rw [hn] at this
    simp only [if_true, neg_one_mul] at this
    have := abs_nonneg (x.val c)
    linarith

/-- Range of the exponent of a difference. -/
theorem sub_range {c : Cfg} {u v : DW} (hu : Full c u) (hv : Full c v) (hu0 : u.val c ≠ 0) :
    ((subAssign c u v).val c ≠ 0 → u.exp - c.ed * (c.N : ℤ) < (subAssign c u v).exp) ∧
    ((subAssign c u v).val c = 0 → (subAssign c u v).exp = 0) := by
  have huz := isZero_false_of_val hu.toWF hu0
  have hed := c.ed_pos
  have h3 := c.three_le_N
  have hpos : (0 : ℤ) < c.ed * (c.N : ℤ) := by positivity
  have hnu : Full c u.negate := negate_full hu
  have hnue : u.negate.exp = u.exp := by unfold negate; split <;> rfl
  have hnuz : u.negate.isZero = false := isZero_false_of_val hnu.toWF (by rw [negate_val c hu.toWF]; simpa using hu0)
  have hse : (subAssign c u v).exp = (addAssign c u.negate v).exp := by
    unfold subAssign; generalize addAssign c u.negate v = w; unfold negate; split <;> rfl
  have hsv : (subAssign c u v).val c = 0 ↔ (addAssign c u.negate v).val c = 0 := by rw [subAssign_val hu hv, neg_eq_zero]
  rw [hse, Ne, hsv]
  have hfull := addAssign_full hnu hv
  rcases Bool.dichotomy v.isZero with hvz | hvz
  · have hp : c.N = min u.negate.prec v.prec := by rw [hnu.full, hv.full, min_self]
    rcases add_near hnu.toWF hv.toWF hnuz hvz hp (fun h => absurd h (lt_irrefl _)) with ⟨a, b, d, e, f⟩ | ⟨a, b, -⟩
    · have hne : (addAssign c u.negate v).val c ≠ 0 := by
        intro h; have := a.isZero_iff.mpr h; rw [b] at this; simp at this
      refine ⟨fun _ => ?_, fun h => absurd h hne⟩
      have h1 := lt_of_le_of_lt e a.abs_lt
      rw [zpow_lt_zpow_iff_right₀ (by norm_num), hnue] at h1
      have : u.exp ≤ max u.exp v.exp := le_max_left _ _
      have e2 : (c.ed : ℤ) * ((c.N : ℤ) - 1) = c.ed * (c.N : ℤ) - c.ed := by ring
      omega
    · have hz := hfull.toWF.isZero_iff.mp a
      exact ⟨fun h => absurd hz h, fun _ => b⟩
  · have : addAssign c u.negate v = u.negate := by unfold addAssign; simp [hnuz, hvz]
    rw [this, hnue]
    refine ⟨fun _ => by omega, fun h => ?_⟩
    rw [negate_val c hu.toWF, neg_eq_zero] at h
    exact absurd h hu0

/-- 2048 is not just above a power of the radix of 8-bit limbs; a number near 0.69 never is. -/
theorem offRadix_ln2 {c : Cfg} {F : Flt} {q : ℚ} (h1 : 6 / 10 ≤ q) (h2 : q < 1) : OffRadix c F q := by
  intro k ⟨a, b⟩
  have hB : (100 : ℚ) ≤ c.B := by
    have : 100 ≤ c.B := by unfold Cfg.B; cases c.L <;> decide
    exact_mod_cast this
  have hp : (1 : ℚ) / 10 ^ (F.digits10 - 1) ≤ 1 := by
    rw [div_le_one (by positivity)]; exact one_le_pow₀ (by norm_num)
  rcases le_or_gt 0 k with h | h
  · have : (1 : ℚ) ≤ (c.B : ℚ) ^ k := one_le_zpow₀ (by linarith) h
    linarith
  · have h3 : (c.B : ℚ) ^ k ≤ (c.B : ℚ) ^ (-1 : ℤ) := zpow_le_zpow_right₀ (by linarith) (by omega)
    have h4 : (c.B : ℚ) ^ (-1 : ℤ) ≤ 1 / 100 := by
      rw [zpow_neg_one, one_div]; exact inv_anti₀ (by norm_num) hB
    have h5 : (0 : ℚ) < (c.B : ℚ) ^ k := by positivity
    nlinarith

theorem offRadix_2048 {c : Cfg} {F : Flt} (hB : c.B ≤ 2048) : OffRadix c F 2048 := by
  have hB : c.B = 100 := by
    unfold Cfg.B at *
    cases h : c.L <;> rw [h] at hB
    · rfl
    · exact absurd hB (by decide)
    · exact absurd hB (by decide)
  intro k ⟨a, b⟩
  rw [hB] at a b
  push_cast at a b
  have hp : (1 : ℚ) / 10 ^ (F.digits10 - 1) ≤ 1 := by
    rw [div_le_one (by positivity)]; exact one_le_pow₀ (by norm_num)
  rcases le_or_gt k 1 with h | h
  · have h3 : (100 : ℚ) ^ k ≤ (100 : ℚ) ^ (1 : ℤ) := zpow_le_zpow_right₀ (by norm_num) h
    have h5 : (0 : ℚ) < (100 : ℚ) ^ k := by positivity
    norm_num at h3
    nlinarith
  · have h3 : (100 : ℚ) ^ (2 : ℤ) ≤ (100 : ℚ) ^ k := zpow_le_zpow_right₀ (by norm_num) (by omega)
    norm_num at h3
    linarith

/-- Division by 2048. -/
theorem div2048 {c : Cfg} {F : Flt} (h : ElemOk c F) {s : DW} (hs : Full c s) (hlo : s.val c ≠ 0 → -(c.maxExp : ℤ) + 4 * c.ed + 10 < s.exp)
    (hhi : |s.val c| < 1) (hz0 : s.val c = 0 → s.exp = 0) :
    let v := divULL c (estInv c F) F.digits10 s 2048
    Full c v ∧ |v.val c - s.val c / 2048| ≤ 2 * epsD c * (|s.val c| / 2048) + flushC c ∧
    -(c.maxExp : ℤ) < v.exp ∧ v.exp < c.maxExp := by
  intro v
  have h8 := ed_le8 c
  have h2 := two_le_ed c
  have hM := h.hM
  have hφ := flushC_pos c
  have hε := epsD_pos c
  have hε1 := epsD_le h.lo
  have hexp : ∀ r : DW, Full c r → |r.val c - s.val c / 2048| ≤ 2 * epsD c * (|s.val c| / 2048) + flushC c → s.val c ≠ 0 →
      -(c.maxExp : ℤ) < r.exp ∧ r.exp < c.maxExp := by
    intro r hr h1 hs0
    have hlo := hlo hs0
    have hsz := isZero_false_of_val hs.toWF hs0
    have s1 := hs.toWF.abs_ge hsz
    have s2 : (10 : ℚ) ^ (-(c.maxExp : ℤ) + 2 * c.ed + 9) ≤ 10 ^ s.exp := zpow_le_zpow_right₀ (by norm_num) (by omega)
    have s3 : (10 : ℚ) ^ (-(c.maxExp : ℤ) + 2 * c.ed + 9) = flushC c * 10 ^ 9 := by
      unfold flushC; rw [zpow_add₀ (by norm_num : (10 : ℚ) ≠ 0) _ 9]; norm_num
    rw [s3] at s2
    have a1 := abs_sub_abs_le_abs_sub (s.val c / 2048) (r.val c)
    rw [abs_sub_comm, abs_div, abs_of_pos (show (0 : ℚ) < 2048 by norm_num)] at a1
    have a4 : epsD c * (|s.val c| / 2048) ≤ 1 / 10 ^ 16 * (|s.val c| / 2048) := mul_le_mul_of_nonneg_right hε1 (by positivity)
    have a5 : |s.val c| / 4096 ≤ |r.val c| := by norm_num at a4 ⊢; linarith
    have hr0 : r.val c ≠ 0 := by
      intro h0; rw [h0, abs_zero] at a5
      have := abs_pos.mpr hs0
      linarith
    have hrz := isZero_false_of_val hr.toWF hr0
    have b1 := hr.toWF.abs_ge hrz
    have b2 := hr.toWF.abs_lt
    have a6 := abs_sub_abs_le_abs_sub (r.val c) (s.val c / 2048)
    rw [abs_div, abs_of_pos (show (0 : ℚ) < 2048 by norm_num)] at a6
    constructor
    · have : (10 : ℚ) ^ (s.exp - 4) < 10 ^ (r.exp + (c.ed : ℤ)) := by
        rw [zpow_sub₀ (by norm_num)]
        refine lt_of_le_of_lt ?_ b2
        norm_num; linarith
      rw [zpow_lt_zpow_iff_right₀ (by norm_num)] at this
      omega
    · have : (10 : ℚ) ^ r.exp < 10 ^ (1 : ℤ) := by
        refine lt_of_le_of_lt b1 ?_
        norm_num at a4 ⊢
        linarith
      rw [zpow_lt_zpow_iff_right₀ (by norm_num)] at this
      omega
  by_cases hs0 : s.val c = 0
  · obtain ⟨d1, d2⟩ := divULL_zero (est := estInv c F) (fdig := F.digits10) hs hs0 (show 0 < 2048 by norm_num)
    have hz := hs.toWF.isZero_iff.mpr hs0
    have he : v.exp = 0 := by
      show (divULL c (estInv c F) F.digits10 s 2048).exp = 0
      unfold divULL
      rw [if_neg (by norm_num), if_pos hz]
      exact hz0 hs0
    refine ⟨d1, ?_, by rw [he]; omega, by rw [he]; omega⟩
    rw [d2, hs0]; simp; exact hφ.le
  · suffices hv : Full c v ∧ |v.val c - s.val c / 2048| ≤ 2 * epsD c * (|s.val c| / 2048) + flushC c from
      ⟨hv.1, hv.2, hexp v hv.1 hv.2 hs0⟩
    by_cases hB : 2048 < c.B
    · have := divU_op (est := estInv c F) (fdig := F.digits10) hs (show 0 < 2048 by norm_num) hB (by have := h.lo; omega)
      exact this
    · have hsz := isZero_false_of_val hs.toWF hs0
      have hv : v = divAssign c (estInv c F) F.digits10 s (ofUnsigned c 64 2048) := by
        show divULL c (estInv c F) F.digits10 s 2048 = _
        unfold divULL
        rw [if_neg (by norm_num), if_neg (by rw [hsz]; simp), if_pos (by omega)]
      have hcap : 2048 < 10 ^ (c.ed * c.N) := by
        calc 2048 < 10 ^ 4 := by norm_num
          _ ≤ _ := Nat.pow_le_pow_right (by norm_num) (by have := c.three_le_N; nlinarith)
      obtain ⟨o1, o2, o3, o4, -⟩ := ofU64_divisor (c := c) (show 0 < 2048 by norm_num) (by norm_num) hcap
      have hlo := hlo hs0
      have hse : s.exp < 1 := by
        have := lt_of_le_of_lt (hs.toWF.abs_ge hsz) hhi
        rw [← zpow_zero (10 : ℚ), zpow_lt_zpow_iff_right₀ (by norm_num)] at this
        omega
      have o5 : (ofUnsigned c 64 2048).exp ≤ 3 := by
        have h1 := o1.toWF.abs_ge (isZero_false_of_val o1.toWF (by rw [o2]; norm_num))
        rw [o2] at h1
        have : (10 : ℚ) ^ (ofUnsigned c 64 2048).exp < 10 ^ (4 : ℤ) := lt_of_le_of_lt h1 (by norm_num)
        rw [zpow_lt_zpow_iff_right₀ (by norm_num)] at this
        omega
      obtain ⟨q1, q2, q3, q4⟩ := div_accuracy_float_partial c F h.hF h.hK s (ofUnsigned c 64 2048) hs o1 hs0 (by rw [o2]; norm_num) h.hok
        (by have := h.lo; omega) (by have := h.lo; omega) (by have := h.lo; omega) (by omega) (by omega)
        (by rw [o2]; norm_num; exact offRadix_2048 (by omega))
      rw [← hv] at q1 q4
      rw [o2] at q4
      refine ⟨q1, ?_⟩
      have e : |s.val c / ((2048 : ℕ) : ℚ)| = |s.val c| / 2048 := by rw [abs_div]; norm_num
      rw [e] at q4
      push_cast at q4
      have hμ := mulEps_le_epsD c
      have e2 : (6 : ℚ) / 10 ^ (c.digits10 + 2 * c.ed) = 6 * mulEps c := by unfold mulEps; ring
      rw [e2] at q4
      have hP : 0 ≤ |s.val c| / 2048 := by positivity
      have : |s.val c| / 2048 * (6 * mulEps c) ≤ |s.val c| / 2048 * (2 * epsD c) := by
        apply mul_le_mul_of_nonneg_left _ hP
        norm_num at hμ; linarith
      linarith

theorem precision_full {c : Cfg} {x : DW} (hx : Full c x) : precision c x ((c.N * c.ed : ℕ) : ℤ) = x := by
  have hed := c.ed_pos
  have h3 := c.three_le_N
  have : (precision c x ((c.N * c.ed : ℕ) : ℤ)).prec = c.N := by
    unfold precision
    have e1 : ((c.N * c.ed : ℕ) : ℤ).tdiv c.ed = c.N := by
      push_cast; exact Int.mul_tdiv_cancel _ (by omega)
    have e2 : ((c.N * c.ed : ℕ) : ℤ).tmod c.ed = 0 := by
      push_cast; exact Int.mul_tmod_left _ _
    simp only [e1, e2]
    simp; try omega
  have hp := hx.full
  have h' : precision c x ((c.N * c.ed : ℕ) : ℤ) = { x with prec := (precision c x ((c.N * c.ed : ℕ) : ℤ)).prec } := rfl
  rw [h', this, ← hp]

theorem mulU_op {c : Cfg} {x : DW} (hx : Full c x) (hx0 : x.val c ≠ 0) {n : ℕ} (hn : n < 2 ^ 64) (hcap : n < c.B ^ c.N)
    (hok : MulOk c c.N) (hlo : -(c.maxExp : ℤ) < x.exp) (hhi : x.exp + orderOf n < c.maxExp) :
    Full c (mulULL c x n) ∧ |(mulULL c x n).val c - x.val c * n| ≤ 2 * mulEps c * (|x.val c| * n) := by
  obtain ⟨h1, h2, -, h4, -⟩ := mul_unsigned_error c x hx n hn hcap hok hlo hhi
  refine ⟨h2, ?_⟩
  rcases Nat.eq_zero_or_pos n with h0 | h0
  · rw [h4 h0, zero_val, h0]; simp
  · have hz := isZero_false_of_val hx.toWF hx0
    obtain ⟨-, z, -⟩ := mulULL_spec hx hz h0 hn hcap hok hlo hhi
    have hu := Full.ulp_le h2.toWF z
    have hp : (0 : ℚ) < 10 ^ (c.digits10 + 2 * c.ed) := by positivity
    have hu' : (mulULL c x n).ulp c ≤ mulEps c * |(mulULL c x n).val c| := by
      unfold mulEps; rw [one_div, inv_mul_eq_div, le_div_iff₀ hp]; exact hu
    have hμ := mulEps_pos c
    have hμ1 := mulEps_lt c
    have h3 : |(mulULL c x n).val c| ≤ |x.val c * n| + |(mulULL c x n).val c - x.val c * n| := by
      have := abs_add_le (x.val c * n) ((mulULL c x n).val c - x.val c * n)
      simpa using this
    rw [abs_mul, Nat.abs_cast] at h3
    have hP : 0 ≤ |x.val c| * n := by positivity
    have hD := abs_nonneg ((mulULL c x n).val c - x.val c * n)
    generalize |(mulULL c x n).val c| = R at *
    generalize |(mulULL c x n).val c - x.val c * n| = D at *
    generalize |x.val c| * n = P at *
    have h5 : mulEps c * R ≤ mulEps c * (P + D) := mul_le_mul_of_nonneg_left h3 hμ.le
    have h6 : mulEps c * D ≤ 1 / 100 * D := mul_le_mul_of_nonneg_right hμ1 hD
    nlinarith

theorem ten_cap {c : Cfg} {n : ℕ} (h : n < 10 ^ 12) (hd : 16 ≤ c.digits10) : n < c.B ^ c.N := by
  have : c.B ^ c.N = 10 ^ (c.ed * c.N) := by rw [c.B_eq, pow_mul]
  rw [this]
  exact lt_of_lt_of_le h (Nat.pow_le_pow_right (by norm_num) (by
    have := c.digits_le
    have h3 : c.ed * (c.N - 1) ≤ c.ed * c.N := Nat.mul_le_mul_left _ (by omega)
    omega))

theorem orderOf_le {n k : ℕ} (h : n < 10 ^ k) (hk : 1 ≤ k) : orderOf n ≤ k := by
  obtain ⟨-, h2, h3⟩ := orderOf_digits n
  rcases Nat.eq_zero_or_pos n with h0 | h0
  · have := orderOf_digits n
    rw [h0]; unfold orderOf; simpa using hk
  · have := lt_of_le_of_lt (h2 h0) h
    rw [Nat.pow_lt_pow_iff_right (by norm_num)] at this
    omega

theorem ln2_exp {c : Cfg} {l : DW} (hl : Full c l) (h1 : 69 / 100 ≤ l.val c) (h2 : l.val c ≤ 7 / 10) : l.exp = -(c.ed : ℤ) := by
  have hz := isZero_false_of_val hl.toWF (by intro h; rw [h] at h1; norm_num at h1)
  have a1 := hl.toWF.abs_ge hz
  have a2 := hl.toWF.abs_lt
  rw [abs_of_pos (by linarith)] at a1 a2
  have b1 : (10 : ℚ) ^ l.exp < 10 ^ (0 : ℤ) := by rw [zpow_zero]; linarith
  have b2 : (10 : ℚ) ^ (-1 : ℤ) < 10 ^ (l.exp + (c.ed : ℤ)) := by
    rw [zpow_neg_one]; refine lt_of_le_of_lt ?_ a2; norm_num; linarith
  rw [zpow_lt_zpow_iff_right₀ (by norm_num)] at b1 b2
  obtain ⟨k, hk⟩ := hl.dvd
  have hed := c.ed_pos
  rw [hk] at b1 b2 ⊢
  have : k = -1 := by
    have : k < 0 := by by_contra h; push Not at h; have : 0 ≤ (c.ed : ℤ) * k := by positivity
                       omega
    have : -1 ≤ k := by
      by_contra h; push Not at h
      have : (c.ed : ℤ) * (k + 2) ≤ 0 := mul_nonpos_of_nonneg_of_nonpos (by omega) (by omega)
      have e : (c.ed : ℤ) * (k + 2) = c.ed * k + 2 * c.ed := by ring
      omega
    omega
  rw [this]; ring

/-- The real arithmetic of the argument reduction. -/
theorem arg_real {x l q n nl s v μ ε φ δ : ℚ} (hx0 : 0 < x) (hx : x ≤ 297 * 10 ^ 7) (hl1 : 693 / 1000 ≤ l) (hl2 : l ≤ 6934 / 10000)
    (hμ0 : 0 ≤ μ) (hμ : μ ≤ 1 / 10 ^ 20) (hε0 : 0 ≤ ε) (hε : ε ≤ 1 / 10 ^ 16) (hφ0 : 0 ≤ φ) (hφ : φ ≤ ε / 10 ^ 10) (hδ0 : 0 ≤ δ)
    (hδ : δ ≤ 2 / 10 ^ 19)
    (hq : |q - x / l| ≤ x / l * (6 * μ)) (hn0 : 0 ≤ n) (hn1 : n ≤ q + q * δ) (hn2 : q < n + 1 + q * δ)
    (hnl : |nl - l * n| ≤ 2 * μ * (l * n)) (hs : |s - (x - nl)| ≤ μ * (x + |nl|))
    (hv : |v - s / 2048| ≤ 2 * ε * (|s| / 2048) + φ) :
    n ≤ 2 ^ 32 - 1 ∧ |s| < 3 / 4 ∧ |v| ≤ 1 / 2900 ∧ |2048 * v - (x - n * l)| ≤ 2 * ε + 5 * μ * x ∧
    n * l ≤ x + x * (3 / 10 ^ 19) := by
  have hl0 : 0 < l := by linarith
  set y := x / l with hy
  have hxy : x = y * l := by rw [hy]; field_simp
  have hy0 : 0 < y := by positivity
  have hy1 : y ≤ 42858 * 10 ^ 5 := by rw [hy, div_le_iff₀ hl0]; nlinarith
  have hq' := abs_le.mp hq
  have h6 : y * (6 * μ) ≤ y * (6 / 10 ^ 20) := mul_le_mul_of_nonneg_left (by norm_num at hμ ⊢; linarith) hy0.le
  have hq0 : 0 ≤ q := by norm_num at h6; nlinarith
  have hqδ : q * δ ≤ q * (2 / 10 ^ 19) := mul_le_mul_of_nonneg_left hδ hq0
  have e1 : n ≤ y + y * (3 / 10 ^ 19) := by norm_num at h6 hqδ ⊢; linarith
  have e2 : y < n + 1 + y * (3 / 10 ^ 19) := by norm_num at h6 hqδ ⊢; linarith
  have r0 : n ≤ 2 ^ 32 - 1 := by norm_num at e1 ⊢; linarith
  have f1 : n * l ≤ x + x * (3 / 10 ^ 19) := by
    have := mul_le_mul_of_nonneg_right e1 hl0.le
    rw [hxy]; linarith
  have f2 : x < n * l + l + x * (3 / 10 ^ 19) := by
    have := mul_lt_mul_of_pos_right e2 hl0
    rw [hxy]; linarith
  have hnl0 : 0 ≤ n * l := by positivity
  have hnl' := abs_le.mp hnl
  have g1 : μ * (n * l) ≤ μ * (x * (1 + 3 / 10 ^ 19)) := mul_le_mul_of_nonneg_left (by linarith) hμ0
  have hμx : 0 ≤ μ * x := by positivity
  have hanl : |nl| ≤ n * l + 2 * μ * (n * l) := by
    rw [abs_le]; constructor <;> nlinarith
  have g2 : μ * |nl| ≤ μ * (n * l + 2 * μ * (n * l)) := mul_le_mul_of_nonneg_left hanl hμ0
  have g3 : μ * (2 * μ * (n * l)) ≤ 1 / 10 ^ 20 * (2 * μ * (n * l)) := mul_le_mul_of_nonneg_right hμ (by positivity)
  have hs' := abs_le.mp hs
  have hd : |s - (x - n * l)| ≤ 5 * μ * x := by
    norm_num at g1 g2 g3
    rw [abs_le]; constructor <;> nlinarith
  have hd' := abs_le.mp hd
  have k1 : μ * x ≤ 1 / 10 ^ 20 * x := mul_le_mul_of_nonneg_right hμ hx0.le
  have hsb : |s| ≤ 701 / 1000 := by
    norm_num at k1 f1 f2 hx
    rw [abs_le]; constructor <;> linarith
  have k2 : ε * (|s| / 2048) ≤ ε * (701 / 1000 / 2048) := mul_le_mul_of_nonneg_left (by linarith) hε0
  have hv' := abs_le.mp hv
  have hsb' := abs_le.mp hsb
  refine ⟨r0, by linarith, ?_, ?_, f1⟩
  · norm_num at k2 hε hφ
    rw [abs_le]; constructor <;> linarith
  · norm_num at k2 hε hφ
    rw [abs_le]; constructor <;> linarith

set_option maxHeartbeats 1000000 in
theorem expArg_spec {c : Cfg} {F : Flt} (h : ElemOk c F) {xx l : DW} (hx : Full c xx) (hl : Full c l) (hx0 : 0 < xx.val c)
    (hx1 : xx.val c ≤ 297 * 10 ^ 7) (hlo : -(c.maxExp : ℤ) + 4 * c.ed + 10 < xx.exp) (hl1 : 693 / 1000 ≤ l.val c) (hl2 : l.val c ≤ 6934 / 10000) :
    let n := expN c (estInv c F) F.digits10 l xx
    let z := expArg c (estInv c F) F.digits10 l xx c.N
    n < 2 ^ 32 ∧ (xx.val c ≤ 148 * 10 ^ 7 → n < 2 ^ 31) ∧ (149 * 10 ^ 7 ≤ xx.val c → 2 ^ 31 ≤ n) ∧ Full c z ∧ -(c.maxExp : ℤ) < z.exp ∧ z.exp < c.maxExp ∧ |z.val c| ≤ 1 / 2900 ∧
    |2048 * z.val c - (xx.val c - n * l.val c)| ≤ 2 * epsD c + 5 * mulEps c * xx.val c ∧
    n * l.val c ≤ xx.val c + xx.val c * (3 / 10 ^ 19) := by
  intro n z
  have h8 := ed_le8 c
  have h2 := two_le_ed c
  have hM := h.hM
  have hR := h.hR
  have hε := epsD_pos c
  have hε1 := epsD_le h.lo
  have hμ := mulEps_pos c
  have hμ1 := mulEps_le_epsD c
  have hφ := flushC_pos c
  have hφ1 := flushC_le hM
  have hle := ln2_exp hl (by linarith) (by linarith)
  have hxe : xx.exp < 10 := by
    have := hx.toWF.abs_ge (isZero_false_of_val hx.toWF hx0.ne')
    rw [abs_of_pos hx0] at this
    have : (10 : ℚ) ^ xx.exp < 10 ^ (10 : ℤ) := by
      refine lt_of_le_of_lt (le_trans this hx1) ?_; norm_num
    rwa [zpow_lt_zpow_iff_right₀ (by norm_num)] at this
  obtain ⟨q1, q2, q3, q4⟩ := div_accuracy_float_partial c F h.hF h.hK xx l hx hl hx0.ne' (by linarith) h.hok
    (by omega) (by omega) (by omega) (by omega) (by omega) (by rw [abs_of_pos (by linarith)]; exact offRadix_ln2 (by linarith) (by linarith))
  set q := divAssign c (estInv c F) F.digits10 xx l with hq
  have hxl : 0 < xx.val c / l.val c := div_pos hx0 (by linarith)
  have hqpos : 0 < q.val c := by
    rcases lt_trichotomy (q.val c) 0 with h' | h' | h'
    · have := q3.mp h'; linarith
    · exact absurd h' q2
    · exact h'
  rw [abs_of_pos hxl] at q4
  have e6 : (6 : ℚ) / 10 ^ (c.digits10 + 2 * c.ed) = 6 * mulEps c := by unfold mulEps; ring
  rw [e6] at q4
  have hμ2 : mulEps c ≤ 1 / 10 ^ 20 := by norm_num at hμ1 hε1 ⊢; linarith
  have hy1 : xx.val c / l.val c ≤ 42858 * 10 ^ 5 := by rw [div_le_iff₀ (by linarith)]; nlinarith
  have hq63 : q.val c < 2 ^ 63 := by
    have := (abs_le.mp q4.le).2
    have k : xx.val c / l.val c * (6 * mulEps c) ≤ xx.val c / l.val c * (6 / 10 ^ 20) :=
      mul_le_mul_of_nonneg_left (by norm_num at hμ2 ⊢; linarith) hxl.le
    norm_num at k ⊢; linarith
  obtain ⟨t1, t2⟩ := toULL_near q1.toWF h.lo (neg_of_pos hqpos) hq63
  set n0 := toULL c q with hn0
  have hδ : (2 : ℚ) / 10 ^ (c.digits10 + 3) ≤ 2 / 10 ^ 19 := by
    apply div_le_div_of_nonneg_left (by norm_num) (by positivity)
    exact pow_le_pow_right₀ (by norm_num) (by have := h.lo; omega)
  have hδ0 : (0 : ℚ) ≤ 2 / 10 ^ (c.digits10 + 3) := by positivity
  generalize (2 : ℚ) / 10 ^ (c.digits10 + 3) = δ at *
  -- the conversion to 32 bits keeps the value
  have hn32 : (n0 : ℚ) ≤ 2 ^ 32 - 1 := by
    have k : xx.val c / l.val c * (6 * mulEps c) ≤ xx.val c / l.val c * (6 / 10 ^ 20) :=
      mul_le_mul_of_nonneg_left (by norm_num at hμ2 ⊢; linarith) hxl.le
    have := (abs_le.mp q4.le).2
    have k2 : q.val c * δ ≤ q.val c * (2 / 10 ^ 19) := mul_le_mul_of_nonneg_left hδ hqpos.le
    have e : (2 : ℚ) ^ 32 - 1 = 4294967295 := by norm_num
    rw [e]
    norm_num at k k2 hy1
    linarith
  have hn32' : n0 < 2 ^ 32 := by
    have : (n0 : ℚ) < 2 ^ 32 := by linarith
    exact_mod_cast this
  have hnn : n = n0 := by
    show toULL c q % 2 ^ 32 = n0
    rw [← hn0]; exact Nat.mod_eq_of_lt (by omega)
  obtain ⟨m1, m2⟩ := mulU_op (n := n0) hl (by linarith) (by omega) (ten_cap (by norm_num at hn32' ⊢; omega) h.lo) h.mulOk (by rw [hle]; omega)
    (by rw [hle]; have := orderOf_le (n := n0) (k := 10) (by omega) (by norm_num); omega)
  rw [abs_of_pos (by linarith : 0 < l.val c)] at m2
  obtain ⟨s1, s2, s3⟩ := sub_op hx m1
  rw [abs_of_pos hx0] at s2
  obtain ⟨sr1, sr2⟩ := sub_range hx m1 hx0.ne'
  set nl := mulULL c l n0 with hnl
  set s := subAssign c xx nl with hs
  -- first without v
  have hsb := (arg_real (v := s.val c / 2048) hx0 hx1 hl1 hl2 hμ.le hμ2 hε.le hε1 hφ.le hφ1 hδ0 hδ q4.le (Nat.cast_nonneg _) t1 t2 m2 s2
    (by rw [sub_self, abs_zero]; positivity)).2.1
  have hlo' : s.val c ≠ 0 → -(c.maxExp : ℤ) + 4 * c.ed + 10 < s.exp := by
    intro hs0
    rcases Nat.eq_zero_or_pos n0 with hz | hz
    · have hnlz : nl = zero c := by
        rw [hnl]
        exact (mul_unsigned_error c l hl n0 (by omega) (ten_cap (by norm_num at hn32' ⊢; omega) h.lo) h.mulOk (by rw [hle]; omega)
          (by rw [hle]; have := orderOf_le (n := n0) (k := 10) (by omega) (by norm_num); omega)).2.2.2.1 hz
      have hsx : s.val c = xx.val c := s3 (by rw [hnlz, zero_val])
      have a1 := s1.toWF.abs_lt
      rw [hsx] at a1
      have a2 := lt_of_le_of_lt (hx.toWF.abs_ge (isZero_false_of_val hx.toWF hx0.ne')) a1
      have b1 := s1.toWF.abs_ge (isZero_false_of_val s1.toWF hs0)
      have b2 := hx.toWF.abs_lt
      rw [hsx] at b1
      have b3 := lt_of_le_of_lt b1 b2
      rw [zpow_lt_zpow_iff_right₀ (by norm_num)] at a2 b3
      obtain ⟨k, hk⟩ := s1.dvd
      obtain ⟨j, hj⟩ := hx.dvd
      have hed := c.ed_pos
      have : k = j := by
        rw [hk, hj] at a2 b3
        have e1 : (c.ed : ℤ) * j < c.ed * (k + 1) := by linarith [mul_add (c.ed : ℤ) k 1]
        have e2 : (c.ed : ℤ) * k < c.ed * (j + 1) := by linarith [mul_add (c.ed : ℤ) j 1]
        have := lt_of_mul_lt_mul_left e1 (by omega)
        have := lt_of_mul_lt_mul_left e2 (by omega)
        omega
      rw [hk, this, ← hj]; exact hlo
    · have := sr1 hs0
      have hx69 : (1 : ℚ) / 2 < xx.val c := by
        have hn1 : (1 : ℚ) ≤ n0 := by exact_mod_cast hz
        have k : xx.val c / l.val c * (6 * mulEps c) ≤ xx.val c / l.val c * (6 / 10 ^ 20) :=
          mul_le_mul_of_nonneg_left (by norm_num at hμ2 ⊢; linarith) hxl.le
        have := (abs_le.mp q4.le).2
        have k2 : q.val c * δ ≤ q.val c * (2 / 10 ^ 19) := mul_le_mul_of_nonneg_left hδ hqpos.le
        have : 9 / 10 < xx.val c / l.val c := by norm_num at k k2; linarith
        rw [lt_div_iff₀ (by linarith)] at this
        linarith
      have hxe' : -(c.ed : ℤ) ≤ xx.exp := by
        have a := hx.toWF.abs_lt
        rw [abs_of_pos hx0] at a
        have : (10 : ℚ) ^ (-1 : ℤ) < 10 ^ (xx.exp + (c.ed : ℤ)) := by
          refine lt_of_le_of_lt ?_ a; norm_num; linarith
        rw [zpow_lt_zpow_iff_right₀ (by norm_num)] at this
        omega
      have e : ((c.ed * (c.N + 5) : ℕ) : ℤ) = c.ed * (c.N : ℤ) + 5 * c.ed := by push_cast; ring
      have : ((c.ed * (c.N + 5) : ℕ) : ℤ) + 10 < c.maxExp := by exact_mod_cast hR
      omega
  obtain ⟨v1, v2, v3, v4⟩ := div2048 h s1 hlo' (by linarith) sr2
  have hz : z = divULL c (estInv c F) F.digits10 s 2048 := by
    show precision c (divULL c (estInv c F) F.digits10 (subAssign c xx (mulULL c l n)) 2048) (c.N * c.ed : ℕ) = _
    rw [hnn]; exact precision_full v1
  obtain ⟨w1, w2, w3, w4, wf⟩ := arg_real hx0 hx1 hl1 hl2 hμ.le hμ2 hε.le hε1 hφ.le hφ1 hδ0 hδ q4.le (Nat.cast_nonneg _) t1 t2 m2 s2 v2
  rw [hz, hnn]
  have w5 := abs_le.mp w3
  have w6 := abs_le.mp w4
  have w7 : mulEps c * xx.val c ≤ 1 / 10 ^ 20 * (297 * 10 ^ 7) := mul_le_mul hμ2 hx1 hx0.le (by norm_num)
  refine ⟨hn32', ?_, ?_, v1, v3, v4, w3, w4, wf⟩
  · intro hb
    have : (n0 : ℚ) * (693 / 1000) ≤ n0 * l.val c := mul_le_mul_of_nonneg_left hl1 (Nat.cast_nonneg _)
    have : (n0 : ℚ) < 2147483648 := by
      clear hn32 hn32' m2 s2 v2 t1 t2 q4 hy1 hq63 hsb w1 w2
      norm_num at w7 hb hε1
      linarith [w5.1, w5.2, w6.1, w6.2]
    exact_mod_cast this
  · intro hb
    have : (n0 : ℚ) * l.val c ≤ n0 * (6934 / 10000) := mul_le_mul_of_nonneg_left hl2 (Nat.cast_nonneg _)
    have : (2147483648 : ℚ) ≤ n0 := by
      clear hn32 hn32' m2 s2 v2 t1 t2 q4 hy1 hq63 hsb w1 w2
      norm_num at w7 hb hε1
      linarith [w5.1, w5.2, w6.1, w6.2]
    exact_mod_cast this

end WD
