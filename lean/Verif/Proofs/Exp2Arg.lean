import Verif.Proofs.Exp2
import Verif.Spec.Exp
import Verif.Props.FloatOut
import Verif.Props.FloatConv
/-
  `exp` above 2000 digits: the reduced argument and the start value.
-/
namespace WD
open DW

/-- What the configuration must satisfy for the theorems about `exp` above 2000 digits. -/
structure Exp2Ok (c : Cfg) (F : Flt) : Prop where
  hF : F.IsFloat ∨ F.IsDouble
  hK : digitLoops c F ≤ c.N
  hok : MulOkAll c
  lo : 16 ≤ c.digits10
  hR : c.ed * (c.N + 5) + 10 < c.maxExp

theorem Exp2Ok.mulOk {c : Cfg} {F : Flt} (h : Exp2Ok c F) : MulOk c c.N :=
  h.hok.ok (by have := c.three_le_N; omega) (le_refl _)

theorem Exp2Ok.hM {c : Cfg} {F : Flt} (h : Exp2Ok c F) : c.digits10 + 2 * c.ed + 10 ≤ c.maxExp := by
  have h1 := c.digits_le
  have h2 := h.hR
  have : c.ed * (c.N + 5) = c.ed * c.N + 5 * c.ed := by ring
  have h3 : c.ed * (c.N - 1) ≤ c.ed * c.N := Nat.mul_le_mul_left _ (by omega)
  omega

set_option maxHeartbeats 1000000 in
/-- The reduced argument. -/
theorem exp2Arg_spec {c : Cfg} {F : Flt} (h : Exp2Ok c F) {xx l : DW} (hx : Full c xx) (hl : Full c l) (hx0 : 0 < xx.val c)
    (hx1 : xx.val c ≤ 148 * 10 ^ 7) (hlo : -(c.maxExp : ℤ) + 4 * c.ed + 10 < xx.exp) (hl1 : 693 / 1000 ≤ l.val c) (hl2 : l.val c ≤ 6934 / 10000) :
    let n := expN c (estInv c F) F.digits10 l xx
    let z := exp2Arg c (estInv c F) F.digits10 l xx
    n < 2 ^ 31 ∧ Full c z ∧ |z.val c| < 3 / 4 ∧ |z.val c - (xx.val c - n * l.val c)| ≤ 5 * mulEps c * xx.val c ∧
    (z.val c ≠ 0 → xx.exp - c.ed * (c.N : ℤ) < z.exp) ∧ (z.val c = 0 → z.exp = 0) := by
  intro n z
  have h8 := ed_le8 c
  have h2 := two_le_ed c
  have hM := h.hM
  have hR := h.hR
  have hε := epsD_pos c
  have hε1 := epsD_le h.lo
  have hμ := mulEps_pos c
  have hμ1 := mulEps_le_epsD c
  have hle := ln2_exp hl (by linarith) (by linarith)
  have hxe : xx.exp < 10 := by
    have := hx.toWF.abs_ge (isZero_false_of_val hx.toWF hx0.ne')
    rw [abs_of_pos hx0] at this
    have : (10 : ℚ) ^ xx.exp < 10 ^ (10 : ℤ) := by
      refine lt_of_le_of_lt (le_trans this hx1) ?_; norm_num
    rwa [zpow_lt_zpow_iff_right₀ (by norm_num)] at this
  obtain ⟨q1, q2, q3, q4⟩ := div_accuracy_float_partial c F (FloatOk.of h.hF) h.hK xx l hx hl hx0.ne' (by linarith) h.hok
    (by omega) (by omega) (by omega) (by omega) (by omega) (by rw [abs_of_pos (by linarith)]; exact offRadix_ln2 (by linarith) (by linarith))
  set q := divAssign c (estInv c F) F.digits10 xx l with hq
  have hxl : 0 < xx.val c / l.val c := div_pos hx0 (by linarith)
  have hqpos : 0 < q.val c := by
    rcases lt_trichotomy (q.val c) 0 with h' | h' | h'
    · have := q3.mp h'; linarith
    · exact absurd h' q2
    · exact h'
  rw [abs_of_pos hxl] at q4
  have e6 : (6 : ℚ) / 10 ^ (c.digits10 + 2 * c.ed) = 6 * mulEps c := by unfold mulEps; ring
  rw [e6] at q4
  have hμ2 : mulEps c ≤ 1 / 10 ^ 20 := by norm_num at hμ1 hε1 ⊢; linarith
  have hy1 : xx.val c / l.val c ≤ 2136 * 10 ^ 6 := by rw [div_le_iff₀ (by linarith)]; nlinarith
  have hq63 : q.val c < 2 ^ 63 := by
    have := (abs_le.mp q4.le).2
    have k : xx.val c / l.val c * (6 * mulEps c) ≤ xx.val c / l.val c * (6 / 10 ^ 20) :=
      mul_le_mul_of_nonneg_left (by norm_num at hμ2 ⊢; linarith) hxl.le
    norm_num at k ⊢; linarith
  obtain ⟨t1, t2⟩ := toULL_near q1.toWF h.lo (neg_of_pos hqpos) hq63
  set n0 := toULL c q with hn0
  have hδ : (2 : ℚ) / 10 ^ (c.digits10 + 3) ≤ 2 / 10 ^ 19 := by
    apply div_le_div_of_nonneg_left (by norm_num) (by positivity)
    exact pow_le_pow_right₀ (by norm_num) (by have := h.lo; omega)
  have hδ0 : (0 : ℚ) ≤ 2 / 10 ^ (c.digits10 + 3) := by positivity
  generalize (2 : ℚ) / 10 ^ (c.digits10 + 3) = δ at *
  have hn31 : n0 < 2 ^ 31 := by
    have k : xx.val c / l.val c * (6 * mulEps c) ≤ xx.val c / l.val c * (6 / 10 ^ 20) :=
      mul_le_mul_of_nonneg_left (by norm_num at hμ2 ⊢; linarith) hxl.le
    have := (abs_le.mp q4.le).2
    have k2 : q.val c * δ ≤ q.val c * (2 / 10 ^ 19) := mul_le_mul_of_nonneg_left hδ hqpos.le
    have : (n0 : ℚ) < 2147483648 := by
      norm_num at k k2 hy1
      linarith
    have e : (2 : ℕ) ^ 31 = 2147483648 := by norm_num
    rw [e]; exact_mod_cast this
  have hnn : n = n0 := by
    show toULL c q % 2 ^ 32 = n0
    rw [← hn0]; exact Nat.mod_eq_of_lt (by omega)
  obtain ⟨m1, m2⟩ := mulU_op (n := n0) hl (by linarith) (by omega) (ten_cap (by norm_num at hn31 ⊢; omega) h.lo) h.mulOk (by rw [hle]; omega)
    (by rw [hle]; have := orderOf_le (n := n0) (k := 10) (by omega) (by norm_num); omega)
  rw [abs_of_pos (by linarith : 0 < l.val c)] at m2
  obtain ⟨s1, s2, s3⟩ := sub_op hx m1
  rw [abs_of_pos hx0] at s2
  obtain ⟨sr1, sr2⟩ := sub_range hx m1 hx0.ne'
  have hz : z = subAssign c xx (mulULL c l n0) := by
    show subAssign c xx (mulULL c l n) = _
    rw [hnn]
  rw [← hz] at s1 s2 s3 sr1 sr2
  obtain ⟨-, w2, -, w4, -⟩ := arg_real (v := z.val c / 2048) (ε := 0) (φ := 0) hx0 (by linarith) hl1 hl2 hμ.le hμ2 le_rfl (by norm_num) le_rfl (by norm_num) hδ0 hδ q4.le
    (Nat.cast_nonneg _) t1 t2 m2 s2 (by simp)
  rw [hnn]
  refine ⟨hn31, s1, w2, ?_, sr1, sr2⟩
  rw [mul_div_cancel₀ _ (by norm_num : (2048 : ℚ) ≠ 0)] at w4
  linarith

theorem repF_normal {p : ℕ} (hp : 1 ≤ p) {f : ℚ} (hf : RepF p f) (h0 : 0 < f) : ∃ (m : ℕ) (k : ℤ), 2 ^ (p - 1) ≤ m ∧ m < 2 ^ p ∧ f = m * (2 : ℚ) ^ k := by
  obtain ⟨M, k, hM, rfl⟩ := hf
  have hMp : 0 < M := by
    by_contra hc
    have : (M : ℚ) ≤ 0 := by exact_mod_cast not_lt.mp hc
    have : (M : ℚ) * 2 ^ k ≤ 0 := mul_nonpos_of_nonpos_of_nonneg this (by positivity)
    linarith
  obtain ⟨m, rfl⟩ := Int.eq_ofNat_of_zero_le hMp.le
  rw [abs_of_pos hMp] at hM
  have hM' : m ≤ 2 ^ p := by exact_mod_cast hM
  have hm : 0 < m := by exact_mod_cast hMp
  clear hM h0 hMp
  have hpp : (2 : ℕ) ^ p = 2 * 2 ^ (p - 1) := by rw [← pow_succ']; congr 1; omega
  -- up
  have key : ∀ (d m : ℕ) (k : ℤ), 2 ^ (p - 1) ≤ m + d → 0 < m → m < 2 ^ p → ∃ (m' : ℕ) (k' : ℤ), 2 ^ (p - 1) ≤ m' ∧ m' < 2 ^ p ∧ (m : ℚ) * (2 : ℚ) ^ k = m' * (2 : ℚ) ^ k' := by
    intro d
    induction d with
    | zero => intro m k h1 h2 h3; exact ⟨m, k, by omega, h3, rfl⟩
    | succ d ih =>
      intro m k h1 h2 h3
      by_cases hc : 2 ^ (p - 1) ≤ m
      · exact ⟨m, k, hc, h3, rfl⟩
      · obtain ⟨m', k', a, b, e⟩ := ih (2 * m) (k - 1) (by omega) (by omega) (by omega)
        refine ⟨m', k', a, b, ?_⟩
        rw [← e, zpow_sub₀ (by norm_num)]; push_cast; ring
  rcases Nat.lt_or_ge m (2 ^ p) with h | h
  · obtain ⟨m', k', a, b, e⟩ := key (2 ^ (p - 1)) m k (by omega) hm h
    exact ⟨m', k', a, b, by rw [← e]; push_cast; rfl⟩
  · have : m = 2 ^ p := by omega
    have hpos : 0 < 2 ^ (p - 1) := by positivity
    refine ⟨2 ^ (p - 1), k + 1, le_rfl, by omega, ?_⟩
    rw [this, hpp, zpow_add₀ (by norm_num)]; push_cast; ring

theorem u_val {F : Flt} (hF : F.IsFloat ∨ F.IsDouble) : (0 : ℝ) < (2 : ℝ) ^ (-(F.p : ℤ)) ∧ (2 : ℝ) ^ (-(F.p : ℤ)) ≤ 1 / 10 ^ 7 ∧
    9 * (2 : ℝ) ^ (-(F.p : ℤ)) + 4 / 10 ^ F.maxDigits10 + 1 / 10 ^ 17 ≤ 1 / 2 * (1 / 10 ^ (F.digits10 - 1)) := by
  refine ⟨by positivity, ?_⟩
  rcases hF with ⟨h1, h2, h3⟩ | ⟨h1, h2, h3⟩ <;> rw [h1, h2, h3] <;> norm_num

theorem three_roundings {v a b r D' D U u : ℚ} (hv : 0 < v) (hD : D' ≤ D) (hD0 : 0 < D) (hD1 : D ≤ 1 / 10 ^ 9) (hU0 : 0 < U) (hU : U ≤ u) (hu : u ≤ 1 / 10 ^ 7)
    (h1 : |v - a| ≤ v * D') (h2 : |a - b| ≤ |a| * U) (h3 : |b - r| ≤ |b| * u) : 0 ≤ a ∧ |v - r| ≤ (3 * u + 4 * D) * v := by
  have h1' : |v - a| ≤ v * D := h1.trans (mul_le_mul_of_nonneg_left hD hv.le)
  obtain ⟨a1, a2⟩ := abs_le.mp h1'
  have k1 : v * D ≤ v * (1 / 10 ^ 9) := mul_le_mul_of_nonneg_left hD1 hv.le
  have a0 : 0 ≤ a := by norm_num at k1; linarith
  refine ⟨a0, ?_⟩
  have hu0 : 0 < u := by linarith
  rw [abs_of_nonneg a0] at h2
  have h2' : |a - b| ≤ a * u := h2.trans (mul_le_mul_of_nonneg_left hU a0)
  obtain ⟨b1, b2⟩ := abs_le.mp h2'
  have k2 : a * u ≤ a * (1 / 10 ^ 7) := mul_le_mul_of_nonneg_left hu a0
  have ha : a ≤ 11 / 10 * v := by norm_num at k1; linarith
  have b0 : 0 ≤ b := by norm_num at k2; linarith
  have hb : b ≤ 13 / 10 * v := by norm_num at k2; linarith
  rw [abs_of_nonneg b0] at h3
  obtain ⟨c1, c2⟩ := abs_le.mp h3
  have m1 : a * u ≤ 11 / 10 * v * u := mul_le_mul_of_nonneg_right ha hu0.le
  have m2 : b * u ≤ 13 / 10 * v * u := mul_le_mul_of_nonneg_right hb hu0.le
  have m3 : 0 < v * u := by positivity
  have m4 : 0 < v * D := by positivity
  rw [abs_le]; constructor <;> linarith

set_option maxHeartbeats 1000000 in
/-- The start value. -/
theorem exp2Start_spec {c : Cfg} {F X : Flt} (h : Exp2Ok c F) (hX1 : F.p ≤ X.p) (hX2 : F.maxDigits10 ≤ X.maxDigits10) {minN : ℚ} (hmin : minN ≤ 1 / 2)
    {ef : ℚ → ℚ} (hef : F.IsExp ef) {ew : ℕ} (hew : 2 ≤ ew) {z : DW} (hz : Full c z) (hz0 : 0 ≤ z.val c) (hz1 : z.val c < 3 / 4)
    (hze : z.exp.natAbs < 10 ^ (ew - 1)) :
    ∃ y, exp2Start c (estInv c F) F.digits10 X F minN ef ew z = some y ∧ Full c y ∧ 0 < y.val c ∧
      |Real.log (y.val c) - z.val c| ≤ 1 / 2 * (1 / 10 ^ (F.digits10 - 1)) := by
  have hp24 : 24 ≤ F.p ∧ F.p ≤ 53 := by rcases h.hF with h | h <;> rw [h.1] <;> omega
  obtain ⟨u0, u1, u2⟩ := u_val h.hF
  set u : ℝ := (2 : ℝ) ^ (-(F.p : ℤ)) with hu
  -- the conversion to floating point
  have hq : ∃ q, toFloat c X F ew z = some q ∧ RepF F.p q ∧ 0 ≤ q ∧ |(z.val c : ℝ) - q| ≤ (3 * u + 4 / 10 ^ F.maxDigits10) * z.val c := by
    by_cases hv : z.val c = 0
    · refine ⟨0, (to_float_zero c X F ew z hz.toWF hv hew hze).2, ⟨0, 0, by simp, by simp⟩, le_rfl, ?_⟩
      rw [hv]; simp
    · obtain ⟨s, s1, s2⟩ := ld_text_close X.maxDigits10 hz.toWF hv hew hze
      have hzp : 0 < z.val c := lt_of_le_of_ne hz0 (Ne.symm hv)
      rw [abs_of_pos hzp] at s2
      have hmd : (1 : ℚ) / 10 ^ X.maxDigits10 ≤ 1 / 10 ^ F.maxDigits10 :=
        one_div_le_one_div_of_le (by positivity) (pow_le_pow_right₀ (by norm_num) hX2)
      have hmd1 : (1 : ℚ) / 10 ^ F.maxDigits10 ≤ 1 / 10 ^ 9 := by
        apply one_div_le_one_div_of_le (by positivity)
        apply pow_le_pow_right₀ (by norm_num)
        rcases h.hF with h | h <;> rw [h.2.2] <;> omega
      have hmd0 : (0 : ℚ) < 1 / 10 ^ F.maxDigits10 := by positivity
      have e1 := X.rnd_err (by omega) (scanDec s)
      have e2 := F.rnd_err (by omega) (X.rnd (scanDec s))
      have hXu : X.u ≤ F.u := by
        unfold Flt.u
        exact zpow_le_zpow_right₀ (by norm_num) (by omega)
      have hFu : F.u ≤ 1 / 10 ^ 7 := by
        have : ((F.u : ℚ) : ℝ) ≤ ((1 / 10 ^ 7 : ℚ) : ℝ) := by unfold Flt.u; push_cast; exact u1
        exact_mod_cast this
      have hXu0 := X.u_pos
      have hFu0 := F.u_pos
      rw [div_eq_mul_one_div] at s2
      obtain ⟨p1, p2⟩ := three_roundings hzp hmd hmd0 hmd1 hXu0 hXu hFu s2 e1 e2
      refine ⟨F.rnd (X.rnd (scanDec s)), by rw [toFloat, toLongDouble, s1]; rfl, F.rep _, F.rnd_nonneg (X.rnd_nonneg p1), ?_⟩
      have := (Rat.cast_le (K := ℝ)).mpr p2
      unfold Flt.u at this
      push_cast at this
      rw [← hu] at this
      refine this.trans (le_of_eq ?_)
      ring
  obtain ⟨q, q1, q2, q3, q4⟩ := hq
  have hzR0 : (0 : ℝ) ≤ z.val c := by exact_mod_cast hz0
  have hzR1 : (z.val c : ℝ) ≤ 3 / 4 := by
    have := (Rat.cast_le (K := ℝ)).mpr hz1.le; push_cast at this; exact this
  have hD9 : (4 : ℝ) / 10 ^ F.maxDigits10 ≤ 4 / 10 ^ 9 := by
    apply div_le_div_of_nonneg_left (by norm_num) (by positivity)
    apply pow_le_pow_right₀ (by norm_num)
    rcases h.hF with h | h <;> rw [h.2.2] <;> omega
  have hD0 : (0 : ℝ) < 4 / 10 ^ F.maxDigits10 := by positivity
  generalize hDd : (4 : ℝ) / 10 ^ F.maxDigits10 = D at *
  have q4' : |(z.val c : ℝ) - q| ≤ (3 * u + D) * (3 / 4) := q4.trans (mul_le_mul_of_nonneg_left hzR1 (by positivity))
  obtain ⟨q5, q6⟩ := abs_le.mp q4'
  have hqR1 : (q : ℝ) ≤ 1 := by norm_num at u1 hD9; linarith
  have hqR0 : (0 : ℝ) ≤ q := by exact_mod_cast q3
  obtain ⟨f1, f2⟩ := hef q q2 q3 (by exact_mod_cast hqR1)
  rw [← hu] at f2
  obtain ⟨g1, g2⟩ := log_shift (Real.exp_pos _) (by norm_num at u1; linarith) f2
  rw [Real.log_exp] at g2
  obtain ⟨g3, g4⟩ := abs_le.mp g2
  have hf0 : 0 < ef q := by exact_mod_cast g1
  -- range of the start value
  have hfhi : ef q < 10 := by
    have : (ef q : ℝ) < 10 := by
      rw [← Real.exp_log g1]
      refine lt_of_lt_of_le ((Real.exp_lt_exp (y := 23 / 10)).mpr ?_) exp23
      norm_num at u1; linarith
    exact_mod_cast this
  have hflo : 1 / 2 < ef q := by
    have h1 := Real.add_one_le_exp (Real.log (ef q : ℝ))
    rw [Real.exp_log g1] at h1
    have : ((1 / 2 : ℚ) : ℝ) < ef q := by push_cast; norm_num at u1; linarith
    exact_mod_cast this
  obtain ⟨m, k, m1, m2, m3⟩ := repF_normal (by omega) f1 hf0
  have m1q : (2 : ℚ) ^ (F.p - 1) ≤ m := by exact_mod_cast m1
  have m2q : (m : ℚ) < 2 ^ F.p := by exact_mod_cast m2
  have h2k : (0 : ℚ) < 2 ^ k := by positivity
  have k1 : -(F.p : ℤ) - 1 < k := by
    have : (2 : ℚ) ^ (-1 : ℤ) < 2 ^ ((F.p : ℤ) + k) := by
      rw [zpow_add₀ (by norm_num), zpow_natCast]
      have := mul_lt_mul_of_pos_right m2q h2k
      rw [← m3] at this
      refine lt_trans ?_ this
      norm_num; linarith
    rw [zpow_lt_zpow_iff_right₀ (by norm_num)] at this
    omega
  have k2 : k < 4 - ((F.p : ℤ) - 1) := by
    have : (2 : ℚ) ^ (((F.p - 1 : ℕ) : ℤ) + k) < 2 ^ (4 : ℤ) := by
      rw [zpow_add₀ (by norm_num), zpow_natCast]
      refine lt_of_le_of_lt (mul_le_mul_of_nonneg_right m1q h2k.le) ?_
      rw [← m3]; norm_num; linarith
    rw [zpow_lt_zpow_iff_right₀ (by norm_num)] at this
    omega
  have hM := h.hM
  have hR := h.hR
  have hd := h.lo
  have hed := two_le_ed c
  have hkn : k.natAbs ≤ 53 := by omega
  have hp16 : (2 : ℚ) ^ F.p ≤ 10 ^ (16 : ℤ) := by
    have : (2 : ℚ) ^ F.p ≤ 2 ^ 53 := pow_le_pow_right₀ (by norm_num) hp24.2
    refine this.trans (by norm_num)
  have hk16 : (10 : ℚ) ^ (-16 : ℤ) ≤ 2 ^ k := by
    have : (2 : ℚ) ^ (-53 : ℤ) ≤ 2 ^ k := zpow_le_zpow_right₀ (by norm_num) (by omega)
    refine le_trans (by norm_num) this
  have hed8 := ed_le8 c
  obtain ⟨r1, r2, r3⟩ := float_accuracy c (estInv c F) F.digits10 F.p minN m k false (by omega) (by omega) ⟨m1, m2, by rw [← m3]; linarith⟩ h.mulOk (by omega) (by omega)
    (lt_of_lt_of_le m2q (hp16.trans (zpow_le_zpow_right₀ (by norm_num) (by omega))))
    (by
      rw [← m3]
      have : (10 : ℚ) ^ (1 : ℤ) ≤ 10 ^ ((c.maxExp : ℤ) - 1) := zpow_le_zpow_right₀ (by norm_num) (by omega)
      rw [zpow_one] at this; linarith)
    (le_trans (zpow_le_zpow_right₀ (by norm_num) (by
      have h1 := c.digits_le
      have h2 : c.ed * (c.N + 5) = c.ed * c.N + 5 * c.ed := by ring
      have h3 : c.ed * (c.N - 1) = c.ed * c.N - c.ed := by rw [Nat.mul_sub, mul_one]
      omega)) hk16)
    (by
      have h1 : (k.natAbs : ℚ) ≤ 53 := by exact_mod_cast hkn
      have h2 : (10 : ℚ) ^ 16 ≤ 10 ^ (c.digits10 + 2 * c.ed) := pow_le_pow_right₀ (by norm_num) (by omega)
      rw [div_le_iff₀ (by positivity)]
      norm_num at h2
      linarith)
  simp only [Bool.false_eq_true, if_false, one_mul] at r1 r2 r3
  rw [← m3] at r1 r2 r3
  rw [if_neg (by omega), abs_of_pos hf0] at r3
  set y := fromFloat c (estInv c F) F.digits10 F.p minN (ef q) with hy
  have r4 : |y.val c - ef q| ≤ 1 / 10 ^ 18 * (2 * ef q) := by
    refine r3.trans ?_
    have h1 : ((2 : ℚ) * k.natAbs + 4) ≤ 110 := by
      have : (k.natAbs : ℚ) ≤ 53 := by exact_mod_cast hkn
      linarith
    have h2 : ((2 : ℚ) * k.natAbs + 4) / 10 ^ (c.digits10 + 2 * c.ed) ≤ 2 / 10 ^ 18 := by
      generalize (2 : ℚ) * k.natAbs + 4 = K at h1 ⊢
      rw [div_le_div_iff₀ (by positivity) (by positivity)]
      have h3 : (10 : ℚ) ^ 20 ≤ 10 ^ (c.digits10 + 2 * c.ed) := pow_le_pow_right₀ (by norm_num) (by omega)
      norm_num at h3 ⊢
      linarith
    generalize ((2 : ℚ) * k.natAbs + 4) / 10 ^ (c.digits10 + 2 * c.ed) = K at h2 ⊢
    have := mul_le_mul_of_nonneg_right h2 hf0.le
    norm_num at this ⊢
    linarith
  have r4' := (Rat.cast_le (K := ℝ)).mpr r4
  push_cast at r4'
  obtain ⟨s1, s2⟩ := log_shift (a := (y.val c : ℝ)) (b := ef q) (t := 2 / 10 ^ 18) g1 (by norm_num) (r4'.trans (le_of_eq (by ring)))
  obtain ⟨s3, s4⟩ := abs_le.mp s2
  refine ⟨y, by rw [exp2Start, q1]; rfl, r1, by exact_mod_cast s1, ?_⟩
  refine le_trans ?_ u2
  norm_num at s3 s4 ⊢
  rw [abs_le]; constructor <;> linarith

end WD
