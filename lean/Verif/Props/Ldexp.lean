import Verif.Proofs.Ldexp
import Verif.Props.Radix
import Verif.Props.Hyp
/-
  C52: `ldexp`.
-/
namespace WD
open DW

/-- Relative errors of the power and of the division by it. -/
theorem down_real {V P Q R μ n : ℚ} (hP : 0 < P) (hn : 0 ≤ n) (hμ0 : 0 < μ) (hμ : μ ≤ 1 / 10 ^ 20) (hnμ : 2 * n * μ ≤ 1 / 1000000000)
    (hQ : |Q - P| ≤ 2 * n * μ * P) (hR : |R - V / Q| ≤ |V / Q| * (6 * μ)) : |R - V / P| ≤ |V / P| * ((3 * n + 7) * μ) := by
  have hQ' := abs_le.mp hQ
  have hb : 2 * n * μ * P ≤ 1 / 1000000000 * P := mul_le_mul_of_nonneg_right hnμ hP.le
  have hQ0 : 0 < Q := by linarith [hQ'.1]
  have e1 : V / Q - V / P = V / P * ((P - Q) / Q) := by field_simp
  have h1 : |(P - Q) / Q| ≤ 21 / 10 * n * μ := by
    rw [abs_div, abs_of_pos hQ0, div_le_iff₀ hQ0, abs_sub_comm]
    refine hQ.trans ?_
    have : 0 ≤ n * μ := by positivity
    have : n * μ * P ≤ n * μ * (101 / 100 * Q) := mul_le_mul_of_nonneg_left (by linarith [hQ'.1]) this
    linarith
  have h2 : |V / Q - V / P| ≤ |V / P| * (21 / 10 * n * μ) := by
    rw [e1, abs_mul]; exact mul_le_mul_of_nonneg_left h1 (abs_nonneg _)
  have hVP := abs_nonneg (V / P)
  have h3 : |V / Q| ≤ |V / P| * (101 / 100) := by
    have := abs_add_le (V / Q - V / P) (V / P)
    rw [sub_add_cancel] at this
    have : |V / P| * (21 / 10 * n * μ) ≤ |V / P| * (1 / 100) := mul_le_mul_of_nonneg_left (by linarith) hVP
    linarith
  have h4 : |V / Q| * (6 * μ) ≤ |V / P| * (101 / 100) * (6 * μ) := mul_le_mul_of_nonneg_right h3 (by linarith)
  have h5 := abs_add_le (R - V / Q) (V / Q - V / P)
  rw [sub_add_sub_cancel] at h5
  have h6 : 0 ≤ |V / P| * (n * μ) := by positivity
  have h7 : 0 ≤ |V / P| * μ := by positivity
  linarith

/-- The object is well formed, or a power of the radix stored with the radix as its leading limb. -/
def NearFull (c : Cfg) (r : DW) : Prop := Full c r ∨ r.data = 10 ^ c.ed :: List.replicate (c.N - 1) 0

set_option maxHeartbeats 1000000 in
theorem ldexp_down {c : Cfg} {F : Flt} (h : ElemOk c F) (hN : c.N < 1793) {v : DW} (hv : Full c v) (hv0 : v.val c ≠ 0) {n : ℕ}
    (h0 : 0 < n) (hn : n < 2 ^ 31) (hhi : v.exp < c.maxExp) (hr : (2 : ℚ) ^ n ≤ 10 ^ ((c.maxExp : ℤ) - 3 * c.ed - 1))
    (hlo : (10 : ℚ) ^ (-(c.maxExp : ℤ) + 4 * c.ed + 3) ≤ |v.val c / 2 ^ n|) :
    ∃ r, ldexp c (estInv c F) F.digits10 v (-(n : ℤ)) = some r ∧ NearFull c r ∧
      |r.val c - v.val c / 2 ^ n| ≤ |v.val c / 2 ^ n| * (2 * epsD c + (3 * n + 7) * mulEps c) := by
  have hμ := mulEps_pos c
  have hμ1 := mulEps_le20 h.lo
  have hε := epsD_pos c
  have hM := h.hM
  have hR := h.hR
  have h2 := two_le_ed c
  have h8 := ed_le8 c
  have hvz := isZero_false_of_val hv.toWF hv0
  have va := hv.toWF.abs_ge hvz
  have vb := hv.toWF.abs_lt
  have hva : 0 < |v.val c| := abs_pos.mpr hv0
  have h2n : (0 : ℚ) < 2 ^ n := by positivity
  have hnq : (0 : ℚ) ≤ n := Nat.cast_nonneg _
  have hVP : |v.val c / 2 ^ n| = |v.val c| / 2 ^ n := by rw [abs_div, abs_of_pos h2n]
  have hVPp : 0 < |v.val c / 2 ^ n| := by rw [hVP]; positivity
  have hnm : 0 ≤ (n : ℚ) * mulEps c := by positivity
  -- division by a well-formed representation of 2^n
  have hdiv : ∀ p : DW, Full c p → 0 < p.val c → |p.val c - 2 ^ n| ≤ 2 * n * mulEps c * 2 ^ n → 2 * (n : ℚ) * mulEps c ≤ 1 / 1000000000 →
      NearFull c (divAssign c (estInv c F) F.digits10 v p) ∧
      |(divAssign c (estInv c F) F.digits10 v p).val c - v.val c / 2 ^ n| ≤ |v.val c / 2 ^ n| * (2 * epsD c + (3 * n + 7) * mulEps c) := by
    intro p p1 pp p2 p3
    have kk : 2 * (n : ℚ) * mulEps c * 2 ^ n ≤ 1 / 1000000000 * 2 ^ n := mul_le_mul_of_nonneg_right p3 h2n.le
    have p2' := abs_le.mp p2
    have h1n : (1 : ℚ) ≤ 2 ^ n := one_le_pow₀ (by norm_num)
    have pz := isZero_false_of_val p1.toWF pp.ne'
    have pa := p1.toWF.abs_ge pz
    have pb := p1.toWF.abs_lt
    rw [abs_of_pos pp] at pa pb
    have pe : -(c.ed : ℤ) - 1 < p.exp := by
      have : (10 : ℚ) ^ (-1 : ℤ) < 10 ^ (p.exp + (c.ed : ℤ)) := by
        refine lt_of_le_of_lt ?_ pb; norm_num; linarith [p2'.1]
      rw [zpow_lt_zpow_iff_right₀ (by norm_num)] at this
      omega
    have pe2 : p.exp < (c.maxExp : ℤ) - 3 * c.ed := by
      have : (10 : ℚ) ^ p.exp < 10 ^ ((c.maxExp : ℤ) - 3 * c.ed) := by
        have e : (10 : ℚ) ^ ((c.maxExp : ℤ) - 3 * c.ed) = 10 ^ ((c.maxExp : ℤ) - 3 * c.ed - 1) * 10 := by
          rw [← zpow_add_one₀ (by norm_num)]; congr 1; ring
        rw [e]
        have : (0 : ℚ) < 10 ^ ((c.maxExp : ℤ) - 3 * c.ed - 1) := p10_pos _
        linarith [p2'.2]
      rwa [zpow_lt_zpow_iff_right₀ (by norm_num)] at this
    have ve : -(c.maxExp : ℤ) + 4 * c.ed + 3 + p.exp - 1 < v.exp + c.ed := by
      have : (10 : ℚ) ^ (-(c.maxExp : ℤ) + 4 * c.ed + 3 + p.exp - 1) < 10 ^ (v.exp + (c.ed : ℤ)) := by
        refine lt_of_le_of_lt ?_ vb
        rw [show -(c.maxExp : ℤ) + 4 * c.ed + 3 + p.exp - 1 = (-(c.maxExp : ℤ) + 4 * c.ed + 3) + (p.exp - 1) by ring,
          zpow_add₀ (by norm_num)]
        have t1 : (10 : ℚ) ^ (p.exp - 1) ≤ 2 ^ n := by
          rw [zpow_sub_one₀ (by norm_num)]
          linarith [p2'.2]
        have := mul_le_mul hlo t1 (by positivity) hVPp.le
        rwa [hVP, div_mul_cancel₀ _ h2n.ne'] at this
      rwa [zpow_lt_zpow_iff_right₀ (by norm_num)] at this
    have vhi : v.exp - p.exp < c.maxExp ∨ p.exp < 0 := by omega
    have hpe0 : 0 ≤ p.exp ∨ p.exp = -(c.ed : ℤ) := by
      obtain ⟨k, hk⟩ := p1.toWF.dvd
      rcases lt_or_ge k 0 with hk0 | hk0
      · right
        have : (c.ed : ℤ) * k ≤ c.ed * (-1) := mul_le_mul_of_nonneg_left (by omega) (by omega)
        rcases lt_or_ge k (-1) with hk1 | hk1
        · have : (c.ed : ℤ) * k ≤ c.ed * (-2) := mul_le_mul_of_nonneg_left (by omega) (by omega)
          omega
        · have : k = -1 := by omega
          rw [hk, this]; ring
      · left; rw [hk]; exact mul_nonneg (by omega) hk0
    have hpe : 0 ≤ p.exp := by
      rcases hpe0 with g | g
      · exact g
      · exfalso
        rw [g, neg_add_cancel, zpow_zero] at pb
        have : (2 : ℚ) ≤ 2 ^ n := by
          calc (2 : ℚ) = 2 ^ 1 := by norm_num
            _ ≤ _ := pow_le_pow_right₀ (by norm_num) h0
        linarith [p2'.1]
    obtain ⟨-, q2, -, q3⟩ := div_accuracy_any c F h.hF h.hK v p hv p1 hv0 pp.ne' h.hok (by omega) (by omega) (by omega)
      (by omega) (by omega)
    have e6 : (6 : ℚ) / 10 ^ (c.digits10 + 2 * c.ed) = 6 * mulEps c := by unfold mulEps; ring
    rw [e6] at q2
    refine ⟨q3.imp id (fun k => k.1), ?_⟩
    refine (down_real h2n hnq hμ hμ1 p3 p2 q2.le).trans ?_
    apply mul_le_mul_of_nonneg_left _ hVPp.le
    linarith
  by_cases h64 : n < 64
  · have hlt : (2 : ℕ) ^ n < 2 ^ 64 := Nat.pow_lt_pow_right (by norm_num) h64
    have hunf : ldexp c (estInv c F) F.digits10 v (-(n : ℤ)) = some (divULL c (estInv c F) F.digits10 v (2 ^ n)) := by
      unfold ldexp
      rw [if_neg (by omega), if_neg (by omega), if_neg (by omega), if_neg (by omega), if_pos (by omega)]
      simp
    refine ⟨_, hunf, ?_⟩
    by_cases hB : 2 ^ n < c.B
    · have ve : -(c.maxExp : ℤ) + 4 * c.ed + 3 < v.exp + c.ed := by
        have h1n : (1 : ℚ) ≤ 2 ^ n := one_le_pow₀ (by norm_num)
        have : (10 : ℚ) ^ (-(c.maxExp : ℤ) + 4 * c.ed + 3) < 10 ^ (v.exp + (c.ed : ℤ)) := by
          refine lt_of_le_of_lt (hlo.trans ?_) vb
          rw [hVP, div_le_iff₀ h2n]
          have := mul_le_mul_of_nonneg_left h1n hva.le
          linarith
        rwa [zpow_lt_zpow_iff_right₀ (by norm_num)] at this
      obtain ⟨d1, -, d2, -⟩ := div_unsigned_partial c (estInv c F) F.digits10 v hv hv0 (2 ^ n) (by positivity) hB (by omega)
      refine ⟨Or.inl d1, ?_⟩
      push_cast at d2
      change _ < _ * epsD c at d2
      generalize (divULL c (estInv c F) F.digits10 v (2 ^ n)).val c = R at *
      generalize v.val c / 2 ^ n = Q at *
      have t := abs_add_le (R - Q) Q
      rw [sub_add_cancel] at t
      have hε1 := epsD_le h.lo
      have t1 : |R| * epsD c ≤ |R| * (1 / 10 ^ 16) := mul_le_mul_of_nonneg_left hε1 (abs_nonneg _)
      have t2 : |R| ≤ 2 * |Q| := by norm_num at t1; linarith
      have t3 : |R| * epsD c ≤ 2 * |Q| * epsD c := mul_le_mul_of_nonneg_right t2 hε.le
      have t4 : 0 ≤ |Q| * epsD c := by positivity
      have t5 : 0 ≤ |Q| * ((3 * n + 7) * mulEps c) := by positivity
      linarith
    · obtain ⟨a1, a2, a3, -, -⟩ := ofU64_divisor (c := c) (n := 2 ^ n) (by positivity) hlt (by
        have := cap20 h.lo hlt
        rwa [c.B_eq, ← pow_mul] at this)
      have hr' : divULL c (estInv c F) F.digits10 v (2 ^ n) = divAssign c (estInv c F) F.digits10 v (ofUnsigned c 64 (2 ^ n)) := by
        unfold divULL
        simp only [hvz, Bool.false_eq_true, if_false]
        rw [if_neg (by positivity), if_pos (by omega)]
      rw [hr']
      apply hdiv _ a1 (by rw [a2]; push_cast; positivity)
      · rw [a2]; push_cast; rw [sub_self, abs_zero]; positivity
      · have : (n : ℚ) ≤ 64 := by exact_mod_cast h64.le
        have : (n : ℚ) * mulEps c ≤ 64 * (1 / 10 ^ 20) := mul_le_mul this hμ1 hμ.le (by norm_num)
        norm_num at this ⊢; linarith
  · obtain ⟨p1, p2, p3⟩ := powTwo_spec h.lo h.mulOk (by omega) (n := n) (by omega) (hr.trans (zpow_le_zpow_right₀ (by norm_num) (by omega)))
    have hunf : ldexp c (estInv c F) F.digits10 v (-(n : ℤ)) = some (divAssign c (estInv c F) F.digits10 v (powNat c (two c) n)) := by
      unfold ldexp
      rw [if_neg (by omega), if_neg (by omega), if_pos (by omega)]
      simp
    refine ⟨_, hunf, hdiv _ p1 ?_ p2 p3⟩
    have kk : 2 * (n : ℚ) * mulEps c * 2 ^ n ≤ 1 / 1000000000 * 2 ^ n := mul_le_mul_of_nonneg_right p3 h2n.le
    linarith [(abs_le.mp p2).1]

/-- C52. For every non-zero v, every e with v·2^e and 2^|e| inside the exponent range, `ldexp(v, e)` differs from v·2^e by a
    relative error of at most (2e+3)·10^-(digits10+2·ed) for e ≥ 0 and 2·10^(-digits10) + (3|e|+7)·10^-(digits10+2·ed) for
    e < 0. e = -2^31 is excluded: the code negates it (`ldexp_least_int`). -/
theorem ldexp_accuracy (c : Cfg) (F : Flt) (h : ElemOk c F) (v : DW) (hv : Full c v) (hv0 : v.val c ≠ 0) (e : ℤ)
    (h1 : -(2 ^ 31) < e) (h2 : e < 2 ^ 31) (hlo : -(c.maxExp : ℤ) < v.exp) (hhi : v.exp < c.maxExp)
    (hr : (2 : ℚ) ^ |e| ≤ 10 ^ ((c.maxExp : ℤ) - 3 * c.ed - 1))
    (hlo' : (10 : ℚ) ^ (-(c.maxExp : ℤ) + 4 * c.ed + 3) ≤ |v.val c * 2 ^ e|) (hhi' : |v.val c * 2 ^ e| < 10 ^ ((c.maxExp : ℤ) - 1)) :
    ∃ r, ldexp c (estInv c F) F.digits10 v e = some r ∧ NearFull c r ∧
      |r.val c - v.val c * 2 ^ e| ≤ |v.val c * 2 ^ e| * (if 0 ≤ e then (2 * (e : ℚ) + 3) / 10 ^ (c.digits10 + 2 * c.ed)
        else 2 / 10 ^ c.digits10 + (3 * |(e : ℚ)| + 7) / 10 ^ (c.digits10 + 2 * c.ed)) := by
  have hN : c.N < 1793 := h.hok.1
  have hM := h.hM
  have hed := two_le_ed c
  have eμ : ∀ a : ℚ, a / 10 ^ (c.digits10 + 2 * c.ed) = a * mulEps c := by intro a; unfold mulEps; ring
  have eε : (2 : ℚ) / 10 ^ c.digits10 = 2 * epsD c := by unfold epsD; rw [zpow_neg, zpow_natCast]; ring
  rw [eμ, eμ, eε]
  rcases le_or_gt 0 e with he | he
  · obtain ⟨n, rfl⟩ := Int.eq_ofNat_of_zero_le he
    rw [abs_of_nonneg he, zpow_natCast] at hr
    rw [zpow_natCast] at *
    have hn : (0 : ℚ) < 2 ^ n := by positivity
    rw [abs_mul, abs_of_pos hn] at hhi' ⊢
    obtain ⟨r, r1, r2, r3⟩ := ldexp_up (est := estInv c F) (fdig := F.digits10) hv hv0 h.lo h.mulOk (by omega) (n := n) (by omega) hlo
      (hr.trans (zpow_le_zpow_right₀ (by norm_num) (by omega))) hhi'
    refine ⟨r, r1, Or.inl r2, ?_⟩
    rw [if_pos he]
    push_cast
    linarith
  · obtain ⟨n, hn⟩ : ∃ n : ℕ, e = -(n : ℤ) := ⟨(-e).toNat, by omega⟩
    subst hn
    rw [abs_neg, Nat.abs_cast, zpow_natCast] at hr
    rw [zpow_neg, zpow_natCast, ← div_eq_mul_inv] at *
    obtain ⟨r, r1, r2, r3⟩ := ldexp_down h hN hv hv0 (n := n) (by omega) (by omega) hhi hr hlo'
    refine ⟨r, r1, r2, ?_⟩
    rw [if_neg (by omega)]
    push_cast
    rw [abs_neg, Nat.abs_cast]
    exact r3

/-- `ldexp(v, e)` is undefined for the least `int`: the code computes -e. -/
theorem ldexp_least_int (c : Cfg) (est : DW → DW) (fdig : ℕ) (v : DW) : ldexp c est fdig v (-(2 ^ 31)) = none := by
  unfold ldexp; rw [if_neg (by norm_num), if_pos rfl]

/-- ldexp(v, 0) is v. -/
theorem ldexp_zero (c : Cfg) (est : DW → DW) (fdig : ℕ) (v : DW) : ldexp c est fdig v 0 = some v := by
  unfold ldexp; rw [if_pos rfl]

/-- The hypotheses are met by ldexp(0.693, -100). -/
example : ∃ r, ldexp exC20 (estInv exC20 exDouble) exDouble.digits10 exS (-100) = some r ∧ NearFull exC20 r ∧
      |r.val exC20 - exS.val exC20 * 2 ^ (-100 : ℤ)| ≤ |exS.val exC20 * 2 ^ (-100 : ℤ)| *
        (if (0 : ℤ) ≤ -100 then (2 * ((-100 : ℤ) : ℚ) + 3) / 10 ^ (exC20.digits10 + 2 * exC20.ed)
        else 2 / 10 ^ exC20.digits10 + (3 * |((-100 : ℤ) : ℚ)| + 7) / 10 ^ (exC20.digits10 + 2 * exC20.ed)) := by
  have h0 : exS.val exC20 ≠ 0 := by rw [exS_val]; norm_num
  refine ldexp_accuracy exC20 exDouble exC20_ok exS exS_full h0 (-100) (by norm_num) (by norm_num) (by decide +kernel)
    (by decide +kernel) ?_ ?_ ?_
  · calc (2 : ℚ) ^ |(-100 : ℤ)| ≤ 10 ^ (40 : ℤ) := by norm_num
      _ ≤ _ := zpow_le_zpow_right₀ (by norm_num) (by decide +kernel)
  · rw [exS_val]
    calc (10 : ℚ) ^ (-(exC20.maxExp : ℤ) + 4 * exC20.ed + 3) ≤ 10 ^ (-40 : ℤ) := zpow_le_zpow_right₀ (by norm_num) (by decide +kernel)
      _ ≤ _ := by norm_num
  · rw [exS_val]
    calc |(693 / 1000 : ℚ) * 2 ^ (-100 : ℤ)| < 10 ^ (0 : ℤ) := by norm_num
      _ ≤ _ := zpow_le_zpow_right₀ (by norm_num) (by decide +kernel)

end WD
