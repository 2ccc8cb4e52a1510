import Verif.Proofs.MalAdd
import Verif.Props.Exp
import Mathlib.Analysis.SpecialFunctions.Trigonometric.DerivHyp
/-
  The common part of `sinh`, `cosh` and `tanh`.
-/
namespace WD
open DW

theorem hyp_real {E p m s a δ μ : ℝ} (hE : 0 < E) (hδ0 : 0 ≤ δ) (hδ : δ ≤ 1 / 10 ^ 9) (hμ0 : 0 ≤ μ) (hμ : μ ≤ 1 / 10 ^ 9)
    (hp : |p - E| ≤ E * δ) (hm : |m * p - 1| ≤ 5 * μ) (hs : |s - (p - m)| ≤ μ * (|p| + |m|)) (ha : |a - (p + m)| ≤ μ * (|p| + |m|)) :
    |m * E - 1| ≤ 1001 / 1000 * δ + 6 * μ ∧ |s - (E - E⁻¹)| ≤ (E + E⁻¹) * (1001 / 1000 * δ + 8 * μ) ∧
    |a - (E + E⁻¹)| ≤ (E + E⁻¹) * (1001 / 1000 * δ + 8 * μ) := by
  have hE' : 0 < E⁻¹ := inv_pos.mpr hE
  obtain ⟨η, hη⟩ : ∃ η, p = E * (1 + η) := ⟨p / E - 1, by field_simp; ring⟩
  have hηb : |η| ≤ δ := by
    have : p - E = E * η := by rw [hη]; ring
    rw [this, abs_mul, abs_of_pos hE] at hp
    exact le_of_mul_le_mul_left hp hE
  have hηb' := abs_le.mp hηb
  have e : (m * E - 1) * (1 + η) = (m * p - 1) - η := by rw [hη]; ring
  have h1 : |m * E - 1| ≤ 1001 / 1000 * δ + 6 * μ := by
    have hpos : (0 : ℝ) < 1 + η := by norm_num at hδ; linarith [hηb'.1]
    have k1 : |m * E - 1| * (1 + η) ≤ 5 * μ + δ := by
      rw [← abs_of_pos hpos, ← abs_mul, e]
      have := abs_sub (m * p - 1) η
      linarith
    have k2 : |m * E - 1| * (1 - 1 / 10 ^ 9) ≤ |m * E - 1| * (1 + η) :=
      mul_le_mul_of_nonneg_left (by linarith [hηb'.1]) (abs_nonneg _)
    norm_num at k2 ⊢
    linarith
  refine ⟨h1, ?_⟩
  have hmE : m - E⁻¹ = E⁻¹ * (m * E - 1) := by field_simp
  have h2 : |m - E⁻¹| ≤ E⁻¹ * (1001 / 1000 * δ + 6 * μ) := by
    rw [hmE, abs_mul, abs_of_pos hE']
    exact mul_le_mul_of_nonneg_left h1 hE'.le
  have h2' := abs_le.mp h2
  have hp' := abs_le.mp hp
  have hsm : E⁻¹ * (1001 / 1000 * δ + 6 * μ) ≤ E⁻¹ * (1 / 10) := mul_le_mul_of_nonneg_left (by norm_num at hδ hμ ⊢; linarith) hE'.le
  have hsp : E * δ ≤ E * (1 / 10) := mul_le_mul_of_nonneg_left (by norm_num at hδ ⊢; linarith) hE.le
  have h3 : |p| + |m| ≤ (E + E⁻¹) * (11 / 10) := by
    rw [abs_of_pos (show 0 < p by linarith [hp'.1]), abs_of_pos (show 0 < m by linarith [h2'.1])]
    linarith [hp'.2, h2'.2]
  have h4 : μ * (|p| + |m|) ≤ μ * ((E + E⁻¹) * (11 / 10)) := mul_le_mul_of_nonneg_left h3 hμ0
  have hEμ : 0 ≤ E * μ := by positivity
  have hEμ' : 0 ≤ E⁻¹ * μ := by positivity
  have hEδ : 0 ≤ E * δ := by positivity
  have hs' := abs_le.mp hs
  have ha' := abs_le.mp ha
  constructor
  · rw [abs_le]; constructor <;> linarith [hs'.1, hs'.2, hp'.1, hp'.2, h2'.1, h2'.2]
  · rw [abs_le]; constructor <;> linarith [ha'.1, ha'.2, hp'.1, hp'.2, h2'.1, h2'.2]

/-- No power of the radix is next to e^x. -/
def OffPower (c : Cfg) (x : ℝ) : Prop := ∀ k : ℤ, (27000 + |x| / 400) / 10 ^ c.digits10 < |Real.exp x * 10 ^ ((c.ed : ℤ) * k) - 1|

theorem quasi_data {c : Cfg} {r : DW}
    (h : Full c r ∨ (r.data = 10 ^ c.ed :: List.replicate (c.N - 1) 0 ∧ (c.ed : ℤ) ∣ r.exp ∧ r.prec = c.N)) :
    Full c r ∨ (Mal c r ∧ r.prec = c.N) := by
  rcases h with h | ⟨h1, h2, h3⟩
  · exact Or.inl h
  · refine Or.inr ⟨⟨?_, h2, ?_, ?_⟩, h3⟩
    · rw [h1, ← c.B_eq]; rfl
    · have := c.three_le_N; omega
    · omega

theorem Mal.val_pow {c : Cfg} {y : DW} (h : Mal c y) (hp : 0 < y.val c) : ∃ k : ℤ, y.exp = c.ed * k ∧ y.val c = 10 ^ ((c.ed : ℤ) * (k + 1)) := by
  obtain ⟨k, hk⟩ := h.dvd
  refine ⟨k, hk, ?_⟩
  have h1 := h.twin_val
  have h2 : |(twin c y).val c| = 10 ^ (y.exp + (c.ed : ℤ)) := by
    rw [DW.abs_val]
    unfold mant lexp
    simp only [twin]
    rw [limbsVal_cons, limbsVal_replicate_zero, List.length_replicate]
    have h1 := c.p10_mul_B (y.exp + c.ed - (c.ed : ℤ) * ((c.N : ℤ) - 1)) (c.N - 1)
    have hN1 : ((c.N - 1 : ℕ) : ℤ) = (c.N : ℤ) - 1 := by have := c.three_le_N; omega
    rw [hN1, sub_add_cancel] at h1
    rw [← h1]; push_cast; ring
  rw [h1, abs_of_pos hp] at h2
  rw [h2, hk]; congr 1; ring

set_option maxHeartbeats 1000000 in
/-- e^x, its reciprocal, their difference and their sum. -/
theorem hyp_core {c : Cfg} {F : Flt} (h : ElemOk c F) (h2k : c.digits10 ≤ 2000) (hN : c.N < 1793) {l : DW} (hl : Full c l)
    (hl2 : |(l.val c : ℝ) - Real.log 2| ≤ 1 / 10 ^ (c.digits10 + 2 * c.ed)) {x : DW} (hx : Full c x)
    (hlo : 30000 / 10 ^ c.digits10 ≤ |x.val c|) (h9 : |x.val c| ≤ 148 * 10 ^ 7)
    (hhi : |x.val c| ≤ 23 / 10 * ((c.maxExp : ℚ) - 3 * c.ed - 3)) (hoff : x.val c < 0 → OffPower c (x.val c)) :
    ∃ ep, expDW c (estInv c F) F.digits10 l x = some ep ∧
      let em := calcInv c (estInv c F) F.digits10 ep
      let D : ℝ := (26100 + |(x.val c : ℝ)| / 490) * epsD c
      Full c (subAssign c ep em) ∧ Full c (addAssign c ep em) ∧ D ≤ 1 / 10 ^ 9 ∧
      |((subAssign c ep em).val c : ℝ) - 2 * Real.sinh (x.val c)| ≤ 2 * Real.cosh (x.val c) * D ∧
      |((addAssign c ep em).val c : ℝ) - 2 * Real.cosh (x.val c)| ≤ 2 * Real.cosh (x.val c) * D := by
  have hM := h.hM
  have hR := h.hR
  have h2 := two_le_ed c
  have h8 := ed_le8 c
  obtain ⟨e0, e1⟩ := epsD_real h.lo
  obtain ⟨m0, m1⟩ := mulEps_real c
  have eD : (epsD c : ℝ) = 1 / 10 ^ c.digits10 := by
    unfold epsD; push_cast; rw [zpow_neg, zpow_natCast, one_div]
  have eDq : epsD c = 1 / 10 ^ c.digits10 := by
    unfold epsD; rw [zpow_neg, zpow_natCast, one_div]
  have hloq : 30000 * epsD c ≤ |x.val c| := by rw [eDq]; linarith [hlo, (by ring : (30000 : ℚ) / 10 ^ c.digits10 = 30000 * (1 / 10 ^ c.digits10))]
  have hap : 0 < |x.val c| := lt_of_lt_of_le (by have := epsD_pos c; positivity) hloq
  have hed0 : (0 : ℚ) ≤ c.ed := Nat.cast_nonneg _
  have hlo' : (10 : ℚ) ^ (-(c.maxExp : ℤ) + 5 * c.ed + 10) ≤ |x.val c| := by
    refine le_trans ?_ hloq
    refine le_trans ?_ (show epsD c ≤ _ by have := epsD_pos c; linarith)
    unfold epsD
    apply zpow_le_zpow_right₀ (by norm_num)
    have h1 := c.digits_le
    have h3 := c.three_le_N
    have : c.ed * (c.N + 5) = c.ed * (c.N - 1) + 6 * c.ed := by
      have : c.N + 5 = (c.N - 1) + 6 := by omega
      rw [this]; ring
    omega
  obtain ⟨ep, q1, q2, q3, q4⟩ := exp_accuracy_partial c F h h2k l hl hl2 x hx hlo' h9 (by linarith) (fun _ => hhi)
  refine ⟨ep, q1, ?_⟩
  intro em D
  have h9' := (Rat.cast_le (K := ℝ)).mpr h9
  push_cast at h9'
  have hA0 := abs_nonneg (x.val c : ℝ)
  obtain ⟨δ, hδ⟩ : ∃ δ : ℝ, δ = (26000 + |(x.val c : ℝ)| / 500) * epsD c := ⟨_, rfl⟩
  have hδ' : (26000 + |(x.val c : ℝ)| / 500) / 10 ^ c.digits10 = δ := by rw [hδ, eD]; ring
  rw [hδ'] at q4
  have k9 : |(x.val c : ℝ)| * epsD c ≤ 148 * 10 ^ 7 * (1 / 10 ^ 16) := mul_le_mul h9' e1 e0.le (by norm_num)
  have k0 : 0 ≤ |(x.val c : ℝ)| * epsD c := by positivity
  have hδb : δ ≤ 1 / 10 ^ 9 := by rw [hδ]; norm_num at k9 e1 ⊢; linarith
  have hδ0 : 0 ≤ δ := by rw [hδ]; positivity
  have hμb : (mulEps c : ℝ) ≤ 1 / 10 ^ 9 := by norm_num at m1 e1 ⊢; linarith
  have hDb : D ≤ 1 / 10 ^ 9 := by
    show (26100 + |(x.val c : ℝ)| / 490) * epsD c ≤ _
    norm_num at k9 e1 ⊢; linarith
  have hDδ : 1001 / 1000 * δ + 8 * mulEps c ≤ D := by
    show _ ≤ (26100 + |(x.val c : ℝ)| / 490) * epsD c
    rw [hδ]; norm_num at m1 ⊢; linarith
  obtain ⟨E, hE⟩ : ∃ E, E = Real.exp (x.val c) := ⟨_, rfl⟩
  have hEp : 0 < E := by rw [hE]; exact Real.exp_pos _
  rw [← hE] at q4
  have q4' := abs_le.mp q4
  have hEδ : E * δ ≤ E * (1 / 10 ^ 9) := mul_le_mul_of_nonneg_left hδb hEp.le
  -- the number to be inverted
  have hpR : (0 : ℝ) < ep.val c := by exact_mod_cast q2
  have hlogE : Real.log E = x.val c := by rw [hE, Real.log_exp]
  have hElo : Real.exp (-|(x.val c : ℝ)|) ≤ E := by rw [hE, Real.exp_le_exp]; exact neg_abs_le _
  have hEhi : E ≤ Real.exp |(x.val c : ℝ)| := by rw [hE, Real.exp_le_exp]; exact le_abs_self _
  have hbig : Real.exp (|(x.val c : ℝ)| + 1) ≤ 10 ^ (c.maxExp - 3 * c.ed) := by
    have hh := (Rat.cast_le (K := ℝ)).mpr hhi
    push_cast at hh
    apply exp_le_ten
    rw [Nat.cast_sub (by omega)]; push_cast; linarith
  have hexp1 : 2 ≤ Real.exp 1 := by have := Real.add_one_le_exp (1 : ℝ); linarith
  have hXp : 0 < Real.exp |(x.val c : ℝ)| := Real.exp_pos _
  have hbig2 : 2 * Real.exp |(x.val c : ℝ)| ≤ 10 ^ (c.maxExp - 3 * c.ed) := by
    rw [Real.exp_add] at hbig
    nlinarith
  -- ep is well formed
  have hpF : Full c ep := by
    rcases q3 with q3 | ⟨hneg, q3⟩
    · exact q3
    · exfalso
      rcases quasi_data (Or.inr q3) with g | ⟨g, -⟩
      · have := g.toWF.valid
        rw [q3.1] at this
        rw [validLimbs_cons, ← c.B_eq] at this
        omega
      · obtain ⟨k, k1, k2⟩ := g.val_pow q2
        have hk := hoff hneg (-(k + 1))
        have k2' : (ep.val c : ℝ) = 10 ^ ((c.ed : ℤ) * (k + 1)) := by rw [k2]; push_cast; rfl
        rw [← hE, mul_neg, zpow_neg, ← k2', ← div_eq_mul_inv, div_sub_one hpR.ne', abs_div, abs_of_pos hpR, abs_sub_comm] at hk
        rw [lt_div_iff₀ hpR] at hk
        have e27 : (27000 + |(x.val c : ℝ)| / 400) / 10 ^ c.digits10 = (27000 + |(x.val c : ℝ)| / 400) * epsD c := by rw [eD]; ring
        rw [e27] at hk
        have : δ * (101 / 100) ≤ (27000 + |(x.val c : ℝ)| / 400) * epsD c := by rw [hδ]; nlinarith
        have e2 : δ * (101 / 100) * ep.val c ≤ (27000 + |(x.val c : ℝ)| / 400) * epsD c * ep.val c := mul_le_mul_of_nonneg_right this hpR.le
        have e3 : E ≤ 101 / 100 * ep.val c := by norm_num at hEδ; linarith [q4'.1]
        have e4 : E * δ ≤ 101 / 100 * ep.val c * δ := mul_le_mul_of_nonneg_right e3 hδ0
        linarith
  have hpz := isZero_false_of_val hpF.toWF q2.ne'
  have re1 := hpF.toWF.abs_ge hpz
  have re2 := hpF.toWF.abs_lt
  rw [abs_of_pos q2] at re1 re2
  have f2 : ep.exp + 3 * c.ed < c.maxExp := by
    have : (10 : ℝ) ^ ep.exp < 10 ^ (((c.maxExp - 3 * c.ed : ℕ)) : ℤ) := by
      have r1 := (Rat.cast_le (K := ℝ)).mpr re1
      push_cast at r1
      rw [zpow_natCast]
      norm_num at hEδ
      linarith [q4'.2]
    rw [zpow_lt_zpow_iff_right₀ (by norm_num)] at this
    omega
  have f1 : -(c.maxExp : ℤ) < ep.exp := by
    have : (10 : ℝ) ^ (-(((c.maxExp - 3 * c.ed : ℕ)) : ℤ)) < 10 ^ (ep.exp + (c.ed : ℤ)) := by
      have r2 := (Rat.cast_lt (K := ℝ)).mpr re2
      push_cast at r2
      rw [zpow_neg, zpow_natCast]
      refine lt_of_le_of_lt ?_ r2
      have : (10 ^ (c.maxExp - 3 * c.ed) : ℝ)⁻¹ ≤ (2 * Real.exp |(x.val c : ℝ)|)⁻¹ :=
        inv_anti₀ (by positivity) hbig2
      rw [mul_inv, ← Real.exp_neg] at this
      norm_num at hEδ
      linarith [q4'.1]
    rw [zpow_lt_zpow_iff_right₀ (by norm_num)] at this
    omega
  obtain ⟨i1, i2, i3⟩ := inv_accuracy_any c F h.hF h.hK ep hpF q2.ne' h.hok (by omega) f1 f2
  change (em.val c < 0 ↔ ep.val c < 0) at i1
  change |em.val c * ep.val c - 1| < _ at i2
  have e5 : (5 : ℚ) / 10 ^ (c.digits10 + 2 * c.ed) = 5 * mulEps c := by unfold mulEps; ring
  rw [e5] at i2
  have i2' := (Rat.cast_le (K := ℝ)).mpr i2.le
  push_cast at i2'
  have hmp : 0 < em.val c := by
    have := mulEps_le20 h.lo
    have k := (abs_lt.mp i2).1
    have : 0 < em.val c * ep.val c := by norm_num at this; linarith
    exact (pos_iff_pos_of_mul_pos this).mpr q2
  have hmE := (hyp_real (s := ep.val c - em.val c) (a := ep.val c + em.val c) hEp hδ0 hδb m0.le hμb q4 i2' (by simp; positivity) (by simp; positivity)).1
  have hops : Full c (subAssign c ep em) ∧ |(subAssign c ep em).val c - (ep.val c - em.val c)| ≤ mulEps c * (|ep.val c| + |em.val c|) ∧
      Full c (addAssign c ep em) ∧ |(addAssign c ep em).val c - (ep.val c + em.val c)| ≤ mulEps c * (|ep.val c| + |em.val c|) := by
    rcases quasi_data i3 with g | ⟨g, gp⟩
    · obtain ⟨s1, s2, -⟩ := sub_op hpF g
      obtain ⟨a1, a2, -⟩ := add_op hpF g
      exact ⟨s1, s2, a1, a2⟩
    · obtain ⟨k, k1, k2⟩ := g.val_pow hmp
      have k2' : (em.val c : ℝ) = 10 ^ ((c.ed : ℤ) * (k + 1)) := by rw [k2]; push_cast; rfl
      have hlt : em.exp < ep.exp := by
        rcases lt_or_ge (x.val c) 0 with hs | hs
        · exfalso
          have hk := hoff hs (k + 1)
          rw [← hE, ← k2', mul_comm] at hk
          have e27 : (27000 + |(x.val c : ℝ)| / 400) / 10 ^ c.digits10 = (27000 + |(x.val c : ℝ)| / 400) * epsD c := by rw [eD]; ring
          rw [e27] at hk
          have : 1001 / 1000 * δ + 6 * mulEps c ≤ (27000 + |(x.val c : ℝ)| / 400) * epsD c := by
            rw [hδ]; norm_num at m1 ⊢; linarith
          linarith
        · -- ep > 1
          have hxa : |(x.val c : ℝ)| = x.val c := abs_of_nonneg (by exact_mod_cast hs)
          have hx1 := (Rat.cast_le (K := ℝ)).mpr hloq
          push_cast at hx1
          have hE1 : (x.val c : ℝ) + 1 ≤ E := by rw [hE]; exact Real.add_one_le_exp _
          have hp1 : (1 : ℝ) < ep.val c := by
            have t1 : E * (1 - δ) ≤ ep.val c := by linarith [q4'.1]
            have t2 : ((x.val c : ℝ) + 1) * (1 - δ) ≤ E * (1 - δ) := mul_le_mul_of_nonneg_right hE1 (by norm_num at hδb; linarith)
            have t3 : (x.val c : ℝ) * δ ≤ x.val c * (1 / 10 ^ 9) := mul_le_mul_of_nonneg_left hδb (by exact_mod_cast hs)
            have t4 : δ = 26000 * epsD c + (x.val c : ℝ) * epsD c / 500 := by rw [hδ, hxa]; ring
            have t5 : (x.val c : ℝ) * epsD c ≤ x.val c * (1 / 10 ^ 16) := mul_le_mul_of_nonneg_left e1 (by exact_mod_cast hs)
            norm_num at t3 t5
            rw [hxa] at hx1
            linarith
          have hp1' : 1 < ep.val c := by exact_mod_cast hp1
          have hpe : 0 ≤ ep.exp := by
            have : (10 : ℚ) ^ (0 : ℤ) < 10 ^ (ep.exp + (c.ed : ℤ)) := by rw [zpow_zero]; linarith
            rw [zpow_lt_zpow_iff_right₀ (by norm_num)] at this
            obtain ⟨j, hj⟩ := hpF.toWF.dvd
            rw [hj] at this ⊢
            have : 0 < j + 1 := by
              by_contra hc
              have : (c.ed : ℤ) * (j + 1) ≤ 0 := mul_nonpos_of_nonneg_of_nonpos (by omega) (by omega)
              have e : (c.ed : ℤ) * (j + 1) = c.ed * j + c.ed := by ring
              omega
            exact mul_nonneg (by omega) (by omega)
          have hme : em.exp < 0 := by
            have hm2 : em.val c < 10 := by
              have k := (abs_lt.mp i2).2
              have := mulEps_le20 h.lo
              by_contra hc
              have : 10 * 1 ≤ em.val c * ep.val c := mul_le_mul (not_lt.mp hc) hp1'.le (by norm_num) hmp.le
              norm_num at *; linarith
            rw [k2, show (10 : ℚ) = 10 ^ (1 : ℤ) by norm_num, ← zpow_mul, zpow_lt_zpow_iff_right₀ (by norm_num)] at hm2
            rw [k1]
            have : k + 1 ≤ 0 := by
              by_contra hc
              have : (c.ed : ℤ) * 1 ≤ c.ed * (k + 1) := mul_le_mul_of_nonneg_left (by omega) (by omega)
              omega
            have : (c.ed : ℤ) * (k + 1) ≤ 0 := mul_nonpos_of_nonneg_of_nonpos (by omega) this
            have e : (c.ed : ℤ) * (k + 1) = c.ed * k + c.ed := by ring
            omega
          omega
      obtain ⟨s1, s2⟩ := Mal.sub_op hpF q2.ne' g gp hlt
      obtain ⟨a1, a2⟩ := Mal.add_op hpF q2.ne' g gp hlt
      exact ⟨s1, s2, a1, a2⟩
  obtain ⟨s1, s2, a1, a2⟩ := hops
  have s2' := (Rat.cast_le (K := ℝ)).mpr s2
  have a2' := (Rat.cast_le (K := ℝ)).mpr a2
  push_cast at s2' a2'
  obtain ⟨-, j1, j2⟩ := hyp_real hEp hδ0 hδb m0.le hμb q4 i2' s2' a2'
  have hEi : E⁻¹ = Real.exp (-(x.val c : ℝ)) := by rw [hE, Real.exp_neg]
  have hsinh : E - E⁻¹ = 2 * Real.sinh (x.val c) := by rw [hEi, hE, Real.sinh_eq]; ring
  have hcosh : E + E⁻¹ = 2 * Real.cosh (x.val c) := by rw [hEi, hE, Real.cosh_eq]; ring
  have hc0 : 0 ≤ 2 * Real.cosh (x.val c) := by have := Real.cosh_pos (x.val c : ℝ); linarith
  rw [hsinh, hcosh] at j1
  rw [hcosh] at j2
  have hfin := mul_le_mul_of_nonneg_left hDδ hc0
  exact ⟨s1, a1, hDb, j1.trans hfin, j2.trans hfin⟩

end WD
