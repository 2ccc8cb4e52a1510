import Verif.Proofs.Start3
import Verif.Props.Sqrt
/-
  The start values of the square root in floating-point arithmetic.
-/
namespace WD
open DW
variable {c : Cfg} {F : Flt}

/-- Numerical facts about float and double; `b` bounds the roundings on the way to the root. -/
structure SqrtNum (u τ : ℚ) (b ed d : ℕ) : Prop where
  n1 : (1 + (2 * u + τ)) ^ 2 * (1 + u) ^ b ≤ 1 + 43 / 10 / 10 ^ d
  n2 : (1 - 43 / 10 / 10 ^ d) * (1 + τ) ≤ (1 - (2 * u + τ)) ^ 2 * (1 - u) ^ b
  n3 : (1 + (2 * u + τ)) ^ 2 * (1 + u) ^ (2 * ed + 3) ≤ 1 + 55 / 10 / 10 ^ d
  n4 : 1 - 55 / 10 / 10 ^ d ≤ (1 - (2 * u + τ)) ^ 2 * (1 - u) ^ (2 * ed + 3)
  n5 : (1 + u) ^ 19 ≤ 11 / 10
  n6 : 99 / 100 ≤ (1 - u) ^ 19
  n7 : 2 * u + τ < 1

theorem sqrtNum (hF : FloatOk c F) : ∃ K, digitLoops c F = K + 1 ∧ 1 ≤ K ∧ K ≤ 10 ∧ 24 ≤ F.p ∧
    SqrtNum F.u (1 / c.B ^ K) (K + 1 + 3 + 1 + 4 + 2 * (c.ed + 1)) c.ed F.digits10 := by
  refine ⟨digitLoops c F - 1, ?_⟩
  unfold digitLoops Cfg.ed Flt.u Cfg.B
  rcases hF with ⟨h1, h2, h3⟩ | ⟨h1, h2, h3⟩ | ⟨⟨h1, h2, h3⟩, h4⟩
  iterate 2
    rw [h1, h2, h3]
    cases c.L <;> refine ⟨by decide, by decide, by decide, by decide, ?_⟩ <;> constructor <;> norm_num [zpow_neg, Limb.ed, Limb.mask]
  rw [h1, h2, h3]
  revert h4
  unfold Cfg.ed
  cases c.L <;> intro h4
  iterate 2
    refine ⟨by decide, by decide, by decide, by decide, ?_⟩
    constructor <;> norm_num [zpow_neg, Limb.ed, Limb.mask]
  exact absurd h4 (by decide)

theorem NearF.trans {u : ℚ} (hu0 : 0 < u) (hu1 : u < 1) {a b : ℕ} {S T m : ℚ} (h1 : NearF u a S T) (h2 : NearF u b T m) :
    NearF u (a + b) S m := by
  have a1 : 0 < (1 - u) ^ b := pow_pos (by linarith) _
  have a2 : 0 < (1 + u) ^ b := by positivity
  obtain ⟨p1, p2⟩ := h1
  obtain ⟨q1, q2⟩ := h2
  constructor
  · rw [pow_add]
    have := mul_le_mul_of_nonneg_left p1 a1.le
    linarith
  · rw [pow_add]
    have := mul_le_mul_of_nonneg_left p2 a2.le
    linarith

/-- Pure arithmetic: the errors of the two start values. -/
theorem sqrt_compose {u τ : ℚ} {b ed d : ℕ} (hn : SqrtNum u τ b ed d) (hu0 : 0 < u) (hu1 : u < 1) (hτ : 0 < τ) {X x qs qv s v : ℚ} (hX : 0 < X)
    (hxl : X ≤ x) (hxu : x < X * (1 + τ)) (hqs : 0 < qs) (hqv : 0 < qv) (h1 : NearF u b X (qs ^ 2))
    (h2 : NearF u (2 * ed + 3) (1 / 2) (qs * qv)) (hs : |s - qs| ≤ qs * (2 * u + τ)) (hv : |v - qv| ≤ qv * (2 * u + τ)) :
    |s ^ 2 - x| ≤ x * (43 / 10 / 10 ^ d) ∧ |2 * s * v - 1| ≤ 55 / 10 / 10 ^ d := by
  obtain ⟨n1, n2, n3, n4, -, -, n7⟩ := hn
  have w0 : 0 < 2 * u + τ := by linarith
  generalize 2 * u + τ = w at *
  obtain ⟨s1, s2⟩ := abs_le.mp hs
  obtain ⟨v1, v2⟩ := abs_le.mp hv
  obtain ⟨a1, a2⟩ := h1
  obtain ⟨b1, b2⟩ := h2
  have sl : qs * (1 - w) ≤ s := by linarith
  have su : s ≤ qs * (1 + w) := by linarith
  have vl : qv * (1 - w) ≤ v := by linarith
  have vu : v ≤ qv * (1 + w) := by linarith
  have sl0 : 0 ≤ qs * (1 - w) := mul_nonneg hqs.le (by linarith)
  have vl0 : 0 ≤ qv * (1 - w) := mul_nonneg hqv.le (by linarith)
  have w1 : 0 ≤ (1 + w) ^ 2 := sq_nonneg _
  have w2 : 0 ≤ (1 - w) ^ 2 := sq_nonneg _
  constructor
  · have hup : s ^ 2 ≤ X * (1 + 43 / 10 / 10 ^ d) := by
      calc s ^ 2 ≤ (qs * (1 + w)) ^ 2 := pow_le_pow_left₀ (by linarith) su 2
        _ = (1 + w) ^ 2 * qs ^ 2 := by ring
        _ ≤ (1 + w) ^ 2 * ((1 + u) ^ b * X) := mul_le_mul_of_nonneg_left a2 w1
        _ = X * ((1 + w) ^ 2 * (1 + u) ^ b) := by ring
        _ ≤ _ := mul_le_mul_of_nonneg_left n1 hX.le
    have hlo : X * (1 + τ) * (1 - 43 / 10 / 10 ^ d) ≤ s ^ 2 := by
      calc X * (1 + τ) * (1 - 43 / 10 / 10 ^ d) = X * ((1 - 43 / 10 / 10 ^ d) * (1 + τ)) := by ring
        _ ≤ X * ((1 - w) ^ 2 * (1 - u) ^ b) := mul_le_mul_of_nonneg_left n2 hX.le
        _ = (1 - w) ^ 2 * ((1 - u) ^ b * X) := by ring
        _ ≤ (1 - w) ^ 2 * qs ^ 2 := mul_le_mul_of_nonneg_left a1 w2
        _ = (qs * (1 - w)) ^ 2 := by ring
        _ ≤ _ := pow_le_pow_left₀ sl0 sl 2
    have hδ0 : (0 : ℚ) < 43 / 10 / 10 ^ d := by positivity
    have hδ1 : (43 : ℚ) / 10 / 10 ^ d ≤ 1 ∨ 1 < (43 : ℚ) / 10 / 10 ^ d := le_or_gt _ _
    generalize (43 : ℚ) / 10 / 10 ^ d = δ at *
    have k1 : X * δ ≤ x * δ := mul_le_mul_of_nonneg_right hxl hδ0.le
    rw [abs_le]
    constructor
    · rcases hδ1 with h | h
      · have := mul_le_mul_of_nonneg_right hxu.le (show 0 ≤ 1 - δ by linarith)
        linarith
      · have : x * 1 ≤ x * δ := mul_le_mul_of_nonneg_left h.le (by linarith)
        have := sq_nonneg s
        linarith
    · linarith
  · have hup : s * v ≤ 1 / 2 * (1 + 55 / 10 / 10 ^ d) := by
      calc s * v ≤ (qs * (1 + w)) * (qv * (1 + w)) := mul_le_mul su vu (by linarith) (by linarith)
        _ = (1 + w) ^ 2 * (qs * qv) := by ring
        _ ≤ (1 + w) ^ 2 * ((1 + u) ^ (2 * ed + 3) * (1 / 2)) := mul_le_mul_of_nonneg_left b2 w1
        _ = 1 / 2 * ((1 + w) ^ 2 * (1 + u) ^ (2 * ed + 3)) := by ring
        _ ≤ _ := mul_le_mul_of_nonneg_left n3 (by norm_num)
    have hlo : 1 / 2 * (1 - 55 / 10 / 10 ^ d) ≤ s * v := by
      calc 1 / 2 * (1 - 55 / 10 / 10 ^ d) ≤ 1 / 2 * ((1 - w) ^ 2 * (1 - u) ^ (2 * ed + 3)) := mul_le_mul_of_nonneg_left n4 (by norm_num)
        _ = (1 - w) ^ 2 * ((1 - u) ^ (2 * ed + 3) * (1 / 2)) := by ring
        _ ≤ (1 - w) ^ 2 * (qs * qv) := mul_le_mul_of_nonneg_left b1 w2
        _ = (qs * (1 - w)) * (qv * (1 - w)) := by ring
        _ ≤ _ := mul_le_mul sl vl vl0 (by linarith)
    rw [abs_le]
    constructor <;> linarith

theorem sqrt_start_ok (hF : FloatOk c F) {sq : ℚ → ℚ} (hsq : F.IsSqrt sq) {x : DW} (hx : Posi c x) (hK : digitLoops c F ≤ c.N) :
    SqrtStartOk c F.digits10 (estSqrt c F sq x).1 (estSqrt c F sq x).2 (x.val c) ∧ (sqrtStart c F sq x).isSome = true := by
  obtain ⟨K, hKe, hK1, hK8, hp, hn⟩ := sqrtNum (c := c) hF
  have hp1 : 1 ≤ F.p := by omega
  have hu0 := F.u_pos
  have hu1 := F.u_lt hp1
  have hB : (0 : ℚ) < c.B := by exact_mod_cast c.B_pos
  obtain ⟨p1, p2⟩ := extractParts_near (c := c) (F := F) hp1 hx (by omega) hK
  rw [hKe] at p2 hK
  have hτ : 0 < 1 / (c.B : ℚ) ^ K := by positivity
  have hX := hx.toWF.absp_pos hx.nz (p := K + 1) (by omega) hK
  have hxl := hx.toWF.absp_le (p := K + 1) hK
  have hxu := hx.toWF.lt_absp_rel hx.nz (p := K + 1) (by omega) hK
  rw [eta_eq, hx.abs_val] at hxu
  rw [hx.abs_val] at hxl
  obtain ⟨l1, l2⟩ := hx.toWF.absp_limb (p := K + 1) (by omega) hK
  have hd0 : 0 < x.d0 := by
    have := hx.nz
    unfold isZero at this
    simp at this
    omega
  obtain ⟨o3, o2, o1⟩ := orderOf_digits x.d0
  have o2' := o2 hd0
  have hpx := p10_pos x.exp
  set o := orderOf x.d0 with ho
  set X := x.absp c (K + 1) with hXdef
  obtain ⟨dd, hdd⟩ : ∃ dd, dd = (extractParts c F x).1 := ⟨_, rfl⟩
  obtain ⟨ne, hne⟩ : ∃ ne : ℤ, ne = (o : ℤ) + x.exp := ⟨_, rfl⟩
  rw [← hdd] at p2
  rw [← hne] at p1 p2
  have hnep := p10_pos ne
  have e10 : (10 : ℚ) ^ ne = 10 ^ o * 10 ^ x.exp := by rw [hne, zpow_add₀ (by norm_num), zpow_natCast]
  have S1 : 1 / 10 ≤ X / 10 ^ ne := by
    rw [le_div_iff₀ hnep, e10]
    have h1 : (10 : ℚ) ^ (o - 1) ≤ x.d0 := by exact_mod_cast o2'
    have h2 : (10 : ℚ) ^ o = 10 * 10 ^ (o - 1) := by
      rw [← pow_succ', Nat.sub_add_cancel o1]
    rw [h2]
    have := mul_le_mul_of_nonneg_right h1 hpx.le
    linarith
  have S2 : X / 10 ^ ne < 1 := by
    rw [div_lt_iff₀ hnep, e10, one_mul]
    have h1 : (x.d0 : ℚ) + 1 ≤ 10 ^ o := by exact_mod_cast o3
    exact lt_of_lt_of_le l2 (mul_le_mul_of_nonneg_right h1 hpx.le)
  -- even exponent
  obtain ⟨D, hD⟩ : ∃ D : ℚ × ℤ, D = if ne.tmod 2 ≠ 0 then (F.rnd (dd / 10), ne + 1) else (dd, ne) := ⟨_, rfl⟩
  obtain ⟨h, hh, T1, T2, T3⟩ : ∃ h : ℤ, D.2 = 2 * h ∧ 1 / 100 ≤ X / 10 ^ (2 * h) ∧ X / 10 ^ (2 * h) < 1 ∧
      NearF F.u (K + 1 + 3 + 1) (X / 10 ^ (2 * h)) D.1 := by
    by_cases hodd : ne.tmod 2 ≠ 0
    · rw [if_pos hodd] at hD
      have hm := Int.mul_tdiv_add_tmod ne 2
      have hm2 : ne % 2 = 1 := by
        rcases Int.emod_two_eq_zero_or_one ne with h | h
        · exact absurd (Int.tmod_eq_zero_of_dvd (Int.dvd_of_emod_eq_zero h)) hodd
        · exact h
      refine ⟨(ne + 1) / 2, by rw [hD]; show ne + 1 = _; omega, ?_⟩
      have he : 2 * ((ne + 1) / 2) = ne + 1 := by omega
      have hq : X / 10 ^ (ne + 1) = X / 10 ^ ne * (1 / 10) := by
        rw [zpow_add₀ (by norm_num), zpow_one, div_mul_div_comm, mul_one]
      rw [he, hq]
      refine ⟨by linarith, by linarith, ?_⟩
      rw [hD]
      have := F.near_rnd hp1 (by positivity) (p2.const hu0 hu1 (k := 1 / 10) (by norm_num))
      show NearF F.u _ _ (F.rnd (dd / 10))
      rw [div_eq_mul_one_div dd]
      exact this
    · rw [if_neg hodd] at hD
      push Not at hodd
      have := Int.dvd_of_tmod_eq_zero hodd
      refine ⟨ne / 2, by rw [hD]; show ne = _; omega, ?_⟩
      rw [show 2 * (ne / 2) = ne by omega]
      refine ⟨by linarith, S2, ?_⟩
      rw [hD]
      exact p2.mono hu0 hu1 (by omega) (by positivity)
  have hT0 : 0 < X / 10 ^ (2 * h) := by linarith
  have hD0 := T3.pos hu0 hu1 hT0
  obtain ⟨r1, r2, r3, r4⟩ := hsq D.1 hD0
  obtain ⟨σ, hσ⟩ : ∃ σ, σ = sq D.1 := ⟨_, rfl⟩
  rw [← hσ] at r1 r2 r3 r4
  have T4 : NearF F.u (K + 1 + 3 + 1 + 4) (X / 10 ^ (2 * h)) (σ ^ 2) := T3.trans hu0 hu1 ⟨r3, r4⟩
  have T5 : NearF F.u 19 (X / 10 ^ (2 * h)) (σ ^ 2) := T4.mono hu0 hu1 (by omega) hT0.le
  have n5 := hn.n5
  have n6 := hn.n6
  have σ2u : σ ^ 2 ≤ 11 / 10 := by
    have h1 := T5.2
    have h2 : (1 + F.u) ^ 19 * (X / 10 ^ (2 * h)) ≤ (11 / 10) * 1 := mul_le_mul n5 T2.le hT0.le (by norm_num)
    linarith
  have σ2l : 99 / 10000 ≤ σ ^ 2 := by
    have h1 := T5.1
    have h2 : (99 / 100 : ℚ) * (1 / 100) ≤ (1 - F.u) ^ 19 * (X / 10 ^ (2 * h)) := mul_le_mul n6 T1 (by norm_num) (le_trans (by norm_num) n6)
    linarith
  have σu : σ ≤ 11 / 10 := by
    by_contra hc
    push Not at hc
    have : (11 / 10 : ℚ) ^ 2 < σ ^ 2 := pow_lt_pow_left₀ hc (by norm_num) (by norm_num)
    norm_num at this; linarith
  have σl : 99 / 1000 ≤ σ := by
    by_contra hc
    push Not at hc
    have : σ ^ 2 < (99 / 1000) ^ 2 := pow_lt_pow_left₀ hc r2.le (by norm_num)
    norm_num at this; linarith
  obtain ⟨ρ, hρ⟩ : ∃ ρ, ρ = F.rnd (1 / 2 / σ) := ⟨_, rfl⟩
  have ρrep : RepF F.p ρ := by rw [hρ]; exact F.rep _
  have ρ1 : NearF F.u 1 (1 / 2 / σ) ρ := by rw [hρ]; exact F.near_rnd hp1 (by positivity) (near_refl hu0 hu1)
  have hu2 : F.u ≤ 1 / 100 := by
    have h0 : (1 + F.u) ^ 1 ≤ (1 + F.u) ^ 19 := pow_le_pow_right₀ (by linarith) (by norm_num)
    have h1 : (1 - F.u) ^ 19 ≤ (1 - F.u) ^ 1 := pow_le_pow_of_le_one (by linarith) (by linarith) (by norm_num)
    linarith
  have i1 : 4 / 10 ≤ 1 / 2 / σ := by rw [le_div_iff₀ r2]; linarith
  have i2 : 1 / 2 / σ ≤ 6 := by rw [div_le_iff₀ r2]; linarith
  have ρl : 1 / 50 ≤ ρ := by have := ρ1.1; rw [pow_one] at this; nlinarith
  have ρu : ρ < 10 := by have := ρ1.2; rw [pow_one] at this; nlinarith
  obtain ⟨s, hs1, hs2, hs3, qs, hs4, hs5, hs6⟩ := ofMantExp_spec2 (c := c) (F := F) (m := σ) (e := h) hp r1 (by linarith) (by linarith) hKe hK
  obtain ⟨v, hv1, hv2, hv3, qv, hv4, hv5, hv6⟩ := ofMantExp_spec2 (c := c) (F := F) (m := ρ) (e := -h) hp ρrep ρl ρu hKe hK
  have hstart : sqrtStart c F sq x = some (s, v) := by
    unfold sqrtStart
    have hpe : (extractParts c F x) = (dd, ne) := Prod.ext hdd.symm p1
    simp only [hpe]
    rw [← hD, hh, ← hσ, ← hρ]
    have t1 : (2 * h).tdiv 2 = h := Int.mul_tdiv_cancel_left h (by norm_num)
    have t2 : (-(2 * h)).tdiv 2 = -h := by rw [show -(2 * h) = 2 * (-h) by ring]; exact Int.mul_tdiv_cancel_left (-h) (by norm_num)
    rw [t1, t2, hs1, hv1]
  have hest : estSqrt c F sq x = (s, v) := by unfold estSqrt; rw [hstart]; rfl
  rw [hest]
  refine ⟨?_, by rw [hstart]; rfl⟩
  have h10 := p10_pos h
  have hh0 : (10 : ℚ) ^ (2 * h) = (10 ^ h) ^ 2 := by rw [mul_comm, zpow_mul]; norm_cast
  -- squares
  have N1 : NearF F.u (2 * (c.ed + 1)) (σ ^ 2 * 10 ^ (2 * h)) (qs ^ 2) := by
    have := NearF.mul hu0 hu1 (by positivity) (by positivity) hs5 hs5
    rw [hh0, show σ ^ 2 * ((10 : ℚ) ^ h) ^ 2 = σ * 10 ^ h * (σ * 10 ^ h) by ring, pow_two qs, two_mul]
    exact this
  have N2 : NearF F.u (K + 1 + 3 + 1 + 4) X (σ ^ 2 * 10 ^ (2 * h)) := by
    have := T4.const hu0 hu1 (k := 10 ^ (2 * h)) (p10_pos _).le
    rwa [div_mul_cancel₀ X (p10_pos (2 * h)).ne'] at this
  have N3 := N2.trans hu0 hu1 N1
  have N4 : NearF F.u (2 * c.ed + 3) (1 / 2) (qs * qv) := by
    have h1 := (ρ1.const hu0 hu1 (k := 10 ^ (-h)) (p10_pos _).le).trans hu0 hu1 hv5
    have h2 := NearF.mul hu0 hu1 (by positivity) (by positivity) hs5 h1
    have h3 : σ * 10 ^ h * (1 / 2 / σ * 10 ^ (-h)) = 1 / 2 := by
      rw [zpow_neg]; field_simp
    rw [h3, show c.ed + 1 + (1 + (c.ed + 1)) = 2 * c.ed + 3 by ring] at h2
    exact h2
  obtain ⟨z1, z2⟩ := sqrt_compose hn hu0 hu1 hτ hX hxl hxu hs4 hv4 N3 N4 hs6 hv6
  exact ⟨hs2.toWF, hs2.val_pos, hv2.toWF, hv2.val_pos, z1, z2⟩

end WD
