import Verif.Proofs.Start2
/-
  The start value of the reciprocal meets `StartOk`.
-/
namespace WD
open DW
variable {c : Cfg} {F : Flt}

theorem WF.absp_limb {x : DW} (h : WF c x) {p : ℕ} (hp1 : 1 ≤ p) (hp : p ≤ c.N) :
    (x.d0 : ℚ) * 10 ^ x.exp ≤ x.absp c p ∧ x.absp c p < (x.d0 + 1) * 10 ^ x.exp := by
  obtain ⟨k, rfl⟩ : ∃ k, p = k + 1 := ⟨p - 1, by omega⟩
  unfold absp mantp lexpp d0
  have hlen := h.len
  have h3 := c.three_le_N
  have hv := h.valid
  cases hd : x.data with
  | nil => rw [hd] at hlen; simp at hlen; omega
  | cons a l =>
    rw [hd] at hlen hv
    rw [List.take_succ_cons, limbsVal_cons, List.headD_cons]
    have hl : (l.take k).length = k := by rw [List.length_take]; simp at hlen; omega
    rw [hl]
    have hlt : limbsVal c.B (l.take k) < c.B ^ k := by
      have := limbsVal_lt (((validLimbs_cons).mp hv).2.take k)
      rwa [hl] at this
    have h1 := c.p10_mul_B (x.exp - (c.ed : ℤ) * k) k
    rw [sub_add_cancel] at h1
    rw [show x.exp - (c.ed : ℤ) * (((k + 1 : ℕ) : ℤ) - 1) = x.exp - (c.ed : ℤ) * k by push_cast; ring]
    have hpos := p10_pos (x.exp - (c.ed : ℤ) * k)
    have hlt' : (limbsVal c.B (l.take k) : ℚ) < c.B ^ k := by exact_mod_cast hlt
    rw [← h1]
    push_cast
    constructor
    · have : (0 : ℚ) ≤ limbsVal c.B (l.take k) * 10 ^ (x.exp - (c.ed : ℤ) * k) := by positivity
      linarith
    · have := mul_lt_mul_of_pos_right hlt' hpos
      linarith

/-- How many limbs a floating-point number fills. -/
theorem digitLoops_eq (hF : FloatOk c F) : ∃ K, digitLoops c F = K + 1 ∧ K ≤ 10 ∧ 1 ≤ K ∧ c.ed * K = F.digits10 + (if F.p = 53 then 1 else 2) := by
  refine ⟨digitLoops c F - 1, ?_⟩
  rcases hF with ⟨h1, h2, h3⟩ | ⟨h1, h2, h3⟩ | ⟨⟨h1, h2, h3⟩, h4⟩
  iterate 2
    unfold digitLoops Cfg.ed
    rw [h1, h2, h3]
    cases c.L <;> decide
  revert h4
  unfold digitLoops Cfg.ed
  rw [h1, h2, h3]
  cases c.L <;> decide

/-- Numerical facts about the floating-point types. -/
structure StartNum (u τ : ℚ) (d : ℕ) : Prop where
  n1 : (1 + (2 * u + τ)) * (1 + u) ^ 9 * (1 + τ) ≤ (1 + 43 / 10 / 10 ^ d) * (1 - u) ^ 14
  n2 : (1 - 43 / 10 / 10 ^ d) * (1 + u) ^ 14 ≤ (1 - (2 * u + τ)) * (1 - u) ^ 9
  n3 : (1 + u) * (1 + τ) ≤ (1 + 1 / 10 ^ (d - 1)) * (1 - u) ^ 14
  n4 : (1 + u) ^ 14 ≤ 2
  n5 : 10 ≤ 20 * (1 - u) ^ 14
  n6 : 2 * u + τ < 1

theorem startNum (hF : FloatOk c F) {K : ℕ} (hK : c.ed * K = F.digits10 + (if F.p = 53 then 1 else 2)) :
    StartNum F.u (1 / c.B ^ K) F.digits10 ∧ 24 ≤ F.p := by
  have hB : ((c.B : ℚ)) ^ K = 10 ^ (c.ed * K) := by rw [c.B_eq]; push_cast; rw [← pow_mul]
  unfold Flt.u
  rcases hF with ⟨h1, h2, h3⟩ | ⟨h1, h2, h3⟩ | ⟨⟨h1, h2, h3⟩, -⟩ <;> rw [hB, hK, h1, h2] <;> refine ⟨?_, by norm_num⟩ <;>
    constructor <;> norm_num [zpow_neg]

theorem eta_eq (K : ℕ) : eta c (K + 1) = 1 / c.B ^ K := by
  have h1 := c.p10_mul_B (-((c.ed : ℤ) * K)) K
  rw [neg_add_cancel, zpow_zero] at h1
  unfold eta
  rw [show ((K + 1 : ℕ) : ℤ) - 1 = (K : ℤ) by push_cast; ring]
  have hB : (0 : ℚ) < c.B := by exact_mod_cast c.B_pos
  field_simp
  exact h1

/-- Pure arithmetic: the composition of the errors. -/
theorem start_compose {u τ : ℚ} {d : ℕ} (hn : StartNum u τ d) (hu0 : 0 < u) (hu1 : u < 1) (hτ : 0 < τ) {X x D q v : ℚ} (hX : 0 < X)
    (hxl : X ≤ x) (hxu : x < X * (1 + τ)) (hD1 : (1 - u) ^ 14 * X ≤ D) (hD2 : D ≤ (1 + u) ^ 14 * X)
    (hq1 : (1 - u) ^ 9 ≤ q * D) (hq2 : q * D ≤ (1 + u) ^ 9) (hq : 0 < q) (hv : |v - q| ≤ q * (2 * u + τ)) :
    |v * x - 1| ≤ 43 / 10 / 10 ^ d := by
  obtain ⟨v1, v2⟩ := abs_le.mp hv
  have a1 : 0 < (1 - u) ^ 14 := pow_pos (by linarith) _
  have a2 : 0 < (1 + u) ^ 14 := by positivity
  have b1 := hn.n1
  have b2 := hn.n2
  have b6 := hn.n6
  generalize 2 * u + τ = w at *
  -- q·X between
  have c1 : q * X * (1 - u) ^ 14 ≤ (1 + u) ^ 9 := by
    calc q * X * (1 - u) ^ 14 = q * ((1 - u) ^ 14 * X) := by ring
      _ ≤ q * D := mul_le_mul_of_nonneg_left hD1 hq.le
      _ ≤ _ := hq2
  have c2 : (1 - u) ^ 9 ≤ q * X * (1 + u) ^ 14 := by
    calc _ ≤ q * D := hq1
      _ ≤ q * ((1 + u) ^ 14 * X) := mul_le_mul_of_nonneg_left hD2 hq.le
      _ = _ := by ring
  have w0 : 0 ≤ w := by
    by_contra hc
    have : q * w < 0 := mul_neg_of_pos_of_neg hq (by linarith)
    have := abs_nonneg (v - q)
    linarith
  have hup : v * x ≤ q * X * ((1 + w) * (1 + τ)) := by
    have : v ≤ q * (1 + w) := by linarith
    calc v * x ≤ q * (1 + w) * x := mul_le_mul_of_nonneg_right this (by linarith)
      _ ≤ q * (1 + w) * (X * (1 + τ)) := mul_le_mul_of_nonneg_left hxu.le (by positivity)
      _ = _ := by ring
  have hlo : q * X * (1 - w) ≤ v * x := by
    have h1 : q * (1 - w) ≤ v := by linarith
    calc q * X * (1 - w) = q * (1 - w) * X := by ring
      _ ≤ v * X := mul_le_mul_of_nonneg_right h1 hX.le
      _ ≤ v * x := mul_le_mul_of_nonneg_left hxl (le_trans (mul_nonneg hq.le (by linarith)) h1)
  rw [abs_le]
  constructor
  · have : (1 - 43 / 10 / 10 ^ d) * (1 + u) ^ 14 ≤ v * x * (1 + u) ^ 14 := by
      calc _ ≤ (1 - w) * (1 - u) ^ 9 := b2
        _ ≤ (1 - w) * (q * X * (1 + u) ^ 14) := mul_le_mul_of_nonneg_left c2 (by linarith)
        _ = q * X * (1 - w) * (1 + u) ^ 14 := by ring
        _ ≤ _ := mul_le_mul_of_nonneg_right hlo a2.le
    have := le_of_mul_le_mul_right this a2
    linarith
  · have : v * x * (1 - u) ^ 14 ≤ (1 + 43 / 10 / 10 ^ d) * (1 - u) ^ 14 := by
      calc _ ≤ q * X * ((1 + w) * (1 + τ)) * (1 - u) ^ 14 := mul_le_mul_of_nonneg_right hup a1.le
        _ = (1 + w) * (1 + τ) * (q * X * (1 - u) ^ 14) := by ring
        _ ≤ (1 + w) * (1 + τ) * (1 + u) ^ 9 := mul_le_mul_of_nonneg_left c1 (by positivity)
        _ = (1 + w) * (1 + u) ^ 9 * (1 + τ) := by ring
        _ ≤ _ := b1
    have := le_of_mul_le_mul_right this a1
    linarith

theorem start_or (hF : FloatOk c F) {x : DW} (hx : Posi c x) (hK : digitLoops c F ≤ c.N) :
    (StartOk c F.digits10 (estInv c F x) |x.val c| ∧ (invStart c F x).isSome = true) ∨
    (F.rnd (1 / (extractParts c F x).1) = 10 ∧ (extractParts c F x).2 = 1 + x.exp ∧
      ∃ K, c.ed * K = F.digits10 + (if F.p = 53 then 1 else 2) ∧
        |x.val c| * (1 - F.u) ^ 14 < (1 + F.u) * (1 + 1 / c.B ^ K) * 10 ^ x.exp) := by
  obtain ⟨K, hKe, hK8, hK1, hKed⟩ := digitLoops_eq (c := c) hF
  obtain ⟨hn, hp⟩ := startNum (c := c) hF hKed
  have hp1 : 1 ≤ F.p := by omega
  have hu0 := F.u_pos
  have hu1 := F.u_lt hp1
  have hB : (0 : ℚ) < c.B := by exact_mod_cast c.B_pos
  have hed8 : c.ed ≤ 8 := by unfold Cfg.ed; cases c.L <;> decide
  obtain ⟨p1, p2⟩ := extractParts_near (c := c) (F := F) hp1 hx (by omega) hK
  rw [hKe] at p2 hK
  have hτ : 0 < 1 / (c.B : ℚ) ^ K := by positivity
  have hX := hx.toWF.absp_pos hx.nz (p := K + 1) (by omega) hK
  have hxl := hx.toWF.absp_le (p := K + 1) hK
  have hxu := hx.toWF.lt_absp_rel hx.nz (p := K + 1) (by omega) hK
  rw [eta_eq] at hxu
  obtain ⟨l1, l2⟩ := hx.toWF.absp_limb (p := K + 1) (by omega) hK
  have hd0 : 0 < x.d0 := by
    have := hx.nz
    unfold isZero at this
    simp at this
    omega
  obtain ⟨o3, o2, o1⟩ := orderOf_digits x.d0
  have o2' := o2 hd0
  have hd0B : x.d0 < c.B := by
    have h3 := c.three_le_N
    unfold d0
    cases hd : x.data with
    | nil => exact c.B_pos
    | cons y ys => exact hx.valid y (by rw [hd]; simp)
  have o4 := (orderP10_limb hd0B).2
  have hpx := p10_pos x.exp
  set o := orderOf x.d0 with ho
  set X := x.absp c (K + 1) with hXdef
  set dd := (extractParts c F x).1 with hdd
  set ne : ℤ := (o : ℤ) + x.exp with hne
  have hnep := p10_pos ne
  have e10 : (10 : ℚ) ^ ne = 10 ^ o * 10 ^ x.exp := by rw [hne, zpow_add₀ (by norm_num), zpow_natCast]
  -- the scaled leading part lies between 1/10 and 1
  have S1 : 1 / 10 ≤ X / 10 ^ ne := by
    rw [le_div_iff₀ hnep, e10]
    have h1 : (10 : ℚ) ^ (o - 1) ≤ x.d0 := by exact_mod_cast o2'
    have h2 : (10 : ℚ) ^ o = 10 * 10 ^ (o - 1) := by
      rw [← pow_succ', Nat.sub_add_cancel o1]
    rw [h2]
    have := mul_le_mul_of_nonneg_right h1 hpx.le
    linarith
  have S2 : X / 10 ^ ne < 1 := by
    rw [div_lt_iff₀ hnep, e10, one_mul]
    have h1 : (x.d0 : ℚ) + 1 ≤ 10 ^ o := by exact_mod_cast o3
    exact lt_of_lt_of_le l2 (mul_le_mul_of_nonneg_right h1 hpx.le)
  have S0 : 0 < X / 10 ^ ne := by positivity
  have p3 : NearF F.u 14 (X / 10 ^ ne) dd := p2.mono hu0 hu1 (by omega) S0.le
  have hddpos := p3.pos hu0 hu1 S0
  have a1 : 0 < (1 - F.u) ^ 14 := pow_pos (by linarith) _
  have a2 : 0 < (1 + F.u) ^ 14 := by positivity
  have i1 : 1 / 2 ≤ 1 / dd := by
    rw [div_le_div_iff₀ (by norm_num) hddpos]
    have h1 : (1 + F.u) ^ 14 * (X / 10 ^ ne) ≤ (1 + F.u) ^ 14 * 1 := mul_le_mul_of_nonneg_left S2.le a2.le
    have := p3.2
    have := hn.n4
    linarith
  have i2 : 1 / dd ≤ 20 := by
    rw [div_le_iff₀ hddpos]
    have h1 : (1 - F.u) ^ 14 * (1 / 10) ≤ (1 - F.u) ^ 14 * (X / 10 ^ ne) := mul_le_mul_of_nonneg_left S1 a1.le
    have := p3.1
    have := hn.n5
    linarith
  have r20 : RepF F.p 20 := by
    refine ⟨5, 2, ?_, by norm_num⟩
    rw [abs_of_pos (by norm_num)]
    calc (5 : ℤ) ≤ 2 ^ 3 := by norm_num
      _ ≤ 2 ^ F.p := pow_le_pow_right₀ (by norm_num) (by omega)
  have rh : RepF F.p (1 / 2) := by
    refine ⟨1, -1, ?_, by norm_num⟩
    rw [abs_of_pos (by norm_num)]
    exact one_le_pow₀ (by norm_num)
  have m1 : 1 / 2 ≤ F.rnd (1 / dd) := by have := F.rnd_mono i1; rwa [F.rnd_eq rh] at this
  have m2 : F.rnd (1 / dd) ≤ 20 := by have := F.rnd_mono i2; rwa [F.rnd_eq r20] at this
  have hnear1 : NearF F.u 1 (1 / dd) (F.rnd (1 / dd)) := F.near_rnd hp1 (by positivity) (near_refl hu0 hu1)
  by_cases hcase : F.rnd (1 / dd) = 10 ∧ (-ne) % c.ed = (c.ed : ℤ) - 1
  · right
    obtain ⟨h10, hmod⟩ := hcase
    have ho1 : o = 1 := by
      have h1 : (c.ed : ℤ) ∣ (-ne) - ((c.ed : ℤ) - 1) := by
        rw [← hmod]; exact Int.dvd_self_sub_emod
      obtain ⟨k, hk⟩ := h1
      obtain ⟨k', hk'⟩ := hx.dvd
      have h2 : (o : ℤ) - 1 = c.ed * (-k - k' - 1) := by
        rw [hne, hk'] at hk
        linarith
      have h3 : (o : ℤ) - 1 < c.ed := by omega
      have hedp : (0 : ℤ) < c.ed := by have := c.ed_pos; omega
      have h4 : 0 ≤ (o : ℤ) - 1 := by omega
      rw [h2] at h3 h4
      have h5 : -k - k' - 1 < 1 := by
        by_contra hc
        have : (c.ed : ℤ) * 1 ≤ c.ed * (-k - k' - 1) := mul_le_mul_of_nonneg_left (by omega) hedp.le
        linarith
      have h6 : 0 ≤ -k - k' - 1 := by
        by_contra hc
        have : (c.ed : ℤ) * (-k - k' - 1) ≤ c.ed * (-1) := mul_le_mul_of_nonneg_left (by omega) hedp.le
        linarith
      have h7 : -k - k' - 1 = 0 := by omega
      rw [h7] at h2
      omega
    have hnear1' := hnear1
    rw [h10] at hnear1'
    have h1 : dd * 10 ≤ 1 + F.u := by
      have := hnear1'.2
      rw [pow_one, mul_one_div, le_div_iff₀ hddpos] at this
      linarith
    have h2 : (1 - F.u) ^ 14 * X ≤ (1 + F.u) * 10 ^ x.exp := by
      have h3 := p3.1
      rw [← mul_div_assoc, div_le_iff₀ hnep, e10, ho1, pow_one] at h3
      have := mul_le_mul_of_nonneg_right h1 hpx.le
      linarith
    refine ⟨h10, by rw [p1, hne, ho1]; rfl, K, hKed, ?_⟩
    calc |x.val c| * (1 - F.u) ^ 14 < X * (1 + 1 / c.B ^ K) * (1 - F.u) ^ 14 := mul_lt_mul_of_pos_right hxu a1
      _ = (1 - F.u) ^ 14 * X * (1 + 1 / c.B ^ K) := by ring
      _ ≤ (1 + F.u) * 10 ^ x.exp * (1 + 1 / c.B ^ K) := mul_le_mul_of_nonneg_right h2 (by positivity)
      _ = _ := by ring
  left
  have hbad : F.rnd (1 / dd) = 10 → (-ne) % c.ed ≠ (c.ed : ℤ) - 1 := fun h h' => hcase ⟨h, h'⟩
  obtain ⟨r, r1, r2, r3, q, r4, r5, r6⟩ := ofMantExp_spec (c := c) (F := F) (e := -ne) hp (F.rep _) m1 m2 hKe hK hbad
  have hst : invStart c F x = some r := r1
  have hest : estInv c F x = r := by unfold estInv; rw [hst]; rfl
  have hqn := (r5 1 (1 / dd) (by positivity) hnear1).mono hu0 hu1 (show 1 + c.ed ≤ 9 by omega) (by positivity)
  rw [hest, hst]
  refine ⟨⟨r2.toWF, ?_, ?_⟩, rfl⟩
  · have h1 := r2.toWF.abs_pos r2.nz
    have h2 := WF.val_of_pos (c := c) (x := r) r2.nn
    rw [h2]; exact h1
  · have hDpos : 0 < dd * 10 ^ ne := by positivity
    have hinv : 1 / dd * (10 : ℚ) ^ (-ne) = 1 / (dd * 10 ^ ne) := by rw [zpow_neg]; field_simp
    rw [hinv] at hqn
    obtain ⟨q1, q2⟩ := hqn
    rw [mul_one_div, div_le_iff₀ hDpos] at q1
    rw [mul_one_div, le_div_iff₀ hDpos] at q2
    refine start_compose hn hu0 hu1 hτ hX hxl hxu (D := dd * 10 ^ ne) ?_ ?_ q1 q2 r4 r6
    · have := p3.1
      rw [← mul_div_assoc, div_le_iff₀ hnep] at this
      exact this
    · have := p3.2
      rw [← mul_div_assoc, le_div_iff₀ hnep] at this
      exact this

theorem start_ok (hF : FloatOk c F) {x : DW} (hx : Posi c x) (hK : digitLoops c F ≤ c.N)
    (hg : (1 + 1 / 10 ^ (F.digits10 - 1)) * 10 ^ x.exp ≤ |x.val c|) :
    StartOk c F.digits10 (estInv c F x) |x.val c| ∧ (invStart c F x).isSome = true := by
  rcases start_or hF hx hK with h | ⟨-, -, K, hKed, h⟩
  · exact h
  · obtain ⟨hn, hp⟩ := startNum (c := c) hF hKed
    have hu1 := F.u_lt (show 1 ≤ F.p by omega)
    have a1 : 0 < (1 - F.u) ^ 14 := pow_pos (by linarith) _
    have h1 := mul_le_mul_of_nonneg_right hn.n3 (p10_pos x.exp).le
    have h2 := mul_le_mul_of_nonneg_right hg a1.le
    linarith

end WD
