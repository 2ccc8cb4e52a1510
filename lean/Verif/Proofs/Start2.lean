import Verif.Proofs.Start
import Verif.Props.Inv
/-
  The constructor from mantissa and exponent, and the start value of the reciprocal.
-/
namespace WD
open DW
variable {c : Cfg} {F : Flt}

theorem scaleDown_id (n : ℕ) {d : ℚ} {e : ℤ} (h : d ≤ 10) : scaleDown F n (d, e) = (d, e) := by
  cases n with
  | zero => rfl
  | succ n => rw [scaleDown, if_neg (by linarith)]

theorem scaleUp_id (n : ℕ) {d : ℚ} {e : ℤ} (h : 1 ≤ d) : scaleUp F n (d, e) = (d, e) := by
  cases n with
  | zero => rfl
  | succ n => rw [scaleUp, if_neg (by linarith)]

/-- The two scaling loops together. -/
def scaled (F : Flt) (d : ℚ) (e : ℤ) : ℚ × ℤ :=
  scaleUp F ⌈1 / (scaleDown F ⌈d⌉₊ (d, e)).1⌉₊ (scaleDown F ⌈d⌉₊ (d, e))

theorem scaled_spec (hp : 24 ≤ F.p) {d : ℚ} (e : ℤ) (hr : RepF F.p d) (h1 : 1 / 2 ≤ d) (h2 : d ≤ 20) :
    RepF F.p (scaled F d e).1 ∧ 1 ≤ (scaled F d e).1 ∧
    ((scaled F d e).1 < 10 ∨ ((scaled F d e).1 = 10 ∧ d = 10 ∧ (scaled F d e).2 = e)) ∧
    (∀ a S, 0 ≤ S → NearF F.u a S d → NearF F.u (a + 1) (S * 10 ^ (e - (scaled F d e).2)) (scaled F d e).1) := by
  have hp1 : 1 ≤ F.p := by omega
  have hu0 := F.u_pos
  have hu1 := F.u_lt hp1
  have hone : RepF F.p 1 := by simpa using F.rep_pow10 hp (i := 0) (by norm_num)
  have hten : RepF F.p 10 := by simpa using F.rep_pow10 hp (i := 1) (by norm_num)
  have htwo : RepF F.p 2 := by simpa using F.rep_nat (n := 2) (by
    calc 2 = 2 ^ 1 := rfl
      _ ≤ 2 ^ F.p := Nat.pow_le_pow_right (by norm_num) hp1)
  rcases lt_or_ge 10 d with h | h
  · -- divided once
    have hd2 : F.rnd (d / 10) ≤ 2 := by
      have := F.rnd_mono (show d / 10 ≤ 2 by linarith)
      rwa [F.rnd_eq htwo] at this
    have hd1 : 1 ≤ F.rnd (d / 10) := by
      have := F.rnd_mono (show 1 ≤ d / 10 by linarith)
      rwa [F.rnd_eq hone] at this
    have e1 : scaleDown F ⌈d⌉₊ (d, e) = (F.rnd (d / 10), e + 1) := by
      obtain ⟨n, hn⟩ : ∃ n, ⌈d⌉₊ = n + 1 := ⟨⌈d⌉₊ - 1, by have : 0 < ⌈d⌉₊ := Nat.ceil_pos.mpr (by linarith); omega⟩
      rw [hn, scaleDown, if_pos h, scaleDown_id n (by linarith)]
    have e2 : scaled F d e = (F.rnd (d / 10), e + 1) := by
      unfold scaled; rw [e1]; exact scaleUp_id _ hd1
    rw [e2]
    refine ⟨F.rep _, hd1, Or.inl (by show F.rnd (d / 10) < 10; linarith), fun a S hS hN => ?_⟩
    have := F.near_rnd hp1 (by positivity) (hN.const hu0 hu1 (k := 1 / 10) (by norm_num))
    rw [show e - (F.rnd (d / 10), e + 1).2 = -1 by simp]
    norm_num [div_eq_mul_inv] at this ⊢
    exact this
  · have e1 : scaleDown F ⌈d⌉₊ (d, e) = (d, e) := scaleDown_id _ h
    rcases lt_or_ge d 1 with h' | h'
    · have hge : 1 ≤ F.rnd (d * 10) := by
        have := F.rnd_mono (show 1 ≤ d * 10 by linarith)
        rwa [F.rnd_eq hone] at this
      have hlt : F.rnd (d * 10) < 10 := by
        have hg := F.gap hp1 hr hone (by norm_num) h'
        exact F.rnd_lt hp1 (by linarith) (by norm_num) (by linarith)
      have e2 : scaled F d e = (F.rnd (d * 10), e - 1) := by
        unfold scaled
        rw [e1]
        obtain ⟨n, hn⟩ : ∃ n, ⌈1 / d⌉₊ = n + 1 :=
          ⟨⌈1 / d⌉₊ - 1, by have : 0 < ⌈1 / d⌉₊ := Nat.ceil_pos.mpr (by positivity); omega⟩
        show scaleUp F ⌈1 / d⌉₊ (d, e) = _
        rw [hn, scaleUp, if_pos h', scaleUp_id n hge]
      rw [e2]
      refine ⟨F.rep _, hge, Or.inl hlt, fun a S hS hN => ?_⟩
      have := F.near_rnd hp1 (by positivity) (hN.const hu0 hu1 (k := 10) (by norm_num))
      rw [show e - (F.rnd (d * 10), e - 1).2 = 1 by simp]
      simpa using this
    · have e2 : scaled F d e = (d, e) := by unfold scaled; rw [e1]; exact scaleUp_id _ h'
      rw [e2]
      refine ⟨hr, h', ?_, fun a S hS hN => ?_⟩
      · rcases lt_or_eq_of_le h with h3 | h3
        · exact Or.inl h3
        · exact Or.inr ⟨h3, h3, rfl⟩
      · simpa using hN.mono hu0 hu1 (Nat.le_succ a) hS

theorem tmod_emod' (a b : ℤ) : a.tmod b % b = a % b := by
  have h := Int.mul_tdiv_add_tmod a b
  conv_rhs => rw [← h, add_comm, Int.add_mul_emod_self_left]

/-- The constructor from mantissa and exponent, given what the scaling loops yield. -/
theorem ofMantExp_core (hp : 24 ≤ F.p) {m : ℚ} {e : ℤ} (h1 : 0 < m) {b : ℕ} (s1 : RepF F.p (scaled F m e).1)
    (s2 : 1 ≤ (scaled F m e).1)
    (s3 : (scaled F m e).1 < 10 ∨ ((scaled F m e).1 = 10 ∧ m = 10 ∧ (scaled F m e).2 = e))
    (s4 : ∀ a S, 0 ≤ S → NearF F.u a S m → NearF F.u (a + b) (S * 10 ^ (e - (scaled F m e).2)) (scaled F m e).1) {K : ℕ}
    (hK : digitLoops c F = K + 1) (hKN : K + 1 ≤ c.N) (hbad : m = 10 → e % c.ed ≠ (c.ed : ℤ) - 1) :
    ∃ r, ofMantExp c F m e = some r ∧ Posi c r ∧ r.prec = c.N ∧
      ∃ q : ℚ, 0 < q ∧ (∀ a S, 0 ≤ S → NearF F.u a S m → NearF F.u (a + b + (c.ed - 1)) (S * 10 ^ e) q) ∧
        |r.val c - q| ≤ q * (2 * F.u + 1 / c.B ^ K) := by
  have hp1 : 1 ≤ F.p := by omega
  have hu0 := F.u_pos
  have hu1 := F.u_lt hp1
  have hed := c.ed_pos
  have hed' : (0 : ℤ) < c.ed := by exact_mod_cast hed
  have hed8 : c.ed ≤ 8 := by unfold Cfg.ed; cases c.L <;> decide
  have hm0 : m ≠ 0 := h1.ne'
  have hneg : decide (m < 0) = false := by rw [decide_eq_false_iff_not]; linarith
  obtain ⟨s, hs⟩ := Int.eq_ofNat_of_zero_le (Int.emod_nonneg (scaled F m e).2 hed'.ne')
  have hslt : s < c.ed := by
    have := Int.emod_lt_of_pos (scaled F m e).2 hed'
    rw [hs] at this; exact_mod_cast this
  have hshift : shiftLoop c F c.ed (scaled F m e) ((scaled F m e).2.tmod c.ed) =
      (timesTen F s (scaled F m e).1, (scaled F m e).2 - s) :=
    shiftLoop_eq c.ed s _ _ _ hslt.le (by rw [tmod_emod', hs]) (fun _ => by rw [tmod_emod', hs])
  obtain ⟨t1, t2, t3, t4⟩ := timesTen_spec (F := F) hp s 0 (scaled F m e).1 (by omega) s1 (by simpa using s2)
  generalize hD : timesTen F s (scaled F m e).1 = D at *
  rw [add_zero] at t2
  have hBq : (c.B : ℚ) = 10 ^ c.ed := by rw [c.B_eq]; push_cast; rfl
  have hDB : D < c.B := by
    rw [hBq]
    rcases s3 with h | ⟨h, h', h''⟩
    · calc D < 10 ^ (s + 0 + 1) := t3 (by simpa using h)
        _ ≤ _ := pow_le_pow_right₀ (by norm_num) (by omega)
    · have hb := hbad h'
      rw [← h'', hs] at hb
      have hs2 : s + 1 < c.ed := by omega
      have : D = 10 ^ (s + 1) := by
        have hgen : ∀ (s j : ℕ), s + j ≤ 8 → timesTen F s (10 ^ j) = 10 ^ (s + j) := by
          intro s
          induction s with
          | zero => intro j _; simp [timesTen]
          | succ s ih =>
            intro j hj
            rw [timesTen, ← pow_succ, F.rnd_eq (F.rep_pow10 hp (by omega)), ih (j + 1) (by omega)]
            congr 1; omega
        rw [← hD, h]
        simpa using hgen s 1 (by omega)
      rw [this]
      exact pow_lt_pow_right₀ (by norm_num) hs2
  have hD1 : 1 ≤ D := le_trans (one_le_pow₀ (by norm_num)) t2
  obtain ⟨m1, m2, m3, m4⟩ := mantLoop_spec (c := c) (F := F) hp K D t1 (by linarith) hDB
  generalize hL : mantLoop c F (K + 1) D = L at *
  set E := (scaled F m e).2 - s with hE
  set r : DW := { data := L ++ List.replicate (c.N - (K + 1)) 0, exp := E, neg := false, prec := c.N } with hrdef
  have hval : ofMantExp c F m e = some r := by
    unfold ofMantExp
    simp only [if_neg hm0, hneg, Bool.false_eq_true, if_false]
    change (if digitLoops c F ≤ c.N then some _ else none) = _
    rw [if_pos (by omega)]
    change some (DW.mk (mantLoop c F (digitLoops c F) (shiftLoop c F c.ed (scaled F m e) ((scaled F m e).2.tmod c.ed)).1 ++ _)
      (shiftLoop c F c.ed (scaled F m e) ((scaled F m e).2.tmod c.ed)).2 false c.N) = _
    rw [hshift, hK, hL]
  have hBpos : (0 : ℚ) < c.B := by exact_mod_cast c.B_pos
  have hlead : r.d0 = ⌊D⌋₊ := by
    rw [← m3]
    show (L ++ List.replicate (c.N - (K + 1)) 0).headD 0 = _
    cases L with
    | nil => simp at m1
    | cons a l => rfl
  have hd0 : r.d0 ≠ 0 := by
    rw [hlead]
    have : 1 ≤ ⌊D⌋₊ := Nat.le_floor (by exact_mod_cast hD1)
    omega
  have hwf : WF c r := by
    refine ⟨by simp [hrdef, m1]; omega, ?_, ?_, by show 2 ≤ c.N; have := c.three_le_N; omega, le_refl _, fun h => absurd h hd0⟩
    · show ValidLimbs c.B (L ++ _)
      rw [validLimbs_append]
      exact ⟨m2, validLimbs_replicate c.B_pos⟩
    · show (c.ed : ℤ) ∣ E
      have := Int.emod_add_mul_ediv (scaled F m e).2 c.ed
      rw [hs] at this
      exact ⟨(scaled F m e).2 / c.ed, by rw [hE]; push_cast at this ⊢; linarith⟩
  have hposi : Posi c r := ⟨hwf, by unfold isZero; simpa using hd0, rfl⟩
  have hrval : r.val c = (limbsVal c.B L : ℚ) / c.B ^ K * 10 ^ E := by
    have habs : |r.val c| = r.val c := (WF.val_of_pos (c := c) (x := r) rfl).symm
    rw [← habs, abs_val]
    unfold mant lexp
    rw [show r.data = L ++ List.replicate (c.N - (K + 1)) 0 from rfl, limbsVal_append, limbsVal_replicate_zero, add_zero,
      List.length_replicate, show r.exp = E from rfl]
    have h3 := c.p10_mul_B (E - (c.ed : ℤ) * ((c.N : ℤ) - 1)) (c.N - 1)
    have h4 : c.N - 1 = (c.N - (K + 1)) + K := by omega
    rw [show E - (c.ed : ℤ) * ((c.N : ℤ) - 1) + (c.ed : ℤ) * ((c.N - 1 : ℕ) : ℤ) = E by
      push_cast [Nat.cast_sub (show 1 ≤ c.N by omega)]; ring] at h3
    rw [← h3, h4, pow_add]
    push_cast
    field_simp
  have hEpos := p10_pos E
  refine ⟨r, hval, hposi, rfl, D * 10 ^ E, by positivity, fun a S hS hN => ?_, ?_⟩
  · have hN1 := s4 a S hS hN
    have hN2 := t4 (a + b) _ (by positivity) hN1
    have hN3 := (hN2.const hu0 hu1 hEpos.le).mono hu0 hu1 (show a + b + s ≤ a + b + (c.ed - 1) by omega) (by positivity)
    have hx : S * 10 ^ (e - (scaled F m e).2) * 10 ^ s * 10 ^ E = S * 10 ^ e := by
      rw [mul_assoc, mul_assoc, ← zpow_natCast, ← zpow_add₀ (by norm_num), ← zpow_add₀ (by norm_num)]
      congr 2; rw [hE]; ring
    rwa [hx] at hN3
  · rw [hrval, ← sub_mul, abs_mul, abs_of_pos hEpos]
    have hb : 0 ≤ 2 * F.u + 1 / (c.B : ℚ) ^ K := by positivity
    calc _ ≤ (2 * F.u + 1 / (c.B : ℚ) ^ K) * 10 ^ E := mul_le_mul_of_nonneg_right m4 hEpos.le
      _ ≤ D * (2 * F.u + 1 / (c.B : ℚ) ^ K) * 10 ^ E := by
          apply mul_le_mul_of_nonneg_right _ hEpos.le
          nlinarith
      _ = _ := by ring

/-- The constructor from mantissa and exponent, for mantissas around 1 to 10. -/
theorem ofMantExp_spec (hp : 24 ≤ F.p) {m : ℚ} {e : ℤ} (hr : RepF F.p m) (h1 : 1 / 2 ≤ m) (h2 : m ≤ 20) {K : ℕ}
    (hK : digitLoops c F = K + 1) (hKN : K + 1 ≤ c.N) (hbad : m = 10 → e % c.ed ≠ (c.ed : ℤ) - 1) :
    ∃ r, ofMantExp c F m e = some r ∧ Posi c r ∧ r.prec = c.N ∧
      ∃ q : ℚ, 0 < q ∧ (∀ a S, 0 ≤ S → NearF F.u a S m → NearF F.u (a + c.ed) (S * 10 ^ e) q) ∧
        |r.val c - q| ≤ q * (2 * F.u + 1 / c.B ^ K) := by
  obtain ⟨s1, s2, s3, s4⟩ := scaled_spec (e := e) hp hr h1 h2
  obtain ⟨r, r1, r2, r3, q, q1, q2, q3⟩ := ofMantExp_core (c := c) hp (show 0 < m by linarith) s1 s2 s3 s4 hK hKN hbad
  refine ⟨r, r1, r2, r3, q, q1, fun a S hS hN => ?_, q3⟩
  have := q2 a S hS hN
  rwa [show a + 1 + (c.ed - 1) = a + c.ed by have := c.ed_pos; omega] at this

/-- The scaling loops for a mantissa that may need two rounds. -/
theorem scaled_spec2 (hp : 24 ≤ F.p) {d : ℚ} (e : ℤ) (hr : RepF F.p d) (h1 : 1 / 50 ≤ d) (h2 : d ≤ 20) :
    RepF F.p (scaled F d e).1 ∧ 1 ≤ (scaled F d e).1 ∧
    ((scaled F d e).1 < 10 ∨ ((scaled F d e).1 = 10 ∧ d = 10 ∧ (scaled F d e).2 = e)) ∧
    (∀ a S, 0 ≤ S → NearF F.u a S d → NearF F.u (a + 2) (S * 10 ^ (e - (scaled F d e).2)) (scaled F d e).1) := by
  have hp1 : 1 ≤ F.p := by omega
  have hu0 := F.u_pos
  have hu1 := F.u_lt hp1
  rcases le_or_gt (1 / 2) d with h | h
  · obtain ⟨s1, s2, s3, s4⟩ := scaled_spec (e := e) hp hr h h2
    refine ⟨s1, s2, s3, fun a S hS hN => (s4 a S hS hN).mono hu0 hu1 (by omega) ?_⟩
    exact mul_nonneg hS (p10_pos _).le
  have hone : RepF F.p 1 := by simpa using F.rep_pow10 hp (i := 0) (by norm_num)
  have hfive : RepF F.p 5 := by simpa using F.rep_nat (n := 5) (by
    calc 5 ≤ 2 ^ 3 := by norm_num
      _ ≤ 2 ^ F.p := Nat.pow_le_pow_right (by norm_num) (by omega))
  have heig : RepF F.p (1 / 8) := by
    refine ⟨1, -3, ?_, by norm_num⟩
    rw [abs_of_pos (by norm_num)]
    exact one_le_pow₀ (by norm_num)
  have e1 : scaleDown F ⌈d⌉₊ (d, e) = (d, e) := scaleDown_id _ (by linarith)
  have hm1 : F.rnd (d * 10) ≤ 5 := by
    have := F.rnd_mono (show d * 10 ≤ 5 by linarith)
    rwa [F.rnd_eq hfive] at this
  have hm0 : 1 / 8 ≤ F.rnd (d * 10) := by
    have := F.rnd_mono (show 1 / 8 ≤ d * 10 by linarith)
    rwa [F.rnd_eq heig] at this
  obtain ⟨n, hn⟩ : ∃ n, ⌈1 / d⌉₊ = n + 1 + 1 :=
    ⟨⌈1 / d⌉₊ - 2, by
      have : 1 < ⌈1 / d⌉₊ := Nat.lt_ceil.mpr (by rw [lt_div_iff₀ (by linarith)]; push_cast; linarith)
      omega⟩
  have e2 : scaled F d e = scaleUp F (n + 1) (F.rnd (d * 10), e - 1) := by
    unfold scaled
    rw [e1]
    show scaleUp F ⌈1 / d⌉₊ (d, e) = _
    rw [hn, scaleUp, if_pos (by linarith)]
  rcases le_or_gt 1 (F.rnd (d * 10)) with h' | h'
  · rw [scaleUp_id _ h'] at e2
    rw [e2]
    refine ⟨F.rep _, h', Or.inl (by show F.rnd (d * 10) < 10; linarith), fun a S hS hN => ?_⟩
    have := (F.near_rnd hp1 (by positivity) (hN.const hu0 hu1 (k := 10) (by norm_num))).mono hu0 hu1 (show a + 1 ≤ a + 2 by omega) (by positivity)
    rw [show e - (F.rnd (d * 10), e - 1).2 = 1 by simp]
    simpa using this
  · have hge : 1 ≤ F.rnd (F.rnd (d * 10) * 10) := by
      have := F.rnd_mono (show 1 ≤ F.rnd (d * 10) * 10 by linarith)
      rwa [F.rnd_eq hone] at this
    have hlt : F.rnd (F.rnd (d * 10) * 10) < 10 := by
      have hg := F.gap hp1 (F.rep _) hone (by norm_num) h'
      exact F.rnd_lt hp1 (by linarith) (by norm_num) (by linarith)
    rw [scaleUp, if_pos h', scaleUp_id n hge] at e2
    rw [e2]
    refine ⟨F.rep _, hge, Or.inl hlt, fun a S hS hN => ?_⟩
    have := F.near_rnd hp1 (by positivity) ((F.near_rnd hp1 (by positivity) (hN.const hu0 hu1 (k := 10) (by norm_num))).const hu0 hu1 (k := 10) (by norm_num))
    rw [show e - (F.rnd (F.rnd (d * 10) * 10), e - 1 - 1).2 = 2 by simp; ring]
    rw [show S * (10 : ℚ) ^ (2 : ℤ) = S * 10 * 10 by norm_num; ring]
    exact this

/-- The constructor from mantissa and exponent, for mantissas from 1/50 to below 10. -/
theorem ofMantExp_spec2 (hp : 24 ≤ F.p) {m : ℚ} {e : ℤ} (hr : RepF F.p m) (h1 : 1 / 50 ≤ m) (h2 : m < 10) {K : ℕ}
    (hK : digitLoops c F = K + 1) (hKN : K + 1 ≤ c.N) :
    ∃ r, ofMantExp c F m e = some r ∧ Posi c r ∧ r.prec = c.N ∧
      ∃ q : ℚ, 0 < q ∧ NearF F.u (c.ed + 1) (m * 10 ^ e) q ∧ |r.val c - q| ≤ q * (2 * F.u + 1 / c.B ^ K) := by
  obtain ⟨s1, s2, s3, s4⟩ := scaled_spec2 (e := e) hp hr h1 (by linarith)
  obtain ⟨r, r1, r2, r3, q, q1, q2, q3⟩ := ofMantExp_core (c := c) hp (show 0 < m by linarith) s1 s2 s3 s4 hK hKN (by
    intro h; linarith)
  refine ⟨r, r1, r2, r3, q, q1, ?_, q3⟩
  have := q2 0 m (by linarith) (near_refl F.u_pos (F.u_lt (by omega)))
  rwa [show 0 + 2 + (c.ed - 1) = c.ed + 1 by have := c.ed_pos; omega] at this

end WD
