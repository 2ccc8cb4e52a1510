import Verif.Proofs.Add5

namespace WD
open DW

theorem ullDigits_spec {B : Nat} (hB : 1 < B) : ∀ (i u : Nat), u < B ^ i →
    ValidLimbs B (ullDigits B i u) ∧ limbsVal B (ullDigits B i u).reverse = u ∧
    (ullDigits B i u).length ≤ i ∧ (0 < u → (ullDigits B i u).reverse.headD 0 ≠ 0 ∧ B ^ ((ullDigits B i u).length - 1) ≤ u ∧
      1 ≤ (ullDigits B i u).length) ∧ (u = 0 → ullDigits B i u = []) ∧ u < B ^ (ullDigits B i u).length := by
  intro i
  induction i with
  | zero => intro u hu; simp at hu; subst hu; simp [ullDigits, validLimbs_nil]
  | succ i ih =>
    intro u hu
    unfold ullDigits
    by_cases h0 : u = 0
    · subst h0; simp [validLimbs_nil]
    · rw [if_neg h0]
      have hlt : u / B < B ^ i := by
        rw [Nat.div_lt_iff_lt_mul (by omega), ← pow_succ]; exact hu
      obtain ⟨a1, a2, a3, a4, a5, a6⟩ := ih (u / B) hlt
      have hmd := Nat.div_add_mod u B
      have hml := Nat.mod_lt u (show 0 < B by omega)
      refine ⟨?_, ?_, by simp; exact a3, ?_, fun h => absurd h h0, ?_⟩
      · rw [validLimbs_cons]; exact ⟨hml, a1⟩
      · rw [List.reverse_cons, limbsVal_append, a2]
        simp [limbsVal]; rw [Nat.mul_comm]; exact hmd
      · intro _
        rcases Nat.eq_zero_or_pos (u / B) with hq | hq
        · rw [a5 hq]
          have : u % B = u := Nat.mod_eq_of_lt (by rcases Nat.div_eq_zero_iff.mp hq with h | h <;> omega)
          simp [this]; omega
        · obtain ⟨b1, b2, b3⟩ := a4 hq
          refine ⟨?_, ?_, by simp⟩
          · rw [List.reverse_cons]
            cases hr : (ullDigits B i (u / B)).reverse with
            | nil => rw [hr] at b1; simp at b1
            | cons y ys => rw [hr] at b1; simpa using b1
          · simp only [List.length_cons, Nat.add_sub_cancel]
            have : (ullDigits B i (u / B)).length = ((ullDigits B i (u / B)).length - 1) + 1 := by omega
            rw [this, pow_succ]
            calc _ ≤ u / B * B := Nat.mul_le_mul_right _ b2
              _ ≤ u := Nat.div_mul_le_self _ _
      · simp only [List.length_cons, pow_succ]
        calc u = B * (u / B) + u % B := hmd.symm
          _ < B * (u / B) + B := by omega
          _ = (u / B + 1) * B := by ring
          _ ≤ _ := Nat.mul_le_mul_right _ a6

/-- Capacity of the temporary digit array. -/
theorem ull_capacity (c : Cfg) : 2 ^ 64 ≤ c.B ^ (19 / c.ed + 3) := by
  unfold Cfg.B Cfg.ed; cases c.L <;> decide

theorem fromULL_spec (c : Cfg) (u : Nat) (hu : u < 2 ^ 64) (neg : Bool) :
    Full c (fromULL c u neg) ∧ |(fromULL c u neg).val c| ≤ u ∧ (u : ℚ) < |(fromULL c u neg).val c| + (fromULL c u neg).ulp c ∧
    (fromULL c u neg).neg = neg ∧ ((fromULL c u neg).isZero = true ↔ u = 0) ∧
    (u < c.B ^ c.N → |(fromULL c u neg).val c| = u) := by
  have h3 := c.three_le_N
  have hB := c.B_pos
  obtain ⟨a1, a2, a3, a4, a5, a6⟩ := ullDigits_spec c.one_lt_B (19 / c.ed + 3) u (lt_of_lt_of_le hu (ull_capacity c))
  have ed1 := c.ed_pos
  set r := fromULL c u neg with hr
  unfold fromULL at hr
  simp only at hr
  generalize hT : ullDigits c.B (19 / c.ed + 3) u = T at *
  have hvT : ValidLimbs c.B T.reverse := by intro x hx; exact a1 x (by simpa using hx)
  set lim := min T.reverse.length (min (19 / c.ed + 3) c.N) with hlim
  have hTl : T.reverse.length = T.length := by simp
  have hlim' : lim = min T.length c.N := by rw [hlim, hTl]; omega
  have hdata : r.data = T.reverse.take lim ++ List.replicate (c.N - lim) 0 := by rw [hr]
  have hexp : r.exp = if T.reverse.length > 1 then ((T.reverse.length - 1 : Nat) : ℤ) * c.ed else 0 := by rw [hr]
  have hexp' : r.exp = ((T.length - 1 : Nat) : ℤ) * c.ed := by
    rw [hexp, hTl]; split
    · rfl
    · have : T.length - 1 = 0 := by omega
      rw [this]; simp
  have hlen : r.data.length = c.N := by rw [hdata]; simp; omega
  have hvalid : ValidLimbs c.B r.data := by
    rw [hdata, validLimbs_append]; exact ⟨hvT.take _, validLimbs_replicate hB⟩
  have htl : (T.reverse.take lim).length = lim := by simp; omega
  have hm : r.mant c = u / c.B ^ (T.length - lim) * c.B ^ (c.N - lim) := by
    unfold mant
    rw [hdata, limbsVal_append, limbsVal_replicate_zero, List.length_replicate, add_zero, limbsVal_take hB hvT, a2, hTl]
  have hneg : r.neg = neg := by rw [hr]
  have hprec : r.prec = c.N := by rw [hr]
  have hzero : r.d0 = 0 ↔ u = 0 := by
    constructor
    · intro h
      by_contra hne
      obtain ⟨b1, b2, b3⟩ := a4 (by omega)
      apply b1
      unfold d0 at h; rw [hdata] at h
      cases hh : T.reverse with
      | nil => rfl
      | cons y ys =>
        rw [hh] at h
        have : 1 ≤ lim := by omega
        obtain ⟨q, hq⟩ : ∃ q, lim = q + 1 := ⟨lim - 1, by omega⟩
        rw [hq] at h; simpa using h
    · intro h
      have := a5 h
      unfold d0; rw [hdata, this]
      cases c.N - lim <;> simp [List.replicate]
  have hwf : WF c r := by
    refine ⟨hlen, hvalid, by rw [hexp']; exact Dvd.intro_left _ rfl, by rw [hprec]; omega, by rw [hprec], ?_⟩
    intro h d hd
    have h0 := hzero.mp h
    have := a5 h0
    rw [hdata, this] at hd
    simpa using (List.mem_append.mp hd).resolve_left (by simp) |> fun h => (List.mem_replicate.mp h).2
  -- value
  have hlx : r.lexp c = (c.ed : ℤ) * (((T.length - 1 : Nat) : ℤ) - ((c.N : ℤ) - 1)) := by
    unfold lexp; rw [hexp']; ring
  have key : |r.val c| ≤ u ∧ (u : ℚ) < |r.val c| + r.ulp c ∧ (T.length ≤ c.N → |r.val c| = u) := by
    rw [ulp_eq, abs_val, hm]
    by_cases hTN : T.length ≤ c.N
    · have e1 : lim = T.length := by omega
      have hp := p10_pos (r.lexp c)
      rcases Nat.eq_zero_or_pos u with h0 | h0
      · subst h0; simp; exact hp
      · have hT1 := (a4 h0).2.2
        have e2 : (10:ℚ) ^ r.lexp c * (c.B : ℚ) ^ (c.N - T.length) = 1 := by
          rw [c.p10_mul_B, hlx]
          have : (c.ed : ℤ) * (((T.length - 1 : Nat) : ℤ) - ((c.N : ℤ) - 1)) + c.ed * ((c.N - T.length : Nat) : ℤ) = 0 := by
            have h1 : ((T.length - 1 : Nat) : ℤ) = T.length - 1 := by omega
            have h2 : ((c.N - T.length : Nat) : ℤ) = c.N - T.length := by omega
            rw [h1, h2]; ring
          rw [this, zpow_zero]
        have e3 : ((u / c.B ^ (T.length - lim) * c.B ^ (c.N - lim) : Nat) : ℚ) * 10 ^ r.lexp c = u := by
          rw [e1, Nat.sub_self, pow_zero, Nat.div_one]; push_cast
          calc _ = (u : ℚ) * ((10:ℚ) ^ r.lexp c * (c.B : ℚ) ^ (c.N - T.length)) := by ring
            _ = u := by rw [e2, mul_one]
        rw [e3]
        exact ⟨le_refl _, by linarith, fun _ => rfl⟩
    · have e1 : lim = c.N := by omega
      rw [e1, Nat.sub_self, pow_zero, Nat.mul_one]
      have hx : r.lexp c = 0 + (c.ed : ℤ) * ((T.length - c.N : Nat) : ℤ) := by
        rw [hlx]
        have h1 : ((T.length - 1 : Nat) : ℤ) = T.length - 1 := by omega
        have h2 : ((T.length - c.N : Nat) : ℤ) = T.length - c.N := by omega
        rw [h1, h2]; ring
      obtain ⟨s1, s2⟩ := shift_frac c u (T.length - c.N) _ _ hx
      rw [zpow_zero, mul_one] at s1 s2
      exact ⟨s1, s2, fun h => absurd h hTN⟩
  refine ⟨⟨hwf, hprec⟩, key.1, key.2.1, hneg, by simpa [isZero] using hzero, fun h => key.2.2 ?_⟩
  by_contra hTN
  have hu0 : 0 < u := by
    rcases Nat.eq_zero_or_pos u with h0 | h0
    · rw [a5 h0] at hTN; simp at hTN
    · exact h0
  have := (a4 hu0).2.1
  have h5 : c.B ^ c.N ≤ c.B ^ (T.length - 1) := Nat.pow_le_pow_right hB (by omega)
  omega

theorem ofLimbU_spec (c : Cfg) (u : Nat) (hu : u < 2 ^ c.L.bits) :
    Full c (ofLimbU c u) ∧ (ofLimbU c u).val c = u := by
  have h3 := c.three_le_N
  have hB := c.B_pos
  unfold ofLimbU
  by_cases h : u < c.B
  · rw [if_pos h]
    have e : ({ data := u :: List.replicate (c.N - 1) 0, exp := 0, neg := false, prec := c.N } : DW) = fromLst c [u] 0 false := by
      unfold fromLst
      congr 1
    rw [e]
    exact ⟨fromLst_single_full h (dvd_zero _), by rw [fromLst_single_val]; simp⟩
  · rw [if_neg h]
    have hq : u / c.B < c.B := by
      rw [Nat.div_lt_iff_lt_mul hB]
      refine lt_of_lt_of_le hu ?_
      unfold Cfg.B; cases c.L <;> decide
    have hq0 : u / c.B ≠ 0 := by
      intro h0
      rcases Nat.div_eq_zero_iff.mp h0 with h1 | h1 <;> omega
    refine ⟨⟨⟨?_, ?_, ?_, ?_, ?_, ?_⟩, rfl⟩, ?_⟩
    · simp; omega
    · simp only [validLimbs_cons]; exact ⟨hq, Nat.mod_lt _ hB, validLimbs_replicate hB⟩
    · exact dvd_refl _
    · show 2 ≤ c.N; omega
    · exact le_refl _
    · intro h0; simp [d0] at h0; exact absurd h0 (by intro hh; rcases hh with h1 | h1 <;> omega)
    · rw [val_eq]
      have hm : DW.mant c { data := u / c.B :: u % c.B :: List.replicate (c.N - 2) 0, exp := c.ed, neg := false, prec := c.N }
          = u * c.B ^ (c.N - 2) := by
        simp only [mant]
        rw [limbsVal_cons, limbsVal_cons, limbsVal_replicate_zero]
        simp only [List.length_cons, List.length_replicate, add_zero]
        rw [pow_succ]
        have := Nat.div_add_mod u c.B
        calc _ = (c.B * (u / c.B) + u % c.B) * c.B ^ (c.N - 2) := by ring
          _ = _ := by rw [this]
      rw [hm]
      set r : DW := { data := u / c.B :: u % c.B :: List.replicate (c.N - 2) 0, exp := c.ed, neg := false, prec := c.N }
      have h2 := c.p10_mul_B (r.lexp c) (c.N - 2)
      have h4 : r.lexp c + (c.ed : ℤ) * ((c.N - 2 : Nat) : ℤ) = 0 := by
        have : ((c.N - 2 : Nat) : ℤ) = (c.N : ℤ) - 2 := by omega
        rw [this]; show (c.ed : ℤ) - c.ed * ((c.N : ℤ) - 1) + c.ed * ((c.N : ℤ) - 2) = 0; ring
      rw [h4, zpow_zero] at h2
      have hs : r.sgn = 1 := rfl
      rw [hs]; push_cast
      calc _ = (u : ℚ) * ((10:ℚ) ^ r.lexp c * (c.B : ℚ) ^ (c.N - 2)) := by ring
        _ = u := by rw [h2, mul_one]

theorem castULL_nonneg {n : ℤ} (h0 : 0 ≤ n) (h1 : n < 2 ^ 64) : castULL n = n.toNat := by
  unfold castULL; rw [Int.emod_eq_of_lt h0 h1]

theorem negULL_cast {n : ℤ} (h0 : n < 0) (h1 : -(2 ^ 63) ≤ n) : negULL (castULL n) = n.natAbs := by
  unfold negULL castULL
  have : n % (2 ^ 64 : ℤ) = n + 2 ^ 64 := by
    rw [← Int.add_emod_right, Int.emod_eq_of_lt (by omega) (by omega)]
  rw [this]
  omega

theorem ofSigned_spec (c : Cfg) (n : ℤ) (h1 : -(2 ^ 63) ≤ n) (h2 : n < 2 ^ 63) :
    Full c (ofSigned c n) ∧ (n.natAbs < c.B ^ c.N → (ofSigned c n).val c = n) ∧
    |(ofSigned c n).val c| ≤ |(n : ℚ)| ∧ |(n : ℚ)| < |(ofSigned c n).val c| + (ofSigned c n).ulp c := by
  have hc : ofSigned c n = fromULL c n.natAbs (decide (n < 0)) := by
    unfold ofSigned
    by_cases h : n < 0
    · simp [h, negULL_cast h h1]
    · simp [h, castULL_nonneg (by omega) (show n < 2 ^ 64 by omega)]
      congr 1; omega
  rw [hc]
  obtain ⟨a, b, d, e, f, g⟩ := fromULL_spec c n.natAbs (by omega) (decide (n < 0))
  have habs : |(n : ℚ)| = (n.natAbs : ℚ) := by rw [← Int.cast_abs, Int.abs_eq_natAbs]; simp
  rw [habs]
  refine ⟨a, fun h => ?_, b, d⟩
  rw [val_sgn, e, g h]
  by_cases h : n < 0
  · simp only [h, decide_true, if_true]
    rw [← habs, abs_of_neg (by exact_mod_cast h)]; ring
  · simp only [h, decide_false, Bool.false_eq_true, if_false]
    rw [← habs, abs_of_nonneg (by exact_mod_cast (not_lt.mp h))]; ring

end WD
