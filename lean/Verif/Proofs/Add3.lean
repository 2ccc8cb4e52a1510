import Verif.Proofs.Add2

namespace WD
open DW

theorem lexp_ulp_succ {c : Cfg} (e : ℤ) : (10 : ℚ) ^ (e + (c.ed : ℤ) - (c.ed : ℤ) * ((c.N : ℤ) - 1)) =
    c.B * 10 ^ (e - (c.ed : ℤ) * ((c.N : ℤ) - 1)) := by
  have := c.p10_mul_B (e - (c.ed : ℤ) * ((c.N : ℤ) - 1)) 1
  rw [pow_one] at this
  rw [mul_comm (c.B : ℚ), this]
  congr 1
  push_cast; ring

/-- Storing an N-limb sum with its carry. -/
theorem store_carry {c : Cfg} {r : DW} {D : List Nat} {cy S : Nat} {e : ℤ} (hl : D.length = c.N)
    (hv : ValidLimbs c.B D) (hc : cy < c.B) (hS : limbsVal c.B D + cy * c.B ^ c.N = S) (hlow : c.B ^ (c.N - 1) ≤ S)
    (hd : (c.ed : ℤ) ∣ e) (hp2 : 2 ≤ r.prec) (hpN : r.prec ≤ c.N)
    (hr : if cy ≠ 0 then r.data = cy :: D.take (c.N - 1) ∧ r.exp = e + c.ed else r.data = D ∧ r.exp = e) :
    WF c r ∧ r.isZero = false ∧ e ≤ r.exp ∧
    |r.val c| ≤ S * 10 ^ (e - (c.ed : ℤ) * ((c.N : ℤ) - 1)) ∧
    (S + 1 : ℚ) * 10 ^ (e - (c.ed : ℤ) * ((c.N : ℤ) - 1)) ≤ |r.val c| + r.ulp c ∧
    (cy = 0 → |r.val c| = S * 10 ^ (e - (c.ed : ℤ) * ((c.N : ℤ) - 1))) := by
  have h3 := c.three_le_N
  have hp := p10_pos (e - (c.ed : ℤ) * ((c.N : ℤ) - 1))
  by_cases h0 : cy = 0
  · rw [if_neg (by simpa using h0)] at hr
    obtain ⟨hrd, hre⟩ := hr
    have hm : r.mant c = S := by unfold mant; rw [hrd, ← hS, h0]; simp
    have hd0 : r.d0 ≠ 0 := by
      intro h
      have : limbsVal c.B D < c.B ^ (c.N - 1) := by
        rw [← hrd]
        unfold d0 at h
        cases hh : r.data with
        | nil => rw [hrd] at hh; rw [hh] at hl; simp at hl; omega
        | cons y ys =>
          rw [hh] at h; simp at h; subst h
          rw [limbsVal_cons, zero_mul, zero_add]
          have hv' : ValidLimbs c.B ys := by rw [← hrd, hh, validLimbs_cons] at hv; exact hv.2
          have := limbsVal_lt hv'
          have hyl : ys.length = c.N - 1 := by rw [← hrd, hh] at hl; simp at hl; omega
          rwa [hyl] at this
      rw [h0, zero_mul, add_zero] at hS
      omega
    refine ⟨⟨by rw [hrd, hl], by rw [hrd]; exact hv, by rw [hre]; exact hd, hp2, hpN, fun h => absurd h hd0⟩,
      by simpa [isZero] using hd0, by omega, ?_, ?_, ?_⟩
    · rw [abs_val, hm]; unfold lexp; rw [hre]
    · rw [abs_val, ulp_eq, hm]; unfold lexp; rw [hre, add_mul, one_mul]
    · intro _; rw [abs_val, hm]; unfold lexp; rw [hre]
  · rw [if_pos h0] at hr
    obtain ⟨hrd, hre⟩ := hr
    have htl : (D.take (c.N - 1)).length = c.N - 1 := by simp [hl]
    have hm : r.mant c = S / c.B := by
      unfold mant
      rw [hrd, limbsVal_cons, htl, limbsVal_take c.B_pos hv, hl]
      have : c.N - (c.N - 1) = 1 := by omega
      rw [this, pow_one, ← hS]
      have : cy * c.B ^ c.N = cy * c.B ^ (c.N - 1) * c.B := by
        rw [mul_assoc, ← pow_succ]; congr 2
      rw [this, Nat.add_mul_div_right _ _ c.B_pos]; ring
    have hd0 : r.d0 ≠ 0 := by unfold d0; rw [hrd]; simpa using h0
    have hB := c.B_pos
    have hle : r.mant c * c.B ≤ S := by rw [hm]; exact Nat.div_mul_le_self _ _
    have hlt : S + 1 ≤ r.mant c * c.B + c.B := by
      rw [hm]; exact Nat.lt_div_mul_add hB
    have hle' : (r.mant c : ℚ) * c.B ≤ S := by exact_mod_cast hle
    have hlt' : (S : ℚ) + 1 ≤ r.mant c * c.B + c.B := by exact_mod_cast hlt
    have hx : r.lexp c = e + c.ed - (c.ed : ℤ) * ((c.N : ℤ) - 1) := by unfold lexp; rw [hre]
    refine ⟨⟨by rw [hrd, List.length_cons, htl]; omega, ?_, ?_, hp2, hpN, fun h => absurd h hd0⟩,
      by simpa [isZero] using hd0, by omega, ?_, ?_, fun h => absurd h h0⟩
    · rw [hrd, validLimbs_cons]; exact ⟨hc, hv.take _⟩
    · rw [hre]; exact dvd_add hd (dvd_refl _)
    · rw [abs_val, hx, lexp_ulp_succ, ← mul_assoc]
      exact mul_le_mul_of_nonneg_right hle' hp.le
    · rw [abs_val, ulp_eq, hx, lexp_ulp_succ]
      calc _ ≤ ((r.mant c : ℚ) * c.B + c.B) * 10 ^ (e - (c.ed : ℤ) * ((c.N : ℤ) - 1)) :=
            mul_le_mul_of_nonneg_right hlt' hp.le
        _ = _ := by ring

theorem ofs_exp {c : Cfg} {u v : DW} {k : Nat} (h : u.exp - v.exp = (k : ℤ) * c.ed) (p : Nat) :
    u.lexpp c p = v.lexpp c p + (c.ed : ℤ) * k := by
  unfold lexpp; linarith

/-- Sum of magnitudes against the aligned truncated sum of the first `p` limbs; `u` is the operand with the larger
    exponent. -/
theorem aligned_sum {c : Cfg} {u v : DW} {k p : Nat} (h : u.exp - v.exp = (k : ℤ) * c.ed) :
    ((u.mantp c p + v.mantp c p / c.B ^ k : Nat) : ℚ) * 10 ^ u.lexpp c p ≤ u.absp c p + v.absp c p ∧
    u.absp c p + v.absp c p < ((u.mantp c p + v.mantp c p / c.B ^ k : Nat) + 1 : ℚ) * 10 ^ u.lexpp c p := by
  obtain ⟨h1, h2⟩ := shift_frac c (v.mantp c p) k _ _ (ofs_exp h p)
  unfold absp
  constructor
  · rw [Nat.cast_add, add_mul]; linarith
  · rw [Nat.cast_add, add_mul, add_mul, one_mul]; linarith

theorem addSame_full {c : Cfg} {u v : DW} (hu : WF c u) (hv : WF c v) (huz : u.isZero = false) (hvz : v.isZero = false)
    {ofs : ℤ} (ho : u.exp - v.exp = ofs * c.ed) (hlt : ofs.natAbs < c.N) :
    WF c (addSame c c.N ofs u v) ∧ (addSame c c.N ofs u v).neg = u.neg ∧ (addSame c c.N ofs u v).prec = u.prec ∧
    (addSame c c.N ofs u v).isZero = false ∧
    u.exp ≤ (addSame c c.N ofs u v).exp ∧ v.exp ≤ (addSame c c.N ofs u v).exp ∧
    |(addSame c c.N ofs u v).val c| ≤ |u.val c| + |v.val c| ∧
    |u.val c| + |v.val c| < |(addSame c c.N ofs u v).val c| + (addSame c c.N ofs u v).ulp c := by
  have h3 := c.three_le_N
  have hed : (0 : ℤ) < c.ed := by exact_mod_cast c.ed_pos
  by_cases h0 : 0 ≤ ofs
  · obtain ⟨k, rfl⟩ := Int.eq_ofNat_of_zero_le h0
    obtain ⟨s1, s2, s3, s4⟩ := addN_aligned hu.pre hv.pre (le_refl c.N) (k := k) (by omega)
    have hdrop : u.data.drop c.N = [] := by rw [← hu.len, List.drop_length]
    obtain ⟨b1, b2⟩ := aligned_sum (p := c.N) ho
    rw [absp_N hu.len, absp_N hv.len] at b1 b2
    generalize hr : addSame c c.N (k : ℤ) u v = r
    unfold addSame at hr
    simp only [h0, if_true, hdrop, List.append_nil, Int.toNat_natCast] at hr
    generalize addN c.L (u.data.take c.N) ((shr c.N k v.data).take c.N) = s at *
    have hlow : c.B ^ (c.N - 1) ≤ u.mantp c c.N + v.mantp c c.N / c.B ^ k :=
      le_trans (hu.mantp_ge huz (by omega) (le_refl _)) (Nat.le_add_right _ _)
    have hcy : s.2 < c.B := lt_of_le_of_lt s3 c.one_lt_B
    have hrr : r.neg = u.neg ∧ r.prec = u.prec ∧
        (if s.2 ≠ 0 then r.data = s.2 :: s.1.take (c.N - 1) ∧ r.exp = u.exp + c.ed else r.data = s.1 ∧ r.exp = u.exp) := by
      rw [← hr]
      split
      · rw [carryIn_full s1 (by omega)]; exact ⟨rfl, rfl, rfl, rfl⟩
      · exact ⟨rfl, rfl, rfl, rfl⟩
    obtain ⟨q1, q2, q3, q4, q5, -⟩ := store_carry s1 s2 hcy s4 hlow hu.dvd (hrr.2.1 ▸ hu.prec2) (hrr.2.1 ▸ hu.precN)
      hrr.2.2
    have hvu : v.exp ≤ u.exp := by
      have : (0 : ℤ) ≤ (k : ℤ) * c.ed := by positivity
      omega
    exact ⟨q1, hrr.1, hrr.2.1, q2, q3, le_trans hvu q3, le_trans q4 b1, lt_of_lt_of_le b2 q5⟩
  · obtain ⟨k, hk⟩ := Int.eq_ofNat_of_zero_le (show 0 ≤ -ofs by omega)
    have ho' : v.exp - u.exp = (k : ℤ) * c.ed := by rw [← hk]; linarith
    obtain ⟨s1, s2, s3, s4⟩ := addN_aligned hv.pre hu.pre (le_refl c.N) (k := k) (by omega)
    have hdrop : u.data.drop c.N = [] := by rw [← hu.len, List.drop_length]
    obtain ⟨b1, b2⟩ := aligned_sum (p := c.N) ho'
    rw [absp_N hu.len, absp_N hv.len] at b1 b2
    generalize hr : addSame c c.N ofs u v = r
    unfold addSame at hr
    simp only [h0, if_false, hdrop, List.append_nil, hk, Int.toNat_natCast] at hr
    rw [addN, addN_comm_len, ← addN] at hr
    generalize addN c.L (v.data.take c.N) ((shr c.N k u.data).take c.N) = s at *
    have hlow : c.B ^ (c.N - 1) ≤ v.mantp c c.N + u.mantp c c.N / c.B ^ k :=
      le_trans (hv.mantp_ge hvz (by omega) (le_refl _)) (Nat.le_add_right _ _)
    have hcy : s.2 < c.B := lt_of_le_of_lt s3 c.one_lt_B
    have hrr : r.neg = u.neg ∧ r.prec = u.prec ∧
        (if s.2 ≠ 0 then r.data = s.2 :: s.1.take (c.N - 1) ∧ r.exp = v.exp + c.ed else r.data = s.1 ∧ r.exp = v.exp) := by
      rw [← hr]
      split
      · rw [carryIn_full s1 (by omega)]; exact ⟨rfl, rfl, rfl, rfl⟩
      · exact ⟨rfl, rfl, rfl, rfl⟩
    obtain ⟨q1, q2, q3, q4, q5, -⟩ := store_carry s1 s2 hcy s4 hlow hv.dvd (hrr.2.1 ▸ hu.prec2) (hrr.2.1 ▸ hu.precN)
      hrr.2.2
    have hvu : u.exp ≤ v.exp := by
      have : (0 : ℤ) ≤ (k : ℤ) * c.ed := by positivity
      omega
    exact ⟨q1, hrr.1, hrr.2.1, q2, le_trans hvu q3, q3, by rw [add_comm]; exact le_trans q4 b1,
      by rw [add_comm]; exact lt_of_lt_of_le b2 q5⟩

/-! ### Opposite signs -/

/-- Facts about the difference of magnitudes, first branch: `u` has the larger magnitude. -/
theorem sub_core {c : Cfg} {u v : DW} (hu : WF c u) (hv : WF c v) {p k : Nat} (hp : p ≤ c.N) (hk : k < p)
    (hle : v.mantp c p / c.B ^ k ≤ u.mantp c p) (w : DW)
    (hw : w.data = (subN c.L (u.data.take p) ((shr c.N k v.data).take p)).1 ++ w.data.drop p)
    (hwl : w.data.length = c.N) (hwv : ValidLimbs c.B (w.data.drop p)) (he : w.exp = u.exp)
    (hpr2 : 2 ≤ w.prec) (hprN : w.prec ≤ c.N) :
    Pre c w ∧ w.mantp c p = u.mantp c p - v.mantp c p / c.B ^ k := by
  obtain ⟨s1, s2, s3⟩ := subN_aligned hu.pre hv.pre hp (k := k) hk.le hle
  generalize subN c.L (u.data.take p) ((shr c.N k v.data).take p) = s at *
  refine ⟨⟨hwl, ?_, he ▸ hu.dvd, hpr2, hprN⟩, ?_⟩
  · rw [hw, validLimbs_append]; exact ⟨s2, hwv⟩
  · unfold mantp
    rw [hw, List.take_append, ← s1, List.take_length, Nat.sub_self, List.take_zero, List.append_nil, s3]
    simp only [mantp, s1]

theorem lt_of_shift {c : Cfg} {u v : DW} (hu : WF c u) (hv : WF c v) (huz : u.isZero = false) {p k : Nat} (hp : p ≤ c.N)
    (hk : k < p) (hk0 : 0 < k) : v.mantp c p / c.B ^ k < u.mantp c p := by
  have h1 := hv.mantp_lt hp
  have h2 := hu.mantp_ge huz (by omega) hp
  have h3 : v.mantp c p / c.B ^ k < c.B ^ (p - k) := by
    rw [Nat.div_lt_iff_lt_mul (Nat.pow_pos c.B_pos), ← pow_add]
    rwa [Nat.sub_add_cancel hk.le]
  have h4 : c.B ^ (p - k) ≤ c.B ^ (p - 1) := Nat.pow_le_pow_right c.B_pos (by omega)
  omega

/-- The two shapes of the opposite-sign branch, as a record before justification. -/
theorem addOpp_cases {c : Cfg} {u v : DW} (hu : WF c u) (hv : WF c v) (huz : u.isZero = false) (hvz : v.isZero = false)
    {p : Nat} (hp1 : 1 ≤ p) (hp : p ≤ c.N) {ofs : ℤ} (ho : u.exp - v.exp = ofs * c.ed) (hlt : ofs.natAbs < p) :
    (∃ w : DW, ∃ k : Nat, addOpp c p ofs u v = justify c p w ∧ Pre c w ∧ ofs = k ∧ u.exp - v.exp = (k : ℤ) * c.ed ∧
        w.exp = u.exp ∧ w.neg = u.neg ∧ w.prec = u.prec ∧ v.mantp c p / c.B ^ k < u.mantp c p ∧
        w.mantp c p = u.mantp c p - v.mantp c p / c.B ^ k ∧ w.data.drop p = u.data.drop p) ∨
    (∃ w : DW, ∃ k : Nat, addOpp c p ofs u v = justify c p w ∧ Pre c w ∧ ofs = -k ∧ v.exp - u.exp = (k : ℤ) * c.ed ∧
        w.exp = v.exp ∧ w.neg = v.neg ∧ w.prec = u.prec ∧ u.mantp c p / c.B ^ k ≤ v.mantp c p ∧
        w.mantp c p = v.mantp c p - u.mantp c p / c.B ^ k ∧ w.data.drop p = (shr c.N k u.data).drop p) := by
  have hcmp : compareRanges (u.data.take p) (v.data.take p) > 0 ↔ v.mantp c p < u.mantp c p := by
    rw [compareRanges_spec c.B _ _ (by rw [take_length' hu.len hp, take_length' hv.len hp]) (hu.valid.take p)
      (hv.valid.take p)]
    unfold cmp3 mantp
    split_ifs <;> constructor <;> intro h <;> first | omega | simp at h
  have hdl : ∀ {a b : List Nat}, a.length = p → (a ++ b).drop p = b := by
    intro a b h; rw [← h]; simp
  by_cases hcond : 0 < ofs ∨ (ofs = 0 ∧ compareRanges (u.data.take p) (v.data.take p) > 0)
  · left
    have h0 : 0 ≤ ofs := by rcases hcond with h | h <;> omega
    obtain ⟨k, rfl⟩ := Int.eq_ofNat_of_zero_le h0
    have hk : k < p := by simpa using hlt
    have hltm : v.mantp c p / c.B ^ k < u.mantp c p := by
      rcases Nat.eq_zero_or_pos k with h | h
      · subst h
        simp only [Int.natCast_zero, lt_irrefl, false_or, true_and] at hcond
        rw [pow_zero, Nat.div_one]; exact hcmp.mp hcond
      · exact lt_of_shift hu hv huz hp hk h
    obtain ⟨s1, -, -⟩ := subN_aligned hu.pre hv.pre hp (k := k) hk.le hltm.le
    let w : DW := { u with data := (subN c.L (u.data.take p) ((shr c.N k v.data).take p)).1 ++ u.data.drop p }
    have hwd : w.data.drop p = u.data.drop p := hdl s1
    refine ⟨w, k, ?_, ?_⟩
    · unfold addOpp; simp only [hcond, if_true, Int.toNat_natCast]; rfl
    · obtain ⟨c1, c2⟩ := sub_core hu hv hp hk hltm.le w (by rw [hwd])
        (by show List.length (_ ++ _) = _; rw [List.length_append, s1, List.length_drop, hu.len]; omega)
        (by rw [hwd]; exact hu.valid.drop p) rfl hu.prec2 hu.precN
      exact ⟨c1, rfl, ho, rfl, rfl, rfl, hltm, c2, hwd⟩
  · right
    have h0 : ofs ≤ 0 := by
      by_contra h; exact hcond (Or.inl (by omega))
    obtain ⟨k, hk'⟩ := Int.eq_ofNat_of_zero_le (show 0 ≤ -ofs by omega)
    have hofs : ofs = -k := by omega
    subst hofs
    have hk : k < p := by simpa using hlt
    have ho' : v.exp - u.exp = (k : ℤ) * c.ed := by linarith
    have hlem : u.mantp c p / c.B ^ k ≤ v.mantp c p := by
      rcases Nat.eq_zero_or_pos k with h | h
      · subst h
        rw [pow_zero, Nat.div_one]
        by_contra hh
        exact hcond (Or.inr ⟨rfl, hcmp.mpr (by omega)⟩)
      · exact (lt_of_shift hv hu hvz hp hk h).le
    obtain ⟨s1, -, -⟩ := subN_aligned hv.pre hu.pre hp (k := k) hk.le hlem
    have hsl : (shr c.N k u.data).length = c.N := shr_length hu.len (by omega)
    let w : DW := { data := (subN c.L (v.data.take p) ((shr c.N k u.data).take p)).1 ++ (shr c.N k u.data).drop p,
                    exp := v.exp, neg := v.neg, prec := u.prec }
    have hwd : w.data.drop p = (shr c.N k u.data).drop p := hdl s1
    refine ⟨w, k, ?_, ?_⟩
    · unfold addOpp
      rw [if_neg hcond]
      by_cases hz : k = 0
      · subst hz
        simp only [Int.natCast_zero, neg_zero, ne_eq, not_true_eq_false, if_false]
        show _ = justify c p w
        simp only [w, shr_zero hu.len]
      · have : -(k : ℤ) ≠ 0 := by omega
        simp only [ne_eq, this, not_false_eq_true, if_true, neg_neg, Int.toNat_natCast]
        rfl
    · obtain ⟨c1, c2⟩ := sub_core hv hu hp hk hlem w (by rw [hwd])
        (by show List.length (_ ++ _) = _; rw [List.length_append, s1, List.length_drop, hsl]; omega)
        (by rw [hwd]; exact (shr_valid c.B_pos hu.valid).drop p) rfl hu.prec2 hu.precN
      exact ⟨c1, rfl, ho', rfl, rfl, rfl, hlem, c2, hwd⟩

/-- Difference of magnitudes against the aligned truncated difference. -/
theorem aligned_diff {c : Cfg} {u v : DW} {k p : Nat} (h : u.exp - v.exp = (k : ℤ) * c.ed)
    (hle : v.mantp c p / c.B ^ k ≤ u.mantp c p) :
    u.absp c p - v.absp c p ≤ ((u.mantp c p - v.mantp c p / c.B ^ k : Nat) : ℚ) * 10 ^ u.lexpp c p ∧
    ((u.mantp c p - v.mantp c p / c.B ^ k : Nat) : ℚ) * 10 ^ u.lexpp c p < u.absp c p - v.absp c p + 10 ^ u.lexpp c p := by
  obtain ⟨h1, h2⟩ := shift_frac c (v.mantp c p) k _ _ (ofs_exp h p)
  unfold absp
  rw [Nat.cast_sub hle, sub_mul]
  constructor <;> linarith

end WD
