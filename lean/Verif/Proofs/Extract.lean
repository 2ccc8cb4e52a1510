import Verif.Proofs.Floor

namespace WD
open DW

theorem gather_foldl (B : Nat) : ∀ (l : List Nat) (v : Nat),
    l.foldl (fun val d => (val * B % 2 ^ 64 + d) % 2 ^ 64) v % 2 ^ 64 = (v * B ^ l.length + limbsVal B l) % 2 ^ 64 := by
  intro l
  induction l with
  | nil => intro v; simp
  | cons d ds ih =>
    intro v
    rw [List.foldl_cons, ih, limbsVal_cons, List.length_cons, pow_succ B]
    have e1 : (v * B % 2 ^ 64 + d) % 2 ^ 64 = (v * B + d) % 2 ^ 64 := by omega
    rw [e1, Nat.add_mod, Nat.mul_mod, Nat.mod_mod, ← Nat.mul_mod, ← Nat.add_mod]
    congr 1; ring

theorem foldl_lt (B : Nat) : ∀ (l : List Nat) (v : Nat), v < 2 ^ 64 →
    l.foldl (fun val d => (val * B % 2 ^ 64 + d) % 2 ^ 64) v < 2 ^ 64 := by
  intro l
  induction l with
  | nil => intro v h; exact h
  | cons d ds ih => intro v _; exact ih _ (Nat.mod_lt _ (by norm_num))

theorem gatherULL_spec (B : Nat) (l : List Nat) : gatherULL B l = limbsVal B l % 2 ^ 64 := by
  have h := gather_foldl B l 0
  rw [Nat.mod_eq_of_lt (foldl_lt B l 0 (by norm_num)), Nat.zero_mul, Nat.zero_add] at h
  exact h

theorem cap64 (c : Cfg) (h : 16 ≤ c.digits10) : 2 ^ 64 ≤ c.B ^ c.N ∧ c.ed ≤ c.digits10 + 4 := by
  have h1 := c.digits_le
  have h3 : 2 ≤ c.ed ∧ c.ed ≤ 8 := by unfold Cfg.ed; cases c.L <;> decide
  have h4 : c.ed * (c.N - 1) ≤ c.ed * c.N := Nat.mul_le_mul_left _ (by omega)
  refine ⟨?_, by omega⟩
  rw [Cfg.B_eq, ← pow_mul]
  calc 2 ^ 64 ≤ 10 ^ 20 := by norm_num
    _ ≤ _ := Nat.pow_le_pow_right (by norm_num) (by omega)

theorem limbs_of_fabs (x : DW) : (fabs x).data = x.data ∧ (fabs x).exp = x.exp := by
  unfold fabs; split
  · unfold negate; split <;> exact ⟨rfl, rfl⟩
  · exact ⟨rfl, rfl⟩

/-- The gathered limbs are the integer part of the magnitude. -/
theorem gather_int {c : Cfg} {y w : DW} (hy : WF c y) (h0 : 0 ≤ y.exp) (hb : |y.val c| < c.B ^ c.N)
    (hd : w.data.take (y.ilimbs c) = y.data.take (y.ilimbs c)) (he : w.exp = y.exp)
    (hw : w.data = y.data ∨ y.ilimbs c ≤ c.N) :
    ((gatherULL c.B (intLimbs c w) : ℕ) : ℤ) = ⌊|y.val c|⌋ % 2 ^ 64 := by
  rw [gatherULL_spec]
  unfold intLimbs
  rw [he]
  have h3 := c.three_le_N
  cases hz : y.isZero
  · have hk : y.ilimbs c ≤ c.N := by
      have h1 := exp_lt_of_abs hy hz (e := (c.ed : ℤ) * c.N) (by
        have e : ((10 : ℚ) ^ ((c.ed : ℤ) * c.N)) = c.B ^ c.N := by
          rw [Cfg.B_cast, ← pow_mul, ← zpow_natCast]; push_cast; rfl
        rw [e]; exact hb)
      have h2 := exp_ilimbs hy h0
      have hp : (0 : ℤ) < c.ed := by exact_mod_cast c.ed_pos
      rw [h2] at h1
      have := lt_of_mul_lt_mul_left h1 hp.le
      omega
    have e : min (y.exp.toNat / c.ed) (c.N - 1) + 1 = y.ilimbs c := by
      have : y.exp.toNat / c.ed + 1 = y.ilimbs c := rfl
      omega
    rw [e, hd, floor_abs hy h0 hk]; push_cast; rfl
  · have hall := hy.lead (by simpa [isZero] using hz)
    have hv : y.val c = 0 := hy.isZero_iff.mp hz
    rw [hv, abs_zero, Int.floor_zero]
    rw [limbsVal_eq_zero]
    · rfl
    · intro d hd'
      rcases hw with h | h
      · rw [h] at hd'; exact hall d (List.mem_of_mem_take hd')
      · have e : min (y.exp.toNat / c.ed) (c.N - 1) + 1 = y.ilimbs c := by
          have : y.exp.toNat / c.ed + 1 = y.ilimbs c := rfl
          omega
        rw [e, hd] at hd'
        exact hall d (List.mem_of_mem_take hd')

theorem integerPart_take {c : Cfg} {y : DW} (hy : WF c y) (h0 : 0 ≤ y.exp) :
    (integerPart c y).data.take (y.ilimbs c) = y.data.take (y.ilimbs c) ∧ (integerPart c y).exp = y.exp ∧
    ((integerPart c y).data = y.data ∨ y.ilimbs c ≤ c.N) := by
  by_cases hd : y.exp < (c.digits10 : ℤ) - 1
  · obtain ⟨hk, he⟩ := integerPart_full hy hd h0
    have hlen : (y.data.take (y.ilimbs c)).length = y.ilimbs c := by simp [hy.len]; exact hk
    rw [he]
    refine ⟨?_, rfl, Or.inr hk⟩
    show (y.data.take (y.ilimbs c) ++ _).take _ = _
    rw [List.take_append_of_le_length (by rw [hlen]), List.take_of_length_le (by rw [hlen])]
  · have : integerPart c y = y := by unfold integerPart; rw [if_neg (by omega), if_pos (by omega)]
    rw [this]; exact ⟨rfl, rfl, Or.inl rfl⟩

theorem trunc_of_exp_neg {c : Cfg} {x : DW} (hx : WF c x) (h0 : x.exp < 0) : truncQ (x.val c) = 0 := by
  rw [val_sgn c x, truncQ_sgn _ (abs_nonneg _), floor_abs_of_exp_neg hx h0]; simp

theorem lt_one_of_exp_neg {c : Cfg} {x : DW} (hx : WF c x) (h0 : x.exp < 0) : |x.val c| < 1 := by
  have := floor_abs_of_exp_neg hx h0
  rw [Int.floor_eq_zero_iff, Set.mem_Ico] at this
  exact this.2

/-- Signed extraction of a number whose rounding to `max_digits10` digits denotes the same value. -/
theorem toSLL_spec {c : Cfg} {x : DW} (hx : WF c x) (hD : 16 ≤ c.digits10) (hy : (roundSelf c x).val c = x.val c)
    (hye : (roundSelf c x).exp = x.exp) :
    toSLL c x = if 2 ^ 63 - 1 < x.val c then 2 ^ 63 - 1 else if x.val c < -(2 ^ 63) then -(2 ^ 63) else truncQ (x.val c) := by
  obtain ⟨hcap, hg⟩ := cap64 c hD
  have hcapQ : ((2 : ℚ) ^ 64) ≤ c.B ^ c.N := by exact_mod_cast hcap
  obtain ⟨m1, m2, -, -⟩ := ofSigned_spec c (2 ^ 63 - 1) (by norm_num) (by norm_num)
  obtain ⟨n1, n2, -, -⟩ := ofSigned_spec c (-(2 ^ 63)) (by norm_num) (by norm_num)
  have m2' : (ofSigned c (2 ^ 63 - 1)).val c = 2 ^ 63 - 1 := by
    rw [m2 (lt_of_lt_of_le (by norm_num) hcap)]; norm_num
  have n2' : (ofSigned c (-(2 ^ 63))).val c = -(2 ^ 63) := by
    rw [n2 (lt_of_lt_of_le (by norm_num) hcap)]; norm_num
  have c1 := cmp_spec hx m1.toWF
  have c2 := cmp_spec hx n1.toWF
  rw [m2'] at c1
  rw [n2'] at c2
  have hgt : gt x (ofSigned c (2 ^ 63 - 1)) = true ↔ (2 ^ 63 - 1 : ℚ) < x.val c := by
    unfold DW.gt
    rcases c1 with ⟨h, h'⟩ | ⟨h, h'⟩ | ⟨h, h'⟩ <;> rw [h] <;> simp <;> linarith
  have hlt : lt x (ofSigned c (-(2 ^ 63))) = true ↔ x.val c < (-(2 ^ 63) : ℚ) := by
    unfold DW.lt
    rcases c2 with ⟨h, h'⟩ | ⟨h, h'⟩ | ⟨h, h'⟩ <;> rw [h] <;> simp <;> linarith
  unfold toSLL
  by_cases h0 : 0 ≤ x.exp
  · rw [if_pos h0]
    obtain ⟨w1, w2, w3, w4⟩ := roundSelf_wf hx hg
    obtain ⟨t1, t2, t3⟩ := integerPart_take w1 (by rw [hye]; exact h0)
    obtain ⟨f1, f2⟩ := limbs_of_fabs (integerPart c (roundSelf c x))
    have hsgn := val_sgn c x
    have hnn := abs_nonneg (x.val c)
    have gat : |x.val c| < c.B ^ c.N →
        ((gatherULL c.B (intLimbs c (fabs (integerPart c (roundSelf c x)))) : ℕ) : ℤ) = ⌊|x.val c|⌋ % 2 ^ 64 := by
      intro hb
      rw [← hy]
      exact gather_int w1 (by rw [hye]; exact h0) (by rw [hy]; exact hb) (by rw [f1]; exact t1) (by rw [f2]; exact t2) (by rw [f1]; exact t3)
    rcases Bool.dichotomy x.neg with hn | hn
    · rw [hn] at hsgn
      simp only [Bool.false_eq_true, if_false, one_mul] at hsgn
      simp only [isNeg, hn, Bool.not_false, Bool.true_and, Bool.false_and, Bool.false_eq_true, if_false, if_true]
      by_cases hbig : (2 ^ 63 - 1 : ℚ) < x.val c
      · rw [if_pos (hgt.mpr hbig), if_pos hbig]
      · rw [if_neg (fun h => hbig (hgt.mp h)), if_neg hbig, if_neg (by rw [hsgn]; linarith)]
        have hle : x.val c ≤ 2 ^ 63 - 1 := by linarith
        have hab : |x.val c| < 2 ^ 64 := by rw [← hsgn]; linarith
        have g := gat (by linarith)
        have hfl : ⌊|x.val c|⌋ ≤ 2 ^ 63 - 1 := by
          have : (⌊|x.val c|⌋ : ℚ) ≤ 2 ^ 63 - 1 := le_trans (Int.floor_le _) (by rw [← hsgn]; exact hle)
          exact_mod_cast this
        have hfl0 : 0 ≤ ⌊|x.val c|⌋ := Int.floor_nonneg.mpr hnn
        rw [Int.emod_eq_of_lt hfl0 (by omega)] at g
        unfold asSigned
        rw [if_pos (by omega), g]
        unfold truncQ
        rw [if_pos (by rw [hsgn]; exact hnn), ← hsgn]
    · rw [hn] at hsgn
      simp only [if_true, neg_one_mul] at hsgn
      simp only [isNeg, hn, Bool.not_true, Bool.true_and, Bool.false_and, Bool.false_eq_true, if_false]
      rw [if_neg (show ¬ (2 ^ 63 - 1 : ℚ) < x.val c by rw [hsgn]; linarith)]
      by_cases hsm : x.val c < (-(2 ^ 63) : ℚ)
      · rw [if_pos (hlt.mpr hsm), if_pos hsm]
      · rw [if_neg (fun h => hsm (hlt.mp h)), if_neg hsm]
        have hab : |x.val c| ≤ 2 ^ 63 := by linarith
        have g := gat (by linarith)
        have hfl : ⌊|x.val c|⌋ ≤ 2 ^ 63 := by
          have : (⌊|x.val c|⌋ : ℚ) ≤ 2 ^ 63 := le_trans (Int.floor_le _) hab
          exact_mod_cast this
        have hfl0 : 0 ≤ ⌊|x.val c|⌋ := Int.floor_nonneg.mpr hnn
        rw [Int.emod_eq_of_lt hfl0 (by omega)] at g
        have ht : truncQ (x.val c) = -⌊|x.val c|⌋ := by
          have := truncQ_sgn true hnn
          simp only [if_true, neg_one_mul] at this
          rw [← hsgn] at this
          exact this
        rw [ht, ← g]
        generalize gatherULL c.B (intLimbs c (fabs (integerPart c (roundSelf c x)))) = v at *
        unfold asSigned negULL
        split_ifs <;> omega
  · rw [if_neg h0]
    have hlt1 := lt_one_of_exp_neg hx (by omega)
    rw [abs_lt] at hlt1
    rw [if_neg (by linarith), if_neg (by linarith), trunc_of_exp_neg hx (by omega)]

/-- Unsigned extraction of a non-negative number. -/
theorem toULL_spec {c : Cfg} {x : DW} (hx : WF c x) (hD : 16 ≤ c.digits10) (hn : x.neg = false)
    (hy : (roundSelf c x).val c = x.val c) (hye : (roundSelf c x).exp = x.exp) :
    (toULL c x : ℤ) = min ⌊x.val c⌋ (2 ^ 64 - 1) := by
  obtain ⟨hcap, hg⟩ := cap64 c hD
  have hcapQ : ((2 : ℚ) ^ 64) ≤ c.B ^ c.N := by exact_mod_cast hcap
  have hv : x.val c = |x.val c| := WF.val_of_pos hn
  have hnn := abs_nonneg (x.val c)
  unfold toULL
  simp only [isNeg, hn, Bool.false_eq_true, if_false]
  by_cases h0 : 0 ≤ x.exp
  · rw [if_pos h0]
    obtain ⟨w1, w2, w3, w4⟩ := roundSelf_wf hx hg
    have h0' : 0 ≤ (roundSelf c x).exp := by rw [hye]; exact h0
    obtain ⟨t1, t2, t3⟩ := integerPart_take w1 h0'
    obtain ⟨i1, i2⟩ := integerPart_wf w1
    rw [ofUnsigned64]
    obtain ⟨m1, -, -, m4, -, m6⟩ := fromULL_spec c (2 ^ 64 - 1) (by norm_num) false
    have m6' := m6 (lt_of_lt_of_le (by norm_num) hcap)
    have mv : (fromULL c (2 ^ 64 - 1) false).val c = 2 ^ 64 - 1 := by
      rw [WF.val_of_pos (c := c) m4, m6']; norm_num
    -- value of the integer part versus the floor
    have hiv : (integerPart c (roundSelf c x)).val c = ⌊x.val c⌋ ∨ (integerPart c (roundSelf c x)).val c = x.val c := by
      by_cases hd : (roundSelf c x).exp < (c.digits10 : ℤ) - 1
      · left
        rw [integerPart_val w1 hd, hy]; unfold truncQ; rw [if_pos (by rw [hv]; exact hnn)]
      · right
        rw [← hy]; unfold integerPart; rw [if_neg (by omega), if_pos (by omega)]
    have c1 := cmp_spec i1 m1.toWF
    rw [mv] at c1
    have hfl0 : 0 ≤ ⌊x.val c⌋ := Int.floor_nonneg.mpr (by rw [hv]; exact hnn)
    have hf1 := Int.floor_le (x.val c)
    have hf2 := Int.lt_floor_add_one (x.val c)
    by_cases hbig : (2 ^ 64 - 1 : ℚ) < (integerPart c (roundSelf c x)).val c
    · have : gt (integerPart c (roundSelf c x)) (fromULL c (2 ^ 64 - 1) false) = true := by
        unfold DW.gt
        rcases c1 with ⟨h, h'⟩ | ⟨h, h'⟩ | ⟨h, h'⟩ <;> rw [h] <;> simp <;> linarith
      rw [if_pos this]
      have : (2 ^ 64 - 1 : ℤ) ≤ ⌊x.val c⌋ := by
        rw [Int.le_floor]; push_cast
        rcases hiv with h | h <;> rw [h] at hbig <;> linarith
      rw [min_eq_right this]; norm_num
    · have hng : ¬ gt (integerPart c (roundSelf c x)) (fromULL c (2 ^ 64 - 1) false) = true := by
        unfold DW.gt
        rcases c1 with ⟨h, h'⟩ | ⟨h, h'⟩ | ⟨h, h'⟩ <;> rw [h] <;> simp <;> linarith
      rw [if_neg hng]
      have hfle : ⌊x.val c⌋ ≤ 2 ^ 64 - 1 := by
        have : (⌊x.val c⌋ : ℚ) ≤ 2 ^ 64 - 1 := by rcases hiv with h | h <;> rw [h] at hbig <;> linarith
        exact_mod_cast this
      have hb : |x.val c| < c.B ^ c.N := by
        have : (⌊x.val c⌋ : ℚ) ≤ 2 ^ 64 - 1 := by exact_mod_cast hfle
        rw [← hv]; linarith
      have g := gather_int (w := integerPart c (roundSelf c x)) w1 h0' (by rw [hy]; exact hb) t1 t2 t3
      rw [g, hy, ← hv, Int.emod_eq_of_lt hfl0 (by omega), min_eq_left hfle]
  · rw [if_neg h0]
    have := floor_abs_of_exp_neg hx (by omega)
    rw [hv, this]; norm_num

end WD
