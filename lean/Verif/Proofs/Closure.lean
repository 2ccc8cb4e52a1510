import Verif.Proofs.Alias
import Verif.Proofs.Floor
import Verif.Proofs.Extract
import Verif.Proofs.Div

namespace WD
open DW

/-- A product of full-precision numbers is full-precision and well formed, overflow and zero included. -/
theorem mulAssign_closed {c : Cfg} {x y : DW} (hx : Full c x) (hy : Full c y) (hok : MulOk c c.N)
    (hE : (c.ed : ℤ) ∣ c.maxExp) : Full c (mulAssign c x y) := by
  by_cases hz : x.isZero = true ∨ y.isZero = true
  · have hz0 : (zero c).isZero = true := zero_isZero c
    have h1 : isOneSN c { zero c with neg := false } = false := isOneSN_zero c _ hz0
    have he : (zero c).exp = 0 := rfl
    unfold mulAssign
    simp only [hz, if_true, h1, Bool.false_eq_true, if_false]
    split
    · exact setNeg_full (zero_WF c) _
    · split
      · exact setNeg_full (maxVal_full c hE) _
      · split
        · exact setNeg_full (minVal_full c hE) _
        · have hp : min (zero c).prec y.prec = c.N := by rw [(zero_WF c).full, hy.full, Nat.min_self]
          rw [hp]
          have hu : WF c { zero c with neg := false, exp := (zero c).exp + y.exp } :=
            ⟨(zero_WF c).len, (zero_WF c).valid, by rw [he, zero_add]; exact hy.dvd, (zero_WF c).prec2, (zero_WF c).precN, (zero_WF c).lead⟩
          obtain ⟨q1, q2, q3, q4⟩ := mulDispatch_zero hu hy.len hy.valid ((zero_WF c).lead (by simpa [isZero] using hz0)) (le_refl _) hok
          exact setNeg_full ⟨q2, by rw [q4]; exact (zero_WF c).full⟩ _
  · rw [not_or] at hz
    have hxz : x.isZero = false := by simpa using hz.1
    have hyz : y.isZero = false := by simpa using hz.2
    rcases mulAssign_cases (c := c) hxz hyz with ⟨h1, e⟩ | ⟨h1, h2, e⟩ | ⟨h1, h2, h3, e⟩ | ⟨h1, h2, h0, h3, e⟩ | ⟨h1, h2, h3, h4, e⟩
    · rw [e]; exact setNeg_full hy _
    · rw [e]; exact setNeg_full hx _
    · rw [e]; exact setNeg_full (maxVal_full c hE) _
    · rw [e]; exact setNeg_full (minVal_full c hE) _
    · exact (mulAssign_full hx hy hxz hyz hok h3 h4).1

theorem mulULL_closed {c : Cfg} {x : DW} (hx : Full c x) {n : Nat} (hn : n < 2 ^ 64) (hok : MulOk c c.N)
    (hE : (c.ed : ℤ) ∣ c.maxExp) : Full c (mulULL c x n) := by
  by_cases hz : x.isZero = true ∨ n = 0
  · unfold mulULL
    have : (({ x with neg := false } : DW).isZero = true ∨ n = 0) := hz
    simp only [this, if_true]
    exact zero_WF c
  · have hz' : ¬ (({ x with neg := false } : DW).isZero = true ∨ n = 0) := hz
    rw [not_or] at hz
    have hxz : x.isZero = false := by simpa using hz.1
    by_cases ho : (0 ≤ x.exp + orderOf n ∧ x.exp + orderOf n ≥ c.maxExp)
    · unfold mulULL
      simp only [hz', if_false, ho, and_self, if_true]
      split
      · exact maxVal_full c hE
      · exact negate_full (maxVal_full c hE)
    · by_cases hB : n ≥ c.B
      · unfold mulULL
        simp only [hz', if_false, ho, hB, if_true]
        exact mulAssign_closed hx (by rw [ofUnsigned64]; exact (fromULL_spec c n hn false).1) hok hE
      · have : x.exp + orderOf n < c.maxExp := by omega
        exact (mulULL_small hx hxz (by omega) (by omega) this).1

theorem divULL_closed {c : Cfg} {est : DW → DW} {fdig : Nat} {x : DW} (hx : Full c x) {n : Nat} (hn : n < c.B) :
    Full c (divULL c est fdig x n) := by
  rcases Nat.eq_zero_or_pos n with h0 | h0
  · subst h0; simp only [divULL, if_true]; exact zero_WF c
  rcases Bool.dichotomy x.isZero with hxz | hxz
  swap
  · unfold divULL
    simp only [hxz, if_true]
    rw [if_neg (by omega)]
    exact setNeg_full hx _
  · by_cases he : -(c.maxExp : ℤ) ≤ x.exp - c.ed
    · exact (divULL_small (est := est) (fdig := fdig) hx hxz h0 hn he).1
    · have e : ∃ w : DW, divULL c est fdig x n = if w.exp < -(c.maxExp : ℤ) then zero c else { w with neg := x.neg } := by
        unfold divULL
        simp only [hxz, Bool.false_eq_true, if_false]
        rw [if_neg (by omega), if_neg (by omega)]
        exact ⟨_, rfl⟩
      -- the model with the exponent range widened gives the same limbs
      let c' : Cfg := { c with maxExp := (x.exp - c.ed).natAbs + c.maxExp }
      have hx' : Full c' x := ⟨⟨hx.len, hx.valid, hx.dvd, hx.prec2, hx.precN, hx.lead⟩, hx.full⟩
      have h' := (divULL_small (c := c') (est := est) (fdig := fdig) hx' hxz h0 hn (by
        show -(((x.exp - c.ed).natAbs + c.maxExp : Nat) : ℤ) ≤ x.exp - c.ed; omega))
      have hf := h'.1
      have hexp := h'.2.2.2.2.2
      have hrel : divULL c est fdig x n = zero c ∨ divULL c est fdig x n = divULL c' est fdig x n := by
        have hzz : zero c' = zero c := rfl
        have hBB : c'.B = c.B := rfl
        have hee : c'.ed = c.ed := rfl
        have hLL : c'.L = c.L := rfl
        have hm : c'.maxExp = (x.exp - c.ed).natAbs + c.maxExp := rfl
        unfold divULL
        simp only [hxz, Bool.false_eq_true, if_false, hBB, hee, hLL, hzz]
        rw [if_neg (show ¬ n = 0 by omega), if_neg (show ¬ n ≥ c.B by omega), if_neg (show ¬ n = 0 by omega), if_neg (show ¬ n ≥ c.B by omega)]
        generalize hw : (if n > 1 then _ else _ : DW) = w
        have hwe : w.exp = x.exp ∨ w.exp = x.exp - c.ed := by
          rw [← hw]
          split
          · split
            · right; rfl
            · left; rfl
          · left; rfl
        split
        · left; rfl
        · right
          rw [if_neg]
          rw [hm, Nat.cast_add]
          have := c.ed_pos
          rcases hwe with h | h <;> rw [h] <;> omega
      rcases hrel with h | h
      · rw [h]; exact zero_WF c
      · rw [h]; exact ⟨⟨hf.len, hf.valid, hf.dvd, hf.prec2, hf.precN, hf.lead⟩, hf.full⟩

theorem dflt_full (c : Cfg) : Full c (dflt c) := by
  have e : dflt c = zero c := by
    unfold dflt zero fromLst
    have h3 := c.three_le_N
    obtain ⟨n, hn⟩ : ∃ n, c.N = n + 1 := ⟨c.N - 1, by omega⟩
    rw [hn]; simp [List.replicate_succ]
  rw [e]; exact zero_WF c

theorem integerPart_closed {c : Cfg} {x : DW} (hx : Full c x) : Full c (integerPart c x) := by
  unfold integerPart
  split
  · exact zero_WF c
  · split
    · exact hx
    · next h1 h2 =>
      have h3 := c.three_le_N
      have hfirst : x.exp.toNat / c.ed + 1 ≤ c.N := by
        have hd : x.exp.toNat < c.digits10 := by omega
        have := Nat.div_le_div_right (c := c.ed) hd.le
        unfold Cfg.N
        omega
      refine ⟨⟨?_, ?_, hx.dvd, hx.prec2, hx.precN, ?_⟩, hx.full⟩
      · simp [hx.len]; omega
      · intro d hd
        rcases List.mem_append.mp hd with h | h
        · exact hx.valid d (List.mem_of_mem_take h)
        · rw [List.eq_of_mem_replicate h]; exact c.B_pos
      · intro h0 d hd
        have h0' : x.d0 = 0 := by
          unfold d0 at h0 ⊢
          cases hx' : x.data with
          | nil => rfl
          | cons y ys => simpa [hx'] using h0
        rcases List.mem_append.mp hd with h | h
        · exact hx.lead h0' d (List.mem_of_mem_take h)
        · exact List.eq_of_mem_replicate h

theorem floor_closed {c : Cfg} {x : DW} (hx : Full c x) (hg : c.ed ≤ c.digits10 + 4) : Full c (floor c x) ∧ Full c (ceil c x) := by
  have hr := roundSelf_full hx hg
  constructor
  · unfold floor
    dsimp only
    split
    · apply integerPart_closed
      split
      · exact subAssign_full hr (one_full c)
      · exact hr
    · exact hr
  · unfold ceil
    dsimp only
    split
    · apply integerPart_closed
      split
      · exact addAssign_full hr (one_full c)
      · exact hr
    · exact hr

end WD
