import Verif.Proofs.Parse2
import Verif.Proofs.Add6
/-
  The object built by `rd_string` from a valid decimal text.
-/
namespace WD
open DW

/-- Limbs of a normalised text. -/
theorem extract_spec (c : Cfg) {s a b : List Char} (h : NF s a b) (hal : a.length ≤ c.ed) :
    let d := extractLimbs c (padTrunc c s)
    d.length = c.N ∧ ValidLimbs c.B d ∧ d.headD 0 ≠ 0 ∧
    limbsVal c.B d = digitsVal (a ++ (b ++ List.replicate ((c.N - 1) * c.ed) '0').take ((c.N - 1) * c.ed)) := by
  intro d
  have hed : 0 < c.ed := c.ed_pos
  have hN := c.three_le_N
  obtain ⟨b', j, h1, h2, h3, h4, h5⟩ := padTrunc_spec c h hed
  have hB : c.B = 10 ^ c.ed := rfl
  have hix : (a ++ '.' :: b').idxOf '.' = a.length := idxOf_point h.da
  have ha : strtoul ((a ++ '.' :: b').take a.length) = digitsVal a := by
    rw [List.take_left']; exact strtoul_dig h.da; rfl
  have hb : (a ++ '.' :: b').drop (a.length + 1) = b' := by
    rw [List.drop_append, List.drop_eq_nil_of_le (by omega)]
    simp
  have hk : ((a ++ '.' :: b').length - (a.length + 1)) / c.ed = j := by
    have : (a ++ '.' :: b').length - (a.length + 1) = j * c.ed := by rw [← h3]; simp; omega
    rw [this, Nat.mul_div_cancel _ hed]
  obtain ⟨l1, l2, l3⟩ := limbLoop_spec c.ed j b' h2 h3
  have hd : d = digitsVal a :: limbLoop c.ed j b' ++ List.replicate (c.N - (j + 1)) 0 := by
    show extractLimbs c (padTrunc c s) = _
    rw [h1]; unfold extractLimbs; dsimp only
    rw [hix, ha, hb, hk, List.length_cons, l2]
  have ha_lt : digitsVal a < c.B := by
    rw [hB]; exact lt_of_lt_of_le (digitsVal_lt h.da) (Nat.pow_le_pow_right (by norm_num) hal)
  refine ⟨?_, ?_, ?_, ?_⟩
  · rw [hd]; simp [l2]; omega
  · rw [hd]; intro x hx
    rcases List.mem_append.mp hx with hx | hx
    · rcases List.mem_cons.mp hx with hx | hx
      · rw [hx]; exact ha_lt
      · exact l3 x hx
    · rw [List.eq_of_mem_replicate hx, hB]; positivity
  · rw [hd]
    show digitsVal a ≠ 0
    rcases haa : a with - | ⟨x, xs⟩
    · exact absurd haa h.ne
    · have h0 := h.hd
      rw [haa] at h0
      have hx : x.isDigit = true := h.da x (by rw [haa]; exact List.mem_cons_self)
      exact (digitsVal_pos hx (by simpa using h0)).ne'
  · rw [hd, limbsVal_append, limbsVal_replicate_zero, List.length_replicate, add_zero, limbsVal_cons, l2, hB, l1,
      ← h5, ← List.append_assoc, digitsVal_append_zeros, digitsVal_append, h3]
    have hl : (c.N - 1) * c.ed - j * c.ed = (c.N - (j + 1)) * c.ed := by
      rw [← Nat.sub_mul]; congr 1; omega
    rw [hl, ← pow_mul, ← pow_mul, Nat.mul_comm c.ed j, Nat.mul_comm c.ed (c.N - (j + 1))]

/-- Truncation of a digit string behind the point. -/
theorem take_bracket {a b : List Char} (hb : Dig b) (M : ℕ) :
    let D := digitsVal (a ++ (b ++ List.replicate M '0').take M)
    D * 10 ^ b.length ≤ digitsVal (a ++ b) * 10 ^ M ∧ digitsVal (a ++ b) * 10 ^ M < (D + 1) * 10 ^ b.length := by
  intro D
  rcases Nat.le_total b.length M with h | h
  · have hD : D = digitsVal (a ++ b) * 10 ^ (M - b.length) := by
      show digitsVal (a ++ (b ++ List.replicate M '0').take M) = _
      rw [List.take_append, List.take_of_length_le h, List.take_replicate, ← List.append_assoc, digitsVal_append_zeros]
      congr 2; omega
    have : D * 10 ^ b.length = digitsVal (a ++ b) * 10 ^ M := by
      rw [hD, Nat.mul_assoc, ← pow_add]; congr 2; omega
    have hp : 0 < 10 ^ b.length := by positivity
    rw [Nat.add_mul, this]
    exact ⟨le_refl _, by omega⟩
  · have hD : D = digitsVal (a ++ b.take M) := by
      show digitsVal (a ++ (b ++ List.replicate M '0').take M) = _
      rw [List.take_append_of_le_length h]
    have e1 : digitsVal (a ++ b) = D * 10 ^ (b.length - M) + digitsVal (b.drop M) := by
      rw [hD, ← List.length_drop, ← digitsVal_append, List.append_assoc, List.take_append_drop]
    have e2 : digitsVal (b.drop M) < 10 ^ (b.length - M) := by
      have := digitsVal_lt (hb.drop M); rwa [List.length_drop] at this
    have e3 : 10 ^ b.length = 10 ^ (b.length - M) * 10 ^ M := by rw [← pow_add]; congr 1; omega
    rw [e1, e3, ← Nat.mul_assoc, ← Nat.mul_assoc]
    have hp : 0 < 10 ^ M := by positivity
    constructor
    · exact Nat.mul_le_mul_right _ (by omega)
    · exact Nat.mul_lt_mul_of_pos_right (by rw [Nat.add_mul]; omega) hp

/-- The object built from a text: zero for a zero text, otherwise the truncation of the denoted number. -/
theorem rdString_spec (c : Cfg) (p : ℕ) (t : DecText) (ht : t.Valid) (hlo : -(2 ^ 63) ≤ t.exponent)
    (hhi : t.exponent < 2 ^ 63) (hp2 : 2 ≤ p) (hpN : p ≤ c.N) :
    (t.value = 0 ∧ rdString c p t.chars = zero c) ∨
    (t.value ≠ 0 ∧ WF c (rdString c p t.chars) ∧ (rdString c p t.chars).prec = p ∧
      (rdString c p t.chars).isZero = false ∧ (rdString c p t.chars).neg = decide (t.sign = some true) ∧
      |(rdString c p t.chars).val c| ≤ |t.value| ∧
      |t.value| < |(rdString c p t.chars).val c| + (rdString c p t.chars).ulp c) := by
  have hs := splitExp_chars t ht hlo hhi
  have dip : Dig t.ip := ht.ip
  have dfp : Dig (t.fp.getD []) := ht.fp
  have hmne : ∀ x : Char, x.isDigit = false → x ≠ '.' → ∀ y ∈ t.ip ++ DecText.pointChars t.fp, y ≠ x := by
    intro x h1 h2 y hy
    rcases List.mem_append.mp hy with hy | hy
    · exact dip.ne h1 y hy
    · rcases hf : t.fp with - | f
      · rw [hf] at hy; simp [DecText.pointChars] at hy
      · rw [hf] at hy dfp
        rcases List.mem_cons.mp hy with hy | hy
        · rw [hy]; exact h2.symm
        · exact dfp.ne h1 y hy
  obtain ⟨g1, g2⟩ := sign_removal t.sign (t.ip ++ DecText.pointChars t.fp)
    (hmne '-' (by decide) (by decide)) (hmne '+' (by decide) (by decide))
  rw [← List.append_assoc] at g1 g2
  have habs : |t.value| = (digitsVal (t.ip ++ t.fp.getD []) : ℚ) * (10 : ℚ) ^ (t.exponent - (t.fp.getD []).length) := by
    unfold DecText.value DecText.frac
    rw [abs_mul, abs_mul, abs_of_pos (a := (10 : ℚ) ^ _) (by positivity), Nat.abs_cast]
    split <;> simp
  have hz : digitsVal (t.ip ++ t.fp.getD []) = 0 → t.value = 0 := by
    intro h; rw [← abs_eq_zero, habs, h]; simp
  unfold rdString
  rw [hs]
  dsimp only
  dsimp only at g2
  rw [g2, g1]
  rcases normPoint_spec t.ip t.fp t.exponent dip dfp ht.some with ⟨h1, h2⟩ | ⟨h1, h2, h3⟩ | ⟨h1, s, e', a, b, h2, h3, h4⟩
  · left; exact ⟨hz h2, by rw [if_pos h1]⟩
  · left; refine ⟨hz h3, ?_⟩; rw [if_neg h1, h2]
  · right
    rw [if_neg h1, h2]
    dsimp only
    have hed := c.ed_pos
    obtain ⟨a1, b1, n1, d1, v1⟩ := shiftPoint_spec c e' h3 hed
    obtain ⟨a2, b2, n2, d2, l2, v2⟩ := reduceMant_spec c _ n1 hed d1
    obtain ⟨x1, x2, x3, x4⟩ := extract_spec c n2 l2
    generalize reduceMant c (shiftPoint c s e').1 (shiftPoint c s e').2 = R at n2 d2 v2 x1 x2 x3 x4 ⊢
    obtain ⟨br1, br2⟩ := take_bracket (a := a2) n2.db ((c.N - 1) * c.ed)
    have hval : |t.value| = nfVal a2 b2 R.2 := by rw [habs, ← h4, v2, v1]
    have hapos : 0 < digitsVal (a2 ++ b2) := by
      rcases haa : a2 with - | ⟨x, xs⟩
      · exact absurd haa n2.ne
      · have h0 := n2.hd
        rw [haa] at h0
        have hx : x.isDigit = true := n2.da x (by rw [haa]; exact List.mem_cons_self)
        exact digitsVal_pos hx (by simpa using h0)
    generalize hD : digitsVal (a2 ++ (b2 ++ List.replicate ((c.N - 1) * c.ed) '0').take ((c.N - 1) * c.ed)) = D at *
    have hMz : (((c.N - 1) * c.ed : ℕ) : ℤ) = (c.ed : ℤ) * ((c.N : ℤ) - 1) := by
      have := c.three_le_N
      push_cast [Nat.cast_sub (show 1 ≤ c.N by omega)]; ring
    -- everything in units of 10^(exp - |b| - M)
    have hu : ∀ n : ℕ, (n : ℚ) * (10 : ℚ) ^ (R.2 - (c.ed : ℤ) * ((c.N : ℤ) - 1)) =
        ((n * 10 ^ b2.length : ℕ) : ℚ) * (10 : ℚ) ^ (R.2 - (c.ed : ℤ) * ((c.N : ℤ) - 1) - b2.length) := by
      intro n; rw [zpow_shift b2.length (R.2 - _)]; push_cast; ring
    have hv : nfVal a2 b2 R.2 = ((digitsVal (a2 ++ b2) * 10 ^ ((c.N - 1) * c.ed) : ℕ) : ℚ) *
        (10 : ℚ) ^ (R.2 - (c.ed : ℤ) * ((c.N : ℤ) - 1) - b2.length) := by
      unfold nfVal
      rw [zpow_shift ((c.N - 1) * c.ed) (R.2 - b2.length), hMz]; push_cast
      rw [show R.2 - (b2.length : ℤ) - c.ed * ((c.N : ℤ) - 1) = R.2 - c.ed * ((c.N : ℤ) - 1) - b2.length by ring]; ring
    have habsr : ∀ (ng : Bool), |DW.val c { data := extractLimbs c (padTrunc c R.1), exp := R.2, neg := ng, prec := p }| =
        (D : ℚ) * (10 : ℚ) ^ (R.2 - (c.ed : ℤ) * ((c.N : ℤ) - 1)) := by
      intro ng
      unfold DW.val
      dsimp only
      rw [x4, abs_mul, abs_mul, abs_of_pos (a := (10 : ℚ) ^ _) (by positivity), Nat.abs_cast]
      cases ng <;> simp
    have hup : (0 : ℚ) < (10 : ℚ) ^ (R.2 - (c.ed : ℤ) * ((c.N : ℤ) - 1) - b2.length) := by positivity
    refine ⟨?_, ⟨x1, x2, d2, hp2, hpN, ?_⟩, rfl, ?_, rfl, ?_, ?_⟩
    · intro h; rw [h, abs_zero, hv] at hval
      have : (0 : ℚ) < ((digitsVal (a2 ++ b2) * 10 ^ ((c.N - 1) * c.ed) : ℕ) : ℚ) := by exact_mod_cast (by positivity)
      have := mul_pos this hup
      linarith
    · intro h; exact absurd h x3
    · exact beq_false_of_ne x3
    · rw [habsr, hval, hv, hu]
      exact mul_le_mul_of_nonneg_right (by exact_mod_cast br1) hup.le
    · have hulp : DW.ulp c { data := extractLimbs c (padTrunc c R.1), exp := R.2, neg := decide (t.sign = some true), prec := p } =
        ((1 : ℕ) : ℚ) * (10 : ℚ) ^ (R.2 - (c.ed : ℤ) * ((c.N : ℤ) - 1)) := by unfold DW.ulp; simp
      rw [habsr, hulp, ← add_mul, hval, hv, ← Nat.cast_add, hu]
      exact mul_lt_mul_of_pos_right (by exact_mod_cast br2) hup

end WD
