import Verif.Proofs.Round

namespace WD
open DW

theorem halfUp_nat (M K : Nat) (hK : 1 ≤ K) :
    let m := if 5 ≤ M / 10 ^ (K - 1) % 10 then M / 10 ^ K + 1 else M / 10 ^ K
    2 * (m * 10 ^ K) ≤ 2 * M + 10 ^ K ∧ 2 * M < 2 * (m * 10 ^ K) + 10 ^ K := by
  intro m
  obtain ⟨k, rfl⟩ : ∃ k, K = k + 1 := ⟨K - 1, by omega⟩
  have hm : m = if 5 ≤ M / 10 ^ k % 10 then M / 10 ^ k / 10 + 1 else M / 10 ^ k / 10 := by
    show (if 5 ≤ M / 10 ^ (k + 1 - 1) % 10 then M / 10 ^ (k + 1) + 1 else M / 10 ^ (k + 1)) = _
    rw [Nat.add_sub_cancel, pow_succ, Nat.div_div_eq_div_mul]
  have h1 := Nat.div_add_mod M (10 ^ k)
  have h2 : M % 10 ^ k < 10 ^ k := Nat.mod_lt _ (by positivity)
  have h3 := Nat.div_add_mod (M / 10 ^ k) 10
  have h4 : M / 10 ^ k % 10 < 10 := Nat.mod_lt _ (by norm_num)
  rw [hm, pow_succ]
  generalize 10 ^ k = P at *
  generalize M % P = s at *
  generalize M / P = a at *
  generalize a / 10 = b at *
  generalize a % 10 = t at *
  subst h3
  subst h1
  split <;> constructor <;> nlinarith

/-- The unit of the last of `max_digits10` significant digits of x. -/
def roundUnit (c : Cfg) (x : DW) : ℚ := 10 ^ (ilogb x - c.maxDigits10 + 1)

theorem roundUnit_eq {c : Cfg} {x : DW} (hx : WF c x) (hz : x.isZero = false) (hg : c.ed ≤ c.digits10 + 4) :
    roundUnit c x = 10 ^ (cutDigits c x) * x.ulp c := by
  obtain ⟨-, -, -, -, -, -, -, e, -⟩ := round_positions hx hz hg
  obtain ⟨n1, n2, -, -⟩ := nd_bounds hx hz
  have h3 := c.three_le_N
  unfold roundUnit ulp
  rw [← zpow_natCast, ← zpow_add₀ (by norm_num)]
  congr 1
  unfold ilogb
  have hmd : c.maxDigits10 = c.digits10 + 4 := rfl
  have e2 : (c.ed : ℤ) * ((c.N : ℤ) - 1) = ((c.ed * (c.N - 1) : Nat) : ℤ) := by
    push_cast [Nat.cast_sub (show 1 ≤ c.N by omega)]; ring
  rw [e2, ← e]
  have : orderOf x.d0 = x.nd := rfl
  rw [this]
  omega

/-- Value of the rounded number: half-up at the unit, plus a residual below one radix of last-limb units. -/
theorem roundSelf_val {c : Cfg} {x : DW} (hx : WF c x) (hz : x.isZero = false) (hg : c.ed ≤ c.digits10 + 4) :
    WF c (roundSelf c x) ∧ (roundSelf c x).isZero = false ∧ (roundSelf c x).neg = x.neg ∧ (roundSelf c x).prec = x.prec ∧
    (x.exp ≤ (roundSelf c x).exp) ∧
    ∃ (m : ℕ) (r : ℚ), |(roundSelf c x).val c| = m * roundUnit c x + r ∧ 0 ≤ r ∧ r < roundUnit c x ∧
      (m : ℚ) * roundUnit c x - roundUnit c x / 2 ≤ |x.val c| ∧ |x.val c| < m * roundUnit c x + roundUnit c x / 2 ∧
      (leastIdx c x + 2 ≠ c.N ∨ x.data.getLast? = some 0 → r = 0) ∧
      (∀ k : ℕ, |x.val c| = k * roundUnit c x → r = 0 ∧ m = k ∧ (roundSelf c x).exp = x.exp) := by
  have main := roundSelf_mant hx hz hg
  obtain ⟨hl, hr, hlp, hrp, hK, eK, eK1, -, -⟩ := round_positions hx hz hg
  have hU := roundUnit_eq hx hz hg
  have h3 := c.three_le_N
  have hup := x.ulp_pos c
  set K := cutDigits c x with hKd
  set M := x.mant c with hM
  simp only at main
  set m := (if 5 ≤ M / 10 ^ (K - 1) % 10 then M / 10 ^ K + 1 else M / 10 ^ K) with hm
  set res := (if leastIdx c x + 1 < c.N - 1 then 0 else limbsVal c.B (x.data.drop (leastIdx c x + 1))) with hres
  obtain ⟨w1, w2, w3, w4, w5, w6⟩ := main
  obtain ⟨u1, u2⟩ := halfUp_nat M K hK
  simp only [← hm] at u1 u2
  have hp : 0 < 10 ^ K := by positivity
  have hxa : |x.val c| = M * x.ulp c := x.abs_val c
  have u1' : (m : ℚ) * roundUnit c x - roundUnit c x / 2 ≤ |x.val c| := by
    rw [hU, hxa]
    have : (2 * (m * 10 ^ K) : ℚ) ≤ 2 * M + 10 ^ K := by exact_mod_cast u1
    nlinarith
  have u2' : |x.val c| < m * roundUnit c x + roundUnit c x / 2 := by
    rw [hU, hxa]
    have : (2 * M : ℚ) < 2 * (m * 10 ^ K) + 10 ^ K := by exact_mod_cast u2
    nlinarith
  have hUpos : 0 < roundUnit c x := p10_pos _
  -- multiples of the unit are kept
  have hmul : ∀ k : ℕ, |x.val c| = k * roundUnit c x → res = 0 ∧ m = k ∧ M = m * 10 ^ K := by
    intro k hk
    have hMk : M = k * 10 ^ K := by
      rw [hxa, hU] at hk
      have : (M : ℚ) = k * 10 ^ K := by
        apply mul_right_cancel₀ hup.ne'
        rw [hk]; ring
      exact_mod_cast this
    have hmk : m = k := by
      have h1 : M / 10 ^ K = k := by rw [hMk, Nat.mul_div_cancel _ hp]
      have h2 : M / 10 ^ (K - 1) % 10 = 0 := by
        have : 10 ^ K = 10 * 10 ^ (K - 1) := by rw [← pow_succ']; congr 1; omega
        rw [hMk, this, ← Nat.mul_assoc, Nat.mul_div_cancel _ (by positivity), Nat.mul_mod_left]
      rw [hm, h2, h1]; simp
    refine ⟨?_, hmk, by rw [hmk]; exact hMk⟩
    rw [hres]
    split
    · rfl
    · have h1 := limbsVal_at (B := c.B) x.data (leastIdx c x) (by rw [hx.len]; exact hl)
      have h2 := tail_lt hx.valid (leastIdx c x) (by rw [hx.len]; exact hl)
      rw [hx.len] at h1 h2
      have hdvd : c.B ^ (c.N - 1 - leastIdx c x) ∣ M := by
        refine Dvd.dvd.trans ?_ ⟨k, by rw [hMk, Nat.mul_comm]⟩
        rw [eK, Cfg.B_eq, ← pow_mul]; exact pow_dvd_pow _ (Nat.le_add_right _ _)
      have h3 : M = limbsVal c.B x.data := rfl
      rw [h3, h1] at hdvd
      have := (Nat.dvd_add_right (Nat.dvd_mul_left _ _)).mp hdvd
      exact Nat.eq_zero_of_dvd_of_lt this h2
  have hlast : (leastIdx c x + 2 ≠ c.N ∨ x.data.getLast? = some 0) → res = 0 := by
    intro h
    rw [hres]
    split
    · rfl
    · next hnl =>
      by_cases h1 : leastIdx c x + 1 < c.N
      · have h2 : leastIdx c x + 2 = c.N := by omega
        rcases h with h | h
        · exact absurd h2 h
        · apply limbsVal_eq_zero
          intro d hd
          have hlen : (x.data.drop (leastIdx c x + 1)).length = 1 := by rw [List.length_drop, hx.len]; omega
          obtain ⟨z, hzz⟩ := List.length_eq_one_iff.mp hlen
          have : x.data.getLast? = some z := by
            rw [← List.take_append_drop (leastIdx c x + 1) x.data, hzz]; simp
          rw [hzz] at hd
          rw [h] at this
          simp at hd this
          omega
      · rw [List.drop_of_length_le (by rw [hx.len]; omega)]; rfl
  rcases w6 with ⟨a, b⟩ | ⟨a, b, d⟩
  · refine ⟨w1, w2, w3, w4, by rw [a], m, res * x.ulp c, ?_, by positivity, ?_, u1', u2', ?_, ?_⟩
    · rw [abs_val, b, hU, lexp, a]
      push_cast
      have : x.ulp c = 10 ^ (x.exp - (c.ed : ℤ) * ((c.N : ℤ) - 1)) := rfl
      rw [← this]; ring
    · rw [hU]
      have : (res : ℚ) < 10 ^ K := by exact_mod_cast w5
      exact mul_lt_mul_of_pos_right this hup
    · intro h; rw [hlast h]; simp
    · intro k hk
      obtain ⟨p1, p2, -⟩ := hmul k hk
      exact ⟨by rw [p1]; simp, p2, a⟩
  · refine ⟨w1, w2, w3, w4, by rw [a]; omega, m, 0, ?_, le_rfl, hUpos, u1', u2', fun _ => rfl, ?_⟩
    · rw [abs_val, b, hU, lexp, a, add_zero]
      have e1 : ((c.B ^ (c.N - 1) : Nat) : ℚ) * 10 ^ (x.exp + ↑c.ed - ↑c.ed * (↑c.N - 1)) = (c.B ^ c.N : Nat) * x.ulp c := by
        push_cast
        rw [mul_comm, c.p10_mul_B, mul_comm ((c.B : ℚ) ^ c.N), ulp, c.p10_mul_B]
        congr 1
        push_cast [Nat.cast_sub (show 1 ≤ c.N by omega)]; ring
      rw [e1, ← d]; push_cast; ring
    · intro k hk
      obtain ⟨p1, p2, p3⟩ := hmul k hk
      have := hx.mant_lt
      omega

end WD
