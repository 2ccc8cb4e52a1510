import Verif.Proofs.Fft
import Verif.Proofs.Mul2
/-
  Lemmas for multiplication at the sizes where the FFT is used.
-/
namespace WD
open DW Finset

theorem head_pos_of_ge {B n : ℕ} {l : List ℕ} (hl : l.length = n + 1) (hv : ValidLimbs B l) (h : B ^ n ≤ limbsVal B l) : l.headD 0 ≠ 0 := by
  cases l with
  | nil => simp at hl
  | cons y ys =>
    intro h0
    simp at h0 hl; subst h0
    rw [limbsVal_cons, zero_mul, zero_add] at h
    rw [validLimbs_cons] at hv
    have := limbsVal_lt hv.2
    rw [hl] at this
    omega

/-- The dispatcher at FFT sizes and full precision: whatever limbs the FFT routine leaves, the result represents them. -/
theorem mulDispatch_fft {c : Cfg} {u v : DW} (hu : WF c u) (hv : WF c v) (hN : 1793 ≤ c.N) {R : List ℕ} (hR : c.fft u.data v.data = R)
    (hl : R.length = c.N) (hRv : ValidLimbs c.B R) (hge : c.B ^ (c.N - 2) ≤ limbsVal c.B R) :
    WF c (mulDispatch c c.N u v) ∧ (mulDispatch c c.N u v).isZero = false ∧ (mulDispatch c c.N u v).neg = u.neg ∧
    (mulDispatch c c.N u v).prec = u.prec ∧
    ((mulDispatch c c.N u v).exp = u.exp ∨ (mulDispatch c c.N u v).exp = u.exp + c.ed) ∧
    |(mulDispatch c c.N u v).val c| = (limbsVal c.B R : ℚ) * 10 ^ (u.lexp c + c.ed) := by
  have hB := c.B_pos
  have hu1 : u.data.take c.N = u.data := by rw [← hu.len, List.take_length]
  have hv1 : v.data.take c.N = v.data := by rw [← hv.len, List.take_length]
  have hu2 : u.data.drop c.N = [] := by rw [← hu.len, List.drop_length]
  have hR1 : R.take c.N = R := by rw [← hl, List.take_length]
  have hR2 : R.drop c.N = [] := by rw [← hl, List.drop_length]
  have hdisp : mulDispatch c c.N u v = if R.headD 0 ≠ 0 then { u with data := R, exp := u.exp + c.ed }
      else { u with data := R.tail ++ [0] } := by
    unfold mulDispatch
    simp only [elemsForFft, show ¬ c.N < 1793 by omega, if_false, hu1, hv1, hu2, hR, hR1, List.append_nil, hR2]
    split
    · rfl
    · congr 1
      cases R with
      | nil => simp at hl; omega
      | cons y ys =>
        simp only [List.length_cons] at hl
        simp only [List.cons_append, List.drop_succ_cons, List.drop_zero, List.tail_cons]
        rw [List.take_of_length_le (by simp; omega)]
        rw [List.set_append_right _ _ (by omega), show c.N - 1 - ys.length = 0 by omega]
        rfl
  rw [hdisp]
  by_cases hh : R.headD 0 = 0
  · rw [if_neg (by simpa using hh)]
    cases R with
    | nil => simp at hl; omega
    | cons y ys =>
      simp only [List.headD_cons] at hh; subst hh
      simp only [List.length_cons, List.tail_cons] at *
      rw [limbsVal_cons, zero_mul, zero_add] at *
      rw [validLimbs_cons] at hRv
      have hhd := head_pos_of_ge (n := c.N - 2) (by omega) hRv.2 hge
      have hd0 : DW.d0 { u with data := ys ++ [0] } ≠ 0 := by
        unfold d0
        cases ys with
        | nil => simp at hhd
        | cons z zs => simpa using hhd
      refine ⟨⟨by simp; omega, validLimbs_append.mpr ⟨hRv.2, validLimbs_cons.mpr ⟨hB, validLimbs_nil _⟩⟩, hu.dvd, hu.prec2, hu.precN,
        fun h => absurd h hd0⟩, by simpa [isZero] using hd0, trivial, trivial, Or.inl trivial, ?_⟩
      rw [abs_val]
      have hm : DW.mant c { u with data := ys ++ [0] } = limbsVal c.B ys * c.B := by unfold mant; rw [limbsVal_snoc]; ring
      rw [hm]
      have := c.p10_mul_B (u.lexp c) 1
      rw [pow_one] at this
      push_cast
      rw [show u.lexp c + (c.ed : ℤ) = u.lexp c + (c.ed : ℤ) * ((1 : ℕ) : ℤ) by push_cast; ring, ← this]
      show _ * (10 : ℚ) ^ (u.lexp c) = _
      ring
  · rw [if_pos hh]
    have hd0 : DW.d0 { u with data := R, exp := u.exp + c.ed } ≠ 0 := hh
    refine ⟨⟨hl, hRv, dvd_add hu.dvd (dvd_refl _), hu.prec2, hu.precN, fun h => absurd h hd0⟩, by simpa [isZero] using hd0, rfl, rfl,
      Or.inr rfl, ?_⟩
    rw [abs_val]
    have hm : DW.mant c { u with data := R, exp := u.exp + c.ed } = limbsVal c.B R := rfl
    have he : DW.lexp c { u with data := R, exp := u.exp + c.ed } = u.lexp c + c.ed := by unfold lexp; ring
    rw [hm, he]

end WD
