import Verif.Proofs.Radix2
import Verif.Props.Start
/-
  `calculate_inv` and `operator/=` without the exclusion of divisors just above a power of the radix.
-/
namespace WD
open DW
variable {c : Cfg} {F : Flt}

/-- `10` as mantissa with an exponent for which the digits fill the first limb: the malformed start value. -/
theorem ofMantExp_ten (hp : 24 ≤ F.p) {e : ℤ} (hK : digitLoops c F ≤ c.N) (hK1 : 1 ≤ digitLoops c F) (he : e % c.ed = (c.ed : ℤ) - 1) :
    ofMantExp c F 10 e = some { data := radixLimbs c.B c.N, exp := e - (c.ed - 1), neg := false, prec := c.N } := by
  have hed := c.ed_pos
  have hed8 : c.ed ≤ 8 := by unfold Cfg.ed; cases c.L <;> decide
  have hp1 : 1 ≤ F.p := by omega
  have hsd : ∀ n, scaleDown F n (10, e) = (10, e) := by
    intro n; cases n with
    | zero => rfl
    | succ n => rw [scaleDown, if_neg (by norm_num)]
  have hsu : ∀ n, scaleUp F n (10, e) = (10, e) := by
    intro n; cases n with
    | zero => rfl
    | succ n => rw [scaleUp, if_neg (by norm_num)]
  have hsh : shiftLoop c F c.ed (10, e) (e.tmod c.ed) = (timesTen F (c.ed - 1) 10, e - (c.ed - 1 : ℕ)) := by
    apply shiftLoop_eq c.ed (c.ed - 1) 10 e (e.tmod c.ed) (by omega)
    · rw [tmod_emod', he]; omega
    · intro h; omega
  have hgen : ∀ (s j : ℕ), s + j ≤ 8 → timesTen F s (10 ^ j) = 10 ^ (s + j) := by
    intro s
    induction s with
    | zero => intro j _; simp [timesTen]
    | succ s ih =>
      intro j hj
      rw [timesTen, ← pow_succ, F.rnd_eq (F.rep_pow10 hp (by omega)), ih (j + 1) (by omega)]
      congr 1; omega
  have ht : timesTen F (c.ed - 1) 10 = (c.B : ℚ) := by
    have := hgen (c.ed - 1) 1 (by omega)
    rw [pow_one] at this
    rw [this, c.B_eq, Nat.sub_add_cancel hed]; push_cast; rfl
  have hm0 : ∀ k, mantLoop c F k 0 = List.replicate k 0 := by
    intro k
    induction k with
    | zero => rfl
    | succ k ih =>
      rw [mantLoop]
      simp only [Nat.floor_zero, Nat.zero_mod, Nat.cast_zero, sub_zero, F.rnd_zero, zero_mul]
      rw [ih]; rfl
  have hmk : mantLoop c F (digitLoops c F) (c.B : ℚ) = radixLimbs c.B (digitLoops c F) := by
    obtain ⟨k, hk⟩ : ∃ k, digitLoops c F = k + 1 := ⟨digitLoops c F - 1, by omega⟩
    rw [hk, mantLoop]
    have hW : c.B % c.L.W = c.B := Nat.mod_eq_of_lt (mask_facts c.L).1
    simp only [Nat.floor_natCast, hW, sub_self, F.rnd_zero, zero_mul, hm0, radixLimbs, Nat.add_sub_cancel]
  unfold ofMantExp
  rw [if_neg (by norm_num)]
  have hneg : decide ((10 : ℚ) < 0) = false := by norm_num
  simp only [hneg, Bool.false_eq_true, if_false, hsd, hsu, hsh, ht, hmk, if_pos hK]
  have e1 : radixLimbs c.B (digitLoops c F) ++ List.replicate (c.N - digitLoops c F) 0 = radixLimbs c.B c.N := by
    unfold radixLimbs
    rw [List.cons_append, ← List.replicate_add]; congr 2; omega
  rw [e1]
  congr 2
  omega

/-- Whatever the argument, the start value is either good or the malformed power of the radix, which is good in value. -/
theorem start_any (hF : FloatOk c F) {x : DW} (hx : Posi c x) (hK : digitLoops c F ≤ c.N) :
    StartOk c F.digits10 (estInv c F x) |x.val c| ∨
    (Mal c (estInv c F x) ∧ (estInv c F x).neg = false ∧ |(estInv c F x).val c * |x.val c| - 1| ≤ 43 / 10 / 10 ^ F.digits10) := by
  rcases start_or hF hx hK with h | ⟨h10, hne, K, hKed, h⟩
  · exact Or.inl h.1
  · right
    obtain ⟨hn, hp⟩ := startNum (c := c) hF hKed
    obtain ⟨K', hKe, -, -, -⟩ := digitLoops_eq (c := c) hF
    have hu0 := F.u_pos
    have hu1 := F.u_lt (show 1 ≤ F.p by omega)
    have hed := c.ed_pos
    obtain ⟨k, hk⟩ := hx.dvd
    have hst : invStart c F x = some { data := radixLimbs c.B c.N, exp := -x.exp - c.ed, neg := false, prec := c.N } := by
      have : invStart c F x = ofMantExp c F (F.rnd (1 / (extractParts c F x).1)) (-(extractParts c F x).2) := rfl
      rw [this, h10, hne, ofMantExp_ten hp hK (by omega)]
      · congr 2; omega
      · rw [hk, show -(1 + (c.ed : ℤ) * k) = (c.ed - 1) + c.ed * (-k - 1) by ring, Int.add_mul_emod_self_left]
        exact Int.emod_eq_of_lt (by omega) (by omega)
    have hest : estInv c F x = { data := radixLimbs c.B c.N, exp := -x.exp - c.ed, neg := false, prec := c.N } := by
      unfold estInv; rw [hst]; rfl
    rw [hest]
    have h3 := c.three_le_N
    have hmal : Mal c { data := radixLimbs c.B c.N, exp := -x.exp - c.ed, neg := false, prec := c.N } :=
      ⟨rfl, Int.dvd_sub (by rw [dvd_neg]; exact hx.dvd) (dvd_refl _), by show 2 ≤ c.N; omega, le_refl _⟩
    refine ⟨hmal, rfl, ?_⟩
    have hv : (DW.mk (radixLimbs c.B c.N) (-x.exp - c.ed) false c.N).val c = 10 ^ (-x.exp) := by
      rw [← hmal.twin_val, val_sgn, abs_val]
      unfold mant lexp
      simp only [twin, Bool.false_eq_true, if_false, one_mul]
      rw [limbsVal_cons, limbsVal_replicate_zero, List.length_replicate, sub_add_cancel]
      have h1 := c.p10_mul_B (-x.exp - (c.ed : ℤ) * ((c.N : ℤ) - 1)) (c.N - 1)
      have hN1 : ((c.N - 1 : ℕ) : ℤ) = (c.N : ℤ) - 1 := by omega
      rw [hN1, sub_add_cancel] at h1
      rw [← h1]; push_cast; ring
    rw [hv]
    have hp0 := p10_pos x.exp
    have hge := hx.toWF.abs_ge hx.nz
    have hq1 : 1 ≤ (10 : ℚ) ^ (-x.exp) * |x.val c| := by
      rw [zpow_neg, ← div_eq_inv_mul, le_div_iff₀ hp0]; linarith
    have a1 : 0 < (1 - F.u) ^ 14 := pow_pos (by linarith) _
    have hq2 : (10 : ℚ) ^ (-x.exp) * |x.val c| * (1 - F.u) ^ 14 ≤ (1 + F.u) * (1 + 1 / c.B ^ K) := by
      rw [zpow_neg, mul_assoc, ← div_eq_inv_mul, div_le_iff₀ hp0]; exact h.le
    rw [abs_of_nonneg (by linarith)]
    have hn1 := hn.n1
    have hτ : 0 < 1 / (c.B : ℚ) ^ K := by have : (0 : ℚ) < c.B := by exact_mod_cast c.B_pos
                                          positivity
    have hle : (1 + F.u) * (1 + 1 / (c.B : ℚ) ^ K) ≤ (1 + (2 * F.u + 1 / (c.B : ℚ) ^ K)) * (1 + F.u) ^ 9 * (1 + 1 / (c.B : ℚ) ^ K) := by
      apply mul_le_mul_of_nonneg_right _ (by linarith)
      calc 1 + F.u ≤ (1 + F.u) ^ 9 := le_self_pow₀ (by linarith) (by norm_num)
        _ = 1 * (1 + F.u) ^ 9 := (one_mul _).symm
        _ ≤ _ := mul_le_mul_of_nonneg_right (by linarith) (by positivity)
    have := le_of_mul_le_mul_right (hq2.trans (hle.trans hn1)) a1
    linarith

/-- The object is well formed at full precision, or it is the malformed power of the radix. -/
def Quasi (c : Cfg) (r : DW) : Prop := Full c r ∨ (Mal c r ∧ r.prec = c.N)

/-- `calculate_inv` for every non-zero argument. -/
theorem calcInv_any (hF : FloatOk c F) (hK : digitLoops c F ≤ c.N) {x : DW} (hx : Full c x) (hx0 : x.isZero = false)
    (hok : MulOkAll c) (hN : c.N < 1793) (hm : 2 * (c.ed : ℤ) < c.maxExp) (hlo : -(c.maxExp : ℤ) < x.exp)
    (hhi : x.exp + 3 * c.ed < c.maxExp) :
    let r := calcInv c (estInv c F) F.digits10 x
    Quasi c r ∧ r.isZero = false ∧ r.neg = x.neg ∧ |(|r.val c| * |x.val c|) - 1| ≤ 44 / 10 * eta c c.N := by
  intro r
  have hf := digits10_ge hF
  have hxp : Posi c (unsigned x) := ⟨⟨hx.len, hx.valid, hx.dvd, hx.prec2, hx.precN, hx.lead⟩, hx0, rfl⟩
  have hxv : |(unsigned x).val c| = |x.val c| := setNeg_abs c x false
  rcases start_any hF hxp hK with h | ⟨hmal, hneg, herr⟩
  · rw [hxv] at h
    obtain ⟨q1, q2⟩ := calcInv_spec (est := estInv c F) hx hx0 hok hf hm hlo hhi h
    exact ⟨Or.inl q1, q2⟩
  · by_cases h1 : isOneSN c x = true
    · have hr : r = x := by show calcInv c _ _ x = x; unfold calcInv; rw [if_neg (by rw [hx0]; simp), if_pos h1]
      rw [hr]
      refine ⟨Or.inl hx, hx0, rfl, ?_⟩
      have hη := eta_pos c c.N
      obtain ⟨a1, a2⟩ := isOneSN_absp hx.toWF hx0 h1 (p := c.N) (by have := c.three_le_N; omega) (le_refl _)
      have b1 := hx.toWF.absp_le (le_refl c.N)
      have b2 := hx.toWF.lt_absp_rel hx0 (p := c.N) (by have := c.three_le_N; omega) (le_refl _)
      have hη4 := eta_N_le c
      rw [abs_le]
      have c1 : |x.val c| ≤ 1 + eta c c.N := by nlinarith
      have c2 : 1 - eta c c.N / 50 ≤ |x.val c| := by linarith
      have d1 : |x.val c| * |x.val c| ≤ (1 + eta c c.N) * (1 + eta c c.N) := mul_le_mul c1 c1 (abs_nonneg _) (by linarith)
      have d2 : (1 - eta c c.N / 50) * (1 - eta c c.N / 50) ≤ |x.val c| * |x.val c| := mul_le_mul c2 c2 (by linarith) (abs_nonneg _)
      constructor <;> nlinarith
    · have h1' : isOneSN c (unsigned x) = false := by
        have : isOneSN c (unsigned x) = isOneSN c x := isOneSN_neg c x false
        rw [this]; simpa using h1
      have hr : r = { invLoop c (x.prec * c.ed) (F.digits10 - 1) (estInv c F (unsigned x)) (unsigned x) with neg := x.neg, prec := x.prec } := by
        show calcInv c _ _ x = _
        unfold calcInv
        rw [if_neg (by rw [hx0]; simp), if_neg h1]; rfl
      have hmp : 0 < (estInv c F (unsigned x)).val c := by
        rw [← hmal.twin_val]
        have hw : Posi c (twin c (estInv c F (unsigned x))) := ⟨hmal.twin_wf, Mal.twin_nz, hneg⟩
        have h1 := hw.toWF.abs_pos hw.nz
        have h2 := WF.val_of_pos (c := c) (x := twin c (estInv c F (unsigned x))) hw.nn
        rw [h2]; exact h1
      have hf' : (43 / 10 / 10 ^ F.digits10 : ℚ) = 43 / 100 * (10 : ℚ) ^ (-((F.digits10 - 1 : ℕ) : ℤ)) := by
        obtain ⟨k, hk⟩ : ∃ k, F.digits10 = k + 1 := ⟨F.digits10 - 1, by omega⟩
        rw [hk, Nat.add_sub_cancel, zpow_neg, zpow_natCast, pow_succ]
        field_simp; norm_num
      rw [hf', ← abs_of_pos hmp] at herr
      have hη := eta_pos c c.N
      obtain ⟨l1, l2⟩ := invLoop_quasi hok hm hN (x.prec * c.ed) (x.prec * c.ed) (F.digits10 - 1) (unsigned x) (estInv c F (unsigned x))
        (by omega) (by omega) hxp h1' (Or.inr ⟨hmal, hneg⟩) hlo hhi (by show x.exp < _; omega) (by linarith)
      set z := invLoop c (x.prec * c.ed) (F.digits10 - 1) (estInv c F (unsigned x)) (unsigned x) with hz
      have hrv : |r.val c| = |z.val c| := by rw [hr]; exact setNeg_abs c z x.neg
      refine ⟨?_, ?_, by rw [hr], ?_⟩
      · rcases l1 with l1 | ⟨l1, -⟩
        · left; rw [hr]; exact ⟨⟨l1.len, l1.valid, l1.dvd, hx.prec2, hx.precN, l1.lead⟩, hx.full⟩
        · right; rw [hr]; exact ⟨⟨l1.data, l1.dvd, hx.prec2, hx.precN⟩, hx.full⟩
      · rcases l1 with l1 | ⟨l1, -⟩
        · rw [hr]; exact l1.nz
        · rw [hr]; exact l1.nz
      · rw [hrv, ← hxv]
        rw [hx.full] at l2
        refine le_trans l2 ?_
        have hed : 2 ≤ c.ed := by unfold Cfg.ed; cases c.L <;> decide
        have hall : (10 : ℚ) ^ (-(c.N * c.ed : ℕ) : ℤ) ≤ eta c c.N / 100 := by
          calc (10 : ℚ) ^ (-(c.N * c.ed : ℕ) : ℤ) = eta c c.N * 10 ^ (-(c.ed : ℤ)) := by
                unfold eta; rw [← zpow_add₀ (by norm_num)]; congr 1; push_cast; ring
            _ ≤ eta c c.N * 10 ^ (-2 : ℤ) :=
                mul_le_mul_of_nonneg_left (zpow_le_zpow_right₀ (by norm_num) (by omega)) hη.le
            _ = _ := by norm_num; ring
        linarith

end WD
