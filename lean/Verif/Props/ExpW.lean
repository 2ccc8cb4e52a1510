import Verif.Model.ExpW
import Verif.Props.Wrap
import Verif.Props.Tables
import Verif.Spec.Num
import Mathlib.Data.Int.ModEq
/-
  C65: the result of an operation does not depend on the exponent type while the exponents are in its range. The theorems of the other
  files are about unbounded exponents; here the operations with exponents of w bits are shown to agree with them.
-/
namespace WD
open DW

theorem castU_nonneg {w : ℕ} {n : ℤ} (h0 : 0 ≤ n) (h : n < 2 ^ w) : UW.castU w n = n.toNat := by
  unfold UW.castU
  rw [Int.emod_eq_of_lt h0 h]

theorem two_pow_pred {w : ℕ} (hw : 0 < w) : (2 : ℤ) ^ w = 2 * 2 ^ (w - 1) := by
  conv_lhs => rw [show w = (w - 1) + 1 by omega, pow_succ]
  ring

theorem castE_id {w : ℕ} (hw : 0 < w) {e : ℤ} (h1 : -(2 ^ (w - 1)) ≤ e) (h2 : e < 2 ^ (w - 1)) : castE w e = e := by
  have hp := two_pow_pred hw
  unfold castE UW.toS UW.castU
  by_cases h0 : 0 ≤ e
  · rw [Int.emod_eq_of_lt h0 (by linarith), if_pos (by zify; rw [Int.toNat_of_nonneg h0]; exact h2), Int.toNat_of_nonneg h0]
  · have : e % 2 ^ w = e + 2 ^ w := by
      rw [← Int.add_emod_right, Int.emod_eq_of_lt (by linarith) (by linarith)]
    have h3 : (0 : ℤ) ≤ e + 2 ^ w := by linarith
    rw [this, if_neg (by zify; rw [Int.toNat_of_nonneg h3]; linarith), Int.toNat_of_nonneg h3]
    ring

theorem setE_id {w : ℕ} (hw : 0 < w) {e : ℤ} (h1 : -(2 ^ (w - 1)) ≤ e) (h2 : e < 2 ^ (w - 1)) : setE w e = some e := by
  unfold setE
  split
  · rw [castE_id hw h1 h2]
  · rw [if_pos ⟨h1, h2⟩]

theorem storeE_id {w : ℕ} (hw : 0 < w) {x : DW} (h1 : -(2 ^ (w - 1)) ≤ x.exp) (h2 : x.exp < 2 ^ (w - 1)) : storeE w x = some x := by
  unfold storeE
  rw [setE_id hw h1 h2]
  rfl

theorem UW.neg_value {w : ℕ} {a : UW} (h : a.Ok w) : a.neg = decide (a.int < 0) ∧ a.value = a.int.natAbs := by
  obtain ⟨n, v⟩ := a
  obtain ⟨h1, h2⟩ := h
  unfold UW.int
  cases n
  · simp
  · simp only [if_true] at *
    have : v ≠ 0 := fun h => by simp [h] at h2
    constructor
    · symm; rw [decide_eq_true_eq]; omega
    · simp

theorem leadZeros_le : ∀ l : List ℕ, leadZeros l ≤ l.length
  | [] => le_refl _
  | x :: xs => by
    unfold leadZeros
    split
    · simp [leadZeros_le xs]
    · simp

/-- Exponents of a sum (no assumption on the limbs). -/
theorem addSame_exp (c : Cfg) (p : ℕ) (ofs : ℤ) (u v : DW) :
    (addSame c p ofs u v).exp = u.exp ∨ (addSame c p ofs u v).exp = u.exp + c.ed ∨
    (addSame c p ofs u v).exp = v.exp ∨ (addSame c p ofs u v).exp = v.exp + c.ed := by
  unfold addSame
  split <;> simp only [] <;> split <;> simp

theorem justify_exp (c : Cfg) (p : ℕ) (w : DW) : (justify c p w).exp = 0 ∨ ∃ j ≤ p, (justify c p w).exp = w.exp - j * c.ed := by
  unfold justify
  simp only []
  generalize hg : (if leadZeros (w.data.take p) = 0 then w
    else if leadZeros (w.data.take p) = (w.data.take p).length then { w with neg := false, exp := 0 }
    else { w with data := w.data.drop (leadZeros (w.data.take p)) ++ List.replicate (leadZeros (w.data.take p)) 0,
                  exp := w.exp - leadZeros (w.data.take p) * c.ed }) = w1
  have h1 : w1.exp = 0 ∨ ∃ j ≤ p, w1.exp = w.exp - j * c.ed := by
    rw [← hg]
    split
    · exact Or.inr ⟨0, Nat.zero_le _, by simp⟩
    · split
      · exact Or.inl rfl
      · exact Or.inr ⟨_, le_trans (leadZeros_le _) (by simp), rfl⟩
  split
  · exact Or.inl rfl
  · exact h1

theorem addOpp_exp (c : Cfg) (p : ℕ) (ofs : ℤ) (u v : DW) :
    (addOpp c p ofs u v).exp = 0 ∨ (∃ j ≤ p, (addOpp c p ofs u v).exp = u.exp - j * c.ed) ∨
    ∃ j ≤ p, (addOpp c p ofs u v).exp = v.exp - j * c.ed := by
  unfold addOpp
  simp only []
  split
  · rcases justify_exp c p { u with data := (subN c.L (u.data.take p) ((shr c.N ofs.toNat v.data).take p)).1 ++ u.data.drop p } with h | ⟨j, h1, h2⟩
    · exact Or.inl h
    · exact Or.inr (Or.inl ⟨j, h1, h2⟩)
  · generalize (if ofs ≠ 0 then shr c.N (-ofs).toNat u.data else u.data) = ud
    rcases justify_exp c p { data := (subN c.L (v.data.take p) (ud.take p)).1 ++ ud.drop p, exp := v.exp, neg := v.neg, prec := u.prec } with h | ⟨j, h1, h2⟩
    · exact Or.inl h
    · exact Or.inr (Or.inr ⟨j, h1, h2⟩)

/-- C65 (addition; partial: see `exponent_type_drops_addends`, `exponent_type_wraps_difference`). If the exponents of the operands stay
    away from the ends of the exponent type by the number of internal digits, the sum computed with exponents of w bits is the sum with
    unbounded exponents (to which C02 applies). -/
theorem add_exponent_type_partial (c : Cfg) (w : ℕ) (hw : 0 < w) (u v : DW) (hu : u.prec ≤ c.N) (hNe : (c.ed : ℤ) ≤ c.N * c.ed)
    (h1 : |u.exp| + c.N * c.ed < 2 ^ (w - 1)) (h2 : |v.exp| + c.N * c.ed < 2 ^ (w - 1)) :
    addAssignW c w u v = some (addAssign c u v) := by
  have hp := two_pow_pred hw
  have a1 := abs_le.mp (le_refl |u.exp|)
  have a2 := abs_le.mp (le_refl |v.exp|)
  unfold addAssignW addAssign
  split
  · rfl
  · next hz =>
    simp only []
    generalize hpe : min u.prec v.prec = p
    have hpN : p ≤ c.N := by omega
    have hpz : (p : ℤ) * c.ed ≤ c.N * c.ed := mul_le_mul_of_nonneg_right (by exact_mod_cast hpN) (by positivity)
    have hed : (0 : ℤ) < c.ed := by exact_mod_cast (by unfold Cfg.ed; cases c.L <;> decide)
    have hpp : (p : ℤ) ≤ p * c.ed := le_mul_of_one_le_right (by positivity) (by omega)
    have hp0 : (0 : ℤ) ≤ (p : ℤ) * c.ed := by positivity
    have b1 : 0 ≤ |u.exp| := abs_nonneg _
    have b2 : 0 ≤ |v.exp| := abs_nonneg _
    rw [castE_id hw (by linarith) (by linarith), setE_id hw (by linarith) (by linarith), Option.bind_some]
    rw [castU_nonneg hp0 (by linarith)]
    obtain ⟨e1, o1⟩ := wrap_of_signed w hw u.exp (by linarith [a1.1]) (by linarith [a1.2])
    obtain ⟨e2, o2⟩ := wrap_of_signed w hw v.exp (by linarith [a2.1]) (by linarith [a2.2])
    obtain ⟨e3, o3⟩ := wrap_sub w hw _ _ o1 o2 (by rw [e1, e2]; rw [abs_lt]; constructor <;> linarith [a1.1, a1.2, a2.1, a2.2])
    rw [e1, e2] at e3
    obtain ⟨n1, n2⟩ := UW.neg_value o3
    rw [e3] at n1 n2
    rw [n1, n2]
    have c1 : (decide (u.exp - v.exp < 0) = false ∧ (u.exp - v.exp).natAbs ≥ ((p : ℤ) * c.ed).toNat) ↔
        (0 ≤ u.exp - v.exp ∧ u.exp - v.exp ≥ (p : ℤ) * c.ed) := by
      rw [decide_eq_false_iff_not]; omega
    have c2 : (decide (u.exp - v.exp < 0) = true ∧ (u.exp - v.exp).natAbs ≥ ((p : ℤ) * c.ed).toNat) ↔
        (u.exp - v.exp < 0 ∧ -(u.exp - v.exp) ≥ (p : ℤ) * c.ed) := by
      rw [decide_eq_true_eq]; omega
    have c3 : (if !decide (u.exp - v.exp < 0) then (((u.exp - v.exp).natAbs / c.ed : ℕ) : ℤ) else -(((u.exp - v.exp).natAbs / c.ed : ℕ) : ℤ)) =
        (if 0 ≤ u.exp - v.exp then (((u.exp - v.exp).natAbs / c.ed : ℕ) : ℤ) else -(((u.exp - v.exp).natAbs / c.ed : ℕ) : ℤ)) := by
      by_cases h : u.exp - v.exp < 0
      · rw [if_neg (by simp [h]), if_neg (by omega)]
      · rw [if_pos (by simp at h ⊢; exact h), if_pos (by omega)]
    simp only [c1, c2, c3]
    split
    · rfl
    · split
      · rfl
      · generalize (if 0 ≤ u.exp - v.exp then (((u.exp - v.exp).natAbs / c.ed : ℕ) : ℤ) else -(((u.exp - v.exp).natAbs / c.ed : ℕ) : ℤ)) = ofs
        have key : ∀ r : DW, (r.exp = 0 ∨ (∃ j ≤ p, r.exp = u.exp - j * c.ed) ∨ (∃ j ≤ p, r.exp = v.exp - j * c.ed) ∨
            r.exp = u.exp + c.ed ∨ r.exp = v.exp + c.ed) → storeE w r = some r := by
          intro r hr
          have hj : ∀ j ≤ p, (0 : ℤ) ≤ j * c.ed ∧ (j : ℤ) * c.ed ≤ c.N * c.ed := fun j hj =>
            ⟨by positivity, le_trans (mul_le_mul_of_nonneg_right (by exact_mod_cast hj) hed.le) hpz⟩
          refine storeE_id hw ?_ ?_
          · rcases hr with h | ⟨j, h0, h⟩ | ⟨j, h0, h⟩ | h | h <;> rw [h] <;> (try have := hj j h0) <;> linarith [a1.1, a1.2, a2.1, a2.2]
          · rcases hr with h | ⟨j, h0, h⟩ | ⟨j, h0, h⟩ | h | h <;> rw [h] <;> (try have := hj j h0) <;> linarith [a1.1, a1.2, a2.1, a2.2]
        split
        · refine key _ ?_
          rcases addSame_exp c p ofs u v with h | h | h | h
          · exact Or.inr (Or.inl ⟨0, Nat.zero_le _, by rw [h]; simp⟩)
          · exact Or.inr (Or.inr (Or.inr (Or.inl h)))
          · exact Or.inr (Or.inr (Or.inl ⟨0, Nat.zero_le _, by rw [h]; simp⟩))
          · exact Or.inr (Or.inr (Or.inr (Or.inr h)))
        · refine key _ ?_
          rcases addOpp_exp c p ofs u v with h | h | h
          · exact Or.inl h
          · exact Or.inr (Or.inl h)
          · exact Or.inr (Or.inr (Or.inl h))

/-- C65 (subtraction; partial as for addition). -/
theorem sub_exponent_type_partial (c : Cfg) (w : ℕ) (hw : 0 < w) (u v : DW) (hu : u.prec ≤ c.N) (hNe : (c.ed : ℤ) ≤ c.N * c.ed)
    (h1 : |u.exp| + c.N * c.ed < 2 ^ (w - 1)) (h2 : |v.exp| + c.N * c.ed < 2 ^ (w - 1)) :
    subAssignW c w u v = some (subAssign c u v) := by
  unfold subAssignW subAssign
  have e1 : u.negate.exp = u.exp := by unfold negate; split <;> rfl
  have e2 : u.negate.prec = u.prec := by unfold negate; split <;> rfl
  rw [add_exponent_type_partial c w hw u.negate v (by rw [e2]; exact hu) hNe (by rw [e1]; exact h1) h2]
  rfl

theorem mulDispatch_exp (c : Cfg) (p : ℕ) (u v : DW) : (mulDispatch c p u v).exp = u.exp ∨ (mulDispatch c p u v).exp = u.exp + c.ed := by
  unfold mulDispatch
  simp only []
  split
  · generalize (if p < elemsForKara then schoolMul c.L (u.data.take p) (v.data.take p) else karaProduct c p (u.data.take p) (v.data.take p)) = r
    split
    · exact Or.inr rfl
    · exact Or.inl rfl
  · split
    · exact Or.inr rfl
    · exact Or.inl rfl

/-- C65 (multiplication, no restriction on the operands). For every pair of numbers whose exponents are values of the exponent type –
    also those beyond the library's own maximum exponent – the product computed with exponents of w bits is the product with
    unbounded exponents (C03). -/
theorem mul_exponent_type (c : Cfg) (w : ℕ) (hw : 0 < w) (u v : DW) (hM : (c.maxExp : ℤ) + c.ed ≤ 2 ^ (w - 1))
    (h1 : |u.exp| < 2 ^ (w - 1)) (h2 : |v.exp| < 2 ^ (w - 1)) :
    mulAssignW c w u v = some (mulAssign c u v) := by
  have hp := two_pow_pred hw
  have hpos : (0 : ℤ) < 2 ^ (w - 1) := by positivity
  have hed : (0 : ℤ) < c.ed := by exact_mod_cast (by unfold Cfg.ed; cases c.L <;> decide)
  unfold mulAssignW mulAssign
  simp only []
  generalize hz : (if u.isZero ∨ v.isZero then zero c else u) = u0
  have h1' : |u0.exp| < 2 ^ (w - 1) := by
    rw [← hz]; split
    · show |(0 : ℤ)| < _
      exact hpos
    · exact h1
  clear hz h1
  rw [abs_lt] at h1' h2
  generalize (u0.neg != v.neg) = rn
  rw [Option.map_eq_some_iff]
  refine ⟨_, ?_, rfl⟩
  split
  · rfl
  · split
    · rfl
    · obtain ⟨e1, o1⟩ := wrap_of_signed w hw u0.exp h1'.1.le h1'.2
      obtain ⟨e2, o2⟩ := wrap_of_signed w hw v.exp h2.1.le h2.2
      obtain ⟨e3, o3⟩ := wrap_add w hw _ _ o1 o2 (by rw [e1, e2, abs_lt]; constructor <;> linarith [h1'.1, h1'.2, h2.1, h2.2])
      rw [e1, e2] at e3
      obtain ⟨n1, n2⟩ := UW.neg_value o3
      rw [e3] at n1 n2
      rw [n1, n2]
      generalize u0.exp + v.exp = e
      have c1 : (decide (e < 0) = false ∧ e.natAbs ≥ c.maxExp) ↔ (0 ≤ e ∧ e ≥ (c.maxExp : ℤ)) := by
        rw [decide_eq_false_iff_not]; omega
      have c2 : (decide (e < 0) = true ∧ e.natAbs ≥ c.maxExp) ↔ (e < 0 ∧ -e ≥ (c.maxExp : ℤ)) := by
        rw [decide_eq_true_eq]; omega
      simp only [c1, c2]
      split
      · rfl
      · next q1 =>
        split
        · rfl
        · next q2 =>
          have hr : -(c.maxExp : ℤ) < e ∧ e < c.maxExp := by omega
          have hc : castE w (e.natAbs : ℤ) = e.natAbs := castE_id hw (by omega) (by omega)
          have he : (if !decide (e < 0) then castE w (e.natAbs : ℤ) else -castE w (e.natAbs : ℤ)) = e := by
            rw [hc]
            by_cases h : e < 0
            · rw [if_neg (by simp [h])]; omega
            · rw [if_pos (by simp at h ⊢; exact h)]; omega
          rw [he]
          have := mulDispatch_exp c (min u0.prec v.prec) { data := u0.data, exp := e, neg := false, prec := u0.prec } v
          simp only at this
          refine storeE_id hw ?_ ?_ <;> rcases this with h | h <;> rw [h] <;> omega

theorem orderOf_le20 {n : ℕ} (h : n < 2 ^ 64) : orderOf n ≤ 20 := by
  obtain ⟨-, h2, -⟩ := orderOf_digits n
  rcases Nat.eq_zero_or_pos n with h0 | h0
  · subst h0; unfold orderOf; decide
  · by_contra hc
    have h3 := h2 h0
    have h4 : 10 ^ 20 ≤ 10 ^ (orderOf n - 1) := Nat.pow_le_pow_right (by norm_num) (by omega)
    omega

theorem ullDigits_length (B : ℕ) : ∀ i u, (ullDigits B i u).length ≤ i
  | 0, _ => le_refl _
  | i + 1, u => by
    unfold ullDigits
    split
    · simp
    · simp [ullDigits_length B i]

theorem ofUnsigned_exp_lt (c : Cfg) (n : ℕ) : |(ofUnsigned c 64 n).exp| < 2 ^ 7 := by
  have hed : c.ed ≤ 8 := by unfold Cfg.ed; cases c.L <;> decide
  have hs : (19 / c.ed + 2) * c.ed ≤ 35 := by
    have := Nat.div_mul_le_self 19 c.ed
    rw [Nat.add_mul]; omega
  unfold ofUnsigned
  split
  · unfold ofLimbU
    split
    · simp
    · simp only []; rw [abs_lt]; constructor <;> omega
  · unfold fromULL
    simp only []
    have hl := ullDigits_length c.B (19 / c.ed + 3) n
    rw [List.length_reverse]
    generalize (ullDigits c.B (19 / c.ed + 3) n).length = i at *
    split
    · have h1 : (i - 1) * c.ed ≤ 35 := le_trans (Nat.mul_le_mul_right _ (by omega)) hs
      have h2 : (((i - 1 : ℕ) : ℤ)) * c.ed ≤ 35 := by exact_mod_cast h1
      have h3 : (0 : ℤ) ≤ (((i - 1 : ℕ) : ℤ)) * c.ed := by positivity
      rw [abs_lt]; constructor <;> omega
    · simp

/-- C65 (multiplication by a 64-bit integer, no restriction on the operand). -/
theorem mul_int_exponent_type (c : Cfg) (w : ℕ) (hw : 8 ≤ w) (u : DW) (n : ℕ) (hn : n < 2 ^ 64)
    (hM : (c.maxExp : ℤ) + c.ed ≤ 2 ^ (w - 1)) (h1 : |u.exp| < 2 ^ (w - 1)) :
    mulULLW c w u n = some (mulULL c u n) := by
  have hw0 : 0 < w := by omega
  have hp := two_pow_pred hw0
  have hpos : (2 : ℤ) ^ 7 ≤ 2 ^ (w - 1) := by exact_mod_cast Nat.pow_le_pow_right (by norm_num) (by omega)
  have hed : (0 : ℤ) < c.ed := by exact_mod_cast (by unfold Cfg.ed; cases c.L <;> decide)
  have h1' := abs_lt.mp h1
  unfold mulULLW mulULL
  simp only []
  split
  · rfl
  · have ho := orderOf_le20 hn
    rw [castE_id hw0 (by omega) (by omega)]
    obtain ⟨e1, o1⟩ := wrap_of_signed w hw0 u.exp h1'.1.le h1'.2
    obtain ⟨e2, o2⟩ := wrap_of_signed w hw0 (orderOf n : ℤ) (by omega) (by omega)
    obtain ⟨e3, o3⟩ := wrap_add w hw0 _ _ o1 o2 (by rw [e1, e2, abs_lt]; constructor <;> omega)
    rw [e1, e2] at e3
    obtain ⟨n1, n2⟩ := UW.neg_value o3
    rw [e3] at n1 n2
    rw [n1, n2]
    have c1 : (decide (u.exp + orderOf n < 0) = false ∧ (u.exp + orderOf n).natAbs ≥ c.maxExp) ↔
        (0 ≤ u.exp + orderOf n ∧ u.exp + orderOf n ≥ (c.maxExp : ℤ)) := by
      rw [decide_eq_false_iff_not]; omega
    simp only [c1]
    split
    · rfl
    · split
      · exact mul_exponent_type c w hw0 u _ hM h1 (lt_of_lt_of_le (ofUnsigned_exp_lt c n) hpos)
      · split
        · rfl
        · split
          · refine storeE_id hw0 ?_ ?_ <;> simp only [] <;> omega
          · rfl

/-- C65 (integer part): the same for every number, if the number of digits fits the exponent type (see `exponent_type_integer_part`). -/
theorem integer_part_exponent_type_partial (c : Cfg) (w : ℕ) (hw : 0 < w) (x : DW) (hd : (c.digits10 : ℤ) ≤ 2 ^ (w - 1)) :
    integerPartW c w x = integerPart c x := by
  unfold integerPartW integerPart
  have hpos : (0 : ℤ) < 2 ^ (w - 1) := by positivity
  rw [castE_id hw (by omega) (by omega)]

theorem normPoint_exp {s t : List Char} {e f : ℤ} (h : normPoint s e = some (t, f)) :
    t.length ≤ s.length + 1 ∧ e - (s.length + 1) ≤ f ∧ f ≤ e := by
  unfold normPoint at h
  simp only [] at h
  have hst : (stripTrailing s).length ≤ s.length := by
    unfold stripTrailing
    rw [List.length_reverse]
    exact le_trans (List.dropWhile_suffix _).length_le (by simp)
  split at h
  · split at h
    · exact absurd h (by simp)
    · split at h
      · simp only [Option.some.injEq, Prod.mk.injEq] at h
        obtain ⟨h1, h2⟩ := h
        have a1 := (List.takeWhile_prefix (l := (stripTrailing s).drop 1) (fun x => x == '0')).length_le
        have a2 := (List.dropWhile_suffix (l := (stripTrailing s).drop 1) (fun x => x == '0')).length_le
        rw [List.length_drop] at a1 a2
        refine ⟨?_, by omega, by omega⟩
        rw [← h1]; unfold insertAt; rw [List.length_append, List.length_cons, List.length_take, List.length_drop]; omega
      · simp only [Option.some.injEq, Prod.mk.injEq] at h
        obtain ⟨h1, h2⟩ := h
        subst h1 h2
        exact ⟨by omega, by omega, le_refl _⟩
  · simp only [Option.some.injEq, Prod.mk.injEq] at h
    obtain ⟨h1, h2⟩ := h
    subst h1 h2
    exact ⟨by simp, by omega, le_refl _⟩

theorem shiftPoint_exp (c : Cfg) (s : List Char) (e : ℤ) :
    (shiftPoint c s e).1.length ≤ s.length + c.ed ∧ e - c.ed ≤ (shiftPoint c s e).2 ∧ (shiftPoint c s e).2 ≤ e := by
  have hed : (0 : ℤ) < c.ed := by exact_mod_cast (by unfold Cfg.ed; cases c.L <;> decide)
  unfold shiftPoint
  simp only []
  generalize hn : (if e.tmod c.ed ≠ 0 then (if e < 0 then e.tmod c.ed + c.ed else e.tmod c.ed).toNat else 0) = n
  have hle : n ≤ c.ed := by
    rw [← hn]
    have b1 := Int.tmod_lt_of_pos e hed
    have b2 : e < 0 → e.tmod c.ed ≤ 0 := fun h => by
      have := Int.tmod_nonneg (c.ed : ℤ) (show 0 ≤ -e by omega)
      rw [Int.neg_tmod] at this; omega
    split
    · split <;> omega
    · omega
  generalize hs : (if s.length - (s.idxOf '.' + 1) < n then s ++ List.replicate (n - (s.length - (s.idxOf '.' + 1))) '0' else s) = t
  have ht : t.length ≤ s.length + n := by rw [← hs]; split <;> simp
  split
  · refine ⟨?_, by omega, by omega⟩
    have hidx : s.idxOf '.' ≤ s.length := List.idxOf_le_length
    unfold insertAt
    rw [List.length_eraseIdx]
    split <;> simp at * <;> omega
  · next h0 => have : n = 0 := by simpa using h0
               refine ⟨?_, by omega, le_refl _⟩
               show t.length ≤ _
               omega

theorem reduceMant_exp (c : Cfg) (s : List Char) (e : ℤ) : e ≤ (reduceMant c s e).2 ∧ (reduceMant c s e).2 ≤ e + s.length := by
  unfold reduceMant
  simp only []
  have hidx : s.idxOf '.' ≤ s.length := List.idxOf_le_length
  split
  · have h1 : (s.idxOf '.' / c.ed - (if s.idxOf '.' % c.ed = 0 then 1 else 0)) * c.ed ≤ s.idxOf '.' :=
      le_trans (Nat.mul_le_mul_right _ (Nat.sub_le _ _)) (Nat.div_mul_le_self _ _)
    simp only []
    generalize s.idxOf '.' / c.ed - (if s.idxOf '.' % c.ed = 0 then 1 else 0) = m at *
    constructor
    · have : (0 : ℤ) ≤ (m : ℤ) * c.ed := by positivity
      linarith
    · have : (m : ℤ) * c.ed ≤ s.length := by exact_mod_cast le_trans h1 hidx
      linarith
  · exact ⟨le_refl _, by simp⟩

/-- C65 (conversion from text; partial: see `exponent_type_parse`). If the exponent in the text, enlarged by the length of the text,
    fits the exponent type, the number read is the number read with unbounded exponents (C19). -/
theorem parse_exponent_type_partial (c : Cfg) (w : ℕ) (hw : 0 < w) (s : List Char)
    (h : |(splitExp s).2| + 2 * (s.length + c.ed + 2) < 2 ^ (w - 1)) :
    ofStringW c w s = some (ofString c s) := by
  unfold ofStringW ofString rdStringW rdString
  have hs : (splitExp s).1.length ≤ s.length := by
    unfold splitExp
    simp only []
    split
    · exact (List.takeWhile_prefix _).length_le
    · split
      · exact (List.takeWhile_prefix _).length_le
      · exact le_refl _
  generalize splitExp s = se at *
  obtain ⟨s1, e⟩ := se
  simp only [] at *
  have he := abs_le.mp (le_refl |e|)
  have he0 := abs_nonneg e
  rw [castE_id hw (by omega) (by omega)]
  generalize hs2 : (if (s1.contains '-') = true then s1.erase '-' else s1) = s2
  have l2 : s2.length ≤ s1.length := by
    rw [← hs2]; split
    · exact List.length_erase_le
    · exact le_refl _
  generalize hs3 : (if (s2.contains '+') = true then s2.erase '+' else s2) = s3
  have l3 : s3.length ≤ s2.length := by
    rw [← hs3]; split
    · exact List.length_erase_le
    · exact le_refl _
  have l4 := (List.dropWhile_suffix (l := s3) (fun x => x == '0')).length_le
  generalize s3.dropWhile (fun x => x == '0') = t at *
  split
  · rfl
  · split
    · next hn => rw [hn]
    · next a f hn =>
      rw [hn]
      obtain ⟨m1, m2, m3⟩ := normPoint_exp hn
      simp only []
      rw [setE_id hw (by omega) (by omega), Option.bind_some]
      obtain ⟨k1, k2, k3⟩ := shiftPoint_exp c a f
      generalize shiftPoint c a f = q at *
      obtain ⟨a2, f2⟩ := q
      simp only [] at *
      rw [setE_id hw (by omega) (by omega), Option.bind_some]
      obtain ⟨r1, r2⟩ := reduceMant_exp c a2 f2
      generalize reduceMant c a2 f2 = q at *
      obtain ⟨a3, f3⟩ := q
      simp only [] at *
      rw [setE_id hw (by omega) (by omega)]
      rfl

/-- The hypotheses above hold for the widths and maximum exponents of the library: 100 digits, 32-bit limbs, all numbers up to the
    maximum exponent with 64-, 32- and 16-bit exponents; 32 digits with 8-bit exponents. -/
example (u v : DW) (M : ℤ) (hu : |u.exp| ≤ M) (hv : |v.exp| ≤ M) (hp : u.prec ≤ 16) (c : Cfg) (hL : c.L = .u32) (hd : c.digits10 = 100)
    (w : ℕ) (hw : (w = 64 ∧ M = 2 ^ 59) ∨ (w = 32 ∧ M = 2 ^ 28) ∨ (w = 16 ∧ M = 2 ^ 13)) :
    addAssignW c w u v = some (addAssign c u v) := by
  have hN : c.N = 16 := by unfold Cfg.N Cfg.ed; rw [hL, hd]; rfl
  have hed : c.ed = 8 := by unfold Cfg.ed; rw [hL]; rfl
  refine add_exponent_type_partial c w (by omega) u v (by omega) (by rw [hN, hed]; norm_num) ?_ ?_ <;> rw [hN, hed] <;>
    rcases hw with ⟨h, h'⟩ | ⟨h, h'⟩ | ⟨h, h'⟩ <;> subst h h' <;> norm_num at hu hv ⊢ <;> omega

/-! Findings -/

theorem castE_mod (w : ℕ) (e : ℤ) : UW.castU w (castE w e) = UW.castU w e := by
  unfold castE UW.toS UW.castU
  have h0 : (0 : ℤ) ≤ e % 2 ^ w := Int.emod_nonneg _ (by positivity)
  split
  · rw [Int.toNat_of_nonneg h0, Int.emod_emod_of_dvd _ (dvd_refl _)]
  · rw [Int.toNat_of_nonneg h0, Int.sub_emod_right, Int.emod_emod_of_dvd _ (dvd_refl _)]

theorem castE_cong (w : ℕ) (e : ℤ) : Int.ModEq (2 ^ w) (castE w e) e := by
  have h := castE_mod w e
  unfold UW.castU at h
  have h1 : (0 : ℤ) ≤ castE w e % 2 ^ w := Int.emod_nonneg _ (by positivity)
  have h2 : (0 : ℤ) ≤ e % 2 ^ w := Int.emod_nonneg _ (by positivity)
  unfold Int.ModEq
  omega

/-- C65 (finding F63). With an exponent type below 32 bits the number of digits that take part in an addition is reduced modulo the
    range of the exponent type: two non-zero numbers of full precision whose exponents differ by at least (internal digits) mod 2^w are
    not added, the one with the larger exponent is returned – for all such numbers, of any value. -/
theorem exponent_type_drops_addends (c : Cfg) (w : ℕ) (hw : 0 < w) (hw32 : w < 32) (u v : DW) (hu : u.prec = c.N) (hv : v.prec = c.N)
    (h1 : |u.exp| < 2 ^ (w - 1)) (h2 : |v.exp| < 2 ^ (w - 1)) (hz1 : u.isZero = false) (hz2 : v.isZero = false)
    (hd : (c.N * c.ed : ℕ) % 2 ^ w ≤ (u.exp - v.exp).natAbs) :
    addAssignW c w u v = some (if v.exp ≤ u.exp then u else v) := by
  have hp := two_pow_pred hw
  rw [abs_lt] at h1 h2
  unfold addAssignW
  rw [if_neg (by simp [hz1])]
  simp only []
  rw [hu, hv, min_self]
  have hs : setE w (castE w (c.N : ℤ) * c.ed) = some (castE w (castE w (c.N : ℤ) * c.ed)) := by unfold setE; rw [if_pos hw32]
  rw [hs, Option.bind_some, castE_mod]
  have hm : UW.castU w (castE w (c.N : ℤ) * c.ed) = (c.N * c.ed) % 2 ^ w := by
    unfold UW.castU
    have : Int.ModEq (2 ^ w) (castE w (c.N : ℤ) * c.ed) ((c.N * c.ed : ℕ) : ℤ) := by
      push_cast
      exact Int.ModEq.mul_right _ (castE_cong w _)
    unfold Int.ModEq at this
    rw [this]
    have h3 : (((c.N * c.ed : ℕ) : ℤ)) % 2 ^ w = (((c.N * c.ed) % 2 ^ w : ℕ) : ℤ) := by push_cast; rfl
    rw [h3, Int.toNat_natCast]
  rw [hm]
  obtain ⟨e1, o1⟩ := wrap_of_signed w hw u.exp h1.1.le h1.2
  obtain ⟨e2, o2⟩ := wrap_of_signed w hw v.exp h2.1.le h2.2
  obtain ⟨e3, o3⟩ := wrap_sub w hw _ _ o1 o2 (by rw [e1, e2, abs_lt]; constructor <;> linarith [h1.1, h1.2, h2.1, h2.2])
  rw [e1, e2] at e3
  obtain ⟨n1, n2⟩ := UW.neg_value o3
  rw [e3] at n1 n2
  rw [n1, n2]
  by_cases h : v.exp ≤ u.exp
  · rw [if_pos (Or.inr ⟨by simp; exact h, hd⟩), if_pos h]
  · rw [if_neg (by simp [hz2]; intro h'; exact absurd h' h), if_pos ⟨by simp; omega, hd⟩, if_neg h]

/-- C65 (finding F63, instance). In `decwide_t<232, uint32_t, …, int8_t>` one plus one is one, and for 232 digits that holds for every
    pair of non-zero numbers: addition returns one of its operands. -/
theorem exponent_type_one_plus_one :
    let c : Cfg := { L := .u32, digits10 := 232, maxExp := 64 }
    addAssignW c 8 (one c) (one c) = some (one c) ∧
    (∀ u v : DW, u.prec = c.N → v.prec = c.N → |u.exp| < 128 → |v.exp| < 128 → u.isZero = false → v.isZero = false →
      addAssignW c 8 u v = some (if v.exp ≤ u.exp then u else v)) := by
  intro c
  have key : ∀ u v : DW, u.prec = c.N → v.prec = c.N → |u.exp| < 128 → |v.exp| < 128 → u.isZero = false → v.isZero = false →
      addAssignW c 8 u v = some (if v.exp ≤ u.exp then u else v) := fun u v h1 h2 h3 h4 h5 h6 =>
    exponent_type_drops_addends c 8 (by norm_num) (by norm_num) u v h1 h2 (by simpa using h3) (by simpa using h4) h5 h6
      (le_trans (by decide) (Nat.zero_le _))
  refine ⟨?_, key⟩
  rw [key _ _ rfl rfl (by decide) (by decide) (by decide) (by decide)]
  rfl

/-- C65 (finding F64). A small difference of small numbers becomes a huge number: with 80 digits and 8-bit exponents, the difference of
    10^-64 + 10^-136 and 10^-64 – both read from text – has the value 10^120. -/
theorem exponent_type_wraps_difference :
    let c : Cfg := { L := .u32, digits10 := 80, maxExp := 64 }
    ∃ u v r : DW,
      ofStringW c 8 ("1.000000000000000000000000000000000000000000000000000000000000000000000001e-64").toList = some u ∧
      ofStringW c 8 "1e-64".toList = some v ∧ subAssignW c 8 u v = some r ∧
      u.val c = 10 ^ (-64 : ℤ) + 10 ^ (-136 : ℤ) ∧ v.val c = 10 ^ (-64 : ℤ) ∧ r.val c = 10 ^ 120 := by
  refine ⟨⟨[1, 0, 0, 0, 0, 0, 0, 0, 0, 1, 0, 0, 0], -64, false, 13⟩, ⟨[1, 0, 0, 0, 0, 0, 0, 0, 0, 0, 0, 0, 0], -64, false, 13⟩,
    ⟨[1, 0, 0, 0, 0, 0, 0, 0, 0, 0, 0, 0, 0], 120, false, 13⟩, by decide +kernel, by decide +kernel, by decide +kernel,
    by decide +kernel, by decide +kernel, by decide +kernel⟩

/-- C65 (finding F65). With 200 digits and 8-bit exponents the integer part of 1.5 is 1.5. -/
theorem exponent_type_integer_part :
    let c : Cfg := { L := .u32, digits10 := 200, maxExp := 64 }
    ∃ x : DW, ofStringW c 8 "1.5".toList = some x ∧ x.val c = 3 / 2 ∧ (integerPartW c 8 x).val c = 3 / 2 ∧ (integerPart c x).val c = 1 := by
  refine ⟨_, rfl, by decide +kernel, by decide +kernel, by decide +kernel⟩

/-- C65 (finding F66). With 8-bit exponents the text 1e300 is read as 10^44. -/
theorem exponent_type_parse :
    let c : Cfg := { L := .u32, digits10 := 20, maxExp := 64 }
    ∃ x : DW, ofStringW c 8 "1e300".toList = some x ∧ x.val c = 10 ^ 44 := by
  refine ⟨_, rfl, by decide +kernel⟩

/-- C65 (finding F67). With 8-bit exponents the sum of two huge positive numbers is tiny: 5e127 + 5e127 = 10^-128. With 32-bit exponents
    the same at the end of the range is undefined behaviour: 5·10^(2^31-1) (exponent 2^31-8) doubled. -/
theorem exponent_type_sum_wraps :
    (let c : Cfg := { L := .u32, digits10 := 20, maxExp := 64 }
     ∃ x r : DW, ofStringW c 8 "5e127".toList = some x ∧ x.val c = 5 * 10 ^ 127 ∧ addAssignW c 8 x x = some r ∧ r.val c = 10 ^ (-128 : ℤ)) ∧
    (let c : Cfg := { L := .u32, digits10 := 20, maxExp := 2 ^ 28 }
     ∃ x : DW, ofStringW c 32 "5e2147483647".toList = some x ∧ addAssignW c 32 x x = none) := by
  refine ⟨⟨⟨[50000000, 0, 0, 0, 0, 0], 120, false, 6⟩, ⟨[1, 0, 0, 0, 0, 0], -128, false, 6⟩, by decide +kernel, by decide +kernel,
    by decide +kernel, by decide +kernel⟩, ⟨[50000000, 0, 0, 0, 0, 0], 2147483640, false, 6⟩, by decide +kernel, by decide +kernel⟩

end WD
