import Verif.Proofs.Radix3
import Verif.Proofs.Ops
/-
  Addition and subtraction of an object whose leading limb is the radix (what the reciprocal of a number next to a power of
  the radix can be) to a well-formed number of larger exponent.
-/
namespace WD
open DW

theorem addC_zero (L : Limb) : ∀ (n : ℕ) (u : List ℕ), u.length = n → ValidLimbs L.mask u →
    addC L 0 u (List.replicate n 0) = (u, 0)
  | 0, u, hl, _ => by
    rw [List.length_eq_zero_iff] at hl; subst hl; simp [addC]
  | n + 1, [], hl, _ => by simp at hl
  | n + 1, x :: xs, hl, hu => by
    rw [validLimbs_cons] at hu
    rw [List.replicate_succ, addC, addC_zero L n xs (by simpa using hl) hu.2]
    have h := addStep_spec L hu.1 (show 0 < L.mask by cases L <;> decide) (show 0 ≤ 1 by omega)
    have h1 := hu.1
    obtain ⟨a, b, e⟩ := h
    have h0 : (addStep L x 0 0).2 = 0 := by
      rcases Nat.le_one_iff_eq_zero_or_eq_one.mp b with h | h
      · exact h
      · rw [h] at e; omega
    have h2 : (addStep L x 0 0).1 = x := by rw [h0] at e; omega
    have : addStep L x 0 0 = (x, 0) := Prod.ext h2 h0
    simp only [this]

theorem subC_zero (L : Limb) : ∀ (n : ℕ) (u : List ℕ), u.length = n → ValidLimbs L.mask u →
    subC L 0 u (List.replicate n 0) = (u, 0)
  | 0, u, hl, _ => by
    rw [List.length_eq_zero_iff] at hl; subst hl; simp [subC]
  | n + 1, [], hl, _ => by simp at hl
  | n + 1, x :: xs, hl, hu => by
    rw [validLimbs_cons] at hu
    rw [List.replicate_succ, subC, subC_zero L n xs (by simpa using hl) hu.2]
    have h := subStep_spec L hu.1 (show 0 < L.mask by cases L <;> decide) (show 0 ≤ 1 by omega)
    have h1 := hu.1
    obtain ⟨a, b, e⟩ := h
    have h0 : (subStep L x 0 0).2 = 0 := by
      rcases Nat.le_one_iff_eq_zero_or_eq_one.mp b with h | h
      · exact h
      · rw [h] at e; omega
    have h2 : (subStep L x 0 0).1 = x := by rw [h0] at e; omega
    have : subStep L x 0 0 = (x, 0) := Prod.ext h2 h0
    simp only [this]

theorem addStep_radix (L : Limb) {x : ℕ} (hx : x < L.mask) : addStep L x L.mask 0 = (x, 1) ∧ addStep L x 0 1 = addStep L x 1 0 := by
  cases L <;>
  · simp only [addStep, Limb.mask_eq, Limb.W_eq] at *
    refine ⟨?_, ?_⟩
    · split
      · simp; omega
      · omega
    · simp only [Nat.add_zero, Nat.mod_add_mod, Nat.mod_mod]

theorem subStep_radix (L : Limb) {x : ℕ} (hx : x < L.mask) : subStep L x L.mask 0 = (x, 1) ∧ subStep L x 0 1 = subStep L x 1 0 := by
  cases L <;>
  · simp only [subStep, Limb.mask_eq, Limb.W_eq] at *
    refine ⟨?_, trivial⟩
    split
    · simp; omega
    · omega

/-- The two alignments of the same number. -/
def alignR (B j m : ℕ) : List ℕ := List.replicate j 0 ++ (0 :: B :: List.replicate m 0)
def alignW (j m : ℕ) : List ℕ := List.replicate j 0 ++ (1 :: 0 :: List.replicate m 0)

theorem addC_radix (L : Limb) (m : ℕ) : ∀ (j : ℕ) (u : List ℕ), u.length = j + (m + 2) → ValidLimbs L.mask u →
    addC L 0 u (alignR L.mask j m) = addC L 0 u (alignW j m)
  | 0, x :: y :: zs, hl, hu => by
    rw [validLimbs_cons, validLimbs_cons] at hu
    have hz := addC_zero L m zs (by simp at hl; omega) hu.2.2
    have hm : 0 < L.mask := by cases L <;> decide
    have h1 := (addStep_radix L hu.2.1).1
    have h2 := (addStep_radix L hu.1).2
    have h3 : addStep L y 0 0 = (y, 0) := by
      have := addC_zero L 1 [y] rfl (by rw [validLimbs_cons]; exact ⟨hu.2.1, validLimbs_nil _⟩)
      simp only [List.replicate, addC, Prod.mk.injEq] at this
      exact Prod.ext (by simpa using this.1) this.2
    unfold alignR alignW
    simp only [List.replicate_zero, List.nil_append, addC, hz, h1, h3, h2]
  | j + 1, x :: xs, hl, hu => by
    rw [validLimbs_cons] at hu
    have ih := addC_radix L m j xs (by simp at hl; omega) hu.2
    unfold alignR alignW at *
    simp only [List.replicate_succ, List.cons_append, addC, ih]
  | 0, [], hl, _ => by simp at hl
  | 0, [x], hl, _ => by simp at hl
  | j + 1, [], hl, _ => by simp at hl

theorem subC_radix (L : Limb) (m : ℕ) : ∀ (j : ℕ) (u : List ℕ), u.length = j + (m + 2) → ValidLimbs L.mask u →
    subC L 0 u (alignR L.mask j m) = subC L 0 u (alignW j m)
  | 0, x :: y :: zs, hl, hu => by
    rw [validLimbs_cons, validLimbs_cons] at hu
    have hz := subC_zero L m zs (by simp at hl; omega) hu.2.2
    have h1 := (subStep_radix L hu.2.1).1
    have h2 := (subStep_radix L hu.1).2
    have h3 : subStep L y 0 0 = (y, 0) := by
      have := subC_zero L 1 [y] rfl (by rw [validLimbs_cons]; exact ⟨hu.2.1, validLimbs_nil _⟩)
      simp only [List.replicate, subC, Prod.mk.injEq] at this
      exact Prod.ext (by simpa using this.1) this.2
    unfold alignR alignW
    simp only [List.replicate_zero, List.nil_append, subC, hz, h1, h3, h2]
  | j + 1, x :: xs, hl, hu => by
    rw [validLimbs_cons] at hu
    have ih := subC_radix L m j xs (by simp at hl; omega) hu.2
    unfold alignR alignW at *
    simp only [List.replicate_succ, List.cons_append, subC, ih]
  | 0, [], hl, _ => by simp at hl
  | 0, [x], hl, _ => by simp at hl
  | j + 1, [], hl, _ => by simp at hl

theorem shr_radix {B N j : ℕ} (h : j + 1 < N) : shr N (j + 1) (radixLimbs B N) = alignR B j (N - 2 - j) ∧
    shr N j (1 :: List.replicate (N - 1) 0) = alignW j (N - 2 - j) := by
  unfold shr radixLimbs alignR alignW
  constructor
  · rw [List.replicate_succ', List.append_assoc]
    congr 1
    obtain ⟨m, hm⟩ : ∃ m, N - (j + 1) = m + 1 := ⟨N - 2 - j, by omega⟩
    rw [hm, List.take_succ_cons, List.take_replicate]
    simp only [List.singleton_append]
    congr 3; omega
  · congr 1
    obtain ⟨m, hm⟩ : ∃ m, N - j = m + 1 := ⟨N - 1 - j, by omega⟩
    rw [hm, List.take_succ_cons, List.take_replicate]
    obtain ⟨k, hk⟩ : ∃ k, min m (N - 1) = k + 1 := ⟨N - 2 - j, by omega⟩
    rw [hk, List.replicate_succ]
    congr 3; omega

variable {c : Cfg}

theorem justify_zeros {w : DW} {p : ℕ} (h : w.data = List.replicate c.N 0) : justify c p w = zero c := by
  have hall : ∀ k, (List.replicate k 0).all (· == 0) = true := by intro k; induction k with
    | zero => rfl
    | succ k ih => simp
  unfold justify
  simp only
  rw [if_pos]
  split
  · rw [h]; exact hall _
  · split
    · rw [h]; exact hall _
    · simp only [h, List.drop_replicate, List.replicate_append_replicate]; exact hall _

/-- Adding the object with the radix limb is adding its well-formed twin. -/
theorem Mal.add_twin {u y : DW} (hu : Full c u) (hu0 : u.val c ≠ 0) (hy : Mal c y) (hyp : y.prec = c.N) (he : y.exp < u.exp)
    (hd : u.exp - y.exp < c.N * c.ed) : addAssign c u y = addAssign c u (twin c y) := by
  have huz := isZero_false_of_val hu.toWF hu0
  have hed := c.ed_pos
  have h3 := c.three_le_N
  obtain ⟨k, hk⟩ : ∃ k : ℕ, u.exp - y.exp = ((k + 1 : ℕ) : ℤ) * c.ed := by
    obtain ⟨q, hq⟩ := dvd_sub hu.toWF.dvd hy.dvd
    have : 0 < q := by
      by_contra hc
      have : (c.ed : ℤ) * q ≤ 0 := mul_nonpos_of_nonneg_of_nonpos (by omega) (by omega)
      omega
    refine ⟨(q - 1).toNat, ?_⟩
    rw [hq]; push_cast; rw [Int.toNat_of_nonneg (by omega)]; ring
  have hkN : k + 1 < c.N := by
    rw [hk] at hd
    have : ((k + 1 : ℕ) : ℤ) < c.N := lt_of_mul_lt_mul_right hd (by omega)
    exact_mod_cast this
  have hlen : u.data.length = c.N := hu.toWF.len
  have hval : ValidLimbs c.L.mask u.data := hu.toWF.valid
  obtain ⟨s1, s2⟩ := shr_radix (B := c.B) hkN
  have hal : c.N = k + (c.N - 2 - k + 2) := by omega
  have lR : (alignR c.B k (c.N - 2 - k)).length = c.N := by unfold alignR; simp; omega
  have lW : (alignW k (c.N - 2 - k)).length = c.N := by unfold alignW; simp; omega
  have hadd : addN c.L (u.data.take c.N) ((shr c.N (k + 1) y.data).take c.N) =
      addN c.L (u.data.take c.N) ((shr c.N k (twin c y).data).take c.N) := by
    rw [hy.data, s1, show (twin c y).data = 1 :: List.replicate (c.N - 1) 0 from rfl, s2, List.take_of_length_le hlen.le,
      List.take_of_length_le lR.le, List.take_of_length_le lW.le]
    exact addC_radix c.L _ k u.data (by rw [hlen]; exact hal) hval
  have hsub : subN c.L (u.data.take c.N) ((shr c.N (k + 1) y.data).take c.N) =
      subN c.L (u.data.take c.N) ((shr c.N k (twin c y).data).take c.N) := by
    rw [hy.data, s1, show (twin c y).data = 1 :: List.replicate (c.N - 1) 0 from rfl, s2, List.take_of_length_le hlen.le,
      List.take_of_length_le lR.le, List.take_of_length_le lW.le]
    exact subC_radix c.L _ k u.data (by rw [hlen]; exact hal) hval
  have te : (twin c y).exp = y.exp + c.ed := rfl
  have tn : (twin c y).neg = y.neg := rfl
  have tp : (twin c y).prec = c.N := hyp
  have hk' : u.exp - (twin c y).exp = (k : ℤ) * c.ed := by rw [te]; push_cast at hk; linarith
  have hpos : (0 : ℤ) ≤ (k : ℤ) * c.ed := by positivity
  have hpos1 : (0 : ℤ) ≤ ((k + 1 : ℕ) : ℤ) * c.ed := by positivity
  have hlt1 : ((k + 1 : ℕ) : ℤ) * c.ed < c.N * c.ed := by rw [← hk]; exact hd
  have hlt : (k : ℤ) * c.ed < c.N * c.ed := by push_cast at hlt1; linarith
  have q1 : (((k + 1 : ℕ) : ℤ) * c.ed).natAbs / c.ed = k + 1 := by
    rw [show ((k + 1 : ℕ) : ℤ) * (c.ed : ℤ) = (((k + 1) * c.ed : ℕ) : ℤ) by push_cast; ring, Int.natAbs_natCast, Nat.mul_div_cancel _ hed]
  have q2 : ((k : ℤ) * c.ed).natAbs / c.ed = k := by
    rw [show (k : ℤ) * (c.ed : ℤ) = ((k * c.ed : ℕ) : ℤ) by push_cast; ring, Int.natAbs_natCast, Nat.mul_div_cancel _ hed]
  unfold addAssign
  simp only [huz, Bool.false_eq_true, if_false, hy.nz, Mal.twin_nz, false_or, hu.full, hyp, tp, min_self, hk, hk', q1, q2, tn]
  generalize hA : ((k + 1 : ℕ) : ℤ) * (c.ed : ℤ) = A at *
  generalize hA' : (k : ℤ) * (c.ed : ℤ) = A' at *
  generalize hM : (c.N : ℤ) * (c.ed : ℤ) = M at *
  have f1 : ¬ (0 ≤ A ∧ A ≥ M) := by omega
  have f2 : ¬ (A < 0 ∧ -A ≥ M) := by omega
  have f3 : ¬ (0 ≤ A' ∧ A' ≥ M) := by omega
  have f4 : ¬ (A' < 0 ∧ -A' ≥ M) := by omega
  simp only [if_neg f1, if_neg f2, if_neg f3, if_neg f4, if_pos hpos1, if_pos hpos]
  split
  · unfold addSame
    have g1 : (0 : ℤ) ≤ ((k + 1 : ℕ) : ℤ) := Int.natCast_nonneg _
    have g2 : (0 : ℤ) ≤ (k : ℤ) := Int.natCast_nonneg _
    simp only [if_pos g1, if_pos g2, Int.toNat_natCast, hadd]
  · unfold addOpp
    rw [if_pos (Or.inl (by omega))]
    simp only [Int.toNat_natCast, hsub]
    by_cases hk0 : 0 < k
    · rw [if_pos (Or.inl (by omega))]
    · have hk0 : k = 0 := by omega
      subst hk0
      by_cases hcmp : compareRanges (u.data.take c.N) ((twin c y).data.take c.N) > 0
      · rw [if_pos (Or.inr ⟨rfl, hcmp⟩)]
      · rw [if_neg (by intro h; rcases h with h | h; · omega
                       · exact hcmp h.2)]
        have tl : (twin c y).data.length = c.N := hy.twin_wf.len
        rw [List.take_of_length_le hlen.le, List.take_of_length_le tl.le] at *
        have hc := compareRanges_spec c.B u.data (twin c y).data (by rw [hlen, tl]) hu.toWF.valid hy.twin_wf.valid
        have hge : limbsVal c.B (twin c y).data ≤ limbsVal c.B u.data := by
          have h1 : limbsVal c.B (twin c y).data = c.B ^ (c.N - 1) := by
            show limbsVal c.B (1 :: List.replicate (c.N - 1) 0) = _
            rw [limbsVal_cons, limbsVal_replicate_zero]; simp
          rw [h1]
          obtain ⟨x, xs, hxs⟩ : ∃ x xs, u.data = x :: xs := by
            cases hdd : u.data with
            | nil => rw [hdd] at hlen; simp at hlen; omega
            | cons x xs => exact ⟨x, xs, rfl⟩
          have hx0 : 1 ≤ x := by
            have := huz; unfold isZero DW.d0 at this; rw [hxs] at this; simp at this; omega
          rw [hxs, limbsVal_cons]
          have hl' : xs.length = c.N - 1 := by rw [hxs] at hlen; simp at hlen; omega
          rw [hl']
          have := Nat.mul_le_mul_right (c.B ^ (c.N - 1)) hx0
          omega
        have heq : u.data = (twin c y).data := by
          have : limbsVal c.B u.data = limbsVal c.B (twin c y).data := by
            rw [hc] at hcmp; unfold cmp3 at hcmp
            by_contra hne
            rw [if_neg (by omega), if_neg hne] at hcmp
            omega
          exact limbsVal_inj hu.toWF.valid hy.twin_wf.valid (by rw [hlen, tl]) this
        have hs : (subN c.L u.data u.data).1 = List.replicate c.N 0 := by
          obtain ⟨z1, z2, z3, z4⟩ := subC_spec c.L (bin := 0) (by omega) u.data u.data rfl hval hval
          have z5 : limbsVal c.L.mask (subC c.L 0 u.data u.data).1 < c.L.mask ^ u.data.length := by
            have := limbsVal_lt z2; rwa [z1] at this
          have z6 : limbsVal c.L.mask (subC c.L 0 u.data u.data).1 = 0 := by
            have : (subC c.L 0 u.data u.data).2 = 0 := by
              by_contra hne
              have : 1 * c.L.mask ^ u.data.length ≤ (subC c.L 0 u.data u.data).2 * c.L.mask ^ u.data.length :=
                Nat.mul_le_mul_right _ (by omega)
              omega
            rw [this] at z4; omega
          apply limbsVal_inj z2 (validLimbs_replicate c.B_pos) (by rw [z1, hlen]; simp)
          rw [limbsVal_replicate_zero]; exact z6
        have e0 : shr c.N 0 (twin c y).data = u.data := by
          rw [← heq]; unfold shr; simp [List.take_of_length_le hlen.le]
        rw [e0, ← heq]
        simp only [Nat.cast_zero, ne_eq, not_true_eq_false, if_false, List.take_of_length_le hlen.le, hs, List.drop_of_length_le hlen.le, List.append_nil]
        rw [justify_zeros, justify_zeros] <;> rfl

/-- Addition and subtraction with such an operand are as accurate as with a well-formed one. -/
theorem Mal.add_op {u y : DW} (hu : Full c u) (hu0 : u.val c ≠ 0) (hy : Mal c y) (hyp : y.prec = c.N) (he : y.exp < u.exp) :
    Full c (addAssign c u y) ∧ |(addAssign c u y).val c - (u.val c + y.val c)| ≤ mulEps c * (|u.val c| + |y.val c|) := by
  by_cases hd : u.exp - y.exp < c.N * c.ed
  · rw [Mal.add_twin hu hu0 hy hyp he hd, ← hy.twin_val]
    obtain ⟨a, b, -⟩ := WD.add_op hu (show Full c (twin c y) from ⟨hy.twin_wf, hyp⟩)
    exact ⟨a, b⟩
  · have huz := isZero_false_of_val hu.toWF hu0
    have hr : addAssign c u y = u := by
      unfold addAssign
      simp only [huz, Bool.false_eq_true, if_false, hu.full, hyp, min_self]
      rw [if_pos (Or.inr ⟨by omega, by omega⟩)]
    rw [hr]
    refine ⟨hu, ?_⟩
    have ha := hu.toWF.abs_ge huz
    have hv : |y.val c| ≤ mulEps c * |u.val c| := by
      rw [← hy.twin_val]
      have h1 := hy.twin_wf.abs_lt
      have hh : |(twin c y).val c| ≤ 10 ^ (y.exp + (c.ed : ℤ)) := by
        rw [DW.abs_val]
        unfold mant lexp
        simp only [twin]
        rw [limbsVal_cons, limbsVal_replicate_zero, List.length_replicate]
        have h1 := c.p10_mul_B (y.exp + c.ed - (c.ed : ℤ) * ((c.N : ℤ) - 1)) (c.N - 1)
        have hN1 : ((c.N - 1 : ℕ) : ℤ) = (c.N : ℤ) - 1 := by have := c.three_le_N; omega
        rw [hN1, sub_add_cancel] at h1
        rw [← h1]; push_cast; rw [one_mul, add_zero]; exact (mul_comm _ _).le
      have hle : y.exp + (c.ed : ℤ) ≤ u.exp - (c.digits10 + 2 * c.ed : ℕ) := by
        have h1 := c.digits_le
        have h3 := c.three_le_N
        have : ((c.ed * (c.N - 1) : ℕ) : ℤ) = c.N * c.ed - c.ed := by
          rw [Nat.cast_mul, Nat.cast_sub (by omega)]; push_cast; ring
        push_cast
        have h1' : ((c.digits10 + 2 * c.ed : ℕ) : ℤ) ≤ ((c.ed * (c.N - 1) : ℕ) : ℤ) := by exact_mod_cast h1
        rw [this] at h1'
        push_cast at h1'
        omega
      calc _ ≤ (10 : ℚ) ^ (y.exp + (c.ed : ℤ)) := hh
        _ ≤ 10 ^ (u.exp - (c.digits10 + 2 * c.ed : ℕ)) := zpow_le_zpow_right₀ (by norm_num) hle
        _ = mulEps c * 10 ^ u.exp := by
          unfold mulEps
          rw [zpow_sub₀ (by norm_num), zpow_natCast]; ring
        _ ≤ _ := mul_le_mul_of_nonneg_left ha (mulEps_pos c).le
    have : u.val c - (u.val c + y.val c) = -(y.val c) := by ring
    rw [this, abs_neg]
    have := mul_nonneg (mulEps_pos c).le (abs_nonneg (y.val c))
    linarith

theorem Mal.sub_op {u y : DW} (hu : Full c u) (hu0 : u.val c ≠ 0) (hy : Mal c y) (hyp : y.prec = c.N) (he : y.exp < u.exp) :
    Full c (subAssign c u y) ∧ |(subAssign c u y).val c - (u.val c - y.val c)| ≤ mulEps c * (|u.val c| + |y.val c|) := by
  have hne : u.negate.exp = u.exp := by unfold negate; split <;> rfl
  have hv := negate_val c hu.toWF
  obtain ⟨a, b⟩ := Mal.add_op (negate_full hu) (by rw [hv]; exact neg_ne_zero.mpr hu0) hy hyp (by rw [hne]; exact he)
  unfold subAssign
  refine ⟨negate_full a, ?_⟩
  rw [negate_val c a.toWF]
  rw [hv, abs_neg] at b
  rw [show -(addAssign c u.negate y).val c - (u.val c - y.val c) = -((addAssign c u.negate y).val c - (-u.val c + y.val c)) by ring, abs_neg]
  exact b

end WD
