import Verif.Proofs.FftRev
/-
  The real transforms and the product in transform space without memory, for any arithmetic.
-/
namespace WD
namespace FOps
variable {K : Type} (O : FOps K)

/-- The factor used for index k + 1 of the real transform. -/
def rtw (fwd : Bool) (n : ℕ) : ℕ → K × K
  | 0 => O.rInit fwd n
  | k + 1 => O.twStep fwd n (rtw fwd n k)

/-- The two new values from the values a, b at the indices i and n/2 - i. -/
def unpk (fwd : Bool) (w a b : K × K) : (K × K) × (K × K) :=
  let h1r := O.half (O.add a.1 b.1)
  let h1i := O.half (O.sub a.2 b.2)
  let h2r := O.half (O.add a.2 b.2)
  let h2i := O.half (O.sub a.1 b.1)
  if fwd then
    ((O.add (O.add h1r (O.mul w.1 h2r)) (O.mul w.2 h2i), O.add (O.sub h1i (O.mul w.1 h2i)) (O.mul w.2 h2r)),
     (O.sub (O.sub h1r (O.mul w.1 h2r)) (O.mul w.2 h2i), O.add (O.sub (O.neg h1i) (O.mul w.1 h2i)) (O.mul w.2 h2r)))
  else
    ((O.sub (O.sub h1r (O.mul w.1 h2r)) (O.mul w.2 h2i), O.sub (O.add h1i (O.mul w.1 h2i)) (O.mul w.2 h2r)),
     (O.add (O.add h1r (O.mul w.1 h2r)) (O.mul w.2 h2i), O.sub (O.add (O.neg h1i) (O.mul w.1 h2i)) (O.mul w.2 h2r)))

theorem rLoop_inv (fwd : Bool) (M : ℕ) (d : ℕ → K) (j : ℕ) (hj : j + 1 ≤ M) :
    let s := (List.range j).foldl (fun s k => if fwd then O.rfftStepF (4 * M) (k + 1) s else O.rfftStepB (4 * M) (k + 1) s)
      (d, O.rInit fwd (4 * M))
    s.2 = O.rtw fwd (4 * M) j ∧
    (∀ k, k < j → cx s.1 0 (k + 1) = (O.unpk fwd (O.rtw fwd (4 * M) k) (cx d 0 (k + 1)) (cx d 0 (2 * M - (k + 1)))).1 ∧
      cx s.1 0 (2 * M - (k + 1)) = (O.unpk fwd (O.rtw fwd (4 * M) k) (cx d 0 (k + 1)) (cx d 0 (2 * M - (k + 1)))).2) ∧
    (∀ i, (i < 2 ∨ (2 * j + 2 ≤ i ∧ i < 4 * M - 2 * j) ∨ 4 * M ≤ i) → s.1 i = d i) := by
  induction j with
  | zero => exact ⟨rfl, fun k hk => by omega, fun i _ => rfl⟩
  | succ j ih =>
    obtain ⟨h1, h2, h3⟩ := ih (by omega)
    rw [List.range_succ, List.foldl_append, List.foldl_cons, List.foldl_nil]
    generalize (List.range j).foldl (fun s k => if fwd then O.rfftStepF (4 * M) (k + 1) s else O.rfftStepB (4 * M) (k + 1) s)
      (d, O.rInit fwd (4 * M)) = s at *
    obtain ⟨e, w⟩ := s
    simp only at h1 h2 h3
    subst h1
    have q1 := h3 (2 * (j + 1)) (by omega)
    have q2 := h3 (2 * (j + 1) + 1) (by omega)
    have q3 := h3 (2 * (2 * M - (j + 1))) (by omega)
    have q4 := h3 (2 * (2 * M - (j + 1)) + 1) (by omega)
    set w := O.rtw fwd (4 * M) j with hw0
    set U := O.unpk fwd w (cx d 0 (j + 1)) (cx d 0 (2 * M - (j + 1))) with hU
    have i1 : (j + 1) + (j + 1) = 2 * (j + 1) := by ring
    have i2 : 1 + 2 * (j + 1) = 2 * (j + 1) + 1 := by ring
    have i3 : 4 * M - 2 * (j + 1) = 2 * (2 * M - (j + 1)) := by omega
    have i4 : 1 + 2 * (2 * M - (j + 1)) = 2 * (2 * M - (j + 1)) + 1 := by ring
    have hw : ∀ i, (if fwd then O.rfftStepF (4 * M) (j + 1) (e, w) else O.rfftStepB (4 * M) (j + 1) (e, w)).1 i =
        if i = 2 * (2 * M - (j + 1)) + 1 then U.2.2 else if i = 2 * (2 * M - (j + 1)) then U.2.1
        else if i = 2 * (j + 1) + 1 then U.1.2 else if i = 2 * (j + 1) then U.1.1 else e i := by
      intro i
      rw [hU]
      cases fwd
      · simp only [rfftStepB, Function.update_apply, unpk, cx, i1, i2, i3, i4, q1, q2, q3, q4, zero_add, Bool.false_eq_true, if_false]
      · simp only [rfftStepF, Function.update_apply, unpk, cx, i1, i2, i3, i4, q1, q2, q3, q4, zero_add, if_true]
    have hs2 : (if fwd then O.rfftStepF (4 * M) (j + 1) (e, w) else O.rfftStepB (4 * M) (j + 1) (e, w)).2 = O.rtw fwd (4 * M) (j + 1) := by
      cases fwd <;> rfl
    refine ⟨hs2, fun k hk => ?_, fun i hi => ?_⟩
    · rcases Nat.lt_succ_iff_lt_or_eq.mp hk with hk | rfl
      · obtain ⟨a, b⟩ := h2 k hk
        rw [← a, ← b]
        constructor
        · unfold cx
          rw [hw, hw]
          rw [if_neg (by omega), if_neg (by omega), if_neg (by omega), if_neg (by omega), if_neg (by omega), if_neg (by omega), if_neg (by omega), if_neg (by omega)]
        · unfold cx
          rw [hw, hw]
          rw [if_neg (by omega), if_neg (by omega), if_neg (by omega), if_neg (by omega), if_neg (by omega), if_neg (by omega), if_neg (by omega), if_neg (by omega)]
      · constructor
        · refine Prod.ext ?_ ?_
          · refine (hw _).trans ?_
            rw [if_neg (by omega), if_neg (by omega), if_neg (by omega), if_pos (by omega)]
          · refine (hw _).trans ?_
            rw [if_neg (by omega), if_neg (by omega), if_pos (by omega)]
        · refine Prod.ext ?_ ?_
          · refine (hw _).trans ?_
            rw [if_neg (by omega), if_pos (by omega)]
          · refine (hw _).trans ?_
            rw [if_pos (by omega)]
    · rw [hw, if_neg (by omega), if_neg (by omega), if_neg (by omega), if_neg (by omega)]
      exact h3 i (by omega)

/-- `rLoop` on 4M numbers (M > 0). -/
theorem rLoop_spec (fwd : Bool) (M : ℕ) (hM : 0 < M) (d : ℕ → K) :
    (∀ k, 0 < k → k < M → cx (O.rLoop fwd (4 * M) d) 0 k = (O.unpk fwd (O.rtw fwd (4 * M) (k - 1)) (cx d 0 k) (cx d 0 (2 * M - k))).1 ∧
      cx (O.rLoop fwd (4 * M) d) 0 (2 * M - k) = (O.unpk fwd (O.rtw fwd (4 * M) (k - 1)) (cx d 0 k) (cx d 0 (2 * M - k))).2) ∧
    cx (O.rLoop fwd (4 * M) d) 0 0 = cx d 0 0 ∧ cx (O.rLoop fwd (4 * M) d) 0 M = cx d 0 M ∧
    (∀ i, 4 * M ≤ i → O.rLoop fwd (4 * M) d i = d i) := by
  obtain ⟨-, h2, h3⟩ := O.rLoop_inv fwd M d (M - 1) (by omega)
  unfold rLoop
  rw [show 4 * M / 4 = M by omega]
  refine ⟨fun k h0 hk => ?_, ?_, ?_, fun i hi => h3 i (by omega)⟩
  · have := h2 (k - 1) (by omega)
    rwa [show k - 1 + 1 = k by omega] at this
  · unfold cx; rw [h3 _ (by omega), h3 _ (by omega)]
  · unfold cx; rw [h3 _ (by omega), h3 _ (by omega)]

/-- `fft_lanczos_fft` on 8·2^m complex numbers. -/
theorem cfft_spec (fwd : Bool) (m : ℕ) (d : ℕ → K) :
    (∀ k, k < 8 * 2 ^ m → cx (O.cfft fwd m d) 0 k = O.dlf fwd m (fun k => cx d 0 (brev (m + 3) k)) k) ∧
    (∀ i, 16 * 2 ^ m ≤ i → O.cfft fwd m d i = d i) := by
  have e : 8 * 2 ^ m = 2 ^ (m + 3) := by rw [pow_add]; ring
  obtain ⟨r1, r2⟩ := revLoop_spec (m + 3) d
  obtain ⟨a1, a2⟩ := O.dlApply_spec fwd m 0 (revLoop (8 * 2 ^ m) d)
  unfold cfft
  refine ⟨fun k hk => ?_, fun i hi => ?_⟩
  · rw [a1 k hk]
    refine O.dlf_congr fwd m (fun k hk => ?_) hk
    rw [e] at hk ⊢
    exact r1 k hk
  · rw [a2 i (by omega), e]
    exact r2 i (by omega)

/-- The product of two complex numbers as in `mul_loop_fft`. -/
def pmul (a b : K × K) : K × K := (O.sub (O.mul a.1 b.1) (O.mul a.2 b.2), O.add (O.mul a.1 b.2) (O.mul a.2 b.1))

theorem pointwise_spec (n : ℕ) (a b : ℕ → K) :
    cx (O.pointwise (2 * n) a b) 0 0 = (O.mul (a 0) (b 0), O.mul (a 1) (b 1)) ∧
    (∀ k, 0 < k → k < n → cx (O.pointwise (2 * n) a b) 0 k = O.pmul (cx a 0 k) (cx b 0 k)) := by
  have key : ∀ j, j + 1 ≤ n →
      let s := (List.range j).foldl (fun a k =>
        let j := 2 * k + 2
        let t := a j
        let a := Function.update a j (O.sub (O.mul t (b j)) (O.mul (a (j + 1)) (b (j + 1))))
        Function.update a (j + 1) (O.add (O.mul t (b (j + 1))) (O.mul (a (j + 1)) (b j))))
        (Function.update (Function.update a 0 (O.mul (a 0) (b 0))) 1 (O.mul (Function.update a 0 (O.mul (a 0) (b 0)) 1) (b 1)))
      cx s 0 0 = (O.mul (a 0) (b 0), O.mul (a 1) (b 1)) ∧ (∀ k, 0 < k → k < j + 1 → cx s 0 k = O.pmul (cx a 0 k) (cx b 0 k)) ∧
      (∀ i, 2 * j + 2 ≤ i → s i = a i) := by
    intro j
    induction j with
    | zero =>
      intro _
      refine ⟨?_, fun k h1 h2 => by omega, fun i hi => ?_⟩
      · simp [cx, Function.update_apply]
      · simp only [List.range_zero, List.foldl_nil]
        rw [Function.update_of_ne (by omega), Function.update_of_ne (by omega)]
    | succ j ih =>
      intro hj
      obtain ⟨h1, h2, h3⟩ := ih (by omega)
      rw [List.range_succ, List.foldl_append, List.foldl_cons, List.foldl_nil]
      generalize (List.range j).foldl (fun a k =>
        let j := 2 * k + 2
        let t := a j
        let a := Function.update a j (O.sub (O.mul t (b j)) (O.mul (a (j + 1)) (b (j + 1))))
        Function.update a (j + 1) (O.add (O.mul t (b (j + 1))) (O.mul (a (j + 1)) (b j))))
        (Function.update (Function.update a 0 (O.mul (a 0) (b 0))) 1 (O.mul (Function.update a 0 (O.mul (a 0) (b 0)) 1) (b 1))) = e at *
      simp only at h1 h2 h3 ⊢
      have q1 := h3 (2 * j + 2) (by omega)
      have q2 := h3 (2 * j + 2 + 1) (by omega)
      refine ⟨?_, fun k k0 hk => ?_, fun i hi => ?_⟩
      · rw [← h1]
        unfold cx
        rw [Function.update_of_ne (by omega), Function.update_of_ne (by omega), Function.update_of_ne (by omega), Function.update_of_ne (by omega)]
      · by_cases hkj : k = j + 1
        · subst hkj
          refine Prod.ext ?_ ?_
          · show Function.update _ _ _ (0 + 2 * (j + 1)) = _
            rw [zero_add, show 2 * (j + 1) = 2 * j + 2 by ring, Function.update_of_ne (by omega), Function.update_self, q1, q2]
            simp only [pmul, cx, zero_add, show 2 * (j + 1) = 2 * j + 2 by ring]
          · show Function.update _ _ _ (0 + (2 * (j + 1) + 1)) = _
            rw [zero_add, show 2 * (j + 1) = 2 * j + 2 by ring, Function.update_self, Function.update_of_ne (by omega), q1, q2]
            simp only [pmul, cx, zero_add, show 2 * (j + 1) = 2 * j + 2 by ring]
        · rw [← h2 k k0 (by omega)]
          unfold cx
          rw [Function.update_of_ne (by omega), Function.update_of_ne (by omega), Function.update_of_ne (by omega), Function.update_of_ne (by omega)]
      · rw [Function.update_of_ne (by omega), Function.update_of_ne (by omega), h3 i (by omega)]
  rcases Nat.eq_zero_or_pos n with rfl | hn
  · refine ⟨?_, fun k _ h => by omega⟩
    simp [pointwise, cx, Function.update_apply]
  · obtain ⟨h1, h2, -⟩ := key (n - 1) (by omega)
    unfold pointwise
    rw [show 2 * n / 2 = n by omega]
    exact ⟨h1, fun k h0 hk => h2 k h0 (by omega)⟩

end FOps
end WD
