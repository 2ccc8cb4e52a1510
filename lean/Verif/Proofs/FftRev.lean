import Verif.Proofs.FftMem
/-
  The bit-reversal permutation of `fft_lanczos_fft`.
-/
namespace WD

/-- Reversal of the lowest L bits. -/
def brev : (L : ℕ) → ℕ → ℕ
  | 0, _ => 0
  | L + 1, k => 2 ^ L * (k % 2) + brev L (k / 2)

theorem brev_lt (L : ℕ) : ∀ k, brev L k < 2 ^ L := by
  induction L with
  | zero => intro k; simp [brev]
  | succ L ih =>
    intro k
    have := ih (k / 2)
    rw [brev, pow_succ]
    rcases Nat.mod_two_eq_zero_or_one k with h | h <;> rw [h] <;> omega

theorem brev_low (L : ℕ) : ∀ k, k < 2 ^ L → brev (L + 1) k = 2 * brev L k ∧ brev (L + 1) (2 ^ L + k) = 2 * brev L k + 1 := by
  induction L with
  | zero =>
    intro k hk
    have : k = 0 := by simpa using hk
    subst this
    simp [brev]
  | succ L ih =>
    intro k hk
    rw [pow_succ] at hk
    obtain ⟨h1, h2⟩ := ih (k / 2) (by omega)
    constructor
    · rw [brev, h1, brev, pow_succ]; ring
    · rw [brev]
      have e1 : (2 ^ (L + 1) + k) % 2 = k % 2 := by rw [pow_succ]; omega
      have e2 : (2 ^ (L + 1) + k) / 2 = 2 ^ L + k / 2 := by rw [pow_succ]; omega
      rw [e1, e2, h2, brev, pow_succ]; ring

theorem brev_brev (L : ℕ) : ∀ k, k < 2 ^ L → brev L (brev L k) = k := by
  induction L with
  | zero => intro k hk; have : k = 0 := by simpa using hk
            subst this; rfl
  | succ L ih =>
    intro k hk
    rw [pow_succ] at hk
    have hb := brev_lt L (k / 2)
    have e : brev (L + 1) k = 2 ^ L * (k % 2) + brev L (k / 2) := rfl
    have hi := ih (k / 2) (by omega)
    rw [e]
    rcases Nat.mod_two_eq_zero_or_one k with h | h
    · rw [h, mul_zero, zero_add, (brev_low L _ hb).1, hi]; omega
    · rw [h, mul_one, (brev_low L _ hb).2, hi]; omega

theorem revNext_spec (L : ℕ) : ∀ k, k + 1 < 2 ^ L → FOps.revNext (2 ^ L) (2 * brev L k + 1) = 2 * brev L (k + 1) + 1 := by
  induction L with
  | zero => intro k hk; simp at hk
  | succ L ih =>
    intro k hk
    have hp : 0 < 2 ^ L := by positivity
    have hb := brev_lt L (k / 2)
    have e : brev (L + 1) k = 2 ^ L * (k % 2) + brev L (k / 2) := rfl
    have e' : brev (L + 1) (k + 1) = 2 ^ L * ((k + 1) % 2) + brev L ((k + 1) / 2) := rfl
    have e2 : 2 ^ (L + 1) = 2 * 2 ^ L := by ring
    rw [FOps.revNext, e, e', e2]
    rcases Nat.mod_two_eq_zero_or_one k with h | h
    · rw [dif_neg (by rw [h]; omega), h, show (k + 1) % 2 = 1 by omega, show (k + 1) / 2 = k / 2 by omega]; ring
    · rw [dif_pos (by rw [h]; omega), h, show (k + 1) % 2 = 0 by omega, show (k + 1) / 2 = k / 2 + 1 by omega]
      rw [show 2 * 2 ^ L / 2 = 2 ^ L by omega, show 2 * (2 ^ L * 1 + brev L (k / 2)) + 1 - 2 * 2 ^ L = 2 * brev L (k / 2) + 1 by omega]
      rw [ih (k / 2) (by rw [pow_succ] at hk; omega)]
      ring

namespace FOps
variable {K : Type}

theorem revLoop_inv (L : ℕ) (d : ℕ → K) (j : ℕ) (hj : j ≤ 2 ^ L) :
    let s := (List.range j).foldl (fun (s : (ℕ → K) × ℕ) k =>
      let i := 2 * k + 1
      let j := s.2
      (if j > i then swapAt (swapAt s.1 (j - 1) (i - 1)) j i else s.1, revNext (2 ^ L) j)) (d, 1)
    (j < 2 ^ L → s.2 = 2 * brev L j + 1) ∧
    (∀ k, k < 2 ^ L → cx s.1 0 k = cx d 0 (if min k (brev L k) < j then brev L k else k)) ∧ (∀ i, 2 * 2 ^ L ≤ i → s.1 i = d i) := by
  induction j with
  | zero =>
    refine ⟨fun _ => ?_, fun k _ => ?_, fun i _ => rfl⟩
    · have h0 : ∀ L, brev L 0 = 0 := by
        intro L
        induction L with
        | zero => rfl
        | succ L ih => rw [brev]; simp [ih]
      simp [h0]
    · rw [if_neg (by omega)]; rfl
  | succ j ih =>
    obtain ⟨h1, h2, h3⟩ := ih (by omega)
    rw [List.range_succ, List.foldl_append, List.foldl_cons, List.foldl_nil]
    generalize (List.range j).foldl (fun (s : (ℕ → K) × ℕ) k =>
      let i := 2 * k + 1
      let j := s.2
      (if j > i then swapAt (swapAt s.1 (j - 1) (i - 1)) j i else s.1, revNext (2 ^ L) j)) (d, 1) = s at *
    obtain ⟨e, q⟩ := s
    simp only at h1 h2 h3
    have hq := h1 (by omega)
    subst hq
    have hb := brev_lt L j
    have hbb := brev_brev L j (by omega)
    refine ⟨fun h => revNext_spec L j h, fun k hk => ?_, fun i hi => ?_⟩
    · dsimp only
      have hbk := brev_lt L k
      have hbbk := brev_brev L k hk
      by_cases hc : brev L j > j
      · rw [if_pos (by omega)]
        have hsw : cx (swapAt (swapAt e (2 * brev L j + 1 - 1) (2 * j + 1 - 1)) (2 * brev L j + 1) (2 * j + 1)) 0 k =
            cx e 0 (if k = j then brev L j else if k = brev L j then j else k) := by
          rw [Nat.add_sub_cancel, Nat.add_sub_cancel]
          unfold cx swapAt
          by_cases hk1 : k = j
          · subst hk1
            rw [if_pos rfl]
            refine Prod.ext ?_ ?_
            · simp only [zero_add]
              rw [Function.update_of_ne (by omega), Function.update_of_ne (by omega), Function.update_self]
            · simp only [zero_add]
              rw [Function.update_self, Function.update_of_ne (by omega), Function.update_of_ne (by omega)]
          · by_cases hk2 : k = brev L j
            · rw [if_neg hk1, if_pos hk2, hk2]
              refine Prod.ext ?_ ?_
              · simp only [zero_add]
                rw [Function.update_of_ne (by omega), Function.update_of_ne (by omega), Function.update_of_ne (by omega),
                  Function.update_self]
              · simp only [zero_add]
                rw [Function.update_of_ne (by omega), Function.update_self, Function.update_of_ne (by omega),
                  Function.update_of_ne (by omega)]
            · rw [if_neg hk1, if_neg hk2]
              refine Prod.ext ?_ ?_
              · simp only [zero_add]
                rw [Function.update_of_ne (by omega), Function.update_of_ne (by omega), Function.update_of_ne (by omega),
                  Function.update_of_ne (by omega)]
              · simp only [zero_add]
                rw [Function.update_of_ne (by omega), Function.update_of_ne (by omega), Function.update_of_ne (by omega),
                  Function.update_of_ne (by omega)]
        rw [hsw]
        by_cases hk1 : k = j
        · subst hk1
          rw [if_pos rfl, h2 _ hb, if_neg (by rw [hbb]; omega), if_pos (by omega)]
        · rw [if_neg hk1]
          by_cases hk2 : k = brev L j
          · subst hk2
            rw [if_pos rfl, h2 _ (by omega), if_neg (by omega), if_pos (by rw [hbb]; omega), hbb]
          · rw [if_neg hk2, h2 k hk]
            congr 1
            have : brev L k ≠ j := fun h => hk2 (by rw [← h, hbbk])
            by_cases hm : min k (brev L k) < j
            · rw [if_pos hm, if_pos (by omega)]
            · rw [if_neg hm, if_neg (by omega)]
      · rw [if_neg (by omega), h2 k hk]
        congr 1
        by_cases hm : min k (brev L k) < j
        · rw [if_pos hm, if_pos (by omega)]
        · rw [if_neg hm]
          split
          · next hm2 =>
            -- min k (brev k) = j
            have : k = j ∨ brev L k = j := by omega
            rcases this with h | h
            · subst h; omega
            · have : k = brev L j := by rw [← h, hbbk]
              omega
          · rfl
    · dsimp only
      split
      · unfold swapAt
        simp only [Function.update_apply]
        rw [if_neg (by omega), if_neg (by omega), if_neg (by omega), if_neg (by omega)]
        exact h3 i hi
      · exact h3 i hi

theorem revLoop_spec (L : ℕ) (d : ℕ → K) :
    (∀ k, k < 2 ^ L → cx (revLoop (2 ^ L) d) 0 k = cx d 0 (brev L k)) ∧ (∀ i, 2 * 2 ^ L ≤ i → revLoop (2 ^ L) d i = d i) := by
  obtain ⟨-, h2, h3⟩ := revLoop_inv L d (2 ^ L) le_rfl
  refine ⟨fun k hk => ?_, h3⟩
  have := h2 k hk
  rw [if_pos (by omega)] at this
  exact this

end FOps
end WD
