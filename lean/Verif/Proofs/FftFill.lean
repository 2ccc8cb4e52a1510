import Verif.Proofs.Dft2
import Verif.Proofs.Fft
import Verif.Props.Tables
/-
  The zero-padded half-limbs: no wrap-around in the cyclic convolution; the size of the transform.
-/
namespace WD
open Finset

theorem getD_splitHalf (L : Limb) (u : List ℕ) : ∀ i, (splitHalf L u).getD i 0 =
    if i % 2 = 0 then u.getD (i / 2) 0 / L.half else u.getD (i / 2) 0 % L.half := by
  induction u with
  | nil => intro i; simp [splitHalf]
  | cons d u ih =>
    intro i
    have e : splitHalf L (d :: u) = d / L.half :: d % L.half :: splitHalf L u := rfl
    rw [e]
    match i with
    | 0 => rfl
    | 1 => rfl
    | i + 2 =>
      rw [List.getD_cons_succ, List.getD_cons_succ, ih i]
      have h1 : (i + 2) % 2 = i % 2 := by omega
      have h2 : (i + 2) / 2 = i / 2 + 1 := by omega
      rw [h1, h2, List.getD_cons_succ]

theorem getD_ge {l : List ℕ} {i : ℕ} (h : l.length ≤ i) : l.getD i 0 = 0 := by
  simp [List.getD, List.getElem?_eq_none h]

theorem fillHalf_eq {K : Type} (O : FOps K) (L : Limb) {p : ℕ} {u : List ℕ} (hu : u.length = p) (h0 : O.nat 0 = O.zero) (i : ℕ) :
    O.fillHalf L p u i = O.nat ((splitHalf L u).getD i 0) := by
  unfold FOps.fillHalf
  rw [getD_splitHalf]
  split
  · rfl
  · have : u.getD (i / 2) 0 = 0 := by
      exact getD_ge (by omega)
    rw [this, Nat.zero_div, Nat.zero_mod]
    simp [h0]

/-- Without wrap-around the cyclic convolution is the convolution. -/
theorem cyc_eq_conv {n q : ℕ} (a b : List ℕ) (ha : a.length ≤ q) (hb : b.length ≤ q) (hq : 2 * q ≤ n) {j : ℕ} (hj : j < n) :
    cyc n (fun i => (a.getD i 0 : ℝ)) (fun i => (b.getD i 0 : ℝ)) j = (conv a b j : ℝ) := by
  have za : ∀ i, q ≤ i → a.getD i 0 = 0 := fun i hi => getD_ge (by omega)
  have zb : ∀ i, q ≤ i → b.getD i 0 = 0 := fun i hi => getD_ge (by omega)
  unfold cyc conv
  push_cast
  have inner : ∀ s ∈ range n, (∑ t ∈ range n, if (s + t) % n = j then (a.getD s 0 : ℝ) * (b.getD t 0 : ℝ) else 0) =
      if s ≤ j then (a.getD s 0 : ℝ) * (b.getD (j - s) 0 : ℝ) else 0 := by
    intro s hs
    have hs := mem_range.mp hs
    by_cases hsq : q ≤ s
    · rw [za s hsq]; simp
    · have e : ∀ t ∈ range n, (if (s + t) % n = j then (a.getD s 0 : ℝ) * (b.getD t 0 : ℝ) else 0) =
          if t = j - s ∧ s ≤ j then (a.getD s 0 : ℝ) * (b.getD (j - s) 0 : ℝ) else 0 := by
        intro t ht
        have ht := mem_range.mp ht
        by_cases htq : q ≤ t
        · rw [zb t htq]
          by_cases hc : t = j - s ∧ s ≤ j
          · rw [if_pos hc, ← hc.1, zb t htq]; simp
          · rw [if_neg hc]; simp
        · rw [Nat.mod_eq_of_lt (by omega)]
          by_cases hc : t = j - s ∧ s ≤ j
          · rw [if_pos hc, if_pos (by omega), hc.1]
          · rw [if_neg hc, if_neg (by omega)]
      rw [sum_congr rfl e]
      by_cases hsj : s ≤ j
      · rw [if_pos hsj]
        simp only [hsj, and_true]
        rw [sum_ite_eq', if_pos (mem_range.mpr (by omega))]
      · rw [if_neg hsj]
        simp only [hsj, and_false, if_false, sum_const_zero]
  rw [sum_congr rfl inner, ← sum_filter]
  refine sum_congr ?_ fun _ _ => rfl
  ext s
  simp only [mem_filter, mem_range]
  omega

/-- The length of the transform: a power of two, at least four times the number of limbs. -/
theorem nFft_spec {p : ℕ} (hp : p ≤ 2 ^ 29) : nFft p = 16 * 2 ^ Nat.log2 (nFft p / 16) ∧ 4 * p ≤ nFft p ∧
    (∀ k, 3 ≤ k → p ≤ 2 ^ k → nFft p ≤ 4 * 2 ^ k) := by
  obtain ⟨h1, ⟨h8, k, hk⟩, h3⟩ := fftLen_least p (by omega)
  have hle : fftLen p ≤ 2 ^ 29 := h3 _ ⟨by norm_num, 29, rfl⟩ hp
  have e : nFft p = fftLen p * 4 := by
    unfold nFft
    rw [Nat.mod_eq_of_lt (by omega)]
  have hk3 : 3 ≤ k := by
    by_contra hc
    have : k ≤ 2 := by omega
    have : 2 ^ k ≤ 2 ^ 2 := Nat.pow_le_pow_right (by norm_num) this
    omega
  have e2 : nFft p / 16 = 2 ^ (k - 2) := by
    rw [e, hk]
    obtain ⟨j, rfl⟩ : ∃ j, k = j + 2 := ⟨k - 2, by omega⟩
    rw [pow_add, Nat.add_sub_cancel]; omega
  refine ⟨?_, by omega, fun i h3i hi => ?_⟩
  · rw [e2, Nat.log2_two_pow, e, hk]
    obtain ⟨j, rfl⟩ : ∃ j, k = j + 2 := ⟨k - 2, by omega⟩
    rw [pow_add, Nat.add_sub_cancel]; ring
  · rw [e]
    have := h3 (2 ^ i) ⟨by calc 8 = 2 ^ 3 := by norm_num
                            _ ≤ 2 ^ i := Nat.pow_le_pow_right (by norm_num) h3i, i, rfl⟩ hi
    omega

end WD
