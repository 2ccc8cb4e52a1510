import Verif.Spec
import Verif.Model.Tables
import Verif.Proofs.Kara
/-
  C24: the size tables for multiplication.
-/
namespace WD

/-- The numbers of the form 2^k times 1, 3, 5 or 7 that are at least 32. -/
def IsKaraSize (m : Nat) : Prop := 32 ≤ m ∧ ∃ k c, (c = 1 ∨ c = 3 ∨ c = 5 ∨ c = 7) ∧ m = c * 2 ^ k

/-- The powers of two that are at least 8. -/
def IsFftSize (m : Nat) : Prop := 8 ≤ m ∧ ∃ k, m = 2 ^ k

theorem lowerBoundOr_spec (t : List Nat) (v d : Nat) (hs : t.Pairwise (· ≤ ·)) (hd : ∀ x ∈ t, x ≤ d) (hv : v ≤ d) :
    v ≤ lowerBoundOr t v d ∧ (lowerBoundOr t v d ∈ t ∨ lowerBoundOr t v d = d) ∧
    (∀ m, (m ∈ t ∨ m = d) → v ≤ m → lowerBoundOr t v d ≤ m) := by
  induction t with
  | nil => simp [lowerBoundOr, hv]
  | cons x xs ih =>
    rw [List.pairwise_cons] at hs
    have ih := ih hs.2 (fun y hy => hd y (List.mem_cons_of_mem _ hy))
    unfold lowerBoundOr at *
    rw [List.find?_cons]
    by_cases h : v ≤ x
    · simp only [h, decide_true, Option.getD_some, List.mem_cons, true_or, true_and]
      intro m hm _
      rcases hm with (rfl | hm) | rfl
      · exact le_rfl
      · exact hs.1 m hm
      · exact hd x (List.mem_cons_self ..)
    · simp only [h, decide_false]
      refine ⟨ih.1, ?_, ?_⟩
      · rcases ih.2.1 with h | h
        · exact Or.inl (List.mem_cons_of_mem _ h)
        · exact Or.inr h
      · intro m hm hvm
        rcases hm with hm | rfl
        · rcases List.mem_cons.mp hm with rfl | hm
          · omega
          · exact ih.2.2 m (Or.inl hm) hvm
        · exact ih.2.2 m (Or.inr rfl) hvm

theorem halvable_of_form {c k : Nat} (hc : c ≤ 7) : Halvable (c * 2 ^ k) := by
  induction k with
  | zero => exact Halvable.base (by simp; omega)
  | succ k ih =>
    have : c * 2 ^ (k + 1) = 2 * (c * 2 ^ k) := by ring
    rw [this]; exact Halvable.dbl ih

theorem IsKaraSize.halvable {m : Nat} (h : IsKaraSize m) : Halvable m := by
  obtain ⟨_, k, c, hc, rfl⟩ := h
  exact halvable_of_form (by omega)

theorem karaTable_form : ∀ m ∈ karaTable, IsKaraSize m := by
  have : ∀ m ∈ karaTable, 32 ≤ m ∧ ∃ k < 22, ∃ c < 8, (c = 1 ∨ c = 3 ∨ c = 5 ∨ c = 7) ∧ m = c * 2 ^ k := by
    decide +kernel
  intro m hm
  obtain ⟨h, k, _, c, _, hc, e⟩ := this m hm
  exact ⟨h, k, c, hc, e⟩

theorem karaTable_complete {m : Nat} (h : IsKaraSize m) (hm : m ≤ 2097152) : m ∈ karaTable := by
  obtain ⟨h32, k, c, hc, rfl⟩ := h
  have hk : k < 22 := by
    by_contra hk
    have : 2 ^ 22 ≤ 2 ^ k := Nat.pow_le_pow_right (by norm_num) (by omega)
    rcases hc with rfl | rfl | rfl | rfl <;> omega
  have key : ∀ k < 22, ∀ c ∈ [1, 3, 5, 7], 32 ≤ c * 2 ^ k → c * 2 ^ k ≤ 2097152 → c * 2 ^ k ∈ karaTable := by
    decide +kernel
  exact key k hk c (by rcases hc with rfl | rfl | rfl | rfl <;> simp) h32 hm

/-- C24 (Karatsuba lengths): for every request up to the table's capacity (2^21 limbs, far above the 1792 at which
    Karatsuba is replaced by the FFT) the padded length is the *least* number of the form 2^k·{1,3,5,7}, at least 32,
    that is not below the request, and it can be halved repeatedly down to the schoolbook base. -/
theorem karaLen_least (n : Nat) (hn : n ≤ 2097152) :
    n ≤ karaLen n ∧ IsKaraSize (karaLen n) ∧ (∀ m, IsKaraSize m → n ≤ m → karaLen n ≤ m) ∧
    Halvable (karaLen n) ∧ 0 < karaLen n := by
  have hs : karaTable.Pairwise (· ≤ ·) := by decide +kernel
  have hd : ∀ x ∈ karaTable, x ≤ 2097152 := by decide +kernel
  obtain ⟨h1, h2, h3⟩ := lowerBoundOr_spec karaTable n 2097152 hs hd hn
  have hmem : karaLen n ∈ karaTable := by
    rcases h2 with h | h
    · exact h
    · unfold karaLen; rw [h]; decide
  have hf := karaTable_form _ hmem
  refine ⟨h1, hf, ?_, hf.halvable, by have := hf.1; omega⟩
  intro m hm hnm
  by_cases hle : m ≤ 2097152
  · exact h3 m (Or.inl (karaTable_complete hm hle)) hnm
  · have := hd _ hmem; omega

/-- Example of use: 113 limbs (the Karatsuba threshold) are padded to 128. -/
example : karaLen 113 = 128 ∧ karaLen 1792 = 1792 ∧ karaLen 1 = 32 := by decide

/-- C24 (FFT lengths): for every request up to 2^31 the returned size is the least power of two, at least 8,
    that is not below the request. -/
theorem fftLen_least (n : Nat) (hn : n ≤ 2 ^ 31) :
    n ≤ fftLen n ∧ IsFftSize (fftLen n) ∧ (∀ m, IsFftSize m → n ≤ m → fftLen n ≤ m) := by
  have hs : fftTable.Pairwise (· ≤ ·) := by decide +kernel
  have hd : ∀ x ∈ fftTable, x ≤ 2147483648 := by decide +kernel
  obtain ⟨h1, h2, h3⟩ := lowerBoundOr_spec fftTable n 2147483648 hs hd hn
  have hform : ∀ m ∈ fftTable, 8 ≤ m ∧ ∃ k < 32, m = 2 ^ k := by decide +kernel
  have hf : IsFftSize (fftLen n) := by
    rcases h2 with h | h
    · obtain ⟨a, k, _, e⟩ := hform _ h; exact ⟨a, k, e⟩
    · unfold fftLen; rw [h]; exact ⟨by norm_num, 31, by norm_num⟩
  refine ⟨h1, hf, ?_⟩
  rintro m ⟨h8, k, rfl⟩ hnm
  by_cases hk : k < 32
  · have key : ∀ k < 32, 8 ≤ 2 ^ k → (2 ^ k ∈ fftTable ∨ 2 ^ k = 2147483648) := by decide +kernel
    exact h3 _ (key k hk h8) hnm
  · have : 2 ^ 32 ≤ 2 ^ k := Nat.pow_le_pow_right (by norm_num) (by omega)
    have h4 : fftLen n ≤ 2147483648 := by
      rcases h2 with h | h
      · exact hd _ h
      · unfold fftLen; omega
    omega

example : fftLen 1793 = 2048 ∧ fftLen 0 = 8 := by decide

/-- The powers of ten: for the exponents that fit 32 bits both makers return exactly 10^n. -/
theorem pow10_tables_exact (n : Nat) (hn : n ≤ 9) : pow10Maker n = 10 ^ n ∧ pow10Runtime n = 10 ^ n := by
  have : ∀ n ≤ 9, pow10Maker n = 10 ^ n ∧ pow10Runtime n = 10 ^ n := by decide +kernel
  exact this n hn

/-- `order_of_builtin_integer` is the number of decimal digits: for every positive integer
    `10^(k-1) ≤ n < 10^k`, and it is 1 for zero. -/
theorem orderOf_digits (n : Nat) : n < 10 ^ orderOf n ∧ (0 < n → 10 ^ (orderOf n - 1) ≤ n) ∧ 1 ≤ orderOf n := by
  induction n using Nat.strong_induction_on with
  | _ n ih =>
    rw [orderOf]
    by_cases h : n / 10 = 0
    · simp only [h, dite_true]
      refine ⟨by simp; omega, fun hp => by simp; omega, le_rfl⟩
    · simp only [h, dite_false]
      obtain ⟨i1, i2, i3⟩ := ih (n / 10) (by omega)
      refine ⟨?_, fun _ => ?_, by omega⟩
      · rw [pow_succ]; omega
      · obtain ⟨k, hk⟩ : ∃ k, orderOf (n / 10) = k + 1 := ⟨_, (Nat.sub_add_cancel i3).symm⟩
        have := i2 (by omega)
        rw [hk] at this ⊢
        simp only [Nat.add_sub_cancel, pow_succ] at *
        omega

example : orderOf 18446744073709551615 = 20 ∧ orderOf 0 = 1 := by
  constructor <;> simp [orderOf]

end WD
