import Verif.Proofs.School
import Verif.Props.Misc
/-
  The schoolbook product with an operand whose first limb equals the limb radix and whose other limbs are zero. Such an
  operand is malformed (a limb must be below the radix), but `calculate_inv` starts from one when its argument is a power of
  the radix, and the product is still right.
-/
namespace WD

/-- The column loop with an abstract bound on the column sums. -/
theorem colLoop_gen (L : Limb) {a b : List Nat} (M C : Nat) (hD : C + M < L.D) (hC : (C + M) / L.mask ≤ C) :
    ∀ (cs : List (List (Nat × Nat))) (carry : Nat) (acc : List Nat),
    (∀ c ∈ cs, colVal a b c ≤ M) → carry ≤ C → ValidLimbs L.mask acc →
    carry + colsVal L.mask a b cs < L.mask ^ (cs.length + 1) →
    (colLoop L a b cs carry acc).length = acc.length + cs.length + 1 ∧
    ValidLimbs L.mask (colLoop L a b cs carry acc) ∧
    limbsVal L.mask (colLoop L a b cs carry acc)
      = limbsVal L.mask acc + (carry + colsVal L.mask a b cs) * L.mask ^ acc.length
  | [], carry, acc, _, _, hacc, hlt => by
    have hMW : L.mask < L.W := by have := L.two_mask_lt; omega
    simp only [colsVal, List.length_nil, Nat.zero_add, pow_one, Nat.add_zero] at hlt
    simp only [colLoop]
    rw [Nat.mod_eq_of_lt (show carry < L.W by omega)]
    refine ⟨by simp, by rw [validLimbs_cons]; exact ⟨hlt, hacc⟩, ?_⟩
    simp only [limbsVal_cons, colsVal]; ring
  | c :: cs, carry, acc, hlen, hcar, hacc, hlt => by
    have hM := L.mask_pos
    have hMW : L.mask < L.W := by have := L.two_mask_lt; omega
    have hcv' : colVal a b c ≤ M := hlen c (by simp)
    have hs : colSum L a b c carry = carry + colVal a b c := colSum_exact L a b c carry (by omega)
    simp only [colLoop, hs]
    set s := carry + colVal a b c with hsdef
    have hdm : s % L.mask + L.mask * (s / L.mask) = s := Nat.mod_add_div _ _
    have hr : s % L.mask < L.mask := Nat.mod_lt _ hM
    rw [Nat.mod_eq_of_lt (show s % L.mask < L.W by omega)]
    have hcar' : s / L.mask ≤ C := le_trans (Nat.div_le_div_right (by omega)) hC
    simp only [colsVal, List.length_cons, pow_succ] at hlt
    have hlt' : s / L.mask + colsVal L.mask a b cs < L.mask ^ (cs.length + 1) := by
      rw [pow_succ]
      by_contra hcon
      push Not at hcon
      have h1 := Nat.mul_le_mul_right L.mask hcon
      have h2 : (s / L.mask + colsVal L.mask a b cs) * L.mask
          = L.mask * (s / L.mask) + L.mask * colsVal L.mask a b cs := by ring
      omega
    obtain ⟨i1, i2, i3⟩ := colLoop_gen L M C hD hC cs (s / L.mask) (s % L.mask :: acc)
      (fun c hc => hlen c (by simp [hc])) hcar' (by rw [validLimbs_cons]; exact ⟨hr, hacc⟩) hlt'
    refine ⟨by rw [i1]; simp; omega, i2, ?_⟩
    rw [i3]
    simp only [limbsVal_cons, List.length_cons, colsVal, pow_succ]
    generalize L.mask ^ acc.length = P
    have : (s % L.mask + L.mask * (s / L.mask)) * P = s * P := by rw [hdm]
    rw [hsdef] at this ⊢
    nlinarith

/-- The limbs `[B, 0, …, 0]`. -/
def radixLimbs (B n : Nat) : List Nat := B :: List.replicate (n - 1) 0

theorem radixLimbs_length {B n : Nat} (h : 0 < n) : (radixLimbs B n).length = n := by simp [radixLimbs]; omega

theorem radixLimbs_val {B n : Nat} (h : 0 < n) : limbsVal B (radixLimbs B n) = B ^ n := by
  obtain ⟨k, rfl⟩ : ∃ k, n = k + 1 := ⟨n - 1, by omega⟩
  simp [radixLimbs, limbsVal_cons, limbsVal_replicate_zero, pow_succ, Nat.mul_comm]

theorem dig_radix {B n : Nat} (h : 0 < n) (s : Nat) : dig (radixLimbs B n) s = if s = n - 1 then B else 0 := by
  unfold dig
  rw [radixLimbs_length h]
  by_cases h1 : s = n - 1
  · subst h1
    rw [if_pos (by omega), if_pos rfl, show n - 1 - (n - 1) = 0 by omega]
    simp [radixLimbs]
  · rw [if_neg h1]
    by_cases h2 : s < n
    · rw [if_pos h2]
      obtain ⟨m, hm⟩ : ∃ m, n - 1 - s = m + 1 := ⟨n - 1 - s - 1, by omega⟩
      rw [hm, radixLimbs, List.getD_cons_succ]
      rw [List.getD_eq_getElem?_getD, List.getElem?_replicate]
      split <;> rfl
    · rw [if_neg h2]

theorem dig_le {B : Nat} (hB : 0 < B) {l : List Nat} (h : ValidLimbs B l) (k : Nat) : dig l k ≤ B - 1 := by
  unfold dig
  split
  · have := getD_lt hB h (l.length - 1 - k); omega
  · omega

theorem mem_columns {n : Nat} {c} (hc : c ∈ columns n) : ∃ m, m < 2 * n - 1 ∧ (columns n).getD m [] = c := by
  obtain ⟨m, hm, he⟩ := List.getElem_of_mem hc
  have := columns_length n
  refine ⟨m, by omega, ?_⟩
  rw [List.getD_eq_getElem?_getD, List.getElem?_eq_getElem hm, he]; rfl

theorem colVal_radix_left {B : Nat} (hB : 0 < B) {b : List Nat} (hb : ValidLimbs B b) (hn : 0 < b.length) {c} (hc : c ∈ columns b.length) :
    colVal (radixLimbs B b.length) b c ≤ B * (B - 1) := by
  obtain ⟨m, hm, rfl⟩ := mem_columns hc
  rw [colVal_columns (radixLimbs_length hn) rfl hm]
  calc _ = ∑ s ∈ Finset.range (m + 1), if s = b.length - 1 then B * dig b (m - s) else 0 := by
        apply Finset.sum_congr rfl; intro s _; rw [dig_radix hn]; split <;> simp
    _ ≤ B * (B - 1) := by
        rw [Finset.sum_ite_eq']
        split
        · exact Nat.mul_le_mul_left _ (dig_le hB hb _)
        · exact Nat.zero_le _

theorem colVal_radix_right {B : Nat} (hB : 0 < B) {a : List Nat} (ha : ValidLimbs B a) (hn : 0 < a.length) {c} (hc : c ∈ columns a.length) :
    colVal a (radixLimbs B a.length) c ≤ B * (B - 1) := by
  obtain ⟨m, hm, rfl⟩ := mem_columns hc
  rw [colVal_columns rfl (radixLimbs_length hn) hm]
  by_cases hmn : a.length - 1 ≤ m
  · calc _ = ∑ s ∈ Finset.range (m + 1), if s = m - (a.length - 1) then dig a s * B else 0 := by
          apply Finset.sum_congr rfl; intro s hs
          have := Finset.mem_range.mp hs
          rw [dig_radix hn]
          by_cases h : m - s = a.length - 1
          · rw [if_pos h, if_pos (by omega)]
          · rw [if_neg h, if_neg (by omega), Nat.mul_zero]
      _ ≤ B * (B - 1) := by
          rw [Finset.sum_ite_eq']
          split
          · rw [Nat.mul_comm]; exact Nat.mul_le_mul_left _ (dig_le hB ha _)
          · exact Nat.zero_le _
  · have : ∑ s ∈ Finset.range (m + 1), dig a s * dig (radixLimbs B a.length) (m - s) = 0 := by
      apply Finset.sum_eq_zero
      intro s _
      rw [dig_radix hn, if_neg (by omega), Nat.mul_zero]
    rw [this]; exact Nat.zero_le _

theorem limbsVal_zeros (B : Nat) (b : List Nat) (n : Nat) : limbsVal B (b ++ List.replicate n 0) = limbsVal B b * B ^ n := by
  rw [limbsVal_append, limbsVal_replicate_zero, List.length_replicate, Nat.add_zero]

theorem col_radix (L : Limb) (hL : L.mask * L.mask < L.D) {a b r : List Nat} (hr : ValidLimbs L.mask r) (hl : a.length = b.length)
    (hrl : r.length = a.length) (hn : 0 < a.length)
    (hv : limbsVal L.mask a * limbsVal L.mask b = limbsVal L.mask r * L.mask ^ a.length)
    (hc : ∀ c ∈ columns a.length, colVal a b c ≤ L.mask * (L.mask - 1)) :
    colLoop L a b (columns a.length) 0 [] = r ++ List.replicate a.length 0 := by
  have hM := L.mask_pos
  have hsq : L.mask + L.mask * (L.mask - 1) = L.mask * L.mask := by
    obtain ⟨k, hk⟩ : ∃ k, L.mask = k + 1 := ⟨L.mask - 1, by omega⟩
    rw [hk]; simp; ring
  have hcv := colsVal_columns L.mask (a := a) (b := b) rfl hl.symm
  have hcl : (columns a.length).length + 1 = r.length + a.length := by rw [columns_length]; omega
  obtain ⟨h1, h2, h3⟩ := colLoop_gen L (a := a) (b := b) (L.mask * (L.mask - 1)) L.mask (by omega)
    (by rw [hsq, Nat.mul_div_cancel _ hM]) (columns a.length) 0 [] hc (Nat.zero_le _) (validLimbs_nil _)
    (by
      rw [hcv, hcl, hv, pow_add, Nat.zero_add]
      exact Nat.mul_lt_mul_of_pos_right (limbsVal_lt hr) (pow_pos hM _))
  apply limbsVal_inj h2
  · rw [validLimbs_append]; exact ⟨hr, validLimbs_replicate hM⟩
  · rw [h1, columns_length]; simp; omega
  · rw [h3, hcv, hv, limbsVal_zeros]; simp

theorem rowLoop_zero (L : Limb) : ∀ (n : Nat) (b : List Nat), b.length = n → rowLoop L 0 (List.replicate n 0) b = (List.replicate n 0, 0)
  | 0, [], _ => by simp [rowLoop]
  | n + 1, y :: ys, h => by
    have ih := rowLoop_zero L n ys (by simpa using h)
    simp [List.replicate_succ, rowLoop, ih]

theorem mulRows_zero (L : Limb) (b : List Nat) : ∀ n, mulRows L b (List.replicate n 0) = List.replicate (n + b.length) 0
  | 0 => by simp [mulRows]
  | n + 1 => by
    rw [List.replicate_succ, mulRows, mulRows_zero L b n]
    have h1 : (List.replicate (n + b.length) 0).take b.length = List.replicate b.length 0 := by
      rw [List.take_replicate]; congr 1; omega
    have h2 : (List.replicate (n + b.length) 0).drop b.length = List.replicate n 0 := by
      rw [List.drop_replicate]; congr 1; omega
    simp only [h1, h2, rowLoop_zero L b.length b rfl]
    rw [Nat.zero_mod, ← List.replicate_add, ← List.replicate_succ]
    congr 1; omega

theorem mask_facts (L : Limb) : L.mask < L.W ∧ L.mask * L.mask < L.D ∧ 0 < L.mask := by cases L <;> decide

theorem rowLoop_radix (L : Limb) : ∀ (n : Nat) (b : List Nat), b.length = n → ValidLimbs L.mask b →
    (rowLoop L L.mask (List.replicate n 0) b).2 :: (rowLoop L L.mask (List.replicate n 0) b).1 = b ++ [0]
  | 0, [], _, _ => by simp [rowLoop]
  | n + 1, y :: ys, h, hv => by
    obtain ⟨h1, h2, h3⟩ := mask_facts L
    rw [validLimbs_cons] at hv
    have ih := rowLoop_radix L n ys (by simpa using h) hv.2
    simp only [List.replicate_succ, rowLoop]
    generalize rowLoop L L.mask (List.replicate n 0) ys = q at *
    obtain ⟨out, cy⟩ := q
    simp only at *
    have hcy : cy < L.mask := by
      have : cy ∈ ys ++ [0] := by rw [← ih]; simp
      simp only [List.mem_append, List.mem_singleton] at this
      rcases this with h | h
      · exact hv.2 _ h
      · omega
    have hy := hv.1
    have hb : L.mask * y + L.mask ≤ L.mask * L.mask := by
      calc L.mask * y + L.mask = L.mask * (y + 1) := by ring
        _ ≤ _ := Nat.mul_le_mul_left _ hy
    have e1 : (cy + (L.mask * y) % L.D) % L.D = cy + L.mask * y := by
      rw [Nat.mod_eq_of_lt (show L.mask * y < L.D by omega), Nat.mod_eq_of_lt (by omega)]
    rw [e1, Nat.add_zero, Nat.mod_eq_of_lt (show cy + L.mask * y < L.D by omega), Nat.add_mul_mod_self_left,
      Nat.add_mul_div_left _ _ h3, Nat.div_eq_of_lt hcy, Nat.mod_eq_of_lt hcy, Nat.mod_eq_of_lt (show cy < L.W by omega)]
    rw [Nat.zero_add, List.cons_append, ih]

/-- A radix power on the left. -/
theorem schoolMul_radix_left (L : Limb) {b : List Nat} (hb : ValidLimbs L.mask b) (hn : 0 < b.length) :
    schoolMul L (radixLimbs L.mask b.length) b = b ++ List.replicate b.length 0 := by
  have hM := L.mask_pos
  have hk : ∀ L : Limb, ValidLimbs L.mask b → L.mask * L.mask < L.D →
      colLoop L (radixLimbs L.mask b.length) b (columns (radixLimbs L.mask b.length).length) 0 [] = b ++ List.replicate b.length 0 := by
    intro L hb hD
    have := col_radix L hD (a := radixLimbs L.mask b.length) (b := b) (r := b) hb (radixLimbs_length hn) (radixLimbs_length hn).symm
      (by rw [radixLimbs_length hn]; exact hn) (by rw [radixLimbs_val hn, radixLimbs_length hn, Nat.mul_comm])
      (by rw [radixLimbs_length hn]; exact fun c hc => colVal_radix_left L.mask_pos hb hn hc)
    rw [radixLimbs_length hn] at this
    rw [radixLimbs_length hn]
    exact this
  cases L with
  | u8 =>
    show mulRows .u8 b (radixLimbs (Limb.mask .u8) b.length) = _
    rw [radixLimbs, mulRows, mulRows_zero]
    have h1 : (List.replicate (b.length - 1 + b.length) 0).take b.length = List.replicate b.length 0 := by
      rw [List.take_replicate]; congr 1; omega
    have h2 : (List.replicate (b.length - 1 + b.length) 0).drop b.length = List.replicate (b.length - 1) 0 := by
      rw [List.drop_replicate]; congr 1; omega
    have h3 := rowLoop_radix .u8 b.length b rfl hb
    simp only [h1, h2]
    generalize rowLoop .u8 (Limb.mask .u8) (List.replicate b.length 0) b = q at *
    obtain ⟨out, cy⟩ := q
    simp only at *
    have hcy : cy < Limb.W .u8 := by
      have : cy ∈ b ++ [0] := by rw [← h3]; simp
      simp only [List.mem_append, List.mem_singleton] at this
      obtain ⟨f1, -, f3⟩ := mask_facts .u8
      rcases this with h | h
      · exact lt_trans (hb _ h) f1
      · omega
    rw [Nat.mod_eq_of_lt hcy, ← List.cons_append, h3, List.append_assoc]
    congr 1
    rw [List.singleton_append, ← List.replicate_succ]; congr 1; omega
  | u16 => exact hk .u16 hb (by decide)
  | u32 => exact hk .u32 hb (by decide)

theorem rowLoop_zeros_right (L : Limb) (ai : Nat) : ∀ (n : Nat) (r : List Nat), r.length = n → ValidLimbs L.mask r →
    rowLoop L ai r (List.replicate n 0) = (r, 0)
  | 0, [], _, _ => by simp [rowLoop]
  | n + 1, x :: xs, h, hv => by
    obtain ⟨h1, h2, h3⟩ := mask_facts L
    rw [validLimbs_cons] at hv
    have ih := rowLoop_zeros_right L ai n xs (by simpa using h) hv.2
    have hx := hv.1
    have hMM : L.mask ≤ L.mask * L.mask := Nat.le_mul_of_pos_left _ h3
    simp only [List.replicate_succ, rowLoop, ih, Nat.mul_zero, Nat.zero_mod, Nat.zero_add]
    rw [Nat.mod_eq_of_lt (show x < L.D by omega), Nat.mod_eq_of_lt hx, Nat.mod_eq_of_lt (show x < L.W by omega), Nat.div_eq_of_lt hx]

theorem mulRows_radix (L : Limb) {n : Nat} (hn : 0 < n) : ∀ a : List Nat, ValidLimbs L.mask a →
    mulRows L (radixLimbs L.mask n) a = a ++ List.replicate n 0
  | [], _ => by simp [mulRows, radixLimbs_length hn]
  | x :: xs, hv => by
    obtain ⟨h1, h2, h3⟩ := mask_facts L
    rw [validLimbs_cons] at hv
    rw [mulRows, mulRows_radix L hn xs hv.2, radixLimbs_length hn]
    have hval : ValidLimbs L.mask (xs ++ List.replicate n 0) := by
      rw [validLimbs_append]; exact ⟨hv.2, validLimbs_replicate h3⟩
    obtain ⟨y, ys, hy⟩ : ∃ y ys, xs ++ List.replicate n 0 = y :: ys := by
      cases xs with
      | nil => exact ⟨0, List.replicate (n - 1) 0, by
          rw [List.nil_append, ← List.replicate_succ]; congr 1; omega⟩
      | cons y ys => exact ⟨y, ys ++ List.replicate n 0, rfl⟩
    have hlen : n - 1 ≤ ys.length := by
      have := congrArg List.length hy
      simp at this; omega
    rw [hy] at hval ⊢
    rw [validLimbs_cons] at hval
    obtain ⟨m, rfl⟩ : ∃ m, n = m + 1 := ⟨n - 1, by omega⟩
    have hz := rowLoop_zeros_right L x m (ys.take m) (by rw [List.length_take]; simp at hlen; omega) (hval.2.take _)
    have hx := hv.1
    have hyy := hval.1
    have hb : x * L.mask + L.mask ≤ L.mask * L.mask := by
      calc x * L.mask + L.mask = (x + 1) * L.mask := by ring
        _ ≤ _ := Nat.mul_le_mul_right _ hx
    simp only [radixLimbs, Nat.add_sub_cancel, List.take_succ_cons, rowLoop, hz, List.drop_succ_cons, Nat.zero_add]
    rw [Nat.mod_mod, Nat.mod_eq_of_lt (show x * L.mask < L.D by omega), Nat.mod_eq_of_lt (show x * L.mask + y < L.D by omega),
      Nat.add_comm (x * L.mask) y, Nat.add_mul_mod_self_right, Nat.add_mul_div_right _ _ h3, Nat.div_eq_of_lt hyy,
      Nat.mod_eq_of_lt hyy, Nat.mod_eq_of_lt (show y < L.W by omega), Nat.zero_add, Nat.mod_eq_of_lt (show x < L.W by omega)]
    rw [List.cons_append, List.take_append_drop, List.cons_append, hy]

/-- A radix power on the right. -/
theorem schoolMul_radix_right (L : Limb) {a : List Nat} (ha : ValidLimbs L.mask a) (hn : 0 < a.length) :
    schoolMul L a (radixLimbs L.mask a.length) = a ++ List.replicate a.length 0 := by
  have hk : ∀ L : Limb, ValidLimbs L.mask a → L.mask * L.mask < L.D →
      colLoop L a (radixLimbs L.mask a.length) (columns a.length) 0 [] = a ++ List.replicate a.length 0 := by
    intro L ha hD
    exact col_radix L hD (a := a) (b := radixLimbs L.mask a.length) (r := a) ha (radixLimbs_length hn).symm rfl hn
      (by rw [radixLimbs_val hn]) (fun c hc => colVal_radix_right L.mask_pos ha hn hc)
  cases L with
  | u8 => exact mulRows_radix .u8 hn a ha
  | u16 => exact hk .u16 ha (by decide)
  | u32 => exact hk .u32 ha (by decide)

end WD
