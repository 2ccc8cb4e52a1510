import Verif.Proofs.Limb
import Mathlib.Algebra.Polynomial.Eval.Degree
import Mathlib.Algebra.Polynomial.BigOperators
import Mathlib.Algebra.Order.BigOperators.Group.Finset
import Mathlib.Algebra.BigOperators.Intervals

namespace WD

/-! ### 8-bit row-wise schoolbook -/

theorem rowLoop_spec {ai : Nat} (L : Limb) (ha : ai < L.mask) : ∀ (r b : List Nat), r.length = b.length →
    ValidLimbs L.mask r → ValidLimbs L.mask b →
    (rowLoop L ai r b).1.length = b.length ∧ ValidLimbs L.mask (rowLoop L ai r b).1 ∧
    (rowLoop L ai r b).2 < L.mask ∧
    limbsVal L.mask (rowLoop L ai r b).1 + (rowLoop L ai r b).2 * L.mask ^ b.length
      = limbsVal L.mask r + ai * limbsVal L.mask b
  | [], [], _, _, _ => by simp [rowLoop, validLimbs_nil, L.mask_pos]
  | x :: xs, y :: ys, hl, hr, hb => by
    rw [validLimbs_cons] at hr hb
    have hl' : xs.length = ys.length := by simpa using hl
    obtain ⟨i1, i2, i3, i4⟩ := rowLoop_spec L ha xs ys hl' hr.2 hb.2
    simp only [rowLoop]
    generalize rowLoop L ai xs ys = q at *
    obtain ⟨r, c⟩ := q
    simp only at *
    have hM := L.mask_pos
    have hMW : L.mask < L.W := by have := L.two_mask_lt; omega
    have hMD := L.mask_sq_lt
    have hx := hr.1
    have hy := hb.1
    have hxn : ai * y ≤ (L.mask - 1) * (L.mask - 1) := Nat.mul_le_mul (by omega) (by omega)
    have hsq : (L.mask - 1) * (L.mask - 1) + 2 * L.mask = L.mask * L.mask + 1 := by
      obtain ⟨k, hk⟩ : ∃ k, L.mask = k + 1 := ⟨L.mask - 1, by omega⟩
      rw [hk]; simp; ring
    have e1 : (c + (ai * y) % L.D) % L.D = c + ai * y := by
      rw [Nat.mod_eq_of_lt (show ai * y < L.D by omega), Nat.mod_eq_of_lt (by omega)]
    have e2 : (c + ai * y + x) % L.D = c + ai * y + x := Nat.mod_eq_of_lt (by omega)
    rw [e1, e2]
    have hq : (c + ai * y + x) / L.mask < L.mask := by
      rw [Nat.div_lt_iff_lt_mul hM]; omega
    have hrr : (c + ai * y + x) % L.mask < L.mask := Nat.mod_lt _ hM
    rw [Nat.mod_eq_of_lt (show (c + ai * y + x) % L.mask < L.W by omega)]
    have hdm : (c + ai * y + x) % L.mask + L.mask * ((c + ai * y + x) / L.mask) = c + ai * y + x := Nat.mod_add_div _ _
    refine ⟨by simp [i1], by rw [validLimbs_cons]; exact ⟨hrr, i2⟩, hq, ?_⟩
    simp only [limbsVal_cons, List.length_cons, i1, hl', pow_succ]
    generalize L.mask ^ ys.length = P at *
    have : ((c + ai * y + x) % L.mask + L.mask * ((c + ai * y + x) / L.mask)) * P = (c + ai * y + x) * P := by rw [hdm]
    nlinarith

theorem mulRows_spec (L : Limb) (b : List Nat) (hb : ValidLimbs L.mask b) : ∀ a : List Nat, ValidLimbs L.mask a →
    (mulRows L b a).length = a.length + b.length ∧ ValidLimbs L.mask (mulRows L b a) ∧
    limbsVal L.mask (mulRows L b a) = limbsVal L.mask a * limbsVal L.mask b
  | [], _ => by
    simp [mulRows, validLimbs_replicate L.mask_pos]
  | x :: xs, ha => by
    rw [validLimbs_cons] at ha
    obtain ⟨i1, i2, i3⟩ := mulRows_spec L b hb xs ha.2
    have hMW : L.mask < L.W := by have := L.two_mask_lt; omega
    have hlen : ((mulRows L b xs).take b.length).length = b.length := by
      rw [List.length_take, i1]; omega
    obtain ⟨r1, r2, r3, r4⟩ := rowLoop_spec L ha.1 ((mulRows L b xs).take b.length) b hlen (i2.take _) hb
    simp only [mulRows]
    generalize rowLoop L x ((mulRows L b xs).take b.length) b = q at *
    obtain ⟨out, c⟩ := q
    simp only at *
    rw [Nat.mod_eq_of_lt (show c < L.W by omega)]
    have hsplit := limbsVal_append L.mask ((mulRows L b xs).take b.length) ((mulRows L b xs).drop b.length)
    rw [List.take_append_drop, i3] at hsplit
    have hdl : ((mulRows L b xs).drop b.length).length = xs.length := by
      rw [List.length_drop, i1]; omega
    refine ⟨by simp [r1, i1]; omega, ?_, ?_⟩
    · rw [validLimbs_cons, validLimbs_append]; exact ⟨r3, r2, i2.drop _⟩
    · rw [limbsVal_cons, limbsVal_append, List.length_append, r1, hdl, limbsVal_cons]
      rw [hdl] at hsplit
      generalize limbsVal L.mask ((mulRows L b xs).drop b.length) = Z at *
      generalize limbsVal L.mask ((mulRows L b xs).take b.length) = Y at *
      rw [pow_add]
      have : (limbsVal L.mask out + c * L.mask ^ b.length) * L.mask ^ xs.length
          = (Y + x * limbsVal L.mask b) * L.mask ^ xs.length := by rw [r4]
      nlinarith

/-! ### column-wise schoolbook -/

/-- Exact sum of a column. -/
def colVal (a b : List Nat) (c : List (Nat × Nat)) : Nat :=
  (c.map fun p => a.getD p.1 0 * b.getD p.2 0).sum

/-- Value of a column sequence, least significant column first. -/
def colsVal (B : Nat) (a b : List Nat) : List (List (Nat × Nat)) → Nat
  | [] => 0
  | c :: cs => colVal a b c + B * colsVal B a b cs

theorem colSum_exact (L : Limb) (a b : List Nat) : ∀ (c : List (Nat × Nat)) (s : Nat),
    s + colVal a b c < L.D → colSum L a b c s = s + colVal a b c
  | [], s, _ => by simp [colSum, colVal]
  | (i, j) :: ps, s, h => by
    simp only [colVal, List.map_cons, List.sum_cons] at h
    have hstep : (s + (a.getD i 0 * b.getD j 0) % L.D) % L.D = s + a.getD i 0 * b.getD j 0 := by
      rw [Nat.mod_eq_of_lt (show a.getD i 0 * b.getD j 0 < L.D by omega), Nat.mod_eq_of_lt (by omega)]
    simp only [colSum, hstep]
    rw [colSum_exact L a b ps _ (by simp only [colVal]; omega)]
    simp only [colVal, List.map_cons, List.sum_cons]
    omega

theorem getD_lt {B : Nat} (hB : 0 < B) {l : List Nat} (h : ValidLimbs B l) (i : Nat) : l.getD i 0 < B := by
  rw [List.getD_eq_getElem?_getD]
  by_cases hi : i < l.length
  · rw [List.getElem?_eq_getElem hi]; exact h _ (List.getElem_mem hi)
  · rw [List.getElem?_eq_none (by omega)]; exact hB

theorem colVal_le {B : Nat} (hB : 0 < B) {a b : List Nat} (ha : ValidLimbs B a) (hb : ValidLimbs B b) (c : List (Nat × Nat)) :
    colVal a b c ≤ c.length * ((B - 1) * (B - 1)) := by
  induction c with
  | nil => simp [colVal]
  | cons p ps ih =>
    have h1 : a.getD p.1 0 * b.getD p.2 0 ≤ (B - 1) * (B - 1) :=
      Nat.mul_le_mul (by have := getD_lt hB ha p.1; omega) (by have := getD_lt hB hb p.2; omega)
    simp only [colVal, List.map_cons, List.sum_cons, List.length_cons] at *
    rw [Nat.add_mul]
    omega

theorem colLoop_spec (L : Limb) {a b : List Nat} (ha : ValidLimbs L.mask a) (hb : ValidLimbs L.mask b)
    (n : Nat) (hn : n * ((L.mask - 1) * L.mask) < L.D) :
    ∀ (cs : List (List (Nat × Nat))) (carry : Nat) (acc : List Nat),
    (∀ c ∈ cs, c.length ≤ n) → carry ≤ n * (L.mask - 1) → ValidLimbs L.mask acc →
    carry + colsVal L.mask a b cs < L.mask ^ (cs.length + 1) →
    (colLoop L a b cs carry acc).length = acc.length + cs.length + 1 ∧
    ValidLimbs L.mask (colLoop L a b cs carry acc) ∧
    limbsVal L.mask (colLoop L a b cs carry acc)
      = limbsVal L.mask acc + (carry + colsVal L.mask a b cs) * L.mask ^ acc.length
  | [], carry, acc, _, _, hacc, hlt => by
    have hMW : L.mask < L.W := by have := L.two_mask_lt; omega
    simp only [colsVal, List.length_nil, Nat.zero_add, pow_one, Nat.add_zero] at hlt
    simp only [colLoop]
    rw [Nat.mod_eq_of_lt (show carry < L.W by omega)]
    refine ⟨by simp, by rw [validLimbs_cons]; exact ⟨hlt, hacc⟩, ?_⟩
    simp only [limbsVal_cons, colsVal]; ring
  | c :: cs, carry, acc, hlen, hcar, hacc, hlt => by
    have hM := L.mask_pos
    have hMW : L.mask < L.W := by have := L.two_mask_lt; omega
    have hcv := colVal_le hM ha hb c
    have hcl : c.length ≤ n := hlen c (by simp)
    have hcv' : colVal a b c ≤ n * ((L.mask - 1) * (L.mask - 1)) :=
      hcv.trans (Nat.mul_le_mul_right _ hcl)
    have hsplit : n * (L.mask - 1) + n * ((L.mask - 1) * (L.mask - 1)) = n * ((L.mask - 1) * L.mask) := by
      obtain ⟨k, hk⟩ : ∃ k, L.mask = k + 1 := ⟨L.mask - 1, by omega⟩
      rw [hk]; simp; ring
    have hs : colSum L a b c carry = carry + colVal a b c := colSum_exact L a b c carry (by omega)
    simp only [colLoop, hs]
    set s := carry + colVal a b c with hsdef
    have hdm : s % L.mask + L.mask * (s / L.mask) = s := Nat.mod_add_div _ _
    have hr : s % L.mask < L.mask := Nat.mod_lt _ hM
    rw [Nat.mod_eq_of_lt (show s % L.mask < L.W by omega)]
    have hcar' : s / L.mask ≤ n * (L.mask - 1) := by
      have : s ≤ (n * (L.mask - 1)) * L.mask := by
        calc s ≤ n * ((L.mask - 1) * L.mask) := by omega
          _ = (n * (L.mask - 1)) * L.mask := by ring
      exact Nat.div_le_of_le_mul (by linarith [Nat.mul_comm (n * (L.mask - 1)) L.mask])
    simp only [colsVal, List.length_cons, pow_succ] at hlt
    have hlt' : s / L.mask + colsVal L.mask a b cs < L.mask ^ (cs.length + 1) := by
      rw [pow_succ]
      by_contra hcon
      push Not at hcon
      have h1 := Nat.mul_le_mul_right L.mask hcon
      have h2 : (s / L.mask + colsVal L.mask a b cs) * L.mask
          = L.mask * (s / L.mask) + L.mask * colsVal L.mask a b cs := by ring
      omega
    obtain ⟨i1, i2, i3⟩ := colLoop_spec L ha hb n hn cs (s / L.mask) (s % L.mask :: acc)
      (fun c hc => hlen c (by simp [hc])) hcar' (by rw [validLimbs_cons]; exact ⟨hr, hacc⟩) hlt'
    refine ⟨by rw [i1]; simp; omega, i2, ?_⟩
    rw [i3]
    simp only [limbsVal_cons, List.length_cons, colsVal, pow_succ]
    generalize L.mask ^ acc.length = P
    have : (s % L.mask + L.mask * (s / L.mask)) * P = s * P := by rw [hdm]
    rw [hsdef] at this ⊢
    nlinarith

/-- Digit function of a big-endian list (index from the least significant limb). -/
def dig (l : List Nat) (k : Nat) : Nat := if k < l.length then l.getD (l.length - 1 - k) 0 else 0

theorem dig_cons_lt {x : Nat} {xs : List Nat} {k : Nat} (h : k < xs.length) : dig (x :: xs) k = dig xs k := by
  simp only [dig, List.length_cons, h, if_true, if_pos (show k < xs.length + 1 by omega)]
  obtain ⟨m, hm⟩ : ∃ m, xs.length - k = m + 1 := ⟨xs.length - k - 1, by omega⟩
  have h1 : xs.length + 1 - 1 - k = (xs.length - 1 - k) + 1 := by omega
  rw [h1, List.getD_cons_succ]

theorem limbsVal_eq_sum (B : Nat) (l : List Nat) :
    limbsVal B l = ∑ k ∈ Finset.range l.length, dig l k * B ^ k := by
  induction l with
  | nil => simp
  | cons x xs ih =>
    rw [limbsVal_cons, List.length_cons, Finset.sum_range_succ, ih]
    have : dig (x :: xs) xs.length = x := by simp [dig]
    rw [this, add_comm]
    congr 1
    apply Finset.sum_congr rfl
    intro k hk
    rw [dig_cons_lt (Finset.mem_range.mp hk)]

open Polynomial in
theorem cauchy_product (f g : Nat → Nat) (n B : Nat) (hf : ∀ k, n ≤ k → f k = 0) (hg : ∀ k, n ≤ k → g k = 0) :
    (∑ k ∈ Finset.range n, f k * B ^ k) * (∑ k ∈ Finset.range n, g k * B ^ k)
      = ∑ m ∈ Finset.range (2 * n - 1), (∑ s ∈ Finset.range (m + 1), f s * g (m - s)) * B ^ m := by
  rcases Nat.eq_zero_or_pos n with h0 | h0
  · subst h0; simp
  let p : ℕ[X] := ∑ k ∈ Finset.range n, C (f k) * X ^ k
  let q : ℕ[X] := ∑ k ∈ Finset.range n, C (g k) * X ^ k
  have coeffP : ∀ (h : Nat → Nat), (∀ k, n ≤ k → h k = 0) → ∀ k,
      (∑ k ∈ Finset.range n, C (h k) * X ^ k : ℕ[X]).coeff k = h k := by
    intro h hh k
    rw [finsetSum_coeff]
    simp only [coeff_C_mul, coeff_X_pow, mul_ite, mul_one, mul_zero]
    rw [Finset.sum_ite_eq]
    split
    · rfl
    · rename_i hk; rw [hh k (by simpa using hk)]
  have evalP : ∀ (h : Nat → Nat), (∑ k ∈ Finset.range n, C (h k) * X ^ k : ℕ[X]).eval B
      = ∑ k ∈ Finset.range n, h k * B ^ k := by
    intro h
    rw [eval_finsetSum]
    simp
  have degP : ∀ (h : Nat → Nat), (∑ k ∈ Finset.range n, C (h k) * X ^ k : ℕ[X]).natDegree ≤ n - 1 := by
    intro h
    apply natDegree_sum_le_of_forall_le
    intro i hi
    refine (natDegree_C_mul_X_pow_le _ _).trans ?_
    have := Finset.mem_range.mp hi; omega
  rw [← evalP f, ← evalP g, ← eval_mul]
  have hdeg : (p * q).natDegree < 2 * n - 1 := by
    have := natDegree_mul_le (p := p) (q := q)
    have h1 := degP f
    have h2 := degP g
    show (p * q).natDegree < _
    simp only [p, q] at *
    omega
  rw [eval_eq_sum_range' hdeg]
  apply Finset.sum_congr rfl
  intro m _
  congr 1
  rw [coeff_mul, Finset.Nat.sum_antidiagonal_eq_sum_range_succ (fun i j => p.coeff i * q.coeff j)]
  apply Finset.sum_congr rfl
  intro s _
  rw [coeffP f hf, coeffP g hg]

theorem colsVal_eq_sum (B : Nat) (a b : List Nat) (cs : List (List (Nat × Nat))) :
    colsVal B a b cs = ∑ m ∈ Finset.range cs.length, colVal a b (cs.getD m []) * B ^ m := by
  induction cs with
  | nil => simp [colsVal]
  | cons c cs ih =>
    rw [List.length_cons, Finset.sum_range_succ']
    simp only [colsVal, ih, List.getD_cons_zero, List.getD_cons_succ, pow_zero, mul_one, Finset.mul_sum]
    rw [add_comm]
    congr 1
    apply Finset.sum_congr rfl
    intro m _
    ring

theorem columns_length (n : Nat) : (columns n).length = (n - 1) + n := by simp [columns]

theorem columns_col_length {n : Nat} {c} (hc : c ∈ columns n) : c.length ≤ n := by
  simp only [columns, List.mem_append, List.mem_map, List.mem_range] at hc
  rcases hc with ⟨k, hk, rfl⟩ | ⟨k, hk, rfl⟩
  · simp [lowPairs]
  · simp [highPairs]; omega

theorem list_sum_map_range (f : Nat → Nat) (n : Nat) :
    ((List.range n).map f).sum = ∑ k ∈ Finset.range n, f k := by
  induction n with
  | zero => simp
  | succ n ih => rw [List.range_succ, List.map_append, List.sum_append, ih, Finset.sum_range_succ]; simp

theorem colVal_columns {a b : List Nat} {n : Nat} (ha : a.length = n) (hb : b.length = n) {m : Nat}
    (hm : m < 2 * n - 1) :
    colVal a b ((columns n).getD m []) = ∑ s ∈ Finset.range (m + 1), dig a s * dig b (m - s) := by
  have hn : 0 < n := by omega
  by_cases h : m < n - 1
  · have : (columns n).getD m [] = lowPairs n (n - 1 - m) := by
      simp only [columns, List.getD_eq_getElem?_getD]
      rw [List.getElem?_append_left (by simpa using h)]
      simp [h]
    rw [this]
    simp only [colVal, lowPairs, List.map_map]
    have hnm : n - (n - 1 - m) = m + 1 := by omega
    rw [hnm, list_sum_map_range]
    apply Finset.sum_congr rfl
    intro s hs
    have hs' : s < m + 1 := Finset.mem_range.mp hs
    simp only [Function.comp, dig, ha, hb, if_pos (show s < n by omega), if_pos (show m - s < n by omega)]
    congr 2
    omega
  · obtain ⟨k, rfl⟩ : ∃ k, m = (n - 1) + k := ⟨m - (n - 1), by omega⟩
    have hk : k < n := by omega
    have : (columns n).getD (n - 1 + k) [] = highPairs (n - 1 - k) := by
      simp only [columns, List.getD_eq_getElem?_getD]
      rw [List.getElem?_append_right (by simp)]
      simp [hk]
    rw [this]
    simp only [colVal, highPairs, List.map_map]
    rw [list_sum_map_range]
    -- split the antidiagonal sum: s < k vanishes on b, s ≥ n vanishes on a
    have hsplit : n - 1 + k + 1 = k + (n - k) + k := by omega
    rw [hsplit, Finset.sum_range_add (fun s => dig a s * dig b (n - 1 + k - s)) (k + (n - k)) k,
      Finset.sum_range_add (fun s => dig a s * dig b (n - 1 + k - s)) k (n - k)]
    have z1 : ∑ s ∈ Finset.range k, dig a s * dig b (n - 1 + k - s) = 0 := by
      apply Finset.sum_eq_zero
      intro s hs
      have := Finset.mem_range.mp hs
      have : dig b (n - 1 + k - s) = 0 := by simp only [dig, hb]; rw [if_neg (by omega)]
      rw [this, Nat.mul_zero]
    have z2 : ∑ s ∈ Finset.range k, dig a (k + (n - k) + s) * dig b (n - 1 + k - (k + (n - k) + s)) = 0 := by
      apply Finset.sum_eq_zero
      intro s hs
      have : dig a (k + (n - k) + s) = 0 := by simp only [dig, ha]; rw [if_neg (by omega)]
      rw [this, Nat.zero_mul]
    rw [z1, z2, Nat.zero_add, Nat.add_zero]
    have hr : n - 1 - k + 1 = n - k := by omega
    rw [hr, ← Finset.sum_range_reflect]
    apply Finset.sum_congr rfl
    intro s hs
    have hs' : s < n - k := Finset.mem_range.mp hs
    simp only [Function.comp, dig, ha, hb, if_pos (show k + s < n by omega), if_pos (show n - 1 + k - (k + s) < n by omega)]
    congr 2 <;> omega

theorem colsVal_columns (B : Nat) {a b : List Nat} {n : Nat} (ha : a.length = n) (hb : b.length = n) :
    colsVal B a b (columns n) = limbsVal B a * limbsVal B b := by
  rw [limbsVal_eq_sum B a, limbsVal_eq_sum B b, ha, hb,
    cauchy_product (dig a) (dig b) n B (fun k hk => by simp only [dig, ha]; rw [if_neg (by omega)])
      (fun k hk => by simp only [dig, hb]; rw [if_neg (by omega)]),
    colsVal_eq_sum, columns_length]
  have : n - 1 + n = 2 * n - 1 := by omega
  rw [this]
  apply Finset.sum_congr rfl
  intro m hm
  rw [colVal_columns ha hb (Finset.mem_range.mp hm)]

/-- The limb counts for which the fixed-width accumulators of the schoolbook routine cannot overflow. -/
def schoolSafe (L : Limb) (n : Nat) : Prop :=
  match L with
  | .u8 => True
  | .u16 => n ≤ 42
  | .u32 => n ≤ 1844

theorem schoolMul_spec (L : Limb) {a b : List Nat} (hl : a.length = b.length) (hpos : 0 < a.length)
    (ha : ValidLimbs L.mask a) (hb : ValidLimbs L.mask b) (hn : schoolSafe L a.length) :
    (schoolMul L a b).length = 2 * a.length ∧ ValidLimbs L.mask (schoolMul L a b) ∧
    limbsVal L.mask (schoolMul L a b) = limbsVal L.mask a * limbsVal L.mask b := by
  have key : ∀ L : Limb, ValidLimbs L.mask a → ValidLimbs L.mask b → a.length * ((L.mask - 1) * L.mask) < L.D →
      (colLoop L a b (columns a.length) 0 []).length = 2 * a.length ∧
      ValidLimbs L.mask (colLoop L a b (columns a.length) 0 []) ∧
      limbsVal L.mask (colLoop L a b (columns a.length) 0 []) = limbsVal L.mask a * limbsVal L.mask b := by
    intro L ha hb hD
    have hcv := colsVal_columns L.mask (a := a) (b := b) rfl hl.symm
    have hlt : limbsVal L.mask a * limbsVal L.mask b < L.mask ^ (a.length + b.length) := by
      rw [pow_add]
      exact Nat.mul_lt_mul'' (limbsVal_lt ha) (limbsVal_lt hb)
    have hcl : (columns a.length).length + 1 = a.length + b.length := by rw [columns_length]; omega
    obtain ⟨h1, h2, h3⟩ := colLoop_spec L ha hb a.length hD (columns a.length) 0 []
      (fun c hc => columns_col_length hc) (Nat.zero_le _) (validLimbs_nil _)
      (by rw [hcv, hcl]; omega)
    refine ⟨by rw [h1, columns_length]; simp; omega, h2, ?_⟩
    rw [h3, hcv]; simp
  cases L with
  | u8 =>
    obtain ⟨h1, h2, h3⟩ := mulRows_spec .u8 b hb a ha
    exact ⟨by simp only [schoolMul]; rw [h1]; omega, h2, h3⟩
  | u16 =>
    refine key .u16 ha hb ?_
    simp only [schoolSafe] at hn
    simp only [Limb.mask_eq, Limb.D_eq]; omega
  | u32 =>
    refine key .u32 ha hb ?_
    simp only [schoolSafe] at hn
    simp only [Limb.mask_eq, Limb.D_eq]; omega

end WD
