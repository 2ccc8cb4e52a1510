import Verif.Model.Fft
import Verif.Spec.Fft
import Verif.Proofs.School
import Verif.Proofs.Kara
import Verif.Proofs.Add
import Verif.Proofs.Float
import Mathlib.Algebra.BigOperators.Intervals
/-
  Lemmas for the carry release of the FFT multiplication.
-/
namespace WD
open Finset

theorem Limb.half_sq (L : Limb) : L.half ^ 2 = L.mask := by cases L <;> decide
theorem Limb.half_ge (L : Limb) : 10 ≤ L.half := by cases L <;> decide
theorem Limb.half_lt_W (L : Limb) : L.half < L.W := by cases L <;> decide
theorem Limb.half_sq_lt_W (L : Limb) : L.half * L.half ≤ L.W := by cases L <;> decide

theorem limbsVal_half (L : Limb) (u : List ℕ) : limbsVal L.half (splitHalf L u) = limbsVal L.mask u := by
  induction u with
  | nil => rfl
  | cons d ds ih =>
    have e : splitHalf L (d :: ds) = d / L.half :: d % L.half :: splitHalf L ds := rfl
    have hl : ∀ v : List ℕ, (splitHalf L v).length = 2 * v.length := by
      intro v; unfold splitHalf; rw [List.length_flatMap]; simp; ring
    rw [e, limbsVal_cons, limbsVal_cons, limbsVal_cons, ih, List.length_cons, hl, ← L.half_sq, ← pow_mul]
    have := Nat.div_add_mod d L.half
    generalize d / L.half = q at *
    generalize d % L.half = r at *
    rw [← this, pow_succ]; ring

theorem splitHalf_length (L : Limb) (v : List ℕ) : (splitHalf L v).length = 2 * v.length := by
  unfold splitHalf; rw [List.length_flatMap]; simp; ring

theorem splitHalf_valid (L : Limb) {u : List ℕ} (h : ValidLimbs L.mask u) : ValidLimbs L.half (splitHalf L u) := by
  intro x hx
  unfold splitHalf at hx
  rw [List.mem_flatMap] at hx
  obtain ⟨d, hd, hx⟩ := hx
  have hlt := h d hd
  have hh := L.half_ge
  rw [← L.half_sq, pow_two] at hlt
  simp only [List.mem_cons, List.not_mem_nil, or_false] at hx
  rcases hx with rfl | rfl
  · exact Nat.div_lt_of_lt_mul hlt
  · exact Nat.mod_lt _ (by omega)

/-- The prefix sums of the coefficients: the number whose digits (with carries) are n 0, …, n (2k-2). -/
def convSum (h : ℕ) (n : ℕ → ℕ) (M : ℕ) : ℕ := ∑ j ∈ range M, n j * h ^ (M - 1 - j)

theorem convSum_succ (h : ℕ) (n : ℕ → ℕ) (M : ℕ) : convSum h n (M + 1) = convSum h n M * h + n M := by
  unfold convSum
  rw [sum_range_succ, sum_mul]
  congr 1
  · refine sum_congr rfl fun j hj => ?_
    rw [mem_range] at hj
    rw [mul_assoc, ← pow_succ]; congr 2; omega
  · simp

/-- The release loop: the limbs plus a carry out make up the sum. -/
theorem releaseLoop_spec (L : Limb) (n : ℕ → ℕ) : ∀ (k carry : ℕ), (∀ j, j + 2 ≤ 2 * k → n j < 2 ^ 62) → carry ≤ 2 ^ 62 →
    (releaseLoop L n k carry).length = k ∧ ValidLimbs L.mask (releaseLoop L n k carry) ∧
    ∃ co, limbsVal L.mask (releaseLoop L n k carry) + co * L.mask ^ k = convSum L.half n (2 * k - 1) + carry
  | 0, carry, _, _ => ⟨rfl, by intro x hx; simp [releaseLoop] at hx, carry, by simp [releaseLoop, convSum]⟩
  | k + 1, carry, hn, hc => by
    have hh := L.half_ge
    have hhW := L.half_lt_W
    have hhh := L.half_sq_lt_W
    have h0 := hn (2 * k) (by omega)
    obtain ⟨y, hy⟩ : ∃ y, (if 2 * k ≠ 0 then n (2 * k - 1) else 0) = y := ⟨_, rfl⟩
    have hylt : y < 2 ^ 62 := by
      rw [← hy]; split
      · exact hn _ (by omega)
      · norm_num
    rw [releaseLoop]
    simp only [hy]
    have hsq : L.mask = L.half * L.half := by rw [← L.half_sq, pow_two]
    generalize hhd : L.half = h at *
    have hxlo : (n (2 * k) + carry) % 2 ^ 64 = n (2 * k) + carry := Nat.mod_eq_of_lt (by omega)
    rw [hxlo]
    obtain ⟨X, hX⟩ : ∃ X, n (2 * k) + carry = X := ⟨_, rfl⟩
    rw [hX]
    have hdm := Nat.div_add_mod X h
    have hml := Nat.mod_lt X (show 0 < h by omega)
    have hq : X / h ≤ 2 ^ 60 := by
      refine Nat.div_le_of_le_mul ?_
      have : 10 * 2 ^ 60 ≤ h * 2 ^ 60 := Nat.mul_le_mul_right _ hh
      omega
    have elo : (X - X / h * h) % L.W = X % h := by
      rw [show X - X / h * h = X % h by rw [Nat.mul_comm] ; omega]
      exact Nat.mod_eq_of_lt (by omega)
    rw [elo]
    have hxhi : (y + X / h) % 2 ^ 64 = y + X / h := Nat.mod_eq_of_lt (by omega)
    rw [hxhi]
    obtain ⟨Y, hY⟩ : ∃ Y, y + X / h = Y := ⟨_, rfl⟩
    rw [hY]
    have hdm2 := Nat.div_add_mod Y h
    have hml2 := Nat.mod_lt Y (show 0 < h by omega)
    have hq2 : Y / h ≤ 2 ^ 62 := by
      refine Nat.div_le_of_le_mul ?_
      have : 10 * 2 ^ 62 ≤ h * 2 ^ 62 := Nat.mul_le_mul_right _ hh
      omega
    have ehi : (Y - Y / h * h) % L.W = Y % h := by
      rw [show Y - Y / h * h = Y % h by rw [Nat.mul_comm] ; omega]
      exact Nat.mod_eq_of_lt (by omega)
    rw [ehi]
    generalize ha : Y % h = a at *
    generalize hb : X % h = b at *
    have hlimb : a * h + b < h * h := by
      calc a * h + b < a * h + h := by omega
        _ = (a + 1) * h := by ring
        _ ≤ h * h := Nat.mul_le_mul_right _ (by omega)
    have el : (a * h % L.W + b) % L.W = a * h + b := by
      rw [Nat.mod_add_mod, Nat.mod_eq_of_lt (by omega)]
    rw [el]
    obtain ⟨i1, i2, co, i3⟩ := releaseLoop_spec L n k (Y / h) (fun j hj => hn j (by omega)) hq2
    refine ⟨by simp [i1], ?_, co, ?_⟩
    · refine validLimbs_append.mpr ⟨i2, validLimbs_cons.mpr ⟨by rw [hsq]; exact hlimb, validLimbs_nil _⟩⟩
    · rw [limbsVal_snoc, pow_succ]
      have e1 : limbsVal L.mask (releaseLoop L n k (Y / h)) * L.mask + (a * h + b) + co * (L.mask ^ k * L.mask) =
          (limbsVal L.mask (releaseLoop L n k (Y / h)) + co * L.mask ^ k) * L.mask + (a * h + b) := by ring
      rw [e1, i3, hhd]
      cases k with
      | zero =>
        simp only [Nat.mul_zero, ne_eq, not_true, if_false, zero_add, mul_one] at hy hX ⊢
        have : convSum h n (2 - 1) = n 0 := by simp [convSum]
        rw [this]
        simp only [Nat.zero_sub, convSum, range_zero, sum_empty, zero_add]
        have hYX : X / h = Y := by omega
        rw [hYX] at hdm
        rw [hX, ← hdm]
        generalize Y / h = z at *
        rw [← hdm2, hsq]; ring
      | succ k =>
        rw [if_pos (by omega)] at hy
        rw [show 2 * (k + 1 + 1) - 1 = (2 * (k + 1) - 1) + 1 + 1 by omega, convSum_succ, convSum_succ,
          show 2 * (k + 1) - 1 + 1 = 2 * (k + 1) by omega, hy, hsq]
        generalize convSum h n (2 * (k + 1) - 1) = S at *
        have hXh : X / h = Y - y := by rw [← hY, Nat.add_sub_cancel_left]
        rw [hXh] at hdm
        generalize Y / h = z at *
        have hyY : y ≤ Y := by rw [← hY]; exact Nat.le_add_right _ _
        obtain ⟨w, rfl⟩ : ∃ w, Y = y + w := ⟨Y - y, by omega⟩
        rw [Nat.add_sub_cancel_left] at hdm
        have e2 : ((S * h + y) * h + n (2 * (k + 1))) + carry = (S * h + y) * h + X := by omega
        rw [e2, ← hdm]
        have e3 : (S + z) * (h * h) + (a * h + b) = S * (h * h) + (h * z + a) * h + b := by ring
        rw [e3, hdm2]; ring

theorem limbsVal_getD (B : ℕ) : ∀ l : List ℕ, limbsVal B l = ∑ m ∈ range l.length, l.getD m 0 * B ^ (l.length - 1 - m)
  | [] => by simp
  | x :: xs => by
    rw [limbsVal_cons, List.length_cons, sum_range_succ', limbsVal_getD B xs, add_comm]
    congr 1
    refine sum_congr rfl fun m hm => ?_
    rw [mem_range] at hm
    rw [List.getD_cons_succ]; congr 2; omega

/-- The prefix of the convolution sum, column by column: every a_i meets the truncated second factor. -/
theorem convSum_conv {h : ℕ} (hh : 0 < h) {a b : List ℕ} {M : ℕ} (hb : M ≤ b.length) (hbv : ValidLimbs h b) :
    convSum h (conv a b) M = ∑ i ∈ range M, a.getD i 0 * (limbsVal h b / h ^ (b.length - M + i)) := by
  have e1 : convSum h (conv a b) M =
      ∑ j ∈ range M, ∑ i ∈ range (j + 1), (fun i m => a.getD i 0 * b.getD m 0 * h ^ (M - 1 - (i + m))) i (j - i) := by
    unfold convSum conv
    refine sum_congr rfl fun j hj => ?_
    rw [sum_mul]
    refine sum_congr rfl fun i hi => ?_
    rw [mem_range] at hi hj
    show _ = a.getD i 0 * b.getD (j - i) 0 * h ^ (M - 1 - (i + (j - i)))
    rw [show i + (j - i) = j by omega]
  rw [e1]
  refine (sum_range_diag_flip M (fun i m => a.getD i 0 * b.getD m 0 * h ^ (M - 1 - (i + m)))).trans ?_
  refine sum_congr rfl fun i hi => ?_
  rw [mem_range] at hi
  have e2 : limbsVal h b / h ^ (b.length - M + i) = limbsVal h (b.take (M - i)) := by
    rw [limbsVal_take hh hbv]; congr 2; omega
  rw [e2, limbsVal_getD, mul_sum]
  have hl : (b.take (M - i)).length = M - i := by rw [List.length_take]; omega
  rw [hl]
  refine sum_congr rfl fun m hm => ?_
  rw [mem_range] at hm
  have : (b.take (M - i)).getD m 0 = b.getD m 0 := by
    simp only [List.getD]; rw [List.getElem?_take_of_lt hm]
  rw [this, mul_assoc]
  congr 3
  omega

theorem conv_le {h : ℕ} {a b : List ℕ} (ha : ValidLimbs h a) (hb : ValidLimbs h b) (j : ℕ) :
    conv a b j ≤ (j + 1) * (h * h) := by
  unfold conv
  have : ∀ l : List ℕ, ValidLimbs h l → ∀ i, l.getD i 0 ≤ h := by
    intro l hl i
    by_cases hi : i < l.length
    · have := hl (l[i]) (List.getElem_mem hi)
      simp only [List.getD, List.getElem?_eq_getElem hi, Option.getD_some]; omega
    · simp only [List.getD]; rw [List.getElem?_eq_none (by omega)]; simp
  calc ∑ i ∈ range (j + 1), a.getD i 0 * b.getD (j - i) 0 ≤ ∑ _i ∈ range (j + 1), h * h :=
        sum_le_sum fun i _ => Nat.mul_le_mul (this a ha i) (this b hb _)
    _ = _ := by rw [sum_const, card_range, smul_eq_mul]

/-- The truncated convolution sum against the full product. -/
theorem convSum_bounds {h n : ℕ} (hh : 0 < h) {a b : List ℕ} (hn : 0 < n) (ha : a.length = n) (hb : b.length = n) (hav : ValidLimbs h a)
    (hbv : ValidLimbs h b) :
    convSum h (conv a b) (n - 1) * h ^ n ≤ limbsVal h a * limbsVal h b ∧
    limbsVal h a * limbsVal h b ≤ (convSum h (conv a b) (n - 1) + n * (h - 1)) * h ^ n := by
  have hVlt := limbsVal_lt hbv
  rw [hb] at hVlt
  have hT : convSum h (conv a b) (n - 1) = ∑ i ∈ range n, a.getD i 0 * (limbsVal h b / h ^ (i + 1)) := by
    rw [convSum_conv hh (M := n - 1) (by omega) hbv, hb]
    simp only [show n - (n - 1) = 1 by omega, Nat.add_comm 1]
    conv_rhs => rw [show n = n - 1 + 1 by omega]
    rw [sum_range_succ, show n - 1 + 1 = n by omega, Nat.div_eq_of_lt hVlt, mul_zero, add_zero]
  have hU : limbsVal h a * limbsVal h b = ∑ i ∈ range n, a.getD i 0 * h ^ (n - 1 - i) * limbsVal h b := by
    rw [limbsVal_getD h a, ha, sum_mul]
  generalize hV : limbsVal h b = V at *
  have key : ∀ i ∈ range n, a.getD i 0 * (V / h ^ (i + 1)) * h ^ n ≤ a.getD i 0 * h ^ (n - 1 - i) * V ∧
      a.getD i 0 * h ^ (n - 1 - i) * V ≤ a.getD i 0 * (V / h ^ (i + 1)) * h ^ n + (h - 1) * h ^ n := by
    intro i hi
    rw [mem_range] at hi
    have hpw : h ^ n = h ^ (n - 1 - i) * h ^ (i + 1) := by rw [← pow_add]; congr 1; omega
    have hdm := Nat.div_add_mod V (h ^ (i + 1))
    have hml := Nat.mod_lt V (Nat.pow_pos (n := i + 1) hh)
    have hai : a.getD i 0 ≤ h - 1 := by
      have := hav (a[i]) (List.getElem_mem (by omega))
      simp only [List.getD, List.getElem?_eq_getElem (show i < a.length by omega), Option.getD_some]; omega
    generalize a.getD i 0 = x at *
    rw [hpw]
    generalize h ^ (n - 1 - i) = P at *
    generalize h ^ (i + 1) = Q at *
    generalize hq : V / Q = q at *
    generalize hr : V % Q = r at *
    have e : x * P * V = x * q * (P * Q) + x * P * r := by rw [← hdm]; ring
    rw [e]
    refine ⟨Nat.le_add_right _ _, Nat.add_le_add_left ?_ _⟩
    calc x * P * r ≤ (h - 1) * P * Q := Nat.mul_le_mul (Nat.mul_le_mul_right _ hai) hml.le
      _ = _ := by ring
  rw [hT, hU]
  constructor
  · rw [sum_mul]; exact sum_le_sum fun i hi => (key i hi).1
  · calc ∑ i ∈ range n, a.getD i 0 * h ^ (n - 1 - i) * V ≤ ∑ i ∈ range n, (a.getD i 0 * (V / h ^ (i + 1)) * h ^ n + (h - 1) * h ^ n) :=
          sum_le_sum fun i hi => (key i hi).2
      _ = _ := by rw [sum_add_distrib, sum_const, card_range, smul_eq_mul, add_mul, sum_mul]; ring

/-- Rounding to the nearest integer recovers the coefficient. -/
theorem round_coeff (F : Flt) {x : ℚ} {n : ℕ} (hx : |x - n| ≤ 1 / 4) (hn : 4 * n + 3 ≤ 2 ^ F.p) : ⌊F.rnd (x + 1 / 2)⌋₊ = n := by
  rw [abs_le] at hx
  have r1 : RepF F.p ((n : ℚ) + 1 / 4) := ⟨4 * n + 1, -2, by rw [abs_of_nonneg (by positivity)]; exact_mod_cast (by omega : 4 * n + 1 ≤ 2 ^ F.p), by
    push_cast; norm_num; ring⟩
  have r2 : RepF F.p ((n : ℚ) + 3 / 4) := ⟨4 * n + 3, -2, by rw [abs_of_nonneg (by positivity)]; exact_mod_cast hn, by
    push_cast; norm_num; ring⟩
  have l := F.rnd_mono (show (n : ℚ) + 1 / 4 ≤ x + 1 / 2 by linarith)
  have u := F.rnd_mono (show x + 1 / 2 ≤ (n : ℚ) + 3 / 4 by linarith)
  rw [F.rnd_eq r1] at l
  rw [F.rnd_eq r2] at u
  rw [Nat.floor_eq_iff (by have : (0 : ℚ) ≤ n := by positivity
                           linarith)]
  constructor <;> linarith

/-- The stored limbs are the value of the truncated convolution sum. -/
theorem fftRelease_eq (L : Limb) (F : Flt) (x : ℕ → ℚ) (p : ℕ) (u v : List ℕ) (hp : 0 < p) (hu : u.length = p) (hv : v.length = p)
    (huv : ValidLimbs L.mask u) (hvv : ValidLimbs L.mask v)
    (hx : ∀ j, j + 2 ≤ 2 * p → |x j - conv (splitHalf L u) (splitHalf L v) j| ≤ 1 / 4)
    (hF : 8 * p * L.mask ≤ 2 ^ F.p) (h64 : 8 * p * L.mask ≤ 2 ^ 64) :
    let r := fftRelease L F x p
    r.length = p ∧ ValidLimbs L.mask r ∧
    limbsVal L.mask r = convSum L.half (conv (splitHalf L u) (splitHalf L v)) (2 * p - 1) := by
  intro r
  have hh := L.half_ge
  have hsq := L.half_sq
  have hal := splitHalf_length L u
  have hbl := splitHalf_length L v
  have hav := splitHalf_valid L huv
  have hbv := splitHalf_valid L hvv
  rw [hu] at hal; rw [hv] at hbl
  obtain ⟨c1, c2⟩ := convSum_bounds (h := L.half) (by omega) (n := 2 * p) (by omega) hal hbl hav hbv
  rw [limbsVal_half, limbsVal_half, pow_mul, hsq] at c1 c2
  have hcl : ∀ j, j + 2 ≤ 2 * p → conv (splitHalf L u) (splitHalf L v) j < 2 * p * L.mask := by
    intro j hj
    have := conv_le hav hbv j
    rw [← pow_two, hsq] at this
    have hm : 0 < L.mask := by rw [← hsq]; positivity
    refine lt_of_le_of_lt this (Nat.mul_lt_mul_of_pos_right (by omega) hm)
  have hr : ∀ j, j + 2 ≤ 2 * p → ⌊F.rnd (x j + 1 / 2)⌋₊ = conv (splitHalf L u) (splitHalf L v) j := by
    intro j hj
    refine round_coeff F (hx j hj) ?_
    have := hcl j hj
    have e : 8 * p * L.mask = 4 * (2 * p * L.mask) := by ring
    omega
  have hM : 0 < L.mask := by rw [← hsq]; positivity
  obtain ⟨l1, l2, co, l3⟩ := releaseLoop_spec L (fun j => ⌊F.rnd (x j + 1 / 2)⌋₊) p 0 (by
    intro j hj
    show ⌊F.rnd (x j + 1 / 2)⌋₊ < _
    rw [hr j hj]
    have := hcl j hj
    have e : 8 * p * L.mask = 4 * (2 * p * L.mask) := by ring
    omega) (by norm_num)
  have hcs : convSum L.half (fun j => ⌊F.rnd (x j + 1 / 2)⌋₊) (2 * p - 1) =
      convSum L.half (conv (splitHalf L u) (splitHalf L v)) (2 * p - 1) := by
    unfold convSum
    refine sum_congr rfl fun j hj => ?_
    rw [mem_range] at hj
    show ⌊F.rnd (x j + 1 / 2)⌋₊ * _ = _
    rw [hr j (by omega)]
  rw [hcs, add_zero] at l3
  have hU := limbsVal_lt huv
  have hV := limbsVal_lt hvv
  rw [hu] at hU; rw [hv] at hV
  refine ⟨l1, l2, ?_⟩
  have hrr : fftRelease L F x p = r := rfl
  unfold fftRelease at hrr
  rw [hrr] at l3
  generalize convSum L.half (conv (splitHalf L u) (splitHalf L v)) (2 * p - 1) = T at *
  have hT : T < L.mask ^ p := by
    by_contra hc
    have h1 : L.mask ^ p * L.mask ^ p ≤ T * L.mask ^ p := Nat.mul_le_mul_right _ (by omega)
    have h2 := Nat.mul_lt_mul'' hU hV
    omega
  have hco : co = 0 := by
    by_contra hc
    have : 1 * L.mask ^ p ≤ co * L.mask ^ p := Nat.mul_le_mul_right _ (by omega)
    omega
  rw [hco, zero_mul, add_zero] at l3
  exact l3


theorem convSum_ge {h n : ℕ} (hh : 0 < h) {a b : List ℕ} (hn : 2 < n) (hb : b.length = n) (hbv : ValidLimbs h b)
    (ha : 1 ≤ a.getD 0 0 + a.getD 1 0) : limbsVal h b / h ^ 2 ≤ convSum h (conv a b) (n - 1) := by
  rw [convSum_conv hh (M := n - 1) (by omega) hbv, hb]
  simp only [show n - (n - 1) = 1 by omega, Nat.add_comm 1]
  have hsub : range 2 ⊆ range (n - 1) := by intro x; simp only [mem_range]; omega
  refine le_trans ?_ (sum_le_sum_of_subset hsub)
  rw [sum_range_succ, sum_range_succ, sum_range_zero, zero_add, zero_add]
  have h1 : limbsVal h b / h ^ 2 ≤ limbsVal h b / h ^ 1 := Nat.div_le_div_left (Nat.pow_le_pow_right hh (by omega)) (by positivity)
  show _ ≤ a.getD 0 0 * (limbsVal h b / h ^ 1) + a.getD 1 0 * (limbsVal h b / h ^ 2)
  generalize limbsVal h b / h ^ 2 = X at *
  generalize limbsVal h b / h ^ 1 = Y at *
  generalize a.getD 0 0 = s at *
  generalize a.getD 1 0 = t at *
  have e1 := Nat.mul_le_mul_left s h1
  have e2 : 1 * X ≤ (s + t) * X := Nat.mul_le_mul_right _ ha
  rw [add_mul] at e2; omega

/-- The part of the product that the truncated sum misses contains the whole coefficient n-1. -/
theorem convSum_loss {h n : ℕ} (hh : 0 < h) {a b : List ℕ} (hn : 0 < n) (ha : a.length = n) (hb : b.length = n)
    (hbv : ValidLimbs h b) :
    convSum h (conv a b) (n - 1) * h ^ n + conv a b (n - 1) * h ^ (n - 1) ≤ limbsVal h a * limbsVal h b := by
  have e : convSum h (conv a b) (n - 1) * h ^ n + conv a b (n - 1) * h ^ (n - 1) = convSum h (conv a b) n * h ^ (n - 1) := by
    have := convSum_succ h (conv a b) (n - 1)
    rw [show n - 1 + 1 = n by omega] at this
    rw [this, show h ^ n = h * h ^ (n - 1) by rw [← pow_succ']; congr 1; omega]; ring
  rw [e, convSum_conv hh (M := n) (by omega) hbv, hb, limbsVal_getD h a, ha, sum_mul, sum_mul]
  refine sum_le_sum fun i hi => ?_
  rw [mem_range] at hi
  rw [show n - n + i = i by omega, show h ^ (n - 1) = h ^ (n - 1 - i) * h ^ i by rw [← pow_add]; congr 1; omega]
  have := Nat.div_mul_le_self (limbsVal h b) (h ^ i)
  calc a.getD i 0 * (limbsVal h b / h ^ i) * (h ^ (n - 1 - i) * h ^ i) = a.getD i 0 * h ^ (n - 1 - i) * (limbsVal h b / h ^ i * h ^ i) := by ring
    _ ≤ _ := Nat.mul_le_mul_left _ this

end WD
