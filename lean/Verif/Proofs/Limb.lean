import Verif.Spec
import Verif.Model.Limb
import Mathlib.Tactic.Ring
import Mathlib.Tactic.Linarith
import Mathlib.Tactic.NormNum

namespace WD

theorem Limb.mask_pos (L : Limb) : 0 < L.mask := by cases L <;> decide
theorem Limb.W_eq (L : Limb) : L.W = match L with | .u8 => 256 | .u16 => 65536 | .u32 => 4294967296 := by
  cases L <;> rfl
theorem Limb.mask_eq (L : Limb) : L.mask = match L with | .u8 => 100 | .u16 => 10000 | .u32 => 100000000 := by
  cases L <;> rfl
theorem Limb.D_eq (L : Limb) : L.D = match L with
  | .u8 => 65536 | .u16 => 4294967296 | .u32 => 18446744073709551616 := by
  cases L <;> rfl
theorem Limb.two_mask_lt (L : Limb) : 2 * L.mask < L.W := by cases L <;> decide
theorem Limb.mask_lt_half (L : Limb) : L.mask < L.W / 2 := by cases L <;> decide
theorem Limb.one_lt_mask (L : Limb) : 1 < L.mask := by cases L <;> decide
theorem Limb.mask_sq_lt (L : Limb) : L.mask * L.mask < L.D := by cases L <;> decide

@[simp] theorem limbsVal_nil (B) : limbsVal B [] = 0 := rfl
theorem limbsVal_cons (B x xs) : limbsVal B (x :: xs) = x * B ^ xs.length + limbsVal B xs := rfl

theorem validLimbs_nil (B) : ValidLimbs B [] := by simp [ValidLimbs]
theorem validLimbs_cons {B x xs} : ValidLimbs B (x :: xs) ↔ x < B ∧ ValidLimbs B xs := by
  simp [ValidLimbs]
theorem validLimbs_append {B l k} : ValidLimbs B (l ++ k) ↔ ValidLimbs B l ∧ ValidLimbs B k := by
  simp only [ValidLimbs, List.mem_append]
  constructor
  · intro h; exact ⟨fun x hx => h x (Or.inl hx), fun x hx => h x (Or.inr hx)⟩
  · rintro ⟨h1, h2⟩ x (hx | hx); exacts [h1 x hx, h2 x hx]
theorem ValidLimbs.take {B l} (n : Nat) (h : ValidLimbs B l) : ValidLimbs B (l.take n) :=
  fun x hx => h x (List.mem_of_mem_take hx)
theorem ValidLimbs.drop {B l} (n : Nat) (h : ValidLimbs B l) : ValidLimbs B (l.drop n) :=
  fun x hx => h x (List.mem_of_mem_drop hx)
theorem validLimbs_replicate {B n} (hB : 0 < B) : ValidLimbs B (List.replicate n 0) := by
  intro x hx; rw [List.mem_replicate] at hx; omega

theorem limbsVal_append (B) (l k : List Nat) :
    limbsVal B (l ++ k) = limbsVal B l * B ^ k.length + limbsVal B k := by
  induction l with
  | nil => simp
  | cons x xs ih =>
    simp only [List.cons_append, limbsVal_cons, ih, List.length_append]
    ring

theorem limbsVal_lt {B l} (h : ValidLimbs B l) : limbsVal B l < B ^ l.length := by
  induction l with
  | nil => simp
  | cons x xs ih =>
    rw [validLimbs_cons] at h
    have := ih h.2
    rw [limbsVal_cons, List.length_cons, pow_succ]
    have h1 : (x + 1) * B ^ xs.length ≤ B * B ^ xs.length := Nat.mul_le_mul_right _ h.1
    nlinarith

@[simp] theorem limbsVal_replicate_zero (B n) : limbsVal B (List.replicate n 0) = 0 := by
  induction n with
  | zero => rfl
  | succ n ih => simp [List.replicate_succ, limbsVal_cons, ih]

/-! ### compare_ranges -/

theorem compareRanges_spec (B : Nat) : ∀ (a b : List Nat), a.length = b.length →
    ValidLimbs B a → ValidLimbs B b →
    compareRanges a b = cmp3 (limbsVal B a) (limbsVal B b)
  | [], [], _, _, _ => by simp [compareRanges, cmp3]
  | x :: xs, y :: ys, hl, ha, hb => by
    rw [validLimbs_cons] at ha hb
    have hl' : xs.length = ys.length := by simpa using hl
    have ih := compareRanges_spec B xs ys hl' ha.2 hb.2
    have h1 := limbsVal_lt ha.2
    have h2 := limbsVal_lt hb.2
    rw [hl'] at h1
    simp only [compareRanges, limbsVal_cons, hl']
    generalize hP : B ^ ys.length = P at *
    generalize limbsVal B xs = X at *
    generalize limbsVal B ys = Y at *
    by_cases hxy : x = y
    · subst hxy
      simp only [ne_eq, not_true_eq_false, if_false, ih, cmp3]
      have : x * P + X < x * P + Y ↔ X < Y := by omega
      have h' : x * P + X = x * P + Y ↔ X = Y := by omega
      simp only [this, h']
    · simp only [ne_eq, hxy, not_false_eq_true, if_true, cmp3]
      rcases Nat.lt_or_gt_of_ne hxy with h | h
      · have : (x + 1) * P ≤ y * P := Nat.mul_le_mul_right _ h
        have : x * P + X < y * P + Y := by nlinarith
        rw [if_neg (by omega), if_pos this]
      · have : (y + 1) * P ≤ x * P := Nat.mul_le_mul_right _ h
        have : y * P + Y < x * P + X := by nlinarith
        rw [if_pos h, if_neg (by omega), if_neg (by omega)]

/-! ### eval_add_n -/

theorem addStep_spec (L : Limb) {u v c : Nat} (hu : u < L.mask) (hv : v < L.mask) (hc : c ≤ 1) :
    (addStep L u v c).1 < L.mask ∧ (addStep L u v c).2 ≤ 1 ∧
    (addStep L u v c).1 + (addStep L u v c).2 * L.mask = u + v + c := by
  cases L <;>
  · simp only [addStep, Limb.mask_eq, Limb.W_eq] at *
    split <;> (simp; omega)

theorem addC_spec (L : Limb) {cin : Nat} (hc : cin ≤ 1) : ∀ (u v : List Nat), u.length = v.length →
    ValidLimbs L.mask u → ValidLimbs L.mask v →
    (addC L cin u v).1.length = u.length ∧ ValidLimbs L.mask (addC L cin u v).1 ∧ (addC L cin u v).2 ≤ 1 ∧
    limbsVal L.mask (addC L cin u v).1 + (addC L cin u v).2 * L.mask ^ u.length
      = limbsVal L.mask u + limbsVal L.mask v + cin
  | [], [], _, _, _ => by simp [addC, validLimbs_nil, hc]
  | x :: xs, y :: ys, hl, hu, hv => by
    rw [validLimbs_cons] at hu hv
    have hl' : xs.length = ys.length := by simpa using hl
    obtain ⟨i1, i2, i3, i4⟩ := addC_spec L hc xs ys hl' hu.2 hv.2
    obtain ⟨s1, s2, s3⟩ := addStep_spec L hu.1 hv.1 i3
    simp only [addC]
    refine ⟨by simp [i1], by rw [validLimbs_cons]; exact ⟨s1, i2⟩, s2, ?_⟩
    simp only [limbsVal_cons, List.length_cons, i1, ← hl', pow_succ]
    generalize L.mask ^ xs.length = P at *
    have : ((addStep L x y (addC L cin xs ys).2).1 + (addStep L x y (addC L cin xs ys).2).2 * L.mask) * P
        = (x + y + (addC L cin xs ys).2) * P := by rw [s3]
    nlinarith

/-! ### eval_subtract_n -/

theorem subStep_spec (L : Limb) {u v c : Nat} (hu : u < L.mask) (hv : v < L.mask) (hc : c ≤ 1) :
    (subStep L u v c).1 < L.mask ∧ (subStep L u v c).2 ≤ 1 ∧
    (subStep L u v c).1 + v + c = u + (subStep L u v c).2 * L.mask := by
  cases L <;>
  · simp only [subStep, Limb.mask_eq, Limb.W_eq] at *
    split <;> (simp; omega)

theorem subC_spec (L : Limb) {bin : Nat} (hc : bin ≤ 1) : ∀ (u v : List Nat), u.length = v.length →
    ValidLimbs L.mask u → ValidLimbs L.mask v →
    (subC L bin u v).1.length = u.length ∧ ValidLimbs L.mask (subC L bin u v).1 ∧ (subC L bin u v).2 ≤ 1 ∧
    limbsVal L.mask (subC L bin u v).1 + limbsVal L.mask v + bin
      = limbsVal L.mask u + (subC L bin u v).2 * L.mask ^ u.length
  | [], [], _, _, _ => by simp [subC, validLimbs_nil, hc]
  | x :: xs, y :: ys, hl, hu, hv => by
    rw [validLimbs_cons] at hu hv
    have hl' : xs.length = ys.length := by simpa using hl
    obtain ⟨i1, i2, i3, i4⟩ := subC_spec L hc xs ys hl' hu.2 hv.2
    obtain ⟨s1, s2, s3⟩ := subStep_spec L hu.1 hv.1 i3
    simp only [subC]
    refine ⟨by simp [i1], by rw [validLimbs_cons]; exact ⟨s1, i2⟩, s2, ?_⟩
    simp only [limbsVal_cons, List.length_cons, i1, ← hl', pow_succ]
    generalize L.mask ^ xs.length = P at *
    have : ((subStep L x y (subC L bin xs ys).2).1 + y + (subC L bin xs ys).2) * P
        = (x + (subStep L x y (subC L bin xs ys).2).2 * L.mask) * P := by rw [s3]
    nlinarith

/-! ### mul_loop_n / div_loop_n -/

theorem mulLoop_spec (L : Limb) {n : Nat} (hn : n < L.mask) : ∀ (u : List Nat), ValidLimbs L.mask u →
    (mulLoop L n u).1.length = u.length ∧ ValidLimbs L.mask (mulLoop L n u).1 ∧
    ((mulLoop L n u).2 < n ∨ (mulLoop L n u).2 = 0) ∧
    limbsVal L.mask (mulLoop L n u).1 + (mulLoop L n u).2 * L.mask ^ u.length = limbsVal L.mask u * n
  | [], _ => by simp [mulLoop, validLimbs_nil]
  | x :: xs, hu => by
    rw [validLimbs_cons] at hu
    obtain ⟨i1, i2, i3, i4⟩ := mulLoop_spec L hn xs hu.2
    simp only [mulLoop]
    generalize mulLoop L n xs = q at *
    obtain ⟨r, c⟩ := q
    simp only at *
    have hM := L.mask_pos
    have hx := hu.1
    have hMW : L.mask < L.W := by have := L.two_mask_lt; omega
    have hMD := L.mask_sq_lt
    have hxn : x * n ≤ (L.mask - 1) * (L.mask - 1) := Nat.mul_le_mul (by omega) (by omega)
    have hsq : (L.mask - 1) * (L.mask - 1) + 2 * L.mask = L.mask * L.mask + 1 := by
      obtain ⟨k, hk⟩ : ∃ k, L.mask = k + 1 := ⟨L.mask - 1, by omega⟩
      rw [hk]; simp; ring
    have hc : c < L.mask := by omega
    have e1 : (c + (x * n) % L.D) % L.D = c + x * n := by
      rw [Nat.mod_eq_of_lt (show x * n < L.D by omega), Nat.mod_eq_of_lt (by omega)]
    rw [e1]
    have hq : (c + x * n) / L.mask < L.mask := by
      rw [Nat.div_lt_iff_lt_mul hM]; omega
    have hr : (c + x * n) % L.mask < L.mask := Nat.mod_lt _ hM
    rw [Nat.mod_eq_of_lt (show (c + x * n) % L.mask < L.W by omega),
        Nat.mod_eq_of_lt (show (c + x * n) / L.mask < L.W by omega)]
    have hdm : (c + x * n) % L.mask + L.mask * ((c + x * n) / L.mask) = c + x * n := Nat.mod_add_div _ _
    refine ⟨by simp [i1], by rw [validLimbs_cons]; exact ⟨hr, i2⟩, ?_, ?_⟩
    · rcases Nat.eq_zero_or_pos n with h0 | h0
      · subst h0
        right
        have : c = 0 := by omega
        simp [this]
      · left
        rw [Nat.div_lt_iff_lt_mul hM]
        have : (x + 1) * n ≤ L.mask * n := Nat.mul_le_mul_right _ hx
        have : c < n := by omega
        nlinarith
    · simp only [limbsVal_cons, List.length_cons, i1, pow_succ]
      generalize L.mask ^ xs.length = P at *
      have : ((c + x * n) % L.mask + L.mask * ((c + x * n) / L.mask)) * P = (c + x * n) * P := by rw [hdm]
      nlinarith

theorem divLoop_spec (L : Limb) {n : Nat} (h0 : 0 < n) (hn : n ≤ L.mask) : ∀ (prev : Nat) (u : List Nat),
    prev < n → ValidLimbs L.mask u →
    (divLoop L n prev u).1.length = u.length ∧ ValidLimbs L.mask (divLoop L n prev u).1 ∧
    (divLoop L n prev u).2 < n ∧
    limbsVal L.mask (divLoop L n prev u).1 * n + (divLoop L n prev u).2
      = prev * L.mask ^ u.length + limbsVal L.mask u
  | prev, [], hp, _ => by simp [divLoop, validLimbs_nil, hp]
  | prev, x :: xs, hp, hu => by
    rw [validLimbs_cons] at hu
    have hM := L.mask_pos
    have hx := hu.1
    have hMW : L.mask < L.W := by have := L.two_mask_lt; omega
    have hMD := L.mask_sq_lt
    have hpm : (prev + 1) * L.mask ≤ L.mask * L.mask := Nat.mul_le_mul_right _ (by omega)
    have hpn : (prev + 1) * L.mask ≤ n * L.mask := Nat.mul_le_mul_right _ (by omega)
    have e1 : (x + (prev * L.mask) % L.D) % L.D = x + prev * L.mask := by
      rw [Nat.mod_eq_of_lt (show prev * L.mask < L.D by nlinarith), Nat.mod_eq_of_lt (by nlinarith)]
    have hr : (x + prev * L.mask) % n < n := Nat.mod_lt _ h0
    have hq : (x + prev * L.mask) / n < L.mask := by
      rw [Nat.div_lt_iff_lt_mul h0]; nlinarith
    have e2 : (x + prev * L.mask) % n % L.W = (x + prev * L.mask) % n := Nat.mod_eq_of_lt (by omega)
    have e3 : (x + prev * L.mask) / n % L.W = (x + prev * L.mask) / n := Nat.mod_eq_of_lt (by omega)
    obtain ⟨i1, i2, i3, i4⟩ := divLoop_spec L h0 hn ((x + prev * L.mask) % n) xs hr hu.2
    simp only [divLoop, e1, e2, e3]
    have hdm : (x + prev * L.mask) % n + n * ((x + prev * L.mask) / n) = x + prev * L.mask := Nat.mod_add_div _ _
    refine ⟨by simp [i1], by rw [validLimbs_cons]; exact ⟨hq, i2⟩, i3, ?_⟩
    simp only [limbsVal_cons, List.length_cons, i1, pow_succ]
    generalize L.mask ^ xs.length = P at *
    have : ((x + prev * L.mask) % n + n * ((x + prev * L.mask) / n)) * P = (x + prev * L.mask) * P := by rw [hdm]
    nlinarith

end WD
