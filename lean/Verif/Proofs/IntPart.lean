import Verif.Proofs.Mul2
import Verif.Spec.Round
import Mathlib.Algebra.Order.Floor.Ring
import Mathlib.Data.Rat.Floor

namespace WD
open DW

/-- Number of limbs of the integer part of a number with non-negative exponent. -/
def DW.ilimbs (c : Cfg) (x : DW) : Nat := x.exp.toNat / c.ed + 1

theorem ilimbs_pos (c : Cfg) (x : DW) : 1 ≤ x.ilimbs c := Nat.le_add_left 1 _

theorem exp_ilimbs {c : Cfg} {x : DW} (hx : WF c x) (h0 : 0 ≤ x.exp) : x.exp = (c.ed : ℤ) * ((x.ilimbs c : ℤ) - 1) := by
  obtain ⟨k, hk⟩ := hx.dvd
  have hp : (0 : ℤ) < c.ed := by exact_mod_cast c.ed_pos
  have hk0 : 0 ≤ k := by
    rw [hk] at h0
    exact nonneg_of_mul_nonneg_right h0 hp
  obtain ⟨n, rfl⟩ := Int.eq_ofNat_of_zero_le hk0
  have : x.exp.toNat = c.ed * n := by rw [hk]; exact_mod_cast Int.toNat_natCast (c.ed * n)
  unfold ilimbs
  rw [this, Nat.mul_div_cancel_left _ c.ed_pos, hk]
  push_cast; ring

theorem limbsVal_split (B : Nat) (l : List Nat) (k : Nat) :
    limbsVal B l = limbsVal B (l.take k) * B ^ (l.length - k) + limbsVal B (l.drop k) := by
  conv_lhs => rw [← List.take_append_drop k l]
  rw [limbsVal_append, List.length_drop]

/-- Integer part and fraction of the magnitude. -/
theorem abs_split {c : Cfg} {x : DW} (hx : WF c x) (h0 : 0 ≤ x.exp) (hk : x.ilimbs c ≤ c.N) :
    |x.val c| = limbsVal c.B (x.data.take (x.ilimbs c)) +
      (limbsVal c.B (x.data.drop (x.ilimbs c)) : ℚ) * 10 ^ (-((c.ed : ℤ) * ((c.N - x.ilimbs c : Nat) : ℤ))) ∧
    (limbsVal c.B (x.data.drop (x.ilimbs c)) : ℚ) * 10 ^ (-((c.ed : ℤ) * ((c.N - x.ilimbs c : Nat) : ℤ))) < 1 := by
  have hl : x.lexp c = -((c.ed : ℤ) * ((c.N - x.ilimbs c : Nat) : ℤ)) := by
    unfold lexp; rw [exp_ilimbs hx h0]; push_cast [Nat.cast_sub hk]; ring
  have hb := c.p10_mul_B (x.lexp c) (c.N - x.ilimbs c)
  have hz : x.lexp c + (c.ed : ℤ) * ((c.N - x.ilimbs c : Nat) : ℤ) = 0 := by rw [hl]; ring
  rw [hz, zpow_zero] at hb
  constructor
  · rw [abs_val, mant, limbsVal_split c.B x.data (x.ilimbs c), hx.len, ← hl]
    push_cast
    rw [add_mul, mul_assoc, mul_comm ((c.B : ℚ) ^ _), hb, mul_one]
  · have := limbsVal_lt (hx.valid.drop (x.ilimbs c))
    rw [List.length_drop, hx.len] at this
    rw [← hl, mul_comm]
    calc (10 : ℚ) ^ x.lexp c * (limbsVal c.B (x.data.drop (x.ilimbs c)) : ℚ)
        < 10 ^ x.lexp c * (c.B : ℚ) ^ (c.N - x.ilimbs c) := by
          apply mul_lt_mul_of_pos_left _ (p10_pos _)
          exact_mod_cast this
      _ = 1 := hb

theorem abs_big {c : Cfg} {x : DW} (hx : WF c x) (h0 : 0 ≤ x.exp) (hk : c.N ≤ x.ilimbs c) :
    |x.val c| = (x.mant c * c.B ^ (x.ilimbs c - c.N) : Nat) := by
  have hl : x.lexp c = (c.ed : ℤ) * ((x.ilimbs c - c.N : Nat) : ℤ) := by
    unfold lexp; rw [exp_ilimbs hx h0]; push_cast [Nat.cast_sub hk]; ring
  have hb := c.p10_mul_B 0 (x.ilimbs c - c.N)
  rw [zero_add, ← hl, zpow_zero, one_mul] at hb
  rw [abs_val]; push_cast; rw [hb]

/-- The floor of the magnitude is what the integer limbs denote. -/
theorem floor_abs {c : Cfg} {x : DW} (hx : WF c x) (h0 : 0 ≤ x.exp) (hk : x.ilimbs c ≤ c.N) :
    ⌊|x.val c|⌋ = limbsVal c.B (x.data.take (x.ilimbs c)) := by
  obtain ⟨h1, h2⟩ := abs_split hx h0 hk
  rw [Int.floor_eq_iff]
  have hnn : 0 ≤ (limbsVal c.B (x.data.drop (x.ilimbs c)) : ℚ) * 10 ^ (-((c.ed : ℤ) * ((c.N - x.ilimbs c : Nat) : ℤ))) := by
    positivity
  push_cast
  constructor <;> linarith

theorem floor_abs_of_exp_neg {c : Cfg} {x : DW} (hx : WF c x) (h0 : x.exp < 0) : ⌊|x.val c|⌋ = 0 := by
  rw [Int.floor_eq_zero_iff, Set.mem_Ico]
  refine ⟨abs_nonneg _, lt_of_lt_of_le hx.abs_lt ?_⟩
  obtain ⟨k, hk⟩ := hx.dvd
  have hp : (0 : ℤ) < c.ed := by exact_mod_cast c.ed_pos
  have : k < 0 := by
    by_contra h
    have : 0 ≤ (c.ed : ℤ) * k := mul_nonneg hp.le (by omega)
    omega
  have h1 : x.exp + c.ed ≤ 0 := by rw [hk]; nlinarith
  calc (10 : ℚ) ^ (x.exp + c.ed) ≤ 10 ^ (0 : ℤ) := zpow_le_zpow_right₀ (by norm_num) h1
    _ = 1 := zpow_zero _

/-- Being an integer depends only on the magnitude. -/
theorem int_iff_abs (q : ℚ) : (∃ m : ℤ, q = m) ↔ (∃ m : ℤ, |q| = m) := by
  constructor
  · rintro ⟨m, h⟩; exact ⟨|m|, by rw [h]; push_cast; rfl⟩
  · rintro ⟨m, h⟩
    rcases abs_choice q with h' | h'
    · exact ⟨m, by rw [← h, h']⟩
    · exact ⟨-m, by push_cast; rw [← h, h']; ring⟩

theorem isInt_spec {c : Cfg} {x : DW} (hx : WF c x) (h : x.isZero = false ∨ 0 ≤ x.exp) :
    isInt c x = true ↔ ∃ m : ℤ, x.val c = m := by
  rw [int_iff_abs]
  unfold isInt
  by_cases h0 : x.exp < 0
  · rw [if_pos h0]
    have hz : x.isZero = false := by rcases h with h | h; exact h; omega
    have hf := floor_abs_of_exp_neg hx h0
    have hp := hx.abs_pos hz
    constructor
    · intro h; exact absurd h (by simp)
    · rintro ⟨m, hm⟩
      rw [hm, Int.floor_intCast] at hf
      rw [hm, hf] at hp; simp at hp
  · rw [if_neg h0]
    have h0' : 0 ≤ x.exp := by omega
    cases hz : x.isZero
    · cases ho : isOneSN c x
      · simp only [Bool.or_self, Bool.false_eq_true, if_false]
        have e : x.exp.toNat / c.ed + 1 = x.ilimbs c := rfl
        rw [e]
        by_cases hk : x.ilimbs c ≥ c.N
        · rw [if_pos hk]
          refine ⟨fun _ => ⟨((x.mant c * c.B ^ (x.ilimbs c - c.N) : Nat) : ℤ), ?_⟩, fun _ => rfl⟩
          rw [abs_big hx h0' hk]; push_cast; rfl
        · rw [if_neg hk]
          have hk' : x.ilimbs c ≤ c.N := by omega
          obtain ⟨h1, h2⟩ := abs_split hx h0' hk'
          have hzero : (x.data.drop (x.ilimbs c)).all (· == 0) = true ↔ limbsVal c.B (x.data.drop (x.ilimbs c)) = 0 := by
            rw [limbsVal_zero_iff c.B_pos]; simp
          rw [hzero]
          constructor
          · intro h; rw [h] at h1
            exact ⟨limbsVal c.B (x.data.take (x.ilimbs c)), by rw [h1]; simp⟩
          · rintro ⟨m, hm⟩
            have hf := floor_abs hx h0' hk'
            rw [hm, Int.floor_intCast] at hf
            rw [hm, hf] at h1
            have : (limbsVal c.B (x.data.drop (x.ilimbs c)) : ℚ) * 10 ^ (-((c.ed : ℤ) * ((c.N - x.ilimbs c : Nat) : ℤ))) = 0 := by
              push_cast at h1; linarith
            rcases mul_eq_zero.mp this with h | h
            · exact_mod_cast h
            · exact absurd h (p10_pos _).ne'
      · simp only [Bool.or_true, if_true, true_iff]
        rcases isOneSN_spec hx ho with ⟨h1, -⟩ | ⟨-, h2⟩
        · exact ⟨1, by rw [h1]; simp⟩
        · have := c.ed_pos; omega
    · simp only [Bool.true_or, if_true, true_iff]
      exact ⟨0, by rw [hx.isZero_iff.mp hz]; simp⟩

theorem truncQ_sgn (s : Bool) {q : ℚ} (hq : 0 ≤ q) :
    truncQ ((if s then -1 else 1) * q) = (if s then -1 else 1) * ⌊q⌋ := by
  unfold truncQ
  cases s
  · simp [hq]
  · simp only [if_true]
    split
    · next h =>
      have : q = 0 := by linarith
      rw [this]; simp
    · rw [neg_one_mul, Int.ceil_neg]; ring

theorem take_rep_length {c : Cfg} {x : DW} (hx : WF c x) {k : Nat} (hk : k ≤ c.N) :
    (x.data.take k ++ List.replicate (c.N - k) 0).length = c.N := by
  simp [hx.len]; omega

theorem integerPart_full {c : Cfg} {x : DW} (hx : WF c x) (hd : x.exp < (c.digits10 : ℤ) - 1) (h0 : 0 ≤ x.exp) :
    x.ilimbs c ≤ c.N ∧ integerPart c x = { x with data := x.data.take (x.ilimbs c) ++ List.replicate (c.N - x.ilimbs c) 0 } := by
  refine ⟨?_, ?_⟩
  · have h1 := c.digits_le
    have h2 := exp_ilimbs hx h0
    have hp := c.ed_pos
    by_contra h
    have : c.N ≤ x.ilimbs c - 1 := by omega
    have h3 : c.ed * c.N ≤ c.ed * (x.ilimbs c - 1) := Nat.mul_le_mul_left _ this
    have h4 : c.ed * (c.N - 1) ≤ c.ed * c.N := Nat.mul_le_mul_left _ (by omega)
    have h5 : x.exp = ((c.ed * (x.ilimbs c - 1) : Nat) : ℤ) := by rw [h2]; push_cast [Nat.cast_sub (ilimbs_pos c x)]; rfl
    omega
  · unfold integerPart
    rw [if_neg (by omega), if_neg (by omega)]; rfl

theorem integerPart_wf {c : Cfg} {x : DW} (hx : WF c x) : WF c (integerPart c x) ∧
    (0 ≤ x.exp → (integerPart c x).prec = x.prec ∧ (integerPart c x).exp = x.exp ∧ (integerPart c x).neg = x.neg) := by
  by_cases h0 : x.exp < 0
  · unfold integerPart; rw [if_pos h0]; exact ⟨(zero_WF c).toWF, fun h => by omega⟩
  · by_cases hd : x.exp < (c.digits10 : ℤ) - 1
    · obtain ⟨hk, he⟩ := integerPart_full hx hd (by omega)
      rw [he]
      refine ⟨⟨take_rep_length hx hk, ?_, hx.dvd, hx.prec2, hx.precN, ?_⟩, fun _ => ⟨rfl, rfl, rfl⟩⟩
      · exact validLimbs_append.mpr ⟨hx.valid.take _, validLimbs_replicate c.B_pos⟩
      · intro h d hd
        have hall : ∀ d ∈ x.data, d = 0 := by
          apply hx.lead
          have := ilimbs_pos c x
          obtain ⟨m, hm⟩ : ∃ m, x.ilimbs c = m + 1 := ⟨x.ilimbs c - 1, by omega⟩
          cases hdd : x.data with
          | nil => simp [d0, hdd]
          | cons y ys => simp [d0, hdd, hm] at h ⊢; exact h
        rcases List.mem_append.mp hd with h | h
        · exact hall d (List.mem_of_mem_take h)
        · exact (List.mem_replicate.mp h).2
    · unfold integerPart; rw [if_neg h0, if_pos (by omega)]; exact ⟨hx, fun _ => ⟨rfl, rfl, rfl⟩⟩

theorem integerPart_val {c : Cfg} {x : DW} (hx : WF c x) (hd : x.exp < (c.digits10 : ℤ) - 1) :
    (integerPart c x).val c = truncQ (x.val c) := by
  rw [val_sgn c x, truncQ_sgn _ (abs_nonneg _)]
  by_cases h0 : x.exp < 0
  · rw [floor_abs_of_exp_neg hx h0]
    unfold integerPart; rw [if_pos h0, zero_val]; simp
  · have h0' : 0 ≤ x.exp := by omega
    obtain ⟨hk, he⟩ := integerPart_full hx hd h0'
    have hw := (integerPart_wf hx).1
    have hw2 := (integerPart_wf hx).2 h0'
    rw [floor_abs hx h0' hk]
    rw [val_sgn c (integerPart c x), hw2.2.2]
    have hil : (integerPart c x).ilimbs c = x.ilimbs c := by unfold ilimbs; rw [hw2.2.1]
    obtain ⟨a, -⟩ := abs_split hw (by rw [hw2.2.1]; exact h0') (by rw [hil]; exact hk)
    rw [a, hil]
    have hlen : (x.data.take (x.ilimbs c)).length = x.ilimbs c := by simp [hx.len]; exact hk
    have e1 : (integerPart c x).data.take (x.ilimbs c) = x.data.take (x.ilimbs c) := by
      rw [he]
      show (x.data.take (x.ilimbs c) ++ _).take _ = _
      rw [List.take_append_of_le_length (by rw [hlen]), List.take_of_length_le (by rw [hlen])]
    have e2 : (integerPart c x).data.drop (x.ilimbs c) = List.replicate (c.N - x.ilimbs c) 0 := by
      rw [he]
      show (x.data.take (x.ilimbs c) ++ _).drop _ = _
      rw [List.drop_append_of_le_length (by rw [hlen]), List.drop_of_length_le (by rw [hlen]), List.nil_append]
    rw [e1, e2, limbsVal_eq_zero (l := List.replicate _ 0) (fun d h => (List.mem_replicate.mp h).2)]
    push_cast
    cases x.neg <;> simp

theorem integerPart_self {c : Cfg} {x : DW} (hx : WF c x) (hz : x.isZero = false ∨ 0 ≤ x.exp) (h : ∃ m : ℤ, x.val c = m) :
    (integerPart c x).val c = x.val c := by
  by_cases hd : x.exp < (c.digits10 : ℤ) - 1
  · rw [integerPart_val hx hd]
    obtain ⟨m, hm⟩ := h
    rw [hm, truncQ]; split <;> simp
  · by_cases h0 : x.exp < 0
    · have := (isInt_spec hx hz).mpr h
      unfold isInt at this; rw [if_pos h0] at this; simp at this
    · unfold integerPart; rw [if_neg h0, if_pos (by omega)]

end WD
