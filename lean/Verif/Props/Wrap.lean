import Verif.Model.Wrap
import Mathlib.Tactic.Linarith
import Mathlib.Tactic.Ring
import Mathlib.Tactic.Zify
import Mathlib.Algebra.Order.Ring.Int
/-
  C38: the exponent wrapper computes signed sums and differences.
-/
namespace WD

/-- Specification: the integer denoted by a sign and a magnitude. -/
def UW.int (a : UW) : ℤ := if a.neg then -(a.value : ℤ) else a.value

/-- Specification: the magnitude fits the unsigned type and zero carries no sign. -/
def UW.Ok (w : ℕ) (a : UW) : Prop := a.value < 2 ^ w ∧ (a.value = 0 → a.neg = false)

namespace UW
variable {w : ℕ}

theorem negU_eq (hw : 0 < w) {v : ℕ} (h : v < 2 ^ w) (h0 : 0 < v) : negU w v = 2 ^ w - v := by
  unfold negU
  have : 2 ≤ 2 ^ w := by
    calc 2 = 2 ^ 1 := rfl
      _ ≤ 2 ^ w := Nat.pow_le_pow_right (by omega) hw
  rw [Nat.mod_eq_of_lt (show 2 ^ w - 1 - v < 2 ^ w by omega), Nat.mod_eq_of_lt (by omega)]; omega

theorem sub_mod (hw : 0 < w) {a b : ℕ} (ha : a < 2 ^ w) (hb : b ≤ a) : (a + negU w b) % 2 ^ w = a - b := by
  have h2 : 2 ≤ 2 ^ w := by
    calc 2 = 2 ^ 1 := rfl
      _ ≤ 2 ^ w := Nat.pow_le_pow_right (by omega) hw
  rcases Nat.eq_zero_or_pos b with h | h
  · subst h
    unfold negU
    rw [Nat.mod_eq_of_lt (show 2 ^ w - 1 - 0 < 2 ^ w by omega), show 2 ^ w - 1 - 0 + 1 = 2 ^ w by omega, Nat.mod_self]
    rw [Nat.add_zero, Nat.mod_eq_of_lt ha, Nat.sub_zero]
  · rw [negU_eq hw (by omega) h, show a + (2 ^ w - b) = (a - b) + 2 ^ w by omega, Nat.add_mod_right, Nat.mod_eq_of_lt (by omega)]

end UW

/-- C38, construction: wrapping any signed value of the type denotes that value. -/
theorem wrap_of_signed (w : ℕ) (hw : 0 < w) (n : ℤ) (h1 : -(2 ^ (w - 1)) ≤ n) (h2 : n < 2 ^ (w - 1)) :
    (UW.ofSigned w n).int = n ∧ (UW.ofSigned w n).Ok w := by
  have hp : (2 : ℤ) ^ w = 2 * 2 ^ (w - 1) := by
    conv_lhs => rw [show w = (w - 1) + 1 by omega, pow_succ]
    ring
  have hpn : (2 : ℕ) ^ w = 2 * 2 ^ (w - 1) := by
    conv_lhs => rw [show w = (w - 1) + 1 by omega, pow_succ]
    ring
  have hpos : (0 : ℤ) < 2 ^ (w - 1) := by positivity
  have hcast : ((2 ^ w : ℕ) : ℤ) = 2 ^ w := by push_cast; rfl
  by_cases hn : n < 0
  · have hc : UW.castU w n = (n + 2 ^ w).toNat := by
      unfold UW.castU
      rw [← Int.add_emod_right, Int.emod_eq_of_lt (by linarith) (by linarith)]
    have hlt : UW.castU w n < 2 ^ w := by
      rw [hc]; zify; rw [Int.toNat_of_nonneg (by linarith)]; linarith
    have hgt : 0 < UW.castU w n := by rw [hc]; zify; rw [Int.toNat_of_nonneg (by linarith)]; linarith
    have hv : UW.negU w (UW.castU w n) = n.natAbs := by
      rw [UW.negU_eq hw hlt hgt, hc]; zify [hlt]
      rw [Nat.cast_sub (by rw [← hc]; exact hlt.le), Int.toNat_of_nonneg (by linarith), hcast, abs_of_neg hn]; ring
    have hs : UW.ofSigned w n = { neg := true, value := n.natAbs } := by
      unfold UW.ofSigned; simp [hn, hv]
    rw [hs]
    refine ⟨?_, ?_, fun h => ?_⟩
    · unfold UW.int; simp only [if_true]; zify; rw [abs_of_neg hn]; ring
    · show n.natAbs < 2 ^ w; zify; rw [abs_of_neg hn]; linarith
    · simp at h; omega
  · have hc : UW.castU w n = n.toNat := by
      unfold UW.castU; rw [Int.emod_eq_of_lt (by omega) (by linarith)]
    have hs : UW.ofSigned w n = { neg := false, value := n.toNat } := by
      unfold UW.ofSigned; simp [hn, hc]
    rw [hs]
    refine ⟨?_, ?_, fun _ => rfl⟩
    · unfold UW.int; simp; omega
    · show n.toNat < 2 ^ w; zify; rw [Int.toNat_of_nonneg (by omega)]; linarith

example : UW.ofSigned 8 (-128) = { neg := true, value := 128 } ∧ UW.ofSigned 64 17 = { neg := false, value := 17 } := by decide

/-- C38, addition: `a += b` denotes the sum whenever the sum's magnitude fits the unsigned type. -/
theorem wrap_add (w : ℕ) (hw : 0 < w) (a b : UW) (ha : a.Ok w) (hb : b.Ok w) (h : |a.int + b.int| < 2 ^ w) :
    (UW.add w a b).int = a.int + b.int ∧ (UW.add w a b).Ok w := by
  obtain ⟨na, va⟩ := a
  obtain ⟨nb, vb⟩ := b
  obtain ⟨ha1, ha2⟩ := ha
  obtain ⟨hb1, hb2⟩ := hb
  simp only at ha1 ha2 hb1 hb2
  have hc : ((2 ^ w : ℕ) : ℤ) = 2 ^ w := by push_cast; rfl
  cases na <;> cases nb <;> simp only [UW.int, Bool.false_eq_true, if_false, if_true] at h
  · have : va + vb < 2 ^ w := by zify; rw [abs_of_nonneg (by positivity)] at h; exact h
    simp [UW.add, UW.int, UW.Ok, Nat.mod_eq_of_lt this, this]
  · by_cases hab : va > vb
    · simp [UW.add, UW.int, UW.Ok, hab, UW.sub_mod hw ha1 hab.le]
      omega
    · have hab' : va ≤ vb := by omega
      simp only [UW.add, UW.int, UW.Ok, hab, UW.sub_mod hw hb1 hab']
      by_cases he : vb - va = 0
      · simp [he]; omega
      · simp [he]; omega
  · by_cases hab : va > vb
    · simp [UW.add, UW.int, UW.Ok, hab, UW.sub_mod hw ha1 hab.le]
      omega
    · have hab' : va ≤ vb := by omega
      simp [UW.add, UW.int, UW.Ok, hab, UW.sub_mod hw hb1 hab']
      omega
  · have : va + vb < 2 ^ w := by
      zify
      have e : (-(va : ℤ) + -(vb : ℤ)) = -(va + vb) := by ring
      rw [e, abs_neg, abs_of_nonneg (by positivity)] at h
      exact h
    simp [UW.add, UW.int, UW.Ok, Nat.mod_eq_of_lt this, this]
    exact ⟨by ring, fun h1 _ => by simpa using ha2 h1⟩

example : UW.add 8 (UW.ofSigned 8 100) (UW.ofSigned 8 (-128)) = { neg := true, value := 28 } ∧
    (UW.ofSigned 8 100).Ok 8 ∧ (UW.ofSigned 8 (-128)).Ok 8 := by
  refine ⟨by decide, ⟨by decide, by decide⟩, ⟨by decide, by decide⟩⟩

/-- C38, subtraction of a different object: `a -= b` denotes the difference whenever its magnitude fits. -/
theorem wrap_sub (w : ℕ) (hw : 0 < w) (a b : UW) (ha : a.Ok w) (hb : b.Ok w) (h : |a.int - b.int| < 2 ^ w) :
    (UW.sub w a b).int = a.int - b.int ∧ (UW.sub w a b).Ok w := by
  obtain ⟨na, va⟩ := a
  by_cases h0 : va = 0
  · subst h0
    have hn : na = false := ha.2 rfl
    subst hn
    obtain ⟨nb, vb⟩ := b
    by_cases hb0 : vb = 0
    · subst hb0
      have : nb = false := hb.2 rfl
      subst this
      simp [UW.sub, UW.int, UW.Ok]
    · refine ⟨?_, ?_⟩
      · cases nb <;> simp [UW.sub, UW.int, hb0]
      · simpa [UW.sub, UW.Ok, hb0] using hb.1
  · have ha' : (UW.mk (!na) va).Ok w := ⟨ha.1, fun h => absurd h h0⟩
    have hi : (UW.mk (!na) va).int = -(UW.mk na va).int := by cases na <;> simp [UW.int]
    obtain ⟨q1, q2⟩ := wrap_add w hw _ b ha' hb (by rw [hi, ← abs_neg]; convert h using 2; ring)
    rw [hi] at q1
    simp only [UW.sub, h0, if_false]
    generalize UW.add w (UW.mk (!na) va) b = r at q1 q2 ⊢
    obtain ⟨rn, rv⟩ := r
    by_cases hr : rv = 0
    · subst hr
      have : rn = false := q2.2 rfl
      subst this
      refine ⟨?_, by simp [UW.Ok]⟩
      simp only [UW.int] at q1 ⊢
      simp at q1 ⊢
      linarith
    · refine ⟨?_, q2.1, fun h => absurd h hr⟩
      have : (UW.mk (if rv ≠ 0 then !rn else false) rv).int = -(UW.mk rn rv).int := by
        cases rn <;> simp [UW.int, hr]
      rw [this, q1]; ring

example : UW.sub 8 (UW.ofSigned 8 (-100)) (UW.ofSigned 8 27) = { neg := true, value := 127 } := by decide

/-- C38, reading back: `get_value_signed` returns the denoted integer whenever it lies strictly inside the signed range. -/
theorem wrap_get (w : ℕ) (hw : 0 < w) (a : UW) (h1 : -(2 ^ (w - 1)) < a.int) (h2 : a.int < 2 ^ (w - 1)) :
    UW.getSigned w a = some a.int := by
  obtain ⟨n, v⟩ := a
  have hpos : (0 : ℤ) < 2 ^ (w - 1) := by positivity
  have hv : v < 2 ^ (w - 1) := by
    zify
    cases n <;> simp [UW.int] at h1 h2
    · exact h2
    · linarith
  have hs : UW.toS w v = v := by unfold UW.toS; rw [if_pos hv]
  cases n
  · simp [UW.getSigned, UW.int, hs]
  · simp [UW.getSigned, UW.int, hs]
    intro h
    have : (0 : ℤ) ≤ v := by positivity
    linarith

example : UW.getSigned 8 (UW.sub 8 (UW.ofSigned 8 (-100)) (UW.ofSigned 8 27)) = some (-127) := by decide

/-- C38, the way the library uses it (exponent sums and differences): the round trip through the wrapper is exact for
    every pair of signed values whose sum, respectively difference, lies strictly inside the signed range. -/
theorem wrap_round_trip (w : ℕ) (hw : 0 < w) (m n : ℤ) (hm1 : -(2 ^ (w - 1)) ≤ m) (hm2 : m < 2 ^ (w - 1))
    (hn1 : -(2 ^ (w - 1)) ≤ n) (hn2 : n < 2 ^ (w - 1)) :
    (|m + n| < 2 ^ (w - 1) → UW.getSigned w (UW.add w (UW.ofSigned w m) (UW.ofSigned w n)) = some (m + n)) ∧
    (|m - n| < 2 ^ (w - 1) → UW.getSigned w (UW.sub w (UW.ofSigned w m) (UW.ofSigned w n)) = some (m - n)) := by
  obtain ⟨e1, o1⟩ := wrap_of_signed w hw m hm1 hm2
  obtain ⟨e2, o2⟩ := wrap_of_signed w hw n hn1 hn2
  have hp : (2 : ℤ) ^ (w - 1) ≤ 2 ^ w := pow_le_pow_right₀ (by norm_num) (by omega)
  refine ⟨fun h => ?_, fun h => ?_⟩
  · obtain ⟨q, -⟩ := wrap_add w hw _ _ o1 o2 (by rw [e1, e2]; linarith)
    rw [e1, e2] at q
    rw [← q]
    rw [← q] at h
    exact wrap_get w hw _ (abs_lt.mp h).1 (abs_lt.mp h).2
  · obtain ⟨q, -⟩ := wrap_sub w hw _ _ o1 o2 (by rw [e1, e2]; linarith)
    rw [e1, e2] at q
    rw [← q]
    rw [← q] at h
    exact wrap_get w hw _ (abs_lt.mp h).1 (abs_lt.mp h).2

example : UW.getSigned 16 (UW.add 16 (UW.ofSigned 16 (-30000)) (UW.ofSigned 16 12345)) = some (-17655) := by decide

/-- C38, limits: the least value of a 32-bit or wider type can be wrapped but reading it back negates it (undefined), and
    `a -= a` on one object doubles it instead of giving zero. -/
theorem wrap_limits :
    UW.getSigned 32 (UW.ofSigned 32 (-(2 ^ 31))) = none ∧
    (UW.subSelf 32 (UW.ofSigned 32 5)).int = 10 ∧ (UW.sub 32 (UW.ofSigned 32 5) (UW.ofSigned 32 5)).int = 0 := by decide

end WD
