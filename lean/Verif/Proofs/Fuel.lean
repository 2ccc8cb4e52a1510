import Verif.Model.Elem
import Verif.Model.Rootn
/-
  Structurally recursive versions of the loops of `pow` and `calculate_inv`, for evaluation in the kernel.
-/
namespace WD
open DW

def powLoopF (c : Cfg) : (fuel p : ℕ) → (result y : DW) → DW
  | 0, _, result, _ => result
  | fuel + 1, p, result, y =>
    let result := if p % 2 ≠ 0 then mulAssign c result y else result
    if p / 2 = 0 then result else powLoopF c fuel (p / 2) result (mulAssign c y y)

theorem powLoop_eq_fuel (c : Cfg) : ∀ (fuel p : ℕ) (r y : DW), p < 2 ^ fuel → p ≠ 0 → powLoop c p r y = powLoopF c fuel p r y := by
  intro fuel
  induction fuel with
  | zero => intro p r y h h0; simp at h; omega
  | succ n ih =>
    intro p r y h h0
    rw [powLoop, powLoopF]
    by_cases hp : p / 2 = 0
    · rw [dif_pos hp]; simp only [if_pos hp]
    · rw [dif_neg hp]; simp only [if_neg hp]
      exact ih _ _ _ (by rw [pow_succ] at h; omega) hp

def invLoopF (c : Cfg) (limit : ℕ) : (fuel digits : ℕ) → (y x : DW) → DW
  | 0, _, y, _ => y
  | fuel + 1, digits, y, x =>
    if digits < limit ∧ 0 < digits then
      let s := invStep c digits y x
      invLoopF c limit fuel (digits * 2) s.1 s.2
    else y

theorem invLoop_eq_fuel (c : Cfg) (limit : ℕ) : ∀ (fuel digits : ℕ) (y x : DW), limit ≤ digits * 2 ^ fuel →
    invLoop c limit digits y x = invLoopF c limit fuel digits y x := by
  intro fuel
  induction fuel with
  | zero =>
    intro d y x h
    rw [invLoop, invLoopF, dif_neg (by rw [pow_zero, mul_one] at h; omega)]
  | succ n ih =>
    intro d y x h
    rw [invLoop, invLoopF]
    by_cases hd : d < limit ∧ 0 < d
    · rw [dif_pos hd, if_pos hd]
      exact ih _ _ _ (by rw [pow_succ] at h; linarith)
    · rw [dif_neg hd, if_neg hd]

def rootnLoopF (c : Cfg) (est : DW → DW) (fdig p limit : ℕ) : (fuel digits : ℕ) → (r x : DW) → DW
  | 0, _, r, _ => r
  | fuel + 1, digits, r, x =>
    if digits < limit ∧ 0 < digits then
      let s := rootnStep c est fdig p digits r x
      rootnLoopF c est fdig p limit fuel (digits * 2) s.1 s.2
    else r

theorem rootnLoop_eq_fuel (c : Cfg) (est : DW → DW) (fdig p limit : ℕ) : ∀ (fuel digits : ℕ) (r x : DW), limit ≤ digits * 2 ^ fuel →
    rootnLoop c est fdig p limit digits r x = rootnLoopF c est fdig p limit fuel digits r x := by
  intro fuel
  induction fuel with
  | zero =>
    intro d y x h
    rw [rootnLoop, rootnLoopF, dif_neg (by rw [pow_zero, mul_one] at h; omega)]
  | succ n ih =>
    intro d y x h
    rw [rootnLoop, rootnLoopF]
    by_cases hd : d < limit ∧ 0 < d
    · rw [dif_pos hd, if_pos hd]
      exact ih _ _ _ (by rw [pow_succ] at h; linarith)
    · rw [dif_neg hd, if_neg hd]

end WD
