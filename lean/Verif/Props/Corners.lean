import Verif.Props.FloatK
import Verif.Props.FftErr
import Verif.Props.Radix
/-
  The reciprocal with `long double` as internal floating-point type (C26): `extract_parts` reads three 32-bit limbs, which may hold
  as few as 17 digits, while the Newton iteration assumes 17 right digits of the start value and the squares of it after each round.
  And the built-in integer whose subtraction is undefined (C44).
-/
namespace WD
open DW

/-- The type `long double` (64 bits), evaluable in the kernel. -/
def exLongK : Flt := ⟨64, 18, 21, roundFast 64, by rw [roundFast_eq]; exact roundBits_rep 64 (by norm_num),
  by rw [roundFast_eq]; exact roundBits_nearest 64 (by norm_num)⟩

theorem exLongK_eq : exLongK = exLongDouble := by
  unfold exLongK exLongDouble
  congr 1
  exact roundFast_eq 64

/-- `decwide_t<520, std::uint32_t, void, std::int64_t, long double>`. -/
def exL520 : Cfg := { L := .u32, digits10 := 520, maxExp := 2 ^ 59 }

/-- 1.1 + 9.9999999·10^-17. -/
def exL520x : DW := fromLst exL520 [1, 10000000, 0, 99999999] 0 false

theorem exL520_inv : (1 : ℚ) / 10 ^ 514 < |(calcInv exL520 (estInv exL520 exLongK) 18 exL520x).val exL520 * exL520x.val exL520 - 1| := by
  decide +kernel

/-- F36: with `long double` and 32-bit limbs the reciprocal has too few right digits: for `decwide_t<520, std::uint32_t, …, long double>`
    and x = 1.1 + 9.9999999·10^-17 the computed 1/x is off by more than 10^-514, relative to 1/x (with `float` and `double` the error
    is below 10^-(520+16) for such x: `inv_accuracy_any`). -/
theorem inv_long_double_inaccurate : let c := exL520
    let x := exL520x
    Full c x ∧ x.val c = 11 / 10 + 99999999 / 10 ^ 24 ∧
    (1 : ℚ) / 10 ^ 514 < |(calcInv c (estInv c exLongDouble) exLongDouble.digits10 x).val c * x.val c - 1| := by
  refine ⟨?_, by decide +kernel, ?_⟩
  · decide +kernel
  · rw [← exLongK_eq]; exact exL520_inv

/-- With 8- and 16-bit limbs `long double` is among the types the accuracy theorems cover: 1/3 with 80 digits, and the 80 digits
    are there. -/
example : let c : Cfg := { L := .u8, digits10 := 80, maxExp := 2 ^ 59 }
    let x : DW := fromLst c [3] 0 false
    FloatOk c exLongDouble ∧ digitLoops c exLongDouble ≤ c.N ∧ Full c x ∧ x.val c = 3 ∧ MulOkAll c ∧
    |(calcInv c (estInv c exLongDouble) exLongDouble.digits10 x).val c * 3 - 1| < 5 / 10 ^ (80 + 2 * c.ed) := by
  intro c x
  have hF : FloatOk c exLongDouble := FloatOk.long ⟨rfl, rfl, rfl⟩ (by decide)
  have hK : digitLoops c exLongDouble ≤ c.N := by decide +kernel
  have hx : Full c x := by decide +kernel
  have hv : x.val c = 3 := by decide +kernel
  have hok : MulOkAll c := by decide +kernel
  refine ⟨hF, hK, hx, hv, hok, ?_⟩
  have := (inv_accuracy_any c exLongDouble hF hK x hx (by rw [hv]; norm_num) hok (by decide +kernel) (by decide +kernel) (by decide +kernel)).2.1
  rw [hv] at this
  exact this

/-- F7: `u - n` with a built-in `n` (sub_signed_long_long) is undefined exactly for the least value, although `u + n`, `u * n` and
    `u / n` are defined for it. -/
theorem sub_int_undefined (c : Cfg) (u : DW) (n : ℤ) : subSLL c u n = none ↔ n = -2 ^ 63 := by
  unfold subSLL
  constructor
  · intro h
    by_contra hc
    rw [if_neg hc] at h
    cases h
  · rintro rfl
    exact if_pos rfl

example : subSLL exL520 exL520x (-(2 ^ 63 - 1)) ≠ none := fun h => absurd ((sub_int_undefined _ _ _).mp h) (by norm_num)

end WD
