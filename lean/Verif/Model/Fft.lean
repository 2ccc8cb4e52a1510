import Verif.Model.Limb
import Verif.Spec.Float
import Mathlib.Data.Rat.Floor
/-
  Model of `mul_loop_fft` (decwide_t_detail_ops.h:669-772) without the transforms: the splitting into half-limbs and the
  release of the carries. The values after the inverse transform, divided by n_fft/2 (`xaj` in the code), are a parameter.
-/
namespace WD

/-- `elem_mask_half` (decwide_t_detail.h:471). -/
def Limb.half (L : Limb) : ℕ := 10 ^ (L.ed / 2)

/-- The half-limbs stored in `af` and `bf` (decwide_t_detail_ops.h:689-698). -/
def splitHalf (L : Limb) (u : List ℕ) : List ℕ := u.flatMap fun d => [d / L.half, d % L.half]

/-- The loop that releases the carries (decwide_t_detail_ops.h:745-771); `k` limbs are left, the next index is j = 2(k-1).
    `n j` is `static_cast<fft_carry_type>(xaj + 0.5)` for the index j. The carry is a 64-bit unsigned integer. -/
def releaseLoop (L : Limb) (n : ℕ → ℕ) : (k : ℕ) → (carry : ℕ) → List ℕ
  | 0, _ => []
  | k + 1, carry =>
    let xlo := (n (2 * k) + carry) % 2 ^ 64
    let carry := xlo / L.half
    let nlo := (xlo - carry * L.half) % L.W
    let xhi := ((if 2 * k ≠ 0 then n (2 * k - 1) else 0) + carry) % 2 ^ 64
    let carry := xhi / L.half
    let nhi := (xhi - carry * L.half) % L.W
    releaseLoop L n k carry ++ [(nhi * L.half % L.W + nlo) % L.W]

/-- The limbs `mul_loop_fft` stores (decwide_t_detail_ops.h:731-772), from the values `x j` = af[j] / (n_fft/2) after the inverse transform. A negative sum
    `x j + 0.5` cannot be cast to an unsigned integer (undefined); here it counts as 0. -/
def fftRelease (L : Limb) (F : Flt) (x : ℕ → ℚ) (p : ℕ) : List ℕ := releaseLoop L (fun j => ⌊F.rnd (x j + 1 / 2)⌋₊) p 0

end WD
