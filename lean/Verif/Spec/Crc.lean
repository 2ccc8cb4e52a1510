import Mathlib.Algebra.Polynomial.Div
import Mathlib.Algebra.Field.ZMod
/-
  What a cyclic redundancy check is: the remainder of a polynomial division over the field with two elements.
-/
namespace WD
open Polynomial

/-- The bits of a byte, the highest first. -/
def byteBits (b : BitVec 8) : List Bool := (List.range 8).map fun i => b.getLsbD (7 - i)

/-- The polynomial with the given coefficients, the highest first. -/
noncomputable def bitsPoly (l : List Bool) : (ZMod 2)[X] := l.foldl (fun p b => p * X + C (if b then 1 else 0)) 0

/-- The message as a polynomial. -/
noncomputable def msgPoly (msg : List (BitVec 8)) : (ZMod 2)[X] := bitsPoly (msg.flatMap byteBits)

/-- A register of w bits as a polynomial: bit i is the coefficient of X^i. -/
noncomputable def regPoly {w : ℕ} (v : BitVec w) : (ZMod 2)[X] := ∑ i ∈ Finset.range w, C (if v.getLsbD i then 1 else 0) * X ^ i

end WD
