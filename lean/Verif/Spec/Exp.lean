import Verif.Spec.Float
import Mathlib.Analysis.SpecialFunctions.Exp
/-
  Specification vocabulary: what is assumed of the library function `std::exp`.
-/
namespace WD

/-- An exponential function of the type: for representable arguments from 0 to 1 the result is representable and its relative
    error is at most four times the unit roundoff 2^(-p). (Good libraries stay below two.) -/
def Flt.IsExp (F : Flt) (ef : ℚ → ℚ) : Prop :=
  ∀ q, RepF F.p q → 0 ≤ q → q ≤ 1 → RepF F.p (ef q) ∧ |(ef q : ℝ) - Real.exp q| ≤ 4 * (2 : ℝ) ^ (-(F.p : ℤ)) * Real.exp q

end WD
