import Verif.Spec.Round
import Verif.Spec.Convert
/-
  Specification vocabulary: conversion through a 64-bit integer type.
-/
namespace WD

/-- The value before the final narrowing: the truncation saturated to the 64-bit type used on the way. -/
def sat64 (t : IntT) (q : ℚ) : ℤ :=
  if t.signed ∨ q < 0 then max (-(2 ^ 63)) (min (2 ^ 63 - 1) (truncQ q)) else min (2 ^ 64 - 1) (truncQ q)

end WD
