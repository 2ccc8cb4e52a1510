import Mathlib.Algebra.BigOperators.Group.Finset.Basic
/-
  Specification vocabulary: convolution of sequences.
-/
namespace WD
open Finset in
/-- The j-th coefficient of the product of two sequences: the sum of a_i·b_(j-i). -/
def conv (a b : List ℕ) (j : ℕ) : ℕ := ∑ i ∈ range (j + 1), a.getD i 0 * b.getD (j - i) 0
end WD
