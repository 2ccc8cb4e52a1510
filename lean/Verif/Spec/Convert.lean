/-
  Specification vocabulary: the built-in integer types of the host (two's complement).
-/
namespace WD

/-- A built-in integer type: its width in bits and whether it is signed. -/
structure IntT where
  bits : Nat
  signed : Bool
deriving DecidableEq, Repr

/-- Smallest value. -/
def IntT.lo (t : IntT) : Int := if t.signed then -(2 ^ (t.bits - 1)) else 0

/-- Largest value. -/
def IntT.hi (t : IntT) : Int := if t.signed then 2 ^ (t.bits - 1) - 1 else 2 ^ t.bits - 1

/-- `n` is a value of the type. -/
def IntT.Has (t : IntT) (n : Int) : Prop := t.lo ≤ n ∧ n ≤ t.hi

/-- The types a program can name: at least one bit and at most 64. -/
def IntT.Ok (t : IntT) : Prop := 1 ≤ t.bits ∧ t.bits ≤ 64

end WD
