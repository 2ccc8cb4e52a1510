import Mathlib.Algebra.Order.Field.Rat
/-
  The six comparison operators on rational numbers.
-/
namespace WD

/-- One of `<`, `<=`, `==`, `!=`, `>=`, `>`. -/
inductive CmpOp | lt | le | eq | ne | ge | gt
  deriving DecidableEq, Repr

/-- What the operator means. -/
def CmpOp.rel : CmpOp → ℚ → ℚ → Prop
  | .lt, a, b => a < b
  | .le, a, b => a ≤ b
  | .eq, a, b => a = b
  | .ne, a, b => a ≠ b
  | .ge, a, b => a ≥ b
  | .gt, a, b => a > b

/-- The operator with its operands exchanged: `a op b` iff `b op' a`. -/
def CmpOp.mirror : CmpOp → CmpOp
  | .lt => .gt | .le => .ge | .eq => .eq | .ne => .ne | .ge => .le | .gt => .lt

end WD
