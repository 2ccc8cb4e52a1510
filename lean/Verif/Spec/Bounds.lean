import Verif.Model.Thread
/-
  What "stays inside its memory" means.
-/
namespace WD

/-- A function on arrays (seen as functions of the index) works inside the first n cells: it leaves all other cells as they are, and what it stores in the first n
    cells does not depend on the others. -/
def Confined {K : Type} (n : Nat) (f : (Nat → K) → Nat → K) : Prop :=
  (∀ d i, n ≤ i → f d i = d i) ∧ ∀ d d', (∀ i, i < n → d i = d' i) → ∀ i, i < n → f d i = f d' i

namespace Thr

/-- The members of the object o, whose array has n limbs. -/
def within (o n : Nat) : Loc → Bool
  | .limb a i => a == o && decide (i < n)
  | .exp a | .neg a | .prec a => a == o

/-- The array the program leaves in the object o (n limbs). -/
def limbsAt (m : Mem) (o n : Nat) : List Nat := (List.range n).map fun i => (m (.limb o i)).toNat

end Thr
end WD
