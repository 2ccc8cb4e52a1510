/-
  Specification vocabulary: what limb sequences denote.
  This file contains no model of the code; it is what the theorems in `Verif/Props` are read against.
-/

namespace WD

/-- The natural number denoted by a big-endian sequence of limbs in radix `B`
    (index 0 is the most significant limb). -/
def limbsVal (B : Nat) : List Nat → Nat
  | []      => 0
  | x :: xs => x * B ^ xs.length + limbsVal B xs

/-- Every limb is a proper digit of radix `B`. -/
def ValidLimbs (B : Nat) (l : List Nat) : Prop := ∀ x ∈ l, x < B

instance (B : Nat) (l : List Nat) : Decidable (ValidLimbs B l) := by
  unfold ValidLimbs; infer_instance

/-- Two address ranges `[p, p+n)` and `[q, q+m)` do not overlap. -/
def Disjoint2 (p n q m : Nat) : Prop := p + n ≤ q ∨ q + m ≤ p

/-- The mathematical sign of the comparison of two naturals, as a C-style three-way result. -/
def cmp3 (a b : Nat) : Int := if a < b then -1 else if a = b then 0 else 1

end WD

namespace WD

/-- A flat memory of limb cells, addressed by naturals. -/
abbrev Mem := Nat → Nat

/-- The `n` cells starting at `p`, as a list. -/
def rd (m : Mem) (p : Nat) : Nat → List Nat
  | 0 => []
  | n + 1 => m p :: rd m (p + 1) n

/-- Lengths that can be halved repeatedly until at most 32 limbs remain. -/
inductive Halvable : Nat → Prop
  | base {n : Nat} : n ≤ 32 → Halvable n
  | dbl {n : Nat} : Halvable n → Halvable (2 * n)

end WD
