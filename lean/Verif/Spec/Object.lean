import Verif.Model.Object
/-
  Specification of object lifetime: named variables that hold values.
-/
namespace WD
open Util

/-- What a program may rely on about a live variable: it holds the value `v`; it holds an unspecified value (the source of a move
    assignment); or it was moved from and may only be assigned to or destroyed. -/
inductive Var
  | val (v : DW)
  | any
  | moved

/-- The variables after one operation, `none` if the operation is not allowed: construction needs an unused name, every other operand a
    live one, and reading needs a value. `lax = true` is the usual rule of C++ that a variable that was moved from can be
    assigned to; with `lax = false` this is allowed for move assignment only, and `swap` with a temporary is not allowed. -/
def varStep (lax : Bool) (N : Nat) (a : Nat → Option Var) : OOp → Option (Nat → Option Var)
  | .make x v => match a x with
    | none => if v.data.length = N then some (DS.upd a x (some (.val v))) else none
    | _ => none
  | .copyConstruct x y => match a x, a y with
    | none, some (.val v) => some (DS.upd a x (some (.val v)))
    | _, _ => none
  | .moveConstruct x y => match a x, a y with
    | none, some (.val v) => some (DS.upd (DS.upd a y (some .moved)) x (some (.val v)))
    | _, _ => none
  | .copyAssign x y => match a x, a y with
    | some .moved, some (.val v) => if lax then some (DS.upd a x (some (.val v))) else none
    | some _, some (.val v) => some (DS.upd a x (some (.val v)))
    | _, _ => none
  | .moveAssign x y => match a x, a y with
    | some .moved, some (.val v) => some (DS.upd (DS.upd a y (some .moved)) x (some (.val v)))
    | some _, some (.val v) => some (DS.upd (DS.upd a y (some .any)) x (some (.val v)))
    | _, _ => none
  | .swap x y => match a x, a y with
    | some (.val v), some (.val w) => some (DS.upd (DS.upd a x (some (.val w))) y (some (.val v)))
    | _, _ => none
  | .swapTemp x v => match a x with
    | some _ => if lax ∧ v.data.length = N then some (DS.upd a x (some (.val v))) else none
    | none => none
  | .apply x y f => match a x, a y with
    | some (.val v), some (.val w) => if (f v w).data.length = N then some (DS.upd a x (some (.val (f v w)))) else none
    | _, _ => none
  | .destroy x => (a x).map fun _ => DS.upd a x none

/-- The variables after a program. -/
def varRun (lax : Bool) (N : Nat) : (Nat → Option Var) → List OOp → Option (Nat → Option Var)
  | a, [] => some a
  | a, op :: ops => (varStep lax N a op).bind fun a' => varRun lax N a' ops

end WD
