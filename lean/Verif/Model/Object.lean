import Verif.Model.DW
import Verif.Model.Util
/-
  Lifetime of `decwide_t` objects: construction, copy, move, assignment, swap, destruction, and arithmetic in place.

  With an allocator the limbs are in a `fixed_dynamic_array` (decwide_t_detail.h:515-567), whose storage is that of
  `util::dynamic_array` (heap model `Util.DS`); without one (`AllocatorType = void`) in a `fixed_static_array`
  (decwide_t_detail.h:569-632) inside the object.
-/
namespace WD
open Util

/-- A client operation on named objects (the members decwide_t.h:645-906, 1729-1749). `make x v`: some constructor or function result with value `v` creates `x`; `apply x y f`: a
    compound operator changes the limbs of `x` in place, reading `x` and `y`. `swapTemp x v`: `x.swap(decwide_t(v))` with a temporary,
    which ends with the expression. -/
inductive OOp
  | make (x : Nat) (v : DW)
  | copyConstruct (x y : Nat)
  | moveConstruct (x y : Nat)
  | copyAssign (x y : Nat)
  | moveAssign (x y : Nat)
  | swap (x y : Nat)
  | swapTemp (x : Nat) (v : DW)
  | apply (x y : Nat) (f : DW → DW → DW)
  | destroy (x : Nat)

/-- Objects with dynamic storage (decwide_t.h:2634-2638, decwide_t_detail.h:515-567): the arrays of the objects and their other members (`head`: the limbs in it are not used). -/
structure OS where
  ds : DS Nat
  head : Nat → DW

namespace OS
variable (N : Nat)

/-- The value of an object as the operations read it (members decwide_t.h:2634-2638): N limbs and the other members. `none` if the object has no N limbs
    (reading them is undefined). -/
def value (s : OS) (x : Nat) : Option DW :=
  match s.ds.elems x with
  | some l => if l.length = N then some { s.head x with data := l } else none
  | none => none

/-- `std::copy` of the common prefix into the array of `x` (util_dynamic_array.h:134-144). -/
def assignList (d : DS Nat) (x : Nat) (l : List Nat) : Option (DS Nat) :=
  match d.objs x, d.elems x with
  | some o, some lx => some (d.write o (l.take (min lx.length l.length) ++ lx.drop (min lx.length l.length)))
  | _, _ => none

/-- One operation (decwide_t.h:645-906, 1729-1749, cited at each case); `none` is undefined behaviour. -/
def step (s : OS) : OOp → Option OS
  | .make x v => -- the array of N limbs is allocated and filled (decwide_t_detail.h:526-535, decwide_t.h:645-740)
    if (s.ds.objs x).isSome ∨ v.data.length ≠ N then none
    else some { ds := s.ds.newObj x v.data, head := DS.upd s.head x v }
  | .copyConstruct x y => -- decwide_t.h:741-746
    (s.ds.step (.copyConstruct x y)).map fun d => { ds := d, head := DS.upd s.head x (s.head y) }
  | .moveConstruct x y => -- decwide_t.h:748-753; the source keeps sign, exponent and precision
    (s.ds.step (.moveConstruct x y)).map fun d => { ds := d, head := DS.upd s.head x (s.head y) }
  | .copyAssign x y => -- decwide_t.h:881-894
    (s.ds.step (.copyAssign x y)).map fun d => { ds := d, head := DS.upd s.head x (s.head y) }
  | .moveAssign x y => -- decwide_t.h:896-906; the arrays are exchanged, the other members copied
    (s.ds.step (.moveAssign x y)).map fun d => { ds := d, head := DS.upd s.head x (s.head y) }
  | .swap x y => -- decwide_t.h:1729-1739; the block of the temporary is allocated and freed inside and left out here
    match s.ds.elems x, s.ds.elems y with
    | some lx, some ly =>
      if x = y then some s
      else (assignList s.ds x ly).bind fun d => (assignList d y lx).map fun d =>
        { ds := d, head := DS.upd (DS.upd s.head x (s.head y)) y (s.head x) }
    | _, _ => none
  | .swapTemp x v => -- decwide_t.h:1741-1749 with util_dynamic_array.h:206-210: both own the block; the temporary frees it
    if v.data.length ≠ N then none
    else match s.ds.objs x with
      | none => none
      | some _ =>
        let t := s.ds.next
        let d := { s.ds with heap := DS.upd s.ds.heap t none, next := t + 1, objs := DS.upd s.ds.objs x (some { count := N, ptr := some t }) }
        some { ds := d, head := DS.upd s.head x v }
  | .apply x y f => -- in place: limbs are read and written through the array of `x` (e.g. decwide_t.h:913-1214)
    match s.ds.objs x, value N s x, value N s y with
    | some o, some vx, some vy =>
      let r := f vx vy
      if r.data.length = N then some { ds := s.ds.write o r.data, head := DS.upd s.head x r } else none
    | _, _, _ => none
  | .destroy x => -- decwide_t.h:879
    (s.ds.step (.destroy x)).map fun d => { s with ds := d }

/-- A program run: a sequence of calls of the members decwide_t.h:645-906, 1729-1749. -/
def run : OS → List OOp → Option OS
  | s, [] => some s
  | s, op :: ops => (step N s op).bind fun s' => run s' ops

/-- No objects: before the first constructor call (decwide_t.h:645). -/
def init : OS := { ds := DS.init, head := fun _ => { data := [], exp := 0, neg := false, prec := 0 } }

end OS

/-- Objects with static storage: moving copies the limbs (`std::array`, decwide_t_detail.h:571-632). `swap` with a temporary does not
    compile: `std::array::swap` takes an lvalue. -/
def stepStatic (N : Nat) (s : Nat → Option DW) : OOp → Option (Nat → Option DW)
  | .make x v => if (s x).isSome ∨ v.data.length ≠ N then none else some (DS.upd s x (some v))
  | .copyConstruct x y => if (s x).isSome then none else (s y).map fun v => DS.upd s x (some v)
  | .moveConstruct x y => if (s x).isSome then none else (s y).map fun v => DS.upd s x (some v)
  | .copyAssign x y => (s x).bind fun _ => (s y).map fun v => DS.upd s x (some v)
  | .moveAssign x y => (s x).bind fun _ => (s y).map fun v => DS.upd s x (some v)
  | .swap x y => (s x).bind fun vx => (s y).map fun vy => DS.upd (DS.upd s x (some vy)) y (some vx)
  | .swapTemp _ _ => none
  | .apply x y f => (s x).bind fun vx => (s y).bind fun vy => if (f vx vy).data.length = N then some (DS.upd s x (some (f vx vy))) else none
  | .destroy x => (s x).map fun _ => DS.upd s x none

/-- A program run with static storage (decwide_t_detail.h:569-632). -/
def runStatic (N : Nat) : (Nat → Option DW) → List OOp → Option (Nat → Option DW)
  | s, [] => some s
  | s, op :: ops => (stepStatic N s op).bind fun s' => runStatic N s' ops

end WD
