/-
  Models of the helpers in util/: `baselexical_cast` (util/utility/util_baselexical_cast.h), `n_slot_array_allocator`
  (util/memory/util_n_slot_array_allocator.h) and `dynamic_array` (util/utility/util_dynamic_array.h).
-/
namespace WD
namespace Util

/-- `baselexical_cast_helper::extract` for bases 10 and 16 (util_baselexical_cast.h:65-84, 97-109); `upper` is the
    template parameter `UpperCase`. Other values are returned as they are (cannot occur for a digit of the base). -/
def extractChar (upper : Bool) (d : Nat) : Char :=
  if d ≤ 9 then Char.ofNat (d + 48)
  else if d ≤ 15 then Char.ofNat ((if upper then 65 else 97) + (d - 10))
  else Char.ofNat d

/-- The digit loop of `baselexical_cast` (util_baselexical_cast.h:133-161). `out` holds the characters written so far,
    `cap` is the size of the caller's buffer; writing past it is the outcome `none`. -/
def blcLoop (base cap : Nat) (upper : Bool) (x : Nat) (out : List Char) : Option (List Char) :=
  if h : x ≠ 0 ∧ 1 < base then
    if out.length < cap then blcLoop base cap upper (x / base) (out ++ [extractChar upper (x % base)])
    else none
  else some out
termination_by x
decreasing_by exact Nat.div_lt_self (by omega) (by omega)

/-- `baselexical_cast` (util_baselexical_cast.h:112-176): the characters between the buffer start and the returned
    pointer. The C++17 variant (util_baselexical_cast.h:30-40) calls `std::to_chars`, which is not modelled. -/
def blc (base cap : Nat) (upper : Bool) (u : Nat) : Option (List Char) :=
  if u = 0 then (if 0 < cap then some [extractChar upper 0] else none)
  else (blcLoop base cap upper u []).map List.reverse

/-! ### n_slot_array_allocator -/

/-- `allocate` (util_n_slot_array_allocator.h:77-113): index of the first slot whose flag is 0, which is then set.
    A returned pointer is represented by its slot index, `none` is the null pointer. -/
def slotAlloc (flags : List Bool) : Option Nat × List Bool :=
  match flags.findIdx? (· == false) with
  | some i => (some i, flags.set i true)
  | none => (none, flags)

/-- `deallocate` (util_n_slot_array_allocator.h:126-145): the flag of the slot starting at the pointer is cleared;
    `none` stands for a pointer that is not the start of a slot (for example null). -/
def slotFree (flags : List Bool) (p : Option Nat) : List Bool :=
  match p with
  | some i => if i < flags.length then flags.set i false else flags
  | none => flags

/-- A client call (util_n_slot_array_allocator.h:77-145). -/
inductive SlotOp
  | alloc
  | free (p : Option Nat)

/-- The allocator (util_n_slot_array_allocator.h:60-161) together with the blocks its clients hold: the state of a history of calls. -/
structure SlotState where
  flags : List Bool
  live : List Nat

/-- One call (util_n_slot_array_allocator.h:77-145), with the ghost set of blocks handed out and not yet returned. -/
def slotStep (s : SlotState) : SlotOp → SlotState
  | .alloc =>
    match slotAlloc s.flags with
    | (some i, f) => { flags := f, live := i :: s.live }
    | (none, f) => { s with flags := f }
  | .free p =>
    { flags := slotFree s.flags p, live := match p with | some i => s.live.erase i | none => s.live }

/-- Initially all flags are 0 (static storage, util_n_slot_array_allocator.h:147-161). -/
def slotInit (n : Nat) : SlotState := { flags := List.replicate n false, live := [] }

/-- A history of calls (util_n_slot_array_allocator.h:77-145). -/
def slotRun (n : Nat) (ops : List SlotOp) : SlotState := ops.foldl slotStep (slotInit n)

/-! ### dynamic_array -/

/-- Data members of `dynamic_array` (util_dynamic_array.h:213-214); the pointer is a block number, `none` is null. -/
structure DA where
  count : Nat
  ptr : Option Nat
  deriving DecidableEq, Repr

/-- The state of a program with `dynamic_array` objects (util_dynamic_array.h:213-214): a heap of allocated blocks and the named live objects of a program. The allocator is `std::allocator`: every
    allocation succeeds with a fresh block. -/
structure DS (V : Type) where
  heap : Nat → Option (List V)
  next : Nat
  objs : Nat → Option DA

/-- The operations of a client program on named objects (util_dynamic_array.h:49-210). -/
inductive DOp (V : Type)
  | construct (x : Nat) (count : Nat) (v : V)
  | constructRange (x : Nat) (l : List V)
  | copyConstruct (x y : Nat)
  | moveConstruct (x y : Nat)
  | destroy (x : Nat)
  | copyAssign (x y : Nat)
  | moveAssign (x y : Nat)
  | swap (x y : Nat)
  | fill (x : Nat) (v : V)
  | put (x i : Nat) (v : V)

namespace DS
variable {V : Type}

/-- Function update: a store through `elems` or a change of a member (util_dynamic_array.h:49-210). -/
def upd {α : Type} (f : Nat → α) (k : Nat) (a : α) : Nat → α := fun i => if i = k then a else f i

/-- The elements of a live object, `[begin(), end())` (util_dynamic_array.h:156-180); `none` when the object is dead or its storage is not allocated or too short. -/
def elems (s : DS V) (x : Nat) : Option (List V) :=
  match s.objs x with
  | none => none
  | some o =>
    match o.ptr with
    | none => if o.count = 0 then some [] else none
    | some b =>
      match s.heap b with
      | none => none
      | some l => if o.count ≤ l.length then some (l.take o.count) else none

/-- Allocation of a non-empty block and construction of its elements (util_dynamic_array.h:49-69, 71-82, 84-97,
    100-112): nothing is allocated for zero elements and the pointer stays null. -/
def newObj (s : DS V) (x : Nat) (l : List V) : DS V :=
  if 0 < l.length then
    { heap := upd s.heap s.next (some l), next := s.next + 1, objs := upd s.objs x (some { count := l.length, ptr := some s.next }) }
  else { s with objs := upd s.objs x (some { count := 0, ptr := none }) }

/-- Overwrite the contents of an object's block (util_dynamic_array.h:134-144, 179-195). -/
def write (s : DS V) (o : DA) (l : List V) : DS V :=
  match o.ptr with
  | none => s
  | some b => { s with heap := upd s.heap b (some l) }

/-- `deallocate` (util_dynamic_array.h:123-131); freeing a block that is not allocated is an error. -/
def release (s : DS V) (o : DA) : Option (DS V) :=
  match o.ptr with
  | none => some s
  | some b => if (s.heap b).isSome then some { s with heap := upd s.heap b none } else none

/-- One operation (util_dynamic_array.h:49-204, cited at each case); `none` is undefined behaviour: use of a dead object, of freed storage, of an index out of range, or
    a double free. Constructing requires a dead name. -/
def step (s : DS V) : DOp V → Option (DS V)
  | .construct x n v => -- util_dynamic_array.h:49-69
    if (s.objs x).isSome then none else some (newObj s x (List.replicate n v))
  | .constructRange x l => -- util_dynamic_array.h:84-112
    if (s.objs x).isSome then none else some (newObj s x l)
  | .copyConstruct x y => -- util_dynamic_array.h:71-82
    if (s.objs x).isSome then none
    else match elems s y with
      | none => none
      | some l => some (newObj s x l)
  | .moveConstruct x y => -- util_dynamic_array.h:115-120
    if (s.objs x).isSome then none
    else match s.objs y with
      | none => none
      | some o => some { s with objs := upd (upd s.objs y (some { count := 0, ptr := none })) x (some o) }
  | .destroy x => -- util_dynamic_array.h:123-131
    match s.objs x with
    | none => none
    | some o => (release s o).map fun s' => { s' with objs := upd s'.objs x none }
  | .copyAssign x y => -- util_dynamic_array.h:134-144
    match s.objs x, elems s x, elems s y with
    | some o, some lx, some ly =>
      if x = y then some s else some (write s o (ly.take (min lx.length ly.length) ++ lx.drop (min lx.length ly.length)))
    | _, _, _ => none
  | .moveAssign x y => -- util_dynamic_array.h:147-153
    match s.objs x, s.objs y with
    | some ox, some oy => some { s with objs := upd (upd s.objs x (some oy)) y (some ox) }
    | _, _ => none
  | .swap x y => -- util_dynamic_array.h:197-204
    match s.objs x, s.objs y with
    | some ox, some oy => if x = y then some s else some { s with objs := upd (upd s.objs x (some oy)) y (some ox) }
    | _, _ => none
  | .fill x v => -- util_dynamic_array.h:192-195
    match s.objs x, elems s x with
    | some o, some l => some (write s o (List.replicate l.length v))
    | _, _ => none
  | .put x i v => -- util_dynamic_array.h:179-180
    match s.objs x, elems s x with
    | some o, some l => if i < l.length then some (write s o (l.set i v)) else none
    | _, _ => none

/-- A program run, a sequence of calls of util_dynamic_array.h:49-204; `none` if any operation is undefined. -/
def run : DS V → List (DOp V) → Option (DS V)
  | s, [] => some s
  | s, op :: ops => (step s op).bind fun s' => run s' ops

/-- The initial state, before the first constructor (util_dynamic_array.h:49). -/
def init : DS V := { heap := fun _ => none, next := 0, objs := fun _ => none }

/-- `swap(dynamic_array&&)` (util_dynamic_array.h:206-210): the members are copied, the source keeps its own. -/
def swapRvalue (s : DS V) (x y : Nat) : Option (DS V) :=
  match s.objs x, s.objs y with
  | some _, some oy => some { s with objs := upd s.objs x (some oy) }
  | _, _ => none

end DS

/-- `operator==` (util_dynamic_array.h:218-234) on the element sequences. -/
def daEq [DecidableEq V] (a b : List V) : Bool := a.length == b.length && (a.length == 0 || a == b)

/-- `std::lexicographical_compare` (util_dynamic_array.h:264-268). -/
def lexCompare (lt : V → V → Bool) : List V → List V → Bool
  | [], [] => false
  | [], _ :: _ => true
  | _ :: _, [] => false
  | a :: as, b :: bs => if lt a b then true else if lt b a then false else lexCompare lt as bs

/-- `operator<` (util_dynamic_array.h:237-272): the common prefix only is compared, unless the left side is empty. -/
def daLt (lt : V → V → Bool) (a b : List V) : Bool :=
  if a.length = 0 then b.length != 0
  else lexCompare lt (a.take (min a.length b.length)) (b.take (min a.length b.length))

/-- `operator>` (util_dynamic_array.h:282-287). -/
def daGt (lt : V → V → Bool) (a b : List V) : Bool := daLt lt b a
/-- `operator>=` (util_dynamic_array.h:289-294). -/
def daGe (lt : V → V → Bool) (a b : List V) : Bool := !daLt lt a b
/-- `operator<=` (util_dynamic_array.h:296-301). -/
def daLe (lt : V → V → Bool) (a b : List V) : Bool := !daLt lt b a

end Util
end WD
