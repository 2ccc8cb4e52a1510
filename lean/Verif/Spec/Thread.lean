import Verif.Model.Thread
/-
  What "the statements executed one after the other" means: the semantics of single statements on whole objects, and which objects a thread touches.
-/
namespace WD
namespace Thr

/-- One statement on a store of objects. -/
def stepAt (c : Cfg) (st : DW.Store) : Op → DW.Store
  | .assign u v => DW.assignAt st u v
  | .add u v => DW.addAt c st u v
  | .sub u v => DW.subAt c st u v
  | .mul u v => DW.mulAt c st u v
  | .negate u => DW.negAt st u
  | .const u x => DW.upd st u x
  | .mulN u n => DW.upd st u (DW.mulULL c (st u) n)
  | .divN u n => DW.upd st u (DW.divULL c id 0 (st u) n)

/-- Numbers in a statement: constants have N limbs and a working precision of 1 to N limbs; multipliers and divisors are below the radix (for these the parameters of the
    division in `DW.divULL` play no role; a larger multiplier is `const` followed by `mul`). -/
def Op.ok (c : Cfg) : Op → Prop
  | .const _ x => x.data.length = c.N ∧ 1 ≤ x.prec ∧ x.prec ≤ c.N
  | .mulN _ n | .divN _ n => n < c.B
  | _ => True

/-- Statements one after the other. -/
def runAt (c : Cfg) (st : DW.Store) (ops : List Op) : DW.Store := ops.foldl (stepAt c) st

/-- The object a statement changes. -/
def Op.target : Op → Nat
  | .assign u _ | .add u _ | .sub u _ | .mul u _ | .negate u | .const u _ | .mulN u _ | .divN u _ => u

/-- The object a statement only reads (possibly the same). -/
def Op.operand : Op → Nat
  | .assign _ v | .add _ v | .sub _ v | .mul _ v => v
  | .negate u | .const u _ | .mulN u _ | .divN u _ => u

/-- A thread: its statements, its temporary array and its product buffer. -/
structure Thread where
  ops : List Op
  t : Nat
  r : Nat

/-- The objects the thread changes. -/
def Thread.writes (T : Thread) : List Nat := T.ops.map Op.target
/-- The objects the thread changes or reads. -/
def Thread.uses (T : Thread) : List Nat := T.ops.map Op.target ++ T.ops.map Op.operand

/-- The limbs of the product buffer allocated for a multiplication of p limbs (decwide_t.h:2795-2803, 2855-2863: 2p; 2908-2916: 8 times the Karatsuba length). -/
def pool (p : Nat) : Nat := if p < 113 then 2 * p else 8 * karaLen p

/-- The limbs of the product buffer at full precision. -/
def scr (c : Cfg) : Nat := pool c.N

/-- The location of the next access and whether it is a write. -/
def next : Prog → Option (Loc × Bool)
  | .done => none
  | .load l _ => some (l, false)
  | .stor l _ _ => some (l, true)

end Thr
end WD
