import Verif.Model.Alias
import Verif.Model.Parse
import Verif.Model.Pow
import Verif.Spec.Text
/-
  Straight-line client programs over a store of `decwide_t` objects. The operands of compound assignments may be the same
  object. In a division the floating-point start value `est` is a parameter; the temporary in which `operator/=` computes
  the reciprocal lives at an address different from both operands.
-/
namespace WD
namespace DW

/-- One client statement (the public operations decwide_t.h:645-906, 911-1390, 1702-1760, 2181-2302). Addresses are naturals. -/
inductive Stmt
  /-- `x = decwide_t()` -/
  | clear (a : Nat)
  /-- `x = n`, n unsigned 64-bit (decwide_t.h:652-694) -/
  | setU (a : Nat) (n : Nat)
  /-- `x = n`, n signed 64-bit (decwide_t.h:696-714) -/
  | setS (a : Nat) (n : Int)
  /-- `x = y` -/
  | copy (a b : Nat)
  /-- `x += y`, `x -= y`, `x *= y`, `x /= y` -/
  | add (a b : Nat) | sub (a b : Nat) | mul (a b : Nat) | div (a b : Nat)
  /-- `x = -x`, `x = fabs(x)`, `++x`, `--x` -/
  | neg (a : Nat) | fabs (a : Nat) | incr (a : Nat) | decr (a : Nat)
  /-- `x += n`, `x *= n`, `x /= n` with built-in integers -/
  | addI (a : Nat) (n : Int) | mulU (a : Nat) (n : Nat) | mulI (a : Nat) (n : Int) | divU (a : Nat) (n : Nat)
  | subI (a : Nat) (n : Int) | divI (a : Nat) (n : Int)
  /-- `x = decwide_t("text")` (decwide_t.h:730-738) -/
  | parse (a : Nat) (s : List Char)
  /-- `x.calculate_inv()`, `x = pow(y, p)` -/
  | inv (a : Nat) | pow (a b : Nat) (p : Int)
  /-- `x = floor(x)`, `x = ceil(x)`, `x = x.extract_integer_part()` -/
  | floor (a : Nat) | ceil (a : Nat) | intPart (a : Nat)
  /-- `swap(x, y)` -/
  | swap (a b : Nat)

/-- The integers of a statement are representable in their built-in types, no integer is negated that has no negative
    (`x -= n` and `pow(x, n)` compute `-n` in the built-in type), and a text parsed is a decimal number whose exponent fits
    64 bits. -/
def Stmt.ok : Stmt → Prop
  | .setU _ n => n < 2 ^ 64
  | .setS _ n => -(2 ^ 63) ≤ n ∧ n < 2 ^ 63
  | .addI _ n => -(2 ^ 63) ≤ n ∧ n < 2 ^ 63
  | .mulU _ n => n < 2 ^ 64
  | .mulI _ n => -(2 ^ 63) ≤ n ∧ n < 2 ^ 63
  | .divU _ n => n < 2 ^ 64
  | .divI _ n => -(2 ^ 63) ≤ n ∧ n < 2 ^ 63
  | .subI _ n => -(2 ^ 63) < n ∧ n < 2 ^ 63
  | .pow _ _ n => -(2 ^ 63) < n ∧ n < 2 ^ 63
  | .parse _ s => ∃ t : DecText, t.Valid ∧ t.chars = s ∧ -(2 ^ 63) ≤ t.exponent ∧ t.exponent < 2 ^ 63
  | _ => True

variable (c : Cfg) (est : DW → DW) (fdig : Nat)

/-- Effect of one statement (the code cited at the functions modelled in `Verif/Model/DW.lean` and `Verif/Model/Alias.lean`). -/
def exec (st : Store) : Stmt → Store
  | .clear a => upd st a (dflt c)
  | .setU a n => upd st a (ofUnsigned c 64 n)
  | .setS a n => upd st a (ofSigned c n)
  | .copy a b => assignAt st a b
  | .add a b => addAt c st a b
  | .sub a b => subAt c st a b
  | .mul a b => mulAt c st a b
  | .div a b => divAt c est fdig st a b (a + b + 1)
  | .neg a => negAt st a
  | .fabs a => upd st a (DW.fabs (st a))
  | .incr a => upd st a (DW.incr c (st a))
  | .decr a => upd st a (DW.decr c (st a))
  | .addI a n => upd st a (addSLL c (st a) n)
  | .mulU a n => upd st a (mulULL c (st a) n)
  | .mulI a n => upd st a (mulSLL c (st a) n)
  | .divU a n => upd st a (divULL c est fdig (st a) n)
  | .divI a n => upd st a (divSLL c est fdig (st a) n)
  -- the result of `subSLL` and `pow` is undefined only for the excluded argument; the store is then left unchanged
  | .subI a n => upd st a ((subSLL c (st a) n).getD (st a))
  | .parse a s => upd st a (ofString c s)
  | .inv a => upd st a (calcInv c est fdig (st a))
  | .pow a b p => upd st a ((DW.pow c est fdig (st b) p).getD (st a))
  | .floor a => upd st a (DW.floor c (st a))
  | .ceil a => upd st a (DW.ceil c (st a))
  | .intPart a => upd st a (integerPart c (st a))
  | .swap a b => swapAt st a b

/-- Run a program: the statements one after the other (operations decwide_t.h:645-2302). -/
def run (st : Store) (prog : List Stmt) : Store := prog.foldl (exec c est fdig) st

end DW
end WD
