import Verif.Model.DW
/-
  Model of `pow(b, p)` for integral p (decwide_t.h:6250-6296). `y *= y` and `result *= result` multiply an object by itself;
  that this is the same as multiplying by a copy is `compound_self_alias_partial` (C04).
-/
namespace WD
namespace DW
variable (c : Cfg)

/-- The ladder loop (decwide_t.h:6270-6293); `p` is `p_local`, positive on entry. -/
def powLoop (p : Nat) (result y : DW) : DW :=
  let result := if p % 2 ≠ 0 then mulAssign c result y else result
  if h : p / 2 = 0 then result
  else powLoop (p / 2) result (mulAssign c y y)
termination_by p
decreasing_by omega

/-- `pow` for p ≥ 0 (decwide_t.h:6259-6294). -/
def powNat (b : DW) (p : Nat) : DW :=
  if p = 0 then ofUnsigned c 32 1
  else if p = 1 then b
  else if p = 2 then mulAssign c b b
  else if p = 3 then mulAssign c (mulAssign c b b) b
  else if p = 4 then mulAssign c (mulAssign c b b) (mulAssign c b b)
  else powLoop c p (ofUnsigned c 32 1) b

/-- `pow` (decwide_t.h:6250-6296). `-p` is undefined for the least `int64_t` (and the recursion would not end): `none`. -/
def pow (est : DW → DW) (fdig : Nat) (b : DW) (p : Int) : Option DW :=
  if p = -(2 ^ 63) then none
  else if p < 0 then some (calcInv c est fdig (powNat c b (-p).toNat))
  else some (powNat c b p.toNat)

end DW
end WD
