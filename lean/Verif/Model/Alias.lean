import Verif.Model.DW
/-
  Compound assignment with object identity: a store of objects, the operand `v` is an address and may be the address of
  the object operated on. Every read of `v` takes place in the store as it is at that point of the code, so that a write
  to `*this` is seen through `v` when both are the same object.
-/
namespace WD
namespace DW

/-- Objects by address (the data members of each, decwide_t.h:2634-2638). -/
abbrev Store := Nat → DW

/-- Overwrite the object at `a`: every assignment to members of `*this` (e.g. decwide_t.h:881-893, 1051-1077). -/
def upd (st : Store) (a : Nat) (x : DW) : Store := fun i => if i = a then x else st i

variable (c : Cfg)

/-- `negate()` on the object at `a` (decwide_t.h:2094-2102). -/
def negAt (st : Store) (a : Nat) : Store := upd st a (st a).negate

/-- Copy assignment of the object at `b` to the object at `a` (decwide_t.h:881-893). -/
def assignAt (st : Store) (a b : Nat) : Store := upd st a (st b)

/-- The carry branch of `operator+=` (decwide_t.h:1051-1077). -/
def carryAt (st : Store) (a p carry : Nat) : Store :=
  if carry ≠ 0 then
    let s1 := upd st a { st a with data := carryIn c.N p (st a).data carry }
    upd s1 a { s1 a with exp := (s1 a).exp + c.ed }
  else st

/-- `operator+=` (decwide_t.h:913-1214) on addresses. -/
def addAt (st : Store) (a b : Nat) : Store :=
  if (st a).isZero then assignAt st a b
  else
    let p := min (st a).prec (st b).prec
    let maxDelta : Int := p * c.ed
    let ofsExp := (st a).exp - (st b).exp
    if (st b).isZero ∨ (0 ≤ ofsExp ∧ ofsExp ≥ maxDelta) then st
    else if ofsExp < 0 ∧ -ofsExp ≥ maxDelta then assignAt st a b
    else
      let q : Int := ((ofsExp.natAbs / c.ed : Nat) : Int)
      let ofs : Int := if 0 ≤ ofsExp then q else -q
      if (st a).neg = (st b).neg then
        if 0 ≤ ofs then
          -- 983-997: v is copied to the temporary, the sum is written to *this
          let n := shr c.N ofs.toNat (st b).data
          let s := addN c.L ((st a).data.take p) (n.take p)
          carryAt c (upd st a { st a with data := s.1 ++ (st a).data.drop p }) a p s.2
        else
          -- 1001-1048: *this is copied to the temporary, v added to it, the sum copied to *this, then the exponent
          let n := shr c.N (-ofs).toNat (st a).data
          let s := addN c.L (n.take p) ((st b).data.take p)
          let s1 := upd st a { st a with data := s.1 ++ (st a).data.drop p }
          let s2 := upd s1 a { s1 a with exp := (s1 b).exp }
          carryAt c s2 a p s.2
      else
        let s3 :=
          if 0 < ofs ∨ (ofs = 0 ∧ compareRanges ((st a).data.take p) ((st b).data.take p) > 0) then
            -- 1093-1110
            let n := shr c.N ofs.toNat (st b).data
            upd st a { st a with data := (subN c.L ((st a).data.take p) (n.take p)).1 ++ (st a).data.drop p }
          else
            -- 1114-1151: shift *this, copy v to the temporary, subtract, copy back, take exponent and sign of v
            let s1 := if ofs ≠ 0 then upd st a { st a with data := shr c.N (-ofs).toNat (st a).data } else st
            let n := (s1 b).data.take p
            let d := (subN c.L n ((s1 a).data.take p)).1
            let s2 := upd s1 a { s1 a with data := d ++ (s1 a).data.drop p }
            let s2 := upd s2 a { s2 a with exp := (s2 b).exp }
            upd s2 a { s2 a with neg := (s2 b).neg }
        upd s3 a (justify c p (s3 a))

/-- `operator-=` (decwide_t.h:1216-1220) on addresses: the first `negate()` is seen through `v` when `a = b`. -/
def subAt (st : Store) (a b : Nat) : Store := negAt (addAt c (negAt st a) a b) a

/-- `operator*=` (decwide_t.h:1222-1308) on addresses. -/
def mulAt (st : Store) (a b : Nat) : Store :=
  let s1 := if (st a).isZero ∨ (st b).isZero then upd st a (zero c) else st
  let rneg := (s1 a).neg != (s1 b).neg
  let s2 := upd s1 a { s1 a with neg := false }
  let s3 :=
    if isOneSN c (s2 a) then assignAt s2 a b
    else if isOneSN c (s2 b) then s2
    else
      let e := (s2 a).exp + (s2 b).exp
      if 0 ≤ e ∧ e ≥ c.maxExp then upd s2 a (maxVal c)
      else if e < 0 ∧ -e ≥ c.maxExp then upd s2 a (minVal c)
      else
        let s := upd s2 a { s2 a with exp := e }
        upd s a (mulDispatch c (min (s a).prec (s b).prec) (s a) (s b))
  upd s3 a { s3 a with neg := rneg }

/-- `operator/=` (decwide_t.h:1310-1339) on addresses. The reciprocal is taken of a temporary copy of `v`, placed at an
    address `t` different from `a`. -/
def divAt (est : DW → DW) (fdig : Nat) (st : Store) (a b t : Nat) : Store :=
  if (st a).exp = (st b).exp ∧ compareRanges (st a).data (st b).data = 0 then
    let ng := (st a).neg != (st b).neg
    let s1 := upd st a (one c)
    if ng then negAt s1 a else s1
  else
    let s1 := mulAt c (upd st t (calcInv c est fdig (st b))) a t
    upd s1 t (st t)

/-- `swap(decwide_t&)` (decwide_t.h:1729-1739). -/
def swapAt (st : Store) (a b : Nat) : Store :=
  if a ≠ b then
    let tmp := st a
    let s1 := assignAt st a b
    upd s1 b tmp
  else st

end DW
end WD
