import Verif.Model.DW
/-
  The global operators between `decwide_t` and built-in 64-bit integers (decwide_t.h:5141-5460). `S` is a signed and `U`
  an unsigned integer operand; `L`/`R` tells on which side the `decwide_t` operand is. The compound forms `x op= n`
  (5357-5460) call the same member functions as `x op n` on `x` itself. The floating-point overloads convert the operand
  and use the operators of `decwide_t`.
-/
namespace WD
namespace DW
variable (c : Cfg)

/-- `x + n`, `x += n`, signed n (decwide_t.h:5141-5150, 5357-5364). -/
def addLS (x : DW) (n : Int) : DW := addSLL c x n
/-- `n + x`, signed n (decwide_t.h:5272-5281). -/
def addRS (n : Int) (x : DW) : DW := addSLL c x n
/-- `x + n`, unsigned n (decwide_t.h:5152-5161; `add_unsigned_long_long` 1342-1346). -/
def addLU (x : DW) (n : Nat) : DW := addAssign c x (ofUnsigned c 64 n)
/-- `n + x`, unsigned n (decwide_t.h:5283-5292). -/
def addRU (n : Nat) (x : DW) : DW := addAssign c x (ofUnsigned c 64 n)
/-- `x - n`, signed n (decwide_t.h:5173-5182): undefined (`none`) for the least `long long`. -/
def subLS (x : DW) (n : Int) : Option DW := subSLL c x n
/-- `x - n`, unsigned n (decwide_t.h:5184-5193; `sub_unsigned_long_long` 1348-1352). -/
def subLU (x : DW) (n : Nat) : DW := subAssign c x (ofUnsigned c 64 n)
/-- `n - x`, signed n (decwide_t.h:5304-5312): convert, then subtract. -/
def subRS (n : Int) (x : DW) : DW := subAssign c (ofSigned c n) x
/-- `n - x`, unsigned n (decwide_t.h:5304-5312): convert, then subtract. -/
def subRU (n : Nat) (x : DW) : DW := subAssign c (ofUnsigned c 64 n) x
/-- `x * n`, signed n (decwide_t.h:5207-5216). -/
def mulLS (x : DW) (n : Int) : DW := mulSLL c x n
/-- `n * x`, signed n (decwide_t.h:5314-5323). -/
def mulRS (n : Int) (x : DW) : DW := mulSLL c x n
/-- `x * n`, unsigned n (decwide_t.h:5218-5227). -/
def mulLU (x : DW) (n : Nat) : DW := mulULL c x n
/-- `n * x`, unsigned n (decwide_t.h:5325-5334). -/
def mulRU (n : Nat) (x : DW) : DW := mulULL c x n
/-- `x / n`, signed n (decwide_t.h:5239-5248). -/
def divLS (est : DW → DW) (fdig : Nat) (x : DW) (n : Int) : DW := divSLL c est fdig x n
/-- `x / n`, unsigned n (decwide_t.h:5250-5259). -/
def divLU (est : DW → DW) (fdig : Nat) (x : DW) (n : Nat) : DW := divULL c est fdig x n
/-- `n / x`, signed n (decwide_t.h:5346-5354). -/
def divRS (est : DW → DW) (fdig : Nat) (n : Int) (x : DW) : DW := divAssign c est fdig (ofSigned c n) x
/-- `n / x`, unsigned n (decwide_t.h:5346-5354). -/
def divRU (est : DW → DW) (fdig : Nat) (n : Nat) (x : DW) : DW := divAssign c est fdig (ofUnsigned c 64 n) x

end DW
end WD
