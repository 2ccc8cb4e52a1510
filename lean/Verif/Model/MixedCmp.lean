import Verif.Model.FloatConv
import Verif.Spec.Cmp
/-
  The comparison operators between `decwide_t` and built-in arithmetic types (decwide_t.h:5480-5493). The built-in operand is
  converted by the constructor for its type, then `cmp` is called.
-/
namespace WD
namespace DW
variable (c : Cfg)

/-- The comparison of the value of `cmp` with 0 (decwide_t.h:5480-5493). -/
def sgnHolds : CmpOp → Int → Bool
  | .lt, k => k < 0
  | .le, k => k ≤ 0
  | .eq, k => k == 0
  | .ne, k => k != 0
  | .ge, k => k ≥ 0
  | .gt, k => k > 0

/-- `x op n`, signed n (decwide_t.h:5480-5485; constructor 696-714). -/
def cmpLS (o : CmpOp) (x : DW) (n : Int) : Bool := sgnHolds o (cmp x (ofSigned c n))
/-- `n op x`, signed n (decwide_t.h:5488-5493). -/
def cmpRS (o : CmpOp) (n : Int) (x : DW) : Bool := sgnHolds o (cmp (ofSigned c n) x)
/-- `x op n`, n of an unsigned type of `bits` bits (decwide_t.h:5480-5485; constructors 652-694). -/
def cmpLU (bits : Nat) (o : CmpOp) (x : DW) (n : Nat) : Bool := sgnHolds o (cmp x (ofUnsigned c bits n))
/-- `n op x`, unsigned n (decwide_t.h:5488-5493). -/
def cmpRU (bits : Nat) (o : CmpOp) (n : Nat) (x : DW) : Bool := sgnHolds o (cmp (ofUnsigned c bits n) x)
/-- `x op f`, f of a floating-point type with p bits and smallest normal number minN (decwide_t.h:5480-5485; constructor 716-728). -/
def cmpLF (est : DW → DW) (fdig p : ℕ) (minN : ℚ) (o : CmpOp) (x : DW) (f : ℚ) : Bool :=
  sgnHolds o (cmp x (fromFloat c est fdig p minN f))
/-- `f op x`, floating-point f (decwide_t.h:5488-5493). -/
def cmpRF (est : DW → DW) (fdig p : ℕ) (minN : ℚ) (o : CmpOp) (f : ℚ) (x : DW) : Bool :=
  sgnHolds o (cmp (fromFloat c est fdig p minN f) x)

end DW
end WD
