import Verif.Spec.Float
import Verif.Model.DW
/-
  Specification vocabulary: the internal floating-point types the accuracy theorems cover.
-/
namespace WD

/-- `float` or `double` as internal floating-point type, or the 80-bit `long double` with 8- or 16-bit limbs (with 32-bit limbs
    the accuracy claims are false: `inv_long_double_inaccurate`). -/
def FloatOk (c : Cfg) (F : Flt) : Prop := F.IsFloat ∨ F.IsDouble ∨ (F.IsLong ∧ c.ed ≤ 4)

theorem FloatOk.float {c : Cfg} {F : Flt} (h : F.IsFloat) : FloatOk c F := Or.inl h
theorem FloatOk.double {c : Cfg} {F : Flt} (h : F.IsDouble) : FloatOk c F := Or.inr (Or.inl h)
theorem FloatOk.long {c : Cfg} {F : Flt} (h : F.IsLong) (hc : c.ed ≤ 4) : FloatOk c F := Or.inr (Or.inr ⟨h, hc⟩)
theorem FloatOk.of {c : Cfg} {F : Flt} (h : F.IsFloat ∨ F.IsDouble) : FloatOk c F := h.elim FloatOk.float FloatOk.double

end WD
