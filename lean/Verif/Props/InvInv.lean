import Verif.Proofs.Fuel
import Verif.Props.FloatK
import Verif.Props.Arith
/-
  C26: the reciprocal of a malformed reciprocal. With 8-bit and 16-bit limbs the power of ten of the leading limb, computed in
  the limb type, wraps around when that limb equals the radix, so the start value of the iteration is far off.
-/
namespace WD
open DW

/-- 20 digits, 16-bit limbs. -/
def exC20h : Cfg := { L := .u16, digits10 := 20, maxExp := 2 ^ 59 }
/-- 10000 -/
def exTenK : DW := { data := [1, 0, 0, 0, 0, 0, 0, 0], exp := 4, neg := false, prec := 8 }
def exTenKInv : DW := { data := [10000, 0, 0, 0, 0, 0, 0, 0], exp := -8, neg := false, prec := 8 }

theorem exTenK_inv : calcInv exC20h (estInv exC20h exDouble) exDouble.digits10 exTenK = exTenKInv := by
  unfold calcInv
  rw [if_neg (by decide +kernel), if_neg (by decide +kernel)]
  dsimp only
  rw [invLoop_eq_fuel _ _ 5 _ _ _ (by decide +kernel), ← exDoubleK_eq]
  decide +kernel

theorem exTenK_inv_inv : calcInv exC20h (estInv exC20h exDouble) exDouble.digits10 exTenKInv =
    { data := [8155, 3255, 9262, 9044, 9407, 4430, 1532, 5648], exp := 0, neg := false, prec := 8 } := by
  unfold calcInv
  rw [if_neg (by decide +kernel), if_neg (by decide +kernel)]
  dsimp only
  rw [invLoop_eq_fuel _ _ 5 _ _ _ (by decide +kernel), ← exDoubleK_eq]
  decide +kernel

/-- F49. Two reciprocals in a row are wrong: with 16-bit limbs, 20 digits and double, y = 1/10000 has exactly the value 0.0001,
    but 1/y is less than 8156. -/
theorem inv_of_inv_wrong :
    let inv := calcInv exC20h (estInv exC20h exDouble) exDouble.digits10
    Full exC20h exTenK ∧ exTenK.val exC20h = 10000 ∧ (inv exTenK).val exC20h = 1 / 10000 ∧ (inv (inv exTenK)).val exC20h < 8156 := by
  intro inv
  have h1 : exC20h.N = 8 := by decide
  have h2 : exC20h.ed = 4 := by decide
  have h3 : exC20h.B = 10000 := by decide
  have e1 : inv exTenK = exTenKInv := exTenK_inv
  have e2 : inv exTenKInv = _ := exTenK_inv_inv
  refine ⟨by decide, ?_, ?_, ?_⟩
  · simp only [DW.val, exTenK, limbsVal, h1, h2, h3]; norm_num
  · rw [e1]; simp only [DW.val, exTenKInv, limbsVal, h1, h2, h3]; norm_num [zpow_neg]
  · rw [e1, e2]; simp only [DW.val, limbsVal, h1, h2, h3]; norm_num [zpow_neg]

/-- 20 digits, 8-bit limbs. -/
def exC20b : Cfg := { L := .u8, digits10 := 20, maxExp := 2 ^ 59 }
/-- 100 -/
def exHund : DW := { data := [1, 0, 0, 0, 0, 0, 0, 0, 0, 0, 0, 0, 0], exp := 2, neg := false, prec := 13 }
def exHundInv : DW := { data := [100, 0, 0, 0, 0, 0, 0, 0, 0, 0, 0, 0, 0], exp := -4, neg := false, prec := 13 }

theorem exHund_inv : calcInv exC20b (estInv exC20b exDouble) exDouble.digits10 exHund = exHundInv := by
  unfold calcInv
  rw [if_neg (by decide +kernel), if_neg (by decide +kernel)]
  dsimp only
  rw [invLoop_eq_fuel _ _ 5 _ _ _ (by decide +kernel), ← exDoubleK_eq]
  decide +kernel

theorem exHund_inv_inv : calcInv exC20b (estInv exC20b exDouble) exDouble.digits10 exHundInv =
    { data := [41, 1, 76, 0, 0, 0, 0, 0, 43, 0, 79, 99, 99], exp := 0, neg := false, prec := 13 } := by
  unfold calcInv
  rw [if_neg (by decide +kernel), if_neg (by decide +kernel)]
  dsimp only
  rw [invLoop_eq_fuel _ _ 5 _ _ _ (by decide +kernel), ← exDoubleK_eq]
  decide +kernel

/-- F49 with 8-bit limbs: 1/(1/100) is less than 42. -/
theorem inv_of_inv_wrong_u8 :
    let inv := calcInv exC20b (estInv exC20b exDouble) exDouble.digits10
    Full exC20b exHund ∧ exHund.val exC20b = 100 ∧ (inv exHund).val exC20b = 1 / 100 ∧ (inv (inv exHund)).val exC20b < 42 := by
  intro inv
  have h1 : exC20b.N = 13 := by decide
  have h2 : exC20b.ed = 2 := by decide
  have h3 : exC20b.B = 100 := by decide
  have e1 : inv exHund = exHundInv := exHund_inv
  have e2 : inv exHundInv = _ := exHund_inv_inv
  refine ⟨by decide, ?_, ?_, ?_⟩
  · simp only [DW.val, exHund, limbsVal, h1, h2, h3]; norm_num
  · rw [e1]; simp only [DW.val, exHundInv, limbsVal, h1, h2, h3]; norm_num [zpow_neg]
  · rw [e1, e2]; simp only [DW.val, limbsVal, h1, h2, h3]; norm_num [zpow_neg]

end WD
