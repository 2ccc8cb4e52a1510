import Verif.Model.DW
/-
  Model of the tabulated constants of decwide_t.h, used for at most 51 decimal digits (`calc_pi`, `calc_ln_two`,
  `calc_ln_ten_low_precision`). The versions for more digits (AGM iterations) are not modelled here.
-/
namespace WD

/-- The limb lists of `calc_pi` (decwide_t.h:4721-4748, 4758-4785, 4795-4822). -/
def piTable : Limb → List Nat
  | .u8 => [3, 14, 15, 92, 65, 35, 89, 79, 32, 38, 46, 26, 43, 38, 32, 79, 50, 28, 84, 19, 71, 69, 39, 93, 75, 10, 58, 20,
      97, 49, 44, 59, 23, 7, 81, 64, 6, 28, 62, 8, 99, 86, 28, 3, 48, 25, 34, 21, 17]
  | .u16 => [3, 1415, 9265, 3589, 7932, 3846, 2643, 3832, 7950, 2884, 1971, 6939, 9375, 1058, 2097, 4944, 5923, 781, 6406,
      2862, 899, 8628, 348, 2534, 2117]
  | .u32 => [3, 14159265, 35897932, 38462643, 38327950, 28841971, 69399375, 10582097, 49445923, 7816406, 28620899,
      86280348, 25342117]

/-- The limb lists of `calc_ln_two` (decwide_t.h:4932-4954, 4959-4981, 4986-5008). -/
def lnTwoTable : Limb → List Nat
  | .u8 => [69, 31, 47, 18, 5, 59, 94, 53, 9, 41, 72, 32, 12, 14, 58, 17, 65, 68, 7, 55, 0, 13, 43, 60, 25, 52, 54, 12, 6,
      80, 0, 94, 93, 39, 36, 21, 96, 96, 94, 71, 56, 5, 86, 33, 26, 99, 64, 18, 68, 75, 42, 0]
  | .u16 => [6931, 4718, 559, 9453, 941, 7232, 1214, 5817, 6568, 755, 13, 4360, 2552, 5412, 680, 94, 9339, 3621, 9696,
      9471, 5605, 8633, 2699, 6418, 6875, 4200]
  | .u32 => [69314718, 5599453, 9417232, 12145817, 65680755, 134360, 25525412, 6800094, 93393621, 96969471, 56058633,
      26996418, 68754200]

/-- The limb lists of `calc_ln_ten_low_precision` (decwide_t.h:5013-5035, 5039-5061, 5065-5087). -/
def lnTenTable : Limb → List Nat
  | .u8 => [2, 30, 25, 85, 9, 29, 94, 4, 56, 84, 1, 79, 91, 45, 46, 84, 36, 42, 7, 60, 11, 1, 48, 86, 28, 77, 29, 76, 3,
      33, 27, 90, 9, 67, 57, 26, 9, 67, 73, 52, 48, 2, 35, 99, 72, 5, 8, 95, 98]
  | .u16 => [2, 3025, 8509, 2994, 456, 8401, 7991, 4546, 8436, 4207, 6011, 148, 8628, 7729, 7603, 3327, 9009, 6757, 2609,
      6773, 5248, 235, 9972, 508, 9598]
  | .u32 => [2, 30258509, 29940456, 84017991, 45468436, 42076011, 1488628, 77297603, 33279009, 67572609, 67735248, 2359972,
      5089598]

namespace DW
/-- `pi()` for digits10 ≤ 51: `from_lst` of the table (decwide_t.h:4721-4822, 5091-5111). -/
def piLow (c : Cfg) : DW := fromLst c (piTable c.L) 0 false
/-- `ln_two()` for digits10 ≤ 51; the exponent is -2, -4 or -8 (decwide_t.h:4932-5010). -/
def lnTwoLow (c : Cfg) : DW := fromLst c (lnTwoTable c.L) (-(c.ed : Int)) false
/-- `calc_ln_ten_low_precision()` (decwide_t.h:5013-5088). -/
def lnTenLow (c : Cfg) : DW := fromLst c (lnTenTable c.L) 0 false
end DW
end WD
