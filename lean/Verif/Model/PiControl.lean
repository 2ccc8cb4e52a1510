import Verif.Model.Const
/-
  The digits of π with which a computed π is compared (math/constants/constants_pi_control_for_decwide_t.h).
-/
namespace WD

/-- `const_pi_control_head_32`, `..._16`, `..._08` (constants_pi_control_for_decwide_t.h:51-62, 38-49, 25-36). -/
def piHead : Limb → List Nat
  | .u8 => [3, 14, 15, 92, 65, 35, 89, 79, 32, 38, 46, 26, 43, 38, 32, 79, 50, 28, 84, 19, 71, 69, 39, 93, 75, 10, 58, 20,
      97]
  | .u16 => [3, 1415, 9265, 3589, 7932, 3846, 2643, 3832, 7950, 2884, 1971, 6939, 9375, 1058, 2097]
  | .u32 => [3, 14159265, 35897932, 38462643, 38327950, 28841971, 69399375, 10582097]

/-- `const_pi_control_tail_08_10001`, `..._16_10001`, `..._32_10001` (constants_pi_control_for_decwide_t.h:142-153, 103-114, 64-75). -/
def piTail4 : Limb → List Nat
  | .u8 => [29, 55, 24, 98, 87, 27, 58, 46, 10, 12, 64, 83, 69, 99, 89, 22, 56, 95, 96, 88, 15, 92, 5, 60, 1, 1, 65, 52,
      56, 37, 56, 78]
  | .u16 => [2955, 2498, 8727, 5846, 1012, 6483, 6999, 8922, 5695, 9688, 1592, 560, 101, 6552, 5637, 5678]
  | .u32 => [29552498, 87275846, 10126483, 69998922, 56959688, 15920560, 1016552, 56375678]

/-- `const_pi_control_tail_08_100001`, `..._16_100001`, `..._32_100001` (constants_pi_control_for_decwide_t.h:155-166, 116-127, 77-88). -/
def piTail5 : Limb → List Nat
  | .u8 => [38, 4, 32, 99, 70, 69, 57, 70, 15, 7, 89, 33, 77, 28, 65, 80, 35, 71, 27, 90, 91, 37, 67, 42, 8, 5, 65, 54,
      93, 62, 46, 46]
  | .u16 => [3804, 3299, 7069, 5770, 1507, 8933, 7728, 6580, 3571, 2790, 9137, 6742, 805, 6554, 9362, 4646]
  | .u32 => [38043299, 70695770, 15078933, 77286580, 35712790, 91376742, 8056554, 93624646]

/-- `const_pi_control_tail_08_1000001`, `..._16_1000001`, `..._32_1000001` (constants_pi_control_for_decwide_t.h:168-179, 129-140, 90-101). -/
def piTail6 : Limb → List Nat
  | .u8 => [20, 87, 54, 24, 50, 59, 89, 56, 78, 79, 61, 30, 33, 11, 64, 62, 83, 99, 63, 46, 46, 4, 22, 9, 1, 6, 10, 57,
      79, 45, 81, 51]
  | .u16 => [2087, 5424, 5059, 8956, 7879, 6130, 3311, 6462, 8399, 6346, 4604, 2209, 106, 1057, 7945, 8151]
  | .u32 => [20875424, 50598956, 78796130, 33116462, 83996346, 46042209, 1061057, 79458151]

end WD
