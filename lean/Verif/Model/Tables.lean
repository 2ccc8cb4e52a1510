/-
  Model of the size tables in math/wide_decimal/decwide_t_detail.h.
-/
namespace WD

/-- The table of `a029750::a029750_as_runtime_value` (decwide_t_detail.h:318-349), all 65 entries; the nested
    conditionals of `a029750_as_constexpr` (decwide_t_detail.h:291-315) contain the same numbers. -/
def karaTable : List Nat :=
  [32, 40, 48, 56, 64, 80, 96, 112, 128, 160, 192, 224, 256, 320, 384, 448, 512, 640, 768, 896,
   1024, 1280, 1536, 1792, 2048, 2560, 3072, 3584, 4096, 5120, 6144, 7168, 8192, 10240, 12288, 14336,
   16384, 20480, 24576, 28672, 32768, 40960, 49152, 57344, 65536, 81920, 98304, 114688,
   131072, 163840, 196608, 229376, 262144, 327680, 393216, 458752, 524288, 655360, 786432, 917504,
   1048576, 1310720, 1572864, 1835008, 2097152]

/-- `std::lower_bound` on a sorted table, falling back to `back()` (decwide_t_detail.h:345-347). The binary search
    is replaced by its contract: first element that is not less than the key. -/
def lowerBoundOr (t : List Nat) (value dflt : Nat) : Nat := (t.find? fun x => decide (value ≤ x)).getD dflt

/-- `a029750::a029750_as_runtime_value` (decwide_t_detail.h:318-349). -/
def karaLen (value : Nat) : Nat := lowerBoundOr karaTable value 2097152

/-- The thresholds of the nested conditionals of `a000079::a000079_as_constexpr` (decwide_t_detail.h:353-366),
    all but the last value 2^31, which is the default. -/
def fftTable : List Nat :=
  [8, 16, 32, 64, 128, 256, 512, 1024, 2048, 4096, 8192, 16384, 32768, 65536, 131072, 262144,
   524288, 1048576, 2097152, 4194304, 8388608, 16777216, 33554432, 67108864, 134217728, 268435456,
   536870912, 1073741824]

/-- `a000079::a000079_as_constexpr` (decwide_t_detail.h:353-366). -/
def fftLen (value : Nat) : Nat := lowerBoundOr fftTable value 2147483648

/-- `pow10_maker` (decwide_t_detail.h:370-384), in 32-bit arithmetic. -/
def pow10Maker : Nat → Nat
  | 0 => 1
  | n + 1 => (pow10Maker n * 10) % 2 ^ 32

/-- `pow10_maker_as_runtime_value` (decwide_t_detail.h:387-412). -/
def pow10Runtime (n : Nat) : Nat :=
  [1, 10, 100, 1000, 10000, 100000, 1000000, 10000000, 100000000, 1000000000].getD n 1000000000

/-- The loop of `order_of_builtin_integer` (decwide_t_detail.h:416-455): at least one round, one more for each
    further non-zero quotient. Returns `expval`. -/
def orderOf (n : Nat) : Nat :=
  if h : n / 10 = 0 then 1 else orderOf (n / 10) + 1
termination_by n
decreasing_by omega

/-- The power of ten `order_of_builtin_integer` stores through `p10_ptr`, computed modulo `2^expBits`. -/
def orderP10 (expBits : Nat) (n : Nat) : Nat := (10 ^ orderOf n) % 2 ^ expBits

end WD
