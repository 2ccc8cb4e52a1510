import Mathlib.Data.Nat.Digits.Defs
/-
  Model of util/utility/util_pseudorandom_time_point_seed.h: the seed computed from the time.
-/
namespace WD

/-- One round of the inner loop of `crc_bitwise_template` (util_pseudorandom_time_point_seed.h:110-134): shift by one bit, xor with the polynomial if the bit
    shifted out was set. -/
def crcBit {w : Nat} (poly crc : BitVec w) : BitVec w :=
  let hi := crc &&& BitVec.twoPow w (w - 1)
  let crc := crc <<< 1
  if hi ≠ 0#w then crc ^^^ poly else crc

/-- One round of the outer loop (util_pseudorandom_time_point_seed.h:92-135): xor with the byte in the top eight bits, eight rounds of the inner loop. -/
def crcByte {w : Nat} (poly crc : BitVec w) (b : BitVec 8) : BitVec w :=
  (List.range 8).foldl (fun crc _ => crcBit poly crc) (crc ^^^ (b.setWidth w <<< (w - 8)))

/-- `crc_bitwise_template` (util_pseudorandom_time_point_seed.h:76-141). -/
def crcBitwise {w : Nat} (poly init fin : BitVec w) (msg : List (BitVec 8)) : BitVec w := msg.foldl (crcByte poly) init ^^^ fin

/-- `crc_crc64` (util_pseudorandom_time_point_seed.h:143-154). -/
def crc64 (msg : List (BitVec 8)) : BitVec 64 := crcBitwise 0x42F0E1EBA9EA3693#64 0#64 0#64 msg

/-- `std::clock()` written with `std::setw(9)` and `std::setfill('0')` (util_pseudorandom_time_point_seed.h:60-64), for a non-negative value. -/
def clockText (n : Nat) : List (BitVec 8) :=
  let ds := ((Nat.digits 10 n).reverse.map fun d => BitVec.ofNat 8 (48 + d))
  let ds := if ds = [] then [48#8] else ds
  List.replicate (9 - ds.length) 48#8 ++ ds

/-- `value<std::uint64_t>()` (util_pseudorandom_time_point_seed.h:25-72): the calendar text (a parameter: what `strftime` with "%c" writes depends on the locale), '+' and the clock
    are copied to an array of 64 bytes; `none` if the text is longer (the copy is not checked: undefined). -/
def timeSeed (cal : List (BitVec 8)) (clk : Nat) : Option (BitVec 64) :=
  let text := cal ++ 43#8 :: clockText clk
  if text.length ≤ 64 then some (crc64 text) else none

end WD
