# Formal model of ckormanyos/wide-decimal — design

## 1. Trusted base
* The Lean 4.33.0 kernel. Every theorem named in MANIFEST.json depends on no axioms other than `propext`, `Classical.choice` and `Quot.sound`
  (the standard axioms of Lean; `lake env lean` with `#print axioms` shows the subset each one uses). No axioms are added; nothing rests on
  compiled evaluation (`decide +kernel` is evaluated by the kernel).
* The reading of the C++ source (`/repo`, pinned commit) into the Lean model. Nothing is executed; every model definition cites file and lines.
* The specification files `lean/Verif/Spec.lean` and `lean/Verif/Spec/*.lean`: what a limb sequence denotes (`limbsVal`), the rational a number
  denotes (`DW.val`), the representation invariant (`WF`, `Full`), rounding (`Spec/Round`), decimal texts (`Spec/Text`), binary floating-point
  (`Spec/Float`: representable numbers and the one property "the rounding of an exact result is a nearest representable number").
* Of the platform: unsigned integers wrap modulo 2^k; `long long`/`int64_t` are 64 bit; the built-in float type is IEEE binary32/binary64
  (or the x87 long double) without overflow in the ranges used, with `+ * /` and `sqrt` correctly rounded (any tie rule).

## 2. Architecture
* `Verif/Spec*.lean` — denotations only.
* `Verif/Model/*.lean` — the code, function by function, as total computable functions. Limb widths (8/16/32 bit), digits10, the exponent type's
  range are parameters (`Cfg`). Fixed-width unsigned arithmetic is explicit (`% 2^k`) wherever the C++ uses a limb or double-limb type and
  wrap-around matters. Undefined behaviour, thrown exceptions and out-of-bounds writes are explicit outcomes (`none`, `Except`).
* `Verif/Proofs/*.lean` — helper lemmas. `Verif/Props/*.lean` — the property theorems with their non-vacuity examples beside them.

| model file | code |
|---|---|
| Limb, Kara | decwide_t_detail_ops.h: add/sub n-limb loops, schoolbook (row and column version), 1-limb mul/div loops, compare; Karatsuba over a flat memory with pointers |
| Tables | decwide_t_detail_helper.h: digit counts, element counts, Karatsuba/FFT length tables, `order_of_builtin_integer` |
| DW | decwide_t.h: constructors from integers, `+= -= *= /=`, mul/div by unsigned, comparison, `eval_mul_dispatch`, reciprocal, precision, ++/--, integer part, floor/ceil/isint, ilogb, extraction to integers, `eval_round_self`, limits |
| Mixed, MixedCmp | the mixed `decwide_t` / built-in operators, arithmetic and comparison |
| ExpW | the basic operations with exponents of 8, 16, 32 or 64 bits |
| Thread | assignment, `+=`, `-=`, `*=`, `negate`, `mul_unsigned_long_long`, `div_unsigned_long_long` (below the radix) as programs of single memory accesses; schedules of several threads |
| Alias, Prog | store of named objects (same object on both sides), straight-line programs over the public API |
| Wrap | util/utility/util_unsigned_wrap.h style sign-magnitude exponent helper (`unsigned_wrap`) |
| Util | baselexical_cast, n_slot_array_allocator, dynamic_array (ownership heap) |
| Parse, Print | `rd_string`, `wr_string` and helpers, `operator>>`/`<<` as functions on `List Char` and a record of format flags |
| Pow | `pow` with an integral exponent (binary ladder) |
| Float | binary floating-point operations, `extract_parts`, the constructor from mantissa and exponent, the start value of the reciprocal |
| Sqrt | `calculate_sqrt`: the coupled Newton iteration for the square root |
| FloatConv | `native_float_parts` and construction from built-in floats |
| FftT | decwide_t_detail_fft.h (all of it), the sine table, `mul_loop_fft` up to the release of the carries, the size of the transform |
| Fft | `mul_loop_fft`: splitting into half-limbs, rounding of the transform values, release of the carries |
| Const | the tables for π, ln 2 and ln 10 (at most 51 digits) |
| Object | constructors, assignment, move, swap and destruction of `decwide_t` objects over the heap |
| Exp2 | `exp` above 2000 digits |
| Boost | boost/math/bindings/decwide_t.hpp: `constant_pi`, `precision` |
| ParFor | test/parallel_for.h: `parallel_for`, `sequential_for` |
| PiControl | math/constants/constants_pi_control_for_decwide_t.h: the head tables and the tail tables of 10^4, 10^5, 10^6 digits |
| Elem | `ldexp`, `fmod`, `exp` (up to 2000 digits), `log` (up to 51 digits), `sinh`, `cosh`, `tanh`, `pow(x, a)` |

## 3. Plan per property
C01 comparison: model `cmp`/`compare_ranges`; prove it equals the order of the rational denotations.
C02/C03 add/sub: model `operator+=` branch by branch; prove the exact formula "sum of aligned, truncated operands", derive error bound, exactness, commutativity.
C04 aliasing: a store of objects, `op=` with the right operand read from the same object; prove / refute per operator.
C05–C07 mul: model `operator*=` and `eval_mul_dispatch` for schoolbook and Karatsuba; prove truncated product; overflow/underflow branches; zero handling as coded.
C08/C09 mul/div by unsigned: model loops and normalisation shift.
C10 invariant: `WF` preserved by every modelled operation; induction over programs (`Prog`).
C11/C12 integer construction and extraction. C13–C16 integer part, isint, floor/ceil, ilogb. C17 sign.
C18–C24 limb primitives, Karatsuba over a flat memory with explicit pointers, size tables. C25 FFT carry release with an oracle for the float convolution.
C26/C27 Newton reciprocal / square root: first for every start value of stated accuracy, then with the start value the code computes in binary floating-point
(`FloatOk`: float, double, or the 80-bit long double with 8- or 16-bit limbs; with 32-bit limbs and long double accuracy is false, `inv_long_double_inaccurate`).
C28 division special cases. C29–C31, C46 parsing and formatting over `List Char`. C32 pow ladder. C33 ++/--.
C34 precision. C35 baselexical_cast. C36 dynamic_array (refinement to sequences plus ownership). C37 slot allocator (history invariant). C38 unsigned_wrap.
C39 constants: limb tables vs real numbers (Mathlib `Real.pi`, `Real.log`). C40 numeric_limits. C41 swap.
C42 eval_round_self. C43 float conversion. C44 mixed operands. C45 uniqueness of the representation.
C47 exp: argument reduction, Taylor loop (invariant: partial sum and term with error bounds), 2048th power, `ldexp`, reciprocal; errors are collected as an
additive error of the logarithm of the result and compared with `Real.exp`.
C48 log (≤ 51 digits): scaling by 10^n and the choice at 1.8, Taylor loop (invariant: power and partial sum with error bounds), tail bound of the real series,
n·ln 10; below 1 the reciprocal and one recursion (for a power of the radix the reciprocal is malformed, F34; Proofs/LogMal follows
that object through comparison, division and subtraction). Non-termination is stated as: no recursion depth yields a result.
C49 fmod: the error of the quotient is below 1/|b|, so `floor`/`ceil` of the rounded quotient equal those of a/b unless b divides a; there the rounding step
restores the integer (not with 8-bit limbs); product and difference are exact (`add_decimal_exact`). Specification: `Int.tmod`.
C50 extract_parts: the loop invariant of C26's start value, stated for the public function.
C51 sinh, cosh, tanh (16 to 2000 digits): e^x by C47 and its reciprocal by C26; a reciprocal whose leading limb is the radix is
shown to add and subtract like its well-formed twin (`Mal.add_op`); the errors are combined over the reals and compared with
Mathlib's sinh, cosh and tanh.
Concrete witnesses in `double` are evaluated by the kernel through `exDoubleK` (`Props/FloatK.lean`), proved equal to the rounding `exDouble`.

C52 ldexp (16 digits and more, fewer than 1793 limbs): shifts below 64 bits, powers of two by the binary ladder of C28 otherwise; a negative exponent divides
(C26, C16), so the result may be a power of the radix stored with the radix as its leading limb (`NearFull`). `down_real` combines
the error of the power with that of the division.
C53 frexp (16 digits and more, fewer than 1793 limbs): 2^t against 10^k by 10^301 ≤ 2^1000 ≤ 1.072·10^301, the product with a reciprocal that may be malformed
(`mul_inv_any`), then induction over the two loops with a geometric bound for the number of rounds. The `long double` product is a
parameter `tEst`; a `while` loop is a function of a round limit (`fuel`), and the theorem gives a limit that suffices.
C54 pow(x, a) (16 to 51 digits): the error of log (C48), the rounded product (C16) and exp (C47) combined over the reals and compared with
Mathlib's `Real.rpow`.
C55 rootn, cbrt, rootn_inv (degrees 3 to 300): `std::pow(d, -1/p)` is any function of relative error 5u (`Flt.IsInvRoot`; its existence is
proved). `rootn_start_ok` bounds the start value through extract_parts, the exponent shift and the constructor; `rootnLoop_spec` is the
invariant |x·r^p − 1| ≤ 17/25·10^(−A·2^k) + 11·p·η over the rounds at growing precision, each round by `rootnStep_spec` (power at
reduced precision, sum, division by the int p, product); the p-th power is turned into a statement about the real root by a geometric
sum (`root_of_power`); the final reciprocal is C26. Not modelled: the range of double, so the underflow of the mantissa for p ≥ 309
(where the start value is infinite and the conversion never ends) is outside the theorem (p ≤ 300) rather than a result.

C56 the FFT in exact arithmetic (`Model/FftT.lean`, the type of the numbers and its operations are a parameter `FOps K`): the routines are
first reduced to functions of sequences of pairs, for any arithmetic (`Proofs/FftMem`, `FftRev`, `FftReal`: which place holds what after every
in-place loop, the bit reversal by induction on the number of bits); with real arithmetic and sin(π/n) the recurrence of the factors yields
the powers of e^(±2πi/n), the recursion is the even/odd splitting of the Fourier sum (`Proofs/Dft`), the last loop the splitting of real
data (`Proofs/Dft2`). `fft_limbs_exact` is the end result for the limbs: the convolution, without wrap-around. Non-trivial cases: 12 34 × 56 78.

C57 the rounding errors of the FFT (`fltOps F FL`: every operation of the transforms rounded once to F, the sine literals first to the type FL of
the literals): the literals are compared with sin(π/2^k) by the double-angle formula downwards from sin(π/4) (`Proofs/SinTab`, 30 rational inequalities
checked by the kernel, then monotonicity); the recurrence of the factors loses O(n·u) (`FftErr2`), a butterfly is bounded in the 2-norm (`FftErr3`–`5`),
a recursion level adds a fixed multiple of the norm, Parseval's equation turns the norm of the transform into that of the digits (`FftErr6`), the
splitting of real data and the inverse are treated alike (`FftErr7`, `8`), the products in transform space by the largest coefficient (`FftErr9`),
and the norms of the digits by the radix (`FftErrA`). The result is an explicit worst-case bound for every coefficient, 4p(h−1)²·2^−P·(7n/2 + 210(log2 n − 1)); `fft_accurate_sizes_partial` gives
sizes for which it is at most 1/4 (8-bit limbs with `double` 524288, 16-bit 62000, 32-bit with 64-bit `long double` 24900, any with 113 bits 2^29).
For the default types (32-bit limbs, `double`) this general bound of the factor recurrence (error growing like n) is too coarse. There the recurrence has a
fixed start, so its values are known: `Spec/RoundEven` defines rounding to nearest with ties to even, `Proofs/FftInt` the same recurrence on integers scaled by a
power of two, `Proofs/FftTabA`–`D` (generated) let the kernel run it for every transform length up to 32768 and bound the distance of every factor to the exact root
of unity, `Proofs/FftTw`, `FftDbl` transport this to the model and sum it over the levels (factor 900·2^−53). `fft_double_accurate_partial` follows: every operand
of up to 4096 limbs (≈ 32700 digits), all limb types, error at most 1/4; `mul_fft_double_partial` is the product of 1793 to 4096 limbs in the default
configuration without any assumption on the transform. The kernel runs concern the constants of the algorithm only; the theorem ranges over all limbs. Assumed:
rounding is roundTiesToEven, `long double` is `double` or has at least 64 bits. Above 4096 limbs with the default types accuracy stays a hypothesis
(`FftAccurate`). Not modelled: the exponent range of the type, contraction to fused multiply-add.

C58 `pi` above 51 digits (`calc_pi`): the loop as a function of the number of rounds left, returning the value and the list of numbers handed to the
callback. The mathematics (Proofs/Agm1-3) is proved from scratch: invariance of the complete elliptic integrals under the AGM step, Legendre's relation at
the symmetric point, hence 2·M² = π·(1/2 - Σ 2^k c_k²) with an explicit remainder. The error analysis follows a, b², t, s and p through the rounds
(Proofs/PiOps, PiRound, PiLoop, PiMain); the dominating error is the one of `/= 2` (the division by a small integer fills only the last but one limb when the leading limb vanishes). A
term that is exactly zero reports 0 digits (`ilogb` of zero is 0) and does not stop the loop, hence the condition on the reports in `calc_pi_digits_partial`.

C59 `ln_two` above 51 digits (`calc_ln_two`): the AGM loop of `calc_ln_two` and `log` is one function (`agmLoop`), returning `ak` and the number of rounds
before the one left by `break`, or `none` if the loop runs out. Proofs/AgmLog: log(4/ε) ≤ π/(2·M(1, ε)) ≤ log(4/ε) + ε²/4·(log(4/ε)+1); Proofs/AgmRun and
AgmEnd: every round keeps the elliptic integral up to a relative error of 2.1·10^(-(digits10+ed)), and at the break the means agree to half of the digits, so that
E·s = π up to a small relative error; Proofs/LnTwo: the start value 2^(2-m), m ≈ 1.67·digits10, whose square is about 10^-digits10 (hence the error of F56).
The square roots need the products to be off the even powers of the radix (`OffSquares` on `agmProducts`, a condition decided for concrete types).

C60 `log` above 51 digits: same loop, start value 2^(2-m)/x with m chosen in single precision from `order` of x (`logM`, bounds in `logM_bounds`). For
1 < x ≤ 10^K, K ≤ 2500, a run that is left by `break` gives log x up to (6/5·d + log x)·(17 + κ/2) + 17/10·d·λ + 31 units of 10^-d, κ and λ the errors of the given
pi and ln_two (`log_agm_accuracy_partial`); below 1 through the reciprocal (`log_agm_below_partial`, x off the powers of the radix); log(1) = 0 exactly
(`log_agm_cases`). Both conditions are shown to be met by log(10) and log(1/2) of `decwide_t<52>`. Missing: x > 10^2500 (the loop's criterion on the
difference of the means is absolute, so the relative accuracy falls with log x), FFT sizes, products at even powers of the radix, runs not left by `break`
(which exist, F55).

C61 conversion to `long double`, `double`, `float`: Model/FloatOut writes the text of `extract_long_double` character by character (`none` when the buffer has no room for the
terminating zero), reads it exactly (`scanDec`, standing for `strtold`) and rounds. Proofs/FloatOut: the text has the value of x cut off behind max_digits10 digits at
least; two numbers of p bits differ by a factor 2^-(p+1) at least, so a representable x is found again; cutting off is monotone.

C62 `exp` above 2000 digits: Model/Exp2 takes `log`, ln 2 and `std::exp` as parameters. `exp2Arg_spec`: the reduced argument is below 3/4 in absolute value and misses x - n·ln 2 by
at most n·λ plus roundings; `exp2Start_spec`: conversion to the built-in type (C61), its `exp`, and back (C43) give a start value with 13 (5) digits; `exp2Loop_spec`: a round with `digits` digits
leaves a relative error of twice the square of the old one plus that of `log` and three units of the working precision, so it doubles the digits (induction over the rounds; the precision changes each
round, so the rounding lemmas for reduced precision are used). `ldexp` (C52) scales; errors are added in the logarithm as in C47. Props/Exp2Ex runs exp(1/2) with 52 digits.

C63 lifetime of objects: Model/Object puts sign, exponent and precision beside the heap model of `dynamic_array` (C36); Spec/Object gives each variable a status (value, unspecified, moved from). The
refinement is an induction over programs with the array refinement of C36 as the step lemma. Static storage is a plain store.

C64 comparison with built-in operands: Model/MixedCmp converts and calls `cmp`; Spec/Cmp has the six relations on ℚ. Follows from C01 (`cmp` is the order of values) and the exactness of the conversions (C12, C43); mirror law and trichotomy without the exactness.
C65 exponent type: all other model files have unbounded exponents. Model/ExpW repeats `+=`, `-=`, `*=`, `mul_unsigned_long_long`, the integer part and `rd_string` with exponents of w bits (wrap below 32 bits, undefined behaviour at 32 and 64 bits) and the exponent difference in `unsigned_wrap`; Props/ExpW shows agreement with the unbounded versions by bounding the exponent of each result, and the wrap-around cases outside.

C66 threads: Model/Thread.lean writes assignment, `+=`, `-=`, `*=` (schoolbook and Karatsuba sizes), `negate`, constants, `*= n` and `/= n` (n below the radix) as programs of single loads and stores on a memory of limbs and members, with the
temporary array of `+=` (decwide_t.h:970) and the product buffer of `*=` (2795, 2855, 2908) as arrays of that memory; a schedule is a list of thread numbers. Proofs/Thread: programs whose
accesses stay in non-conflicting footprints end in every schedule as they do alone, and never have conflicting next accesses (data-race freedom, which is what makes the
sequentially consistent model adequate for C++). Proofs/ThreadWp, ThreadAdd, ThreadSchool, ThreadKara, ThreadMul, ThreadOps: a small program logic proves that each statement, alone, stays inside its footprint
and refines the store model of Model/Alias (target and operand may coincide), so the sequential meaning is the one of all other claims. For Karatsuba the access program
simulates the pointer-level function of Model/Kara on its buffer, and Proofs/KaraAgr shows that function independent of the previous contents of result and temporary. `scratch_independent_partial` gives
history independence and memory safety for one thread, i.e. also for the build with static scratch memory. `shared_scratch_wrong`: with one temporary for two threads a schedule gives
12.5 + 3.25 = 52.5. Partial: Karatsuba/FFT sizes and the remaining functions (which call these operators on local objects) are not written as access programs.

C67 integer casts: Model/Convert.lean adds the final narrowing (two's complement) behind
the 64-bit extraction, the converting constructor by type, and `operator bool`. Types are a width of 1..64 bits and a
signedness (Spec/Convert.lean); `sat64` (Spec/ConvertSat.lean) is the saturated truncation. Proof: `toSLL` is the clamp of
the truncation (C12), narrowing is the identity inside the type and a congruence outside it.

C68 memory of the multiplication: Spec/Bounds.lean says what working inside the first n cells means (nothing else is changed, nothing else has an influence). For the
transforms it follows from the functional descriptions of Proofs/FftMem, FftRev, FftReal (each cell of the result as a function of the cells before), for the
buffers from `nFft_spec`, for the release of the carries from the indices it reads. A read whose value is not used cannot be seen this way; the one place where the
code does that (decwide_t.h:3129-3135) is modelled access by access (Model/FftTail.lean, with the checked execution of Model/Thread.lean), and the checked
execution fails at full precision (F6).

C69 the seed from the clock: Model/Crc.lean (bit vectors), Spec/Crc.lean (polynomials over Z/2). One round of the inner loop multiplies the register polynomial by X modulo the generator
(`crcBit_poly`); the remainder follows by induction over the text and uniqueness of the division by a monic polynomial, the burst property from the generator being
prime to X. `std::time`, `std::localtime` and the locale are not modelled (the calendar text is a parameter), nor a clock that returns -1.

C70 order and symmetry: no new model. A sum of equal signs is the exact sum truncated (truncation is monotone, `trunc_mono`); a sum of opposite signs is the exact sum rounded away from zero to the coarser of the two units, and the units of x ≤ y < 0 divide each other; between the branches z itself separates the results. Products: truncated, except that a factor 0.99…9 returns the other one; any smaller magnitude is at most 0.99…9 times the larger (`abs_le_nearOne`), which restores the order. Commutativity by the uniqueness of truncation.

C71 constant π of the Boost.Math binding: model `Model/Boost.lean` (the loop as written, unbounded in the code, with fuel in the model; `none` = not ended). The rounds are those of `calc_pi` up to the order of the operations (`BpInv.same`), so the error analysis of C58 carries over through a ghost state; new are the sum D, the limit that doubles each round, and termination: the exact term C_{n+1} falls below 2^n ε at the latest when 2^(n+1) ≥ 5(d+7)/6 (`bp_bound`). The loop stops at a term below 2^n ε *before* subtracting 2^(n-1) times that term, so the error is up to about 4^n ε: proved as upper bound, and seen for 88 digits (F72).

C72 precision of policies: arithmetic only (10^59 ≤ 2^196).

**C73 (control digits of π).** The control tables are copied digit by digit into `Model/PiControl.lean`; each is a valid limb
string. That the digits are digits of `Real.pi` is proved through Machin's formula (Mathlib's
`Real.four_mul_arctan_inv_5_sub_arctan_inv_239`) and the alternating series of arctan: `atanTree` sums 2^d pairs of terms by binary
splitting with integers (`atanTree_spec`), `piScaled_spec` encloses π·10^D in X−1 … X+5, and `piDigits_run` is the kernel's
evaluation with D = 100020, in which the guard digits behind the 10^4-th and the 10^5-th decimal are neither all 9 nor all 0
(`floor_pi`). Missing: the tail of 10^6 decimals – the same computation takes 7.5 GB; evaluated outside the kernel it agrees with the
table, which is a test and not claimed.

**C74 (parallel_for).** `Model/ParFor.lean` computes the ranges of the threads with the wrapping arithmetic of the index type and the
slice in rounded `float` arithmetic. `ParExec` (Spec/ParFor.lean) says in which orders threads may perform their calls; every such
order is a permutation of the ranges put together (`ParExec.perm`), and those are the index range (`parLoop_spec`, induction over the
number of threads). Whatever the rounding gives, only the distribution of the work depends on it.

## 4. Not modelled
The limb product of the FFT path (1793 and more limbs) is the parameter `c.fft`; `fltFft` instantiates it with the modelled transforms. Theorems with the hypothesis `MulOk` or
`MulOkAll` exclude these sizes; `mul_fft_error_partial` covers multiplication there for transforms of stated accuracy, `mul_fft_float_partial` with the
accuracy proved. Also not modelled:
the functions defined in the examples (the library has no trigonometric or inverse hyperbolic functions), iostream plumbing (locale, sentry, exceptions of the stream), allocation
failure, exponents of bounded width outside ExpW, thread safety outside C66, performance, mcal_lcd, the examples and test drivers (except parallel_for), the C++17 `std::to_chars` path.

## 5. Findings: claims that are false of the code
Each is a theorem about the model with a concrete witness (file `Props/…`) unless marked "read".

| | finding | theorem |
|---|---|---|
| F1 | `x -= x` with the same object on both sides gives 2x instead of 0 | `sub_self_alias_doubles` |
| F2 | 0·(−1) is a negative zero; 0·max() = max(), 0·min() = min() | `zero_times_neg_is_negative_zero`, `zero_times_max_is_max` |
| F3 | dividing by a built-in unsigned loses a limb (1.00000002/2 = 0.5 at the smallest sizes) | `div_unsigned_not_exact` |
| F4 | 0/0 is 1 or 0 depending on the exponents the zeros carry; x/0 = 0 | `zero_div_zero_depends_on_representation` |
| F5 | the 16-bit schoolbook column accumulator overflows from 43 limbs on | `school_u16_overflow` |
| F6 | the FFT path reads one limb past the end when the precision equals the limb count and the leading limb of the product is zero (2·3 at 20000 digits); the limb read is overwritten | `fft_shift_out_of_bounds`, `fft_overread_reached` |
| F7 | `sub_signed_long_long(LLONG_MIN)` negates the least value (undefined) | `sub_int_undefined` |
| F8/F26 | internal rounding leaves the lower limb when the cut lies directly before the last limb | `round_keeps_last_limb` |
| F9 | subnormal floats convert to 0 | `float_subnormal_is_zero` (C43) |
| F10/F11 | dynamic_array: `<` compares only the common prefix; copy assignment keeps the old length; `swap(&&)` leaves the storage owned twice | `dynamic_array_limits` |
| F13 | the slot allocator returns null on exhaustion instead of throwing | `slot_allocator_fresh` (stated) |
| F14 | ceil(0·0.5) = 1, floor(0·(−0.5)) = −1 | `floor_ceil_of_computed_zero` |
| F15/F17 | lowest() is 0; sums are not checked for overflow: max()+max() > max() | `numeric_limits_false` |
| F16 | log of x ≤ 0 recurses without end, and with it pow(x, a) for x ≤ 0 and a ≠ 0 (integers included) | `log_nonpositive_diverges`, `pow_nonpositive_diverges` |
| F18/F19 | at reduced precision a difference may keep a zero leading limb, and a carry out of the first limb is displaced | `reduced_precision_breaks_invariant`, `reduced_precision_carry_displaced` |
| F20 | epsilon() has a limb equal to the radix when digits10 mod ed = 1 | `epsilon_malformed` |
| F21/F23 | floor/ceil/integer part keep a fraction at the size limit | `floor_keeps_fraction_at_limit`, `floor_rounds_up_first` |
| F22 | x · 0.99…9 returns x | `mul_nines_not_truncated` |
| F24/F25 | extraction to integers drops limbs of large numbers; (long long)decwide_t<10>(LLONG_MAX) wraps to a negative | `int_round_trip_wraps` |
| F27 | unsigned_wrap: `a -= a` doubles; least value undefined | `wrap_limits` |
| F28 | showpoint in the default format throws length_error | `showpoint_throws`, `showpoint_throws_default` |
| F29/F30 | fixed with precision 0 prints 6 decimals; fixed below 1 counts significant digits instead of decimals | `fixed_precision_zero`, `fixed_small_significant` |
| F31/F32 | parsing does not check the exponent range; `>>` keeps a reduced precision | `parse_above_max`, `istream_read` |
| F33 | pow(x, INT64_MIN) negates the least value (undefined) | `pow_min_undefined` |
| F34 | 1/B^k (B the limb radix) yields a number with a limb equal to the radix, unequal to the value it denotes. Its magnitude is accurate all the same, and every other quotient by such a divisor is well formed (`inv_accuracy_any`, `div_accuracy_any`, below 1793 limbs) | `inv_radix_power_malformed`, `start_radix_power_malformed` |
| F35 | the constructor from mantissa and exponent writes out of bounds when the number has fewer limbs than a float fills | `start_out_of_bounds`, `inv_undefined_small_config` |
| F36 | long double with 32-bit limbs: `extract_parts` reads three limbs, as few as 17 digits, so the start value has fewer right digits than the iteration assumes, and each round doubles the deficit: with 520 digits 1/x is off by more than 10^-514 for x = 1.1 + 9.9999999·10^-17 | `inv_long_double_inaccurate` |
| F37 | `decwide_t<10>(1.0)` (double, 32-bit limbs) is a number below 1 (the power of one half is truncated) | `float_one_not_one` |
| F38 | the FFT product uses only the upper half of the convolution, without the carries of the lower half: with exact transforms (1.99…9)² is off by more than 6·10^-digits10 relative at 10^6 digits (32-bit limbs), 72·10^-digits10 at 3580 digits (8-bit limbs) | `fft_product_loses_digits`, `fft_product_not_accurate` |
| F39 | `exp` loses digits: the series stops at 10^(1-digits10) and the 2048th power multiplies its error; exp(0.693) of `decwide_t<20>` has 16 right digits | `exp_loses_digits` |
| F40 | `exp(x)` for x between 1.49·10^9 and 2.97·10^9: the scaling exponent is converted from `uint32_t` to `int`, the result is below 1 (or undefined) although e^x is representable | `exp_wraps` |
| F41 | log of the largest number below 1 recurses without end (its reciprocal is taken to be itself) | `log_below_one_diverges` |
| F42 | fmod(u, v) with v < 0: the quotient is rounded by the sign of u alone, so the result is off by |v| and has the wrong sign (fmod(5,-3) = -1) | `fmod_negative_divisor` |
| F43 | fmod of a multiple with 8-bit limbs can return v instead of 0: fmod(873, 97) = 97 for `decwide_t<12, uint8_t>` | `fmod_u8_wrong` |
| F44 | fmod(0, v) = v for v ≤ -2: the quotient is a zero with a sign and a negative exponent, not recognized as an integer | `fmod_zero_negative` |
| F45 | sinh and tanh of small non-zero numbers are 0 (sinh(10^-40) with 20 digits): e^x - e^-x cancels | `sinh_cancels` |
| F46 | ldexp(v, INT_MIN) negates the exponent: signed overflow, undefined | `ldexp_least_int` |
| F47 | frexp near the upper end of the exponent range is wrong by thousands of orders of magnitude: the estimated 2^t overflows and saturates | `frexp_near_max_wrong` |
| F48 | frexp returns the exponent in an `int`; for abs(x) ≥ 2^(2^31) it is truncated | `frexp_int_wrong` |
| F49 | The reciprocal of a reciprocal: with 8/16-bit limbs `extract_parts` computes the power of ten of a leading limb equal to the radix in the limb type, where it wraps; 1/(1/10000) is 8155.3… (16-bit), 1/(1/100) is 41.… (8-bit) | `inv_of_inv_wrong`, `inv_of_inv_wrong_u8` |
| F50 | rootn(1, 4) is 0.8155… with 16-bit limbs and 20 digits if `pow(1e-4, -0.25)` returns exactly 10 (malformed start value, then F49) | `rootn_one_wrong` |
| F51 | cbrt(0), rootn(0, p ≥ 3), rootn_inv(0, p) never end: the start value is infinite | `rootn_zero_never` |
| F52 | rootn_inv(x, 1) is x, not 1/x | `rootn_inv_one_wrong` |
| F53 | rootn(x < 0, p) is 0 for every p ≠ 3, even p = 1 and odd p | `rootn_odd_wrong` |
| F54 | with `float` as `FftFloatType` and 32-bit limbs the FFT product is wrong: coefficient 1 of (99999999 99999999 …)² is 199960002, its computed value is off by more than 1 | `fft_single_precision_inaccurate` |
| F55 | above 51 digits the AGM loops of `ln_two` and `log` have no end when `ak` and `bk` become equal before the criterion is met: `ilogb(0)` = 0 counts as 0 digits; after 128 rounds `ak` is returned in place of `ak + bk`, so ln_two is 1.386… (`decwide_t<56, uint8_t>`), log(2) is 93.57… (`decwide_t<80, uint8_t>`) | `ln_two_wrong`, `log_agm_wrong` |
| F56 | the start value 2^(2-m) with m = 1.67·digits10 is too large by a factor of about 4 for the formula: ln_two of `decwide_t<52>` is off by more than 4·10^-52, log(10) by more than 12·10^-51 | `ln_two_inaccurate`, `log_agm_inaccurate` |
| F57 | the text buffer of the conversion to `long double` has no room for the terminating zero when leading limb and exponent have all their digits: with 16-bit exponents and 12345678·10^1000 `strtold` reads behind the buffer (also 8- and 32-bit exponents) | `to_long_double_overread`, `to_long_double_overread_witness` |
| F58 | the conversion to `double` rounds twice (cut-off, `long double`, `double`) and is not correctly rounded | `to_double_not_nearest` |
| F59 | copy assignment to an object that was moved from (by construction) copies no limbs: the object stays without storage and reading it is undefined (dynamic storage) | `moved_from_assignment_lost` |
| F60 | `x.swap(decwide_t(w))`: both share one block, which the temporary frees; x dangles, its destruction frees the block again, the old block leaks (dynamic storage) | `swap_with_temporary_dangles` |
| F61 | with few digits an integer operand of a comparison is cut: in `decwide_t<4, uint8_t>` 12345678901 == 12345678902 | `compare_int_wrong` |
| F62 | `log` above 51 digits compares the difference of the means with one, not with the means: log(2·10^(10^17)) has 42 of 52 digits right | `log_agm_huge_inaccurate` |
| F63 | below 32 exponent bits the width of the addition window is the number of internal digits modulo 2^w: with `int8_t` and 225–232 digits (32-bit limbs) x + y is x or y for all non-zero x, y, so 1 + 1 = 1 | `exponent_type_drops_addends`, `exponent_type_one_plus_one` |
| F64 | cancellation below the least exponent wraps: with `int8_t`, 80 digits, (1e-64 + 1e-136) - 1e-64 = 1e120 | `exponent_type_wraps_difference` |
| F65 | with `int8_t` and 200 digits the integer part of 1.5 is 1.5 | `exponent_type_integer_part` |
| F66 | with `int8_t` the text 1e300 is read as 1e44 | `exponent_type_parse` |
| F67 | sums are not checked for overflow: with `int8_t` 5e127 + 5e127 = 1e-128; with `int32_t` at the end of the range signed overflow (undefined behaviour) | `exponent_type_sum_wraps` |
| F68 | narrow integer casts are not saturated although the 64-bit ones are: `static_cast<int>(10^20)` is -1, `static_cast<std::uint8_t>(300)` is 44, negative values wrap in unsigned types (2555-2566) | `cast_narrow_wraps`, `cast_wraps_partial` |
| F69 | the time text is copied to a 64-byte array without a check; calendar texts of 55 to 63 characters (long locales) run over the end | `time_seed_overrun` |
| F70 | products in the last decade of the range exceed max() and are not saturated, larger ones are: 9.9e63·99 > 1e64·99 with 8-bit exponents – multiplication is not monotone at the overflow threshold | `mul_monotone_false` |
| F71 | multiplication is not commutative: 1·0.99…9 = 0.99…9, 0.99…9·1 = 1; 0·max() = max(), max()·0 = 0 | `mul_comm_false` |
| F72 | the constant π of the Boost.Math binding stops one term early: for `decwide_t<88>` it is wrong from the 84th digit (more than 1000 ε); 10, 11, 22, 44 digits are affected as well (evaluated, not proved) | `boost_pi_inaccurate` |
| F73 | `parallel_for` adds the slice to the upper index without a check: near the end of the index type (106 … 254 in 8 bits on 100 threads) it wraps, indices outside the range are visited and others twice | `parallel_for_wraps` |
