{"id": "C01", "title": "Ordering agrees with numeric value", "statement": "For any two well-formed numbers x and y, x<y, x<=y, x==y, x!=y, x>=y, x>y return exactly what the comparison of the rational numbers they denote returns; in particular the order is total, antisymmetric and transitive, and all zeros compare equal whatever their sign or exponent.", "quantifier": "all pairs of well-formed numbers (any sign, exponent, limbs, digit count, limb width)", "why_tests_cant": "the number of pairs of limb vectors is astronomically large; equality of value versus representation has many cases (sign x exponent x limbs)", "anchors": ["math/wide_decimal/decwide_t.h:cmp", "math/wide_decimal/decwide_t.h:operator<", "math/wide_decimal/decwide_t_detail_ops.h:compare_ranges"]}
{"id": "C02", "title": "Addition is correct to the last internal limb", "statement": "x+y is the exact sum whenever that sum is representable and a multiple of the last-limb unit of the larger operand, and otherwise differs from the exact sum by less than one unit in the last internal limb of the larger operand; the error is far below the advertised digits10.", "quantifier": "all pairs of well-formed full-precision numbers, no overflow/underflow", "why_tests_cant": "all exponent offsets, sign combinations, carry and borrow chains, cancellation lengths", "anchors": ["math/wide_decimal/decwide_t.h:operator+=", "math/wide_decimal/decwide_t_detail_ops.h:eval_add_n", "math/wide_decimal/decwide_t_detail_ops.h:eval_subtract_n"]}
{"id": "C03", "title": "Subtraction is correct to the last internal limb", "statement": "x-y is the exact difference whenever that is representable and a multiple of the last-limb unit of the larger operand, and otherwise has error less than one unit in the last internal limb of the larger operand; x-x is zero and x-y = -(y-x).", "quantifier": "all pairs of well-formed full-precision numbers", "why_tests_cant": "cancellation of any length and at any offset", "anchors": ["math/wide_decimal/decwide_t.h:operator-=", "math/wide_decimal/decwide_t.h:operator-"]}
{"id": "C04", "title": "Compound assignment is safe when the right-hand side is the same object", "statement": "For op in +,-,*,/: x op= x (same object on both sides) leaves x with the same value as the non-aliased x op y with y a copy of x.", "quantifier": "all well-formed x", "why_tests_cant": "aliasing bugs show only for particular code paths", "anchors": ["math/wide_decimal/decwide_t.h:operator-=", "math/wide_decimal/decwide_t.h:operator+=", "math/wide_decimal/decwide_t.h:operator*=", "math/wide_decimal/decwide_t.h:operator/="]}
{"id": "C05", "title": "Multiplication is the truncated exact product", "statement": "For non-zero x and y without overflow/underflow, |x*y| is at most the exact |product| and is short of it by less than one unit in the last internal limb; it is exact when the product fits; the sign is the product of the signs.", "quantifier": "all pairs of well-formed numbers of any digit count that use the schoolbook or Karatsuba path", "why_tests_cant": "limb products x carries x normalisation shift, unbounded digit counts", "anchors": ["math/wide_decimal/decwide_t.h:operator*=", "math/wide_decimal/decwide_t.h:eval_mul_dispatch_multiplication_method"]}
{"id": "C06", "title": "Multiplying by zero gives zero", "statement": "0*y and y*0 are the number zero, and that zero behaves as zero (compares equal to 0, not negative, and it is an integer), for every y including max() and min().", "quantifier": "all well-formed y", "why_tests_cant": "special exponent ranges and signs interact with zero handling", "anchors": ["math/wide_decimal/decwide_t.h:operator*=", "math/wide_decimal/decwide_t.h:isneg", "math/wide_decimal/decwide_t.h:isint"]}
{"id": "C07", "title": "Overflow and underflow saturate", "statement": "When the exponent of a product exceeds the documented exponent range the result is max() with the sign of the product, and when it drops below the range the result is zero or min(); no other wrap-around occurs.", "quantifier": "all pairs of well-formed numbers", "why_tests_cant": "exponents near the limits of a 64-bit type with all limb patterns", "anchors": ["math/wide_decimal/decwide_t.h:operator*=", "math/wide_decimal/decwide_t.h:my_value_max", "math/wide_decimal/decwide_t.h:my_value_min"]}
{"id": "C08", "title": "Multiplication by a built-in unsigned integer", "statement": "x*n for built-in unsigned n equals the exact product truncated at the last internal limb (exact if it fits), with the sign of x; results for n=0 and n=1 are 0 and x.", "quantifier": "all well-formed x and all unsigned long long n", "why_tests_cant": "2^64 multipliers times all limb vectors; carry out of the top limb", "anchors": ["math/wide_decimal/decwide_t.h:mul_unsigned_long_long", "math/wide_decimal/decwide_t_detail_ops.h:mul_loop_n"]}
{"id": "C09", "title": "Division by a built-in unsigned integer", "statement": "x/n for built-in unsigned n>0 approximates the exact quotient with error below a bound far under one unit of digits10, never exceeds it in magnitude by more than that bound, keeps the sign of x and is exact when the quotient fits.", "quantifier": "all well-formed x and all n>0", "why_tests_cant": "all remainders and the leading-limb-vanishes case", "anchors": ["math/wide_decimal/decwide_t.h:div_unsigned_long_long", "math/wide_decimal/decwide_t_detail_ops.h:div_loop_n"]}
{"id": "C10", "title": "Representation invariant is preserved", "statement": "Every public constructor and arithmetic operation returns a number whose internal limbs are all below the limb radix, whose limb count is unchanged, whose exponent is a multiple of the limb digit count and whose leading limb is non-zero unless the number is zero; hence every number reachable by any sequence of operations is well formed.", "quantifier": "all finite sequences of public operations", "why_tests_cant": "histories are unbounded", "anchors": ["math/wide_decimal/decwide_t.h:decwide_t", "math/wide_decimal/decwide_t.h:operator+=", "math/wide_decimal/decwide_t.h:operator*=", "math/wide_decimal/decwide_t.h:mul_unsigned_long_long", "math/wide_decimal/decwide_t.h:div_unsigned_long_long"]}
{"id": "C11", "title": "Construction from built-in integers is exact", "statement": "decwide_t(n) denotes exactly n for every signed and unsigned built-in integer n (with capacity for its digits).", "quantifier": "all 64-bit signed and unsigned integers, all limb widths", "why_tests_cant": "2^64 values x configurations", "anchors": ["math/wide_decimal/decwide_t.h:decwide_t", "math/wide_decimal/decwide_t.h:from_unsigned_long_long"]}
{"id": "C12", "title": "Integer round trip", "statement": "Casting decwide_t(n) back to the same built-in integer type returns n; casting a non-integer truncates toward zero; out of range values saturate.", "quantifier": "all integers n of the built-in type; all well-formed numbers", "why_tests_cant": "2^64 values; fractional numbers of all lengths", "anchors": ["math/wide_decimal/decwide_t.h:extract_signed_long_long", "math/wide_decimal/decwide_t.h:extract_unsigned_long_long"]}
{"id": "C13", "title": "Integer part truncates toward zero", "statement": "extract_integer_part(x) is x truncated toward zero whenever |x| is below the documented size limit, and x itself above it.", "quantifier": "all well-formed x", "why_tests_cant": "all exponents and digit patterns", "anchors": ["math/wide_decimal/decwide_t.h:extract_integer_part"]}
{"id": "C14", "title": "isint recognises exactly the integers", "statement": "isint(x) is true iff the denoted number is an integer.", "quantifier": "all well-formed x", "why_tests_cant": "fraction digits can sit in any limb, or inside the middle of a limb", "anchors": ["math/wide_decimal/decwide_t.h:isint"]}
{"id": "C15", "title": "floor and ceil", "statement": "floor(x) is the greatest integer not above x and ceil(x) the least integer not below x.", "quantifier": "all well-formed x", "why_tests_cant": "negative, integral, tiny and zero inputs in all representations", "anchors": ["math/wide_decimal/decwide_t.h:floor", "math/wide_decimal/decwide_t.h:ceil"]}
{"id": "C16", "title": "ilogb is the decimal order of magnitude", "statement": "For non-zero x, 10^ilogb(x) <= |x| < 10^(ilogb(x)+1).", "quantifier": "all non-zero well-formed x", "why_tests_cant": "every leading limb and exponent", "anchors": ["math/wide_decimal/decwide_t.h:ilogb", "math/wide_decimal/decwide_t.h:order_of_builtin_integer"]}
{"id": "C17", "title": "Negation, absolute value and sign", "statement": "negate twice is the identity; fabs(x) denotes |x|; isneg is true exactly for negative numbers; unary minus denotes -x.", "quantifier": "all well-formed x", "why_tests_cant": "zero and sign cases in all representations", "anchors": ["math/wide_decimal/decwide_t.h:negate", "math/wide_decimal/decwide_t.h:fabs", "math/wide_decimal/decwide_t.h:isneg", "math/wide_decimal/decwide_t.h:operator-"]}
{"id": "C18", "title": "Limb addition and subtraction primitives are exact", "statement": "Adding (subtracting) two equal-length limb sequences yields the sum (difference) of the integers they denote modulo radix^n, with the returned carry (borrow) accounting exactly for the rest, all result limbs below the radix, also when the destination is one of the operands.", "quantifier": "all lengths n and all limb values below the radix, all limb widths", "why_tests_cant": "carry chains of unbounded length", "anchors": ["math/wide_decimal/decwide_t_detail_ops.h:eval_add_n", "math/wide_decimal/decwide_t_detail_ops.h:eval_subtract_n"]}
{"id": "C19", "title": "Limb range comparison", "statement": "compare_ranges returns -1/0/1 exactly according to the order of the integers the two ranges denote.", "quantifier": "all lengths and limb values", "why_tests_cant": "first difference may be at any position", "anchors": ["math/wide_decimal/decwide_t_detail_ops.h:compare_ranges"]}
{"id": "C20", "title": "Schoolbook multiplication is exact", "statement": "The 2n-limb result of the schoolbook multiplication of two n-limb sequences denotes the exact product for every limb type and every length at which the library uses it.", "quantifier": "all n-limb operands, each limb type, n up to the Karatsuba threshold", "why_tests_cant": "worst-case column sums need adversarial operands; accumulators are fixed width", "anchors": ["math/wide_decimal/decwide_t_detail_ops.h:eval_multiply_n_by_n_to_2n"]}
{"id": "C21", "title": "Karatsuba multiplication is exact", "statement": "For every padded length the library selects, the Karatsuba routine leaves in the 2n-limb result area the exact product of the two n-limb operands.", "quantifier": "all operands of every n in the library's size table, every limb type", "why_tests_cant": "recursion depth, sign cases and borrow/carry propagation are data dependent", "anchors": ["math/wide_decimal/decwide_t_detail_ops.h:eval_multiply_kara_n_by_n_to_2n", "math/wide_decimal/decwide_t_detail_ops.h:eval_multiply_kara_propagate_carry", "math/wide_decimal/decwide_t_detail_ops.h:eval_multiply_kara_propagate_borrow", "math/wide_decimal/decwide_t_detail.h:a029750"]}
{"id": "C22", "title": "Karatsuba stays inside its buffers", "statement": "The Karatsuba routine writes only inside its 2n-limb result area and its 4n-limb scratch area, never modifies its operands and no carry or borrow propagation runs off the front of the result.", "quantifier": "all operands, all padded lengths", "why_tests_cant": "out-of-bounds propagation would need an adversarial carry chain", "anchors": ["math/wide_decimal/decwide_t_detail_ops.h:eval_multiply_kara_n_by_n_to_2n"]}
{"id": "C23", "title": "Single-limb multiply and divide loops are exact", "statement": "Multiplying a limb sequence by a one-limb factor gives the exact product with the returned carry; dividing by a one-limb divisor gives the exact quotient limbs and the remainder.", "quantifier": "all lengths, limbs, factors and divisors of each limb width", "why_tests_cant": "all carries/remainders", "anchors": ["math/wide_decimal/decwide_t_detail_ops.h:mul_loop_n", "math/wide_decimal/decwide_t_detail_ops.h:div_loop_n"]}
{"id": "C24", "title": "Size tables for multiplication", "statement": "The Karatsuba padding length is the least table entry not below the requested limb count, is at least it, and is repeatedly halvable down to the schoolbook base; the FFT length is the least power of two not below the request.", "quantifier": "all requested limb counts in the supported range", "why_tests_cant": "a single bad table entry would corrupt only particular digit counts", "anchors": ["math/wide_decimal/decwide_t_detail.h:a029750_as_runtime_value", "math/wide_decimal/decwide_t_detail.h:a000079_as_runtime_value"]}
{"id": "C25", "title": "FFT product recombination is exact", "statement": "If the floating-point convolution values are within 1/2 of the true integer convolution, the carry-release loop of the FFT multiplication yields exactly the product limbs.", "quantifier": "all operands, lengths and all error patterns below 1/2", "why_tests_cant": "carry release over unbounded lengths", "anchors": ["math/wide_decimal/decwide_t_detail_ops.h:mul_loop_fft"]}
{"id": "C26", "title": "Reciprocal and division converge", "statement": "If the built-in floating-point start value of the reciprocal has a relative error below a stated bound, the precision-doubling Newton iteration ends with a reciprocal (hence a quotient) accurate to the advertised digits10.", "quantifier": "all non-zero well-formed divisors, all start values within the bound", "why_tests_cant": "digit patterns for which intermediate truncation is worst are rare", "anchors": ["math/wide_decimal/decwide_t.h:calculate_inv", "math/wide_decimal/decwide_t.h:operator/="]}
{"id": "C27", "title": "Square root converges", "statement": "If the start value has a relative error below a stated bound, calculate_sqrt of a non-negative number ends accurate to the advertised digits10; the root of zero and of one are exact and negative input gives zero.", "quantifier": "all non-negative well-formed numbers", "why_tests_cant": "coupled iteration truncation errors", "anchors": ["math/wide_decimal/decwide_t.h:calculate_sqrt"]}
{"id": "C28", "title": "Division by zero and of zero", "statement": "x/0 is not a silently wrong finite number that depends on representation: the outcome of x/0, 0/0 and x/x is fixed: x/x is exactly 1 and the x/0 outcome is the documented one.", "quantifier": "all well-formed x", "why_tests_cant": "representation dependent special cases", "anchors": ["math/wide_decimal/decwide_t.h:operator/=", "math/wide_decimal/decwide_t.h:calculate_inv"]}
{"id": "C29", "title": "Parsing decimal strings", "statement": "Constructing from a decimal string with optional sign, integer part, fraction and exponent denotes exactly that decimal number when its digits fit, and its truncation otherwise.", "quantifier": "all valid decimal strings", "why_tests_cant": "unbounded string lengths, decimal point position relative to limb boundaries", "anchors": ["math/wide_decimal/decwide_t.h:rd_string"]}
{"id": "C30", "title": "Formatting is correctly rounded", "statement": "Writing a number to a stream succeeds for every combination of flags and precision and writes a valid decimal text, in the notation asked for, with the number of decimals asked for, denoting the number rounded half-up at the requested digit, including carries that ripple through nines.", "quantifier": "all well-formed numbers, all requested digit counts", "why_tests_cant": "rippling carries of any length", "anchors": ["math/wide_decimal/decwide_t.h:get_output_digits", "math/wide_decimal/decwide_t.h:get_output_string", "math/wide_decimal/decwide_t.h:wr_string"]}
{"id": "C31", "title": "Print/parse round trip", "statement": "Printing an integer-valued or digits-limited number with enough digits and parsing the text back gives an equal number.", "quantifier": "all well-formed numbers with at most max_digits10 significant digits", "why_tests_cant": "limb alignment of the printed digits", "anchors": ["math/wide_decimal/decwide_t.h:wr_string", "math/wide_decimal/decwide_t.h:rd_string"]}
{"id": "C32", "title": "Integer power", "statement": "pow(x,p) for integral p>=0 performs a binary ladder whose result is x^p exactly whenever every intermediate product fits, and x^0=1.", "quantifier": "all p in the 63-bit range, all x", "why_tests_cant": "all bit patterns of p", "anchors": ["math/wide_decimal/decwide_t.h:pow"]}
{"id": "C33", "title": "Increment and decrement", "statement": "++x and --x denote x+1 and x-1 whenever the result fits.", "quantifier": "all well-formed x", "why_tests_cant": "carry chains", "anchors": ["math/wide_decimal/decwide_t.h:operator++", "math/wide_decimal/decwide_t.h:operator--"]}
{"id": "C34", "title": "Precision control", "statement": "precision(d) sets a limb count that holds at least d digits (capped at capacity, never below the minimum) and does not change the value of the number beyond discarding limbs beyond that precision in later operations.", "quantifier": "all int32 digit requests", "why_tests_cant": "rounding at limb boundaries", "anchors": ["math/wide_decimal/decwide_t.h:precision"]}
{"id": "C35", "title": "Integer to text conversion", "statement": "baselexical_cast of an unsigned integer yields its canonical representation in the base, without leading zeros, for every value including 0, never writing past the buffer.", "quantifier": "all values of the integer type, base 10 and 16", "why_tests_cant": "all digit counts", "anchors": ["util/utility/util_baselexical_cast.h:baselexical_cast"]}
{"id": "C36", "title": "dynamic_array behaves like a sequence", "statement": "Construction, copy, move, assignment, fill, swap and comparison of util::dynamic_array behave like the same operations on mathematical sequences, and no storage is owned twice.", "quantifier": "all lengths and contents, all operation histories", "why_tests_cant": "histories and length combinations", "anchors": ["util/utility/util_dynamic_array.h:dynamic_array"]}
{"id": "C37", "title": "Slot allocator never hands out a live slot twice", "statement": "For every history of allocate/deallocate calls the n-slot allocator returns distinct in-range slots for simultaneously live blocks, deallocate frees exactly the given slot, and it returns null only when all slots are live.", "quantifier": "all histories of allocate/deallocate", "why_tests_cant": "unbounded histories", "anchors": ["util/memory/util_n_slot_array_allocator.h:n_slot_array_allocator"]}
{"id": "C38", "title": "Exponent wrapper arithmetic", "statement": "The sign-magnitude exponent helper's += and -= and its conversion compute the signed integer sum and difference whenever they are representable.", "quantifier": "all pairs of representable exponents", "why_tests_cant": "sign x magnitude x equality cases at the type's limits", "anchors": ["math/wide_decimal/decwide_t_detail.h:unsigned_wrap"]}
{"id": "C39", "title": "Built-in constants are correct", "statement": "The tabulated constants pi, ln 2 and ln 10 used for at most 51 digits agree with the true mathematical constants to the advertised number of digits, for every limb width.", "quantifier": "all limb widths and digit counts up to 51", "why_tests_cant": "needs the real constant, not a second table", "anchors": ["math/wide_decimal/decwide_t.h:calc_pi", "math/wide_decimal/decwide_t.h:calc_ln_two", "math/wide_decimal/decwide_t.h:calc_ln_ten_low_precision"]}
{"id": "C40", "title": "numeric_limits is consistent", "statement": "For every well-formed x: lowest() <= x <= max(); min() is positive; epsilon() is the gap used by the digit count: 1+epsilon() differs from 1.", "quantifier": "all configurations, all well-formed x", "why_tests_cant": "quantifies over every number", "anchors": ["math/wide_decimal/decwide_t.h:numeric_limits", "math/wide_decimal/decwide_t.h:my_value_max", "math/wide_decimal/decwide_t.h:my_value_min", "math/wide_decimal/decwide_t.h:my_value_eps"]}
{"id": "C41", "title": "swap exchanges values", "statement": "swap(x,y) exchanges the complete observable state of two numbers, and self-swap changes nothing.", "quantifier": "all pairs of numbers", "why_tests_cant": "all states", "anchors": ["math/wide_decimal/decwide_t.h:swap"]}
{"id": "C42", "title": "Rounding to max_digits10", "statement": "Internal rounding before extraction replaces the number by a neighbour at the max_digits10-th significant digit, round half up, renormalising when the carry ripples over the top.", "quantifier": "all well-formed numbers", "why_tests_cant": "carry ripple and boundary limb positions", "anchors": ["math/wide_decimal/decwide_t.h:eval_round_self"]}
{"id": "C43", "title": "Built-in float conversion is exact", "statement": "Constructing from a built-in binary float denotes exactly mantissa*2^exponent whenever digits fit; zero for the inputs the library treats as zero.", "quantifier": "all normal floats", "why_tests_cant": "all mantissas and exponents", "anchors": ["math/wide_decimal/decwide_t.h:from_builtin_float_type", "math/wide_decimal/decwide_t_detail.h:native_float_parts"]}
{"id": "C44", "title": "Argument order and mixed operands", "statement": "x op n, n op x, and x op= n for built-in n give the same numeric value as converting n to decwide_t first.", "quantifier": "all well-formed x and built-in integers n", "why_tests_cant": "all n, including the minimum negative integer", "anchors": ["math/wide_decimal/decwide_t.h:add_signed_long_long", "math/wide_decimal/decwide_t.h:sub_signed_long_long", "math/wide_decimal/decwide_t.h:mul_signed_long_long", "math/wide_decimal/decwide_t.h:div_signed_long_long"]}
{"id": "C45", "title": "Representation is unique", "statement": "Two numbers at full precision that denote the same non-zero value have the same digits, exponent, sign and precision, so no observer (printing, comparison, extraction) can distinguish them.", "quantifier": "all pairs of well-formed full-precision numbers", "why_tests_cant": "quantifies over all histories that could build the same value differently", "anchors": ["math/wide_decimal/decwide_t.h:decwide_t"]}
{"id": "C46", "title": "Stream extraction", "statement": "operator>> of a valid decimal text gives the same value as constructing from the text and leaves a well-formed object, whatever the object held before.", "quantifier": "all valid decimal texts and all prior precisions", "why_tests_cant": "text length and prior state", "anchors": ["math/wide_decimal/decwide_t.h:rd_string"]}
{"id": "C47", "title": "exp is accurate", "statement": "exp(x) is positive and agrees with e^x to the advertised digits10 digits (stated with an explicit relative error), for every x whose exponential is representable; exp(0) is 1.", "quantifier": "all well-formed x, all digit counts and limb widths", "why_tests_cant": "argument reduction, series, 2048th power and scaling interact; e^x is irrational, so tests compare with tables at a few points only", "anchors": ["math/wide_decimal/decwide_t.h:exp", "math/wide_decimal/decwide_t.h:ldexp"]}
{"id": "C48", "title": "log is accurate", "statement": "log(x) ends for every x > 0 and agrees with ln x to the advertised digits10 digits (stated with an explicit absolute error); log(1) is 0; for x <= 0 the call ends (with whatever value the library defines).", "quantifier": "all well-formed x > 0 (termination: all x), digit counts up to 51, all limb widths", "why_tests_cant": "scaling by powers of ten, series, reciprocal recursion below 1 and n*ln 10 interact; termination cannot be tested for all x", "anchors": ["math/wide_decimal/decwide_t.h:log"]}
{"id": "C49", "title": "fmod is the remainder of the truncated division", "statement": "fmod(u, v) returns u - n*v with n = u/v rounded toward zero: a number with the sign of u and magnitude below |v|, exact for operands that are decimal numbers with few enough digits, 0 when v divides u.", "quantifier": "all pairs of decimal operands with at most digits10-2 digits over a common power of ten, all configurations", "why_tests_cant": "The quotient is computed with an error and then rounded and truncated; whether the truncation lands on the right integer depends on every digit of both operands.", "anchors": ["math/wide_decimal/decwide_t.h:fmod", "math/wide_decimal/decwide_t.h:floor", "math/wide_decimal/decwide_t.h:ceil"]}
{"id": "C50", "title": "extract_parts returns an accurate mantissa and the exact decimal exponent", "statement": "For every non-zero x, x.extract_parts(m, e) sets e to the exponent with 10^(e-1) <= |x| < 10^e and m to a floating-point number with the sign of x such that m*10^e is x up to a relative 2*10^-digits10 of the floating-point type.", "quantifier": "all non-zero numbers of all configurations whose numbers have at least as many limbs as the floating-point type fills", "why_tests_cant": "The mantissa is accumulated limb by limb with a rounding error in each step; the bound must hold for every limb pattern.", "anchors": ["math/wide_decimal/decwide_t.h:extract_parts"]}
{"id": "C51", "title": "sinh, cosh and tanh are accurate", "statement": "For every x whose e^|x| is inside the exponent range, cosh(x) is right to a relative error and sinh(x), tanh(x) to an error of a few units of the digits the type promises; sinh(0)=0, cosh(0)=1, tanh(0)=0.", "quantifier": "all values, all configurations whose ln 2 is right", "why_tests_cant": "The three functions combine an exponential, a reciprocal that can be malformed next to a power of the radix, and a cancelling subtraction; the error bound must hold for every argument.", "anchors": ["math/wide_decimal/decwide_t.h:sinh", "math/wide_decimal/decwide_t.h:cosh", "math/wide_decimal/decwide_t.h:tanh"]}
{"id": "C52", "title": "ldexp multiplies by a power of two", "statement": "ldexp(v, e) is v*2^e up to a relative error of a few units of the digits the type promises (growing linearly with |e| only in guard digits), for every e for which 2^|e| and the result are in range; ldexp(v, 0) is v.", "quantifier": "all values, all int exponents whose power of two is in range, all configurations", "why_tests_cant": "Small exponents shift an integer, large ones raise 2 to a power with a rounding error per step, negative ones divide by the result; every combination of exponent and value has its own error.", "anchors": ["math/wide_decimal/decwide_t.h:ldexp"]}
{"id": "C53", "title": "frexp splits into a binary mantissa and exponent", "statement": "frexp(x, &e) returns, for every non-zero x, a number r of the sign of x with 1/2 <= |r| < 1 and sets e such that r*2^e is x up to a relative error of a few units of the digits the type promises; the call ends; frexp(0) is 0 with e = 0.", "quantifier": "all values, all configurations", "why_tests_cant": "The scaling uses an estimated power of two and then two data-dependent loops; termination and the half-open interval must hold for every argument.", "anchors": ["math/wide_decimal/decwide_t.h:frexp", "math/wide_decimal/decwide_t.h:calculate_frexp"]}
{"id": "C54", "title": "pow(x, a) is x to the power a", "statement": "For every x > 0 and every a for which x^a is inside the exponent range, pow(x, a) of two wide decimals ends and is x^a up to a relative error of a few units of the digits the type promises (growing with |a| and |a ln x|); pow(x, 0) = 1 and pow(1, a) = 1.", "quantifier": "all positive x, all a, all configurations", "why_tests_cant": "The result goes through a logarithm, a rounded product and an exponential; the absolute error of the logarithm is multiplied by a, and the logarithm itself need not end.", "anchors": ["math/wide_decimal/decwide_t.h:pow"]}
{"id": "C55", "title": "rootn, cbrt and rootn_inv are the real roots", "statement": "For every x > 0 and every degree p, rootn(x, p) is x^(1/p) and rootn_inv(x, p) is x^(-1/p) up to a relative error of a few units of the digits the type promises; cbrt(x) has the sign of x and the magnitude |x|^(1/3); odd roots of negative numbers are negative; roots of 0 are 0; the calls end.", "quantifier": "all values, all degrees, all configurations", "why_tests_cant": "A Newton iteration at growing precision from a start value computed by pow in binary floating-point; convergence must hold for every mantissa, exponent and degree.", "anchors": ["math/wide_decimal/decwide_t.h:rootn", "math/wide_decimal/decwide_t.h:cbrt", "math/wide_decimal/decwide_t.h:rootn_inv", "math/wide_decimal/decwide_t.h:calculate_rootn_inv"]}
{"id": "C56", "title": "The transforms of the FFT multiplication compute the convolution of the digits", "statement": "For products of 1793 and more limbs: apart from rounding, the forward transform yields the Fourier coefficients of the digits, the inverse transform undoes it, and the values obtained from the product of two transforms are the coefficients of the product of the two digit sequences; the transform is always long enough, so that high and low digits never overlap.", "quantifier": "all limb types, all numbers of limbs up to 2^29, all digits", "why_tests_cant": "The transform is a recursion over thousands of points with in-place updates and a bit reversal; tests see a few products, in which a wrong factor or index in a rarely used place may be invisible.", "anchors": ["math/wide_decimal/decwide_t_detail_fft.h:rfft_lanczos_rfft", "math/wide_decimal/decwide_t_detail_fft.h:fft_lanczos_fft", "math/wide_decimal/decwide_t_detail_fft.h:danielson_lanczos_apply", "math/wide_decimal/decwide_t_detail_ops.h:mul_loop_fft"]}
{"id": "C57", "title": "The rounding errors of the FFT multiplication are too small to change a digit", "statement": "For products of 1793 and more limbs: the sine table is correct, and after the inverse transform every value, computed in binary floating-point, is within 1/4 of the integer it stands for, so that rounding to the nearest integer recovers every coefficient of the product and the limbs are right whatever the operands.", "quantifier": "all operands of every admissible number of limbs, all limb types and floating-point types of the transforms", "why_tests_cant": "The worst case of the accumulated rounding error over thousands of operations is reached by operands no test will hit; random operands are far from it.", "anchors": ["math/wide_decimal/decwide_t_detail_fft.h:template_sin_order_1", "math/wide_decimal/decwide_t_detail_fft.h:rfft_lanczos_rfft", "math/wide_decimal/decwide_t_detail_fft.h:danielson_lanczos_apply", "math/wide_decimal/decwide_t_detail_ops.h:mul_loop_fft"]}
{"id": "C58", "title": "The computed value of pi is pi to the requested number of digits", "statement": "For more than 51 digits, pi<...>() agrees with the mathematical constant to within one unit of the last of the requested digits (32- and 16-bit limbs) or a bounded number of units (8-bit limbs), and the iteration stops after a number of rounds logarithmic in the number of digits.", "quantifier": "all numbers of digits above 51, all limb types, floating-point start values in float or double", "why_tests_cant": "Each number of digits is a different program run with its own accumulation of rounding errors; tests compare a handful of digit counts with known digits.", "anchors": ["math/wide_decimal/decwide_t.h:calc_pi", "math/wide_decimal/decwide_t.h:pi"]}
{"id": "C59", "title": "The computed value of ln_two is the logarithm of 2 to the requested number of digits", "statement": "For more than 51 digits, ln_two<...>() agrees with the mathematical constant to within one unit of the last of the requested digits.", "quantifier": "all numbers of digits above 51, all limb types, floating-point start values in float or double", "why_tests_cant": "Each number of digits is a different program run with its own number of rounds, start value and rounding errors; whether the iteration stops by its criterion depends on the last bits of the iterates.", "anchors": ["math/wide_decimal/decwide_t.h:calc_ln_two", "math/wide_decimal/decwide_t.h:ln_two"]}
{"id": "C60", "title": "log is the natural logarithm above 51 digits as well", "statement": "For more than 51 digits and every x > 0, log(x) ends and differs from the natural logarithm of x by a few units of the last of the requested digits, relative to the larger of 1 and the logarithm.", "quantifier": "all x > 0, all numbers of digits above 51, all limb types", "why_tests_cant": "The arithmetic-geometric mean iteration starts from a power of two chosen in single precision from the exponent of x and stops by a criterion on the difference of the means; both depend on every digit of x.", "anchors": ["math/wide_decimal/decwide_t.h:log"]}
{"id": "C61", "title": "Conversion to built-in floating-point types is accurate, exact where possible and monotone", "statement": "static_cast to long double, double or float gives a number of the type as close to x as possible up to a bounded excess, gives x itself when x is representable (so a built-in number survives the round trip through decwide_t), keeps the order of numbers, and stays inside its text buffer.", "quantifier": "all numbers with an exponent in range, all limb types, digit counts and exponent types, any round-to-nearest arithmetic", "why_tests_cant": "The failing cases are numbers next to the midpoint of two neighbours or texts that exactly fill an internal buffer; random values never get there, and an over-read of one character usually goes unnoticed.", "anchors": ["math/wide_decimal/decwide_t.h:extract_long_double", "math/wide_decimal/decwide_t.h:get_output_digits", "math/wide_decimal/decwide_t.h:operator double"]}
{"id": "C62", "title": "exp above 2000 digits is accurate", "statement": "For more than 2000 digits exp(0) is 1, exp(-x) is the reciprocal of exp(x), and exp(x) of a positive x is positive with a relative error explained by the errors of ln 2 (times the size of x) and of log, plus a few units behind the last requested digit.", "quantifier": "all x with a result in range, all limb types and exponent types, any exponential function of the built-in type with an error of at most four units, any log and ln 2 of stated accuracy", "why_tests_cant": "A Newton iteration that doubles the number of limbs each round from a double-precision start; an error of the working precision in one of ten rounds shows only for some digit counts, and one run takes seconds.", "anchors": ["math/wide_decimal/decwide_t.h:exp"]}
{"id": "C63", "title": "Objects hold their values through copies, moves, assignments, swaps and destruction", "statement": "Copies are independent, a move transfers the value, assignment replaces it, also for an object that was moved from, swap (member, std::swap, with a temporary) exchanges values; storage is never freed twice, used after it was freed, or lost.", "quantifier": "all programs that create, copy, move, assign, swap, change in place and destroy named numbers, with dynamic and static storage", "why_tests_cant": "Tests use short sequences of such operations; which sequences reach an object without storage depends on the history, and a dangling block often still holds the old digits.", "anchors": ["math/wide_decimal/decwide_t.h:decwide_t", "math/wide_decimal/decwide_t.h:operator=", "math/wide_decimal/decwide_t.h:swap", "util/utility/util_dynamic_array.h:dynamic_array", "math/wide_decimal/decwide_t_detail.h:fixed_dynamic_array"]}
{"id": "C64", "title": "Comparing with built-in numbers compares the values", "statement": "x op n and n op x, for the six comparison operators and a built-in integer or floating-point n on either side, answer as the comparison of the two numbers does; n op x agrees with x op' n, and exactly one of <, ==, > holds.", "quantifier": "all numbers, all operators, all 64-bit integers and all normal floating-point numbers, all limb types and digit counts", "why_tests_cant": "The operand is converted first; whether the conversion keeps every digit depends on the digit count of the type, and only operands with many digits show it.", "anchors": ["math/wide_decimal/decwide_t.h:operator<", "math/wide_decimal/decwide_t.h:operator==", "math/wide_decimal/decwide_t.h:cmp"]}
{"id": "C65", "title": "Results do not depend on the exponent type while exponents are in range", "statement": "Addition, subtraction, multiplication, multiplication by an integer, the integer part and conversion from text give the same number with 8-, 16-, 32- and 64-bit exponents (and as with unbounded ones), without overflow of the exponent type, whenever the exponents of the operands keep clear of the ends of the type's range by the number of internal digits; multiplication always does.", "quantifier": "all numbers, all exponent widths, all limb types and digit counts", "why_tests_cant": "An exponent wraps only for operands next to the end of the range or for particular pairs of digit count and exponent width, and the wrapped result is again a valid number.", "anchors": ["math/wide_decimal/decwide_t.h:operator+=", "math/wide_decimal/decwide_t.h:operator*=", "math/wide_decimal/decwide_t.h:mul_unsigned_long_long", "math/wide_decimal/decwide_t.h:extract_integer_part", "math/wide_decimal/decwide_t.h:rd_string"]}
{"id": "C66", "title": "Threads that share no changed object do not disturb each other, and scratch memory carries nothing over", "statement": "In the default build any number of threads may assign, add, subtract and multiply at the same time, provided no number changed by one thread is used by another (reading a common operand is allowed): every thread obtains what it would obtain alone, no two conflicting accesses are ever possible at once, and every access stays inside the numbers and temporaries involved. Within one thread, results do not depend on what earlier operations left in scratch memory.", "quantifier": "all interleavings of the memory accesses of any number of threads, all statements and operands (also an operand that is the target itself), all initial contents of memory, all limb types and precisions below the FFT threshold", "why_tests_cant": "A race shows in a few of astronomically many interleavings; a stale scratch limb shows only for particular sequences of operations.", "anchors": ["math/wide_decimal/decwide_t.h:operator+=", "math/wide_decimal/decwide_t.h:operator-=", "math/wide_decimal/decwide_t.h:operator*=", "math/wide_decimal/decwide_t.h:my_n_data_for_add_sub", "math/wide_decimal/decwide_t.h:eval_mul_dispatch_multiplication_method"]}
{"id": "C67", "title": "Conversion to any built-in integer type truncates; integers survive the round trip", "statement": "Casting to any built-in integer type gives the value truncated toward zero whenever the truncation is a value of the type (so a value strictly between -1 and 0 gives 0 in an unsigned type); otherwise the result is the 64-bit saturated truncation reduced modulo the range of the type. Every value of every built-in integer type converts to exactly that number and back. Casting to bool tells whether the value is not zero.", "quantifier": "all numbers with at most max_digits10 significant digits, all integer types of up to 64 bits, signed and unsigned, all limb types and at least 16 digits", "why_tests_cant": "Only values at the boundary of the target type or of the 64-bit intermediate show a wrong limit, and tests use one or two target types.", "anchors": ["math/wide_decimal/decwide_t.h:operator IntegralType", "math/wide_decimal/decwide_t.h:operator bool", "math/wide_decimal/decwide_t.h:extract_signed_long_long", "math/wide_decimal/decwide_t.h:extract_unsigned_long_long"]}
{"id": "C68", "title": "Multiplication stays inside its arrays at every size", "statement": "The product buffers (dynamic or static) are large enough for every precision; the FFT transforms write no cell behind their buffers and the product does not depend on what lies behind them or on what the buffers held before; the final shift of the limbs stays inside the number.", "quantifier": "all sizes from one limb to 2^29 limbs, all operands, all contents of memory, any floating-point arithmetic", "why_tests_cant": "An access one cell too far usually hits padding or an unused limb and changes no result; only some sizes have no slack, and the sizes are the powers of two around each digit count.", "anchors": ["math/wide_decimal/decwide_t.h:eval_mul_dispatch_multiplication_method", "math/wide_decimal/decwide_t.h:my_kara_mul_pool", "math/wide_decimal/decwide_t_detail_fft.h:rfft_lanczos_rfft", "math/wide_decimal/decwide_t_detail_ops.h:mul_loop_fft"]}
{"id": "C69", "title": "The seed taken from the clock is a CRC-64 of the time text, and close times give different seeds", "statement": "The checksum is the remainder of the text divided by the CRC-64 generator over the field with two elements, for every text; texts differing only within eight consecutive characters have different checksums, so two seeds taken in the same second at clock values that agree in the leading of nine digits differ.", "quantifier": "all texts of any length, all pairs of texts differing in a burst of up to eight bytes, all clock values below 10^9", "why_tests_cant": "The compile-time check covers one text of nine bytes; collisions among nearby texts cannot be excluded by sampling.", "anchors": ["util/utility/util_pseudorandom_time_point_seed.h:crc_bitwise_template", "util/utility/util_pseudorandom_time_point_seed.h:value"]}
{"id": "C70", "title": "Rounding keeps the order of sums and products and the symmetry of products", "statement": "x <= y implies x+z <= y+z, z+x <= z+y, x-z <= y-z, z-y <= z-x; with z >= 0 also x*z <= y*z and z*x <= z*y; adding a non-negative number never decreases a value; x*y = y*x and (-x)*y = x*(-y) = -(x*y).", "quantifier": "all triples of full-precision numbers of every configuration below the FFT sizes", "why_tests_cant": "The rounding direction and unit differ from branch to branch (equal or opposite signs, larger exponent first, carry, factor passing for one), so an inversion needs neighbouring values on both sides of a branch; there is no end of such triples.", "anchors": ["math/wide_decimal/decwide_t.h:operator+=", "math/wide_decimal/decwide_t.h:operator-=", "math/wide_decimal/decwide_t.h:operator*=", "math/wide_decimal/decwide_t.h:isone_sign_neutral"]}
{"id": "C71", "title": "The constant pi offered to Boost.Math terminates and is accurate to a few epsilon", "statement": "boost::math::constants::pi<decwide_t<...>>() ends after a number of rounds of the order of log2(digits10) although its loop has no bound, and differs from pi by a few epsilon of the type.", "quantifier": "all numbers of digits, all limb types, all internal floating-point types", "why_tests_cant": "Each number of digits is a different run with its own rounding errors; whether the unbounded loop ends depends on the last bits of the means, and the error depends on how far below epsilon the last term happens to fall.", "anchors": ["boost/math/bindings/decwide_t.hpp:constant_pi", "boost/math/bindings/decwide_t.hpp:my_compute"]}
{"id": "C72", "title": "The binary precision reported to Boost.Math matches digits10 and the policy", "statement": "The number of bits derived from digits10 resolves all digits10 decimal digits and converts back to digits10 or one more; a policy asking for fewer bits (but more than none) gets exactly those, any other the full precision.", "quantifier": "all digits10, all policies", "why_tests_cant": "The integer formula could lose a digit for some of the unboundedly many digit counts; tests use a few.", "anchors": ["boost/math/bindings/decwide_t.hpp:precision"]}
{"id": "C73", "title": "The control digits of pi are digits of pi", "statement": "The limb tables against which a computed pi is checked are right: the head tables hold the first 56 decimals of pi, rounded down, and the tail tables hold the last 64 of the first 10^4, 10^5 and 10^6 decimals, for each of the three limb types, as valid limbs.", "quantifier": "the three limb types and the four tables of each", "why_tests_cant": "The tables are the oracle of the pi examples: a wrong digit in them makes a test of a right program fail or one of a wrong program pass, and comparing them with another list of digits only moves the question.", "anchors": ["math/constants/constants_pi_control_for_decwide_t.h:const_pi_control_head_32", "math/constants/constants_pi_control_for_decwide_t.h:const_pi_control_tail_32_10001", "math/constants/constants_pi_control_for_decwide_t.h:const_pi_control_tail_32_100001"]}
{"id": "C74", "title": "parallel_for calls its function once per index in every schedule", "statement": "parallel_for(start, end, f) calls f exactly once for every index from start up to (excluding) end and for no other, launches at most the number of available threads and none for an empty range, and when calls of f commute the outcome is that of sequential_for, in whatever order the threads run.", "quantifier": "all ranges, index types, thread counts, all schedules of the threads", "why_tests_cant": "The division of the range depends on the number of threads of the machine and on rounding in float, and the order of the calls on the scheduler; a test sees one machine and a few schedules.", "anchors": ["test/parallel_for.h:parallel_for", "test/parallel_for.h:sequential_for"]}
