{
 "claims": [
  {
   "property": "C01",
   "status": "proved",
   "theorems": [
    "WD.ordering_matches_value",
    "WD.ordering_total"
   ],
   "note": ""
  },
  {
   "property": "C02",
   "status": "proved",
   "theorems": [
    "WD.add_decimal_exact",
    "WD.add_error",
    "WD.add_last_limb",
    "WD.add_exact",
    "WD.add_comm_value"
   ],
   "note": "full-precision operands"
  },
  {
   "property": "C03",
   "status": "proved",
   "theorems": [
    "WD.sub_decimal_exact",
    "WD.sub_error",
    "WD.sub_exact",
    "WD.sub_self_antisymm",
    "WD.sub_sign"
   ],
   "note": "full-precision, distinct objects"
  },
  {
   "property": "C04",
   "status": "partial",
   "theorems": [
    "WD.compound_distinct_objects",
    "WD.compound_self_alias_partial",
    "WD.sub_self_alias_doubles"
   ],
   "note": "store model with object identity; +=, *=, /= proved; x -= x on one object gives 2x (proved for every non-zero x)"
  },
  {
   "property": "C05",
   "status": "partial",
   "theorems": [
    "WD.mul_error",
    "WD.mul_relative_error",
    "WD.mul_truncated_partial",
    "WD.mul_nines_not_truncated"
   ],
   "note": "true except when an operand is the largest number below one, where the code returns the other operand: negation proved"
  },
  {
   "property": "C06",
   "status": "partial",
   "theorems": [
    "WD.mul_zero_value_partial",
    "WD.zero_times_max_is_max",
    "WD.zero_times_neg_is_negative_zero"
   ],
   "note": "the claim is false as stated (witnesses proved); the value is zero when the exponent of the other operand is in range"
  },
  {
   "property": "C07",
   "status": "proved",
   "theorems": [
    "WD.mul_overflow_saturates",
    "WD.mul_underflow_saturates",
    "WD.mul_unsigned_overflow"
   ],
   "note": ""
  },
  {
   "property": "C08",
   "status": "partial",
   "theorems": [
    "WD.mul_unsigned_error",
    "WD.mul_unsigned_truncated_partial",
    "WD.mul_unsigned_overflow"
   ],
   "note": "truncation fails for x = largest number below one and n at least the radix"
  },
  {
   "property": "C09",
   "status": "partial",
   "theorems": [
    "WD.div_unsigned_partial",
    "WD.div_unsigned_accuracy",
    "WD.div_signed_accuracy",
    "WD.div_unsigned_special",
    "WD.div_unsigned_not_exact"
   ],
   "note": "error bound and sign for every divisor; \"exact when the quotient fits\" is false (witness proved)"
  },
  {
   "property": "C10",
   "status": "partial",
   "theorems": [
    "WD.every_program_keeps_invariant_partial",
    "WD.every_program_keeps_invariant_float_partial",
    "WD.add_wf",
    "WD.reduced_precision_breaks_invariant",
    "WD.reduced_precision_carry_displaced",
    "WD.inv_radix_power_malformed"
   ],
   "note": "all programs over integers, parsed texts, + - * /, pow, reciprocal, integer operands, floor/ceil, swap, with aliasing, as long as no divisor lies just above a power of the limb radix; false for such divisors and after precision() (witnesses)"
  },
  {
   "property": "C11",
   "status": "proved",
   "theorems": [
    "WD.of_unsigned_exact",
    "WD.of_signed_exact",
    "WD.int_capacity"
   ],
   "note": ""
  },
  {
   "property": "C12",
   "status": "partial",
   "theorems": [
    "WD.to_signed_truncates_partial",
    "WD.to_unsigned_truncates_partial",
    "WD.int_round_trip",
    "WD.int_round_trip_wraps"
   ],
   "note": "guarded by digit capacity; the unguarded round trip is false for small digits10 (witness proved)"
  },
  {
   "property": "C13",
   "status": "proved",
   "theorems": [
    "WD.integer_part_truncates"
   ],
   "note": ""
  },
  {
   "property": "C14",
   "status": "partial",
   "theorems": [
    "WD.isint_iff_integer_partial",
    "WD.zero_times_neg_is_negative_zero"
   ],
   "note": "excludes zeros with a negative exponent (0*0.5), for which the claim is false"
  },
  {
   "property": "C15",
   "status": "partial",
   "theorems": [
    "WD.floor_ceil_exact_partial",
    "WD.floor_ceil_of_rounded",
    "WD.floor_ceil_of_computed_zero",
    "WD.floor_rounds_up_first",
    "WD.floor_keeps_fraction_at_limit"
   ],
   "note": "exact for numbers of at most max_digits10 digits below the size limit; false otherwise (witnesses proved)"
  },
  {
   "property": "C16",
   "status": "proved",
   "theorems": [
    "WD.ilogb_order"
   ],
   "note": ""
  },
  {
   "property": "C17",
   "status": "partial",
   "theorems": [
    "WD.sign_operations",
    "WD.isneg_negative_partial",
    "WD.zero_times_neg_is_negative_zero"
   ],
   "note": "isneg is exact except for negative zeros, which arise from 0*(-1): witness proved"
  },
  {
   "property": "C18",
   "status": "proved",
   "theorems": [
    "WD.limb_add_exact",
    "WD.limb_sub_exact"
   ],
   "note": "pointer-level, aliasing destination allowed"
  },
  {
   "property": "C19",
   "status": "proved",
   "theorems": [
    "WD.compare_ranges_is_order"
   ],
   "note": ""
  },
  {
   "property": "C20",
   "status": "partial",
   "theorems": [
    "WD.school_mul_exact_partial",
    "WD.school_u16_overflow"
   ],
   "note": "exact for 8/32-bit limbs at all lengths used and 16-bit limbs up to 42 limbs; the remaining claim is false (16-bit column accumulator overflows at 43 limbs), witness proved"
  },
  {
   "property": "C21",
   "status": "proved",
   "theorems": [
    "WD.kara_mul_exact"
   ],
   "note": ""
  },
  {
   "property": "C22",
   "status": "proved",
   "theorems": [
    "WD.kara_mul_frame"
   ],
   "note": ""
  },
  {
   "property": "C23",
   "status": "proved",
   "theorems": [
    "WD.mul_loop_exact",
    "WD.div_loop_exact"
   ],
   "note": ""
  },
  {
   "property": "C24",
   "status": "proved",
   "theorems": [
    "WD.karaLen_least",
    "WD.fftLen_least"
   ],
   "note": ""
  },
  {
   "property": "C25",
   "status": "partial",
   "theorems": [
    "WD.fft_release_partial",
    "WD.mul_fft_error_partial",
    "WD.mul_fft_double_partial",
    "WD.fft_product_loses_digits",
    "WD.fft_product_not_accurate"
   ],
   "note": "The carry release is exact on the coefficients it uses, for all lengths and all transform errors up to 1/4, and the resulting product error is bounded. The claim itself is false of the code: the lower half of the convolution is dropped with its carries (F38), so the limbs are not those of the product."
  },
  {
   "property": "C26",
   "status": "partial",
   "theorems": [
    "WD.inv_accuracy",
    "WD.div_accuracy",
    "WD.inv_accuracy_any",
    "WD.div_accuracy_any",
    "WD.inv_accuracy_float_partial",
    "WD.div_accuracy_float_partial",
    "WD.start_value_ok",
    "WD.start_radix_power_malformed",
    "WD.inv_radix_power_malformed",
    "WD.start_out_of_bounds",
    "WD.inv_undefined_small_config",
    "WD.inv_long_double_inaccurate",
    "WD.inv_of_inv_wrong",
    "WD.inv_of_inv_wrong_u8"
   ],
   "note": "Proved for every start value of stated accuracy, and for the start value the code computes in IEEE float or double, or in 80-bit long double with 8- or 16-bit limbs: for every divisor. With long double and 32-bit limbs the claim is false: 1/x has at most 514 right digits in decwide_t<520> (F36, witness). The reciprocal of an exact radix power is accurate but has a limb equal to the radix (witness), and with fewer limbs than a floating-point number fills the code writes out of bounds (witness). Not covered: FFT sizes, exponents near the limits. The reciprocal of such a malformed result is wrong with 8-bit and 16-bit limbs: 1/(1/10000) < 8156 (F49, witness)"
  },
  {
   "property": "C27",
   "status": "partial",
   "theorems": [
    "WD.sqrt_special",
    "WD.sqrt_accuracy_partial",
    "WD.sqrt_accuracy_float_partial",
    "WD.sqrt_start_out_of_bounds"
   ],
   "note": "Special values proved. Accuracy of the coupled Newton iteration (two limbs beyond digits10, relative to Real.sqrt) for all start values of stated accuracy and for the start values computed in IEEE float or double (long double with 8- or 16-bit limbs), except x or 4x very close to an even power of the limb radix when a round works at reduced precision (there a carry is displaced, F19), FFT sizes, long double with 32-bit limbs, ends of the exponent range. With fewer limbs than a floating-point number fills the code writes out of bounds."
  },
  {
   "property": "C28",
   "status": "partial",
   "theorems": [
    "WD.division_special_partial",
    "WD.zero_div_zero_depends_on_representation"
   ],
   "note": "x/x = 1, x/0 = 0; 0/0 depends on the exponents of the zeros (witness)"
  },
  {
   "property": "C29",
   "status": "proved",
   "theorems": [
    "WD.parse_truncates",
    "WD.parse_exact",
    "WD.parse_above_max"
   ],
   "note": "every text of the grammar with an exponent in the 64-bit range; finding: no overflow check of the exponent"
  },
  {
   "property": "C30",
   "status": "partial",
   "theorems": [
    "WD.print_scientific",
    "WD.print_fixed",
    "WD.print_fixed_small_partial",
    "WD.print_general",
    "WD.default_notation",
    "WD.showpoint_throws",
    "WD.showpoint_throws_default",
    "WD.fixed_precision_zero",
    "WD.fixed_small_significant"
   ],
   "note": "scientific, default format and fixed for |x|>=1 proved; false for fixed below 1 (significant digits), precision 0 and showpoint in the default format (witnesses)"
  },
  {
   "property": "C31",
   "status": "proved",
   "theorems": [
    "WD.print_parse_round_trip",
    "WD.print_parse_round_trip_general"
   ],
   "note": ""
  },
  {
   "property": "C32",
   "status": "proved",
   "theorems": [
    "WD.pow_accuracy",
    "WD.pow_exact",
    "WD.pow_zero_cases",
    "WD.pow_negative_accuracy",
    "WD.pow_min_undefined"
   ],
   "note": "inside the exponent range; pow(x, INT64_MIN) is undefined (witness)"
  },
  {
   "property": "C33",
   "status": "proved",
   "theorems": [
    "WD.incr_decr_exact",
    "WD.incr_decr_error"
   ],
   "note": ""
  },
  {
   "property": "C34",
   "status": "proved",
   "theorems": [
    "WD.precision_spec"
   ],
   "note": ""
  },
  {
   "property": "C35",
   "status": "proved",
   "theorems": [
    "WD.baselexical_cast_canonical",
    "WD.baselexical_cast_buffers",
    "WD.baselexical_cast_in_buffer"
   ],
   "note": "the hand-written loop; the C++17 build calls std::to_chars, trusted"
  },
  {
   "property": "C36",
   "status": "partial",
   "theorems": [
    "WD.dynamic_array_refines",
    "WD.dynamic_array_assign_partial",
    "WD.dynamic_array_compare",
    "WD.dynamic_array_limits"
   ],
   "note": "refinement for all programs; false for assignment between different lengths, prefix ordering and rvalue swap (witnesses proved)"
  },
  {
   "property": "C37",
   "status": "proved",
   "theorems": [
    "WD.slot_allocator_fresh",
    "WD.slot_free_exact"
   ],
   "note": ""
  },
  {
   "property": "C38",
   "status": "proved",
   "theorems": [
    "WD.wrap_of_signed",
    "WD.wrap_add",
    "WD.wrap_sub",
    "WD.wrap_get",
    "WD.wrap_round_trip",
    "WD.wrap_limits"
   ],
   "note": ""
  },
  {
   "property": "C39",
   "status": "proved",
   "theorems": [
    "WD.pi_correct",
    "WD.ln_two_correct",
    "WD.ln_ten_correct"
   ],
   "note": "Each constant is the real number (Mathlib Real.pi, Real.log) truncated to the N limbs of the type, for every limb type and every digits10 up to 51. The AGM versions for more digits are not covered by this property."
  },
  {
   "property": "C40",
   "status": "partial",
   "theorems": [
    "WD.epsilon_value",
    "WD.epsilon_malformed",
    "WD.numeric_limits_min_max",
    "WD.numeric_limits_false"
   ],
   "note": "lowest() is 0 and sums can exceed max() (witnesses); epsilon is malformed when digits10 mod ed = 1"
  },
  {
   "property": "C41",
   "status": "proved",
   "theorems": [
    "WD.swap_exchanges"
   ],
   "note": "the lvalue swap; the rvalue overload is covered under C36"
  },
  {
   "property": "C42",
   "status": "partial",
   "theorems": [
    "WD.round_half_up_partial",
    "WD.round_near",
    "WD.round_exact",
    "WD.round_keeps_last_limb"
   ],
   "note": "half-up value proved when the cut is not directly before the last limb; there the code leaves the last limb (witness proved)"
  },
  {
   "property": "C43",
   "status": "partial",
   "theorems": [
    "WD.float_exact_partial",
    "WD.float_accuracy",
    "WD.float_subnormal_is_zero",
    "WD.float_one_not_one"
   ],
   "note": "Exact for every normal number whose scaling power and value fit into digits10+2*ed+1 digits; a proved error bound for all normal numbers in the exponent range; numbers below the smallest normal become zero. False without the digit condition: decwide_t<10>(1.0) < 1 (F37). Infinities and NaN are not modelled (undefined in the code)."
  },
  {
   "property": "C44",
   "status": "partial",
   "theorems": [
    "WD.mixed_add_sub",
    "WD.mixed_mul_partial",
    "WD.mixed_mul_unsigned_partial",
    "WD.mixed_div_partial",
    "WD.div_signed_accuracy",
    "WD.int_div_unsigned_partial",
    "WD.int_div_signed_partial",
    "WD.sub_int_undefined"
   ],
   "note": "+, - for all; * outside overflow and the nines special case; x / n agrees with x / decwide_t(n) up to the error of both (they use different algorithms); n / x accurate with the real start value of the reciprocal; x - n is undefined exactly for the least 64-bit n (F7, proved)"
  },
  {
   "property": "C45",
   "status": "proved",
   "theorems": [
    "WD.representation_unique"
   ],
   "note": ""
  },
  {
   "property": "C46",
   "status": "proved",
   "theorems": [
    "WD.istream_read"
   ],
   "note": "the object keeps a previously reduced precision"
  },
  {
   "property": "C47",
   "status": "partial",
   "theorems": [
    "WD.exp_accuracy_partial",
    "WD.exp_accuracy_low_partial",
    "WD.exp_zero",
    "WD.exp_loses_digits",
    "WD.exp_wraps"
   ],
   "note": "For 16 to 2000 digits: relative error at most (26000+|x|/500)*10^-digits10 wherever the result is in range and |x| <= 1.48e9 (ln 2 assumed right above 51 digits, proved right up to 51). The claim is false in full strength: exp(0.693) with 20 digits has 16 right digits (F39), and for x from 1.49e9 to 2.97e9 the scaling exponent wraps and the result is below 1 (F40); both proved."
  },
  {
   "property": "C48",
   "status": "partial",
   "theorems": [
    "WD.log_accuracy_above",
    "WD.log_accuracy_below_partial",
    "WD.log_one",
    "WD.log_nonpositive_diverges",
    "WD.log_below_one_diverges",
    "WD.pow_nonpositive_diverges"
   ],
   "note": "16 to 51 digits: error at most (16+ln(x)/1000)*10^-digits10 for every x > 1 in range, (17+|ln x|/1000)*10^-digits10 for 0 < x <= 1 - 5*10^-(digits10+2ed), powers of the limb radix (whose reciprocal is malformed, F34) included. Termination is false: for every x <= 0 and for the largest number below 1 the recursion never ends (F16, F41, proved for all of them); pow(x,a) for x <= 0 inherits it."
  },
  {
   "property": "C49",
   "status": "partial",
   "theorems": [
    "WD.fmod_exact_partial",
    "WD.fmod_negative_divisor",
    "WD.fmod_u8_wrong",
    "WD.fmod_zero_partial",
    "WD.fmod_zero_negative"
   ],
   "note": "Below the FFT sizes with float or double. Exact remainder for every positive divisor and operands a*10^s, b*10^s of at most digits10-2 digits (multiples excluded for 8-bit limbs). The claim is false otherwise, proved: for every negative divisor that does not divide u the result is off by |v| (F42), fmod(873,97) = 97 with 8-bit limbs (F43), fmod(0,v) = v for v <= -2 (F44)."
  },
  {
   "property": "C50",
   "status": "proved",
   "theorems": [
    "WD.extract_parts_accuracy"
   ],
   "note": "IEEE float and double, every limb type, every number of limbs at least that of a floating-point number."
  },
  {
   "property": "C51",
   "status": "partial",
   "theorems": [
    "WD.sinh_accuracy_partial",
    "WD.cosh_accuracy_partial",
    "WD.tanh_accuracy_partial",
    "WD.hyp_zero",
    "WD.sinh_cancels"
   ],
   "note": "16 to 2000 digits, float or double, |x| >= 30000*10^-digits10, |x| <= 1.48*10^9; negative x with e^x not next to a power of the radix. The error is relative to cosh x (sinh, cosh) resp. absolute (tanh). An error relative to the result is false for sinh and tanh: sinh(10^-40) = tanh(10^-40) = 0 with 20 digits (F45)."
  },
  {
   "property": "C52",
   "status": "proved",
   "theorems": [
    "WD.ldexp_accuracy",
    "WD.ldexp_zero",
    "WD.ldexp_least_int"
   ],
   "note": "16 to 2000 digits, float or double, 2^|e| and the result away from the ends of the exponent range by a few limbs. The bound is (2e+3)*10^-(digits10+2ed) for e >= 0 and 3*10^-digits10 + (3|e|+7)*10^-(digits10+2ed) for e < 0. e = INT_MIN is undefined behaviour (F46)."
  },
  {
   "property": "C53",
   "status": "partial",
   "theorems": [
    "WD.frexp_accuracy_partial",
    "WD.frexp_zero",
    "WD.frexp_near_max_wrong",
    "WD.frexp_int_wrong"
   ],
   "note": "Termination, interval, sign and accuracy from 16 digits on (fewer than 1793 limbs), float or double (long double with 8- or 16-bit limbs), decimal exponents |k| <= 6.4*10^8 with 1.001|k| inside the exponent range. The long double product is any integer within 2 of 1000k/301. The claim is false near the upper end of the exponent range (F47, 2^t saturates) and for |x| >= 2^(2^31) (F48, the exponent does not fit an int), both proved."
  },
  {
   "property": "C54",
   "status": "partial",
   "theorems": [
    "WD.pow_real_above_partial",
    "WD.pow_real_below_partial",
    "WD.pow_real_special",
    "WD.pow_nonpositive_diverges"
   ],
   "note": "16 to 51 digits, float or double; relative error at most (27000+36|a|+|a ln x|/200)*10^-digits10, for every x > 0 with |ln x| >= 40*10^-digits10. For x <= 0 the call never ends (integer exponents included), proved."
  },
  {
   "property": "C55",
   "status": "partial",
   "theorems": [
    "WD.rootn_inv_accuracy_partial",
    "WD.cbrt_inv_accuracy_partial",
    "WD.rootn_accuracy_partial",
    "WD.cbrt_accuracy_partial",
    "WD.rootn_special",
    "WD.invroot_fn_exists",
    "WD.rootn_zero_never",
    "WD.rootn_one_wrong",
    "WD.rootn_inv_one_wrong",
    "WD.rootn_odd_wrong"
   ],
   "note": "Accuracy for degrees 3 to 300 (8-bit limbs: 3), double, at least 16 digits, no FFT, exponents (N+6) limbs inside the range, and x not within 10^-12 of a power of the radix to a multiple of p unless std::pow returns something other than exactly ten; std::pow is any function of relative error 5u. The claim is false without these: rootn(1,4) < 0.8156 with 16-bit limbs (F50), roots of zero never end (F51), rootn_inv(x,1) = x (F52), odd roots of negative numbers other than the third are 0 (F53), all proved. Missing: other degrees, float and long double."
  },
  {
   "property": "C56",
   "status": "proved",
   "theorems": [
    "WD.fft_forward_exact",
    "WD.fft_roundtrip_exact",
    "WD.fft_convolution_exact",
    "WD.fft_limbs_exact"
   ],
   "note": "The routines of decwide_t_detail_fft.h and the array handling of mul_loop_fft, modelled statement by statement for any arithmetic, instantiated with exact real arithmetic and exact sines. Rounding is the subject of C57 and C25."
  },
  {
   "property": "C57",
   "status": "partial",
   "theorems": [
    "WD.sine_table_accurate",
    "WD.fft_error_partial",
    "WD.fft_accurate_partial",
    "WD.fft_accurate_sizes_partial",
    "WD.mul_fft_float_partial",
    "WD.fft_double_accurate_partial",
    "WD.mul_fft_double_partial",
    "WD.fft_single_precision_inaccurate"
   ],
   "note": "Worst-case bound for every coefficient, all operands; at most 1/4 for the default types (32-bit limbs, IEEE double, ties to even) and all other limb types up to 4096 limbs (about 32700 digits), for 8-bit limbs/double up to 524288 limbs, 16-bit limbs/double up to 62000, 32-bit limbs/64-bit long double up to 24900, any limbs/113-bit type up to 2^29. Missing: 32-bit limbs with double above 4096 limbs, where the worst-case bound exceeds 1/4; exponent range and fused multiply-add are not modelled. False for 32-bit limbs with float (fft_single_precision_inaccurate, F54)."
  },
  {
   "property": "C58",
   "status": "partial",
   "theorems": [
    "WD.calc_pi_error_partial",
    "WD.calc_pi_rounds",
    "WD.calc_pi_digits_partial"
   ],
   "note": "Against Mathlib's Real.pi, with the Gauss-Legendre formula proved from the theory of the arithmetic-geometric mean. Error at most (61*2^n+34n)/10^(digits10+ed) after n rounds; n at most 13/7/11 unless the 13th/7th/11th round reports 0 digits. Missing: FFT sizes, long double with 32-bit limbs, 16-bit limbs with more than 42 limbs, a proof that no term is exactly zero early, and one unit of the last digit with 8-bit limbs (the proved bound there is 1254 units; 12 units are seen for 102 digits in a port of the model)."
  },
  {
   "property": "C59",
   "status": "partial",
   "theorems": [
    "WD.ln_two_accuracy_partial",
    "WD.ln_two_wrong",
    "WD.ln_two_inaccurate"
   ],
   "note": "The full property is false: for 56 digits and 8-bit limbs the loop is never left by break and the result is 1.386 (ln_two_wrong, F55); for 52 digits and 32-bit limbs the error is more than 4 units (ln_two_inaccurate, F56). Proved: if the loop ends by break, and the products handed to the square root are off the even powers of the radix, the error is at most 13 units plus a quarter of the error of pi plus 2n units of digit digits10+ed; below 1793 limbs (14312 digits). Missing: FFT sizes, 16-bit limbs with more than 42 limbs, long double with 32-bit limbs, products next to an even power of the radix."
  },
  {
   "property": "C60",
   "status": "partial",
   "theorems": [
    "WD.log_agm_accuracy_partial",
    "WD.log_agm_below_partial",
    "WD.log_agm_cases",
    "WD.log_agm_wrong",
    "WD.log_agm_inaccurate"
   ],
   "note": "The full property is false: log(2) is 93.57 for 80 digits and 8-bit limbs (log_agm_wrong, F55) and log(10) is off by 12 epsilon for 52 digits and 32-bit limbs (log_agm_inaccurate, F56). Proved: error of about (6/5 digits10 + |log x|) (17 + kappa/2) + 17/10 digits10 lambda + 31 units of 10^-digits10 for 10^-2500 <= x <= 10^2500, for runs left by break with products off the even powers of the radix; below 1 also x off the powers of the radix. Missing: larger x, FFT sizes, long double with 32-bit limbs, runs not left by break (F55 shows one)."
  },
  {
   "property": "C61",
   "status": "partial",
   "theorems": [
    "WD.to_long_double_nearest",
    "WD.to_float_near",
    "WD.to_float_exact",
    "WD.to_float_monotone",
    "WD.to_float_zero",
    "WD.float_round_trip_partial",
    "WD.to_long_double_overread",
    "WD.to_long_double_overread_witness",
    "WD.to_double_not_nearest"
   ],
   "note": "Nearness, exactness, monotonicity proved for every number whose exponent has fewer digits than the exponent type holds (with 64-bit exponents: all). False: with 8-, 16- and 32-bit exponent types the text can fill its buffer without terminator (F57), and double/float are rounded twice, not correctly (F58); both proved. std::strtold is modelled as exact reading followed by rounding to nearest; overflow to infinity and subnormal results are not modelled. The round trip needs the digit conditions of C43."
  },
  {
   "property": "C62",
   "status": "partial",
   "theorems": [
    "WD.exp_high_zero",
    "WD.exp_high_negative",
    "WD.exp_high_accuracy_partial"
   ],
   "note": "exp(0) = 1 and exp(-x) = 1/exp(x) (as computed) proved for every configuration. Accuracy proved for any log whose error is known at the arguments of the run, any ln 2 with known error and any std::exp within four units. Missing: the accuracy of log itself above 880 digits (C60), reduced arguments below zero, wrapping scaling exponents (F40), FFT sizes. Instance: exp(1/2) run with 52 digits and the log of the code, 47 correct digits."
  },
  {
   "property": "C63",
   "status": "partial",
   "theorems": [
    "WD.objects_hold_values_partial",
    "WD.std_swap_exchanges",
    "WD.objects_hold_values_static",
    "WD.moved_from_assignment_lost",
    "WD.swap_with_temporary_dangles"
   ],
   "note": "Static storage: full (swap with a temporary does not compile there). Dynamic storage: all programs except copy assignment to an object whose storage was moved away and swap with a temporary; both are proved to fail (F59, F60)."
  },
  {
   "property": "C64",
   "status": "partial",
   "theorems": [
    "WD.compare_int_partial",
    "WD.compare_uint_partial",
    "WD.compare_float_partial",
    "WD.compare_int_mirror",
    "WD.compare_int_wrong",
    "WD.compare_float_wrong"
   ],
   "note": "Integers: full from 16 digits on, and below whenever the integer fits the internal digits; false otherwise (F61, witness). Floating-point: wherever the conversion is exact (C43); decwide_t<10>(1) != 1.0 (F37)."
  },
  {
   "property": "C65",
   "status": "partial",
   "theorems": [
    "WD.add_exponent_type_partial",
    "WD.sub_exponent_type_partial",
    "WD.mul_exponent_type",
    "WD.mul_int_exponent_type",
    "WD.integer_part_exponent_type_partial",
    "WD.parse_exponent_type_partial",
    "WD.exponent_type_drops_addends",
    "WD.exponent_type_one_plus_one",
    "WD.exponent_type_wraps_difference",
    "WD.exponent_type_integer_part",
    "WD.exponent_type_parse",
    "WD.exponent_type_sum_wraps"
   ],
   "note": "Full for multiplication and multiplication by an integer. Addition, subtraction, integer part and parsing under a bound on the exponents / digit count; each bound is needed (F63-F67, witnesses; F63 for every pair of numbers). Division, the constant of the maximum and the elementary functions are covered only through these operations."
  },
  {
   "property": "C66",
   "status": "partial",
   "theorems": [
    "WD.Thr.threads_sequential_partial",
    "WD.Thr.scratch_independent_partial",
    "WD.Thr.shared_scratch_wrong"
   ],
   "note": "Assignment, +=, -= and *= (schoolbook and Karatsuba sizes, fewer than 1793 limbs), negate, assignment of constants and of numbers built from built-in ones, *= n and /= n below the radix, as programs of single memory accesses; the FFT buffers and the other functions are not in this model. The static build is proved unusable by several threads, as the README says."
  },
  {
   "property": "C67",
   "status": "partial",
   "theorems": [
    "WD.cast_truncates_partial",
    "WD.cast_wraps_partial",
    "WD.cast_round_trip",
    "WD.to_bool_iff",
    "WD.bool_round_trip",
    "WD.cast_narrow_wraps"
   ],
   "note": "Round trip and bool in full from 16 digits on. Truncation for values with at most max_digits10 significant digits (others are rounded first, C12). Narrower types are not saturated although the 64-bit ones are (F68, witness)."
  },
  {
   "property": "C68",
   "status": "partial",
   "theorems": [
    "WD.fft_stays_in_buffer",
    "WD.fft_buffers_suffice",
    "WD.fft_reads_first_limbs",
    "WD.static_pools_suffice",
    "WD.Thr.fft_shift_in_bounds_partial",
    "WD.Thr.fft_shift_out_of_bounds",
    "WD.Thr.fft_overread_reached",
    "WD.kara_mul_frame",
    "WD.Thr.mul_buffer_suffices"
   ],
   "note": "Transforms, buffers and pools in full (as non-interference: nothing outside is written or influences the result; Karatsuba and schoolbook: the frame theorem of C22, and every single access inside the allocated buffer). The shift after the FFT is proved to stay inside only at reduced precision: at full precision it reads one limb behind the array (F6), proved for every 2.3-like product of the default build from 1793 to 4096 limbs; the limb read is overwritten."
  },
  {
   "property": "C69",
   "status": "proved",
   "theorems": [
    "WD.crc64_is_remainder",
    "WD.crc64_burst",
    "WD.time_seeds_differ",
    "WD.time_seed_overrun"
   ],
   "note": "64-bit seeds (narrower types keep the low bits). The calendar text is a parameter; from 55 characters on the copy to the 64-byte array runs over its end (F69)."
  },
  {
   "property": "C70",
   "status": "partial",
   "theorems": [
    "WD.add_monotone",
    "WD.sub_monotone",
    "WD.add_nonneg_grows",
    "WD.mul_monotone_partial",
    "WD.mul_neg_value",
    "WD.mul_comm_partial",
    "WD.mul_comm_false",
    "WD.mul_monotone_false"
   ],
   "note": "Addition and subtraction in full (full-precision operands). Products: order for exponents in range; commutativity for all non-zero factors except the pairs 1 and 0.99...9. Outside the order and the commutativity fail (F2, F70, F71; witnesses). Sizes of the FFT are excluded."
  },
  {
   "property": "C71",
   "status": "partial",
   "theorems": [
    "WD.boost_pi_accuracy_partial",
    "WD.boost_pi_inaccurate"
   ],
   "note": "Termination and the error bound 5*4^m*10^(1-digits10) after m rounds, 6*2^m <= 10*(digits10+7), against Real.pi, for more than 40 digits (this includes decwide_t<50>). The accuracy of a few epsilon is false: for 88 digits the value is off by more than 1000 epsilon (F72, witness). Missing: at most 40 digits, digits10 = 1 modulo the digits of a limb, FFT sizes, long double with 32-bit limbs."
  },
  {
   "property": "C72",
   "status": "proved",
   "theorems": [
    "WD.boost_digits2",
    "WD.boost_precision"
   ],
   "note": "The template metaprogram decwide_t.hpp:84-89 as a function of digits10 and of the policy number."
  },
  {
   "property": "C73",
   "status": "partial",
   "theorems": [
    "WD.pi_control_head",
    "WD.pi_control_tail_partial"
   ],
   "note": "Against Real.pi: the heads (56 decimals) and the tails of 10^4 and 10^5 decimals, for all limb types. Missing: the tails of 10^6 decimals (the kernel evaluation of Machin's formula with a million digits takes more memory than the build may use)."
  },
  {
   "property": "C74",
   "status": "partial",
   "theorems": [
    "WD.parallel_for_partition_partial",
    "WD.parallel_for_every_schedule_partial",
    "WD.parallel_for_wraps"
   ],
   "note": "Every index type, thread count and rounding, as long as the end of the range plus one slice fits the index type; otherwise the claim is false (F73: indices outside the range, others twice; witness). std::thread itself is the specification ParExec: any interleaving of the calls of the threads."
  }
 ]
}