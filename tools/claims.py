claim("C01","proved","C01_mean C01_mean_inherited","exact arithmetic, every history, n < 2^w")
claim("C02","proved","C02_variance C02_variance_inherited","exact arithmetic, n < 2^w")
claim("C03","partial","C03_skewness_violated C03_skewness_partial C03_skewness_inherited","The code returns 0 for every data set with negative third moment (tests `sum < epsilon` without abs): violated, witness 0,3,3. Proved for M3 > -eps.")
claim("C04","proved","C04_kurtosis","exact arithmetic, n*n < 2^w")
claim("C05","proved","C05_unbiased_skewness C05_unbiased_kurtosis C03_skewness_inherited","correction formula relative to skewness()/kurtosis(), always finite")
claim("C06","proved","C06_clear","any arithmetic, all eight cumulative filters")
claim("C07","proved","C07_order_moments C07_order_kurtosis C07_order_pairs","all cumulative filters except trend, whose result depends on order by design")
claim("C08","proved","C08_affine_mean_variance C08_affine_skewness C08_affine_kurtosis","")
claim("C09","proved","C09_covariance C09_size_assertion C09_sizes C09_covariance_symmetric C09_covariance_self","")
claim("C10","proved","C10_correlation_bounded C10_pearson","")
claim("C11","partial","C11_linear_violated C11_linear_partial","Violated at small scale: value() returns +1 for falling data when the product of variances is below epsilon. Proved above the cut-off and for rising lines.")
claim("C12","proved","C12_least_squares","minimiser over all lines, uniqueness, degenerate case")
claim("C13","proved","C13_exact_line C13_exact_line_window","cumulative and window")
claim("C14","proved","C14_trend C14_trend_linear","")
claim("C15","proved","C15_mean_within C15_mean_bounds C15_binary64 C15_binary32 C15_nearest","every binary format and monotone rounding; binary64 and binary32 proved to be such formats")
claim("C16","partial","C16_violated C16_overflow C16_nonneg_partial C16_monotone_partial C16_inherited","Violated when a difference overflows: the variance of 2^1023 and -2^1023 is -inf. Proved for all data whose differences do not overflow.")
claim("C17","proved","C17_constant","every binary format, any history before the last clear")
claim("C18","proved","C18_window_bookkeeping C18_window_mean C18_window_mean_inherited","bookkeeping in any arithmetic, mean in exact arithmetic")
claim("C19","proved","C19_window_variance C19_window_variance_nonneg","second part in every format that represents 0, any rounding, any inputs")
claim("C20","proved","C20_window_covariance","")
claim("C21","proved","C21_window_least_squares C21_size","minimiser over all lines, uniqueness, degenerate case")
claim("C22","partial","C22_forget_violated C22_forget_partial C22_clear","Violated for every N when an older value was NaN: the mean stays NaN for ever. Proved for finite values in exact arithmetic; clear() forgets in any arithmetic.")
claim("C23","partial","C23_mean_violated C23_count_division_by_zero C23_mean_leaves_data C23_window_drift C23_window_violated C23_mean_partial C23_window_partial","Violated: value_type(count) wraps (division by zero at 2^b pushes, negative divisors before), and the truncated window update drifts without bound. Proved for fewer than 2^(b-1) values without overflow, and windows that have not been overfilled.")
claim("C24","partial","C24_covariance_violated C24_covariance_partial C24_negative C24_unbiased_mean_violated","Violated for negative co-moments: the division is carried out in size_t. Proved for co-moments >= 0.")
claim("C25","proved","C25_decay_mean C25_weights C25_decay_mean_laws","")
claim("C26","partial","C26_variance_violated C26_decay_moments_partial C26_decay_finite","Violated in histories where values were pushed before clear() (consequence of C27). Closed forms proved for histories without such values; finiteness, sign and constant streams for every history.")
claim("C27","partial","C27_clear_mean C27_clear_violated C27_variance_violated C27_variance_ratio C27_clear_partial","Violated: clear() does not reset the normalization of variance, skewness and kurtosis. Proved for mean() in any arithmetic; exact relation between cleared and new filter proved.")
claim("C28","proved","C28_bookkeeping C28_clear C28_filters","any arithmetic, all five interim filters")
claim("C29","proved","C29_interim_mean C29_interim_mean_laws C29_recent blocks_spec","")
claim("C30","proved","C30_interim_variance C30_interim_variance_convex C30_interim_skewness C30_interim_kurtosis C30_kurtosis_skewness C29_recent","")
claim("C31","proved","C31_interim_covariance C30_interim_variance_convex","")
claim("C32","partial","C32_exact_violated C32_exact_partial C32_covariance_violated C32_covariance_partial","Violated for every W >= 2: the previous block keeps weight 1/(2W-1). Exact error proved.")
claim("C33","partial","C33_clear_violated C33_clear_partial","Violated: y_moment is not cleared, at() is wrong after clear(). slope() and size() are reset, in any arithmetic.")
claim("C34","proved","C34_interim_regression C34_switch_together","any arithmetic")
claim("C35","proved","C35_few","every list of quantiles in [0,1), also unordered")
claim("C36","proved","C36_extremes","")
claim("C37","partial","C37_markers C37_within C37_violated C37_estimates_partial","Markers, and min <= get<i>() <= max, proved for every quantile list. get<i>() <= get<i+1>() is violated for quantiles that are not in ascending order, proved for ascending ones.")
claim("C38","proved","C38_desired C38_towards","")
claim("C39","partial","C39_violated C39_wrong_marker C39_ascending_partial","Violated: value<1/4>() of psquare<T, 3/4, 1/4> is the 3/4 quantile. Proved for arguments in ascending order.")
claim("C40","partial","C40_violated C40_reachable C40_down C40_up_partial C40_adjust_partial","Violated downwards: positions[i-1]-positions[i] wraps and the height moves up by a tiny amount. Upwards, and the parabolic prediction, as published.")
claim("C41","partial","C41_violated C41_position_changed C41_round_trip C41_round_trip_exact C41_round_trip_double C41_write_back C41_clear","Violated in binary64: positions pass through the value type, 2^53+1 is read back as 2^53. Round trip proved for positions that are representable (all in exact arithmetic, up to 2^53 in binary64). clear() in any arithmetic.")
claim("C42","partial","C42_violated C42_out_of_bounds C42_push C42_get C42_get_exact C42_exact_statement C42_quantile_one","Violated in binary64: with the quantile 1-2^-53 and five values, rank+1 rounds to 5 and heights[5] is read. push in any arithmetic with any input; get in exact arithmetic, and in any arithmetic if the rank stays in range.")
claim("C43","proved","C43_interim C43_clear C43_exact C43_value","every W >= 2; any arithmetic except for the bounds")
claim("C44","partial","C44_violated C44_witness C44_push_changes_original C44_dangling C44_same_results C44_clear_partial","Violated: the defaulted copy keeps pointers into the original, so pushing to the copy changes the original, and after its destruction every use of the copy is undefined. Proved for copies that are cleared first.")
claim("C45","proved","C45_reservoir C45_fill","every generator, N >= 1, 4N < 2^w, n < 2^w")
claim("C46","proved","C46_push C46_truthful C46_loses_one","every state, every generator")
claim("C47","proved","C47_uniform C47_subsets C47_law","counting outcomes of independent uniform draws; also all N-subsets equally likely; C47_law: the same as an expectation over all draws")
claim("C48","partial","C48_violated C48_law_violated C48_bias C48_size_one C48_always_accepted C48_probabilities_partial C48_law_total C48_law_nonneg","Violated: element number 4N+1 is always accepted (skip_count is 0 when the threshold is reached). For every N and n > 4N each of the first 4N elements has less, and the last element more than the probability N/n (ideal independent uniform and geometric draws, cut at the largest size_t). Exact inclusion probabilities for given skip counts proved.")
claim("C49","partial","C49_violated C49_grows C49_unbounded C49_clear_partial","Violated: clear() keeps the samples; the sample then grows beyond N without bound. All other members are reset.")
claim("C50","proved","C50_fir_defined C50_fir C50_fir_new C50_fir_linear C50_impulse_response","bookkeeping in any arithmetic, value in exact arithmetic")
claim("C51","partial","C51_violated C51_clear_partial C51_clear_observers_partial","Violated: clear() does not reset output, so value() directly after clear() is stale. Proved, in any arithmetic, from the first push after clear().")
claim("C52","proved","C52_iir_defined C52_iir C52_iir_step C52_iir_linear C52_iir_clear","clear() in any arithmetic")
claim("C53","proved","C53_push_inserter C53_no_effect C53_append C53_singular","")
claim("C54","proved","C54_close_to C54_symmetric C54_reflexive C54_nan C54_infinity C54_no_tolerance","symmetry, reflexivity and NaN in every symmetric format")
claim("C55","partial","C55_violated C55_every_other_capacity C55_deque_partial C55_queue_partial","Violated for every capacity that is not a power of two: push_front wraps modulo 2^w. Proved for powers of two (all calls) and for every capacity without push_front.")
claim("C56","proved","C56_exponential C56_exponential_exact C56_arithmetic","")
claim("C57","proved","C57_empty_cumulative C57_one_value C57_empty_window C57_zero C57_empty_zero C57_new_decay","queries are functions of the state. C57_empty_zero: mean() and the unbiased statistics of an empty filter are 0, not NaN, because count - 1 wraps.")
claim("C58","proved","C58_size_modular C58_wrap_divides_by_zero C58_kurtosis_limit","")
claim("C59","partial","C59_violated C59_nan C59_overflow C59_constant_partial","Violated: a single value whose square overflows makes skewness and kurtosis NaN (inf * 0). Proved for all other numbers.")
claim("C60","proved","C60_until_full","any arithmetic")
claim("C61","proved","C61_error_model C61_binary64 C61_binary32 C61_mean_error","round to nearest, at least 4 digits")
claim("C62","proved","C62_window_drift","")
claim("C63","partial","C63_within_violated C63_within_partial","Violated in binary64: a window of 2 after 2^60, 0, 1, 1 holds 1, 1 and has mean 1/2. Proved until the window is full; afterwards only the bound of C62.")
claim("C64","proved","C64_decay_mean_error","")
claim("C65","partial","C65_constant_violated C65_factor_one_violated C65_constant_partial C65_factor_one_partial","Violated in binary64: the decaying mean of the single value 3 with factor (3*2^50+1)*2^-52 is 3+2^-51; with factor 1 the mean of 2^60, 1 is 0. Proved for streams of zeros and of ones, and with factor 1 for data whose differences need no rounding (for example integers up to 2^51 as double); otherwise only up to the bound of C64.")
claim("C66","partial","C66_window_violated C66_constant_partial C66_window_integers_partial","Violated by the window filter in binary64: x = 2^27+1 twice, y = 2^27+1, 2 gives covariance -2. Proved for the cumulative filter, every format, and for the window filter with data that are multiples of a power of two and so small that W^2 times the product of the sizes has p-1 digits (for example 16-bit samples as double, W up to 1023).")
claim("C67","partial","C67_window_violated C67_self_partial C67_nonneg_partial C67_window_integers_partial","Violated by the window filter in binary64: 2^27+1, 2^27+2 has covariance -4 with itself. Proved for the cumulative filter: equality for every input, the sign for data whose differences do not overflow. Window filter: the sign for multiples of a power of two as in C66.")
claim("C68","partial","C68_violated C68_mean_value C68_constant_partial C68_spare_partial","Violated in binary64: five times 1+2^-52 with W = 4 gives the mean 1+2^-51. The variance part, and the mean until the first block is complete, are proved for every format; the mean of any number of values k 2^e if 2 W |k| has at most p binary digits (C68_spare_partial).")
claim("C69","proved","C69_nonneg","")
claim("C70","proved","C70_covariance_error C70_variance_error","any rounding direction; u and underflow error as in C61")
claim("C71","partial","C71_violated C71_linear_violated C71_algorithm_partial C71_no_fallback_partial","Violated twice: a marker moves at any non-zero distance from its desired position instead of from distance 1 on, and the linear prediction downwards divides by the unsigned difference 2^w - (n[i] - n[i-1]) and so moves the height slightly up instead of down. Proved: the estimator is the reference algorithm with exactly these two changes, and only with the first as long as the fallback is not taken downwards.")
claim("C72","proved","C72_affine","exact arithmetic")
claim("C73","proved","C73_order","exact arithmetic; the whole state is equal")
claim("C74","proved","C74_extremes","any format, any quantiles")
claim("C75","proved","C75_constant","any binary format and rounding direction")
claim("C76","partial","C76_violated C76_zero C76_self_partial","Violated in binary64: for the values 0, 2^400 the product of the variances overflows and the correlation with itself is 0. Proved for every IEEE format, rounding to nearest, if the square of the variance does not overflow.")
claim("C77","proved","C77_slope","any rounding direction")
claim("C78","partial","C78_far C78_violated C78_value C78_diagonal_partial","Violated in binary64: (0, 0), (3, 2^52+1) has the correlation 1+2^-52. Proved for pairs (x, x) and (x, -x): exactly 1 and -1 (1 below the cut-off). In exact arithmetic see C10. C78_far: two pairs whose correlation in binary64 exceeds 1.7.")
claim("C79","proved","C79_cumulative C79_window C79_decay C79_interim C79_impulse","including infinities and NaN")
claim("C80","proved","C80_covariance C80_correlation C80_regression C80_window C80_interim","including infinities and NaN")
claim("C81","partial","C81_violated C81_skewness_partial C81_nan_partial C81_iff_partial","Violated in binary64: 0, 0, 3 has a positive skewness, 0, 0, -3 has skewness 0 (the cut-off of C03). Proved: what the negated data give, by the size of the third moment.")
claim("C82","partial","C82_window_violated C82_decay_violated C82_window_variance_zero C82_window_slope_zero C82_cumulative_partial C82_pairs_partial C82_trend_partial C82_window_partial C82_window_regression_partial C82_decay_partial C82_fir_partial C82_iir_partial C82_interim_partial C82_interim_regression_partial","Violated by window::moment_variance (std::max(0, NaN) is 0), the window regression slope (0 then) and the decaying skewness and kurtosis (var > epsilon is false). Proved for all other results.")
claim("C83","partial","C83_violated C83_window_stuck C83_mean_stuck C83_comoment_stuck C83_fir_partial C29_recent","Violated by the window filters: one NaN makes the mean NaN and the variance 0 until clear(). Proved for FIR and interim filters in any arithmetic.")
claim("C84","partial","C84_violated C84_after_infinity C84_last_partial","Violated: every value after an infinity makes the mean NaN until clear() (inf - inf). Proved for an infinity that is the last value.")
claim("C85","proved","C85_variance C85_window C85_kurtosis","")
claim("C86","proved","C86_residuals C86_window_residuals C86_slope_correlation","")
claim("C87","proved","C87_bounded C87_sharp C87_constant C87_memory C87_converges","")
claim("C88","proved","C88_bounded C88_converges C88_sharp","")
claim("C89","proved","C89_window C89_decay C89_decay_shape C89_interim C89_pairs C89_window_pairs C89_correlation","cumulative moments: C08")
claim("C90","proved","C90_step C90_forget","")
claim("C91","proved","C91_cumulative C91_window C91_decay C91_interim","cumulative: uniformly in the width of the counter, before it wraps")
claim("C92","partial","C92_violated C92_preceding_partial C92_never_first C92_full_partial C92_calls","Violated: the constructor stores first where the other members expect the index after the last element, so the span shows the length elements before first. Proved: what it shows, and the statement for a span that fills an array of 2^k elements. The intended meaning is taken from the parameter names.")
claim("C93","partial","C93_sizes C93_violated C93_first_push C93_preconditions_partial","Violated for size 0 and for sizes whose quadruple wraps to 0: the first push writes to an empty vector. Proved for sizes N with 1 <= N and 4N < 2^w. C93_sizes is the exact condition on N: every history works iff N is not 0 and N <= 4*N in size_type.")
claim("C94","partial","C94_violated C94_smaller C94_larger C94_exact_partial C94_cumulative_partial C94_window_partial C94_decay_partial C94_interim_partial C94_fir_partial C94_iir_partial","Violated in binary64: the mean of 0.75 and 2^53+2 is computed as 2^52+2, the mean of 1 and 2^53+2 as 2^52+1. Proved in exact arithmetic for every change, and in every binary format and rounding direction for a change of the last value, infinities included; also for the FIR and IIR filters with positive first coefficient.")
claim("C95","partial","C95_violated C95_last_twice C95_one_too_many C95_empty C95_missing_file C95_last_fit C95_last_fit_window C95_lines_partial","Violated by every file: while (file) is tested before the extraction, so the last line is processed twice and an empty file reads uninitialized variables. Proved: the printed lines but the last are right. Formatted input is modelled for well-formed lines.")
claim("C96","proved","C96_slope C96_exact_line","at() is stated without clear because clear() keeps the mean of y (C33).")
claim("C97","proved","C97_window C97_interim","")
claim("C98","proved","C98_moments C98_covariance","")
claim("C99","proved","C99_moving_average C99_exponential_smoothing C99_no_feedback","")
claim("C100","proved","C100_variance C100_skewness C100_kurtosis","Any binary format, rounding direction and data, NaN and infinities included.")
claim("C101","partial","C101_violated C101_one_way C101_other_way C101_cumulative_partial C101_window_partial","Violated by the cumulative covariance in binary64: (1,0),(2^53,1) gives 2^51, with the coordinates exchanged 2^51-1/4, because push multiplies the deviation from the new mean of x by that from the old mean of y. Proved: the two results differ by at most (12n+136) u A B, and the window covariance is symmetric bit for bit for any data.")
claim("C102","partial","C102_violated C102_reversed C102_mean_partial C102_variance_partial","Violated in binary64: 0.75, 2^53+2 has the mean 2^52+2, in the other order 2^52+1. Proved: the difference is at most (n+11) u B for the mean and (12n+136) u B^2 for the variance.")
claim("C103","proved","C103_fir C103_fir_finite C103_iir","")
claim("C104","partial","C104_violated C104_window_slope C104_cumulative_partial C104_window_integers_partial","Violated by the window regression in binary64: the points (2^27+1, c), (2^27+2, c) with c = 2^27+3 give the slope 16, because the covariance is computed from sums of products. Proved for the cumulative regression: slope 0 and the exact prediction; for the window regression if the data are small multiples of a power of two as in C66.")
claim("C105","partial","C105_violated C105_size C105_bounded_partial","Violated when the count of the pushes wraps around: the array is appended to again, and after n pushes it holds n / 2^w * N + min(n mod 2^w, N) elements (C105_size, exact for every n). Proved up to 2^w pushes.")
claim("C106","partial","C106_violated C106_infinite C106_order_partial C106_double C106_float","Violated by overflow in binary64: six finite values whose median is estimated as infinity. Proved with rounding to nearest for N values up to B if 128 N B does not overflow, 2^11 N^2 <= 2^w and 64 N <= 2^p: for double and 64-bit sizes 2^26 values up to 2^980, for float 2^18 values up to 2^100. The case of up to 2q+3 values, where the estimate is interpolated, is C110.")
claim("C107","proved","C107_variance_drift C107_covariance_drift","Explicit constants: (230 t (t + N) / n + 2) u B^2 for the variance, (48 t + 29) u A B for the covariance, n = min(N, t). Hypotheses exclude overflow, underflow of the data bounds and so many values that the bound exceeds the data.")
claim("C108","proved","C108_decay_variance_error","The bound is decayVarErr, about (constant) u B^2 / (f^2 g^2). Hypotheses exclude overflow, underflow of the data bounds and factors so small that the bound exceeds the data.")
claim("C109","proved","C109_mean_error C109_variance_error C109_covariance_error","Hypotheses exclude overflow of the weighted sums, underflow of the data bounds, weights W^2 beyond the digits of the format, and windows so long that the bound exceeds the data.")
claim("C110","partial","C110_violated C110_second_index C110_one_49th C110_within_partial C110_order_partial C110_binary_fractions_partial","Violated in binary64: rank + 1 can round up to the integer after the next (rank just below 1, 2, 4, ...), and the interpolation then skips a value; it happens with 50 values and the quantile 1/49, and makes estimates descend. Within the data for all quantiles up to 1-16u in any order; in order if the second index follows the first, which holds for quantiles a/2^k.")
claim("C111","partial","C111_violated C111_ramp C111_bound_partial C111_ascending_partial","Violated: every division truncates towards 0, and the mean of 0, 1, ..., n-1 is computed as 0. n times the mean differs from the sum by at most n(n-1)/2 in every type with signed arithmetic, and the ramp attains this bound. For ascending data in unsigned types it is at most the sum, with the same bound.")
claim("C112","partial","C112_violated C112_descent C112_two_values C112_narrow_partial C112_ascending_partial","Violated by unsigned types that are not narrower than int: input - mean wraps for a value below the mean; the mean of 2 and 0 is 2147483649 in 32 bits, and any descent takes the mean above the data. Holds for types narrower than int, and for ascending data in every unsigned type.")
claim("C113","partial","C113_violated C113_overflow C113_negative C113_unsigned C113_ramp C113_within_partial C113_constant_partial C113_ascending_partial C113_unsigned_defined","Violated: 0, 65536 overflows int, 0, 16 as signed char gives -64, 3, 0 as unsigned int gives 1073741825; 0, 1, ..., n-1 is taken about 0 instead of the mean. Holds when n (hi-lo)^2 is a value of the type and its arithmetic is signed, or unsigned and the data ascend; equal values give 0. In unsigned types not narrower than int nothing is undefined.")
claim("C114","partial","C114_violated C114_constant C114_below_mean C114_kurtosis_partial C114_skewness_partial C114_unsigned_pushes C114_unsigned_kurtosis C114_unsigned_witness C114_signed_kurtosis","Violated by equal values of every integer type: epsilon() is 0, so the guard does not apply; skewness() converts NaN to an integer and kurtosis() divides by zero. delta / n is evaluated in size_t, so values below the mean give a wrong sum. kurtosis() is defined if the sum of squares is positive and its square fits, skewness() if the sum is negative. For unsigned types not narrower than int every push is defined, and kurtosis() divides by zero exactly if the square of the sum of squares is a multiple of 2^bits; the unsigned int values 0, 512 are an example. For signed types not narrower than int kurtosis() is undefined exactly if the sum of squares is zero or its square overflows.")
claim("C115","partial","C115_violated C115_negative C115_wraps C115_within_partial C115_ascending_partial C115_unsigned_defined","Violated by negative data: the weighted sum is evaluated in size_t, the interim mean of -6, -6, -6 is 1431655759. Holds for data that are not negative and types with signed arithmetic, and for ascending data in unsigned types, if the weighted sums do not reach 2^w. In unsigned types not narrower than int that hold 2 W nothing is undefined.")
claim("C116","partial","C116_violated C116_uint16 C116_modular_partial C116_exact_partial","Violated by uint16_t (65535 * 65535 overflows int) and int (signed overflow). Holds for unsigned types not narrower than int, signed types of at most half the width of int and unsigned types of less than half; exact in every type when the bound on the sums fits.")
claim("C117","proved","C117_recurrence C117_scaled C117_zero_scale","")
claim("C118","proved","C118_success C118_equal C118_positions C118_sizes C118_silent","")
claim("C119","partial","C119_violated C119_always C119_ranges C119_counts_partial C119_ranges_partial","Violated with Boost 1.68 or later: test_failure() calls errors(), which returns a reference to the counter, and does not increment it, so every program succeeds. Holds with earlier versions of Boost.")
claim("C120","partial","C120_violated C120_frozen C120_float C120_zeros C120_moves_partial","Violated: after 2^(p+2) values (2^26 for float) the mean does not change any more for values whose distance to it is at most its magnitude; 2^26 ones followed by 2^40 zeros keep the mean 1. Holds if the distance is more than 4 n (u |m| + 3 eta).")
claim("C121","proved","C121_constant C121_error","")
claim("C122","proved","C122_affine C122_bounds C122_increasing C122_weights C122_limit C122_order","")
claim("C123","proved","C123_slope C123_at","")
claim("C124","proved","C124_error","")
claim("C125","proved","C125_mean C125_variance C125_kurtosis C125_pairs","")
claim("C126","partial","C126_skewness_violated C126_skewness_partial C126_limit","The code violates the statement: the limit is max(skewness, 0), because skewness() returns 0 whenever the third sum is below epsilon; C126_skewness_violated gives values that are 0 with probability 1/3 and 3 with probability 2/3. It holds for distributions whose skewness is not negative.")
claim("C127","proved","C127_mean C127_variance C127_covariance C127_window C127_window_covariance","exact arithmetic")
claim("C128","partial","C128_unbiased_mean_violated C128_unbiased_mean_partial C128_expectation","Violated: unbiased_mean() returns the sum divided by n-1, its expectation is n/(n-1) m; mean() is the unbiased one (C127). It holds if and only if m = 0.")
claim("C129","proved","C129_decay C129_fir C129_interim","exact arithmetic")
claim("C130","proved","C130_gauss_markov","exact arithmetic")
claim("C131","partial","C131_decay_variance_violated C131_too_small C131_decay_variance_partial","Violated: the deviation of a new value is taken from the mean that already contains it, and old deviations are never corrected. Proved instead: (1-f)/(2-f) V <= variance() <= (1-f) V for the exponentially weighted variance V, so the result is too small for every data set with V > 0.")
claim("C132","partial","C132_violated C132_expectation C132_underestimates","Violated: the expectation tends to 2(1-f)^2/(2-f) times the variance, which is below it for every factor. Proved instead: this limit and the exact expectation after every number of values.")
claim("C133","partial","C133_violated C133_slow_ramp C133_unsigned C133_not_overfilled C133_one_partial C133_ascending_partial C133_unsigned_defined","Violated in every integer type of three bits or more: steps smaller than the window size are truncated to 0, so the mean never follows a slow ramp. Proved: the cumulative mean up to N values; N = 1; ascending data stay between the first value and the last, with N times the mean at most the sum of the window; in unsigned types not narrower than int nothing is undefined.")
claim("C134","partial","C134_violated C134_negative C134_asymmetric C134_quotient C134_self C134_within_partial C134_ascending_partial C134_unsigned_defined","Violated: a negative co-moment is divided as an unsigned number. Proved: signed types, n times the product of the ranges fits in the type: the co-moment is defined and bounded, the covariance is its truncated quotient if it is not negative; the co-moment of a variable with itself is the sum of squares of the variance filter; unsigned types: ascending pairs; the pushes are always defined if the type is not narrower than int.")
claim("C135","partial","C135_violated C135_always_three C135_normal_partial C135_skewness_two C135_unbiased_mean C135_unbiased_mean_nonneg","Violated: from five values on the result is 3 for all data. Proved instead: this, the undefined unbiased_skewness() of two values, and the value of unbiased_mean().")
claim("C136","partial","C136_violated C136_ramp C136_constant C136_modular C136_unsigned_defined C136_means_within C136_within_partial C136_ascending_partial","Violated in every integer type of three bits or more: the trend of 0, 1, ..., n-1 is 0. Proved: equal values; the value modulo 2^b; bounds for signed arithmetic and for ascending data in every type.")
claim("C137","partial","C137_violated C137_const_short C137_const_undefined C137_rvalue_partial C137_iir_partial C137_scale_undefined","Violated by filters constructed from a const array: the braced list of two pointers selects the initializer-list constructor of std::vector<bool>, the stored coefficients are {true, true}, and with three or more coefficients the third push reads past their end. (Compilers that implement P1957R2 reject the narrowing conversion.) Holds for filters constructed from array rvalues; the scale false is a division by zero.")
claim("C138","partial","C138_violated C138_third C138_nonneg C138_monotone C138_constant C138_error C138_self_partial","Violated if the covariance is contracted and the variance is not: 0, 4, 402653189. With the same pushes contracted the covariance of a variable with itself is its variance; the other claims hold for any choice (differences of data points that do not overflow).")
claim("C139","partial","C139_violated C139_bias C139_estimate_partial","Violated beyond 4N elements: for every N and every number of elements the estimate for a stream that is 1 at its last element and 0 elsewhere is too large. Up to 4N elements proved with the exact mean squared error.")
claim("C140","proved","C140_variance C140_covariance C140_factor","Three filters with variance() and the covariance.")
claim("C141","proved","C141_convolution C141_noise","The response h is the one of the model itself (first clause of both theorems).")
claim("C142","partial","C142_cumulative_partial C142_shape_partial C142_window_partial C142_decay_partial C142_impulse_partial C142_pairs_partial C142_correlation_partial C142_windowPairs_partial C142_interim_partial C142_interimShape_partial C142_violated C142_underflow_violated","Violated by the absolute cut-offs: with p >= 5 digits the pairs (0,0), (1,-1) have correlation -1, and multiplied by 2^-p they have correlation +1 (C142_violated). Skewness, kurtosis (cumulative and decaying) and correlation are proved under the condition that the compared quantity is on the same side of the cut-off before and after scaling; everything else is unconditional. In binary64 with its underflow already the mean violates the law (C142_underflow_violated).")
claim("C143","proved","C143_sum_skewness C143_sum_kurtosis C143_skewness_error C143_kurtosis_error","n^2 < 2^w is assumed for the kurtosis (larger counts wrap in size_t), and that 2^w - 1, the wrapped n - 2 of the first push, converts to a finite number. The cut-off is an assumption: below it the filter returns 0 (C03). The constants are not the best possible.")
claim("C144","proved","C144_unbiased_skewness C144_unbiased_kurtosis","n^2 < 2^w is assumed (C27). Exact arithmetic. The quotients themselves are not unbiased (C146).")
claim("C145","proved","C145_variance C145_window","Exact arithmetic.")
claim("C146","partial","C146_skewness_partial C146_skewness_violated","violated: the comparison sum < epsilon without an absolute value drops the negative results (C03) but not the positive ones, so skewness() of a symmetric distribution is too large on average; three throws of a fair coin. Proved for every distribution: the expectation is not negative and it is zero only if the result is zero with probability one.")
claim("C147","proved","C147_bounded C147_settled C147_unordered","Exact arithmetic, less than 2^w operations. The ascending order is needed, see C147_unordered; the library does not check it (C39).")
claim("C148","proved","C148_points C148_close","Exact arithmetic, less than 2^w operations.")
claim("C149","partial","C149_violated C149_frozen C149_estimate C149_partial","Violated for many values: the desired positions are floating-point sums that stop growing once an increment is at most half a unit of the last digit, so no inner marker ever gets beyond position 2^(p+1)+4+i (C149_frozen, for any data including NaN). C149_estimate: after 2^(p+4) zeros (2^28 with float) ascending values of any number leave the estimate of the median at 0. C149_partial: for n <= 2^p values the bounds of C147 hold up to a drift of 2 n^2 (2^-p + 2^(emin-1)) positions; missing: a smaller drift, and formats without rounding to nearest.")
claim("C150","proved","C150_slope C150_at C150_interim_slope C150_interim_at","From the drift of the running sums (C63, C81 window) and the error of the blends (C109), through one quotient and one line evaluation.")
claim("C151","proved","C151_skewness C151_kurtosis C151_kurtosis_skewness","From the cumulative bounds of C143 through the rounded weighted average; a current block of one value is ignored by the code and needs no assumption.")
claim("C152","proved","C152_decay_skewness_error C152_decay_kurtosis_error","The state is a decay mean of computed cubes (fourth powers), so the sums have the bound of C64; the two quotients are rounded with the error of the variance from C108.")
claim("C153","partial","C153_same_type C153_accuracy C153_accuracy_range C153_float_double_partial C153_skewness_error C153_long_double_violated C153_violated","Proved for float and double, and the end-to-end bound of C143 for them. Violated in long double: the square root of the count has 53 digits only. For double the mixed expressions are, to the last bit, those of the model used by the other properties (C153_same_type).")
claim("C154","proved","C154_stable C154_summing C154_needed","Strengthens C103 (one step) to whole histories, including finiteness.")
claim("C155","partial","C155_sums_partial C155_forget_partial C155_covariance_exact_partial C155_covariance_error_partial C155_small_windows_partial C155_fir_partial C155_iir_partial C155_moving_sum C155_three C155_zeros C155_violated","Violated: the window mean of N = 3 values divides before it accumulates, so the integers 1, 0, 0, 0 leave 2^-54 in binary64. Proved for the window covariance (which accumulates sums), windows of one and two values, FIR and IIR filters.")
claim("C156","partial","C156_mean_partial C156_covariance_partial C156_contracted_exact_partial C156_variance_drift C156_wrong C156_violated C156_contracted_drift C156_contracted_violated","Violated by the window variance in binary64 and, if the compiler fuses x * y - front_x * front_y, by the window covariance. Proved for the window mean, for the window covariance without fused operations, and with them if the products are exact.")
claim("C157","partial","C157_order_partial C157_double_partial C157_constant_partial C157_minimum C157_violated","Violated: the weighted average of equal numbers can be rounded to another number. Proved: finite and ascending, and outside the data by at most 12 u M; exact for constants with enough spare digits.")
claim("C158","proved","C158_mean C158_variance C158_covariance C158_window C158_decay_mean C158_trend C158_interim_mean C158_interim_weight","Exact arithmetic; two histories that differ in one value since the last clear.")
claim("C159","proved","C159_chebyshev C159_mean C159_window C159_decay C159_fir C159_interim C159_variance C159_window_variance C159_mean_rounded","Hoeffding's and Chebyshev's inequalities of Mathlib applied to the weights of each filter.")
claim("C160","proved","C160_ramp_cumulative C160_ramp_window C160_ramp_decay C160_ramp_interim C160_ramp_fir C160_step_cumulative C160_step_window C160_step_decay C160_step_interim","Closed forms for every length.")
claim("C161","proved","C161_fir_plain C161_fir C161_fir_finite C161_fir_integers C161_iir_plain C161_iir","Contraction nowhere gives the model of the other properties (C161_fir_plain, C161_iir_plain).")
claim("C162","partial","C162_value C162_violated_value C162_violated C162_difference_partial","Violated: c = x = 1+2^-52 with the second product contracted gives -2^-104. Zero if the second product of the last push is not contracted or the product is exact; otherwise the rounding error of the product.")
claim("C163","proved","C163_plain C163_exact C163_variance C163_skewness C163_kurtosis C163_mean_error","Contraction nowhere gives the model of the other properties (C163_plain); in exact arithmetic contraction changes nothing (C163_exact).")
claim("C164","partial","C164_violated_value C164_violated C164_ones_partial","Violated: factor 1/2+(2^26-1)2^-53, two ones, sum contracted and normalization not in the second push give 1+2^-52. Exact if both statements are contracted alike in every push; otherwise the error is bounded by C163_mean_error.")
claim("C165","partial","C165_estimate C165_powers C165_violated C165_partial","Violated for every share: ascending powers of 2. Cause: a marker that moves up is interpolated, as published, between values of different magnitude.")
claim("C166","proved","C166_cumulative C166_decay","Any arithmetic.")
claim("C167","partial","C167_value C167_violated_push C167_violated_clear C167_violated C167_violated_decay C167_partial","Violated: 0 and 2 pushed through the base give kurtosis 0; after 0, 2, clear through the base, 5, 7 the kurtosis is 2 instead of 1. C167_value is the exact value after any calls on the cumulative filter.")
claim("C168","proved","C168_cumulative C168_pairs C168_decay C168_window C168_window_pairs C168_interim C168_interim_pairs C168_impulse C168_quantile C168_interim_quantile C168_data C168_scale","Each filter commutes with every map between arithmetics that respects the operations (Proofs/Natural.lean, Proofs/NaturalWindow.lean). C168_scale: the condition on the scale is needed.")
claim("C169","proved","C169_cumulative C169_cumulative_variance C169_window C169_window_period C169_window_null C169_interim_null C169_decay C169_decay_gain C169_fir C169_iir wave_cos","wave_cos: the data are K + A cos(j theta + phi). C169_decay_gain: the gain of the decaying mean is f / sqrt(1 - 2(1-f) cos theta + (1-f)^2), at most 1.")
claim("C170","proved","C170_interval C170_mean C170_variance","Uses the central limit theorem and Slutsky's theorem of Mathlib.")
claim("C171","proved","C171_formats C171_mean_within C171_mean_error C171_variance_nonneg C171_monotone C171_constant C171_same_format C171_precision_matters","C171_precision_matters: the float values -1 and 16777216 have the mean 8388607 evaluated in float and 8388607.5 evaluated in double. C171_same_format: with the evaluation format equal to the value type the model is that of Model/Cumulative.lean. Members are stored in the value type.")
claim("C172","proved","C172_constant C172_error C172_self C172_variance_error","The error bounds are for the biased estimators; they need (6n + 65) (u + u' + u u') <= 1 and products large enough not to underflow.")
claim("C173","proved","C173_covariance C173_slope C173_variance_interval","Exact arithmetic with the cut-off of the code; the counter must hold n (n^2 for the kurtosis filter).")
claim("C174","partial","C174_violated C174_small C174_independent_partial","Violated: when the product of the variances of the distributions is below epsilon the result is 1 with a probability that tends to one, although the variables are independent. Proved when the product is above epsilon.")
claim("C175","partial","C175_violated C175_zero C175_skewness_partial","Violated: the result is never negative. Proved for bounds t >= 0; the probability that skewness() is exactly zero tends to one half.")
claim("C176","proved","C176_kurtosis C176_skewness","Exact arithmetic with the cut-offs of the code. Distributions with m3 = 0: C175; with m3 < 0 the result tends to 0 (C126).")
claim("C177","partial","C177_violated C177_resists C177_outlier C177_six C177_few_partial C177_resists_partial C177_published","Violated for every number of values from 6 on: seven values 0, 0, 0, 0, M, 0, 0 give the estimate M / 18, and the estimate is a positive multiple of M however many zeros follow; 0, 0, 0, 0, 0, -M give -M / 9. Proved for three to five values, where the estimate lies within the remaining values. The published algorithm (C71) shares the defect from the eighth value on (C177_published).")
claim("C178","proved","C178_mean C178_trend C178_decay_mean C178_window_mean C178_interim_mean C178_variance C178_window_variance C178_interim_variance C178_decay_variance C178_regression C178_window_regression C178_interim_slope","Exact arithmetic.")
claim("C179","proved","C179_fir C179_fir_order C179_iir C179_order C179_inverse","Exact arithmetic. The convolution Spec.conv is the coefficient list of the product of two polynomials.")
claim("C180","proved","C180_slope C180_line","Exact arithmetic; the limit of large n. The expectation of the error is the intercept.")
claim("C181","proved","C181_stable C181_converges C181_unstable C181_iff","Exact arithmetic. Extends C88, whose criterion (the sum of |b_i| below |scale|) is only sufficient.")
claim("C182","proved","C182_fir C182_iir","Exact arithmetic.")
claim("C183","proved","C183_forgets","Exact arithmetic. K and rho depend on the coefficients only.")
claim("C184","proved","C184_gain C184_contracted C184_error","C154 and C161 need the sizes of the divisor coefficients to sum to less than the scale; here only the poles count. The gain is finite for every stable filter; for two complex poles of modulus 0.85 it is shown to be at most 50.")
claim("C185","proved","C185_gain C185_poles C185_stable C185_output C185_rounded","For the filter y_n = 1.2 y_(n-1) - 0.72 y_(n-2) + x_n with coefficients rounded to double and inputs up to 1000 the values stay within 2^-27 of the exact ones.")
claim("C186","proved","C186_mean C186_variance C186_rounded","The variance needs a history without values before a clear because of C27.")
claim("C187","proved","C187_mean C187_trend C187_decay_mean C187_window_mean C187_interim_mean C187_variance C187_window_variance C187_interim_variance C187_decay_variance C187_covariance C187_window_covariance C187_interim_covariance C187_fir C187_iir","Exact arithmetic; rounding errors (for example C64 and C184) add to these.")
claim("C188","partial","C188_few_partial C188_extremes C188_violated C188_steady C188_jump C188_published","Violated from six values on: the estimate of the median of 0, 1, 2, 3, 4, x is 8/3 for x = 2 and 2 for every x in [1, 2), so no K exists. The published algorithm jumps as well, at the seventh value. Proved with K = 1: every quantile for at most as many values as there are markers, minimum and maximum always, and the exact quantile always.")
claim("C189","proved","C189_regression C189_window_regression C189_correlation C189_interim_slope C189_interim_line","The bound for the slope is attained. Exact arithmetic.")
claim("C190","proved","C190_mean C190_trend C190_decay_mean C190_window_mean C190_interim_mean C190_variance C190_covariance","B is a number of the format and 2 B does not overflow. The factor of the decay mean is not converted.")
claim("C191","proved","C191_skewness C191_kurtosis","Exact arithmetic; below the cut-off (and for negative skewness, C03) the filter returns 0.")
claim("C192","partial","C192_violated C192_neighbours C192_underflow C192_grid_partial","The code violates it: the variance of 2^52+1 and 2^52+2 in binary64 is 0, as the mean is rounded to the second value; so is the variance of 0 and 2^-600, as the product of the deviations underflows. Proved for multiples of 2^e with at most p-2 binary digits when 2e is not below the underflow threshold. The equivalence in exact arithmetic is part of C02.")
claim("C193","proved","C193_variance C193_window C193_deviation C193_kurtosis C193_correlation","Exact arithmetic; below the cut-offs the filters return 0 or take another branch (C03, C04, C11).")
claim("C194","proved","C194_mean C194_variance C194_decay C194_regression","Exact arithmetic. With rounding see C120.")
claim("C195","proved","C195_towards","Every format, any rounding that is monotone and exact on representable numbers. How far it moves: C120, C194.")
claim("C196","proved","C196_variance C196_shape C196_pairs","Exact arithmetic. Skewness and kurtosis need the third and fourth sums of the original data to reach the cut-off (below it the code returns zero, C03, C04).")
claim("C197","proved","C197_mean C197_variance C197_covariance","Exact arithmetic. With rounding see C62 and C107.")
claim("C198","proved","C198_variance C198_window C198_kurtosis","Exact arithmetic. The bounds are stated without division, so that they include t = 0 and v = 0.")
