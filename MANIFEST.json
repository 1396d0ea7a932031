{
 "claims": [
  {
   "property": "C01",
   "status": "proved",
   "theorems": [
    "Verif.Props.C01_mean",
    "Verif.Props.C01_mean_inherited"
   ],
   "note": "exact arithmetic, every history, n < 2^w"
  },
  {
   "property": "C02",
   "status": "proved",
   "theorems": [
    "Verif.Props.C02_variance",
    "Verif.Props.C02_variance_inherited"
   ],
   "note": "exact arithmetic, n < 2^w"
  },
  {
   "property": "C03",
   "status": "partial",
   "theorems": [
    "Verif.Props.C03_skewness_violated",
    "Verif.Props.C03_skewness_partial",
    "Verif.Props.C03_skewness_inherited"
   ],
   "note": "The code returns 0 for every data set with negative third moment (tests `sum < epsilon` without abs): violated, witness 0,3,3. Proved for M3 > -eps."
  },
  {
   "property": "C04",
   "status": "proved",
   "theorems": [
    "Verif.Props.C04_kurtosis"
   ],
   "note": "exact arithmetic, n*n < 2^w"
  },
  {
   "property": "C05",
   "status": "proved",
   "theorems": [
    "Verif.Props.C05_unbiased_skewness",
    "Verif.Props.C05_unbiased_kurtosis",
    "Verif.Props.C03_skewness_inherited"
   ],
   "note": "correction formula relative to skewness()/kurtosis(), always finite"
  },
  {
   "property": "C06",
   "status": "proved",
   "theorems": [
    "Verif.Props.C06_clear"
   ],
   "note": "any arithmetic, all eight cumulative filters"
  },
  {
   "property": "C07",
   "status": "proved",
   "theorems": [
    "Verif.Props.C07_order_moments",
    "Verif.Props.C07_order_kurtosis",
    "Verif.Props.C07_order_pairs"
   ],
   "note": "all cumulative filters except trend, whose result depends on order by design"
  },
  {
   "property": "C08",
   "status": "proved",
   "theorems": [
    "Verif.Props.C08_affine_mean_variance",
    "Verif.Props.C08_affine_skewness",
    "Verif.Props.C08_affine_kurtosis"
   ],
   "note": ""
  },
  {
   "property": "C09",
   "status": "proved",
   "theorems": [
    "Verif.Props.C09_covariance",
    "Verif.Props.C09_size_assertion",
    "Verif.Props.C09_sizes",
    "Verif.Props.C09_covariance_symmetric",
    "Verif.Props.C09_covariance_self"
   ],
   "note": ""
  },
  {
   "property": "C10",
   "status": "proved",
   "theorems": [
    "Verif.Props.C10_correlation_bounded",
    "Verif.Props.C10_pearson"
   ],
   "note": ""
  },
  {
   "property": "C100",
   "status": "proved",
   "theorems": [
    "Verif.Props.C100_variance",
    "Verif.Props.C100_skewness",
    "Verif.Props.C100_kurtosis"
   ],
   "note": "Any binary format, rounding direction and data, NaN and infinities included."
  },
  {
   "property": "C101",
   "status": "partial",
   "theorems": [
    "Verif.Props.C101_violated",
    "Verif.Props.C101_one_way",
    "Verif.Props.C101_other_way",
    "Verif.Props.C101_cumulative_partial",
    "Verif.Props.C101_window_partial"
   ],
   "note": "Violated by the cumulative covariance in binary64: (1,0),(2^53,1) gives 2^51, with the coordinates exchanged 2^51-1/4, because push multiplies the deviation from the new mean of x by that from the old mean of y. Proved: the two results differ by at most (12n+136) u A B, and the window covariance is symmetric bit for bit for any data."
  },
  {
   "property": "C102",
   "status": "partial",
   "theorems": [
    "Verif.Props.C102_violated",
    "Verif.Props.C102_reversed",
    "Verif.Props.C102_mean_partial",
    "Verif.Props.C102_variance_partial"
   ],
   "note": "Violated in binary64: 0.75, 2^53+2 has the mean 2^52+2, in the other order 2^52+1. Proved: the difference is at most (n+11) u B for the mean and (12n+136) u B^2 for the variance."
  },
  {
   "property": "C103",
   "status": "proved",
   "theorems": [
    "Verif.Props.C103_fir",
    "Verif.Props.C103_fir_finite",
    "Verif.Props.C103_iir"
   ],
   "note": ""
  },
  {
   "property": "C104",
   "status": "partial",
   "theorems": [
    "Verif.Props.C104_violated",
    "Verif.Props.C104_window_slope",
    "Verif.Props.C104_cumulative_partial",
    "Verif.Props.C104_window_integers_partial"
   ],
   "note": "Violated by the window regression in binary64: the points (2^27+1, c), (2^27+2, c) with c = 2^27+3 give the slope 16, because the covariance is computed from sums of products. Proved for the cumulative regression: slope 0 and the exact prediction; for the window regression if the data are small multiples of a power of two as in C66."
  },
  {
   "property": "C105",
   "status": "partial",
   "theorems": [
    "Verif.Props.C105_violated",
    "Verif.Props.C105_size",
    "Verif.Props.C105_bounded_partial"
   ],
   "note": "Violated when the count of the pushes wraps around: the array is appended to again, and after n pushes it holds n / 2^w * N + min(n mod 2^w, N) elements (C105_size, exact for every n). Proved up to 2^w pushes."
  },
  {
   "property": "C106",
   "status": "partial",
   "theorems": [
    "Verif.Props.C106_violated",
    "Verif.Props.C106_infinite",
    "Verif.Props.C106_order_partial",
    "Verif.Props.C106_double",
    "Verif.Props.C106_float"
   ],
   "note": "Violated by overflow in binary64: six finite values whose median is estimated as infinity. Proved with rounding to nearest for N values up to B if 128 N B does not overflow, 2^11 N^2 <= 2^w and 64 N <= 2^p: for double and 64-bit sizes 2^26 values up to 2^980, for float 2^18 values up to 2^100. The case of up to 2q+3 values, where the estimate is interpolated, is C110."
  },
  {
   "property": "C107",
   "status": "proved",
   "theorems": [
    "Verif.Props.C107_variance_drift",
    "Verif.Props.C107_covariance_drift"
   ],
   "note": "Explicit constants: (230 t (t + N) / n + 2) u B^2 for the variance, (48 t + 29) u A B for the covariance, n = min(N, t). Hypotheses exclude overflow, underflow of the data bounds and so many values that the bound exceeds the data."
  },
  {
   "property": "C108",
   "status": "proved",
   "theorems": [
    "Verif.Props.C108_decay_variance_error"
   ],
   "note": "The bound is decayVarErr, about (constant) u B^2 / (f^2 g^2). Hypotheses exclude overflow, underflow of the data bounds and factors so small that the bound exceeds the data."
  },
  {
   "property": "C109",
   "status": "proved",
   "theorems": [
    "Verif.Props.C109_mean_error",
    "Verif.Props.C109_variance_error",
    "Verif.Props.C109_covariance_error"
   ],
   "note": "Hypotheses exclude overflow of the weighted sums, underflow of the data bounds, weights W^2 beyond the digits of the format, and windows so long that the bound exceeds the data."
  },
  {
   "property": "C11",
   "status": "partial",
   "theorems": [
    "Verif.Props.C11_linear_violated",
    "Verif.Props.C11_linear_partial"
   ],
   "note": "Violated at small scale: value() returns +1 for falling data when the product of variances is below epsilon. Proved above the cut-off and for rising lines."
  },
  {
   "property": "C110",
   "status": "partial",
   "theorems": [
    "Verif.Props.C110_violated",
    "Verif.Props.C110_second_index",
    "Verif.Props.C110_one_49th",
    "Verif.Props.C110_within_partial",
    "Verif.Props.C110_order_partial",
    "Verif.Props.C110_binary_fractions_partial"
   ],
   "note": "Violated in binary64: rank + 1 can round up to the integer after the next (rank just below 1, 2, 4, ...), and the interpolation then skips a value; it happens with 50 values and the quantile 1/49, and makes estimates descend. Within the data for all quantiles up to 1-16u in any order; in order if the second index follows the first, which holds for quantiles a/2^k."
  },
  {
   "property": "C111",
   "status": "partial",
   "theorems": [
    "Verif.Props.C111_violated",
    "Verif.Props.C111_ramp",
    "Verif.Props.C111_bound_partial",
    "Verif.Props.C111_ascending_partial"
   ],
   "note": "Violated: every division truncates towards 0, and the mean of 0, 1, ..., n-1 is computed as 0. n times the mean differs from the sum by at most n(n-1)/2 in every type with signed arithmetic, and the ramp attains this bound. For ascending data in unsigned types it is at most the sum, with the same bound."
  },
  {
   "property": "C112",
   "status": "partial",
   "theorems": [
    "Verif.Props.C112_violated",
    "Verif.Props.C112_descent",
    "Verif.Props.C112_two_values",
    "Verif.Props.C112_narrow_partial",
    "Verif.Props.C112_ascending_partial"
   ],
   "note": "Violated by unsigned types that are not narrower than int: input - mean wraps for a value below the mean; the mean of 2 and 0 is 2147483649 in 32 bits, and any descent takes the mean above the data. Holds for types narrower than int, and for ascending data in every unsigned type."
  },
  {
   "property": "C113",
   "status": "partial",
   "theorems": [
    "Verif.Props.C113_violated",
    "Verif.Props.C113_overflow",
    "Verif.Props.C113_negative",
    "Verif.Props.C113_unsigned",
    "Verif.Props.C113_ramp",
    "Verif.Props.C113_within_partial",
    "Verif.Props.C113_constant_partial",
    "Verif.Props.C113_ascending_partial",
    "Verif.Props.C113_unsigned_defined"
   ],
   "note": "Violated: 0, 65536 overflows int, 0, 16 as signed char gives -64, 3, 0 as unsigned int gives 1073741825; 0, 1, ..., n-1 is taken about 0 instead of the mean. Holds when n (hi-lo)^2 is a value of the type and its arithmetic is signed, or unsigned and the data ascend; equal values give 0. In unsigned types not narrower than int nothing is undefined."
  },
  {
   "property": "C114",
   "status": "partial",
   "theorems": [
    "Verif.Props.C114_violated",
    "Verif.Props.C114_constant",
    "Verif.Props.C114_below_mean",
    "Verif.Props.C114_kurtosis_partial",
    "Verif.Props.C114_skewness_partial",
    "Verif.Props.C114_unsigned_pushes",
    "Verif.Props.C114_unsigned_kurtosis",
    "Verif.Props.C114_unsigned_witness",
    "Verif.Props.C114_signed_kurtosis"
   ],
   "note": "Violated by equal values of every integer type: epsilon() is 0, so the guard does not apply; skewness() converts NaN to an integer and kurtosis() divides by zero. delta / n is evaluated in size_t, so values below the mean give a wrong sum. kurtosis() is defined if the sum of squares is positive and its square fits, skewness() if the sum is negative. For unsigned types not narrower than int every push is defined, and kurtosis() divides by zero exactly if the square of the sum of squares is a multiple of 2^bits; the unsigned int values 0, 512 are an example. For signed types not narrower than int kurtosis() is undefined exactly if the sum of squares is zero or its square overflows."
  },
  {
   "property": "C115",
   "status": "partial",
   "theorems": [
    "Verif.Props.C115_violated",
    "Verif.Props.C115_negative",
    "Verif.Props.C115_wraps",
    "Verif.Props.C115_within_partial",
    "Verif.Props.C115_ascending_partial",
    "Verif.Props.C115_unsigned_defined"
   ],
   "note": "Violated by negative data: the weighted sum is evaluated in size_t, the interim mean of -6, -6, -6 is 1431655759. Holds for data that are not negative and types with signed arithmetic, and for ascending data in unsigned types, if the weighted sums do not reach 2^w. In unsigned types not narrower than int that hold 2 W nothing is undefined."
  },
  {
   "property": "C116",
   "status": "partial",
   "theorems": [
    "Verif.Props.C116_violated",
    "Verif.Props.C116_uint16",
    "Verif.Props.C116_modular_partial",
    "Verif.Props.C116_exact_partial"
   ],
   "note": "Violated by uint16_t (65535 * 65535 overflows int) and int (signed overflow). Holds for unsigned types not narrower than int, signed types of at most half the width of int and unsigned types of less than half; exact in every type when the bound on the sums fits."
  },
  {
   "property": "C117",
   "status": "proved",
   "theorems": [
    "Verif.Props.C117_recurrence",
    "Verif.Props.C117_scaled",
    "Verif.Props.C117_zero_scale"
   ],
   "note": ""
  },
  {
   "property": "C118",
   "status": "proved",
   "theorems": [
    "Verif.Props.C118_success",
    "Verif.Props.C118_equal",
    "Verif.Props.C118_positions",
    "Verif.Props.C118_sizes",
    "Verif.Props.C118_silent"
   ],
   "note": ""
  },
  {
   "property": "C119",
   "status": "partial",
   "theorems": [
    "Verif.Props.C119_violated",
    "Verif.Props.C119_always",
    "Verif.Props.C119_ranges",
    "Verif.Props.C119_counts_partial",
    "Verif.Props.C119_ranges_partial"
   ],
   "note": "Violated with Boost 1.68 or later: test_failure() calls errors(), which returns a reference to the counter, and does not increment it, so every program succeeds. Holds with earlier versions of Boost."
  },
  {
   "property": "C12",
   "status": "proved",
   "theorems": [
    "Verif.Props.C12_least_squares"
   ],
   "note": "minimiser over all lines, uniqueness, degenerate case"
  },
  {
   "property": "C120",
   "status": "partial",
   "theorems": [
    "Verif.Props.C120_violated",
    "Verif.Props.C120_frozen",
    "Verif.Props.C120_float",
    "Verif.Props.C120_zeros",
    "Verif.Props.C120_moves_partial"
   ],
   "note": "Violated: after 2^(p+2) values (2^26 for float) the mean does not change any more for values whose distance to it is at most its magnitude; 2^26 ones followed by 2^40 zeros keep the mean 1. Holds if the distance is more than 4 n (u |m| + 3 eta)."
  },
  {
   "property": "C121",
   "status": "proved",
   "theorems": [
    "Verif.Props.C121_constant",
    "Verif.Props.C121_error"
   ],
   "note": ""
  },
  {
   "property": "C122",
   "status": "proved",
   "theorems": [
    "Verif.Props.C122_affine",
    "Verif.Props.C122_bounds",
    "Verif.Props.C122_increasing",
    "Verif.Props.C122_weights",
    "Verif.Props.C122_limit",
    "Verif.Props.C122_order"
   ],
   "note": ""
  },
  {
   "property": "C123",
   "status": "proved",
   "theorems": [
    "Verif.Props.C123_slope",
    "Verif.Props.C123_at"
   ],
   "note": ""
  },
  {
   "property": "C124",
   "status": "proved",
   "theorems": [
    "Verif.Props.C124_error"
   ],
   "note": ""
  },
  {
   "property": "C125",
   "status": "proved",
   "theorems": [
    "Verif.Props.C125_mean",
    "Verif.Props.C125_variance",
    "Verif.Props.C125_kurtosis",
    "Verif.Props.C125_pairs"
   ],
   "note": ""
  },
  {
   "property": "C126",
   "status": "partial",
   "theorems": [
    "Verif.Props.C126_skewness_violated",
    "Verif.Props.C126_skewness_partial",
    "Verif.Props.C126_limit"
   ],
   "note": "The code violates the statement: the limit is max(skewness, 0), because skewness() returns 0 whenever the third sum is below epsilon; C126_skewness_violated gives values that are 0 with probability 1/3 and 3 with probability 2/3. It holds for distributions whose skewness is not negative."
  },
  {
   "property": "C127",
   "status": "proved",
   "theorems": [
    "Verif.Props.C127_mean",
    "Verif.Props.C127_variance",
    "Verif.Props.C127_covariance",
    "Verif.Props.C127_window",
    "Verif.Props.C127_window_covariance"
   ],
   "note": "exact arithmetic"
  },
  {
   "property": "C128",
   "status": "partial",
   "theorems": [
    "Verif.Props.C128_unbiased_mean_violated",
    "Verif.Props.C128_unbiased_mean_partial",
    "Verif.Props.C128_expectation"
   ],
   "note": "Violated: unbiased_mean() returns the sum divided by n-1, its expectation is n/(n-1) m; mean() is the unbiased one (C127). It holds if and only if m = 0."
  },
  {
   "property": "C129",
   "status": "proved",
   "theorems": [
    "Verif.Props.C129_decay",
    "Verif.Props.C129_fir",
    "Verif.Props.C129_interim"
   ],
   "note": "exact arithmetic"
  },
  {
   "property": "C13",
   "status": "proved",
   "theorems": [
    "Verif.Props.C13_exact_line",
    "Verif.Props.C13_exact_line_window"
   ],
   "note": "cumulative and window"
  },
  {
   "property": "C130",
   "status": "proved",
   "theorems": [
    "Verif.Props.C130_gauss_markov"
   ],
   "note": "exact arithmetic"
  },
  {
   "property": "C131",
   "status": "partial",
   "theorems": [
    "Verif.Props.C131_decay_variance_violated",
    "Verif.Props.C131_too_small",
    "Verif.Props.C131_decay_variance_partial"
   ],
   "note": "Violated: the deviation of a new value is taken from the mean that already contains it, and old deviations are never corrected. Proved instead: (1-f)/(2-f) V <= variance() <= (1-f) V for the exponentially weighted variance V, so the result is too small for every data set with V > 0."
  },
  {
   "property": "C132",
   "status": "partial",
   "theorems": [
    "Verif.Props.C132_violated",
    "Verif.Props.C132_expectation",
    "Verif.Props.C132_underestimates"
   ],
   "note": "Violated: the expectation tends to 2(1-f)^2/(2-f) times the variance, which is below it for every factor. Proved instead: this limit and the exact expectation after every number of values."
  },
  {
   "property": "C133",
   "status": "partial",
   "theorems": [
    "Verif.Props.C133_violated",
    "Verif.Props.C133_slow_ramp",
    "Verif.Props.C133_unsigned",
    "Verif.Props.C133_not_overfilled",
    "Verif.Props.C133_one_partial",
    "Verif.Props.C133_ascending_partial",
    "Verif.Props.C133_unsigned_defined"
   ],
   "note": "Violated in every integer type of three bits or more: steps smaller than the window size are truncated to 0, so the mean never follows a slow ramp. Proved: the cumulative mean up to N values; N = 1; ascending data stay between the first value and the last, with N times the mean at most the sum of the window; in unsigned types not narrower than int nothing is undefined."
  },
  {
   "property": "C134",
   "status": "partial",
   "theorems": [
    "Verif.Props.C134_violated",
    "Verif.Props.C134_negative",
    "Verif.Props.C134_asymmetric",
    "Verif.Props.C134_quotient",
    "Verif.Props.C134_self",
    "Verif.Props.C134_within_partial",
    "Verif.Props.C134_ascending_partial",
    "Verif.Props.C134_unsigned_defined"
   ],
   "note": "Violated: a negative co-moment is divided as an unsigned number. Proved: signed types, n times the product of the ranges fits in the type: the co-moment is defined and bounded, the covariance is its truncated quotient if it is not negative; the co-moment of a variable with itself is the sum of squares of the variance filter; unsigned types: ascending pairs; the pushes are always defined if the type is not narrower than int."
  },
  {
   "property": "C135",
   "status": "partial",
   "theorems": [
    "Verif.Props.C135_violated",
    "Verif.Props.C135_always_three",
    "Verif.Props.C135_normal_partial",
    "Verif.Props.C135_skewness_two",
    "Verif.Props.C135_unbiased_mean",
    "Verif.Props.C135_unbiased_mean_nonneg"
   ],
   "note": "Violated: from five values on the result is 3 for all data. Proved instead: this, the undefined unbiased_skewness() of two values, and the value of unbiased_mean()."
  },
  {
   "property": "C136",
   "status": "partial",
   "theorems": [
    "Verif.Props.C136_violated",
    "Verif.Props.C136_ramp",
    "Verif.Props.C136_constant",
    "Verif.Props.C136_modular",
    "Verif.Props.C136_unsigned_defined",
    "Verif.Props.C136_means_within",
    "Verif.Props.C136_within_partial",
    "Verif.Props.C136_ascending_partial"
   ],
   "note": "Violated in every integer type of three bits or more: the trend of 0, 1, ..., n-1 is 0. Proved: equal values; the value modulo 2^b; bounds for signed arithmetic and for ascending data in every type."
  },
  {
   "property": "C137",
   "status": "partial",
   "theorems": [
    "Verif.Props.C137_violated",
    "Verif.Props.C137_const_short",
    "Verif.Props.C137_const_undefined",
    "Verif.Props.C137_rvalue_partial",
    "Verif.Props.C137_iir_partial",
    "Verif.Props.C137_scale_undefined"
   ],
   "note": "Violated by filters constructed from a const array: the braced list of two pointers selects the initializer-list constructor of std::vector<bool>, the stored coefficients are {true, true}, and with three or more coefficients the third push reads past their end. (Compilers that implement P1957R2 reject the narrowing conversion.) Holds for filters constructed from array rvalues; the scale false is a division by zero."
  },
  {
   "property": "C138",
   "status": "partial",
   "theorems": [
    "Verif.Props.C138_violated",
    "Verif.Props.C138_third",
    "Verif.Props.C138_nonneg",
    "Verif.Props.C138_monotone",
    "Verif.Props.C138_constant",
    "Verif.Props.C138_error",
    "Verif.Props.C138_self_partial"
   ],
   "note": "Violated if the covariance is contracted and the variance is not: 0, 4, 402653189. With the same pushes contracted the covariance of a variable with itself is its variance; the other claims hold for any choice (differences of data points that do not overflow)."
  },
  {
   "property": "C139",
   "status": "partial",
   "theorems": [
    "Verif.Props.C139_violated",
    "Verif.Props.C139_bias",
    "Verif.Props.C139_estimate_partial"
   ],
   "note": "Violated beyond 4N elements: for every N and every number of elements the estimate for a stream that is 1 at its last element and 0 elsewhere is too large. Up to 4N elements proved with the exact mean squared error."
  },
  {
   "property": "C14",
   "status": "proved",
   "theorems": [
    "Verif.Props.C14_trend",
    "Verif.Props.C14_trend_linear"
   ],
   "note": ""
  },
  {
   "property": "C140",
   "status": "proved",
   "theorems": [
    "Verif.Props.C140_variance",
    "Verif.Props.C140_covariance",
    "Verif.Props.C140_factor"
   ],
   "note": "Three filters with variance() and the covariance."
  },
  {
   "property": "C141",
   "status": "proved",
   "theorems": [
    "Verif.Props.C141_convolution",
    "Verif.Props.C141_noise"
   ],
   "note": "The response h is the one of the model itself (first clause of both theorems)."
  },
  {
   "property": "C142",
   "status": "partial",
   "theorems": [
    "Verif.Props.C142_cumulative_partial",
    "Verif.Props.C142_shape_partial",
    "Verif.Props.C142_window_partial",
    "Verif.Props.C142_decay_partial",
    "Verif.Props.C142_impulse_partial",
    "Verif.Props.C142_pairs_partial",
    "Verif.Props.C142_correlation_partial",
    "Verif.Props.C142_windowPairs_partial",
    "Verif.Props.C142_interim_partial",
    "Verif.Props.C142_interimShape_partial",
    "Verif.Props.C142_violated",
    "Verif.Props.C142_underflow_violated"
   ],
   "note": "Violated by the absolute cut-offs: with p >= 5 digits the pairs (0,0), (1,-1) have correlation -1, and multiplied by 2^-p they have correlation +1 (C142_violated). Skewness, kurtosis (cumulative and decaying) and correlation are proved under the condition that the compared quantity is on the same side of the cut-off before and after scaling; everything else is unconditional. In binary64 with its underflow already the mean violates the law (C142_underflow_violated)."
  },
  {
   "property": "C143",
   "status": "proved",
   "theorems": [
    "Verif.Props.C143_sum_skewness",
    "Verif.Props.C143_sum_kurtosis",
    "Verif.Props.C143_skewness_error",
    "Verif.Props.C143_kurtosis_error"
   ],
   "note": "n^2 < 2^w is assumed for the kurtosis (larger counts wrap in size_t), and that 2^w - 1, the wrapped n - 2 of the first push, converts to a finite number. The cut-off is an assumption: below it the filter returns 0 (C03). The constants are not the best possible."
  },
  {
   "property": "C144",
   "status": "proved",
   "theorems": [
    "Verif.Props.C144_unbiased_skewness",
    "Verif.Props.C144_unbiased_kurtosis"
   ],
   "note": "n^2 < 2^w is assumed (C27). Exact arithmetic. The quotients themselves are not unbiased (C146)."
  },
  {
   "property": "C145",
   "status": "proved",
   "theorems": [
    "Verif.Props.C145_variance",
    "Verif.Props.C145_window"
   ],
   "note": "Exact arithmetic."
  },
  {
   "property": "C146",
   "status": "partial",
   "theorems": [
    "Verif.Props.C146_skewness_partial",
    "Verif.Props.C146_skewness_violated"
   ],
   "note": "violated: the comparison sum < epsilon without an absolute value drops the negative results (C03) but not the positive ones, so skewness() of a symmetric distribution is too large on average; three throws of a fair coin. Proved for every distribution: the expectation is not negative and it is zero only if the result is zero with probability one."
  },
  {
   "property": "C147",
   "status": "proved",
   "theorems": [
    "Verif.Props.C147_bounded",
    "Verif.Props.C147_settled",
    "Verif.Props.C147_unordered"
   ],
   "note": "Exact arithmetic, less than 2^w operations. The ascending order is needed, see C147_unordered; the library does not check it (C39)."
  },
  {
   "property": "C148",
   "status": "proved",
   "theorems": [
    "Verif.Props.C148_points",
    "Verif.Props.C148_close"
   ],
   "note": "Exact arithmetic, less than 2^w operations."
  },
  {
   "property": "C149",
   "status": "partial",
   "theorems": [
    "Verif.Props.C149_violated",
    "Verif.Props.C149_frozen",
    "Verif.Props.C149_estimate",
    "Verif.Props.C149_partial"
   ],
   "note": "Violated for many values: the desired positions are floating-point sums that stop growing once an increment is at most half a unit of the last digit, so no inner marker ever gets beyond position 2^(p+1)+4+i (C149_frozen, for any data including NaN). C149_estimate: after 2^(p+4) zeros (2^28 with float) ascending values of any number leave the estimate of the median at 0. C149_partial: for n <= 2^p values the bounds of C147 hold up to a drift of 2 n^2 (2^-p + 2^(emin-1)) positions; missing: a smaller drift, and formats without rounding to nearest."
  },
  {
   "property": "C15",
   "status": "proved",
   "theorems": [
    "Verif.Props.C15_mean_within",
    "Verif.Props.C15_mean_bounds",
    "Verif.Props.C15_binary64",
    "Verif.Props.C15_binary32",
    "Verif.Props.C15_nearest"
   ],
   "note": "every binary format and monotone rounding; binary64 and binary32 proved to be such formats"
  },
  {
   "property": "C150",
   "status": "proved",
   "theorems": [
    "Verif.Props.C150_slope",
    "Verif.Props.C150_at",
    "Verif.Props.C150_interim_slope",
    "Verif.Props.C150_interim_at"
   ],
   "note": "From the drift of the running sums (C63, C81 window) and the error of the blends (C109), through one quotient and one line evaluation."
  },
  {
   "property": "C151",
   "status": "proved",
   "theorems": [
    "Verif.Props.C151_skewness",
    "Verif.Props.C151_kurtosis",
    "Verif.Props.C151_kurtosis_skewness"
   ],
   "note": "From the cumulative bounds of C143 through the rounded weighted average; a current block of one value is ignored by the code and needs no assumption."
  },
  {
   "property": "C152",
   "status": "proved",
   "theorems": [
    "Verif.Props.C152_decay_skewness_error",
    "Verif.Props.C152_decay_kurtosis_error"
   ],
   "note": "The state is a decay mean of computed cubes (fourth powers), so the sums have the bound of C64; the two quotients are rounded with the error of the variance from C108."
  },
  {
   "property": "C153",
   "status": "partial",
   "theorems": [
    "Verif.Props.C153_same_type",
    "Verif.Props.C153_accuracy",
    "Verif.Props.C153_accuracy_range",
    "Verif.Props.C153_float_double_partial",
    "Verif.Props.C153_skewness_error",
    "Verif.Props.C153_long_double_violated",
    "Verif.Props.C153_violated"
   ],
   "note": "Proved for float and double, and the end-to-end bound of C143 for them. Violated in long double: the square root of the count has 53 digits only. For double the mixed expressions are, to the last bit, those of the model used by the other properties (C153_same_type)."
  },
  {
   "property": "C154",
   "status": "proved",
   "theorems": [
    "Verif.Props.C154_stable",
    "Verif.Props.C154_summing",
    "Verif.Props.C154_needed"
   ],
   "note": "Strengthens C103 (one step) to whole histories, including finiteness."
  },
  {
   "property": "C155",
   "status": "partial",
   "theorems": [
    "Verif.Props.C155_sums_partial",
    "Verif.Props.C155_forget_partial",
    "Verif.Props.C155_covariance_exact_partial",
    "Verif.Props.C155_covariance_error_partial",
    "Verif.Props.C155_small_windows_partial",
    "Verif.Props.C155_fir_partial",
    "Verif.Props.C155_iir_partial",
    "Verif.Props.C155_moving_sum",
    "Verif.Props.C155_three",
    "Verif.Props.C155_zeros",
    "Verif.Props.C155_violated"
   ],
   "note": "Violated: the window mean of N = 3 values divides before it accumulates, so the integers 1, 0, 0, 0 leave 2^-54 in binary64. Proved for the window covariance (which accumulates sums), windows of one and two values, FIR and IIR filters."
  },
  {
   "property": "C156",
   "status": "partial",
   "theorems": [
    "Verif.Props.C156_mean_partial",
    "Verif.Props.C156_covariance_partial",
    "Verif.Props.C156_contracted_exact_partial",
    "Verif.Props.C156_variance_drift",
    "Verif.Props.C156_wrong",
    "Verif.Props.C156_violated",
    "Verif.Props.C156_contracted_drift",
    "Verif.Props.C156_contracted_violated"
   ],
   "note": "Violated by the window variance in binary64 and, if the compiler fuses x * y - front_x * front_y, by the window covariance. Proved for the window mean, for the window covariance without fused operations, and with them if the products are exact."
  },
  {
   "property": "C157",
   "status": "partial",
   "theorems": [
    "Verif.Props.C157_order_partial",
    "Verif.Props.C157_double_partial",
    "Verif.Props.C157_constant_partial",
    "Verif.Props.C157_minimum",
    "Verif.Props.C157_violated"
   ],
   "note": "Violated: the weighted average of equal numbers can be rounded to another number. Proved: finite and ascending, and outside the data by at most 12 u M; exact for constants with enough spare digits."
  },
  {
   "property": "C158",
   "status": "proved",
   "theorems": [
    "Verif.Props.C158_mean",
    "Verif.Props.C158_variance",
    "Verif.Props.C158_covariance",
    "Verif.Props.C158_window",
    "Verif.Props.C158_decay_mean",
    "Verif.Props.C158_trend",
    "Verif.Props.C158_interim_mean",
    "Verif.Props.C158_interim_weight"
   ],
   "note": "Exact arithmetic; two histories that differ in one value since the last clear."
  },
  {
   "property": "C159",
   "status": "proved",
   "theorems": [
    "Verif.Props.C159_chebyshev",
    "Verif.Props.C159_mean",
    "Verif.Props.C159_window",
    "Verif.Props.C159_decay",
    "Verif.Props.C159_fir",
    "Verif.Props.C159_interim",
    "Verif.Props.C159_variance",
    "Verif.Props.C159_window_variance",
    "Verif.Props.C159_mean_rounded"
   ],
   "note": "Hoeffding's and Chebyshev's inequalities of Mathlib applied to the weights of each filter."
  },
  {
   "property": "C16",
   "status": "partial",
   "theorems": [
    "Verif.Props.C16_violated",
    "Verif.Props.C16_overflow",
    "Verif.Props.C16_nonneg_partial",
    "Verif.Props.C16_monotone_partial",
    "Verif.Props.C16_inherited"
   ],
   "note": "Violated when a difference overflows: the variance of 2^1023 and -2^1023 is -inf. Proved for all data whose differences do not overflow."
  },
  {
   "property": "C160",
   "status": "proved",
   "theorems": [
    "Verif.Props.C160_ramp_cumulative",
    "Verif.Props.C160_ramp_window",
    "Verif.Props.C160_ramp_decay",
    "Verif.Props.C160_ramp_interim",
    "Verif.Props.C160_ramp_fir",
    "Verif.Props.C160_step_cumulative",
    "Verif.Props.C160_step_window",
    "Verif.Props.C160_step_decay",
    "Verif.Props.C160_step_interim"
   ],
   "note": "Closed forms for every length."
  },
  {
   "property": "C161",
   "status": "proved",
   "theorems": [
    "Verif.Props.C161_fir_plain",
    "Verif.Props.C161_fir",
    "Verif.Props.C161_fir_finite",
    "Verif.Props.C161_fir_integers",
    "Verif.Props.C161_iir_plain",
    "Verif.Props.C161_iir"
   ],
   "note": "Contraction nowhere gives the model of the other properties (C161_fir_plain, C161_iir_plain)."
  },
  {
   "property": "C162",
   "status": "partial",
   "theorems": [
    "Verif.Props.C162_value",
    "Verif.Props.C162_violated_value",
    "Verif.Props.C162_violated",
    "Verif.Props.C162_difference_partial"
   ],
   "note": "Violated: c = x = 1+2^-52 with the second product contracted gives -2^-104. Zero if the second product of the last push is not contracted or the product is exact; otherwise the rounding error of the product."
  },
  {
   "property": "C163",
   "status": "proved",
   "theorems": [
    "Verif.Props.C163_plain",
    "Verif.Props.C163_exact",
    "Verif.Props.C163_variance",
    "Verif.Props.C163_skewness",
    "Verif.Props.C163_kurtosis",
    "Verif.Props.C163_mean_error"
   ],
   "note": "Contraction nowhere gives the model of the other properties (C163_plain); in exact arithmetic contraction changes nothing (C163_exact)."
  },
  {
   "property": "C164",
   "status": "partial",
   "theorems": [
    "Verif.Props.C164_violated_value",
    "Verif.Props.C164_violated",
    "Verif.Props.C164_ones_partial"
   ],
   "note": "Violated: factor 1/2+(2^26-1)2^-53, two ones, sum contracted and normalization not in the second push give 1+2^-52. Exact if both statements are contracted alike in every push; otherwise the error is bounded by C163_mean_error."
  },
  {
   "property": "C165",
   "status": "partial",
   "theorems": [
    "Verif.Props.C165_estimate",
    "Verif.Props.C165_powers",
    "Verif.Props.C165_violated",
    "Verif.Props.C165_partial"
   ],
   "note": "Violated for every share: ascending powers of 2. Cause: a marker that moves up is interpolated, as published, between values of different magnitude."
  },
  {
   "property": "C166",
   "status": "proved",
   "theorems": [
    "Verif.Props.C166_cumulative",
    "Verif.Props.C166_decay"
   ],
   "note": "Any arithmetic."
  },
  {
   "property": "C167",
   "status": "partial",
   "theorems": [
    "Verif.Props.C167_value",
    "Verif.Props.C167_violated_push",
    "Verif.Props.C167_violated_clear",
    "Verif.Props.C167_violated",
    "Verif.Props.C167_violated_decay",
    "Verif.Props.C167_partial"
   ],
   "note": "Violated: 0 and 2 pushed through the base give kurtosis 0; after 0, 2, clear through the base, 5, 7 the kurtosis is 2 instead of 1. C167_value is the exact value after any calls on the cumulative filter."
  },
  {
   "property": "C168",
   "status": "proved",
   "theorems": [
    "Verif.Props.C168_cumulative",
    "Verif.Props.C168_pairs",
    "Verif.Props.C168_decay",
    "Verif.Props.C168_window",
    "Verif.Props.C168_window_pairs",
    "Verif.Props.C168_interim",
    "Verif.Props.C168_interim_pairs",
    "Verif.Props.C168_impulse",
    "Verif.Props.C168_quantile",
    "Verif.Props.C168_interim_quantile",
    "Verif.Props.C168_data",
    "Verif.Props.C168_scale"
   ],
   "note": "Each filter commutes with every map between arithmetics that respects the operations (Proofs/Natural.lean, Proofs/NaturalWindow.lean). C168_scale: the condition on the scale is needed."
  },
  {
   "property": "C169",
   "status": "proved",
   "theorems": [
    "Verif.Props.C169_cumulative",
    "Verif.Props.C169_cumulative_variance",
    "Verif.Props.C169_window",
    "Verif.Props.C169_window_period",
    "Verif.Props.C169_window_null",
    "Verif.Props.C169_interim_null",
    "Verif.Props.C169_decay",
    "Verif.Props.C169_decay_gain",
    "Verif.Props.C169_fir",
    "Verif.Props.C169_iir",
    "Verif.Props.wave_cos"
   ],
   "note": "wave_cos: the data are K + A cos(j theta + phi). C169_decay_gain: the gain of the decaying mean is f / sqrt(1 - 2(1-f) cos theta + (1-f)^2), at most 1."
  },
  {
   "property": "C17",
   "status": "proved",
   "theorems": [
    "Verif.Props.C17_constant"
   ],
   "note": "every binary format, any history before the last clear"
  },
  {
   "property": "C170",
   "status": "proved",
   "theorems": [
    "Verif.Props.C170_interval",
    "Verif.Props.C170_mean",
    "Verif.Props.C170_variance"
   ],
   "note": "Uses the central limit theorem and Slutsky's theorem of Mathlib."
  },
  {
   "property": "C171",
   "status": "proved",
   "theorems": [
    "Verif.Props.C171_formats",
    "Verif.Props.C171_mean_within",
    "Verif.Props.C171_mean_error",
    "Verif.Props.C171_variance_nonneg",
    "Verif.Props.C171_monotone",
    "Verif.Props.C171_constant",
    "Verif.Props.C171_same_format",
    "Verif.Props.C171_precision_matters"
   ],
   "note": "C171_precision_matters: the float values -1 and 16777216 have the mean 8388607 evaluated in float and 8388607.5 evaluated in double. C171_same_format: with the evaluation format equal to the value type the model is that of Model/Cumulative.lean. Members are stored in the value type."
  },
  {
   "property": "C172",
   "status": "proved",
   "theorems": [
    "Verif.Props.C172_constant",
    "Verif.Props.C172_error",
    "Verif.Props.C172_self",
    "Verif.Props.C172_variance_error"
   ],
   "note": "The error bounds are for the biased estimators; they need (6n + 65) (u + u' + u u') <= 1 and products large enough not to underflow."
  },
  {
   "property": "C173",
   "status": "proved",
   "theorems": [
    "Verif.Props.C173_covariance",
    "Verif.Props.C173_slope",
    "Verif.Props.C173_variance_interval"
   ],
   "note": "Exact arithmetic with the cut-off of the code; the counter must hold n (n^2 for the kurtosis filter)."
  },
  {
   "property": "C174",
   "status": "partial",
   "theorems": [
    "Verif.Props.C174_violated",
    "Verif.Props.C174_small",
    "Verif.Props.C174_independent_partial"
   ],
   "note": "Violated: when the product of the variances of the distributions is below epsilon the result is 1 with a probability that tends to one, although the variables are independent. Proved when the product is above epsilon."
  },
  {
   "property": "C175",
   "status": "partial",
   "theorems": [
    "Verif.Props.C175_violated",
    "Verif.Props.C175_zero",
    "Verif.Props.C175_skewness_partial"
   ],
   "note": "Violated: the result is never negative. Proved for bounds t >= 0; the probability that skewness() is exactly zero tends to one half."
  },
  {
   "property": "C176",
   "status": "proved",
   "theorems": [
    "Verif.Props.C176_kurtosis",
    "Verif.Props.C176_skewness"
   ],
   "note": "Exact arithmetic with the cut-offs of the code. Distributions with m3 = 0: C175; with m3 < 0 the result tends to 0 (C126)."
  },
  {
   "property": "C177",
   "status": "partial",
   "theorems": [
    "Verif.Props.C177_violated",
    "Verif.Props.C177_resists",
    "Verif.Props.C177_outlier",
    "Verif.Props.C177_six",
    "Verif.Props.C177_few_partial",
    "Verif.Props.C177_resists_partial",
    "Verif.Props.C177_published"
   ],
   "note": "Violated for every number of values from 6 on: seven values 0, 0, 0, 0, M, 0, 0 give the estimate M / 18, and the estimate is a positive multiple of M however many zeros follow; 0, 0, 0, 0, 0, -M give -M / 9. Proved for three to five values, where the estimate lies within the remaining values. The published algorithm (C71) shares the defect from the eighth value on (C177_published)."
  },
  {
   "property": "C178",
   "status": "proved",
   "theorems": [
    "Verif.Props.C178_mean",
    "Verif.Props.C178_trend",
    "Verif.Props.C178_decay_mean",
    "Verif.Props.C178_window_mean",
    "Verif.Props.C178_interim_mean",
    "Verif.Props.C178_variance",
    "Verif.Props.C178_window_variance",
    "Verif.Props.C178_interim_variance",
    "Verif.Props.C178_decay_variance",
    "Verif.Props.C178_regression",
    "Verif.Props.C178_window_regression",
    "Verif.Props.C178_interim_slope"
   ],
   "note": "Exact arithmetic."
  },
  {
   "property": "C179",
   "status": "proved",
   "theorems": [
    "Verif.Props.C179_fir",
    "Verif.Props.C179_fir_order",
    "Verif.Props.C179_iir",
    "Verif.Props.C179_order",
    "Verif.Props.C179_inverse"
   ],
   "note": "Exact arithmetic. The convolution Spec.conv is the coefficient list of the product of two polynomials."
  },
  {
   "property": "C18",
   "status": "proved",
   "theorems": [
    "Verif.Props.C18_window_bookkeeping",
    "Verif.Props.C18_window_mean",
    "Verif.Props.C18_window_mean_inherited"
   ],
   "note": "bookkeeping in any arithmetic, mean in exact arithmetic"
  },
  {
   "property": "C180",
   "status": "proved",
   "theorems": [
    "Verif.Props.C180_slope",
    "Verif.Props.C180_line"
   ],
   "note": "Exact arithmetic; the limit of large n. The expectation of the error is the intercept."
  },
  {
   "property": "C181",
   "status": "proved",
   "theorems": [
    "Verif.Props.C181_stable",
    "Verif.Props.C181_converges",
    "Verif.Props.C181_unstable",
    "Verif.Props.C181_iff"
   ],
   "note": "Exact arithmetic. Extends C88, whose criterion (the sum of |b_i| below |scale|) is only sufficient."
  },
  {
   "property": "C182",
   "status": "proved",
   "theorems": [
    "Verif.Props.C182_fir",
    "Verif.Props.C182_iir"
   ],
   "note": "Exact arithmetic."
  },
  {
   "property": "C183",
   "status": "proved",
   "theorems": [
    "Verif.Props.C183_forgets"
   ],
   "note": "Exact arithmetic. K and rho depend on the coefficients only."
  },
  {
   "property": "C184",
   "status": "proved",
   "theorems": [
    "Verif.Props.C184_gain",
    "Verif.Props.C184_contracted",
    "Verif.Props.C184_error"
   ],
   "note": "C154 and C161 need the sizes of the divisor coefficients to sum to less than the scale; here only the poles count. The gain is finite for every stable filter; for two complex poles of modulus 0.85 it is shown to be at most 50."
  },
  {
   "property": "C185",
   "status": "proved",
   "theorems": [
    "Verif.Props.C185_gain",
    "Verif.Props.C185_poles",
    "Verif.Props.C185_stable",
    "Verif.Props.C185_output",
    "Verif.Props.C185_rounded"
   ],
   "note": "For the filter y_n = 1.2 y_(n-1) - 0.72 y_(n-2) + x_n with coefficients rounded to double and inputs up to 1000 the values stay within 2^-27 of the exact ones."
  },
  {
   "property": "C186",
   "status": "proved",
   "theorems": [
    "Verif.Props.C186_mean",
    "Verif.Props.C186_variance",
    "Verif.Props.C186_rounded"
   ],
   "note": "The variance needs a history without values before a clear because of C27."
  },
  {
   "property": "C187",
   "status": "proved",
   "theorems": [
    "Verif.Props.C187_mean",
    "Verif.Props.C187_trend",
    "Verif.Props.C187_decay_mean",
    "Verif.Props.C187_window_mean",
    "Verif.Props.C187_interim_mean",
    "Verif.Props.C187_variance",
    "Verif.Props.C187_window_variance",
    "Verif.Props.C187_interim_variance",
    "Verif.Props.C187_decay_variance",
    "Verif.Props.C187_covariance",
    "Verif.Props.C187_window_covariance",
    "Verif.Props.C187_interim_covariance",
    "Verif.Props.C187_fir",
    "Verif.Props.C187_iir"
   ],
   "note": "Exact arithmetic; rounding errors (for example C64 and C184) add to these."
  },
  {
   "property": "C188",
   "status": "partial",
   "theorems": [
    "Verif.Props.C188_few_partial",
    "Verif.Props.C188_extremes",
    "Verif.Props.C188_violated",
    "Verif.Props.C188_steady",
    "Verif.Props.C188_jump",
    "Verif.Props.C188_published"
   ],
   "note": "Violated from six values on: the estimate of the median of 0, 1, 2, 3, 4, x is 8/3 for x = 2 and 2 for every x in [1, 2), so no K exists. The published algorithm jumps as well, at the seventh value. Proved with K = 1: every quantile for at most as many values as there are markers, minimum and maximum always, and the exact quantile always."
  },
  {
   "property": "C189",
   "status": "proved",
   "theorems": [
    "Verif.Props.C189_regression",
    "Verif.Props.C189_window_regression",
    "Verif.Props.C189_correlation",
    "Verif.Props.C189_interim_slope",
    "Verif.Props.C189_interim_line"
   ],
   "note": "The bound for the slope is attained. Exact arithmetic."
  },
  {
   "property": "C19",
   "status": "proved",
   "theorems": [
    "Verif.Props.C19_window_variance",
    "Verif.Props.C19_window_variance_nonneg"
   ],
   "note": "second part in every format that represents 0, any rounding, any inputs"
  },
  {
   "property": "C190",
   "status": "proved",
   "theorems": [
    "Verif.Props.C190_mean",
    "Verif.Props.C190_trend",
    "Verif.Props.C190_decay_mean",
    "Verif.Props.C190_window_mean",
    "Verif.Props.C190_interim_mean",
    "Verif.Props.C190_variance",
    "Verif.Props.C190_covariance"
   ],
   "note": "B is a number of the format and 2 B does not overflow. The factor of the decay mean is not converted."
  },
  {
   "property": "C191",
   "status": "proved",
   "theorems": [
    "Verif.Props.C191_skewness",
    "Verif.Props.C191_kurtosis"
   ],
   "note": "Exact arithmetic; below the cut-off (and for negative skewness, C03) the filter returns 0."
  },
  {
   "property": "C192",
   "status": "partial",
   "theorems": [
    "Verif.Props.C192_violated",
    "Verif.Props.C192_neighbours",
    "Verif.Props.C192_underflow",
    "Verif.Props.C192_grid_partial"
   ],
   "note": "The code violates it: the variance of 2^52+1 and 2^52+2 in binary64 is 0, as the mean is rounded to the second value; so is the variance of 0 and 2^-600, as the product of the deviations underflows. Proved for multiples of 2^e with at most p-2 binary digits when 2e is not below the underflow threshold. The equivalence in exact arithmetic is part of C02."
  },
  {
   "property": "C193",
   "status": "proved",
   "theorems": [
    "Verif.Props.C193_variance",
    "Verif.Props.C193_window",
    "Verif.Props.C193_deviation",
    "Verif.Props.C193_kurtosis",
    "Verif.Props.C193_correlation"
   ],
   "note": "Exact arithmetic; below the cut-offs the filters return 0 or take another branch (C03, C04, C11)."
  },
  {
   "property": "C194",
   "status": "proved",
   "theorems": [
    "Verif.Props.C194_mean",
    "Verif.Props.C194_variance",
    "Verif.Props.C194_decay",
    "Verif.Props.C194_regression"
   ],
   "note": "Exact arithmetic. With rounding see C120."
  },
  {
   "property": "C195",
   "status": "proved",
   "theorems": [
    "Verif.Props.C195_towards"
   ],
   "note": "Every format, any rounding that is monotone and exact on representable numbers. How far it moves: C120, C194."
  },
  {
   "property": "C196",
   "status": "proved",
   "theorems": [
    "Verif.Props.C196_variance",
    "Verif.Props.C196_shape",
    "Verif.Props.C196_pairs"
   ],
   "note": "Exact arithmetic. Skewness and kurtosis need the third and fourth sums of the original data to reach the cut-off (below it the code returns zero, C03, C04)."
  },
  {
   "property": "C197",
   "status": "proved",
   "theorems": [
    "Verif.Props.C197_mean",
    "Verif.Props.C197_variance",
    "Verif.Props.C197_covariance"
   ],
   "note": "Exact arithmetic. With rounding see C62 and C107."
  },
  {
   "property": "C198",
   "status": "proved",
   "theorems": [
    "Verif.Props.C198_variance",
    "Verif.Props.C198_window",
    "Verif.Props.C198_kurtosis"
   ],
   "note": "Exact arithmetic. The bounds are stated without division, so that they include t = 0 and v = 0."
  },
  {
   "property": "C20",
   "status": "proved",
   "theorems": [
    "Verif.Props.C20_window_covariance"
   ],
   "note": ""
  },
  {
   "property": "C21",
   "status": "proved",
   "theorems": [
    "Verif.Props.C21_window_least_squares",
    "Verif.Props.C21_size"
   ],
   "note": "minimiser over all lines, uniqueness, degenerate case"
  },
  {
   "property": "C22",
   "status": "partial",
   "theorems": [
    "Verif.Props.C22_forget_violated",
    "Verif.Props.C22_forget_partial",
    "Verif.Props.C22_clear"
   ],
   "note": "Violated for every N when an older value was NaN: the mean stays NaN for ever. Proved for finite values in exact arithmetic; clear() forgets in any arithmetic."
  },
  {
   "property": "C23",
   "status": "partial",
   "theorems": [
    "Verif.Props.C23_mean_violated",
    "Verif.Props.C23_count_division_by_zero",
    "Verif.Props.C23_mean_leaves_data",
    "Verif.Props.C23_window_drift",
    "Verif.Props.C23_window_violated",
    "Verif.Props.C23_mean_partial",
    "Verif.Props.C23_window_partial"
   ],
   "note": "Violated: value_type(count) wraps (division by zero at 2^b pushes, negative divisors before), and the truncated window update drifts without bound. Proved for fewer than 2^(b-1) values without overflow, and windows that have not been overfilled."
  },
  {
   "property": "C24",
   "status": "partial",
   "theorems": [
    "Verif.Props.C24_covariance_violated",
    "Verif.Props.C24_covariance_partial",
    "Verif.Props.C24_negative",
    "Verif.Props.C24_unbiased_mean_violated"
   ],
   "note": "Violated for negative co-moments: the division is carried out in size_t. Proved for co-moments >= 0."
  },
  {
   "property": "C25",
   "status": "proved",
   "theorems": [
    "Verif.Props.C25_decay_mean",
    "Verif.Props.C25_weights",
    "Verif.Props.C25_decay_mean_laws"
   ],
   "note": ""
  },
  {
   "property": "C26",
   "status": "partial",
   "theorems": [
    "Verif.Props.C26_variance_violated",
    "Verif.Props.C26_decay_moments_partial",
    "Verif.Props.C26_decay_finite"
   ],
   "note": "Violated in histories where values were pushed before clear() (consequence of C27). Closed forms proved for histories without such values; finiteness, sign and constant streams for every history."
  },
  {
   "property": "C27",
   "status": "partial",
   "theorems": [
    "Verif.Props.C27_clear_mean",
    "Verif.Props.C27_clear_violated",
    "Verif.Props.C27_variance_violated",
    "Verif.Props.C27_variance_ratio",
    "Verif.Props.C27_clear_partial"
   ],
   "note": "Violated: clear() does not reset the normalization of variance, skewness and kurtosis. Proved for mean() in any arithmetic; exact relation between cleared and new filter proved."
  },
  {
   "property": "C28",
   "status": "proved",
   "theorems": [
    "Verif.Props.C28_bookkeeping",
    "Verif.Props.C28_clear",
    "Verif.Props.C28_filters"
   ],
   "note": "any arithmetic, all five interim filters"
  },
  {
   "property": "C29",
   "status": "proved",
   "theorems": [
    "Verif.Props.C29_interim_mean",
    "Verif.Props.C29_interim_mean_laws",
    "Verif.Props.C29_recent",
    "Verif.Props.blocks_spec"
   ],
   "note": ""
  },
  {
   "property": "C30",
   "status": "proved",
   "theorems": [
    "Verif.Props.C30_interim_variance",
    "Verif.Props.C30_interim_variance_convex",
    "Verif.Props.C30_interim_skewness",
    "Verif.Props.C30_interim_kurtosis",
    "Verif.Props.C30_kurtosis_skewness",
    "Verif.Props.C29_recent"
   ],
   "note": ""
  },
  {
   "property": "C31",
   "status": "proved",
   "theorems": [
    "Verif.Props.C31_interim_covariance",
    "Verif.Props.C30_interim_variance_convex"
   ],
   "note": ""
  },
  {
   "property": "C32",
   "status": "partial",
   "theorems": [
    "Verif.Props.C32_exact_violated",
    "Verif.Props.C32_exact_partial",
    "Verif.Props.C32_covariance_violated",
    "Verif.Props.C32_covariance_partial"
   ],
   "note": "Violated for every W >= 2: the previous block keeps weight 1/(2W-1). Exact error proved."
  },
  {
   "property": "C33",
   "status": "partial",
   "theorems": [
    "Verif.Props.C33_clear_violated",
    "Verif.Props.C33_clear_partial"
   ],
   "note": "Violated: y_moment is not cleared, at() is wrong after clear(). slope() and size() are reset, in any arithmetic."
  },
  {
   "property": "C34",
   "status": "proved",
   "theorems": [
    "Verif.Props.C34_interim_regression",
    "Verif.Props.C34_switch_together"
   ],
   "note": "any arithmetic"
  },
  {
   "property": "C35",
   "status": "proved",
   "theorems": [
    "Verif.Props.C35_few"
   ],
   "note": "every list of quantiles in [0,1), also unordered"
  },
  {
   "property": "C36",
   "status": "proved",
   "theorems": [
    "Verif.Props.C36_extremes"
   ],
   "note": ""
  },
  {
   "property": "C37",
   "status": "partial",
   "theorems": [
    "Verif.Props.C37_markers",
    "Verif.Props.C37_within",
    "Verif.Props.C37_violated",
    "Verif.Props.C37_estimates_partial"
   ],
   "note": "Markers, and min <= get<i>() <= max, proved for every quantile list. get<i>() <= get<i+1>() is violated for quantiles that are not in ascending order, proved for ascending ones."
  },
  {
   "property": "C38",
   "status": "proved",
   "theorems": [
    "Verif.Props.C38_desired",
    "Verif.Props.C38_towards"
   ],
   "note": ""
  },
  {
   "property": "C39",
   "status": "partial",
   "theorems": [
    "Verif.Props.C39_violated",
    "Verif.Props.C39_wrong_marker",
    "Verif.Props.C39_ascending_partial"
   ],
   "note": "Violated: value<1/4>() of psquare<T, 3/4, 1/4> is the 3/4 quantile. Proved for arguments in ascending order."
  },
  {
   "property": "C40",
   "status": "partial",
   "theorems": [
    "Verif.Props.C40_violated",
    "Verif.Props.C40_reachable",
    "Verif.Props.C40_down",
    "Verif.Props.C40_up_partial",
    "Verif.Props.C40_adjust_partial"
   ],
   "note": "Violated downwards: positions[i-1]-positions[i] wraps and the height moves up by a tiny amount. Upwards, and the parabolic prediction, as published."
  },
  {
   "property": "C41",
   "status": "partial",
   "theorems": [
    "Verif.Props.C41_violated",
    "Verif.Props.C41_position_changed",
    "Verif.Props.C41_round_trip",
    "Verif.Props.C41_round_trip_exact",
    "Verif.Props.C41_round_trip_double",
    "Verif.Props.C41_write_back",
    "Verif.Props.C41_clear"
   ],
   "note": "Violated in binary64: positions pass through the value type, 2^53+1 is read back as 2^53. Round trip proved for positions that are representable (all in exact arithmetic, up to 2^53 in binary64). clear() in any arithmetic."
  },
  {
   "property": "C42",
   "status": "partial",
   "theorems": [
    "Verif.Props.C42_violated",
    "Verif.Props.C42_out_of_bounds",
    "Verif.Props.C42_push",
    "Verif.Props.C42_get",
    "Verif.Props.C42_get_exact",
    "Verif.Props.C42_exact_statement",
    "Verif.Props.C42_quantile_one"
   ],
   "note": "Violated in binary64: with the quantile 1-2^-53 and five values, rank+1 rounds to 5 and heights[5] is read. push in any arithmetic with any input; get in exact arithmetic, and in any arithmetic if the rank stays in range."
  },
  {
   "property": "C43",
   "status": "proved",
   "theorems": [
    "Verif.Props.C43_interim",
    "Verif.Props.C43_clear",
    "Verif.Props.C43_exact",
    "Verif.Props.C43_value"
   ],
   "note": "every W >= 2; any arithmetic except for the bounds"
  },
  {
   "property": "C44",
   "status": "partial",
   "theorems": [
    "Verif.Props.C44_violated",
    "Verif.Props.C44_witness",
    "Verif.Props.C44_push_changes_original",
    "Verif.Props.C44_dangling",
    "Verif.Props.C44_same_results",
    "Verif.Props.C44_clear_partial"
   ],
   "note": "Violated: the defaulted copy keeps pointers into the original, so pushing to the copy changes the original, and after its destruction every use of the copy is undefined. Proved for copies that are cleared first."
  },
  {
   "property": "C45",
   "status": "proved",
   "theorems": [
    "Verif.Props.C45_reservoir",
    "Verif.Props.C45_fill"
   ],
   "note": "every generator, N >= 1, 4N < 2^w, n < 2^w"
  },
  {
   "property": "C46",
   "status": "proved",
   "theorems": [
    "Verif.Props.C46_push",
    "Verif.Props.C46_truthful",
    "Verif.Props.C46_loses_one"
   ],
   "note": "every state, every generator"
  },
  {
   "property": "C47",
   "status": "proved",
   "theorems": [
    "Verif.Props.C47_uniform",
    "Verif.Props.C47_subsets",
    "Verif.Props.C47_law"
   ],
   "note": "counting outcomes of independent uniform draws; also all N-subsets equally likely; C47_law: the same as an expectation over all draws"
  },
  {
   "property": "C48",
   "status": "partial",
   "theorems": [
    "Verif.Props.C48_violated",
    "Verif.Props.C48_law_violated",
    "Verif.Props.C48_bias",
    "Verif.Props.C48_size_one",
    "Verif.Props.C48_always_accepted",
    "Verif.Props.C48_probabilities_partial",
    "Verif.Props.C48_law_total",
    "Verif.Props.C48_law_nonneg"
   ],
   "note": "Violated: element number 4N+1 is always accepted (skip_count is 0 when the threshold is reached). For every N and n > 4N each of the first 4N elements has less, and the last element more than the probability N/n (ideal independent uniform and geometric draws, cut at the largest size_t). Exact inclusion probabilities for given skip counts proved."
  },
  {
   "property": "C49",
   "status": "partial",
   "theorems": [
    "Verif.Props.C49_violated",
    "Verif.Props.C49_grows",
    "Verif.Props.C49_unbounded",
    "Verif.Props.C49_clear_partial"
   ],
   "note": "Violated: clear() keeps the samples; the sample then grows beyond N without bound. All other members are reset."
  },
  {
   "property": "C50",
   "status": "proved",
   "theorems": [
    "Verif.Props.C50_fir_defined",
    "Verif.Props.C50_fir",
    "Verif.Props.C50_fir_new",
    "Verif.Props.C50_fir_linear",
    "Verif.Props.C50_impulse_response"
   ],
   "note": "bookkeeping in any arithmetic, value in exact arithmetic"
  },
  {
   "property": "C51",
   "status": "partial",
   "theorems": [
    "Verif.Props.C51_violated",
    "Verif.Props.C51_clear_partial",
    "Verif.Props.C51_clear_observers_partial"
   ],
   "note": "Violated: clear() does not reset output, so value() directly after clear() is stale. Proved, in any arithmetic, from the first push after clear()."
  },
  {
   "property": "C52",
   "status": "proved",
   "theorems": [
    "Verif.Props.C52_iir_defined",
    "Verif.Props.C52_iir",
    "Verif.Props.C52_iir_step",
    "Verif.Props.C52_iir_linear",
    "Verif.Props.C52_iir_clear"
   ],
   "note": "clear() in any arithmetic"
  },
  {
   "property": "C53",
   "status": "proved",
   "theorems": [
    "Verif.Props.C53_push_inserter",
    "Verif.Props.C53_no_effect",
    "Verif.Props.C53_append",
    "Verif.Props.C53_singular"
   ],
   "note": ""
  },
  {
   "property": "C54",
   "status": "proved",
   "theorems": [
    "Verif.Props.C54_close_to",
    "Verif.Props.C54_symmetric",
    "Verif.Props.C54_reflexive",
    "Verif.Props.C54_nan",
    "Verif.Props.C54_infinity",
    "Verif.Props.C54_no_tolerance"
   ],
   "note": "symmetry, reflexivity and NaN in every symmetric format"
  },
  {
   "property": "C55",
   "status": "partial",
   "theorems": [
    "Verif.Props.C55_violated",
    "Verif.Props.C55_every_other_capacity",
    "Verif.Props.C55_deque_partial",
    "Verif.Props.C55_queue_partial"
   ],
   "note": "Violated for every capacity that is not a power of two: push_front wraps modulo 2^w. Proved for powers of two (all calls) and for every capacity without push_front."
  },
  {
   "property": "C56",
   "status": "proved",
   "theorems": [
    "Verif.Props.C56_exponential",
    "Verif.Props.C56_exponential_exact",
    "Verif.Props.C56_arithmetic"
   ],
   "note": ""
  },
  {
   "property": "C57",
   "status": "proved",
   "theorems": [
    "Verif.Props.C57_empty_cumulative",
    "Verif.Props.C57_one_value",
    "Verif.Props.C57_empty_window",
    "Verif.Props.C57_zero",
    "Verif.Props.C57_empty_zero",
    "Verif.Props.C57_new_decay"
   ],
   "note": "queries are functions of the state. C57_empty_zero: mean() and the unbiased statistics of an empty filter are 0, not NaN, because count - 1 wraps."
  },
  {
   "property": "C58",
   "status": "proved",
   "theorems": [
    "Verif.Props.C58_size_modular",
    "Verif.Props.C58_wrap_divides_by_zero",
    "Verif.Props.C58_kurtosis_limit"
   ],
   "note": ""
  },
  {
   "property": "C59",
   "status": "partial",
   "theorems": [
    "Verif.Props.C59_violated",
    "Verif.Props.C59_nan",
    "Verif.Props.C59_overflow",
    "Verif.Props.C59_constant_partial"
   ],
   "note": "Violated: a single value whose square overflows makes skewness and kurtosis NaN (inf * 0). Proved for all other numbers."
  },
  {
   "property": "C60",
   "status": "proved",
   "theorems": [
    "Verif.Props.C60_until_full"
   ],
   "note": "any arithmetic"
  },
  {
   "property": "C61",
   "status": "proved",
   "theorems": [
    "Verif.Props.C61_error_model",
    "Verif.Props.C61_binary64",
    "Verif.Props.C61_binary32",
    "Verif.Props.C61_mean_error"
   ],
   "note": "round to nearest, at least 4 digits"
  },
  {
   "property": "C62",
   "status": "proved",
   "theorems": [
    "Verif.Props.C62_window_drift"
   ],
   "note": ""
  },
  {
   "property": "C63",
   "status": "partial",
   "theorems": [
    "Verif.Props.C63_within_violated",
    "Verif.Props.C63_within_partial"
   ],
   "note": "Violated in binary64: a window of 2 after 2^60, 0, 1, 1 holds 1, 1 and has mean 1/2. Proved until the window is full; afterwards only the bound of C62."
  },
  {
   "property": "C64",
   "status": "proved",
   "theorems": [
    "Verif.Props.C64_decay_mean_error"
   ],
   "note": ""
  },
  {
   "property": "C65",
   "status": "partial",
   "theorems": [
    "Verif.Props.C65_constant_violated",
    "Verif.Props.C65_factor_one_violated",
    "Verif.Props.C65_constant_partial",
    "Verif.Props.C65_factor_one_partial"
   ],
   "note": "Violated in binary64: the decaying mean of the single value 3 with factor (3*2^50+1)*2^-52 is 3+2^-51; with factor 1 the mean of 2^60, 1 is 0. Proved for streams of zeros and of ones, and with factor 1 for data whose differences need no rounding (for example integers up to 2^51 as double); otherwise only up to the bound of C64."
  },
  {
   "property": "C66",
   "status": "partial",
   "theorems": [
    "Verif.Props.C66_window_violated",
    "Verif.Props.C66_constant_partial",
    "Verif.Props.C66_window_integers_partial"
   ],
   "note": "Violated by the window filter in binary64: x = 2^27+1 twice, y = 2^27+1, 2 gives covariance -2. Proved for the cumulative filter, every format, and for the window filter with data that are multiples of a power of two and so small that W^2 times the product of the sizes has p-1 digits (for example 16-bit samples as double, W up to 1023)."
  },
  {
   "property": "C67",
   "status": "partial",
   "theorems": [
    "Verif.Props.C67_window_violated",
    "Verif.Props.C67_self_partial",
    "Verif.Props.C67_nonneg_partial",
    "Verif.Props.C67_window_integers_partial"
   ],
   "note": "Violated by the window filter in binary64: 2^27+1, 2^27+2 has covariance -4 with itself. Proved for the cumulative filter: equality for every input, the sign for data whose differences do not overflow. Window filter: the sign for multiples of a power of two as in C66."
  },
  {
   "property": "C68",
   "status": "partial",
   "theorems": [
    "Verif.Props.C68_violated",
    "Verif.Props.C68_mean_value",
    "Verif.Props.C68_constant_partial",
    "Verif.Props.C68_spare_partial"
   ],
   "note": "Violated in binary64: five times 1+2^-52 with W = 4 gives the mean 1+2^-51. The variance part, and the mean until the first block is complete, are proved for every format; the mean of any number of values k 2^e if 2 W |k| has at most p binary digits (C68_spare_partial)."
  },
  {
   "property": "C69",
   "status": "proved",
   "theorems": [
    "Verif.Props.C69_nonneg"
   ],
   "note": ""
  },
  {
   "property": "C70",
   "status": "proved",
   "theorems": [
    "Verif.Props.C70_covariance_error",
    "Verif.Props.C70_variance_error"
   ],
   "note": "any rounding direction; u and underflow error as in C61"
  },
  {
   "property": "C71",
   "status": "partial",
   "theorems": [
    "Verif.Props.C71_violated",
    "Verif.Props.C71_linear_violated",
    "Verif.Props.C71_algorithm_partial",
    "Verif.Props.C71_no_fallback_partial"
   ],
   "note": "Violated twice: a marker moves at any non-zero distance from its desired position instead of from distance 1 on, and the linear prediction downwards divides by the unsigned difference 2^w - (n[i] - n[i-1]) and so moves the height slightly up instead of down. Proved: the estimator is the reference algorithm with exactly these two changes, and only with the first as long as the fallback is not taken downwards."
  },
  {
   "property": "C72",
   "status": "proved",
   "theorems": [
    "Verif.Props.C72_affine"
   ],
   "note": "exact arithmetic"
  },
  {
   "property": "C73",
   "status": "proved",
   "theorems": [
    "Verif.Props.C73_order"
   ],
   "note": "exact arithmetic; the whole state is equal"
  },
  {
   "property": "C74",
   "status": "proved",
   "theorems": [
    "Verif.Props.C74_extremes"
   ],
   "note": "any format, any quantiles"
  },
  {
   "property": "C75",
   "status": "proved",
   "theorems": [
    "Verif.Props.C75_constant"
   ],
   "note": "any binary format and rounding direction"
  },
  {
   "property": "C76",
   "status": "partial",
   "theorems": [
    "Verif.Props.C76_violated",
    "Verif.Props.C76_zero",
    "Verif.Props.C76_self_partial"
   ],
   "note": "Violated in binary64: for the values 0, 2^400 the product of the variances overflows and the correlation with itself is 0. Proved for every IEEE format, rounding to nearest, if the square of the variance does not overflow."
  },
  {
   "property": "C77",
   "status": "proved",
   "theorems": [
    "Verif.Props.C77_slope"
   ],
   "note": "any rounding direction"
  },
  {
   "property": "C78",
   "status": "partial",
   "theorems": [
    "Verif.Props.C78_far",
    "Verif.Props.C78_violated",
    "Verif.Props.C78_value",
    "Verif.Props.C78_diagonal_partial"
   ],
   "note": "Violated in binary64: (0, 0), (3, 2^52+1) has the correlation 1+2^-52. Proved for pairs (x, x) and (x, -x): exactly 1 and -1 (1 below the cut-off). In exact arithmetic see C10. C78_far: two pairs whose correlation in binary64 exceeds 1.7."
  },
  {
   "property": "C79",
   "status": "proved",
   "theorems": [
    "Verif.Props.C79_cumulative",
    "Verif.Props.C79_window",
    "Verif.Props.C79_decay",
    "Verif.Props.C79_interim",
    "Verif.Props.C79_impulse"
   ],
   "note": "including infinities and NaN"
  },
  {
   "property": "C80",
   "status": "proved",
   "theorems": [
    "Verif.Props.C80_covariance",
    "Verif.Props.C80_correlation",
    "Verif.Props.C80_regression",
    "Verif.Props.C80_window",
    "Verif.Props.C80_interim"
   ],
   "note": "including infinities and NaN"
  },
  {
   "property": "C81",
   "status": "partial",
   "theorems": [
    "Verif.Props.C81_violated",
    "Verif.Props.C81_skewness_partial",
    "Verif.Props.C81_nan_partial",
    "Verif.Props.C81_iff_partial"
   ],
   "note": "Violated in binary64: 0, 0, 3 has a positive skewness, 0, 0, -3 has skewness 0 (the cut-off of C03). Proved: what the negated data give, by the size of the third moment."
  },
  {
   "property": "C82",
   "status": "partial",
   "theorems": [
    "Verif.Props.C82_window_violated",
    "Verif.Props.C82_decay_violated",
    "Verif.Props.C82_window_variance_zero",
    "Verif.Props.C82_window_slope_zero",
    "Verif.Props.C82_cumulative_partial",
    "Verif.Props.C82_pairs_partial",
    "Verif.Props.C82_trend_partial",
    "Verif.Props.C82_window_partial",
    "Verif.Props.C82_window_regression_partial",
    "Verif.Props.C82_decay_partial",
    "Verif.Props.C82_fir_partial",
    "Verif.Props.C82_iir_partial",
    "Verif.Props.C82_interim_partial",
    "Verif.Props.C82_interim_regression_partial"
   ],
   "note": "Violated by window::moment_variance (std::max(0, NaN) is 0), the window regression slope (0 then) and the decaying skewness and kurtosis (var > epsilon is false). Proved for all other results."
  },
  {
   "property": "C83",
   "status": "partial",
   "theorems": [
    "Verif.Props.C83_violated",
    "Verif.Props.C83_window_stuck",
    "Verif.Props.C83_mean_stuck",
    "Verif.Props.C83_comoment_stuck",
    "Verif.Props.C83_fir_partial",
    "Verif.Props.C29_recent"
   ],
   "note": "Violated by the window filters: one NaN makes the mean NaN and the variance 0 until clear(). Proved for FIR and interim filters in any arithmetic."
  },
  {
   "property": "C84",
   "status": "partial",
   "theorems": [
    "Verif.Props.C84_violated",
    "Verif.Props.C84_after_infinity",
    "Verif.Props.C84_last_partial"
   ],
   "note": "Violated: every value after an infinity makes the mean NaN until clear() (inf - inf). Proved for an infinity that is the last value."
  },
  {
   "property": "C85",
   "status": "proved",
   "theorems": [
    "Verif.Props.C85_variance",
    "Verif.Props.C85_window",
    "Verif.Props.C85_kurtosis"
   ],
   "note": ""
  },
  {
   "property": "C86",
   "status": "proved",
   "theorems": [
    "Verif.Props.C86_residuals",
    "Verif.Props.C86_window_residuals",
    "Verif.Props.C86_slope_correlation"
   ],
   "note": ""
  },
  {
   "property": "C87",
   "status": "proved",
   "theorems": [
    "Verif.Props.C87_bounded",
    "Verif.Props.C87_sharp",
    "Verif.Props.C87_constant",
    "Verif.Props.C87_memory",
    "Verif.Props.C87_converges"
   ],
   "note": ""
  },
  {
   "property": "C88",
   "status": "proved",
   "theorems": [
    "Verif.Props.C88_bounded",
    "Verif.Props.C88_converges",
    "Verif.Props.C88_sharp"
   ],
   "note": ""
  },
  {
   "property": "C89",
   "status": "proved",
   "theorems": [
    "Verif.Props.C89_window",
    "Verif.Props.C89_decay",
    "Verif.Props.C89_decay_shape",
    "Verif.Props.C89_interim",
    "Verif.Props.C89_pairs",
    "Verif.Props.C89_window_pairs",
    "Verif.Props.C89_correlation"
   ],
   "note": "cumulative moments: C08"
  },
  {
   "property": "C90",
   "status": "proved",
   "theorems": [
    "Verif.Props.C90_step",
    "Verif.Props.C90_forget"
   ],
   "note": ""
  },
  {
   "property": "C91",
   "status": "proved",
   "theorems": [
    "Verif.Props.C91_cumulative",
    "Verif.Props.C91_window",
    "Verif.Props.C91_decay",
    "Verif.Props.C91_interim"
   ],
   "note": "cumulative: uniformly in the width of the counter, before it wraps"
  },
  {
   "property": "C92",
   "status": "partial",
   "theorems": [
    "Verif.Props.C92_violated",
    "Verif.Props.C92_preceding_partial",
    "Verif.Props.C92_never_first",
    "Verif.Props.C92_full_partial",
    "Verif.Props.C92_calls"
   ],
   "note": "Violated: the constructor stores first where the other members expect the index after the last element, so the span shows the length elements before first. Proved: what it shows, and the statement for a span that fills an array of 2^k elements. The intended meaning is taken from the parameter names."
  },
  {
   "property": "C93",
   "status": "partial",
   "theorems": [
    "Verif.Props.C93_sizes",
    "Verif.Props.C93_violated",
    "Verif.Props.C93_first_push",
    "Verif.Props.C93_preconditions_partial"
   ],
   "note": "Violated for size 0 and for sizes whose quadruple wraps to 0: the first push writes to an empty vector. Proved for sizes N with 1 <= N and 4N < 2^w. C93_sizes is the exact condition on N: every history works iff N is not 0 and N <= 4*N in size_type."
  },
  {
   "property": "C94",
   "status": "partial",
   "theorems": [
    "Verif.Props.C94_violated",
    "Verif.Props.C94_smaller",
    "Verif.Props.C94_larger",
    "Verif.Props.C94_exact_partial",
    "Verif.Props.C94_cumulative_partial",
    "Verif.Props.C94_window_partial",
    "Verif.Props.C94_decay_partial",
    "Verif.Props.C94_interim_partial",
    "Verif.Props.C94_fir_partial",
    "Verif.Props.C94_iir_partial"
   ],
   "note": "Violated in binary64: the mean of 0.75 and 2^53+2 is computed as 2^52+2, the mean of 1 and 2^53+2 as 2^52+1. Proved in exact arithmetic for every change, and in every binary format and rounding direction for a change of the last value, infinities included; also for the FIR and IIR filters with positive first coefficient."
  },
  {
   "property": "C95",
   "status": "partial",
   "theorems": [
    "Verif.Props.C95_violated",
    "Verif.Props.C95_last_twice",
    "Verif.Props.C95_one_too_many",
    "Verif.Props.C95_empty",
    "Verif.Props.C95_missing_file",
    "Verif.Props.C95_last_fit",
    "Verif.Props.C95_last_fit_window",
    "Verif.Props.C95_lines_partial"
   ],
   "note": "Violated by every file: while (file) is tested before the extraction, so the last line is processed twice and an empty file reads uninitialized variables. Proved: the printed lines but the last are right. Formatted input is modelled for well-formed lines."
  },
  {
   "property": "C96",
   "status": "proved",
   "theorems": [
    "Verif.Props.C96_slope",
    "Verif.Props.C96_exact_line"
   ],
   "note": "at() is stated without clear because clear() keeps the mean of y (C33)."
  },
  {
   "property": "C97",
   "status": "proved",
   "theorems": [
    "Verif.Props.C97_window",
    "Verif.Props.C97_interim"
   ],
   "note": ""
  },
  {
   "property": "C98",
   "status": "proved",
   "theorems": [
    "Verif.Props.C98_moments",
    "Verif.Props.C98_covariance"
   ],
   "note": ""
  },
  {
   "property": "C99",
   "status": "proved",
   "theorems": [
    "Verif.Props.C99_moving_average",
    "Verif.Props.C99_exponential_smoothing",
    "Verif.Props.C99_no_feedback"
   ],
   "note": ""
  }
 ]
}