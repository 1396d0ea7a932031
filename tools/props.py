#!/usr/bin/env python3
"""Generates /verif/properties.jsonl (kept as a script so the list stays readable)."""
import json
P = []
I = "include/trial/online/"
def p(title, statement, quantifier, why, anchors):
    P.append(dict(id="C%02d" % (len(P) + 1), title=title, statement=statement,
                  quantifier=quantifier, why_tests_cant=why, anchors=anchors))

CM = I + "cumulative/detail/moment.ipp"
CC = I + "cumulative/detail/comoment.ipp"
p("Cumulative mean is the arithmetic mean",
  "After any history of push and clear, mean() of every cumulative moment filter equals the sum of the values pushed since the last clear divided by their number, size() is that number, and unbiased_mean() is the sum divided by (number - 1) once two values are present (exact arithmetic).",
  "every finite history of push/clear with fewer than 2^w pushes (w = width of size_t), every real data set",
  "the filter never stores the data, so agreement with the batch formula is an inductive fact about arbitrarily long histories",
  [CM + ": basic_moment<T, with::mean>::push, mean, unbiased_mean, size", I + "cumulative/moment.hpp"])
p("Cumulative variance is the population / sample variance",
  "variance() equals the mean squared deviation from the mean of the values pushed since the last clear, unbiased_variance() the same sum divided by n-1; the result is a finite non-negative number whenever the documented precondition (size()>0, size()>1) holds, and it is zero exactly when all values are equal.",
  "every history with fewer than 2^w values, every real data set",
  "needs the Welford recurrence for every n and every data set",
  [CM + ": basic_moment<T, with::variance>::push, variance, unbiased_variance"])
p("Cumulative skewness is the sample skewness",
  "skewness() returns the sample skewness sqrt(n)*M3/M2^(3/2) of the pushed values (0 when it is numerically undefined).",
  "every history, every real data set, including left-skewed (negative) data",
  "the sign and magnitude of the third central sum range over all data sets; the suites only use right-skewed or symmetric data",
  [CM + ": basic_moment<T, with::skewness>::push, skewness"])
p("Cumulative kurtosis is the sample kurtosis",
  "kurtosis() returns n*M4/M2^2 of the pushed values (0 when M4 is below machine epsilon) and, when it is computed, is at least 1; the intermediate size_t arithmetic does not affect the result while n^2 fits size_t.",
  "every history with n*n < 2^w, every real data set",
  "Pebay's fourth-moment update must be right for every n; size_t wrap-around at n=1,2 and for huge n is not reachable by tests",
  [CM + ": basic_moment<T, with::kurtosis>::push, kurtosis"])
p("Bias-corrected skewness and kurtosis",
  "unbiased_skewness() and unbiased_kurtosis() equal the documented Octave corrections of skewness()/kurtosis() (0 below the size limits and below the epsilon cut-off of those functions) and are always finite numbers for finite data (never NaN, infinite or a division by zero), also for size() = 0,1,2,3.",
  "every history with n*n < 2^w, every real data set",
  "the divisors n-2, n-3 vanish at small n; finiteness must follow from the data-dependent guards",
  [CM + ": unbiased_skewness, unbiased_kurtosis"])
p("clear() makes a cumulative filter indistinguishable from a new one",
  "For every cumulative filter (moment, variance, skewness, kurtosis, covariance, correlation, regression, trend), after clear() every later observation equals that of a freshly constructed filter fed the same values; this holds bit for bit in any arithmetic, including IEEE with NaN and infinities.",
  "every history before and after clear, every scalar arithmetic",
  "quantifies over all past histories and all value types",
  [I + "cumulative/detail/*.ipp: clear"])
p("Cumulative statistics do not depend on the order of the data",
  "In exact arithmetic every result of the cumulative moment, covariance, correlation and regression filters is unchanged when the pushed values (or pairs) are pushed in another order.",
  "every data set with n < 2^w (n*n < 2^w for the bias-corrected skewness and kurtosis) and every permutation of it; the trend filter depends on the order by design",
  "n! orders",
  [CM, CC, I + "cumulative/detail/regression.ipp", I + "cumulative/detail/correlation.ipp"])
p("Shift and scale laws of cumulative moments",
  "Pushing a*x+b instead of x gives a*mean+b, a^2*variance, the same skewness (a>0) and the same kurtosis (a<>0) wherever these are computed (above the epsilon cut-off).",
  "all data sets, all a and b",
  "algebraic law over all inputs",
  [CM])
p("Cumulative covariance",
  "covariance::variance() equals the mean of (x-mean x)(y-mean y) over the pairs pushed since the last clear (unbiased_variance() divides by n-1), is 0 for fewer than one (two) pairs, is symmetric in x and y, equals the variance when x=y, and the size assertion never fires.",
  "every history of fewer than 2^w pairs",
  "inductive identity mixing old and new means",
  [CC])
p("Correlation lies in [-1, 1]",
  "correlation::value() is a number in [-1, 1] for every non-empty history (exact arithmetic).",
  "every non-empty history of pairs",
  "Cauchy-Schwarz over all data sets",
  [I + "cumulative/detail/correlation.ipp: value"])
p("Correlation recognises perfectly linear data",
  "If y = a*x+b for all pushed pairs with a<>0 and at least two different x, value() is the sign of a (+1 or -1), at every scale of the data.",
  "all linear data sets, all scales",
  "the epsilon cut-off on the variance product only bites at scales tests do not use",
  [I + "cumulative/detail/correlation.ipp: value"])
p("Cumulative regression is ordinary least squares",
  "For every non-empty history the line x -> at(x) has slope() as its slope and minimises the sum of squared residuals over all lines; if all x are equal the slope is 0 and at(x) is the mean of y.",
  "every non-empty history of pairs, every competing line, every position",
  "optimality against all lines",
  [I + "cumulative/detail/regression.ipp: at, slope, push"])
p("Regression reproduces exact lines",
  "If all pushed pairs lie on a line and at least two x differ, slope() and at(x) return exactly that line (cumulative and window regression).",
  "all lines, all data sets on them",
  "all inputs",
  [I + "cumulative/detail/regression.ipp", I + "window/detail/regression.ipp"])
p("Trend predicts linear series exactly",
  "For an arithmetic progression pushed in order, trend::value() equals the last pushed value; for any data it equals 3*mean - 2*(mean of the running means).",
  "every history length, every progression",
  "closed form for every n",
  [I + "cumulative/detail/trend.ipp"])
p("Floating-point mean stays within the data",
  "With every operation rounded (any monotone rounding with the stated accuracy, in particular IEEE binary64 round-to-nearest-even with gradual underflow), the cumulative mean never leaves the interval [smallest value, largest value] pushed, as long as the differences do not overflow.",
  "every history, every rounding function meeting the format axioms",
  "rounding errors accumulate along histories of any length",
  [CM + ": basic_moment<T, with::mean>::push"])
p("Floating-point variance is never negative",
  "With every operation rounded, the cumulative variance()/unbiased_variance() is never negative (never a negative number from cancellation) and its accumulated sum never decreases when a value is pushed.",
  "every history, every rounding function meeting the format axioms, every count",
  "catastrophic cancellation only shows for special data",
  [CM + ": basic_moment<T, with::variance>::push"])
p("Constant streams are exact in floating point",
  "Pushing the same representable number any number of times leaves the cumulative mean exactly equal to it, and variance exactly 0, with rounding.",
  "every representable value, every number of repetitions, every rounding meeting the axioms",
  "all values and lengths",
  [CM])
WM = I + "window/detail/moment.ipp"
WC = I + "window/detail/comoment.ipp"
p("Window mean is the mean of the last N values",
  "After any history, window::moment has size() = min(N, pushes since clear), full()/empty()/capacity() accordingly, and mean() is the arithmetic mean of the last min(N, n) values (exact arithmetic).",
  "every N >= 1, every history",
  "incremental add/remove updates over unbounded histories",
  [WM + ": basic_moment<T, N, with::mean>"])
p("Window variance is the variance of the last N values, never negative",
  "variance()/unbiased_variance() equal those of the last min(N,n) values in exact arithmetic; and for any inputs in any IEEE arithmetic, including NaN, infinities and arbitrary rounding, they return a number that is not NaN and not negative.",
  "every N, every history, arbitrary (also non-finite) inputs",
  "special values and unbounded histories",
  [WM + ": basic_moment<T, N, with::variance>"])
p("Window covariance of the last N pairs",
  "window::covariance::variance()/unbiased_variance() equal the covariance of the last min(N,n) pairs, 0 when too few pairs; size() is min(N,n).",
  "every N, every history", "unbounded histories", [WC])
p("Window regression is least squares over the last N pairs",
  "For a non-empty window the line x -> at(x) minimises the squared residuals of the last min(N,n) pairs over all lines, with slope 0 and mean y when all x in the window are equal.",
  "every N, every non-empty history, every competing line", "optimality against all lines, unbounded histories",
  [I + "window/detail/regression.ipp"])
p("Windows forget everything older than N",
  "Results of a window filter depend only on the last N values: any two histories ending in the same N values give the same results - also when an older value was NaN or infinite.",
  "all pairs of histories with equal last N values", "needs two arbitrary pasts; special values poison running sums",
  [WM, WC])
p("Integer filters stay within the data",
  "With an integer value type (allowed by the static_assert) the cumulative mean and the window mean stay within [min, max] of the values they summarise, without undefined behaviour.",
  "every integer history, every integer width, every N", "truncation errors accumulate over unbounded histories; conversions of the count wrap",
  [CM, WM])
p("Integer covariance",
  "cumulative::covariance<T> for integer T (allowed by the static_assert) returns the truncated quotient of its co-moment by the number of pairs, also when it is negative.",
  "every integer co-moment and every count", "usual arithmetic conversions to size_t only matter for negative values",
  [CC + ": variance", CM + ": unbiased_mean"])
DM = I + "decay/detail/moment.ipp"
p("Decay mean is the bias-compensated exponential average",
  "decay::moment::mean() equals sum f(1-f)^(n-i) x_i / (1-(1-f)^n); it is a weighted mean with positive weights, hence lies in [min,max] of the values, equals c on a constant stream from the very first value, equals the last value when f=1, and is 0 when nothing was pushed.",
  "every factor in (0,1], every history", "unbounded histories, all factors",
  [DM + ": basic_moment<T, with::mean>"])
p("Decay variance, skewness and kurtosis",
  "decay variance() is the exponentially weighted, bias-compensated average of squared deviations from the running mean and is never negative; skewness() and kurtosis() are the corresponding standardised averages, 0 below the epsilon cut-off, always finite; on constant streams all are 0.",
  "all factors in (0,1], every history", "unbounded histories",
  [DM])
p("clear() resets decay filters",
  "After clear() a decay filter (mean, variance, skewness, kurtosis) behaves like a freshly constructed one with the same factors.",
  "every history before and after clear", "quantifies over all past and future histories",
  [DM + ": clear"])
IM = I + "interim/detail/moment.ipp"
p("Interim filter bookkeeping",
  "interim moments and covariance report size() = min(W, n), full() iff n >= W, empty() iff n = 0, capacity() = W, for n pushes since clear; clear() makes them indistinguishable from new ones in any arithmetic.",
  "every window W, every history", "double-buffer swap over unbounded histories",
  [IM, I + "interim/detail/comoment.ipp"])
p("Interim mean is a convex blend of the two most recent blocks",
  "For n pushes, interim mean() equals the mean of all values while n <= W, and otherwise the weighted average of the mean of the previous full block of W values and the mean of the current block with weights (W-s):(2s) where s is the size of the current block; it lies within the data of those blocks, equals the exact window mean whenever n is a multiple of W, and never depends on values older than 2W.",
  "every W with 2W < 2^w, every history", "block arithmetic over unbounded histories", [IM + ": mean, push"])
p("Interim variance, skewness and kurtosis are convex blends",
  "interim variance()/skewness()/kurtosis() equal the cumulative statistic while n <= W and a convex combination of those of the two most recent blocks afterwards; variance is never negative, and nothing older than 2W influences any of them.",
  "every W (with W^2 within size_t), every history", "unbounded histories",
  [IM + ": variance, skewness, kurtosis"])
p("Interim covariance is a convex blend",
  "interim covariance variance() equals the cumulative covariance while n <= W, and afterwards the blend of the covariances of the two most recent blocks with weights (W-s+1)^2 : 2(s-1).",
  "every W with W^2 < 2^w, every history", "unbounded histories", [I + "interim/detail/comoment.ipp"])
p("Interim variance is exact on a full block",
  "Like the interim mean, the interim variance (and covariance) equals the exact value over the last W values whenever n is a positive multiple of W.",
  "every W, every history whose length is a multiple of W", "all histories", [IM + ": variance", I + "interim/detail/comoment.ipp: variance"])
p("clear() resets interim regression",
  "After clear() interim::regression behaves like a freshly constructed one.",
  "every history before and after clear", "all histories", [I + "interim/detail/regression.ipp: clear, at"])
p("Interim regression before the first window is exhausted is least squares",
  "For 1 <= n <= W pushes on a new filter, at() and slope() are exactly those of the cumulative regression (the least-squares line); its three internal windows always switch blocks simultaneously.",
  "every W, every history without clear", "unbounded histories", [I + "interim/detail/regression.ipp"])
PQ = I + "quantile/detail/psquare.ipp"
p("P-square is exact for few observations",
  "While at most 2q+3 values have been pushed, the estimator holds them in sorted order and get<i>() returns the linearly interpolated order statistic of exactly those values for its quantile; it is 0 when empty and the value itself for one observation.",
  "every number and list of quantiles in ascending order within [0,1), every list of at most 2q+3 values", "all insertion orders and ties",
  [PQ + ": push, get"])
p("P-square minimum and maximum are exact forever",
  "get<0>() is the smallest and get<q+1>() the largest of all values pushed since the last clear.",
  "every quantile list, every history", "unbounded histories", [PQ + ": push, get"])
p("P-square markers stay ordered",
  "After any history marker heights are in ascending order and marker positions strictly increasing from 1 to size(), so the assertions hold, no subtraction of positions wraps except inside the linear fallback, and the estimates satisfy min <= get<i>() <= get<i+1>() <= max.",
  "every quantile list, every history", "invariant over unbounded histories, all interleavings of the parabolic and linear branches",
  [PQ + ": push, parabolic, linear"])
p("P-square desired positions",
  "After n >= 2q+3 pushes the desired position of marker i is 1 + (n-1)*d_i with d_i the quantile of marker i (midpoints for odd markers), in exact arithmetic; a marker moves by at most one per push and only towards its desired position.",
  "every history", "unbounded histories", [PQ + ": initialize, push"])
p("P-square results do not depend on the order of the quantile arguments",
  "value<Q>() estimates the Q-quantile for every order in which the quantiles are listed as template arguments.",
  "every permutation of the quantile list", "suites only use ascending lists", [I + "quantile/psquare.hpp: quantiles, QuantileList", PQ + ": get, initialize"])
p("P-square linear fallback moves the marker towards its neighbour",
  "When the parabolic prediction is rejected, the height of the marker moves linearly towards the neighbour in the direction of the adjustment, as in the cited P-square algorithm (down when the position moves down).",
  "every state in which the fallback is taken", "the wrap of positions[i-1]-positions[i] in size_t is invisible unless that branch is inspected", [PQ + ": linear"])
p("P-square parameters round trip; clear",
  "parameters(data) followed by parameters() returns data unchanged, and clear() makes the estimator indistinguishable from a new one, in any arithmetic.",
  "all data vectors of the right length, all histories", "all inputs", [PQ + ": parameters, clear, initialize"])
p("P-square never indexes out of bounds",
  "No push or get accesses an array outside 0..2q+2, for any input including NaN (quantiles strictly below 1 and at most 2^53 observations).",
  "every history, every input including NaN", "memory safety over all histories", [PQ + ": push, get"])
IQ = I + "interim/detail/psquare_quantile.ipp"
p("Interim quantile blends the two most recent half windows",
  "After n pushes get<i>() equals the P-square estimate of all values while n <= W/2, afterwards the weighted average (W/2-s):(2s) of the estimates of the previous full half window and the current one; empty() iff n = 0; it lies within the data of those two half windows, and clear() restores the initial behaviour.",
  "every even W >= 2, every history", "unbounded histories, pointer swapping", [IQ])
p("Copies of an interim quantile estimator are independent",
  "After copy construction, pushing to or clearing the copy does not change the original, and vice versa, and the copy behaves like the original would.",
  "every history before and after the copy", "aliasing of defaulted copies is not exercised", [I + "interim/psquare_quantile.hpp: copy constructor", IQ])
RS = I + "sampling/detail/reservoir.ipp"
p("Reservoir holds min(count, N) of the pushed elements",
  "Without clear, after n pushes count() = n, size() = min(n, N), and data() consists of elements taken from pairwise different positions of the input stream, whatever the random generator returns; no out-of-range access.",
  "every N >= 1, every history, every random generator output within the distribution's range", "all random outcomes", [RS + ": push"])
p("Reservoir push reports changes truthfully",
  "push(x) returns true exactly when x has been stored in the sample; when it returns false data() is unchanged; when it returns true at most one previously held element is lost.",
  "every state and every random outcome", "all random outcomes", [RS + ": push"])
p("Reservoir sampling is uniform up to the threshold",
  "For N <= n <= 4N pushes every element is in the sample with probability exactly N/n when the generator's draws are independent and uniform.",
  "every N, n, every element", "a probability over all random outcomes", [RS + ": push (accept-reject branch)"])
p("Reservoir sampling is uniform beyond the threshold",
  "Also after more than 4N pushes every element is in the sample with probability N/n.",
  "every N, n > 4N", "a probability over all random outcomes", [RS + ": push (skip branch)"])
p("Reservoir clear()",
  "After clear() the reservoir behaves like a new one: it is empty and never holds more than N elements.",
  "every history with clear", "suites never call clear", [RS + ": clear"])
FI = I + "impulse/detail/finite.ipp"
II = I + "impulse/detail/infinite.ipp"
p("FIR filter computes the convolution",
  "After pushes x_1..x_n, finite::value() = sum_{i<P} c_i * x_{n-i} (terms before the first push being 0), size() = min(P,n); the filter is linear in its input and the response to an impulse is exactly c_0..c_{P-1} followed by zeros.",
  "every coefficient array, every history", "unbounded histories", [FI])
p("FIR clear()",
  "After clear() value() and all later values equal those of a freshly constructed filter.",
  "every history", "suites do not inspect value() after clear", [FI + ": clear"])
p("IIR filter satisfies its difference equation",
  "For every history, scale * y_n = sum_{i<P} a_i x_{n-i} - sum_{j<Q} b_j y_{n-1-j} with missing terms 0, value() = y_n (0 if nothing pushed), for every non-zero scale; the filter is linear, and clear() restores the initial behaviour.",
  "every coefficient arrays, every non-zero scale, every history", "recursion over unbounded histories", [II])
p("push_inserter feeds exactly the assigned values",
  "Copying a range through push_inserter(c) has the same effect as calling push for each element in order, and nothing else.",
  "every filter, every range", "all ranges", [I + "iterator.hpp"])
p("close_to comparison",
  "close_to is symmetric, reflexive for finite numbers when the absolute tolerance is positive, and accepts exactly (in exact arithmetic) the pairs whose difference is below the larger of the absolute tolerance and relative tolerance times the larger magnitude; it never accepts NaN.",
  "all pairs of numbers and tolerances", "all inputs", [I + "detail/functional.hpp: close_to"])
p("circular_span is a bounded deque",
  "Any sequence of push_back, push_front, pop_back, pop_front, clear, assign on a circular_span has the same observable contents (size, front, back, iteration order) as a double-ended queue that drops the element at the opposite end when full.",
  "every capacity >= 1, every operation sequence", "index wrap-around modulo 2^w depends on the capacity", [I + "detail/circular_span.ipp"])
p("moment::exponential and moment::arithmetic are aliases",
  "The deprecated moment::exponential<T, Ratio> behaves as decay::moment with factor num/den, moment::arithmetic as window::moment.",
  "every ratio, every history", "all histories", [I + "moment/exponential.hpp", I + "moment/arithmetic.hpp"])
p("Undefined results outside the documented preconditions are NaN/inf, not garbage",
  "Queries outside their @pre (cumulative variance/correlation/regression/window at() on an empty filter, unbiased mean and variance of one value) yield NaN or an infinity with IEEE arithmetic and leave the filter usable: later results are unaffected because queries do not modify state.",
  "every filter state", "all states", [CM, I + "cumulative/detail/regression.ipp", I + "cumulative/detail/correlation.ipp", I + "window/detail/regression.ipp"])
p("Count wrap-around",
  "The correctness of cumulative statistics is limited only by the width of size_t: size() is the number of pushes modulo 2^w, and the first deviation of the mean occurs at the push that wraps the counter, which divides by zero.",
  "every width w, every history", "2^w pushes cannot be tested", [CM + ": push"])

p("Constant streams have zero skewness and kurtosis in floating point",
  "Pushing the same representable finite number any number of times leaves skewness(), unbiased_skewness(), kurtosis() and unbiased_kurtosis() exactly 0, with every operation rounded.",
  "every representable value, every number of repetitions, every rounding meeting the axioms", "all values, including those whose square overflows", [CM + ": basic_moment<T, with::skewness>::push, basic_moment<T, with::kurtosis>::push"])

p("A window filter that never evicted equals the cumulative filter",
  "As long as at most N values were pushed since clear(), window mean() and size() are bit for bit those of the cumulative filter, and the window variance is max(0, cumulative variance), in any arithmetic.",
  "every window size N >= 1, every history with at most N values since clear(), every arithmetic", "all window sizes and all arithmetics", [WM + ": push", CM + ": push"])
p("Floating-point error of the cumulative mean",
  "With rounding to nearest (unit roundoff u, underflow error e), the computed mean of n values of size at most B differs from their exact mean by at most ((n+1)/2 + 5) u B + (3(n+1)/2 + 2) e; instantiated for double and float.",
  "every non-empty history of representable numbers with representable differences in range, n < 2^w and n <= 2^p", "all histories and all roundings", [CM + ": push"])
p("Drift of the window mean in floating point",
  "After t pushes since clear() of values of size at most B, the computed window mean differs from the exact mean of the window by at most t (12 u B + 5 e), as long as this bound is at most B and 8 B does not overflow.",
  "every window size, every history", "long histories", [WM + ": push"])
p("The window mean stays within the window values in floating point",
  "mean() of a non-empty window lies between the smallest and the largest value in the window, with every operation rounded.",
  "every window size, every history of representable numbers", "needs values of very different size followed by eviction", [WM + ": push"])
p("Floating-point error of the decaying mean does not grow",
  "The computed decaying mean differs from the exact exponentially weighted mean by at most (1+u)(c(B) + B c(1))/f + u B + e, with c(B) = 10 u B + 2 e + (2 u B + 3 e)/f: the bound does not depend on the number of pushes.",
  "every representable factor 0 < f <= 1, every history of values of size at most B, with c(B) <= B and no overflow at 8 B", "unbounded histories", [DM + ": push"])
p("Decaying mean of a constant stream in floating point",
  "Pushing the same number any number of times gives exactly that number as decaying mean, and a factor of 1 gives exactly the last value.",
  "every factor, every number, every repetition", "needs specific roundings", [DM + ": push"])
p("Covariance with a constant is zero in floating point",
  "If one of the two coordinates is constant, the cumulative and the window covariance are exactly 0, with every operation rounded.",
  "every history of representable numbers", "needs specific roundings", [CC + ": push", WC + ": push, cosum"])
p("Covariance of a variable with itself in floating point",
  "The cumulative covariance of a variable with itself is bit for bit its variance, and neither the cumulative nor the window covariance of a variable with itself is negative, with every operation rounded.",
  "every history", "needs specific roundings", [CC + ": push", WC + ": push, cosum"])
p("Interim statistics of a constant stream in floating point",
  "After pushing the same number any number of times the interim mean is exactly this number and the interim variance is exactly 0, with every operation rounded.",
  "every capacity, every representable value, every number of repetitions", "needs specific roundings", [IM + ": mean, variance"])
p("The interim variance is never negative in floating point",
  "The blended variance is NaN, +inf or at least 0, with every operation rounded.",
  "every capacity W with W*W < 2^w, every non-empty history of representable numbers whose differences do not overflow", "all histories", [IM + ": variance"])
p("Floating-point error of the cumulative covariance and variance",
  "With unit roundoff u, the computed covariance of n pairs with coordinates of size at most A and B differs from the exact population covariance by at most (6n + 68) u A B, and the computed variance of n values from the exact one by at most (6n + 68) u B^2.",
  "every non-empty history of representable numbers, (6n + 65) u <= 1, no overflow at 8 n A B, no underflow", "all histories and all roundings", [CC + ": push, variance", CM + ": push, variance"])

p("The estimator is the P-square algorithm",
  "From 2q+3 values on, marker positions and heights are those of the published P-square algorithm (Jain and Chlamtac): cell search, shift of positions, desired positions, adjustment of a marker when it is at least one position away from the desired one, parabolic prediction, and linear prediction towards the neighbour in the direction of the movement when the parabola leaves the interval.",
  "every list of quantiles, every history", "comparison with the reference for all streams", [I + "quantile/detail/psquare.ipp: push, parabolic, linear"])
p("Quantile estimates are affine equivariant",
  "Replacing every value x by a x + b with a > 0 replaces every estimate by a times the estimate plus b, and leaves the marker positions unchanged.",
  "every a > 0, every b, every list of quantiles, every non-empty history", "all scalings and histories", [I + "quantile/detail/psquare.ipp"])
p("The order of the first 2q+3 values is irrelevant",
  "Two histories whose first 2q+3 values since clear() are permutations of each other and that agree afterwards leave the estimator in the same state.",
  "every list of quantiles, every permutation, every continuation", "all permutations", [I + "quantile/detail/psquare.ipp: push"])
p("Minimum and maximum estimates are exact in floating point",
  "get<0>() and the last get<>() are exactly the smallest and the largest value pushed since clear(), with every operation rounded, even when other markers overflow or become NaN.",
  "every format, every list of quantiles, every non-empty history of finite numbers", "all histories and roundings", [I + "quantile/detail/psquare.ipp: push, get"])
p("Quantile estimates of a constant stream are exact in floating point",
  "After more than 2q+3 times the same number every estimate is exactly this number, with every operation rounded.",
  "every format, every representable value, every list of quantiles, every number of repetitions", "all values and roundings", [I + "quantile/detail/psquare.ipp: push, parabolic, linear"])

p("A variable is perfectly correlated with itself in floating point",
  "The correlation of pairs (x, x) is exactly 1, with every operation rounded.",
  "every non-empty history of representable numbers whose differences do not overflow", "needs specific roundings or very large values", [I + "cumulative/detail/correlation.ipp: value"])
p("Regression of a variable on itself in floating point",
  "The slope for pairs (x, x) is exactly 1, or exactly 0 when the computed variance is 0, with every operation rounded.",
  "every format, every history with at least one pair whose computed variance is finite", "needs specific roundings", [I + "cumulative/detail/regression.ipp: slope"])
p("Correlation lies in [-1, 1] in floating point",
  "A finite value of the correlation is at most 1 in size, with every operation rounded.",
  "every history of representable numbers whose differences do not overflow", "needs specific roundings", [I + "cumulative/detail/correlation.ipp: value"])
p("Changing the sign of the data",
  "Negating every data point negates cumulative, window, interim and decaying means, the unbiased mean, the trend, the decaying skewness and the outputs of the impulse response filters, and leaves every variance and kurtosis unchanged, bit for bit.",
  "every symmetric rounding, every history of finite numbers, infinities and NaN", "all histories and roundings", [CM, WM, DM, IM, I + "impulse/detail/finite.ipp", I + "impulse/detail/infinite.ipp"])
p("Changing the sign of one coordinate",
  "Negating every x or every y negates cumulative, window and interim covariance and the regression slope, negates or keeps the predicted values accordingly, and negates the correlation unless both are below the cut-off, bit for bit.",
  "every symmetric rounding, every history of pairs of finite numbers, infinities and NaN", "all histories and roundings", [CC, WC, I + "cumulative/detail/correlation.ipp", I + "cumulative/detail/regression.ipp"])
p("Skewness changes its sign with the data",
  "Negating every data point negates the cumulative skewness, bit for bit.",
  "every symmetric rounding, every history", "all histories and roundings", [CM + ": skewness"])

p("A NaN in the data is visible in the results",
  "After a NaN has been pushed, every statistic is NaN until clear() (for the FIR and interim filters as long as the NaN is among the inputs in use).",
  "every filter, every history with a NaN since clear(), any other values", "all histories", [CM, WM + ": variance", DM + ": skewness, kurtosis", CC, WC, I + "impulse/detail/finite.ipp", I + "impulse/detail/infinite.ipp"])
p("Bad values leave with the window",
  "The results of filters with a finite memory do not depend on values that have left it: a NaN or infinity is forgotten after the window has been filled again.",
  "every window, every arithmetic, every pair of histories that agree on the values in memory", "all histories", [WM + ": push", I + "impulse/detail/finite.ipp: push", IM])
p("The mean of data with an infinity is infinite",
  "If one value is +inf and the others are finite the cumulative mean is +inf.",
  "every history", "all positions of the infinity", [CM + ": push"])

p("Inequalities between mean, variance, skewness, kurtosis and the data",
  "The mean lies between the smallest and the largest value; the variance is at most (hi - mean)(mean - lo) and at most (hi - lo)^2 / 4; no value is further from the mean than sqrt((n - 1) variance); above the cut-off the kurtosis is at least 1 + skewness^2 and at most n.",
  "every non-empty history of real numbers, cumulative and window filter, exact arithmetic", "all histories", [CM + ": mean, variance, skewness, kurtosis", WM + ": mean, variance"])
p("Regression, correlation and variance fit together",
  "The regression line passes through the point of the means; the residuals sum to 0 and are orthogonal to x; above the cut-off the slope is r sqrt(var y / var x), the slopes of y on x and x on y multiply to r^2, and the sum of squared residuals is n var y (1 - r^2).",
  "every non-empty history of real pairs, exact arithmetic", "relations between several classes over all histories", [I + "cumulative/detail/regression.ipp: slope, at", I + "cumulative/detail/correlation.ipp: value", WC + ": at"])
p("Response of the FIR filter",
  "An input of size at most B gives an output of size at most B sum|c|, and this bound is attained; P equal values K give K sum c; the output depends on the last P values only; an input converging to L gives an output converging to L sum c.",
  "every list of coefficients, every history, exact arithmetic", "all inputs, limits", [I + "impulse/detail/finite.ipp: push, value"])
p("Stability of the IIR filter",
  "If sum|b| < |scale| an input of size at most B gives an output of size at most B sum|a| / (|scale| - sum|b|) for ever, and an input converging to L gives an output converging to L sum a / (scale + sum b). The condition is sharp.",
  "every list of coefficients, every history, every convergent input, exact arithmetic", "unbounded time", [I + "impulse/detail/infinite.ipp: push, value"])
p("Change of units",
  "Replacing x by a x + b (and y by c y + d) turns the mean m into a m + b, the variance v into a^2 v, the covariance into a c times itself, the slope k into (c/a) k, the prediction y at x into c y + d at a x + b, and keeps the correlation up to the sign of a c, and the decaying skewness and kurtosis, above the cut-offs.",
  "window, decaying and interim filters, covariance, correlation, regression; every b, d, every a (a <> 0 for pairs, c <> 0 for the correlation, a > 0 for decaying skewness and kurtosis), every non-empty history, exact arithmetic", "all scalings and histories", [WM, DM, IM, CC, WC, I + "cumulative/detail/correlation.ipp", I + "cumulative/detail/regression.ipp"])
p("The decaying mean forgets exponentially",
  "Each push moves the mean towards the value by a fraction f / (1 - (1-f)^n) in (0, 1]; all values before the last k together move it by at most (1-f)^k times the range of the data.",
  "every factor in (0, 1], every history, every k >= 1, exact arithmetic", "all histories", [DM + ": push, mean"])
p("Data that converge",
  "For data converging to L the cumulative, window, decaying and interim means converge to L and the variances converge to 0.",
  "every convergent sequence, every window and factor, exact arithmetic", "limits", [CM, WM, DM, IM])

p("A circular_span over an array that holds elements",
  "The constructor with an array, a first index and a length gives a span that shows the length elements from the first index on, continuing at the start of the array.",
  "every array, first index and length", "all capacities, indices and lengths", [I + "detail/circular_span.ipp:30-38"])
p("A reservoir of any size works",
  "A reservoir of any size accepts any number of elements without undefined behaviour, and calls the standard distributions within their preconditions.",
  "every size, every history, all random outcomes", "all sizes and random outcomes", [RS + ": push"])
p("Larger data do not give a smaller mean",
  "If each value of a history is replaced by one that is at least as large, none of the means (cumulative, window, decaying, interim) decreases.",
  "every pair of histories; exact arithmetic and every binary format and rounding direction", "all histories", [CM + ": push", WM + ": push", DM + ": push, mean", IM, I + "impulse/detail/finite.ipp: push", I + "impulse/detail/infinite.ipp: push"])
p("The example programs print one line for each line of the file",
  "For a file of points x,y the regression examples print for each line the point and the slope and intercept of the regression of the points up to that line.",
  "every file of well-formed lines", "all files; the examples have no tests", ["example/regression/cumulative.cpp:17-30", "example/regression/window.cpp:17-30"])
p("The interim regression reproduces exact lines",
  "If the points of the two blocks in use lie on a line y = a x + b and not all x of a block are equal, slope() of the interim regression is a; if all points pushed (without clear) lie on the line, at(x) is a x + b for every x.",
  "every W with W*W < 2^w and 2 W < 2^w, every history (slope), every history without clear (at), exact arithmetic", "all histories and lines; at() mixes three filters with different weights", [I + "interim/detail/regression.ipp: slope, at"])
p("The covariance is bounded by the variances",
  "The square of the covariance of a window or interim filter is at most the product of the variances of the corresponding filters of the two coordinates.",
  "every N (or W with W*W < 2^w), every non-empty history, exact arithmetic", "an inequality between three filters over all histories; the interim filter mixes two blocks with weights", [WC + ": variance", I + "interim/detail/comoment.ipp: variance", I + "interim/detail/moment.ipp: variance"])
p("Statistics of data in two parts",
  "Mean, variance and covariance of all data follow by the pooling formulas from the results of two filters that saw one part each.",
  "every two non-empty parts of together fewer than 2^w values, exact arithmetic", "all data sets and all splits", [CM + ": push, variance", CC + ": push, variance"])
p("Filters that compute the same thing",
  "The FIR filter with N coefficients 1/N is the window mean once N values were pushed; the IIR filter with coefficients [f], [f-1] and scale 1 is the decaying mean times 1-(1-f)^n; an IIR filter with scale 1 whose feedback coefficients are 0 is the FIR filter.",
  "every N, every 0 < f <= 1, all coefficients, every history, exact arithmetic", "relations between different classes over all histories", [I + "impulse/detail/finite.ipp: push", I + "impulse/detail/infinite.ipp: push", WM + ": mean", DM + ": mean"])
p("The decaying variance and kurtosis are never negative",
  "variance() and kurtosis() of the decaying filters, and the variance inside the decaying skewness, are never below 0 in floating point: the comparison with 0 is false for every history and data.",
  "every binary format and rounding direction, every decay factor in (0,1], every history of finite numbers, infinities and NaN", "all histories and roundings; the window variance does become negative (C63)", [DM + ": push, variance, kurtosis"])
p("Exchanging the coordinates does not change the covariance",
  "The covariance of the pairs (y, x) is bit for bit that of the pairs (x, y).",
  "every history in floating point", "needs specific roundings", [CC + ": push", WC + ": push"])
p("The order of the data does not matter in floating point",
  "The cumulative mean (and variance) of the same values pushed in a different order is the same number.",
  "every history in floating point", "needs specific roundings; C07 is the case of exact arithmetic", [CM + ": push"])
p("Rounding error of the FIR and IIR filters",
  "The value of the FIR filter differs from the convolution by at most ((1+u)^(n+1)-1) times the sum of the absolute products plus underflow terms, n = min(P, number of values), and it is finite if that sum does not come near the largest number. The values of the IIR filter satisfy the difference equation up to ((1+u)^(n+3)-1) times the sum of the absolute products plus underflow terms, as long as they are finite.",
  "every binary format and rounding with relative error u, all coefficients, every history", "all histories and all roundings", [I + "impulse/detail/finite.ipp: push", I + "impulse/detail/infinite.ipp: push"])
p("Regression of points on a horizontal or vertical line in floating point",
  "If all y are equal, the slope is exactly 0 and at() returns that y; if all x are equal, the slope is exactly 0 and at() returns the mean of y.",
  "every history of representable numbers without overflow, cumulative and window regression", "needs specific roundings", [I + "cumulative/detail/regression.ipp: slope, at", I + "window/detail/regression.ipp: slope, at"])
p("A reservoir never holds more than N elements",
  "After any number of pushes into a reservoir of N elements, size() is at most N (capacity()).",
  "every number of pushes, every N, every size_type", "needs more pushes than size_type can count", [RS + ": push"])
p("Quantile estimates are finite, ordered and within the data in floating point",
  "After more than 2q+3 values the estimates of the P-square estimator are finite and ascending, the first is the smallest value and the last the largest.",
  "every history of numbers of the format, all quantiles", "all histories and all roundings; the fallback formula divides by a wrapped unsigned difference", [I + "quantile/detail/psquare.ipp: push, linear, parabolic"])
p("Drift of the window variance and covariance in floating point",
  "With t values pushed since the last clear, the error of the window variance is at most a constant times t (t + N) / N units of rounding times B^2, and the error of the window covariance at most a constant times t units of rounding times A B, where A and B bound the data.",
  "every history, every window size, every binary format", "the error depends on the rounding of every step since the last clear, also of values that left the window", [I + "window/detail/moment.ipp: push, variance", I + "window/detail/comoment.ipp: push, cosum, variance"])
p("Rounding error of the decay variance does not grow",
  "As long as no value was pushed before the last clear (see C27), the difference of the decay variance and its closed form is at most a bound that depends on the two factors, the format and the size of the data, but not on the number of values.",
  "every history, all factors in (0, 1], every binary format", "for all histories; tests see few values", [I + "decay/detail/moment.ipp: push, variance"])
p("Rounding errors of the interim filters do not grow",
  "In floating point the interim mean differs from the weighted average of the block means by at most (2 W + 21) u B, the interim variance by at most (6 W + 80) u B^2 and the interim covariance by at most (6 W + 80) u A B, for any number of values of size at most B (pairs of size at most A, B).",
  "every history, every window, every binary format", "for all histories; tests see few values", [I + "interim/detail/moment.ipp: mean, variance", I + "interim/detail/comoment.ipp: variance"])
p("Interpolated quantile estimates in floating point are ordered",
  "In floating point, while there are at most 2q+3 values, the estimates of ascending quantiles in (0,1) are finite, ascending, and run from the smallest to the largest value.",
  "every history of at most 2q+3 numbers of the format, all ascending quantiles", "all data and quantiles; needs a rank that rounds to just below a power of two", [I + "quantile/detail/psquare.ipp: get"])
p("Means of integers are accurate",
  "For integer value types the cumulative mean of n values differs from the true mean by at most 1.",
  "every integer type, all integer data without overflow", "all data; the error grows with the number of values", [I + "cumulative/detail/moment.ipp: push"])
p("Means of unsigned integers lie within the data",
  "For unsigned integer value types the cumulative mean lies between the smallest and the largest value.",
  "every unsigned type, all data", "all types and data", [I + "cumulative/detail/moment.ipp: push"])
p("Variance of integers is defined and within the square of the range",
  "For integer value types the variance is defined, not negative, and at most the square of the range of the data.",
  "every integer type, all data", "all types and data; overflow is undefined behaviour", [I + "cumulative/detail/moment.ipp: push", I + "cumulative/detail/moment.ipp: variance"])
p("Skewness and kurtosis of integers are defined",
  "For integer value types skewness() and kurtosis() are defined after every history with at least one value.",
  "every integer type, all histories", "undefined behaviour for equal values in every type", [I + "cumulative/detail/moment.ipp: skewness", I + "cumulative/detail/moment.ipp: kurtosis"])
p("Interim mean of integers lies within the data",
  "For integer value types the interim mean is defined and lies between the smallest and the largest value.",
  "every integer type, every window, all data", "all types, windows and data", [I + "interim/detail/moment.ipp: mean"])
p("FIR filter of integers computes the convolution modulo 2^b",
  "For integer value types of b bits the output of the FIR filter is defined and congruent to the convolution of the coefficients with the inputs modulo 2^b.",
  "every integer type, all coefficients, every history", "all types and histories; promotion to int makes some unsigned products undefined", [I + "impulse/detail/finite.ipp: push"])
p("IIR filter of integers satisfies the difference equation",
  "For integer types whose arithmetic cannot overflow, the outputs satisfy the difference equation modulo 2^b with a scale of 1. With a scale c other than 0, 1 and -1 the filter is defined, and c times each output differs from the right-hand side by less than |c|, if the two sums and their difference are values of the type. A scale of 0 is undefined.",
  "every such type, all coefficients, every history", "all histories", [I + "impulse/detail/infinite.ipp: push"])
p("Comparison of ranges in the test library",
  "test_all_with_impl and test_all_eq_impl count no error if and only if the ranges have the same length and every pair satisfies the predicate; they report the first eight positions that differ, and the sizes if and only if they differ.",
  "all ranges, every predicate", "this is the code that the tests rely on", [I + "detail/lightweight_test.hpp: test_all_eq_impl", I + "detail/lightweight_test.hpp: test_all_with_impl"])
p("Failed checks fail the test program",
  "A test program succeeds if and only if all its TRIAL_TEST_WITH checks hold.",
  "every list of checks, every predicate, both branches of BOOST_VERSION", "a test suite that always succeeds cannot show its own defect", [I + "detail/lightweight_test.hpp: test_failure", I + "detail/lightweight_test.hpp: test_with_impl"])
p("New data move the mean",
  "A value that exceeds the cumulative mean by at least the magnitude of the mean makes the reported mean larger.",
  "all data, every binary format", "needs more than 2^26 values to show", [I + "cumulative/detail/moment.ipp: push"])
p("The trend in floating point",
  "The trend of a constant stream is the constant bit for bit; the rounding error of the trend of n values of size at most B is at most (3.5 n + 54) u B plus underflow terms.",
  "all data, every binary format and rounding direction", "all data and formats", [I + "cumulative/detail/trend.ipp: push", I + "cumulative/detail/trend.ipp: value"])
p("Laws of the trend",
  "The trend is affine equivariant, leaves the range of the data by at most twice its width, is not below the mean of data that do not decrease, is a weighted sum with weights (3 - 2 (1/(j+1) + ... + 1/n)) / n that add up to 1, and converges with the data.",
  "all data (exact arithmetic)", "all data, limits", [I + "cumulative/detail/trend.ipp: push", I + "cumulative/detail/trend.ipp: value"])
p("Rounding error of the regression line",
  "Let the x-coordinates of n pairs have size at most A and variance V, the y-coordinates size at most B, and let 2 (6n+68) u A^2 <= V. The computed slope differs from covariance / V by at most (12n+140) u (AB/V) (1 + A^2/V), and the computed line at a position of size at most A differs from the exact line by at most (38n+445) u (A^2/V) (1 + A^2/V) B.",
  "all histories, data and positions without overflow or underflow, every binary format and rounding direction", "all data and formats; the error depends on the condition number", [I + "cumulative/detail/regression.ipp: slope", I + "cumulative/detail/regression.ipp: at"])
p("Rounding error of the correlation",
  "If the relative errors alpha = (6n+68) u A^2 / Vx and beta = (6n+68) u B^2 / Vy of the variances are at most 1/8 and the product of the variances is at least twice epsilon, then the computed correlation differs from the exact one by at most 3/2 (alpha + beta).",
  "all histories and data without overflow or underflow, every binary format and rounding direction", "all data and formats; the error depends on the condition number", [I + "cumulative/detail/correlation.ipp: value"])
p("Consistency",
  "For pairwise independent, identically distributed values, almost surely: mean() approaches the expectation (if it exists), variance() and unbiased_variance() approach the variance (if the second moment exists), kurtosis() approaches the kurtosis (if the fourth moment exists, the variance is not zero and n*n is representable), the covariance of pairs approaches the covariance, slope() approaches covariance / variance of x, and the correlation approaches the correlation coefficient (if the product of the variances exceeds epsilon).",
  "all probability spaces, all distributions with the moments, almost all sequences", "a limit over an infinite sequence of random values, for every distribution", [I + "cumulative/detail/moment.ipp: push", I + "cumulative/detail/comoment.ipp: push", I + "cumulative/detail/regression.ipp: slope", I + "cumulative/detail/correlation.ipp: value"])
p("Consistency of the skewness",
  "For pairwise independent, identically distributed values with a third moment and nonzero variance, almost surely skewness() approaches the skewness of the distribution.",
  "all probability spaces, all distributions with the moments, almost all sequences", "a limit over an infinite sequence of random values, for every distribution", [I + "cumulative/detail/moment.ipp: skewness"])
p("Expectation and variance of the estimates",
  "For uncorrelated random values with the same expectation m and variance s: mean() of n values has expectation m and variance s/n, and no other weighted average has a smaller variance; unbiased_variance() has expectation s, variance() has (n-1)/n s; unbiased_variance() of pairs has the covariance as expectation, variance() (n-1)/n times the covariance. The same for windows, with n replaced by min(N, n).",
  "all probability spaces, all uncorrelated data, all histories of push and clear", "an expectation over all possible data, for every distribution", [I + "cumulative/detail/moment.ipp: unbiased_variance", I + "cumulative/detail/comoment.ipp: unbiased_variance", I + "window/detail/moment.ipp: unbiased_variance"])
p("unbiased_mean() is unbiased",
  "For uncorrelated random values with the same expectation m, the expectation of unbiased_mean() is m.",
  "all probability spaces, all uncorrelated data, all histories with at least two values", "an expectation over all possible data, for every distribution", [I + "cumulative/moment.hpp: unbiased_mean", I + "cumulative/detail/moment.ipp: unbiased_mean"])
p("Noise of the filters",
  "For uncorrelated random values with expectation m and variance s: the decaying mean of n values has expectation m and variance f/(2-f) (1+(1-f)^n)/(1-(1-f)^n) s; the FIR filter has expectation m times the sum of its first min(P, n) coefficients and variance s times the sum of their squares; the interim mean has expectation m and variance s/n up to the first full window W, then s ((W-k)^2/W + 4k)/(W+k)^2 where k is the number of values in the current block.",
  "all probability spaces, all uncorrelated data, all factors, coefficients and windows", "an expectation over all possible data, for every distribution", [I + "decay/detail/moment.ipp: mean", I + "impulse/detail/finite.ipp: push", I + "interim/detail/moment.ipp: mean"])
p("The regression line is the best linear unbiased estimate",
  "Let the x-coordinates be known and not all equal, S the sum of their squared deviations, and the y-coordinates uncorrelated with expectation a + b x and variance s. slope() has expectation b and variance s/S; at(t) has expectation a + b t and variance s (1/n + (t - mean)^2/S). Every other linear combination of the y-coordinates whose expectation is the slope (the value at t) for every line has at least this variance.",
  "all probability spaces, all uncorrelated y-coordinates, all histories", "an expectation over all possible data, and a comparison with all linear estimates", [I + "cumulative/detail/regression.ipp: slope", I + "cumulative/detail/regression.ipp: at"])
p("The decaying variance is the exponentially weighted variance",
  "With the same factor for both levels and no values before a clear, variance() is the weighted mean of the squared deviations of the values from their weighted mean, both with the weights f (1-f)^j.",
  "all factors in (0, 1], all histories without pushes before a clear", "compares an incremental approximation with the closed form for every data set", [I + "decay/detail/moment.ipp: variance", I + "decay/moment.hpp: moment_variance"])
p("The decaying variance estimates the variance of the data in the long run",
  "For independent repetitions of a random value with finite variance, the expectation of variance() tends to that variance.",
  "all probability spaces, all factors in (0, 1]", "an expectation over all possible data, and a limit", [I + "decay/detail/moment.ipp: variance"])
p("Window mean of integers lies within the window",
  "For integer value types the window mean is defined and lies between the smallest and the largest value in the window.",
  "all integer types, all window sizes, all data", "truncated steps accumulate over unbounded histories", [I + "window/detail/moment.ipp: push", I + "window/moment.hpp: basic_moment"])
p("Covariance of integers is defined and within the product of the ranges",
  "For integer value types the covariance is defined and its magnitude is at most the product of the ranges of the two coordinates.",
  "all integer types, all data", "depends on integral promotion, conversions and overflow for every value", [I + "cumulative/detail/comoment.ipp: push, variance, unbiased_variance"])
p("Bias-corrected estimates of integers",
  "For integer value types unbiased_kurtosis() of four or more values is within 1 of 3 + (n-1) ((n+1) K - 3 (n-1)) / ((n-2) (n-3)), where K is the value of kurtosis().",
  "all integer types, all data", "the factor truncates to 0 for all n >= 5, which looks like a plausible result", [I + "cumulative/detail/moment.ipp: unbiased_kurtosis, unbiased_skewness, unbiased_mean"])
p("Trend predicts linear series of integers",
  "For integer value types the trend of a linear series a, a+b, a+2b, ... is its last value.",
  "all integer types, all linear series", "the truncation of every step accumulates over unbounded histories", [I + "cumulative/detail/trend.ipp: push, value", I + "cumulative/trend.hpp: basic_trend"])
p("FIR and IIR filters of bool",
  "For the value type bool, which the static_asserts of the impulse filters admit, the value of a FIR filter is true if and only if some coefficient that is true meets an input that is true, and the value of an IIR filter is the exclusive or of this for the inputs and for the previous outputs.",
  "all coefficients, all histories, all constructors", "depends on which constructor of std::vector a braced list of two iterators selects", [I + "impulse/detail/finite.ipp: finite, push", I + "impulse/detail/infinite.ipp: infinite, push"])
p("Fused multiply-add",
  "If the compiler evaluates sum + a * b with one rounding (a fused multiply-add) in any of the pushes, the cumulative variance is still never negative, its sum never decreases, the covariance with a constant is exactly 0, the error bound of C70 holds, and the covariance of a variable with itself is bit for bit its variance.",
  "all formats, all histories, any choice of the contracted pushes", "the choice is made by the compiler, not by the program", [I + "cumulative/detail/moment.ipp: push", I + "cumulative/detail/comoment.ipp: push"])
p("Mean of the sample",
  "The mean of the elements in the reservoir is an unbiased estimate of the mean of all pushed elements; while the reservoir has its guarantee its mean squared error is the variance of the elements divided by the sample size, times (n-N)/(n-1).",
  "all sample sizes N, all streams of n >= N numbers, ideal random numbers", "an average over all outcomes of the generator", [I + "sampling/detail/reservoir.ipp: push"])
p("Expectation of the interim variance",
  "For uncorrelated random values with the same expectation and variance s (covariance c of the pairs) the interim variance (covariance) of n <= W values has expectation s (n-1)/n; after that the blend, with the weights (W-k+1)^2 and 2(k-1), of s (W-1)/W and s (k-1)/k, where k is the number of values in the current block. That is at least (1 - 2/W) s and at most (1 - 1/W) s, with equality on the right exactly for k = 1 and k = W.",
  "all probability spaces, all uncorrelated data, all windows with W^2 < 2^w", "an expectation over all possible data, for every distribution", [I + "interim/detail/moment.ipp: variance", I + "interim/detail/comoment.ipp: variance"])
p("The IIR filter is the convolution with its impulse response",
  "The value of the IIR filter is the sum of h_i x_(n-1-i) over all values since clear(), where h is the response of the filter to 1, 0, 0, ...; for uncorrelated random values with expectation m and variance s it has expectation m times the sum of h_i and variance s times the sum of h_i^2, which is at most s (sum|a| / (|scale| - sum|b|))^2 if sum|b| < |scale|.",
  "every list of coefficients, every scale <> 0, every history, all probability spaces, exact arithmetic", "all inputs, unbounded time, an expectation over all possible data", [I + "impulse/detail/infinite.ipp: push, value"])
p("Multiplying the data by a power of two",
  "Without overflow and underflow, for every number of digits and rounding to nearest even, multiplying all data by 2^k (pairs: by 2^j and 2^k) multiplies mean, trend and the outputs of the impulse filters by 2^k, variances by 2^2k, covariances by 2^(j+k), slopes by 2^(k-j) and the values of a regression line by 2^k, and leaves skewness, kurtosis and correlation unchanged: bit for bit, for the cumulative, window, decay, interim and impulse filters.",
  "every number of digits, every k (j, k), every history, data including infinities and NaN", "all inputs and all exponents at once; equality of the rounded results bit for bit", [I + "cumulative/detail/moment.ipp: push", I + "cumulative/detail/correlation.ipp: value", I + "window/detail/moment.ipp: push", I + "decay/detail/moment.ipp: push, skewness, kurtosis", I + "interim/detail/regression.ipp: at, slope", I + "impulse/detail/infinite.ipp: push"])
p("Rounding error of the cumulative skewness and kurtosis",
  "For n values of absolute value at most B with standard deviation s > 0, without overflow and underflow, in any binary format with unit roundoff u: the sum of cubes of the skewness filter is within n (63 n + 1600) u B^3 of the exact sum of cubed deviations, the sum of fourth powers of the kurtosis filter within n (647 n + 40000) u B^4; and if the sum is beyond the cut-off, skewness() is within (92 n + 2000) u (B/s)^3 and kurtosis() within (753 n + 43700) u (B/s)^4 of the exact skewness and kurtosis.",
  "every binary format, every data set in its range, every history", "an upper bound of the error over all data; tests see the error of single data sets", [I + "cumulative/detail/moment.ipp:105-137 skewness, push", I + "cumulative/detail/moment.ipp:150-185 kurtosis, push"])
p("Bias corrections of skewness and kurtosis",
  "For n independent values with the same distribution, unbiased_skewness() (n >= 3) is k3 / k2^(3/2) and unbiased_kurtosis() (n >= 4) is 3 + k4 / k2^2, where k2 is unbiased_variance() and k3 and k4 are Fisher's k-statistics, whose expectations are the third central moment and the fourth cumulant mu4 - 3 mu2^2 of the distribution; below the cut-off both return 0.",
  "every distribution with finite third or fourth moment, every history", "an expectation over all data sets; a test can only sample it", [I + "cumulative/detail/moment.ipp:113-123 unbiased_skewness", I + "cumulative/detail/moment.ipp:158-169 unbiased_kurtosis"])
p("Precision of the variance of random data",
  "For n >= 2 independent values with the same distribution, the variance of unbiased_variance() is mu4/n - (n-3)/(n(n-1)) sigma^4, and that of variance() is smaller by the factor ((n-1)/n)^2; for windows, n is the number of values in the window.",
  "every distribution with finite fourth moment, every history, every window size", "a statement about the distribution of the results over all data sets", [I + "cumulative/detail/moment.ipp:74-84 variance, unbiased_variance", I + "window/detail/moment.ipp:115-134 variance, unbiased_variance"])
p("Skewness of symmetric random data",
  "For independent values from a symmetric distribution the expectation of skewness() is zero.",
  "every symmetric distribution, every number of values", "an expectation over all data sets", [I + "cumulative/detail/moment.ipp:105-111 skewness"])
p("P-square markers follow their desired positions",
  "For ascending quantiles and any stream of values, marker i is never more than i positions ahead of its desired position 1 + (n-1) f_i and never more than 2 (2q+2-i) behind it; if 0, the quantiles and 1 ascend by steps of at least g, then after more than 8 (2q+3)/g values every marker is less than one position away from its desired position. If the quantiles do not ascend the distance grows with n.",
  "every list of quantiles, every history of at least 2q+3 values", "all streams; a distance that builds up over many values", [I + "quantile/detail/psquare.ipp: push"])
p("Quantile estimates of evenly spaced data",
  "For evenly spaced data (any order of the first 2q+3 values, then always the next value above or below) and ascending quantiles, every estimate is the data point whose rank is the position of the marker, and once the markers have settled (C147) it is less than the distance of neighbouring values away from the quantile of all data pushed.",
  "every list of ascending quantiles, every such stream of more than 2q+3 values", "accuracy of an approximation for all streams of a kind", [I + "quantile/detail/psquare.ipp: push, parabolic"])
p("P-square markers in floating point",
  "With floating-point arithmetic the markers keep the bounds of C147: the position of marker i is at most i above and 2(2q+2-i) below its desired position 1+(n-1)f_i, for any number n of values.",
  "every format with p digits and rounding to nearest, ascending quantiles with exactly represented terms, every stream of finite values", "the failure needs more than 2^p values; a bound on accumulated rounding", [I + "quantile/detail/psquare.ipp: push, parabolic, linear", I + "quantile/psquare.hpp"])
p("Rounding error of the window and interim regression",
  "With coordinates of size at most A and B and variance V > 0 of the x-coordinates (of the window, or the interim blend), slope() differs from covariance/variance by at most a multiple of u (AB/V)(1+A^2/V), and at(x), for x within the range of the data, from the exact line by the same multiple of u (A^2/V)(1+A^2/V) B. The multiple is 460 t (t+N)/l + 60 (slope; at: 1860 t (t+N)/l + 270) after t pairs, l of them in a window of N, and 12 W + 162 (at: 50 W + 691) for the interim filter with blocks of W, for any number of pairs.",
  "every binary format, every history of push and clear (interim at: without clear, see C33), all data without overflow and with V above the error of the variance", "an accumulated rounding bound over unbounded streams", [I + "window/detail/regression.ipp: push, slope, at", I + "interim/detail/regression.ipp: push, slope, at"])
p("Rounding error of the interim skewness and kurtosis",
  "With blocks of W values of size at most B, where B is at most kappa standard deviations of the blocks, the interim skewness differs from the weighted average of the skewness of the two blocks by at most (92 W + 2024) u kappa^3, and the interim kurtosis by at most (753 W + 43748) u kappa^4, for any number of values. skewness() of the kurtosis filter is that of the skewness filter, to the last bit.",
  "every binary format, every history of push and clear without overflow or underflow, blocks beyond the cut-off of the cumulative filters (C03, C04)", "an accumulated rounding bound over unbounded streams", [I + "interim/detail/moment.ipp: skewness, kurtosis", I + "cumulative/detail/moment.ipp: skewness, kurtosis"])
p("Rounding error of the decay skewness and kurtosis",
  "For values of size at most B the decay skewness and kurtosis differ from their exact values by a bound that does not depend on the number of values: it depends on the factors, the format, B, the standard deviation and the relative error of the decay variance (C108). With double, all factors 1/2, values up to 8 and a decay variance of at least 1, both are within 2^-12 after any number of values.",
  "every binary format, every history without values before a clear (C27), values of size at most B, no overflow or underflow of the powers, a decay variance beyond the cut-off", "an error bound uniform over unbounded streams", [I + "decay/detail/moment.ipp: skewness, kurtosis, push"])
p("Accuracy of the skewness in each floating-point type",
  "std::sqrt of the count yields double, so skewness() mixes double with the value type. In every value type the result should differ from the exact quotient sqrt(n) M3 / M2^(3/2) of its sums by at most 15 units of the value type.",
  "float, double and both kinds of long double; every history with sums and count from 1 to 2^20 (the general bound: every binary format and every state without overflow or underflow)", "the type of a subexpression is invisible in tests with double", [I + "cumulative/detail/moment.ipp: skewness, unbiased_skewness"])
p("Rounding error of a stable IIR filter is bounded for ever",
  "If (1+g) times the sum of |b_j| is less than |scale|, with g = (1+u)^(n+3)-1 the rounding error of one step, and the inputs are bounded, then after any history the value is a finite number within an explicit bound and differs from the exact value by at most an explicit bound that does not depend on the number of values. Without any condition on the divisor coefficients no bound exists: the summing filter with the input 1 stays at 2^53 in double.",
  "every binary format with errors u, eta; all coefficient lists, scales, bounds of the input and histories", "rounding errors of a feedback filter accumulate over unbounded runs", [I + "impulse/detail/infinite.ipp: push, value, clear"])
p("Integer data do not drift in the window and impulse filters",
  "If all data are whole multiples of a power of two and small enough, a filter of fixed memory is exact in floating point after any number of values: its result depends on the values in its memory only. Window covariance: the sums are exact, everything older than the window is forgotten bit for bit, the covariance is exact if the number of pairs in the window is a power of two and else has an error at most 14 u Q, Q the bound of the products, independent of the number of pushes. Window mean and variance of at most two values, FIR filter, IIR filter with integer coefficients, scale 1 and bounded exact output (for example the moving sum): exact. Violated by the window mean (and variance) of three values: after 1, 0, 0, 0 the mean of the window 0, 0, 0 is 2^-54 in double.",
  "every binary format; all window sizes, coefficient lists, bounds and histories", "drift shows only after long runs; absence of drift for every run cannot be sampled", [I + "window/detail/comoment.ipp: push, variance, cosum", I + "window/detail/moment.ipp: push, mean", I + "impulse/detail/finite.ipp: push", I + "impulse/detail/infinite.ipp: push"])
p("Data that repeat with the period of the window",
  "When the window is full and the values in it are pushed again in the same order, any number of times, the window filter holds the same values and must report the same results. The window mean and the window covariance return to the same state bit for bit in every binary format. The window variance does not: its sum is adjusted by two terms that are rounded separately. In double with N = 4 the data a, -a, b, -b with a = 20 + 2^-22 and b = 9 + 3*2^-23 add 2^-42 to the sum in each period, and after finitely many periods the variance 240.5 is reported as at least 255.9. With fused multiply-add the window covariance drifts too (two pairs, sum.xy grows by 2^-60 per period), unless the products are exact.",
  "every binary format; all window sizes, histories and numbers of repetitions", "the drift per period is one part in 2^52; a test compares after a few periods with a tolerance", [I + "window/detail/moment.ipp: push, mean, variance", I + "window/detail/comoment.ipp: push, variance, cosum"])
p("Interim quantiles in floating point",
  "With every operation rounded, the results of the interim quantile estimator are finite, ascending, and lie within the data. Finite and ascending: proved whenever the estimates of the half windows are (for example double, quantiles in steps of 1/2^k, up to 2^26 values up to 2^900 and any number of half windows). Within the data: violated, five times 1+2^-52 in half windows of four gives the minimum 1+2^-51, because the weights are multiplied before they are divided; the results exceed the data by at most 12 u M. Constant streams are exact if the constant times the window is representable.",
  "all binary formats, windows, quantiles, histories and objects", "the excess is one unit in the last digit and depends on the weights", [I + "interim/detail/psquare_quantile.ipp: get, push", I + "quantile/detail/psquare.ipp: get"])
p("Influence of one value",
  "Replacing one value a of the stream by b changes, in exact arithmetic, the cumulative mean by (b-a)/n, the cumulative variance by (n-1)/n^2 (b-a)(a+b-2m) where m is the mean of the other values (at most (n-1)/n^2 R^2 for data in an interval of length R), the covariance by (n-1)/n^2 times the change of the product of the deviations from the means of the others, the window mean and variance in the same way if the value has fewer than N successors and not at all otherwise, the decaying mean by the weight f(1-f)^k/(1-(1-f)^n) for k successors, the trend by the weight (3 - 2(1/(j+1)+...+1/n))/n for position j, and the interim mean by a weight given by the half window of the value, which is at most 2/(W+1) after the first half window.",
  "all histories, positions, old and new values, window sizes and factors", "the change depends on the position, the length and all other values", [I + "cumulative/detail/moment.ipp: push, variance", I + "cumulative/detail/comoment.ipp: push", I + "window/detail/moment.ipp: push", I + "decay/detail/moment.ipp: push", I + "cumulative/detail/trend.ipp: push, value", I + "interim/detail/moment.ipp: mean"])
p("Probability of a large error",
  "For independent random data in an interval of length R with expectation m, the result differs from m by t or more with probability at most 2 exp(-2 t^2 / (q R^2)) for the cumulative mean of n values (q = 1/n), the window mean (1/min(N,n)), the decaying mean (q = f/(2-f) (1+(1-f)^n)/(1-(1-f)^n)), the interim mean and the FIR filter (sum of the squared coefficients, m times their sum). The cumulative and the window variance differ from the variance of the data by t or more with probability at most 2 exp(-n t^2 / (2 R^4)) + 2 exp(-n t / R^2). In floating point the mean obeys the same bound with t increased by its rounding error. For uncorrelated data with finite variance the probability is at most v/t^2, v the variance of the result.",
  "all probability spaces, distributions, histories, window sizes, factors, coefficients and t > 0", "a tail probability of exp(-100) is not observable", [I + "cumulative/detail/moment.ipp: push", I + "window/detail/moment.ipp: push", I + "decay/detail/moment.ipp: push", I + "interim/detail/moment.ipp: mean", I + "impulse/detail/finite.ipp: push"])
p("Response to a linear series and to a step",
  "Exact arithmetic. On the series a, a+d, ... of n values the mean is behind the last value by (n-1)/2 steps in the cumulative filter, (min(N,n)-1)/2 in the window filter, (1-f)/f - n(1-f)^n/(1-(1-f)^n) in the decaying filter, (min(W,n)-1)/2 in the interim filter (the same delay as a window of W values, whatever the position in the half window) and by the mean index of the coefficients in a FIR filter of sum 1; the variance is d^2 (m^2-1)/12 for the m values that count. After n values a and k values b the mean has moved from a to b by the fraction k/(n+k) in the cumulative filter, min(k,N)/min(N,n+k) in the window filter, (1-(1-f)^k)/(1-(1-f)^(n+k)) in the decaying filter, and a fraction given by the half windows in the interim filter, which arrives at b after 2W values at the latest.",
  "all starting values, steps, lengths, window sizes, factors and coefficients", "the delay of the interim filter is constant only because of its weights, at every position of the window", [I + "cumulative/detail/moment.ipp: push", I + "window/detail/moment.ipp: push", I + "decay/detail/moment.ipp: push", I + "interim/detail/moment.ipp: mean", I + "impulse/detail/finite.ipp: push"])
p("FIR and IIR filters with fused multiply-add",
  "When the compiler contracts products and sums of std::inner_product into fused multiply-adds, the error bounds of the FIR filter (C103) and of the stable IIR filter (C154) hold unchanged, finite data stay finite, and FIR filters remain exact on integers within the mantissa.",
  "every choice of contracted products in every push, every history", "which products are contracted depends on compiler, options and unrolling", [I + "impulse/detail/finite.ipp: push", I + "impulse/detail/infinite.ipp: push"])
p("Differencing filter with fused multiply-add",
  "The FIR filter with coefficients c, -c returns exactly 0 when the last two values are equal, whichever products are contracted.",
  "all coefficients, values, histories and contractions", "the residue is far below the data", [I + "impulse/detail/finite.ipp: push"])
p("Decay filters with fused multiply-add",
  "When the compiler contracts statements of the decay filters into fused multiply-adds, variance and kurtosis do not compare below zero for any data including NaN and infinities (C100), and the error bound of the mean, independent of the number of values, is the one without contraction (C64).",
  "every choice of contracted statements in every push, every history, every factor in (0, 1]", "a contracted difference is rounded once, so the argument for the sign is a different one for every combination", [I + "decay/detail/moment.ipp: push"])
p("Stream of ones with fused multiply-add",
  "The decaying mean of a stream of ones is exactly 1, whichever statements are contracted.",
  "every factor, length and contraction", "needs a factor whose product lies next to a tie", [I + "decay/detail/moment.ipp: push", I + "decay/detail/moment.ipp: mean"])
p("Rank of the estimate of the median",
  "In exact arithmetic there is a share t > 0 such that, for long enough data, at least the share t of the values is at most the P-square estimate of the median and at least the share t is at least the estimate (one half each would be right). Violated: of the values 1, 2, 4, ..., 2^(n-1) in this order at most 14 + 4 log2(n) are at least the estimate; for ascending data that are not negative the estimate is at least x/n^4 where x is the value 14 places from the end. In general only: the estimate lies within the data and its marker has the position of the median.",
  "all histories, all lengths", "tests use data of one magnitude, for which the height of a marker has about the rank of its position", [I + "quantile/detail/psquare.ipp: push", I + "quantile/detail/psquare.ipp: parabolic", I + "quantile/detail/psquare.ipp: linear"])
p("Calls through a reference to a base class: results of the base",
  "The moment filters inherit publicly from the filter of the moment below and no function is virtual. Whatever push and clear calls are made through references to the class of the object or to its public bases, the results of a base are those of all calls at or above its level, in any arithmetic.",
  "all sequences of calls through any of the classes, all values, any arithmetic", "tests call filters only through the class of the object", [I + "cumulative/moment.hpp: basic_moment", I + "cumulative/detail/moment.ipp: push", I + "decay/moment.hpp: basic_moment", I + "decay/detail/moment.ipp: push"])
p("Calls through a reference to a base class: results of the object",
  "The results of a filter are those of all calls, also of those made through a reference to a public base class. Violated: values pushed through the base are missing in the higher moment, and clear through the base keeps the higher moment. Exactly: the fourth moment is the growth of the sum of fourth powers by the values pushed through the class of the object since the last clear through that class, divided by the variance of all values since the last clear through any class. Holds if there is no call through a base since the last clear through the class of the object.",
  "all sequences of calls through any of the classes", "tests call filters only through the class of the object", [I + "cumulative/moment.hpp: basic_moment", I + "cumulative/detail/moment.ipp: clear", I + "decay/detail/moment.ipp: push"])
p("Sign of zeros",
  "In arithmetic with the two zeros of IEEE 754, every result of every filter has the value that it has in arithmetic with a single zero which divides like +0: no division has the divisor -0, unless the scale of the infinite impulse filter is -0. Data that differ only in the signs of zeros have the same results, up to the sign of a zero result.",
  "all histories, all data including infinities and NaN, any rounding with rnd(0) = 0 that keeps signs, all filters", "tests do not push -0, and a division by -0 instead of +0 changes the sign of an infinity", [I + "cumulative/detail/moment.ipp: skewness", I + "cumulative/detail/correlation.ipp: value", I + "cumulative/detail/regression.ipp: slope", I + "decay/detail/moment.ipp: skewness", I + "window/detail/regression.ipp: slope", I + "impulse/detail/infinite.ipp: push", I + "quantile/detail/psquare.ipp: parabolic"])
p("Response to oscillations",
  "In exact arithmetic, for the data K + Re(k z^j) with |z| = 1: the window mean is exactly K and the window variance |k|^2/2 once the window is full, if the period divides the size of the window; the interim mean is K at the ends of blocks; the cumulative mean differs from K by at most 2|k|/(|z-1| n), its variance tends to |k|^2/2; the decaying mean, FIR and IIR filters (the latter if sum|b| < |scale|) give the same oscillation with amplitude and phase changed by fz/(z-(1-f)), sum a_i z^-i, and sum a_i z^-i / (scale + sum b_j z^(-j-1)), the first after an error of at most 2|k|(1-f)^n/(1-(1-f)^n), the last in the limit.",
  "all amplitudes, phases and frequencies, all numbers of values, all window sizes, decay factors and coefficients", "a property of unbounded streams and of a continuum of frequencies; the amplitude and phase are not visible in single results", [I + "window/detail/moment.ipp: mean, variance", I + "decay/detail/moment.ipp: push, mean", I + "interim/detail/moment.ipp: mean", I + "cumulative/detail/moment.ipp: mean, variance", I + "impulse/detail/finite.ipp: push", I + "impulse/detail/infinite.ipp: push"])
p("Confidence interval for the mean",
  "For independent, identically distributed data with a positive variance s the probability that mean() differs from the expectation m by at most q sqrt(variance()/n) tends to the probability that a standard normal value lies in [-q, q], with variance() or unbiased_variance(); sqrt(n)(mean() - m)/sqrt(s) and, with a fourth moment k, sqrt(n)(variance() - s)/sqrt(k - s^2) tend to the standard normal distribution (exact arithmetic, n representable by the counter).",
  "all distributions with the moments named, all q and all numbers of standard deviations", "a limit theorem about all distributions", [I + "cumulative/detail/moment.ipp: mean, variance, unbiased_variance"])
p("Excess precision",
  "Where expressions are evaluated in a format with more digits and range than the value type (FLT_EVAL_METHOD 1 or 2) and the compiler rounds any of the intermediate results to the value type or not, and contracts the product or not, the cumulative mean still lies within the data and has an error of at most ((n + 1) / 2 + 5) (u + u' + u u') B plus underflow, the variance is not negative and its sum does not decrease, and equal values have exactly this value as mean and no variance. The results themselves may depend on the evaluation format.",
  "all histories, all choices of the compiler for every push, all pairs of formats, any monotone rounding, data whose differences do not overflow", "a test runs with one compiler on one target; the choices of the compiler depend on register allocation and options", [I + "cumulative/detail/moment.ipp: push", I + "cumulative/detail/moment.ipp: variance", I + "cumulative/detail/moment.ipp: unbiased_variance"])
p("Covariance with excess precision",
  "Where expressions are evaluated in a wider format, with any choice of the compiler of which intermediate results are rounded to the value type and which products are contracted, the cumulative covariance with a constant coordinate is exactly 0, the covariance of a variable with itself is bit for bit its variance if the choices agree, and the errors of covariance and variance are at most (6n + 68) (u + u' + u u') A B.",
  "all histories, all choices of the compiler for every push, all pairs of formats, data whose differences do not overflow", "a test runs with one compiler on one target; the choices of the compiler depend on register allocation and options", [I + "cumulative/detail/comoment.ipp: push", I + "cumulative/detail/comoment.ipp: variance", I + "cumulative/detail/comoment.ipp: unbiased_variance"])
p("Normal limits of covariance and slope; confidence interval for the variance",
  "For independent identically distributed pairs the scaled errors of the covariance and of the slope tend to normal distributions: the covariance with the variance of the product of the deviations, the slope with E((x - E x)^2 r^2) / Var(x)^2 where r is the error of the best linear predictor. The interval variance() +- q variance() sqrt((kurtosis() - 1) / n) of the kurtosis filter contains the variance of the distribution with a probability that tends to the probability that a standard normal value lies in [-q, q].",
  "all distributions with the moments in question, all q and t, all numbers of bits of size_type that can count the data", "a simulation examines some distributions and sample sizes and cannot establish a limit", [I + "cumulative/detail/comoment.ipp: variance", I + "cumulative/detail/regression.ipp: slope", I + "cumulative/detail/moment.ipp: kurtosis", I + "cumulative/detail/moment.ipp: variance"])
p("Correlation of independent variables",
  "For independent identically distributed pairs of independent variables sqrt(n) value() of the correlation filter tends to the standard normal distribution, so that it can be used as a test of independence at every scale of the data.",
  "all distributions with finite non-zero variances, all bounds t, all numbers of bits of size_type that can count the data", "a simulation examines some distributions and scales and cannot establish a limit", [I + "cumulative/detail/correlation.ipp: value"])
p("Skewness of data without skew",
  "For independent identically distributed data whose third central moment is zero sqrt(n) skewness() tends to a normal distribution, whose variance is that of ((x - E x)^3 - 3 Var(x) (x - E x)) / Var(x)^(3/2).",
  "all distributions with six moments, all bounds t, all numbers of bits of size_type that can count the data", "a simulation examines some distributions and cannot establish a limit", [I + "cumulative/detail/moment.ipp: skewness"])
p("Normal limits of skewness and kurtosis",
  "For independent identically distributed data sqrt(n) (kurtosis() - k) tends to a normal distribution whose variance is that of the influence of one value, (y^4 - 4 m3 y - 2 k V y^2) / V^2 with y = x - E x, V the variance, m3 the third central moment and k the kurtosis of the distribution. If m3 > 0, sqrt(n) (skewness() - g) tends to a normal distribution with the variance of (y^3 - 3 V y - 3/2 g sqrt(V) y^2) / V^(3/2), g the skewness of the distribution.",
  "all distributions with eight (six) moments, all bounds t, all numbers of bits of size_type that can hold n^2 (n)", "a simulation examines some distributions and cannot establish a limit", [I + "cumulative/detail/moment.ipp: skewness", I + "cumulative/detail/moment.ipp: kurtosis"])
p("The estimate of the median resists an outlier",
  "When all values but one are equal to zero, the estimate of the median by the P-square filter is bounded by a number that does not depend on the remaining value, as the median of three or more values is.",
  "all numbers of values from 3, all positions and sizes of the outlier, all numbers of bits of size_type", "a test places an outlier of one size at one position", [I + "quantile/detail/psquare.ipp: push", I + "quantile/detail/psquare.ipp: get"])
p("Superposition",
  "Fed with the stream a x + b y the mean filters (cumulative, window, decay, interim) and the trend filter return a times the result for x plus b times the result for y. The variance (cumulative, window, interim) is a^2 Var(x) + 2 a b Cov(x, y) + b^2 Var(y) with the results of the variance and covariance filters of the same family; the decaying variance is a quadratic form in (a, b) too. Covariance and regression slope (cumulative, window, interim) and the regression line (cumulative, window) are linear in the second variable.",
  "all streams, histories and coefficients a, b, all window lengths and factors, all numbers of bits of size_type that can hold the counts", "tests feed single streams and never relate two filters", [I + "cumulative/detail/moment.ipp: push", I + "window/detail/moment.ipp: push", I + "decay/detail/moment.ipp: push", I + "interim/detail/moment.ipp: variance", I + "cumulative/detail/regression.ipp: slope"])
p("Filters in series",
  "Feeding the values of one FIR filter to a second one gives the values of the single FIR filter with the convolved coefficients. Feeding the values of the IIR filter (a, b, scale) to (a', b', scale') gives the values of the IIR filter whose numerator is the product of a and a', whose denominator is the product of scale + b z and scale' + b' z, and whose scale is scale * scale'. Hence the order of two filters in series is irrelevant. The IIR filter ([1], b, 1) undoes the FIR filter (1, b_1, b_2, ...).",
  "every list of coefficients, every scale <> 0, every sequence of values, exact arithmetic", "tests use single filters with few values", [I + "impulse/detail/finite.ipp: push, value", I + "impulse/detail/infinite.ipp: push, value"])
p("Confidence intervals of the regression line",
  "Data follow a linear model y = c + b x + e with errors e that are independent of x. With R = Var(y) - slope() Cov(x, y) from the variance and covariance filters, the interval slope() +- q sqrt(R / (n Var(x))) contains b, and the interval at(x) +- q sqrt(R (1 + (x - mean)^2 / Var(x)) / n) contains c + b x, each with a probability that tends to the probability that a standard normal value lies in [-q, q].",
  "all distributions of x and e with finite positive variances, every x, every q >= 0, all probability spaces, all numbers of bits of size_type that can hold the counts, exact arithmetic", "a limit of probabilities over all possible data", [I + "cumulative/detail/regression.ipp: slope, at", I + "cumulative/detail/comoment.ipp: variance", I + "cumulative/detail/moment.ipp: variance"])
p("Poles of the infinite impulse filter",
  "If all poles of the infinite impulse filter lie strictly inside the unit circle (scale + b_1 z + b_2 z^2 + ... has no complex zero with |z| <= 1), then there is a constant K such that the output after any history never exceeds K times the largest input since the last clear, and if the input converges to L then the output converges to L (a_0 + a_1 + ...) / (scale + b_1 + b_2 + ...). If a pole lies on or outside the unit circle and is not cancelled by a zero of the numerator, then inputs that do not exceed 1 make the output exceed every bound. A filter without such cancellation is therefore stable if and only if its poles lie inside the unit circle.",
  "all non-empty coefficient lists, all scales, all histories of push and clear, all converging inputs, exact arithmetic", "stability concerns all infinite inputs; the criterion concerns all complex numbers of the unit disk", [I + "impulse/detail/infinite.ipp: push, value, clear"])
p("Frequency response of the impulse filters",
  "For the input cos(omega n + phi) the finite impulse filter returns |H| cos(omega n + phi + arg H), exactly, once as many values as coefficients were pushed, where H = c_0 + c_1 e^(-i omega) + c_2 e^(-2 i omega) + ...; the output of an infinite impulse filter with all poles inside the unit circle approaches |H| cos(omega n + phi + arg H), where H = (a_0 + a_1 e^(-i omega) + ...) / (scale + b_1 e^(-i omega) + ...).",
  "all non-empty coefficient lists, all scales, all frequencies and phases, exact arithmetic", "a continuum of frequencies and phases, and a limit", [I + "impulse/detail/finite.ipp: push, value", I + "impulse/detail/infinite.ipp: push, value"])

p("Stable infinite impulse filters forget geometrically",
  "If all poles of the infinite impulse filter lie strictly inside the unit circle, there are K and rho < 1 such that after any two histories with inputs of size at most B (since the last clear) that are continued with the same n inputs, the two outputs differ by at most K rho^n B.",
  "all non-empty coefficient lists, all scales, all pairs of histories of push and clear, all continuations, exact arithmetic", "pairs of histories of any length", [I + "impulse/detail/infinite.ipp: push, value, clear"])
p("Rounding error of every stable infinite impulse filter is bounded for ever",
  "If all poles of the infinite impulse filter lie strictly inside the unit circle, there is a finite gain G that depends on the divisor coefficients only; if G times the relative error of a step times the sum of the sizes of the divisor coefficients is below one, and the numbers stay in range, then after any number of pushes of values of size at most B the filter is finite, its size has an explicit bound, and it differs from the exact filter by at most G times the error of a single step, for every choice of the compiler to contract products and sums.",
  "all binary formats, all non-empty coefficient lists with poles inside the unit circle, all scales, all histories of push and clear", "all streams of any length, all roundings, all contractions", [I + "impulse/detail/infinite.ipp: push, value"])
p("Approximate coefficients of the infinite impulse filter",
  "Stability is decided by a finite gain: the poles lie inside the unit circle if and only if a finite number G bounds the effect of every disturbance of the difference equation. If the divisor coefficients and the scale are changed by D in total and G D < 1, the filter is still stable, with the gain G / (1 - G D); every stable filter therefore has stable neighbours. The exact outputs of the two filters differ by at most G (B dist(a, a') + D G/(1 - G D) B sum|a'|) for inputs of size at most B, and the computed outputs of the filter with rounded coefficients differ from the exact outputs of the filter that was meant by at most this plus the rounding error of C184, after any number of values.",
  "all stable filters, all changes of the coefficients with G D < 1, all binary formats, all histories of push and clear", "all coefficients and their roundings, all streams of any length", [I + "impulse/detail/infinite.ipp: infinite, push", I + "impulse/detail/infinite.ipp: value"])
p("Sensitivity of the decay filters to their factors",
  "For data in an interval of length R, replacing the factor f of the decaying mean by f' changes the mean by at most R |f' - f| / max(f, f'), after any number of values. Replacing the factors f, g of the decaying variance by f', g' changes the variance by at most R^2 (2 |f' - f| / max(f, f') + |g' - g| / max(g, g')). Hence a factor such as 0.1 that is rounded to the value type changes the mean by at most one rounding error of the range of the data, and the computed mean differs from the exact mean with the factor that was meant by the error of C64 plus this.",
  "all factors in (0, 1], all histories without values before a clear (variance), exact arithmetic; all binary formats for the computed mean", "all streams of any length, a continuum of factors", [I + "decay/detail/moment.ipp: push, mean, variance"])
p("Data with measurement errors",
  "If every pushed value differs from a true value by at most d, then every mean (cumulative, window, interim, decaying) differs from that of the true values by at most d, the trend by at most 5 d, the value of a finite impulse response filter by at most d times the sum of the absolute coefficients, and that of an infinite one with the gain G (C184) by at most G times that. The square root of the variance differs by at most d (cumulative, window, interim) or 2 d (decaying). If two variables are measured with errors of at most d1 and d2, their covariance (cumulative, window, interim) differs by at most d1 sd(y) + d2 sd(x) + d1 d2. In a window only the errors inside the window count, in the interim covariance only those of the last two half windows.",
  "all histories of true and measured values, all windows, all factors in (0, 1], all coefficients, exact arithmetic", "two streams of any length, any pattern of errors", [I + "cumulative/detail/moment.ipp: push", I + "window/detail/moment.ipp: push", I + "decay/detail/moment.ipp: push", I + "interim/detail/moment.ipp: push", I + "impulse/detail/finite.ipp: push", I + "impulse/detail/infinite.ipp: push", I + "cumulative/trend.hpp: value", I + "interim/detail/comoment.ipp: variance"])
p("Quantiles of data with measurement errors",
  "If every value differs from a true value by at most d, the estimate of the median by the P-square filter differs from the estimate from the true values by at most K d, where K may depend on the number of values but not on the data, as the median itself does with K = 1.",
  "all histories of true and measured values, all numbers of values, all numbers of bits of size_type, exact arithmetic", "an estimate that jumps does so at data of measure zero", [I + "quantile/detail/psquare.ipp: push", I + "quantile/detail/psquare.ipp: get"])
p("Regression and correlation of data with measurement errors",
  "Both variables are measured with errors of at most d1 (x) and d2 (y). If the measured x are not all equal, the slope differs from the slope k of the true data by at most (d1 sd(y) / sd(x') + |k| d1 + d2) / sd(x'), and the line at z by at most that times |mean(x') - z| plus |k| d1 + d2, for the cumulative regression, for that of a window, where only the errors inside the window count, and, with interim means and variances, for the interim regression, where only the errors of the last two half windows count (its line without clear(), C33). The correlation differs by at most 2 d1 / sd(x') + 2 d2 / sd(y'), provided that true and measured data are above the cut-off of the filter (C11). Here sd is the standard deviation, x' and y' are the measured values.",
  "all histories of true and measured pairs, all windows, exact arithmetic", "two streams of pairs of any length, any pattern of errors", [I + "cumulative/detail/regression.ipp: slope, at", I + "window/detail/regression.ipp: slope, at", I + "cumulative/detail/correlation.ipp: value", I + "interim/detail/regression.ipp: slope, at"])
p("Data that are converted to the number type",
  "Real data (decimal literals, values read from a file) of size at most B are rounded to the number type before they are pushed. The computed result differs from the exact statistic of the data before the conversion by little more than the rounding error of the filter (C61, C62, C64, C70, C109, C121): the mean by one u B more, the trend by 5 u B, decay, window and interim mean by one u B, variance and covariance by 5 u B^2 and 5 u A B. u is the unit roundoff; underflow adds multiples of the smallest number.",
  "all histories of real numbers, all binary formats and rounding directions, all windows and factors", "the conversion error depends on every digit of the data; tests compare with tolerances that hide it", [I + "cumulative/detail/moment.ipp: push", I + "cumulative/detail/comoment.ipp: push", I + "cumulative/detail/trend.ipp: push", I + "window/detail/moment.ipp: push", I + "decay/detail/moment.ipp: push", I + "interim/detail/moment.ipp: mean"])
p("Skewness and kurtosis of data with measurement errors",
  "Every value is measured with an error of at most d. If the sums of the third powers of the deviations are above the cut-off of the filter, the skewness g' of the measured data differs from the skewness g of the true data by at most d (3 (s^2 + s'^2) + |g| (s^2 + s s' + s'^2)) / s'^3. If the sums of the fourth powers are above the cut-off, the fourth roots of the kurtoses k' and k differ by at most d (2 + k^(1/4)) / s'. Here s and s' are the standard deviations of the true and the measured data.",
  "all histories of true and measured values, all counters that do not wrap around, exact arithmetic", "two streams of any length, any pattern of errors", [I + "cumulative/detail/moment.ipp: push, skewness, kurtosis"])
p("A variance of zero means equal values",
  "For data of the number type whose differences are numbers of the type, the computed variance is zero if and only if all values since the last clear are equal.",
  "all histories of data of the number type, all counters that do not wrap around, IEEE rounding", "every history; the failure needs neighbouring numbers or tiny differences", [I + "cumulative/detail/moment.ipp: push, variance"])
p("When the bounds are attained",
  "If the data lie in [lo, hi], the variance is (hi - mean)(mean - lo) if and only if every value is lo or hi, and (hi - lo)^2 / 4 if and only if moreover the mean is the middle of the range (cumulative and window filters). A value deviates from the mean by sqrt((n - 1) variance) if and only if all other values are equal. Above the cut-off, the kurtosis is 1 if and only if all values have the same distance from the mean, 1 + skewness^2 if and only if there are at most two different values (skewness above its cut-off), and the correlation is 1 or -1 if and only if the points lie on a rising or a falling line.",
  "all histories, all counters that do not wrap around, exact arithmetic", "an equivalence over all data sets of any length", [I + "cumulative/detail/moment.ipp: push, variance, skewness, kurtosis", I + "cumulative/detail/correlation.ipp: push, value", I + "window/detail/moment.ipp: push, variance"])
p("Effect of a new value",
  "A new value x moves the cumulative mean m of n values by (x - m) / (n + 1), and the decaying mean by the share f / (1 - (1-f)^(n+1)) of its distance, which is between f and 1. It raises the variance v if and only if n (x - m)^2 > (n + 1) v and leaves it unchanged if and only if the two sides are equal; it raises the unbiased variance u if and only if n (x - m)^2 > (n + 1) u. A new point pulls the regression line towards itself: its distance from the new line is the share l of its distance from the old line, with 0 <= l <= n / (n + 1).",
  "all histories, all new values, all counters that do not wrap around, exact arithmetic", "an equivalence and a bound for every state reachable by any history", [I + "cumulative/detail/moment.ipp: push, mean, variance, unbiased_variance", I + "cumulative/detail/regression.ipp: push, at", I + "decay/detail/moment.ipp: push, mean"])
p("The rounded mean moves towards a new value",
  "In every binary floating-point format and rounding direction, the cumulative mean after a new value lies between the mean before it and the new value (both included).",
  "all histories of data whose differences do not overflow, all counters that do not wrap around", "every state of the filter and every rounding direction", [I + "cumulative/detail/moment.ipp: push, mean"])
p("Data recorded several times",
  "When every value occurs k times as often, in any order, mean, variance, covariance, correlation, regression slope and every prediction stay the same; the unbiased variance is multiplied by (kn - k) / (kn - 1); above the cut-offs skewness and kurtosis stay the same.",
  "all pairs of histories whose data since the last clear are related this way, all k, all counters that do not wrap around", "relates all pairs of histories", [I + "cumulative/detail/moment.ipp: variance, unbiased_variance, skewness, kurtosis", I + "cumulative/detail/comoment.ipp: variance", I + "cumulative/detail/correlation.ipp: value", I + "cumulative/detail/regression.ipp: slope, at"])
p("Effect of a new value on a full window",
  "A new value x that displaces the oldest value a of a full window of N values moves the mean from m to m' = m + (x - a) / N and the variance by (x - a)(x + a - m - m') / N, the unbiased variance by the same product over N - 1. The variance rises if and only if the product is positive, and stays the same if and only if x = a or x + a = m + m'. The covariance changes by ((x - m)(y - k') - (a - m)(b - k')) / N when (x, y) displaces (a, b), where m is the mean of the first coordinates before and k' the mean of the second coordinates after the push.",
  "all histories, all window sizes, all new values, exact arithmetic", "an equivalence for every state reachable by any history, however long ago values were evicted", [I + "window/detail/moment.ipp: push, mean, variance, unbiased_variance", I + "window/detail/comoment.ipp: push, variance"])
p("Values far from the mean",
  "If n values have the mean m and the variance v, at most n v / t^2 of them are at a distance of t or more from m, at most n v / (v + t^2) are above m by t or more, as many below, and every median is at most sqrt(v) from m. With the kurtosis k above its cut-off at most n k v^2 / t^4 are at a distance of t or more.",
  "all histories, all t >= 0, all medians, cumulative filters and (without the kurtosis) the values in a window, exact arithmetic", "bounds on the number of values for every history and every distance", [I + "cumulative/detail/moment.ipp: mean, variance, kurtosis", I + "window/detail/moment.ipp: mean, variance"])

with open("/verif/properties.jsonl", "w") as f:
    for x in P:
        f.write(json.dumps(x) + "\n")
print(len(P))
