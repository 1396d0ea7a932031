# Formal model of breese/trial.online in Lean 4

## 1. What is modelled, and how

`breese/trial.online` is a header-only C++11 library of online statistics. Every
filter is a small state machine (`push`, `clear`, queries); the mathematics lives in the
update formulas. The model follows the code function by function, under
`lean/Verif/Model/`. Every definition cites the file and lines it models.

### One model text, several arithmetics

The C++ classes are templates over the value type `T`. The model does the same: each
definition is written once over a class `Scalar α` that contains exactly the operations
the code applies to `T` (`+ - * /`, conversion from `size_t`, `<`, `<=`, `==`, `sqrt`,
`floor`, conversion to an index, `epsilon`). The theorems then choose the arithmetic:

* **Any arithmetic** (`α` with an arbitrary `Scalar α` instance, no laws assumed).
  Bookkeeping properties (clear, size, swap, forgetting) are proved at this level, so they
  hold bit for bit for IEEE `float`/`double`/`long double`, including NaN and infinities.
* **Exact extended reals** `X (Fmt.exact ε)`: real numbers plus `+inf`, `-inf` and `nan`
  with the IEEE rules for special values (`0/0 = nan`, `x/0 = ±inf`, `max(0,nan)=0`,
  comparisons with nan are false). Division by zero is thus a *distinct outcome*, and each
  result theorem says "the query returns the finite number `v`".
  Here the algebraic identities (Welford, Pebay, least squares, ...) are proved.
* **Rounded arithmetic** `X F` for any format `F` that satisfies the explicit hypothesis
  `F.Binary p emin` (`Verif/Format.lean`: results are numbers `m * 2^e` with `|m| < 2^p`, `e ≥ emin`; such
  numbers are not changed; monotone), with overflow to infinity. It covers all IEEE rounding directions. IEEE
  binary64/binary32 (round to nearest even, gradual underflow) is defined concretely and proved to satisfy it
  (`Proofs/Nearest.lean`).
* `Float`/`Float32` (Lean's IEEE double and single) are used only in `Verif/Tests/`, to run the model on the
  numbers of the repository's own unit tests (235 test functions, 2389 checks, translated by `tools/tests.py`). These are tests of the model's fidelity, not proofs.

`size_t` is `BitVec w` with the width `w` a parameter (64, 32, 16...), so every unsigned
wrap-around in the code is present in the model (`n - 2` at `n = 1`,
`positions[i-1] - positions[i]`, `n*(n-3)+3`, ...).

Integer value types (`T = int`, `signed char`, ...) behave differently (truncating division, undefined
overflow, the usual arithmetic conversions), so the functions for which the code admits integers have a
separate integer model (`Model/Integer.lean`) in which undefined behaviour is the outcome `none`.
`Model/CInt.lean` models the integer arithmetic of C++ for every width and signedness (integral promotion, usual
arithmetic conversions, signed overflow and division by zero undefined, unsigned types modulo `2^b`), and
`Model/IntegerTypes.lean` the filters that admit integers, with the type in which each subexpression is evaluated.
`Proofs/IntegerSigned.lean` proves that the two integer models agree for signed types.
Trusted: conversion to a signed type that cannot hold the value is modulo `2^b` (implementation-defined before C++20,
and so in every implementation).

### Histories

`Op β = push b | clear`; `run ops` is the state after the operations, starting from a fresh
object. `sinceClear ops` is the list of values pushed since the last `clear`. Most theorems read
"for every history `ops`, query (run ops) = specification (sinceClear ops)".

### Specifications

`Verif/Spec.lean` holds the independent specifications (batch mean, central sums,
covariance, residual sum of squares, last-N, weighted exponential average,
convolution, bounded deque, order statistics ...), `Verif/SpecP2.lean` the P-square algorithm. They do not
import the model.


Property theorems live in `lean/Verif/Props/*.lean`, one file per area, named after the property
(`C01_mean`, `C03_skewness_violated`, ...). Supporting lemmas are in `lean/Verif/Proofs/*.lean`.
Next to each theorem an `example` exhibits a concrete non-trivial case of its hypotheses.
Where the code violates a property, its negation is proved with a concrete witness
(`..._violated`), and the part that does hold is proved as `..._partial`, with the full
statement left visible as a definition (`..._Statement`).

## 2. Plan per property

"exact" = exact extended reals `X (Fmt.exact ε)`, any `ε > 0`. "any" = arbitrary `Scalar α`.
"rounded" = `X F` with `F.Binary p emin`.

| id | modelled functions | how |
|----|--------------------|-----|
| C01 | Cumulative.Mean | run invariant by induction on the history, exact |
| C02 | Cumulative.Variance | Welford identity, exact; zero iff constant from sum of squares |
| C03 | Cumulative.Skewness | Pebay identity; the code cuts off *negative* M3: violated, partial for M3 ≥ ε |
| C04 | Cumulative.Kurtosis | Pebay identity incl. the `size_t` products, `n² < 2^w`; ≥ 1 by Cauchy-Schwarz |
| C05 | unbiased_* | formula + finiteness (case analysis of n and of M2 = 0) |
| C06 | clear of all cumulative filters | any arithmetic |
| C07 | all cumulative filters | specs are permutation invariant |
| C08 | all moments | specs under affine maps |
| C09 | Cumulative.Comoment | co-moment identity, exact |
| C10 | Cumulative.Correlation | Cauchy-Schwarz |
| C11 | Cumulative.Correlation | violated at small scale; partial when the variance product ≥ ε |
| C12 | Cumulative.Regression | normal equations, then sum-of-squares argument |
| C13 | Cumulative/Window.Regression | from C12/C21 |
| C14 | Cumulative.Trend | run invariant |
| C15-C17 | Cumulative.Mean/Variance | rounded |
| C18-C21 | Window.* | invariant: ring = lastN, sums = specs of lastN, exact; C19 second half in every `X F` |
| C22 | Window.* | exact finite data proved; violated for NaN/inf |
| C23, C24 | Integer.* | integer model with UB outcomes; window mean and negative covariance violated |
| C25-C27 | Decay.* | closed form by induction; convexity; clear violated for variance and higher |
| C28-C34 | Interim.* | block decomposition of the history; C32, C33 violated |
| C35-C42 | PSquare | invariants over arbitrary linear heights; C37, C39, C40 violated; C41, C42 violated in binary64 |
| C43, C44 | InterimPSquare (memory model) | refinement to pair of P-squares; copy violated |
| C45-C49 | Reservoir | all random outcomes; counting argument for uniformity; C48 (bias): expectation over all draws (`Proofs/ReservoirLaw.lean`); C48, C49 violated |
| C50-C52 | Impulse | convolution / difference equation |
| C53, C54 | Misc | direct |
| C55 | CircularSpan | refinement to bounded deque for power-of-two capacity; violated otherwise |
| C56 | Decay.Exponential, Window.Mean | direct |
| C57 | cumulative and window queries | exact and any format |
| C58 | Cumulative.* | modular count, division by zero at wrap |
| C59 | Cumulative.Skewness/Kurtosis | rounded; violated by overflow of the square |
| C60 | Window.Mean/Variance | any; simulation by the cumulative filter until the first eviction |
| C61 | Cumulative.Mean | any rounding with relative error u (`F.Err`); error recurrence |
| C62, C63 | Window.Mean | as C61; drift bound; staying within the window violated after evictions |
| C64, C65 | Decay.Mean | as C61; contracting error recurrence; constants violated |
| C66, C67 | Cumulative/Window.Comoment | rounded; proved for cumulative, window violated (cancellation in `cosum`) except for small integer data |
| C68, C69 | Interim.* | rounded; blending of a constant violated; sign of the variance proved |
| C70 | Cumulative.Comoment/Variance | rounded; error recurrence, variance through C67 |
| C71 | PSquare | exact; simulation of a reference algorithm (`Verif/SpecP2.lean`); violated by the rule when a marker moves and by the linear prediction downwards |
| C72, C73 | PSquare | exact; from C71, the reference algorithm commutes with affine maps and sorts the first values |
| C74, C75 | PSquare | any format; the extreme markers are only compared and copied, constants are fixed points of the predictions |
| C76 - C78 | Cumulative | `sqrt(x*x) = x` for rounding to nearest; evaluation in binary64 for the violations |
| C79 - C81 | all filters | any symmetric rounding: negation commutes with every operation of `X F` |
| C82 - C84 | all filters | a bad value establishes a property of the state that every further push preserves |
| C85, C86 | cumulative, window | inequalities and identities between the closed forms of C01 - C21 |
| C87, C88 | impulse | difference equation of C50, C52; a contraction argument for the limits |
| C89 | all filters but the quantile estimator | the closed forms under an affine change of the data |
| C90, C91 | all mean and variance filters | append law of the weighted sum; Cesàro means; contraction |
| C92 | CircularSpan | refinement as in C55 from a prefilled array; violated |
| C93 | Reservoir | invariant of C45; violated |
| C94 | all means, FIR, IIR | monotonicity of each operation of `X F` in one argument; closed forms in exact arithmetic; violated for earlier values |
| C95 | Example | any arithmetic; unfolding of the read loop; violated |
| C96 | Interim.Regression | block identities of covariance and variance on a line; exact |
| C97 | Window.Comoment, IComoment | Cauchy-Schwarz, stable under the weights of the two blocks; exact |
| C98 | Cumulative.Variance, Comoment | closed forms and the pooling identities; exact |
| C99 | Impulse, Window.Moment, Decay.Moment | closed forms, uniqueness of the difference equation; exact |
| C100 | Decay.Variance, Skewness, Kurtosis | invariant "NaN, +infinity or non-negative representable" through every operation of `X F` |
| C101 | Comoment | violated (binary64); error bound from C70; the window step commutes with the exchange |
| C102 | Cumulative.Mean, Variance | violated (binary64); error bounds from C61 and C70 |
| C103 | Impulse | induction over the inner product; a finite result means that nothing overflowed |
| C104 | Regression | C66, C16 for the cumulative filter; violated by the window filter (binary64) |
| C105 | Reservoir | invariant on the number of appended elements; violated when the count wraps |
| C106 | PSquare | invariant on the heights; the wrapped fallback step is compared with the rejected parabolic step; violated by overflow |
| C107 | Window | induction on the history; the drift of the mean enters the increments of the sum of squares |
| C108 | Decay | the filter is a decay mean of the computed squares; C64 for the deviations and for the squares |
| C109 | Interim | C61, C70 for each block (at most W values) and the error of the rounded weighted average |
| C110 | PSquare | rounded interpolation a + t (b - a) stays between a and b for t <= 1 - u; order by comparing ranks; violated by the rounding of rank + 1 |
| C111, C112 | IntegerTypes | accumulated truncation; wrapped differences of unsigned types |
| C113, C114 | IntegerTypes | sums of squares bounded by n (hi - lo)^2; equal values keep all sums 0 |
| C115 | IntegerTypes | weighted sum modulo 2^w, divided by the weights |
| C116, C117 | IntegerTypes | each step of the inner product is exact modulo 2^b if it cannot overflow |
| C118, C119 | TestLib | invariant of the comparison loop; the error counter over a list of checks |
| C120 | binary | numbers of the format next to m differ from it by more than \|m\| / 2^(p+1), the step is smaller than half of that |
| C121 | binary, Err | error of the mean of rounded running means |
| C122 | exact | swap of the double sum, Cesaro twice |
| C123 | binary, Err | C70 and the error of a quotient |
| C124 | binary, Err | C70, errors of product, square root and quotient |
| C125 | exact | strong law of large numbers (Mathlib) for the powers of the deviations |
| C126 | exact | as C125; the comparison with epsilon is signed |
| C127 | exact | variance of a linear combination of uncorrelated values; sums about the expectation |
| C128 | exact | as C127; the divisor is n-1 |
| C129 | exact | sums of squares of the weights |
| C130 | exact | affine weights have the smallest sum of squares among weights with the same sum and first moment |
| C131 | exact | recurrence of the weighted sum of squares; the ratio of the increments lies in [(1-f)/(2-f), 1-f] |
| C132 | exact | the new deviation is a multiple of the difference between a value and an uncorrelated weighted mean |
| C133 | C++ integers | induction over the data; slow ramp as witness in every type |
| C134 | C++ integers | invariant: means within the box, co-moment within (n-1) times its area |
| C135 | C++ integers | (n-1)/((n-2)(n-3)) truncates to 0 from n = 5 on |
| C136 | C++ integers | means of ascending data; residues modulo 2^b |
| C137 | bool | promotion to int and conversion to bool in every step; overload resolution of the braced initialisation |
| C138 | cumulative variance and covariance with fused multiply-add | the proofs of C16, C66, C67, C70 with one rounding less |
| C139 | mean of the sample of the reservoir | elements are not inspected (parametricity of push), sums over all subsets of size N; beyond 4N from C48 |
| C140 | expectation of the interim variance and covariance | C30, C31 and the expectations of C127 for each block |
| C141 | IIR filter as a convolution, its noise | linearity (C52) and delay by a leading 0; the sum of the response from C88 |
| C142 | multiplying the data by a power of two | a map of the states that commutes with every call, as for C79; rounding to p digits commutes with doubling |
| C143 | rounding error of skewness and kurtosis | forward error analysis of each operation of the update; the error of the mean grows linearly with n, those of the sums quadratically |
| C144 | bias corrections | expectations of the products of power sums by induction on the number of independent values |
| C145 | variance of the variance | the same products |
| C146 | skewness of symmetric data | the result is non-negative and bounded by sqrt n |
| C147 | P-square positions | every marker behind its desired position moves unless its neighbour blocks it; bounds by induction over the markers, from the top and from the bottom |
| C148 | P-square, evenly spaced data | the parabola through points of a line is the line; positions from C147 |
| C149 | P-square positions, rounded | the computed desired positions: error per addition, or stuck when the increment is below half a unit; the sign of a rounded difference of two numbers of the format is exact |
| C150 | window and interim regression, rounded | the errors of covariance, variance and means through a quotient (relative error at most 1/2 in the denominator) and a line |
| C151 | interim skewness and kurtosis, rounded | C143 for the blocks that count, then the weighted average |
| C152 | decay skewness and kurtosis, rounded | decay mean of the computed powers; error of the two quotients |
| C153 | skewness in the value types | conversions between formats; relative errors of the quotient; no number with 53 digits is close to sqrt 3 |
| C154 | whole-history error of the stable IIR filter | bound on the computed values by induction (contraction), error recursion against the exact solution; the summing filter freezes at 2^53 |
| C155 | integer data in the window and impulse filters | invariant: every accumulator is a whole multiple of a power of two below 2^p, so no operation rounds |
| C156 | data with the period of the window | a push of the value it evicts changes no sum of mean and covariance; induction over the period; counterexamples computed exactly |
| C157 | interim quantiles in floating point | the rounded weighted average is monotone in both estimates; error bound of a weighted average |
| C158 | influence of one value | closed form of the change for each filter; arithmetic of half windows for the interim mean |
| C159 | probability of a large error | Hoeffding's inequality for weighted sums; the weights of C129; variance as mean of squares minus square of the mean |
| C160 | response to a linear series and to a step | closed forms of sums; arithmetic of half windows |
| C161 | FIR and IIR filters with fused multiply-add | one rounding less per contracted product |
| C162 | differencing filter with fused multiply-add | exact value of the filter; witness |
| C163 | decay filters with fused multiply-add | sign of the rounded difference; error recursion |
| C164 | stream of ones with fused multiply-add | equal sums; witness |
| C165 | rank of the estimate of the median | marker 3 and then 2 move up once in 4 and 10 pushes, by at least 1/n^2 of the way |
| C166 | base class results with calls through references to bases | induction over the calls; every push and clear begins or ends with that of the base |
| C167 | results of the object with calls through references to bases | the increment of the fourth moment depends only on the base, so it is the growth of the fourth central sum |
| C168 | sign of zeros | naturality of every filter; forgetting the sign of zeros respects all operations but division by -0, and no divisor is -0 |
| C169 | response to oscillations | geometric sums in the complex numbers; the steady state solves the difference equation, the difference contracts |
| C170 | confidence interval for the mean | central limit theorem, strong law for the variance, Slutsky; the interval is described by a polynomial inequality |
| C171 | excess precision | all choices of rounding of intermediate results; rounding fixes the numbers of the value type and is monotone |
| C172 | covariance with excess precision | as C70 and C138, with the double rounding error u + u' + u u' |
| C173 | normal limit of covariance and slope | central limit theorem for the product of the deviations, Slutsky, events that differ only with vanishing probability |
| C174 | correlation of independent variables | limit of the covariance, variance of a product of independent deviations, Slutsky |
| C175 | skewness of data without skew | central limit theorem for the third central moment, squeeze between two cut-offs |
| C176 | normal limits of skewness and kurtosis | central limit theorem for the influence of one value, remainders vanish in probability |
| C177 | outlier and the estimate of the median | evaluation of the algorithm on the first values, a positive height stays positive, scaling (C72) |
| C178 | superposition of streams | linear and quadratic functionals of lists, composed with the closed forms of C01-C31 |
| C179 | impulse filters in series | difference equations as congruences of power series modulo X^n |
| C180 | confidence intervals of slope and line | central limit theorem for the error of the line, Slutsky's theorem, consistency of the residual variance |
| C181 | stability of the infinite filter, exact criterion | factorisation of the denominator over the complex numbers, one root at a time; the converse with the Cauchy product of the impulse response |
| C182 | frequency response | the filter of a complex oscillation; the error satisfies the difference equation without input, its decay by C181's division lemma |
| C183 | geometric decay of the impulse response | the denominator has no zeros in a larger disk; rescaled power series |
| C184 | error of stable filters | the residual of the computed outputs in the exact difference equation is one step's error; C181's division lemma bounds its effect |
| C185 | approximate coefficients | the outputs of one filter have a small residual in the difference equation of the other |
| C186 | sensitivity to the decay factor | the weight of the newest value is Lipschitz in the factor; the difference of the means contracts |
| C187 | measurement errors | superposition (C178): a linear filter maps the errors; the square root of a nonnegative quadratic form is a seminorm |
| C188 | quantiles and measurement errors | order statistics are 1-Lipschitz by counting; a jump of the P-square estimate at a tie |
| C189 | measurement errors in regression and correlation | covariance is bilinear and obeys Cauchy-Schwarz; residuals are uncorrelated with x |
| C190 | conversion of the data | the conversion is a measurement error (C187) of at most u B + η; triangle inequality with the rounding error of the filter |
| C191 | measurement errors in skewness and kurtosis | cubes differ by (b - a)(a² + a b + b²); the fourth root of a sum of fourth powers is a norm (Minkowski) |
| C192 | variance zero iff all values equal | at the first different value the rounded mean moves at most half of the way, so the product of the deviations is at least half a squared grid step; two concrete violations |
| C193 | data that attain the bounds of C10 and C85 | each bound minus the statistic is a sum of squares (or products) that vanish one by one |
| C194 | effect of a new value | update formulas of the specifications; the residual of the new point shrinks by n/(n+1) times the ratio of the old and the new sum of squares of x |
| C195 | the rounded mean moves towards a new value | the rounded quotient has the sign of the difference; the other side is the step of C15 |
| C196 | data recorded several times | sums and sizes are multiplied by k; the results are quotients of them |
| C197 | effect of a new value on a full window | differences of the results of C18-C20 for the two windows |
| C198 | values far from the mean | inequalities of Chebyshev and Cantelli for C01, C02, C04, C18, C19 |

All are expressible in the model.

## 3. Trusted base

* The Lean 4.33 kernel and the Mathlib definitions used in statements (ℝ, List, BitVec, Finset).
* Axioms: `propext`, `Classical.choice`, `Quot.sound` only (checked with `#print axioms`, see
  `lean/Verif/Audit.lean`). No `sorry`, no `native_decide`, no `bv_decide`.
* That the model follows the code. Each definition cites its source lines. `Verif/Tests/` runs the
  model on the repository's unit tests; all of their checks on single filter objects pass.
* trial.circular (`circular::array`, `circular::span` in the window and impulse filters): the sources are not
  in the repository; modelled by the documented behaviour of a bounded queue.
* `std::geometric_distribution`, `std::uniform_int_distribution`: modelled by their ranges (all outcomes),
  and for C47 and C48 by uniform independent draws. C48 also uses the geometric law, cut off at the largest
  `size_t`, with the exact parameter (not rounded to `double`).
* Boost lightweight_test: `test_results().errors()` returns a reference to the error counter (1.68 and later), `test_errors()`
  likewise (earlier), `report_errors()` fails if and only if the counter is not zero.
* boost::mp11 sorting/indexing of quantile types: modelled by insertion sort and list indexing.

### Modelled simplifications

* NaN payloads, FP exceptions and rounding modes other than the one in `Fmt` are not modelled.
* There is a single zero, which divides like `+0`. `Model/SignedZero.lean` has the arithmetic with both zeros; C168 shows that
  the results of all filters have the same value in it.
* Excess precision (`FLT_EVAL_METHOD` 1 and 2) is modelled for the cumulative mean, variance and
  covariance only (`Model/Excess.lean`, C171, C172), with members stored in the value type. Value-changing compiler options (`-ffast-math`) are
  not modelled. Elsewhere each operation is one operation of the arithmetic. Fused multiply-add contraction is modelled for the cumulative variance and covariance
  (`Model/Contracted.lean`, C138), the impulse filters (`Model/ContractedImpulse.lean`, C161, C162) and the decay filters
  (`Model/ContractedDecay.lean`, C163, C164) only.
* `std::upper_bound` is modelled by the binary search of the common implementations; on an ascending range,
  which is the only case in which the standard defines it, every implementation returns the same position.
* `assert` and out-of-range access are the outcome `none`.
* `std::sqrt(size_t)` is evaluated in `T`, not in `double` (they coincide for `T = double`). `Model/Mixed.lean` has the
  expressions with both types; C153 bounds the difference.

* The example programs are modelled for files of well-formed lines; the formatting of numbers is not modelled.

* Calls through references to the public base classes are modelled in `Model/BaseReference.lean` (C166, C167); elsewhere
  every call is made through the class of the object.

### Not modelled

* Copy and move (member-wise, `= default`). In the decay filters the factors are `const` members, so the defaulted
  `operator=` is deleted and an assignment does not compile.
* `trial/online/functional.hpp`-style helpers not used by filters, `static_assert`s and SFINAE (compile time),
  exception safety (no function throws), allocation.

## 4. Defects of the code found by the proofs

Each is a theorem (`..._violated`) with a concrete input.

| property | defect |
|----------|--------|
| C03, C81 | skewness: the cut-off compares M3 itself, not its size, so negative skewness is reported as 0 |
| C11 | correlation: +1 is returned when the product of the variances is below an absolute epsilon, also for falling data |
| C22 | window filters never recover from a NaN or infinity that was evicted |
| C23, C24 | integers: the count wraps in the value type, the window mean drifts (truncation), negative covariance is divided as `size_t` |
| C26, C27 | decaying filters: `clear()` does not reset the normalization of variance and higher |
| C32 | interim: the previous block keeps the weight 1/(2W-1) when it should be forgotten |
| C33 | interim regression: `clear()` keeps the mean of y |
| C37, C39 | P-square: quantiles that are not in ascending order are looked up at the wrong index |
| C40, C71 | P-square: the linear prediction downwards subtracts unsigned positions and moves the marker the wrong way |
| C71 | P-square: a marker moves at any distance from its desired position, in the cited algorithm only from distance 1 on |
| C41 | P-square: positions pass through the value type; 2^53+1 is read back as 2^53 |
| C42 | P-square: `get` reads one element beyond the heights for a quantile next to 1 |
| C44 | interim P-square: the copy points into the original |
| C48 | reservoir: element 4N+1 is always accepted; from then on the sample favours late elements |
| C49 | reservoir: `clear()` keeps the sample, which then grows without bound |
| C51 | FIR: `clear()` keeps the output |
| C92 | circular_span: the constructor with `first` and `length` shows the elements before `first` |
| C93 | reservoir: undefined behaviour on the first push for size 0 and sizes whose quadruple wraps to 0 |
| C55 | circular_span: `push_front` is wrong unless the capacity is a power of two |
| C76, C78 | correlation: the product of the variances overflows (self-correlation 0); rounding gives values above 1 |
| C82, C83 | window variance is 0 and window mean NaN for ever after one NaN; decaying skewness and kurtosis are 0 after a NaN |
| C84 | cumulative mean: NaN from the value after an infinity on |
| C94 | cumulative mean in floating point: a larger first value can give a smaller mean |
| C95 | example programs: the last line of the file is processed twice; an empty file is undefined behaviour |
| C101 | cumulative covariance in floating point: not symmetric in the two coordinates |
| C102 | cumulative mean in floating point depends on the order of the data |
| C104 | window regression in floating point: slope 16 for two points on a horizontal line |
| C105 | reservoir: the array grows beyond N when the count of the pushes wraps |
| C106 | P-square in floating point: differences that overflow make an estimate infinite |
| C110 | P-square with few values in floating point: `heights[rank + 1]` skips a value when rank + 1 rounds up |
| C111 | integer mean: truncation errors add up, the mean of 0, 1, ..., n-1 is 0 |
| C112 | mean of `unsigned int`: a value below the mean takes it far above the data |
| C113 | integer variance: overflow for ranges above sqrt(2^31/n); negative for narrow types |
| C114 | `skewness()`, `kurtosis()` of equal integers: NaN to integer conversion, division by zero; `delta / n` evaluated in `size_t`; `kurtosis()` of the `unsigned int` values 0, 512 divides by zero |
| C115 | interim mean of negative integers: evaluated in `size_t` |
| C116 | FIR of `uint16_t`: product of promoted operands overflows `int` |
| C119 | `test_failure()` with Boost >= 1.68: `test_results().errors();` is not incremented, failed `TRIAL_TEST_WITH` checks are printed but not counted |
| C120 | floating point: the cumulative mean is frozen after 2^(p+2) values |
| C128 | `unbiased_mean()` returns the sum divided by n-1, which is biased by the factor n/(n-1) |
| C131, C132 | the decaying variance uses the deviation from the updated mean: it is too small by a factor between (1-f)/(2-f) and 1-f, in expectation by 2(1-f)^2/(2-f) |
| C133 | the window mean of integers drops every step smaller than the window size: on 0 0 1 1 2 2 ... it stays 0 for ever |
| C134 | the covariance of integers with a negative co-moment is a huge number |
| C135 | unbiased_kurtosis() of integers is 3 for all data of five values or more; unbiased_skewness() of two values is undefined |
| C136 | the trend of the integers 0, 1, 2, ... is 0 |
| C137 | `finite<bool>` from a const array: the coefficients are replaced by {true, true}; out-of-bounds read with three or more |
| C138 | contraction in one filter and not in the other: covariance of a variable with itself is not its variance |
| C139 | beyond 4N elements the mean of the sample is a biased estimate of the mean of the stream |
| C146 | skewness of random data: negative results are replaced by 0, so the average over symmetric data is positive |
| C149 | P-square with `float`: desired positions stop at 2^22, 2^23, 2^24 (median); from then on the estimates follow falling values only |
| C153 | skewness in `long double` has the accuracy of `double` only: `std::sqrt(size())` yields `double` |
| C155 | `window/detail/moment.ipp` push | the mean accumulates quotients; integer data drift (N = 3: 1, 0, 0, 0 gives mean 2^-54), while the window covariance does not |
| C156 | `window/detail/moment.ipp:104`-`105` | the two adjustments of the sum are rounded separately: periodic data drift without bound in practice (240.5 is reported as 255.9) |
| C156 | `window/detail/comoment.ipp:40` | with `-ffp-contract=fast` only one product is rounded, so replacing a pair by itself changes the sum |
| C157 | `interim/detail/psquare_quantile.ipp:82`-`83` | the weighted average of equal estimates can be another number (minimum of five times 1+2^-52 is 1+2^-51) |
| C162 | contraction: the difference of equal values is not 0 (a rounding error of the product) |
| C164 | contraction of the sum and not of the normalization: the decaying mean of ones is not 1 |
| C165 | quantile: for fast growing data the estimate of the median exceeds all but about 4 log n of the values |
| C167 | moments: push and clear through a reference to the public base class do not reach the higher moments |
| C174 | correlation: independent variables of small variance are reported as perfectly correlated |
| C175 | skewness: exactly zero for half of the samples of an unskewed distribution |
| C177 | P-square: one outlier among zeros moves the estimate of the median without bound |
| C188 | P-square: the estimates jump when a value crosses a marker |
| C192 | The computed variance of different values can be 0: neighbouring numbers whose mean is rounded to one of them, or differences whose product underflows. |
| C16, C59, C63, C65-C68 | floating point: cancellation or overflow, see the notes in `MANIFEST.json` |
