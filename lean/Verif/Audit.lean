import Verif.Props.AffineLaws
import Verif.Props.BaseReference
import Verif.Props.BiasCorrection
import Verif.Props.BoolImpulse
import Verif.Props.CircularSpan
import Verif.Props.Coefficients
import Verif.Props.Concentration
import Verif.Props.Consistency
import Verif.Props.Contracted
import Verif.Props.ContractedDecay
import Verif.Props.ContractedImpulse
import Verif.Props.Conversion
import Verif.Props.CorrelationRounded
import Verif.Props.CovarianceGrid
import Verif.Props.CovarianceRounded
import Verif.Props.CumulativeLaws
import Verif.Props.CumulativeMoments
import Verif.Props.CumulativePairs
import Verif.Props.Decay
import Verif.Props.DecayBias
import Verif.Props.DecayFactor
import Verif.Props.DecayLast
import Verif.Props.DecayRounded
import Verif.Props.DecayShapeError
import Verif.Props.DecaySign
import Verif.Props.DecayVarianceError
import Verif.Props.ErrorBound
import Verif.Props.Example
import Verif.Props.Excess
import Verif.Props.ExcessCovariance
import Verif.Props.Extremes
import Verif.Props.FarValues
import Verif.Props.FilterError
import Verif.Props.Frequency
import Verif.Props.Frozen
import Verif.Props.GaussMarkov
import Verif.Props.IIRError
import Verif.Props.IIRNoise
import Verif.Props.Impulse
import Verif.Props.Inequalities
import Verif.Props.Influence
import Verif.Props.InputError
import Verif.Props.Integer
import Verif.Props.IntegerData
import Verif.Props.IntegerImpulse
import Verif.Props.IntegerInterim
import Verif.Props.IntegerInterimAscending
import Verif.Props.IntegerMeanAscending
import Verif.Props.IntegerPairs
import Verif.Props.IntegerPairsAscending
import Verif.Props.IntegerShapeUnsigned
import Verif.Props.IntegerTrend
import Verif.Props.IntegerTypes
import Verif.Props.IntegerUnsignedDefined
import Verif.Props.IntegerUnsignedInterim
import Verif.Props.IntegerVariance
import Verif.Props.IntegerWindow
import Verif.Props.Interim
import Verif.Props.InterimBias
import Verif.Props.InterimError
import Verif.Props.InterimInputError
import Verif.Props.InterimLineError
import Verif.Props.InterimPSquare
import Verif.Props.InterimPSquareRounded
import Verif.Props.InterimRegressionError
import Verif.Props.InterimRounded
import Verif.Props.InterimShapeError
import Verif.Props.InterimSpare
import Verif.Props.Limits
import Verif.Props.LineError
import Verif.Props.Misc
import Verif.Props.Mixed
import Verif.Props.Monotone
import Verif.Props.NaN
import Verif.Props.Negation
import Verif.Props.NewValue
import Verif.Props.Normal
import Verif.Props.NormalLine
import Verif.Props.NormalPairs
import Verif.Props.NormalShape
import Verif.Props.NormalTests
import Verif.Props.OrderRounded
import Verif.Props.Oscillation
import Verif.Props.PSquare
import Verif.Props.PSquareDouble
import Verif.Props.PSquareEven
import Verif.Props.PSquareFloat
import Verif.Props.PSquareInterp
import Verif.Props.PSquareJump
import Verif.Props.PSquareLaws
import Verif.Props.PSquareOrder
import Verif.Props.PSquareOutlier
import Verif.Props.PSquarePositions
import Verif.Props.PSquareRank
import Verif.Props.PSquareRounded
import Verif.Props.PSquareStuck
import Verif.Props.Periodic
import Verif.Props.Poles
import Verif.Props.PolesError
import Verif.Props.Preconditions
import Verif.Props.RegressionError
import Verif.Props.Relations
import Verif.Props.Replicated
import Verif.Props.Reservoir
import Verif.Props.ReservoirLaw
import Verif.Props.ReservoirMean
import Verif.Props.ReservoirWrap
import Verif.Props.Response
import Verif.Props.Rounded
import Verif.Props.Scaling
import Verif.Props.Series
import Verif.Props.ShapeMeasured
import Verif.Props.SignedZero
import Verif.Props.SkewnessError
import Verif.Props.StepRamp
import Verif.Props.Superposition
import Verif.Props.Symmetric
import Verif.Props.Symmetry
import Verif.Props.TestLib
import Verif.Props.Towards
import Verif.Props.Trend
import Verif.Props.Unbiased
import Verif.Props.VarianceError
import Verif.Props.Window
import Verif.Props.WindowNewValue
import Verif.Props.WindowRegressionError
import Verif.Props.WindowVarianceError
import Verif.Props.ZeroVariance
import Lean.Elab.Command
import Lean.Util.CollectAxioms
/-
Generated by tools/manifest.py: the axioms of every theorem named in MANIFEST.json.
-/
open Lean Elab Command in
/-- Fails unless the theorem depends on no other axioms than the three standard ones. -/
elab "#check_axioms " id:ident : command => do
  let n ← liftCoreM (realizeGlobalConstNoOverloadWithInfo id)
  for a in ← collectAxioms n do
    unless a == ``propext || a == ``Classical.choice || a == ``Quot.sound do
      throwError "{n} depends on {a}"

#check_axioms Verif.Props.C01_mean
#check_axioms Verif.Props.C01_mean_inherited
#check_axioms Verif.Props.C02_variance
#check_axioms Verif.Props.C02_variance_inherited
#check_axioms Verif.Props.C03_skewness_violated
#check_axioms Verif.Props.C03_skewness_partial
#check_axioms Verif.Props.C03_skewness_inherited
#check_axioms Verif.Props.C04_kurtosis
#check_axioms Verif.Props.C05_unbiased_skewness
#check_axioms Verif.Props.C05_unbiased_kurtosis
#check_axioms Verif.Props.C03_skewness_inherited
#check_axioms Verif.Props.C06_clear
#check_axioms Verif.Props.C07_order_moments
#check_axioms Verif.Props.C07_order_kurtosis
#check_axioms Verif.Props.C07_order_pairs
#check_axioms Verif.Props.C08_affine_mean_variance
#check_axioms Verif.Props.C08_affine_skewness
#check_axioms Verif.Props.C08_affine_kurtosis
#check_axioms Verif.Props.C09_covariance
#check_axioms Verif.Props.C09_size_assertion
#check_axioms Verif.Props.C09_sizes
#check_axioms Verif.Props.C09_covariance_symmetric
#check_axioms Verif.Props.C09_covariance_self
#check_axioms Verif.Props.C10_correlation_bounded
#check_axioms Verif.Props.C10_pearson
#check_axioms Verif.Props.C100_variance
#check_axioms Verif.Props.C100_skewness
#check_axioms Verif.Props.C100_kurtosis
#check_axioms Verif.Props.C101_violated
#check_axioms Verif.Props.C101_one_way
#check_axioms Verif.Props.C101_other_way
#check_axioms Verif.Props.C101_cumulative_partial
#check_axioms Verif.Props.C101_window_partial
#check_axioms Verif.Props.C102_violated
#check_axioms Verif.Props.C102_reversed
#check_axioms Verif.Props.C102_mean_partial
#check_axioms Verif.Props.C102_variance_partial
#check_axioms Verif.Props.C103_fir
#check_axioms Verif.Props.C103_fir_finite
#check_axioms Verif.Props.C103_iir
#check_axioms Verif.Props.C104_violated
#check_axioms Verif.Props.C104_window_slope
#check_axioms Verif.Props.C104_cumulative_partial
#check_axioms Verif.Props.C104_window_integers_partial
#check_axioms Verif.Props.C105_violated
#check_axioms Verif.Props.C105_size
#check_axioms Verif.Props.C105_bounded_partial
#check_axioms Verif.Props.C106_violated
#check_axioms Verif.Props.C106_infinite
#check_axioms Verif.Props.C106_order_partial
#check_axioms Verif.Props.C106_double
#check_axioms Verif.Props.C106_float
#check_axioms Verif.Props.C107_variance_drift
#check_axioms Verif.Props.C107_covariance_drift
#check_axioms Verif.Props.C108_decay_variance_error
#check_axioms Verif.Props.C109_mean_error
#check_axioms Verif.Props.C109_variance_error
#check_axioms Verif.Props.C109_covariance_error
#check_axioms Verif.Props.C11_linear_violated
#check_axioms Verif.Props.C11_linear_partial
#check_axioms Verif.Props.C110_violated
#check_axioms Verif.Props.C110_second_index
#check_axioms Verif.Props.C110_one_49th
#check_axioms Verif.Props.C110_within_partial
#check_axioms Verif.Props.C110_order_partial
#check_axioms Verif.Props.C110_binary_fractions_partial
#check_axioms Verif.Props.C111_violated
#check_axioms Verif.Props.C111_ramp
#check_axioms Verif.Props.C111_bound_partial
#check_axioms Verif.Props.C111_ascending_partial
#check_axioms Verif.Props.C112_violated
#check_axioms Verif.Props.C112_descent
#check_axioms Verif.Props.C112_two_values
#check_axioms Verif.Props.C112_narrow_partial
#check_axioms Verif.Props.C112_ascending_partial
#check_axioms Verif.Props.C113_violated
#check_axioms Verif.Props.C113_overflow
#check_axioms Verif.Props.C113_negative
#check_axioms Verif.Props.C113_unsigned
#check_axioms Verif.Props.C113_ramp
#check_axioms Verif.Props.C113_within_partial
#check_axioms Verif.Props.C113_constant_partial
#check_axioms Verif.Props.C113_ascending_partial
#check_axioms Verif.Props.C113_unsigned_defined
#check_axioms Verif.Props.C114_violated
#check_axioms Verif.Props.C114_constant
#check_axioms Verif.Props.C114_below_mean
#check_axioms Verif.Props.C114_kurtosis_partial
#check_axioms Verif.Props.C114_skewness_partial
#check_axioms Verif.Props.C114_unsigned_pushes
#check_axioms Verif.Props.C114_unsigned_kurtosis
#check_axioms Verif.Props.C114_unsigned_witness
#check_axioms Verif.Props.C114_signed_kurtosis
#check_axioms Verif.Props.C115_violated
#check_axioms Verif.Props.C115_negative
#check_axioms Verif.Props.C115_wraps
#check_axioms Verif.Props.C115_within_partial
#check_axioms Verif.Props.C115_ascending_partial
#check_axioms Verif.Props.C115_unsigned_defined
#check_axioms Verif.Props.C116_violated
#check_axioms Verif.Props.C116_uint16
#check_axioms Verif.Props.C116_modular_partial
#check_axioms Verif.Props.C116_exact_partial
#check_axioms Verif.Props.C117_recurrence
#check_axioms Verif.Props.C117_scaled
#check_axioms Verif.Props.C117_zero_scale
#check_axioms Verif.Props.C118_success
#check_axioms Verif.Props.C118_equal
#check_axioms Verif.Props.C118_positions
#check_axioms Verif.Props.C118_sizes
#check_axioms Verif.Props.C118_silent
#check_axioms Verif.Props.C119_violated
#check_axioms Verif.Props.C119_always
#check_axioms Verif.Props.C119_ranges
#check_axioms Verif.Props.C119_counts_partial
#check_axioms Verif.Props.C119_ranges_partial
#check_axioms Verif.Props.C12_least_squares
#check_axioms Verif.Props.C120_violated
#check_axioms Verif.Props.C120_frozen
#check_axioms Verif.Props.C120_float
#check_axioms Verif.Props.C120_zeros
#check_axioms Verif.Props.C120_moves_partial
#check_axioms Verif.Props.C121_constant
#check_axioms Verif.Props.C121_error
#check_axioms Verif.Props.C122_affine
#check_axioms Verif.Props.C122_bounds
#check_axioms Verif.Props.C122_increasing
#check_axioms Verif.Props.C122_weights
#check_axioms Verif.Props.C122_limit
#check_axioms Verif.Props.C122_order
#check_axioms Verif.Props.C123_slope
#check_axioms Verif.Props.C123_at
#check_axioms Verif.Props.C124_error
#check_axioms Verif.Props.C125_mean
#check_axioms Verif.Props.C125_variance
#check_axioms Verif.Props.C125_kurtosis
#check_axioms Verif.Props.C125_pairs
#check_axioms Verif.Props.C126_skewness_violated
#check_axioms Verif.Props.C126_skewness_partial
#check_axioms Verif.Props.C126_limit
#check_axioms Verif.Props.C127_mean
#check_axioms Verif.Props.C127_variance
#check_axioms Verif.Props.C127_covariance
#check_axioms Verif.Props.C127_window
#check_axioms Verif.Props.C127_window_covariance
#check_axioms Verif.Props.C128_unbiased_mean_violated
#check_axioms Verif.Props.C128_unbiased_mean_partial
#check_axioms Verif.Props.C128_expectation
#check_axioms Verif.Props.C129_decay
#check_axioms Verif.Props.C129_fir
#check_axioms Verif.Props.C129_interim
#check_axioms Verif.Props.C13_exact_line
#check_axioms Verif.Props.C13_exact_line_window
#check_axioms Verif.Props.C130_gauss_markov
#check_axioms Verif.Props.C131_decay_variance_violated
#check_axioms Verif.Props.C131_too_small
#check_axioms Verif.Props.C131_decay_variance_partial
#check_axioms Verif.Props.C132_violated
#check_axioms Verif.Props.C132_expectation
#check_axioms Verif.Props.C132_underestimates
#check_axioms Verif.Props.C133_violated
#check_axioms Verif.Props.C133_slow_ramp
#check_axioms Verif.Props.C133_unsigned
#check_axioms Verif.Props.C133_not_overfilled
#check_axioms Verif.Props.C133_one_partial
#check_axioms Verif.Props.C133_ascending_partial
#check_axioms Verif.Props.C133_unsigned_defined
#check_axioms Verif.Props.C134_violated
#check_axioms Verif.Props.C134_negative
#check_axioms Verif.Props.C134_asymmetric
#check_axioms Verif.Props.C134_quotient
#check_axioms Verif.Props.C134_self
#check_axioms Verif.Props.C134_within_partial
#check_axioms Verif.Props.C134_ascending_partial
#check_axioms Verif.Props.C134_unsigned_defined
#check_axioms Verif.Props.C135_violated
#check_axioms Verif.Props.C135_always_three
#check_axioms Verif.Props.C135_normal_partial
#check_axioms Verif.Props.C135_skewness_two
#check_axioms Verif.Props.C135_unbiased_mean
#check_axioms Verif.Props.C135_unbiased_mean_nonneg
#check_axioms Verif.Props.C136_violated
#check_axioms Verif.Props.C136_ramp
#check_axioms Verif.Props.C136_constant
#check_axioms Verif.Props.C136_modular
#check_axioms Verif.Props.C136_unsigned_defined
#check_axioms Verif.Props.C136_means_within
#check_axioms Verif.Props.C136_within_partial
#check_axioms Verif.Props.C136_ascending_partial
#check_axioms Verif.Props.C137_violated
#check_axioms Verif.Props.C137_const_short
#check_axioms Verif.Props.C137_const_undefined
#check_axioms Verif.Props.C137_rvalue_partial
#check_axioms Verif.Props.C137_iir_partial
#check_axioms Verif.Props.C137_scale_undefined
#check_axioms Verif.Props.C138_violated
#check_axioms Verif.Props.C138_third
#check_axioms Verif.Props.C138_nonneg
#check_axioms Verif.Props.C138_monotone
#check_axioms Verif.Props.C138_constant
#check_axioms Verif.Props.C138_error
#check_axioms Verif.Props.C138_self_partial
#check_axioms Verif.Props.C139_violated
#check_axioms Verif.Props.C139_bias
#check_axioms Verif.Props.C139_estimate_partial
#check_axioms Verif.Props.C14_trend
#check_axioms Verif.Props.C14_trend_linear
#check_axioms Verif.Props.C140_variance
#check_axioms Verif.Props.C140_covariance
#check_axioms Verif.Props.C140_factor
#check_axioms Verif.Props.C141_convolution
#check_axioms Verif.Props.C141_noise
#check_axioms Verif.Props.C142_cumulative_partial
#check_axioms Verif.Props.C142_shape_partial
#check_axioms Verif.Props.C142_window_partial
#check_axioms Verif.Props.C142_decay_partial
#check_axioms Verif.Props.C142_impulse_partial
#check_axioms Verif.Props.C142_pairs_partial
#check_axioms Verif.Props.C142_correlation_partial
#check_axioms Verif.Props.C142_windowPairs_partial
#check_axioms Verif.Props.C142_interim_partial
#check_axioms Verif.Props.C142_interimShape_partial
#check_axioms Verif.Props.C142_violated
#check_axioms Verif.Props.C142_underflow_violated
#check_axioms Verif.Props.C143_sum_skewness
#check_axioms Verif.Props.C143_sum_kurtosis
#check_axioms Verif.Props.C143_skewness_error
#check_axioms Verif.Props.C143_kurtosis_error
#check_axioms Verif.Props.C144_unbiased_skewness
#check_axioms Verif.Props.C144_unbiased_kurtosis
#check_axioms Verif.Props.C145_variance
#check_axioms Verif.Props.C145_window
#check_axioms Verif.Props.C146_skewness_partial
#check_axioms Verif.Props.C146_skewness_violated
#check_axioms Verif.Props.C147_bounded
#check_axioms Verif.Props.C147_settled
#check_axioms Verif.Props.C147_unordered
#check_axioms Verif.Props.C148_points
#check_axioms Verif.Props.C148_close
#check_axioms Verif.Props.C149_violated
#check_axioms Verif.Props.C149_frozen
#check_axioms Verif.Props.C149_estimate
#check_axioms Verif.Props.C149_partial
#check_axioms Verif.Props.C15_mean_within
#check_axioms Verif.Props.C15_mean_bounds
#check_axioms Verif.Props.C15_binary64
#check_axioms Verif.Props.C15_binary32
#check_axioms Verif.Props.C15_nearest
#check_axioms Verif.Props.C150_slope
#check_axioms Verif.Props.C150_at
#check_axioms Verif.Props.C150_interim_slope
#check_axioms Verif.Props.C150_interim_at
#check_axioms Verif.Props.C151_skewness
#check_axioms Verif.Props.C151_kurtosis
#check_axioms Verif.Props.C151_kurtosis_skewness
#check_axioms Verif.Props.C152_decay_skewness_error
#check_axioms Verif.Props.C152_decay_kurtosis_error
#check_axioms Verif.Props.C153_same_type
#check_axioms Verif.Props.C153_accuracy
#check_axioms Verif.Props.C153_accuracy_range
#check_axioms Verif.Props.C153_float_double_partial
#check_axioms Verif.Props.C153_skewness_error
#check_axioms Verif.Props.C153_long_double_violated
#check_axioms Verif.Props.C153_violated
#check_axioms Verif.Props.C154_stable
#check_axioms Verif.Props.C154_summing
#check_axioms Verif.Props.C154_needed
#check_axioms Verif.Props.C155_sums_partial
#check_axioms Verif.Props.C155_forget_partial
#check_axioms Verif.Props.C155_covariance_exact_partial
#check_axioms Verif.Props.C155_covariance_error_partial
#check_axioms Verif.Props.C155_small_windows_partial
#check_axioms Verif.Props.C155_fir_partial
#check_axioms Verif.Props.C155_iir_partial
#check_axioms Verif.Props.C155_moving_sum
#check_axioms Verif.Props.C155_three
#check_axioms Verif.Props.C155_zeros
#check_axioms Verif.Props.C155_violated
#check_axioms Verif.Props.C156_mean_partial
#check_axioms Verif.Props.C156_covariance_partial
#check_axioms Verif.Props.C156_contracted_exact_partial
#check_axioms Verif.Props.C156_variance_drift
#check_axioms Verif.Props.C156_wrong
#check_axioms Verif.Props.C156_violated
#check_axioms Verif.Props.C156_contracted_drift
#check_axioms Verif.Props.C156_contracted_violated
#check_axioms Verif.Props.C157_order_partial
#check_axioms Verif.Props.C157_double_partial
#check_axioms Verif.Props.C157_constant_partial
#check_axioms Verif.Props.C157_minimum
#check_axioms Verif.Props.C157_violated
#check_axioms Verif.Props.C158_mean
#check_axioms Verif.Props.C158_variance
#check_axioms Verif.Props.C158_covariance
#check_axioms Verif.Props.C158_window
#check_axioms Verif.Props.C158_decay_mean
#check_axioms Verif.Props.C158_trend
#check_axioms Verif.Props.C158_interim_mean
#check_axioms Verif.Props.C158_interim_weight
#check_axioms Verif.Props.C159_chebyshev
#check_axioms Verif.Props.C159_mean
#check_axioms Verif.Props.C159_window
#check_axioms Verif.Props.C159_decay
#check_axioms Verif.Props.C159_fir
#check_axioms Verif.Props.C159_interim
#check_axioms Verif.Props.C159_variance
#check_axioms Verif.Props.C159_window_variance
#check_axioms Verif.Props.C159_mean_rounded
#check_axioms Verif.Props.C16_violated
#check_axioms Verif.Props.C16_overflow
#check_axioms Verif.Props.C16_nonneg_partial
#check_axioms Verif.Props.C16_monotone_partial
#check_axioms Verif.Props.C16_inherited
#check_axioms Verif.Props.C160_ramp_cumulative
#check_axioms Verif.Props.C160_ramp_window
#check_axioms Verif.Props.C160_ramp_decay
#check_axioms Verif.Props.C160_ramp_interim
#check_axioms Verif.Props.C160_ramp_fir
#check_axioms Verif.Props.C160_step_cumulative
#check_axioms Verif.Props.C160_step_window
#check_axioms Verif.Props.C160_step_decay
#check_axioms Verif.Props.C160_step_interim
#check_axioms Verif.Props.C161_fir_plain
#check_axioms Verif.Props.C161_fir
#check_axioms Verif.Props.C161_fir_finite
#check_axioms Verif.Props.C161_fir_integers
#check_axioms Verif.Props.C161_iir_plain
#check_axioms Verif.Props.C161_iir
#check_axioms Verif.Props.C162_value
#check_axioms Verif.Props.C162_violated_value
#check_axioms Verif.Props.C162_violated
#check_axioms Verif.Props.C162_difference_partial
#check_axioms Verif.Props.C163_plain
#check_axioms Verif.Props.C163_exact
#check_axioms Verif.Props.C163_variance
#check_axioms Verif.Props.C163_skewness
#check_axioms Verif.Props.C163_kurtosis
#check_axioms Verif.Props.C163_mean_error
#check_axioms Verif.Props.C164_violated_value
#check_axioms Verif.Props.C164_violated
#check_axioms Verif.Props.C164_ones_partial
#check_axioms Verif.Props.C165_estimate
#check_axioms Verif.Props.C165_powers
#check_axioms Verif.Props.C165_violated
#check_axioms Verif.Props.C165_partial
#check_axioms Verif.Props.C166_cumulative
#check_axioms Verif.Props.C166_decay
#check_axioms Verif.Props.C167_value
#check_axioms Verif.Props.C167_violated_push
#check_axioms Verif.Props.C167_violated_clear
#check_axioms Verif.Props.C167_violated
#check_axioms Verif.Props.C167_violated_decay
#check_axioms Verif.Props.C167_partial
#check_axioms Verif.Props.C168_cumulative
#check_axioms Verif.Props.C168_pairs
#check_axioms Verif.Props.C168_decay
#check_axioms Verif.Props.C168_window
#check_axioms Verif.Props.C168_window_pairs
#check_axioms Verif.Props.C168_interim
#check_axioms Verif.Props.C168_interim_pairs
#check_axioms Verif.Props.C168_impulse
#check_axioms Verif.Props.C168_quantile
#check_axioms Verif.Props.C168_interim_quantile
#check_axioms Verif.Props.C168_data
#check_axioms Verif.Props.C168_scale
#check_axioms Verif.Props.C169_cumulative
#check_axioms Verif.Props.C169_cumulative_variance
#check_axioms Verif.Props.C169_window
#check_axioms Verif.Props.C169_window_period
#check_axioms Verif.Props.C169_window_null
#check_axioms Verif.Props.C169_interim_null
#check_axioms Verif.Props.C169_decay
#check_axioms Verif.Props.C169_decay_gain
#check_axioms Verif.Props.C169_fir
#check_axioms Verif.Props.C169_iir
#check_axioms Verif.Props.wave_cos
#check_axioms Verif.Props.C17_constant
#check_axioms Verif.Props.C170_interval
#check_axioms Verif.Props.C170_mean
#check_axioms Verif.Props.C170_variance
#check_axioms Verif.Props.C171_formats
#check_axioms Verif.Props.C171_mean_within
#check_axioms Verif.Props.C171_mean_error
#check_axioms Verif.Props.C171_variance_nonneg
#check_axioms Verif.Props.C171_monotone
#check_axioms Verif.Props.C171_constant
#check_axioms Verif.Props.C171_same_format
#check_axioms Verif.Props.C171_precision_matters
#check_axioms Verif.Props.C172_constant
#check_axioms Verif.Props.C172_error
#check_axioms Verif.Props.C172_self
#check_axioms Verif.Props.C172_variance_error
#check_axioms Verif.Props.C173_covariance
#check_axioms Verif.Props.C173_slope
#check_axioms Verif.Props.C173_variance_interval
#check_axioms Verif.Props.C174_violated
#check_axioms Verif.Props.C174_small
#check_axioms Verif.Props.C174_independent_partial
#check_axioms Verif.Props.C175_violated
#check_axioms Verif.Props.C175_zero
#check_axioms Verif.Props.C175_skewness_partial
#check_axioms Verif.Props.C176_kurtosis
#check_axioms Verif.Props.C176_skewness
#check_axioms Verif.Props.C177_violated
#check_axioms Verif.Props.C177_resists
#check_axioms Verif.Props.C177_outlier
#check_axioms Verif.Props.C177_six
#check_axioms Verif.Props.C177_few_partial
#check_axioms Verif.Props.C177_resists_partial
#check_axioms Verif.Props.C177_published
#check_axioms Verif.Props.C178_mean
#check_axioms Verif.Props.C178_trend
#check_axioms Verif.Props.C178_decay_mean
#check_axioms Verif.Props.C178_window_mean
#check_axioms Verif.Props.C178_interim_mean
#check_axioms Verif.Props.C178_variance
#check_axioms Verif.Props.C178_window_variance
#check_axioms Verif.Props.C178_interim_variance
#check_axioms Verif.Props.C178_decay_variance
#check_axioms Verif.Props.C178_regression
#check_axioms Verif.Props.C178_window_regression
#check_axioms Verif.Props.C178_interim_slope
#check_axioms Verif.Props.C179_fir
#check_axioms Verif.Props.C179_fir_order
#check_axioms Verif.Props.C179_iir
#check_axioms Verif.Props.C179_order
#check_axioms Verif.Props.C179_inverse
#check_axioms Verif.Props.C18_window_bookkeeping
#check_axioms Verif.Props.C18_window_mean
#check_axioms Verif.Props.C18_window_mean_inherited
#check_axioms Verif.Props.C180_slope
#check_axioms Verif.Props.C180_line
#check_axioms Verif.Props.C181_stable
#check_axioms Verif.Props.C181_converges
#check_axioms Verif.Props.C181_unstable
#check_axioms Verif.Props.C181_iff
#check_axioms Verif.Props.C182_fir
#check_axioms Verif.Props.C182_iir
#check_axioms Verif.Props.C183_forgets
#check_axioms Verif.Props.C184_gain
#check_axioms Verif.Props.C184_contracted
#check_axioms Verif.Props.C184_error
#check_axioms Verif.Props.C185_gain
#check_axioms Verif.Props.C185_poles
#check_axioms Verif.Props.C185_stable
#check_axioms Verif.Props.C185_output
#check_axioms Verif.Props.C185_rounded
#check_axioms Verif.Props.C186_mean
#check_axioms Verif.Props.C186_variance
#check_axioms Verif.Props.C186_rounded
#check_axioms Verif.Props.C187_mean
#check_axioms Verif.Props.C187_trend
#check_axioms Verif.Props.C187_decay_mean
#check_axioms Verif.Props.C187_window_mean
#check_axioms Verif.Props.C187_interim_mean
#check_axioms Verif.Props.C187_variance
#check_axioms Verif.Props.C187_window_variance
#check_axioms Verif.Props.C187_interim_variance
#check_axioms Verif.Props.C187_decay_variance
#check_axioms Verif.Props.C187_covariance
#check_axioms Verif.Props.C187_window_covariance
#check_axioms Verif.Props.C187_interim_covariance
#check_axioms Verif.Props.C187_fir
#check_axioms Verif.Props.C187_iir
#check_axioms Verif.Props.C188_few_partial
#check_axioms Verif.Props.C188_extremes
#check_axioms Verif.Props.C188_violated
#check_axioms Verif.Props.C188_steady
#check_axioms Verif.Props.C188_jump
#check_axioms Verif.Props.C188_published
#check_axioms Verif.Props.C189_regression
#check_axioms Verif.Props.C189_window_regression
#check_axioms Verif.Props.C189_correlation
#check_axioms Verif.Props.C189_interim_slope
#check_axioms Verif.Props.C189_interim_line
#check_axioms Verif.Props.C19_window_variance
#check_axioms Verif.Props.C19_window_variance_nonneg
#check_axioms Verif.Props.C190_mean
#check_axioms Verif.Props.C190_trend
#check_axioms Verif.Props.C190_decay_mean
#check_axioms Verif.Props.C190_window_mean
#check_axioms Verif.Props.C190_interim_mean
#check_axioms Verif.Props.C190_variance
#check_axioms Verif.Props.C190_covariance
#check_axioms Verif.Props.C191_skewness
#check_axioms Verif.Props.C191_kurtosis
#check_axioms Verif.Props.C192_violated
#check_axioms Verif.Props.C192_neighbours
#check_axioms Verif.Props.C192_underflow
#check_axioms Verif.Props.C192_grid_partial
#check_axioms Verif.Props.C193_variance
#check_axioms Verif.Props.C193_window
#check_axioms Verif.Props.C193_deviation
#check_axioms Verif.Props.C193_kurtosis
#check_axioms Verif.Props.C193_correlation
#check_axioms Verif.Props.C194_mean
#check_axioms Verif.Props.C194_variance
#check_axioms Verif.Props.C194_decay
#check_axioms Verif.Props.C194_regression
#check_axioms Verif.Props.C195_towards
#check_axioms Verif.Props.C196_variance
#check_axioms Verif.Props.C196_shape
#check_axioms Verif.Props.C196_pairs
#check_axioms Verif.Props.C197_mean
#check_axioms Verif.Props.C197_variance
#check_axioms Verif.Props.C197_covariance
#check_axioms Verif.Props.C198_variance
#check_axioms Verif.Props.C198_window
#check_axioms Verif.Props.C198_kurtosis
#check_axioms Verif.Props.C20_window_covariance
#check_axioms Verif.Props.C21_window_least_squares
#check_axioms Verif.Props.C21_size
#check_axioms Verif.Props.C22_forget_violated
#check_axioms Verif.Props.C22_forget_partial
#check_axioms Verif.Props.C22_clear
#check_axioms Verif.Props.C23_mean_violated
#check_axioms Verif.Props.C23_count_division_by_zero
#check_axioms Verif.Props.C23_mean_leaves_data
#check_axioms Verif.Props.C23_window_drift
#check_axioms Verif.Props.C23_window_violated
#check_axioms Verif.Props.C23_mean_partial
#check_axioms Verif.Props.C23_window_partial
#check_axioms Verif.Props.C24_covariance_violated
#check_axioms Verif.Props.C24_covariance_partial
#check_axioms Verif.Props.C24_negative
#check_axioms Verif.Props.C24_unbiased_mean_violated
#check_axioms Verif.Props.C25_decay_mean
#check_axioms Verif.Props.C25_weights
#check_axioms Verif.Props.C25_decay_mean_laws
#check_axioms Verif.Props.C26_variance_violated
#check_axioms Verif.Props.C26_decay_moments_partial
#check_axioms Verif.Props.C26_decay_finite
#check_axioms Verif.Props.C27_clear_mean
#check_axioms Verif.Props.C27_clear_violated
#check_axioms Verif.Props.C27_variance_violated
#check_axioms Verif.Props.C27_variance_ratio
#check_axioms Verif.Props.C27_clear_partial
#check_axioms Verif.Props.C28_bookkeeping
#check_axioms Verif.Props.C28_clear
#check_axioms Verif.Props.C28_filters
#check_axioms Verif.Props.C29_interim_mean
#check_axioms Verif.Props.C29_interim_mean_laws
#check_axioms Verif.Props.C29_recent
#check_axioms Verif.Props.blocks_spec
#check_axioms Verif.Props.C30_interim_variance
#check_axioms Verif.Props.C30_interim_variance_convex
#check_axioms Verif.Props.C30_interim_skewness
#check_axioms Verif.Props.C30_interim_kurtosis
#check_axioms Verif.Props.C30_kurtosis_skewness
#check_axioms Verif.Props.C29_recent
#check_axioms Verif.Props.C31_interim_covariance
#check_axioms Verif.Props.C30_interim_variance_convex
#check_axioms Verif.Props.C32_exact_violated
#check_axioms Verif.Props.C32_exact_partial
#check_axioms Verif.Props.C32_covariance_violated
#check_axioms Verif.Props.C32_covariance_partial
#check_axioms Verif.Props.C33_clear_violated
#check_axioms Verif.Props.C33_clear_partial
#check_axioms Verif.Props.C34_interim_regression
#check_axioms Verif.Props.C34_switch_together
#check_axioms Verif.Props.C35_few
#check_axioms Verif.Props.C36_extremes
#check_axioms Verif.Props.C37_markers
#check_axioms Verif.Props.C37_within
#check_axioms Verif.Props.C37_violated
#check_axioms Verif.Props.C37_estimates_partial
#check_axioms Verif.Props.C38_desired
#check_axioms Verif.Props.C38_towards
#check_axioms Verif.Props.C39_violated
#check_axioms Verif.Props.C39_wrong_marker
#check_axioms Verif.Props.C39_ascending_partial
#check_axioms Verif.Props.C40_violated
#check_axioms Verif.Props.C40_reachable
#check_axioms Verif.Props.C40_down
#check_axioms Verif.Props.C40_up_partial
#check_axioms Verif.Props.C40_adjust_partial
#check_axioms Verif.Props.C41_violated
#check_axioms Verif.Props.C41_position_changed
#check_axioms Verif.Props.C41_round_trip
#check_axioms Verif.Props.C41_round_trip_exact
#check_axioms Verif.Props.C41_round_trip_double
#check_axioms Verif.Props.C41_write_back
#check_axioms Verif.Props.C41_clear
#check_axioms Verif.Props.C42_violated
#check_axioms Verif.Props.C42_out_of_bounds
#check_axioms Verif.Props.C42_push
#check_axioms Verif.Props.C42_get
#check_axioms Verif.Props.C42_get_exact
#check_axioms Verif.Props.C42_exact_statement
#check_axioms Verif.Props.C42_quantile_one
#check_axioms Verif.Props.C43_interim
#check_axioms Verif.Props.C43_clear
#check_axioms Verif.Props.C43_exact
#check_axioms Verif.Props.C43_value
#check_axioms Verif.Props.C44_violated
#check_axioms Verif.Props.C44_witness
#check_axioms Verif.Props.C44_push_changes_original
#check_axioms Verif.Props.C44_dangling
#check_axioms Verif.Props.C44_same_results
#check_axioms Verif.Props.C44_clear_partial
#check_axioms Verif.Props.C45_reservoir
#check_axioms Verif.Props.C45_fill
#check_axioms Verif.Props.C46_push
#check_axioms Verif.Props.C46_truthful
#check_axioms Verif.Props.C46_loses_one
#check_axioms Verif.Props.C47_uniform
#check_axioms Verif.Props.C47_subsets
#check_axioms Verif.Props.C47_law
#check_axioms Verif.Props.C48_violated
#check_axioms Verif.Props.C48_law_violated
#check_axioms Verif.Props.C48_bias
#check_axioms Verif.Props.C48_size_one
#check_axioms Verif.Props.C48_always_accepted
#check_axioms Verif.Props.C48_probabilities_partial
#check_axioms Verif.Props.C48_law_total
#check_axioms Verif.Props.C48_law_nonneg
#check_axioms Verif.Props.C49_violated
#check_axioms Verif.Props.C49_grows
#check_axioms Verif.Props.C49_unbounded
#check_axioms Verif.Props.C49_clear_partial
#check_axioms Verif.Props.C50_fir_defined
#check_axioms Verif.Props.C50_fir
#check_axioms Verif.Props.C50_fir_new
#check_axioms Verif.Props.C50_fir_linear
#check_axioms Verif.Props.C50_impulse_response
#check_axioms Verif.Props.C51_violated
#check_axioms Verif.Props.C51_clear_partial
#check_axioms Verif.Props.C51_clear_observers_partial
#check_axioms Verif.Props.C52_iir_defined
#check_axioms Verif.Props.C52_iir
#check_axioms Verif.Props.C52_iir_step
#check_axioms Verif.Props.C52_iir_linear
#check_axioms Verif.Props.C52_iir_clear
#check_axioms Verif.Props.C53_push_inserter
#check_axioms Verif.Props.C53_no_effect
#check_axioms Verif.Props.C53_append
#check_axioms Verif.Props.C53_singular
#check_axioms Verif.Props.C54_close_to
#check_axioms Verif.Props.C54_symmetric
#check_axioms Verif.Props.C54_reflexive
#check_axioms Verif.Props.C54_nan
#check_axioms Verif.Props.C54_infinity
#check_axioms Verif.Props.C54_no_tolerance
#check_axioms Verif.Props.C55_violated
#check_axioms Verif.Props.C55_every_other_capacity
#check_axioms Verif.Props.C55_deque_partial
#check_axioms Verif.Props.C55_queue_partial
#check_axioms Verif.Props.C56_exponential
#check_axioms Verif.Props.C56_exponential_exact
#check_axioms Verif.Props.C56_arithmetic
#check_axioms Verif.Props.C57_empty_cumulative
#check_axioms Verif.Props.C57_one_value
#check_axioms Verif.Props.C57_empty_window
#check_axioms Verif.Props.C57_zero
#check_axioms Verif.Props.C57_empty_zero
#check_axioms Verif.Props.C57_new_decay
#check_axioms Verif.Props.C58_size_modular
#check_axioms Verif.Props.C58_wrap_divides_by_zero
#check_axioms Verif.Props.C58_kurtosis_limit
#check_axioms Verif.Props.C59_violated
#check_axioms Verif.Props.C59_nan
#check_axioms Verif.Props.C59_overflow
#check_axioms Verif.Props.C59_constant_partial
#check_axioms Verif.Props.C60_until_full
#check_axioms Verif.Props.C61_error_model
#check_axioms Verif.Props.C61_binary64
#check_axioms Verif.Props.C61_binary32
#check_axioms Verif.Props.C61_mean_error
#check_axioms Verif.Props.C62_window_drift
#check_axioms Verif.Props.C63_within_violated
#check_axioms Verif.Props.C63_within_partial
#check_axioms Verif.Props.C64_decay_mean_error
#check_axioms Verif.Props.C65_constant_violated
#check_axioms Verif.Props.C65_factor_one_violated
#check_axioms Verif.Props.C65_constant_partial
#check_axioms Verif.Props.C65_factor_one_partial
#check_axioms Verif.Props.C66_window_violated
#check_axioms Verif.Props.C66_constant_partial
#check_axioms Verif.Props.C66_window_integers_partial
#check_axioms Verif.Props.C67_window_violated
#check_axioms Verif.Props.C67_self_partial
#check_axioms Verif.Props.C67_nonneg_partial
#check_axioms Verif.Props.C67_window_integers_partial
#check_axioms Verif.Props.C68_violated
#check_axioms Verif.Props.C68_mean_value
#check_axioms Verif.Props.C68_constant_partial
#check_axioms Verif.Props.C68_spare_partial
#check_axioms Verif.Props.C69_nonneg
#check_axioms Verif.Props.C70_covariance_error
#check_axioms Verif.Props.C70_variance_error
#check_axioms Verif.Props.C71_violated
#check_axioms Verif.Props.C71_linear_violated
#check_axioms Verif.Props.C71_algorithm_partial
#check_axioms Verif.Props.C71_no_fallback_partial
#check_axioms Verif.Props.C72_affine
#check_axioms Verif.Props.C73_order
#check_axioms Verif.Props.C74_extremes
#check_axioms Verif.Props.C75_constant
#check_axioms Verif.Props.C76_violated
#check_axioms Verif.Props.C76_zero
#check_axioms Verif.Props.C76_self_partial
#check_axioms Verif.Props.C77_slope
#check_axioms Verif.Props.C78_far
#check_axioms Verif.Props.C78_violated
#check_axioms Verif.Props.C78_value
#check_axioms Verif.Props.C78_diagonal_partial
#check_axioms Verif.Props.C79_cumulative
#check_axioms Verif.Props.C79_window
#check_axioms Verif.Props.C79_decay
#check_axioms Verif.Props.C79_interim
#check_axioms Verif.Props.C79_impulse
#check_axioms Verif.Props.C80_covariance
#check_axioms Verif.Props.C80_correlation
#check_axioms Verif.Props.C80_regression
#check_axioms Verif.Props.C80_window
#check_axioms Verif.Props.C80_interim
#check_axioms Verif.Props.C81_violated
#check_axioms Verif.Props.C81_skewness_partial
#check_axioms Verif.Props.C81_nan_partial
#check_axioms Verif.Props.C81_iff_partial
#check_axioms Verif.Props.C82_window_violated
#check_axioms Verif.Props.C82_decay_violated
#check_axioms Verif.Props.C82_window_variance_zero
#check_axioms Verif.Props.C82_window_slope_zero
#check_axioms Verif.Props.C82_cumulative_partial
#check_axioms Verif.Props.C82_pairs_partial
#check_axioms Verif.Props.C82_trend_partial
#check_axioms Verif.Props.C82_window_partial
#check_axioms Verif.Props.C82_window_regression_partial
#check_axioms Verif.Props.C82_decay_partial
#check_axioms Verif.Props.C82_fir_partial
#check_axioms Verif.Props.C82_iir_partial
#check_axioms Verif.Props.C82_interim_partial
#check_axioms Verif.Props.C82_interim_regression_partial
#check_axioms Verif.Props.C83_violated
#check_axioms Verif.Props.C83_window_stuck
#check_axioms Verif.Props.C83_mean_stuck
#check_axioms Verif.Props.C83_comoment_stuck
#check_axioms Verif.Props.C83_fir_partial
#check_axioms Verif.Props.C29_recent
#check_axioms Verif.Props.C84_violated
#check_axioms Verif.Props.C84_after_infinity
#check_axioms Verif.Props.C84_last_partial
#check_axioms Verif.Props.C85_variance
#check_axioms Verif.Props.C85_window
#check_axioms Verif.Props.C85_kurtosis
#check_axioms Verif.Props.C86_residuals
#check_axioms Verif.Props.C86_window_residuals
#check_axioms Verif.Props.C86_slope_correlation
#check_axioms Verif.Props.C87_bounded
#check_axioms Verif.Props.C87_sharp
#check_axioms Verif.Props.C87_constant
#check_axioms Verif.Props.C87_memory
#check_axioms Verif.Props.C87_converges
#check_axioms Verif.Props.C88_bounded
#check_axioms Verif.Props.C88_converges
#check_axioms Verif.Props.C88_sharp
#check_axioms Verif.Props.C89_window
#check_axioms Verif.Props.C89_decay
#check_axioms Verif.Props.C89_decay_shape
#check_axioms Verif.Props.C89_interim
#check_axioms Verif.Props.C89_pairs
#check_axioms Verif.Props.C89_window_pairs
#check_axioms Verif.Props.C89_correlation
#check_axioms Verif.Props.C90_step
#check_axioms Verif.Props.C90_forget
#check_axioms Verif.Props.C91_cumulative
#check_axioms Verif.Props.C91_window
#check_axioms Verif.Props.C91_decay
#check_axioms Verif.Props.C91_interim
#check_axioms Verif.Props.C92_violated
#check_axioms Verif.Props.C92_preceding_partial
#check_axioms Verif.Props.C92_never_first
#check_axioms Verif.Props.C92_full_partial
#check_axioms Verif.Props.C92_calls
#check_axioms Verif.Props.C93_sizes
#check_axioms Verif.Props.C93_violated
#check_axioms Verif.Props.C93_first_push
#check_axioms Verif.Props.C93_preconditions_partial
#check_axioms Verif.Props.C94_violated
#check_axioms Verif.Props.C94_smaller
#check_axioms Verif.Props.C94_larger
#check_axioms Verif.Props.C94_exact_partial
#check_axioms Verif.Props.C94_cumulative_partial
#check_axioms Verif.Props.C94_window_partial
#check_axioms Verif.Props.C94_decay_partial
#check_axioms Verif.Props.C94_interim_partial
#check_axioms Verif.Props.C94_fir_partial
#check_axioms Verif.Props.C94_iir_partial
#check_axioms Verif.Props.C95_violated
#check_axioms Verif.Props.C95_last_twice
#check_axioms Verif.Props.C95_one_too_many
#check_axioms Verif.Props.C95_empty
#check_axioms Verif.Props.C95_missing_file
#check_axioms Verif.Props.C95_last_fit
#check_axioms Verif.Props.C95_last_fit_window
#check_axioms Verif.Props.C95_lines_partial
#check_axioms Verif.Props.C96_slope
#check_axioms Verif.Props.C96_exact_line
#check_axioms Verif.Props.C97_window
#check_axioms Verif.Props.C97_interim
#check_axioms Verif.Props.C98_moments
#check_axioms Verif.Props.C98_covariance
#check_axioms Verif.Props.C99_moving_average
#check_axioms Verif.Props.C99_exponential_smoothing
#check_axioms Verif.Props.C99_no_feedback
