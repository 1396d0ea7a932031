import Verif.Model.Cumulative
import Verif.Model.Window
import Verif.Model.Decay
import Verif.Model.Interim
import Verif.Model.PSquare
import Verif.Model.InterimPSquare
import Verif.Model.Reservoir
import Verif.Model.Impulse
import Verif.Model.CircularSpan
import Verif.Model.Misc
import Verif.Model.Integer
import Verif.Props.CumulativeMoments
import Verif.Props.CumulativeLaws
import Verif.Props.CumulativePairs
import Verif.Props.Window
import Verif.Props.Decay
import Verif.Props.Interim
import Verif.Props.Integer
import Verif.Props.Impulse
import Verif.Props.Misc
import Verif.Props.Reservoir
import Verif.Props.CircularSpan
import Verif.Props.PSquare
import Verif.Props.InterimPSquare
import Verif.Props.PSquareDouble
import Verif.Props.Rounded
import Verif.Props.Preconditions
import Verif.Props.ErrorBound
import Verif.Props.DecayRounded
import Verif.Props.DecayLast
import Verif.Props.CovarianceRounded
import Verif.Props.CovarianceGrid
import Verif.Props.InterimRounded
import Verif.Props.VarianceError
import Verif.Props.PSquareLaws
import Verif.Props.PSquareRounded
import Verif.Props.Negation
import Verif.Props.CorrelationRounded
import Verif.Proofs.Special
import Verif.Props.NaN
import Verif.Proofs.Inequalities
import Verif.Props.Inequalities
import Verif.Props.Response
import Verif.Props.AffineLaws
import Verif.Props.Limits
import Verif.Proofs.ReservoirLaw
import Verif.Props.ReservoirLaw
import Verif.Proofs.Monotone
import Verif.Props.Monotone
import Verif.Model.Example
import Verif.Props.Example
import Verif.Props.Relations
import Verif.Props.DecaySign
import Verif.Props.Symmetry
import Verif.Props.FilterError
import Verif.Props.OrderRounded
import Verif.Props.ReservoirWrap
import Verif.Props.PSquareOrder
import Verif.Props.WindowVarianceError
import Verif.Props.DecayVarianceError
import Verif.Props.InterimError
import Verif.Props.PSquareInterp
import Verif.Props.IntegerTypes
import Verif.Proofs.IntegerSigned
import Verif.Props.IntegerVariance
import Verif.Props.IntegerShapeUnsigned
import Verif.Props.IntegerUnsignedDefined
import Verif.Props.IntegerUnsignedInterim
import Verif.Props.IntegerInterim
import Verif.Props.IntegerImpulse
import Verif.Props.TestLib
import Verif.Props.Frozen
import Verif.Props.Trend
import Verif.Props.RegressionError
import Verif.Props.Consistency
import Verif.Props.Unbiased
import Verif.Props.GaussMarkov
import Verif.Props.DecayBias
import Verif.Props.IntegerWindow
import Verif.Props.IntegerPairs
import Verif.Props.IntegerPairsAscending
import Verif.Props.IntegerMeanAscending
import Verif.Props.IntegerInterimAscending
import Verif.Props.IntegerTrend
import Verif.Props.BoolImpulse
import Verif.Props.Contracted
import Verif.Props.ReservoirMean
import Verif.Props.InterimBias
import Verif.Props.IIRNoise
import Verif.Props.Scaling
import Verif.Props.SkewnessError
import Verif.Props.BiasCorrection
import Verif.Props.Symmetric
import Verif.Props.PSquarePositions
import Verif.Props.PSquareEven
import Verif.Proofs.PSquareSteps
import Verif.Proofs.PSquareFloat
import Verif.Props.PSquareFloat
import Verif.Props.PSquareStuck
import Verif.Proofs.LineError
import Verif.Props.WindowRegressionError
import Verif.Props.InterimRegressionError
import Verif.Props.InterimShapeError
import Verif.Props.DecayShapeError
import Verif.Props.Mixed
import Verif.Props.IIRError
import Verif.Props.IntegerData
import Verif.Props.Periodic
import Verif.Props.InterimPSquareRounded
import Verif.Props.Influence
import Verif.Props.Concentration
import Verif.Props.StepRamp
import Verif.Props.ContractedImpulse
import Verif.Props.ContractedDecay
import Verif.Props.PSquareRank
import Verif.Props.BaseReference
import Verif.Props.SignedZero
import Verif.Props.Oscillation
import Verif.Props.Normal
import Verif.Props.Excess
import Verif.Props.ExcessCovariance
import Verif.Props.NormalPairs
import Verif.Props.NormalTests
import Verif.Props.NormalShape
import Verif.Props.PSquareOutlier
import Verif.Props.Superposition
import Verif.Props.Series
import Verif.Props.NormalLine
import Verif.Props.Poles
import Verif.Props.Frequency
import Verif.Props.PolesError
import Verif.Props.Coefficients
import Verif.Props.DecayFactor
import Verif.Props.InputError
import Verif.Props.PSquareJump
import Verif.Props.LineError
import Verif.Props.Conversion
import Verif.Props.ShapeMeasured
import Verif.Props.ZeroVariance
import Verif.Props.Extremes
import Verif.Props.InterimSpare
import Verif.Props.NewValue
import Verif.Props.Towards
import Verif.Props.Replicated
import Verif.Props.WindowNewValue
import Verif.Props.InterimInputError
import Verif.Props.InterimLineError
import Verif.Props.FarValues
import Verif.Tests.Suites
import Verif.Tests.Reservoir
import Verif.Audit
