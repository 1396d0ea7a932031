import Verif.Model.Cumulative
import Verif.Model.Decay
/-
Calls through a reference to a public base class.  Paths in comments are relative to /repo/include/trial/online.

The inheritance is public in cumulative/moment.hpp:159 (kurtosis from skewness) and in decay/moment.hpp:65, 99 and 134
(variance from mean, skewness from variance, kurtosis from skewness); everywhere else it is protected.  `push` and
`clear` are not virtual, so that a call through a reference to a base class, for example in
`void feed(decay::moment<double>& filter) { filter.push(1.0); }`, executes the function of the base class on the base
class part of the object.
-/
namespace Verif.BaseReference
open Scalar

variable {w : Nat} {α : Type} [Scalar α]

/-- The class named by the type of the reference. -/
inductive Level where
  | mean
  | variance
  | skewness
  | kurtosis
  deriving DecidableEq

/-- Position in the inheritance chain. -/
def Level.rank : Level → Nat
  | .mean => 1
  | .variance => 2
  | .skewness => 3
  | .kurtosis => 4

/-- One call through a reference of type `own` (the class of the object) or its public base. -/
def cumulativeStep (s : Cumulative.Kurtosis w α) : Bool × Op α → Cumulative.Kurtosis w α
  | (true, .push x) => s.push x
  | (true, .clear) => s.clear
  | (false, .push x) => { s with super := s.super.push x }
  | (false, .clear) => { s with super := s.super.clear }

/-- The state of a cumulative kurtosis filter after a list of calls; the flag says whether the call names the class of
the object. -/
def cumulativeRun (ops : List (Bool × Op α)) : Cumulative.Kurtosis w α := ops.foldl cumulativeStep Cumulative.Kurtosis.init

/-- One call on a decay kurtosis filter through a reference of the given class. -/
def decayStep (s : Decay.Kurtosis α) : Level × Op α → Decay.Kurtosis α
  | (.kurtosis, .push x) => s.push x
  | (.kurtosis, .clear) => s.clear
  | (.skewness, .push x) => { s with super := s.super.push x }
  | (.skewness, .clear) => { s with super := s.super.clear }
  | (.variance, .push x) => { s with super := { s.super with super := s.super.super.push x } }
  | (.variance, .clear) => { s with super := { s.super with super := s.super.super.clear } }
  | (.mean, .push x) => { s with super := { s.super with super := { s.super.super with super := s.super.super.super.push x } } }
  | (.mean, .clear) => { s with super := { s.super with super := { s.super.super with super := s.super.super.super.clear } } }

/-- The state of a decay kurtosis filter after a list of calls, each through a reference of some class. -/
def decayRun (meanFactor varFactor skewnessFactor kurtosisFactor : α) (ops : List (Level × Op α)) : Decay.Kurtosis α :=
  ops.foldl decayStep (Decay.Kurtosis.init meanFactor varFactor skewnessFactor kurtosisFactor)

end Verif.BaseReference
