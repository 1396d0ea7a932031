import Verif.Model.Cumulative
/-
Model of include/trial/online/interim/{moment,comoment,regression}.hpp and detail/*.ipp.
Paths in comments are relative to /repo/include/trial/online.

`detail::basic_moment<T, W, Moment, UseMoment>` holds two cumulative filters of kind `UseMoment`; the
classes for mean, variance, skewness and kurtosis share `clear`, `push`, `size`, ... .  The model keeps
this structure: `Interim σ` is the pair of filters for any cumulative filter type `σ`, and each query is
defined for the cumulative filters that support it.  The public classes in interim/moment.hpp only
re-export these members.
-/
namespace Verif.Interim
open Scalar
open Verif.Cumulative (Mean Variance Skewness Kurtosis Comoment)

variable {w : Nat} {α : Type} [Scalar α]

/-- What the interim filters use of a cumulative filter `σ` with data points `β`. -/
class Block (σ : Type) (w : outParam Nat) (β : outParam Type) where
  init : σ
  push : σ → β → σ
  clear : σ → σ
  size : σ → SizeT w

instance : Block (Mean w α) w α := ⟨Mean.init, Mean.push, Mean.clear, Mean.size⟩
instance : Block (Variance w α) w α := ⟨Variance.init, Variance.push, Variance.clear, Variance.size⟩
instance : Block (Skewness w α) w α := ⟨Skewness.init, Skewness.push, Skewness.clear, Skewness.size⟩
instance : Block (Kurtosis w α) w α := ⟨Kurtosis.init, Kurtosis.push, Kurtosis.clear, Kurtosis.size⟩
instance : Block (Comoment w α) w (α × α) :=
  ⟨Comoment.init, Comoment.push, Comoment.clear, Comoment.size⟩

/-- interim/detail/moment.ipp:48-49 and interim/comoment.hpp:59-60.  `W` is the template parameter. -/
structure Interim (W : Nat) (σ : Type) where
  active : σ
  passive : σ

namespace Interim
variable {W : Nat} {σ β : Type} [Block σ w β]

/-- Implicit default constructor. -/
def init : Interim W σ := { active := Block.init, passive := Block.init }

/-- interim/detail/moment.ipp:52-57, interim/detail/comoment.ipp:20-25. -/
def clear (s : Interim W σ) : Interim W σ :=
  { active := Block.clear s.active, passive := Block.clear s.passive }

/-- interim/detail/moment.ipp:59-69, interim/detail/comoment.ipp:27-37. -/
def push (s : Interim W σ) (input : β) : Interim W σ :=
  let isActiveFull := Block.size s.active ≥ BitVec.ofNat w W
  let s := if isActiveFull
    then { active := Block.clear s.passive, passive := s.active }
    else s
  { s with active := Block.push s.active input }

/-- interim/detail/moment.ipp:71-75, interim/detail/comoment.ipp:39-43. -/
def capacity (_ : Interim W σ) : SizeT w := BitVec.ofNat w W

/-- `passive.empty()` / `passive.size() == 0`. -/
def passiveEmpty (s : Interim W σ) : Bool := Block.size s.passive == 0

/-- interim/detail/moment.ipp:77-81, interim/detail/comoment.ipp:45-49. -/
def size (s : Interim W σ) : SizeT w :=
  if s.passiveEmpty then Block.size s.active else BitVec.ofNat w W

/-- interim/detail/moment.ipp:83-87, interim/detail/comoment.ipp:51-55. -/
def empty (s : Interim W σ) : Bool := s.size == 0

/-- interim/detail/moment.ipp:89-93 (moments). -/
def full (s : Interim W σ) : Bool := Block.size s.active == BitVec.ofNat w W || !s.passiveEmpty

/-- interim/detail/comoment.ipp:57-61 (covariance). -/
def coFull (s : Interim W σ) : Bool := s.size == BitVec.ofNat w W

/-- interim/detail/moment.ipp:95-105; `getMean` is the `mean()` of the cumulative filter. -/
def meanWith (getMean : σ → α) (s : Interim W σ) : α :=
  if s.passiveEmpty then getMean s.active
  else
    let sz := Block.size s.active
    (getMean s.passive * ofSize (BitVec.ofNat w W - sz) + getMean s.active * ofSize (2 * sz))
      / ofSize (BitVec.ofNat w W + sz)

/-- interim/detail/moment.ipp:133-147 and interim/detail/comoment.ipp:63-77 (same text);
`getVariance` is the `variance()` of the cumulative filter.  The weights are `size_t`. -/
def varianceWith (getVariance : σ → α) (s : Interim W σ) : α :=
  if s.passiveEmpty then getVariance s.active
  else if Block.size s.active ≤ 1 then getVariance s.passive
  else
    let sz := Block.size s.active - 1
    let passiveWeight := (BitVec.ofNat w W - sz) * (BitVec.ofNat w W - sz)
    let activeWeight := 2 * sz
    (ofSize passiveWeight * getVariance s.passive + ofSize activeWeight * getVariance s.active)
      / ofSize (passiveWeight + activeWeight)

/-- interim/detail/moment.ipp:176-190 (`skewness`) and :220-234 (`kurtosis`), which differ only in the
query `get` of the cumulative filter. -/
def blendWith (get : σ → α) (s : Interim W σ) : α :=
  if s.passiveEmpty then get s.active
  else if Block.size s.active ≤ 1 then get s.passive
  else
    let sz := Block.size s.active - 1
    let passiveWeight := BitVec.ofNat w W - sz
    let activeWeight := 2 * sz
    (ofSize passiveWeight * get s.passive + ofSize activeWeight * get s.active)
      / ofSize (passiveWeight + activeWeight)

/-- The state after a history of calls on a new filter. -/
def run (ops : List (Op β)) : Interim W σ := runOps init push clear ops

end Interim

/-- interim/moment.hpp:37-67. -/
abbrev IMean (w W : Nat) (α : Type) := Interim W (Mean w α)
/-- interim/moment.hpp:71-104. -/
abbrev IVariance (w W : Nat) (α : Type) := Interim W (Variance w α)
/-- interim/moment.hpp:108-144. -/
abbrev ISkewness (w W : Nat) (α : Type) := Interim W (Skewness w α)
/-- interim/moment.hpp:148-187. -/
abbrev IKurtosis (w W : Nat) (α : Type) := Interim W (Kurtosis w α)
/-- interim/comoment.hpp:28-61. -/
abbrev IComoment (w W : Nat) (α : Type) := Interim W (Comoment w α)

/-- `mean()` of interim::moment. -/
def IMean.mean {W} (s : IMean w W α) : α := s.meanWith Mean.getMean
/-- `mean()` of interim::moment_variance. -/
def IVariance.mean {W} (s : IVariance w W α) : α := s.meanWith Variance.getMean
/-- `variance()` of interim::moment_variance. -/
def IVariance.variance {W} (s : IVariance w W α) : α := s.varianceWith Variance.variance
/-- `mean()` of interim::moment_skewness. -/
def ISkewness.mean {W} (s : ISkewness w W α) : α := s.meanWith Skewness.getMean
/-- `variance()` of interim::moment_skewness. -/
def ISkewness.variance {W} (s : ISkewness w W α) : α := s.varianceWith Skewness.variance
/-- `skewness()` of interim::moment_skewness. -/
def ISkewness.skewness {W} (s : ISkewness w W α) : α := s.blendWith Skewness.skewness
/-- `mean()` of interim::moment_kurtosis. -/
def IKurtosis.mean {W} (s : IKurtosis w W α) : α := s.meanWith Kurtosis.getMean
/-- `variance()` of interim::moment_kurtosis. -/
def IKurtosis.variance {W} (s : IKurtosis w W α) : α := s.varianceWith Kurtosis.variance
/-- `skewness()` of interim::moment_kurtosis. -/
def IKurtosis.skewness {W} (s : IKurtosis w W α) : α := s.blendWith Kurtosis.skewness
/-- `kurtosis()` of interim::moment_kurtosis. -/
def IKurtosis.kurtosis {W} (s : IKurtosis w W α) : α := s.blendWith Kurtosis.kurtosis
/-- `variance()` of interim::covariance. -/
def IComoment.variance {W} (s : IComoment w W α) : α := s.varianceWith Comoment.variance

/-! ### Regression -/

/-- interim/regression.hpp:24-63. -/
structure Regression (w W : Nat) (α : Type) where
  covariance : IComoment w W α
  xMoment : IVariance w W α
  yMoment : IMean w W α

namespace Regression
variable {W : Nat}

/-- interim/regression.hpp:24-63, implicit default constructor. -/
def init : Regression w W α :=
  { covariance := Interim.init, xMoment := Interim.init, yMoment := Interim.init }

/-- interim/detail/regression.ipp:18-23.  `y_moment` is not cleared. -/
def clear (s : Regression w W α) : Regression w W α :=
  { s with covariance := s.covariance.clear, xMoment := s.xMoment.clear }

/-- interim/regression.hpp:44 `using covariance::size`. -/
def size (s : Regression w W α) : SizeT w := s.covariance.size

/-- interim/detail/regression.ipp:25-31. -/
def push (s : Regression w W α) (p : α × α) : Regression w W α :=
  { covariance := s.covariance.push p, xMoment := s.xMoment.push p.1, yMoment := s.yMoment.push p.2 }

/-- interim/detail/regression.ipp:39-46. -/
def slope (s : Regression w W α) : α :=
  let divisor := s.xMoment.variance
  if beq divisor (ofNat 0) then ofNat 0 else s.covariance.variance / divisor

/-- interim/detail/regression.ipp:33-37 (`at`). -/
def at' (s : Regression w W α) (position : α) : α :=
  s.yMoment.mean - s.slope * (s.xMoment.mean - position)

/-- The state after a history of calls on a new filter. -/
def run (ops : List (Op (α × α))) : Regression w W α := runOps init push clear ops

end Regression
end Verif.Interim
