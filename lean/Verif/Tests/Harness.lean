import Verif.Model.Cumulative
import Verif.Model.Window
import Verif.Model.Decay
import Verif.Model.Interim
import Verif.Model.PSquare
import Verif.Model.InterimPSquare
import Verif.Model.Impulse
import Verif.Model.Integer
import Verif.Model.Misc
/-
Running the model on the repository's own unit tests.

These are tests of the model against the expectations written in /repo/test, not proofs: they guard
against transcription errors.  `Verif/Tests/Suites.lean` is generated from /repo/test by
`tools/tests.py`.  The value types `double` and `float` are Lean's `Float` and `Float32` here; no theorem
uses these instances.
-/
namespace Verif.Tests
open Scalar

/-- `double`. -/
instance : Scalar Float where
  ofInt n := Float.ofInt n
  lt a b := decide (a < b)
  le a b := decide (a ≤ b)
  beq a b := a == b
  sqrt := Float.sqrt
  floor := Float.floor
  toIndex x := if 0 ≤ x && x < 18446744073709551616.0 then some x.toUInt64.toNat else none
  eps := 2.220446049250313e-16

/-- `float`. -/
instance : Scalar Float32 where
  ofInt n := (Float.ofInt n).toFloat32
  lt a b := decide (a < b)
  le a b := decide (a ≤ b)
  beq a b := a == b
  sqrt := Float32.sqrt
  floor := Float32.floor
  toIndex x := if 0 ≤ x && x < 18446744073709551616.0 then some x.toUInt64.toNat else none
  eps := 1.1920929e-7

/-- One statement of a unit test.  Names and expected values are those of the test source. -/
inductive Step where
  /-- `filter.push(...)` -/
  | push (args : List Float)
  /-- `filter.clear()` -/
  | clear
  /-- `history.push_back(filter.value())` -/
  | record
  /-- `TRIAL_TEST(filter.q())` and `TRIAL_TEST(!filter.q())`, `TRIAL_TEST_EQ(filter.q(), true)` -/
  | flag (q : String) (expected : Bool)
  /-- `TRIAL_TEST_EQ(filter.q(args), expected)` -/
  | eq (q : String) (args : List Float) (expected : Float)
  /-- `TRIAL_TEST_WITH(filter.q(args), expected, detail::close_to<T>(relative))` -/
  | close (q : String) (args : List Float) (expected relative : Float)
  /-- the same with `detail::close_to<double>(relative, absolute)` -/
  | closeAbs (q : String) (args : List Float) (expected relative absolute : Float)
  /-- `TRIAL_TEST_WITH(filter.q(args), filter.q'(args'), detail::close_to<T>(relative))` -/
  | same (q : String) (args : List Float) (q' : String) (args' : List Float) (relative : Float)
  /-- the same with an expected value computed from `history` -/
  | closeWith (q : String) (expected : Array Float → Float) (relative : Float)
  /-- `TRIAL_TEST_ALL_WITH` on the parameters of the quantile estimator -/
  | params (expected : List (Nat × Float)) (tolerance : Float)
  /-- `quantile.parameters(data)` -/
  | setParams (data : List (Nat × Float))

/-- The interface of a filter as seen by the tests.  `none` is undefined behaviour or an unknown query. -/
structure Filter where
  σ : Type
  init : Option σ
  push : σ → List Float → Option σ
  clear : σ → Option σ
  flag : σ → String → Option Bool := fun _ _ => none
  query : σ → String → List Float → Option Float
  params : σ → List (Nat × Float) := fun _ => []
  setParams : σ → List (Nat × Float) → Option σ := fun _ _ => none
  /-- `close_to<T>(relative)(lhs, rhs)` at the value type -/
  close : Float → Float → Float → Bool

/-- detail/functional.hpp:25-35 at `double`; the absolute tolerance is `std::numeric_limits<T>::min()`. -/
def closeDouble (relative lhs rhs : Float) : Bool :=
  Misc.CloseTo.call (α := Float) Float.abs ⟨relative, 2.2250738585072014e-308⟩ lhs rhs
/-- detail/functional.hpp:25-35 at `float`. -/
def closeFloat (relative lhs rhs : Float) : Bool :=
  Misc.CloseTo.call (α := Float32) Float32.abs ⟨relative.toFloat32, 1.17549435e-38⟩ lhs.toFloat32 rhs.toFloat32

def closeParams (tolerance : Float) : List (Nat × Float) → List (Nat × Float) → Bool
  | [], [] => true
  | a :: as, b :: bs => a.1 == b.1 && decide ((a.2 - b.2).abs ≤ tolerance) && closeParams tolerance as bs
  | _, _ => false

/-- The indices of the statements that fail. -/
def failures (f : Filter) (steps : List Step) : List Nat :=
  go f.init #[] 0 steps
where
  go (s : Option f.σ) (history : Array Float) (i : Nat) : List Step → List Nat
    | [] => if s.isSome then [] else [i]
    | step :: rest =>
      match s with
      | none => [i]
      | some s =>
        let bad (b : Bool) (more : List Nat) := if b then more else i :: more
        match step with
        | .push args => go (f.push s args) history (i + 1) rest
        | .clear => go (f.clear s) history (i + 1) rest
        | .record =>
          match f.query s "value" [] with
          | some v => go (some s) (history.push v) (i + 1) rest
          | none => [i]
        | .flag q e => bad (f.flag s q == some e) (go (some s) history (i + 1) rest)
        | .eq q args e =>
          bad ((f.query s q args).any (· == e)) (go (some s) history (i + 1) rest)
        | .close q args e r =>
          bad ((f.query s q args).any (f.close r · e)) (go (some s) history (i + 1) rest)
        | .closeAbs q args e r a =>
          bad ((f.query s q args).any
            (Misc.CloseTo.call (α := Float) Float.abs ⟨r, a⟩ · e)) (go (some s) history (i + 1) rest)
        | .same q args q' args' r =>
          bad ((f.query s q args).any fun x => (f.query s q' args').any (f.close r x ·))
            (go (some s) history (i + 1) rest)
        | .setParams d => go (f.setParams s d) history (i + 1) rest
        | .closeWith q e r =>
          bad ((f.query s q []).any (f.close r · (e history))) (go (some s) history (i + 1) rest)
        | .params e t => bad (closeParams t (f.params s) e) (go (some s) history (i + 1) rest)

/-! ### Filters at `double` -/

def one1 (args : List Float) : Option Float := match args with | [x] => some x | _ => none
def two2 (args : List Float) : Option (Float × Float) := match args with | [x, y] => some (x, y) | _ => none
def sizeF (n : SizeT 64) : Float := Float.ofNat n.toNat

open Cumulative in
def cumulativeMoment : Filter where
  σ := Mean 64 Float
  init := some Mean.init
  push s a := (one1 a).map s.push
  clear s := some s.clear
  flag s q := if q = "empty" then some s.empty else none
  query s q _ := match q with
    | "size" => some (sizeF s.size)
    | "mean" => some s.getMean
    | "unbiased_mean" => some s.unbiasedMean
    | _ => none
  close := closeDouble

open Cumulative in
def cumulativeVariance : Filter where
  σ := Variance 64 Float
  init := some Variance.init
  push s a := (one1 a).map s.push
  clear s := some s.clear
  flag s q := if q = "empty" then some s.empty else none
  query s q _ := match q with
    | "size" => some (sizeF s.size)
    | "mean" => some s.getMean
    | "unbiased_mean" => some s.unbiasedMean
    | "variance" => some s.variance
    | "unbiased_variance" => some s.unbiasedVariance
    | _ => none
  close := closeDouble

open Cumulative in
def cumulativeSkewness : Filter where
  σ := Skewness 64 Float
  init := some Skewness.init
  push s a := (one1 a).map s.push
  clear s := some s.clear
  flag s q := if q = "empty" then some s.empty else none
  query s q _ := match q with
    | "size" => some (sizeF s.size)
    | "mean" => some s.getMean
    | "unbiased_mean" => some s.unbiasedMean
    | "variance" => some s.variance
    | "unbiased_variance" => some s.unbiasedVariance
    | "skewness" => some s.skewness
    | "unbiased_skewness" => some s.unbiasedSkewness
    | _ => none
  close := closeDouble

open Cumulative in
def cumulativeKurtosis : Filter where
  σ := Kurtosis 64 Float
  init := some Kurtosis.init
  push s a := (one1 a).map s.push
  clear s := some s.clear
  flag s q := if q = "empty" then some s.empty else none
  query s q _ := match q with
    | "size" => some (sizeF s.size)
    | "mean" => some s.getMean
    | "unbiased_mean" => some s.unbiasedMean
    | "variance" => some s.variance
    | "unbiased_variance" => some s.unbiasedVariance
    | "skewness" => some s.skewness
    | "unbiased_skewness" => some s.unbiasedSkewness
    | "kurtosis" => some s.kurtosis
    | "unbiased_kurtosis" => some s.unbiasedKurtosis
    | _ => none
  close := closeDouble

open Cumulative in
def cumulativeCovariance : Filter where
  σ := Comoment 64 Float
  init := some Comoment.init
  push s a := (two2 a).map s.push
  clear s := some s.clear
  query s q _ := match q with
    | "size" => some (sizeF s.size)
    | "variance" => some s.variance
    | "unbiased_variance" => some s.unbiasedVariance
    | _ => none
  close := closeDouble

open Cumulative in
def cumulativeCorrelation : Filter where
  σ := Correlation 64 Float
  init := some Correlation.init
  push s a := (two2 a).map s.push
  clear s := some s.clear
  query s q _ := match q with
    | "size" => some (sizeF s.size)
    | "value" => some s.value
    | _ => none
  close := closeDouble

open Cumulative in
def cumulativeRegression : Filter where
  σ := Regression 64 Float
  init := some Regression.init
  push s a := (two2 a).map s.push
  clear s := some s.clear
  query s q a := match q, a with
    | "size", _ => some (sizeF s.size)
    | "slope", _ => some s.slope
    | "at", [x] => some (s.at' x)
    | _, _ => none
  close := closeDouble

open Cumulative in
def cumulativeTrend : Filter where
  σ := Trend 64 Float
  init := some Trend.init
  push s a := (one1 a).map s.push
  clear s := some s.clear
  query s q _ := match q with
    | "size" => some (sizeF s.size)
    | "value" => some s.value
    | _ => none
  close := closeDouble

open Window in
def windowMoment (N : Nat) : Filter where
  σ := Mean N Float
  init := some Mean.init
  push s a := (one1 a).bind s.push
  clear s := some s.clear
  flag s q := match q with
    | "empty" => some s.empty
    | "full" => some s.full
    | _ => none
  query s q _ := match q with
    | "size" => some (.ofNat s.size)
    | "capacity" => some (.ofNat s.capacity)
    | "mean" => some s.getMean
    | _ => none
  close := closeDouble

open Window in
def windowMomentFloat (N : Nat) : Filter where
  σ := Mean N Float32
  init := some Mean.init
  push s a := (one1 a).bind fun x => s.push x.toFloat32
  clear s := some s.clear
  flag s q := match q with
    | "empty" => some s.empty
    | "full" => some s.full
    | _ => none
  query s q _ := match q with
    | "size" => some (.ofNat s.size)
    | "capacity" => some (.ofNat s.capacity)
    | "mean" => some s.getMean.toFloat
    | _ => none
  close := closeFloat

open Window in
def windowVariance (N : Nat) : Filter where
  σ := Variance N Float
  init := some Variance.init
  push s a := (one1 a).bind s.push
  clear s := some s.clear
  flag s q := match q with
    | "empty" => some s.empty
    | "full" => some s.full
    | _ => none
  query s q _ := match q with
    | "size" => some (.ofNat s.size)
    | "capacity" => some (.ofNat s.capacity)
    | "mean" => some s.getMean
    | "variance" => some s.variance
    | "unbiased_variance" => some s.unbiasedVariance
    | _ => none
  close := closeDouble

open Window in
def windowCovariance (N : Nat) : Filter where
  σ := Comoment N Float
  init := some Comoment.init
  push s a := (two2 a).bind s.push
  clear s := some s.clear
  query s q _ := match q with
    | "size" => some (.ofNat s.size)
    | "variance" => some s.variance
    | "unbiased_variance" => some s.unbiasedVariance
    | _ => none
  close := closeDouble

open Window in
def windowRegression (N : Nat) : Filter where
  σ := Regression N Float
  init := some Regression.init
  push s a := (two2 a).bind s.push
  clear s := some s.clear
  query s q a := match q, a with
    | "size", _ => some (.ofNat s.size)
    | "slope", _ => some s.slope
    | "at", [x] => some (s.at' x)
    | _, _ => none
  close := closeDouble

open Decay in
def decayMoment (f : Float) : Filter where
  σ := Mean Float
  init := some (Mean.init f)
  push s a := (one1 a).map s.push
  clear s := some s.clear
  query s q _ := match q with
    | "mean" => some s.mean
    | _ => none
  close := closeDouble

open Decay in
def decayMomentFloat (f : Float) : Filter where
  σ := Mean Float32
  init := some (Mean.init f.toFloat32)
  push s a := (one1 a).map fun x => s.push x.toFloat32
  clear s := some s.clear
  query s q _ := match q with
    | "mean" => some s.mean.toFloat
    | _ => none
  close := closeFloat

open Decay in
def decayVariance (f g : Float) : Filter where
  σ := Variance Float
  init := some (Variance.init f g)
  push s a := (one1 a).map s.push
  clear s := some s.clear
  query s q _ := match q with
    | "mean" => some s.mean
    | "variance" => some s.variance
    | _ => none
  close := closeDouble

open Decay in
def decaySkewness (f g h : Float) : Filter where
  σ := Skewness Float
  init := some (Skewness.init f g h)
  push s a := (one1 a).map s.push
  clear s := some s.clear
  query s q _ := match q with
    | "mean" => some s.mean
    | "variance" => some s.variance
    | "skewness" => some s.skewness
    | _ => none
  close := closeDouble

open Decay in
def decayKurtosis (f g h k : Float) : Filter where
  σ := Kurtosis Float
  init := some (Kurtosis.init f g h k)
  push s a := (one1 a).map s.push
  clear s := some s.clear
  query s q _ := match q with
    | "mean" => some s.mean
    | "variance" => some s.variance
    | "skewness" => some s.skewness
    | "kurtosis" => some s.kurtosis
    | _ => none
  close := closeDouble

open Interim in
/-- Shared by the interim moments. -/
def interimOf {σ : Type} [Block σ 64 Float] (W : Nat) (full : Interim W σ → Bool)
    (query : Interim W σ → String → Option Float) : Filter where
  σ := Interim W σ
  init := some Interim.init
  push s a := (one1 a).map s.push
  clear s := some s.clear
  flag s q := match q with
    | "empty" => some s.empty
    | "full" => some (full s)
    | _ => none
  query s q _ := match q with
    | "size" => some (sizeF s.size)
    | "capacity" => some (sizeF s.capacity)
    | q => query s q
  close := closeDouble

open Interim in
def interimMoment (W : Nat) : Filter :=
  interimOf W Interim.full fun (s : IMean 64 W Float) q => match q with
    | "mean" => some s.mean
    | _ => none

open Interim in
def interimVariance (W : Nat) : Filter :=
  interimOf W Interim.full fun (s : IVariance 64 W Float) q => match q with
    | "mean" => some s.mean
    | "variance" => some s.variance
    | _ => none

open Interim in
def interimSkewness (W : Nat) : Filter :=
  interimOf W Interim.full fun (s : ISkewness 64 W Float) q => match q with
    | "mean" => some s.mean
    | "variance" => some s.variance
    | "skewness" => some s.skewness
    | _ => none

open Interim in
def interimKurtosis (W : Nat) : Filter :=
  interimOf W Interim.full fun (s : IKurtosis 64 W Float) q => match q with
    | "mean" => some s.mean
    | "variance" => some s.variance
    | "skewness" => some s.skewness
    | "kurtosis" => some s.kurtosis
    | _ => none

open Interim in
def interimCovariance (W : Nat) : Filter where
  σ := IComoment 64 W Float
  init := some Interim.init
  push s a := (two2 a).map s.push
  clear s := some s.clear
  flag s q := match q with
    | "empty" => some s.empty
    | "full" => some s.coFull
    | _ => none
  query s q _ := match q with
    | "size" => some (sizeF s.size)
    | "capacity" => some (sizeF s.capacity)
    | "variance" => some s.variance
    | _ => none
  close := closeDouble

open Interim in
def interimRegression (W : Nat) : Filter where
  σ := Interim.Regression 64 W Float
  init := some Regression.init
  push s a := (two2 a).map s.push
  clear s := some s.clear
  query s q a := match q, a with
    | "size", _ => some (sizeF s.size)
    | "slope", _ => some s.slope
    | "at", [x] => some (s.at' x)
    | _, _ => none
  close := closeDouble

/-- A query `value<std::ratio<n, d>>()` is written `value` with arguments `[n, d]`, and `get<i>()` is
`get` with argument `[i]`. -/
def quantilePSquare (qs : List PSquare.Ratio) : Filter where
  σ := PSquare.PSquare 64 Float
  init := some (.init qs)
  push s a := (one1 a).bind s.push
  clear s := some s.clear
  flag s q := if q = "empty" then some s.empty else none
  query s q a := match q, a with
    | "value", [] => s.get (1 + qs.length / 2)
    | "value", [n, d] => s.value qs ⟨n.toUInt64.toNat, d.toUInt64.toNat⟩
    | "get", [] => s.get (1 + qs.length / 2)
    | "get", [i] => s.get i.toUInt64.toNat
    | _, _ => none
  params s := s.parameters.map fun p => (p.1.toNat, p.2)
  setParams s d := s.setParameters (d.map fun p => (BitVec.ofNat 64 p.1, p.2))
  close := closeDouble

open InterimPSquare in
def interimPSquare (W : Nat) (qs : List PSquare.Ratio) : Filter where
  σ := Mem 64 Float
  init := some (Mem.construct qs (fun _ => none) 0)
  push s a := (one1 a).bind (s.push W 0)
  clear s := s.clear 0
  flag s q := if q = "empty" then s.empty 0 else none
  query s q a := match q, a with
    | "value", [] => s.get W 0 (1 + qs.length / 2)
    | "value", [n, d] => s.value qs W 0 ⟨n.toUInt64.toNat, d.toUInt64.toNat⟩
    | "get", [] => s.get W 0 (1 + qs.length / 2)
    | "get", [i] => s.get W 0 i.toUInt64.toNat
    | _, _ => none
  close := closeDouble

open Impulse in
def impulseFinite (c : List Float) : Filter where
  σ := Finite Float
  init := some (Finite.init c)
  push s a := (one1 a).bind s.push
  clear s := some s.clear
  flag s q := match q with
    | "empty" => some s.empty
    | "full" => some s.full
    | _ => none
  query s q _ := match q with
    | "size" => some (.ofNat s.size)
    | "capacity" => some (.ofNat s.capacity)
    | "value" => some s.value
    | _ => none
  close := closeDouble

open Impulse in
def impulseInfinite (input output : List Float) (scale : Float := 1.0) : Filter where
  σ := Infinite Float
  init := some (Infinite.init input output scale)
  push s a := (one1 a).bind s.push
  clear s := some s.clear
  flag s q := match q with
    | "empty" => some s.empty
    | _ => none
  query s q _ := match q with
    | "value" => some s.value
    | _ => none
  close := closeDouble

/-! ### Filters at `int` -/

def toInt (x : Float) : Int := if x < 0 then -((-x).toUInt64.toNat : Int) else x.toUInt64.toNat

open Integer in
def cumulativeMomentInt : Filter where
  σ := Mean 64
  init := some Mean.init
  push s a := (one1 a).bind fun x => s.push 32 32 (toInt x)
  clear _ := some Mean.init
  query s q _ := match q with
    | "size" => some (.ofNat s.count.toNat)
    | "mean" => some (.ofInt s.mean)
    | "unbiased_mean" => (s.unbiasedMean 32).map .ofInt
    | _ => none
  close _ a b := a == b

open Integer in
def windowMomentInt (N : Nat) : Filter where
  σ := WMean
  init := some WMean.init
  push s a := (one1 a).bind fun x => s.push 32 32 N (toInt x)
  clear _ := some WMean.init
  flag s q := match q with
    | "empty" => some s.window.isEmpty
    | "full" => some (s.window.length == N)
    | _ => none
  query s q _ := match q with
    | "size" => some (.ofNat s.window.length)
    | "capacity" => some (.ofNat N)
    | "mean" => some (.ofInt s.mean)
    | _ => none
  close _ a b := a == b

end Verif.Tests
