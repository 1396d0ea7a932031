import Mathlib.Data.Real.Basic
import Mathlib.Analysis.Real.Sqrt
import Mathlib.Algebra.BigOperators.Group.List.Basic
import Mathlib.Algebra.Order.Archimedean.Real.Basic
import Mathlib.Data.List.Sort
/-
Specifications: textbook definitions over lists of real numbers.  This file does not import the model.
-/
namespace Verif.Spec

/-- Arithmetic mean. -/
noncomputable def mean (xs : List ℝ) : ℝ := xs.sum / xs.length

/-- Sum of the `k`-th powers of the deviations from the mean. -/
noncomputable def central (k : Nat) (xs : List ℝ) : ℝ := (xs.map fun x => (x - mean xs) ^ k).sum

/-- Population variance. -/
noncomputable def variance (xs : List ℝ) : ℝ := central 2 xs / xs.length

/-- Sample variance (Bessel's correction). -/
noncomputable def sampleVariance (xs : List ℝ) : ℝ := central 2 xs / (xs.length - 1)

/-- Sample skewness `(M3/n) / (M2/n)^(3/2)`. -/
noncomputable def skewness (xs : List ℝ) : ℝ :=
  (central 3 xs / xs.length) / (Real.sqrt (variance xs)) ^ 3

/-- Sample kurtosis `(M4/n) / (M2/n)^2`. -/
noncomputable def kurtosis (xs : List ℝ) : ℝ :=
  (central 4 xs / xs.length) / (variance xs) ^ 2

/-- The x-coordinates. -/
def xsOf (ps : List (ℝ × ℝ)) : List ℝ := ps.map Prod.fst
/-- The y-coordinates. -/
def ysOf (ps : List (ℝ × ℝ)) : List ℝ := ps.map Prod.snd

/-- Sum of the products of the deviations. -/
noncomputable def cosum (ps : List (ℝ × ℝ)) : ℝ :=
  (ps.map fun p => (p.1 - mean (xsOf ps)) * (p.2 - mean (ysOf ps))).sum

/-- Population covariance. -/
noncomputable def covariance (ps : List (ℝ × ℝ)) : ℝ := cosum ps / ps.length

/-- Sum of the squared residuals of the line `x ↦ a + b x`. -/
noncomputable def sse (a b : ℝ) (ps : List (ℝ × ℝ)) : ℝ :=
  (ps.map fun p => (p.2 - (a + b * p.1)) ^ 2).sum

/-- The mean of the first value, of the first two values, ..., of all values. -/
noncomputable def runningMeans (xs : List ℝ) : List ℝ :=
  (List.range xs.length).map fun k => mean (xs.take (k + 1))

/-- The last `n` elements (all if there are fewer). -/
def lastN {β : Type} (n : Nat) (xs : List β) : List β := xs.drop (xs.length - n)

/-! ### Exponential weighting -/

/-- `Σ_i f (1-f)^(n-1-i) x_i`: the value pushed `j` steps before the last one has weight `f (1-f)^j`. -/
noncomputable def ewSum (f : ℝ) (xs : List ℝ) : ℝ :=
  ((List.range xs.length).map fun i : ℕ => f * (1 - f) ^ (xs.length - 1 - i) * xs.getD i 0).sum

/-- Exponentially weighted average, divided by the sum of the weights `1 - (1-f)^n`. -/
noncomputable def ewMean (f : ℝ) (xs : List ℝ) : ℝ := ewSum f xs / (1 - (1 - f) ^ xs.length)

/-- The deviation of each value from the exponentially weighted mean of the values up to and including
that value. -/
noncomputable def ewDevs (f : ℝ) (xs : List ℝ) : List ℝ :=
  (List.range xs.length).map fun k : ℕ => xs.getD k 0 - ewMean f (xs.take (k + 1))

/-! ### Blocks -/

/-- Cut the values into consecutive blocks of `W`; the last block, which has 1 to `W` values (none if
there are no values). -/
def curBlock {β : Type} (W : Nat) (xs : List β) : List β := xs.drop ((xs.length - 1) / W * W)

/-- The block of `W` values before the last block; empty if there is only one block. -/
def prevBlock {β : Type} (W : Nat) (xs : List β) : List β :=
  if (xs.length - 1) / W = 0 then [] else (xs.drop (((xs.length - 1) / W - 1) * W)).take W

/-- Weighted average of `a` and `b` with weights `p` and `q`. -/
noncomputable def blend (p q a b : ℝ) : ℝ := (p * a + q * b) / (p + q)

/-! ### Order statistics -/

/-- The values in ascending order. -/
noncomputable def sorted (xs : List ℝ) : List ℝ := xs.insertionSort (· ≤ ·)

/-- The `q`-quantile of a finite sample: with `r = q (n - 1)`, linear interpolation between the values of
rank `⌊r⌋` and `⌈r⌉` (counted from 0) in ascending order. -/
noncomputable def quantile (q : ℝ) (xs : List ℝ) : ℝ :=
  let r := q * (xs.length - 1)
  (sorted xs).getD ⌊r⌋₊ 0 + (r - ⌊r⌋₊) * ((sorted xs).getD ⌈r⌉₊ 0 - (sorted xs).getD ⌊r⌋₊ 0)

/-! ### The P-square algorithm (Jain and Chlamtac, 1985) -/

/-- Piecewise-parabolic prediction of the height of marker `i` that moves by `d`, for marker positions `n`
and heights `q`. -/
noncomputable def psquareParabolic (d : ℝ) (n q : Nat → ℝ) (i : Nat) : ℝ :=
  q i + d / (n (i + 1) - n (i - 1))
    * ((n i - n (i - 1) + d) * (q (i + 1) - q i) / (n (i + 1) - n i)
      + (n (i + 1) - n i - d) * (q i - q (i - 1)) / (n i - n (i - 1)))

/-- Linear prediction of the height of marker `i` that moves one up. -/
noncomputable def psquareLinearUp (n q : Nat → ℝ) (i : Nat) : ℝ :=
  q i + (q (i + 1) - q i) / (n (i + 1) - n i)

/-- Linear prediction of the height of marker `i` that moves one down. -/
noncomputable def psquareLinearDown (n q : Nat → ℝ) (i : Nat) : ℝ :=
  q i - (q (i - 1) - q i) / (n (i - 1) - n i)

/-! ### Digital filters -/

/-- `Σ_{i < P} c_i x_{n-i}`: `c_0` belongs to the last value, `c_1` to the one before, ...; values before
the first are 0. -/
noncomputable def fir (cs xs : List ℝ) : ℝ :=
  ((List.range cs.length).map fun i : ℕ => cs.getD i 0 * xs.reverse.getD i 0).sum

/-- `ys` solves the difference equation `scale * y_n = Σ_{i<P} a_i x_{n-i} - Σ_{j<Q} b_j y_{n-1-j}` for the
input `xs`. -/
def IsIIR (as bs : List ℝ) (scale : ℝ) (xs ys : List ℝ) : Prop :=
  ys.length = xs.length ∧
    ∀ k < xs.length, scale * ys.getD k 0 = fir as (xs.take (k + 1)) - fir bs (ys.take k)

end Verif.Spec
