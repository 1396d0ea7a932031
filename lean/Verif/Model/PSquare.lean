import Verif.Scalar
/-
Model of include/trial/online/quantile/psquare.hpp and detail/psquare.ipp.
Paths in comments are relative to /repo/include/trial/online.

The template parameter pack `Quantiles...` is the list `qs` of `std::ratio`s in the order written by the
user.  `std::array` accesses are checked: an index outside the array gives the outcome `none`.
-/
namespace Verif.PSquare
open Scalar

/-- `std::ratio<num, den>` (already normalised; `den > 0`). -/
structure Ratio where
  num : Int
  den : Nat
  deriving DecidableEq, Repr

variable {w : Nat} {α : Type} [Scalar α]

/-- quantile/psquare.hpp:99: `Quantiles::num / value_type(Quantiles::den)`. -/
def Ratio.toScalar (r : Ratio) : α := ofInt r.num / ofNat r.den

/-- quantile/psquare.hpp:97-98: `parameter_length = 2 * quantile_length + 3`. -/
def paramLength (q : Nat) : Nat := 2 * q + 3

/-- quantile/psquare.hpp:101-105.  `qs` carries the static array `quantiles` (psquare.hpp:99). -/
structure PSquare (w : Nat) (α : Type) where
  qs : List α
  count : SizeT w
  positions : List (SizeT w)
  heights : List α
  desired : List α
  deltas : List α

namespace PSquare

/-- `quantile_length`. -/
def q (s : PSquare w α) : Nat := s.qs.length
/-- `parameter_length`. -/
def len (s : PSquare w α) : Nat := paramLength s.q

/-- quantile/detail/psquare.ipp:45-52.  `constant_deltas` after the loop: entry 0 is 0, entry `2i+2` is
`quantiles[i]`, the last entry is 1, and each odd entry is the mean of its neighbours.
`prev` is the entry before the part being built. -/
def deltasFrom (prev : α) : List α → List α
  | [] => [(prev + ofNat 1) / ofNat 2, ofNat 1]
  | x :: xs => (prev + x) / ofNat 2 :: x :: deltasFrom x xs

/-- quantile/detail/psquare.ipp:40-61 (`initialize`).  Line 59: `2 * (quantile_length + 1)` is `size_t`. -/
def initState (qs : List α) : PSquare w α :=
  let deltas := ofNat 0 :: deltasFrom (ofNat 0) qs
  { qs := qs
    count := 0
    deltas := deltas
    positions := (List.range (paramLength qs.length)).map (fun i => BitVec.ofNat w (i + 1))
    heights := List.replicate (paramLength qs.length) (ofNat 0)
    desired := deltas.map (fun d => ofNat 1 + ofNat (2 * (qs.length + 1)) * d) }

/-- quantile/detail/psquare.ipp:34-38. -/
def init (quantiles : List Ratio) : PSquare w α := initState (quantiles.map Ratio.toScalar)

/-- quantile/detail/psquare.ipp:63-67. -/
def clear (s : PSquare w α) : PSquare w α := initState s.qs

/-- quantile/detail/psquare.ipp:69-73. -/
def empty (s : PSquare w α) : Bool := s.count == 0

/-- quantile/detail/psquare.ipp:75-79. -/
def size (s : PSquare w α) : SizeT w := s.count

/-- `index + sign` for `sign = ±1` (psquare.ipp:238; `size_t + int`). -/
def shift (index : Nat) (sign : Int) : Nat := (index + sign).toNat

/-- quantile/detail/psquare.ipp:229-239.  The difference of positions is `size_t`, also for
`sign = -1`, where it wraps.  A failed `assert` (lines 233-235) is the outcome `none`. -/
def linear (s : PSquare w α) (index : Nat) (sign : Int) : Option α := do
  guard (0 < index ∧ index < s.len ∧ (sign = 1 ∨ sign = -1))
  let h ← s.heights[index]?
  let hs ← s.heights[shift index sign]?
  let p ← s.positions[index]?
  let ps ← s.positions[shift index sign]?
  return h + ofInt sign * ((hs - h) / ofSize (ps - p))

/-- quantile/detail/psquare.ipp:241-262.  `backward_step + sign` and `forward_step - sign` are
`size_t`.  A failed `assert` (lines 245-249) is the outcome `none`. -/
def parabolic (s : PSquare w α) (index : Nat) (sign : Int) : Option α := do
  guard (0 < index ∧ index < s.len ∧ (sign = 1 ∨ sign = -1))
  let previousHeight ← s.heights[index - 1]?
  let currentHeight ← s.heights[index]?
  let nextHeight ← s.heights[index + 1]?
  let pp ← s.positions[index - 1]?
  let pc ← s.positions[index]?
  let pn ← s.positions[index + 1]?
  guard (pp ≤ pc ∧ pc ≤ pn)
  let forwardStep := pn - pc
  let backwardStep := pc - pp
  let totalStep := pn - pp
  return currentHeight
    + (ofInt sign / ofSize totalStep)
    * ((ofSize (backwardStep + BitVec.ofInt w sign)
          * ((nextHeight - currentHeight) / ofSize forwardStep))
       + (ofSize (forwardStep - BitVec.ofInt w sign)
          * ((currentHeight - previousHeight) / ofSize backwardStep)))

/-- quantile/detail/psquare.ipp:114. -/
def signOf (deviation : α) : Int :=
  if lt (ofNat 0) deviation then 1 else if lt deviation (ofNat 0) then -1 else 0

/-- quantile/detail/psquare.ipp:111-129, one iteration of the adjustment loop. -/
def adjust (s : PSquare w α) (i : Nat) : Option (PSquare w α) := do
  let d ← s.desired[i]?
  let p ← s.positions[i]?
  let pPrev ← s.positions[i - 1]?
  let pNext ← s.positions[i + 1]?
  let sign := signOf (d - ofSize p)
  if (sign = 1 ∧ pNext - p > 1) ∨ (sign = -1 ∧ p - pPrev > 1) then
    let height ← s.parabolic i sign
    let hPrev ← s.heights[i - 1]?
    let hNext ← s.heights[i + 1]?
    let h ← if lt hPrev height && lt height hNext then some height else s.linear i sign
    return { s with heights := s.heights.set i h
                    positions := s.positions.set i (p + BitVec.ofInt w sign) }
  else
    return s

/-- `std::upper_bound`: binary search in `len` elements from `first`, as in libstdc++ and libc++.  For a
sorted range the C++ standard fixes the result (see `upperBound_partition` in Verif/Proofs/PSquare.lean); for a
range that is not sorted, which is only possible after a NaN was pushed, it does not, and this is one
possible outcome. -/
def upperBound (hs : List α) (number : α) : (fuel first len : Nat) → Option Nat
  | _, first, 0 => some first
  | 0, _, _ + 1 => none
  | fuel + 1, first, len + 1 =>
    let half := (len + 1) / 2
    match hs[first + half]? with
    | none => none
    | some h =>
      if lt number h then upperBound hs number fuel first half
      else upperBound hs number fuel (first + half + 1) (len + 1 - half - 1)

/-- quantile/detail/psquare.ipp:86-99: the cell `k` and the updated extreme heights. -/
def locate (s : PSquare w α) (number : α) : Option (Nat × List α) := do
  let first ← s.heights[0]?
  let last ← s.heights[s.len - 1]?
  if lt number first then
    return (1, s.heights.set 0 number)
  else if le last number then
    return (s.len - 1, s.heights.set (s.len - 1) number)
  else
    let k ← upperBound s.heights number s.heights.length 0 s.heights.length
    return (k, s.heights)

/-- quantile/detail/psquare.ipp:102-110. -/
def bump (s : PSquare w α) (k : Nat) : PSquare w α :=
  { s with
    desired := List.zipWith (· + ·) s.desired s.deltas
    positions := s.positions.mapIdx (fun i p => if k ≤ i then p + 1 else p) }

/-- quantile/detail/psquare.ipp:136-141: the insertion loop, starting with the hole at `k`. -/
def insertAt (number : α) : Nat → List α → Option (List α)
  | 0, hs => if 0 < hs.length then some (hs.set 0 number) else none
  | k + 1, hs =>
    match hs[k]? with
    | none => none
    | some h =>
      if lt number h then
        if k + 1 < hs.length then insertAt number k (hs.set (k + 1) h) else none
      else
        if k + 1 < hs.length then some (hs.set (k + 1) number) else none

/-- quantile/detail/psquare.ipp:81-144. -/
def push (s : PSquare w α) (number : α) : Option (PSquare w α) := do
  let s' ←
    if s.count ≥ BitVec.ofNat w s.len then do
      let (k, heights) ← s.locate number
      let s1 := { s with heights := heights }
      let s2 := s1.bump k
      (List.range' 1 (s.len - 2)).foldlM adjust s2
    else do
      let heights ← insertAt number s.count.toNat s.heights
      some { s with heights := heights }
  return { s' with count := s'.count + 1 }

/-- quantile/detail/psquare.ipp:156-202 (`get<Index>`); an `Index` larger than `q + 1` does not
compile (line 161). -/
def get (s : PSquare w α) (index : Nat) : Option α :=
  if index > s.q + 1 then none
  else if s.count > BitVec.ofNat w s.len then
    s.heights[2 * index]?
  else if s.count > 1 then
    if index = 0 then s.heights[0]?
    else if index = 1 + s.q then s.heights[(s.count - 1).toNat]?
    else do
      let quantile ← s.qs[index - 1]?
      let rank := ofSize (s.count - 1) * quantile
      let slope := rank - floor rank
      let i ← toIndex rank
      let j ← toIndex (rank + ofNat 1)
      let hi ← s.heights[i]?
      let hj ← s.heights[j]?
      return hi + slope * (hj - hi)
  else if s.count > 0 then s.heights[(s.count - 1).toNat]?
  else some (ofNat 0)

/-- quantile/detail/psquare.ipp:204-215. -/
def parameters (s : PSquare w α) : List (SizeT w × α) := s.positions.zip s.heights

/-- Conversion of a value to `size_t`; undefined if the truncated value does not fit. -/
def toSize (x : α) : Option (SizeT w) := do
  let n ← toIndex x
  guard (n < 2 ^ w)
  return BitVec.ofNat w n

/-- quantile/detail/psquare.ipp:217-227.  Line 222 is `positions[i] = (desired_positions[i] = position)`, so
the position passes through the value type.  A vector with fewer than `parameter_length` elements is
undefined behaviour; further elements are ignored. -/
def setParameters (s : PSquare w α) (data : List (SizeT w × α)) : Option (PSquare w α) := do
  guard (s.len ≤ data.length)
  let desired := (data.take s.len).map (fun d => ofSize d.1)
  let positions ← desired.mapM toSize
  return { s with
    positions := positions
    desired := desired
    heights := (data.take s.len).map Prod.snd
    count := BitVec.ofNat w s.len }

/-- The state after a history of calls on a new estimator; `none` if undefined behaviour occurred. -/
def run (quantiles : List Ratio) (ops : List (Op α)) : Option (PSquare w α) :=
  runOps (some (init quantiles)) (fun s x => s.bind (push · x)) (Option.map clear) ops

end PSquare

/-! ### Lookup by ratio -/

/-- `std::ratio_less`. -/
def Ratio.less (a b : Ratio) : Bool := a.num * b.den < b.num * a.den

/-- Stable insertion used to model `mp_sort`; equal ratios are identical types, so their relative order is
irrelevant. -/
def insertSorted (r : Ratio) : List Ratio → List Ratio
  | [] => [r]
  | x :: xs => if r.less x then r :: x :: xs else x :: insertSorted r xs

/-- quantile/psquare.hpp:46: `QuantileList`, the quantiles with minimum and maximum, sorted. -/
def quantileList (quantiles : List Ratio) : List Ratio :=
  (((⟨0, 1⟩ : Ratio) :: quantiles) ++ [(⟨1, 1⟩ : Ratio)]).foldr insertSorted []

/-- quantile/detail/psquare.ipp:146-154 (`value<Q>`): `get<mp_find<QuantileList, Q>>`. -/
def PSquare.value (quantiles : List Ratio) (s : PSquare w α) (r : Ratio) : Option α :=
  s.get ((quantileList quantiles).findIdx (· == r))

end Verif.PSquare
