import Verif.Scalar
/-
Model of include/trial/online/sampling/reservoir.hpp and detail/reservoir.ipp.
Paths in comments are relative to /repo/include/trial/online.

The random bit generator and the standard distributions are external.  Each `push` draws at most one
uniform and one geometric number; the numbers it would obtain are an argument of the model's `push`.
No arithmetic is done on elements, so their type `β` is arbitrary.
-/
namespace Verif.Reservoir

variable {w : Nat} {β : Type}

/-- The random numbers available to one `push`: `uniform hi` is the result of drawing from the uniform
distribution on `[0, hi]`, `geometric` the result of drawing from the geometric distribution. -/
structure Draw (w : Nat) where
  uniform : SizeT w → SizeT w
  geometric : SizeT w

/-- What `std::uniform_int_distribution` guarantees. -/
def Draw.Valid (d : Draw w) : Prop := ∀ hi, d.uniform hi ≤ hi

/-- sampling/reservoir.hpp:58-65 (without the generator). -/
structure Reservoir (w : Nat) (β : Type) where
  sampleSize : SizeT w
  threshold : SizeT w
  sampleCount : SizeT w
  skipCount : SizeT w
  samples : List β

namespace Reservoir

/-- sampling/detail/reservoir.ipp:20-38; `uniform(0, N - 1)` is the default range of `uniform`. -/
def init (N : SizeT w) : Reservoir w β :=
  { sampleSize := N, threshold := 4 * N, sampleCount := 0, skipCount := 0, samples := [] }

/-- sampling/detail/reservoir.ipp:40-44. -/
def empty (s : Reservoir w β) : Bool := s.samples.isEmpty

/-- sampling/detail/reservoir.ipp:46-50 (`samples.size()`; a vector size fits `size_t`). -/
def size (s : Reservoir w β) : Nat := s.samples.length

/-- sampling/detail/reservoir.ipp:52-56. -/
def count (s : Reservoir w β) : SizeT w := s.sampleCount

/-- sampling/detail/reservoir.ipp:58-63.  `samples` is not cleared. -/
def clear (s : Reservoir w β) : Reservoir w β := { s with sampleCount := 0, skipCount := 0 }

/-- sampling/detail/reservoir.ipp:113-117. -/
def data (s : Reservoir w β) : List β := s.samples

/-- `samples[index] = element`: undefined behaviour (`none`) when out of range. -/
def assign (samples : List β) (index : SizeT w) (element : β) : Option (List β) :=
  if index.toNat < samples.length then some (samples.set index.toNat element) else none

/-- sampling/detail/reservoir.ipp:65-111.  The `uniform` member is constructed with range
`[0, N - 1]`. -/
def push (s : Reservoir w β) (element : β) (d : Draw w) : Option (Reservoir w β × Bool) :=
  if s.sampleCount ≥ s.threshold then
    if s.skipCount = 0 then
      let index := d.uniform (s.sampleSize - 1)
      (assign s.samples index element).map fun samples =>
        ({ s with skipCount := d.geometric, samples := samples, sampleCount := s.sampleCount + 1 }, true)
    else
      some ({ s with skipCount := s.skipCount - 1, sampleCount := s.sampleCount + 1 }, false)
  else if s.sampleCount ≥ s.sampleSize then
    let index := d.uniform s.sampleCount
    if index < s.sampleSize then
      (assign s.samples index element).map fun samples =>
        ({ s with samples := samples, sampleCount := s.sampleCount + 1 }, true)
    else
      some ({ s with sampleCount := s.sampleCount + 1 }, false)
  else
    some ({ s with samples := s.samples ++ [element], sampleCount := s.sampleCount + 1 }, true)

/-- sampling/detail/reservoir.ipp:79 (range of the member `uniform`) and :92 (`uniparam`): the upper end of
the range of the uniform draw in the next push, if it makes one. -/
def uniformMax (s : Reservoir w β) : SizeT w :=
  if s.sampleCount ≥ s.threshold then s.sampleSize - 1 else s.sampleCount

/-- sampling/detail/reservoir.ipp:75: the parameter `sample_size / double(sample_count)` of the geometric
draw in the next push, if it makes one.  The rounding to `double` is not modelled. -/
def geometricParam (s : Reservoir w β) : Rat := (s.sampleSize.toNat : Rat) / (s.sampleCount.toNat : Rat)

/-- The state after a history of calls on a new reservoir; each push comes with its random numbers;
`none` if undefined behaviour occurred. -/
def run (N : SizeT w) (ops : List (Op (β × Draw w))) : Option (Reservoir w β) :=
  runOps (some (init N)) (fun s x => s.bind fun s => (s.push x.1 x.2).map Prod.fst)
    (Option.map clear) ops

end Reservoir
end Verif.Reservoir
