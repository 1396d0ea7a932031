import Verif.Scalar
/-
Model of include/trial/online/detail/circular_span.ipp (lines of that file are cited).
The class declaration of `circular_span` is not in /repo; the member types are taken from the definitions:
`member{data, capacity, size, next}` (circular_span.ipp:24-27), all counters `size_type` = `size_t`.

The underlying array is a list of `capacity` elements; accessing outside of it, and `% 0`, give `none`.
-/
namespace Verif.CircularSpan

variable {w : Nat} {β : Type}

/-- circular_span.ipp:26: `member{data, capacity, size, next}`. -/
structure Span (w : Nat) (β : Type) where
  data : List β
  capacity : SizeT w
  size : SizeT w
  next : SizeT w

namespace Span

/-- circular_span.ipp:22-28, 40-45: a span over an array, initially empty. -/
def init (storage : List β) : Span w β :=
  { data := storage, capacity := BitVec.ofNat w storage.length, size := 0, next := 0 }

/-- circular_span.ipp:30-38: a span over an array that already holds elements; `first` is the distance of
the iterator `first` from the begin of the array.  `next` is initialised with this distance. -/
def initAt (storage : List β) (first length : Nat) : Span w β :=
  { data := storage, capacity := BitVec.ofNat w storage.length, size := BitVec.ofNat w length
    next := BitVec.ofNat w first }

/-- circular_span.ipp:203-207 `index`; `x % 0` is undefined. -/
def index (s : Span w β) (position : SizeT w) : Option (SizeT w) :=
  if s.capacity = 0 then none else some (position % s.capacity)

/-- circular_span.ipp:209-213 `vindex`. -/
def vindex (s : Span w β) (position : SizeT w) : Option (SizeT w) :=
  if 2 * s.capacity = 0 then none else some (position % (2 * s.capacity))

/-- circular_span.ipp:215-225 `at`, reading. -/
def read (s : Span w β) (position : SizeT w) : Option β := do
  let i ← s.index position
  s.data[i.toNat]?

/-- circular_span.ipp:215-219 `at`, as the target of an assignment. -/
def write (s : Span w β) (position : SizeT w) (x : β) : Option (Span w β) := do
  let i ← s.index position
  if i.toNat < s.data.length then some { s with data := s.data.set i.toNat x } else none

/-- circular_span.ipp:54-58. -/
def empty (s : Span w β) : Bool := s.size == 0
/-- circular_span.ipp:60-64. -/
def full (s : Span w β) : Bool := s.size == s.capacity

/-- circular_span.ipp:78-84; the `assert` is the precondition `!empty()`. -/
def front (s : Span w β) : Option β := if s.empty then none else s.read (s.next - s.size)
/-- circular_span.ipp:86-92. -/
def back (s : Span w β) : Option β := if s.empty then none else s.read (s.next - 1)

/-- circular_span.ipp:94-99. -/
def clear (s : Span w β) : Span w β := { s with size := 0, next := 0 }

/-- circular_span.ipp:137-146. -/
def pushBack (s : Span w β) (input : β) : Option (Span w β) := do
  let s ← s.write s.next input
  let i ← s.index s.next
  let s := { s with next := s.capacity + i + 1 }
  return if s.full then s else { s with size := s.size + 1 }

/-- circular_span.ipp:123-135. -/
def pushFront (s : Span w β) (input : β) : Option (Span w β) := do
  let s ← if s.full then do
      let i ← s.index s.next
      some { s with next := s.capacity + i - 1 }
    else some { s with size := s.size + 1 }
  let i ← s.index s.next
  s.write (i - s.size) input

/-- circular_span.ipp:148-154; `assert(!empty())` is a precondition. -/
def popFront (s : Span w β) : Option (Span w β) :=
  if s.empty then none else some { s with size := s.size - 1 }

/-- circular_span.ipp:156-163. -/
def popBack (s : Span w β) : Option (Span w β) :=
  if s.empty then none else do
    let i ← s.index (s.next - 1)
    return { s with next := s.capacity + i, size := s.size - 1 }

/-- circular_span.ipp:101-121 `assign`. -/
def assign (s : Span w β) (input : List β) : Option (Span w β) :=
  input.foldlM pushBack s.clear

/-- circular_span.ipp:165-199: `begin()`. -/
def begin' (s : Span w β) : Option (SizeT w) := s.vindex (s.next - s.size)
/-- circular_span.ipp:183-199: `end()`. -/
def end' (s : Span w β) : Option (SizeT w) := s.vindex s.next

/-- circular_span.ipp:240-275: the elements visited by `for (it = begin(); it != end(); ++it)`, with at
most `fuel` steps (`none` if the loop has not ended by then). -/
def iterate (s : Span w β) (stop : SizeT w) : Nat → SizeT w → Option (List β)
  | 0, cur => if cur = stop then some [] else none
  | fuel + 1, cur =>
    if cur = stop then some []
    else do
      let x ← s.read cur
      let nxt ← s.vindex (cur + 1)
      let rest ← iterate s stop fuel nxt
      return x :: rest

/-- The contents seen by a range-based `for` loop; `2 * capacity` steps visit every iterator value. -/
def contents (s : Span w β) : Option (List β) := do
  let b ← s.begin'
  let e ← s.end'
  s.iterate e (2 * s.capacity).toNat b

end Span

/-- One call on a circular span. -/
inductive SpanOp (β : Type) where
  | pushBack (x : β)
  | pushFront (x : β)
  | popBack
  | popFront
  | clear
  | assign (xs : List β)

/-- Effect of one call. -/
def Span.step (s : Span w β) : SpanOp β → Option (Span w β)
  | .pushBack x => s.pushBack x
  | .pushFront x => s.pushFront x
  | .popBack => s.popBack
  | .popFront => s.popFront
  | .clear => some s.clear
  | .assign xs => s.assign xs

/-- Effect of a list of calls on a new span. -/
def Span.run (storage : List β) (ops : List (SpanOp β)) : Option (Span w β) :=
  ops.foldlM Span.step (Span.init storage)

end Verif.CircularSpan
