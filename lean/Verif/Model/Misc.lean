import Verif.Scalar
/-
Model of include/trial/online/iterator.hpp (push_iterator) and detail/functional.hpp (close_to).
Paths in comments are relative to /repo/include/trial/online.
-/
namespace Verif.Misc
open Scalar

/-! ### push_iterator -/

/-- iterator.hpp:63-64: the iterator is a pointer to the container; `none` is the null pointer of the
default constructor (iterator.hpp:32-35).  The container itself is threaded explicitly. -/
structure PushIterator where
  container : Option Unit

namespace PushIterator
variable {σ β : Type}

/-- iterator.hpp:67-71 `push_inserter(c)`. -/
def inserter : PushIterator := ⟨some ()⟩
/-- iterator.hpp:32-35 default construction. -/
def default : PushIterator := ⟨none⟩

/-- iterator.hpp:42-46 `*it = value`; assigning through the null pointer is undefined. -/
def assign (push : σ → β → σ) (it : PushIterator) (c : σ) (value : β) : Option (PushIterator × σ) :=
  match it.container with
  | some _ => some (it, push c value)
  | none => none

/-- iterator.hpp:48-51. -/
def deref (it : PushIterator) : PushIterator := it
/-- iterator.hpp:53-56, 58-61. -/
def incr (it : PushIterator) : PushIterator := it

/-- `std::copy(first, last, it)`: `while (first != last) { *it = *first; ++it; ++first; }`. -/
def copy (push : σ → β → σ) (it : PushIterator) (c : σ) : List β → Option (PushIterator × σ)
  | [] => some (it, c)
  | x :: xs =>
    match it.deref.assign push c x with
    | none => none
    | some (it, c) => copy push it.incr c xs

end PushIterator

/-! ### close_to -/

/-- detail/functional.hpp:37-39. -/
structure CloseTo (α : Type) where
  relative : α
  absolute : α

/-- detail/functional.hpp:32-35.  `abs` is `std::abs`. -/
def CloseTo.call {α : Type} [Scalar α] (abs : α → α) (c : CloseTo α) (lhs rhs : α) : Bool :=
  lt (abs (lhs - rhs)) (Scalar.max (c.relative * Scalar.max (abs lhs) (abs rhs)) c.absolute)

end Verif.Misc
