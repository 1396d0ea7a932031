import Verif.Model.Impulse
/-
impulse::finite<bool> and impulse::infinite<bool>: the static_asserts (impulse/finite.hpp:35, impulse/infinite.hpp:35)
require an arithmetic type and, unlike those of the other filters, do not exclude `bool`.

Operands of type `bool` are promoted to `int` (0 or 1), and the conversion of a number to `bool` tests it against 0.
Paths in comments are relative to /repo/include/trial/online.

The constructors initialise the `std::vector<bool>` of coefficients by a braced list of two iterators.  An
initializer-list constructor is preferred in list-initialisation ([over.match.list]) whenever the elements convert to
the element type, and a pointer converts to `bool`.  So the constructor that takes `const value_type (&)[P]` (iterators
of type `const bool *`) stores two elements, both `true` since neither pointer is null.  (With P1957R2, a defect report
of 2020, this conversion is narrowing and a conforming compiler rejects it; the model is that of the accepted program.)
A `std::move_iterator` does not convert to `bool`, so the constructor that takes `value_type (&&)[P]` copies the array.
-/
namespace Verif.BoolT
open Impulse

/-- Promotion of `bool` to `int`. -/
def toInt (b : Bool) : Int := if b then 1 else 0
/-- Conversion of `int` to `bool`. -/
def ofInt (z : Int) : Bool := z != 0

/-- The argument of the constructor: a const array or an array rvalue. -/
inductive Source where
  | const (coefficients : List Bool)
  | rvalue (coefficients : List Bool)

namespace Source
/-- The array. -/
def array : Source → List Bool
  | const c => c
  | rvalue c => c
/-- impulse/detail/finite.ipp:21-28 and :30-37, impulse/detail/infinite.ipp:21-29 and :31-39: the stored coefficients. -/
def stored : Source → List Bool
  | const _ => [true, true]
  | rvalue c => c
end Source

/-- `std::inner_product` with an initial value of type `bool`: `acc = acc + x * c`, converted in each step.  Reading
past the end of the coefficients is undefined behaviour (`none`). -/
def innerProduct (acc : Bool) : List Bool → List Bool → Option Bool
  | [], _ => some acc
  | _ :: _, [] => none
  | x :: xs, c :: cs => innerProduct (ofInt (toInt acc + toInt x * toInt c)) xs cs

/-- impulse/finite.hpp:51-54. -/
structure Finite where
  input : Deque Bool
  output : Bool
  coefficients : List Bool

namespace Finite
/-- impulse/detail/finite.ipp:21-37. -/
def init (c : Source) : Finite := ⟨Deque.init c.array.length, false, c.stored⟩
/-- impulse/detail/finite.ipp:45-49. -/
def clear (s : Finite) : Finite := { s with input := s.input.clear }
/-- impulse/detail/finite.ipp:69-74. -/
def push (s : Finite) (x : Bool) : Option Finite :=
  let input := s.input.pushFront x
  (innerProduct false input.items s.coefficients).map fun output => { s with input := input, output := output }
/-- The state after a history of calls on a new filter; `none` if undefined behaviour occurred. -/
def run (c : Source) (ops : List (Op Bool)) : Option Finite :=
  runOps (some (init c)) (fun s x => s.bind (push · x)) (Option.map clear) ops
end Finite

/-- impulse/infinite.hpp:53-63. -/
structure Infinite where
  inputWindow : Deque Bool
  inputCoefficients : List Bool
  outputWindow : Deque Bool
  outputScale : Bool
  outputCoefficients : List Bool

namespace Infinite
/-- impulse/detail/infinite.ipp:21-39; both arrays are const or both are rvalues. -/
def init (a b : Source) (scale : Bool) : Infinite :=
  { inputWindow := Deque.init a.array.length, inputCoefficients := a.stored
    outputWindow := Deque.init b.array.length, outputScale := scale, outputCoefficients := b.stored }
/-- impulse/detail/infinite.ipp:41-47. -/
def clear (s : Infinite) : Infinite :=
  { s with inputWindow := s.inputWindow.clear, outputWindow := s.outputWindow.clear }
/-- impulse/detail/infinite.ipp:55-61. -/
def value (s : Infinite) : Bool := s.outputWindow.items.headD false
/-- impulse/detail/infinite.ipp:63-70.  Division by zero is undefined behaviour. -/
def push (s : Infinite) (x : Bool) : Option Infinite := do
  let inputWindow := s.inputWindow.pushFront x
  let feedforward ← innerProduct false inputWindow.items s.inputCoefficients
  let feedback ← innerProduct false s.outputWindow.items s.outputCoefficients
  let r ← if toInt s.outputScale = 0 then none
    else some ((toInt feedforward - toInt feedback).tdiv (toInt s.outputScale))
  return { s with inputWindow := inputWindow, outputWindow := s.outputWindow.pushFront (ofInt r) }
/-- The state after a history of calls on a new filter; `none` if undefined behaviour occurred. -/
def run (a b : Source) (scale : Bool) (ops : List (Op Bool)) : Option Infinite :=
  runOps (some (init a b scale)) (fun s x => s.bind (push · x)) (Option.map clear) ops
end Infinite

end Verif.BoolT
