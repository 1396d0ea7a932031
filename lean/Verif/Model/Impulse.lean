import Verif.Scalar
/-
Model of include/trial/online/impulse/{finite,infinite}.hpp and detail/*.ipp.
Paths in comments are relative to /repo/include/trial/online.

`circular::vector<T>` is external (trial.circular, not in /repo); it is modelled by its documented
behaviour: a bounded deque whose `push_front` drops the last element when full.
-/
namespace Verif.Impulse
open Scalar

variable {α : Type} [Scalar α]

/-- Contents of `circular::vector<T>(capacity)`, front first (external library, see above). -/
structure Deque (β : Type) where
  capacity : Nat
  items : List β

namespace Deque
variable {β : Type}
/-- Construction with a capacity: empty. -/
def init (capacity : Nat) : Deque β := ⟨capacity, []⟩
/-- `clear()`: keeps the capacity. -/
def clear (d : Deque β) : Deque β := { d with items := [] }
/-- `size()`. -/
def size (d : Deque β) : Nat := d.items.length
/-- `empty()`. -/
def empty (d : Deque β) : Bool := d.items.length == 0
/-- `full()`. -/
def full (d : Deque β) : Bool := d.items.length == d.capacity
/-- `push_front(x)`: drops the last element when full. -/
def pushFront (d : Deque β) (x : β) : Deque β :=
  { d with items := if d.full then x :: d.items.dropLast else x :: d.items }
end Deque

/-- `std::inner_product(window.begin(), window.end(), coefficients.begin(), value_type())`.  Reading
past the end of `coefficients` is undefined behaviour (`none`). -/
def innerProduct (acc : α) : List α → List α → Option α
  | [], _ => some acc
  | _ :: _, [] => none
  | x :: xs, c :: cs => innerProduct (acc + x * c) xs cs

/-! ### Finite impulse response -/

/-- impulse/finite.hpp:51-54. -/
structure Finite (α : Type) where
  input : Deque α
  output : α
  coefficients : List α

namespace Finite

/-- impulse/detail/finite.ipp:21-37; `P` is the length of the array. -/
def init (coefficients : List α) : Finite α :=
  { input := Deque.init coefficients.length, output := ofNat 0, coefficients := coefficients }

/-- impulse/detail/finite.ipp:39-43. -/
def capacity (s : Finite α) : Nat := s.input.capacity
/-- impulse/detail/finite.ipp:45-49.  `output` is not reset. -/
def clear (s : Finite α) : Finite α := { s with input := s.input.clear }
/-- impulse/detail/finite.ipp:51-55. -/
def empty (s : Finite α) : Bool := s.input.empty
/-- impulse/detail/finite.ipp:57-61. -/
def full (s : Finite α) : Bool := s.input.full
/-- impulse/detail/finite.ipp:63-67. -/
def value (s : Finite α) : α := s.output
/-- impulse/detail/finite.ipp:69-74. -/
def push (s : Finite α) (x : α) : Option (Finite α) :=
  let input := s.input.pushFront x
  (innerProduct (ofNat 0) input.items s.coefficients).map fun output =>
    { s with input := input, output := output }
/-- impulse/detail/finite.ipp:76-80. -/
def size (s : Finite α) : Nat := s.input.size

/-- The state after a history of calls on a new filter; `none` if undefined behaviour occurred. -/
def run (coefficients : List α) (ops : List (Op α)) : Option (Finite α) :=
  runOps (some (init coefficients)) (fun s x => s.bind (push · x)) (Option.map clear) ops

end Finite

/-! ### Infinite impulse response -/

/-- impulse/infinite.hpp:53-63. -/
structure Infinite (α : Type) where
  inputWindow : Deque α
  inputCoefficients : List α
  outputWindow : Deque α
  outputScale : α
  outputCoefficients : List α

namespace Infinite

/-- impulse/detail/infinite.ipp:21-39. -/
def init (inputCoefficients outputCoefficients : List α) (scale : α) : Infinite α :=
  { inputWindow := Deque.init inputCoefficients.length, inputCoefficients := inputCoefficients
    outputWindow := Deque.init outputCoefficients.length, outputScale := scale
    outputCoefficients := outputCoefficients }

/-- impulse/detail/infinite.ipp:41-47. -/
def clear (s : Infinite α) : Infinite α :=
  { s with inputWindow := s.inputWindow.clear, outputWindow := s.outputWindow.clear }

/-- impulse/detail/infinite.ipp:49-53. -/
def empty (s : Infinite α) : Bool := s.inputWindow.empty

/-- impulse/detail/infinite.ipp:55-61. -/
def value (s : Infinite α) : α :=
  match s.outputWindow.items with
  | [] => ofNat 0
  | y :: _ => y

/-- impulse/detail/infinite.ipp:63-70. -/
def push (s : Infinite α) (x : α) : Option (Infinite α) := do
  let inputWindow := s.inputWindow.pushFront x
  let feedforward ← innerProduct (ofNat 0) inputWindow.items s.inputCoefficients
  let feedback ← innerProduct (ofNat 0) s.outputWindow.items s.outputCoefficients
  return { s with inputWindow := inputWindow
                  outputWindow := s.outputWindow.pushFront ((feedforward - feedback) / s.outputScale) }

/-- The state after a history of calls on a new filter; `none` if undefined behaviour occurred. -/
def run (inputCoefficients outputCoefficients : List α) (scale : α) (ops : List (Op α)) :
    Option (Infinite α) :=
  runOps (some (init inputCoefficients outputCoefficients scale)) (fun s x => s.bind (push · x))
    (Option.map clear) ops

end Infinite
end Verif.Impulse
