import Verif.Model.Contracted
import Verif.Model.Impulse
/-
The FIR and IIR filters as compiled with contraction of floating-point expressions (see Model/Contracted.lean).

`std::inner_product` evaluates `acc = acc + *first1 * *first2` ([inner.product]/2), which the compiler may evaluate with
one rounding (impulse/detail/finite.ipp:73, impulse/detail/infinite.ipp:67-68).  The loop may be unrolled and its copies
contracted differently, so every product of every push says whether it is contracted.  Nothing else can be: the other
operations of impulse/detail/infinite.ipp:69 are a subtraction of two such results and a division.
-/
namespace Verif.Contracted
open Scalar Impulse

variable {α : Type} [Fused α]

/-- `std::inner_product` where `fused k` says whether product number `k` is contracted.  Reading past the end of
`coefficients` is undefined behaviour (`none`). -/
def innerProduct (fused : Nat → Bool) (acc : α) : List α → List α → Option α
  | [], _ => some acc
  | _ :: _, [] => none
  | x :: xs, c :: cs => innerProduct (fun k => fused (k + 1)) (addMul (fused 0) acc x c) xs cs

/-- impulse/detail/finite.ipp:69-74. -/
def Finite.push (s : Impulse.Finite α) (i : (Nat → Bool) × α) : Option (Impulse.Finite α) :=
  let input := s.input.pushFront i.2
  (innerProduct i.1 (ofNat 0) input.items s.coefficients).map fun output =>
    { s with input := input, output := output }

/-- The state after a history of calls on a new filter; `none` if undefined behaviour occurred. -/
def Finite.run (coefficients : List α) (ops : List (Op ((Nat → Bool) × α))) : Option (Impulse.Finite α) :=
  runOps (some (Impulse.Finite.init coefficients)) (fun s x => s.bind (Finite.push · x)) (Option.map Impulse.Finite.clear) ops

/-- impulse/detail/infinite.ipp:63-70.  The two functions are the contractions of lines 67 and 68. -/
def Infinite.push (s : Impulse.Infinite α) (i : ((Nat → Bool) × (Nat → Bool)) × α) : Option (Impulse.Infinite α) := do
  let inputWindow := s.inputWindow.pushFront i.2
  let feedforward ← innerProduct i.1.1 (ofNat 0) inputWindow.items s.inputCoefficients
  let feedback ← innerProduct i.1.2 (ofNat 0) s.outputWindow.items s.outputCoefficients
  return { s with inputWindow := inputWindow
                  outputWindow := s.outputWindow.pushFront ((feedforward - feedback) / s.outputScale) }

/-- The state after a history of calls on a new filter; `none` if undefined behaviour occurred. -/
def Infinite.run (inputCoefficients outputCoefficients : List α) (scale : α)
    (ops : List (Op (((Nat → Bool) × (Nat → Bool)) × α))) : Option (Impulse.Infinite α) :=
  runOps (some (Impulse.Infinite.init inputCoefficients outputCoefficients scale)) (fun s x => s.bind (Infinite.push · x))
    (Option.map Impulse.Infinite.clear) ops

end Verif.Contracted
