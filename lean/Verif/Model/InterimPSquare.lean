import Verif.Model.PSquare
/-
Model of include/trial/online/interim/psquare_quantile.hpp and detail/psquare_quantile.ipp.
Paths in comments are relative to /repo/include/trial/online.

The class holds two estimators `first`, `second` and two pointers `active`, `inactive` to them.  The copy
and move operations are defaulted (psquare_quantile.hpp:59-62), so they copy the pointers verbatim.  The
model therefore has a memory: objects live at addresses, a pointer is the address of an object plus the
name of the member it points to.  Using a pointer into a destroyed object is undefined behaviour
(`none`).
-/
namespace Verif.InterimPSquare
open Scalar Verif.PSquare

variable {w : Nat} {α : Type} [Scalar α]

/-- Which estimator member of an object a pointer designates. -/
inductive Slot where
  | first
  | second
  deriving DecidableEq, Repr

/-- A `quantile::psquare *` into the object at address `addr`. -/
structure Ptr where
  addr : Nat
  slot : Slot
  deriving DecidableEq, Repr

/-- interim/psquare_quantile.hpp:87-90. -/
structure Obj (w : Nat) (α : Type) where
  first : PSquare w α
  second : PSquare w α
  active : Ptr
  inactive : Option Ptr

/-- The memory: the live objects. -/
abbrev Mem (w : Nat) (α : Type) := Nat → Option (Obj w α)

/-- Member access. -/
def Obj.slot (o : Obj w α) : Slot → PSquare w α
  | .first => o.first
  | .second => o.second

/-- Member update. -/
def Obj.setSlot (o : Obj w α) (k : Slot) (p : PSquare w α) : Obj w α :=
  match k with
  | .first => { o with first := p }
  | .second => { o with second := p }

namespace Mem

/-- Store an object. -/
def set (m : Mem w α) (a : Nat) (o : Option (Obj w α)) : Mem w α := fun b => if b = a then o else m b

/-- `*p`. -/
def load (m : Mem w α) (p : Ptr) : Option (PSquare w α) := (m p.addr).map (·.slot p.slot)

/-- `*p = v`. -/
def store (m : Mem w α) (p : Ptr) (v : PSquare w α) : Option (Mem w α) :=
  (m p.addr).map fun o => m.set p.addr (some (o.setSlot p.slot v))

/-- interim/detail/psquare_quantile.ipp:21-26: default construction at address `a`. -/
def construct (quantiles : List Ratio) (m : Mem w α) (a : Nat) : Mem w α :=
  m.set a (some { first := PSquare.init quantiles, second := PSquare.init quantiles
                  active := ⟨a, .first⟩, inactive := none })

/-- interim/psquare_quantile.hpp:59-62: defaulted copy/move construction or assignment of the object at
`src` to address `dst`: every member, including the pointers, is copied. -/
def copy (m : Mem w α) (dst src : Nat) : Option (Mem w α) :=
  (m src).map fun o => m.set dst (some o)

/-- End of the lifetime of the object at `a`. -/
def destroy (m : Mem w α) (a : Nat) : Mem w α := m.set a none

/-- interim/detail/psquare_quantile.ipp:28-35. -/
def clear (m : Mem w α) (a : Nat) : Option (Mem w α) :=
  (m a).map fun o => m.set a (some { first := o.first.clear, second := o.second.clear
                                     active := ⟨a, .first⟩, inactive := none })

/-- interim/detail/psquare_quantile.ipp:42-54: make room by exchanging the windows. -/
def swapWindows (W : Nat) (m : Mem w α) (a : Nat) : Option (Mem w α) := do
  let o ← m a
  let act ← m.load o.active
  if act.size ≥ BitVec.ofNat w W / 2 then
    match o.inactive with
    | some i =>
      let ina ← m.load i
      let m ← m.store i ina.clear
      let o ← m a
      return m.set a (some { o with active := i, inactive := some o.active })
    | none =>
      return m.set a (some { o with inactive := some o.active, active := ⟨a, .second⟩ })
  else
    return m

/-- interim/detail/psquare_quantile.ipp:37-56. -/
def push (W : Nat) (m : Mem w α) (a : Nat) (input : α) : Option (Mem w α) := do
  let m ← swapWindows W m a
  let o ← m a
  let act ← m.load o.active
  let act ← act.push input
  m.store o.active act

/-- interim/detail/psquare_quantile.ipp:58-62. -/
def empty (m : Mem w α) (a : Nat) : Option Bool := do
  let o ← m a
  let act ← m.load o.active
  if act.empty then
    match o.inactive with
    | none => return true
    | some i => do
      let ina ← m.load i
      return ina.empty
  else return false

/-- interim/detail/psquare_quantile.ipp:73-86 (`get<Index>`). -/
def get (W : Nat) (m : Mem w α) (a : Nat) (index : Nat) : Option α := do
  let o ← m a
  let act ← m.load o.active
  match o.inactive with
  | some i =>
    let ina ← m.load i
    let sz := act.size
    let gi ← ina.get index
    let ga ← act.get index
    return (gi * ofSize (BitVec.ofNat w W / 2 - sz) + ga * ofSize (2 * sz))
      / ofSize (BitVec.ofNat w W / 2 + sz)
  | none => act.get index

/-- interim/detail/psquare_quantile.ipp:64-71 (`value<Q>`). -/
def value (quantiles : List Ratio) (W : Nat) (m : Mem w α) (a : Nat) (r : Ratio) : Option α :=
  m.get W a ((quantileList quantiles).findIdx (· == r))

/-- The memory after a history of calls on the object at `a`. -/
def run (W : Nat) (m : Mem w α) (a : Nat) (ops : List (Op α)) : Option (Mem w α) :=
  runOps (some m) (fun m x => m.bind (push W · a x)) (fun m => m.bind (clear · a)) ops

end Mem
end Verif.InterimPSquare
