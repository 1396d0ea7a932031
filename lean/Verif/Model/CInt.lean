/-
Integer arithmetic of C++: integral promotion, usual arithmetic conversions, signed overflow.

A value carries its type.  Undefined behaviour is the outcome `none`.
-/
namespace Verif.CInt

/-- An integer type: its width and whether it is signed. -/
structure Ty where
  bits : Nat
  signed : Bool
  deriving DecidableEq, Repr

/-- The widths of `int` and `std::size_t`. -/
structure Platform where
  intBits : Nat
  sizeBits : Nat

namespace Ty
/-- Smallest value. -/
def lo (t : Ty) : Int := if t.signed then -(2 : Int) ^ (t.bits - 1) else 0
/-- Largest value plus one. -/
def hi (t : Ty) : Int := if t.signed then (2 : Int) ^ (t.bits - 1) else 2 ^ t.bits
/-- `z` is a value of the type. -/
def Has (t : Ty) (z : Int) : Prop := t.lo ≤ z ∧ z < t.hi
instance (t : Ty) (z : Int) : Decidable (t.Has z) := by unfold Has; infer_instance
/-- Conversion of the integer `z` to the type: modulo `2^bits`. -/
def conv (t : Ty) (z : Int) : Int := if t.signed then (BitVec.ofInt t.bits z).toInt else z % 2 ^ t.bits
end Ty

/-- A value and its type. -/
structure Val where
  ty : Ty
  val : Int
  deriving DecidableEq, Repr

/-- Conversion `T(a)`. -/
def cast (t : Ty) (a : Val) : Val := ⟨t, t.conv a.val⟩

namespace Platform
variable (P : Platform)

/-- `int`. -/
def int : Ty := ⟨P.intBits, true⟩
/-- `std::size_t`. -/
def size : Ty := ⟨P.sizeBits, false⟩
/-- An integer literal, of type `int`. -/
def lit (n : Int) : Val := ⟨P.int, n⟩
/-- A value of type `size_t`. -/
def sz (n : Int) : Val := ⟨P.size, n⟩

/-- Integral promotion: types narrower than `int` become `int`. -/
def promote (t : Ty) : Ty := if t.bits < P.intBits then P.int else t

/-- Usual arithmetic conversions: the common type of the operands. -/
def common (a b : Ty) : Ty :=
  let a := P.promote a
  let b := P.promote b
  if a.signed = b.signed then ⟨max a.bits b.bits, a.signed⟩
  else
    let u := if a.signed then b else a
    let s := if a.signed then a else b
    if u.bits < s.bits then s else u

/-- The result of an operation in type `t` whose exact result is `z`: unsigned types are modular, signed
overflow is undefined. -/
def result (t : Ty) (z : Int) : Option Val :=
  if t.signed then if t.Has z then some ⟨t, z⟩ else none else some ⟨t, t.conv z⟩

/-- `a + b`. -/
def add (a b : Val) : Option Val :=
  let t := P.common a.ty b.ty
  result t (t.conv a.val + t.conv b.val)

/-- `a - b`. -/
def sub (a b : Val) : Option Val :=
  let t := P.common a.ty b.ty
  result t (t.conv a.val - t.conv b.val)

/-- `a * b`. -/
def mul (a b : Val) : Option Val :=
  let t := P.common a.ty b.ty
  result t (t.conv a.val * t.conv b.val)

/-- `a / b`: truncates; division by zero is undefined. -/
def div (a b : Val) : Option Val :=
  let t := P.common a.ty b.ty
  if t.conv b.val = 0 then none else result t ((t.conv a.val).tdiv (t.conv b.val))

end Platform
end Verif.CInt
