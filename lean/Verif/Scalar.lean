/-
The value type `T` of the C++ templates.

`Scalar α` lists exactly the operations that the code in /repo/include/trial/online applies to
values of type `T` (floating-point).  Nothing is assumed about them here.
-/
namespace Verif

/-- `std::size_t` with a width of `w` bits; all its arithmetic is modulo `2^w`, as in C++. -/
abbrev SizeT (w : Nat) := BitVec w

/-- The operations the library uses on its value type `T`.
* `ofInt n` is the conversion `value_type(n)` of an integer (explicit, or implicit in mixed
  expressions such as `delta / n`), and integer literals such as `value_type(3)`.
* `lt`, `le`, `beq` are the built-in comparisons `<`, `<=`, `==` (so `a > b` is `lt b a` and
  `a >= b` is `le b a`; with NaN these are not each other's negation).
* `toIndex` is the implicit floating-point to `size_t` conversion in `heights[rank]`
  (quantile/detail/psquare.ipp:190); `none` where C++ leaves it undefined.
* `eps` is `std::numeric_limits<T>::epsilon()`. -/
class Scalar (α : Type) extends Add α, Sub α, Mul α, Div α where
  ofInt : Int → α
  lt : α → α → Bool
  le : α → α → Bool
  beq : α → α → Bool
  sqrt : α → α
  floor : α → α
  toIndex : α → Option Nat
  eps : α

namespace Scalar
variable {α : Type} [Scalar α]

/-- `value_type(n)` for an unsigned number `n`. -/
def ofNat (n : Nat) : α := ofInt n

/-- `value_type(n)` for `n` of type `size_t`. -/
def ofSize {w : Nat} (n : SizeT w) : α := ofNat n.toNat

/-- `std::max(a, b)`: returns `(a < b) ? b : a`. -/
def max (a b : α) : α := if lt a b then b else a

/-- `value_type(0)`. -/
def zero : α := ofNat 0
/-- `value_type(1)`. -/
def one : α := ofNat 1

end Scalar

/-- One call on a filter whose data points have type `β`. -/
inductive Op (β : Type) where
  | push (x : β)
  | clear
  deriving Repr

/-- The data points pushed since the last `clear` (since construction if there is none). -/
def sinceClear {β : Type} (ops : List (Op β)) : List β :=
  ops.foldl (fun acc op => match op with
    | .push x => acc ++ [x]
    | .clear => []) []

/-- The state reached from `init` by a list of calls. -/
def runOps {σ β : Type} (init : σ) (push : σ → β → σ) (clear : σ → σ) (ops : List (Op β)) : σ :=
  ops.foldl (fun s op => match op with
    | .push x => push s x
    | .clear => clear s) init

end Verif
