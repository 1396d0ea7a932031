import Verif.Scalar
import Mathlib.Data.Real.Basic
import Mathlib.Analysis.Real.Sqrt
import Mathlib.Algebra.Order.Floor.Semiring
import Mathlib.Algebra.Order.Archimedean.Real.Basic
/-
Floating-point arithmetic over the reals with a rounding function.

`X F` has the real numbers, `+inf`, `-inf` and `nan` with the IEEE 754 rules for special values.  Every
operation on finite numbers computes the exact real result and rounds it with `F.rnd`; if the rounded
number does not fit the format the result is an infinity.

`Fmt.exact ε` does not round and has no largest number.

Simplification: there is a single zero, which divides like `+0`.
-/
namespace Verif
open Classical

/-- A floating-point format. -/
structure Fmt where
  /-- rounding of a real number as though the exponent range were unbounded above -/
  rnd : ℝ → ℝ
  /-- the rounded number is within the exponent range -/
  fits : ℝ → Prop
  /-- `std::numeric_limits<T>::epsilon()` -/
  eps : ℝ

/-- No rounding, no overflow. -/
def Fmt.exact (ε : ℝ) : Fmt := { rnd := fun r => r, fits := fun _ => True, eps := ε }

/-- Numbers of format `F` with the special values. -/
inductive X (F : Fmt) where
  | fin (r : ℝ)
  | pinf
  | ninf
  | nan

namespace X
variable {F : Fmt}

/-- The result of an operation whose exact result is `r`. -/
noncomputable def round (r : ℝ) : X F :=
  if F.fits (F.rnd r) then fin (F.rnd r) else if 0 < r then pinf else ninf

/-- `-x` (only used to define the other operations). -/
def neg : X F → X F
  | fin r => fin (-r)
  | pinf => ninf
  | ninf => pinf
  | nan => nan

/-- `a + b`. -/
noncomputable def add : X F → X F → X F
  | fin a, fin b => round (a + b)
  | nan, _ => nan
  | _, nan => nan
  | pinf, ninf => nan
  | ninf, pinf => nan
  | pinf, _ => pinf
  | _, pinf => pinf
  | ninf, _ => ninf
  | _, ninf => ninf

/-- `a - b`. -/
noncomputable def sub : X F → X F → X F
  | fin a, fin b => round (a - b)
  | a, b => add a (neg b)

/-- An infinity with the sign of `r`, `nan` for `r = 0`. -/
noncomputable def signedInf (r : ℝ) : X F :=
  if 0 < r then pinf else if r < 0 then ninf else nan

/-- `a * b`. -/
noncomputable def mul : X F → X F → X F
  | fin a, fin b => round (a * b)
  | nan, _ => nan
  | _, nan => nan
  | pinf, fin b => signedInf b
  | fin a, pinf => signedInf a
  | ninf, fin b => signedInf (-b)
  | fin a, ninf => signedInf (-a)
  | pinf, pinf => pinf
  | pinf, ninf => ninf
  | ninf, pinf => ninf
  | ninf, ninf => pinf

/-- `a / b`; `0 / 0 = nan`, `a / 0 = ±inf` with the sign of `a`. -/
noncomputable def div : X F → X F → X F
  | fin a, fin b => if b = 0 then signedInf a else round (a / b)
  | nan, _ => nan
  | _, nan => nan
  | fin _, pinf => fin 0
  | fin _, ninf => fin 0
  | pinf, fin b => if b < 0 then ninf else pinf
  | ninf, fin b => if b < 0 then pinf else ninf
  | _, _ => nan

/-- `a < b`. -/
noncomputable def lt : X F → X F → Bool
  | fin a, fin b => decide (a < b)
  | nan, _ => false
  | _, nan => false
  | ninf, ninf => false
  | ninf, _ => true
  | fin _, pinf => true
  | _, _ => false

/-- `a == b`. -/
noncomputable def beq : X F → X F → Bool
  | fin a, fin b => decide (a = b)
  | pinf, pinf => true
  | ninf, ninf => true
  | _, _ => false

/-- `a <= b`. -/
noncomputable def le (a b : X F) : Bool := lt a b || beq a b

/-- `std::sqrt(a)`. -/
noncomputable def sqrt : X F → X F
  | fin a => if a < 0 then nan else round (Real.sqrt a)
  | pinf => pinf
  | _ => nan

/-- `std::abs(a)` (always exact). -/
def abs : X F → X F
  | fin a => fin |a|
  | pinf => pinf
  | ninf => pinf
  | nan => nan

/-- `std::floor(a)` (always exact). -/
noncomputable def floor : X F → X F
  | fin a => fin ⌊a⌋
  | a => a

/-- Conversion to an unsigned integer: truncation; undefined for negative results and special values. -/
noncomputable def toIndex : X F → Option Nat
  | fin a => if -1 < a then some ⌊a⌋₊ else none
  | _ => none

noncomputable instance : Scalar (X F) where
  add := add
  sub := sub
  mul := mul
  div := div
  ofInt n := round (n : ℝ)
  lt := lt
  le := le
  beq := beq
  sqrt := sqrt
  floor := floor
  toIndex := toIndex
  eps := fin F.eps

/-! ### Evaluation rules -/

theorem add_fin (a b : ℝ) : (fin a + fin b : X F) = round (a + b) := rfl
theorem sub_fin (a b : ℝ) : (fin a - fin b : X F) = round (a - b) := rfl
theorem mul_fin (a b : ℝ) : (fin a * fin b : X F) = round (a * b) := rfl
theorem div_fin (a b : ℝ) :
    (fin a / fin b : X F) = if b = 0 then signedInf a else round (a / b) := rfl
theorem div_fin_of_ne (a : ℝ) {b : ℝ} (h : b ≠ 0) : (fin a / fin b : X F) = round (a / b) := by
  rw [div_fin, if_neg h]
theorem div_fin_zero (a : ℝ) : (fin a / fin 0 : X F) = signedInf a := by
  rw [div_fin, if_pos rfl]
theorem zero_div_zero : (fin 0 / fin 0 : X F) = nan := by simp [div_fin, signedInf]
theorem ofInt_eq (n : Int) : (Scalar.ofInt n : X F) = round (n : ℝ) := rfl
theorem ofNat_eq (n : Nat) : (Scalar.ofNat n : X F) = round (n : ℝ) := by
  simp [Scalar.ofNat, ofInt_eq]
theorem lt_fin (a b : ℝ) : Scalar.lt (fin a : X F) (fin b) = decide (a < b) := rfl
theorem beq_fin (a b : ℝ) : Scalar.beq (fin a : X F) (fin b) = decide (a = b) := rfl
theorem le_fin (a b : ℝ) : Scalar.le (fin a : X F) (fin b) = decide (a ≤ b) := by
  show (decide (a < b) || decide (a = b)) = _
  rw [← Bool.decide_or]; exact decide_eq_decide.2 le_iff_lt_or_eq.symm
theorem sqrt_fin (a : ℝ) :
    Scalar.sqrt (fin a : X F) = if a < 0 then nan else round (Real.sqrt a) := rfl
theorem sqrt_fin_of_nonneg {a : ℝ} (h : 0 ≤ a) :
    Scalar.sqrt (fin a : X F) = round (Real.sqrt a) := by
  rw [sqrt_fin, if_neg (not_lt.2 h)]
theorem floor_fin (a : ℝ) : Scalar.floor (fin a : X F) = fin ⌊a⌋ := rfl
theorem toIndex_fin (a : ℝ) :
    Scalar.toIndex (fin a : X F) = if -1 < a then some ⌊a⌋₊ else none := rfl
theorem eps_eq : (Scalar.eps : X F) = fin F.eps := rfl

@[simp] theorem fin_inj {a b : ℝ} : (fin a : X F) = fin b ↔ a = b :=
  ⟨fun h => by injection h, fun h => by rw [h]⟩

/-- The value is a finite number. -/
def IsFin (x : X F) : Prop := ∃ r, x = fin r

@[simp] theorem isFin_fin (r : ℝ) : IsFin (fin r : X F) := ⟨r, rfl⟩

end X

/-! ### Exact arithmetic -/

namespace Exact
variable {ε : ℝ}

/-- Exact extended reals. -/
abbrev E (ε : ℝ) := X (Fmt.exact ε)

/-- A finite number of the exact arithmetic. -/
abbrev fin (r : ℝ) : E ε := X.fin r

@[simp] theorem round_eq (r : ℝ) : (X.round r : E ε) = X.fin r := by
  simp [X.round, Fmt.exact]
@[simp] theorem add_fin (a b : ℝ) : (X.fin a + X.fin b : E ε) = X.fin (a + b) := by
  rw [X.add_fin, round_eq]
@[simp] theorem sub_fin (a b : ℝ) : (X.fin a - X.fin b : E ε) = X.fin (a - b) := by
  rw [X.sub_fin, round_eq]
@[simp] theorem mul_fin (a b : ℝ) : (X.fin a * X.fin b : E ε) = X.fin (a * b) := by
  rw [X.mul_fin, round_eq]
theorem div_fin (a : ℝ) {b : ℝ} (h : b ≠ 0) : (X.fin a / X.fin b : E ε) = X.fin (a / b) := by
  rw [X.div_fin_of_ne a h, round_eq]
@[simp] theorem ofNat_eq (n : Nat) : (Scalar.ofNat n : E ε) = X.fin (n : ℝ) := by
  rw [X.ofNat_eq, round_eq]
@[simp] theorem ofInt_eq (n : Int) : (Scalar.ofInt n : E ε) = X.fin (n : ℝ) := by
  rw [X.ofInt_eq, round_eq]
@[simp] theorem lt_fin (a b : ℝ) : Scalar.lt (X.fin a : E ε) (X.fin b) = decide (a < b) := rfl
@[simp] theorem beq_fin (a b : ℝ) : Scalar.beq (X.fin a : E ε) (X.fin b) = decide (a = b) := rfl
@[simp] theorem le_fin (a b : ℝ) : Scalar.le (X.fin a : E ε) (X.fin b) = decide (a ≤ b) :=
  X.le_fin a b
theorem sqrt_fin {a : ℝ} (h : 0 ≤ a) : Scalar.sqrt (X.fin a : E ε) = X.fin (Real.sqrt a) := by
  rw [X.sqrt_fin_of_nonneg h, round_eq]
@[simp] theorem eps_eq : (Scalar.eps : E ε) = X.fin ε := rfl
theorem max_fin (a b : ℝ) : Scalar.max (X.fin a : E ε) (X.fin b) = X.fin (max a b) := by
  unfold Scalar.max
  rw [lt_fin]
  by_cases h : a < b
  · simp [h, max_eq_right h.le]
  · simp [h, max_eq_left (not_lt.1 h)]

end Exact
end Verif
