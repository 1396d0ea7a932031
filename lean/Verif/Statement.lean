import Verif.Ext
/-
Definitions used in the statements of the property theorems.
-/
namespace Verif

/-- Apply a function to the data points of a call. -/
def Op.map {β γ : Type} (f : β → γ) : Op β → Op γ
  | .push x => .push (f x)
  | .clear => .clear

/-- A history of calls with finite numbers. -/
def finOps {F : Fmt} (ops : List (Op ℝ)) : List (Op (X F)) := ops.map (Op.map X.fin)

/-- A history of calls with pairs of finite numbers. -/
def finOps2 {F : Fmt} (ops : List (Op (ℝ × ℝ))) : List (Op (X F × X F)) :=
  ops.map (Op.map fun p => (X.fin p.1, X.fin p.2))

/-- `a * x + b` for every data point. -/
def affine (a b : ℝ) (ops : List (Op ℝ)) : List (Op ℝ) := ops.map (Op.map fun x => a * x + b)

end Verif
