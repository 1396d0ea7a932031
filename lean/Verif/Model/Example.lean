import Verif.Model.Cumulative
import Verif.Model.Window
/-
Model of the example programs example/regression/{cumulative,window}.cpp of /repo (the two have the same text
apart from the filter).

Simplification: the input file is a sequence of well-formed lines `x,y` followed by the end of the file (with or
without a line end after the last line: `while (file)` tests the failbit, not the eofbit).  Formatting of the
output is not modelled: a printed line is the four numbers.
-/
namespace Verif.Example
open Scalar

variable {α σ : Type}

/-- `std::ifstream`: the lines not yet read and the failbit. -/
structure Stream (α : Type) where
  lines : List (α × α)
  failed : Bool

/-- cumulative.cpp:23 `std::ifstream file(argv[1])`; `none` if the file cannot be opened. -/
def Stream.open : Option (List (α × α)) → Stream α
  | none => ⟨[], true⟩
  | some lines => ⟨lines, false⟩

/-- cumulative.cpp:26 `file >> x >> separator >> y`.  At the end of the file the first extraction sets the
failbit; it and the following ones leave the variables as they are. -/
def Stream.extract (s : Stream α) (x y : Option α) : Stream α × Option α × Option α :=
  if s.failed then (s, x, y)
  else match s.lines with
    | [] => ({ s with failed := true }, x, y)
    | (a, b) :: rest => ({ s with lines := rest }, some a, some b)

/-- The members of the regression filter that the programs use. -/
structure Filter (σ α : Type) where
  init : σ
  push : σ → α × α → Option σ
  slope : σ → α
  at' : σ → α → α

/-- A printed line: x, y, slope, intercept. -/
abbrev Line (α : Type) := α × α × α × α

/-- Lines that can still be read, and one for the failing extraction. -/
def Stream.measure (s : Stream α) : Nat := s.lines.length + (if s.failed then 0 else 1)

theorem Stream.extract_measure (s : Stream α) (x y : Option α) (h : s.failed = false) :
    (s.extract x y).1.measure < s.measure := by
  obtain ⟨lines, failed⟩ := s
  cases h
  cases lines <;> simp [Stream.extract, Stream.measure]

/-- cumulative.cpp:24-29: the loop.  `x` and `y` are `none` while they have not been initialized
(cumulative.cpp:19-20); reading them then is undefined behaviour, the outcome `none`. -/
def loop [Scalar α] (f : Filter σ α) (file : Stream α) (x y : Option α) (filter : σ) : Option (List (Line α)) :=
  if h : file.failed = false then
    match (file.extract x y).2.1, (file.extract x y).2.2 with
    | some x', some y' =>
      match f.push filter (x', y') with
      | none => none
      | some filter =>
        have := file.extract_measure x y h
        (loop f (file.extract x y).1 (some x') (some y') filter).map
          (List.cons (x', y', f.slope filter, f.at' filter (ofNat 0)))
    | _, _ => none
  else some []
termination_by file.measure

/-- cumulative.cpp:17-30: what the program prints for a file. -/
def main [Scalar α] (f : Filter σ α) (file : Option (List (α × α))) : Option (List (Line α)) :=
  loop f (Stream.open file) none none f.init

/-- cumulative.cpp:17. -/
def cumulative (w : Nat) (α : Type) [Scalar α] : Filter (Cumulative.Regression w α) α where
  init := Cumulative.Regression.init
  push s p := some (s.push p)
  slope := Cumulative.Regression.slope
  at' := Cumulative.Regression.at'

/-- window.cpp:17. -/
def window (α : Type) [Scalar α] : Filter (Window.Regression 64 α) α where
  init := Window.Regression.init
  push := Window.Regression.push
  slope := Window.Regression.slope
  at' := Window.Regression.at'

end Verif.Example
