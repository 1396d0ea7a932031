/-
Model of the repository's test library.  include/trial/online/detail/lightweight_test.hpp

The output stream is the list of the things written to it.  Boost is external: `boost::detail::test_results()` is the
object that holds the number of errors, its member `errors()` returns a reference to this number (Boost 1.68 and later),
`boost::detail::test_errors()` is a reference to the number (earlier versions), and `boost::report_errors()` returns a
non-zero exit status if and only if the number is not zero.
-/
namespace Verif.TestLib

/-- What a failed comparison writes. -/
inductive Event where
  /-- "Container contents differ" -/
  | contents
  /-- " [i]" -/
  | mismatch (i : Nat)
  /-- " ..." -/
  | dots
  /-- "Container sizes differ ... size(m) != size(n)" -/
  | sizes (m n : Nat)
  /-- " [*] size(m) != size(n)" -/
  | sizesToo (m n : Nat)
  deriving DecidableEq, Repr

variable {α β : Type}

/-- The inner `while`: lightweight_test.hpp:154-160 (83-89).  The iterators are the rests of the two ranges, the indices advance
with them. -/
def skip (pred : α → β → Bool) : List α → List β → Nat → List α × List β × Nat
  | x :: xs, y :: ys, i => if pred x y then skip pred xs ys (i + 1) else (x :: xs, y :: ys, i)
  | xs, ys, i => (xs, ys, i)

/-- lightweight_test.hpp:151 (80). -/
def maxCount : Nat := 8

/-- State of the loop. -/
structure Loop (α β : Type) where
  first : List α
  second : List β
  index : Nat
  errors : Nat
  output : List Event

/-- One round of the `do` loop, and whether it ends with `break`: lightweight_test.hpp:152-180. -/
def round (pred : α → β → Bool) (s : Loop α β) : Loop α β × Bool :=
  match skip pred s.first s.second s.index with
  | (x :: xs, y :: ys, i) =>
    if s.errors = 0 then
      (⟨xs, ys, i + 1, s.errors + 1, s.output ++ [.contents, .mismatch i]⟩, false)
    else if s.errors ≥ maxCount then
      (⟨x :: xs, y :: ys, i, s.errors, s.output ++ [.dots]⟩, true)
    else
      (⟨xs, ys, i + 1, s.errors + 1, s.output ++ [.mismatch i]⟩, false)
  | (xs, ys, i) => (⟨xs, ys, i, s.errors, s.output⟩, true)

/-- `do ... while (first_it != first_end)`: lightweight_test.hpp:152-180.  The fuel is the length of the first range plus
one, which suffices (`Proofs/TestLib.lean`). -/
def loop (pred : α → β → Bool) : Nat → Loop α β → Loop α β
  | 0, s => s
  | fuel + 1, s =>
    let r := round pred s
    if r.2 then r.1 else if r.1.first.isEmpty then r.1 else loop pred fuel r.1

/-- What a comparison writes, and `error_count`. -/
structure Outcome where
  output : List Event
  errors : Nat
  deriving DecidableEq, Repr

/-- `test_all_with_impl`: lightweight_test.hpp:137-206 (`test_all_eq_impl`, lightweight_test.hpp:68-135, with `pred` `==`). -/
def testAll (pred : α → β → Bool) (first : List α) (second : List β) : Outcome :=
  let s := loop pred (first.length + 1) ⟨first, second, 0, 0, []⟩
  let i := s.index + s.first.length
  let j := s.index + s.second.length
  if i ≠ j then
    ⟨s.output ++ [if s.errors = 0 then .sizes i j else .sizesToo i j], s.errors + 1⟩
  else ⟨s.output, s.errors⟩

/-! ### Counting of errors -/

/-- `test_success()`: lightweight_test.hpp:27-34; the number of errors does not change. -/
def testSuccess (errors : Nat) : Nat := errors

/-- `test_failure()`: lightweight_test.hpp:36-43.  With Boost 1.68 or later it calls `errors()` and discards the reference. -/
def testFailure (boost168 : Bool) (errors : Nat) : Nat := if boost168 then errors else errors + 1

/-- `test_with_impl`: lightweight_test.hpp:47-66. -/
def testWith (boost168 : Bool) (pred : α → α → Bool) (lhs rhs : α) (errors : Nat) : Nat :=
  if pred lhs rhs then testSuccess errors else testFailure boost168 errors

/-- `test_all_with_impl`, the end: lightweight_test.hpp:197-205. -/
def testAllWith (boost168 : Bool) (pred : α → β → Bool) (first : List α) (second : List β) (errors : Nat) : Nat :=
  if (testAll pred first second).errors = 0 then testSuccess errors else testFailure boost168 errors

/-- A test program: checks `TRIAL_TEST_WITH(lhs, rhs, pred)`, then `return boost::report_errors()`.  The result is whether
the program succeeds. -/
def program (boost168 : Bool) (pred : α → α → Bool) (checks : List (α × α)) : Bool :=
  checks.foldl (fun e c => testWith boost168 pred c.1 c.2 e) 0 == 0

end Verif.TestLib
