import Verif.Model.Reservoir
/-
The engine-driven test of the reservoir (/repo/test/sampling/reservoir_suite.cpp:57-180).  The test feeds
raw words to the standard distributions; the values drawn from them are the ones written in the comments of
the test (lines 61-71), because the distributions themselves are not part of the model.
-/
namespace Verif.Tests
open Verif.Reservoir

/-- A draw: the uniform index, and the number of elements to skip. -/
def draw (u g : Nat) : Draw 64 := ⟨fun _ => BitVec.ofNat 64 u, BitVec.ofNat 64 g⟩

/-- Pushes the values; reports acceptance, the count and the contents after each push. -/
def trace (s : Reservoir 64 Int) : List (Int × Draw 64) → List (Option (Bool × Nat × List Int))
  | [] => []
  | (x, d) :: rest =>
    match s.push x d with
    | none => [none]
    | some (s, b) => some (b, s.count.toNat, s.data) :: trace s rest

#guard trace (Reservoir.init 2)
    [(11, draw 0 0), (22, draw 0 0),
     (33, draw 2 0), (44, draw 1 0), (55, draw 0 0), (66, draw 1 0), (77, draw 2 0), (88, draw 0 0),
     (90, draw 1 0), (100, draw 0 2), (110, draw 0 0), (120, draw 0 0), (130, draw 0 0)]
  == [some (true, 1, [11]), some (true, 2, [11, 22]),
      some (false, 3, [11, 22]), some (true, 4, [11, 44]), some (true, 5, [55, 44]),
      some (true, 6, [55, 66]), some (false, 7, [55, 66]), some (true, 8, [88, 66]),
      some (true, 9, [88, 90]), some (true, 10, [100, 90]), some (false, 11, [100, 90]),
      some (false, 12, [100, 90]), some (true, 13, [130, 90])]

end Verif.Tests
