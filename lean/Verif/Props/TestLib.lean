import Verif.Proofs.TestLib
/-
C118, C119: the test library of the repository.
-/
namespace Verif.Props
open TestLib

variable {α β : Type}

/-- Positions at which the common part of two ranges fails the predicate. -/
def differences (pred : α → β → Bool) (xs : List α) (ys : List β) : List Nat :=
  ((xs.zip ys).zipIdx.filter (fun p => !pred p.1.1 p.1.2)).map (·.2)

/-- The positions that a comparison reports. -/
def reported : List Event → List Nat := List.filterMap fun
  | .mismatch i => some i
  | _ => none

/-- C118: a comparison of ranges counts no error if and only if the ranges have the same length and all pairs satisfy the
predicate. -/
theorem C118_success (pred : α → β → Bool) (xs : List α) (ys : List β) :
    (testAll pred xs ys).errors = 0 ↔ List.Forall₂ (fun x y => pred x y = true) xs ys := by
  rw [(testAll_spec pred xs ys).1, ← mism_eq_nil pred xs ys 0]
  by_cases h : xs.length = ys.length
  · rcases hM : mism pred xs ys 0 with _ | ⟨m, M⟩ <;> simp [h]
  · simp [h]

/-- The same for `TRIAL_TEST_ALL_EQ`: the ranges are equal. -/
theorem C118_equal [DecidableEq α] (xs ys : List α) : (testAll (fun x y => decide (x = y)) xs ys).errors = 0 ↔ xs = ys := by
  rw [C118_success]
  simp

/-- C118: the positions reported are the first eight at which the ranges differ. -/
theorem C118_positions (pred : α → β → Bool) (xs : List α) (ys : List β) :
    reported (testAll pred xs ys).output = (differences pred xs ys).take 8 := by
  have hd : differences pred xs ys = mism pred xs ys 0 := (mism_eq_zip pred xs ys 0).symm
  rw [(testAll_spec pred xs ys).2, hd]
  have hm : ∀ L : List Nat, reported (L.map .mismatch) = L := by
    intro L
    simp [reported, List.filterMap_map]
  have happ : ∀ a b : List Event, reported (a ++ b) = reported a ++ reported b := fun a b => by simp [reported]
  rw [happ, happ, happ, hm]
  have h1 : reported (if mism pred xs ys 0 ≠ [] then [Event.contents] else []) = [] := by split <;> rfl
  have h2 : reported (if 8 < (mism pred xs ys 0).length then [Event.dots] else []) = [] := by split <;> rfl
  have h3 : reported (if xs.length = ys.length then [] else if mism pred xs ys 0 = [] then [Event.sizes xs.length ys.length]
      else [Event.sizesToo xs.length ys.length]) = [] := by
    split
    · rfl
    · split <;> rfl
  rw [h1, h2, h3]
  simp

/-- C118: the sizes reported are the sizes of the ranges, and they are reported if and only if they differ. -/
theorem C118_sizes (pred : α → β → Bool) (xs : List α) (ys : List β) (m n : Nat) :
    (Event.sizes m n ∈ (testAll pred xs ys).output ∨ Event.sizesToo m n ∈ (testAll pred xs ys).output) ↔
      xs.length ≠ ys.length ∧ m = xs.length ∧ n = ys.length := by
  rw [(testAll_spec pred xs ys).2]
  by_cases h : xs.length = ys.length
  · simp only [h, if_true, List.append_nil, ne_eq, not_true_eq_false, false_and, iff_false, List.mem_append, List.mem_map]
    rintro (h | h) <;> simp only [reduceCtorEq, and_false, exists_false, or_false] at h <;> rcases h with h | h <;> split at h <;> simp at h
  · by_cases hM : mism pred xs ys 0 = []
    · simp [h, hM]
    · simp only [h, hM, ne_eq, not_false_eq_true, if_true, if_false, List.mem_append, List.mem_map, List.mem_cons, reduceCtorEq,
        List.not_mem_nil, or_false, and_false, exists_false, false_or, Event.sizesToo.injEq, true_and]
      split <;> simp

/-- C118: an empty output means success, and success writes nothing. -/
theorem C118_silent (pred : α → β → Bool) (xs : List α) (ys : List β) :
    (testAll pred xs ys).output = [] ↔ (testAll pred xs ys).errors = 0 := by
  rw [(testAll_spec pred xs ys).2, (testAll_spec pred xs ys).1]
  by_cases h : xs.length = ys.length
  · rcases hM : mism pred xs ys 0 with _ | ⟨m, M⟩ <;> simp [h]
  · rcases hM : mism pred xs ys 0 with _ | ⟨m, M⟩ <;> simp [h]

example : testAll (fun x y : Nat => decide (x = y)) [1, 2, 3, 4] [1, 5, 3] =
    ⟨[.contents, .mismatch 1, .sizesToo 4 3], 2⟩ := by decide

example : (testAll (fun x y : Nat => decide (x = y)) (List.range 10) (List.replicate 10 20)).output =
    [.contents, .mismatch 0, .mismatch 1, .mismatch 2, .mismatch 3, .mismatch 4, .mismatch 5, .mismatch 6, .mismatch 7, .dots] := by
  decide

example : (testAll (fun x y : Nat => decide (x = y)) [] [1]) = ⟨[.sizes 0 1], 1⟩ := by decide

/-- The claim: a test program succeeds if and only if all its checks hold. -/
def FailuresCount (boost168 : Bool) : Prop :=
  ∀ (α : Type) (pred : α → α → Bool) (checks : List (α × α)),
    program boost168 pred checks = true ↔ ∀ c ∈ checks, pred c.1 c.2 = true

/-- C119, with Boost 1.67 or earlier. -/
theorem C119_counts_partial : FailuresCount false := by
  intro α pred checks
  unfold program
  rw [program_false]
  simp [List.filter_eq_nil_iff]

/-- With Boost 1.68 or later every test program succeeds, whatever its checks `TRIAL_TEST_WITH`. -/
theorem C119_always (pred : α → α → Bool) (checks : List (α × α)) : program true pred checks = true := by
  unfold program
  rw [program_true]
  rfl

/-- C119 fails with Boost 1.68 or later: a check of 1 = 2 is not counted. -/
theorem C119_violated : ¬ FailuresCount true := by
  intro h
  have := (h Nat (fun x y => decide (x = y)) [(1, 2)]).1 (C119_always _ _) (1, 2) (by simp)
  simp at this

/-- The same for ranges: the number of errors changes neither on success nor on failure. -/
theorem C119_ranges (pred : α → β → Bool) (xs : List α) (ys : List β) (e : Nat) : testAllWith true pred xs ys e = e := by
  unfold testAllWith testSuccess testFailure
  split <;> simp

/-- With Boost 1.67 or earlier a comparison of ranges counts one error if and only if the ranges do not match. -/
theorem C119_ranges_partial (pred : α → β → Bool) (xs : List α) (ys : List β) (e : Nat) :
    (testAllWith false pred xs ys e = e ↔ List.Forall₂ (fun x y => pred x y = true) xs ys) ∧
      (¬ List.Forall₂ (fun x y => pred x y = true) xs ys → testAllWith false pred xs ys e = e + 1) := by
  rw [← C118_success]
  unfold testAllWith testSuccess testFailure
  constructor
  · split <;> simp_all
  · intro h; rw [if_neg h]; rfl

example : program false (fun x y : Nat => decide (x = y)) [(1, 1), (1, 2)] = false := by decide
example : program true (fun x y : Nat => decide (x = y)) [(1, 1), (1, 2)] = true := by decide

end Verif.Props
