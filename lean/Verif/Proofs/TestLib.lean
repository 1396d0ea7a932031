/-
The comparison of ranges of the test library, and the counting of its failures.
-/
import Verif.Model.TestLib
import Mathlib.Data.List.Forall2

namespace Verif.TestLib

variable {α β : Type}

/-- Indices, counted from `i`, at which the common part of the ranges fails the predicate. -/
def mism (pred : α → β → Bool) : List α → List β → Nat → List Nat
  | x :: xs, y :: ys, i => if pred x y then mism pred xs ys (i + 1) else i :: mism pred xs ys (i + 1)
  | [], _, _ => []
  | _ :: _, [], _ => []

theorem mism_nil_right (pred : α → β → Bool) (xs : List α) (i : Nat) : mism pred xs [] i = [] := by
  cases xs <;> rfl

theorem skip_spec (pred : α → β → Bool) (xs : List α) (ys : List β) (i : Nat) :
    let r := skip pred xs ys i
    mism pred xs ys i = mism pred r.1 r.2.1 r.2.2 ∧ r.2.2 + r.1.length = i + xs.length ∧
      r.2.2 + r.2.1.length = i + ys.length ∧ r.1.length ≤ xs.length ∧
      (∀ x xs' y ys', r.1 = x :: xs' → r.2.1 = y :: ys' → pred x y = false) := by
  induction xs generalizing ys i with
  | nil => simp [skip]
  | cons x xs ih =>
    cases ys with
    | nil => simp [skip]
    | cons y ys =>
      by_cases h : pred x y = true
      · have := ih ys (i + 1)
        simp only [skip, h, if_true, mism, List.length_cons] at this ⊢
        refine ⟨this.1, ?_, ?_, ?_, this.2.2.2.2⟩ <;> omega
      · simp [skip, h, mism]
        rintro _ _ _ _ rfl _ rfl _
        simpa using h

/-- What holds after the loop `t` that starts in state `s`. -/
def Post (pred : α → β → Bool) (s t : Loop α β) : Prop :=
  t.errors = min (s.errors + (mism pred s.first s.second s.index).length) 8 ∧
    t.output = s.output ++ ((if s.errors = 0 ∧ mism pred s.first s.second s.index ≠ [] then [.contents] else []) ++
      ((mism pred s.first s.second s.index).take (8 - s.errors)).map .mismatch ++
      (if 8 < s.errors + (mism pred s.first s.second s.index).length then [.dots] else [])) ∧
    t.index + t.first.length = s.index + s.first.length ∧
    t.index + t.second.length = s.index + s.second.length

/-- The number of errors, the output and the sizes after the loop. -/
theorem loop_spec (pred : α → β → Bool) (fuel : Nat) (s : Loop α β) (hf : s.first.length < fuel)
    (he : s.errors ≤ 8) :
    Post pred s (loop pred fuel s) := by
  induction fuel generalizing s with
  | zero => omega
  | succ fuel ih =>
    obtain ⟨hM, h1, h2, h3, h4⟩ := skip_spec pred s.first s.second s.index
    rcases hr : skip pred s.first s.second s.index with ⟨xs, ys, i⟩
    simp only [hr] at hM h1 h2 h3 h4
    rcases xs with _ | ⟨x, xs⟩
    · simp only [Post, loop, round, hr, if_true, hM, mism, List.length_nil] at *
      simp
      omega
    · rcases ys with _ | ⟨y, ys⟩
      · simp only [Post, loop, round, hr, if_true, hM, mism, List.length_nil] at *
        simp
        simp at h1
        omega
      · have hp := h4 x xs y ys rfl rfl
        simp only [List.length_cons] at h1 h2 h3
        -- the state after a mismatch that is reported
        have key : ∀ out : List Event, s.errors < 8 →
            out = s.output ++ ((if s.errors = 0 then [.contents] else []) ++ [.mismatch i]) →
            round pred s = (⟨xs, ys, i + 1, s.errors + 1, out⟩, false) →
            Post pred s (loop pred (fuel + 1) s) := by
          intro out h8 hout hround
          have base : (loop pred (fuel + 1) s) =
              if xs.isEmpty then ⟨xs, ys, i + 1, s.errors + 1, out⟩ else loop pred fuel ⟨xs, ys, i + 1, s.errors + 1, out⟩ := by
            simp [loop, hround]
          have step := ih ⟨xs, ys, i + 1, s.errors + 1, out⟩ (by show xs.length < fuel; omega) (by show s.errors + 1 ≤ 8; omega)
          have goal : ∀ t : Loop α β, t.errors = min (s.errors + 1 + (mism pred xs ys (i + 1)).length) 8 →
              t.output = out ++ (((mism pred xs ys (i + 1)).take (8 - (s.errors + 1))).map .mismatch ++
                (if 8 < s.errors + 1 + (mism pred xs ys (i + 1)).length then [.dots] else [])) →
              t.index + t.first.length = i + 1 + xs.length → t.index + t.second.length = i + 1 + ys.length →
              Post pred s t := by
            intro t a b c d
            have hm : mism pred s.first s.second s.index = i :: mism pred xs ys (i + 1) := by
              rw [hM]; simp [mism, hp]
            refine ⟨?_, ?_, by omega, by omega⟩
            · rw [a, hm, List.length_cons]; congr 1; omega
            · rw [b, hm, hout]
              obtain ⟨k, hk⟩ : ∃ k, 8 - s.errors = k + 1 := ⟨7 - s.errors, by omega⟩
              have hk' : 8 - (s.errors + 1) = k := by omega
              rw [hk, hk']
              simp only [List.take_succ_cons, List.map_cons, List.length_cons, ne_eq, reduceCtorEq, not_false_eq_true,
                and_true]
              have e : s.errors + 1 + (mism pred xs ys (i + 1)).length = s.errors + ((mism pred xs ys (i + 1)).length + 1) := by
                omega
              rw [e]
              simp
          rw [base]
          rcases xs with _ | ⟨x', xs'⟩
          · rw [if_pos (by rfl)]
            apply goal
            · show s.errors + 1 = _
              simp [mism]; omega
            · show out = _
              rw [if_neg (by simp only [mism, List.length_nil]; omega)]; simp [mism]
            · rfl
            · rfl
          · rw [if_neg (by simp)]
            apply goal
            · exact step.1
            · rw [step.2.1]
              simp
            · exact step.2.2.1
            · exact step.2.2.2
        by_cases h0 : s.errors = 0
        · apply key (s.output ++ [.contents, .mismatch i]) (by omega)
          · simp [h0]
          · simp [round, hr, h0]
        · by_cases h8 : s.errors ≥ 8
          · have hm : mism pred s.first s.second s.index = i :: mism pred xs ys (i + 1) := by
              rw [hM]; simp [mism, hp]
            have : s.errors = 8 := by omega
            simp only [Post, loop, round, hr, maxCount, hm, this]
            simp
            omega
          · apply key (s.output ++ [.mismatch i]) (by omega)
            · simp [h0]
            · simp [round, hr, h0, maxCount, h8]

theorem mism_eq_nil (pred : α → β → Bool) (xs : List α) (ys : List β) (i : Nat) :
    (mism pred xs ys i = [] ∧ xs.length = ys.length) ↔ List.Forall₂ (fun x y => pred x y = true) xs ys := by
  induction xs generalizing ys i with
  | nil => cases ys <;> simp [mism]
  | cons x xs ih =>
    cases ys with
    | nil => simp [mism]
    | cons y ys =>
      by_cases h : pred x y = true
      · simp [mism, h, ← ih ys (i + 1)]
      · simp [mism, h]

theorem mism_eq_zip (pred : α → β → Bool) (xs : List α) (ys : List β) (i : Nat) :
    mism pred xs ys i = (((xs.zip ys).zipIdx i).filter (fun p => !pred p.1.1 p.1.2)).map (·.2) := by
  induction xs generalizing ys i with
  | nil => simp [mism]
  | cons x xs ih =>
    cases ys with
    | nil => simp [mism]
    | cons y ys =>
      by_cases h : pred x y = true
      · simp [mism, h, ih]
      · simp [mism, h, ih]

theorem testAll_spec (pred : α → β → Bool) (xs : List α) (ys : List β) :
    let M := mism pred xs ys 0
    (testAll pred xs ys).errors = min M.length 8 + (if xs.length = ys.length then 0 else 1) ∧
      (testAll pred xs ys).output = (if M ≠ [] then [.contents] else []) ++ (M.take 8).map .mismatch ++
        (if 8 < M.length then [.dots] else []) ++
        (if xs.length = ys.length then [] else if M = [] then [.sizes xs.length ys.length]
          else [.sizesToo xs.length ys.length]) := by
  obtain ⟨a, b, c, d⟩ := loop_spec pred (xs.length + 1) ⟨xs, ys, 0, 0, []⟩ (by simp) (by simp)
  simp only [Nat.zero_add, List.nil_append, true_and, Nat.sub_zero] at a b c d
  unfold testAll
  simp only [c, d, a, b]
  by_cases h : xs.length = ys.length
  · simp [h]
  · simp only [ne_eq, h, not_false_eq_true, if_true, if_false, true_and]
    rcases hM : mism pred xs ys 0 with _ | ⟨m, M⟩
    · simp
    · simp

theorem program_false (pred : α → α → Bool) (checks : List (α × α)) (e : Nat) :
    checks.foldl (fun e c => testWith false pred c.1 c.2 e) e =
      e + (checks.filter (fun c => !pred c.1 c.2)).length := by
  induction checks generalizing e with
  | nil => simp
  | cons c cs ih =>
    rw [List.foldl_cons, ih]
    by_cases h : pred c.1 c.2 = true
    · simp [testWith, testSuccess, h]
    · simp [testWith, testFailure, h]; omega

theorem program_true (pred : α → α → Bool) (checks : List (α × α)) (e : Nat) :
    checks.foldl (fun e c => testWith true pred c.1 c.2 e) e = e := by
  induction checks generalizing e with
  | nil => simp
  | cons c cs ih =>
    rw [List.foldl_cons, ih]
    by_cases h : pred c.1 c.2 = true
    · simp [testWith, testSuccess, h]
    · simp [testWith, testFailure, h]

end Verif.TestLib
