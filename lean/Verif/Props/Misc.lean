import Verif.Ext
import Verif.Model.Misc
import Verif.Model.Cumulative
import Mathlib.Tactic.NormNum
/-
C53, C54: push_iterator and close_to.
-/
namespace Verif.Props
open Scalar Exact Verif.Misc

variable {ε : ℝ}

/-! ### C53 -/

/-- C53: copying a range to `push_inserter(c)` is the same as pushing its elements in order. -/
theorem C53_push_inserter {σ β : Type} (push : σ → β → σ) (c : σ) (xs : List β) :
    PushIterator.inserter.copy push c xs = some (PushIterator.inserter, xs.foldl push c) := by
  induction xs generalizing c with
  | nil => rfl
  | cons x xs ih => exact ih (push c x)

/-- C53: dereferencing and incrementing have no effect, so the classic loop
`*it++ = x` and the bare assignment `it = x` are the same. -/
theorem C53_no_effect {σ β : Type} (push : σ → β → σ) (c : σ) (x : β) (it : PushIterator) :
    it.deref = it ∧ it.incr = it ∧ it.incr.deref.assign push c x = it.assign push c x :=
  ⟨rfl, rfl, rfl⟩

/-- C53: a copy of the iterator feeds the same container: copying two ranges one after the other is
copying their concatenation. -/
theorem C53_append {σ β : Type} (push : σ → β → σ) (c : σ) (xs ys : List β) :
    PushIterator.inserter.copy push c (xs ++ ys)
      = ((PushIterator.inserter.copy push c xs).bind fun r => r.1.copy push r.2 ys) := by
  simp [C53_push_inserter]

/-- A default-constructed iterator must not be assigned to. -/
theorem C53_singular {σ β : Type} (push : σ → β → σ) (c : σ) (x : β) (xs : List β) :
    PushIterator.default.copy push c (x :: xs) = none := rfl

/-- C53 for the cumulative mean. -/
example {w : Nat} (a b : E ε) : PushIterator.inserter.copy Cumulative.Mean.push Cumulative.Mean.init [a, b]
    = some (PushIterator.inserter, ((Cumulative.Mean.init : Cumulative.Mean w _).push a).push b) :=
  C53_push_inserter _ _ _

/-! ### C54 -/

/-- `close_to<T>(r, t)(a, b)` with `std::abs`. -/
noncomputable def closeTo {F : Fmt} (c : CloseTo (X F)) (a b : X F) : Bool := c.call X.abs a b

/-- C54: what is accepted, in exact arithmetic. -/
theorem C54_close_to (r t a b : ℝ) :
    closeTo (⟨X.fin r, X.fin t⟩ : CloseTo (E ε)) (X.fin a) (X.fin b) = true
      ↔ |a - b| < max t (r * max |a| |b|) := by
  simp only [closeTo, CloseTo.call, X.abs, sub_fin, max_fin, mul_fin, lt_fin, decide_eq_true_eq]
  rw [max_comm t]

/-- C54: symmetric, also for infinities and NaN, in every format whose rounding is symmetric. -/
theorem C54_symmetric {F : Fmt} (hr : ∀ x, F.rnd (-x) = -F.rnd x) (hf : ∀ x, F.fits (-x) ↔ F.fits x)
    (c : CloseTo (X F)) (a b : X F) : closeTo c a b = closeTo c b a := by
  have hd : ∀ x y : ℝ, X.abs (X.round (x - y) : X F) = X.abs (X.round (y - x)) := by
    intro x y
    rw [show y - x = -(x - y) by ring]
    generalize x - y = z
    unfold X.round
    rw [hr, hf]
    by_cases h : F.fits (F.rnd z)
    · simp [h, X.abs]
    · rw [if_neg h, if_neg h]
      split_ifs <;> rfl
  have hm : ∀ x y : X F, x ≠ X.nan → y ≠ X.nan →
      Scalar.max (X.abs x) (X.abs y) = Scalar.max (X.abs y) (X.abs x) := by
    intro x y hx hy
    cases x <;> cases y <;> simp_all [X.abs, Scalar.max, Scalar.lt, X.lt] <;>
      (rename_i u v; rcases lt_trichotomy |u| |v| with h | h | h <;>
        simp [h, h.not_gt])
  by_cases ha : a = X.nan
  · subst ha
    cases b <;> rfl
  by_cases hb : b = X.nan
  · subst hb
    cases a <;> rfl
  unfold closeTo CloseTo.call
  rw [hm a b ha hb]
  congr 1
  cases a <;> cases b <;> first | exact hd _ _ | rfl

/-- C54: reflexive for finite numbers when the absolute tolerance is positive, whatever the (finite)
relative tolerance, in every format that represents 0. -/
theorem C54_reflexive {F : Fmt} (h0 : F.rnd 0 = 0) (hf : F.fits 0) (r a : ℝ) {t : ℝ} (ht : 0 < t) :
    closeTo (⟨X.fin r, X.fin t⟩ : CloseTo (X F)) (X.fin a) (X.fin a) = true := by
  have hz : (X.fin a - X.fin a : X F) = X.fin 0 := by
    rw [X.sub_fin, sub_self, X.round, h0, if_pos hf]
  unfold closeTo CloseTo.call
  rw [hz]
  have hm : Scalar.max (X.abs (X.fin a : X F)) (X.abs (X.fin a)) = X.fin |a| := by
    unfold Scalar.max
    exact ite_self _
  simp only [hm, X.mul_fin]
  have h1 : X.abs (X.fin 0 : X F) = X.fin 0 := by simp [X.abs]
  rw [h1]
  unfold X.round
  split_ifs
  · by_cases h : F.rnd (r * |a|) < t
    · simp [Scalar.max, X.lt_fin, h, ht]
    · simp only [Scalar.max, X.lt_fin, h, decide_false]
      simpa [X.lt_fin] using lt_of_lt_of_le ht (not_lt.1 h)
  · simp [Scalar.max, Scalar.lt, X.lt]
  · simp [Scalar.max, Scalar.lt, X.lt, ht]

/-- C54: a NaN is close to nothing, not even to itself, whatever the tolerances and the format. -/
theorem C54_nan {F : Fmt} (c : CloseTo (X F)) (a : X F) :
    closeTo c X.nan a = false ∧ closeTo c a X.nan = false := by
  constructor
  · cases a <;> rfl
  · cases a <;> rfl

/-- An infinity is not close to itself, because the difference is NaN. -/
theorem C54_infinity {F : Fmt} (c : CloseTo (X F)) :
    closeTo c X.pinf X.pinf = false ∧ closeTo c X.ninf X.ninf = false := ⟨rfl, rfl⟩

/-- Without a positive tolerance nothing is accepted (`close_to<int>` with the default tolerances 0 and
`INT_MIN`). -/
theorem C54_no_tolerance {t : ℝ} (ht : t ≤ 0) (a b : ℝ) :
    closeTo (⟨X.fin 0, X.fin t⟩ : CloseTo (E ε)) (X.fin a) (X.fin b) = false := by
  rw [Bool.eq_false_iff, ne_eq, C54_close_to, zero_mul, not_lt]
  exact (max_le ht (le_refl 0)).trans (abs_nonneg _)

/-- 100 and 101 are within 2 percent but 10 and 11 are not. -/
example : closeTo (⟨X.fin (1 / 50), X.fin (1 / 1000)⟩ : CloseTo (E ε)) (X.fin 100) (X.fin 101) = true
    ∧ ¬ closeTo (⟨X.fin (1 / 50), X.fin (1 / 1000)⟩ : CloseTo (E ε)) (X.fin 10) (X.fin 11) = true := by
  rw [C54_close_to, C54_close_to]
  norm_num [abs_of_pos, abs_of_neg]

example : closeTo (⟨X.fin 0, X.fin 1⟩ : CloseTo (E ε)) (X.fin 3) (X.fin 3) = true :=
  C54_reflexive rfl trivial 0 3 one_pos

end Verif.Props
