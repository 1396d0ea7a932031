import Verif.Ext
import Verif.Proofs.History
import Verif.Proofs.DecayRounded
/-
Rules for `nan` and the infinities, and histories that contain a bad value.
-/
namespace Verif
open Scalar

namespace X
variable {F : Fmt}

@[simp] theorem nan_add (a : X F) : nan + a = nan := by show add _ _ = _; cases a <;> rfl
@[simp] theorem add_nan (a : X F) : a + nan = nan := by show add _ _ = _; cases a <;> rfl
@[simp] theorem nan_sub (a : X F) : nan - a = nan := by show sub _ _ = _; cases a <;> rfl
@[simp] theorem sub_nan (a : X F) : a - nan = nan := by show sub _ _ = _; cases a <;> rfl
@[simp] theorem nan_mul (a : X F) : nan * a = nan := by show mul _ _ = _; cases a <;> rfl
@[simp] theorem mul_nan (a : X F) : a * nan = nan := by show mul _ _ = _; cases a <;> rfl
@[simp] theorem nan_div (a : X F) : nan / a = nan := by show div _ _ = _; cases a <;> rfl
@[simp] theorem div_nan (a : X F) : a / nan = nan := by show div _ _ = _; cases a <;> rfl
@[simp] theorem sqrt_nan : Scalar.sqrt (nan : X F) = nan := rfl
@[simp] theorem nan_lt (a : X F) : Scalar.lt nan a = false := by show lt _ _ = _; cases a <;> rfl
@[simp] theorem lt_nan (a : X F) : Scalar.lt a nan = false := by show lt _ _ = _; cases a <;> rfl
@[simp] theorem nan_beq (a : X F) : Scalar.beq nan a = false := by show beq _ _ = _; cases a <;> rfl
@[simp] theorem max_nan (a : X F) : Scalar.max a nan = a := by simp [Scalar.max]

/-- Neither finite nor `nan`. -/
def IsInf (a : X F) : Prop := a = pinf ∨ a = ninf

end X

/-- A property that a bad value establishes and every further value preserves. -/
theorem foldl_of_mem {σ β : Type} {push : σ → β → σ} {P : σ → Prop} {bad : β → Prop}
    (h1 : ∀ s x, bad x → P (push s x)) (h2 : ∀ s x, P s → P (push s x)) {xs : List β}
    (h : ∃ x ∈ xs, bad x) (s : σ) : P (xs.foldl push s) := by
  induction xs using List.reverseRecOn with
  | nil => simp at h
  | append_singleton xs x ih =>
    rw [List.foldl_append, List.foldl_cons, List.foldl_nil]
    obtain ⟨y, hy, hb⟩ := h
    rcases List.mem_append.1 hy with hy | hy
    · exact h2 _ _ (ih ⟨y, hy, hb⟩)
    · rw [List.mem_singleton] at hy
      exact h1 _ _ (hy ▸ hb)

/-- The same for a filter whose `push` may be undefined, but is not. -/
theorem foldl_bind_of_mem {σ β : Type} {push : σ → β → Option σ} {P : σ → Prop} {bad : β → Prop}
    (h0 : ∀ s x, ∃ s', push s x = some s')
    (h1 : ∀ s s' x, bad x → push s x = some s' → P s') (h2 : ∀ s s' x, P s → push s x = some s' → P s')
    {xs : List β} (h : ∃ x ∈ xs, bad x) (s : σ) :
    ∃ t, xs.foldl (fun s x => s.bind (push · x)) (some s) = some t ∧ P t := by
  have key : ∀ xs : List β, ∃ t, xs.foldl (fun s x => s.bind (push · x)) (some s) = some t
      ∧ ((∃ x ∈ xs, bad x) → P t) := by
    intro xs
    induction xs using List.reverseRecOn with
    | nil => exact ⟨s, rfl, by simp⟩
    | append_singleton xs x ih =>
      obtain ⟨t, ht, hP⟩ := ih
      obtain ⟨t', ht'⟩ := h0 t x
      refine ⟨t', by rw [List.foldl_append, ht]; exact ht', ?_⟩
      rintro ⟨y, hy, hb⟩
      rcases List.mem_append.1 hy with hy | hy
      · exact h2 _ _ _ (hP ⟨y, hy, hb⟩) ht'
      · rw [List.mem_singleton] at hy
        exact h1 _ _ _ (hy ▸ hb) ht'
  obtain ⟨t, ht, hP⟩ := key xs
  exact ⟨t, ht, hP h⟩

namespace Decay
variable {F : Fmt} {p : Nat} {emin : Int}

/-- The normalization of one class of a decay filter with factor `f`. -/
def NormW (p : Nat) (emin : Int) (f : ℝ) (n : X F) : Prop :=
  ∃ r, n = X.fin r ∧ IsRep p emin r ∧ r ≤ 1 ∧ (r = 0 ∨ f ≤ r)

/-- The normalization is above 0. -/
def NormP (p : Nat) (emin : Int) (f : ℝ) (n : X F) : Prop :=
  ∃ r, n = X.fin r ∧ IsRep p emin r ∧ r ≤ 1 ∧ f ≤ r

theorem NormP.weak {f : ℝ} {n : X F} (h : NormP p emin f n) : NormW p emin f n := by
  obtain ⟨r, a, b, c, d⟩ := h; exact ⟨r, a, b, c, Or.inr d⟩

theorem NormW.step (hF : F.Binary p emin) {f : ℝ} (hf0 : 0 < f) (hf1 : f ≤ 1) (hfr : IsRep p emin f) {n : X F}
    (h : NormW p emin f n) : NormP p emin f (n + X.fin f * (ofNat 1 - n)) := by
  obtain ⟨r, rfl, b, c, d⟩ := h
  obtain ⟨n', b1, b2, b3, b4, b5, b6⟩ := norm_step hF hf0 hf1 hfr b c d
  exact ⟨n', b1, b3, b6, b5⟩

theorem NormP.lt (hF : F.Binary p emin) {f : ℝ} (hf0 : 0 < f) {n : X F} (h : NormP p emin f n) :
    Scalar.lt (ofNat 0) n = true := by
  obtain ⟨r, rfl, b, c, d⟩ := h
  rw [hF.ofNat_zero, X.lt_fin]; simp; linarith

theorem NormW.zero (hF : F.Binary p emin) (f : ℝ) : NormW p emin f (ofNat 0 : X F) :=
  ⟨0, hF.ofNat_zero, isRep_zero _ _, zero_le_one, Or.inl rfl⟩

end Decay
end Verif
