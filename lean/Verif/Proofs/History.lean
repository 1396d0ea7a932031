import Verif.Scalar
import Verif.Statement
import Mathlib.Data.BitVec
import Mathlib.Tactic.Ring
import Mathlib.Tactic.Linarith
/-
Generic lemmas on histories of calls.
-/
namespace Verif

theorem sinceClear_append_push {β : Type} (ops : List (Op β)) (x : β) :
    sinceClear (ops ++ [.push x]) = sinceClear ops ++ [x] := by
  simp [sinceClear, List.foldl_append]

theorem sinceClear_append_clear {β : Type} (ops : List (Op β)) :
    sinceClear (ops ++ [.clear]) = [] := by
  simp [sinceClear, List.foldl_append]

@[simp] theorem sinceClear_nil {β : Type} : sinceClear ([] : List (Op β)) = [] := rfl

theorem sinceClear_pushes {β : Type} (xs : List β) : sinceClear (xs.map Op.push) = xs := by
  induction xs using List.reverseRecOn with
  | nil => rfl
  | append_singleton xs x ih =>
    rw [List.map_append, List.map_singleton, sinceClear_append_push, ih]

/-- Calls after a `clear` do not see what was before it. -/
theorem sinceClear_clear_append {β : Type} (pre post : List (Op β)) :
    sinceClear (pre ++ .clear :: post) = sinceClear post := by
  simp [sinceClear, List.foldl_append]

theorem sinceClear_map {β γ : Type} (f : β → γ) (ops : List (Op β)) :
    sinceClear (ops.map (Op.map f)) = (sinceClear ops).map f := by
  induction ops using List.reverseRecOn with
  | nil => rfl
  | append_singleton ops op ih =>
    rw [List.map_append, List.map_singleton]
    cases op with
    | push x => simp [Op.map, sinceClear_append_push, ih]
    | clear => simp [Op.map, sinceClear_append_clear]

/-- If `clear` restores the initial state (on states satisfying an invariant), a history is the fold of
the values pushed since the last `clear`. -/
theorem runOps_eq_inv {σ β : Type} (P : σ → Prop) (init : σ) (push : σ → β → σ) (clear : σ → σ)
    (h0 : P init) (hp : ∀ s x, P s → P (push s x)) (hc : ∀ s, P s → clear s = init)
    (ops : List (Op β)) :
    runOps init push clear ops = (sinceClear ops).foldl push init ∧
      P (runOps init push clear ops) := by
  induction ops using List.reverseRecOn with
  | nil => exact ⟨rfl, h0⟩
  | append_singleton ops op ih =>
    cases op with
    | push x =>
      have e : runOps init push clear (ops ++ [.push x]) = push (runOps init push clear ops) x := by
        simp [runOps, List.foldl_append]
      rw [e, sinceClear_append_push, List.foldl_append, ← ih.1]
      exact ⟨rfl, hp _ _ ih.2⟩
    | clear =>
      have e : runOps init push clear (ops ++ [.clear]) = clear (runOps init push clear ops) := by
        simp [runOps, List.foldl_append]
      rw [e, sinceClear_append_clear, hc _ ih.2]
      exact ⟨rfl, h0⟩

theorem runOps_eq {σ β : Type} (init : σ) (push : σ → β → σ) (clear : σ → σ)
    (hc : ∀ s, clear s = init) (ops : List (Op β)) :
    runOps init push clear ops = (sinceClear ops).foldl push init :=
  (runOps_eq_inv (fun _ => True) init push clear trivial (fun _ _ _ => trivial)
    (fun s _ => hc s) ops).1

theorem runOps_append {σ β : Type} (init : σ) (push : σ → β → σ) (clear : σ → σ)
    (a b : List (Op β)) :
    runOps init push clear (a ++ b) = runOps (runOps init push clear a) push clear b := by
  simp [runOps, List.foldl_append]

theorem sinceClear_finOps {F : Fmt} (ops : List (Op ℝ)) :
    sinceClear (finOps ops : List (Op (X F))) = (sinceClear ops).map X.fin := sinceClear_map _ _

theorem sinceClear_finOps2 {F : Fmt} (ops : List (Op (ℝ × ℝ))) :
    sinceClear (finOps2 ops : List (Op (X F × X F)))
      = (sinceClear ops).map fun p => (X.fin p.1, X.fin p.2) := sinceClear_map _ _

theorem sinceClear_affine (a b : ℝ) (ops : List (Op ℝ)) :
    sinceClear (affine a b ops) = (sinceClear ops).map fun x => a * x + b := sinceClear_map _ _

/-! ### `size_t` -/

theorem toNat_ofNat_lt {w n : Nat} (h : n < 2 ^ w) : (BitVec.ofNat w n).toNat = n := by
  rw [BitVec.toNat_ofNat, Nat.mod_eq_of_lt h]

theorem ofNat_add_one (w n : Nat) : BitVec.ofNat w n + 1 = BitVec.ofNat w (n + 1) := by
  rw [BitVec.ofNat_add]; rfl

theorem ofNat_sub {w n k : Nat} (h : k ≤ n) :
    BitVec.ofNat w n - BitVec.ofNat w k = BitVec.ofNat w (n - k) := by
  have : BitVec.ofNat w n = BitVec.ofNat w (n - k) + BitVec.ofNat w k := by
    rw [← BitVec.ofNat_add, Nat.sub_add_cancel h]
  rw [this, BitVec.add_sub_cancel]

theorem ofNat_sub_one {w n : Nat} (h : 1 ≤ n) :
    BitVec.ofNat w n - 1 = BitVec.ofNat w (n - 1) := ofNat_sub h

theorem ofNat_inj {w n m : Nat} (hn : n < 2 ^ w) (hm : m < 2 ^ w) :
    BitVec.ofNat w n = BitVec.ofNat w m ↔ n = m := by
  constructor
  · intro h
    have := congrArg BitVec.toNat h
    rwa [toNat_ofNat_lt hn, toNat_ofNat_lt hm] at this
  · rintro rfl; rfl

theorem ofNat_beq_zero {w n : Nat} (hn : n < 2 ^ w) : (BitVec.ofNat w n == 0) = decide (n = 0) := by
  have h := ofNat_inj (w := w) (m := 0) hn (Nat.two_pow_pos w)
  by_cases h0 : n = 0
  · subst h0; simp
  · have : ¬ BitVec.ofNat w n = 0 := fun e => h0 (h.1 e)
    rw [beq_eq_false_iff_ne.2 this, decide_eq_false h0]

open Exact in
theorem ofSize_exact {ε : ℝ} {w n : Nat} (h : n < 2 ^ w) :
    (Scalar.ofSize (BitVec.ofNat w n) : Exact.E ε) = X.fin (n : ℝ) := by
  rw [Scalar.ofSize, toNat_ofNat_lt h, ofNat_eq]

end Verif
