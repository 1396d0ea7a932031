import Verif.Proofs.Rounding
/-
Every operation of the arithmetic `X F` is monotone in its first argument (infinities included) when the
second one is a finite number, positive for products and quotients.
-/
namespace Verif.X
open Scalar

variable {F : Fmt} {p : Nat} {emin : Int}

/-- The order of the numbers with infinities; NaN is not comparable. -/
def Le : X F → X F → Prop
  | fin a, fin b => a ≤ b
  | ninf, fin _ => True
  | ninf, ninf => True
  | ninf, pinf => True
  | fin _, pinf => True
  | pinf, pinf => True
  | _, _ => False

theorem le_iff (a b : X F) : (Scalar.le a b : Bool) = true ↔ Le a b := by
  show X.le a b = true ↔ _
  cases a <;> cases b <;> simp [X.le, X.lt, X.beq, Le, le_iff_lt_or_eq]

theorem Le.refl_fin (a : ℝ) : Le (fin a : X F) (fin a) := le_refl a

theorem round_le (hF : F.Binary p emin) {r s : ℝ} (h : r ≤ s) : Le (round r : X F) (round s) := by
  have hm := hF.mono h
  unfold round
  by_cases h1 : F.fits (F.rnd r) <;> by_cases h2 : F.fits (F.rnd s)
  · rw [if_pos h1, if_pos h2]; exact hm
  · rw [if_pos h1, if_neg h2]
    by_cases hs : 0 < s
    · rw [if_pos hs]; trivial
    · exfalso
      have := hF.rnd_nonpos (not_lt.1 hs)
      exact h2 (hF.fits_between h1 hF.fits_zero hm this)
  · rw [if_neg h1, if_pos h2]
    by_cases hr : 0 < r
    · exfalso
      have := hF.rnd_nonneg hr.le
      exact h1 (hF.fits_between hF.fits_zero h2 this hm)
    · rw [if_neg hr]; trivial
  · rw [if_neg h1, if_neg h2]
    by_cases hr : 0 < r
    · rw [if_pos hr, if_pos (hr.trans_le h)]; trivial
    · rw [if_neg hr]; split_ifs <;> trivial

/-- A rounded number is not NaN. -/
theorem round_cases (r : ℝ) : (round r : X F) = pinf ∨ (round r : X F) = ninf ∨ ∃ d, (round r : X F) = fin d := by
  unfold round
  split_ifs
  · exact Or.inr (Or.inr ⟨_, rfl⟩)
  · exact Or.inl rfl
  · exact Or.inr (Or.inl rfl)

theorem ninf_le_round (r : ℝ) : Le (ninf : X F) (round r) := by
  rcases round_cases (F := F) r with h | h | ⟨d, h⟩ <;> rw [h] <;> trivial

theorem round_le_pinf (r : ℝ) : Le (round r : X F) pinf := by
  rcases round_cases (F := F) r with h | h | ⟨d, h⟩ <;> rw [h] <;> trivial

theorem add_le_add_fin (hF : F.Binary p emin) {a b : X F} (h : Le a b) (c : ℝ) : Le (a + fin c) (b + fin c) := by
  cases a <;> cases b <;> simp only [Le] at h <;>
    first
    | exact h.elim
    | exact round_le hF (by linarith)
    | exact ninf_le_round _
    | exact round_le_pinf _
    | trivial

theorem fin_add_le_add (hF : F.Binary p emin) {a b : X F} (h : Le a b) (c : ℝ) : Le (fin c + a) (fin c + b) := by
  cases a <;> cases b <;> simp only [Le] at h <;>
    first
    | exact h.elim
    | exact round_le hF (by linarith)
    | exact ninf_le_round _
    | exact round_le_pinf _
    | trivial

theorem sub_le_sub_fin (hF : F.Binary p emin) {a b : X F} (h : Le a b) (c : ℝ) : Le (a - fin c) (b - fin c) := by
  cases a <;> cases b <;> simp only [Le] at h <;>
    first
    | exact h.elim
    | exact round_le hF (by linarith)
    | exact ninf_le_round _
    | exact round_le_pinf _
    | trivial

theorem mul_le_mul_fin (hF : F.Binary p emin) {a b : X F} (h : Le a b) {c : ℝ} (hc : 0 < c) :
    Le (a * fin c) (b * fin c) := by
  have e1 : (pinf * fin c : X F) = pinf := by
    show signedInf c = pinf
    unfold signedInf; rw [if_pos hc]
  have e2 : (ninf * fin c : X F) = ninf := by
    show signedInf (-c) = ninf
    unfold signedInf; rw [if_neg (by linarith), if_pos (by linarith)]
  cases a <;> cases b <;> simp only [Le] at h <;> try rw [e1] <;> try rw [e2] 
  all_goals first
    | exact h.elim
    | exact round_le hF (mul_le_mul_of_nonneg_right h hc.le)
    | exact ninf_le_round _
    | exact round_le_pinf _
    | (rw [e2]; first | exact ninf_le_round _ | trivial)
    | trivial

theorem fin_mul_le_mul (hF : F.Binary p emin) {a b : X F} (h : Le a b) {c : ℝ} (hc : 0 < c) :
    Le (fin c * a) (fin c * b) := by
  have e1 : (fin c * pinf : X F) = pinf := by
    show signedInf c = pinf
    unfold signedInf; rw [if_pos hc]
  have e2 : (fin c * ninf : X F) = ninf := by
    show signedInf (-c) = ninf
    unfold signedInf; rw [if_neg (by linarith), if_pos (by linarith)]
  cases a <;> cases b <;> simp only [Le] at h <;> try rw [e1] <;> try rw [e2]
  all_goals first
    | exact h.elim
    | exact round_le hF (mul_le_mul_of_nonneg_left h hc.le)
    | exact ninf_le_round _
    | exact round_le_pinf _
    | (rw [e2]; first | exact ninf_le_round _ | trivial)
    | trivial

theorem div_le_div_fin (hF : F.Binary p emin) {a b : X F} (h : Le a b) {c : ℝ} (hc : 0 < c) :
    Le (a / fin c) (b / fin c) := by
  have e1 : (pinf / fin c : X F) = pinf := by
    show (if c < 0 then ninf else pinf) = pinf
    rw [if_neg (by linarith)]
  have e2 : (ninf / fin c : X F) = ninf := by
    show (if c < 0 then pinf else ninf) = ninf
    rw [if_neg (by linarith)]
  cases a <;> cases b <;> simp only [Le] at h <;>
    simp only [e1, e2, div_fin_of_ne _ hc.ne'] <;>
    first
    | exact h.elim
    | exact round_le hF (div_le_div_of_nonneg_right h hc.le)
    | exact ninf_le_round _
    | exact round_le_pinf _
    | trivial

end Verif.X
