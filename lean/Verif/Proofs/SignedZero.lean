import Verif.Model.SignedZero
import Verif.Proofs.NaturalWindow
import Verif.Format
/-
Forgetting the sign of zeros respects all operations, except divisions by the negative zero.
-/
namespace Verif
open Scalar

/-- What is used of a format: zero is exact, results keep their sign, epsilon is positive. -/
structure Fmt.Signs (F : Fmt) : Prop where
  zero : F.rnd 0 = 0
  nonneg : ∀ r, 0 ≤ r → 0 ≤ F.rnd r
  fits_zero : F.fits 0
  eps_pos : 0 < F.eps

theorem Fmt.Binary.signs {F : Fmt} {p : Nat} {emin : Int} (h : F.Binary p emin) (he : 0 < F.eps) : F.Signs where
  zero := h.exact 0 ⟨0, 0, by simp, by positivity, h.emin_le⟩
  nonneg r hr := by
    have h0 : F.rnd 0 = 0 := h.exact 0 ⟨0, 0, by simp, by positivity, h.emin_le⟩
    rw [← h0]
    exact h.mono hr
  fits_zero := h.fits_abs 0 2 (by simp) h.fits_two
  eps_pos := he

theorem Fmt.exact_signs {ε : ℝ} (h : 0 < ε) : (Fmt.exact ε).Signs := ⟨rfl, fun _ hr => hr, trivial, h⟩

namespace Z
variable {F : Fmt}

@[simp] theorem val_num (x : X F) : (num x).val = x := rfl
@[simp] theorem val_negZero : (negZero : Z F).val = X.fin 0 := rfl
@[simp] theorem val_withSign (x : X F) (b : Bool) : (withSign x b).val = x := by
  unfold withSign
  split_ifs with h
  · exact h.1.symm
  · rfl
theorem withSign_false (x : X F) : withSign x false ≠ negZero := by
  unfold withSign
  rw [if_neg (by simp)]
  simp
theorem withSign_nonzero {x : X F} (h : x ≠ X.fin 0) (b : Bool) : withSign x b ≠ negZero := by
  unfold withSign
  rw [if_neg fun h' => h h'.1]
  simp

theorem sqrt_mul_nonneg (hF : F.Signs) (a : Z F) :
    Scalar.sqrt a.val * a.val ≠ X.fin 0 ∨ ((Scalar.sqrt a : Z F).sign ^^ a.sign) = false := by
  show _ ∨ ((withSign (Scalar.sqrt a.val) a.sign).sign ^^ a.sign) = false
  cases a with
  | negZero =>
    right
    have : (Scalar.sqrt (X.fin 0 : X F)) = X.fin 0 := by
      rw [X.sqrt_fin_of_nonneg le_rfl, Real.sqrt_zero, X.round, hF.zero, if_pos hF.fits_zero]
    rw [val_negZero, this]
    simp [withSign, sign]
  | num x =>
    cases x with
    | fin r =>
      by_cases hr : r < 0
      · left
        rw [val_num, X.sqrt_fin, if_pos hr]
        exact fun h => by cases h
      · right
        have hr := not_lt.1 hr
        rw [val_num, X.sqrt_fin_of_nonneg hr]
        unfold X.round
        have h1 : ¬ r < 0 := not_lt.2 hr
        have h2 : ¬ F.rnd √r < 0 := not_lt.2 (hF.nonneg _ (Real.sqrt_nonneg r))
        split_ifs with hf hp
        · simp [withSign, sign, h1, h2]
        · simp [withSign, sign, h1]
        · exfalso
          have : √r = 0 := le_antisymm (not_lt.1 hp) (Real.sqrt_nonneg r)
          rw [this, hF.zero] at hf
          exact hf hF.fits_zero
    | pinf =>
      right
      show ((withSign X.pinf false).sign ^^ false) = false
      simp [withSign, sign]
    | ninf => left; exact fun h => by cases h
    | nan => left; exact fun h => by cases h

/-- Forgetting the sign of zeros respects the operations. -/
theorem hom (hF : F.Signs) : Hom (val : Z F → X F) (fun b => b ≠ negZero) where
  add a b := val_withSign _ _
  sub a b := val_withSign _ _
  mul a b := val_withSign _ _
  div a b hb := by
    cases b with
    | negZero => exact absurd rfl hb
    | num b => exact val_withSign _ _
  ofInt n := rfl
  lt a b := rfl
  le a b := rfl
  beq a b := rfl
  sqrt a := val_withSign _ _
  floor a := val_withSign _ _
  toIndex a := rfl
  eps := rfl
  good_ofInt n := by
    show num _ ≠ negZero
    simp
  good_sq a := by
    show withSign _ (a.sign ^^ a.sign) ≠ negZero
    rw [Bool.xor_self]
    exact withSign_false _
  good_sqrt_mul a := by
    show withSign ((withSign (Scalar.sqrt a.val) a.sign).val * a.val) _ ≠ negZero
    rw [val_withSign]
    rcases sqrt_mul_nonneg hF a with h | h
    · exact withSign_nonzero h _
    · rw [h]
      exact withSign_false _
  good_mul_sqrt a := by
    show withSign (a.val * (withSign (Scalar.sqrt a.val) a.sign).val) (a.sign ^^ (Scalar.sqrt a : Z F).sign) ≠ negZero
    rw [val_withSign]
    have comm : a.val * Scalar.sqrt a.val = Scalar.sqrt a.val * a.val := by
      cases a.val with
      | fin r =>
        cases h : (Scalar.sqrt (X.fin r : X F)) with
        | fin s => rw [X.mul_fin, X.mul_fin, mul_comm]
        | pinf => rfl
        | ninf => rfl
        | nan => rfl
      | pinf => rfl
      | ninf => rfl
      | nan => rfl
    rw [comm, Bool.xor_comm]
    rcases sqrt_mul_nonneg hF a with h | h
    · exact withSign_nonzero h _
    · rw [h]
      exact withSign_false _
  good_pos a ha := by
    rintro rfl
    have : Scalar.lt (Scalar.ofNat 0 : X F) (X.fin 0) = true := ha
    rw [X.ofNat_eq, Nat.cast_zero, X.round, hF.zero, if_pos hF.fits_zero, X.lt_fin] at this
    simp at this
  good_ne a ha := by
    rintro rfl
    have : Scalar.beq (X.fin 0) (Scalar.ofNat 0 : X F) = false := ha
    rw [X.ofNat_eq, Nat.cast_zero, X.round, hF.zero, if_pos hF.fits_zero, X.beq_fin] at this
    simp at this
  good_sqrt a ha := by
    cases a with
    | negZero =>
      have : Scalar.lt (X.fin 0) (Scalar.eps : X F) = false := ha
      rw [X.eps_eq, X.lt_fin] at this
      simp [hF.eps_pos] at this
    | num x =>
      show withSign (Scalar.sqrt x) (num x).sign ≠ negZero
      cases x with
      | fin r =>
        by_cases hr : r < 0
        · rw [X.sqrt_fin, if_pos hr]
          exact withSign_nonzero (fun h => by cases h) _
        · simp only [sign, hr, decide_false]
          exact withSign_false _
      | pinf => exact withSign_false _
      | ninf => exact withSign_nonzero (fun h => by cases h) _
      | nan => exact withSign_false _

end Z
end Verif
