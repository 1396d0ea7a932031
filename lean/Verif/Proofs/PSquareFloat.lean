import Verif.Proofs.PSquareSteps
import Verif.Proofs.Frozen
/-
The desired positions of the P-square markers in floating point.
-/
namespace Verif
open Scalar

variable {F : Fmt} {p : Nat} {emin : Int} {w : Nat}

theorem IsRep.double {r : ℝ} (h : IsRep p emin r) : IsRep p emin (2 * r) := by
  obtain ⟨m, e, rfl, hm, he⟩ := h
  exact ⟨m, e + 1, by rw [zpow_add_one₀ (by norm_num)]; ring, hm, by omega⟩

/-- A number of the format below `2^p` has its last digit at or below the units. -/
theorem IsRep.small (he : emin ≤ 0) {r : ℝ} (h : IsRep p emin r) (hr : |r| < 2 ^ p) :
    ∃ (m : Int) (e : Nat), r * 2 ^ e = m ∧ |m| < 2 ^ p ∧ emin ≤ -(e : Int) := by
  obtain ⟨m, e, rfl, hm, hee⟩ := h
  rcases le_or_gt e 0 with h | h
  · refine ⟨m, (-e).toNat, ?_, hm, by omega⟩
    rw [mul_assoc, ← zpow_natCast, ← zpow_add₀ (by norm_num), show e + ((-e).toNat : Int) = 0 by omega, zpow_zero, mul_one]
  · have e2 : ((m * 2 ^ e.toNat : Int) : ℝ) = m * 2 ^ e := by
      push_cast
      rw [← zpow_natCast, show ((e.toNat : Nat) : Int) = e by omega]
    refine ⟨m * 2 ^ e.toNat, 0, by rw [pow_zero, mul_one, e2], ?_, by simpa using he⟩
    rw [← e2] at hr
    exact_mod_cast hr

/-- Adding less than 1 to a number of at least 1 gives, after rounding to nearest, at most 1 more. -/
theorem Fmt.Nearest.add_le (h : F.Nearest p emin) {D δ : ℝ} (hD : IsRep p emin D) (h1 : 1 ≤ D) (h2 : D < 2 ^ p) (hδ : δ < 1) :
    F.rnd (D + δ) ≤ D + 1 := by
  have hB := h.binary
  have hp : 1 ≤ p := by have := hB.digits; omega
  obtain ⟨m, e, hm, hmp, he⟩ := hD.small hB.emin_le (by rw [abs_of_nonneg (by linarith)]; exact h2)
  have hs : (0 : ℝ) < 2 ^ e := by positivity
  have hDm : D = m * 2 ^ (-(e : Int)) := by
    rw [zpow_neg, zpow_natCast, ← hm]; field_simp
  have ha : D + 1 = ((m + 2 ^ e : Int) : ℝ) * 2 ^ (-(e : Int)) := by
    push_cast
    rw [add_mul, ← hDm, zpow_neg, zpow_natCast, mul_inv_cancel₀ hs.ne']
  have hme : (2 : Int) ^ e ≤ m := by
    have : (2 : ℝ) ^ e ≤ m := by rw [← hm]; nlinarith
    exact_mod_cast this
  have hm0 : (0 : Int) < 2 ^ e := by positivity
  set a : Int := m + 2 ^ e with hadef
  have ha0 : 0 < a := by omega
  rcases le_or_gt a (2 ^ p) with hle | hgt
  · refine hB.rnd_le ?_ (by linarith)
    rw [ha]
    exact isRep_mul hp he (by rw [abs_of_pos ha0]; exact hle)
  have hlt : a < 2 * 2 ^ p := by
    have := (abs_lt.1 hmp).2
    omega
  set s : ℝ := 2 ^ (-(e : Int)) with hsdef
  have hspos : 0 < s := by positivity
  have hdbl : (2 : ℝ) ^ (-(e : Int) + 1) = s * 2 := by rw [zpow_add_one₀ (by norm_num)]
  have hrep : ∀ b : Int, 0 ≤ b → b ≤ 2 ^ p → IsRep p emin (b * (s * 2)) := by
    intro b hb1 hb2
    rw [← hdbl]
    exact isRep_mul hp (by omega) (by rw [abs_of_nonneg hb1]; exact hb2)
  rcases Int.even_or_odd' a with ⟨b, hb | hb⟩
  · refine hB.rnd_le ?_ (by linarith)
    have := hrep b (by omega) (by omega)
    rw [ha, hb]; push_cast
    rw [show (2 : ℝ) * b * s = b * (s * 2) by ring]
    exact this
  · by_contra hc
    push Not at hc
    have hy1 := hrep b (by omega) (by omega)
    have hDb : D + 1 = b * (s * 2) + s := by rw [ha, hb]; push_cast; ring
    -- the rounded number is a multiple of the larger step
    have hbig : (2 : ℝ) ^ ((p : Int) - e + 1 - 1) ≤ |F.rnd (D + δ)| := by
      have h3 : (2 : ℝ) ^ ((p : Int) - e + 1 - 1) ≤ D + 1 := by
        rw [ha, show (p : Int) - e + 1 - 1 = p + -(e : Int) by ring, zpow_add₀ (by norm_num), zpow_natCast]
        have : ((2 : ℝ)) ^ p ≤ a := by exact_mod_cast hgt.le
        exact mul_le_mul_of_nonneg_right this hspos.le
      exact h3.trans (hc.le.trans (le_abs_self _))
    obtain ⟨c, hc2⟩ := (hB.rep (D + δ)).multiple hbig
    rw [show (p : Int) - e + 1 - p = -(e : Int) + 1 by ring, hdbl] at hc2
    have hcb : b + 1 ≤ c := by
      have : (b : ℝ) < c := by
        rw [hc2, hDb] at hc
        have : (b : ℝ) * (s * 2) < c * (s * 2) := by linarith
        exact lt_of_mul_lt_mul_right this (by positivity)
      exact_mod_cast this
    have hcb' : (b : ℝ) + 1 ≤ c := by exact_mod_cast hcb
    have hr2 : D + 1 + s ≤ F.rnd (D + δ) := by
      rw [hc2, hDb]
      have := mul_le_mul_of_nonneg_right hcb' (show (0 : ℝ) ≤ s * 2 by positivity)
      linarith
    have hn := h.nearest (D + δ) _ hy1
    rcases le_or_gt (D + δ) (b * (s * 2)) with h5 | h5
    · have := hB.rnd_le hy1 h5
      linarith
    · rw [abs_of_nonneg (by linarith), abs_of_neg (by linarith)] at hn
      linarith

/-- Adding at most 1 to a number of at most `2^(p+1)` does not exceed `2^(p+1)`. -/
theorem Fmt.Nearest.stuck (h : F.Nearest p emin) {D δ : ℝ} (h1 : D ≤ 2 ^ (p + 1)) (hδ : δ ≤ 1) :
    F.rnd (D + δ) ≤ 2 ^ (p + 1) := by
  have hB := h.binary
  have hp : 1 ≤ p := by have := hB.digits; omega
  have hrep : IsRep p emin (2 ^ (p + 1)) := by
    have := isRep_zpow (p := p) (emin := emin) (k := ((p + 1 : Nat) : Int)) hp (by have := hB.emin_le; omega)
    rwa [zpow_natCast] at this
  refine le_trans (hB.mono (show D + δ ≤ 2 ^ (p + 1) + 1 by linarith)) ?_
  have hge := hB.le_rnd hrep (show (2 : ℝ) ^ (p + 1) ≤ 2 ^ (p + 1) + 1 by linarith)
  have hn := h.nearest (2 ^ (p + 1) + 1) _ hrep
  rw [show (2 : ℝ) ^ (p + 1) - (2 ^ (p + 1) + 1) = -1 by ring, abs_neg, abs_one] at hn
  have hk : (2 : ℝ) ^ ((p : Int) + 2 - 1) ≤ |F.rnd (2 ^ (p + 1) + 1)| := by
    rw [show (p : Int) + 2 - 1 = ((p + 1 : Nat) : Int) by push_cast; ring, zpow_natCast]
    exact hge.trans (le_abs_self _)
  obtain ⟨c, hc⟩ := (hB.rep _).multiple hk
  rw [show (p : Int) + 2 - p = 2 by ring] at hc
  rw [hc] at hn hge ⊢
  have hpow : (2 : ℝ) ^ (p + 1) = ((2 ^ (p - 1) : Int) : ℝ) * 2 ^ (2 : Int) := by
    push_cast
    rw [← zpow_natCast, ← zpow_natCast, ← zpow_add₀ (by norm_num)]
    congr 1
    push_cast [Nat.cast_sub hp]
    ring
  rw [hpow] at hn ⊢
  have h4 : (2 : ℝ) ^ (2 : Int) = 4 := by norm_num
  rw [h4] at hn ⊢
  have hup := (abs_le.1 hn).2
  have : c < 2 ^ (p - 1) + 1 := by
    have : (c : ℝ) < ((2 ^ (p - 1) + 1 : Int) : ℝ) := by push_cast at hup ⊢; linarith
    exact_mod_cast this
  have : (c : ℝ) ≤ ((2 ^ (p - 1) : Int) : ℝ) := by exact_mod_cast (by omega : c ≤ 2 ^ (p - 1))
  linarith

/-! ### The sign of a rounded difference -/

theorem Fmt.Binary.signOf_fin (h : F.Binary p emin) {r : ℝ} {sg : Int} (hs : PSquare.SignIs r sg) :
    PSquare.PSquare.signOf (X.fin r : X F) = sg := by
  unfold PSquare.PSquare.signOf
  rw [h.ofNat_zero, X.lt_fin, X.lt_fin]
  rcases hs with ⟨h1, rfl⟩ | ⟨h1, rfl⟩ | ⟨h1, rfl⟩
  · rw [if_pos (by simpa using h1)]
  · rw [if_neg (by simp [h1]), if_neg (by simp [h1])]
  · rw [if_neg (by simpa using h1.le), if_pos (by simpa using h1)]

/-- The sign of the rounded difference of two numbers of the format is the sign of the difference. -/
theorem Fmt.Binary.signOf_sub (h : F.Binary p emin) {a b K : ℝ} (ha : IsRep p emin a) (hb : IsRep p emin b)
    (hK : IsRep p emin K) (hKf : F.fits K) (hab : |a - b| ≤ K) :
    PSquare.SignIs (a - b) (PSquare.PSquare.signOf (X.fin a - X.fin b : X F)) := by
  have hp : 1 ≤ p := by have := h.digits; omega
  have hlo := h.le_rnd hK.neg (abs_le.1 hab).1
  have hhi := h.rnd_le hK (abs_le.1 hab).2
  have hf : F.fits (F.rnd (a - b)) := h.fits_abs _ K ((abs_le.2 ⟨hlo, hhi⟩).trans (le_abs_self _)) hKf
  have e : (X.fin a - X.fin b : X F) = X.fin (F.rnd (a - b)) := by
    rw [X.sub_fin]; unfold X.round; rw [if_pos hf]
  rw [e]
  have hmin : IsRep p emin (2 ^ emin) := isRep_zpow hp (le_refl _)
  have hpos : (0 : ℝ) < 2 ^ emin := by positivity
  rcases lt_trichotomy 0 (a - b) with h1 | h1 | h1
  · have h2 := h.le_rnd hmin (hb.sub_le ha (by linarith))
    rw [h.signOf_fin (sg := 1) (Or.inl ⟨by linarith, rfl⟩)]
    exact Or.inl ⟨h1, rfl⟩
  · rw [← h1, h.rnd_zero, h.signOf_fin (sg := 0) (Or.inr (Or.inl ⟨rfl, rfl⟩))]
    exact Or.inr (Or.inl ⟨rfl, rfl⟩)
  · have h3 := ha.sub_le hb (by linarith)
    have h2 := h.rnd_le hmin.neg (show a - b ≤ -2 ^ emin by linarith)
    rw [h.signOf_fin (sg := -1) (Or.inr (Or.inr ⟨by linarith, rfl⟩))]
    exact Or.inr (Or.inr ⟨h1, rfl⟩)

theorem Fmt.Binary.signOf_round_neg (h : F.Binary p emin) {r b : ℝ} (hb : IsRep p emin b) (hb0 : b < 0) (hr : r ≤ b) :
    PSquare.PSquare.signOf (X.round r : X F) = -1 := by
  have h1 := h.rnd_le hb hr
  by_cases hf : F.fits (F.rnd r)
  · unfold X.round
    rw [if_pos hf]
    exact h.signOf_fin (Or.inr (Or.inr ⟨by linarith, rfl⟩))
  · unfold X.round
    rw [if_neg hf, if_neg (by linarith)]
    unfold PSquare.PSquare.signOf
    rw [h.ofNat_zero]
    rfl

theorem Fmt.Binary.signOf_round_nonpos (h : F.Binary p emin) {r : ℝ} (hr : r ≤ 0) :
    PSquare.PSquare.signOf (X.round r : X F) ≠ 1 := by
  have h1 := h.rnd_nonpos hr
  by_cases hf : F.fits (F.rnd r)
  · unfold X.round
    rw [if_pos hf]
    rcases h1.lt_or_eq with h2 | h2
    · rw [h.signOf_fin (Or.inr (Or.inr ⟨h2, rfl⟩))]; decide
    · rw [h.signOf_fin (Or.inr (Or.inl ⟨h2, rfl⟩))]; decide
  · unfold X.round
    rw [if_neg hf, if_neg (by linarith)]
    unfold PSquare.PSquare.signOf
    rw [h.ofNat_zero]
    have e : (if lt (X.fin 0 : X F) X.ninf = true then (1 : Int) else if lt X.ninf (X.fin 0 : X F) = true then -1 else 0) = -1 := rfl
    rw [e]; decide

end Verif
