import Verif.Ext
import Verif.Format
import Verif.Proofs.Nearest
/-
Sign symmetry of floating-point arithmetic whose rounding is symmetric around zero.
-/
namespace Verif
open Scalar

/-- Rounding and range are symmetric around 0. -/
structure Fmt.Odd (F : Fmt) : Prop where
  rnd_neg : ∀ r, F.rnd (-r) = -F.rnd r
  fits_neg : ∀ r, F.fits (-r) ↔ F.fits r
  fits_zero : F.fits 0

namespace Fmt.Odd
variable {F : Fmt} (hF : F.Odd)
include hF

theorem rnd_zero : F.rnd 0 = 0 := by
  have := hF.rnd_neg 0
  rw [neg_zero] at this
  linarith

theorem round_zero : (X.round 0 : X F) = X.fin 0 := by
  unfold X.round; rw [hF.rnd_zero, if_pos hF.fits_zero]

theorem round_neg (r : ℝ) : (X.round (-r) : X F) = (X.round r).neg := by
  rcases eq_or_ne r 0 with rfl | h
  · rw [neg_zero, hF.round_zero]; simp [X.neg]
  unfold X.round
  rw [hF.rnd_neg]
  by_cases hf : F.fits (F.rnd r)
  · rw [if_pos hf, if_pos ((hF.fits_neg _).2 hf)]; rfl
  · rw [if_neg hf, if_neg (fun h' => hf ((hF.fits_neg _).1 h'))]
    rcases lt_or_gt_of_ne h with h | h
    · rw [if_pos (by linarith), if_neg (by linarith)]; rfl
    · rw [if_neg (by linarith), if_pos h]; rfl

omit hF in
theorem signedInf_neg (r : ℝ) : (X.signedInf (-r) : X F) = (X.signedInf r).neg := by
  unfold X.signedInf
  rcases lt_trichotomy r 0 with h | h | h
  · rw [if_pos (by linarith), if_neg (by linarith), if_pos h]; rfl
  · subst h; simp [X.neg]
  · rw [if_neg (by linarith), if_pos (by linarith), if_pos h]; rfl

theorem zero : (ofNat 0 : X F) = X.fin 0 := by rw [X.ofNat_eq, Nat.cast_zero, hF.round_zero]

theorem neg_zero' : (ofNat 0 : X F).neg = ofNat 0 := by rw [hF.zero]; simp [X.neg]

omit hF in
theorem neg_neg (a : X F) : a.neg.neg = a := by cases a <;> simp [X.neg]

theorem add (a b : X F) : a.neg + b.neg = (a + b).neg := by
  show X.add _ _ = (X.add _ _).neg
  cases a <;> cases b <;> first | rfl | skip
  rename_i a b
  show X.round (-a + -b) = (X.round (a + b)).neg
  rw [← hF.round_neg]; congr 1; ring

theorem sub (a b : X F) : a.neg - b.neg = (a - b).neg := by
  show X.sub _ _ = (X.sub _ _).neg
  cases a <;> cases b <;> first | rfl | skip
  rename_i a b
  show X.round (-a - -b) = (X.round (a - b)).neg
  rw [← hF.round_neg]; congr 1; ring

theorem mul_left (a b : X F) : a.neg * b = (a * b).neg := by
  show X.mul _ _ = (X.mul _ _).neg
  cases a <;> cases b <;> first | rfl | skip
  · rename_i a b
    show X.round (-a * b) = (X.round (a * b)).neg
    rw [← hF.round_neg]; congr 1; ring
  · exact signedInf_neg _
  · exact signedInf_neg _
  · exact signedInf_neg _
  · rename_i b
    show X.signedInf b = (X.signedInf (-b)).neg
    rw [← signedInf_neg, _root_.neg_neg]

theorem mul_right (a b : X F) : a * b.neg = (a * b).neg := by
  show X.mul _ _ = (X.mul _ _).neg
  cases a <;> cases b <;> first | rfl | skip
  · rename_i a b
    show X.round (a * -b) = (X.round (a * b)).neg
    rw [← hF.round_neg]; congr 1; ring
  · exact signedInf_neg _
  · rename_i b
    show X.signedInf b = (X.signedInf (-b)).neg
    rw [← signedInf_neg, _root_.neg_neg]
  · exact signedInf_neg _
  · exact signedInf_neg _

theorem mul (a b : X F) : a.neg * b.neg = a * b := by
  rw [hF.mul_left, hF.mul_right, neg_neg]

theorem div_left (a b : X F) : a.neg / b = (a / b).neg := by
  show X.div _ _ = (X.div _ _).neg
  cases a <;> cases b <;> first | rfl | skip
  all_goals simp only [X.neg, X.div]
  · split
    · exact signedInf_neg _
    · rename_i a b _
      show X.round (-a / b) = (X.round (a / b)).neg
      rw [← hF.round_neg]; congr 1; ring
  · norm_num
  · norm_num
  · split <;> rfl
  · split <;> rfl

theorem cond (c : Prop) [Decidable c] (a : X F) :
    (if c then a.neg else ofNat 0) = (if c then a else ofNat 0).neg := by
  split
  · rfl
  · rw [hF.neg_zero']

end Fmt.Odd

/-- IEEE formats are symmetric. -/
theorem ieee_odd (p : Nat) (emin emax : Int) : (Fmt.ieee p emin emax).Odd where
  rnd_neg r := roundNearest_neg r
  fits_neg r := by show |-r| < _ ↔ |r| < _; rw [abs_neg]
  fits_zero := by show |(0 : ℝ)| < _; rw [abs_zero]; positivity

/-- Exact arithmetic is symmetric. -/
theorem exact_odd (ε : ℝ) : (Fmt.exact ε).Odd where
  rnd_neg _ := rfl
  fits_neg _ := Iff.rfl
  fits_zero := trivial

end Verif
