import Verif.Proofs.WindowRounded
import Verif.Proofs.Double
import Verif.Proofs.Nearest
/-
Whole multiples of a power of two: sums and products without rounding.
-/
namespace Verif
open Scalar

variable {F : Fmt} {p : Nat} {emin : Int}

/-- `x` is a whole multiple of `2^e`, at most `B` of them. -/
def Grid (e : Int) (B : Nat) (x : ℝ) : Prop := ∃ m : Int, x = m * (2 : ℝ) ^ e ∧ |m| ≤ B

namespace Grid
variable {e e' : Int} {A B : Nat} {x y : ℝ}

theorem zero : Grid e B 0 := ⟨0, by simp, by simp⟩

theorem int (m : Int) (h : |m| ≤ B) : Grid 0 B m := ⟨m, by simp, h⟩

theorem mono (h : Grid e A x) (hAB : A ≤ B) : Grid e B x := by
  obtain ⟨m, h1, h2⟩ := h
  exact ⟨m, h1, h2.trans (by exact_mod_cast hAB)⟩

theorem neg (h : Grid e A x) : Grid e A (-x) := by
  obtain ⟨m, rfl, h2⟩ := h
  exact ⟨-m, by push_cast; ring, by rwa [abs_neg]⟩

theorem add (hx : Grid e A x) (hy : Grid e B y) : Grid e (A + B) (x + y) := by
  obtain ⟨m, rfl, h2⟩ := hx
  obtain ⟨k, rfl, h4⟩ := hy
  refine ⟨m + k, by push_cast; ring, (abs_add_le _ _).trans ?_⟩
  push_cast
  exact add_le_add h2 h4

theorem sub (hx : Grid e A x) (hy : Grid e B y) : Grid e (A + B) (x - y) := by
  rw [sub_eq_add_neg]; exact hx.add hy.neg

theorem mul (hx : Grid e A x) (hy : Grid e' B y) : Grid (e + e') (A * B) (x * y) := by
  obtain ⟨m, rfl, h2⟩ := hx
  obtain ⟨k, rfl, h4⟩ := hy
  refine ⟨m * k, by rw [zpow_add₀ (by norm_num)]; push_cast; ring, ?_⟩
  rw [abs_mul]
  push_cast
  exact mul_le_mul h2 h4 (abs_nonneg _) (by positivity)

/-- Division by a power of two. -/
theorem div_two (hx : Grid e A x) (k : Nat) : Grid (e - k) A (x / 2 ^ k) := by
  obtain ⟨m, rfl, h2⟩ := hx
  refine ⟨m, ?_, h2⟩
  rw [zpow_sub₀ (by norm_num), zpow_natCast]
  ring

/-- A finer grid. -/
theorem refine_two (hx : Grid e A x) (k : Nat) : Grid (e - k) (2 ^ k * A) x := by
  obtain ⟨m, rfl, h2⟩ := hx
  refine ⟨2 ^ k * m, ?_, ?_⟩
  · rw [zpow_sub₀ (by norm_num), zpow_natCast]
    push_cast
    field_simp
  · rw [abs_mul, abs_of_nonneg (by positivity)]
    push_cast
    exact mul_le_mul_of_nonneg_left h2 (by positivity)

theorem sum {l : List ℝ} (h : ∀ x ∈ l, Grid e B x) : Grid e (l.length * B) l.sum := by
  induction l with
  | nil => simpa using zero
  | cons x l ih =>
    rw [List.sum_cons, List.length_cons, show (l.length + 1) * B = B + l.length * B by ring]
    exact (h x List.mem_cons_self).add (ih fun y hy => h y (List.mem_cons_of_mem _ hy))

theorem abs_le (h : Grid e B x) : |x| ≤ B * (2 : ℝ) ^ e := by
  obtain ⟨m, rfl, h2⟩ := h
  have hp : (0 : ℝ) < 2 ^ e := by positivity
  rw [abs_mul, abs_of_pos hp]
  refine mul_le_mul_of_nonneg_right ?_ hp.le
  rw [← Int.cast_abs]
  exact_mod_cast h2

/-- Fewer than `2^p` of them need no rounding. -/
theorem round (hF : F.Binary p emin) (h : Grid e B x) (hB : B < 2 ^ p) (he : emin ≤ e) (hf : F.fits (2 ^ p * (2 : ℝ) ^ e)) :
    (X.round x : X F) = X.fin x := by
  have ha := h.abs_le
  obtain ⟨m, hm, h2⟩ := h
  refine hF.round_exact ⟨m, e, hm, lt_of_le_of_lt h2 (by exact_mod_cast hB), he⟩ (hF.fits_abs _ _ ?_ hf)
  have hp : (0 : ℝ) < 2 ^ e := by positivity
  rw [abs_of_pos (show (0 : ℝ) < 2 ^ p * (2 : ℝ) ^ e by positivity)]
  refine ha.trans (mul_le_mul_of_nonneg_right ?_ hp.le)
  exact_mod_cast hB.le

end Grid
end Verif
