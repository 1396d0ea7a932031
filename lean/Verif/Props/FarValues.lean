import Verif.Props.Inequalities
import Mathlib.Tactic.LinearCombination
/-
C198: how many values can be far from the mean, and how far the median can be from it.
-/
namespace Verif.Spec
open Classical in
/-- The number of elements with a property. -/
noncomputable def number {β : Type} (p : β → Prop) (xs : List β) : Nat := xs.countP fun x => decide (p x)

theorem number_cons {β : Type} (p : β → Prop) (x : β) (xs : List β) [Decidable (p x)] :
    number p (x :: xs) = number p xs + if p x then 1 else 0 := by
  simp only [number, List.countP_cons, decide_eq_true_eq]

theorem number_le {β : Type} (p : β → Prop) (xs : List β) : number p xs ≤ xs.length := List.countP_le_length

/-- Markov: the elements with `p` contribute at least `c` each to the sum. -/
theorem number_mul_le {β : Type} {p : β → Prop} {f : β → ℝ} {c : ℝ} (h0 : ∀ x, 0 ≤ f x) (hp : ∀ x, p x → c ≤ f x) (xs : List β) :
    number p xs * c ≤ (xs.map f).sum := by
  classical
  induction xs with
  | nil => simp [number]
  | cons x xs ih =>
    rw [number_cons, List.map_cons, List.sum_cons]
    split_ifs with h
    · have := hp x h; push_cast; linarith
    · have := h0 x; rw [add_zero]; linarith

/-- Chebyshev: at most `n v / t²` values are at a distance of `t` or more. -/
theorem chebyshev {xs : List ℝ} (hne : xs ≠ []) {t : ℝ} (ht : 0 ≤ t) :
    number (fun x => t ≤ |x - mean xs|) xs * t ^ 2 ≤ xs.length * variance xs := by
  have hn := length_pos hne
  have := number_mul_le (p := fun x => t ≤ |x - mean xs|) (f := fun x => (x - mean xs) ^ 2) (c := t ^ 2)
    (fun x => sq_nonneg _) (fun x h => by rw [← sq_abs (x - _)]; exact pow_le_pow_left₀ ht h 2) xs
  rwa [variance, mul_div_cancel₀ _ hn.ne']

/-- The bound with the fourth powers. -/
theorem chebyshev_four {xs : List ℝ} (hv : 0 < variance xs) {t : ℝ} (ht : 0 ≤ t) :
    number (fun x => t ≤ |x - mean xs|) xs * t ^ 4 ≤ xs.length * kurtosis xs * variance xs ^ 2 := by
  have hne : xs ≠ [] := by rintro rfl; simp [variance] at hv
  have hn := length_pos hne
  have := number_mul_le (p := fun x => t ≤ |x - mean xs|) (f := fun x => (x - mean xs) ^ 4) (c := t ^ 4)
    (fun x => by positivity)
    (fun x h => by
      have h4 := pow_le_pow_left₀ ht h 4
      rwa [(by decide : Even 4).pow_abs] at h4) xs
  rw [kurtosis, mul_assoc, div_mul_cancel₀ _ (by positivity), mul_div_cancel₀ _ hn.ne']
  exact this

/-- Cantelli: at most `n v / (v + t²)` values are above the mean (`s = 1`) or below it (`s = -1`) by `t` or more. -/
theorem cantelli {xs : List ℝ} (hne : xs ≠ []) {t s : ℝ} (ht : 0 ≤ t) (hs : s = 1 ∨ s = -1) :
    number (fun x => t ≤ s * (x - mean xs)) xs * (variance xs + t ^ 2) ≤ xs.length * variance xs := by
  have hn := length_pos hne
  have hv : 0 ≤ variance xs := div_nonneg (central_two_nonneg xs) hn.le
  have hs2 : s ^ 2 = 1 := by rcases hs with rfl | rfl <;> norm_num
  set k : ℝ := (number (fun x => t ≤ s * (x - mean xs)) xs : ℝ) with hk
  have hkn : k ≤ xs.length := by rw [hk]; exact_mod_cast number_le _ _
  rcases ht.eq_or_lt with rfl | ht
  · rw [zero_pow two_ne_zero, add_zero]
    exact mul_le_mul_of_nonneg_right hkn hv
  set a := variance xs / t with ha
  have ha0 : 0 ≤ a := div_nonneg hv ht.le
  have hsum : ∀ (m : ℝ) (l : List ℝ), (l.map fun x => (s * (x - m) + a) ^ 2).sum
      = about 2 m l + 2 * a * s * about 1 m l + l.length * a ^ 2 := by
    intro m l
    induction l with
    | nil => simp [about]
    | cons x l ih =>
      simp only [about, List.map_cons, List.sum_cons, List.length_cons] at ih ⊢
      rw [ih]
      push_cast
      linear_combination (x - m) ^ 2 * hs2
  have h := number_mul_le (p := fun x => t ≤ s * (x - mean xs)) (f := fun x => (s * (x - mean xs) + a) ^ 2) (c := (t + a) ^ 2)
    (fun x => sq_nonneg _) (fun x h => pow_le_pow_left₀ (by positivity) (by linarith) 2) xs
  have h1 : about 1 (mean xs) xs = 0 := by rw [about_one, mean, mul_div_cancel₀ _ hn.ne', sub_self]
  have h2 : about 2 (mean xs) xs = xs.length * variance xs := by rw [variance, mul_div_cancel₀ _ hn.ne']; rfl
  rw [hsum, h1, h2, mul_zero, add_zero, ← hk] at h
  have e : variance xs = a * t := by rw [ha, div_mul_cancel₀ _ ht.ne']
  rw [e] at h ⊢
  have hta : 0 < t + a := by linarith
  have : (k * (a * t + t ^ 2)) * (t + a) ≤ (xs.length * (a * t)) * (t + a) := by
    have := mul_le_mul_of_nonneg_left h ht.le
    linarith
  exact le_of_mul_le_mul_right this hta

/-- A median: at least half of the values are not below it and at least half are not above it. -/
def IsMedian (h : ℝ) (xs : List ℝ) : Prop :=
  xs.length ≤ 2 * number (fun x => h ≤ x) xs ∧ xs.length ≤ 2 * number (fun x => x ≤ h) xs

/-- A median is at most one standard deviation from the mean. -/
theorem median_mean {xs : List ℝ} (hne : xs ≠ []) {h : ℝ} (hm : IsMedian h xs) : (h - mean xs) ^ 2 ≤ variance xs := by
  have hn := length_pos hne
  have hv : 0 ≤ variance xs := div_nonneg (central_two_nonneg xs) hn.le
  have key : ∀ {s : ℝ} {k : Nat}, s = 1 ∨ s = -1 → 0 ≤ s * (h - mean xs) → xs.length ≤ 2 * k →
      k = number (fun x => s * (h - mean xs) ≤ s * (x - mean xs)) xs → (h - mean xs) ^ 2 ≤ variance xs := by
    intro s k hs h0 hk e
    have c := cantelli hne h0 hs
    rw [← e] at c
    have hk : (xs.length : ℝ) ≤ 2 * k := by exact_mod_cast hk
    have e2 : (s * (h - mean xs)) ^ 2 = (h - mean xs) ^ 2 := by rcases hs with rfl | rfl <;> ring
    rw [e2] at c
    have hp : 0 ≤ variance xs + (h - mean xs) ^ 2 := by positivity
    have c2 : (xs.length : ℝ) * (variance xs + (h - mean xs) ^ 2) ≤ xs.length * (2 * variance xs) := by nlinarith
    have := le_of_mul_le_mul_left c2 hn
    linarith
  rcases le_total (mean xs) h with hh | hh
  · refine key (s := 1) (.inl rfl) (by linarith) hm.1 ?_
    congr 1; ext x; constructor <;> intro _ <;> linarith
  · refine key (s := -1) (.inr rfl) (by linarith) hm.2 ?_
    congr 1; ext x; constructor <;> intro _ <;> linarith

end Verif.Spec

namespace Verif.Props
open Scalar Exact

variable {w N : Nat} {ε : ℝ}

/-- What C198 says about values `xs`, their mean `m` and their variance `v`. -/
def FewFar (xs : List ℝ) (m v : ℝ) : Prop :=
  (∀ t : ℝ, 0 ≤ t → Spec.number (fun x => t ≤ |x - m|) xs * t ^ 2 ≤ xs.length * v)
  ∧ (∀ t : ℝ, 0 ≤ t → Spec.number (fun x => m + t ≤ x) xs * (v + t ^ 2) ≤ xs.length * v)
  ∧ (∀ t : ℝ, 0 ≤ t → Spec.number (fun x => x ≤ m - t) xs * (v + t ^ 2) ≤ xs.length * v)
  ∧ ∀ h : ℝ, Spec.IsMedian h xs → |h - m| ≤ √v

theorem fewFar {xs : List ℝ} (hne : xs ≠ []) : FewFar xs (Spec.mean xs) (Spec.variance xs) := by
  refine ⟨fun t ht => Spec.chebyshev hne ht, fun t ht => ?_, fun t ht => ?_, fun h hm => ?_⟩
  · have := Spec.cantelli hne ht (.inl rfl)
    convert this using 5
    constructor <;> intro _ <;> linarith
  · have := Spec.cantelli hne ht (.inr rfl)
    convert this using 5
    constructor <;> intro _ <;> linarith
  · exact Real.abs_le_sqrt (Spec.median_mean hne hm)

open Cumulative in
/-- C198: the cumulative filters. -/
theorem C198_variance (ops : List (Op ℝ)) (h : (sinceClear ops).length < 2 ^ w) (hne : sinceClear ops ≠ []) :
    ∃ m v : ℝ, (Variance.run (finOps ops) : Variance w (E ε)).getMean = X.fin m
      ∧ (Variance.run (finOps ops) : Variance w (E ε)).variance = X.fin v ∧ FewFar (sinceClear ops) m v :=
  ⟨_, _, ((C01_mean_inherited _).1.1).trans (C01_mean ops h).1, ((C02_variance ops h).1 (List.length_pos_iff.2 hne)).1, fewFar hne⟩

open Window in
/-- C198: the values in a window. -/
theorem C198_window (hN : 1 ≤ N) (ops : List (Op ℝ)) (hne : sinceClear ops ≠ []) :
    ∃ (s : Variance N (E ε)) (m v : ℝ), Variance.run (finOps ops) = some s ∧ s.getMean = X.fin m ∧ s.variance = X.fin v
      ∧ FewFar (Spec.lastN N (sinceClear ops)) m v := by
  have hl : Spec.lastN N (sinceClear ops) ≠ [] := by
    have := List.length_pos_iff.2 hne
    apply List.length_pos_iff.1; rw [Spec.length_lastN]; omega
  obtain ⟨s, hs, hv, -⟩ := C19_window_variance (ε := ε) hN ops
  obtain ⟨s', m, hs', hm, hg, -⟩ := C18_window_mean_inherited (N := N) hN (finOps ops : List (Op (E ε)))
  rw [hs] at hs'; cases hs'
  obtain ⟨m', hm', hgm⟩ := C18_window_mean (ε := ε) hN ops
  rw [hm] at hm'; cases hm'
  exact ⟨s, _, _, hs, hg.trans hgm, hv (List.length_pos_iff.2 hl), fewFar hl⟩

open Cumulative in
/-- C198: the bound with the kurtosis, above its cut-off. -/
theorem C198_kurtosis (hε : 0 < ε) (ops : List (Op ℝ)) (h : (sinceClear ops).length * (sinceClear ops).length < 2 ^ w)
    (h4 : ε ≤ Spec.central 4 (sinceClear ops)) :
    ∃ m v k : ℝ, (Variance.run (finOps ops) : Variance w (E ε)).getMean = X.fin m
      ∧ (Variance.run (finOps ops) : Variance w (E ε)).variance = X.fin v
      ∧ (Kurtosis.run (finOps ops) : Kurtosis w (E ε)).kurtosis = X.fin k
      ∧ ∀ t : ℝ, 0 ≤ t → Spec.number (fun x => t ≤ |x - m|) (sinceClear ops) * t ^ 4 ≤ (sinceClear ops).length * k * v ^ 2 := by
  have h2 : Spec.central 2 (sinceClear ops) ≠ 0 := by
    intro e
    rw [central_four_of_two e] at h4
    linarith
  have h2 : 0 < Spec.central 2 (sinceClear ops) := lt_of_le_of_ne (Spec.central_two_nonneg _) (Ne.symm h2)
  have hne : sinceClear ops ≠ [] := by rintro e; rw [e] at h2; simp [Spec.central] at h2
  have hlt : (sinceClear ops).length < 2 ^ w := by
    have : 1 ≤ (sinceClear ops).length := List.length_pos_iff.2 hne
    nlinarith
  exact ⟨_, _, _, ((C01_mean_inherited _).1.1).trans (C01_mean ops hlt).1, ((C02_variance ops hlt).1 (List.length_pos_iff.2 hne)).1,
    ((C04_kurtosis hε ops h).2 h4).1, fun t ht => Spec.chebyshev_four (div_pos h2 (Spec.length_pos hne)) ht⟩

/-- The median 2 of 1, 2, 6 (mean 3, variance 14/3). -/
example : |(2 : ℝ) - 3| ≤ √(14 / 3) := by
  obtain ⟨m, v, h1, h2, -, -, -, h3⟩ := C198_variance (w := 64) (ε := 1) [.push 1, .push 2, .push 6] (by
    show ([1, 2, 6] : List ℝ).length < _; norm_num) (by show ([1, 2, 6] : List ℝ) ≠ []; simp)
  have e : sinceClear ([.push 1, .push 2, .push 6] : List (Op ℝ)) = [1, 2, 6] := rfl
  have hm := h1.symm.trans (((C01_mean_inherited _).1.1).trans (C01_mean (w := 64) _ (by rw [e]; norm_num)).1)
  have hv := h2.symm.trans ((C02_variance (w := 64) _ (by rw [e]; norm_num)).1 (by rw [e]; simp)).1
  rw [X.fin_inj, e] at hm hv
  have em : m = 3 := by rw [hm]; norm_num [Spec.mean]
  have ev : v = 14 / 3 := by rw [hv]; norm_num [Spec.mean, Spec.variance, Spec.central]
  rw [em, ev, e] at h3
  refine h3 2 ⟨?_, ?_⟩ <;> norm_num [Spec.number, List.countP_cons]

/-- The window 1, 2, 6 after 9. -/
example : ∃ (s : Window.Variance 3 (E ε)) (m v : ℝ), Window.Variance.run (finOps [.push 9, .push 1, .push 2, .push 6]) = some s
    ∧ s.getMean = X.fin m ∧ s.variance = X.fin v ∧ FewFar [1, 2, 6] m v :=
  C198_window (by norm_num) [.push 9, .push 1, .push 2, .push 6] (by show ([9, 1, 2, 6] : List ℝ) ≠ []; simp)

/-- Two values. -/
example : ∃ m v k : ℝ, (Cumulative.Variance.run (finOps [.push 0, .push 2]) : Cumulative.Variance 64 (E 1)).getMean = X.fin m
    ∧ (Cumulative.Variance.run (finOps [.push 0, .push 2]) : Cumulative.Variance 64 (E 1)).variance = X.fin v
    ∧ (Cumulative.Kurtosis.run (finOps [.push 0, .push 2]) : Cumulative.Kurtosis 64 (E 1)).kurtosis = X.fin k
    ∧ ∀ t : ℝ, 0 ≤ t → Spec.number (fun x => t ≤ |x - m|) [0, 2] * t ^ 4 ≤ (2 : ℕ) * k * v ^ 2 :=
  C198_kurtosis one_pos [.push 0, .push 2] (by show ([0, 2] : List ℝ).length * ([0, 2] : List ℝ).length < _; norm_num)
    (by show 1 ≤ Spec.central 4 [0, 2]; norm_num [Spec.central, Spec.mean])

end Verif.Props
