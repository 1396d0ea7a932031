import Verif.Proofs.Impulse
import Verif.Props.Impulse
import Mathlib.Topology.Algebra.Order.LiminfLimsup
import Mathlib.Analysis.SpecificLimits.Basic
import Mathlib.Tactic.Linarith
/-
C87: response of the FIR filter. C88: stability of the IIR filter.
-/
namespace Verif.Spec

theorem fir_abs_le {cs xs : List ℝ} {B : ℝ} (hB0 : 0 ≤ B) (hB : ∀ x ∈ lastN cs.length xs, |x| ≤ B) :
    |fir cs xs| ≤ B * (cs.map abs).sum := by
  have hterm : ∀ i < cs.length, |xs.reverse.getD i 0| ≤ B := by
    intro i hi
    by_cases hx : i < xs.length
    · apply hB
      rw [List.getD_eq_getElem _ _ (by simpa using hx), List.getElem_reverse, lastN, List.mem_drop_iff_getElem]
      exact ⟨xs.length - 1 - i - (xs.length - cs.length), by omega, by congr 1; omega⟩
    · rw [List.getD_eq_default _ _ (by simp; omega)]; simpa using hB0
  have e : (cs.map abs).sum = ((List.range cs.length).map fun i : ℕ => |cs.getD i 0|).sum := by
    congr 1
    apply List.ext_getElem
    · simp
    · intro i h1 h2
      simp at h1
      simp [h1]
  rw [fir, e, ← List.sum_map_mul_left]
  have gen : ∀ l : List ℕ, (∀ i ∈ l, i < cs.length) →
      |(l.map fun i : ℕ => cs.getD i 0 * xs.reverse.getD i 0).sum| ≤ (l.map fun i : ℕ => B * |cs.getD i 0|).sum := by
    intro l
    induction l with
    | nil => intro _; simp
    | cons i l ih =>
      intro hl
      simp only [List.map_cons, List.sum_cons]
      refine (abs_add_le _ _).trans (add_le_add ?_ (ih fun j hj => hl j (List.mem_cons_of_mem _ hj)))
      rw [abs_mul, mul_comm B]
      exact mul_le_mul_of_nonneg_left (hterm i (hl i List.mem_cons_self)) (abs_nonneg _)
  exact gen _ fun i hi => List.mem_range.1 hi

/-- The filter depends on the last `P` values only. -/
theorem fir_lastN (cs xs : List ℝ) : fir cs (lastN cs.length xs) = fir cs xs := by
  rw [fir, fir]
  congr 1
  apply List.map_congr_left
  intro i hi
  have hi := List.mem_range.1 hi
  congr 1
  by_cases hx : i < xs.length
  · rw [List.getD_eq_getElem _ _ (by simp [lastN]; omega), List.getD_eq_getElem _ _ (by simpa using hx),
      List.getElem_reverse, List.getElem_reverse]
    simp only [lastN, List.getElem_drop]
    congr 1; simp; omega
  · rw [List.getD_eq_default _ _ (by simp [lastN]; omega), List.getD_eq_default _ _ (by simp; omega)]

theorem fir_const {cs xs : List ℝ} {K : ℝ} (hl : cs.length ≤ xs.length) (h : ∀ x ∈ lastN cs.length xs, x = K) :
    fir cs xs = K * cs.sum := by
  have e : cs.sum = ((List.range cs.length).map fun i : ℕ => cs.getD i 0).sum := by
    congr 1
    apply List.ext_getElem
    · simp
    · intro i h1 h2
      simp [h1]
  rw [e, fir, ← List.sum_map_mul_left]
  congr 1
  apply List.map_congr_left
  intro i hi
  have hi := List.mem_range.1 hi
  have : xs.reverse.getD i 0 = K := by
    apply h
    rw [List.getD_eq_getElem _ _ (by simp; omega), List.getElem_reverse, lastN, List.mem_drop_iff_getElem]
    exact ⟨xs.length - 1 - i - (xs.length - cs.length), by omega, by congr 1; omega⟩
  rw [this, mul_comm]

end Verif.Spec

namespace Verif.Props
open Scalar Exact

variable {ε : ℝ}

/-! ### C87 -/

/-- C87: if the last `P` values are at most `B` in magnitude, the output is at most `B Σ |c|`. -/
theorem C87_bounded {cs : List ℝ} (hc : cs ≠ []) (ops : List (Op ℝ)) (x : ℝ) {B : ℝ}
    (hB : ∀ x' ∈ Spec.lastN cs.length (sinceClear (ops ++ [.push x])), |x'| ≤ B) :
    ∃ (s : Impulse.Finite (E ε)) (y : ℝ),
      Impulse.Finite.run (cs.map X.fin) (finOps (ops ++ [.push x])) = some s
      ∧ s.value = X.fin y ∧ |y| ≤ B * (cs.map abs).sum := by
  obtain ⟨s, hs, hv⟩ := C50_fir (ε := ε) hc ops x
  have hB0 : 0 ≤ B := by
    refine (abs_nonneg x).trans (hB x ?_)
    have h1 : 1 ≤ cs.length := List.length_pos_iff.2 hc
    rw [sinceClear_append_push, Spec.lastN, List.drop_append]
    apply List.mem_append_right
    rw [show (sinceClear ops ++ [x]).length - cs.length - (sinceClear ops).length = 0 by simp; omega]
    simp
  exact ⟨s, _, hs, hv, Spec.fir_abs_le hB0 hB⟩

/-- C87: the bound is attained: the coefficients are matched by the signs of the values. -/
theorem C87_sharp {cs : List ℝ} (hc : cs ≠ []) :
    ∃ (xs : List ℝ) (s : Impulse.Finite (E ε)), (∀ x ∈ xs, |x| ≤ 1)
      ∧ Impulse.Finite.run (cs.map X.fin) (finOps (xs.map .push)) = some s
      ∧ s.value = X.fin (cs.map abs).sum := by
  let xs : List ℝ := (cs.map fun c => if 0 ≤ c then (1 : ℝ) else -1).reverse
  have hx : xs ≠ [] := by simp [xs, hc]
  obtain ⟨s, hs, hv⟩ := fir_pushes (ε := ε) hc hx
  refine ⟨xs, s, ?_, hs, ?_⟩
  · intro x hx
    simp only [xs, List.mem_reverse, List.mem_map] at hx
    obtain ⟨c, -, rfl⟩ := hx
    split_ifs <;> simp
  · rw [hv, Spec.fir_eq]
    simp only [xs, List.reverse_reverse]
    congr 1
    clear hs hv hx hc
    induction cs with
    | nil => simp
    | cons c cs ih =>
      simp only [List.map_cons, List.zipWith_cons_cons, List.sum_cons, ih, add_left_inj]
      split_ifs with h
      · rw [abs_of_nonneg h, one_mul]
      · rw [abs_of_neg (not_le.1 h)]; ring

/-- C87: after `P` equal values the output is the value times the sum of the coefficients. -/
theorem C87_constant {cs : List ℝ} (hc : cs ≠ []) (ops : List (Op ℝ)) (x : ℝ) {K : ℝ}
    (hl : cs.length ≤ (sinceClear (ops ++ [.push x])).length)
    (hK : ∀ x' ∈ Spec.lastN cs.length (sinceClear (ops ++ [.push x])), x' = K) :
    ∃ s : Impulse.Finite (E ε), Impulse.Finite.run (cs.map X.fin) (finOps (ops ++ [.push x])) = some s
      ∧ s.value = X.fin (K * cs.sum) := by
  obtain ⟨s, hs, hv⟩ := C50_fir (ε := ε) hc ops x
  exact ⟨s, hs, by rw [hv, Spec.fir_const hl hK]⟩

/-- C87: two histories with the same last `P` values have the same output. -/
theorem C87_memory {cs : List ℝ} (hc : cs ≠ []) (ops ops' : List (Op ℝ)) (x x' : ℝ)
    (h : Spec.lastN cs.length (sinceClear (ops ++ [.push x]))
      = Spec.lastN cs.length (sinceClear (ops' ++ [.push x']))) :
    ∃ s s' : Impulse.Finite (E ε), Impulse.Finite.run (cs.map X.fin) (finOps (ops ++ [.push x])) = some s
      ∧ Impulse.Finite.run (cs.map X.fin) (finOps (ops' ++ [.push x'])) = some s' ∧ s.value = s'.value := by
  obtain ⟨s, hs, hv⟩ := C50_fir (ε := ε) hc ops x
  obtain ⟨s', hs', hv'⟩ := C50_fir (ε := ε) hc ops' x'
  exact ⟨s, s', hs, hs', by rw [hv, hv', ← Spec.fir_lastN, h, Spec.fir_lastN]⟩

/-- Coefficients 1, -2 with the values 9, 3, 3: the output is -3 and at most 9. -/
example : ∃ s : Impulse.Finite (E ε),
    Impulse.Finite.run ([1, -2].map X.fin) (finOps ([.push 9, .push 3] ++ [.push 3])) = some s
      ∧ s.value = X.fin (3 * (1 + (-2 + 0))) := by
  obtain ⟨s, hs, hv⟩ := C87_constant (ε := ε) (cs := [1, -2]) (by simp) [.push 9, .push 3] 3 (K := 3)
    (by simp [sinceClear]) (by simp [sinceClear, Spec.lastN])
  exact ⟨s, hs, by rw [hv]; simp⟩

/-! ### C88 -/

theorem iir_abs_le {as bs : List ℝ} {c B : ℝ} (hc : (bs.map abs).sum < |c|) (hB0 : 0 ≤ B) {xs ys : List ℝ}
    (h : Spec.IsIIR as bs c xs ys) (hB : ∀ x ∈ xs, |x| ≤ B) :
    ∀ y ∈ ys, |y| ≤ B * (as.map abs).sum / (|c| - (bs.map abs).sum) := by
  have hd : 0 < |c| - (bs.map abs).sum := by linarith
  have hs : ∀ l : List ℝ, 0 ≤ (l.map abs).sum := fun l =>
    List.sum_nonneg (by intro x hx; obtain ⟨y, -, rfl⟩ := List.mem_map.1 hx; exact abs_nonneg y)
  set M := B * (as.map abs).sum / (|c| - (bs.map abs).sum) with hM
  have hM0 : 0 ≤ M := div_nonneg (mul_nonneg hB0 (hs as)) hd.le
  have hMe : M * (|c| - (bs.map abs).sum) = B * (as.map abs).sum := div_mul_cancel₀ _ hd.ne'
  have key : ∀ k, k ≤ xs.length → ∀ y ∈ ys.take k, |y| ≤ M := by
    intro k
    induction k with
    | zero => intro _; simp
    | succ k ih =>
      intro hk y hy
      have hky : k < ys.length := by rw [h.1]; omega
      rw [List.take_add_one, List.getElem?_eq_getElem hky, Option.toList_some, List.mem_append] at hy
      rcases hy with hy | hy
      · exact ih (by omega) y hy
      · rw [List.mem_singleton] at hy
        have hstep := h.2 k (by omega)
        rw [List.getD_eq_getElem _ _ hky, ← hy] at hstep
        have h1 := Spec.fir_abs_le (cs := as) (xs := xs.take (k + 1)) hB0
          (fun x hx => hB x (List.mem_of_mem_take (List.mem_of_mem_drop hx)))
        have h2 := Spec.fir_abs_le (cs := bs) (xs := ys.take k) hM0
          (fun x hx => ih (by omega) x (List.mem_of_mem_drop hx))
        have h3 : |c| * |y| ≤ B * (as.map abs).sum + M * (bs.map abs).sum := by
          rw [← abs_mul, hstep]
          exact (abs_sub _ _).trans (add_le_add h1 h2)
        have hcp : 0 < |c| := lt_of_le_of_lt (hs bs) hc
        have h4 : |c| * |y| ≤ |c| * M := by linarith
        exact le_of_mul_le_mul_left h4 hcp
  intro y hy
  exact key xs.length le_rfl y (by rw [← h.1, List.take_length]; exact hy)

/-- C88: if `Σ |b| < |scale|`, a bounded input gives a bounded output, for ever. -/
theorem C88_bounded {as bs : List ℝ} (ha : as ≠ []) (hb : bs ≠ []) {c B : ℝ} (hc : (bs.map abs).sum < |c|)
    (hB0 : 0 ≤ B) (ops : List (Op ℝ)) (hB : ∀ x ∈ sinceClear ops, |x| ≤ B) :
    ∃ (s : Impulse.Infinite (E ε)) (y : ℝ),
      Impulse.Infinite.run (as.map X.fin) (bs.map X.fin) (X.fin c) (finOps ops) = some s
      ∧ s.value = X.fin y ∧ |y| ≤ B * (as.map abs).sum / (|c| - (bs.map abs).sum) := by
  have hs : ∀ l : List ℝ, 0 ≤ (l.map abs).sum := fun l =>
    List.sum_nonneg (by intro x hx; obtain ⟨y, -, rfl⟩ := List.mem_map.1 hx; exact abs_nonneg y)
  have hc0 : c ≠ 0 := by rintro rfl; rw [abs_zero] at hc; linarith [hs bs]
  obtain ⟨s, ys, hs', hy, -, hv⟩ := C52_iir (ε := ε) ha hb hc0 ops
  refine ⟨s, _, hs', hv, ?_⟩
  rcases List.eq_nil_or_concat ys with rfl | ⟨l, y, rfl⟩
  · simpa using div_nonneg (mul_nonneg hB0 (hs as)) (by linarith)
  · rw [List.concat_eq_append, List.getLastD_concat]
    exact iir_abs_le hc hB0 hy hB y (by simp)

/-- `T` bounds `e` from some point on. -/
def EventuallyLe (e : ℕ → ℝ) (T : ℝ) : Prop := ∃ N, ∀ n ≥ N, |e n| ≤ T

/-- If every eventual bound `T` can be lowered to `ρ T + δ` with `ρ < 1` and any `δ > 0`, the sequence tends
to 0. -/
theorem tendsto_zero_of_contract {e : ℕ → ℝ} {ρ M : ℝ} (h0 : 0 ≤ ρ) (hρ : ρ < 1) (hM : EventuallyLe e M)
    (h : ∀ T δ : ℝ, 0 < δ → EventuallyLe e T → EventuallyLe e (ρ * T + δ)) :
    Filter.Tendsto e Filter.atTop (nhds 0) := by
  have hpow : ∀ k : ℕ, ∀ δ : ℝ, 0 < δ → EventuallyLe e (ρ ^ k * M + δ / (1 - ρ)) := by
    have h1 : 0 < 1 - ρ := by linarith
    intro k
    induction k with
    | zero =>
      intro δ hδ
      obtain ⟨N, hN⟩ := hM
      refine ⟨N, fun n hn => (hN n hn).trans ?_⟩
      have := div_pos hδ h1
      rw [pow_zero, one_mul]; linarith
    | succ k ih =>
      intro δ hδ
      have := h _ δ hδ (ih δ hδ)
      obtain ⟨N, hN⟩ := this
      refine ⟨N, fun n hn => (hN n hn).trans (le_of_eq ?_)⟩
      rw [pow_succ]; field_simp; ring
  rw [Metric.tendsto_atTop]
  intro η hη
  have h1 : 0 < 1 - ρ := by linarith
  obtain ⟨k, hk⟩ : ∃ k : ℕ, ρ ^ k * M < η / 2 := by
    have ht : Filter.Tendsto (fun k : ℕ => ρ ^ k * M) Filter.atTop (nhds (0 * M)) :=
      (tendsto_pow_atTop_nhds_zero_of_lt_one h0 hρ).mul_const M
    rw [zero_mul] at ht
    obtain ⟨k, hk⟩ := (ht.eventually (gt_mem_nhds (half_pos hη))).exists
    exact ⟨k, hk⟩
  obtain ⟨N, hN⟩ := hpow k (η / 2 * (1 - ρ)) (by positivity)
  refine ⟨N, fun n hn => ?_⟩
  rw [Real.dist_eq, sub_zero]
  have := hN n hn
  rw [mul_div_assoc, div_self h1.ne', mul_one] at this
  linarith

theorem getD_reverse_range (v : ℕ → ℝ) (n i : ℕ) :
    ((List.range n).map v).reverse.getD i 0 = if i < n then v (n - 1 - i) else 0 := by
  split_ifs with h
  · rw [List.getD_eq_getElem _ _ (by simpa using h), List.getElem_reverse]
    simp
  · rw [List.getD_eq_default _ _ (by simpa using h)]

/-- A FIR filter follows a convergent input. -/
theorem fir_tendsto (cs : List ℝ) {v : ℕ → ℝ} {L : ℝ} (hv : Filter.Tendsto v Filter.atTop (nhds L)) :
    Filter.Tendsto (fun n => Spec.fir cs ((List.range n).map v)) Filter.atTop (nhds (L * cs.sum)) := by
  have e : L * cs.sum = ((List.range cs.length).map fun i : ℕ => cs.getD i 0 * L).sum := by
    have : cs.sum = ((List.range cs.length).map fun i : ℕ => cs.getD i 0).sum := by
      congr 1
      apply List.ext_getElem
      · simp
      · intro i h1 h2
        simp [h1]
    rw [this, ← List.sum_map_mul_left]
    simp only [mul_comm]
  rw [e]
  apply tendsto_list_sum
  intro i _
  apply Filter.Tendsto.const_mul
  have h1 : Filter.Tendsto (fun n : ℕ => v (n - 1 - i)) Filter.atTop (nhds L) := by
    apply hv.comp
    have : (fun n : ℕ => n - 1 - i) = fun n => n - (1 + i) := by funext n; omega
    rw [this]
    exact Filter.tendsto_sub_atTop_nat (1 + i)
  refine h1.congr' ?_
  filter_upwards [Filter.eventually_gt_atTop i] with n hn
  rw [getD_reverse_range, if_pos hn]

/-- C87: for an input that converges to `L` the output converges to `L Σ c`. -/
theorem C87_converges {cs : List ℝ} (hc : cs ≠ []) {u : ℕ → ℝ} {L : ℝ}
    (hu : Filter.Tendsto u Filter.atTop (nhds L)) :
    ∃ y : ℕ → ℝ, (∀ n, ∃ s : Impulse.Finite (E ε),
        Impulse.Finite.run (cs.map X.fin) (finOps (((List.range (n + 1)).map u).map .push)) = some s
          ∧ s.value = X.fin (y n))
      ∧ Filter.Tendsto y Filter.atTop (nhds (L * cs.sum)) :=
  ⟨fun n => Spec.fir cs ((List.range (n + 1)).map u), fun _ => fir_pushes hc (by simp),
    (fir_tendsto cs hu).comp (Filter.tendsto_add_atTop_nat 1)⟩

/-- The outputs of the difference equation for the input `u 0, u 1, ...`. -/
noncomputable def iirList (as bs : List ℝ) (c : ℝ) (u : ℕ → ℝ) : ℕ → List ℝ
  | 0 => []
  | n + 1 => iirList as bs c u n ++ [(Spec.fir as ((List.range (n + 1)).map u) - Spec.fir bs (iirList as bs c u n)) / c]

noncomputable def iirOut (as bs : List ℝ) (c : ℝ) (u : ℕ → ℝ) (n : ℕ) : ℝ :=
  (Spec.fir as ((List.range (n + 1)).map u) - Spec.fir bs (iirList as bs c u n)) / c

theorem iirList_eq (as bs : List ℝ) (c : ℝ) (u : ℕ → ℝ) (n : ℕ) :
    iirList as bs c u n = (List.range n).map (iirOut as bs c u) := by
  induction n with
  | zero => rfl
  | succ n ih => rw [List.range_succ, List.map_append, ← ih]; rfl

theorem iirList_isIIR (as bs : List ℝ) {c : ℝ} (hc : c ≠ 0) (u : ℕ → ℝ) (n : ℕ) :
    Spec.IsIIR as bs c ((List.range n).map u) (iirList as bs c u n) := by
  induction n with
  | zero => exact Spec.isIIR_nil _ _ _
  | succ n ih =>
    have := Spec.isIIR_snoc hc ih (u n)
    rw [show (List.range n).map u ++ [u n] = (List.range (n + 1)).map u by
      rw [List.range_succ, List.map_append]; rfl] at this
    exact this

theorem iir_value {as bs : List ℝ} (ha : as ≠ []) (hb : bs ≠ []) {c : ℝ} (hc : c ≠ 0) (u : ℕ → ℝ) (n : ℕ) :
    ∃ s : Impulse.Infinite (E ε),
      Impulse.Infinite.run (as.map X.fin) (bs.map X.fin) (X.fin c)
        (finOps (((List.range (n + 1)).map u).map .push)) = some s
      ∧ s.value = X.fin (iirOut as bs c u n) := by
  obtain ⟨s, ys, hs, -, hu, hv⟩ := C52_iir (ε := ε) ha hb hc (((List.range (n + 1)).map u).map .push)
  rw [sinceClear_pushes] at hu
  rw [← hu _ (iirList_isIIR as bs hc u (n + 1)), iirList_eq, List.range_succ, List.map_append, List.map_singleton,
    List.getLastD_concat] at hv
  exact ⟨s, hs, hv⟩

/-- C88: if `Σ |b| < |scale|`, for an input that converges to `L` the output converges to
`L Σ a / (scale + Σ b)`. With `L = 0`: the response to an input that dies away dies away. -/
theorem C88_converges {as bs : List ℝ} (ha : as ≠ []) (hb : bs ≠ []) {c : ℝ} (hc : (bs.map abs).sum < |c|)
    {u : ℕ → ℝ} {L : ℝ} (hu : Filter.Tendsto u Filter.atTop (nhds L)) :
    ∃ y : ℕ → ℝ, (∀ n, ∃ s : Impulse.Infinite (E ε),
        Impulse.Infinite.run (as.map X.fin) (bs.map X.fin) (X.fin c)
          (finOps (((List.range (n + 1)).map u).map .push)) = some s
          ∧ s.value = X.fin (y n))
      ∧ c + bs.sum ≠ 0
      ∧ Filter.Tendsto y Filter.atTop (nhds (L * as.sum / (c + bs.sum))) := by
  have hs : ∀ l : List ℝ, 0 ≤ (l.map abs).sum := fun l =>
    List.sum_nonneg (by intro x hx; obtain ⟨y, -, rfl⟩ := List.mem_map.1 hx; exact abs_nonneg y)
  have hcp : 0 < |c| := lt_of_le_of_lt (hs bs) hc
  have hc0 : c ≠ 0 := abs_pos.1 hcp
  have hbs : |bs.sum| ≤ (bs.map abs).sum := by
    clear hb hc
    induction bs with
    | nil => simp
    | cons b bs ih =>
      simp only [List.map_cons, List.sum_cons]
      exact (abs_add_le _ _).trans (by linarith)
  have hd : c + bs.sum ≠ 0 := by
    intro h
    have : |c| = |bs.sum| := by rw [show c = -bs.sum by linarith, abs_neg]
    linarith
  refine ⟨iirOut as bs c u, fun n => iir_value ha hb hc0 u n, hd, ?_⟩
  set y := iirOut as bs c u with hy
  set Y := L * as.sum / (c + bs.sum) with hY
  have hYe : Y * (c + bs.sum) = L * as.sum := div_mul_cancel₀ _ hd
  have hrec : ∀ n, c * y n = Spec.fir as ((List.range (n + 1)).map u) - Spec.fir bs ((List.range n).map y) := by
    intro n
    rw [hy, iirOut, ← iirList_eq, mul_div_cancel₀ _ hc0]
  -- bounded
  obtain ⟨B, hB⟩ : ∃ B, ∀ n, |u n| ≤ B := by
    obtain ⟨B, hB⟩ := (Metric.isBounded_iff_subset_closedBall (0 : ℝ)).1 (Metric.isBounded_range_of_tendsto u hu)
    refine ⟨B, fun n => ?_⟩
    have := hB ⟨n, rfl⟩
    rwa [Metric.mem_closedBall, Real.dist_eq, sub_zero] at this
  have hB0 : 0 ≤ B := (abs_nonneg _).trans (hB 0)
  have hyB : ∀ n, |y n| ≤ B * (as.map abs).sum / (|c| - (bs.map abs).sum) := by
    intro n
    refine iir_abs_le hc hB0 (iirList_isIIR as bs hc0 u (n + 1)) ?_ _ ?_
    · intro x hx
      obtain ⟨i, -, rfl⟩ := List.mem_map.1 hx
      exact hB i
    · rw [iirList_eq]
      exact List.mem_map.2 ⟨n, by simp, rfl⟩
  -- the error `y - Y`
  have hlim : Filter.Tendsto (fun n => y n - Y) Filter.atTop (nhds 0) := by
    refine tendsto_zero_of_contract (ρ := (bs.map abs).sum / |c|)
      (M := B * (as.map abs).sum / (|c| - (bs.map abs).sum) + |Y|)
      (div_nonneg (hs bs) hcp.le) (by rw [div_lt_one hcp]; exact hc)
      ⟨0, fun n _ => (abs_sub _ _).trans (by have := hyB n; linarith)⟩ ?_
    intro T δ hδ ⟨N, hN⟩
    have hT0 : 0 ≤ T := (abs_nonneg _).trans (hN N le_rfl)
    have hfa := (fir_tendsto as hu).comp (Filter.tendsto_add_atTop_nat 1)
    rw [Metric.tendsto_atTop] at hfa
    obtain ⟨N', hN'⟩ := hfa (δ * |c|) (by positivity)
    refine ⟨max (N + bs.length) N', fun n hn => ?_⟩
    have h1 := hN' n (le_trans (le_max_right _ _) hn)
    rw [Real.dist_eq] at h1
    have hn1 : N + bs.length ≤ n := le_trans (le_max_left _ _) hn
    have hlin : Spec.fir bs ((List.range n).map y) - Y * bs.sum = Spec.fir bs ((List.range n).map fun k => y k - Y) := by
      have hk := Spec.fir_const (cs := bs) (xs := (List.range n).map fun _ => Y) (K := Y)
        (by simp; omega) (by
          intro x hx
          obtain ⟨i, -, rfl⟩ := List.mem_map.1 (List.mem_of_mem_drop hx)
          rfl)
      have hl := Spec.fir_linear bs 1 (-1) (xs := (List.range n).map y) (xs' := (List.range n).map fun _ => Y)
        (by simp)
      rw [List.zipWith_map_left, List.zipWith_map_right, List.zipWith_self] at hl
      rw [hk] at hl
      have e : (fun a => 1 * y a + -1 * Y) = fun k => y k - Y := by funext k; ring
      rw [e] at hl
      rw [hl]; ring
    have h2 : |Spec.fir bs ((List.range n).map fun k => y k - Y)| ≤ T * (bs.map abs).sum := by
      refine Spec.fir_abs_le hT0 ?_
      intro x hx
      rw [Spec.lastN, List.mem_drop_iff_getElem] at hx
      obtain ⟨i, hi, rfl⟩ := hx
      simp only [List.getElem_map, List.getElem_range]
      apply hN
      simp only [List.length_map, List.length_range]
      omega
    have h3 : c * (y n - Y) = (Spec.fir as ((List.range (n + 1)).map u) - L * as.sum)
        - Spec.fir bs ((List.range n).map fun k => y k - Y) := by
      rw [← hlin, mul_sub, hrec, ← hYe]; ring
    have h4 : |c| * |y n - Y| ≤ |c| * ((bs.map abs).sum / |c| * T + δ) := by
      rw [← abs_mul, h3]
      have e : |c| * ((bs.map abs).sum / |c| * T + δ) = δ * |c| + T * (bs.map abs).sum := by field_simp; ring
      rw [e]
      exact (abs_sub _ _).trans (add_le_add h1.le h2)
    exact le_of_mul_le_mul_left h4 hcp
  have := hlim.add_const Y
  simpa using this

/-- `y_n = x_n + y_{n-1}` (`Σ |b| = |scale|`) is unbounded for the constant input 1: the condition cannot be
weakened to `≤`. -/
theorem C88_sharp (n : ℕ) : ∃ s : Impulse.Infinite (E ε),
    Impulse.Infinite.run ([1].map X.fin) ([-1].map X.fin) (X.fin 1)
      (finOps (((List.range (n + 1)).map fun _ => (1 : ℝ)).map .push)) = some s
    ∧ s.value = X.fin (n + 1) := by
  have hout : ∀ n, iirOut [1] [-1] 1 (fun _ => (1 : ℝ)) n = n + 1 := by
    intro n
    have hx : ∀ (v : ℕ → ℝ) (c : ℝ) (n : ℕ), Spec.fir [c] ((List.range (n + 1)).map v) = c * v n := by
      intro v c n
      rw [Spec.fir]
      simp [List.range_succ]
    induction n with
    | zero => rw [iirOut, iirList_eq, hx, List.range_zero, List.map_nil, Spec.fir_nil]; simp
    | succ n ih =>
      rw [iirOut, iirList_eq, hx, hx, ih]; push_cast; ring
  obtain ⟨s, hs, hv⟩ := iir_value (ε := ε) (as := [1]) (bs := [-1]) (by simp) (by simp) (c := 1) one_ne_zero
    (fun _ => (1 : ℝ)) n
  exact ⟨s, hs, by rw [hv, hout]⟩

/-- `2 y_n = x_n - y_{n-1}` with constant input 3 converges to 1. -/
example : ∃ y : ℕ → ℝ, (∀ n, ∃ s : Impulse.Infinite (E ε),
      Impulse.Infinite.run ([1].map X.fin) ([1].map X.fin) (X.fin 2)
        (finOps (((List.range (n + 1)).map fun _ => (3 : ℝ)).map .push)) = some s ∧ s.value = X.fin (y n))
    ∧ Filter.Tendsto y Filter.atTop (nhds 1) := by
  obtain ⟨y, h1, -, h2⟩ := C88_converges (ε := ε) (as := [1]) (bs := [1]) (by simp) (by simp) (c := 2) (by simp)
    (u := fun _ => 3) (L := 3) tendsto_const_nhds
  refine ⟨y, h1, ?_⟩
  convert h2 using 2
  norm_num

end Verif.Props
