import Verif.Props.Unbiased
import Verif.Props.Response
/-
C141: the IIR filter is the convolution with its impulse response; its response to uncorrelated random data.
-/
namespace Verif.Props
open MeasureTheory ProbabilityTheory Verif.Stochastic Exact

variable {ε : ℝ} {Ω : Type} {mΩ : MeasurableSpace Ω} {P : Measure Ω} [IsProbabilityMeasure P]

theorem fir_zero_cons (cs xs : List ℝ) : Spec.fir cs (0 :: xs) = Spec.fir cs xs := by
  rw [Spec.fir, Spec.fir]
  congr 1
  refine List.map_congr_left fun i _ => ?_
  congr 1
  rw [List.reverse_cons]
  by_cases h : i < xs.length
  · rw [List.getD_append _ _ _ _ (by simpa using h)]
  · rw [List.getD_append_right _ _ _ _ (by simpa using h), List.getD_eq_default xs.reverse _ (by simpa using h)]
    cases i - xs.reverse.length <;> simp

/-- A leading 0 delays the output by one. -/
theorem isIIR_delay {as bs : List ℝ} {c : ℝ} {xs ys : List ℝ} (h : Spec.IsIIR as bs c xs ys) : Spec.IsIIR as bs c (0 :: xs) (0 :: ys) := by
  refine ⟨by simp [h.1], fun k hk => ?_⟩
  cases k with
  | zero => simp [Spec.fir]
  | succ k =>
    rw [List.take_succ_cons, List.take_succ_cons, fir_zero_cons, fir_zero_cons, List.getD_cons_succ]
    exact h.2 k (by simpa using hk)

theorem getLastD_zipWith (a b : ℝ) {ys zs : List ℝ} (hl : ys.length = zs.length) :
    (List.zipWith (fun x y => a * x + b * y) ys zs).getLastD 0 = a * ys.getLastD 0 + b * zs.getLastD 0 := by
  rcases List.eq_nil_or_concat ys with rfl | ⟨l, y, rfl⟩
  · obtain rfl := List.length_eq_zero_iff.1 hl.symm
    simp
  · rcases List.eq_nil_or_concat zs with rfl | ⟨l', y', rfl⟩
    · simp at hl
    · rw [List.concat_eq_append, List.concat_eq_append] at *
      rw [List.zipWith_append (by simpa using hl)]
      simp

/-- The response to the input 1, 0, 0, ... -/
noncomputable def impulseResponse (as bs : List ℝ) (c : ℝ) : ℕ → ℝ := iirOut as bs c fun i => if i = 0 then 1 else 0

theorem impulse_eq (n : ℕ) : (List.range (n + 1)).map (fun i => if i = 0 then (1 : ℝ) else 0) = 1 :: List.replicate n 0 := by
  rw [List.range_succ_eq_map, List.map_cons, if_pos rfl, List.map_map]
  congr 1
  rw [List.eq_replicate_iff]
  refine ⟨by simp, fun x hx => ?_⟩
  obtain ⟨i, -, rfl⟩ := List.mem_map.1 hx
  simp

theorem iir_conv {as bs : List ℝ} {c : ℝ} (hc : c ≠ 0) {xs ys : List ℝ} (h : Spec.IsIIR as bs c xs ys) :
    ys.getLastD 0 = lin ((List.range xs.length).map (impulseResponse as bs c)) xs.reverse := by
  induction xs generalizing ys with
  | nil =>
    obtain rfl := List.length_eq_zero_iff.1 h.1
    simp
  | cons x xs ih =>
    have h1 := iirList_isIIR as bs hc (fun i => if i = 0 then 1 else 0) (xs.length + 1)
    rw [impulse_eq] at h1
    obtain ⟨zs, hz⟩ : ∃ zs, Spec.IsIIR as bs c xs zs := by
      have := iirList_isIIR as bs hc (fun i => xs.getD i 0) xs.length
      rw [show (List.range xs.length).map (fun i => xs.getD i 0) = xs from ?_] at this
      · exact ⟨_, this⟩
      · refine List.ext_getElem (by simp) fun i h1 h2 => ?_
        simp [h2]
    have hl := Spec.isIIR_linear x 1 (by simp) h1 (isIIR_delay hz)
    rw [List.zipWith_cons_cons, show x * 1 + 1 * 0 = x by ring, show List.zipWith (fun x_1 y => x * x_1 + 1 * y)
      (List.replicate xs.length 0) xs = xs from ?_] at hl
    · rw [Spec.isIIR_unique hc h hl, getLastD_zipWith _ _ (by rw [h1.1]; simp [hz.1]), List.length_cons, List.range_succ, List.map_append,
        List.reverse_cons, lin_append _ _ _ _ (by simp), ← ih hz, iirList_eq, List.range_succ, List.map_append]
      have e : (0 :: zs).getLastD 0 = zs.getLastD 0 := by
        cases zs <;> simp
      rw [e]
      simp [impulseResponse]
      ring
    · refine List.ext_getElem (by simp) fun i h1 h2 => by simp

/-- C141: the filter has a response `h` to the input 1, 0, 0, ..., and after any history its value is `Σ h_i x_{n-1-i}`. -/
theorem C141_convolution {as bs : List ℝ} (ha : as ≠ []) (hb : bs ≠ []) {c : ℝ} (hc : c ≠ 0) :
    ∃ h : ℕ → ℝ,
      (∀ k, ∃ s : Impulse.Infinite (E ε),
        Impulse.Infinite.run (as.map X.fin) (bs.map X.fin) (X.fin c) (finOps ((1 :: List.replicate k 0).map .push)) = some s
        ∧ s.value = X.fin (h k))
      ∧ ∀ ops : List (Op ℝ), ∃ s : Impulse.Infinite (E ε),
          Impulse.Infinite.run (as.map X.fin) (bs.map X.fin) (X.fin c) (finOps ops) = some s
          ∧ s.value = X.fin (((List.range (sinceClear ops).length).map fun i => h i * (sinceClear ops).reverse.getD i 0).sum) := by
  refine ⟨impulseResponse as bs c, fun k => ?_, fun ops => ?_⟩
  · rw [← impulse_eq]; exact iir_value ha hb hc _ _
  · obtain ⟨s, ys, hs, hy, -, hv⟩ := C52_iir (ε := ε) ha hb hc ops
    refine ⟨s, hs, ?_⟩
    rw [hv, iir_conv hc hy, ← sum_getD_eq_lin, X.fin_inj]
    simp only [List.length_map, List.length_range]
    congr 1
    refine List.map_congr_left fun i hi => ?_
    rw [List.getD_eq_getElem _ _ (by simpa using hi)]
    simp

/-- The sizes of the response of a stable filter have the sum of C88. -/
theorem response_sum {as bs : List ℝ} (hb : bs ≠ []) (ha : as ≠ []) {c : ℝ} (hc : (bs.map abs).sum < |c|) (n : ℕ) :
    ((List.range n).map fun i => |impulseResponse as bs c i|).sum ≤ (as.map abs).sum / (|c| - (bs.map abs).sum) := by
  have hs : ∀ l : List ℝ, 0 ≤ (l.map abs).sum := fun l =>
    List.sum_nonneg (by intro x hx; obtain ⟨y, -, rfl⟩ := List.mem_map.1 hx; exact abs_nonneg y)
  have hc0 : c ≠ 0 := by rintro rfl; rw [abs_zero] at hc; linarith [hs bs]
  let xs : List ℝ := ((List.range n).map fun i => if 0 ≤ impulseResponse as bs c i then (1 : ℝ) else -1).reverse
  obtain ⟨s, y, h1, h2, h3⟩ := C88_bounded (ε := 0) ha hb hc zero_le_one (xs.map .push) (by
    intro x hx
    rw [sinceClear_pushes] at hx
    simp only [xs, List.mem_reverse, List.mem_map] at hx
    obtain ⟨i, -, rfl⟩ := hx
    split_ifs <;> simp)
  obtain ⟨s', ys, hs', hy, -, hv⟩ := C52_iir (ε := 0) ha hb hc0 (xs.map .push)
  rw [h1] at hs'
  cases hs'
  rw [sinceClear_pushes] at hy
  rw [h2, iir_conv hc0 hy, X.fin_inj] at hv
  have e : y = ((List.range n).map fun i => |impulseResponse as bs c i|).sum := by
    rw [hv]
    simp only [xs, List.reverse_reverse, List.length_reverse, List.length_map, List.length_range]
    rw [lin, List.zipWith_map, List.zipWith_self]
    congr 1
    refine List.map_congr_left fun i _ => ?_
    split_ifs with h
    · rw [abs_of_nonneg h, mul_one]
    · rw [abs_of_neg (not_le.1 h)]; ring
  rw [← e]
  rw [one_mul] at h3
  exact (le_abs_self y).trans h3

theorem sum_sq_le_sq_sum (l : List ℝ) : (l.map (· ^ 2)).sum ≤ ((l.map abs).sum) ^ 2 := by
  induction l with
  | nil => simp
  | cons x l ih =>
    have : 0 ≤ (l.map abs).sum := List.sum_nonneg (by intro x hx; obtain ⟨y, -, rfl⟩ := List.mem_map.1 hx; exact abs_nonneg y)
    simp only [List.map_cons, List.sum_cons]
    nlinarith [sq_abs x, mul_nonneg (abs_nonneg x) this]

/-- C141: expectation and variance of the value for uncorrelated random data; if the filter is stable (C88), the variance stays bounded. -/
theorem C141_noise {as bs : List ℝ} (ha : as ≠ []) (hb : bs ≠ []) {c : ℝ} (hc : c ≠ 0) :
    ∃ h : ℕ → ℝ,
      (∀ k, ∃ s : Impulse.Infinite (E ε),
        Impulse.Infinite.run (as.map X.fin) (bs.map X.fin) (X.fin c) (finOps ((1 :: List.replicate k 0).map .push)) = some s
        ∧ s.value = X.fin (h k))
      ∧ ∀ {Ω : Type} [MeasurableSpace Ω] {P : Measure Ω} [IsProbabilityMeasure P] {ops : List (Op (Ω → ℝ))} {m s : ℝ},
          Uncorrelated (sinceClear ops) P s → (∀ Y ∈ sinceClear ops, ∫ ω, Y ω ∂P = m) → sinceClear ops ≠ [] →
          let n := (sinceClear ops).length
          HasMeanVar (fun ω => (Impulse.Infinite.run (as.map X.fin) (bs.map X.fin) (X.fin c) (finOps (observed ops ω))
              : Option (Impulse.Infinite (E ε))).map (·.value)) P
            (m * ∑ i ∈ Finset.range n, h i) (s * ∑ i ∈ Finset.range n, h i ^ 2)
          ∧ ((bs.map abs).sum < |c| →
              s * ∑ i ∈ Finset.range n, h i ^ 2 ≤ s * ((as.map abs).sum / (|c| - (bs.map abs).sum)) ^ 2) := by
  have hsum : ∀ (f : ℕ → ℝ) (n : ℕ), ((List.range n).map f).sum = ∑ i ∈ Finset.range n, f i := by
    intro f n
    induction n with
    | zero => simp
    | succ n ih => rw [List.range_succ, List.map_append, List.sum_append, ih, Finset.sum_range_succ]; simp
  refine ⟨impulseResponse as bs c, fun k => ?_, ?_⟩
  · rw [← impulse_eq]; exact iir_value ha hb hc _ _
  · intro Ω _ P hP ops m s hu hm hne n
    obtain ⟨a1, a2, a3, -⟩ := lin_stats ((List.range n).map (impulseResponse as bs c)) hu.reverse (by simp [n])
    rw [lin_mean _ (m := m) (by simpa using hm) (by simp [n]), hsum] at a2
    rw [List.map_map, hsum] at a3
    refine ⟨⟨_, a1, fun ω => ?_, a2, a3⟩, fun hst => ?_⟩
    · beta_reduce
      obtain ⟨t, ys, ht, hy, -, hv⟩ := C52_iir (ε := ε) ha hb hc (observed ops ω)
      rw [ht, Option.map_some, hv, iir_conv hc hy, sinceClear_observed, seen_length]
      simp only [seen, List.map_reverse]
      rfl
    · obtain ⟨Y, hY⟩ := List.exists_mem_of_ne_nil _ hne
      have hs0 : 0 ≤ s := by rw [← hu.var Y hY]; exact ProbabilityTheory.variance_nonneg ..
      refine mul_le_mul_of_nonneg_left ?_ hs0
      have h1 := response_sum hb ha hst n
      have h2 := sum_sq_le_sq_sum ((List.range n).map (impulseResponse as bs c))
      rw [List.map_map, List.map_map, hsum] at h2
      refine h2.trans (pow_le_pow_left₀ (List.sum_nonneg ?_) h1 2)
      intro x hx
      obtain ⟨i, -, rfl⟩ := List.mem_map.1 hx
      exact abs_nonneg _

/-- The filter `2 y_n = x_n - y_{n-1}` answers 1, 0, ... by 1/2, -1/4, ...; after two throws of the coin its value has expectation
4 (1/2 - 1/4) = 1 and variance 3 (1/4 + 1/16) = 15/16. -/
example : ∃ (P : Measure (ℕ → ℝ)) (_ : IsProbabilityMeasure P) (xs : List ((ℕ → ℝ) → ℝ)), xs.length = 2
    ∧ HasMeanVar (fun ω => (Impulse.Infinite.run (([1] : List ℝ).map X.fin) (([1] : List ℝ).map X.fin) (X.fin 2)
        (finOps (observed (xs.map .push) ω)) : Option (Impulse.Infinite (E ε))).map (·.value)) P 1 (15 / 16) := by
  obtain ⟨P, hP, hu, hm⟩ := coin_throws 2
  have hl : (firstN (fun i (ω : ℕ → ℝ) => ω i) 2).length = 2 := firstN_length ..
  have hs := sinceClear_pushes (firstN (fun i (ω : ℕ → ℝ) => ω i) 2)
  rw [← hs] at hu hm
  obtain ⟨h, h1, h2⟩ := C141_noise (ε := ε) (as := [1]) (bs := [1]) (by simp) (by simp) (c := 2) (by norm_num)
  have a := (h2 hu hm (by rw [hs]; exact List.length_pos_iff.1 (by omega))).1
  rw [hs, hl] at a
  have e0 : h 0 = 1 / 2 := by
    obtain ⟨s, ys, b1, b2, b3, b4⟩ := C52_iir (ε := ε) (as := [1]) (bs := [1]) (by simp) (by simp) (c := 2) (by norm_num) [.push 1]
    obtain ⟨s', c1, c2⟩ := h1 0
    have : s = s' := Option.some.inj (b1.symm.trans c1)
    rw [← this, b4, ← b3 [1 / 2] ⟨rfl, fun k hk => ?_⟩] at c2
    · simpa using c2.symm
    · have hk' : k < 1 := hk
      obtain rfl : k = 0 := by omega
      show (2 : ℝ) * (1 / 2) = Spec.fir [1] [1] - Spec.fir [1] []
      norm_num [Spec.fir]
  have e1 : h 1 = -1 / 4 := by
    obtain ⟨s, ys, b1, b2, b3, b4⟩ := C52_iir (ε := ε) (as := [1]) (bs := [1]) (by simp) (by simp) (c := 2) (by norm_num) [.push 1, .push 0]
    obtain ⟨s', c1, c2⟩ := h1 1
    have : s = s' := Option.some.inj (b1.symm.trans c1)
    rw [← this, b4, ← b3 [1 / 2, -1 / 4] ⟨rfl, fun k hk => ?_⟩] at c2
    · simpa using c2.symm
    · have hk' : k < 2 := hk
      rcases (by omega : k = 0 ∨ k = 1) with rfl | rfl
      · show (2 : ℝ) * (1 / 2) = Spec.fir [1] [1] - Spec.fir [1] []
        norm_num [Spec.fir]
      · show (2 : ℝ) * (-1 / 4) = Spec.fir [1] [1, 0] - Spec.fir [1] [1 / 2]
        norm_num [Spec.fir]
  refine ⟨P, hP, _, hl, ?_⟩
  rw [Finset.sum_range_succ, Finset.sum_range_one, Finset.sum_range_succ, Finset.sum_range_one, e0, e1] at a
  convert a using 1 <;> norm_num

end Verif.Props
