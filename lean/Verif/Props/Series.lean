import Mathlib.RingTheory.PowerSeries.Basic
import Verif.Props.Impulse
/-
C179: filters in series.  The values of one impulse filter are the input of another.
-/
namespace Verif.Spec
open PowerSeries

/-- The product of two polynomials, given by their lists of coefficients. -/
noncomputable def conv (as bs : List ℝ) : List ℝ :=
  (List.range (as.length + bs.length - 1)).map fun k => ∑ i ∈ Finset.range (k + 1), as.getD i 0 * bs.getD (k - i) 0

/-- A list as the coefficients of a power series. -/
noncomputable def series (l : List ℝ) : PowerSeries ℝ := PowerSeries.mk fun i => l.getD i 0

@[simp] theorem coeff_series (l : List ℝ) (k : ℕ) : coeff k (series l) = l.getD k 0 := by simp [series]

theorem coeff_series_mul (as bs : List ℝ) (k : ℕ) :
    coeff k (series as * series bs) = ∑ i ∈ Finset.range (k + 1), as.getD i 0 * bs.getD (k - i) 0 := by
  rw [coeff_mul, Finset.Nat.sum_antidiagonal_eq_sum_range_succ_mk]
  simp

theorem length_conv (as bs : List ℝ) : (conv as bs).length = as.length + bs.length - 1 := by simp [conv]

theorem series_conv {as bs : List ℝ} (ha : as ≠ []) : series (conv as bs) = series as * series bs := by
  have h1 := List.length_pos_iff.2 ha
  ext k
  rw [coeff_series_mul, coeff_series]
  by_cases hk : k < as.length + bs.length - 1
  · rw [List.getD_eq_getElem _ _ (by rw [length_conv]; exact hk)]
    simp [conv]
  · rw [List.getD_eq_default _ _ (by rw [length_conv]; omega)]
    symm
    apply Finset.sum_eq_zero
    intro i hi
    rw [Finset.mem_range] at hi
    rcases Nat.lt_or_ge i as.length with h | h
    · rw [List.getD_eq_default bs _ (by omega), mul_zero]
    · rw [List.getD_eq_default as _ h, zero_mul]

theorem series_cons (c : ℝ) (l : List ℝ) : series (c :: l) = PowerSeries.C c + PowerSeries.X * series l := by
  ext k
  rw [coeff_series]
  rcases k with _ | k
  · simp
  · simp [coeff_succ_X_mul]

/-- The convolution is a coefficient of the product of the series. -/
theorem fir_series (cs xs : List ℝ) {k : ℕ} (hk : k < xs.length) :
    fir cs (xs.take (k + 1)) = coeff k (series cs * series xs) := by
  rw [coeff_series_mul, fir, ← List.sum_toFinset _ List.nodup_range, List.toFinset_range]
  have hl : (xs.take (k + 1)).length = k + 1 := by rw [List.length_take]; omega
  have e : ∀ i, (xs.take (k + 1)).reverse.getD i 0 = if i < k + 1 then xs.getD (k - i) 0 else 0 := by
    intro i
    split_ifs with h
    · rw [List.getD_eq_getElem _ _ (by rw [List.length_reverse, hl]; exact h), List.getElem_reverse, List.getElem_take,
        List.getD_eq_getElem _ _ (by omega)]
      congr 1
      omega
    · rw [List.getD_eq_default _ _ (by rw [List.length_reverse, hl]; omega)]
  simp only [e]
  rw [← Finset.sum_subset (s₁ := Finset.range (min cs.length (k + 1))) (s₂ := Finset.range cs.length),
    ← Finset.sum_subset (s₁ := Finset.range (min cs.length (k + 1))) (s₂ := Finset.range (k + 1))]
  · apply Finset.sum_congr rfl
    intro i hi
    rw [Finset.mem_range] at hi
    rw [if_pos (by omega)]
  · intro i hi; rw [Finset.mem_range] at *; omega
  · intro i h1 h2
    rw [Finset.mem_range] at *
    rw [List.getD_eq_default cs _ (by omega), zero_mul]
  · intro i hi; rw [Finset.mem_range] at *; omega
  · intro i h1 h2
    rw [Finset.mem_range] at *
    rw [if_neg (by omega), mul_zero]

/-- The difference equation as an equation of power series, up to the number of values. -/
theorem isIIR_series (as bs : List ℝ) (s : ℝ) (xs ys : List ℝ) : IsIIR as bs s xs ys
    ↔ ys.length = xs.length ∧ PowerSeries.X ^ xs.length ∣ series (s :: bs) * series ys - series as * series xs := by
  refine and_congr_right fun hl => ?_
  rw [X_pow_dvd_iff]
  refine forall_congr' fun k => forall_congr' fun hk => ?_
  rw [map_sub, sub_eq_zero, ← fir_series as xs hk, series_cons, add_mul, map_add, coeff_C_mul, coeff_series, mul_assoc]
  have hb : coeff k (PowerSeries.X * (series bs * series ys)) = fir bs (ys.take k) := by
    rcases k with _ | k
    · simp
    · rw [coeff_succ_X_mul, fir_series bs ys (by omega)]
  rw [hb]
  exact ⟨fun h => by linarith, fun h => by linarith⟩

/-- Two filters in series solve the difference equation of the product. -/
theorem isIIR_series_comp {as bs as' bs' : List ℝ} (ha : as ≠ []) {s s' : ℝ} {xs ys zs : List ℝ}
    (h : IsIIR as bs s xs ys) (h' : IsIIR as' bs' s' ys zs) :
    IsIIR (conv as as') (conv (s :: bs) (s' :: bs')).tail (s * s') xs zs := by
  rw [isIIR_series] at *
  obtain ⟨l1, d1⟩ := h
  obtain ⟨l2, d2⟩ := h'
  refine ⟨l2.trans l1, ?_⟩
  have e : s * s' :: (conv (s :: bs) (s' :: bs')).tail = conv (s :: bs) (s' :: bs') := by
    have : conv (s :: bs) (s' :: bs') ≠ [] := by
      rw [← List.length_pos_iff, length_conv]; simp
    conv_rhs => rw [← List.cons_head_tail this]
    congr 1
    rw [List.head_eq_getElem]
    simp [conv]
  rw [e, series_conv (by simp), series_conv ha]
  rw [l1] at d2
  have := dvd_add (Dvd.dvd.mul_left d2 (series (s :: bs))) (Dvd.dvd.mul_left d1 (series as'))
  convert this using 1
  ring

theorem isIIR_take {as bs : List ℝ} {s : ℝ} {xs ys : List ℝ} (h : IsIIR as bs s xs ys) (m : ℕ) :
    IsIIR as bs s (xs.take m) (ys.take m) := by
  obtain ⟨hl, h⟩ := h
  refine ⟨by rw [List.length_take, List.length_take, hl], fun k hk => ?_⟩
  rw [List.length_take] at hk
  have := h k (by omega)
  rw [List.take_take, List.take_take, min_eq_left (by omega), min_eq_left (by omega), ← this]
  congr 1
  rw [List.getD_eq_getElem _ _ (by rw [List.length_take]; omega), List.getElem_take, List.getD_eq_getElem _ _ (by omega)]

end Verif.Spec

namespace Verif.Props
open Scalar Exact

variable {ε : ℝ}

/-- `ys` are the values of the filter `f` after each of the values of `xs`. -/
def Outputs (f : List ℝ → Option (E ε)) (xs ys : List ℝ) : Prop :=
  ys.length = xs.length ∧ ∀ k < xs.length, f (xs.take (k + 1)) = some (X.fin (ys.getD k 0))

/-- The value of the FIR filter after the values of `xs`. -/
noncomputable def firValue (ε : ℝ) (cs xs : List ℝ) : Option (E ε) :=
  (Impulse.Finite.run (cs.map X.fin) (finOps (xs.map .push))).map (·.value)

/-- The value of the IIR filter after the values of `xs`. -/
noncomputable def iirValue (ε : ℝ) (as bs : List ℝ) (s : ℝ) (xs : List ℝ) : Option (E ε) :=
  (Impulse.Infinite.run (as.map X.fin) (bs.map X.fin) (X.fin s) (finOps (xs.map .push))).map (·.value)

theorem firValue_eq {cs : List ℝ} (hc : cs ≠ []) {xs : List ℝ} (hx : xs ≠ []) : firValue ε cs xs = some (X.fin (Spec.fir cs xs)) := by
  obtain ⟨l, x, rfl⟩ : ∃ l x, xs = l ++ [x] := ⟨_, _, (List.dropLast_append_getLast hx).symm⟩
  obtain ⟨s, hs, hv⟩ := C50_fir (ε := ε) hc (l.map .push) x
  have e := sinceClear_pushes (l ++ [x])
  rw [List.map_append, List.map_singleton] at e
  rw [firValue, List.map_append, List.map_singleton, hs, Option.map_some, hv, e]

theorem iirValue_eq {as bs : List ℝ} (ha : as ≠ []) (hb : bs ≠ []) {s : ℝ} (hs : s ≠ 0) {xs ys : List ℝ} (h : Spec.IsIIR as bs s xs ys) :
    Outputs (iirValue ε as bs s) xs ys := by
  refine ⟨h.1, fun k hk => ?_⟩
  obtain ⟨t, zs, ht, -, hu, hv⟩ := C52_iir (ε := ε) ha hb hs ((xs.take (k + 1)).map .push)
  rw [sinceClear_pushes] at hu
  have e := hu _ (Spec.isIIR_take h (k + 1))
  have hl : (ys.take (k + 1)).length = k + 1 := by rw [List.length_take, h.1]; omega
  rw [iirValue, ht, Option.map_some, hv, ← e, List.getLastD_eq_getLast?, List.getLast?_eq_getElem?, hl,
    show k + 1 - 1 = k by omega, List.getElem?_take_of_lt (by omega), List.getD_eq_getElem?_getD]

theorem isIIR_exists {as bs : List ℝ} (ha : as ≠ []) (hb : bs ≠ []) {s : ℝ} (hs : s ≠ 0) (xs : List ℝ) : ∃ ys, Spec.IsIIR as bs s xs ys := by
  obtain ⟨t, zs, -, h, -⟩ := C52_iir (ε := 0) ha hb hs (xs.map .push)
  rw [sinceClear_pushes] at h
  exact ⟨zs, h⟩

/-- C179: two FIR filters in series are the FIR filter with the product of their coefficients. -/
theorem C179_fir {cs ds : List ℝ} (hc : cs ≠ []) (hd : ds ≠ []) (xs : List ℝ) :
    ∃ ys zs, Outputs (firValue ε cs) xs ys ∧ Outputs (firValue ε ds) ys zs ∧ Outputs (firValue ε (Spec.conv cs ds)) xs zs := by
  set ys := (List.range xs.length).map fun k => Spec.fir cs (xs.take (k + 1)) with hys
  have ly : ys.length = xs.length := by simp [hys]
  set zs := (List.range ys.length).map fun k => Spec.fir ds (ys.take (k + 1)) with hzs
  have lz : zs.length = ys.length := by simp [hzs]
  have gy : ∀ k < xs.length, ys.getD k 0 = Spec.fir cs (xs.take (k + 1)) := by
    intro k hk
    rw [List.getD_eq_getElem _ _ (by omega)]
    simp [hys]
  have gz : ∀ k < ys.length, zs.getD k 0 = Spec.fir ds (ys.take (k + 1)) := by
    intro k hk
    rw [List.getD_eq_getElem _ _ (by omega)]
    simp [hzs]
  have ne : ∀ {l : List ℝ} {k : ℕ}, k < l.length → l.take (k + 1) ≠ [] := by
    intro l k hk
    rw [← List.length_pos_iff, List.length_take]; omega
  have hcd : Spec.conv cs ds ≠ [] := by
    have := List.length_pos_iff.2 hc
    have := List.length_pos_iff.2 hd
    rw [← List.length_pos_iff, Spec.length_conv]; omega
  refine ⟨ys, zs, ⟨ly, fun k hk => ?_⟩, ⟨lz, fun k hk => ?_⟩, lz.trans ly, fun k hk => ?_⟩
  · rw [firValue_eq hc (ne hk), gy k hk]
  · rw [firValue_eq hd (ne hk), gz k hk]
  · rw [firValue_eq hcd (ne hk), gz k (by omega), Spec.fir_series _ _ hk, Spec.fir_series _ _ (by omega), Spec.series_conv hc]
    congr 2
    have d : PowerSeries.X ^ xs.length ∣ Spec.series ys - Spec.series cs * Spec.series xs := by
      rw [PowerSeries.X_pow_dvd_iff]
      intro j hj
      rw [map_sub, sub_eq_zero, Spec.coeff_series, gy j hj, Spec.fir_series _ _ hj]
    have := PowerSeries.X_pow_dvd_iff.1 (Dvd.dvd.mul_left d (Spec.series ds)) k hk
    rw [mul_sub, map_sub, sub_eq_zero] at this
    rw [this]
    congr 1
    ring

/-- C179: two IIR filters in series are one IIR filter.  Its polynomials are the products of those of the two filters. -/
theorem C179_iir {as bs as' bs' : List ℝ} (ha : as ≠ []) (hb : bs ≠ []) (ha' : as' ≠ []) (hb' : bs' ≠ []) {s s' : ℝ}
    (hs : s ≠ 0) (hs' : s' ≠ 0) (xs : List ℝ) :
    ∃ ys zs, Outputs (iirValue ε as bs s) xs ys ∧ Outputs (iirValue ε as' bs' s') ys zs
      ∧ Outputs (iirValue ε (Spec.conv as as') (Spec.conv (s :: bs) (s' :: bs')).tail (s * s')) xs zs := by
  obtain ⟨ys, hy⟩ := isIIR_exists ha hb hs xs
  obtain ⟨zs, hz⟩ := isIIR_exists ha' hb' hs' ys
  have p1 := List.length_pos_iff.2 ha
  have p2 := List.length_pos_iff.2 ha'
  have p3 := List.length_pos_iff.2 hb
  refine ⟨ys, zs, iirValue_eq ha hb hs hy, iirValue_eq ha' hb' hs' hz,
    iirValue_eq ?_ ?_ (mul_ne_zero hs hs') (Spec.isIIR_series_comp ha hy hz)⟩
  · rw [← List.length_pos_iff, Spec.length_conv]; omega
  · rw [← List.length_pos_iff, List.length_tail, Spec.length_conv, List.length_cons, List.length_cons]; omega

theorem conv_comm {as bs : List ℝ} (ha : as ≠ []) (hb : bs ≠ []) : Spec.conv as bs = Spec.conv bs as := by
  have h : Spec.series (Spec.conv as bs) = Spec.series (Spec.conv bs as) := by
    rw [Spec.series_conv ha, Spec.series_conv hb, mul_comm]
  have hl : (Spec.conv as bs).length = (Spec.conv bs as).length := by
    rw [Spec.length_conv, Spec.length_conv, Nat.add_comm]
  apply List.ext_getElem hl
  intro i h1 h2
  have := congrArg (PowerSeries.coeff i) h
  rwa [Spec.coeff_series, Spec.coeff_series, List.getD_eq_getElem _ _ h1, List.getD_eq_getElem _ _ h2] at this

/-- The values of a filter are determined. -/
theorem Outputs.unique {f : List ℝ → Option (E ε)} {xs ys zs : List ℝ} (h : Outputs f xs ys) (h' : Outputs f xs zs) : ys = zs := by
  apply List.ext_getElem (h.1.trans h'.1.symm)
  intro i h1 h2
  have hi : i < xs.length := by rw [← h.1]; exact h1
  have := X.fin_inj.1 (Option.some.inj ((h.2 i hi).symm.trans (h'.2 i hi)))
  rwa [List.getD_eq_getElem _ _ h1, List.getD_eq_getElem _ _ h2] at this

/-- C179: the order of two filters in series is irrelevant. -/
theorem C179_order {as bs as' bs' : List ℝ} (ha : as ≠ []) (hb : bs ≠ []) (ha' : as' ≠ []) (hb' : bs' ≠ []) {s s' : ℝ}
    (hs : s ≠ 0) (hs' : s' ≠ 0) {xs ys ys' zs zs' : List ℝ}
    (h1 : Outputs (iirValue ε as bs s) xs ys) (h2 : Outputs (iirValue ε as' bs' s') ys zs)
    (h3 : Outputs (iirValue ε as' bs' s') xs ys') (h4 : Outputs (iirValue ε as bs s) ys' zs') : zs = zs' := by
  obtain ⟨y, z, a1, a2, a3⟩ := C179_iir (ε := ε) ha hb ha' hb' hs hs' xs
  obtain ⟨y', z', b1, b2, b3⟩ := C179_iir (ε := ε) ha' hb' ha hb hs' hs xs
  obtain rfl := a1.unique h1
  obtain rfl := a2.unique h2
  obtain rfl := b1.unique h3
  obtain rfl := b2.unique h4
  rw [conv_comm ha' ha, conv_comm (as := s' :: bs') (bs := s :: bs) (by simp) (by simp), mul_comm s' s] at b3
  exact a3.unique b3

/-- C179: the same for FIR filters. -/
theorem C179_fir_order {cs ds : List ℝ} (hc : cs ≠ []) (hd : ds ≠ []) {xs ys ys' zs zs' : List ℝ}
    (h1 : Outputs (firValue ε cs) xs ys) (h2 : Outputs (firValue ε ds) ys zs)
    (h3 : Outputs (firValue ε ds) xs ys') (h4 : Outputs (firValue ε cs) ys' zs') : zs = zs' := by
  obtain ⟨y, z, a1, a2, a3⟩ := C179_fir (ε := ε) hc hd xs
  obtain ⟨y', z', b1, b2, b3⟩ := C179_fir (ε := ε) hd hc xs
  obtain rfl := a1.unique h1
  obtain rfl := a2.unique h2
  obtain rfl := b1.unique h3
  obtain rfl := b2.unique h4
  rw [conv_comm hd hc] at b3
  exact a3.unique b3

/-- C179: a filter and its inverse.  The IIR filter `(1, b, 1)` undoes the FIR filter `1, b_1, b_2, ...`. -/
theorem C179_inverse {bs : List ℝ} (hb : bs ≠ []) {xs ys : List ℝ} (h : Outputs (firValue ε (1 :: bs)) xs ys) :
    Outputs (iirValue ε [1] bs 1) ys xs := by
  refine iirValue_eq (by simp) hb one_ne_zero ?_
  rw [Spec.isIIR_series]
  refine ⟨h.1.symm, ?_⟩
  rw [PowerSeries.X_pow_dvd_iff]
  intro k hk
  rw [h.1] at hk
  have hv := h.2 k hk
  have hne : xs.take (k + 1) ≠ [] := by rw [← List.length_pos_iff, List.length_take]; omega
  rw [firValue_eq (by simp) hne] at hv
  have e1 : Spec.series [1] = 1 := by
    rw [Spec.series_cons]
    have : Spec.series [] = 0 := by ext k; simp
    rw [this, mul_zero, add_zero, map_one]
  rw [map_sub, ← Spec.fir_series _ _ hk, e1, one_mul, Spec.coeff_series, ← X.fin_inj.1 (Option.some.inj hv), sub_self]

/-- The moving average of 2 twice: weights 1/4, 1/2, 1/4. -/
example : Spec.conv [1 / 2, 1 / 2] [1 / 2, 1 / 2] = [1 / 4, 1 / 2, 1 / 4] := by
  simp [Spec.conv, List.range_succ, Finset.sum_range_succ]
  norm_num

/-- Differences undone: the sums of 3, -1, 2 are 3, 2, 4, and their differences 3, -1, 2. -/
example : Outputs (iirValue ε [1] [-1] 1) [3, -1, 2] [3, 2, 4] := by
  refine C179_inverse (by simp) ⟨rfl, fun k hk => ?_⟩
  have : k = 0 ∨ k = 1 ∨ k = 2 := by simp at hk; omega
  rcases this with rfl | rfl | rfl <;> rw [firValue_eq (by simp) (by simp)] <;> simp [Spec.fir, List.range_succ] <;> norm_num

end Verif.Props
