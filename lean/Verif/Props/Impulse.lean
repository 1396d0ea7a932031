import Verif.Proofs.Impulse
import Mathlib.Tactic.IntervalCases
/-
C50 - C52: finite and infinite impulse response filters.

Coefficient arrays are built-in C++ arrays, so they are never empty.
-/
namespace Verif.Props
open Scalar Exact Verif.Impulse

variable {ε : ℝ}

/-! ### C50 -/

/-- C50: no undefined behaviour and the bookkeeping, in any arithmetic. -/
theorem C50_fir_defined {α : Type} [Scalar α] {cs : List α} (hc : cs ≠ []) (ops : List (Op α)) :
    ∃ s : Impulse.Finite α, Impulse.Finite.run cs ops = some s
      ∧ s.size = min cs.length (sinceClear ops).length ∧ s.capacity = cs.length
      ∧ (s.full = true ↔ cs.length ≤ (sinceClear ops).length)
      ∧ (s.empty = true ↔ sinceClear ops = []) := by
  obtain ⟨s, hs, -, h2⟩ := Impulse.Finite.run_some hc ops
  have hP : 1 ≤ cs.length := List.length_pos_iff.2 hc
  refine ⟨s, hs, ?_, ?_, ?_, ?_⟩
  · simp [Impulse.Finite.size, Deque.size, h2]
  · simp [Impulse.Finite.capacity, h2]
  · simp [Impulse.Finite.full, Deque.full, h2]
  · simp [Impulse.Finite.empty, Deque.empty, h2, hc]

/-- C50: the value after any history that ends with a push is the convolution. -/
theorem C50_fir {cs : List ℝ} (hc : cs ≠ []) (ops : List (Op ℝ)) (x : ℝ) :
    ∃ s : Impulse.Finite (E ε), Impulse.Finite.run (cs.map X.fin) (finOps (ops ++ [.push x])) = some s
      ∧ s.value = X.fin (Spec.fir cs (sinceClear (ops ++ [.push x]))) :=
  Impulse.Finite.push_fin hc ops x

/-- C50: before anything has been pushed the value is 0. -/
theorem C50_fir_new (cs : List ℝ) :
    ∃ s : Impulse.Finite (E ε), Impulse.Finite.run (cs.map X.fin) [] = some s ∧ s.value = X.fin 0 :=
  ⟨_, rfl, by simp [Impulse.Finite.init, Impulse.Finite.value, Exact.ofNat_eq]⟩

/-- C50 for a list of pushes. -/
theorem fir_pushes {cs : List ℝ} (hc : cs ≠ []) {l : List ℝ} (hl : l ≠ []) : ∃ s : Impulse.Finite (E ε),
    Impulse.Finite.run (cs.map X.fin) (finOps (l.map .push)) = some s
      ∧ s.value = X.fin (Spec.fir cs l) := by
  obtain ⟨s, hs, hv⟩ := C50_fir (ε := ε) hc (l.dropLast.map .push) (l.getLast hl)
  have e : l.dropLast.map Op.push ++ [.push (l.getLast hl)] = l.map Op.push := by
    conv_rhs => rw [← List.dropLast_append_getLast hl, List.map_append]
    rfl
  rw [e] at hs hv
  rw [sinceClear_pushes] at hv
  exact ⟨s, hs, hv⟩

/-- C50: the filter is linear: filtering `a * x + b * x'` gives `a * y + b * y'`. -/
theorem C50_fir_linear {cs : List ℝ} (hc : cs ≠ []) (a b : ℝ) (xs xs' : List ℝ)
    (h : xs.length = xs'.length) (h0 : xs ≠ []) :
    ∃ (s s' t : Impulse.Finite (E ε)) (y y' : ℝ),
      Impulse.Finite.run (cs.map X.fin) (finOps (xs.map .push)) = some s
      ∧ Impulse.Finite.run (cs.map X.fin) (finOps (xs'.map .push)) = some s'
      ∧ Impulse.Finite.run (cs.map X.fin)
          (finOps ((List.zipWith (fun x x' => a * x + b * x') xs xs').map .push)) = some t
      ∧ s.value = X.fin y ∧ s'.value = X.fin y' ∧ t.value = X.fin (a * y + b * y') := by
  have h0' : xs' ≠ [] := by
    intro e; rw [e] at h; exact h0 (List.length_eq_zero_iff.1 h)
  obtain ⟨s, hs, hv⟩ := fir_pushes (ε := ε) hc h0
  obtain ⟨s', hs', hv'⟩ := fir_pushes (ε := ε) hc h0'
  obtain ⟨t, ht, hw⟩ := fir_pushes (ε := ε) hc (l := List.zipWith (fun x x' => a * x + b * x') xs xs') (by
    intro e
    have := congrArg List.length e
    rw [List.length_zipWith, ← h, min_self] at this
    exact h0 (List.length_eq_zero_iff.1 this))
  exact ⟨s, s', t, _, _, hs, hs', ht, hv, hv', by rw [hw, Spec.fir_linear _ _ _ h]⟩

/-- C50: the response to an impulse (1 followed by `k` zeros) is the coefficient with index `k`, and 0
after the last coefficient. -/
theorem C50_impulse_response {cs : List ℝ} (hc : cs ≠ []) (k : ℕ) :
    ∃ s : Impulse.Finite (E ε),
      Impulse.Finite.run (cs.map X.fin) (finOps ((1 :: List.replicate k 0).map .push)) = some s
      ∧ s.value = X.fin (if h : k < cs.length then cs[k] else 0) := by
  have hval : Spec.fir cs (1 :: List.replicate k 0) = if h : k < cs.length then cs[k] else 0 := by
    rw [Spec.fir, List.reverse_cons, List.reverse_replicate]
    have e : ∀ i : ℕ, (List.replicate k (0 : ℝ) ++ [1]).getD i 0 = if i = k then 1 else 0 := by
      intro i
      rcases lt_trichotomy i k with h | h | h
      · rw [List.getD_append _ _ _ _ (by simpa using h), List.getD_replicate _ (by simpa using h), if_neg (by omega)]
      · subst h
        rw [List.getD_append_right _ _ _ _ (by simp)]; simp
      · rw [List.getD_eq_default _ _ (by simp; omega), if_neg (by omega)]
    simp only [e, mul_ite, mul_one, mul_zero]
    have hsum : ∀ n : ℕ, ((List.range n).map fun i : ℕ => if i = k then cs.getD i 0 else 0).sum
        = if k < n then cs.getD k 0 else 0 := by
      intro n
      induction n with
      | zero => simp
      | succ n ih =>
        rw [List.range_succ, List.map_append, List.sum_append, ih]
        rcases lt_trichotomy k n with h | h | h
        · simp [h, Nat.lt_succ_of_lt h, Nat.ne_of_gt h]
        · simp [h]
        · simp [Nat.not_lt_of_gt h, Nat.ne_of_lt h, show ¬ k < n + 1 by omega]
    rw [hsum]
    by_cases h : k < cs.length
    · rw [if_pos h, dif_pos h, List.getD_eq_getElem _ _ h]
    · rw [if_neg h, dif_neg h]
  obtain ⟨s, hs, hv⟩ := fir_pushes (ε := ε) hc (List.cons_ne_nil (1 : ℝ) (List.replicate k 0))
  exact ⟨s, hs, by rw [hv, hval]⟩

/-- Coefficients 1, 2, 4: pushing 10 (then clear), 1, 0, 5, 7 gives 7 * 1 + 5 * 2 + 0 * 4. -/
example : ∃ s : Impulse.Finite (E ε), Impulse.Finite.run ([1, 2, 4].map X.fin)
    (finOps ([.push 10, .clear, .push 1, .push 0, .push 5] ++ [.push 7])) = some s
      ∧ s.value = X.fin 17 := by
  obtain ⟨s, hs, hv⟩ := C50_fir (ε := ε) (cs := [1, 2, 4]) (by simp)
    [.push 10, .clear, .push 1, .push 0, .push 5] 7
  refine ⟨s, hs, ?_⟩
  rw [hv, X.fin_inj, Spec.fir_eq]
  have e : sinceClear ([.push 10, .clear, .push 1, .push 0, .push 5] ++ [.push 7])
    = ([1, 0, 5, 7] : List ℝ) := rfl
  rw [e]
  simp
  norm_num

/-- The impulse response of 1, 2, 4 after two zeros is 4. -/
example : ∃ s : Impulse.Finite (E ε), Impulse.Finite.run ([1, 2, 4].map X.fin)
    (finOps ((1 :: List.replicate 2 0).map .push)) = some s ∧ s.value = X.fin 4 :=
  C50_impulse_response (cs := [1, 2, 4]) (by simp) 2

/-! ### C51 -/

/-- C51 (full statement, false): after `clear()` `value()` and all later values are those of a new
filter. -/
def FirClearResets (α : Type) [Scalar α] : Prop :=
  ∀ (cs : List α) (pre post : List (Op α)), cs ≠ [] →
    (Impulse.Finite.run cs (pre ++ .clear :: post)).map (·.value)
      = (Impulse.Finite.run cs post).map (·.value)

/-- C51 is violated: with the single coefficient 1, `push(1); clear(); value()` is 1, not 0
(detail/finite.ipp:45-49 does not reset `output`). -/
theorem C51_violated : ¬ FirClearResets (E ε) := by
  intro h
  have h1 := h [X.fin 1] [.push (X.fin 1)] [] (by simp)
  simp [Impulse.Finite.run, runOps, Impulse.Finite.init, Impulse.Finite.push, Impulse.Finite.clear,
    Impulse.Finite.value, Deque.init, Deque.clear, Deque.pushFront, Deque.full, innerProduct,
    Exact.ofNat_eq] at h1

/-- C51 (partial): as soon as a value has been pushed after `clear()` the filter is in the state of a new
filter, in any arithmetic. Missing: `value()` between `clear()` and the next push. -/
theorem C51_clear_partial {α : Type} [Scalar α] {cs : List α} (hc : cs ≠ []) (pre : List (Op α))
    (post : List (Op α)) (x : α) :
    Impulse.Finite.run cs (pre ++ .clear :: (post ++ [.push x])) = Impulse.Finite.run cs (post ++ [.push x]) := by
  rw [← List.cons_append, ← List.append_assoc]
  obtain ⟨s, hs, h1, h2⟩ := Impulse.Finite.run_some hc (pre ++ .clear :: post)
  obtain ⟨t, ht, h3, h4⟩ := Impulse.Finite.run_some hc post
  rw [Impulse.Finite.run] at hs ht
  rw [Impulse.Finite.run, Impulse.Finite.run, runOps_append _ _ _ (pre ++ .clear :: post),
    runOps_append _ _ _ post, hs, ht]
  rw [sinceClear_clear_append] at h2
  show Impulse.Finite.push s x = Impulse.Finite.push t x
  rw [Impulse.Finite.push, Impulse.Finite.push, h1, h2, h3, h4]

/-- C51 (partial): and everything but `value()` is already reset by `clear()` itself. -/
theorem C51_clear_observers_partial {α : Type} [Scalar α] {cs : List α} (hc : cs ≠ []) (pre post : List (Op α)) :
    ∃ s t : Impulse.Finite α, Impulse.Finite.run cs (pre ++ .clear :: post) = some s
      ∧ Impulse.Finite.run cs post = some t ∧ s.size = t.size ∧ s.empty = t.empty ∧ s.full = t.full
      ∧ s.capacity = t.capacity := by
  obtain ⟨s, hs, -, h2⟩ := Impulse.Finite.run_some hc (pre ++ .clear :: post)
  obtain ⟨t, ht, -, h4⟩ := Impulse.Finite.run_some hc post
  rw [sinceClear_clear_append, ← h4] at h2
  exact ⟨s, t, hs, ht, by simp [Impulse.Finite.size, h2], by simp [Impulse.Finite.empty, h2],
    by simp [Impulse.Finite.full, h2], by simp [Impulse.Finite.capacity, h2]⟩

example : Impulse.Finite.run [X.fin 1, X.fin 2] [.push (X.nan : E ε), .clear, .push (X.fin 3)]
    = Impulse.Finite.run [X.fin 1, X.fin 2] [.push (X.fin 3)] :=
  C51_clear_partial (cs := [X.fin 1, X.fin 2]) (by simp) [.push X.nan] [] (X.fin 3)

/-! ### C52 -/

/-- C52: no undefined behaviour, in any arithmetic. -/
theorem C52_iir_defined {α : Type} [Scalar α] {as bs : List α} (ha : as ≠ []) (hb : bs ≠ []) (c : α)
    (ops : List (Op α)) :
    ∃ s : Impulse.Infinite α, Impulse.Infinite.run as bs c ops = some s
      ∧ (s.empty = true ↔ sinceClear ops = [])
      ∧ (sinceClear ops = [] → s.value = ofNat 0) := by
  obtain ⟨-, s, hs, -, -, -, h4, ys, hl, h5⟩ := Impulse.Infinite.run_eq ha hb c ops
  refine ⟨s, hs, by simp [Impulse.Infinite.empty, Deque.empty, h4, ha], fun h => ?_⟩
  rw [h] at hl
  obtain rfl := List.length_eq_zero_iff.1 hl
  simp [Impulse.Infinite.value, h5]

/-- C52: the difference equation has exactly one solution and `value()` is its last element. -/
theorem C52_iir {as bs : List ℝ} (ha : as ≠ []) (hb : bs ≠ []) {c : ℝ} (hc : c ≠ 0) (ops : List (Op ℝ)) :
    ∃ (s : Impulse.Infinite (E ε)) (ys : List ℝ),
      Impulse.Infinite.run (as.map X.fin) (bs.map X.fin) (X.fin c) (finOps ops) = some s
      ∧ Spec.IsIIR as bs c (sinceClear ops) ys
      ∧ (∀ zs, Spec.IsIIR as bs c (sinceClear ops) zs → zs = ys)
      ∧ s.value = X.fin (ys.getLastD 0) := by
  obtain ⟨s, ys, hs, hy, h⟩ := Impulse.Infinite.run_fin (ε := ε) ha hb hc ops
  refine ⟨s, ys, hs, hy, fun zs hz => Spec.isIIR_unique hc hz hy, ?_⟩
  rw [h, Impulse.Infinite.value]
  obtain ⟨q, hq⟩ : ∃ q, bs.length = q + 1 := ⟨bs.length - 1, by
    have := List.length_pos_iff.2 hb; omega⟩
  rw [hq]
  rcases List.eq_nil_or_concat ys with rfl | ⟨l, y, rfl⟩
  · simp [Exact.ofNat_eq]
  · simp

/-- C52: the value after every single push satisfies the difference equation for the values before it. -/
theorem C52_iir_step {as bs : List ℝ} (ha : as ≠ []) (hb : bs ≠ []) {c : ℝ} (hc : c ≠ 0) (xs : List ℝ)
    (x : ℝ) :
    ∃ (s : Impulse.Infinite (E ε)) (ys : List ℝ) (y : ℝ),
      Impulse.Infinite.run (as.map X.fin) (bs.map X.fin) (X.fin c) (finOps ((xs ++ [x]).map .push)) = some s
      ∧ Spec.IsIIR as bs c xs ys ∧ s.value = X.fin y
      ∧ c * y = Spec.fir as (xs ++ [x]) - Spec.fir bs ys := by
  obtain ⟨s, zs, hs, hz, hu, hv⟩ := C52_iir (ε := ε) ha hb hc ((xs ++ [x]).map .push)
  obtain ⟨-, ys, -, hy, -, -⟩ := C52_iir (ε := ε) ha hb hc (xs.map .push)
  rw [sinceClear_pushes] at hz hu hy
  have e := hu _ (Spec.isIIR_snoc hc hy x)
  refine ⟨s, ys, _, hs, hy, hv, ?_⟩
  rw [← e]
  simp
  field_simp

/-- C52: the filter is linear. -/
theorem C52_iir_linear {as bs : List ℝ} (ha : as ≠ []) (hb : bs ≠ []) {c : ℝ} (hc : c ≠ 0) (a b : ℝ)
    (xs xs' : List ℝ) (h : xs.length = xs'.length) :
    ∃ (s s' t : Impulse.Infinite (E ε)) (y y' : ℝ),
      Impulse.Infinite.run (as.map X.fin) (bs.map X.fin) (X.fin c) (finOps (xs.map .push)) = some s
      ∧ Impulse.Infinite.run (as.map X.fin) (bs.map X.fin) (X.fin c) (finOps (xs'.map .push)) = some s'
      ∧ Impulse.Infinite.run (as.map X.fin) (bs.map X.fin) (X.fin c)
          (finOps ((List.zipWith (fun x x' => a * x + b * x') xs xs').map .push)) = some t
      ∧ s.value = X.fin y ∧ s'.value = X.fin y' ∧ t.value = X.fin (a * y + b * y') := by
  obtain ⟨s, ys, hs, hy, -, hv⟩ := C52_iir (ε := ε) ha hb hc (xs.map .push)
  obtain ⟨s', ys', hs', hy', -, hv'⟩ := C52_iir (ε := ε) ha hb hc (xs'.map .push)
  obtain ⟨t, zs, ht, hz, hu, hw⟩ := C52_iir (ε := ε) ha hb hc
    ((List.zipWith (fun x x' => a * x + b * x') xs xs').map .push)
  rw [sinceClear_pushes] at hy hy' hz hu
  have e := hu _ (Spec.isIIR_linear a b h hy hy')
  refine ⟨s, s', t, _, _, hs, hs', ht, hv, hv', ?_⟩
  rw [hw, ← e, X.fin_inj]
  have hl : ys.length = ys'.length := by rw [hy.1, hy'.1, h]
  clear e hu hw hz ht hv hv' hs hs' hy hy'
  rcases List.eq_nil_or_concat ys with rfl | ⟨l, y, rfl⟩
  · obtain rfl := List.length_eq_zero_iff.1 hl.symm
    simp
  · rcases List.eq_nil_or_concat ys' with rfl | ⟨l', y', rfl⟩
    · simp at hl
    · rw [List.concat_eq_append, List.concat_eq_append] at *
      rw [List.zipWith_append (by simpa using hl)]
      simp

/-- C52: `clear()` makes the filter identical to a new one, in any arithmetic. -/
theorem C52_iir_clear {α : Type} [Scalar α] {as bs : List α} (ha : as ≠ []) (hb : bs ≠ []) (c : α)
    (pre post : List (Op α)) :
    Impulse.Infinite.run as bs c (pre ++ .clear :: post) = Impulse.Infinite.run as bs c post := by
  rw [(Impulse.Infinite.run_eq ha hb c _).1, (Impulse.Infinite.run_eq ha hb c post).1, sinceClear_clear_append]

/-- `2 y_n = x_n - y_{n-1}` fed with 1, 0: y = 1/2, -1/4. -/
example : ∃ s : Impulse.Infinite (E ε),
    Impulse.Infinite.run ([1].map X.fin) ([1].map X.fin) (X.fin 2) (finOps [.push 9, .clear, .push 1, .push 0]) = some s
      ∧ s.value = X.fin (-1 / 4) := by
  obtain ⟨s, ys, hs, hy, hu, hv⟩ := C52_iir (ε := ε) (as := [1]) (bs := [1]) (by simp) (by simp)
    (c := 2) (by norm_num) [.push 9, .clear, .push 1, .push 0]
  refine ⟨s, hs, ?_⟩
  have e : sinceClear [.push 9, .clear, .push 1, .push 0] = ([1, 0] : List ℝ) := rfl
  rw [e] at hy hu
  rw [hv, ← hu [1 / 2, -1 / 4] ⟨rfl, ?_⟩]
  · simp
  · intro k hk
    simp only [List.length_cons, List.length_nil] at hk
    interval_cases k <;> simp [Spec.fir_eq]
    norm_num

end Verif.Props
