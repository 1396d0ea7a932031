import Verif.Proofs.History
import Verif.Proofs.Window
import Verif.Model.Impulse
import Mathlib.Data.List.GetD
import Mathlib.Tactic.LinearCombination
/-
State of the digital filters after any history.
-/
namespace Verif.Spec

theorem sum_getD_zipWith (cs l : List ℝ) :
    ((List.range cs.length).map fun i : ℕ => cs.getD i 0 * l.getD i 0).sum
      = (List.zipWith (· * ·) l cs).sum := by
  induction cs generalizing l with
  | nil => simp
  | cons c cs ih =>
    rw [List.length_cons, List.range_succ_eq_map, List.map_cons, List.map_map, List.sum_cons]
    cases l with
    | nil => simp [Function.comp_def]
    | cons x l =>
      rw [List.zipWith_cons_cons, List.sum_cons, ← ih l]
      simp [Function.comp_def, mul_comm]

theorem fir_eq (cs xs : List ℝ) : fir cs xs = (List.zipWith (· * ·) xs.reverse cs).sum :=
  sum_getD_zipWith cs xs.reverse

@[simp] theorem fir_nil (cs : List ℝ) : fir cs [] = 0 := by simp [fir_eq]

theorem isIIR_nil (as bs : List ℝ) (scale : ℝ) : IsIIR as bs scale [] [] :=
  ⟨rfl, fun k hk => absurd hk (Nat.not_lt_zero k)⟩

theorem isIIR_snoc {as bs : List ℝ} {scale : ℝ} (h0 : scale ≠ 0) {xs ys : List ℝ}
    (h : IsIIR as bs scale xs ys) (x : ℝ) :
    IsIIR as bs scale (xs ++ [x]) (ys ++ [(fir as (xs ++ [x]) - fir bs ys) / scale]) := by
  refine ⟨by simp [h.1], fun k hk => ?_⟩
  rw [List.length_append, List.length_singleton] at hk
  by_cases hk' : k < xs.length
  · have := h.2 k hk'
    rw [List.getD_append _ _ _ _ (by rw [h.1]; exact hk'), List.take_append_of_le_length (by omega),
      List.take_append_of_le_length (by rw [h.1]; omega)]
    exact this
  · have hk2 : k = xs.length := by omega
    subst hk2
    rw [← h.1, List.getD_append_right _ _ _ _ (le_refl _), Nat.sub_self, List.getD_cons_zero,
      List.take_append_of_le_length (le_refl _), List.take_length, h.1,
      List.take_of_length_le (by simp)]
    field_simp

/-- There is only one solution. -/
theorem isIIR_unique {as bs : List ℝ} {scale : ℝ} (h0 : scale ≠ 0) {xs ys zs : List ℝ}
    (hy : IsIIR as bs scale xs ys) (hz : IsIIR as bs scale xs zs) : ys = zs := by
  have key : ∀ k, k ≤ xs.length → ys.take k = zs.take k := by
    intro k
    induction k with
    | zero => intro _; simp
    | succ k ih =>
      intro hk
      have e := ih (by omega)
      have h1 := hy.2 k (by omega)
      have h2 := hz.2 k (by omega)
      rw [e, ← h2] at h1
      have h3 := mul_left_cancel₀ h0 h1
      have hyl : k < ys.length := by rw [hy.1]; omega
      have hzl : k < zs.length := by rw [hz.1]; omega
      rw [List.getD_eq_getElem _ _ hyl, List.getD_eq_getElem _ _ hzl] at h3
      rw [List.take_succ_eq_append_getElem hyl, List.take_succ_eq_append_getElem hzl, e, h3]
  have := key xs.length (le_refl _)
  rwa [List.take_of_length_le (by rw [hy.1]), List.take_of_length_le (by rw [hz.1])] at this

/-- The filter is linear. -/
theorem zipWith_reverse' {a b : List ℝ} (f : ℝ → ℝ → ℝ) (h : a.length = b.length) :
    (List.zipWith f a b).reverse = List.zipWith f a.reverse b.reverse := by
  rw [List.reverse_zipWith h]

theorem fir_linear (cs : List ℝ) (a b : ℝ) {xs xs' : List ℝ} (h : xs.length = xs'.length) :
    fir cs (List.zipWith (fun x y => a * x + b * y) xs xs') = a * fir cs xs + b * fir cs xs' := by
  rw [fir, fir, fir, ← List.sum_map_mul_left, ← List.sum_map_mul_left, ← List.sum_map_add]
  congr 1
  apply List.map_congr_left
  intro i _
  rw [zipWith_reverse' _ h]
  by_cases hi : i < xs.length
  · rw [List.getD_eq_getElem (List.zipWith _ xs.reverse xs'.reverse) _ (by rw [List.length_zipWith, List.length_reverse, List.length_reverse]; omega), List.getD_eq_getElem xs.reverse _ (by simpa using hi),
      List.getD_eq_getElem xs'.reverse _ (by simpa [← h] using hi), List.getElem_zipWith]
    ring
  · rw [List.getD_eq_default (List.zipWith _ xs.reverse xs'.reverse) _ (by rw [List.length_zipWith, List.length_reverse, List.length_reverse]; omega),
      List.getD_eq_default xs.reverse _ (by rw [List.length_reverse]; omega),
      List.getD_eq_default xs'.reverse _ (by rw [List.length_reverse]; omega)]
    ring

theorem isIIR_linear {as bs : List ℝ} {scale : ℝ} (a b : ℝ) {xs xs' ys ys' : List ℝ}
    (h : xs.length = xs'.length) (hy : IsIIR as bs scale xs ys) (hy' : IsIIR as bs scale xs' ys') :
    IsIIR as bs scale (List.zipWith (fun x y => a * x + b * y) xs xs')
      (List.zipWith (fun x y => a * x + b * y) ys ys') := by
  refine ⟨by simp [hy.1, hy'.1], fun k hk => ?_⟩
  have hk1 : k < xs.length := by simp at hk; omega
  have hk2 : k < xs'.length := by omega
  rw [List.take_zipWith, List.take_zipWith, fir_linear _ _ _ (by simp [h]),
    fir_linear _ _ _ (by simp [hy.1, hy'.1, h]),
    List.getD_eq_getElem _ _ (by simp [hy.1, hy'.1]; omega), List.getElem_zipWith]
  have h1 := hy.2 k hk1
  have h2 := hy'.2 k hk2
  rw [List.getD_eq_getElem _ _ (by rw [hy.1]; exact hk1)] at h1
  rw [List.getD_eq_getElem _ _ (by rw [hy'.1]; exact hk2)] at h2
  linear_combination a * h1 + b * h2

end Verif.Spec

namespace Verif.Impulse
open Scalar Exact

section
variable {β : Type}

/-- A deque holds the most recent values, newest first. -/
theorem pushFront_take {P : Nat} (hP : 1 ≤ P) (l : List β) (x : β) :
    (⟨P, l.take P⟩ : Deque β).pushFront x = ⟨P, (x :: l).take P⟩ := by
  obtain ⟨p, rfl⟩ : ∃ p, P = p + 1 := ⟨P - 1, by omega⟩
  simp only [Deque.pushFront, Deque.full, List.length_take, beq_iff_eq, Deque.mk.injEq, true_and,
    List.take_succ_cons]
  by_cases h : p + 1 ≤ l.length
  · rw [if_pos (min_eq_left h), List.dropLast_eq_take, List.length_take, min_eq_left h,
      List.take_take]
    congr 2
    omega
  · rw [if_neg (by omega), List.take_of_length_le (by omega), List.take_of_length_le (by omega)]

end

variable {α : Type} [Scalar α]

theorem innerProduct_some (acc : α) {l cs : List α} (h : l.length ≤ cs.length) :
    ∃ r, innerProduct acc l cs = some r := by
  induction l generalizing acc cs with
  | nil => exact ⟨acc, by simp [innerProduct]⟩
  | cons x l ih =>
    cases cs with
    | nil => simp at h
    | cons c cs => exact ih _ (by simpa using h)

theorem innerProduct_fin {ε : ℝ} (acc : ℝ) {l cs : List ℝ} (h : l.length ≤ cs.length) :
    innerProduct (X.fin acc : E ε) (l.map X.fin) (cs.map X.fin)
      = some (X.fin (acc + (List.zipWith (· * ·) l cs).sum)) := by
  induction l generalizing acc cs with
  | nil => simp [innerProduct]
  | cons x l ih =>
    cases cs with
    | nil => simp at h
    | cons c cs =>
      simp only [List.map_cons, innerProduct, mul_fin, add_fin]
      rw [ih _ (by simpa using h)]
      simp [add_assoc]

theorem zipWith_take (l cs : List ℝ) :
    List.zipWith (· * ·) (l.take cs.length) cs = List.zipWith (· * ·) l cs := by
  induction cs generalizing l with
  | nil => simp
  | cons c cs ih => cases l with
    | nil => simp
    | cons x l => simp [ih]

/-- The state of the FIR filter in any arithmetic. -/
theorem Finite.run_some {cs : List α} (hc : cs ≠ []) (ops : List (Op α)) :
    ∃ s : Finite α, Finite.run cs ops = some s ∧ s.coefficients = cs
      ∧ s.input = ⟨cs.length, (sinceClear ops).reverse.take cs.length⟩ := by
  have hP : 1 ≤ cs.length := List.length_pos_iff.2 hc
  induction ops using List.reverseRecOn with
  | nil => exact ⟨_, rfl, rfl, by simp [Finite.init, Deque.init]⟩
  | append_singleton ops op ih =>
    obtain ⟨s, hs, h1, h2⟩ := ih
    rw [Finite.run, runOps_append]
    rw [Finite.run] at hs
    rw [hs]
    cases op with
    | push x =>
      rw [sinceClear_append_push]
      have hd := pushFront_take hP (sinceClear ops).reverse x
      obtain ⟨r, hr⟩ := innerProduct_some (ofNat 0 : α)
        (l := (x :: (sinceClear ops).reverse).take cs.length) (cs := cs) (by simp)
      refine ⟨{ s with input := s.input.pushFront x, output := r }, ?_, h1, ?_⟩
      · show Finite.push s x = _
        rw [Finite.push, h1, h2, hd]
        simp only [hr, Option.map_some]
      · rw [List.reverse_append]
        show s.input.pushFront x = _
        rw [h2, hd]; rfl
    | clear =>
      rw [sinceClear_append_clear]
      refine ⟨s.clear, rfl, h1, ?_⟩
      show s.input.clear = _
      rw [h2]; simp [Deque.clear]

/-- Value after a push, in exact arithmetic. -/
theorem Finite.push_fin {ε : ℝ} {cs : List ℝ} (hc : cs ≠ []) (ops : List (Op ℝ)) (x : ℝ) :
    ∃ s : Finite (E ε), Finite.run (cs.map X.fin) (finOps (ops ++ [.push x])) = some s
      ∧ s.output = X.fin (Spec.fir cs (sinceClear (ops ++ [.push x]))) := by
  have hP : 1 ≤ cs.length := List.length_pos_iff.2 hc
  have hc' : (cs.map (X.fin : ℝ → E ε)) ≠ [] := by simpa using hc
  obtain ⟨s, hs, h1, h2⟩ := Finite.run_some hc' (finOps ops : List (Op (E ε)))
  rw [sinceClear_finOps, List.length_map] at h2
  have hd := pushFront_take (P := cs.length) hP ((sinceClear ops).map (X.fin : ℝ → E ε)).reverse (X.fin x)
  have hi := innerProduct_fin (ε := ε) 0 (l := (x :: (sinceClear ops).reverse).take cs.length) (cs := cs)
    (by simp)
  have e : (X.fin x :: ((sinceClear ops).map (X.fin : ℝ → E ε)).reverse).take cs.length
      = ((x :: (sinceClear ops).reverse).take cs.length).map X.fin := by
    rw [List.map_take, List.map_cons, List.map_reverse]
  refine ⟨{ s with input := s.input.pushFront (X.fin x),
                    output := X.fin (Spec.fir cs (sinceClear (ops ++ [.push x]))) }, ?_, rfl⟩
  rw [finOps, List.map_append, Finite.run, runOps_append]
  rw [Finite.run, finOps] at hs
  rw [hs]
  show Finite.push s (X.fin x) = _
  rw [Finite.push, h1, h2, hd]
  simp only [e, Exact.ofNat_eq, Nat.cast_zero, hi, Option.map_some, zero_add]
  rw [Spec.fir_eq, sinceClear_append_push, List.reverse_append, zipWith_take]
  rfl

/-- The state of the IIR filter in any arithmetic. -/
theorem Infinite.run_eq {as bs : List α} (ha : as ≠ []) (hb : bs ≠ []) (c : α) (ops : List (Op α)) :
    Infinite.run as bs c ops
        = (sinceClear ops).foldl (fun s x => s.bind (Infinite.push · x)) (some (Infinite.init as bs c))
    ∧ ∃ s : Infinite α, Infinite.run as bs c ops = some s
      ∧ s.inputCoefficients = as ∧ s.outputCoefficients = bs ∧ s.outputScale = c
      ∧ s.inputWindow = ⟨as.length, (sinceClear ops).reverse.take as.length⟩
      ∧ ∃ ys : List α, ys.length = (sinceClear ops).length
        ∧ s.outputWindow = ⟨bs.length, ys.reverse.take bs.length⟩ := by
  have hP : 1 ≤ as.length := List.length_pos_iff.2 ha
  have hQ : 1 ≤ bs.length := List.length_pos_iff.2 hb
  induction ops using List.reverseRecOn with
  | nil => exact ⟨rfl, _, rfl, rfl, rfl, rfl, by simp [Infinite.init, Deque.init],
      [], rfl, by simp [Infinite.init, Deque.init]⟩
  | append_singleton ops op ih =>
    obtain ⟨he, s, hs, h1, h2, h3, h4, ys, hl, h5⟩ := ih
    rw [hs] at he
    rw [Infinite.run, runOps_append]
    rw [Infinite.run] at hs
    rw [hs]
    cases op with
    | push x =>
      rw [sinceClear_append_push, List.foldl_append, ← he]
      refine ⟨rfl, ?_⟩
      have hd := pushFront_take hP (sinceClear ops).reverse x
      obtain ⟨r, hr⟩ := innerProduct_some (ofNat 0 : α)
        (l := (x :: (sinceClear ops).reverse).take as.length) (cs := as) (by simp)
      obtain ⟨q, hq⟩ := innerProduct_some (ofNat 0 : α)
        (l := ys.reverse.take bs.length) (cs := bs) (by simp)
      have hd2 := pushFront_take hQ ys.reverse ((r - q) / c)
      refine ⟨{ s with inputWindow := ⟨as.length, (x :: (sinceClear ops).reverse).take as.length⟩
                       outputWindow := ⟨bs.length, (((r - q) / c) :: ys.reverse).take bs.length⟩ },
        ?_, h1, h2, h3, ?_, ys ++ [(r - q) / c], by simp [hl], by simp⟩
      · show Infinite.push s x = _
        rw [Infinite.push, h1, h2, h3, h4, h5, hd]
        simp only [hr, hq, hd2, Option.bind_eq_bind, Option.bind_some]
        rfl
      · simp
    | clear =>
      rw [sinceClear_append_clear]
      have hcl : s.clear = Infinite.init as bs c := by
        obtain ⟨a1, a2, a3, a4, a5⟩ := s
        simp only at h1 h2 h3 h4 h5
        simp [Infinite.clear, Infinite.init, h1, h2, h3, h4, h5, Deque.clear, Deque.init]
      refine ⟨?_, s.clear, rfl, h1, h2, h3, ?_, [], rfl, ?_⟩
      · show some s.clear = _
        rw [hcl]; rfl
      · show s.inputWindow.clear = _
        rw [h4]; simp [Deque.clear]
      · show s.outputWindow.clear = _
        rw [h5]; simp [Deque.clear]

theorem Infinite.run_fin {ε : ℝ} {as bs : List ℝ} (ha : as ≠ []) (hb : bs ≠ []) {c : ℝ} (hc : c ≠ 0)
    (ops : List (Op ℝ)) :
    ∃ (s : Infinite (E ε)) (ys : List ℝ),
      Infinite.run (as.map X.fin) (bs.map X.fin) (X.fin c) (finOps ops) = some s
      ∧ Spec.IsIIR as bs c (sinceClear ops) ys
      ∧ s = { inputWindow := ⟨as.length, ((sinceClear ops).reverse.take as.length).map X.fin⟩
              inputCoefficients := as.map X.fin
              outputWindow := ⟨bs.length, (ys.reverse.take bs.length).map X.fin⟩
              outputScale := X.fin c
              outputCoefficients := bs.map X.fin } := by
  have hP : 1 ≤ as.length := List.length_pos_iff.2 ha
  have hQ : 1 ≤ bs.length := List.length_pos_iff.2 hb
  rw [(Infinite.run_eq (by simpa using ha) (by simpa using hb) _ _).1, sinceClear_finOps]
  induction sinceClear ops using List.reverseRecOn with
  | nil => exact ⟨_, [], rfl, Spec.isIIR_nil _ _ _, by simp [Infinite.init, Deque.init]⟩
  | append_singleton xs x ih =>
    obtain ⟨s, ys, hs, hy, h⟩ := ih
    have hi := innerProduct_fin (ε := ε) 0 (l := (x :: xs.reverse).take as.length) (cs := as) (by simp)
    have hj := innerProduct_fin (ε := ε) 0 (l := ys.reverse.take bs.length) (cs := bs) (by simp)
    have hd := pushFront_take (P := as.length) hP (xs.reverse.map (X.fin : ℝ → E ε)) (X.fin x)
    have hd2 := fun z => pushFront_take (P := bs.length) hQ (ys.reverse.map (X.fin : ℝ → E ε)) (X.fin z)
    simp only [← List.map_cons, ← List.map_take] at hd hd2
    refine ⟨_, ys ++ [(Spec.fir as (xs ++ [x]) - Spec.fir bs ys) / c], ?_, Spec.isIIR_snoc hc hy x, rfl⟩
    rw [List.map_append, List.foldl_append, hs]
    show Infinite.push s (X.fin x) = _
    rw [h]
    simp only [Infinite.push, hd, Exact.ofNat_eq, Nat.cast_zero, hi, hj, Option.bind_eq_bind,
      Option.bind_some, zero_add, sub_fin, div_fin _ hc, hd2, zipWith_take]
    rw [Spec.fir_eq, Spec.fir_eq]
    simp

end Verif.Impulse
