import Verif.Props.Frozen
/-
C195: the rounded mean moves towards a new value and not past it.
-/
namespace Verif.Props
open Scalar Cumulative

variable {F : Fmt} {p : Nat} {emin : Int} {w : Nat}

/-- The quotient of a non-negative number and a positive count, added to a number of the format. -/
theorem le_add_quotient (hF : F.Binary p emin) {m d m' : ℝ} (hm : IsRep p emin m) (hf : F.fits m) (hd : 0 ≤ d) {n : X F}
    (hn : n = X.pinf ∨ ∃ k : ℝ, 0 < k ∧ n = X.fin k) (he : (X.fin m + X.fin d / n : X F) = X.fin m') : m ≤ m' := by
  rcases hn with rfl | ⟨k, hk, rfl⟩
  · have : (X.fin d / X.pinf : X F) = X.fin 0 := rfl
    rw [this, X.add_fin, add_zero, hF.round_exact hm hf] at he
    cases he; exact le_rfl
  · rw [X.div_fin_of_ne _ hk.ne'] at he
    have hq : 0 ≤ F.rnd (d / k) := hF.rnd_nonneg (by positivity)
    unfold X.round at he
    split_ifs at he
    · rw [X.add_fin] at he
      unfold X.round at he
      split_ifs at he
      cases he
      exact hF.le_rnd hm (by linarith)
    all_goals cases he

theorem add_quotient_le (hF : F.Binary p emin) {m d m' : ℝ} (hm : IsRep p emin m) (hf : F.fits m) (hd : d ≤ 0) {n : X F}
    (hn : n = X.pinf ∨ ∃ k : ℝ, 0 < k ∧ n = X.fin k) (he : (X.fin m + X.fin d / n : X F) = X.fin m') : m' ≤ m := by
  rcases hn with rfl | ⟨k, hk, rfl⟩
  · have : (X.fin d / X.pinf : X F) = X.fin 0 := rfl
    rw [this, X.add_fin, add_zero, hF.round_exact hm hf] at he
    cases he; exact le_rfl
  · rw [X.div_fin_of_ne _ hk.ne'] at he
    have hq : F.rnd (d / k) ≤ 0 := hF.rnd_nonpos (div_nonpos_of_nonpos_of_nonneg hd hk.le)
    unfold X.round at he
    split_ifs at he
    · rw [X.add_fin] at he
      unfold X.round at he
      split_ifs at he
      cases he
      exact hF.rnd_le hm (by linarith)
    all_goals cases he

/-- C195: the new mean lies between the old mean and the new value. -/
theorem C195_towards (hF : F.Binary p emin) (ops : List (Op ℝ)) (x : ℝ) (hd : F.Data p emin (sinceClear ops ++ [x]))
    (hne : sinceClear ops ≠ []) (hw : (sinceClear ops).length + 1 < 2 ^ w) :
    ∃ m m' : ℝ, (Mean.run (finOps ops) : Mean w (X F)).getMean = X.fin m
      ∧ (Mean.run (finOps (ops ++ [.push x])) : Mean w (X F)).getMean = X.fin m'
      ∧ (m ≤ x → m ≤ m' ∧ m' ≤ x) ∧ (x ≤ m → x ≤ m' ∧ m' ≤ m) := by
  obtain ⟨m, hm⟩ := Mean.rounded (w := w) hF (sinceClear ops) hd.init (by omega)
  obtain ⟨m', h1, h2, -, h4, h5, -⟩ := hm.push hF hd hw
  have e1 : (Mean.run (finOps ops) : Mean w (X F)).getMean = X.fin m := by
    rw [Mean.run_eq, sinceClear_finOps]; exact hm.mean
  have e2 : (Mean.run (finOps (ops ++ [.push x])) : Mean w (X F)).getMean = X.fin m' := by
    rw [Mean.run_eq, sinceClear_finOps, sinceClear_append_push, List.map_append, List.map_singleton, List.foldl_append]
    exact h1.mean
  have hof : ((((sinceClear ops).map X.fin).foldl Mean.push Mean.init : Mean w (X F)).count + 1) = BitVec.ofNat w ((sinceClear ops).length + 1) := by
    rw [hm.count, ofNat_add_one]
  have hstep : (X.fin m + X.fin (F.rnd (x - m)) / ofNat ((sinceClear ops).length + 1) : X F) = X.fin m' := by
    have := h1.mean
    rw [← this]
    show _ = _ + (X.fin x - _) / ofSize (_ + 1)
    rw [hof, hm.mean, h2, ofSize, toNat_ofNat_lt hw]
  have hn : (ofNat ((sinceClear ops).length + 1) : X F) = X.pinf ∨ ∃ k : ℝ, 0 < k ∧ (ofNat ((sinceClear ops).length + 1) : X F) = X.fin k := by
    have := List.length_pos_iff.2 hne
    rcases hF.ofNat_two_le (show 2 ≤ (sinceClear ops).length + 1 by omega) with h | ⟨k, hk, h⟩
    · exact Or.inl h
    · exact Or.inr ⟨k, by linarith, h⟩
  refine ⟨m, m', e1, e2, fun h => ⟨?_, ?_⟩, fun h => ⟨?_, ?_⟩⟩
  · exact le_add_quotient hF hm.rep hm.fits (hF.rnd_nonneg (by linarith)) hn hstep
  · rcases h4 with h4 | h4
    · exact h4.2
    · exact (h5 (le_antisymm h h4.1)).le
  · rcases h4 with h4 | h4
    · exact (h5 (le_antisymm h4.1 h)).ge
    · exact h4.2
  · exact add_quotient_le hF hm.rep hm.fits (hF.rnd_nonpos (by linarith)) hn hstep

/-- `double`: the mean of 1, 2 and then 10. -/
example : ∃ m m' : ℝ, (Mean.run (finOps [.push 1, .push 2]) : Mean 64 (X binary64)).getMean = X.fin m
    ∧ (Mean.run (finOps [.push 1, .push 2, .push 10]) : Mean 64 (X binary64)).getMean = X.fin m' ∧ (m ≤ 10 → m ≤ m' ∧ m' ≤ 10) := by
  have hs : sinceClear ([.push 1, .push 2] : List (Op ℝ)) = [1, 2] := rfl
  obtain ⟨m, m', h1, h2, h3, -⟩ := C195_towards (w := 64) binary64_binary [.push 1, .push 2] 10
    (by rw [hs]; have := binary64_data [1, 2, 10] (by simp); simpa using this) (by rw [hs]; simp) (by rw [hs]; norm_num)
  exact ⟨m, m', h1, h2, h3⟩

end Verif.Props
