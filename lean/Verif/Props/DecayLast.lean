import Verif.Props.DecayRounded
/-
C65: the decaying mean with factor 1 in floating point.
-/
namespace Verif.Props
open Scalar Decay

variable {F : Fmt} {p : Nat} {emin : Int}

/-- C65, factor 1: if the differences of the data need no rounding, the decaying mean is exactly the last value. -/
theorem C65_factor_one_partial (hF : F.Binary p emin) (ops : List (Op ℝ)) (hne : sinceClear ops ≠ [])
    (hr : ∀ x ∈ sinceClear ops, IsRep p emin x ∧ F.fits x)
    (hd : ∀ x ∈ sinceClear ops, ∀ y ∈ sinceClear ops, IsRep p emin (x - y) ∧ F.fits (x - y)) :
    (Mean.run (X.fin 1) (finOps ops) : Mean (X F)).mean = X.fin ((sinceClear ops).getLast hne) := by
  rw [Mean.run_eq, sinceClear_finOps]
  have one : ∀ a : ℝ, IsRep p emin a → F.fits a → (X.fin 1 * X.fin a : X F) = X.fin a := fun a h1 h2 => by
    rw [X.mul_fin, one_mul, hF.round_exact h1 h2]
  have z1 : (X.fin 0 + X.fin 1 * (X.fin 1 - X.fin 0) : X F) = X.fin 1 := by
    rw [X.sub_fin, sub_zero, hF.round_exact hF.isRep_one hF.fits_one, one _ hF.isRep_one hF.fits_one, X.add_fin, zero_add,
      hF.round_exact hF.isRep_one hF.fits_one]
  have z2 : (X.fin 1 + X.fin 1 * (X.fin 1 - X.fin 1) : X F) = X.fin 1 := by
    rw [hF.sub_self, hF.mul_zero, hF.add_zero hF.isRep_one hF.fits_one]
  have key : ((sinceClear ops).map X.fin).foldl Mean.push (Mean.init (X.fin 1) : Mean (X F))
      = { meanFactor := X.fin 1, normalization := X.fin 1, sumMean := X.fin ((sinceClear ops).getLast hne) } := by
    generalize sinceClear ops = xs at hne hr hd ⊢
    induction xs using List.reverseRecOn with
    | nil => exact absurd rfl hne
    | append_singleton xs x ih =>
      have hx := hr x (by simp)
      rw [List.map_append, List.map_singleton, List.foldl_append, List.foldl_cons, List.foldl_nil, List.getLast_append_singleton]
      by_cases h0 : xs = []
      · subst h0
        show Mean.mk (X.fin 1) (ofNat 0 + X.fin 1 * (ofNat 1 - ofNat 0)) (ofNat 0 + X.fin 1 * (X.fin x - ofNat 0)) = _
        rw [hF.ofNat_zero, hF.ofNat_one, z1, X.sub_fin, sub_zero, hF.round_exact hx.1 hx.2, one _ hx.1 hx.2, X.add_fin, zero_add,
          hF.round_exact hx.1 hx.2]
      · rw [ih h0 (fun y hy => hr y (List.mem_append_left _ hy)) (fun y hy z hz => hd y (List.mem_append_left _ hy) z (List.mem_append_left _ hz))]
        set l := xs.getLast h0 with hl
        have hdl := hd x (by simp) l (List.mem_append_left _ (List.getLast_mem h0))
        show Mean.mk (X.fin 1) (X.fin 1 + X.fin 1 * (ofNat 1 - X.fin 1)) (X.fin l + X.fin 1 * (X.fin x - X.fin l)) = _
        rw [hF.ofNat_one, z2, X.sub_fin, hF.round_exact hdl.1 hdl.2, one _ hdl.1 hdl.2, X.add_fin, add_sub_cancel, hF.round_exact hx.1 hx.2]
  rw [key]
  have hlast := hr _ (List.getLast_mem hne)
  show (if lt (ofNat 0) (X.fin 1) then X.fin ((sinceClear ops).getLast hne) / X.fin 1 else _) = _
  rw [hF.ofNat_zero, X.lt_fin, decide_eq_true one_pos, if_pos rfl, X.div_fin_of_ne _ one_ne_zero, div_one, hF.round_exact hlast.1 hlast.2]

/-- Integers up to 2^51 in size as `double`: the last value. -/
example (ns : List Int) (hne : ns ≠ []) (h : ∀ n ∈ ns, |n| ≤ 2 ^ 51) :
    (Mean.run (X.fin 1) (finOps (ns.map fun n : Int => .push (n : ℝ))) : Mean (X binary64)).mean = X.fin (ns.getLast hne : ℝ) := by
  have e : sinceClear (ns.map fun n : Int => Op.push (n : ℝ)) = ns.map Int.cast := by
    have := sinceClear_pushes (ns.map (Int.cast : Int → ℝ))
    rw [List.map_map] at this
    exact this
  have hne' : sinceClear (ns.map fun n : Int => Op.push (n : ℝ)) ≠ [] := by rw [e]; simpa using hne
  rw [C65_factor_one_partial binary64_binary _ hne']
  · congr 1
    simp only [e, List.getLast_map]
  · rw [e]
    intro x hx
    obtain ⟨n, hn, rfl⟩ := List.mem_map.1 hx
    have := h n hn
    exact binary64_int (by omega)
  · rw [e]
    intro x hx y hy
    obtain ⟨n, hn, rfl⟩ := List.mem_map.1 hx
    obtain ⟨m, hm, rfl⟩ := List.mem_map.1 hy
    have := binary64_int (n := n - m) (by have := h n hn; have := h m hm; rw [abs_le] at *; omega)
    push_cast at this
    exact this

end Verif.Props
