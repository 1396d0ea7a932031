import Verif.Proofs.PSquareFmt
import Verif.Props.PSquare
/-
C74, C75: the P-square quantile estimator with rounded arithmetic.
-/
namespace Verif.Props
open Scalar Verif.PSquare

variable {w : Nat} {F : Fmt}

/-! ### C74 -/

/-- C74: minimum and maximum are exact in every format, whatever happens to the other markers. -/
theorem C74_extremes (quantiles : List Ratio) (hL : 2 * quantiles.length + 3 < 2 ^ w) (ops : List (Op ℝ))
    (hops : ops.length < 2 ^ w) (hne : sinceClear ops ≠ []) :
    ∃ (s : PSquare w (X F)) (lo hi : ℝ), PSquare.run quantiles (finOps ops) = some s
      ∧ s.get 0 = some (X.fin lo) ∧ s.get (quantiles.length + 1) = some (X.fin hi)
      ∧ IsLeast {x | x ∈ sinceClear ops} lo ∧ IsGreatest {x | x ∈ sinceClear ops} hi := by
  have hl : (quantiles.map (Ratio.toScalar : Ratio → X F)).length = quantiles.length := by simp
  have hw := (sinceClear_length_le ops).trans_lt hops
  obtain ⟨s, p, h, d, hs, hi⟩ := pushes_invF (w := w) (quantiles.map (Ratio.toScalar : Ratio → X F)) (by rw [hl]; exact hL)
    (fun _ => True) (fun _ => True) (by simp) (by simp) (by simp) (by simp) (sinceClear ops) le_rfl hw (by simp)
  obtain ⟨lo, hi', h1, h2, h3, h4⟩ := get_extremeF (by rw [hl]; exact hL) hw hi hne
  rw [hl] at h2
  refine ⟨s, lo, hi', ?_, h1, h2, h3, h4⟩
  rw [run_eq_pushes quantiles hL _ (by simpa [finOps] using hops), sinceClear_finOps, hs]

/-- Seven values in binary64; the second largest differs from the largest in the last digit. -/
example : ∃ s : PSquare 64 (X binary64),
    PSquare.run [median] (finOps [.push 4, .push 1, .push (2 ^ 60), .push 10, .push 5, .push (-2), .push (2 ^ 60 + 256)]) = some s
      ∧ s.get 0 = some (X.fin (-2)) ∧ s.get 2 = some (X.fin (2 ^ 60 + 256)) := by
  obtain ⟨s, lo, hi, h, h1, h2, h3, h4⟩ := C74_extremes (w := 64) (F := binary64) [median] (by decide)
    [.push 4, .push 1, .push (2 ^ 60), .push 10, .push 5, .push (-2), .push (2 ^ 60 + 256)] (by decide)
    (by simp [sinceClear])
  have e : sinceClear [Op.push (4 : ℝ), .push 1, .push (2 ^ 60), .push 10, .push 5, .push (-2), .push (2 ^ 60 + 256)]
    = [4, 1, 2 ^ 60, 10, 5, -2, 2 ^ 60 + 256] := rfl
  rw [e] at h3 h4
  have : lo = -2 := by
    apply h3.unique
    refine ⟨by simp, fun y hy => ?_⟩
    simp only [Set.mem_ofPred_eq, List.mem_cons, List.not_mem_nil, or_false] at hy
    rcases hy with rfl | rfl | rfl | rfl | rfl | rfl | rfl <;> norm_num
  have : hi = 2 ^ 60 + 256 := by
    apply h4.unique
    refine ⟨by simp, fun y hy => ?_⟩
    simp only [Set.mem_ofPred_eq, List.mem_cons, List.not_mem_nil, or_false] at hy
    rcases hy with rfl | rfl | rfl | rfl | rfl | rfl | rfl <;> norm_num
  subst_vars
  exact ⟨s, h, h1, h2⟩

/-! ### C75 -/

/-- C75: after more than `2 q + 3` times the same number every estimate is this number, with every operation
rounded and whatever the quantiles are. -/
theorem C75_constant {pr : Nat} {emin : Int} (hF : F.Binary pr emin) {c : ℝ} (hc : IsRep pr emin c ∧ F.fits c)
    (quantiles : List Ratio) (hL : 2 * quantiles.length + 3 < 2 ^ w) (ops : List (Op ℝ)) (hops : ops.length < 2 ^ w)
    (hconst : ∀ x ∈ sinceClear ops, x = c) (hn : 2 * quantiles.length + 3 < (sinceClear ops).length) :
    ∃ s : PSquare w (X F), PSquare.run quantiles (finOps ops) = some s
      ∧ ∀ i ≤ quantiles.length + 1, s.get i = some (X.fin c) := by
  have hl : (quantiles.map (Ratio.toScalar : Ratio → X F)).length = quantiles.length := by simp
  have hpl : paramLength quantiles.length = 2 * quantiles.length + 3 := rfl
  have hw := (sinceClear_length_le ops).trans_lt hops
  obtain ⟨s, p, h, d, hs, hi⟩ := pushes_invF (w := w) (quantiles.map (Ratio.toScalar : Ratio → X F)) (by rw [hl]; exact hL)
    (fun x => x = c) (fun h => ∀ i, i < paramLength quantiles.length → h i = X.fin c)
    (by intro r h hr _ hh i hi
        rw [hl] at hr hh
        rw [hh i hi, hr i hi])
    (by intro h x lo hx hJ _ _ i hi
        by_cases h0 : i = 0
        · rw [h0, Function.update_self, hx]
        · rw [Function.update_of_ne h0, hJ i hi])
    (by intro h x hi' hx hJ _ _ i hi
        rw [hl]
        by_cases h0 : i = paramLength quantiles.length - 1
        · rw [h0, Function.update_self, hx]
        · rw [Function.update_of_ne h0, hJ i hi])
    (by intro p d h i sign hm _ h1 h2 hmv hJ j hj
        rw [hl] at hm h2
        by_cases h0 : j = i
        · rw [h0, Function.update_self]
          exact predictAt_const hF hc hm h1 h2 (hmv.2.imp And.left And.left) hJ
        · rw [Function.update_of_ne h0, hJ j hj])
    (sinceClear ops) le_rfl hw hconst
  refine ⟨s, ?_, fun i hidx => ?_⟩
  · rw [run_eq_pushes quantiles hL _ (by simpa [finOps] using hops), sinceClear_finOps, hs]
  · rw [get_manyF hi (by rw [hl]; omega) hw (by rw [hl]; exact hidx)]
    rw [(hi.many (by rw [hl]; omega)).1 _ (by omega)]

/-- Nine times the number `2^53 - 1`, estimated median and third quartile. -/
example : ∃ s : PSquare 64 (X binary64),
    PSquare.run [median, ⟨3, 4⟩] (finOps (List.replicate 9 (.push (((2 ^ 53 - 1 : Int)) : ℝ)))) = some s
      ∧ s.get 2 = some (X.fin (((2 ^ 53 - 1 : Int)) : ℝ)) := by
  obtain ⟨s, h1, h2⟩ := C75_constant (w := 64) binary64_binary (binary64_int (n := 2 ^ 53 - 1) (by norm_num [abs_le]))
    [median, ⟨3, 4⟩] (by decide) (List.replicate 9 (.push _)) (by simp) (by
      intro x hx
      rw [show sinceClear (List.replicate 9 (Op.push (((2 ^ 53 - 1 : Int)) : ℝ)))
        = List.replicate 9 (((2 ^ 53 - 1 : Int)) : ℝ) from rfl] at hx
      exact List.eq_of_mem_replicate hx) (by decide)
  exact ⟨s, h1, h2 2 (by decide)⟩

end Verif.Props
