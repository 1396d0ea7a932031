import Verif.Props.IntegerTypes
/-
C111: the mean of ascending unsigned integers.
-/
namespace Verif.Props
open CInt IntT

variable {P : Platform} {T : Ty}

/-- C111 for ascending data in every unsigned type: `n` times the mean is at most the sum, and below it by at most
`n (n - 1) / 2`.  By `C111_ramp`, whose data ascend, the bound is attained.  Missing: an error of at most 1 (violated). -/
theorem C111_ascending_partial (hT : 1 ≤ T.bits) (hs : T.signed = false) (xs : List Int) (hne : xs ≠ [])
    (hx : ∀ x ∈ xs, T.Has x) (ha : xs.Pairwise (· ≤ ·)) (hn : (xs.length : Int) < T.hi) (hw : xs.length < 2 ^ P.sizeBits) :
    ∃ s, Mean.run P T xs = some s ∧ xs.length * s.mean ≤ xs.sum
      ∧ 2 * (xs.sum - xs.length * s.mean) ≤ xs.length * (xs.length - 1) := by
  suffices h : ∃ s, Mean.run P T xs = some s ∧ xs.length * s.mean ≤ xs.sum by
    obtain ⟨s, h1, h2⟩ := h
    obtain ⟨m, h3, -, -, h4⟩ := Mean.run_ascending (P := P) hT hs xs hne hx ha hn hw
    rw [h1] at h3
    refine ⟨s, h1, h2, ?_⟩
    rw [Option.some.inj h3] at h2 ⊢
    rw [abs_of_nonpos (by simpa using h2)] at h4
    simp only at h4 ⊢
    linarith
  induction xs using List.reverseRecOn with
  | nil => exact absurd rfl hne
  | append_singleton xs x ih =>
    have hl : (xs ++ [x]).length = xs.length + 1 := by simp
    have hsum : (xs ++ [x]).sum = xs.sum + x := by simp
    have hxx := hx x (by simp)
    have hTlo : T.lo = 0 := by unfold Ty.lo; rw [hs]; rfl
    rw [hl] at hn hw
    rw [hl, hsum]
    rcases eq_or_ne xs [] with rfl | hne'
    · have := Mean.push_exact (P := P) (T := T) hT (m := 0) (x := x) (n := 0) T.has_zero hxx (by simpa using hn) (by simpa using hw)
        (by rw [sub_zero]; exact Platform.has_promote hxx)
      refine ⟨⟨x, 1⟩, ?_, by simp⟩
      rw [Mean.run_snoc (s := ⟨0, (0 : Nat)⟩) rfl, this]
      simp
    · rw [List.pairwise_append] at ha
      have hx' : ∀ y ∈ xs, T.Has y := fun y hy => hx y (by simp [hy])
      have hn' : (xs.length : Int) < T.hi := by push_cast at hn; omega
      obtain ⟨s, h1, h2⟩ := ih hne' hx' ha.1 hn' (by omega)
      obtain ⟨m, h3, h4, h5, -⟩ := Mean.run_ascending (P := P) hT hs xs hne' hx' ha.1 hn' (by omega)
      have hsm : s.mean = m := by rw [h1] at h3; rw [Option.some.inj h3]
      rw [hsm] at h2
      have hmx : m ≤ x := (h5 _ (List.getLast?_eq_some_getLast hne')).trans (ha.2.2 _ (List.getLast_mem hne') x (by simp))
      have hmT : T.Has m := (hx' _ (List.head_mem hne')).between hxx (h4 _ (List.head?_eq_some_head hne')) hmx
      have hm0 := hmT.1
      have hx2 := hxx.2
      refine ⟨_, by rw [Mean.run_snoc h3, Mean.push_exact hT hmT hxx hn hw (Platform.has_promote ⟨by omega, by omega⟩)], ?_⟩
      have hq : (x - m).tdiv ((xs.length + 1 : Nat) : Int) * ((xs.length + 1 : Nat) : Int) ≤ x - m := by
        rw [Int.tdiv_eq_ediv_of_nonneg (by omega)]
        exact Int.ediv_mul_le _ (by omega)
      push_cast at hq ⊢
      nlinarith

/-- The mean of 1, 2, 4, 10 as `unsigned int` is computed as 4: 16 ≤ 17. -/
example : ∃ s, Mean.run lp64 uint32 [1, 2, 4, 10] = some s ∧ 4 * s.mean ≤ 17 ∧ 2 * (17 - 4 * s.mean) ≤ 4 * (4 - 1) := by
  have h := C111_ascending_partial (P := lp64) (T := uint32) (by decide) (by decide) [1, 2, 4, 10] (by decide) (by decide)
    (by decide) (by decide) (by decide)
  simpa using h

end Verif.Props
