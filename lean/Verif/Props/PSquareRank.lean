import Verif.Proofs.PSquareAscending
import Verif.Props.PSquareEven
/-
C165: the rank of the estimate of the median among the data.
-/
namespace Verif.Props
open Scalar Exact Verif.PSquare

variable {w : Nat} {ε : ℝ}

open Classical in
/-- How many of the values are at most `v`. -/
noncomputable def countLe (v : ℝ) (xs : List ℝ) : Nat := xs.countP fun x => x ≤ v

open Classical in
/-- How many of the values are at least `v`. -/
noncomputable def countGe (v : ℝ) (xs : List ℝ) : Nat := xs.countP fun x => v ≤ x

/-- C165: there is a share `θ` such that, in exact arithmetic and for long enough data, at least the share `θ` of the
values is at most the estimate of the median and at least the share `θ` is at least the estimate.  (One half would be
right; any positive share would make it a rough estimate.) -/
def C165_Statement (ε : ℝ) : Prop :=
  ∃ θ > (0 : ℝ), ∃ n₀ : Nat, ∀ (w : Nat) (ops : List (Op ℝ)), 5 < 2 ^ w → ops.length < 2 ^ w → n₀ ≤ (sinceClear ops).length →
    ∃ (s : PSquare w (E ε)) (v : ℝ), PSquare.run [median] (finOps ops) = some s ∧ s.get 1 = some (X.fin v)
      ∧ θ * (sinceClear ops).length ≤ countLe v (sinceClear ops) ∧ θ * (sinceClear ops).length ≤ countGe v (sinceClear ops)

theorem forMedian : ForMedian (fractionAt [median]) := by
  obtain ⟨q0, q1, q2⟩ := quantileAt_median
  refine ⟨fractions_of_quantiles (quantiles := [median]) fun i hi => ?_, fractionAt_median.2.1, fractionAt_median.2.2⟩
  have : i = 0 ∨ i = 1 := by simp only [List.length_cons, List.length_nil] at hi; omega
  rcases this with rfl | rfl
  · rw [q0, q1]; norm_num
  · rw [q1, q2]; norm_num

/-- C165: for ascending data that are not negative the estimate of the median is at least `x / n ^ 4`, where `x` is the
value 14 places from the end. -/
theorem C165_estimate (ops : List (Op ℝ)) (hops : ops.length < 2 ^ w) {x : Nat → ℝ} (hx : Monotone x) (hx0 : 0 ≤ x 0)
    {n : Nat} (hdata : sinceClear ops = (List.range n).map x) (hn : 19 ≤ n) :
    ∃ (s : PSquare w (E ε)) (v : ℝ), PSquare.run [median] (finOps ops) = some s ∧ s.get 1 = some (X.fin v)
      ∧ x (n - 14) / (n : ℝ) ^ 4 ≤ v := by
  have hlen : (sinceClear ops).length = n := by rw [hdata]; simp
  have hnw : n < 2 ^ w := by have := sinceClear_length_le ops; omega
  obtain ⟨s, hs, -, -, -, hget⟩ := C71_algorithm_partial (w := w) (ε := ε) (quantiles := [median]) median_ok.den
    (by simp only [List.length_cons, List.length_nil]; omega) ops hops (by simp only [List.length_cons, List.length_nil]; omega)
  have hg := hget (by simp only [List.length_cons, List.length_nil]; omega) 1 (by simp)
  refine ⟨s, _, hs, hg, ?_⟩
  have h2 := after_two (w := w) forMedian hx hx0 (N := n - 14) (by omega) (by omega)
  rw [show n - 14 + 14 = n by omega, Nat.cast_sub (by omega), Nat.cast_ofNat, sub_add_cancel] at h2
  rw [hdata]
  exact h2

theorem countP_range_ge (n a : Nat) : (List.range n).countP (fun k => a ≤ k) = n - a := by
  induction n with
  | zero => simp
  | succ n ih =>
    rw [List.range_succ, List.countP_append, ih]
    by_cases h : a ≤ n
    · simp [h]; omega
    · simp [h]; omega

/-- C165: of the values 1, 2, 4, ..., 2^(n-1) in this order at most `14 + 4 log n` are at least the estimate of the
median. -/
theorem C165_powers (ops : List (Op ℝ)) (hops : ops.length < 2 ^ w) {n : Nat}
    (hdata : sinceClear ops = (List.range n).map fun k : ℕ => (2 : ℝ) ^ k) (hn : 19 ≤ n) {m : Nat} (hm : n ≤ 2 ^ m) :
    ∃ (s : PSquare w (E ε)) (v : ℝ), PSquare.run [median] (finOps ops) = some s ∧ s.get 1 = some (X.fin v)
      ∧ countGe v (sinceClear ops) ≤ 14 + 4 * m := by
  obtain ⟨s, v, hs, hv, hle⟩ := C165_estimate (w := w) (ε := ε) ops hops (x := fun k => (2 : ℝ) ^ k)
    (fun a b h => pow_le_pow_right₀ (by norm_num) h) (by norm_num) hdata hn
  refine ⟨s, v, hs, hv, ?_⟩
  have hn0 : (0 : ℝ) < n := by exact_mod_cast (by omega : 0 < n)
  have hmr : (n : ℝ) ≤ 2 ^ m := by exact_mod_cast hm
  have hv2 : ∀ k : ℕ, v ≤ (2 : ℝ) ^ k → n - 14 - 4 * m ≤ k := by
    intro k hk
    have h1 := hle.trans hk
    rw [div_le_iff₀ (by positivity)] at h1
    have h2 : (n : ℝ) ^ 4 ≤ 2 ^ (4 * m) := by
      calc (n : ℝ) ^ 4 ≤ (2 ^ m) ^ 4 := by gcongr
        _ = 2 ^ (4 * m) := by rw [← pow_mul, mul_comm]
    have h3 : (2 : ℝ) ^ (n - 14) ≤ 2 ^ (k + 4 * m) := by
      rw [pow_add]
      exact h1.trans (by gcongr)
    have := (pow_le_pow_iff_right₀ (by norm_num : (1 : ℝ) < 2)).1 h3
    omega
  unfold countGe
  rw [hdata, List.countP_map]
  refine (List.countP_mono_left (q := fun k => decide (n - 14 - 4 * m ≤ k)) (fun k _ hk => ?_)).trans ?_
  · simp only [Function.comp_apply, decide_eq_true_eq] at hk ⊢
    exact hv2 k hk
  · rw [countP_range_ge]; omega

/-- C165 is violated: for the values 1, 2, 4, 8, ... in this order no positive share is at least the estimate. -/
theorem C165_violated (ε : ℝ) : ¬ C165_Statement ε := by
  rintro ⟨θ, hθ, n₀, h⟩
  obtain ⟨j, hj⟩ := pow_unbounded_of_one_lt (max (14 / θ) (max n₀ 20) : ℝ) (by norm_num : (1 : ℝ) < 2)
  have h1 : 14 / θ < 2 ^ j := (le_max_left _ _).trans_lt hj
  have h2 : (n₀ : ℝ) < 2 ^ j := ((le_max_left _ _).trans (le_max_right _ _)).trans_lt hj
  have h3 : (20 : ℝ) < 2 ^ j := ((le_max_right _ _).trans (le_max_right _ _)).trans_lt hj
  have h2' : n₀ < 2 ^ j := by exact_mod_cast h2
  have h3' : 20 < 2 ^ j := by exact_mod_cast h3
  have hle : 2 ^ j ≤ 2 ^ (2 * j) := Nat.pow_le_pow_right (by norm_num) (by omega)
  have hlt : 2 ^ (2 * j) < 2 ^ (2 * j + 1) := Nat.pow_lt_pow_right (by norm_num) (by omega)
  set ops : List (Op ℝ) := ((List.range (2 ^ (2 * j))).map fun k : ℕ => (2 : ℝ) ^ k).map .push with hops
  have hdata : sinceClear ops = (List.range (2 ^ (2 * j))).map fun k : ℕ => (2 : ℝ) ^ k := by rw [hops, sinceClear_pushes]
  have hl : (sinceClear ops).length = 2 ^ (2 * j) := by rw [hdata]; simp
  have hol : ops.length < 2 ^ (2 * j + 1) := by rw [hops]; simpa using hlt
  obtain ⟨s, v, hs, hv, -, hge⟩ := h (2 * j + 1) ops (by omega) hol (by omega)
  obtain ⟨s', v', hs', hv', hc⟩ := C165_powers (w := 2 * j + 1) (ε := ε) ops hol hdata (by omega) le_rfl
  have hss : s' = s := Option.some.inj (hs'.symm.trans hs)
  subst hss
  have hvv : v' = v := X.fin_inj.1 (Option.some.inj (hv'.symm.trans hv))
  subst hvv
  rw [hl] at hge
  have hcr : (countGe v' (sinceClear ops) : ℝ) ≤ 14 + 4 * (2 * j) := by exact_mod_cast hc
  have h4 : (j : ℝ) + 1 ≤ 2 ^ j := by
    have : j + 1 ≤ 2 ^ j := Nat.lt_two_pow_self
    exact_mod_cast this
  rw [div_lt_iff₀ hθ] at h1
  have h5 : ((2 ^ (2 * j) : ℕ) : ℝ) = 2 ^ j * 2 ^ j := by push_cast; rw [← pow_add]; congr 1; omega
  rw [h5] at hge
  have h6 : 14 * ((j : ℝ) + 1) < θ * (2 ^ j * 2 ^ j) := by
    calc 14 * ((j : ℝ) + 1) < 2 ^ j * θ * (j + 1) := by gcongr
      _ ≤ 2 ^ j * θ * 2 ^ j := by gcongr
      _ = θ * (2 ^ j * 2 ^ j) := by ring
  have : (0 : ℝ) ≤ j := Nat.cast_nonneg j
  linarith

/-- Of the values 1, 2, ..., 2^1023 at most 54 are at least the estimate of the median. -/
example : ∃ (s : PSquare 64 (E ε)) (v : ℝ),
    PSquare.run [median] (finOps (((List.range 1024).map fun k : ℕ => (2 : ℝ) ^ k).map .push)) = some s
      ∧ s.get 1 = some (X.fin v) ∧ countGe v ((List.range 1024).map fun k : ℕ => (2 : ℝ) ^ k) ≤ 54 := by
  obtain ⟨s, v, h1, h2, h3⟩ := C165_powers (w := 64) (ε := ε) (((List.range 1024).map fun k : ℕ => (2 : ℝ) ^ k).map .push)
    (by simp) (n := 1024) (by rw [sinceClear_pushes]) (by norm_num) (m := 10) (by norm_num)
  rw [sinceClear_pushes] at h3
  exact ⟨s, v, h1, h2, h3⟩

/-- C165: the estimate is not outside the data, and its marker has the position of the median within one (after 81
values).
Missing for the full statement: the height of the marker need not have the rank of its position, see `C165_violated`;
it has for evenly spaced data, see `C148_close`. -/
theorem C165_partial (ops : List (Op ℝ)) (hops : ops.length < 2 ^ w) (hn : 81 ≤ (sinceClear ops).length) :
    ∃ (s : PSquare w (E ε)) (v : ℝ) (n : Nat), PSquare.run [median] (finOps ops) = some s ∧ s.get 1 = some (X.fin v)
      ∧ 1 ≤ countLe v (sinceClear ops) ∧ 1 ≤ countGe v (sinceClear ops)
      ∧ s.positions[2]? = some (BitVec.ofNat w n) ∧ |(n : ℝ) - (1 + ((sinceClear ops).length - 1) / 2)| < 1 := by
  have hlen := sinceClear_length_le ops
  obtain ⟨q0, q1, q2⟩ := quantileAt_median
  have hL : 2 * [median].length + 3 < 2 ^ w := by simp only [List.length_cons, List.length_nil]; omega
  have hne : sinceClear ops ≠ [] := by
    intro h
    rw [h] at hn
    simp at hn
  obtain ⟨s, v, hs, hv, -, hd⟩ := C37_estimates_partial (w := w) (ε := ε) median_ok (by simp) hL ops hops hne
  have hnr : (81 : ℝ) ≤ (sinceClear ops).length := by exact_mod_cast hn
  obtain ⟨s', n, hs', hp⟩ := C147_settled (w := w) (ε := ε) median_ok.den (g := 1 / 2) (by norm_num)
    (fun i hi => by
      have : i = 0 ∨ i = 1 := by simp only [List.length_cons, List.length_nil] at hi; omega
      rcases this with rfl | rfl
      · rw [q0, q1]; norm_num
      · rw [q1, q2]; norm_num) hL ops hops (by simp only [List.length_cons, List.length_nil]; norm_num; linarith)
  have hss : s' = s := Option.some.inj (hs'.symm.trans hs)
  subst hss
  obtain ⟨⟨a, ha, hav⟩, b, hb, hbv⟩ := hd 1 (by simp)
  obtain ⟨p1, -, p3⟩ := hp 2 (by simp)
  rw [fractionAt_median.2.1] at p3
  refine ⟨s', v 1, n 2, hs, hv 1 (by simp), ?_, ?_, p1, ?_⟩
  · exact List.countP_pos_iff.2 ⟨a, ha, by simpa using hav⟩
  · exact List.countP_pos_iff.2 ⟨b, hb, by simpa using hbv⟩
  · convert p3 using 3
    ring

end Verif.Props
