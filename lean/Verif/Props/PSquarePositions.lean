import Verif.Proofs.PSquarePositions
import Verif.Props.PSquareLaws
/-
C147: the markers of the P-square estimator follow their desired positions.
-/
namespace Verif.Props
open Scalar Exact Verif.PSquare

variable {w : Nat} {ε : ℝ}

theorem fractionAt_step (quantiles : List Ratio) (i : Nat) : fractionAt quantiles (i + 1) - fractionAt quantiles i
    = (quantileAt quantiles (i / 2 + 1) - quantileAt quantiles (i / 2)) / 2 := by
  unfold fractionAt
  rcases Nat.mod_two_eq_zero_or_one i with h | h
  · rw [if_neg (by omega), if_pos h, show (i + 1) / 2 = i / 2 by omega]; ring
  · rw [if_pos (by omega), if_neg (by omega), show (i + 1) / 2 = i / 2 + 1 by omega]; ring

theorem fractions_of_quantiles {quantiles : List Ratio}
    (hasc : ∀ i ≤ quantiles.length, quantileAt quantiles i ≤ quantileAt quantiles (i + 1)) :
    Fractions (2 * quantiles.length + 3) (fractionAt quantiles) := by
  refine ⟨by simp [fractionAt, quantileAt], ?_, fun i hi => ?_⟩
  · have : 2 * quantiles.length + 3 - 1 = 2 * (quantiles.length + 1) := by omega
    rw [this]
    simp [fractionAt, quantileAt]
  · have h1 := fractionAt_step quantiles i
    have h2 := hasc (i / 2) (by omega)
    linarith

/-- The markers after a history. -/
theorem C147_run {quantiles : List Ratio} (hq : ∀ r ∈ quantiles, 0 < r.den)
    (hasc : ∀ i ≤ quantiles.length, quantileAt quantiles i ≤ quantileAt quantiles (i + 1))
    (hL : 2 * quantiles.length + 3 < 2 ^ w) (ops : List (Op ℝ)) (hops : ops.length < 2 ^ w)
    (hn : 2 * quantiles.length + 3 ≤ (sinceClear ops).length) :
    ∃ (s : PSquare w (E ε)) (n : Nat → Nat), PSquare.run quantiles (finOps ops) = some s
      ∧ (∀ i < 2 * quantiles.length + 3, s.positions[i]? = some (BitVec.ofNat w (n i)) ∧ n i < 2 ^ w)
      ∧ Near (2 * quantiles.length + 3) (fractionAt quantiles) (sinceClear ops).length n
      ∧ ∀ g : ℝ, (∀ i, i + 1 < 2 * quantiles.length + 3 → g ≤ fractionAt quantiles (i + 1) - fractionAt quantiles i) →
          Settled (2 * quantiles.length + 3) (fractionAt quantiles) g (sinceClear ops).length n := by
  obtain ⟨s, hs, -, -, h, -⟩ := C71_algorithm_partial (ε := ε) hq hL ops hops hn
  obtain ⟨h1, h2⟩ := p2_near (down := codeDown w) (by omega) (fractions_of_quantiles hasc) (sinceClear ops) hn
  exact ⟨s, _, hs, fun i hi => ⟨(h i hi).1, (h i hi).2.1⟩, h1, h2⟩

/-- C147: for ascending quantiles no marker is ever further behind or ahead of its desired position
`1 + (n - 1) f_i` than a number that only depends on the markers, whatever the values. -/
theorem C147_bounded {quantiles : List Ratio} (hq : ∀ r ∈ quantiles, 0 < r.den)
    (hasc : ∀ i ≤ quantiles.length, quantileAt quantiles i ≤ quantileAt quantiles (i + 1))
    (hL : 2 * quantiles.length + 3 < 2 ^ w) (ops : List (Op ℝ)) (hops : ops.length < 2 ^ w)
    (hn : 2 * quantiles.length + 3 ≤ (sinceClear ops).length) :
    ∃ (s : PSquare w (E ε)) (n : Nat → Nat), PSquare.run quantiles (finOps ops) = some s
      ∧ ∀ i < 2 * quantiles.length + 3, s.positions[i]? = some (BitVec.ofNat w (n i)) ∧ n i < 2 ^ w
        ∧ (n i : ℝ) - (1 + (((sinceClear ops).length : ℝ) - 1) * fractionAt quantiles i) ≤ i
        ∧ (1 + (((sinceClear ops).length : ℝ) - 1) * fractionAt quantiles i) - n i ≤ 2 * (2 * (quantiles.length : ℝ) + 2 - i) := by
  obtain ⟨s, n, hs, hp, h, -⟩ := C147_run (ε := ε) hq hasc hL ops hops hn
  refine ⟨s, n, hs, fun i hi => ⟨(hp i hi).1, (hp i hi).2, h.ahead i hi, ?_⟩⟩
  have := h.behind i hi
  push_cast at this
  linarith

/-- C147: if 0, the quantiles and 1 ascend by steps of at least `g`, then after more than `8 (2 q + 3) / g` values
every marker is less than one position away from its desired position, whatever the values. -/
theorem C147_settled {quantiles : List Ratio} (hq : ∀ r ∈ quantiles, 0 < r.den) {g : ℝ} (hg : 0 < g)
    (hasc : ∀ i ≤ quantiles.length, quantileAt quantiles i + g ≤ quantileAt quantiles (i + 1))
    (hL : 2 * quantiles.length + 3 < 2 ^ w) (ops : List (Op ℝ)) (hops : ops.length < 2 ^ w)
    (hn : 8 * (2 * (quantiles.length : ℝ) + 3) < g * (sinceClear ops).length) :
    ∃ (s : PSquare w (E ε)) (n : Nat → Nat), PSquare.run quantiles (finOps ops) = some s
      ∧ ∀ i < 2 * quantiles.length + 3, s.positions[i]? = some (BitVec.ofNat w (n i)) ∧ n i < 2 ^ w
        ∧ |(n i : ℝ) - (1 + (((sinceClear ops).length : ℝ) - 1) * fractionAt quantiles i)| < 1 := by
  have hasc' : ∀ i ≤ quantiles.length, quantileAt quantiles i ≤ quantileAt quantiles (i + 1) :=
    fun i hi => (by linarith [hasc i hi])
  have hstep : ∀ i, i + 1 < 2 * quantiles.length + 3 → g / 2 ≤ fractionAt quantiles (i + 1) - fractionAt quantiles i := by
    intro i hi
    rw [fractionAt_step]
    linarith [hasc (i / 2) (by omega)]
  have hg1 := gap_le_one (by omega) (fractions_of_quantiles hasc') hstep
  have hlen : 2 * quantiles.length + 3 ≤ (sinceClear ops).length := by
    have : (2 * (quantiles.length : ℝ) + 3) ≤ (sinceClear ops).length := by
      have : (0 : ℝ) ≤ (sinceClear ops).length := Nat.cast_nonneg _
      nlinarith
    exact_mod_cast this
  obtain ⟨s, n, hs, hp, -, h⟩ := C147_run (ε := ε) hq hasc' hL ops hops hlen
  refine ⟨s, n, hs, fun i hi => ⟨(hp i hi).1, (hp i hi).2, ?_⟩⟩
  obtain ⟨h1, h2⟩ := h _ hstep i hi
  push_cast at h1 h2
  rw [abs_lt]
  constructor
  · rcases h1 with h1 | h1 <;> linarith
  · rcases h2 with h2 | h2 <;> linarith

/-- C147: the quantiles have to ascend.  If the fraction of a marker is larger than that of a later one, then one of
the two is more than half of `(n - 1) (f_i - f_j)` away from its desired position. -/
theorem C147_unordered {quantiles : List Ratio} (hq : ∀ r ∈ quantiles, 0 < r.den)
    (hL : 2 * quantiles.length + 3 < 2 ^ w) (ops : List (Op ℝ)) (hops : ops.length < 2 ^ w)
    (hn : 2 * quantiles.length + 3 ≤ (sinceClear ops).length) {i j : Nat} (hij : i < j) (hj : j < 2 * quantiles.length + 3) :
    ∃ (s : PSquare w (E ε)) (n : Nat → Nat), PSquare.run quantiles (finOps ops) = some s
      ∧ s.positions[i]? = some (BitVec.ofNat w (n i)) ∧ s.positions[j]? = some (BitVec.ofNat w (n j))
      ∧ (((sinceClear ops).length : ℝ) - 1) * (fractionAt quantiles i - fractionAt quantiles j)
        < 2 * max |(n i : ℝ) - (1 + (((sinceClear ops).length : ℝ) - 1) * fractionAt quantiles i)|
            |(n j : ℝ) - (1 + (((sinceClear ops).length : ℝ) - 1) * fractionAt quantiles j)| := by
  obtain ⟨s, n, h', hs, -, -, hp, -, -, hm⟩ := C37_markers (ε := ε) hq hL ops hops hn
  refine ⟨s, n, hs, (hp i (by omega)).1, (hp j hj).1, ?_⟩
  have hlt : ∀ k, i + k + 1 < 2 * quantiles.length + 3 → n i < n (i + k + 1) := by
    intro k
    induction k with
    | zero => intro h; exact (hm i (by omega)).1
    | succ k ih =>
      intro h
      have h1 := (hm (i + k + 1) (by omega)).1
      have h2 := ih (by omega)
      have e : i + (k + 1) + 1 = i + k + 1 + 1 := by omega
      rw [e]
      omega
  have h1 : (n i : ℝ) < n j := by
    have := hlt (j - i - 1) (by omega)
    rw [show i + (j - i - 1) + 1 = j by omega] at this
    exact_mod_cast this
  have h2 := neg_abs_le ((n i : ℝ) - (1 + (((sinceClear ops).length : ℝ) - 1) * fractionAt quantiles i))
  have h3 := le_abs_self ((n j : ℝ) - (1 + (((sinceClear ops).length : ℝ) - 1) * fractionAt quantiles j))
  have h4 := le_max_left |(n i : ℝ) - (1 + (((sinceClear ops).length : ℝ) - 1) * fractionAt quantiles i)|
    |(n j : ℝ) - (1 + (((sinceClear ops).length : ℝ) - 1) * fractionAt quantiles j)|
  have h5 := le_max_right |(n i : ℝ) - (1 + (((sinceClear ops).length : ℝ) - 1) * fractionAt quantiles i)|
    |(n j : ℝ) - (1 + (((sinceClear ops).length : ℝ) - 1) * fractionAt quantiles j)|
  linarith

theorem quantileAt_median : quantileAt [median] 0 = 0 ∧ quantileAt [median] 1 = 1 / 2 ∧ quantileAt [median] 2 = 1 := by
  refine ⟨?_, ?_, ?_⟩ <;> norm_num [quantileAt, median, Ratio.val]

/-- After 100 values, whatever they are, the marker of the median is at position 50 or 51. -/
example (xs : List ℝ) (hx : xs.length = 100) : ∃ (s : PSquare 64 (E ε)) (n : Nat → Nat),
    PSquare.run [median] (finOps (xs.map .push)) = some s
      ∧ s.positions[2]? = some (BitVec.ofNat 64 (n 2)) ∧ (n 2 = 50 ∨ n 2 = 51) := by
  obtain ⟨q0, q1, q2⟩ := quantileAt_median
  have hl : (sinceClear (xs.map Op.push)).length = 100 := by rw [sinceClear_pushes, hx]
  obtain ⟨s, n, hs, h⟩ := C147_settled (w := 64) (ε := ε) median_ok.den (g := 1 / 2) (by norm_num)
    (fun i hi => by
      have : i = 0 ∨ i = 1 := by simp only [List.length_cons, List.length_nil] at hi; omega
      rcases this with rfl | rfl
      · rw [q0, q1]; norm_num
      · rw [q1, q2]; norm_num) (by decide) (xs.map .push) (by simp [hx])
    (by rw [hl]; norm_num)
  obtain ⟨h1, -, h2⟩ := h 2 (by decide)
  refine ⟨s, n, hs, h1, ?_⟩
  rw [hl, fractionAt_median.2.1, abs_lt] at h2
  obtain ⟨h3, h4⟩ := h2
  have a : (49 : ℝ) < n 2 := by push_cast at h3; linarith
  have b : (n 2 : ℝ) < 52 := by push_cast at h4; linarith
  have a' : 49 < n 2 := by exact_mod_cast a
  have b' : n 2 < 52 := by exact_mod_cast b
  omega

/-- For the quantiles 3/4 and 1/4 in this order the distances grow with the number of values. -/
example (ops : List (Op ℝ)) (hops : ops.length < 2 ^ 64) (hn : 7 ≤ (sinceClear ops).length) :
    ∃ (s : PSquare 64 (E ε)) (n : Nat → Nat), PSquare.run swapped (finOps ops) = some s
      ∧ (((sinceClear ops).length : ℝ) - 1) / 4
        < max |(n 2 : ℝ) - (1 + (((sinceClear ops).length : ℝ) - 1) * fractionAt swapped 2)|
            |(n 4 : ℝ) - (1 + (((sinceClear ops).length : ℝ) - 1) * fractionAt swapped 4)| := by
  obtain ⟨s, n, hs, -, -, h⟩ := C147_unordered (w := 64) (ε := ε) swapped_ok.den (by decide) ops hops hn (i := 2) (j := 4)
    (by decide) (by decide)
  refine ⟨s, n, hs, ?_⟩
  have e : fractionAt swapped 2 - fractionAt swapped 4 = 1 / 2 := by
    norm_num [fractionAt, quantileAt, swapped, Ratio.val]
  rw [e] at h
  linarith

end Verif.Props
