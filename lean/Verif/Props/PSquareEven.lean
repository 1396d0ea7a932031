import Verif.Proofs.PSquareEven
import Verif.Props.PSquarePositions
/-
C148: quantile estimates of evenly spaced data.
-/
namespace Verif.Props
open Scalar Exact Verif.PSquare

variable {w : Nat} {ε : ℝ}

theorem fractionAt_even (quantiles : List Ratio) (i : Nat) : fractionAt quantiles (2 * i) = quantileAt quantiles i := by
  unfold fractionAt
  rw [if_pos (by omega), show 2 * i / 2 = i by omega]

/-- The quantile of evenly spaced data lies on the line. -/
theorem quantile_even {lo b q : ℝ} (hb : 0 ≤ b) {xs : List ℝ} (hne : xs ≠ [])
    (h : xs.Perm ((List.range xs.length).map fun i : ℕ => lo + b * i)) (h0 : 0 ≤ q) (h1 : q ≤ 1) :
    Spec.quantile q xs = lo + b * (((xs.length : ℝ) - 1) * q) := by
  have hpos : 1 ≤ xs.length := List.length_pos_iff.2 hne
  have hposr : (0 : ℝ) ≤ xs.length - 1 := by
    have : (1 : ℝ) ≤ xs.length := by exact_mod_cast hpos
    linarith
  unfold Spec.quantile
  rw [sorted_even hb h]
  set r := q * ((xs.length : ℝ) - 1) with hr
  have hr0 : 0 ≤ r := mul_nonneg h0 hposr
  have hr1 : r ≤ ((xs.length - 1 : ℕ) : ℝ) := by
    rw [Nat.cast_sub hpos, Nat.cast_one]
    nlinarith
  have hc : ⌈r⌉₊ < xs.length := by
    have := Nat.ceil_le.2 hr1
    omega
  have hf : ⌊r⌋₊ < xs.length := (Nat.floor_le_ceil r).trans_lt hc
  have e : ∀ k < xs.length, ((List.range xs.length).map fun i : ℕ => lo + b * i).getD k 0 = lo + b * k := by
    intro k hk
    simp [List.getD, hk]
  dsimp only
  rw [e _ hf, e _ hc]
  rcases eq_or_lt_of_le (Nat.floor_le_ceil r) with h2 | h2
  · rw [← h2]
    have : r = ⌊r⌋₊ := by
      have a := Nat.floor_le hr0
      have c := Nat.le_ceil r
      rw [← h2] at c
      linarith
    rw [← this, hr]
    ring
  · have h3 : ⌈r⌉₊ = ⌊r⌋₊ + 1 := le_antisymm (Nat.ceil_le_floor_add_one r) h2
    rw [h3, hr]
    push_cast
    ring

/-- C148: for evenly spaced data every estimate is a data point, the one whose rank is the position of the marker. -/
theorem C148_points {quantiles : List Ratio} (hq : ∀ r ∈ quantiles, 0 < r.den)
    (hasc : ∀ i ≤ quantiles.length, quantileAt quantiles i ≤ quantileAt quantiles (i + 1))
    (hL : 2 * quantiles.length + 3 < 2 ^ w) (ops : List (Op ℝ)) (hops : ops.length < 2 ^ w) {lo b : ℝ} (hb : 0 < b)
    (hdata : Spread (2 * quantiles.length + 3) b lo (sinceClear ops))
    (hn : 2 * quantiles.length + 3 < (sinceClear ops).length) :
    ∃ (s : PSquare w (E ε)) (n : Nat → Nat), PSquare.run quantiles (finOps ops) = some s
      ∧ ∀ i ≤ quantiles.length + 1, s.positions[2 * i]? = some (BitVec.ofNat w (n i)) ∧ 1 ≤ n i ∧ n i ≤ (sinceClear ops).length
        ∧ s.get i = some (X.fin ((Spec.sorted (sinceClear ops)).getD (n i - 1) 0)) := by
  obtain ⟨s, hs, -, -, h, hget⟩ := C71_algorithm_partial (ε := ε) hq hL ops hops hn.le
  have hf := fractions_of_quantiles hasc
  have hnear := (p2_near (down := codeDown w) (by omega) hf (sinceClear ops) hn.le).1
  have hline := p2_even (down := codeDown w) (by omega) hf hb hdata
  change Near _ _ _ (Spec.p2 (fun x => 0 < x) (fun n q i => q i + (q i - q (i - 1)) / (2 ^ w - (n i - n (i - 1)))) _ _ _).n at hnear
  change OnLine _ _ _ (Spec.p2 (fun x => 0 < x) (fun n q i => q i + (q i - q (i - 1)) / (2 ^ w - (n i - n (i - 1)))) _ _ _) at hline
  generalize Spec.p2 (fun x => 0 < x) (fun n q i => q i + (q i - q (i - 1)) / (2 ^ w - (n i - n (i - 1)))) _ _ _ = m at *
  have hle : ∀ k, k + 1 ≤ 2 * quantiles.length + 3 → 1 ≤ m.n k := by
    intro k
    induction k with
    | zero => intro _; exact hnear.first.ge
    | succ k ih => intro hk; have := hnear.mono k (by omega); have := ih (by omega); omega
  have hge : ∀ k, k + 1 ≤ 2 * quantiles.length + 3 → m.n (2 * quantiles.length + 2 - k) ≤ (sinceClear ops).length := by
    intro k
    induction k with
    | zero => intro _; exact hnear.last.le
    | succ k ih =>
      intro hk
      have h1 := hnear.mono (2 * quantiles.length + 2 - (k + 1)) (by omega)
      rw [show 2 * quantiles.length + 2 - (k + 1) + 1 = 2 * quantiles.length + 2 - k by omega] at h1
      have := ih (by omega)
      omega
  refine ⟨s, fun i => m.n (2 * i), hs, fun i hi => ?_⟩
  have b1 := hle (2 * i) (by omega)
  have b2 := hge (2 * quantiles.length + 2 - 2 * i) (by omega)
  rw [show 2 * quantiles.length + 2 - (2 * quantiles.length + 2 - 2 * i) = 2 * i by omega] at b2
  refine ⟨(h (2 * i) (by omega)).1, b1, b2, ?_⟩
  rw [hget hn i hi, hline (2 * i) (by omega), sorted_even hb.le hdata.perm]
  have : m.n (2 * i) - 1 < (sinceClear ops).length := by omega
  simp [List.getD, this, Nat.cast_sub b1]

/-- C148: if moreover 0, the quantiles and 1 ascend by steps of at least `g` and there are more than `8 (2 q + 3) / g`
values, then every estimate is less than the distance of neighbouring values away from the quantile of the data. -/
theorem C148_close {quantiles : List Ratio} (hq : ∀ r ∈ quantiles, 0 < r.den) {g : ℝ} (hg : 0 < g)
    (hasc : ∀ i ≤ quantiles.length, quantileAt quantiles i + g ≤ quantileAt quantiles (i + 1))
    (hL : 2 * quantiles.length + 3 < 2 ^ w) (ops : List (Op ℝ)) (hops : ops.length < 2 ^ w) {lo b : ℝ} (hb : 0 < b)
    (hdata : Spread (2 * quantiles.length + 3) b lo (sinceClear ops))
    (hn : 8 * (2 * (quantiles.length : ℝ) + 3) < g * (sinceClear ops).length) :
    ∃ (s : PSquare w (E ε)) (v : Nat → ℝ), PSquare.run quantiles (finOps ops) = some s
      ∧ ∀ i ≤ quantiles.length + 1, s.get i = some (X.fin (v i))
        ∧ |v i - Spec.quantile (quantileAt quantiles i) (sinceClear ops)| < b := by
  have hasc' : ∀ i ≤ quantiles.length, quantileAt quantiles i ≤ quantileAt quantiles (i + 1) :=
    fun i hi => (by linarith [hasc i hi])
  have hf := fractions_of_quantiles hasc'
  have hg1 : g / 2 ≤ 1 := by
    refine gap_le_one (by omega) hf (L := 2 * quantiles.length + 3) fun i hi => ?_
    rw [fractionAt_step]
    linarith [hasc (i / 2) (by omega)]
  have hlen : 2 * quantiles.length + 3 < (sinceClear ops).length := by
    have : (2 * (quantiles.length : ℝ) + 3) < (sinceClear ops).length := by
      have : (0 : ℝ) ≤ (sinceClear ops).length := Nat.cast_nonneg _
      nlinarith
    exact_mod_cast this
  have hne : sinceClear ops ≠ [] := by
    intro h
    rw [h] at hlen
    simp at hlen
  obtain ⟨s, n, hs, h⟩ := C148_points (ε := ε) hq hasc' hL ops hops hb hdata hlen
  obtain ⟨s', n', hs', h'⟩ := C147_settled (ε := ε) hq hg hasc hL ops hops hn
  have hss : s' = s := Option.some.inj (hs'.symm.trans hs)
  subst hss
  refine ⟨s', _, hs, fun i hi => ⟨(h i hi).2.2.2, ?_⟩⟩
  obtain ⟨p1, b1, b2, -⟩ := h i hi
  obtain ⟨p2, c2, habs⟩ := h' (2 * i) (by omega)
  have hlen' := (sinceClear_length_le ops).trans_lt hops
  have hnn : n i = n' (2 * i) := by
    have := congrArg BitVec.toNat (Option.some.inj (p1.symm.trans p2))
    rwa [BitVec.toNat_ofNat, BitVec.toNat_ofNat, Nat.mod_eq_of_lt (by omega), Nat.mod_eq_of_lt c2] at this
  have f0 := hf.nonneg (2 * i) (by omega)
  have f1 := hf.le_one (2 * i) (by omega)
  rw [fractionAt_even] at f0 f1 habs
  rw [quantile_even hb.le hne hdata.perm f0 f1, sorted_even hb.le hdata.perm]
  have hlt : n i - 1 < (sinceClear ops).length := by omega
  have e : ((List.range (sinceClear ops).length).map fun i : ℕ => lo + b * i).getD (n i - 1) 0 = lo + b * ((n i : ℝ) - 1) := by
    simp [List.getD, hlt, Nat.cast_sub b1]
  rw [e]
  rw [← hnn] at habs
  have : lo + b * ((n i : ℝ) - 1) - (lo + b * ((((sinceClear ops).length : ℝ) - 1) * quantileAt quantiles i))
      = b * ((n i : ℝ) - (1 + (((sinceClear ops).length : ℝ) - 1) * quantileAt quantiles i)) := by ring
  rw [this, abs_mul, abs_of_pos hb]
  nlinarith

/-- An ascending sequence. -/
theorem spread_range (L : Nat) (b lo : ℝ) {n : Nat} (h : L ≤ n) : Spread L b lo ((List.range n).map fun i : ℕ => lo + b * i) := by
  induction n, h using Nat.le_induction with
  | base => exact .start (List.Perm.refl _)
  | succ n h ih =>
    rw [List.range_succ, List.map_append, List.map_singleton]
    have := Spread.up ih
    rwa [List.length_map, List.length_range] at this

/-- The median of 0, 3, 6, ..., 3 (n - 1) is estimated with an error below 3 from 81 values on. -/
example (n : Nat) (h1 : 81 ≤ n) (h2 : n < 2 ^ 64) : ∃ (s : PSquare 64 (E ε)) (v : Nat → ℝ),
    PSquare.run [median] (finOps (((List.range n).map fun i : ℕ => (3 * i : ℝ)).map .push)) = some s
      ∧ s.get 1 = some (X.fin (v 1)) ∧ |v 1 - 3 / 2 * ((n : ℝ) - 1)| < 3 := by
  obtain ⟨q0, q1, q2⟩ := quantileAt_median
  have hs : Spread 5 3 0 ((List.range n).map fun i : ℕ => (3 * i : ℝ)) := by
    have := spread_range 5 3 0 (show 5 ≤ n by omega)
    simpa using this
  have hl : (sinceClear (((List.range n).map fun i : ℕ => (3 * i : ℝ)).map Op.push)).length = n := by
    rw [sinceClear_pushes]; simp
  have hnr : (81 : ℝ) ≤ n := by exact_mod_cast h1
  obtain ⟨s, v, hr, h⟩ := C148_close (w := 64) (ε := ε) median_ok.den (g := 1 / 2) (by norm_num)
    (fun i hi => by
      have : i = 0 ∨ i = 1 := by simp only [List.length_cons, List.length_nil] at hi; omega
      rcases this with rfl | rfl
      · rw [q0, q1]; norm_num
      · rw [q1, q2]; norm_num) (by decide) (((List.range n).map fun i : ℕ => (3 * i : ℝ)).map .push) (by simpa using h2)
    (b := 3) (lo := 0) (by norm_num) (by rw [sinceClear_pushes]; exact hs)
    (by rw [hl]; norm_num; linarith)
  obtain ⟨h3, h4⟩ := h 1 (by simp)
  refine ⟨s, v, hr, h3, ?_⟩
  have hne : sinceClear (((List.range n).map fun i : ℕ => (3 * i : ℝ)).map Op.push) ≠ [] := by
    intro h
    rw [h] at hl
    simp at hl
    omega
  rw [q1, quantile_even (lo := 0) (b := 3) (by norm_num) hne (by rw [sinceClear_pushes]; exact hs.perm) (by norm_num) (by norm_num),
    hl] at h4
  convert h4 using 2
  ring

end Verif.Props
