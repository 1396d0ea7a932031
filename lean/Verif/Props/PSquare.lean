import Verif.Proofs.PSquareGet
import Mathlib.Tactic.NormNum
import Mathlib.Tactic.IntervalCases
/-
C35 - C42: the P-square quantile estimator.

`q` is the number of quantiles; there are `2 q + 3` markers (`paramLength q`).
-/
namespace Verif.Props
open Scalar Exact Verif.PSquare

variable {w : Nat} {ε : ℝ}

/-- The quantile arguments are ratios in [0, 1). -/
def Quantiles (quantiles : List Ratio) : Prop := ∀ r ∈ quantiles, 0 < r.den ∧ 0 ≤ r.val ∧ r.val < 1

/-- The quantile estimated by `get<i>()`: 0 for the minimum, 1 for the maximum, otherwise the `i`-th argument. -/
noncomputable def quantileAt (quantiles : List Ratio) (i : Nat) : ℝ := (0 :: quantiles.map Ratio.val ++ [1]).getD i 0

theorem Quantiles.den {quantiles : List Ratio} (h : Quantiles quantiles) : ∀ r ∈ quantiles, 0 < r.den :=
  fun r hr => (h r hr).1

theorem Quantiles.at {quantiles : List Ratio} (h : Quantiles quantiles) {i : Nat} (hi : i < quantiles.length) :
    0 ≤ (quantiles.map Ratio.val).getD i 0 ∧ (quantiles.map Ratio.val).getD i 0 < 1 := by
  have hi' : i < (quantiles.map Ratio.val).length := by simpa using hi
  rw [List.getD_eq_getElem _ _ hi', List.getElem_map]
  exact (h _ (List.getElem_mem hi)).2

/-- The median. -/
def median : Ratio := ⟨1, 2⟩
theorem median_ok : Quantiles [median] := by
  intro r hr
  rw [List.mem_singleton.1 hr]
  refine ⟨by decide, ?_, ?_⟩ <;> norm_num [Ratio.val, median]

/-! ### C35 -/

/-- C35: up to `2 q + 3` values the heights are the values in ascending order and `get<i>()` is the quantile
of the sample. -/
theorem C35_few {quantiles : List Ratio} (hq : Quantiles quantiles)
    (hL : 2 * quantiles.length + 3 < 2 ^ w) (ops : List (Op ℝ)) (hops : ops.length < 2 ^ w)
    (hn : (sinceClear ops).length ≤ 2 * quantiles.length + 3) :
    ∃ s : PSquare w (E ε), PSquare.run quantiles (finOps ops) = some s
      ∧ s.size = BitVec.ofNat w (sinceClear ops).length
      ∧ s.heights.take (sinceClear ops).length = (Spec.sorted (sinceClear ops)).map X.fin
      ∧ (sinceClear ops = [] → ∀ i ≤ quantiles.length + 1, s.get i = some (X.fin 0))
      ∧ (sinceClear ops ≠ [] → ∀ i ≤ quantiles.length + 1,
          s.get i = some (X.fin (Spec.quantile (quantileAt quantiles i) (sinceClear ops)))) := by
  obtain ⟨s, p, r, hs, hi⟩ := run_exact (ε := ε) hq.den hL ops hops
  have hl : (quantiles.map Ratio.val).length = quantiles.length := by simp
  have hn' : (sinceClear ops).length ≤ paramLength (quantiles.map Ratio.val).length := by rw [hl]; exact hn
  refine ⟨s, hs, hi.count, ?_, ?_, ?_⟩
  · rw [hi.few hn', List.take_left' (by simp)]
  · intro h0 i hidx
    rw [h0] at hi
    exact get_empty hi (by rw [hl]; exact hidx)
  · intro hne i hidx
    refine get_few (by rw [hl]; exact hL) hi hne hn' (by rw [hl]; exact hidx) ?_
    by_cases c0 : i = 0
    · exact Or.inl c0
    by_cases c1 : i = quantiles.length + 1
    · exact Or.inr (Or.inl (by rw [hl]; exact c1))
    · exact Or.inr (Or.inr (hq.at (by omega)))

/-- Four values, inserted out of order. -/
def demoQ : List (Op ℝ) := [.push 9, .clear, .push 4, .push 1, .push 3, .push 1]

theorem sorted_demoQ : Spec.sorted (sinceClear demoQ) = [1, 1, 3, 4] :=
  Spec.sorted_unique (by
    show List.Perm [1, 1, 3, 4] [4, 1, 3, 1]
    exact ((List.Perm.refl [(1 : ℝ), 1]).append (List.Perm.swap 4 3 [])).trans
      (List.perm_middle (a := (4 : ℝ)) (l₁ := [1, 1]) (l₂ := [3]) |>.trans ((List.Perm.swap 3 1 []).cons 1 |>.cons 4)))
    (by norm_num)

/-- The median of 1, 1, 3, 4 is 2, the minimum 1, the maximum 4. -/
example : ∃ s : PSquare 64 (E ε), PSquare.run [median] (finOps demoQ) = some s
    ∧ s.get 0 = some (X.fin 1) ∧ s.get 1 = some (X.fin 2) ∧ s.get 2 = some (X.fin 4) := by
  obtain ⟨s, h, -, -, -, hg⟩ := C35_few (w := 64) (ε := ε) median_ok (by decide) demoQ (by decide) (by decide)
  have hg' := hg (by simp [demoQ, sinceClear])
  have hlen : ((sinceClear demoQ).length : ℝ) = 4 := by norm_num [demoQ, sinceClear]
  have f1 : ⌊(3 / 2 : ℝ)⌋₊ = 1 := by rw [Nat.floor_eq_iff (by norm_num)]; norm_num
  have c1 : ⌈(3 / 2 : ℝ)⌉₊ = 2 := by rw [Nat.ceil_eq_iff (by norm_num)]; norm_num
  have f3 : ⌊(3 : ℝ)⌋₊ = 3 := Nat.floor_natCast (R := ℝ) 3
  have c3 : ⌈(3 : ℝ)⌉₊ = 3 := Nat.ceil_natCast (R := ℝ) 3
  refine ⟨s, h, (hg' 0 (by decide)).trans ?_, (hg' 1 (by decide)).trans ?_, (hg' 2 (by decide)).trans ?_⟩
  · simp [quantileAt, Spec.quantile, sorted_demoQ]
  · have : quantileAt [median] 1 = 1 / 2 := by simp [quantileAt, median, Ratio.val]
    rw [this, Spec.quantile, hlen, show (1 / 2 : ℝ) * (4 - 1) = 3 / 2 by norm_num, f1, c1, sorted_demoQ]
    norm_num
  · have : quantileAt [median] 2 = 1 := by simp [quantileAt]
    rw [this, Spec.quantile, hlen, show (1 : ℝ) * (4 - 1) = 3 by norm_num, f3, c3, sorted_demoQ]
    norm_num

/-! ### C36 -/

/-- C36: minimum and maximum are exact after every history. -/
theorem C36_extremes {quantiles : List Ratio} (hq : ∀ r ∈ quantiles, 0 < r.den)
    (hL : 2 * quantiles.length + 3 < 2 ^ w) (ops : List (Op ℝ)) (hops : ops.length < 2 ^ w)
    (hne : sinceClear ops ≠ []) :
    ∃ (s : PSquare w (E ε)) (lo hi : ℝ), PSquare.run quantiles (finOps ops) = some s
      ∧ s.get 0 = some (X.fin lo) ∧ s.get (quantiles.length + 1) = some (X.fin hi)
      ∧ IsLeast {x | x ∈ sinceClear ops} lo ∧ IsGreatest {x | x ∈ sinceClear ops} hi := by
  obtain ⟨s, p, r, hs, hi⟩ := run_exact (ε := ε) hq hL ops hops
  have hl : (quantiles.map Ratio.val).length = quantiles.length := by simp
  obtain ⟨lo, hi', h1, h2, h3, h4⟩ := get_extreme (by rw [hl]; exact hL) ((sinceClear_length_le ops).trans_lt hops) hi hne
  rw [hl] at h2
  exact ⟨s, lo, hi', hs, h1, h2, h3, h4⟩

/-- More than `2 q + 3` values. -/
def demoQ7 : List (Op ℝ) := [.push 4, .push 1, .push 3, .push 10, .push 5, .push (-2), .push 12, .push 6]

example : ∃ s : PSquare 64 (E ε), PSquare.run [median] (finOps demoQ7) = some s
    ∧ s.get 0 = some (X.fin (-2)) ∧ s.get 2 = some (X.fin 12) := by
  obtain ⟨s, lo, hi, h, h1, h2, h3, h4⟩ := C36_extremes (w := 64) (ε := ε) median_ok.den (by decide) demoQ7
    (by decide) (by simp [demoQ7, sinceClear])
  have e : sinceClear demoQ7 = [4, 1, 3, 10, 5, -2, 12, 6] := rfl
  rw [e] at h3 h4
  have : lo = -2 := by
    apply h3.unique
    refine ⟨by simp, fun y hy => ?_⟩
    simp only [Set.mem_ofPred_eq, List.mem_cons, List.not_mem_nil, or_false] at hy
    rcases hy with rfl | rfl | rfl | rfl | rfl | rfl | rfl | rfl <;> norm_num
  have : hi = 12 := by
    apply h4.unique
    refine ⟨by simp, fun y hy => ?_⟩
    simp only [Set.mem_ofPred_eq, List.mem_cons, List.not_mem_nil, or_false] at hy
    rcases hy with rfl | rfl | rfl | rfl | rfl | rfl | rfl | rfl <;> norm_num
  subst_vars
  exact ⟨s, h, h1, h2⟩

/-! ### C37 -/

/-- C37, markers: from `2 q + 3` values on the heights are real numbers in ascending order and the positions
strictly increasing from 1 to the number of values. -/
theorem C37_markers {quantiles : List Ratio} (hq : ∀ r ∈ quantiles, 0 < r.den)
    (hL : 2 * quantiles.length + 3 < 2 ^ w) (ops : List (Op ℝ)) (hops : ops.length < 2 ^ w)
    (hn : 2 * quantiles.length + 3 ≤ (sinceClear ops).length) :
    ∃ (s : PSquare w (E ε)) (p : Nat → Nat) (h : Nat → ℝ), PSquare.run quantiles (finOps ops) = some s
      ∧ s.positions.length = 2 * quantiles.length + 3 ∧ s.heights.length = 2 * quantiles.length + 3
      ∧ (∀ i < 2 * quantiles.length + 3, s.positions[i]? = some (BitVec.ofNat w (p i)) ∧ s.heights[i]? = some (X.fin (h i)))
      ∧ p 0 = 1 ∧ p (2 * quantiles.length + 2) = (sinceClear ops).length
      ∧ (∀ i < 2 * quantiles.length + 2, p i < p (i + 1) ∧ h i ≤ h (i + 1)) := by
  obtain ⟨s, p, r, hs, hi⟩ := run_exact (ε := ε) hq hL ops hops
  have hpl : paramLength (quantiles.map Ratio.val).length = 2 * quantiles.length + 3 := by simp [paramLength]
  have hn' : paramLength (quantiles.map Ratio.val).length ≤ (sinceClear ops).length := by rw [hpl]; exact hn
  obtain ⟨h1, -, -⟩ := hi.many hn'
  refine ⟨s, p, r, hs, by rw [hi.rep.pos_len, hpl], by rw [hi.rep.ht_len, hpl], ?_, hi.first, ?_, ?_⟩
  · intro i hil
    exact ⟨hi.rep.pos i (by omega), hi.rep.ht i (by omega)⟩
  · have := hi.last
    rw [hpl] at this
    simp only [Nat.add_one_sub_one] at this
    rw [show 2 * quantiles.length + 2 = 2 * quantiles.length + 3 - 1 by omega]
    exact this.trans (by omega)
  · intro i hil
    exact ⟨hi.mono.step i (by omega), h1 i (by omega)⟩

/-- C37, estimates: for quantiles in [0, 1), in any order, every estimate is a number between the smallest
and the largest value. -/
theorem C37_within {quantiles : List Ratio} (hq : Quantiles quantiles) (hL : 2 * quantiles.length + 3 < 2 ^ w)
    (ops : List (Op ℝ)) (hops : ops.length < 2 ^ w) (hne : sinceClear ops ≠ []) {lo hi : ℝ}
    (hdata : ∀ x ∈ sinceClear ops, lo ≤ x ∧ x ≤ hi) {i : Nat} (hidx : i ≤ quantiles.length + 1) :
    ∃ (s : PSquare w (E ε)) (v : ℝ), PSquare.run quantiles (finOps ops) = some s ∧ s.get i = some (X.fin v)
      ∧ lo ≤ v ∧ v ≤ hi := by
  have hl : (quantiles.map Ratio.val).length = quantiles.length := by simp
  have hpl : paramLength (quantiles.map Ratio.val).length = 2 * quantiles.length + 3 := by simp [paramLength]
  obtain ⟨s, p, r, hs, hinv⟩ := run_exact (ε := ε) hq.den hL ops hops
  rcases Nat.lt_or_ge (2 * quantiles.length + 3) (sinceClear ops).length with h | h
  · obtain ⟨m1, m2, m3⟩ := hinv.many (by rw [hpl]; exact h.le)
    refine ⟨s, r (2 * i), hs, get_many hinv (by rw [hpl]; exact h)
        ((sinceClear_length_le ops).trans_lt hops) (by rw [hl]; exact hidx), ?_, ?_⟩
    · exact (hdata _ m2.1).1.trans (sorted_of_step m1 (by omega) (by rw [hpl]; omega))
    · exact (sorted_of_step m1 (show 2 * i ≤ paramLength (quantiles.map Ratio.val).length - 1 by omega)
        (by rw [hpl]; omega)).trans (hdata _ m3.1).2
  · obtain ⟨s', hs', -, -, -, hg⟩ := C35_few (ε := ε) hq hL ops hops h
    refine ⟨s', _, hs', hg hne i hidx, ?_⟩
    have hlen : 0 < (sinceClear ops).length := List.length_pos_iff.2 hne
    have hq01 : 0 ≤ quantileAt quantiles i ∧ quantileAt quantiles i ≤ 1 := by
      unfold quantileAt
      rw [List.cons_append]
      cases i with
      | zero => simp
      | succ i =>
        rw [List.getD_cons_succ]
        rcases Nat.lt_or_ge i quantiles.length with h' | h'
        · rw [List.getD_append _ _ _ _ (by rw [hl]; exact h')]
          exact ⟨(hq.at h').1, (hq.at h').2.le⟩
        · rw [List.getD_append_right _ _ _ _ (by rw [hl]; exact h'), hl, show i - quantiles.length = 0 by omega]
          simp
    have hn0 : (0 : ℝ) ≤ ((sinceClear ops).length : ℝ) - 1 := by
      have : (1 : ℝ) ≤ (sinceClear ops).length := by exact_mod_cast hlen
      linarith
    have hr : quantileAt quantiles i * ((sinceClear ops).length - 1) ≤ (((sinceClear ops).length - 1 : Nat) : ℝ) := by
      rw [Nat.cast_sub hlen]; push_cast
      exact mul_le_of_le_one_left hn0 hq01.2
    have hc := Nat.ceil_le.2 hr
    have hf := (Nat.floor_le_ceil (quantileAt quantiles i * ((sinceClear ops).length - 1))).trans hc
    obtain ⟨b1, b2⟩ := Spec.quantile_between hq01.1 hq01.2 hne
    constructor
    · exact (hdata _ (sorted_least hlen).1).1.trans ((Spec.sorted_mono (Nat.zero_le _) (by omega)).trans b1)
    · exact b2.trans ((Spec.sorted_mono hc (by omega)).trans (hdata _ (sorted_greatest hlen).1).2)

/-- C37, estimates, for quantiles in ascending order: `get<i>() <= get<i+1>()`; with C36 all of them lie
between minimum and maximum.
Missing for the full statement: quantile arguments in another order, see `C37_violated`. -/
theorem C37_estimates_partial {quantiles : List Ratio} (hq : Quantiles quantiles)
    (hasc : quantiles.Pairwise fun a b => a.val ≤ b.val) (hL : 2 * quantiles.length + 3 < 2 ^ w)
    (ops : List (Op ℝ)) (hops : ops.length < 2 ^ w) (hne : sinceClear ops ≠ []) :
    ∃ (s : PSquare w (E ε)) (v : Nat → ℝ), PSquare.run quantiles (finOps ops) = some s
      ∧ (∀ i ≤ quantiles.length + 1, s.get i = some (X.fin (v i)))
      ∧ (∀ i ≤ quantiles.length, v i ≤ v (i + 1))
      ∧ (∀ i ≤ quantiles.length + 1, (∃ x ∈ sinceClear ops, x ≤ v i) ∧ ∃ x ∈ sinceClear ops, v i ≤ x) := by
  have hl : (quantiles.map Ratio.val).length = quantiles.length := by simp
  have hpl : paramLength (quantiles.map Ratio.val).length = 2 * quantiles.length + 3 := by simp [paramLength]
  obtain ⟨s, p, r, hs, hi⟩ := run_exact (ε := ε) hq.den hL ops hops
  obtain ⟨lo, hi', h1, h2, h3, h4⟩ := get_extreme (by rw [hl]; exact hL) ((sinceClear_length_le ops).trans_lt hops) hi hne
  have key : ∃ v : Nat → ℝ, (∀ i ≤ quantiles.length + 1, s.get i = some (X.fin (v i)))
      ∧ (∀ i ≤ quantiles.length, v i ≤ v (i + 1)) := by
    rcases Nat.lt_or_ge (2 * quantiles.length + 3) (sinceClear ops).length with h | h
    · obtain ⟨m1, -, -⟩ := hi.many (by rw [hpl]; exact h.le)
      refine ⟨fun i => r (2 * i), fun i hidx => get_many hi (by rw [hpl]; exact h)
        ((sinceClear_length_le ops).trans_lt hops) (by rw [hl]; exact hidx), fun i hidx => ?_⟩
      exact sorted_of_step m1 (by omega) (by rw [hpl]; omega)
    · obtain ⟨s', hs', -, -, -, hg⟩ := C35_few (ε := ε) hq hL ops hops h
      obtain rfl : s = s' := Option.some.inj (hs.symm.trans hs')
      refine ⟨fun i => Spec.quantile (quantileAt quantiles i) (sinceClear ops), hg hne, fun i hidx => ?_⟩
      have hmem : ∀ x ∈ quantiles.map Ratio.val, 0 ≤ x ∧ x ≤ 1 := by
        intro x hx
        obtain ⟨a, ha, rfl⟩ := List.mem_map.1 hx
        exact ⟨(hq a ha).2.1, (hq a ha).2.2.le⟩
      have hp : (0 :: quantiles.map Ratio.val ++ [1]).Pairwise (fun a b : ℝ => 0 ≤ a ∧ a ≤ b ∧ b ≤ 1) := by
        rw [List.cons_append, List.pairwise_cons, List.pairwise_append, List.pairwise_map]
        refine ⟨?_, ?_, by simp, ?_⟩
        · intro b hb
          rcases List.mem_append.1 hb with hb | hb
          · exact ⟨le_refl _, (hmem b hb).1, (hmem b hb).2⟩
          · rw [List.mem_singleton.1 hb]; norm_num
        · exact hasc.imp_of_mem fun hx hy h => ⟨(hq _ hx).2.1, h, (hq _ hy).2.2.le⟩
        · intro a ha b hb
          rw [List.mem_singleton.1 hb]
          exact ⟨(hmem a ha).1, (hmem a ha).2, le_refl _⟩
      have hlen : i + 1 < (0 :: quantiles.map Ratio.val ++ [1]).length := by simp; omega
      have := List.pairwise_iff_getElem.1 hp i (i + 1) (by omega) hlen (by omega)
      rw [← List.getD_eq_getElem _ 0 (by omega), ← List.getD_eq_getElem _ 0 hlen] at this
      exact Spec.quantile_mono this.1 this.2.1 this.2.2 hne
  obtain ⟨v, hv, hm⟩ := key
  refine ⟨s, v, hs, hv, hm, fun i hidx => ?_⟩
  have e0 : lo = v 0 := X.fin_inj.1 (Option.some.inj (h1.symm.trans (hv 0 (by omega))))
  have e1 : hi' = v (quantiles.length + 1) := by
    rw [hl] at h2
    exact X.fin_inj.1 (Option.some.inj (h2.symm.trans (hv _ (le_refl _))))
  have mono : ∀ i j, i ≤ j → j ≤ quantiles.length + 1 → v i ≤ v j := by
    intro i j hij hj
    exact sorted_of_step (L := quantiles.length + 2) (fun k hk => hm k (by omega)) hij (by omega)
  exact ⟨⟨lo, h3.1, by rw [e0]; exact mono 0 i (by omega) hidx⟩, ⟨hi', h4.1, by rw [e1]; exact mono i _ hidx (le_refl _)⟩⟩

example : ∃ (s : PSquare 64 (E ε)) (v : Nat → ℝ), PSquare.run [median] (finOps demoQ7) = some s
    ∧ s.get 1 = some (X.fin (v 1)) ∧ v 0 ≤ v 1 ∧ v 1 ≤ v 2 := by
  obtain ⟨s, v, h, h1, h2, -⟩ := C37_estimates_partial (w := 64) (ε := ε) median_ok (by simp) (by decide) demoQ7
    (by decide) (by simp [demoQ7, sinceClear])
  exact ⟨s, v, h, h1 1 (by decide), h2 0 (by decide), h2 1 (by decide)⟩
example : ∃ (s : PSquare 64 (E ε)) (p : Nat → Nat) (h : Nat → ℝ), PSquare.run [median] (finOps demoQ7) = some s
    ∧ s.positions[4]? = some 8 ∧ p 1 < p 2 ∧ h 1 ≤ h 2 ∧ s.heights[1]? = some (X.fin (h 1)) := by
  obtain ⟨s, p, h, hs, -, -, h1, -, h3, h4⟩ := C37_markers (w := 64) (ε := ε) median_ok.den (by decide) demoQ7
    (by decide) (by decide)
  refine ⟨s, p, h, hs, ?_, (h4 1 (by decide)).1, (h4 1 (by decide)).2, (h1 1 (by decide)).2⟩
  have := (h1 4 (by decide)).1
  rw [this]
  have e : p 4 = 8 := h3
  rw [e]; rfl

example : ∃ (s : PSquare 64 (E ε)) (v : ℝ), PSquare.run [median] (finOps demoQ7) = some s ∧ s.get 1 = some (X.fin v)
    ∧ -2 ≤ v ∧ v ≤ 12 := by
  refine C37_within (w := 64) median_ok (by decide) demoQ7 (by decide) (by simp [demoQ7, sinceClear]) ?_ (by decide)
  have e : sinceClear demoQ7 = [4, 1, 3, 10, 5, -2, 12, 6] := rfl
  rw [e]
  norm_num

/-- Two quartiles in descending order. -/
def swapped : List Ratio := [⟨3, 4⟩, ⟨1, 4⟩]
theorem swapped_ok : Quantiles swapped := by
  intro r hr
  simp only [swapped, List.mem_cons, List.not_mem_nil, or_false] at hr
  rcases hr with rfl | rfl
  · refine ⟨by decide, ?_, ?_⟩ <;> norm_num [Ratio.val]
  · refine ⟨by decide, ?_, ?_⟩ <;> norm_num [Ratio.val]

/-- The sample 0, 4. -/
def demo04 : List (Op ℝ) := [.push 0, .push 4]
theorem sorted_demo04 : Spec.sorted (sinceClear demo04) = [0, 4] :=
  Spec.sorted_unique (by exact List.Perm.refl _) (by norm_num)

theorem quantile_demo04 {q : ℝ} (h0 : 0 < q) (h1 : q < 1) : Spec.quantile q (sinceClear demo04) = 4 * q := by
  have hlen : ((sinceClear demo04).length : ℝ) = 2 := by norm_num [demo04, sinceClear]
  have f : ⌊q⌋₊ = 0 := Nat.floor_eq_zero.2 h1
  have c : ⌈q⌉₊ = 1 := by rw [Nat.ceil_eq_iff (by norm_num)]; norm_num; exact ⟨h0, h1.le⟩
  rw [Spec.quantile, hlen, show q * (2 - 1) = q by ring, f, c, sorted_demo04]
  norm_num; ring

theorem swapped_get (ε : ℝ) : ∃ s : PSquare 64 (E ε), PSquare.run swapped (finOps demo04) = some s
    ∧ s.get 1 = some (X.fin 3) ∧ s.get 2 = some (X.fin 1) := by
  obtain ⟨s, h, -, -, -, hg⟩ := C35_few (w := 64) (ε := ε) swapped_ok (by decide) demo04 (by decide) (by decide)
  have hg' := hg (by simp [demo04, sinceClear])
  refine ⟨s, h, (hg' 1 (by decide)).trans ?_, (hg' 2 (by decide)).trans ?_⟩
  · have : quantileAt swapped 1 = 3 / 4 := by simp [quantileAt, swapped, Ratio.val]
    rw [this, quantile_demo04 (by norm_num) (by norm_num)]; norm_num
  · have : quantileAt swapped 2 = 1 / 4 := by simp [quantileAt, swapped, Ratio.val]
    rw [this, quantile_demo04 (by norm_num) (by norm_num)]; norm_num

/-- C37 as stated is false for quantiles that are not in ascending order: with <3/4, 1/4> and the values 0
and 4, `get<1>()` is 3 and `get<2>()` is 1. -/
theorem C37_violated (ε : ℝ) :
    ¬ ∀ (quantiles : List Ratio), Quantiles quantiles → ∀ (ops : List (Op ℝ)) (s : PSquare 64 (E ε)),
      PSquare.run quantiles (finOps ops) = some s → ∀ i ≤ quantiles.length, ∀ a b : ℝ,
        s.get i = some (X.fin a) → s.get (i + 1) = some (X.fin b) → a ≤ b := by
  intro h
  obtain ⟨s, hs, h1, h2⟩ := swapped_get ε
  have := h swapped swapped_ok demo04 s hs 1 (by decide) 3 1 h1 h2
  norm_num at this

/-! ### C38 -/

/-- The desired fraction of marker `i`: even markers belong to 0, the quantiles and 1; odd ones lie in the
middle. -/
noncomputable def fractionAt (quantiles : List Ratio) (i : Nat) : ℝ :=
  if i % 2 = 0 then quantileAt quantiles (i / 2)
  else (quantileAt quantiles (i / 2) + quantileAt quantiles (i / 2 + 1)) / 2

theorem fractionAt_eq (quantiles : List Ratio) (i : Nat) :
    fractionAt quantiles i = markerR (quantiles.map Ratio.val) i := rfl

/-- C38: the desired position of marker `i` is `1 + (n - 1) d_i`. -/
theorem C38_desired {quantiles : List Ratio} (hq : ∀ r ∈ quantiles, 0 < r.den)
    (hL : 2 * quantiles.length + 3 < 2 ^ w) (ops : List (Op ℝ)) (hops : ops.length < 2 ^ w)
    (hn : 2 * quantiles.length + 3 ≤ (sinceClear ops).length) :
    ∃ s : PSquare w (E ε), PSquare.run quantiles (finOps ops) = some s
      ∧ ∀ i < 2 * quantiles.length + 3,
        s.desired[i]? = some (X.fin (1 + ((sinceClear ops).length - 1) * fractionAt quantiles i)) := by
  obtain ⟨s, p, r, hs, hi⟩ := run_exact (ε := ε) hq hL ops hops
  have hpl : paramLength (quantiles.map Ratio.val).length = 2 * quantiles.length + 3 := by simp [paramLength]
  refine ⟨s, hs, fun i hil => ?_⟩
  rw [hi.rep.des i (by rw [hpl]; exact hil), fractionAt_eq, max_eq_left]
  rw [hpl]; exact_mod_cast hn

/-- C38: when `x` is pushed, markers from some `k` on - those above `x` - count one more value; then a
marker moves by at most one, and only towards its desired position. -/
theorem C38_towards {quantiles : List Ratio} (hq : ∀ r ∈ quantiles, 0 < r.den)
    (hL : 2 * quantiles.length + 3 < 2 ^ w) (ops : List (Op ℝ)) (hops : ops.length + 1 < 2 ^ w)
    (hn : 2 * quantiles.length + 3 ≤ (sinceClear ops).length) (x : ℝ) :
    ∃ (s s' : PSquare w (E ε)) (p p' : Nat → Nat) (h : Nat → ℝ) (k : Nat),
      PSquare.run quantiles (finOps ops) = some s ∧ s.push (X.fin x) = some s'
      ∧ (∀ i < 2 * quantiles.length + 3, s.positions[i]? = some (BitVec.ofNat w (p i))
          ∧ s'.positions[i]? = some (BitVec.ofNat w (p' i)) ∧ s.heights[i]? = some (X.fin (h i)))
      ∧ 1 ≤ k ∧ k ≤ 2 * quantiles.length + 2
      ∧ (∀ i, 1 ≤ i → i < k → h i ≤ x) ∧ (∀ i, k ≤ i → i ≤ 2 * quantiles.length + 1 → x < h i)
      ∧ ∀ i < 2 * quantiles.length + 3,
          let rank := if k ≤ i then p i + 1 else p i
          let desired := 1 + (sinceClear ops).length * fractionAt quantiles i
          p' i = rank ∨ (p' i = rank + 1 ∧ rank < desired) ∨ (p' i + 1 = rank ∧ desired < rank) := by
  obtain ⟨s, p, r, hs, hi⟩ := run_exact (ε := ε) hq hL ops (by omega)
  have hpl : paramLength (quantiles.map Ratio.val).length = 2 * quantiles.length + 3 := by simp [paramLength]
  have hle := sinceClear_length_le ops
  obtain ⟨s', p', r', k, h1, h2, h3, h4, h5, h6, h7⟩ := push_full_exact (by omega) hi (by rw [hpl]; exact hn) x
  refine ⟨s, s', p, p', r, k, hs, h1, ?_, h3, by omega, h5, fun i a b => h6 i a (by omega), fun i hil => h7 i⟩
  intro i hil
  exact ⟨hi.rep.pos i (by omega), h2.rep.pos i (by omega), hi.rep.ht i (by omega)⟩

example : ∃ s : PSquare 64 (E ε), PSquare.run [median] (finOps demoQ7) = some s
    ∧ s.desired[1]? = some (X.fin (1 + 7 / 4)) ∧ s.desired[2]? = some (X.fin (1 + 7 / 2)) := by
  obtain ⟨s, h, hd⟩ := C38_desired (w := 64) (ε := ε) median_ok.den (by decide) demoQ7 (by decide) (by decide)
  refine ⟨s, h, (hd 1 (by decide)).trans ?_, (hd 2 (by decide)).trans ?_⟩
  · norm_num [demoQ7, sinceClear, fractionAt, quantileAt, median, Ratio.val]
  · norm_num [demoQ7, sinceClear, fractionAt, quantileAt, median, Ratio.val]
example := C38_towards (w := 64) (ε := ε) median_ok.den (by decide) demoQ7 (by decide) (by decide) 5

/-! ### C39 -/

/-- C39 as stated is false: with the arguments <3/4, 1/4> and the values 0 and 4, `value<1/4>()` is 3, with
the arguments <1/4, 3/4> it would be 1. -/
theorem C39_violated (ε : ℝ) :
    ¬ ∀ (quantiles : List Ratio), Quantiles quantiles → ∀ (ops : List (Op ℝ)) (s : PSquare 64 (E ε)),
      (sinceClear ops).length ≤ 2 * quantiles.length + 3 → sinceClear ops ≠ [] →
      PSquare.run quantiles (finOps ops) = some s → ∀ r ∈ quantiles,
        PSquare.value quantiles s r = some (X.fin (Spec.quantile r.val (sinceClear ops))) := by
  intro h
  obtain ⟨s, hs, h1, -⟩ := swapped_get ε
  have h2 := h swapped swapped_ok demo04 s (by decide) (by simp [demo04, sinceClear]) hs ⟨1, 4⟩ (by simp [swapped])
  have e : (quantileList swapped).findIdx (· == (⟨1, 4⟩ : Ratio)) = 1 := by decide
  rw [PSquare.value, e, h1] at h2
  have h3 : (3 : ℝ) = Spec.quantile (Ratio.val ⟨1, 4⟩) (sinceClear demo04) := X.fin_inj.1 (Option.some.inj h2)
  rw [quantile_demo04 (by norm_num [Ratio.val]) (by norm_num [Ratio.val])] at h3
  norm_num [Ratio.val] at h3

/-- C39: also after many values `value<1/4>()` of an estimator for <3/4, 1/4> is the height of a marker that
is driven to the 3/4 quantile. -/
theorem C39_wrong_marker (ops : List (Op ℝ)) (hops : ops.length < 2 ^ 64) (hn : 7 < (sinceClear ops).length) :
    ∃ s : PSquare 64 (E ε), PSquare.run swapped (finOps ops) = some s
      ∧ PSquare.value swapped s ⟨1, 4⟩ = s.heights[2]?
      ∧ s.desired[2]? = some (X.fin (1 + ((sinceClear ops).length - 1) * (3 / 4))) := by
  obtain ⟨s, hs, hd⟩ := C38_desired (w := 64) (ε := ε) swapped_ok.den (by decide) ops hops
    (by simp [swapped]; omega)
  obtain ⟨s', p, r, hs', hi⟩ := run_exact (w := 64) (ε := ε) swapped_ok.den (by decide) ops hops
  obtain rfl : s = s' := Option.some.inj (hs.symm.trans hs')
  refine ⟨s, hs, ?_, ?_⟩
  · have e : (quantileList swapped).findIdx (· == (⟨1, 4⟩ : Ratio)) = 1 := by decide
    rw [PSquare.value, e, get_many hi (by simp [swapped, paramLength]; omega)
      ((sinceClear_length_le ops).trans_lt hops) (by simp [swapped])]
    exact (hi.rep.ht 2 (by simp [swapped, paramLength])).symm
  · rw [hd 2 (by simp [swapped])]
    norm_num [fractionAt, quantileAt, swapped, Ratio.val]

/-- C39 for quantiles listed in ascending order: `value<Q>()` is the sample quantile for up to `2 q + 3`
values, and afterwards the height of the marker whose desired position is `1 + (n - 1) Q`.
Missing for the full statement: other orders, see `C39_violated`. -/
theorem C39_ascending_partial {quantiles : List Ratio} (hd : ∀ r ∈ quantiles, 0 < r.den ∧ 0 < r.val ∧ r.val < 1)
    (hasc : quantiles.Pairwise fun a b => a.val < b.val) (hL : 2 * quantiles.length + 3 < 2 ^ w)
    (ops : List (Op ℝ)) (hops : ops.length < 2 ^ w) (hne : sinceClear ops ≠ []) {i : Nat} (hi : i < quantiles.length) :
    ∃ s : PSquare w (E ε), PSquare.run quantiles (finOps ops) = some s
      ∧ PSquare.value quantiles s quantiles[i] = s.get (i + 1)
      ∧ ((sinceClear ops).length ≤ 2 * quantiles.length + 3 →
          PSquare.value quantiles s quantiles[i] = some (X.fin (Spec.quantile quantiles[i].val (sinceClear ops))))
      ∧ (2 * quantiles.length + 3 < (sinceClear ops).length →
          PSquare.value quantiles s quantiles[i] = s.heights[2 * (i + 1)]?
            ∧ s.desired[2 * (i + 1)]? = some (X.fin (1 + ((sinceClear ops).length - 1) * quantiles[i].val))) := by
  have hq : Quantiles quantiles := fun r hr => ⟨(hd r hr).1, (hd r hr).2.1.le, (hd r hr).2.2⟩
  obtain ⟨s, p, r, hs, hinv⟩ := run_exact (ε := ε) hq.den hL ops hops
  have hpl : paramLength (quantiles.map Ratio.val).length = 2 * quantiles.length + 3 := by simp [paramLength]
  have hval : PSquare.value quantiles s quantiles[i] = s.get (i + 1) := by
    rw [PSquare.value, findIdx_ascending hd hasc hi]
  have hqa : quantileAt quantiles (i + 1) = quantiles[i].val := by
    unfold quantileAt
    rw [List.cons_append, List.getD_cons_succ, List.getD_append _ _ _ _ (by simpa using hi),
      List.getD_eq_getElem _ _ (by simpa using hi), List.getElem_map]
  refine ⟨s, hs, hval, fun hn => ?_, fun hn => ⟨?_, ?_⟩⟩
  · obtain ⟨s', hs', -, -, -, hg⟩ := C35_few (ε := ε) hq hL ops hops hn
    obtain rfl : s = s' := Option.some.inj (hs.symm.trans hs')
    rw [hval, hg hne (i + 1) (by omega), hqa]
  · rw [hval, get_many hinv (by rw [hpl]; exact hn) ((sinceClear_length_le ops).trans_lt hops) (by simp; omega),
      hinv.rep.ht _ (by rw [hpl]; omega)]
  · obtain ⟨s', hs', hdes⟩ := C38_desired (ε := ε) hq.den hL ops hops hn.le
    obtain rfl : s = s' := Option.some.inj (hs.symm.trans hs')
    rw [hdes _ (by omega), fractionAt, if_pos (by omega), Nat.mul_div_cancel_left _ (by decide), hqa]

/-- Two quartiles in ascending order. -/
def quartiles : List Ratio := [⟨1, 4⟩, ⟨3, 4⟩]
example : ∃ s : PSquare 64 (E ε), PSquare.run quartiles (finOps demo04) = some s
    ∧ PSquare.value quartiles s ⟨1, 4⟩ = some (X.fin 1) := by
  obtain ⟨s, h, -, h2, -⟩ := C39_ascending_partial (w := 64) (ε := ε) (quantiles := quartiles) (i := 0)
    (by
      intro r hr
      simp only [quartiles, List.mem_cons, List.not_mem_nil, or_false] at hr
      rcases hr with rfl | rfl <;> norm_num [Ratio.val])
    (by simp only [quartiles, List.pairwise_cons]; norm_num [Ratio.val]) (by decide) demo04 (by decide)
    (by simp [demo04, sinceClear]) (by decide)
  refine ⟨s, h, (h2 (by decide)).trans ?_⟩
  have : (quartiles[0]'(by decide)).val = 1 / 4 := by norm_num [quartiles, Ratio.val]
  rw [this, quantile_demo04 (by norm_num) (by norm_num)]; norm_num

/-! ### C40 -/

/-- The arrays of `s` hold positions `p`, heights `h` and desired positions `d`; the positions are strictly
increasing. -/
structure Markers (s : PSquare w (E ε)) (p : Nat → Nat) (h d : Nat → ℝ) : Prop where
  lengths : s.positions.length = s.len ∧ s.heights.length = s.len ∧ s.desired.length = s.len ∧ s.deltas.length = s.len
  entries : ∀ i < s.len, s.positions[i]? = some (BitVec.ofNat w (p i)) ∧ s.heights[i]? = some (X.fin (h i))
    ∧ s.desired[i]? = some (X.fin (d i))
  increasing : ∀ i, i + 1 < s.len → p i < p (i + 1)
  fits : p (s.len - 1) < 2 ^ w

theorem Markers.rep {s : PSquare w (E ε)} {p : Nat → Nat} {h d : Nat → ℝ} (hm : Markers s p h d) :
    Rep s.len s p (fun i => X.fin (h i)) (fun i => X.fin (d i)) (fun i => s.deltas.getD i (X.fin 0)) := by
  obtain ⟨h1, h2, h3, h4⟩ := hm.lengths
  refine ⟨rfl, h1, fun i hi => (hm.entries i hi).1, h2, fun i hi => (hm.entries i hi).2.1, h3,
    fun i hi => (hm.entries i hi).2.2, h4, fun i hi => ?_⟩
  have : i < s.deltas.length := by rw [h4]; exact hi
  rw [List.getElem?_eq_getElem this, List.getD_eq_getElem _ _ this]

theorem Markers.mono {s : PSquare w (E ε)} {p : Nat → Nat} {h d : Nat → ℝ} (hm : Markers s p h d) :
    Mono w s.len p := ⟨hm.increasing, hm.fits⟩

/-- C40, upwards: the linear fallback is the one of the published algorithm. -/
theorem C40_up_partial {s : PSquare w (E ε)} {p : Nat → Nat} {h d : Nat → ℝ} (hm : Markers s p h d) {i : Nat}
    (h1 : 1 ≤ i) (h2 : i + 1 < s.len) :
    s.linear i 1 = some (X.fin (Spec.psquareLinearUp (fun j => p j) h i)) := by
  have m := hm.increasing i h2
  rw [linear_eq hm.rep hm.mono h1 h2 (Or.inl rfl), lin_up_exact (by omega), Spec.psquareLinearUp, Nat.cast_sub m.le]

/-- C40, downwards: what the code computes instead.  The difference of the positions wraps, so the height
moves up (by a tiny amount) instead of down. -/
theorem C40_down {s : PSquare w (E ε)} {p : Nat → Nat} {h d : Nat → ℝ} (hm : Markers s p h d) {i : Nat}
    (h1 : 1 ≤ i) (h2 : i + 1 < s.len) :
    ∃ v : ℝ, s.linear i (-1) = some (X.fin v) ∧ v = h i + (h i - h (i - 1)) / (2 ^ w - (p i - p (i - 1)))
      ∧ (h (i - 1) < h i → h i < v ∧ Spec.psquareLinearDown (fun j => p j) h i < h i) := by
  have m : p (i - 1) < p i := hm.mono.lt (by omega) (by omega)
  have b : p i < 2 ^ w := hm.mono.bound (by omega)
  have e : ((2 ^ w - (p i - p (i - 1)) : Nat) : ℝ) = 2 ^ w - ((p i : ℝ) - p (i - 1)) := by
    rw [Nat.cast_sub (by omega), Nat.cast_sub m.le]; push_cast; ring
  have hpos : (0 : ℝ) < 2 ^ w - ((p i : ℝ) - p (i - 1)) := by
    rw [← e]; exact_mod_cast (by omega : 0 < 2 ^ w - (p i - p (i - 1)))
  have m' : ((p (i - 1) : Nat) : ℝ) < p i := by exact_mod_cast m
  refine ⟨_, ?_, rfl, fun hlt => ⟨?_, ?_⟩⟩
  · rw [linear_eq hm.rep hm.mono h1 h2 (Or.inr rfl), lin_down_exact (by omega), e]
  · have := div_pos (sub_pos.2 hlt) hpos
    linarith
  · unfold Spec.psquareLinearDown
    have := div_pos_of_neg_of_neg (sub_neg.2 hlt) (sub_neg.2 m')
    linarith

/-- C40: one adjustment of a marker follows the published formulas in all cases but one: if the desired
position is above, the marker moves up, with the parabolic prediction if that lies strictly
between the neighbours and the linear one otherwise; if it is below, the marker moves down with the parabolic
prediction; otherwise, or if there is no room, it stays.
Missing for the full statement: the linear prediction downwards, see `C40_down` and `C40_violated`. -/
theorem C40_adjust_partial (hw : 1 < 2 ^ w) {s : PSquare w (E ε)} {p : Nat → Nat} {h d : Nat → ℝ} (hm : Markers s p h d)
    {i : Nat} (h1 : 1 ≤ i) (h2 : i + 1 < s.len) :
    ∃ s', s.adjust i = some s' ∧
      let n : Nat → ℝ := fun j => p j
      let up := Spec.psquareParabolic 1 n h i
      let down := Spec.psquareParabolic (-1) n h i
      if p i < d i ∧ p i + 1 < p (i + 1) then
        Markers s' (Function.update p i (p i + 1))
          (Function.update h i (if h (i - 1) < up ∧ up < h (i + 1) then up else Spec.psquareLinearUp n h i)) d
      else if d i < p i ∧ p (i - 1) + 1 < p i then
        ∃ v, Markers s' (Function.update p i (p i - 1)) (Function.update h i v) d
          ∧ (h (i - 1) < down → down < h (i + 1) → v = down)
      else s' = s := by
  have m1 : p (i - 1) < p i := hm.mono.lt (by omega) (by omega)
  have m2 : p i < p (i + 1) := hm.mono.lt (by omega) (by omega)
  have c1 : ((p (i + 1) - p i : Nat) : ℝ) = (p (i + 1) : ℝ) - p i := Nat.cast_sub m2.le
  have c2 : ((p i - p (i - 1) : Nat) : ℝ) = (p i : ℝ) - p (i - 1) := Nat.cast_sub m1.le
  have hdev : (X.fin (d i) - ofNat (p i) : E ε) = X.fin (d i - p i) := by rw [Exact.ofNat_eq, Exact.sub_fin]
  have hsg : PSquare.signOf (X.fin (d i) - ofNat (p i) : E ε) = if (p i : ℝ) < d i then 1 else if d i < p i then -1 else 0 := by
    rw [hdev, PSquare.signOf, Exact.ofNat_eq, Exact.lt_fin, Exact.lt_fin]
    simp only [Nat.cast_zero, sub_pos, sub_neg, decide_eq_true_eq]
  have hpara : ∀ sign : Int, sign = 1 ∨ sign = -1 →
      (para sign (p (i + 1) - p i) (p i - p (i - 1)) (X.fin (h (i - 1))) (X.fin (h i)) (X.fin (h (i + 1))) : E ε)
        = X.fin (Spec.psquareParabolic sign (fun j => p j) h i) := by
    intro sign hs
    rw [para_exact (by omega) (by omega) hs, paraR, Spec.psquareParabolic, c1, c2]
    congr 1
    rw [mul_div_assoc, mul_div_assoc, sub_add_sub_cancel]
  have hback : ∀ (s' : PSquare w (E ε)) (p' : Nat → Nat) (v : ℝ), s'.count = s.count → s'.qs = s.qs → Mono w s.len p' →
      Rep s.len s' p' (Function.update (fun i => X.fin (h i)) i (X.fin v)) (fun i => X.fin (d i))
        (fun i => s.deltas.getD i (X.fin 0)) → Markers s' p' (Function.update h i v) d := by
    intro s' p' v _ _ hm' hr
    have hl := hr.len_eq
    refine ⟨⟨by rw [hl]; exact hr.pos_len, by rw [hl]; exact hr.ht_len, by rw [hl]; exact hr.des_len, by rw [hl]; exact hr.del_len⟩,
      ?_, by rw [hl]; exact hm'.step, by rw [hl]; exact hm'.last⟩
    intro j hj
    rw [hl] at hj
    refine ⟨hr.pos j hj, ?_, hr.des j hj⟩
    rw [hr.ht j hj]
    by_cases e : j = i
    · subst e; simp
    · rw [Function.update_of_ne e, Function.update_of_ne e]
  rcases adjust_eq hm.rep hm.mono h1 h2 hw with ⟨sign, s', hmv, ha, hcnt, hqs, hr⟩ | ⟨hno, ha⟩
  · refine ⟨s', ha, ?_⟩
    have hmono := hm.mono.move h1 h2 hmv
    obtain ⟨hs1, hs2⟩ := hmv
    rw [hsg] at hs1
    rcases hs2 with ⟨rfl, hgap⟩ | ⟨rfl, hgap⟩
    · have hlt : (p i : ℝ) < d i := by
        by_contra hc; rw [if_neg hc] at hs1; split_ifs at hs1; omega
      dsimp only
      rw [if_pos ⟨hlt, by omega⟩]
      have e : ((p i : Int) + 1).toNat = p i + 1 := by omega
      rw [e] at hr hmono
      refine hback s' _ _ hcnt hqs hmono ?_
      convert hr using 2
      unfold predictAt predict
      rw [hpara 1 (Or.inl rfl), Exact.lt_fin, Exact.lt_fin, lin_up_exact (by omega), c1]
      simp only [Bool.and_eq_true, decide_eq_true_eq, Int.cast_one]
      split_ifs <;> rfl
    · have hlt : d i < (p i : ℝ) := by
        by_contra hc; rw [if_neg hc] at hs1; split_ifs at hs1
      dsimp only
      rw [if_neg (fun hc => absurd hc.1 (not_lt.2 hlt.le)), if_pos ⟨hlt, by omega⟩]
      have e : ((p i : Int) + -1).toNat = p i - 1 := by omega
      rw [e] at hr hmono
      have hv : ∃ v, (predictAt w p (fun i => X.fin (h i)) i (-1) : E ε) = X.fin v
          ∧ (h (i - 1) < Spec.psquareParabolic (-1) (fun j => p j) h i →
            Spec.psquareParabolic (-1) (fun j => p j) h i < h (i + 1) → v = Spec.psquareParabolic (-1) (fun j => p j) h i) := by
        have hb : p i < 2 ^ w := hm.mono.bound (by omega)
        unfold predictAt predict
        rw [hpara (-1) (Or.inr rfl), Exact.lt_fin, Exact.lt_fin, lin_down_exact (by omega)]
        simp only [Bool.and_eq_true, decide_eq_true_eq, Int.cast_neg, Int.cast_one]
        split_ifs with hc
        · exact ⟨_, rfl, fun _ _ => rfl⟩
        · exact ⟨_, rfl, fun a b => absurd ⟨a, b⟩ hc⟩
      obtain ⟨v, hv1, hv2⟩ := hv
      refine ⟨v, hback s' _ _ hcnt hqs hmono ?_, hv2⟩
      rw [← hv1]; exact hr
  · refine ⟨s, ha, ?_⟩
    dsimp only
    have n1 := hno 1
    have n2 := hno (-1)
    unfold Moves at n1 n2
    rw [hsg] at n1 n2
    rw [if_neg, if_neg]
    · rintro ⟨a, b⟩
      exact n2 ⟨by rw [if_neg (not_lt.2 a.le), if_pos a], Or.inr ⟨rfl, by omega⟩⟩
    · rintro ⟨a, b⟩
      exact n1 ⟨by rw [if_pos a], Or.inl ⟨rfl, by omega⟩⟩

/-- C40: a reachable violation.  The median estimator after 0, 1, 10, 20, 30; pushing -1 moves marker 1 down,
the parabolic prediction is -8/3 and rejected; the published linear prediction is 0, but the height becomes
`1 + 2 / (2^64 - 2)`. -/
def demoDown : List (Op ℝ) := [.push 0, .push 1, .push 10, .push 20, .push 30]

theorem C40_reachable (ε : ℝ) :
    ∃ s s' : PSquare 64 (E ε), PSquare.run [median] (finOps demoDown) = some s ∧ s.push (X.fin (-1)) = some s'
      ∧ s.heights = [X.fin 0, X.fin 1, X.fin 10, X.fin 20, X.fin 30]
      ∧ s'.positions[1]? = some 2 ∧ s'.heights[1]? = some (X.fin (1 + 2 / (2 ^ 64 - 2)))
      ∧ (let n : Nat → ℝ := fun j => [1, 3, 4, 5, 6].getD j 0
         let q : Nat → ℝ := fun j => [-1, 1, 10, 20, 30].getD j 0
         Spec.psquareParabolic (-1) n q 1 = -8 / 3 ∧ Spec.psquareLinearDown n q 1 = 0) := by
  obtain ⟨s, p, r, hs, hi⟩ := run_exact (w := 64) (ε := ε) median_ok.den (by decide) demoDown (by decide)
  have hsort : Spec.sorted (sinceClear demoDown) = [0, 1, 10, 20, 30] :=
    Spec.sorted_unique (by exact List.Perm.refl _) (by norm_num)
  have hht : s.heights = [X.fin 0, X.fin 1, X.fin 10, X.fin 20, X.fin 30] := by
    rw [hi.few (by decide), hsort]; rfl
  have hL : paramLength ([median].map Ratio.val).length = 5 := rfl
  have hr := hi.rep
  have hlast := hi.last
  have hmono := hi.mono
  have hxs : (sinceClear demoDown).length = 5 := rfl
  rw [hL] at hr hmono
  rw [hL, hxs] at hlast
  have hst := hmono.step
  have q0 := hi.first
  have q1 : p 0 < p 1 := hst 0 (by omega)
  have q2 : p 1 < p 2 := hst 1 (by omega)
  have q3 : p 2 < p 3 := hst 2 (by omega)
  have q4 : p 3 < p 4 := hst 3 (by omega)
  have hlast' : p 4 = 5 := hlast
  have r0 : r 0 = 0 := by have := hr.ht 0 (by omega); rw [hht] at this; simpa using this.symm
  have r1 : r 1 = 1 := by have := hr.ht 1 (by omega); rw [hht] at this; simpa using this.symm
  have r2 : r 2 = 10 := by have := hr.ht 2 (by omega); rw [hht] at this; simpa using this.symm
  obtain ⟨k, h1, hs1, hloc, -, hr1, hcase⟩ := locate_eq hr (by omega) (X.fin (-1))
  have hkey : k = 1 ∧ h1 = Function.update (fun i => X.fin (r i)) 0 (X.fin (-1)) := by
    have hlt : lt (X.fin (-1) : E ε) (X.fin (r 0)) = true := by rw [Exact.lt_fin, r0]; norm_num
    rcases hcase with ⟨-, a, b⟩ | ⟨a, -⟩ | ⟨a, -⟩
    · exact ⟨a, b⟩
    · rw [hlt] at a; cases a
    · rw [hlt] at a; cases a
  obtain ⟨rfl, rfl⟩ := hkey
  have hr2 := bump_rep hr1 1
  have hm2 : Mono 64 5 (bumped 1 p) := hmono.bump 1 (by show p 4 + 1 < _; omega)
  have b0 : bumped 1 p 0 = 1 := q0
  have b1 : bumped 1 p 1 = 3 := by show p 1 + 1 = 3; omega
  have b2 : bumped 1 p 2 = 4 := by show p 2 + 1 = 4; omega
  have hdes : (X.fin (1 + (max (((sinceClear demoDown).length : Nat) : ℝ) ((5 : Nat) : ℝ) - 1) * markerR ([median].map Ratio.val) 1)
      + X.fin (markerR ([median].map Ratio.val) 1) : E ε) = X.fin (9 / 4) := by
    rw [hxs, Exact.add_fin]
    norm_num [markerR, median, Ratio.val]
  have hmv : Moves (bumped 1 p) (fun i => (X.fin (1 + (max (((sinceClear demoDown).length : Nat) : ℝ) ((5 : Nat) : ℝ) - 1) * markerR ([median].map Ratio.val) i)
      + X.fin (markerR ([median].map Ratio.val) i) : E ε)) 1 (-1) := by
    unfold Moves
    dsimp only
    rw [hdes, b1, Exact.ofNat_eq, Exact.sub_fin, PSquare.signOf, Exact.ofNat_eq, Exact.lt_fin, Exact.lt_fin]
    refine ⟨by norm_num, Or.inr ⟨rfl, ?_⟩⟩
    show 1 < 3 - bumped 1 p 0
    rw [b0]; omega
  rcases adjust_eq hr2 hm2 (i := 1) (by omega) (by omega) (by decide) with ⟨sign, s3, hmv3, ha3, hc3, hq3, hr3⟩ | ⟨hno, -⟩
  swap
  · exact absurd hmv (hno (-1))
  obtain rfl : sign = -1 := hmv3.1.symm.trans hmv.1
  have hm3 := hm2.move (by omega) (by omega) hmv3
  have hpred : (predictAt 64 (bumped 1 p) (Function.update (fun i => X.fin (r i)) 0 (X.fin (-1))) 1 (-1) : E ε)
      = X.fin (1 + 2 / (2 ^ 64 - 2)) := by
    unfold predictAt
    rw [b1, show bumped 1 p (1 + 1) = 4 from b2, show bumped 1 p (1 - 1) = 1 from b0]
    have u0 : (Function.update (fun i => X.fin (r i)) 0 (X.fin (-1)) (1 - 1) : E ε) = X.fin (-1) := rfl
    have u1 : (Function.update (fun i => X.fin (r i)) 0 (X.fin (-1)) 1 : E ε) = X.fin 1 := by
      rw [Function.update_of_ne (by omega), r1]
    have u2 : (Function.update (fun i => X.fin (r i)) 0 (X.fin (-1)) (1 + 1) : E ε) = X.fin 10 := by
      rw [Function.update_of_ne (by omega), show r (1 + 1) = 10 from r2]
    rw [u0, u1, u2]
    unfold predict
    rw [para_exact (by omega) (by omega) (Or.inr rfl), lin_down_exact (by norm_num), Exact.lt_fin, Exact.lt_fin]
    norm_num [paraR]
  rw [hpred] at hr3
  have stay : ∀ (s3 : PSquare 64 (E ε)) (p3 : Nat → Nat) (h3 d3 δ3 : Nat → E ε), Rep 5 s3 p3 h3 d3 δ3 → Mono 64 5 p3 →
      p3 1 = 2 → h3 1 = X.fin (1 + 2 / (2 ^ 64 - 2)) → ∀ i, 2 ≤ i → i ≤ 3 →
      ∃ s4 p4 h4, s3.adjust i = some s4 ∧ Rep 5 s4 p4 h4 d3 δ3 ∧ Mono 64 5 p4
        ∧ p4 1 = 2 ∧ h4 1 = X.fin (1 + 2 / (2 ^ 64 - 2)) := by
    intro s3 p3 h3 d3 δ3 hr hm e1 e2 i hi1 hi2
    rcases adjust_eq hr hm (i := i) (by omega) (by omega) (by decide) with ⟨sign, s4, a, b, -, -, c⟩ | ⟨-, b⟩
    · exact ⟨s4, _, _, b, c, hm.move (by omega) (by omega) a, by rw [Function.update_of_ne (by omega), e1],
        by rw [Function.update_of_ne (by omega), e2]⟩
    · exact ⟨s3, p3, h3, b, hr, hm, e1, e2⟩
  obtain ⟨s4, p4, h4, ha4, hr4, hm4, e4, f4⟩ := stay s3 _ _ _ _ hr3 hm3 (by rw [Function.update_self, b1]; rfl)
    (Function.update_self _ _ _) 2 (by omega) (by omega)
  obtain ⟨s5, p5, h5, ha5, hr5, hm5, e5, f5⟩ := stay s4 _ _ _ _ hr4 hm4 e4 f4 3 (by omega) (by omega)
  have hlen : s.len = 5 := hr.len_eq
  have hc : s.count = 5 := hi.count
  refine ⟨s, { s5 with count := s5.count + 1 }, hs, ?_, hht, ?_, ?_, ?_⟩
  · unfold PSquare.push
    rw [hlen, if_pos (by rw [hc]; decide), hloc]
    have : List.range' 1 (5 - 2) = [1, 2, 3] := rfl
    rw [this]
    simp only [Option.bind_eq_bind, Option.bind_some, List.foldlM_cons, List.foldlM_nil, Option.pure_def]
    rw [ha3, Option.bind_some, ha4, Option.bind_some, ha5]
    rfl
  · have := hr5.pos 1 (by omega)
    rw [e5] at this
    exact this
  · have := hr5.ht 1 (by omega)
    rw [f5] at this
    exact this
  · norm_num [Spec.psquareParabolic, Spec.psquareLinearDown]

/-- A state in which marker 2 is to move up and the parabolic prediction is rejected. -/
theorem fallback_state (ε : ℝ) : ∃ s : PSquare 64 (E ε), s.len = 5 ∧ Markers s (fun j => [1, 2, 3, 7, 9].getD j 0) (fun j => [0, 1, 2, 2, 9].getD j 0)
    (fun j => [1, 3, 5, 7, 9].getD j 0)
    ∧ s.linear 2 1 = some (X.fin 2) ∧ ∃ v > 2, s.linear 2 (-1) = some (X.fin v) := by
  let s : PSquare 64 (E ε) :=
    { qs := [X.fin (1 / 2)], count := 9, positions := [1, 2, 3, 7, 9]
      heights := [X.fin 0, X.fin 1, X.fin 2, X.fin 2, X.fin 9]
      desired := [X.fin 1, X.fin 3, X.fin 5, X.fin 7, X.fin 9]
      deltas := [X.fin 0, X.fin (1 / 4), X.fin (1 / 2), X.fin (3 / 4), X.fin 1] }
  have hl : s.len = 5 := rfl
  have hm : Markers s (fun j => [1, 2, 3, 7, 9].getD j 0) (fun j => [0, 1, 2, 2, 9].getD j 0)
      (fun j => [1, 3, 5, 7, 9].getD j 0) := by
    refine ⟨⟨rfl, rfl, rfl, rfl⟩, ?_, ?_, ?_⟩
    · intro i hi
      rw [hl] at hi
      interval_cases i <;> exact ⟨rfl, rfl, rfl⟩
    · intro i hi
      rw [hl] at hi
      have : i < 4 := by omega
      interval_cases i <;> decide
    · rw [hl]; decide
  refine ⟨s, hl, hm, ?_, ?_⟩
  · rw [C40_up_partial hm (by omega) (by rw [hl]; omega)]
    norm_num [Spec.psquareLinearUp]
  · obtain ⟨v, hv, -, hlt⟩ := C40_down hm (i := 2) (by omega) (by rw [hl]; omega)
    exact ⟨v, (hlt (by norm_num)).1, hv⟩

/-- C40: in every state the linear fallback is the one of the published algorithm, in both directions. -/
def C40_Statement (w : Nat) (ε : ℝ) : Prop :=
  ∀ (s : PSquare w (E ε)) (p : Nat → Nat) (h d : Nat → ℝ), Markers s p h d → ∀ i, 1 ≤ i → i + 1 < s.len →
    s.linear i 1 = some (X.fin (Spec.psquareLinearUp (fun j => p j) h i))
    ∧ s.linear i (-1) = some (X.fin (Spec.psquareLinearDown (fun j => p j) h i))

/-- C40 is violated; `C40_reachable` is a violation in a history from a new object. -/
theorem C40_violated (ε : ℝ) : ¬ C40_Statement 64 ε := by
  intro hc
  obtain ⟨s, hl, hm, -, v, hv, h2⟩ := fallback_state ε
  have h3 := (hc s _ _ _ hm 2 (by omega) (by omega)).2
  rw [h2, Option.some.injEq, X.fin_inj] at h3
  have : Spec.psquareLinearDown (fun j => (([1, 2, 3, 7, 9] : List Nat).getD j 0 : ℝ)) (fun j => [0, 1, 2, 2, 9].getD j 0) 2 = 1 := by
    norm_num [Spec.psquareLinearDown]
  rw [this] at h3
  linarith

/-! ### C41 -/

section any
variable {α : Type} [Scalar α]

theorem mapM_toSize {data : List (SizeT w × α)} (h : ∀ d ∈ data, PSquare.toSize (ofSize d.1 : α) = some d.1) :
    (data.map fun d => (ofSize d.1 : α)).mapM PSquare.toSize = some (data.map Prod.fst) := by
  induction data with
  | nil => rfl
  | cons d data ih =>
    rw [List.map_cons, List.mapM_cons, h d (by simp), ih fun x hx => h x (by simp [hx])]
    rfl

/-- C41: parameters round trip, any arithmetic in which the positions are representable. -/
theorem C41_round_trip (s : PSquare w α) (data : List (SizeT w × α)) (h : data.length = s.len)
    (hp : ∀ d ∈ data, PSquare.toSize (ofSize d.1 : α) = some d.1) :
    ∃ s', s.setParameters data = some s' ∧ s'.parameters = data ∧ s'.size = BitVec.ofNat w s.len := by
  have hg : (guard (s.len ≤ data.length) : Option Unit) = some () := if_pos h.ge
  refine ⟨_, by rw [PSquare.setParameters, hg, ← h, List.take_length]; dsimp only; rw [mapM_toSize hp]; rfl, ?_, ?_⟩
  · exact (List.zip_of_prod rfl rfl).symm
  · exact congrArg (BitVec.ofNat w) h

/-- C41: writing back the parameters of an estimator keeps its positions and heights. -/
theorem C41_write_back (s : PSquare w α) (h1 : s.positions.length = s.len) (h2 : s.heights.length = s.len)
    (hp : ∀ d ∈ s.positions, PSquare.toSize (ofSize d : α) = some d) :
    ∃ s', s.setParameters s.parameters = some s' ∧ s'.positions = s.positions ∧ s'.heights = s.heights := by
  have hl : s.parameters.length = s.len := by rw [PSquare.parameters, List.length_zip, h1, h2, min_self]
  have hg : (guard (s.len ≤ s.parameters.length) : Option Unit) = some () := if_pos hl.ge
  have hp' : ∀ d ∈ s.parameters, PSquare.toSize (ofSize d.1 : α) = some d.1 :=
    fun d hd => hp _ (List.of_mem_zip (show (d.1, d.2) ∈ s.positions.zip s.heights from hd)).1
  refine ⟨_, by rw [PSquare.setParameters, hg, ← hl, List.take_length]; dsimp only; rw [mapM_toSize hp']; rfl, ?_, ?_⟩
  · show s.parameters.map Prod.fst = _
    rw [PSquare.parameters, List.map_fst_zip (by rw [h1, h2])]
  · show s.parameters.map Prod.snd = _
    rw [PSquare.parameters, List.map_snd_zip (by rw [h1, h2])]

/-- C41: clear, any arithmetic: after `clear()` the estimator is in the state of a new one. -/
theorem C41_clear {quantiles : List Ratio} (hL : 2 * quantiles.length + 3 < 2 ^ w) (pre post : List (Op α))
    (hlen : (pre ++ .clear :: post).length < 2 ^ w) :
    (PSquare.run quantiles (pre ++ .clear :: post) : Option (PSquare w α)) = PSquare.run quantiles post := by
  rw [run_eq_pushes quantiles hL _ hlen, run_eq_pushes quantiles hL _ (by simp at hlen; omega), sinceClear_clear_append]

example (a b c : α) : (PSquare.run [median] [.push a, .push b, .clear, .push c] : Option (PSquare 64 α))
    = PSquare.run [median] [.push c] :=
  C41_clear (by decide) [.push a, .push b] [.push c] (by simp)

/-! ### C42 -/

/-- C42, push, any arithmetic and any values including NaN: no access out of bounds, and no assertion fails.
`ops` may contain calls of clear. -/
theorem C42_push {quantiles : List Ratio} (hL : 2 * quantiles.length + 3 < 2 ^ w) (ops : List (Op α))
    (hlen : ops.length < 2 ^ w) :
    ∃ s : PSquare w α, PSquare.run quantiles ops = some s ∧ s.size = BitVec.ofNat w (sinceClear ops).length
      ∧ s.positions.length = 2 * quantiles.length + 3 ∧ s.heights.length = 2 * quantiles.length + 3
      ∧ s.desired.length = 2 * quantiles.length + 3 := by
  obtain ⟨s, p, h, d, hs, hi⟩ := pushes_inv (w := w) (quantiles.map (Ratio.toScalar : Ratio → α)) (by simpa [paramLength] using hL)
    (sinceClear ops) ((sinceClear_length_le ops).trans_lt hlen)
  have hpl : paramLength (quantiles.map (Ratio.toScalar : Ratio → α)).length = 2 * quantiles.length + 3 := by
    simp [paramLength]
  exact ⟨s, by rw [run_eq_pushes quantiles hL _ hlen]; exact hs, hi.count, by rw [hi.rep.pos_len, hpl],
    by rw [hi.rep.ht_len, hpl], by rw [hi.rep.des_len, hpl]⟩

/-- C42, get, any arithmetic: no access out of bounds for the minimum and the maximum, for every index when
there are at most one or more than `2 q + 3` values, and otherwise whenever the two indices computed from the
rank are inside the array. -/
theorem C42_get {quantiles : List Ratio} (hL : 2 * quantiles.length + 3 < 2 ^ w) (ops : List (Op α))
    (hlen : ops.length < 2 ^ w) {i : Nat} (hi : i ≤ quantiles.length + 1)
    (hrank : 1 ≤ i → i ≤ quantiles.length → 2 ≤ (sinceClear ops).length →
      (sinceClear ops).length ≤ 2 * quantiles.length + 3 → ∃ r, quantiles[i - 1]? = some r
        ∧ ∃ j k, toIndex (ofNat ((sinceClear ops).length - 1) * r.toScalar : α) = some j
          ∧ toIndex (ofNat ((sinceClear ops).length - 1) * r.toScalar + ofNat 1 : α) = some k
          ∧ j < 2 * quantiles.length + 3 ∧ k < 2 * quantiles.length + 3) :
    ∃ (s : PSquare w α) (v : α), PSquare.run quantiles ops = some s ∧ s.get i = some v := by
  obtain ⟨s, p, h, d, hs, hinv⟩ := pushes_inv (w := w) (quantiles.map (Ratio.toScalar : Ratio → α)) (by simpa [paramLength] using hL)
    (sinceClear ops) ((sinceClear_length_le ops).trans_lt hlen)
  have hpl : paramLength (quantiles.map (Ratio.toScalar : Ratio → α)).length = 2 * quantiles.length + 3 := by
    simp [paramLength]
  refine ⟨s, ?_⟩
  rw [run_eq_pushes quantiles hL _ hlen, hs]
  have hq : s.q = quantiles.length := by rw [PSquare.q, hinv.qs_eq, List.length_map]
  have hn : (sinceClear ops).length < 2 ^ w := (sinceClear_length_le ops).trans_lt hlen
  have ht : ∀ j, j < 2 * quantiles.length + 3 → s.heights[j]? = some (h j) := fun j hj => hinv.rep.ht j (by rw [hpl]; exact hj)
  suffices ∃ v, s.get i = some v by obtain ⟨v, hv⟩ := this; exact ⟨v, rfl, hv⟩
  unfold PSquare.get
  have hone : (1 : SizeT w) = BitVec.ofNat w 1 := rfl
  have hzero : (0 : SizeT w) = BitVec.ofNat w 0 := rfl
  rw [hq, if_neg (by omega), hinv.rep.len_eq, hpl, hinv.count]
  by_cases c1 : 2 * quantiles.length + 3 < (sinceClear ops).length
  · rw [if_pos (by rw [gt_iff hn (by omega)]; exact c1), ht _ (by omega)]
    exact ⟨_, rfl⟩
  rw [if_neg (by rw [gt_iff hn (by omega)]; exact c1)]
  by_cases c2 : 1 < (sinceClear ops).length
  · rw [if_pos (by rw [hone, gt_iff hn (by omega)]; exact c2), ofNat_sub_one (by omega), toNat_ofNat_lt (by omega)]
    by_cases c3 : i = 0
    · rw [if_pos c3, ht _ (by omega)]; exact ⟨_, rfl⟩
    rw [if_neg c3]
    by_cases c4 : i = 1 + quantiles.length
    · rw [if_pos c4, ht _ (by omega)]; exact ⟨_, rfl⟩
    rw [if_neg c4]
    obtain ⟨r, hr, j, k, h1, h2, h3, h4⟩ := hrank (by omega) (by omega) (by omega) (by omega)
    rw [hinv.qs_eq, List.getElem?_map, hr]
    simp only [Option.map_some, Option.bind_eq_bind, Option.bind_some, Option.pure_def]
    rw [ofSize_ofNat (by omega), h1, h2]
    simp only [Option.bind_some]
    rw [ht j h3, ht k h4]
    exact ⟨_, rfl⟩
  · rw [if_neg (by rw [hone, gt_iff hn (by omega)]; exact c2)]
    by_cases c3 : 0 < (sinceClear ops).length
    · rw [if_pos (by rw [hzero, gt_iff hn (by omega)]; exact c3), ofNat_sub_one (by omega), toNat_ofNat_lt (by omega),
        ht _ (by omega)]
      exact ⟨_, rfl⟩
    · rw [if_neg (by rw [hzero, gt_iff hn (by omega)]; exact c3)]
      exact ⟨_, rfl⟩

end any

/-- Every position is representable in exact arithmetic. -/
theorem toSize_exact (p : SizeT w) : PSquare.toSize (ofSize p : E ε) = some p := by
  rw [ofSize, Exact.ofNat_eq, PSquare.toSize, X.toIndex_fin, if_pos (by have := (Nat.cast_nonneg p.toNat : (0 : ℝ) ≤ _); linarith)]
  have hg : (guard (p.toNat < 2 ^ w) : Option Unit) = some () := if_pos p.isLt
  simp only [Option.bind_eq_bind, Option.bind_some, Nat.floor_natCast, Option.pure_def]
  rw [hg, BitVec.ofNat_toNat, BitVec.setWidth_eq]
  rfl

/-- C41: parameters round trip, exact arithmetic. -/
theorem C41_round_trip_exact (s : PSquare w (E ε)) (data : List (SizeT w × E ε)) (h : data.length = s.len) :
    ∃ s', s.setParameters data = some s' ∧ s'.parameters = data :=
  let ⟨s', h1, h2, _⟩ := C41_round_trip s data h fun d _ => toSize_exact d.1
  ⟨s', h1, h2⟩

example (a b c d e : E ε) : ∃ s', (PSquare.init [median] : PSquare 64 (E ε)).setParameters
      [(1, a), (3, b), (4, c), (7, d), (9, e)] = some s' ∧ s'.parameters = [(1, a), (3, b), (4, c), (7, d), (9, e)] :=
  C41_round_trip_exact _ _ rfl

/-- C42, get, exact arithmetic: no access out of bounds for quantiles in [0, 1). -/
theorem C42_get_exact {quantiles : List Ratio} (hq : Quantiles quantiles) (hL : 2 * quantiles.length + 3 < 2 ^ w)
    (ops : List (Op (E ε))) (hlen : ops.length < 2 ^ w) {i : Nat} (hi : i ≤ quantiles.length + 1) :
    ∃ (s : PSquare w (E ε)) (v : E ε), PSquare.run quantiles ops = some s ∧ s.get i = some v := by
  refine C42_get hL ops hlen hi ?_
  intro h1 h2 h3 h4
  have hil : i - 1 < quantiles.length := by omega
  refine ⟨quantiles[i - 1], List.getElem?_eq_getElem hil, ?_⟩
  obtain ⟨hd, hv0, hv1⟩ := hq _ (List.getElem_mem hil)
  rw [Ratio.toScalar_exact hd, Exact.ofNat_eq, Exact.mul_fin, Exact.ofNat_eq, Exact.add_fin, X.toIndex_fin, X.toIndex_fin]
  generalize quantiles[i - 1].val = q at *
  have hn1 : (0 : ℝ) < (((sinceClear ops).length - 1 : Nat) : ℝ) := by
    exact_mod_cast (by omega : 0 < (sinceClear ops).length - 1)
  have hR0 : 0 ≤ (((sinceClear ops).length - 1 : Nat) : ℝ) * q := mul_nonneg hn1.le hv0
  have hlt : (((sinceClear ops).length - 1 : Nat) : ℝ) * q < (((sinceClear ops).length - 1 : Nat) : ℝ) := by
    have := mul_lt_mul_of_pos_left hv1 hn1; rwa [mul_one] at this
  have hfl := (Nat.floor_lt hR0).2 hlt
  have hfl2 : ⌊(((sinceClear ops).length - 1 : Nat) : ℝ) * q + ((1 : Nat) : ℝ)⌋₊
      = ⌊(((sinceClear ops).length - 1 : Nat) : ℝ) * q⌋₊ + 1 := by push_cast; exact Nat.floor_add_one hR0
  refine ⟨_, _, if_pos (by linarith), if_pos (by push_cast; linarith), by omega, by omega⟩

/-- NaN, infinities and numbers in any order are harmless. -/
example : ∃ (s : PSquare 64 (E ε)) (v : E ε), PSquare.run [median]
    [.push X.nan, .push (X.fin 1), .push X.pinf, .push (X.fin 0), .push X.nan, .push (X.fin 2), .push X.nan] = some s
      ∧ s.get 1 = some v :=
  C42_get_exact median_ok (by decide) _ (by simp) (by decide)
example (a b c d e f : E ε) : ∃ s : PSquare 64 (E ε), PSquare.run [median]
      [.push a, .push b, .push c, .push d, .push e, .push f] = some s ∧ s.size = 6 := by
  obtain ⟨s, h1, h2, -⟩ := C42_push (w := 64) (quantiles := [median]) (by decide)
    [.push a, .push b, .push c, .push d, .push e, .push f] (by simp)
  exact ⟨s, h1, h2⟩

/-- The restriction to quantiles below 1 is necessary: with the quantile 1, `get<1>()` of five values reads
the sixth element of an array of five. -/
theorem C42_quantile_one (a b c d e : ℝ) :
    ∃ s : PSquare 64 (E ε), PSquare.run [⟨1, 1⟩] (finOps [.push a, .push b, .push c, .push d, .push e]) = some s
      ∧ s.heights.length = 5 ∧ s.get 1 = none := by
  have hd : ∀ r ∈ [(⟨1, 1⟩ : Ratio)], 0 < r.den := by intro r hr; rw [List.mem_singleton.1 hr]; decide
  obtain ⟨s, p, r, hs, hi⟩ := run_exact (w := 64) (ε := ε) hd (by decide) [.push a, .push b, .push c, .push d, .push e]
    (by simp)
  have hl : s.heights.length = 5 := hi.rep.ht_len
  refine ⟨s, hs, hl, ?_⟩
  have hc : s.count = 5 := hi.count
  have hqs : s.qs = [X.fin 1] := by
    rw [hi.qs_eq]; simp [Ratio.val]
  have hlen : s.len = 5 := hi.rep.len_eq
  unfold PSquare.get
  rw [PSquare.q, hlen, hc, hqs]
  have f4 : ⌊(4 : ℝ)⌋₊ = 4 := Nat.floor_natCast (R := ℝ) 4
  have f5 : ⌊(4 : ℝ) + 1⌋₊ = 5 := by rw [show (4 : ℝ) + 1 = ((5 : Nat) : ℝ) by norm_num]; exact Nat.floor_natCast 5
  have hrank : (ofSize (5 - 1 : SizeT 64) * X.fin 1 : E ε) = X.fin 4 := by
    have : (5 - 1 : SizeT 64) = BitVec.ofNat 64 4 := by decide
    rw [this, ofSize_exact (by decide), Exact.mul_fin]; norm_num
  simp only [List.length_singleton]
  rw [if_neg (by decide), if_neg (by decide), if_pos (by decide), if_neg (by decide), if_neg (by decide)]
  have h5 : s.heights[5]? = none := List.getElem?_eq_none (by rw [hl])
  simp only [Option.bind_eq_bind, Nat.sub_self, List.getElem?_cons_zero, Option.bind_some]
  rw [hrank, X.floor_fin, Exact.ofNat_eq, Exact.sub_fin, Exact.add_fin, X.toIndex_fin, X.toIndex_fin,
    if_pos (by norm_num), if_pos (by norm_num), f4]
  have f5' : ⌊(4 : ℝ) + ((1 : Nat) : ℝ)⌋₊ = 5 := by push_cast; exact f5
  rw [f5']
  simp only [Option.bind_some, h5, Option.bind_none]
  cases s.heights[4]? <;> rfl

end Verif.Props
