import Verif.Props.ReservoirLaw
import Verif.Spec
import Mathlib.Data.Finset.Powerset
import Mathlib.Data.Real.Basic
import Mathlib.Algebra.BigOperators.Field
/-
C139: estimating the mean of a stream by the mean of the reservoir sample.
-/
namespace Verif.Props
open Verif.Reservoir Reservoir

variable {w : Nat} {β γ : Type}

/-! ### Elements are not inspected -/

/-- Replace each element of the sample. -/
def mapElems (f : β → γ) (s : Reservoir w β) : Reservoir w γ :=
  ⟨s.sampleSize, s.threshold, s.sampleCount, s.skipCount, s.samples.map f⟩

theorem push_map (f : β → γ) (s : Reservoir w β) (x : β) (d : Draw w) :
    (mapElems f s).push (f x) d = (s.push x d).map fun r => (mapElems f r.1, r.2) := by
  have ha : ∀ i : SizeT w, Reservoir.assign (s.samples.map f) i (f x) = (Reservoir.assign s.samples i x).map (List.map f) := by
    intro i
    unfold Reservoir.assign
    rw [List.length_map]
    split_ifs
    · simp
    · rfl
  unfold Reservoir.push
  show (if s.sampleCount ≥ s.threshold then _ else _) = _
  by_cases h1 : s.sampleCount ≥ s.threshold
  · rw [if_pos h1, if_pos h1]
    show (if s.skipCount = 0 then _ else _) = _
    by_cases h2 : s.skipCount = 0
    · rw [if_pos h2, if_pos h2]
      show Option.map _ (Reservoir.assign (s.samples.map f) (d.uniform (s.sampleSize - 1)) (f x)) = _
      rw [ha]
      show _ = Option.map _ (Option.map _ (Reservoir.assign s.samples (d.uniform (s.sampleSize - 1)) x))
      cases Reservoir.assign s.samples (d.uniform (s.sampleSize - 1)) x <;> rfl
    · rw [if_neg h2, if_neg h2]; rfl
  · rw [if_neg h1, if_neg h1]
    show (if s.sampleCount ≥ s.sampleSize then _ else _) = _
    by_cases h2 : s.sampleCount ≥ s.sampleSize
    · rw [if_pos h2, if_pos h2]
      show (if d.uniform s.sampleCount < s.sampleSize then _ else _) = Option.map _ (if d.uniform s.sampleCount < s.sampleSize then _ else _)
      by_cases h3 : d.uniform s.sampleCount < s.sampleSize
      · rw [if_pos h3, if_pos h3]
        show Option.map _ (Reservoir.assign (s.samples.map f) (d.uniform s.sampleCount) (f x)) = _
        rw [ha]
        cases Reservoir.assign s.samples (d.uniform s.sampleCount) x <;> rfl
      · rw [if_neg h3, if_neg h3]; rfl
    · rw [if_neg h2, if_neg h2]
      simp [mapElems]

/-- The stream of the values `v 0, v 1, ...` with the random numbers `D`. -/
def valueStream {n : Nat} (v : Nat → β) (D : (j : Fin n) → Draw w) : List (β × Draw w) := List.ofFn fun j => (v j.val, D j)

theorem pushes_map (N : Nat) (f : β → γ) (xs : List (β × Draw w)) :
    pushes N (xs.map fun x => (f x.1, x.2)) = (pushes N xs).map (mapElems f) := by
  induction xs using List.reverseRecOn with
  | nil => rfl
  | append_singleton xs x ih =>
    rw [List.map_append, List.map_singleton, pushes_snoc, pushes_snoc, ih]
    cases pushes N xs with
    | none => rfl
    | some s =>
      simp only [Option.map_some, Option.bind_some]
      rw [push_map]
      cases s.push x.1 x.2 <;> rfl

/-- The model's sample consists of the values at the positions `kept`. -/
theorem sample_values {N n : Nat} (hN : 1 ≤ N) (h4 : 4 * N < 2 ^ w) (h2 : n ≤ 4 * N) (v : Nat → β)
    (D : (j : Fin n) → Fin (j.val + 1) → Draw w) (hD : ∀ j k, Draws (D j k) j k) (ω : Outcomes n) :
    ∃ s : Reservoir w β, Reservoir.run (BitVec.ofNat w N) ((valueStream v fun j => D j (ω j)).map .push) = some s
      ∧ s.data = (kept N n ω).map v := by
  obtain ⟨s, hs, -, hk, -⟩ := pushes_kept hN h4 n h2 (fun j => D j (ω j)) ω (fun j => (hD j _).1) (fun j => (hD j _).2)
  refine ⟨mapElems v s, ?_, ?_⟩
  · have := pushes_map N v (stream fun j => D j (ω j))
    rw [hs, Option.map_some] at this
    rw [← this, pushes]
    congr 1
    simp [stream, valueStream, Function.comp_def]
  · show s.samples.map v = _
    rw [hk]

/-! ### Averages over all outcomes -/

theorem sum_outcomes_subsets {N n : Nat} (hN1 : 1 ≤ N) (hN : N ≤ n) (g : Finset Nat → ℝ) :
    (∑ ω : Outcomes n, g (kept N n ω).toFinset) / Fintype.card (Outcomes n)
      = (∑ S ∈ (Finset.range n).powersetCard N, g S) / n.choose N := by
  have hf : ((n.factorial : ℕ) : ℝ) ≠ 0 := by exact_mod_cast n.factorial_ne_zero
  have hc : ((n.choose N : ℕ) : ℝ) ≠ 0 := by exact_mod_cast (Nat.choose_pos hN).ne'
  have e : ∑ ω : Outcomes n, g (kept N n ω).toFinset
      = ∑ S ∈ (Finset.range n).powersetCard N, (hitsSet N n S : ℝ) * g S := by
    have h1 : ∀ ω : Outcomes n, g (kept N n ω).toFinset
        = ∑ S ∈ (Finset.range n).powersetCard N, if (kept N n ω).toFinset = S then g S else 0 := by
      intro ω
      obtain ⟨a, b, c⟩ := kept_spec N n ω
      rw [Finset.sum_ite_eq, if_pos]
      rw [Finset.mem_powersetCard, List.toFinset_card_of_nodup b, a]
      refine ⟨fun i hi => ?_, by omega⟩
      rw [Finset.mem_range]
      exact c i (List.mem_toFinset.1 hi)
    rw [Finset.sum_congr rfl fun ω _ => h1 ω, Finset.sum_comm]
    refine Finset.sum_congr rfl fun S _ => ?_
    unfold hitsSet
    push_cast
    rw [Finset.sum_mul]
    exact Finset.sum_congr rfl fun ω _ => by split_ifs <;> simp
  rw [e, card_outcomes, div_eq_div_iff hf hc, Finset.sum_mul, Finset.sum_mul]
  refine Finset.sum_congr rfl fun S hS => ?_
  obtain ⟨h1, h2⟩ := Finset.mem_powersetCard.1 hS
  have := hitsSet_eq hN1 hN h1 h2
  have h3 : (n.choose N : ℝ) * hitsSet N n S = n.factorial := by exact_mod_cast this
  rw [← h3]; ring

/-- Number of `N`-element subsets that contain `i` and `j`. -/
theorem card_pair {N n i j : Nat} (hi : i < n) (hj : j < n) (hij : i ≠ j) (hN : 2 ≤ N) :
    (((Finset.range n).powersetCard N).filter fun S => i ∈ S ∧ j ∈ S).card = (n - 2).choose (N - 2) := by
  have h := Finset.card_filter_powersetCard_subset {i, j} (Finset.range n) N
    (by intro k hk; simp at hk; rcases hk with rfl | rfl <;> simpa using by assumption)
    (by rw [Finset.card_pair hij]; exact hN)
  rw [Finset.card_pair hij, Finset.card_range] at h
  rw [← h]
  congr 1
  ext S
  simp [Finset.insert_subset_iff]

theorem card_single {N n i : Nat} (hi : i < n) (hN : 1 ≤ N) :
    (((Finset.range n).powersetCard N).filter fun S => i ∈ S).card = (n - 1).choose (N - 1) := by
  have h := Finset.card_filter_powersetCard_subset {i} (Finset.range n) N
    (by intro k hk; simp at hk; subst hk; simpa using hi) (by simpa using hN)
  rw [Finset.card_singleton, Finset.card_range] at h
  rw [← h]
  congr 1
  ext S
  simp

/-- The sum over all subsets of the sum of the elements. -/
theorem sum_subsets {N n : Nat} (hN : 1 ≤ N) (x : Nat → ℝ) :
    ∑ S ∈ (Finset.range n).powersetCard N, ∑ i ∈ S, x i
      = (n - 1).choose (N - 1) * ∑ i ∈ Finset.range n, x i := by
  have e : ∀ S ∈ (Finset.range n).powersetCard N, ∑ i ∈ S, x i = ∑ i ∈ Finset.range n, if i ∈ S then x i else 0 := by
    intro S hS
    rw [← Finset.sum_filter]
    congr 1
    ext i
    simp only [Finset.mem_filter]
    exact ⟨fun h => ⟨(Finset.mem_powersetCard.1 hS).1 h, h⟩, fun h => h.2⟩
  rw [Finset.sum_congr rfl e, Finset.sum_comm, Finset.mul_sum]
  refine Finset.sum_congr rfl fun i hi => ?_
  rw [← Finset.sum_filter, Finset.sum_const, card_single (Finset.mem_range.1 hi) hN, nsmul_eq_mul]

/-- The sum over all subsets of the square of the sum of the elements, for numbers with sum 0. -/
theorem sum_subsets_sq {N n : Nat} (hN : 1 ≤ N) (hn : 2 ≤ n) (x : Nat → ℝ) (hx : ∑ i ∈ Finset.range n, x i = 0) :
    ∑ S ∈ (Finset.range n).powersetCard N, (∑ i ∈ S, x i) ^ 2
      = (n - 2).choose (N - 1) * ∑ i ∈ Finset.range n, x i ^ 2 := by
  set b : ℝ := if 2 ≤ N then ((n - 2).choose (N - 2) : ℝ) else 0 with hb
  have hpascal : ((n - 1).choose (N - 1) : ℝ) = (n - 2).choose (N - 1) + b := by
    rw [hb]
    split_ifs with h
    · obtain ⟨N, rfl⟩ : ∃ k, N = k + 2 := ⟨N - 2, by omega⟩
      obtain ⟨n, rfl⟩ : ∃ k, n = k + 2 := ⟨n - 2, by omega⟩
      rw [show n + 2 - 1 = n + 1 by omega, show N + 2 - 1 = N + 1 by omega, Nat.choose_succ_succ]
      push_cast
      simp [add_comm]
    · have : N = 1 := by omega
      subst this; simp
  have hc : ∀ i ∈ Finset.range n, ∀ j ∈ Finset.range n,
      ((((Finset.range n).powersetCard N).filter fun S => i ∈ S ∧ j ∈ S).card : ℝ)
        = b + if i = j then ((n - 2).choose (N - 1) : ℝ) else 0 := by
    intro i hi j hj
    by_cases hij : i = j
    · subst hij
      rw [if_pos rfl, add_comm, ← hpascal]
      simp only [and_self]
      rw [card_single (Finset.mem_range.1 hi) hN]
    · rw [if_neg hij, add_zero, hb]
      split_ifs with h
      · rw [card_pair (Finset.mem_range.1 hi) (Finset.mem_range.1 hj) hij h]
      · have : N = 1 := by omega
        subst this
        rw [Nat.cast_eq_zero, Finset.card_eq_zero, Finset.filter_eq_empty_iff]
        intro S hS h'
        obtain ⟨k, hk⟩ := Finset.card_eq_one.1 (Finset.mem_powersetCard.1 hS).2
        rw [hk] at h'
        simp at h'
        exact hij (h'.1.trans h'.2.symm)
  have e : ∀ S ∈ (Finset.range n).powersetCard N, (∑ i ∈ S, x i) ^ 2
      = ∑ i ∈ Finset.range n, ∑ j ∈ Finset.range n, if i ∈ S ∧ j ∈ S then x i * x j else 0 := by
    intro S hS
    have hS' := (Finset.mem_powersetCard.1 hS).1
    have h1 : ∑ i ∈ S, x i = ∑ i ∈ Finset.range n, if i ∈ S then x i else 0 := by
      rw [← Finset.sum_filter]
      congr 1
      ext i
      simp only [Finset.mem_filter]
      exact ⟨fun h => ⟨hS' h, h⟩, fun h => h.2⟩
    rw [sq, h1, Finset.sum_mul_sum]
    refine Finset.sum_congr rfl fun i _ => Finset.sum_congr rfl fun j _ => ?_
    by_cases hi : i ∈ S <;> by_cases hj : j ∈ S <;> simp [hi, hj]
  rw [Finset.sum_congr rfl e, Finset.sum_comm]
  have e2 : ∀ i ∈ Finset.range n, ∑ S ∈ (Finset.range n).powersetCard N, ∑ j ∈ Finset.range n,
      (if i ∈ S ∧ j ∈ S then x i * x j else 0)
      = (n - 2).choose (N - 1) * x i ^ 2 := by
    intro i hi
    rw [Finset.sum_comm]
    have e3 : ∀ j ∈ Finset.range n, ∑ S ∈ (Finset.range n).powersetCard N, (if i ∈ S ∧ j ∈ S then x i * x j else 0)
        = b * x i * x j + if i = j then (n - 2).choose (N - 1) * (x i * x j) else 0 := by
      intro j hj
      rw [← Finset.sum_filter, Finset.sum_const, nsmul_eq_mul, hc i hi j hj]
      split_ifs <;> ring
    rw [Finset.sum_congr rfl e3, Finset.sum_add_distrib, ← Finset.mul_sum, hx, mul_zero, zero_add, Finset.sum_ite_eq,
      if_pos hi]
    ring
  rw [Finset.sum_congr rfl e2, ← Finset.mul_sum]

theorem sum_range_map (v : Nat → ℝ) (n : Nat) : ((List.range n).map v).sum = ∑ i ∈ Finset.range n, v i := by
  induction n with
  | zero => simp
  | succ n ih => rw [List.range_succ, List.map_append, List.sum_append, ih, Finset.sum_range_succ]; simp

/-- C139 up to `4N` elements: with one equally likely outcome for each combination of random numbers, the mean of the sample is
an unbiased estimate of the mean of all elements; its mean squared error is the variance of the elements divided by the
sample size, times `(n - N)/(n - 1)`. -/
theorem C139_estimate_partial {N n : Nat} (hN : 1 ≤ N) (h4 : 4 * N < 2 ^ w) (h1 : N ≤ n) (h2 : n ≤ 4 * N) (v : Nat → ℝ)
    (D : (j : Fin n) → Fin (j.val + 1) → Draw w) (hD : ∀ j k, Draws (D j k) j k) :
    let all := (List.range n).map v
    ∃ est : Outcomes n → ℝ,
      (∀ ω, ∃ s : Reservoir w ℝ, Reservoir.run (BitVec.ofNat w N) ((valueStream v fun j => D j (ω j)).map .push) = some s
        ∧ est ω = Spec.mean s.data)
      ∧ (∑ ω, est ω) / Fintype.card (Outcomes n) = Spec.mean all
      ∧ (2 ≤ n → (∑ ω, (est ω - Spec.mean all) ^ 2) / Fintype.card (Outcomes n)
          = Spec.variance all / N * ((n - N) / (n - 1))) := by
  intro all
  have hn0 : (0 : ℝ) < n := by exact_mod_cast (by omega : 0 < n)
  have hN0 : (0 : ℝ) < N := by exact_mod_cast (by omega : 0 < N)
  have hlen : all.length = n := by simp [all]
  have hsum : all.sum = ∑ i ∈ Finset.range n, v i := sum_range_map v n
  have hest : ∀ ω : Outcomes n, Spec.mean ((kept N n ω).map v) = (∑ i ∈ (kept N n ω).toFinset, v i) / N := by
    intro ω
    obtain ⟨a, b, c⟩ := kept_spec N n ω
    rw [Spec.mean, List.length_map, a, min_eq_right h1, List.sum_toFinset v b]
  have hchoose : (n.choose N : ℝ) ≠ 0 := by exact_mod_cast (Nat.choose_pos h1).ne'
  have hc1 : (n : ℝ) * (n - 1).choose (N - 1) = n.choose N * N := by
    obtain ⟨N, rfl⟩ : ∃ k, N = k + 1 := ⟨N - 1, by omega⟩
    obtain ⟨n, rfl⟩ : ∃ k, n = k + 1 := ⟨n - 1, by omega⟩
    exact_mod_cast Nat.add_one_mul_choose_eq n N
  refine ⟨fun ω => Spec.mean ((kept N n ω).map v), fun ω => ?_, ?_, fun hn => ?_⟩
  · obtain ⟨s, hs, hk⟩ := sample_values hN h4 h2 v D hD ω
    exact ⟨s, hs, by rw [hk]⟩
  · have := sum_outcomes_subsets hN h1 fun S => (∑ i ∈ S, v i) / N
    simp only [hest]
    rw [this, ← Finset.sum_div, sum_subsets hN, Spec.mean, hlen, hsum]
    rw [div_div, div_eq_div_iff (by positivity) (by positivity)]
    linear_combination (∑ i ∈ Finset.range n, v i) * hc1
  · set μ := Spec.mean all with hμ
    have hx : ∑ i ∈ Finset.range n, (v i - μ) = 0 := by
      rw [Finset.sum_sub_distrib, ← hsum, Finset.sum_const, Finset.card_range, nsmul_eq_mul, hμ, Spec.mean, hlen]
      field_simp; ring
    have h := sum_outcomes_subsets hN h1 fun S => ((∑ i ∈ S, v i) / N - μ) ^ 2
    simp only [hest]
    rw [h]
    have e : ∀ S ∈ (Finset.range n).powersetCard N, ((∑ i ∈ S, v i) / N - μ) ^ 2 = (∑ i ∈ S, (v i - μ)) ^ 2 / (N : ℝ) ^ 2 := by
      intro S hS
      rw [Finset.sum_sub_distrib, Finset.sum_const, (Finset.mem_powersetCard.1 hS).2, nsmul_eq_mul]
      field_simp
    rw [Finset.sum_congr rfl e, ← Finset.sum_div, sum_subsets_sq hN hn _ hx]
    have hv : Spec.variance all = (∑ i ∈ Finset.range n, (v i - μ) ^ 2) / n := by
      rw [Spec.variance, Spec.central, hlen, ← hμ]
      congr 1
      rw [List.map_map, ← sum_range_map]
      rfl
    rw [hv]
    set Q := ∑ i ∈ Finset.range n, (v i - μ) ^ 2
    have hn1 : (0 : ℝ) < n - 1 := by
      have : (2 : ℝ) ≤ n := by exact_mod_cast hn
      linarith
    have hc2 : (n : ℝ) * (n - 1) * (n - 2).choose (N - 1) = n.choose N * N * (n - N) := by
      rcases Nat.lt_or_ge N n with hlt | hge
      · obtain ⟨N, rfl⟩ : ∃ k, N = k + 1 := ⟨N - 1, by omega⟩
        obtain ⟨n, rfl⟩ : ∃ k, n = k + 2 := ⟨n - 2, by omega⟩
        have h3 := Nat.add_one_mul_choose_eq (n + 1) N
        have h4 := Nat.choose_mul_succ_eq n N
        have h3' : ((n : ℝ) + 2) * (n + 1).choose N = (n + 2).choose (N + 1) * (N + 1) := by exact_mod_cast h3
        have h4' : (n.choose N : ℝ) * (n + 1) = (n + 1).choose N * (n + 1 - N) := by
          have : N ≤ n + 1 := by omega
          have h5 : ((n + 1 - N : ℕ) : ℝ) = n + 1 - N := by push_cast [Nat.cast_sub this]; ring
          rw [← h5]; exact_mod_cast h4
        simp only [show n + 2 - 2 = n by omega, show N + 1 - 1 = N by omega]
        push_cast
        linear_combination (n + 2 : ℝ) * h4' + (n + 1 - N : ℝ) * h3'
      · have : N = n := by omega
        subst this
        rw [Nat.choose_eq_zero_of_lt (by omega)]
        simp
    field_simp
    linear_combination Q * hc2

/-- Two numbers out of four: the estimates are 1/2, ..., 5/2 with mean 3/2. -/
example : ∃ est : Outcomes 4 → ℝ,
    (∀ ω, ∃ s : Reservoir 64 ℝ, Reservoir.run (BitVec.ofNat 64 2) ((valueStream (fun i => (i : ℝ)) fun j => fixedDraw 0 (ω j)).map .push) = some s
      ∧ est ω = Spec.mean s.data)
    ∧ (∑ ω, est ω) / Fintype.card (Outcomes 4) = 3 / 2 := by
  obtain ⟨est, h1, h2, -⟩ := C139_estimate_partial (w := 64) (N := 2) (n := 4) (by norm_num) (by norm_num) (by norm_num) (by norm_num)
    (fun i => (i : ℝ)) (fun _ k => fixedDraw 0 k)
    (fun j k => fixedDraw_draws 0 (Nat.lt_succ_iff.1 k.isLt) (by have := j.isLt; omega))
  refine ⟨est, h1, h2.trans ?_⟩
  simp [Spec.mean, List.range_succ]; norm_num

/-! ### More than `4N` elements -/

/-- The expected value, under an ideal generator, of the mean of the sample after pushing `xs` to a new reservoir of size `N`. -/
def expectedMean (w N : Nat) (xs : List ℚ) : ℚ :=
  expect (fun s : Reservoir w ℚ => s.data.sum / s.data.length) xs (Reservoir.init (BitVec.ofNat w N))

/-- C139 as stated: the mean of the sample is an unbiased estimate of the mean of the stream. -/
def C139_Statement (w : Nat) : Prop :=
  ∀ (N : Nat) (xs : List ℚ), 1 ≤ N → 4 * N < 2 ^ w → N ≤ xs.length → xs.length < 2 ^ w →
    expectedMean w N xs = xs.sum / xs.length

theorem expect_map (f : Reservoir w γ → ℚ) (v : β → γ) (xs : List β) (s : Reservoir w β) :
    expect f (xs.map v) (mapElems v s) = expect (fun s => f (mapElems v s)) xs s := by
  induction xs generalizing s with
  | nil => rfl
  | cons x xs ih =>
    rw [List.map_cons, expect, expect]
    have hu : (mapElems v s).uniformMax = s.uniformMax := rfl
    have hg : (mapElems v s).geometricParam = s.geometricParam := rfl
    rw [hu, hg]
    congr 1
    refine Finset.sum_congr rfl fun u _ => Finset.sum_congr rfl fun g _ => ?_
    rw [push_map]
    cases s.push x (drawOf w u g) with
    | none => rfl
    | some r => simp only [Option.map_some]; rw [ih]

theorem expect_div (f : Reservoir w β → ℚ) (c : ℚ) (xs : List β) (s : Reservoir w β) :
    expect (fun s => f s / c) xs s = expect f xs s / c := by
  induction xs generalizing s with
  | nil => rfl
  | cons x xs ih =>
    rw [expect, expect, div_div, mul_comm _ c, ← div_div]
    congr 1
    rw [Finset.sum_div]
    refine Finset.sum_congr rfl fun u _ => ?_
    rw [Finset.sum_div]
    refine Finset.sum_congr rfl fun g _ => ?_
    cases s.push x (drawOf w u g) with
    | none => simp
    | some r => simp only []; rw [ih, mul_div_assoc]

/-- Two functions that agree on all states that can be reached by pushing the positions `n, n + 1, ...`. -/
theorem expect_congr_inv {N : Nat} (hN : 1 ≤ N) (h4 : 4 * N < 2 ^ w) {f g : Reservoir w Nat → ℚ} :
    ∀ (k n : Nat) (s : Reservoir w Nat), n + k < 2 ^ w → Inv N n s → s.samples.Nodup → (∀ i ∈ s.samples, i < n) →
      (∀ t : Reservoir w Nat, Inv N (n + k) t → t.samples.Nodup → (∀ i ∈ t.samples, i < n + k) → f t = g t) →
      expect f (List.range' n k) s = expect g (List.range' n k) s
  | 0, n, s, _, hi, hd, hl, h => by simpa [expect] using h s hi hd hl
  | k + 1, n, s, hk, hi, hd, hl, h => by
    rw [List.range'_succ, expect, expect]
    congr 1
    refine Finset.sum_congr rfl fun u _ => Finset.sum_congr rfl fun q _ => ?_
    obtain ⟨s', hs', hi', hsm, -⟩ := push_step hi hN h4 (by omega) n (drawOf_valid (w := w) u q)
    rw [hs']
    simp only
    congr 1
    have hset : ∀ i, (s.samples.set i n).Nodup ∧ ∀ j ∈ s.samples.set i n, j < n + 1 := by
      intro i
      refine ⟨?_, fun j hj => ?_⟩
      · exact hd.set fun h => absurd (hl _ h) (lt_irrefl _)
      · rcases List.mem_or_eq_of_mem_set hj with h | h
        · have := hl _ h; omega
        · omega
    have hkeep : s.samples.Nodup ∧ ∀ j ∈ s.samples, j < n + 1 := ⟨hd, fun j hj => by have := hl _ hj; omega⟩
    have happ : (s.samples ++ [n]).Nodup ∧ ∀ j ∈ s.samples ++ [n], j < n + 1 := by
      refine ⟨List.Nodup.append hd (by simp) (by
        intro j hj hj'
        have := hl _ hj
        simp at hj'; omega), fun j hj => ?_⟩
      rcases List.mem_append.1 hj with h | h
      · have := hl _ h; omega
      · simp at h; omega
    have hnext : s'.samples.Nodup ∧ ∀ j ∈ s'.samples, j < n + 1 := by
      rw [hsm]
      unfold nextSamples
      split_ifs
      · exact happ
      · exact hset _
      · exact hkeep
      · exact hset _
      · exact hkeep
    exact expect_congr_inv hN h4 k (n + 1) s' (by omega) hi' hnext.1 hnext.2
      (fun t a b c => h t (by rwa [show n + (k + 1) = n + 1 + k by omega]) b
        (by rwa [show n + (k + 1) = n + 1 + k by omega]))

/-- The stream that is 1 at position `i` and 0 elsewhere: the expected mean of the sample is the probability of that element,
divided by the size of the sample. -/
theorem expectedMean_indicator {N n i : Nat} (hN : 1 ≤ N) (h4 : 4 * N < 2 ^ w) (hn : n < 2 ^ w) (hNn : N ≤ n) :
    expectedMean w N ((List.range n).map fun j => if j = i then 1 else 0) = inclusion w N n i / N := by
  have hm := expect_map (w := w) (fun s : Reservoir w ℚ => s.data.sum / s.data.length) (fun j : Nat => if j = i then (1 : ℚ) else 0)
    (List.range n) (Reservoir.init (BitVec.ofNat w N))
  have hi0 : mapElems (fun j : Nat => if j = i then (1 : ℚ) else 0) (Reservoir.init (BitVec.ofNat w N) : Reservoir w Nat)
      = Reservoir.init (BitVec.ofNat w N) := rfl
  rw [hi0] at hm
  rw [expectedMean, hm, inclusion, List.range_eq_range']
  rw [expect_congr_inv (g := fun s : Reservoir w Nat => (if i ∈ s.data then (1 : ℚ) else 0) / N) hN h4 n 0
    (Reservoir.init (BitVec.ofNat w N)) (by omega) (inv_init N) (by simp [Reservoir.init]) (by simp [Reservoir.init]) ?_]
  · exact expect_div _ _ _ _
  · intro t ht hd _
    show ((t.samples.map fun j => if j = i then (1 : ℚ) else 0).sum) / ((t.samples.map fun j => if j = i then (1 : ℚ) else 0).length : ℚ)
      = (if i ∈ t.samples then (1 : ℚ) else 0) / N
    rw [List.length_map, ht.length_eq, min_eq_right (by omega)]
    congr 1
    rw [← List.sum_toFinset _ hd, Finset.sum_ite_eq']
    simp

/-- C139 beyond `4N` elements: the estimate is biased towards the last element, for every size of the sample and every number of
elements. -/
theorem C139_bias {N m : Nat} (hN : 1 ≤ N) (hm : 4 * N + (m + 1) < 2 ^ w) :
    let n := 4 * N + (m + 1)
    let xs : List ℚ := (List.range n).map fun j => if j = 4 * N + m then 1 else 0
    xs.sum / xs.length < expectedMean w N xs := by
  intro n xs
  have hNq : (0 : ℚ) < N := by exact_mod_cast hN
  have h := (C48_bias (w := w) hN hm).2
  have hs : xs.sum = 1 := by
    show ((List.range n).map fun j => if j = 4 * N + m then (1 : ℚ) else 0).sum = 1
    rw [← List.sum_toFinset _ List.nodup_range, Finset.sum_ite_eq', if_pos (by simp [n])]
  have hl : xs.length = n := by simp [xs]
  rw [hs, hl, expectedMean_indicator hN (by omega) hm (by omega), lt_div_iff₀ hNq]
  calc 1 / (n : ℚ) * N = (N : ℚ) / n := by ring
    _ < _ := h

/-- C139 is violated for every width of `size_t` that can hold five elements. -/
theorem C139_violated (hw : 3 ≤ w) : ¬ C139_Statement w := by
  intro h
  have h8 : 8 ≤ 2 ^ w := by
    calc 8 = 2 ^ 3 := by norm_num
      _ ≤ 2 ^ w := Nat.pow_le_pow_right (by norm_num) hw
  have h1 := C139_bias (w := w) (N := 1) (m := 0) le_rfl (by omega)
  have h2 := h 1 ((List.range 5).map fun j => if j = 4 then 1 else 0) le_rfl (by omega) (by simp) (by simp; omega)
  exact absurd h2 (ne_of_gt h1)

end Verif.Props
