import Verif.Props.PSquareRank
/-
C177: the estimate of the median when one value is far away from the others.
-/
namespace Verif.PSquare
open Spec Exact

variable {w : Nat}

/-- The algorithm with the rule of the code: a positive height stays positive. -/
theorem p2Adjust_positive {d : Nat → ℝ} {m : P2} {i : Nat} (m1 : m.n (i - 1) < m.n i) (m2 : m.n i < m.n (i + 1))
    (hw : m.n i - m.n (i - 1) < 2 ^ w) (q0 : 0 ≤ m.q (i - 1)) (q1 : m.q (i - 1) ≤ m.q i) (q2 : m.q i ≤ m.q (i + 1))
    (hq : 0 < m.q i) : 0 < (p2Adjust Early (codeDown w) d m i).q i := by
  unfold p2Adjust Early
  dsimp only
  split_ifs with a b c e
  · dsimp only; rw [Function.update_self]; linarith [b.1]
  · dsimp only; rw [Function.update_self, psquareLinearUp]
    have : (m.n i : ℝ) + 1 ≤ m.n (i + 1) := by exact_mod_cast m2
    have : 0 ≤ (m.q (i + 1) - m.q i) / ((m.n (i + 1) : ℝ) - m.n i) := div_nonneg (by linarith) (by linarith)
    linarith
  · dsimp only; rw [Function.update_self]; linarith [e.1]
  · dsimp only; rw [Function.update_self, codeDown]
    have h1 : ((m.n i - m.n (i - 1) : Nat) : ℝ) = (m.n i : ℝ) - m.n (i - 1) := Nat.cast_sub m1.le
    have h2 : ((m.n i - m.n (i - 1) : Nat) : ℝ) < 2 ^ w := by exact_mod_cast hw
    have : 0 ≤ (m.q i - m.q (i - 1)) / (2 ^ w - ((m.n i : ℝ) - m.n (i - 1))) := div_nonneg (by linarith) (by linarith)
    linarith
  · exact hq

/-- Heights ascend, none is negative, and that of marker `j` is positive. -/
structure Positive (L j : Nat) (q : Nat → ℝ) : Prop where
  asc : Asc L q
  low : 0 ≤ q 0
  pos : 0 < q j

theorem Positive.nonneg {L j : Nat} {q : Nat → ℝ} (h : Positive L j q) : ∀ i < L, 0 ≤ q i := by
  intro i hi
  induction i with
  | zero => exact h.low
  | succ i ih => exact (ih (by omega)).trans (h.asc i hi)

theorem Positive.adjust {L j : Nat} {d : Nat → ℝ} {m : P2} (h : Positive L j m.q) {i : Nat} (h1 : 1 ≤ i) (h2 : i + 1 < L)
    (m1 : m.n (i - 1) < m.n i) (m2 : m.n i < m.n (i + 1)) (hw : m.n i - m.n (i - 1) < 2 ^ w) :
    Positive L j (p2Adjust Early (codeDown w) d m i).q := by
  refine ⟨h.asc.adjust h1 h2 m1 m2 hw, ?_, ?_⟩
  · rw [p2Adjust_q_other d m (by omega)]; exact h.low
  · by_cases e : j = i
    · subst e
      have q1 := h.asc (j - 1) (by omega)
      rw [show j - 1 + 1 = j by omega] at q1
      exact p2Adjust_positive m1 m2 hw (h.nonneg _ (by omega)) q1 (h.asc j h2) h.pos
    · rw [p2Adjust_q_other d m e]; exact h.pos

theorem Positive.loop {L j : Nat} {d : Nat → ℝ} {m : P2} (h : Positive L j m.q) (hm : ∀ i, i + 1 < L → m.n i < m.n (i + 1))
    (hw : m.n (L - 1) < 2 ^ w) (k : Nat) (hk : k + 2 ≤ L) :
    Positive L j ((List.range' 1 k).foldl (p2Adjust Early (codeDown w) d) m).q := by
  induction k with
  | zero => exact h
  | succ k ih =>
    rw [List.range'_1_concat, List.foldl_append, List.foldl_cons, List.foldl_nil, Nat.add_comm 1 k]
    obtain ⟨a, b, -⟩ := p2_loop (down := codeDown w) (d := d) hm k (by omega)
    set mk := (List.range' 1 k).foldl (p2Adjust Early (codeDown w) d) m with hmk
    have up : ∀ i, k < i → i < L → m.n i ≤ m.n (L - 1) := by
      intro i hi hiL
      obtain ⟨t, rfl⟩ : ∃ t, L = i + 1 + t := ⟨L - (i + 1), by omega⟩
      clear_value mk
      have : ∀ s, i + s < i + 1 + t → m.n i ≤ m.n (i + s) := by
        intro s hs
        induction s with
        | zero => exact le_rfl
        | succ s ihs => exact (ihs (by omega)).trans (hm (i + s) (by omega)).le
      exact (this t (by omega)).trans (by rw [show i + 1 + t - 1 = i + t by omega])
    refine (ih (by omega)).adjust (by omega) (by omega) (b k (by omega)) (b (k + 1) (by omega)) ?_
    have := up (k + 1) (by omega) (by omega)
    rw [a (k + 1) (Or.inr (by omega))]
    omega

/-- A positive height stays positive when values that are not negative arrive. -/
theorem Positive.push {L j : Nat} (hL : 3 ≤ L) (hj : j + 1 < L) {f : Nat → ℝ} {N : Nat} (hN : N + 1 < 2 ^ w) {m : P2}
    (hnear : Near L f N m.n) (h : Positive L j m.q) {x : ℝ} (hx : 0 ≤ x) (hj1 : 1 ≤ j) :
    Positive L j (p2Push Early (codeDown w) L f N m x).q := by
  obtain ⟨-, n1, -, n3⟩ := p2Insert_pos hL x hnear.mono
  have hnl := hnear.last
  refine Positive.loop ⟨?_, ?_, ?_⟩ n3 (by omega) (L - 2) (by omega)
  · intro i hi
    have := h.asc i hi
    simp only [p2Insert]
    rcases Nat.eq_zero_or_pos i with rfl | hp
    · rw [if_pos rfl, if_neg (by omega)]
      split_ifs with e
      · exact (min_le_left _ _).trans (this.trans (by rw [show 0 + 1 = L - 1 from e]; exact le_max_left _ _))
      · exact (min_le_left _ _).trans this
    · rw [if_neg (by omega), if_neg (by omega), if_neg (by omega)]
      split_ifs with e
      · exact this.trans (by rw [e]; exact le_max_left _ _)
      · exact this
  · simp only [p2Insert, if_true]; exact le_min h.low hx
  · simp only [p2Insert]; rw [if_neg (by omega), if_neg (by omega)]; exact h.pos

/-- The published algorithm: heights that are not negative stay so, and a positive one stays positive. -/
theorem p2Adjust_published {d : Nat → ℝ} {m : P2} {i : Nat} (q0 : 0 ≤ m.q (i - 1)) (q2 : 0 ≤ m.q (i + 1)) :
    (0 ≤ m.q i → 0 ≤ (p2Adjust p2Far psquareLinearDown d m i).q i)
      ∧ (0 < m.q i → 0 < (p2Adjust p2Far psquareLinearDown d m i).q i) := by
  have key : ∀ {a b g : ℝ}, 2 ≤ g → 0 ≤ b → a + (b - a) / g = a * ((g - 1) / g) + b / g := by
    intro a b g hg _
    have : g ≠ 0 := by linarith
    field_simp
    ring
  unfold p2Adjust
  dsimp only
  split_ifs with a b c e
  · dsimp only; rw [Function.update_self]; exact ⟨fun _ => by linarith [b.1], fun _ => by linarith [b.1]⟩
  · dsimp only; rw [Function.update_self, psquareLinearUp]
    have : (m.n i : ℝ) + 1 + 1 ≤ m.n (i + 1) := by exact_mod_cast a.2
    rw [key (by linarith) q2]
    have hg : 0 < ((m.n (i + 1) : ℝ) - m.n i - 1) / ((m.n (i + 1) : ℝ) - m.n i) := div_pos (by linarith) (by linarith)
    have : 0 ≤ m.q (i + 1) / ((m.n (i + 1) : ℝ) - m.n i) := div_nonneg q2 (by linarith)
    exact ⟨fun h => by positivity, fun h => by positivity⟩
  · dsimp only; rw [Function.update_self]; exact ⟨fun _ => by linarith [e.1], fun _ => by linarith [e.1]⟩
  · dsimp only; rw [Function.update_self, psquareLinearDown]
    have h1 : (m.n (i - 1) : ℝ) + 1 + 1 ≤ m.n i := by exact_mod_cast c.2
    have e1 : m.q i - (m.q (i - 1) - m.q i) / ((m.n (i - 1) : ℝ) - m.n i)
        = m.q i + (m.q (i - 1) - m.q i) / ((m.n i : ℝ) - m.n (i - 1)) := by
      rw [sub_eq_add_neg, ← div_neg, neg_sub]
    rw [e1, key (by linarith) q0]
    have hg : 0 < ((m.n i : ℝ) - m.n (i - 1) - 1) / ((m.n i : ℝ) - m.n (i - 1)) := div_pos (by linarith) (by linarith)
    have : 0 ≤ m.q (i - 1) / ((m.n i : ℝ) - m.n (i - 1)) := div_nonneg q0 (by linarith)
    exact ⟨fun h => by positivity, fun h => by positivity⟩
  · exact ⟨id, id⟩

end Verif.PSquare

namespace Verif.Props
open Scalar Exact Verif.PSquare

variable {w : Nat} {ε : ℝ}

/-- Four zeros, a one, and zeros: the one is far away from the others. -/
def spike (k : Nat) : List ℝ := [0, 0, 0, 0, 1] ++ List.replicate k 0

theorem spike_succ (k : Nat) : spike (k + 1) = spike k ++ [0] := by
  rw [spike, spike, List.replicate_succ', List.append_assoc]

@[simp] theorem spike_length (k : Nat) : (spike k).length = k + 5 := by
  rw [spike, List.length_append, List.length_replicate]; exact Nat.add_comm 5 k

theorem p2_spike_zero (far : ℝ → Prop) (down : (Nat → ℝ) → (Nat → ℝ) → Nat → ℝ) :
    Spec.p2 far down 5 (fractionAt [median]) (spike 0)
      = { n := fun i => i + 1, q := fun i => ([0, 0, 0, 0, 1] : List ℝ).getD i 0 } := by
  have hsort : Spec.sorted [0, 0, 0, 0, 1] = ([0, 0, 0, 0, 1] : List ℝ) :=
    Spec.sorted_unique (List.Perm.refl _) (by norm_num)
  unfold Spec.p2
  simp [spike, hsort]

/-- With the rule of the code marker 3 moves up as soon as one more zero arrives. -/
theorem p2_spike_one (down : (Nat → ℝ) → (Nat → ℝ) → Nat → ℝ) :
    Spec.p2 Early down 5 (fractionAt [median]) (spike 1)
      = { n := fun i => [1, 2, 3, 5, 6].getD i (i + 2), q := fun i => ([0, 0, 0, 1 / 3, 1] : List ℝ).getD i 0 } := by
  rw [spike_succ, Spec.p2_snoc _ _ _ (by simp), p2_spike_zero]
  unfold Spec.p2Push
  have e : List.range' 1 (5 - 2) = [1, 2, 3] := rfl
  obtain ⟨f1, f2, f3⟩ := fractionAt_median
  have hins : Spec.p2Insert 5 { n := fun i => i + 1, q := fun i => ([0, 0, 0, 0, 1] : List ℝ).getD i 0 } 0
      = { n := fun i => [1, 2, 3, 4, 6].getD i (i + 2), q := fun i => ([0, 0, 0, 0, 1] : List ℝ).getD i 0 } := by
    unfold Spec.p2Insert Spec.p2Cell
    norm_num [List.range_succ]
    constructor
    · funext i
      rcases i with _ | _ | _ | _ | _ | i <;> simp
    · funext i
      rcases i with _ | _ | _ | _ | _ | i <;> norm_num; omega
  rw [e, hins, List.foldl_cons, List.foldl_cons, List.foldl_cons, List.foldl_nil]
  have a1 : ∀ j ∈ [1, 2], Spec.p2Adjust Early down (fun i => 1 + ((spike 0).length : ℝ) * fractionAt [median] i)
      { n := fun i => [1, 2, 3, 4, 6].getD i (i + 2), q := fun i => ([0, 0, 0, 0, 1] : List ℝ).getD i 0 } j
      = { n := fun i => [1, 2, 3, 4, 6].getD i (i + 2), q := fun i => ([0, 0, 0, 0, 1] : List ℝ).getD i 0 } := by
    intro j hj
    simp only [List.mem_cons, List.not_mem_nil, or_false] at hj
    unfold Spec.p2Adjust Early
    rcases hj with rfl | rfl <;> norm_num [f1, f2]
  rw [a1 1 (by simp), a1 2 (by simp)]
  unfold Spec.p2Adjust Early
  norm_num [f3, Spec.psquareParabolic]
  constructor
  · funext i
    rcases i with _ | _ | _ | _ | _ | i <;> simp [Function.update]
  · funext i
    rcases i with _ | _ | _ | _ | _ | i <;> norm_num [Function.update]
    omega

/-- One more zero takes marker 2, the estimate of the median, to 1/18. -/
theorem p2_spike_two (down : (Nat → ℝ) → (Nat → ℝ) → Nat → ℝ) :
    (Spec.p2 Early down 5 (fractionAt [median]) (spike 2)).q 2 = 1 / 18 := by
  rw [spike_succ, Spec.p2_snoc _ _ _ (by simp), p2_spike_one]
  unfold Spec.p2Push
  have e : List.range' 1 (5 - 2) = [1, 2, 3] := rfl
  obtain ⟨f1, f2, f3⟩ := fractionAt_median
  have hins : Spec.p2Insert 5 { n := fun i => [1, 2, 3, 5, 6].getD i (i + 2), q := fun i => ([0, 0, 0, 1 / 3, 1] : List ℝ).getD i 0 } 0
      = { n := fun i => [1, 2, 3, 6, 7].getD i (i + 3), q := fun i => ([0, 0, 0, 1 / 3, 1] : List ℝ).getD i 0 } := by
    unfold Spec.p2Insert Spec.p2Cell
    norm_num [List.range_succ]
    constructor
    · funext i
      rcases i with _ | _ | _ | _ | _ | i <;> simp
    · funext i
      rcases i with _ | _ | _ | _ | _ | i <;> norm_num; omega
  rw [e, hins, List.foldl_cons, List.foldl_cons, List.foldl_cons, List.foldl_nil, (p2Adjust_ne _ _ _ _ (by decide)).1]
  have a1 : Spec.p2Adjust Early down (fun i => 1 + ((spike 1).length : ℝ) * fractionAt [median] i)
      { n := fun i => [1, 2, 3, 6, 7].getD i (i + 3), q := fun i => ([0, 0, 0, 1 / 3, 1] : List ℝ).getD i 0 } 1
      = { n := fun i => [1, 2, 3, 6, 7].getD i (i + 3), q := fun i => ([0, 0, 0, 1 / 3, 1] : List ℝ).getD i 0 } := by
    unfold Spec.p2Adjust Early
    norm_num [f1]
  rw [a1]
  unfold Spec.p2Adjust Early
  norm_num [f2, Spec.psquareParabolic]

/-- The estimate of the median never returns to 0. -/
theorem p2_spike_positive (k : Nat) (hk : k + 7 < 2 ^ w) :
    0 < (Spec.p2 Early (codeDown w) 5 (fractionAt [median]) (spike (k + 2))).q 2 := by
  have near : ∀ j, Near 5 (fractionAt [median]) (j + 5) (Spec.p2 Early (codeDown w) 5 (fractionAt [median]) (spike j)).n := by
    intro j
    have := (p2_near (down := codeDown w) (by omega) forMedian.fractions (spike j) (by simp)).1
    rwa [spike_length] at this
  have step : ∀ j i, 1 ≤ i → i + 1 < 5 → j + 6 < 2 ^ w →
      Positive 5 i (Spec.p2 Early (codeDown w) 5 (fractionAt [median]) (spike j)).q →
      Positive 5 i (Spec.p2 Early (codeDown w) 5 (fractionAt [median]) (spike (j + 1))).q := by
    intro j i h1 h2 hj h
    rw [spike_succ, Spec.p2_snoc _ _ _ (by simp), spike_length]
    exact h.push (by omega) h2 (by omega) (near j) le_rfl h1
  have h1 : Positive 5 3 (Spec.p2 Early (codeDown w) 5 (fractionAt [median]) (spike 1)).q := by
    rw [p2_spike_one]
    refine ⟨?_, by norm_num, by norm_num⟩
    intro i hi
    have : i = 0 ∨ i = 1 ∨ i = 2 ∨ i = 3 := by omega
    rcases this with rfl | rfl | rfl | rfl <;> norm_num
  have h2 := step 1 3 (by omega) (by omega) (by omega) h1
  have base : Positive 5 2 (Spec.p2 Early (codeDown w) 5 (fractionAt [median]) (spike 2)).q :=
    ⟨h2.asc, h2.low, by rw [p2_spike_two]; norm_num⟩
  have all : ∀ j, j + 7 < 2 ^ w → Positive 5 2 (Spec.p2 Early (codeDown w) 5 (fractionAt [median]) (spike (j + 2))).q := by
    intro j hj
    induction j with
    | zero => exact base
    | succ j ih => exact step (j + 2) 2 (by omega) (by omega) (by omega) (ih (by omega))
  exact (all k hk).pos

/-- C177: the estimate of the median of `n` values resists one outlier: it is bounded when all values but one are 0. -/
def Resists (ε : ℝ) (n : Nat) : Prop :=
  ∃ B : ℝ, ∀ (w : Nat) (ops : List (Op ℝ)), 5 < 2 ^ w → ops.length < 2 ^ w → (sinceClear ops).length = n →
    (∃ (l₁ l₂ : List ℝ) (x : ℝ), sinceClear ops = l₁ ++ x :: l₂ ∧ ∀ y ∈ l₁ ++ l₂, y = 0) →
    ∃ (s : PSquare w (E ε)) (v : ℝ), PSquare.run [median] (finOps ops) = some s ∧ s.get 1 = some (X.fin v) ∧ |v| ≤ B

/-- C177: the estimate of the median of at least three values resists one outlier, as the median does. -/
def C177_Statement (ε : ℝ) : Prop := ∀ n, 3 ≤ n → Resists ε n

/-- C177: of `n ≥ 7` values all but one are 0.  The estimate of the median is a positive multiple of the other value. -/
theorem C177_outlier {n : Nat} (hn : 7 ≤ n) (hw : n < 2 ^ w) : ∃ c > (0 : ℝ), ∀ (M : ℝ), 0 < M →
    ∀ ops : List (Op ℝ), ops.length < 2 ^ w → sinceClear ops = [0, 0, 0, 0, M] ++ List.replicate (n - 5) 0 →
    ∃ s : PSquare w (E ε), PSquare.run [median] (finOps ops) = some s ∧ s.get 1 = some (X.fin (c * M)) := by
  obtain ⟨k, rfl⟩ : ∃ k, n = k + 7 := ⟨n - 7, by omega⟩
  have hL : 2 * [median].length + 3 < 2 ^ w := by simp only [List.length_cons, List.length_nil]; omega
  refine ⟨_, p2_spike_positive (w := w) k hw, fun M hM ops hops hdata => ?_⟩
  set unit : List (Op ℝ) := (spike (k + 2)).map Op.push with hunit
  have hs1 : sinceClear unit = spike (k + 2) := sinceClear_pushes _
  have hl1 : unit.length < 2 ^ w := by rw [hunit, List.length_map, spike_length]; omega
  obtain ⟨s0, hs0, -, -, -, hget⟩ := C71_algorithm_partial (w := w) (ε := ε) (quantiles := [median]) median_ok.den
    hL unit hl1 (by rw [hs1, spike_length]; simp only [List.length_cons, List.length_nil]; omega)
  have hg := hget (by rw [hs1, spike_length]; simp only [List.length_cons, List.length_nil]; omega) 1 (by simp)
  obtain ⟨s, t, v, hs, ht, hv, -⟩ := C72_affine (w := w) (ε := ε) (quantiles := [median]) median_ok hL unit hl1
    (by rw [hs1]; simp [spike]) hM 0
  obtain rfl : s0 = s := Option.some.inj (hs0.symm.trans hs)
  obtain ⟨v1, v2⟩ := hv 1 (by simp)
  rw [hg] at v1
  have hval := X.fin_inj.1 (Option.some.inj v1)
  refine ⟨t, ?_, ?_⟩
  · rw [run_eq_pushes [median] hL _ (by simpa [finOps] using hops), sinceClear_finOps]
    rw [run_eq_pushes [median] hL _ (by simpa [finOps, affine] using hl1), sinceClear_finOps, sinceClear_affine, hs1] at ht
    rw [hdata, ← ht]
    congr 1
    simp [spike]
  · rw [v2, ← hval, hs1, add_zero, mul_comm]
    rfl

/-- Five zeros and -1: the estimate of the median is -1/9 at once. -/
theorem p2_dip (down : (Nat → ℝ) → (Nat → ℝ) → Nat → ℝ) :
    (Spec.p2 Early down 5 (fractionAt [median]) ([0, 0, 0, 0, 0] ++ [-1])).q 2 = -1 / 9 := by
  have hsort : Spec.sorted [0, 0, 0, 0, 0] = ([0, 0, 0, 0, 0] : List ℝ) :=
    Spec.sorted_unique (List.Perm.refl _) (by norm_num)
  rw [Spec.p2_snoc _ _ _ (by simp)]
  have h0 : Spec.p2 Early down 5 (fractionAt [median]) [0, 0, 0, 0, 0]
      = { n := fun i => i + 1, q := fun i => ([0, 0, 0, 0, 0] : List ℝ).getD i 0 } := by
    unfold Spec.p2
    simp [hsort]
  rw [h0]
  unfold Spec.p2Push
  have e : List.range' 1 (5 - 2) = [1, 2, 3] := rfl
  obtain ⟨f1, f2, f3⟩ := fractionAt_median
  have hins : Spec.p2Insert 5 { n := fun i => i + 1, q := fun i => ([0, 0, 0, 0, 0] : List ℝ).getD i 0 } (-1)
      = { n := fun i => [1, 3, 4, 5, 6].getD i (i + 2), q := fun i => ([-1, 0, 0, 0, 0] : List ℝ).getD i 0 } := by
    unfold Spec.p2Insert Spec.p2Cell
    norm_num
    constructor
    · funext i
      rcases i with _ | _ | _ | _ | _ | i <;> simp
    · funext i
      rcases i with _ | _ | _ | _ | _ | i <;> norm_num
  rw [e, hins, List.foldl_cons, List.foldl_cons, List.foldl_cons, List.foldl_nil, (p2Adjust_ne _ _ _ _ (by decide)).1]
  have a1 : Spec.p2Adjust Early down (fun i => 1 + (([0, 0, 0, 0, 0] : List ℝ).length : ℝ) * fractionAt [median] i)
      { n := fun i => [1, 3, 4, 5, 6].getD i (i + 2), q := fun i => ([-1, 0, 0, 0, 0] : List ℝ).getD i 0 } 1
      = { n := fun i => [1, 2, 4, 5, 6].getD i (i + 2), q := fun i => ([-1, -1 / 3, 0, 0, 0] : List ℝ).getD i 0 } := by
    unfold Spec.p2Adjust Early
    norm_num [f1, Spec.psquareParabolic]
    constructor
    · funext i
      rcases i with _ | _ | _ | _ | _ | i <;> simp [Function.update]
    · funext i
      rcases i with _ | _ | _ | _ | _ | i <;> norm_num [Function.update]
  rw [a1]
  unfold Spec.p2Adjust Early
  norm_num [f2, Spec.psquareParabolic]

/-- C177: after five zeros and `-M` the estimate of the median is `-M / 9`. -/
theorem C177_six (hw : 6 < 2 ^ w) {M : ℝ} (hM : 0 < M) (ops : List (Op ℝ)) (hops : ops.length < 2 ^ w)
    (hdata : sinceClear ops = [0, 0, 0, 0, 0, -M]) :
    ∃ s : PSquare w (E ε), PSquare.run [median] (finOps ops) = some s ∧ s.get 1 = some (X.fin (-M / 9)) := by
  have hL : 2 * [median].length + 3 < 2 ^ w := by simp only [List.length_cons, List.length_nil]; omega
  set unit : List (Op ℝ) := [0, 0, 0, 0, 0, -1].map Op.push with hunit
  have hs1 : sinceClear unit = [0, 0, 0, 0, 0] ++ [-1] := sinceClear_pushes _
  have hl1 : unit.length < 2 ^ w := by rw [hunit, List.length_map]; exact hw
  obtain ⟨s0, hs0, -, -, -, hget⟩ := C71_algorithm_partial (w := w) (ε := ε) (quantiles := [median]) median_ok.den
    hL unit hl1 (by rw [hs1]; simp)
  have hg := hget (by rw [hs1]; simp) 1 (by simp)
  obtain ⟨s, t, v, hs, ht, hv, -⟩ := C72_affine (w := w) (ε := ε) (quantiles := [median]) median_ok hL unit hl1
    (by rw [hs1]; simp) hM 0
  obtain rfl : s0 = s := Option.some.inj (hs0.symm.trans hs)
  obtain ⟨v1, v2⟩ := hv 1 (by simp)
  rw [hg] at v1
  have hval := X.fin_inj.1 (Option.some.inj v1)
  have hdip : (Spec.p2 (fun x : ℝ => 0 < x) (fun (n q : Nat → ℝ) (i : Nat) => q i + (q i - q (i - 1)) / (2 ^ w - (n i - n (i - 1))))
      (2 * [median].length + 3) (fractionAt [median]) ([0, 0, 0, 0, 0] ++ [-1])).q (2 * 1) = -1 / 9 := p2_dip _
  refine ⟨t, ?_, ?_⟩
  · rw [run_eq_pushes [median] hL _ (by simpa [finOps] using hops), sinceClear_finOps]
    rw [run_eq_pushes [median] hL _ (by simpa [finOps, affine] using hl1), sinceClear_finOps, sinceClear_affine, hs1] at ht
    rw [hdata, ← ht]
    congr 1
    simp
  · rw [v2, ← hval, hs1, hdip]
    congr 2
    ring

/-- C177 is violated for every number of values from 6 on. -/
theorem C177_resists {n : Nat} (hn : 6 ≤ n) : ¬ Resists ε n := by
  rintro ⟨B, h⟩
  have hw : n < 2 ^ n := Nat.lt_two_pow_self
  rcases Nat.lt_or_ge n 7 with h6 | h7
  · obtain rfl : n = 6 := by omega
    have hM : (0 : ℝ) < 9 * (|B| + 1) := by positivity
    have e : sinceClear ([0, 0, 0, 0, 0, -(9 * (|B| + 1))].map Op.push) = [0, 0, 0, 0, 0, -(9 * (|B| + 1))] := sinceClear_pushes _
    obtain ⟨s, hs, hv⟩ := C177_six (w := 6) (ε := ε) (by norm_num) hM _ (by norm_num) e
    obtain ⟨t, v, ht, hv', hb⟩ := h 6 _ (by norm_num) (by norm_num) (by rw [e]; rfl)
      ⟨[0, 0, 0, 0, 0], [], _, e, by simp⟩
    obtain rfl : s = t := Option.some.inj (hs.symm.trans ht)
    have := X.fin_inj.1 (Option.some.inj (hv.symm.trans hv'))
    rw [← this, show -(9 * (|B| + 1)) / 9 = -(|B| + 1) by ring, abs_neg, abs_of_pos (by positivity)] at hb
    linarith [le_abs_self B]
  · obtain ⟨c, hc, hout⟩ := C177_outlier (ε := ε) h7 hw
    have hM : (0 : ℝ) < (|B| + 1) / c := by positivity
    have e := sinceClear_pushes ([0, 0, 0, 0, (|B| + 1) / c] ++ List.replicate (n - 5) 0)
    have hlen : ([0, 0, 0, 0, (|B| + 1) / c] ++ List.replicate (n - 5) 0).length = n := by simp; omega
    have hl : (([0, 0, 0, 0, (|B| + 1) / c] ++ List.replicate (n - 5) 0).map Op.push).length < 2 ^ n := by
      rw [List.length_map, hlen]; exact hw
    obtain ⟨s, hs, hv⟩ := hout _ hM _ hl e
    obtain ⟨t, v, ht, hv', hb⟩ := h n _ (by omega) hl (by rw [e]; exact hlen)
      ⟨[0, 0, 0, 0], List.replicate (n - 5) 0, (|B| + 1) / c, by rw [e]; rfl, by simp⟩
    obtain rfl : s = t := Option.some.inj (hs.symm.trans ht)
    have := X.fin_inj.1 (Option.some.inj (hv.symm.trans hv'))
    rw [← this, mul_div_cancel₀ _ hc.ne', abs_of_pos (by positivity)] at hb
    linarith [le_abs_self B]

/-- C177 is violated. -/
theorem C177_violated (ε : ℝ) : ¬ C177_Statement ε := fun h => C177_resists le_rfl (h 6 (by norm_num))

/-- The median of at least three values lies within the others, whatever one of them is. -/
theorem median_resists {xs l₁ l₂ : List ℝ} {x lo hi : ℝ} (hx : xs = l₁ ++ x :: l₂) (hn : 3 ≤ xs.length)
    (hl : ∀ y ∈ l₁ ++ l₂, lo ≤ y ∧ y ≤ hi) : lo ≤ Spec.quantile (1 / 2) xs ∧ Spec.quantile (1 / 2) xs ≤ hi := by
  classical
  have count : ∀ P : ℝ → Prop, (∀ y ∈ l₁ ++ l₂, ¬ P y) → (Spec.sorted xs).countP (fun y => decide (P y)) ≤ 1 := by
    intro P hP
    rw [(Spec.sorted_perm xs).countP_eq, hx, List.countP_append, List.countP_cons,
      List.countP_eq_zero.2 (fun y hy => by simpa using hP y (List.mem_append_left _ hy)),
      List.countP_eq_zero.2 (fun y hy => by simpa using hP y (List.mem_append_right _ hy))]
    split_ifs <;> omega
  obtain ⟨b1, b2⟩ := Spec.quantile_between (q := 1 / 2) (xs := xs) (by norm_num) (by norm_num)
    (by rintro rfl; simp at hn)
  have hn' : (3 : ℝ) ≤ xs.length := by exact_mod_cast hn
  have hlen : (Spec.sorted xs).length = xs.length := Spec.sorted_length xs
  constructor
  · have hf : 1 ≤ ⌊1 / 2 * ((xs.length : ℝ) - 1)⌋₊ := Nat.le_floor (by push_cast; linarith)
    have hf2 : ⌊1 / 2 * ((xs.length : ℝ) - 1)⌋₊ < xs.length := by
      rw [Nat.floor_lt (by linarith)]; linarith
    refine le_trans ?_ ((Spec.sorted_mono hf hf2).trans b1)
    by_contra hc
    have h01 := Spec.sorted_mono (xs := xs) (i := 0) (j := 1) (by omega) (by omega)
    have := count (fun y => y < lo) fun y hy => not_lt.2 (hl y hy).1
    match hs : Spec.sorted xs, hlen with
    | [], h => rw [List.length_nil] at h; omega
    | [_], h => rw [List.length_singleton] at h; omega
    | a :: b :: r, _ =>
      rw [hs] at this h01 hc
      simp only [List.getD_cons_zero, List.getD_cons_succ, not_le] at h01 hc
      rw [List.countP_cons_of_pos (by simpa using h01.trans_lt hc), List.countP_cons_of_pos (by simpa using hc)] at this
      omega
  · have hf : ⌈1 / 2 * ((xs.length : ℝ) - 1)⌉₊ ≤ xs.length - 2 := by
      rw [Nat.ceil_le]
      rcases Nat.lt_or_ge xs.length 4 with h4 | h4
      · have : xs.length = 3 := by omega
        rw [this]; norm_num
      · have : (4 : ℝ) ≤ xs.length := by exact_mod_cast h4
        rw [Nat.cast_sub (by omega)]; push_cast; linarith
    refine (b2.trans (Spec.sorted_mono hf (by omega))).trans ?_
    by_contra hc
    have h01 := Spec.sorted_mono (xs := xs) (i := xs.length - 2) (j := xs.length - 1) (by omega) (by omega)
    have h1 := count (fun y => hi < y) fun y hy => not_lt.2 (hl y hy).2
    have h2 : 2 ≤ ((Spec.sorted xs).drop (xs.length - 2)).countP fun y => decide (hi < y) := by
      have hd : ((Spec.sorted xs).drop (xs.length - 2)).length = 2 := by rw [List.length_drop]; omega
      refine (hd.symm.trans (List.countP_eq_length.2 ?_).symm).le
      intro y hy
      obtain ⟨i, hi', rfl⟩ := List.mem_iff_getElem.1 hy
      rw [List.getElem_drop]
      have hc' := not_le.1 hc
      have := Spec.sorted_mono (xs := xs) (i := xs.length - 2) (j := xs.length - 2 + i) (by omega) (by omega)
      rw [List.getD_eq_getElem _ _ (show xs.length - 2 + i < (Spec.sorted xs).length by omega)] at this
      simpa using hc'.trans_le this
    have h3 := (List.drop_sublist (xs.length - 2) (Spec.sorted xs)).countP_le (p := fun y => decide (hi < y))
    omega

/-- C177, up to five values: the estimate of the median lies within the other values, whatever one of them is.
Missing for the full statement: more than five values, where it is violated, see `C177_resists`. -/
theorem C177_few_partial (hw : 5 < 2 ^ w) (ops : List (Op ℝ)) (hops : ops.length < 2 ^ w) (h3 : 3 ≤ (sinceClear ops).length)
    (h5 : (sinceClear ops).length ≤ 5) {l₁ l₂ : List ℝ} {x lo hi : ℝ} (hx : sinceClear ops = l₁ ++ x :: l₂)
    (hl : ∀ y ∈ l₁ ++ l₂, lo ≤ y ∧ y ≤ hi) :
    ∃ (s : PSquare w (E ε)) (v : ℝ), PSquare.run [median] (finOps ops) = some s ∧ s.get 1 = some (X.fin v) ∧ lo ≤ v ∧ v ≤ hi := by
  obtain ⟨s, hs, -, -, -, hg⟩ := C35_few (w := w) (ε := ε) median_ok hw ops hops h5
  have hne : sinceClear ops ≠ [] := by intro h; rw [h] at h3; simp at h3
  have h1 := hg hne 1 (by simp)
  rw [quantileAt_median.2.1] at h1
  exact ⟨s, _, hs, h1, median_resists hx h3 hl⟩

/-- C177: three to five values. -/
theorem C177_resists_partial {n : Nat} (h3 : 3 ≤ n) (h5 : n ≤ 5) : Resists ε n := by
  refine ⟨0, fun w ops hw hops hn => ?_⟩
  rintro ⟨l₁, l₂, x, hx, h0⟩
  obtain ⟨s, v, hs, hv, h1, h2⟩ := C177_few_partial (ε := ε) hw ops hops (by omega) (by omega) hx (lo := 0) (hi := 0)
    fun y hy => by rw [h0 y hy]; exact ⟨le_rfl, le_rfl⟩
  exact ⟨s, v, hs, hv, by rw [abs_le]; constructor <;> linarith⟩

/-- The estimate of the median of 0, 0, 0, 0, 1800, 0, 0 is 100. -/
example : ∃ s : PSquare 64 (E ε), PSquare.run [median] (finOps ([0, 0, 0, 0, 1800, 0, 0].map Op.push)) = some s
    ∧ s.get 1 = some (X.fin 100) := by
  have e := sinceClear_pushes ([0, 0, 0, 0, 1, 0, 0] : List ℝ)
  obtain ⟨s0, hs0, -, -, -, hget⟩ := C71_algorithm_partial (w := 64) (ε := ε) (quantiles := [median]) median_ok.den
    (by decide) ([0, 0, 0, 0, 1, 0, 0].map Op.push) (by decide) (by rw [e]; decide)
  have hg := hget (by rw [e]; decide) 1 (by simp)
  obtain ⟨s, t, v, hs, ht, hv, -⟩ := C72_affine (w := 64) (ε := ε) (quantiles := [median]) median_ok (by decide)
    ([0, 0, 0, 0, 1, 0, 0].map Op.push) (by decide) (by rw [e]; simp) (show (0 : ℝ) < 1800 by norm_num) 0
  obtain rfl : s0 = s := Option.some.inj (hs0.symm.trans hs)
  obtain ⟨v1, v2⟩ := hv 1 (by simp)
  rw [hg] at v1
  have hval := X.fin_inj.1 (Option.some.inj v1)
  have hq : (Spec.p2 (fun x : ℝ => 0 < x) (fun (n q : Nat → ℝ) (i : Nat) => q i + (q i - q (i - 1)) / (2 ^ 64 - (n i - n (i - 1))))
      (2 * [median].length + 3) (fractionAt [median]) (sinceClear ([0, 0, 0, 0, 1, 0, 0].map Op.push))).q (2 * 1) = 1 / 18 := by
    rw [e]; exact p2_spike_two _
  refine ⟨t, ?_, ?_⟩
  · rw [← ht]; congr 1; simp [finOps, affine, Op.map]
  · rw [v2, ← hval, hq]; norm_num

/-! ### The published algorithm -/

/-- The published algorithm moves marker 3 one value later. -/
theorem p2_published_one (down : (Nat → ℝ) → (Nat → ℝ) → Nat → ℝ) :
    Spec.p2 Spec.p2Far down 5 (fractionAt [median]) (spike 1)
      = { n := fun i => [1, 2, 3, 4, 6].getD i (i + 2), q := fun i => ([0, 0, 0, 0, 1] : List ℝ).getD i 0 } := by
  rw [spike_succ, Spec.p2_snoc _ _ _ (by simp), p2_spike_zero]
  unfold Spec.p2Push
  have e : List.range' 1 (5 - 2) = [1, 2, 3] := rfl
  obtain ⟨f1, f2, f3⟩ := fractionAt_median
  have hins : Spec.p2Insert 5 { n := fun i => i + 1, q := fun i => ([0, 0, 0, 0, 1] : List ℝ).getD i 0 } 0
      = { n := fun i => [1, 2, 3, 4, 6].getD i (i + 2), q := fun i => ([0, 0, 0, 0, 1] : List ℝ).getD i 0 } := by
    unfold Spec.p2Insert Spec.p2Cell
    norm_num [List.range_succ]
    constructor
    · funext i
      rcases i with _ | _ | _ | _ | _ | i <;> simp
    · funext i
      rcases i with _ | _ | _ | _ | _ | i <;> norm_num; omega
  rw [e, hins, List.foldl_cons, List.foldl_cons, List.foldl_cons, List.foldl_nil]
  have a1 : ∀ j ∈ [1, 2, 3], Spec.p2Adjust Spec.p2Far down (fun i => 1 + ((spike 0).length : ℝ) * fractionAt [median] i)
      { n := fun i => [1, 2, 3, 4, 6].getD i (i + 2), q := fun i => ([0, 0, 0, 0, 1] : List ℝ).getD i 0 } j
      = { n := fun i => [1, 2, 3, 4, 6].getD i (i + 2), q := fun i => ([0, 0, 0, 0, 1] : List ℝ).getD i 0 } := by
    intro j hj
    simp only [List.mem_cons, List.not_mem_nil, or_false] at hj
    unfold Spec.p2Adjust Spec.p2Far
    rcases hj with rfl | rfl | rfl <;> norm_num [f1, f2, f3]
  rw [a1 1 (by simp), a1 2 (by simp), a1 3 (by simp)]

/-- Marker 3 leaves 0 with the seventh value. -/
theorem p2_published_two (down : (Nat → ℝ) → (Nat → ℝ) → Nat → ℝ) :
    Spec.p2 Spec.p2Far down 5 (fractionAt [median]) (spike 2)
      = { n := fun i => [1, 2, 3, 5, 7].getD i (i + 3), q := fun i => ([0, 0, 0, 1 / 6, 1] : List ℝ).getD i 0 } := by
  rw [spike_succ, Spec.p2_snoc _ _ _ (by simp), p2_published_one]
  unfold Spec.p2Push
  have e : List.range' 1 (5 - 2) = [1, 2, 3] := rfl
  obtain ⟨f1, f2, f3⟩ := fractionAt_median
  have hins : Spec.p2Insert 5 { n := fun i => [1, 2, 3, 4, 6].getD i (i + 2), q := fun i => ([0, 0, 0, 0, 1] : List ℝ).getD i 0 } 0
      = { n := fun i => [1, 2, 3, 4, 7].getD i (i + 3), q := fun i => ([0, 0, 0, 0, 1] : List ℝ).getD i 0 } := by
    unfold Spec.p2Insert Spec.p2Cell
    norm_num [List.range_succ]
    constructor
    · funext i
      rcases i with _ | _ | _ | _ | _ | i <;> simp
    · funext i
      rcases i with _ | _ | _ | _ | _ | i <;> norm_num; omega
  rw [e, hins, List.foldl_cons, List.foldl_cons, List.foldl_cons, List.foldl_nil]
  have a1 : ∀ j ∈ [1, 2], Spec.p2Adjust Spec.p2Far down (fun i => 1 + ((spike 1).length : ℝ) * fractionAt [median] i)
      { n := fun i => [1, 2, 3, 4, 7].getD i (i + 3), q := fun i => ([0, 0, 0, 0, 1] : List ℝ).getD i 0 } j
      = { n := fun i => [1, 2, 3, 4, 7].getD i (i + 3), q := fun i => ([0, 0, 0, 0, 1] : List ℝ).getD i 0 } := by
    intro j hj
    simp only [List.mem_cons, List.not_mem_nil, or_false] at hj
    unfold Spec.p2Adjust Spec.p2Far
    rcases hj with rfl | rfl <;> norm_num [f1, f2]
  rw [a1 1 (by simp), a1 2 (by simp)]
  unfold Spec.p2Adjust Spec.p2Far
  norm_num [f3, Spec.psquareParabolic]
  constructor
  · funext i
    rcases i with _ | _ | _ | _ | _ | i <;> simp [Function.update]
  · funext i
    rcases i with _ | _ | _ | _ | _ | i <;> norm_num [Function.update]
    omega

/-- Marker 2, the estimate of the median, leaves 0 with the eighth value. -/
theorem p2_published_three (down : (Nat → ℝ) → (Nat → ℝ) → Nat → ℝ) :
    (Spec.p2 Spec.p2Far down 5 (fractionAt [median]) (spike 3)).q 2 = 1 / 36 := by
  rw [spike_succ, Spec.p2_snoc _ _ _ (by simp), p2_published_two]
  unfold Spec.p2Push
  have e : List.range' 1 (5 - 2) = [1, 2, 3] := rfl
  obtain ⟨f1, f2, f3⟩ := fractionAt_median
  have hins : Spec.p2Insert 5 { n := fun i => [1, 2, 3, 5, 7].getD i (i + 3), q := fun i => ([0, 0, 0, 1 / 6, 1] : List ℝ).getD i 0 } 0
      = { n := fun i => [1, 2, 3, 6, 8].getD i (i + 4), q := fun i => ([0, 0, 0, 1 / 6, 1] : List ℝ).getD i 0 } := by
    unfold Spec.p2Insert Spec.p2Cell
    norm_num [List.range_succ]
    constructor
    · funext i
      rcases i with _ | _ | _ | _ | _ | i <;> simp
    · funext i
      rcases i with _ | _ | _ | _ | _ | i <;> norm_num; omega
  rw [e, hins, List.foldl_cons, List.foldl_cons, List.foldl_cons, List.foldl_nil, (p2Adjust_ne _ _ _ _ (by decide)).1]
  have a1 : Spec.p2Adjust Spec.p2Far down (fun i => 1 + ((spike 2).length : ℝ) * fractionAt [median] i)
      { n := fun i => [1, 2, 3, 6, 8].getD i (i + 4), q := fun i => ([0, 0, 0, 1 / 6, 1] : List ℝ).getD i 0 } 1
      = { n := fun i => [1, 2, 3, 6, 8].getD i (i + 4), q := fun i => ([0, 0, 0, 1 / 6, 1] : List ℝ).getD i 0 } := by
    unfold Spec.p2Adjust Spec.p2Far
    norm_num [f1]
  rw [a1]
  unfold Spec.p2Adjust Spec.p2Far
  norm_num [f2, Spec.psquareParabolic]

/-- C177, the published algorithm: from the eighth value on its estimate of the median is positive as well. -/
theorem C177_published (k : Nat) :
    0 < (Spec.p2 Spec.p2Far Spec.psquareLinearDown 5 (fractionAt [median]) (spike (k + 3))).q 2 := by
  have adjust : ∀ (d : Nat → ℝ) (m : Spec.P2) (i j : Nat), 1 ≤ i → i + 1 < 5 → ((∀ l < 5, 0 ≤ m.q l) ∧ 0 < m.q j) →
      (∀ l < 5, 0 ≤ (Spec.p2Adjust Spec.p2Far Spec.psquareLinearDown d m i).q l)
        ∧ 0 < (Spec.p2Adjust Spec.p2Far Spec.psquareLinearDown d m i).q j := by
    rintro d m i j h1 h2 ⟨h, hj⟩
    obtain ⟨a, b⟩ := p2Adjust_published (d := d) (h (i - 1) (by omega)) (h (i + 1) (by omega))
    constructor
    · intro l hl
      by_cases e : l = i
      · subst e; exact a (h l hl)
      · rw [(p2Adjust_ne _ _ _ _ e).1]; exact h l hl
    · by_cases e : j = i
      · subst e; exact b hj
      · rw [(p2Adjust_ne _ _ _ _ e).1]; exact hj
  have push : ∀ (N : Nat) (m : Spec.P2) (j : Nat), 1 ≤ j → j < 4 → ((∀ l < 5, 0 ≤ m.q l) ∧ 0 < m.q j) →
      (∀ l < 5, 0 ≤ (Spec.p2Push Spec.p2Far Spec.psquareLinearDown 5 (fractionAt [median]) N m 0).q l)
        ∧ 0 < (Spec.p2Push Spec.p2Far Spec.psquareLinearDown 5 (fractionAt [median]) N m 0).q j := by
    rintro N m j h1 h4 ⟨h, hj⟩
    unfold Spec.p2Push
    have e : List.range' 1 (5 - 2) = [1, 2, 3] := rfl
    rw [e, List.foldl_cons, List.foldl_cons, List.foldl_cons, List.foldl_nil]
    refine adjust _ _ 3 j (by omega) (by omega) (adjust _ _ 2 j (by omega) (by omega)
      (adjust _ _ 1 j (by omega) (by omega) ⟨fun l hl => ?_, ?_⟩))
    · have := h l hl
      simp only [Spec.p2Insert]
      split_ifs with e0 e1
      · exact le_min (h 0 (by omega)) le_rfl
      · exact le_max_right _ _
      · exact this
    · simp only [Spec.p2Insert]; rw [if_neg (by omega), if_neg (by omega)]; exact hj
  have h2 : ∀ l < 5, 0 ≤ (Spec.p2 Spec.p2Far Spec.psquareLinearDown 5 (fractionAt [median]) (spike 2)).q l := by
    rw [p2_published_two]
    intro l hl
    have : l = 0 ∨ l = 1 ∨ l = 2 ∨ l = 3 ∨ l = 4 := by omega
    rcases this with rfl | rfl | rfl | rfl | rfl <;> norm_num
  have h3 : (∀ l < 5, 0 ≤ (Spec.p2 Spec.p2Far Spec.psquareLinearDown 5 (fractionAt [median]) (spike 3)).q l)
      ∧ 0 < (Spec.p2 Spec.p2Far Spec.psquareLinearDown 5 (fractionAt [median]) (spike 3)).q 2 := by
    refine ⟨?_, by rw [p2_published_three]; norm_num⟩
    rw [spike_succ, Spec.p2_snoc _ _ _ (by simp)]
    exact (push _ _ 3 (by omega) (by omega) ⟨h2, by rw [p2_published_two]; norm_num⟩).1
  have all : (∀ l < 5, 0 ≤ (Spec.p2 Spec.p2Far Spec.psquareLinearDown 5 (fractionAt [median]) (spike (k + 3))).q l)
      ∧ 0 < (Spec.p2 Spec.p2Far Spec.psquareLinearDown 5 (fractionAt [median]) (spike (k + 3))).q 2 := by
    induction k with
    | zero => exact h3
    | succ k ih =>
      rw [show k + 1 + 3 = (k + 3) + 1 by omega, spike_succ, Spec.p2_snoc _ _ _ (by simp)]
      exact push _ _ 2 (by omega) (by omega) ih
  exact all.2

end Verif.Props
