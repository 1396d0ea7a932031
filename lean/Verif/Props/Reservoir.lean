import Verif.Proofs.Reservoir
import Mathlib.Tactic.FieldSimp
import Mathlib.Tactic.LinearCombination
import Mathlib.Data.Rat.Cast.Order
/-
C45 - C49: reservoir sampling.

Probabilities are ratios of numbers of equally likely outcomes of the generator: `Outcomes n` are the
outcomes of independent uniform draws from [0, 0], [0, 1], ..., [0, n - 1].
-/
namespace Verif.Props
open Verif.Reservoir Reservoir

variable {w : Nat} {β : Type}

/-! ### C45 -/

/-- C45: after `n` pushes `count()` is `n`, `size()` is `min(n, N)`, `data()` holds elements from
pairwise different positions of the input, and no access is out of range - whatever the random numbers. -/
theorem C45_reservoir {N : Nat} (hN : 1 ≤ N) (h4 : 4 * N < 2 ^ w) (xs : List (β × Draw w))
    (hv : ∀ x ∈ xs, x.2.Valid) (hn : xs.length < 2 ^ w) :
    ∃ (s : Reservoir w β) (ps : List Nat), Reservoir.run (BitVec.ofNat w N) (xs.map .push) = some s
      ∧ s.count.toNat = xs.length ∧ s.size = min xs.length N ∧ (s.empty = true ↔ xs = [])
      ∧ ps.Nodup ∧ (∀ i ∈ ps, i < xs.length) ∧ s.data.map some = ps.map fun i => (xs.map Prod.fst)[i]? := by
  obtain ⟨s, ps, hs, hi, h1, h2, h3⟩ := pushes_positions hN h4 xs hv hn
  refine ⟨s, ps, hs, by rw [Reservoir.count, hi.count_eq, toNat_ofNat_lt hn], hi.length_eq, ?_, h1, h2, h3⟩
  rw [Reservoir.empty, List.isEmpty_iff, ← List.length_eq_zero_iff, hi.length_eq, ← List.length_eq_zero_iff]
  omega

/-- C45: while at most `N` elements have been pushed the reservoir holds them all, in order. -/
theorem C45_fill {N : Nat} (hN : 1 ≤ N) (h4 : 4 * N < 2 ^ w) (xs : List (β × Draw w))
    (hv : ∀ x ∈ xs, x.2.Valid) (hn : xs.length ≤ N) :
    ∃ s : Reservoir w β, Reservoir.run (BitVec.ofNat w N) (xs.map .push) = some s
      ∧ s.data = xs.map Prod.fst := by
  have key : ∃ s : Reservoir w β, pushes N xs = some s ∧ Inv N xs.length s ∧ s.samples = xs.map Prod.fst := by
    induction xs using List.reverseRecOn with
    | nil => exact ⟨_, rfl, inv_init N, rfl⟩
    | append_singleton xs x ih =>
      rw [List.length_append, List.length_singleton] at hn
      obtain ⟨s, hs, hi, hk⟩ := ih (fun y hy => hv y (by simp [hy])) (by omega)
      obtain ⟨s', hs', hi', hsm, -⟩ := push_step hi hN h4 (by omega) x.1 (hv x (by simp))
      refine ⟨s', ?_, by simpa using hi', ?_⟩
      · rw [pushes_snoc, hs]; simp [hs']
      · rw [hsm, nextSamples, if_pos (by omega), hk]; simp
  obtain ⟨s, hs, -, hk⟩ := key
  exact ⟨s, hs, hk⟩

/-- A generator that always returns the largest allowed number. -/
def highDraw : Draw w := ⟨fun hi => hi, 0⟩
/-- A generator that always returns 0. -/
def lowDraw : Draw w := ⟨fun _ => 0, 0⟩
theorem highDraw_valid : (highDraw : Draw w).Valid := fun _ => BitVec.le_refl _
theorem lowDraw_valid : (lowDraw : Draw w).Valid := fun hi => by simp [lowDraw, BitVec.le_def]

/-- A reservoir of two: the third element is rejected, the fourth replaces the first. -/
example : (Reservoir.run (2 : SizeT 64)
    [.push (10, highDraw), .push (20, highDraw), .push (30, highDraw), .push (40, lowDraw)]).map
      (fun s : Reservoir 64 Nat => (s.data, s.count)) = some ([40, 20], 4) := by decide

example : ∃ (s : Reservoir 64 Nat) (ps : List Nat),
    Reservoir.run (BitVec.ofNat 64 2) ([(10, highDraw), (20, lowDraw), (30, lowDraw)].map .push) = some s
      ∧ s.count.toNat = 3 ∧ s.size = 2 ∧ ps.Nodup
      ∧ s.data.map some = ps.map fun i => [10, 20, 30][i]? := by
  obtain ⟨s, ps, h1, h2, h3, -, h4, -, h5⟩ := C45_reservoir (w := 64) (N := 2) (by norm_num) (by norm_num)
    [(10, highDraw), (20, lowDraw), (30, lowDraw)] (by
      intro x hx
      simp only [List.mem_cons, List.not_mem_nil, or_false] at hx
      rcases hx with rfl | rfl | rfl
      · exact highDraw_valid
      · exact lowDraw_valid
      · exact lowDraw_valid) (by norm_num)
  exact ⟨s, ps, h1, h2, h3, h4, h5⟩

/-! ### C46 -/

/-- C46: for every state and every generator: `true` means that the element has been appended or has
replaced exactly one element, `false` that the sample is unchanged. -/
theorem C46_push (s s' : Reservoir w β) (x : β) (d : Draw w) (r : Bool) (h : s.push x d = some (s', r)) :
    (r = true → (s'.data = s.data ++ [x] ∨ ∃ i < s.data.length, s'.data = s.data.set i x))
      ∧ (r = false → s'.data = s.data) ∧ s'.count = s.count + 1 := by
  unfold Reservoir.push at h
  dsimp only at h
  have ha : ∀ (i : SizeT w) (l : List β), Reservoir.assign s.samples i x = some l →
      i.toNat < s.samples.length ∧ l = s.samples.set i.toNat x := by
    intro i l hl
    unfold Reservoir.assign at hl
    split_ifs at hl with hlt
    exact ⟨hlt, (Option.some.inj hl).symm⟩
  split_ifs at h
  all_goals
    first
    | simp only [Option.map_eq_some_iff] at h
      obtain ⟨l, hl, he⟩ := h
      obtain ⟨h1, rfl⟩ := ha _ _ hl
      simp only [Prod.mk.injEq] at he
      obtain ⟨rfl, rfl⟩ := he
      exact ⟨fun _ => Or.inr ⟨_, h1, rfl⟩, by simp, rfl⟩
    | simp only [Option.some.injEq, Prod.mk.injEq] at h
      obtain ⟨rfl, rfl⟩ := h
      first
      | exact ⟨by simp, fun _ => rfl, rfl⟩
      | exact ⟨fun _ => Or.inl rfl, by simp, rfl⟩

/-- C46: for an element that was not in the sample before, `true` is returned exactly when it is there
afterwards. -/
theorem C46_truthful (s s' : Reservoir w β) (x : β) (d : Draw w) (r : Bool) (h : s.push x d = some (s', r))
    (hx : x ∉ s.data) : r = true ↔ x ∈ s'.data := by
  obtain ⟨h1, h2, -⟩ := C46_push s s' x d r h
  constructor
  · intro hr
    rcases h1 hr with e | ⟨i, hi, e⟩
    · rw [e]; simp
    · rw [e]; exact List.mem_set hi _
  · intro hm
    by_contra hr
    rw [h2 (by simpa using hr)] at hm
    exact hx hm

/-- C46: at most one previously held element is lost. -/
theorem C46_loses_one [DecidableEq β] (s s' : Reservoir w β) (x : β) (d : Draw w) (r : Bool)
    (h : s.push x d = some (s', r)) :
    ∃ y, ∀ z ∈ s.data, z ≠ y → z ∈ s'.data := by
  obtain ⟨h1, h2, -⟩ := C46_push s s' x d r h
  cases r with
  | false => exact ⟨x, fun z hz _ => by rw [h2 rfl]; exact hz⟩
  | true =>
    rcases h1 rfl with e | ⟨i, hi, e⟩
    · exact ⟨x, fun z hz _ => by rw [e]; exact List.mem_append_left _ hz⟩
    · refine ⟨s.data[i], fun z hz hne => ?_⟩
      rw [e]
      obtain ⟨k, hk, rfl⟩ := List.mem_iff_getElem.1 hz
      have hki : i ≠ k := by rintro rfl; exact hne rfl
      exact List.mem_iff_getElem.2 ⟨k, by simpa using hk, by rw [List.getElem_set_of_ne hki]⟩

example : (∃ s', (⟨2, 8, 3, 0, [10, 20]⟩ : Reservoir 64 Nat).push 40 lowDraw = some (s', true)
      ∧ s'.data = [40, 20])
    ∧ ∃ s', (⟨2, 8, 3, 0, [10, 20]⟩ : Reservoir 64 Nat).push 40 highDraw = some (s', false)
      ∧ s'.data = [10, 20] :=
  ⟨⟨⟨2, 8, 4, 0, [40, 20]⟩, rfl, rfl⟩, ⟨⟨2, 8, 4, 0, [10, 20]⟩, rfl, rfl⟩⟩

/-! ### C47 -/

/-- The generator of push number `j` returns `k` when asked for a number in `[0, j]`, and is well
behaved. -/
def Draws (d : Draw w) (j k : Nat) : Prop :=
  d.Valid ∧ d.uniform (BitVec.ofNat w j) = BitVec.ofNat w k

open Classical in
/-- C47: for `N <= n <= 4N` the number of outcomes for which position `i` ends up in the sample is `N/n`
of all outcomes. -/
theorem C47_uniform {N n : Nat} (hN : 1 ≤ N) (h4 : 4 * N < 2 ^ w) (h1 : N ≤ n) (h2 : n ≤ 4 * N)
    (D : (j : Fin n) → Fin (j.val + 1) → Draw w) (hD : ∀ j k, Draws (D j k) j k) {i : Nat} (hi : i < n) :
    ((Finset.univ.filter fun ω : Outcomes n => ∃ s : Reservoir w Nat,
        Reservoir.run (BitVec.ofNat w N) ((stream fun j => D j (ω j)).map .push) = some s ∧ i ∈ s.data).card : ℚ)
      / Fintype.card (Outcomes n) = N / n := by
  have e : (Finset.univ.filter fun ω : Outcomes n => ∃ s : Reservoir w Nat,
        Reservoir.run (BitVec.ofNat w N) ((stream fun j => D j (ω j)).map .push) = some s ∧ i ∈ s.data).card
      = hits N n i := by
    rw [hits_eq_card]
    congr 1
    ext ω
    simp only [Finset.mem_filter, Finset.mem_univ, true_and]
    obtain ⟨s, hs, -, hk, -⟩ := pushes_kept hN h4 n h2 (fun j => D j (ω j)) ω
      (fun j => (hD j _).1) (fun j => (hD j _).2)
    rw [← hk]
    constructor
    · rintro ⟨t, ht, hm⟩
      rw [pushes, ht] at hs
      rw [← Option.some.inj hs]; exact hm
    · intro hm
      exact ⟨s, hs, hm⟩
  have hh := hits_eq h1 hi
  rw [e, card_outcomes]
  have hn0 : (n : ℚ) ≠ 0 := by exact_mod_cast (by omega : n ≠ 0)
  have hf : (n.factorial : ℚ) ≠ 0 := by exact_mod_cast n.factorial_ne_zero
  rw [div_eq_div_iff hf hn0]
  have : ((n * hits N n i : Nat) : ℚ) = ((N * n.factorial : Nat) : ℚ) := by rw [hh]
  push_cast at this
  linarith

open Classical in
/-- C47, stronger: all `N`-element subsets of the `n` positions are equally likely. -/
theorem C47_subsets {N n : Nat} (hN : 1 ≤ N) (h4 : 4 * N < 2 ^ w) (h1 : N ≤ n) (h2 : n ≤ 4 * N)
    (D : (j : Fin n) → Fin (j.val + 1) → Draw w) (hD : ∀ j k, Draws (D j k) j k)
    {S : Finset Nat} (hS : S ⊆ Finset.range n) (hc : S.card = N) :
    ((Finset.univ.filter fun ω : Outcomes n => ∃ s : Reservoir w Nat,
        Reservoir.run (BitVec.ofNat w N) ((stream fun j => D j (ω j)).map .push) = some s
          ∧ s.data.toFinset = S).card : ℚ)
      / Fintype.card (Outcomes n) = 1 / n.choose N := by
  have e : (Finset.univ.filter fun ω : Outcomes n => ∃ s : Reservoir w Nat,
        Reservoir.run (BitVec.ofNat w N) ((stream fun j => D j (ω j)).map .push) = some s
          ∧ s.data.toFinset = S).card = hitsSet N n S := by
    rw [hitsSet, ← Finset.card_filter]
    congr 1
    ext ω
    simp only [Finset.mem_filter, Finset.mem_univ, true_and]
    obtain ⟨s, hs, -, hk, -⟩ := pushes_kept hN h4 n h2 (fun j => D j (ω j)) ω
      (fun j => (hD j _).1) (fun j => (hD j _).2)
    rw [← hk]
    constructor
    · rintro ⟨t, ht, hm⟩
      rw [pushes, ht] at hs
      rw [← Option.some.inj hs, ← hm]; rfl
    · intro hm
      exact ⟨s, hs, hm⟩
  have hh := hitsSet_eq hN h1 hS hc
  rw [e, card_outcomes]
  have hn0 : (n.choose N : ℚ) ≠ 0 := by exact_mod_cast (Nat.choose_pos h1).ne'
  have hf : (n.factorial : ℚ) ≠ 0 := by exact_mod_cast n.factorial_ne_zero
  rw [div_eq_div_iff hf hn0]
  have : ((n.choose N * hitsSet N n S : Nat) : ℚ) = ((n.factorial : Nat) : ℚ) := by rw [hh]
  push_cast at this
  linarith

/-- Such generators exist. -/
def fixedDraw (g : SizeT w) (k : Nat) : Draw w :=
  ⟨fun hi => if BitVec.ofNat w k ≤ hi then BitVec.ofNat w k else 0, g⟩

theorem fixedDraw_valid (g : SizeT w) (k : Nat) : (fixedDraw g k).Valid := by
  intro hi
  unfold fixedDraw
  simp only
  split_ifs with h
  · exact h
  · simp [BitVec.le_def]

theorem fixedDraw_draws (g : SizeT w) {j k : Nat} (hk : k ≤ j) (hj : j < 2 ^ w) : Draws (fixedDraw g k) j k := by
  refine ⟨fixedDraw_valid g k, if_pos ?_⟩
  rw [BitVec.le_def, toNat_ofNat_lt hj, toNat_ofNat_lt (by omega)]
  exact hk

open Classical in
/-- A reservoir of 2 after 5 elements: the element at position 0 is kept with probability 2/5. -/
example : ((Finset.univ.filter fun ω : Outcomes 5 => ∃ s : Reservoir 64 Nat,
      Reservoir.run (BitVec.ofNat 64 2) ((stream fun j => fixedDraw 0 (ω j)).map .push) = some s
        ∧ 0 ∈ s.data).card : ℚ) / Fintype.card (Outcomes 5) = (2 : ℕ) / (5 : ℕ) :=
  C47_uniform (by norm_num) (by norm_num) (by norm_num) (by norm_num) (fun _ k => fixedDraw 0 k)
    (fun j k => fixedDraw_draws 0 (Nat.lt_succ_iff.1 k.isLt) (by have := j.isLt; omega)) (by norm_num)

/-! ### C48 -/

/-- The generator of push number `4N + t` returns slot `k` when asked for a number in `[0, N-1]` and
`g` when asked for a skip count. -/
def DrawsLate (d : Draw w) (N k : Nat) (g : SizeT w) : Prop :=
  d.Valid ∧ d.uniform (BitVec.ofNat w N - 1) = BitVec.ofNat w k ∧ d.geometric = g

open Classical in
/-- Number of outcomes for which position `i` is in the sample after `4N + m` pushes. -/
noncomputable def lateCount (N m i : Nat) (D : (j : Fin (4 * N)) → Fin (j.val + 1) → Draw w)
    (D2 : Fin m → Fin N → Draw w) : ℕ :=
  (Finset.univ.filter fun p : Outcomes (4 * N) × (Fin m → Fin N) => ∃ s : Reservoir w Nat,
    Reservoir.run (BitVec.ofNat w N)
      ((stream (fun j => D j (p.1 j)) ++ lateStream N fun t => D2 t (p.2 t)).map .push) = some s
    ∧ i ∈ s.data).card

theorem lateCount_eq {N : Nat} (hN : 1 ≤ N) (h4 : 4 * N < 2 ^ w) (m i : Nat) (hm : 4 * N + m < 2 ^ w)
    (D : (j : Fin (4 * N)) → Fin (j.val + 1) → Draw w) (hD : ∀ j k, Draws (D j k) j k)
    (g : Nat → SizeT w) (D2 : Fin m → Fin N → Draw w) (hD2 : ∀ t k, DrawsLate (D2 t k) N k (g t)) :
    lateCount N m i D D2 = ∑ ω : Outcomes (4 * N), lateHits g N (kept N (4 * N) ω) m i := by
  classical
  unfold lateCount lateHits
  rw [Finset.card_filter, Fintype.sum_prod_type]
  refine Finset.sum_congr rfl fun ω _ => Finset.sum_congr rfl fun κ _ => ?_
  obtain ⟨s, hs, -, hk, -⟩ := pushes_late hN h4 (fun j => D j (ω j)) ω (fun j => (hD j _).1)
    (fun j => (hD j _).2) g m hm (fun t => D2 t (κ t)) κ (fun t => (hD2 t _).1) (fun t => (hD2 t _).2.1)
    (fun t => (hD2 t _).2.2)
  rw [← hk]
  have : (∃ s : Reservoir w Nat, Reservoir.run (BitVec.ofNat w N)
      ((stream (fun j => D j (ω j)) ++ lateStream N fun t => D2 t (κ t)).map .push) = some s
    ∧ i ∈ s.data) ↔ i ∈ s.samples := by
    constructor
    · rintro ⟨t, ht, hmem⟩
      rw [pushes, ht] at hs
      rw [← Option.some.inj hs]; exact hmem
    · intro hmem
      exact ⟨s, hs, hmem⟩
  by_cases h : i ∈ s.samples
  · rw [if_pos h, if_pos (this.2 h)]
  · rw [if_neg h, if_neg (fun h' => h (this.1 h'))]

/-- C48 (full statement, false): beyond the threshold every position is in the sample with probability
`N/n`; here for given results `g` of the geometric draws. -/
def UniformBeyond (w : Nat) (g : Nat → SizeT w) : Prop :=
  ∀ (N m i : Nat) (D : (j : Fin (4 * N)) → Fin (j.val + 1) → Draw w) (D2 : Fin m → Fin N → Draw w),
    1 ≤ N → 4 * N + m < 2 ^ w → (∀ j k, Draws (D j k) j k) → (∀ t k, DrawsLate (D2 t k) N k (g t)) →
    i < 4 * N + m →
    (lateCount N m i D D2 : ℚ) / Fintype.card (Outcomes (4 * N) × (Fin m → Fin N)) = N / (4 * N + m : ℕ)

/-- The element at position `4N` is always accepted, whatever the random numbers are (the skip count is
still 0 when the threshold is reached). -/
theorem C48_always_accepted {N : Nat} (hN : 1 ≤ N) (h4 : 4 * N + 1 < 2 ^ w) (xs : List (β × Draw w))
    (hv : ∀ y ∈ xs, y.2.Valid) (hn : xs.length = 4 * N) (x : β) (d : Draw w) (hd : d.Valid) :
    ∃ s s' : Reservoir w β, Reservoir.run (BitVec.ofNat w N) (xs.map .push) = some s
      ∧ s.push x d = some (s', true) ∧ x ∈ s'.data := by
  have key : ∀ l : List (β × Draw w), (∀ y ∈ l, y.2.Valid) → l.length ≤ 4 * N →
      ∃ s : Reservoir w β, pushes N l = some s ∧ Inv N l.length s ∧ s.skipCount = 0 := by
    intro l
    induction l using List.reverseRecOn with
    | nil => exact fun _ _ => ⟨_, rfl, inv_init N, rfl⟩
    | append_singleton l y ih =>
      intro hl hlen
      rw [List.length_append, List.length_singleton] at hlen
      obtain ⟨s, hs, hi, hk⟩ := ih (fun z hz => hl z (by simp [hz])) (by omega)
      obtain ⟨s', hs', hi', -, hsk⟩ := push_step hi hN (by omega) (by omega) y.1 (hl y (by simp))
      refine ⟨s', ?_, by simpa using hi', by rw [hsk, if_pos (by omega), hk]⟩
      rw [pushes_snoc, hs]; simp [hs']
  obtain ⟨s, hs, hi, hk⟩ := key xs hv (by omega)
  rw [hn] at hi
  obtain ⟨s', hs', hi', hsm, -⟩ := push_step hi hN (by omega) h4 x hd
  have hr : nextResult N (4 * N) s d = true := by
    rw [nextResult, if_neg (by omega), if_neg (by omega), hk]; rfl
  rw [hr] at hs'
  refine ⟨s, s', hs, hs', ?_⟩
  rw [Reservoir.data, hsm, nextSamples, if_neg (by omega), if_neg (by omega), if_pos hk]
  apply List.mem_set
  have hvd := hd (BitVec.ofNat w N - 1)
  rw [BitVec.le_def, ofNat_sub_one hN, toNat_ofNat_lt (by omega)] at hvd
  rw [hi.length_eq, ofNat_sub_one hN]
  omega

/-- C48 (partial): the exact probabilities after `4N + m` pushes for given results of the geometric
draws. With `a` acceptances in total, an element from before the threshold is in the sample with
probability `1/4 * ((N-1)/N)^a`; an element accepted later with probability `((N-1)/N)^b`, where `b` is the
number of acceptances after it. Missing: uniformity, which does not hold (`C48_violated`). -/
theorem C48_probabilities_partial {N : Nat} (hN : 1 ≤ N) (m : Nat) (hm : 4 * N + m < 2 ^ w)
    (D : (j : Fin (4 * N)) → Fin (j.val + 1) → Draw w) (hD : ∀ j k, Draws (D j k) j k)
    (g : Nat → SizeT w) (D2 : Fin m → Fin N → Draw w) (hD2 : ∀ t k, DrawsLate (D2 t k) N k (g t)) :
    (∀ i < 4 * N, (lateCount N m i D D2 : ℚ) / Fintype.card (Outcomes (4 * N) × (Fin m → Fin N))
        = 1 / 4 * ((N - 1) / N) ^ accepted g 0 m)
    ∧ (∀ t < m, (lateCount N m (4 * N + t) D D2 : ℚ) / Fintype.card (Outcomes (4 * N) × (Fin m → Fin N))
        = if skipAt g t = 0 then ((N - 1 : ℚ) / N) ^ accepted g (t + 1) m else 0) := by
  have hN0 : (N : ℚ) ≠ 0 := by exact_mod_cast (by omega : N ≠ 0)
  have hf : (((4 * N).factorial : ℕ) : ℚ) ≠ 0 := by exact_mod_cast (4 * N).factorial_ne_zero
  have hcard : (Fintype.card (Outcomes (4 * N) × (Fin m → Fin N)) : ℚ) = (4 * N).factorial * (N : ℚ) ^ m := by
    rw [Fintype.card_prod, card_outcomes, Fintype.card_fun, Fintype.card_fin, Fintype.card_fin]
    push_cast; ring
  have hk : ∀ ω : Outcomes (4 * N), (kept N (4 * N) ω).length = N ∧ (kept N (4 * N) ω).Nodup
      ∧ ∀ i ∈ kept N (4 * N) ω, i < 4 * N := by
    intro ω
    obtain ⟨h1, h2, h3⟩ := kept_spec N (4 * N) ω
    exact ⟨by rw [h1]; omega, h2, h3⟩
  have hcast : ((N - 1 : ℕ) : ℚ) = (N : ℚ) - 1 := by
    rw [Nat.cast_sub hN, Nat.cast_one]
  refine ⟨fun i hi => ?_, fun t ht => ?_⟩
  · have hsum : N ^ accepted g 0 m * lateCount N m i D D2
        = (N - 1) ^ accepted g 0 m * N ^ m * hits N (4 * N) i := by
      rw [lateCount_eq hN (by omega) m i hm D hD g D2 hD2, Finset.mul_sum, hits, Finset.mul_sum]
      exact Finset.sum_congr rfl fun ω _ => lateHits_old g (hk ω).1 (hk ω).2.1 (hk ω).2.2 m hi
    have hh := hits_eq (N := N) (n := 4 * N) (by omega) hi
    have h1 : ((N ^ accepted g 0 m * lateCount N m i D D2 : ℕ) : ℚ)
        = (((N - 1) ^ accepted g 0 m * N ^ m * hits N (4 * N) i : ℕ) : ℚ) := by rw [hsum]
    have h2 : ((4 * N * hits N (4 * N) i : ℕ) : ℚ) = ((N * (4 * N).factorial : ℕ) : ℚ) := by rw [hh]
    push_cast at h1 h2
    rw [hcast] at h1
    have h3 : (hits N (4 * N) i : ℚ) = (4 * N).factorial / 4 := by
      have : (N : ℚ) * (4 * hits N (4 * N) i) = N * (4 * N).factorial := by linarith
      have := mul_left_cancel₀ hN0 this
      linarith
    rw [h3] at h1
    rw [hcard, div_pow]
    have hNa : (N : ℚ) ^ accepted g 0 m ≠ 0 := pow_ne_zero _ hN0
    have hNm : (N : ℚ) ^ m ≠ 0 := pow_ne_zero _ hN0
    field_simp
    linear_combination 4 * h1
  · have hsum : N ^ accepted g (t + 1) m * lateCount N m (4 * N + t) D D2
        = (4 * N).factorial * ((N - 1) ^ accepted g (t + 1) m * N ^ m * if skipAt g t = 0 then 1 else 0) := by
      rw [lateCount_eq hN (by omega) m _ hm D hD g D2 hD2, Finset.mul_sum]
      rw [Finset.sum_congr rfl fun ω _ => lateHits_new g (hk ω).1 (hk ω).2.1 (hk ω).2.2 ht]
      rw [Finset.sum_const, Finset.card_univ, card_outcomes, smul_eq_mul]
    have h1 : ((N ^ accepted g (t + 1) m * lateCount N m (4 * N + t) D D2 : ℕ) : ℚ)
        = (((4 * N).factorial * ((N - 1) ^ accepted g (t + 1) m * N ^ m * if skipAt g t = 0 then 1 else 0) : ℕ) : ℚ) := by
      rw [hsum]
    push_cast at h1
    rw [hcast] at h1
    have hNa : (N : ℚ) ^ accepted g (t + 1) m ≠ 0 := pow_ne_zero _ hN0
    have hNm : (N : ℚ) ^ m ≠ 0 := pow_ne_zero _ hN0
    rw [hcard, div_pow]
    split_ifs at h1 ⊢
    · field_simp
      linear_combination h1
    · rw [mul_zero, mul_zero] at h1
      rcases mul_eq_zero.1 h1 with h | h
      · exact absurd h hNa
      · rw [h, zero_div]

/-- C48 is violated for every reservoir size and every result of the geometric draws: after `4N + 1`
pushes the last element is in the sample with probability 1 instead of `N / (4N + 1)`. -/
theorem C48_violated (hw : 3 ≤ w) (g : Nat → SizeT w) : ¬ UniformBeyond w g := by
  intro h
  have h8 : 8 ≤ 2 ^ w := by
    calc 8 = 2 ^ 3 := by norm_num
      _ ≤ 2 ^ w := Nat.pow_le_pow_right (by norm_num) hw
  have hD : ∀ (j : Fin (4 * 1)) (k : Fin (j.val + 1)), Draws (fixedDraw 0 k : Draw w) j k := fun j k =>
    fixedDraw_draws 0 (Nat.lt_succ_iff.1 k.isLt) (by have := j.isLt; omega)
  have hD2 : ∀ (t : Fin 1) (k : Fin 1), DrawsLate (fixedDraw (g t) k : Draw w) 1 k (g t) := by
    intro t k
    refine ⟨fixedDraw_valid _ _, ?_, rfl⟩
    have hk : k.val = 0 := by omega
    rw [hk]
    simp [fixedDraw, BitVec.le_def]
  have h1 := h 1 1 (4 * 1 + 0) (fun _ k => fixedDraw 0 k) (fun t k => fixedDraw (g t) k) (le_refl 1)
    (by omega) hD hD2 (by norm_num)
  have h2 := (C48_probabilities_partial (N := 1) (le_refl 1) 1 (by omega) (fun _ k => fixedDraw 0 k) hD g
    (fun t k => fixedDraw (g t) k) hD2).2 0 (by norm_num)
  rw [h2] at h1
  simp [skipAt, accepted] at h1

/-! ### C49 -/

/-- C49 (full statement, false): after `clear()` the reservoir is like a new one. -/
def ReservoirClearResets (w : Nat) (β : Type) : Prop :=
  ∀ (N : Nat) (pre post : List (Op (β × Draw w))), 1 ≤ N → 4 * N < 2 ^ w →
    (Reservoir.run (BitVec.ofNat w N) (pre ++ .clear :: post)).map (fun s => (s.data, s.count))
      = (Reservoir.run (BitVec.ofNat w N) post).map fun s => (s.data, s.count)

/-- C49 is violated: a reservoir of one holds one element after `clear()`, and two after one more push. -/
theorem C49_violated : ¬ ReservoirClearResets 64 Nat := by
  intro h
  have := h 1 [.push (5, lowDraw)] [] (by norm_num) (by norm_num)
  exact absurd this (by decide)

theorem C49_grows : (Reservoir.run (1 : SizeT 64) [.push (5, lowDraw), .clear, .push (6, lowDraw)]).map
    (fun s : Reservoir 64 Nat => s.data) = some [5, 6] := by decide

/-- The sample of a reservoir that is filled and cleared `k` times holds `k * N` elements. -/
theorem C49_unbounded {N : Nat} (h4 : 4 * N < 2 ^ w) (x : β) (d : Draw w) (k : Nat) :
    ∃ s : Reservoir w β, Reservoir.run (BitVec.ofNat w N)
        (List.replicate k (List.replicate N (.push (x, d)) ++ [.clear])).flatten = some s
      ∧ s.size = k * N := by
  have fill : ∀ (n : Nat), n ≤ N → ∀ s : Reservoir w β, s.sampleSize = BitVec.ofNat w N →
      s.threshold = BitVec.ofNat w (4 * N) → s.sampleCount = 0 →
      ∃ s' : Reservoir w β, runOps (some s) (fun s x => s.bind fun s => (s.push x.1 x.2).map Prod.fst)
          (Option.map Reservoir.clear) (List.replicate n (.push (x, d))) = some s'
        ∧ s'.sampleSize = BitVec.ofNat w N ∧ s'.threshold = BitVec.ofNat w (4 * N)
        ∧ s'.sampleCount = BitVec.ofNat w n ∧ s'.samples.length = s.samples.length + n := by
    intro n
    induction n with
    | zero => exact fun _ s h1 h2 h3 => ⟨s, rfl, h1, h2, h3, rfl⟩
    | succ n ih =>
      intro hn s h1 h2 h3
      obtain ⟨s', hs', a, b, c, e⟩ := ih (by omega) s h1 h2 h3
      have g4 : ¬ s'.sampleCount ≥ s'.threshold := by
        rw [c, b, ofNat_ge_iff (by omega) h4]; omega
      have g1 : ¬ s'.sampleCount ≥ s'.sampleSize := by
        rw [c, a, ofNat_ge_iff (by omega) (by omega)]; omega
      refine ⟨{ s' with samples := s'.samples ++ [x], sampleCount := s'.sampleCount + 1 }, ?_, a, b, ?_, ?_⟩
      · rw [List.replicate_succ', runOps_append, hs']
        show (s'.push x d).map Prod.fst = _
        rw [Reservoir.push, if_neg g4, if_neg g1]
        rfl
      · rw [c]; exact ofNat_add_one _ _
      · simp [e]; omega
  suffices ∃ s : Reservoir w β, Reservoir.run (BitVec.ofNat w N)
        (List.replicate k (List.replicate N (.push (x, d)) ++ [.clear])).flatten = some s
      ∧ s.size = k * N ∧ s.sampleSize = BitVec.ofNat w N ∧ s.threshold = BitVec.ofNat w (4 * N)
      ∧ s.sampleCount = 0 by
    obtain ⟨s, hs, h, -⟩ := this
    exact ⟨s, hs, h⟩
  induction k with
  | zero =>
    have hi := inv_init (w := w) (β := β) N
    exact ⟨_, rfl, by simp [Reservoir.size, Reservoir.init], hi.size_eq, hi.threshold_eq, rfl⟩
  | succ k ih =>
    obtain ⟨s, hs, h1, h2, h3, h5⟩ := ih
    obtain ⟨s', hs', a, b, c, e⟩ := fill N (le_refl N) s h2 h3 h5
    refine ⟨s'.clear, ?_, ?_, a, b, rfl⟩
    · rw [List.replicate_succ', List.flatten_append]
      unfold Reservoir.run at hs ⊢
      rw [runOps_append, hs]
      simp only [List.flatten_cons, List.flatten_nil, List.append_nil]
      rw [runOps_append, hs']
      rfl
    · show s'.samples.length = _
      rw [e]
      rw [Reservoir.size] at h1
      rw [h1]; ring

/-- C49 (partial): `clear()` resets everything but the sample itself; in particular `count()`.  `empty()` and
`size()` still tell what was in the sample. -/
theorem C49_clear_partial (s : Reservoir w β) :
    ({ s.clear with samples := [] } : Reservoir w β) = { Reservoir.init s.sampleSize with threshold := s.threshold }
      ∧ s.clear.count = 0 ∧ s.clear.data = s.data ∧ s.clear.empty = s.data.isEmpty ∧ s.clear.size = s.data.length :=
  ⟨rfl, rfl, rfl, rfl, rfl⟩

example : (Reservoir.run (1 : SizeT 64) [.push (5, lowDraw), .clear]).map (fun s : Reservoir 64 Nat => s.empty) = some false := by decide

end Verif.Props
