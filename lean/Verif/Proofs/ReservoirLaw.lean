import Verif.Proofs.Reservoir
import Mathlib.Algebra.BigOperators.Ring.Finset
import Mathlib.Algebra.Order.BigOperators.Ring.Finset
import Mathlib.Algebra.Order.Field.Rat
import Mathlib.Data.Rat.Cast.Order
import Mathlib.Tactic.FieldSimp
import Mathlib.Tactic.LinearCombination
import Mathlib.Tactic.Positivity
/-
The law of the reservoir under an ideal generator: the uniform draw is uniform on its range, the geometric
draw follows the geometric distribution with the parameter given by the code, and all draws are
independent.
-/
set_option linter.dupNamespace false

namespace Verif.Reservoir

variable {w : Nat} {β : Type}

/-- The random numbers of one push in which the uniform draw gives `u` (or 0, where `u` is out of range)
and the geometric draw gives `g`. -/
def drawOf (w u g : Nat) : Draw w :=
  ⟨fun hi => if BitVec.ofNat w u ≤ hi then BitVec.ofNat w u else 0, BitVec.ofNat w g⟩

theorem drawOf_valid (u g : Nat) : (drawOf w u g).Valid := by
  intro hi
  unfold drawOf
  simp only
  split_ifs with h
  · exact h
  · simp [BitVec.le_def]

theorem drawOf_uniform {u g m : Nat} (h : u ≤ m) (hm : m < 2 ^ w) :
    (drawOf w u g).uniform (BitVec.ofNat w m) = BitVec.ofNat w u := by
  unfold drawOf
  simp only
  rw [if_pos]
  rw [BitVec.le_def, toNat_ofNat_lt hm, toNat_ofNat_lt (by omega)]
  exact h

/-- Probability of `k` in the geometric distribution with parameter `p`, `p * (1 - p)^k`, where all numbers
from `K` on are reported as `K`. -/
def geoLaw (K : Nat) (p : ℚ) (k : Nat) : ℚ := if k < K then p * (1 - p) ^ k else (1 - p) ^ K

/-- The expected value of `f` after pushing the elements `xs`: the average over all values of the uniform
draw and the weighted sum over all values of the geometric draw, for each push.  Undefined behaviour
contributes 0. -/
def expect (f : Reservoir w β → ℚ) : List β → Reservoir w β → ℚ
  | [], s => f s
  | x :: xs, s =>
    (∑ u ∈ Finset.range (s.uniformMax.toNat + 1), ∑ g ∈ Finset.range (2 ^ w),
      geoLaw (2 ^ w - 1) s.geometricParam g *
        match s.push x (drawOf w u g) with
        | some r => expect f xs r.1
        | none => 0) / (s.uniformMax.toNat + 1)

/-- The probability that the element at position `i` is in the sample after pushing `n` elements to a new
reservoir of size `N`. -/
def inclusion (w N n i : Nat) : ℚ :=
  expect (fun s : Reservoir w Nat => if i ∈ s.data then 1 else 0) (List.range n)
    (Reservoir.init (BitVec.ofNat w N))

/-- Average of a function of the skip count. -/
def geoMean (K : Nat) (p : ℚ) (F : Nat → ℚ) : ℚ := ∑ g ∈ Finset.range (K + 1), geoLaw K p g * F g

theorem geoMean_zero (p : ℚ) (F : Nat → ℚ) : geoMean 0 p F = F 0 := by
  simp [geoMean, geoLaw]

/-- The geometric distribution has no memory. -/
theorem geoMean_succ (K : Nat) (p : ℚ) (F : Nat → ℚ) :
    geoMean (K + 1) p F = p * F 0 + (1 - p) * geoMean K p fun g => F (g + 1) := by
  unfold geoMean
  rw [Finset.sum_range_succ', Finset.mul_sum, add_comm]
  congr 1
  · simp [geoLaw]
  · refine Finset.sum_congr rfl fun g _ => ?_
    unfold geoLaw
    by_cases h : g < K
    · rw [if_pos h, if_pos (by omega), pow_succ]; ring
    · rw [if_neg h, if_neg (by omega), pow_succ]; ring

theorem geoMean_const (K : Nat) (p c : ℚ) : geoMean K p (fun _ => c) = c := by
  induction K with
  | zero => exact geoMean_zero p _
  | succ K ih => rw [geoMean_succ, ih]; ring

theorem geoMean_mul (K : Nat) (p c : ℚ) (F : Nat → ℚ) : geoMean K p (fun g => c * F g) = c * geoMean K p F := by
  unfold geoMean
  rw [Finset.mul_sum]
  exact Finset.sum_congr rfl fun g _ => by ring

theorem geoMean_congr {K : Nat} {p : ℚ} {F G : Nat → ℚ} (h : ∀ g ≤ K, F g = G g) : geoMean K p F = geoMean K p G :=
  Finset.sum_congr rfl fun g hg => by rw [h g (by have := Finset.mem_range.1 hg; omega)]

/-! ### Survival of an element of the sample -/

/-- Probability that an element of the sample is still there after `m` pushes, if `n` elements were pushed
before and the skip count is `k`. -/
def ret (K N : Nat) : (m n k : Nat) → ℚ
  | 0, _, _ => 1
  | m + 1, n, k =>
    if n < N then ret K N m (n + 1) k
    else if n < 4 * N then (n : ℚ) / (n + 1) * ret K N m (n + 1) k
    else if k = 0 then (1 - 1 / (N : ℚ)) * geoMean K ((N : ℚ) / n) fun g => ret K N m (n + 1) g
    else ret K N m (n + 1) (k - 1)

/-- Probability that the last of `m + 1` pushed elements is accepted, if `n` elements were pushed before and
the skip count is `k`. -/
def acc (K N : Nat) : (m n k : Nat) → ℚ
  | 0, n, k => if n < N then 1 else if n < 4 * N then (N : ℚ) / (n + 1) else if k = 0 then 1 else 0
  | m + 1, n, k =>
    if n < 4 * N then acc K N m (n + 1) k
    else if k = 0 then geoMean K ((N : ℚ) / n) fun g => acc K N m (n + 1) g
    else acc K N m (n + 1) (k - 1)

/-! ### Bounds -/

theorem ret_nonneg_le {K N : Nat} (hN : 1 ≤ N) : ∀ m n k : Nat, 0 ≤ ret K N m n k := by
  intro m
  induction m with
  | zero => intro n k; rw [ret]; norm_num
  | succ m ih =>
    intro n k
    have hN1 : (1 : ℚ) ≤ N := by exact_mod_cast hN
    rw [ret]
    split_ifs with h1 h2 h3
    · exact ih _ _
    · exact mul_nonneg (by positivity) (ih _ _)
    · refine mul_nonneg (by rw [sub_nonneg, div_le_one (by linarith)]; exact hN1) (Finset.sum_nonneg fun g _ => ?_)
      have hnN : (4 : ℚ) * N ≤ n := by exact_mod_cast (by omega : 4 * N ≤ n)
      have hp1 : (N : ℚ) / n ≤ 1 := by rw [div_le_one (by linarith)]; linarith
      refine mul_nonneg ?_ (ih _ _)
      unfold geoLaw
      split_ifs
      · exact mul_nonneg (by positivity) (pow_nonneg (by linarith) _)
      · exact pow_nonneg (by linarith) _
    · exact ih _ _

/-- With a hazard `p` above the fair one, an element survives `m` pushes with less than the fair
probability. -/
theorem geoMean_ret_le {K0 N : Nat} (hN : 1 ≤ N) : ∀ (m n K : Nat) (p : ℚ), 4 * N ≤ n → m ≤ K → m ≤ K0 →
    (N : ℚ) / (n + 1) ≤ p → p ≤ 1 →
    geoMean K p (fun g => ret K0 N m n g) ≤ (n : ℚ) / (n + m) := by
  intro m
  have hN1 : (1 : ℚ) ≤ N := by exact_mod_cast hN
  induction m with
  | zero =>
    intro n K p hn _ _ _ _
    have : (0 : ℚ) < n := by exact_mod_cast (by omega : 0 < n)
    simp only [ret]
    rw [geoMean_const, Nat.cast_zero, add_zero, div_self this.ne']
  | succ m ih =>
    intro n K p hn hK hK0 hp hp1
    obtain ⟨K, rfl⟩ : ∃ K', K = K' + 1 := ⟨K - 1, by omega⟩
    have hnq : (4 : ℚ) * N ≤ n := by exact_mod_cast hn
    have hn0 : (0 : ℚ) < n := by linarith
    have hp0 : 0 ≤ p := le_trans (by positivity) hp
    rw [geoMean_succ]
    have e0 : ret K0 N (m + 1) n 0
        = (1 - 1 / (N : ℚ)) * geoMean K0 ((N : ℚ) / n) fun g => ret K0 N m (n + 1) g := by
      rw [ret, if_neg (by omega), if_neg (by omega), if_pos rfl]
    have e1 : (fun g => ret K0 N (m + 1) n (g + 1)) = fun g => ret K0 N m (n + 1) g := by
      funext g
      rw [ret, if_neg (by omega), if_neg (by omega), if_neg (by omega)]
      rfl
    rw [e0, e1]
    have hfrac : (N : ℚ) / (((n + 1 : ℕ) : ℚ) + 1) ≤ (N : ℚ) / (n + 1) := by
      push_cast
      exact div_le_div_of_nonneg_left (by linarith) (by linarith) (by linarith)
    have b1 := ih (n + 1) K0 ((N : ℚ) / n) (by omega) (by omega) (by omega)
      (hfrac.trans (div_le_div_of_nonneg_left (by linarith) (by linarith) (by linarith)))
      (by rw [div_le_one hn0]; linarith)
    have b2 := ih (n + 1) K p (by omega) (by omega) (by omega) (hfrac.trans hp) hp1
    have hinv : (0 : ℚ) ≤ 1 - 1 / N := by rw [sub_nonneg, div_le_one (by linarith)]; exact hN1
    set R : ℚ := ((n + 1 : ℕ) : ℚ) / (((n + 1 : ℕ) : ℚ) + m) with hR
    have hR0 : 0 ≤ R := by positivity
    calc _ ≤ p * ((1 - 1 / (N : ℚ)) * R) + (1 - p) * R :=
          add_le_add (mul_le_mul_of_nonneg_left (mul_le_mul_of_nonneg_left b1 hinv) hp0)
            (mul_le_mul_of_nonneg_left b2 (by linarith))
      _ = (1 - p / N) * R := by ring
      _ ≤ (n : ℚ) / (n + 1) * R := by
          refine mul_le_mul_of_nonneg_right ?_ hR0
          have : 1 / ((n : ℚ) + 1) ≤ p / N := by
            rw [le_div_iff₀ (by linarith)]
            calc 1 / ((n : ℚ) + 1) * N = (N : ℚ) / (n + 1) := by ring
              _ ≤ p := hp
          have h2 : (n : ℚ) / (n + 1) = 1 - 1 / (n + 1) := by field_simp; ring
          rw [h2]; linarith
      _ = (n : ℚ) / (n + (m + 1 : ℕ)) := by
          rw [hR]
          push_cast
          have h1 : (n : ℚ) + 1 ≠ 0 := by linarith
          have h2 : (n : ℚ) + 1 + m ≠ 0 := by positivity
          have h3 : (n : ℚ) + (m + 1) ≠ 0 := by positivity
          field_simp
          ring

/-- With a hazard above the fair one, a later element is accepted with more than the fair probability. -/
theorem lt_geoMean_acc {K0 N : Nat} (hN : 1 ≤ N) : ∀ (m n K : Nat) (p : ℚ), 4 * N ≤ n → m < K → m ≤ K0 →
    (N : ℚ) / (n + 1) < p → p ≤ 1 →
    (N : ℚ) / (n + m + 1) < geoMean K p (fun g => acc K0 N m n g) := by
  intro m
  have hN1 : (1 : ℚ) ≤ N := by exact_mod_cast hN
  induction m with
  | zero =>
    intro n K p hn hK _ hp _
    obtain ⟨K, rfl⟩ : ∃ K', K = K' + 1 := ⟨K - 1, by omega⟩
    rw [geoMean_succ]
    have e0 : acc K0 N 0 n 0 = 1 := by rw [acc, if_neg (by omega), if_neg (by omega), if_pos rfl]
    have e1 : (fun g => acc K0 N 0 n (g + 1)) = fun _ => 0 := by
      funext g
      rw [acc, if_neg (by omega), if_neg (by omega), if_neg (by omega)]
    rw [e0, e1, geoMean_const]
    simpa using hp
  | succ m ih =>
    intro n K p hn hK hK0 hp hp1
    obtain ⟨K, rfl⟩ : ∃ K', K = K' + 1 := ⟨K - 1, by omega⟩
    have hnq : (4 : ℚ) * N ≤ n := by exact_mod_cast hn
    have hn0 : (0 : ℚ) < n := by linarith
    have hp0 : 0 < p := lt_of_le_of_lt (by positivity) hp
    rw [geoMean_succ]
    have e0 : acc K0 N (m + 1) n 0 = geoMean K0 ((N : ℚ) / n) fun g => acc K0 N m (n + 1) g := by
      rw [acc, if_neg (by omega), if_pos rfl]
    have e1 : (fun g => acc K0 N (m + 1) n (g + 1)) = fun g => acc K0 N m (n + 1) g := by
      funext g
      rw [acc, if_neg (by omega), if_neg (by omega)]
      rfl
    rw [e0, e1]
    have hfrac : (N : ℚ) / (((n + 1 : ℕ) : ℚ) + 1) < (N : ℚ) / (n + 1) := by
      push_cast
      exact div_lt_div_of_pos_left (by linarith) (by linarith) (by linarith)
    have b1 := ih (n + 1) K0 ((N : ℚ) / n) (by omega) (by omega) (by omega)
      (hfrac.trans (div_lt_div_of_pos_left (by linarith) hn0 (by linarith)))
      (by rw [div_le_one hn0]; linarith)
    have b2 := ih (n + 1) K p (by omega) (by omega) (by omega) (hfrac.trans hp) hp1
    set R : ℚ := (N : ℚ) / (((n + 1 : ℕ) : ℚ) + m + 1) with hR
    calc (N : ℚ) / (n + (m + 1 : ℕ) + 1) = p * R + (1 - p) * R := by
          rw [hR]; push_cast
          rw [show (n : ℚ) + (m + 1) + 1 = n + 1 + m + 1 by ring]; ring
      _ < _ := add_lt_add_of_lt_of_le (mul_lt_mul_of_pos_left b1 hp0)
            (mul_le_mul_of_nonneg_left b2.le (by linarith))

/-- Up to the threshold everything is fair. -/
theorem ret_fair {K N : Nat} (hN : 1 ≤ N) (k : Nat) : ∀ m n : Nat, N ≤ n → n + m ≤ 4 * N →
    ret K N m n k = (n : ℚ) / (n + m) := by
  intro m
  induction m with
  | zero =>
    intro n hn _
    have : (0 : ℚ) < n := by exact_mod_cast (by omega : 0 < n)
    rw [ret, Nat.cast_zero, add_zero, div_self this.ne']
  | succ m ih =>
    intro n hn hm
    rw [ret, if_neg (by omega), if_pos (by omega), ih (n + 1) (by omega) (by omega)]
    push_cast
    have h1 : (n : ℚ) + 1 ≠ 0 := by positivity
    have h2 : (n : ℚ) + 1 + m ≠ 0 := by positivity
    have h3 : (n : ℚ) + (m + 1) ≠ 0 := by positivity
    field_simp
    ring

theorem ret_fill {K N : Nat} (k : Nat) : ∀ j m n : Nat, n + j ≤ N → ret K N (j + m) n k = ret K N m (n + j) k := by
  intro j
  induction j with
  | zero => intro m n _; rw [Nat.zero_add, Nat.add_zero]
  | succ j ih =>
    intro m n h
    rw [show j + 1 + m = (j + m) + 1 by omega, ret, if_pos (by omega), ih m (n + 1) (by omega)]
    congr 1
    omega

theorem acc_late {K N : Nat} (k : Nat) : ∀ j m n : Nat, n + j ≤ 4 * N → acc K N (j + m) n k = acc K N m (n + j) k := by
  intro j
  induction j with
  | zero => intro m n _; rw [Nat.zero_add, Nat.add_zero]
  | succ j ih =>
    intro m n h
    rw [show j + 1 + m = (j + m) + 1 by omega, acc, if_pos (by omega), ih m (n + 1) (by omega)]
    congr 1
    omega

theorem ret_late {K N : Nat} (hN : 1 ≤ N) (k : Nat) : ∀ j m n : Nat, N ≤ n → n + j ≤ 4 * N →
    ret K N (j + m) n k = (n : ℚ) / (n + j) * ret K N m (n + j) k := by
  intro j
  induction j with
  | zero =>
    intro m n hn _
    have : (0 : ℚ) < n := by exact_mod_cast (by omega : 0 < n)
    rw [Nat.zero_add, Nat.add_zero, Nat.cast_zero, add_zero, div_self this.ne', one_mul]
  | succ j ih =>
    intro m n hn h
    rw [show j + 1 + m = (j + m) + 1 by omega, ret, if_neg (by omega), if_pos (by omega),
      ih m (n + 1) (by omega) (by omega), show n + 1 + j = n + (j + 1) by omega]
    push_cast
    have h1 : (n : ℚ) + 1 ≠ 0 := by positivity
    have h2 : (n : ℚ) + 1 + j ≠ 0 := by positivity
    have h3 : (n : ℚ) + (j + 1) ≠ 0 := by positivity
    field_simp
    ring

namespace Reservoir

theorem uniformMax_eq {N n : Nat} {s : Reservoir w β} (hs : Inv N n s) (hN : 1 ≤ N) (h4 : 4 * N < 2 ^ w)
    (hn : n < 2 ^ w) : s.uniformMax.toNat = if n < 4 * N then n else N - 1 := by
  unfold uniformMax
  have gt4 : (s.sampleCount ≥ s.threshold) ↔ 4 * N ≤ n := by
    rw [hs.count_eq, hs.threshold_eq]; exact ofNat_ge_iff hn h4
  by_cases h : n < 4 * N
  · rw [if_neg (fun hh => absurd (gt4.1 hh) (by omega)), if_pos h, hs.count_eq, toNat_ofNat_lt hn]
  · rw [if_pos (gt4.2 (by omega)), if_neg h, hs.size_eq]
    have h1 : (1 : BitVec w).toNat = 1 := by simp [BitVec.toNat_ofNat, Nat.mod_eq_of_lt (by omega : 1 < 2 ^ w)]
    rw [BitVec.toNat_sub_of_le (by rw [BitVec.le_def, h1, toNat_ofNat_lt (by omega)]; exact hN), h1,
      toNat_ofNat_lt (by omega)]

theorem geometricParam_eq {N n : Nat} {s : Reservoir w β} (hs : Inv N n s) (h4 : 4 * N < 2 ^ w)
    (hn : n < 2 ^ w) : s.geometricParam = (N : ℚ) / n := by
  unfold geometricParam
  rw [hs.size_eq, hs.count_eq, toNat_ofNat_lt hn, toNat_ofNat_lt (by omega)]

/-- One push, if the value after it depends on the draws as `F`. -/
theorem expect_cons {N n : Nat} {s : Reservoir w β} (hs : Inv N n s) (hN : 1 ≤ N) (h4 : 4 * N < 2 ^ w)
    (hn : n + 1 < 2 ^ w) (f : Reservoir w β → ℚ) (x : β) (xs : List β) (F : Nat → Nat → ℚ)
    (hF : ∀ u g, u ≤ (if n < 4 * N then n else N - 1) → g < 2 ^ w → ∀ s' : Reservoir w β, Inv N (n + 1) s' →
      s'.samples = nextSamples N n s x (drawOf w u g) →
      s'.skipCount = (if n < 4 * N then s.skipCount
          else if s.skipCount = 0 then BitVec.ofNat w g else s.skipCount - 1) →
      expect f xs s' = F u g) :
    expect f (x :: xs) s
      = (∑ u ∈ Finset.range ((if n < 4 * N then n else N - 1) + 1), geoMean (2 ^ w - 1) ((N : ℚ) / n) (F u))
        / (((if n < 4 * N then n else N - 1 : Nat) : ℚ) + 1) := by
  rw [expect, uniformMax_eq hs hN h4 (by omega), geometricParam_eq hs h4 (by omega)]
  congr 1
  refine Finset.sum_congr rfl fun u hu => ?_
  unfold geoMean
  rw [Nat.sub_add_cancel Nat.one_le_two_pow]
  refine Finset.sum_congr rfl fun g hg => ?_
  obtain ⟨s', h1, h2, h3, h4'⟩ := push_step hs hN h4 hn x (drawOf_valid u g)
  rw [h1]
  simp only
  rw [hF u g (by have := Finset.mem_range.1 hu; omega) (Finset.mem_range.1 hg) s' h2 h3 (by rw [h4']; rfl)]

theorem sum_ne (m : Nat) {p : Nat} (hp : p < m) (c : ℚ) :
    ∑ u ∈ Finset.range m, (if u ≠ p then c else 0) = (m - 1) * c := by
  have h : ∑ u ∈ Finset.range m, (if u ≠ p then c else 0) + ∑ u ∈ Finset.range m, (if u = p then c else 0)
      = m * c := by
    rw [← Finset.sum_add_distrib]
    calc _ = ∑ _u ∈ Finset.range m, c := Finset.sum_congr rfl fun u _ => by split_ifs <;> simp_all
      _ = m * c := by simp
  rw [Finset.sum_ite_eq' (Finset.range m) p (fun _ => c), if_pos (Finset.mem_range.2 hp)] at h
  linarith

/-- What is known about a state that has seen the positions `0, ..., n - 1`. -/
structure Seen (N n : Nat) (s : Reservoir w Nat) : Prop extends Inv N n s where
  nodup : s.samples.Nodup
  lt : ∀ i ∈ s.samples, i < n

theorem seen_init (N : Nat) : Seen N 0 (init (BitVec.ofNat w N) : Reservoir w Nat) :=
  ⟨inv_init N, by simp [init], by simp [init]⟩

theorem Seen.next {N n : Nat} {s s' : Reservoir w Nat} (hs : Seen N n s) {d : Draw w}
    (h1 : Inv N (n + 1) s') (h2 : s'.samples = nextSamples N n s n d) : Seen N (n + 1) s' := by
  have hnot : n ∉ s.samples := fun h => absurd (hs.lt _ h) (lt_irrefl _)
  have hset : ∀ k : Nat, (s.samples.set k n).Nodup ∧ ∀ i ∈ s.samples.set k n, i < n + 1 := fun k =>
    ⟨hs.nodup.set hnot, fun i hi => by
      rcases List.mem_or_eq_of_mem_set hi with h | h
      · exact (hs.lt i h).trans (Nat.lt_succ_self n)
      · omega⟩
  have hsame : s.samples.Nodup ∧ ∀ i ∈ s.samples, i < n + 1 :=
    ⟨hs.nodup, fun i hi => (hs.lt i hi).trans (Nat.lt_succ_self n)⟩
  have key : s'.samples.Nodup ∧ ∀ i ∈ s'.samples, i < n + 1 := by
    rw [h2]
    unfold nextSamples
    split_ifs
    · refine ⟨List.Nodup.append hs.nodup (by simp) (by simpa using hnot), fun i hi => ?_⟩
      rcases List.mem_append.1 hi with h | h
      · exact (hs.lt i h).trans (Nat.lt_succ_self n)
      · simp at h; omega
    · exact hset _
    · exact hsame
    · exact hset _
    · exact hsame
  exact ⟨h1, key.1, key.2⟩

/-- The draw of slot `u` in the phases with replacement. -/
theorem nextSamples_eq {N n : Nat} {s : Reservoir w Nat} (hN : 1 ≤ N) (h4 : 4 * N < 2 ^ w)
    (hn : n < 2 ^ w) {u g : Nat} (hu : u ≤ (if n < 4 * N then n else N - 1)) :
    nextSamples N n s n (drawOf w u g)
      = if n < N then s.samples ++ [n]
        else if n < 4 * N then (if u < N then s.samples.set u n else s.samples)
        else if s.skipCount = 0 then s.samples.set u n else s.samples := by
  unfold nextSamples
  split_ifs with h1 h2 h3 h4' h5 h6
  · rfl
  · rw [if_pos h2] at hu
    rw [drawOf_uniform hu hn, toNat_ofNat_lt (by omega)]
  · rw [if_pos h2] at hu
    rw [drawOf_uniform hu hn, toNat_ofNat_lt (by omega)] at h3
    exact absurd h3 h4'
  · rw [if_pos h2] at hu
    rw [drawOf_uniform hu hn, toNat_ofNat_lt (by omega)] at h3
    exact absurd h5 h3
  · rfl
  · rw [if_neg h2] at hu
    have e : (BitVec.ofNat w N - 1 : BitVec w) = BitVec.ofNat w (N - 1) := by
      apply BitVec.eq_of_toNat_eq
      have h1 : (1 : BitVec w).toNat = 1 := by
        simp [BitVec.toNat_ofNat, Nat.mod_eq_of_lt (by omega : 1 < 2 ^ w)]
      rw [BitVec.toNat_sub_of_le (by rw [BitVec.le_def, h1, toNat_ofNat_lt (by omega)]; exact hN), h1,
        toNat_ofNat_lt (by omega), toNat_ofNat_lt (by omega)]
    rw [e, drawOf_uniform hu (by omega), toNat_ofNat_lt (by omega)]
  · rfl

/-- Survival: the indicator of an element that is in the sample now. -/
theorem expect_ret {N : Nat} (hN : 1 ≤ N) (h4 : 4 * N < 2 ^ w) (i : Nat) : ∀ (m n : Nat) (s : Reservoir w Nat),
    Seen N n s → i < n → n + m < 2 ^ w →
    expect (fun s : Reservoir w Nat => if i ∈ s.data then 1 else 0) (List.range' n m) s
      = if i ∈ s.samples then ret (2 ^ w - 1) N m n s.skipCount.toNat else 0 := by
  intro m
  induction m with
  | zero => intro n s _ _ _; rfl
  | succ m ih =>
    intro n s hs hi hn
    rw [List.range'_succ]
    by_cases hm : i ∈ s.samples
    swap
    · rw [if_neg hm]
      rw [expect_cons hs.toInv hN h4 (by omega) _ n _ (fun _ _ => 0)]
      · simp [geoMean_const]
      · intro u g hu hg s' h1 h2 h3
        rw [ih (n + 1) s' (hs.next h1 h2) (by omega) (by omega), if_neg]
        rw [h2, nextSamples_eq hN h4 (by omega) hu]
        have hset : i ∉ s.samples.set u n := fun h => by
          rcases List.mem_or_eq_of_mem_set h with h | h
          · exact hm h
          · omega
        split_ifs
        · intro h
          rcases List.mem_append.1 h with h | h
          · exact hm h
          · simp at h; omega
        · exact hset
        · exact hm
        · exact hset
        · exact hm
    · rw [if_pos hm]
      have hset : ∀ u : Nat, i ∈ s.samples.set u n ↔ u ≠ s.samples.idxOf i := fun u =>
        mem_set_iff hs.nodup hm (by omega)
      have hidx : s.samples.idxOf i < min n N := by rw [← hs.length_eq]; exact List.idxOf_lt_length_of_mem hm
      rw [ret]
      by_cases c1 : n < N
      · rw [if_pos c1, expect_cons hs.toInv hN h4 (by omega) _ n _
          (fun _ _ => ret (2 ^ w - 1) N m (n + 1) s.skipCount.toNat)]
        · simp only [geoMean_const]
          rw [Finset.sum_const, Finset.card_range, nsmul_eq_mul]
          push_cast
          rw [mul_div_assoc, mul_comm, div_mul_cancel₀]
          positivity
        · intro u g hu hg s' h1 h2 h3
          rw [ih (n + 1) s' (hs.next h1 h2) (by omega) (by omega), if_pos, h3, if_pos (by omega)]
          rw [h2, nextSamples_eq hN h4 (by omega) hu, if_pos c1]
          exact List.mem_append_left _ hm
      rw [if_neg c1]
      by_cases c2 : n < 4 * N
      · rw [if_pos c2, expect_cons hs.toInv hN h4 (by omega) _ n _
          (fun u _ => if u ≠ s.samples.idxOf i then ret (2 ^ w - 1) N m (n + 1) s.skipCount.toNat else 0)]
        · simp only [geoMean_const]
          rw [if_pos c2, sum_ne (n + 1) (by omega)]
          push_cast
          ring
        · intro u g hu hg s' h1 h2 h3
          rw [ih (n + 1) s' (hs.next h1 h2) (by omega) (by omega), h3, if_pos c2, h2,
            nextSamples_eq hN h4 (by omega) hu, if_neg c1, if_pos c2]
          by_cases hu' : u < N
          · rw [if_pos hu']
            simp only [hset]
          · rw [if_neg hu', if_pos hm, if_pos (by omega)]
      · rw [if_neg c2]
        by_cases c3 : s.skipCount = 0
        · have hz : s.skipCount.toNat = 0 := by rw [c3]; simp
          rw [if_pos hz, expect_cons hs.toInv hN h4 (by omega) _ n _
            (fun u g => (if u ≠ s.samples.idxOf i then 1 else 0) * ret (2 ^ w - 1) N m (n + 1) g)]
          · simp only [geoMean_mul]
            rw [← Finset.sum_mul, if_neg c2, sum_ne (N - 1 + 1) (by omega)]
            have hN0 : (N : ℚ) ≠ 0 := by exact_mod_cast (by omega : N ≠ 0)
            push_cast [hN]
            rw [show (N : ℚ) - 1 + 1 = N by ring]
            field_simp
          · intro u g hu hg s' h1 h2 h3
            rw [ih (n + 1) s' (hs.next h1 h2) (by omega) (by omega), h3, if_neg c2, if_pos c3, h2,
              nextSamples_eq hN h4 (by omega) hu, if_neg c1, if_neg c2, if_pos c3, toNat_ofNat_lt hg]
            simp only [hset]
            split_ifs <;> simp
        · have hz : s.skipCount.toNat ≠ 0 := fun h => c3 (BitVec.eq_of_toNat_eq (by simpa using h))
          rw [if_neg hz, expect_cons hs.toInv hN h4 (by omega) _ n _
            (fun _ _ => ret (2 ^ w - 1) N m (n + 1) (s.skipCount.toNat - 1))]
          · simp only [geoMean_const]
            rw [Finset.sum_const, Finset.card_range, nsmul_eq_mul]
            push_cast
            rw [mul_div_assoc, mul_comm, div_mul_cancel₀]
            positivity
          · intro u g hu hg s' h1 h2 h3
            rw [ih (n + 1) s' (hs.next h1 h2) (by omega) (by omega), h3, if_neg c2, if_neg c3, h2,
              nextSamples_eq hN h4 (by omega) hu, if_neg c1, if_neg c2, if_neg c3, if_pos hm]
            have h1' : (1 : BitVec w).toNat = 1 := by
              simp [BitVec.toNat_ofNat, Nat.mod_eq_of_lt (by omega : 1 < 2 ^ w)]
            rw [BitVec.toNat_sub_of_le (by rw [BitVec.le_def, h1']; omega), h1']

/-- Acceptance: the indicator of the last element that is pushed. -/
theorem expect_acc {N : Nat} (hN : 1 ≤ N) (h4 : 4 * N < 2 ^ w) : ∀ (m n : Nat) (s : Reservoir w Nat),
    Seen N n s → n + m + 1 < 2 ^ w →
    expect (fun s : Reservoir w Nat => if n + m ∈ s.data then 1 else 0) (List.range' n (m + 1)) s
      = acc (2 ^ w - 1) N m n s.skipCount.toNat := by
  intro m
  induction m with
  | zero =>
    intro n s hs hn
    have hnot : n ∉ s.samples := fun h => absurd (hs.lt _ h) (lt_irrefl _)
    have hlen := hs.length_eq
    rw [List.range'_succ, acc]
    simp only [Nat.add_zero]
    rw [List.range'_zero, expect_cons hs.toInv hN h4 (by omega) _ n _
      (fun u _ => if n < N then 1 else if n < 4 * N then (if u < N then 1 else 0)
        else if s.skipCount = 0 then 1 else 0)]
    · simp only [geoMean_const]
      have hcard : ∀ c : ℚ, ∑ _u ∈ Finset.range ((if n < 4 * N then n else N - 1) + 1), c
          = (((if n < 4 * N then n else N - 1 : Nat) : ℚ) + 1) * c := by
        intro c
        rw [Finset.sum_const, Finset.card_range, nsmul_eq_mul]
        push_cast
        rfl
      have hne : (((if n < 4 * N then n else N - 1 : Nat) : ℚ) + 1) ≠ 0 := by positivity
      by_cases c1 : n < N
      · simp only [if_pos c1]
        rw [hcard, mul_one, div_self hne]
      · simp only [if_neg c1]
        by_cases c2 : n < 4 * N
        · simp only [if_pos c2]
          congr 1
          rw [← Finset.sum_filter, Finset.sum_const, nsmul_eq_mul, mul_one]
          have : (Finset.range (n + 1)).filter (fun k => k < N) = Finset.range N := by
            ext k; simp; omega
          rw [this, Finset.card_range]
        · simp only [if_neg c2]
          rw [if_neg c2] at hcard hne
          have hz : s.skipCount = 0 ↔ s.skipCount.toNat = 0 :=
            ⟨fun h => by rw [h]; simp, fun h => BitVec.eq_of_toNat_eq (by simpa using h)⟩
          rw [hcard, mul_comm, mul_div_assoc, div_self hne, mul_one]
          simp only [hz]
    · intro u g hu hg s' h1 h2 h3
      show (if n ∈ s'.samples then (1 : ℚ) else 0) = _
      rw [h2, nextSamples_eq hN h4 (by omega) hu]
      by_cases c1 : n < N
      · simp [c1]
      · rw [if_neg c1, if_neg c1]
        by_cases c2 : n < 4 * N
        · rw [if_pos c2, if_pos c2]
          by_cases c3 : u < N
          · rw [if_pos c3, if_pos c3, if_pos (List.mem_set (by omega) _)]
          · rw [if_neg c3, if_neg c3, if_neg hnot]
        · rw [if_neg c2] at hu
          rw [if_neg c2, if_neg c2]
          by_cases c3 : s.skipCount = 0
          · rw [if_pos c3, if_pos c3, if_pos (List.mem_set (by omega) _)]
          · rw [if_neg c3, if_neg c3, if_neg hnot]
  | succ m ih =>
    intro n s hs hn
    rw [List.range'_succ, acc]
    have hcard : ∀ c : ℚ, (∑ _u ∈ Finset.range ((if n < 4 * N then n else N - 1) + 1), c)
        / (((if n < 4 * N then n else N - 1 : Nat) : ℚ) + 1) = c := by
      intro c
      rw [Finset.sum_const, Finset.card_range, nsmul_eq_mul]
      push_cast
      rw [mul_div_assoc, mul_comm, div_mul_cancel₀]
      positivity
    have e : n + (m + 1) = n + 1 + m := by omega
    rw [e]
    by_cases c2 : n < 4 * N
    · rw [if_pos c2, expect_cons hs.toInv hN h4 (by omega) _ n _
        (fun _ _ => acc (2 ^ w - 1) N m (n + 1) s.skipCount.toNat)]
      · simp only [geoMean_const]
        exact hcard _
      · intro u g hu hg s' h1 h2 h3
        rw [ih (n + 1) s' (hs.next h1 h2) (by omega), h3, if_pos c2]
    · rw [if_neg c2]
      by_cases c3 : s.skipCount = 0
      · have hz : s.skipCount.toNat = 0 := by rw [c3]; simp
        rw [if_pos hz, expect_cons hs.toInv hN h4 (by omega) _ n _
          (fun _ g => acc (2 ^ w - 1) N m (n + 1) g)]
        · exact hcard _
        · intro u g hu hg s' h1 h2 h3
          rw [ih (n + 1) s' (hs.next h1 h2) (by omega), h3, if_neg c2, if_pos c3, toNat_ofNat_lt hg]
      · have hz : s.skipCount.toNat ≠ 0 := fun h => c3 (BitVec.eq_of_toNat_eq (by simpa using h))
        rw [if_neg hz, expect_cons hs.toInv hN h4 (by omega) _ n _
          (fun _ _ => acc (2 ^ w - 1) N m (n + 1) (s.skipCount.toNat - 1))]
        · simp only [geoMean_const]
          exact hcard _
        · intro u g hu hg s' h1 h2 h3
          have h1' : (1 : BitVec w).toNat = 1 := by
            simp [BitVec.toNat_ofNat, Nat.mod_eq_of_lt (by omega : 1 < 2 ^ w)]
          rw [ih (n + 1) s' (hs.next h1 h2) (by omega), h3, if_neg c2, if_neg c3,
            BitVec.toNat_sub_of_le (by rw [BitVec.le_def, h1']; omega), h1']

/-- Pushing in two parts. -/
theorem expect_append (f : Reservoir w β → ℚ) : ∀ (xs ys : List β) (s : Reservoir w β),
    expect f (xs ++ ys) s = expect (fun s => expect f ys s) xs s
  | [], _, _ => rfl
  | x :: xs, ys, s => by
    rw [List.cons_append, expect, expect]
    congr 1
    refine Finset.sum_congr rfl fun u _ => Finset.sum_congr rfl fun g _ => ?_
    cases s.push x (drawOf w u g) with
    | none => rfl
    | some r => simp only [expect_append f xs ys r.1]

/-- `expect` only looks at states that can be reached. -/
theorem expect_congr {N : Nat} (hN : 1 ≤ N) (h4 : 4 * N < 2 ^ w) {f f' : Reservoir w Nat → ℚ} :
    ∀ (m n : Nat) (s : Reservoir w Nat), Seen N n s → n + m < 2 ^ w →
    (∀ s' : Reservoir w Nat, Seen N (n + m) s' → (n + m ≤ 4 * N → s.skipCount = 0 → s'.skipCount = 0) → f s' = f' s') →
    expect f (List.range' n m) s = expect f' (List.range' n m) s := by
  intro m
  induction m with
  | zero => intro n s hs _ h; exact h s hs fun _ h => h
  | succ m ih =>
    intro n s hs hn h
    rw [List.range'_succ]
    rw [expect_cons hs.toInv hN h4 (by omega) f n _
      (fun u g => match s.push n (drawOf w u g) with
        | some r => expect f' (List.range' (n + 1) m) r.1
        | none => 0)]
    · rw [expect, uniformMax_eq hs.toInv hN h4 (by omega), geometricParam_eq hs.toInv h4 (by omega)]
      unfold geoMean
      rw [Nat.sub_add_cancel Nat.one_le_two_pow]
      congr 1
      refine Finset.sum_congr rfl fun u _ => Finset.sum_congr rfl fun g _ => ?_
      beta_reduce
      cases s.push n (drawOf w u g) <;> rfl
    · intro u g hu hg s' h1 h2 h3
      obtain ⟨s'', e1, e2, e3, e4⟩ := push_step hs.toInv hN h4 (by omega) n (drawOf_valid (w := w) u g)
      have es : s'' = s' := by
        have a1 := e2.size_eq.trans h1.size_eq.symm
        have a2 := e2.threshold_eq.trans h1.threshold_eq.symm
        have a3 := e2.count_eq.trans h1.count_eq.symm
        have a4 := e3.trans h2.symm
        have a5 : s''.skipCount = s'.skipCount := by rw [e4, h3]; rfl
        cases s''; cases s'
        simp_all
      rw [e1]
      simp only
      rw [es]
      refine ih (n + 1) s' (hs.next h1 h2) (by omega) fun t ht hsk => h t (by convert ht using 1; omega) ?_
      intro hle h0
      refine hsk (by omega) ?_
      rw [h3, if_pos (by omega)]
      exact h0

theorem expect_mul (c : ℚ) (f : Reservoir w β → ℚ) : ∀ (xs : List β) (s : Reservoir w β),
    expect (fun s => c * f s) xs s = c * expect f xs s
  | [], _ => rfl
  | x :: xs, s => by
    rw [expect, expect, ← mul_div_assoc, Finset.mul_sum]
    congr 1
    refine Finset.sum_congr rfl fun u _ => ?_
    rw [Finset.mul_sum]
    refine Finset.sum_congr rfl fun g _ => ?_
    cases s.push x (drawOf w u g) with
    | none => simp
    | some r => simp only [expect_mul c f xs r.1]; ring

/-- The probability that an element from before the threshold is in the sample: that of its acceptance
times that of its survival. -/
theorem inclusion_early {N : Nat} (hN : 1 ≤ N) (h4 : 4 * N < 2 ^ w) {n i : Nat} (hi : i < n) (hi4 : i < 4 * N)
    (hn : n < 2 ^ w) :
    inclusion w N n i = ret (2 ^ w - 1) N (n - (i + 1)) (i + 1) 0 * acc (2 ^ w - 1) N i 0 0 := by
  unfold inclusion
  have e : List.range n = List.range' 0 (i + 1) ++ List.range' (i + 1) (n - (i + 1)) := by
    rw [List.range_eq_range']
    conv_lhs => rw [show n = (i + 1) + (n - (i + 1)) by omega]
    rw [← List.range'_append_1, Nat.zero_add]
  rw [e, expect_append, expect_congr hN h4 (f' := fun s : Reservoir w Nat =>
      ret (2 ^ w - 1) N (n - (i + 1)) (i + 1) 0 * if 0 + i ∈ s.data then 1 else 0) (i + 1) 0 _ (seen_init N)
      (by omega), expect_mul, expect_acc hN h4 i 0 _ (seen_init N) (by omega)]
  · rfl
  · intro s' hs' hsk
    rw [Nat.zero_add] at hs' hsk ⊢
    rw [expect_ret hN h4 i _ _ s' hs' (by omega) (by omega), hsk (by omega) rfl]
    show (if i ∈ s'.samples then _ else _) = _ * (if i ∈ s'.samples then (1 : ℚ) else 0)
    split_ifs <;> simp

/-- The probability that the last element is in the sample. -/
theorem inclusion_last {N : Nat} (hN : 1 ≤ N) (h4 : 4 * N < 2 ^ w) {n : Nat} (hn : n + 1 < 2 ^ w) :
    inclusion w N (n + 1) n = acc (2 ^ w - 1) N n 0 0 := by
  unfold inclusion
  rw [List.range_eq_range']
  have := expect_acc hN h4 n 0 _ (seen_init N) (by omega)
  rw [Nat.zero_add] at this
  rw [this]
  rfl

end Reservoir
end Verif.Reservoir
