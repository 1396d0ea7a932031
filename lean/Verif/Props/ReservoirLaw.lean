import Verif.Proofs.ReservoirLaw
import Verif.Props.Reservoir
/-
C93: sizes for which the reservoir works, and the preconditions of the standard distributions.
C47, C48: the law of the sample under an ideal generator (`expect`, `inclusion` in Proofs/ReservoirLaw.lean).
-/
namespace Verif.Props
open Verif.Reservoir Reservoir

variable {w : Nat} {β : Type}

/-! ### C93 -/

/-- C93 as stated: a reservoir of any size accepts any elements without undefined behaviour. -/
def ReservoirAnySize (w : Nat) : Prop :=
  ∀ (N : SizeT w) (xs : List (Nat × Draw w)), (∀ x ∈ xs, x.2.Valid) →
    (Reservoir.run N (xs.map .push)).isSome

/-- C93 is violated: the first push to a reservoir of size 0, or of any size whose quadruple wraps to 0, writes
to an element of an empty vector - whatever the random numbers. -/
theorem C93_first_push (N : SizeT w) (h : 4 * N = 0) (x : β) (d : Draw w) :
    Reservoir.run N [.push (x, d)] = none := by
  have h0 : (Reservoir.init N : Reservoir w β).push x d = none := by
    unfold Reservoir.push
    have ht : (Reservoir.init N : Reservoir w β).sampleCount ≥ (Reservoir.init N : Reservoir w β).threshold := by
      show (0 : SizeT w) ≥ 4 * N
      rw [h]; exact BitVec.le_refl _
    rw [if_pos ht]
    show (if (0 : SizeT w) = 0 then _ else _) = none
    rw [if_pos rfl]
    show Option.map _ (Reservoir.assign [] _ x) = none
    simp [Reservoir.assign]
  show Option.map Prod.fst ((Reservoir.init N : Reservoir w β).push x d) = none
  rw [h0]
  rfl

theorem C93_violated : ¬ ReservoirAnySize 64 := by
  intro h
  have := h 0 [(5, lowDraw)] (by simp [lowDraw_valid])
  rw [show [(5, (lowDraw : Draw 64))].map Op.push = [.push (5, lowDraw)] from rfl,
    C93_first_push 0 (by decide)] at this
  simp at this

example : Reservoir.run (0 : SizeT 64) [.push (7, highDraw)] = none := C93_first_push 0 (by decide) 7 highDraw
/-- Size 2^62 with a 64-bit size_t. -/
example : Reservoir.run (BitVec.ofNat 64 (2 ^ 62)) [.push (7, highDraw)] = none :=
  C93_first_push _ (by decide) 7 highDraw

/-- C93 for sizes from 1 to a quarter of the range of size_t: no undefined behaviour in any number of pushes
that size_t can count, and whenever a push draws, the preconditions of the standard distributions hold: the
uniform range [0, b] has `b` below the number of elements seen so far and includes a slot, and the parameter
`p` of the geometric distribution satisfies `0 < p <= 1/4`.
Missing for the full statement: the other sizes, see `C93_first_push`. -/
theorem C93_preconditions_partial {N : Nat} (hN : 1 ≤ N) (h4 : 4 * N < 2 ^ w) (xs : List (β × Draw w))
    (hv : ∀ x ∈ xs, x.2.Valid) (hn : xs.length < 2 ^ w) :
    ∃ s : Reservoir w β, Reservoir.run (BitVec.ofNat w N) (xs.map .push) = some s
      ∧ (s.sampleCount ≥ s.threshold → 0 < s.geometricParam ∧ s.geometricParam ≤ 1 / 4
          ∧ s.uniformMax.toNat = N - 1 ∧ s.samples.length = N)
      ∧ (¬ s.sampleCount ≥ s.threshold → s.uniformMax.toNat = xs.length) := by
  obtain ⟨s, hs, hi⟩ := pushes_inv hN h4 xs hv hn
  have gt4 : (s.sampleCount ≥ s.threshold) ↔ 4 * N ≤ xs.length := by
    rw [hi.count_eq, hi.threshold_eq]; exact ofNat_ge_iff hn h4
  refine ⟨s, hs, fun h => ?_, fun h => ?_⟩
  · have h' := gt4.1 h
    have hNq : (1 : ℚ) ≤ N := by exact_mod_cast hN
    have hq : (4 : ℚ) * N ≤ xs.length := by exact_mod_cast h'
    refine ⟨?_, ?_, ?_, ?_⟩
    · rw [geometricParam_eq hi h4 hn]
      exact div_pos (by linarith) (by linarith)
    · rw [geometricParam_eq hi h4 hn, div_le_div_iff₀ (by linarith) (by norm_num)]
      linarith
    · rw [uniformMax_eq hi hN h4 hn, if_neg (by omega)]
    · rw [hi.length_eq]; omega
  · rw [uniformMax_eq hi hN h4 hn, if_pos (by rw [gt4] at h; omega)]

example : ∃ s : Reservoir 64 Nat,
    Reservoir.run (BitVec.ofNat 64 2) ((List.replicate 9 (10, highDraw)).map .push) = some s
      ∧ (s.sampleCount ≥ s.threshold → 0 < s.geometricParam ∧ s.geometricParam ≤ 1 / 4
          ∧ s.uniformMax.toNat = 1 ∧ s.samples.length = 2)
      ∧ (¬ s.sampleCount ≥ s.threshold → s.uniformMax.toNat = 9) :=
  C93_preconditions_partial (w := 64) (N := 2) (by norm_num) (by norm_num) _
    (by simp [highDraw_valid]) (by simp)

/-! ### C47, C48 with the law of the random draws -/

/-- The weights of the geometric draw are a probability distribution. -/
theorem C48_law_total (K : Nat) (p : ℚ) : ∑ g ∈ Finset.range (K + 1), geoLaw K p g = 1 := by
  have := geoMean_const K p 1
  simpa [geoMean] using this

theorem C48_law_nonneg (K : Nat) {p : ℚ} (h0 : 0 ≤ p) (h1 : p ≤ 1) (g : Nat) : 0 ≤ geoLaw K p g := by
  unfold geoLaw
  split_ifs
  · exact mul_nonneg h0 (pow_nonneg (by linarith) _)
  · exact pow_nonneg (by linarith) _

/-- C48 as stated: after any number of elements each of them is in the sample with the same probability. -/
def ReservoirFair (w : Nat) : Prop :=
  ∀ N n i : Nat, 1 ≤ N → 4 * N < 2 ^ w → N ≤ n → n < 2 ^ w → i < n → inclusion w N n i = (N : ℚ) / n

/-- C47 in terms of `inclusion`, up to `4N` elements: the probability is `N/n` for each of the `n` elements.
For more elements it is false, see `C48_bias`. -/
theorem C47_law {N n i : Nat} (hN : 1 ≤ N) (h4 : 4 * N < 2 ^ w) (h1 : N ≤ n) (h2 : n ≤ 4 * N)
    (hi : i < n) : inclusion w N n i = (N : ℚ) / n := by
  rw [inclusion_early hN h4 hi (by omega) (by omega)]
  have ha := acc_late (K := 2 ^ w - 1) (N := N) 0 i 0 0 (by omega)
  rw [Nat.add_zero, Nat.zero_add] at ha
  rw [ha]
  have hNq : (0 : ℚ) < N := by exact_mod_cast hN
  by_cases hc : i < N
  · rw [acc, if_pos hc, mul_one]
    have := ret_fill (K := 2 ^ w - 1) (N := N) 0 (N - (i + 1)) (n - N) (i + 1) (by omega)
    rw [show N - (i + 1) + (n - N) = n - (i + 1) by omega, show i + 1 + (N - (i + 1)) = N by omega] at this
    rw [this, ret_fair hN 0 _ _ le_rfl (by omega)]
    rw [Nat.cast_sub h1]; ring_nf
  · rw [acc, if_neg hc, if_pos (by omega), ret_fair hN 0 _ _ (by omega) (by omega)]
    rw [Nat.cast_sub (by omega)]
    push_cast
    have hn0 : (0 : ℚ) < n := by exact_mod_cast (by omega : 0 < n)
    rw [show (i : ℚ) + 1 + (n - (i + 1)) = n by ring]
    field_simp

/-- A reservoir of 3: after 7 elements each is in the sample with probability 3/7. -/
example : inclusion 64 3 7 5 = (3 : ℕ) / (7 : ℕ) :=
  C47_law (w := 64) (by norm_num) (by norm_num) (by norm_num) (by norm_num) (by norm_num)

theorem inclusion_first {N m i : Nat} (hN : 1 ≤ N) (hm : 4 * N + m < 2 ^ w) (hi : i < 4 * N) :
    inclusion w N (4 * N + m) i = 1 / 4 * ret (2 ^ w - 1) N m (4 * N) 0 := by
  rw [inclusion_early hN (by omega) (by omega) hi (by omega)]
  have ha := acc_late (K := 2 ^ w - 1) (N := N) 0 i 0 0 (by omega)
  rw [Nat.add_zero, Nat.zero_add] at ha
  rw [ha]
  have hNq : (0 : ℚ) < N := by exact_mod_cast hN
  have hl := fun n (hn : N ≤ n) (hn4 : n ≤ 4 * N) =>
    ret_late (K := 2 ^ w - 1) hN 0 (4 * N - n) m n hn (by omega)
  by_cases hc : i < N
  · rw [acc, if_pos hc, mul_one]
    have := ret_fill (K := 2 ^ w - 1) (N := N) 0 (N - (i + 1)) (3 * N + m) (i + 1) (by omega)
    rw [show N - (i + 1) + (3 * N + m) = 4 * N + m - (i + 1) by omega,
      show i + 1 + (N - (i + 1)) = N by omega] at this
    rw [this]
    have h := hl N le_rfl (by omega)
    rw [show 4 * N - N + m = 3 * N + m by omega, show N + (4 * N - N) = 4 * N by omega] at h
    rw [h, Nat.cast_sub (by omega)]
    push_cast
    rw [show (N : ℚ) + (4 * N - N) = 4 * N by ring]
    field_simp
  · rw [acc, if_neg hc, if_pos hi]
    have h := hl (i + 1) (by omega) (by omega)
    rw [show 4 * N - (i + 1) + m = 4 * N + m - (i + 1) by omega,
      show i + 1 + (4 * N - (i + 1)) = 4 * N by omega] at h
    rw [h, Nat.cast_sub (by omega)]
    push_cast
    have h1 : (i : ℚ) + 1 ≠ 0 := by positivity
    rw [show (i : ℚ) + 1 + (4 * N - (i + 1)) = 4 * N by ring]
    field_simp

/-- C48: beyond `4N` elements the sample is biased.  Each of the first `4N` elements is in the sample with
less than the fair probability `N/n`, and the element pushed last with more - for every size and every
number `n > 4N` of elements. -/
theorem C48_bias {N m : Nat} (hN : 1 ≤ N) (hm : 4 * N + (m + 1) < 2 ^ w) :
    (∀ i < 4 * N, inclusion w N (4 * N + (m + 1)) i < (N : ℚ) / (4 * N + (m + 1) : ℕ))
      ∧ (N : ℚ) / (4 * N + (m + 1) : ℕ) < inclusion w N (4 * N + (m + 1)) (4 * N + m) := by
  have hNq : (1 : ℚ) ≤ N := by exact_mod_cast hN
  have hmq : (0 : ℚ) ≤ m := Nat.cast_nonneg m
  constructor
  · intro i hi
    rw [inclusion_first hN hm hi, ret, if_neg (by omega), if_neg (by omega), if_pos rfl]
    have b := geoMean_ret_le (K0 := 2 ^ w - 1) hN m (4 * N + 1) (2 ^ w - 1) ((N : ℚ) / (4 * N : ℕ)) (by omega)
      (by omega) (by omega) (by
        push_cast
        exact div_le_div_of_nonneg_left (by linarith) (by linarith) (by linarith))
      (by push_cast; rw [div_le_one (by linarith)]; linarith)
    push_cast at b ⊢
    have hinv : (0 : ℚ) ≤ 1 - 1 / N := by rw [sub_nonneg, div_le_one (by linarith)]; exact hNq
    calc _ ≤ 1 / 4 * ((1 - 1 / (N : ℚ)) * ((4 * N + 1) / (4 * N + 1 + m))) :=
          mul_le_mul_of_nonneg_left (mul_le_mul_of_nonneg_left b hinv) (by norm_num)
      _ = ((N - 1) * (4 * N + 1)) / (4 * N * (4 * N + (m + 1))) := by
          have h2 : (4 : ℚ) * N + 1 + m ≠ 0 := by positivity
          have h3 : (4 : ℚ) * N + (m + 1) ≠ 0 := by positivity
          rw [show (4 : ℚ) * N + 1 + m = 4 * N + (m + 1) by ring]
          field_simp
      _ < (N * (4 * N)) / (4 * N * (4 * N + (m + 1))) := by
          refine div_lt_div_of_pos_right ?_ (by positivity)
          nlinarith
      _ = _ := by
          have h3 : (4 : ℚ) * N + (m + 1) ≠ 0 := by positivity
          field_simp
  · rw [show 4 * N + (m + 1) = (4 * N + m) + 1 by omega, inclusion_last hN (by omega) (by omega)]
    have ha := acc_late (K := 2 ^ w - 1) (N := N) 0 (4 * N) m 0 (by omega)
    rw [Nat.zero_add] at ha
    rw [ha]
    cases m with
    | zero =>
      rw [acc, if_neg (by omega), if_neg (by omega), if_pos rfl]
      push_cast
      rw [div_lt_one (by linarith)]
      linarith
    | succ m =>
      rw [acc, if_neg (by omega), if_pos rfl]
      have b := lt_geoMean_acc (K0 := 2 ^ w - 1) hN m (4 * N + 1) (2 ^ w - 1) ((N : ℚ) / (4 * N : ℕ)) (by omega)
        (by omega) (by omega) (by
          push_cast
          exact div_lt_div_of_pos_left (by linarith) (by linarith) (by linarith))
        (by push_cast; rw [div_le_one (by linarith)]; linarith)
      refine lt_of_eq_of_lt ?_ b
      push_cast
      ring_nf

/-- A reservoir of 10 after 1000 elements. -/
example : inclusion 64 10 1000 7 < (10 : ℕ) / (1000 : ℕ) ∧ (10 : ℕ) / (1000 : ℕ) < inclusion 64 10 1000 999 :=
  ⟨(C48_bias (w := 64) (N := 10) (m := 959) (by norm_num) (by norm_num)).1 7 (by norm_num),
   (C48_bias (w := 64) (N := 10) (m := 959) (by norm_num) (by norm_num)).2⟩

/-- C48 is violated for every width of size_t that can hold five elements. -/
theorem C48_law_violated (hw : 3 ≤ w) : ¬ ReservoirFair w := by
  intro h
  have h8 : 8 ≤ 2 ^ w := by
    calc 8 = 2 ^ 3 := by norm_num
      _ ≤ 2 ^ w := Nat.pow_le_pow_right (by norm_num) hw
  have := (C48_bias (w := w) (N := 1) (m := 0) le_rfl (by omega)).1 0 (by norm_num)
  rw [h 1 _ 0 le_rfl (by omega) (by omega) (by omega) (by omega)] at this
  exact lt_irrefl _ this

/-- C48: a reservoir of one never holds one of the first four elements after the fifth. -/
theorem C48_size_one {m i : Nat} (hm : 4 + (m + 1) < 2 ^ w) (hi : i < 4) : inclusion w 1 (4 + (m + 1)) i = 0 := by
  have h := inclusion_first (w := w) (N := 1) (m := m + 1) (i := i) le_rfl (by omega) (by omega)
  rw [show 4 * 1 + (m + 1) = 4 + (m + 1) by omega] at h
  rw [h, ret, if_neg (by omega), if_neg (by omega), if_pos rfl]
  simp

example : inclusion 64 1 100 3 = 0 := C48_size_one (w := 64) (m := 95) (by norm_num) (by norm_num)

end Verif.Props
