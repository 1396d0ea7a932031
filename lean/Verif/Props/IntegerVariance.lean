import Verif.Proofs.IntegerConstant
import Verif.Proofs.Nearest
import Verif.Proofs.Rounding
import Verif.Props.IntegerTypes
import Mathlib.Tactic.IntervalCases
/-
C113, C114: variance, skewness and kurtosis of integers.
-/
namespace Verif.Props
open CInt IntT

variable {P : Platform} {T : Ty}

def int8 : Ty := ⟨8, true⟩

/-! ### C113: variance of integers -/

/-- C113, the claim: the variance of integers is defined, not negative, and at most the square of the range of the data. -/
def IntVarianceWithin (P : Platform) (T : Ty) : Prop :=
  ∀ (xs : List Int) (lo hi : Int), xs ≠ [] → (∀ x ∈ xs, T.Has x ∧ lo ≤ x ∧ x ≤ hi) → (xs.length : Int) < T.hi →
    xs.length < 2 ^ P.sizeBits →
    ∃ s v, Variance.run P T xs = some s ∧ s.getVariance P T = some v ∧ 0 ≤ v ∧ v ≤ (hi - lo) ^ 2

/-- The variance of 0 and 65536 overflows `int`. -/
theorem C113_overflow : Variance.run lp64 int32 [0, 65536] = none := by decide

/-- The variance of 0 and 16 as `signed char` is -64. -/
theorem C113_negative :
    (Variance.run lp64 int8 [0, 16]).bind (Variance.getVariance lp64 int8) = some (-64) := by decide

/-- The variance of 3 and 0 as `unsigned int` is 1073741825. -/
theorem C113_unsigned :
    (Variance.run lp64 uint32 [3, 0]).bind (Variance.getVariance lp64 uint32) = some 1073741825 := by decide

/-- C113 is violated for `int`, `signed char` and `unsigned int`. -/
theorem C113_violated :
    ¬ IntVarianceWithin lp64 int32 ∧ ¬ IntVarianceWithin lp64 int8 ∧ ¬ IntVarianceWithin lp64 uint32 := by
  refine ⟨?_, ?_, ?_⟩
  · intro h
    obtain ⟨s, v, h1, -⟩ := h [0, 65536] 0 65536 (by decide) (by decide) (by decide) (by decide)
    rw [C113_overflow] at h1
    cases h1
  · intro h
    obtain ⟨s, v, h1, h2, h3, -⟩ := h [0, 16] 0 16 (by decide) (by decide) (by decide) (by decide)
    have := C113_negative
    rw [h1, Option.bind_some, h2] at this
    rw [Option.some.inj this] at h3
    revert h3; decide
  · intro h
    obtain ⟨s, v, h1, h2, -, h3⟩ := h [3, 0] 0 3 (by decide) (by decide) (by decide) (by decide)
    have := C113_unsigned
    rw [h1, Option.bind_some, h2] at this
    rw [Option.some.inj this] at h3
    revert h3; decide

/-- C113, the part that holds: if `n (hi - lo)^2` fits in the type and its arithmetic is signed, both variances are
defined and within `[0, (hi - lo)^2]`.  Missing: larger data, unsigned types that are not narrower than `int`
(ascending data: `C113_ascending_partial`). -/
theorem C113_within_partial (hT : 1 ≤ T.bits) (hs : (P.promote T).signed = true) (hP : P.intBits ≤ P.sizeBits)
    {lo hi : Int} (hlo : T.Has lo) (hhi : T.Has hi) (xs : List Int) (hne : xs ≠ []) (hx : ∀ x ∈ xs, lo ≤ x ∧ x ≤ hi)
    (hn : (xs.length : Int) < T.hi) (hw : xs.length < 2 ^ P.sizeBits) (hM : (xs.length : Int) * (hi - lo) ^ 2 < T.hi) :
    ∃ s, Variance.run P T xs = some s
      ∧ (∃ v, s.getVariance P T = some v ∧ 0 ≤ v ∧ v ≤ (hi - lo) ^ 2)
      ∧ (2 ≤ xs.length → ∃ v, s.unbiasedVariance P T = some v ∧ 0 ≤ v ∧ v ≤ (hi - lo) ^ 2) := by
  obtain ⟨m, v, h1, -, -, h4, h5⟩ := Variance.run_within hT hs hlo hhi xs hne hx hn hw hM
  have hlen : 1 ≤ xs.length := List.length_pos_iff.2 hne
  have hsq : 0 ≤ (hi - lo) ^ 2 := by positivity
  have hv : T.Has v := ⟨T.lo_le_zero.trans h4, by
    have : ((xs.length : Int) - 1) * (hi - lo) ^ 2 ≤ xs.length * (hi - lo) ^ 2 :=
      mul_le_mul_of_nonneg_right (by omega) hsq
    linarith⟩
  have hq : ∀ k : Nat, 1 ≤ k → (xs.length : Int) - 1 ≤ k → 0 ≤ v.tdiv k ∧ v.tdiv k ≤ (hi - lo) ^ 2 := by
    intro k hk hk'
    rw [Int.tdiv_eq_ediv_of_nonneg h4]
    refine ⟨Int.ediv_nonneg h4 (by omega), ?_⟩
    refine Int.ediv_le_of_le_mul (by omega) ?_
    rw [mul_comm]
    exact h5.trans (mul_le_mul_of_nonneg_right hk' hsq)
  refine ⟨_, h1, ⟨v.tdiv xs.length, ?_, hq _ hlen (by omega)⟩, fun h2 => ⟨v.tdiv (xs.length - 1 : Nat), ?_, hq _ (by omega) (by omega)⟩⟩
  · have := Variance.div_count (P := P) hT hv hlen hn
    rw [Option.map_eq_bind] at this
    exact this
  · have hp : 2 ≤ P.sizeBits := by
      by_contra hc
      have : 2 ^ P.sizeBits ≤ 2 ^ 1 := Nat.pow_le_pow_right (by norm_num) (by omega)
      omega
    have := Variance.div_count (P := P) hT (n := xs.length - 1) hv (by omega) (by omega)
    rw [Option.map_eq_bind] at this
    unfold Variance.unbiasedVariance
    simp only [Variance.size_pred hP hp hlen hw, Option.bind_eq_bind, Option.bind_some]
    exact this

/-- The variance of equal integers is 0, whatever their size. -/
theorem C113_constant_partial (hT : 1 ≤ T.bits) (hs : (P.promote T).signed = true) (hP : P.intBits ≤ P.sizeBits)
    {c : Int} (hc : T.Has c) (n : Nat) (hn1 : 1 ≤ n) (hn : (n : Int) < T.hi) (hw : n < 2 ^ P.sizeBits) :
    ∃ s, Variance.run P T (List.replicate n c) = some s ∧ s.getVariance P T = some 0
      ∧ (2 ≤ n → s.unbiasedVariance P T = some 0) := by
  obtain ⟨s, h1, ⟨v, h2, h3, h4⟩, h5⟩ := C113_within_partial (P := P) hT hs hP hc hc (List.replicate n c)
    (by simp; omega) (by simp) (by simpa using hn) (by simpa using hw) (by simpa using T.hi_pos)
  have e : (c - c) ^ 2 = 0 := by rw [sub_self]; norm_num
  rw [e] at h4 h5
  refine ⟨s, h1, by rw [h2, le_antisymm h4 h3], fun h => ?_⟩
  obtain ⟨v, h6, h7, h8⟩ := h5 (by simpa using h)
  rw [h6, le_antisymm h8 h7]

/-- The sum of squares of 0, 1, ..., n - 1 is taken about 0 instead of the mean: about four times the true value. -/
theorem C113_ramp (hT : 1 ≤ T.bits) (n : Nat) (hn : (n : Int) < T.hi) (hw : n < 2 ^ P.sizeBits)
    (hM : ((List.range n).map fun k : Nat => (k : Int) ^ 2).sum < T.hi) :
    Variance.run P T ((List.range n).map Int.ofNat) = some ⟨⟨0, n⟩, ((List.range n).map fun k : Nat => (k : Int) ^ 2).sum⟩ := by
  induction n with
  | zero => rfl
  | succ n ih =>
    rw [List.range_succ, List.map_append, List.sum_append] at hM
    simp only [List.map_singleton, List.sum_singleton] at hM
    have hs0 : 0 ≤ ((List.range n).map fun k : Nat => (k : Int) ^ 2).sum := by
      apply List.sum_nonneg
      intro x hx
      obtain ⟨k, -, rfl⟩ := List.mem_map.1 hx
      positivity
    have hn0 : (0 : Int) ≤ (n : Int) ^ 2 := by positivity
    rw [List.range_succ, List.map_append, List.map_singleton,
      Variance.run_snoc (ih (by push_cast at hn; omega) (by omega) (by linarith))]
    have hx : T.Has (n : Int) := ⟨T.lo_le_zero.trans (by omega), by push_cast at hn; omega⟩
    have e : ((n : Int) - 0).tdiv (n + 1 : Nat) = 0 := by
      rw [sub_zero, Int.tdiv_eq_zero_of_lt (by omega) (by push_cast; omega)]
    have hp : T.Has ((n : Int) * n) := by rw [← pow_two]; exact ⟨T.lo_le_zero.trans hn0, by linarith⟩
    have := Variance.push_exact (P := P) hT (v := ((List.range n).map fun k : Nat => (k : Int) ^ 2).sum) T.has_zero hx
      ⟨T.lo_le_zero.trans hs0, by linarith⟩ hn hw
      (by rw [sub_zero]; exact Platform.has_promote hx)
      (by rw [e, add_zero, sub_zero]; exact Platform.has_promote hx)
      (by rw [e, add_zero, sub_zero]; exact Platform.has_promote hp)
      (by rw [e, add_zero, sub_zero, ← pow_two]; exact ⟨T.lo_le_zero.trans (add_nonneg hs0 hn0), by linarith⟩)
    rw [Int.ofNat_eq_natCast, this, e, List.map_append, List.sum_append]
    simp [pow_two]

/-- 0, ..., 9: true variance 8.25, computed 28. -/
example : (Variance.run lp64 int32 [0, 1, 2, 3, 4, 5, 6, 7, 8, 9]).bind (Variance.getVariance lp64 int32) = some 28 := by decide

example : ∃ s, Variance.run lp64 int32 [3, -5, 8, 8] = some s
    ∧ (∃ v, s.getVariance lp64 int32 = some v ∧ 0 ≤ v ∧ v ≤ (8 - -5) ^ 2)
    ∧ (2 ≤ 4 → ∃ v, s.unbiasedVariance lp64 int32 = some v ∧ 0 ≤ v ∧ v ≤ (8 - -5) ^ 2) :=
  C113_within_partial (by decide) (by decide) (by decide) (by decide) (by decide) _ (by decide) (by decide) (by decide)
    (by decide) (by decide)

example : (Variance.run lp64 int32 [3, -5, 8, 8]).bind (Variance.getVariance lp64 int32) = some 29 := by decide

/-! ### C114: skewness and kurtosis of integers -/

/-- C114, the claim: after a defined history of at least one value, `skewness()` and `kurtosis()` are defined. -/
def IntShapeDefined (P : Platform) (T : Ty) : Prop :=
  (∀ (xs : List Int) s, xs ≠ [] → (∀ x ∈ xs, T.Has x) → Skewness.run P T xs = some s → ∃ r, s.getSkewness T = some r)
    ∧ ∀ (xs : List Int) s, xs ≠ [] → (∀ x ∈ xs, T.Has x) → Kurtosis.run P T xs = some s → ∃ r, s.getKurtosis P T = some r

/-- 0/0, in whatever way the factor before it rounds. -/
theorem nan_quotient (a : Dbl) : a * X.fin 0 / (Scalar.sqrt (X.fin 0) * X.fin 0) = (X.nan : Dbl) := by
  have r : (X.round 0 : Dbl) = X.fin 0 := binary64_binary.round_exact (isRep_zero _ _) binary64_binary.fits_zero
  have d : (Scalar.sqrt (X.fin 0) * X.fin 0 : Dbl) = X.fin 0 := by
    rw [X.sqrt_fin_of_nonneg le_rfl, Real.sqrt_zero, r, X.mul_fin, mul_zero, r]
  rw [d]
  rcases a with a | _ | _ | _
  · rw [X.mul_fin, mul_zero, r, X.zero_div_zero]
  · show X.div (X.signedInf 0) (X.fin 0) = _
    simp [X.signedInf, X.div]
  · show X.div (X.signedInf (-0)) (X.fin 0) = _
    simp [X.signedInf, X.div]
  · rfl

/-- For equal values of every integer type `skewness()` converts NaN to an integer and `kurtosis()` divides by zero:
both are undefined.  (The guard against a zero variance compares with `epsilon()`, which is 0 for integers.) -/
theorem C114_constant (hT : 1 ≤ T.bits) (hP : P.intBits ≤ P.sizeBits) (hTP : T.bits ≤ P.sizeBits) {c : Int}
    (hc : T.Has c) (n : Nat) (hn : (n : Int) < T.hi) (hw : n < 2 ^ P.sizeBits) :
    (∃ s, Skewness.run P T (List.replicate n c) = some s ∧ s.getSkewness T = none ∧ (2 ≤ n → s.unbiasedSkewness P T = none))
    ∧ ∃ s, Kurtosis.run P T (List.replicate n c) = some s ∧ s.getKurtosis P T = none := by
  have e0 : ((0 : Int) : ℝ) = 0 := Int.cast_zero
  have r : (X.round 0 : Dbl) = X.fin 0 := binary64_binary.round_exact (isRep_zero _ _) binary64_binary.fits_zero
  have key : ∀ m k : Int, Skewness.getSkewness T ⟨⟨⟨m, k⟩, 0⟩, 0⟩ = none := by
    intro m k
    show (if (0 : Int) < 0 then some 0 else ofDouble T
      (Scalar.sqrt (Scalar.ofInt k) * Scalar.ofInt 0 / (Scalar.sqrt (Scalar.ofInt 0) * Scalar.ofInt 0))) = none
    rw [if_neg (lt_irrefl _), X.ofInt_eq 0, e0, r, nan_quotient]
    rfl
  refine ⟨⟨_, Skewness.run_const hT hP hTP hc n hn hw, key _ _, fun h2 => ?_⟩,
    ⟨_, Kurtosis.run_const hT hP hTP hc n hn hw, ?_⟩⟩
  · unfold Skewness.unbiasedSkewness
    simp only [key, Platform.sz, lt_irrefl, if_false, Option.bind_eq_bind, Option.bind_none]
    rw [if_neg (by omega)]
  · unfold Kurtosis.getKurtosis
    simp only [lt_irrefl, if_false, Platform.mul_zero_right, Option.bind_eq_bind, Option.bind_some]
    unfold Platform.div
    simp only [Ty.conv_zero, if_true]
    rfl

/-- C114 is violated for every integer type. -/
theorem C114_violated (hT : 2 ≤ T.bits) (hP : P.intBits ≤ P.sizeBits) (hTP : T.bits ≤ P.sizeBits) : ¬ IntShapeDefined P T := by
  rintro ⟨h, -⟩
  have hh : (1 : Int) < T.hi := by
    unfold Ty.hi
    split
    · exact one_lt_pow₀ (by norm_num) (by omega)
    · exact one_lt_pow₀ (by norm_num) (by omega)
  obtain ⟨⟨s, h1, h2, -⟩, -⟩ := C114_constant (P := P) (c := 0) (by omega) hP hTP T.has_zero 1 (by exact_mod_cast hh)
    (one_lt_pow₀ (by norm_num) (by omega))
  obtain ⟨r, h3⟩ := h _ s (by simp) (by simp [Ty.has_zero]) h1
  rw [h2] at h3
  cases h3

/-- C114, the part that holds: `kurtosis()` is defined if the sum of squares is not zero and its square fits in the type,
and `skewness()` if the sum is negative.  Missing: `skewness()` otherwise. -/
theorem C114_kurtosis_partial (hT : 1 ≤ T.bits) (hP : P.intBits ≤ P.sizeBits) (hTP : T.bits ≤ P.sizeBits) (s : Kurtosis)
    (hv : 0 < s.base.base.variance) (hvT : s.base.base.variance ^ 2 < T.hi) : ∃ r, s.getKurtosis P T = some r := by
  have hU := T_le_promote (P := P) hT
  have hUs : (P.promote T).bits ≤ P.sizeBits := by unfold Platform.promote; split <;> assumption
  unfold Kurtosis.getKurtosis
  split
  · exact ⟨0, rfl⟩
  · generalize s.base.base.variance = v at *
    have hv1 : T.Has v := ⟨T.lo_le_zero.trans hv.le, by nlinarith⟩
    have hv2 : T.Has (v * v) := ⟨T.lo_le_zero.trans (by positivity), by nlinarith⟩
    obtain ⟨z, e1⟩ := Platform.mul_size (P := P) (a := P.sz s.base.base.base.count) (b := ⟨T, s.kurtosis⟩)
      (Platform.common_size_left hUs hP)
    have e2 : P.mul ⟨T, v⟩ ⟨T, v⟩ = some ⟨P.promote T, v * v⟩ := by
      rw [Platform.mul_eq hU rfl rfl (Platform.has_promote hv1) (Platform.has_promote hv1),
        Platform.result_has hU (Platform.has_promote hv2)]
    have hs : P.size.Has (v * v) := by
      refine ⟨by show (0 : Int) ≤ _; positivity, lt_of_lt_of_le hv2.2 ?_⟩
      show T.hi ≤ 2 ^ P.sizeBits
      unfold Ty.hi
      split
      · exact pow_le_pow_right₀ (by norm_num) (by omega)
      · exact pow_le_pow_right₀ (by norm_num) hTP
    obtain ⟨q, e3⟩ := Platform.div_size (P := P) (a := P.sz z) (b := ⟨P.promote T, v * v⟩)
      (Platform.common_size_left (by rw [Platform.promote_promote]; exact hUs) hP)
      (by rw [Ty.conv_of_has (show 1 ≤ P.size.bits from hT.trans hTP) hs]; exact (by positivity : (0 : Int) < v * v).ne')
    simp only [e1, e2, e3, Option.bind_eq_bind, Option.bind_some]
    exact ⟨_, rfl⟩

theorem C114_skewness_partial (s : Skewness) (h : s.skewness < 0) : s.getSkewness T = some 0 := by
  unfold Skewness.getSkewness
  rw [if_pos h]

/-- `delta / n` is evaluated in `size_t`: a value below the mean gives a huge quotient.  The sum of cubes of 0, 0, 6 about
their mean is 48, that of 6, 6, 0 is -48; the filter computes 48 and 1431655700. -/
theorem C114_below_mean :
    (Skewness.run lp64 int32 [0, 0, 6]).map Skewness.skewness = some 48
    ∧ (Skewness.run lp64 int32 [6, 6, 0]).map Skewness.skewness = some 1431655700 := by decide

/-- The kurtosis filter of 7, 7 and of 0, 4, 4, 0. -/
example : (Kurtosis.run lp64 int32 [7, 7]).bind (Kurtosis.getKurtosis lp64 int32) = none := by decide
example : (Kurtosis.run lp64 int32 [0, 4, 4, 0]).bind (Kurtosis.getKurtosis lp64 int32) = some 2 := by decide

example : ∃ s, Skewness.run lp64 int32 [7, 7] = some s ∧ s.getSkewness int32 = none ∧ (2 ≤ 2 → s.unbiasedSkewness lp64 int32 = none) :=
  (C114_constant (P := lp64) (T := int32) (c := 7) (by decide) (by decide) (by decide) (by decide) 2 (by decide) (by decide)).1

example : ∃ r, Kurtosis.getKurtosis lp64 int32 ⟨⟨⟨⟨2, 4⟩, 16⟩, 0⟩, 64⟩ = some r :=
  C114_kurtosis_partial (by decide) (by decide) (by decide) _ (by decide) (by decide)

end Verif.Props
