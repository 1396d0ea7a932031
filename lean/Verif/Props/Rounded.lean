import Verif.Proofs.Rounded
/-
C15 - C17, C59: the cumulative filters with rounding.  `F.Binary p emin` are the format axioms; they hold for
`binary64` and `binary32` (theorems `C15_binary64`, `C15_binary32`).
-/
namespace Verif.Props
open Scalar Verif.Cumulative

variable {w : Nat} {F : Fmt} {p : Nat} {emin : Int}

/-- The axioms hold for IEEE binary64 with round to nearest even. -/
theorem C15_binary64 : binary64.Binary 53 (-1074) := binary64_binary
/-- The axioms hold for IEEE binary32 with round to nearest even. -/
theorem C15_binary32 : binary32.Binary 24 (-149) := binary32_binary
/-- Round to nearest: no number of the format is nearer. -/
theorem C15_nearest (r y : ℝ) (hy : IsRep 53 (-1074) y) : |binary64.rnd r - r| ≤ |y - r| :=
  roundNearest_nearest (by norm_num) r y hy

/-! ### C15 -/

/-- C15: the mean is not smaller than the smallest value and not larger than the largest one. -/
theorem C15_mean_within (hF : F.Binary p emin) (ops : List (Op ℝ)) (hd : F.Data p emin (sinceClear ops))
    (hn : sinceClear ops ≠ []) (hw : (sinceClear ops).length < 2 ^ w) :
    ∃ m : ℝ, (Mean.run (finOps ops) : Mean w (X F)).getMean = X.fin m
      ∧ (∃ x ∈ sinceClear ops, x ≤ m) ∧ (∃ y ∈ sinceClear ops, m ≤ y) := by
  rw [Mean.run_eq, sinceClear_finOps]
  obtain ⟨m, hm⟩ := Mean.rounded (w := w) hF _ hd hw
  exact ⟨m, hm.mean, hm.within hn⟩

/-- C15: the same for any bounds of the data. -/
theorem C15_mean_bounds (hF : F.Binary p emin) (ops : List (Op ℝ)) (hd : F.Data p emin (sinceClear ops))
    (hn : sinceClear ops ≠ []) (hw : (sinceClear ops).length < 2 ^ w) (lo hi : ℝ)
    (hb : ∀ x ∈ sinceClear ops, lo ≤ x ∧ x ≤ hi) :
    ∃ m : ℝ, (Mean.run (finOps ops) : Mean w (X F)).getMean = X.fin m ∧ lo ≤ m ∧ m ≤ hi := by
  obtain ⟨m, h1, ⟨x, hx, hxm⟩, ⟨y, hy, hmy⟩⟩ := C15_mean_within (w := w) hF ops hd hn hw
  exact ⟨m, h1, (hb x hx).1.trans hxm, hmy.trans (hb y hy).2⟩

/-- The integers 1, 2, 6 after another data set, as `double`. -/
example : ∃ m : ℝ, (Mean.run (finOps [.push 100, .clear, .push 1, .push 2, .push 6]) : Mean 64 (X binary64)).getMean = X.fin m
    ∧ 1 ≤ m ∧ m ≤ 6 := by
  have hd : binary64.Data 53 (-1074) (sinceClear ([.push 100, .clear, .push 1, .push 2, .push 6] : List (Op ℝ))) := by
    have := binary64_data [1, 2, 6] (by simp)
    simpa [sinceClear] using this
  refine C15_mean_bounds C15_binary64 _ hd (by simp [sinceClear]) (by simp [sinceClear]) 1 6 ?_
  intro x hx
  have : x = 1 ∨ x = 2 ∨ x = 6 := by simpa [sinceClear] using hx
  rcases this with rfl | rfl | rfl <;> norm_num

/-! ### C16 -/

/-- C16 where no difference of two data points overflows: neither `variance()` nor `unbiased_variance()` is
negative; with a count that fits the format they are numbers (not NaN). -/
theorem C16_nonneg_partial (hF : F.Binary p emin) (ops : List (Op ℝ)) (hd : F.Data p emin (sinceClear ops))
    (hw : (sinceClear ops).length < 2 ^ w) :
    let s : Variance w (X F) := Variance.run (finOps ops)
    (lt s.variance (ofNat 0) = false ∧ lt s.unbiasedVariance (ofNat 0) = false)
    ∧ (1 ≤ (sinceClear ops).length → F.fits (F.rnd (sinceClear ops).length) →
        le (ofNat 0) s.variance = true)
    ∧ (2 ≤ (sinceClear ops).length → F.fits (F.rnd ((sinceClear ops).length - 1 : Nat)) →
        le (ofNat 0) s.unbiasedVariance = true) := by
  intro s
  have hs : s = _ := Variance.run_eq (finOps ops)
  rw [sinceClear_finOps] at hs
  obtain ⟨⟨m, hm⟩, hv⟩ := Variance.rounded (w := w) hF _ hd hw
  rw [← hs] at hm hv
  have hle : ∀ x : X F, NonNeg F p emin x → le (ofNat 0) x = true := by
    intro x hx
    rw [hF.ofNat_zero]
    rcases hx with rfl | ⟨t, h0, -, -, rfl⟩
    · rfl
    · rw [X.le_fin]; exact decide_eq_true h0
  simp only [Variance.variance, Variance.unbiasedVariance]
  refine ⟨⟨?_, ?_⟩, ?_, ?_⟩
  · exact hv.div_lt_zero hF _
  · exact hv.div_lt_zero hF _
  · intro h1 hf
    refine hle _ ?_
    rw [hm.count, ofSize, toNat_ofNat_lt hw]
    exact hv.div hF h1 hf
  · intro h1 hf
    refine hle _ ?_
    rw [hm.count, ofNat_sub_one (by omega), ofSize, toNat_ofNat_lt (by omega)]
    exact hv.div hF (by omega) hf

/-- C16: the accumulated sum does not decrease with a push. -/
theorem C16_monotone_partial (hF : F.Binary p emin) (ops : List (Op ℝ)) (x : ℝ)
    (hd : F.Data p emin (sinceClear ops ++ [x])) (hw : (sinceClear ops).length + 1 < 2 ^ w) :
    le (Variance.run (finOps ops) : Variance w (X F)).sumVariance
      (Variance.run (finOps (ops ++ [.push x])) : Variance w (X F)).sumVariance = true := by
  rw [Variance.run_eq, Variance.run_eq, sinceClear_finOps, sinceClear_finOps, sinceClear_append_push,
    List.map_append, List.map_singleton, List.foldl_append]
  obtain ⟨⟨m, hm⟩, hv⟩ := Variance.rounded (w := w) hF _ hd.init (by omega)
  exact (Variance.rounded_push hF hd hw hm hv).2.2

/-- The variance part of the skewness and kurtosis filters is the variance filter. -/
theorem C16_inherited {α : Type} [Scalar α] (ops : List (Op α)) :
    (Skewness.run ops : Skewness w α).super = Variance.run ops
    ∧ (Kurtosis.run ops : Kurtosis w α).super.super = Variance.run ops := by
  rw [Kurtosis.run_super, Skewness.run_super]; exact ⟨rfl, rfl⟩

example : le (ofNat 0) (Variance.run (finOps [.push 1, .push 2, .push 6]) : Variance 64 (X binary64)).variance = true := by
  have hd : binary64.Data 53 (-1074) (sinceClear ([.push 1, .push 2, .push 6] : List (Op ℝ))) := by
    have := binary64_data [1, 2, 6] (by simp)
    simpa [sinceClear] using this
  refine (C16_nonneg_partial C15_binary64 _ hd (by simp [sinceClear])).2.1 (by simp [sinceClear]) ?_
  have h := binary64_int (n := 3) (by norm_num)
  have e : ((sinceClear ([.push 1, .push 2, .push 6] : List (Op ℝ))).length : ℝ) = ((3 : Int) : ℝ) := by
    simp [sinceClear]
  rw [e, C15_binary64.exact _ h.1]
  exact h.2

/-- C16 is violated if a difference overflows: two finite numbers whose variance is `-inf`, in every format
whose largest number is less than twice some number. -/
theorem C16_overflow (hF : F.Binary p emin) (hw : 2 < 2 ^ w) {x : ℝ} (hx : IsRep p emin x) (hf : F.fits x) (h0 : 0 < x)
    (h2 : IsRep p emin (2 * x)) (hov : ¬ F.fits (2 * x)) :
    let s : Variance w (X F) := Variance.run (finOps [.push x, .push (-x)])
    s.variance = X.ninf ∧ lt s.variance (ofNat 0) = true ∧ s.getMean = X.ninf := by
  intro s
  have hd : F.Data p emin [x] := by
    constructor
    · intro y hy; rw [List.mem_singleton.1 hy]; exact ⟨hx, hf⟩
    · intro y hy z hz
      rw [List.mem_singleton.1 hy, List.mem_singleton.1 hz, sub_self, hF.rnd_zero]; exact hF.fits_zero
  obtain ⟨m, h1, -, -, -, -, h6⟩ := (MeanInv.nil (w := w) hF).push hF (xs := []) (x := x) hd (by rw [List.length_nil]; omega)
  have hm : m = x := h6 rfl
  subst hm
  set t : Variance w (X F) := Variance.init.push (X.fin m) with ht
  have htm : t.super.mean = X.fin m := h1.mean
  have htc : t.super.count = BitVec.ofNat w 1 := h1.count
  have hts : t.sumVariance = X.fin 0 := by
    show ofNat 0 + (X.fin m - ofNat 0) * (X.fin m - t.super.mean) = X.fin 0
    rw [htm, hF.ofNat_zero, hF.sub_zero hx hf, hF.sub_self, hF.mul_zero, hF.zero_add (isRep_zero _ _) hF.fits_zero]
  have hs : s = t.push (X.fin (-m)) := rfl
  have hdiff : (X.fin (-m) - X.fin m : X F) = X.ninf := by
    have e : -m - m = -(2 * m) := by ring
    rw [X.sub_fin, e]
    unfold X.round
    rw [hF.exact _ h2.neg, if_neg (fun hc => hov (by have := hF.fits_neg hc; rwa [neg_neg] at this)),
      if_neg (by linarith)]
  have htc2 : (ofSize (t.super.count + 1) : X F) = X.fin 2 := by
    rw [htc, ofNat_add_one, ofSize, toNat_ofNat_lt (by omega), X.ofNat_eq]
    push_cast
    exact hF.round_exact hF.isRep_two hF.fits_two
  have hmean : s.super.mean = X.ninf := by
    rw [hs]
    show t.super.mean + (X.fin (-m) - t.super.mean) / ofSize (t.super.count + 1) = X.ninf
    rw [htc2, htm, hdiff]
    show X.fin m + (if (2 : ℝ) < 0 then X.pinf else X.ninf : X F) = X.ninf
    rw [if_neg (by norm_num)]; rfl
  have hsum : s.sumVariance = X.ninf := by
    have : s.sumVariance = t.sumVariance + (X.fin (-m) - t.super.mean) * (X.fin (-m) - s.super.mean) := rfl
    rw [this, hmean, htm, hdiff, hts]; rfl
  have hvar : s.variance = X.ninf := by
    show s.sumVariance / ofSize (t.super.count + 1) = X.ninf
    rw [hsum, htc2]
    show (if (2 : ℝ) < 0 then X.pinf else X.ninf : X F) = X.ninf
    rw [if_neg (by norm_num)]
  refine ⟨hvar, ?_, hmean⟩
  rw [hvar, hF.ofNat_zero]; rfl

/-- C16 without a restriction on differences. -/
def C16_Statement (F : Fmt) (p : Nat) (emin : Int) (w : Nat) : Prop :=
  ∀ ops : List (Op ℝ), (∀ x ∈ sinceClear ops, IsRep p emin x ∧ F.fits x) → (sinceClear ops).length < 2 ^ w →
    lt (Variance.run (finOps ops) : Variance w (X F)).variance (ofNat 0) = false

/-- C16 violated for `double`: `2^1023` and `-2^1023`. -/
theorem C16_violated : ¬ C16_Statement binary64 53 (-1074) 64 := by
  intro h
  have e : (2 : ℝ) * 2 ^ (1023 : Int) = 2 ^ (1024 : Int) := by
    rw [show (1024 : Int) = 1 + 1023 by norm_num, zpow_add₀ (by norm_num), zpow_one]
  have hr : IsRep 53 (-1074) ((2 : ℝ) ^ (1023 : Int)) := isRep_zpow (by norm_num) (by norm_num)
  have hf : binary64.fits ((2 : ℝ) ^ (1023 : Int)) := by
    rw [binary64_fits, abs_of_pos (by positivity)]
    exact zpow_lt_zpow_right₀ (by norm_num) (by norm_num)
  have h1 := (C16_overflow (w := 64) C15_binary64 (by norm_num) hr hf (by positivity)
    (by rw [e]; exact isRep_zpow (by norm_num) (by norm_num))
    (by rw [e, binary64_fits, abs_of_pos (by positivity)]; exact lt_irrefl _)).2.1
  rw [h [.push (2 ^ (1023 : Int)), .push (-2 ^ (1023 : Int))] ?_ (by simp [sinceClear])] at h1
  · exact absurd h1 (by simp)
  · intro x hx
    have : x = 2 ^ (1023 : Int) ∨ x = -2 ^ (1023 : Int) := by simpa [sinceClear] using hx
    rcases this with rfl | rfl
    · exact ⟨hr, hf⟩
    · exact ⟨hr.neg, C15_binary64.fits_neg hf⟩

/-! ### C17 -/

/-- State of the variance filter after `n` times the same number. -/
theorem replicate_fold (hF : F.Binary p emin) {c : ℝ} (hc : IsRep p emin c) (hf : F.fits c) (n : Nat) (hw : n < 2 ^ w) :
    ∃ s : Variance w (X F), (List.replicate n (X.fin c)).foldl Variance.push Variance.init = s
      ∧ s.super.mean = X.fin (if n = 0 then 0 else c) ∧ s.super.count = BitVec.ofNat w n ∧ s.sumVariance = X.fin 0 := by
  induction n with
  | zero => exact ⟨_, rfl, by rw [if_pos rfl]; exact hF.ofNat_zero, rfl, hF.ofNat_zero⟩
  | succ n ih =>
    obtain ⟨s, h1, h2, h3, h4⟩ := ih (by omega)
    refine ⟨_, rfl, ?_⟩
    rw [List.replicate_succ', List.foldl_append, h1, List.foldl_cons, List.foldl_nil]
    have hcount : (ofSize (s.super.count + 1) : X F) = ofNat (n + 1) := by
      rw [h3, ofNat_add_one, ofSize, toNat_ofNat_lt hw]
    have hm : (s.push (X.fin c)).super.mean = X.fin c := by
      show s.super.mean + (X.fin c - s.super.mean) / ofSize (s.super.count + 1) = X.fin c
      rw [h2, hcount]
      by_cases h0 : n = 0
      · rw [if_pos h0, h0, zero_add, hF.sub_zero hc hf, hF.div_one hc hf, hF.zero_add hc hf]
      · rw [if_neg h0, hF.sub_self, hF.zero_div (by omega), hF.add_zero hc hf]
    refine ⟨by rw [hm, if_neg (by omega)], ?_, ?_⟩
    · show s.super.count + 1 = _
      rw [h3, ofNat_add_one]
    · show s.sumVariance + (X.fin c - s.super.mean) * (X.fin c - (s.push (X.fin c)).super.mean) = X.fin 0
      have : ∃ r : ℝ, (X.fin c - s.super.mean : X F) = X.fin r := by
        rw [h2]
        by_cases h0 : n = 0
        · rw [if_pos h0, hF.sub_zero hc hf]; exact ⟨_, rfl⟩
        · rw [if_neg h0, hF.sub_self]; exact ⟨_, rfl⟩
      obtain ⟨r, hr⟩ := this
      rw [hm, hF.sub_self, h4, hr, hF.mul_zero, hF.add_zero (isRep_zero _ _) hF.fits_zero]

/-- C17: after `n ≥ 1` times the same number `c` (whatever happened before the last `clear`) the mean is `c` and
the variance is 0. -/
theorem C17_constant (hF : F.Binary p emin) (ops : List (Op (X F))) {c : ℝ} {n : Nat} (hc : IsRep p emin c) (hf : F.fits c)
    (hops : sinceClear ops = List.replicate n (X.fin c)) (hn : 1 ≤ n) (hw : n < 2 ^ w) :
    (Mean.run ops : Mean w (X F)).getMean = X.fin c
    ∧ (Variance.run ops : Variance w (X F)).getMean = X.fin c
    ∧ (Variance.run ops : Variance w (X F)).variance = X.fin 0
    ∧ (2 ≤ n → (Variance.run ops : Variance w (X F)).unbiasedVariance = X.fin 0) := by
  obtain ⟨s, h1, h2, h3, h4⟩ := replicate_fold (w := w) hF hc hf n hw
  have hs : (Variance.run ops : Variance w (X F)) = s := by rw [Variance.run_eq, hops, h1]
  rw [← Variance.run_super, hs]
  rw [if_neg (by omega)] at h2
  refine ⟨h2, h2, ?_, ?_⟩
  · show s.sumVariance / ofSize s.super.count = X.fin 0
    rw [h4, h3, ofSize, toNat_ofNat_lt hw, hF.zero_div hn]
  · intro h
    show s.sumVariance / ofSize (s.super.count - 1) = X.fin 0
    rw [h4, h3, ofNat_sub_one hn, ofSize, toNat_ofNat_lt (by omega), hF.zero_div (by omega)]

/-- Three times the largest power of two. -/
example : (Variance.run [.push X.nan, .clear, .push (X.fin (2 ^ (1023 : Int))), .push (X.fin (2 ^ (1023 : Int))),
    .push (X.fin (2 ^ (1023 : Int)))] : Variance 64 (X binary64)).variance = X.fin 0 := by
  refine (C17_constant C15_binary64 _ (n := 3) (isRep_zpow (by norm_num) (by norm_num)) ?_ rfl (by norm_num) (by norm_num)).2.2.1
  rw [binary64_fits, abs_of_pos (by positivity)]
  exact zpow_lt_zpow_right₀ (by norm_num) (by norm_num)

/-! ### C59 -/

/-- A single value whose square overflows makes the skewness sum NaN: `delta * delta_over_n * (n - 1)` is
`inf * 0`. -/
theorem C59_overflow (hF : F.Binary p emin) (hw : 1 < 2 ^ w) {c : ℝ} (hc : IsRep p emin c) (hf : F.fits c)
    (hov : ¬ F.fits (F.rnd (c * c))) :
    (Skewness.run [.push (X.fin c)] : Skewness w (X F)).skewness = X.nan
    ∧ (Kurtosis.run [.push (X.fin c)] : Kurtosis w (X F)).kurtosis = X.nan := by
  have hpos : 0 < c * c := by
    rcases eq_or_lt_of_le (mul_self_nonneg c) with h | h
    · rw [← h, hF.rnd_zero] at hov; exact absurd hF.fits_zero hov
    · exact h
  have h1 : ((0 : SizeT w) + 1) = BitVec.ofNat w 1 := by simp
  have h2 : (ofSize ((0 : SizeT w) + 1) : X F) = ofNat 1 := by rw [h1, ofSize, toNat_ofNat_lt hw]
  have h3 : (ofSize ((0 : SizeT w) + 1 - 1) : X F) = X.fin 0 := by
    rw [show (0 : SizeT w) + 1 - 1 = BitVec.ofNat w 0 by simp, ofSize, toNat_ofNat_lt (by omega), hF.ofNat_zero]
  have hsq : (X.fin c * X.fin c : X F) = X.pinf := by
    rw [X.mul_fin]; unfold X.round; rw [if_neg hov, if_pos hpos]
  have hnan : (X.pinf * X.fin 0 : X F) = X.nan := by
    show X.signedInf 0 = X.nan
    simp [X.signedInf]
  have nan_mul : ∀ y : X F, (X.nan * y : X F) = X.nan := fun y => by cases y <;> rfl
  have nan_add : ∀ y : X F, (X.nan + y : X F) = X.nan := fun y => by cases y <;> rfl
  have nan_sub : ∀ y : X F, (X.nan - y : X F) = X.nan := fun y => by cases y <;> rfl
  have nan_div : ∀ y : X F, (X.nan / y : X F) = X.nan := fun y => by cases y <;> rfl
  have add_nan : ∀ y : X F, (y + X.nan : X F) = X.nan := fun y => by cases y <;> rfl
  have mul_nan : ∀ y : X F, (y * X.nan : X F) = X.nan := fun y => by cases y <;> rfl
  have hs : (Skewness.run [.push (X.fin c)] : Skewness w (X F)).sumSkewness = X.nan := by
    show ofNat 0 + ((X.fin c - ofNat 0) * ((X.fin c - ofNat 0) / ofSize ((0 : SizeT w) + 1)) * ofSize ((0 : SizeT w) + 1 - 1)
      * ofSize ((0 : SizeT w) + 1 - 2) - ofNat 3 * ofNat 0) * ((X.fin c - ofNat 0) / ofSize ((0 : SizeT w) + 1)) = X.nan
    rw [h2, h3, hF.ofNat_zero, hF.sub_zero hc hf, hF.div_one hc hf, hsq, hnan, nan_mul, nan_sub, nan_mul, add_nan]
  have hk : (Kurtosis.run [.push (X.fin c)] : Kurtosis w (X F)).sumKurtosis = X.nan := by
    show ofNat 0 + (((X.fin c - ofNat 0) * ((X.fin c - ofNat 0) / ofSize ((0 : SizeT w) + 1)) * ofSize ((0 : SizeT w) + 1 - 1)
      * ofSize (((0 : SizeT w) + 1) * ((0 : SizeT w) + 1 - 3) + 3) + ofNat 6 * ofNat 0) * ((X.fin c - ofNat 0) / ofSize ((0 : SizeT w) + 1))
      - ofNat 4 * ofNat 0) * ((X.fin c - ofNat 0) / ofSize ((0 : SizeT w) + 1)) = X.nan
    rw [h2, h3, hF.ofNat_zero, hF.sub_zero hc hf, hF.div_one hc hf, hsq, hnan, nan_mul, nan_add, nan_mul, nan_sub, nan_mul, add_nan]
  constructor
  · rw [Skewness.skewness, hs]
    show (if false = true then _ else _) = _
    rw [if_neg (by simp), mul_nan, nan_div]
  · rw [Kurtosis.kurtosis, hk]
    show (if false = true then _ else _) = _
    rw [if_neg (by simp), mul_nan, nan_div]

/-- C59 for every number of the format. -/
def C59_Statement (F : Fmt) (p : Nat) (emin : Int) (w : Nat) : Prop :=
  ∀ (c : ℝ) (n : Nat), IsRep p emin c → F.fits c → n < 2 ^ w →
    (Skewness.run (List.replicate n (.push (X.fin c))) : Skewness w (X F)).skewness = X.fin 0
    ∧ (Kurtosis.run (List.replicate n (.push (X.fin c))) : Kurtosis w (X F)).kurtosis = X.fin 0

/-- Pushing the finite number `2^600` once makes skewness and kurtosis NaN. -/
theorem C59_nan :
    (Skewness.run [.push (X.fin (2 ^ (600 : Int)))] : Skewness 64 (X binary64)).skewness = X.nan
    ∧ (Kurtosis.run [.push (X.fin (2 ^ (600 : Int)))] : Kurtosis 64 (X binary64)).kurtosis = X.nan := by
  have e : (2 : ℝ) ^ (600 : Int) * 2 ^ (600 : Int) = 2 ^ (1200 : Int) := by
    rw [← zpow_add₀ (by norm_num)]; norm_num
  refine C59_overflow C15_binary64 (by norm_num) (isRep_zpow (by norm_num) (by norm_num)) ?_ ?_
  · rw [binary64_fits, abs_of_pos (by positivity)]
    exact zpow_lt_zpow_right₀ (by norm_num) (by norm_num)
  · rw [e, C15_binary64.exact _ (isRep_zpow (by norm_num) (by norm_num)), binary64_fits, abs_of_pos (by positivity), not_lt]
    exact zpow_le_zpow_right₀ (by norm_num) (by norm_num)

/-- C59 is violated for `double`. -/
theorem C59_violated : ¬ C59_Statement binary64 53 (-1074) 64 := by
  intro h
  have h1 := (h (2 ^ (600 : Int)) 1 (isRep_zpow (by norm_num) (by norm_num)) (by
    rw [binary64_fits, abs_of_pos (by positivity)]
    exact zpow_lt_zpow_right₀ (by norm_num) (by norm_num)) (by norm_num)).1
  exact absurd (C59_nan.1.symm.trans h1) (by simp)

/-- C59 for numbers whose square does not overflow: skewness and kurtosis of a constant stream are 0. -/
theorem C59_constant_partial (hF : F.Binary p emin) (heps : 0 < F.eps) (hsz : F.fits (F.rnd ((2 ^ w : Nat) : ℝ)))
    (h3 : ∀ k : Nat, k ≤ 6 → ∃ d : ℝ, (ofNat k : X F) = X.fin d)
    (ops : List (Op (X F))) {c : ℝ} {n : Nat} (hc : IsRep p emin c) (hf : F.fits c) (hsq : F.fits (F.rnd (c * c)))
    (hops : sinceClear ops = List.replicate n (X.fin c)) (hw : n < 2 ^ w) :
    (Skewness.run ops : Skewness w (X F)).skewness = X.fin 0
    ∧ (Skewness.run ops : Skewness w (X F)).unbiasedSkewness = X.fin 0
    ∧ (Kurtosis.run ops : Kurtosis w (X F)).kurtosis = X.fin 0
    ∧ (Kurtosis.run ops : Kurtosis w (X F)).unbiasedKurtosis = X.fin 0 := by
  have z := isRep_zero p emin
  have fz := hF.fits_zero
  -- the sums
  have key : ∀ k : Nat, k < 2 ^ w →
      ((List.replicate k (X.fin c)).foldl Kurtosis.push (Kurtosis.init (w := w))).sumKurtosis = (X.fin 0 : X F)
      ∧ ((List.replicate k (X.fin c)).foldl Kurtosis.push (Kurtosis.init (w := w))).super.sumSkewness = (X.fin 0 : X F) := by
    intro k
    induction k with
    | zero => intro _; exact ⟨hF.ofNat_zero, hF.ofNat_zero⟩
    | succ k ih =>
      intro hk
      obtain ⟨ih1, ih2⟩ := ih (by omega)
      obtain ⟨v, hv1, hv2, hv3, hv4⟩ := replicate_fold (w := w) hF hc hf k (by omega)
      rw [List.replicate_succ', List.foldl_append, List.foldl_cons, List.foldl_nil]
      set s := (List.replicate k (X.fin c : X F)).foldl Kurtosis.push (Kurtosis.init (w := w)) with hs
      have hsup : s.super.super = v := by
        rw [hs, ← hv1]
        have a := Kurtosis.run_super (w := w) ((List.replicate k (X.fin c : X F)).map Op.push)
        have b := Skewness.run_super (w := w) ((List.replicate k (X.fin c : X F)).map Op.push)
        rw [Kurtosis.run_eq, Skewness.run_eq, sinceClear_pushes] at a
        rw [Skewness.run_eq, Variance.run_eq, sinceClear_pushes] at b
        rw [a, b]
      -- the deviation, divided by n, and the product of both
      have hcount : (ofSize (s.size + 1) : X F) = ofNat (k + 1) := by
        show ofSize (s.super.super.super.count + 1) = _
        rw [hsup, hv3, ofNat_add_one, ofSize, toNat_ofNat_lt hk]
      have hmean : s.super.getMean = X.fin (if k = 0 then 0 else c) := by
        show s.super.super.super.mean = _
        rw [hsup, hv2]
      have hvar : s.super.super.sumVariance = X.fin 0 := by rw [hsup, hv4]
      obtain ⟨d, dn, hdn, hdd, hprod⟩ : ∃ d dn : ℝ, (X.fin c - s.super.getMean : X F) = X.fin d
          ∧ (X.fin d / ofSize (s.size + 1) : X F) = X.fin dn
          ∧ (X.fin d * X.fin dn * ofSize (s.size + 1 - 1) : X F) = X.fin 0 := by
        rw [hmean, hcount]
        by_cases h0 : k = 0
        · subst h0
          have hz : (ofSize (s.size + 1 - 1) : X F) = X.fin 0 := by
            have : s.size + 1 - 1 = BitVec.ofNat w 0 := by
              show s.super.super.super.count + 1 - 1 = _
              rw [hsup, hv3]; simp
            rw [this, ofSize, toNat_ofNat_lt (by omega), hF.ofNat_zero]
          refine ⟨c, c, by rw [if_pos rfl, hF.sub_zero hc hf], by rw [zero_add, hF.div_one hc hf], ?_⟩
          rw [hz, X.mul_fin]
          unfold X.round
          rw [if_pos hsq, hF.mul_zero]
        · refine ⟨0, 0, by rw [if_neg h0, hF.sub_self], hF.zero_div (by omega), ?_⟩
          obtain ⟨a, ha⟩ := hF.ofSize_fin hsz (s.size + 1 - 1)
          rw [ha, hF.mul_zero, hF.zero_mul]
      obtain ⟨a, ha⟩ := hF.ofSize_fin hsz (s.size + 1 - 2)
      obtain ⟨b, hb⟩ := hF.ofSize_fin hsz ((s.size + 1) * (s.size + 1 - 3) + 3)
      obtain ⟨t3, ht3⟩ := h3 3 (by omega)
      obtain ⟨t4, ht4⟩ := h3 4 (by omega)
      obtain ⟨t6, ht6⟩ := h3 6 (by omega)
      constructor
      · show s.sumKurtosis + (((X.fin c - s.super.getMean) * ((X.fin c - s.super.getMean) / ofSize (s.size + 1))
            * ofSize (s.size + 1 - 1) * ofSize ((s.size + 1) * (s.size + 1 - 3) + 3) + ofNat 6 * s.super.super.sumVariance)
            * ((X.fin c - s.super.getMean) / ofSize (s.size + 1)) - ofNat 4 * s.super.sumSkewness)
            * ((X.fin c - s.super.getMean) / ofSize (s.size + 1)) = X.fin 0
        rw [hdn, hdd, hprod, hb, ht6, ht4, hvar, ih1, ih2, hF.zero_mul, hF.mul_zero, hF.mul_zero, hF.add_zero z fz,
          hF.zero_mul, hF.sub_self, hF.zero_mul, hF.add_zero z fz]
      · show s.super.sumSkewness + ((X.fin c - s.super.getMean) * ((X.fin c - s.super.getMean) / ofSize (s.size + 1))
            * ofSize (s.size + 1 - 1) * ofSize (s.size + 1 - 2) - ofNat 3 * s.super.super.sumVariance)
            * ((X.fin c - s.super.getMean) / ofSize (s.size + 1)) = X.fin 0
        rw [hdn, hdd, hprod, ha, ht3, hvar, ih2, hF.zero_mul, hF.mul_zero, hF.sub_self, hF.zero_mul, hF.add_zero z fz]
  have hk : (Kurtosis.run ops : Kurtosis w (X F)).sumKurtosis = X.fin 0 := by
    rw [Kurtosis.run_eq, hops]; exact (key n hw).1
  have hs : (Skewness.run ops : Skewness w (X F)).sumSkewness = X.fin 0 := by
    rw [← Kurtosis.run_super, Kurtosis.run_eq, hops]; exact (key n hw).2
  have hlt : lt (X.fin 0 : X F) eps = true := by rw [X.eps_eq, X.lt_fin]; exact decide_eq_true heps
  have h0 : (ofNat 0 : X F) = X.fin 0 := hF.ofNat_zero
  refine ⟨?_, ?_, ?_, ?_⟩
  · rw [Skewness.skewness, hs, if_pos hlt, h0]
  · simp only [Skewness.unbiasedSkewness, hs, hlt, h0, if_true, ite_self]
  · rw [Kurtosis.kurtosis, hk, if_pos hlt, h0]
  · simp only [Kurtosis.unbiasedKurtosis, hk, hlt, h0, if_true, ite_self]

/-- Three times 7 as `double`. -/
example : (Kurtosis.run [.push (X.fin 7), .push (X.fin 7), .push (X.fin 7)] : Kurtosis 64 (X binary64)).kurtosis = X.fin 0 := by
  have h7 := binary64_int (n := 7) (by norm_num)
  have h49 := binary64_int (n := 49) (by norm_num)
  push_cast at h7 h49
  refine (C59_constant_partial C15_binary64 ?_ binary64_size ?_ _ h7.1 h7.2 ?_ (n := 3) rfl (by norm_num)).2.2.1
  · show (0 : ℝ) < 2 ^ (1 - ((53 : Nat) : Int)); positivity
  · intro k hk
    have := binary64_int (n := k) (by rw [abs_of_nonneg (by omega)]; norm_num; omega)
    push_cast at this
    exact ⟨k, by rw [X.ofNat_eq, C15_binary64.round_exact this.1 this.2]⟩
  · rw [show (7 : ℝ) * 7 = 49 by norm_num, C15_binary64.exact _ h49.1]; exact h49.2

end Verif.Props
