import Verif.Props.CovarianceRounded
import Verif.Proofs.SqrtSquare
import Verif.Props.Negation
/-
C76 - C78: correlation and regression with rounding.
-/
namespace Verif.Props
open Scalar Verif.Cumulative

variable {w : Nat} {F : Fmt} {p : Nat} {emin emax : Int}

/-- The parts of the correlation and regression filters. -/
theorem pairs_self {α : Type} [Scalar α] (ops : List (Op α)) :
    (Correlation.run (selfOps ops) : Correlation w α)
      = { co := Comoment.run (selfOps ops), x := Variance.run ops, y := Variance.run ops }
    ∧ (Regression.run (selfOps ops) : Regression w α)
      = { co := Comoment.run (selfOps ops), x := Variance.run ops, y := Variance.run ops } := by
  have e : sinceClear (selfOps ops) = (sinceClear ops).map fun x => (x, x) := sinceClear_map _ _
  have e1 : ((sinceClear ops).map fun x => (x, x)).map Prod.fst = sinceClear ops := by
    simp [Function.comp_def]
  have e2 : ((sinceClear ops).map fun x => (x, x)).map Prod.snd = sinceClear ops := by
    simp [Function.comp_def]
  rw [Correlation.run_eq, Regression.run_eq, Correlation.fold_any, Regression.fold_any, Comoment.run_eq, Variance.run_eq, e, e1, e2]
  exact ⟨rfl, rfl⟩

/-- The finite result of a division is a number of the format. -/
theorem div_rep (hF : F.Binary p emin) {a b : X F} {v : ℝ} (h : a / b = X.fin v) : IsRep p emin v := by
  have hr : ∀ r : ℝ, (X.round r : X F) = X.fin v → IsRep p emin v := by
    intro r h
    unfold X.round at h
    split_ifs at h with h1
    rw [← X.fin_inj.1 h]; exact hF.rep r
  cases a with
  | fin a =>
    cases b with
    | fin b =>
      rw [X.div_fin] at h
      split_ifs at h
      · unfold X.signedInf at h; split_ifs at h
      · exact hr _ h
    | pinf => rw [← X.fin_inj.1 (h : X.fin 0 = _)]; exact isRep_zero _ _
    | ninf => rw [← X.fin_inj.1 (h : X.fin 0 = _)]; exact isRep_zero _ _
    | nan => cases h
  | pinf =>
    cases b with
    | fin b => change (if b < 0 then X.ninf else X.pinf : X F) = _ at h; split_ifs at h
    | pinf => cases h
    | ninf => cases h
    | nan => cases h
  | ninf =>
    cases b with
    | fin b => change (if b < 0 then X.pinf else X.ninf : X F) = _ at h; split_ifs at h
    | pinf => cases h
    | ninf => cases h
    | nan => cases h
  | nan => cases h

/-! ### C76 -/

/-- C76: the correlation of a variable with itself is 1. -/
def C76_Statement (F : Fmt) (p : Nat) (emin : Int) (w : Nat) : Prop :=
  ∀ ops : List (Op ℝ), F.Data p emin (sinceClear ops) → sinceClear ops ≠ [] → (sinceClear ops).length < 2 ^ w →
    (Correlation.run (selfOps (finOps ops)) : Correlation w (X F)).value = X.fin 1

/-- C76 if the square of the variance does not overflow, rounding to nearest. -/
theorem C76_self_partial (hp : 2 ≤ p) (he : emin + 2 * p ≤ 1) (hm : 1 < emax) (ops : List (Op ℝ))
    (hd : (Fmt.ieee p emin emax).Data p emin (sinceClear ops)) (hne : sinceClear ops ≠ []) (hw : (sinceClear ops).length < 2 ^ w)
    {v : ℝ} (hv : (Variance.run (finOps ops) : Variance w (X (Fmt.ieee p emin emax))).variance = X.fin v)
    (hov : (Fmt.ieee p emin emax).fits ((Fmt.ieee p emin emax).rnd (v * v))) :
    (Correlation.run (selfOps (finOps ops)) : Correlation w (X (Fmt.ieee p emin emax))).value = X.fin 1 := by
  have hF := ieee_binary hp (by omega : emin ≤ 0) hm
  have hvr : IsRep p emin v := div_rep hF hv
  have hv0 : 0 ≤ v := by
    have := (C16_nonneg_partial (w := w) hF ops hd hw).1.1
    rw [hv, hF.ofNat_zero, X.lt_fin, decide_eq_false_iff_not] at this
    exact not_lt.1 this
  have hsize : 0 < (Variance.run (finOps ops) : Variance w (X (Fmt.ieee p emin emax))).size := by
    rw [Variance.run_eq, sinceClear_finOps]
    obtain ⟨⟨m, hmean⟩, -⟩ := Variance.rounded (w := w) hF _ hd hw
    show 0 < ((sinceClear ops).map X.fin |>.foldl Variance.push (Variance.init : Variance w (X (Fmt.ieee p emin emax)))).super.count
    rw [hmean.count, BitVec.lt_def, BitVec.toNat_ofNat, Nat.mod_eq_of_lt hw]
    exact List.length_pos_iff.2 hne
  rw [(pairs_self _).1]
  unfold Correlation.value
  rw [(C67_self_partial (w := w) _).2.1 hsize, hv, X.mul_fin]
  have hr : (X.round (v * v) : X (Fmt.ieee p emin emax)) = X.fin (roundNearest p emin (v * v)) := by
    unfold X.round; rw [if_pos hov]; rfl
  rw [hr, X.eps_eq]
  dsimp only
  rw [X.lt_fin]
  by_cases hc : roundNearest p emin (v * v) < (Fmt.ieee p emin emax).eps
  · rw [if_pos (decide_eq_true hc), hF.ofNat_one]
  · rw [if_neg (by simpa using hc)]
    have heps : (Fmt.ieee p emin emax).eps = 2 ^ (1 - (p : Int)) := rfl
    rw [heps, not_lt] at hc
    -- the square is not tiny
    have hq : (2 : ℝ) ^ (-(p : Int)) ≤ v * v := by
      by_contra hlt
      have h1 : roundNearest p emin (v * v) ≤ 2 ^ (-(p : Int)) := hF.rnd_le (isRep_zpow (by omega) (by omega)) (not_le.1 hlt).le
      have h2 : (2 : ℝ) ^ (-(p : Int)) < 2 ^ (1 - (p : Int)) := zpow_lt_zpow_right₀ (by norm_num) (by omega)
      linarith
    have hlow : (2 : ℝ) ^ (emin + p - 1) ≤ 2 ^ (-(p : Int)) := zpow_le_zpow_right₀ (by norm_num) (by omega)
    have hvp : 0 < v := by
      rcases lt_or_eq_of_le hv0 with h | h
      · exact h
      · exfalso
        rw [← h, mul_zero] at hq
        have : (0 : ℝ) < 2 ^ (-(p : Int)) := by positivity
        linarith
    have hv1 : (2 : ℝ) ^ (emin + p - 1) ≤ v := by
      by_contra hlt
      have hlt := not_le.1 hlt
      have h1 : (2 : ℝ) ^ (emin + p - 1) ≤ 1 := by
        rw [← zpow_zero (2 : ℝ)]; exact zpow_le_zpow_right₀ (by norm_num) (by omega)
      have h2 : v * v ≤ v * 1 := mul_le_mul_of_nonneg_left (by linarith) hv0
      linarith
    have hsq := roundNearest_sqrt_sq (p := p) (emin := emin) (by omega) hvr hvp hv1 (hlow.trans hq)
    have hs0 : 0 ≤ roundNearest p emin (v * v) := roundNearest_nonneg (by positivity)
    have hvf : (Fmt.ieee p emin emax).fits v := by
      -- v ≤ max(1, v * v) rounded
      rcases le_total v 1 with h1 | h1
      · exact hF.fits_abs v 1 (by rw [abs_of_nonneg hv0, abs_one]; exact h1) hF.fits_one
      · refine hF.fits_abs v _ ?_ hov
        have : v ≤ roundNearest p emin (v * v) := hF.le_rnd hvr (by nlinarith)
        rw [abs_of_nonneg hv0]
        exact this.trans (le_abs_self _)
    have hsr : (Scalar.sqrt (X.fin (roundNearest p emin (v * v))) : X (Fmt.ieee p emin emax)) = X.fin v := by
      rw [X.sqrt_fin_of_nonneg hs0]
      unfold X.round
      have : (Fmt.ieee p emin emax).rnd (Real.sqrt (roundNearest p emin (v * v))) = v := hsq
      rw [this, if_pos hvf]
    rw [hsr, X.div_fin_of_ne _ hvp.ne', div_self hvp.ne', hF.round_exact hF.isRep_one hF.fits_one]

/-! ### C77 -/

/-- C77: the slope of the regression of a variable on itself is exactly 1, any rounding direction; 0 if the variance is 0. -/
theorem C77_slope (hF : F.Binary p emin) (ops : List (Op (X F)))
    (hn : 0 < (Variance.run ops : Variance w (X F)).size) {v : ℝ}
    (hv : (Variance.run ops : Variance w (X F)).variance = X.fin v) :
    (Regression.run (selfOps ops) : Regression w (X F)).slope = if v = 0 then X.fin 0 else X.fin 1 := by
  rw [(pairs_self _).2]
  unfold Regression.slope
  dsimp only
  rw [(C67_self_partial (w := w) _).2.1 hn, hv, hF.ofNat_zero, X.beq_fin]
  by_cases h : v = 0
  · simp [h]
  · rw [if_neg (by simpa using h), if_neg h, X.div_fin_of_ne _ h, div_self h, hF.round_exact hF.isRep_one hF.fits_one]

/-- Two pushes, the first of which is 0. -/
theorem variance_two (hF : F.Binary p emin) {x : ℝ} (hx : IsRep p emin x ∧ F.fits x) :
    (Variance.run [.push (X.fin 0), .push (X.fin x)] : Variance 64 (X F))
      = { super := { mean := X.fin 0 + X.fin x / ofNat 2, count := 2 }
          sumVariance := X.fin 0 + X.fin x * (X.fin x - (X.fin 0 + X.fin x / ofNat 2)) } := by
  have h1 : (Mean.init : Mean 64 (X F)).push (X.fin 0) = { mean := X.fin 0, count := 1 } := by
    show ({ count := 0 + 1, mean := ofNat 0 + (X.fin 0 - ofNat 0) / ofNat 1 } : Mean 64 (X F)) = _
    rw [hF.ofNat_zero, hF.sub_self, hF.zero_div le_rfl, hF.add_zero (isRep_zero _ _) hF.fits_zero]
    rfl
  have h2 : (Variance.init : Variance 64 (X F)).push (X.fin 0) = { super := { mean := X.fin 0, count := 1 }, sumVariance := X.fin 0 } := by
    show ({ super := (Mean.init : Mean 64 (X F)).push (X.fin 0)
            sumVariance := ofNat 0 + (X.fin 0 - ofNat 0) * (X.fin 0 - ((Mean.init : Mean 64 (X F)).push (X.fin 0)).mean) } : Variance 64 (X F)) = _
    rw [h1, hF.ofNat_zero, hF.sub_self, hF.mul_zero, hF.add_zero (isRep_zero _ _) hF.fits_zero]
  show ((Variance.init : Variance 64 (X F)).push (X.fin 0)).push (X.fin x) = _
  rw [h2]
  show ({ super := { count := 1 + 1, mean := X.fin 0 + (X.fin x - X.fin 0) / ofNat 2 }
          sumVariance := X.fin 0 + (X.fin x - X.fin 0) * (X.fin x - (X.fin 0 + (X.fin x - X.fin 0) / ofNat 2)) } : Variance 64 (X F)) = _
  rw [hF.sub_zero hx.1 hx.2]
  rfl

/-- The variance of 0 and `2^400` is `2^798`, its square overflows. -/
theorem variance_big : (Variance.run (finOps [.push 0, .push (2 ^ (400 : Int))]) : Variance 64 (X binary64)).variance
    = X.fin (2 ^ (798 : Int)) := by
  have hd := double 1 400 (by norm_num) (by norm_num) (by norm_num)
  rw [Int.cast_one, one_mul] at hd
  show (Variance.run [.push (X.fin 0), .push (X.fin (2 ^ (400 : Int)))] : Variance 64 (X binary64)).variance = _
  rw [variance_two binary64_binary hd]
  have e1 : ((2 : ℝ) ^ (400 : Int)) / ((2 : Nat) : ℝ) = 2 ^ (399 : Int) := by
    rw [div_eq_iff (by norm_num), show (400 : Int) = 399 + 1 by norm_num, zpow_add₀ (by norm_num)]; norm_num
  have e2 : ((2 : ℝ) ^ (400 : Int)) - 2 ^ (399 : Int) = 2 ^ (399 : Int) := by
    rw [show (400 : Int) = 399 + 1 by norm_num, zpow_add₀ (by norm_num), zpow_one]; ring
  have e3 : ((2 : ℝ) ^ (400 : Int)) * 2 ^ (399 : Int) = 2 ^ (799 : Int) := by
    rw [← zpow_add₀ (by norm_num)]; norm_num
  have e4 : ((2 : ℝ) ^ (799 : Int)) / ((2 : Nat) : ℝ) = 2 ^ (798 : Int) := by
    rw [div_eq_iff (by norm_num), show (799 : Int) = 798 + 1 by norm_num, zpow_add₀ (by norm_num)]; norm_num
  have r : ∀ k : Int, -1074 ≤ k → k ≤ 970 → (X.round (2 ^ k) : X binary64) = X.fin (2 ^ k) :=
    fun k h1 h2 => round64 1 k (by simp) (by norm_num) h1 h2
  show (X.fin 0 + X.fin (2 ^ (400 : Int)) * (X.fin (2 ^ (400 : Int)) - (X.fin 0 + X.fin (2 ^ (400 : Int)) / ofNat 2))) / ofNat 2 = _
  rw [ofNat64 (by norm_num), X.div_fin_of_ne _ (by norm_num), e1, r _ (by norm_num) (by norm_num), X.add_fin, zero_add,
    r _ (by norm_num) (by norm_num), X.sub_fin, e2, r _ (by norm_num) (by norm_num), X.mul_fin, e3, r _ (by norm_num) (by norm_num),
    X.add_fin, zero_add, r _ (by norm_num) (by norm_num), X.div_fin_of_ne _ (by norm_num), e4, r _ (by norm_num) (by norm_num)]

/-- The correlation of 0, `2^400` with itself is 0. -/
theorem C76_zero : (Correlation.run (selfOps (finOps [.push 0, .push (2 ^ (400 : Int))])) : Correlation 64 (X binary64)).value
    = X.fin 0 := by
  rw [(pairs_self _).1]
  unfold Correlation.value
  rw [(C67_self_partial (w := 64) _).2.1 (by show (0 : BitVec 64) < 2; decide), variance_big, X.mul_fin]
  have e : ((2 : ℝ) ^ (798 : Int)) * 2 ^ (798 : Int) = 2 ^ (1596 : Int) := by rw [← zpow_add₀ (by norm_num)]; norm_num
  have hr : (X.round (2 ^ (1596 : Int)) : X binary64) = X.pinf := by
    unfold X.round
    rw [binary64_binary.exact _ (isRep_zpow (by norm_num) (by norm_num)), if_neg, if_pos (by positivity)]
    rw [binary64_fits, abs_of_pos (by positivity), not_lt]
    exact zpow_le_zpow_right₀ (by norm_num) (by norm_num)
  rw [e, hr]
  rfl

/-- 0 and a value of the type are admissible data. -/
theorem data_two (hF : F.Binary p emin) {y : ℝ} (hy : IsRep p emin y ∧ F.fits y) : F.Data p emin [0, y] := by
  have z : IsRep p emin 0 ∧ F.fits 0 := ⟨isRep_zero _ _, hF.fits_zero⟩
  constructor
  · intro x hx
    rcases List.mem_cons.1 hx with rfl | hx
    · exact z
    · rw [List.mem_singleton.1 hx]; exact hy
  · intro x hx x' hx'
    have h1 : x = 0 ∨ x = y := by simpa using hx
    have h2 : x' = 0 ∨ x' = y := by simpa using hx'
    rcases h1 with rfl | rfl <;> rcases h2 with rfl | rfl
    · rw [sub_self, hF.rnd_zero]; exact z.2
    · rw [zero_sub, hF.exact _ hy.1.neg]; exact hF.fits_neg hy.2
    · rw [sub_zero, hF.exact _ hy.1]; exact hy.2
    · rw [sub_self, hF.rnd_zero]; exact z.2

/-- C76 is violated in binary64. -/
theorem C76_violated : ¬ C76_Statement binary64 53 (-1074) 64 := by
  intro h
  have hd := double 1 400 (by norm_num) (by norm_num) (by norm_num)
  rw [Int.cast_one, one_mul] at hd
  have h1 := h [.push 0, .push (2 ^ (400 : Int))] ?_ (by simp [sinceClear]) (by simp [sinceClear])
  · rw [C76_zero, X.fin_inj] at h1
    norm_num at h1
  · exact data_two binary64_binary hd

/-- `double` values 0, 4: variance 4, correlation and slope with itself 1. -/
theorem variance_four : (Variance.run (finOps [.push 0, .push 4]) : Variance 64 (X binary64)).variance = X.fin 4 := by
  show (Variance.run [.push (X.fin 0), .push (X.fin 4)] : Variance 64 (X binary64)).variance = _
  rw [variance_two binary64_binary (by have := binary64_int (n := 4) (by norm_num); exact_mod_cast this)]
  show (X.fin 0 + X.fin 4 * (X.fin 4 - (X.fin 0 + X.fin 4 / ofNat 2))) / ofNat 2 = _
  rw [ofNat64 (by norm_num), X.div_fin_of_ne _ (by norm_num), round64_int 2 (by norm_num) (by norm_num), X.add_fin,
    round64_int 2 (by norm_num) (by norm_num), X.sub_fin, round64_int 2 (by norm_num) (by norm_num), X.mul_fin,
    round64_int 8 (by norm_num) (by norm_num), X.add_fin, round64_int 8 (by norm_num) (by norm_num), X.div_fin_of_ne _ (by norm_num),
    round64_int 4 (by norm_num) (by norm_num)]
  norm_num

example : (Correlation.run (selfOps (finOps [.push 0, .push 4])) : Correlation 64 (X binary64)).value = X.fin 1 := by
  refine C76_self_partial (by norm_num) (by norm_num) (by norm_num) _ ?_ (by simp [sinceClear]) (by simp [sinceClear]) variance_four ?_
  · refine double_data ?_
    intro x hx
    have : x = 0 ∨ x = 4 := by simpa [sinceClear] using hx
    rcases this with h | h
    · exact ⟨0, by rw [h]; norm_num, by norm_num⟩
    · exact ⟨4, by rw [h]; norm_num, by norm_num⟩
  · have := binary64_int (n := 16) (by norm_num)
    have e : (4 : ℝ) * 4 = ((16 : Int) : ℝ) := by norm_num
    rw [e]
    show binary64.fits (binary64.rnd _)
    rw [binary64_binary.exact _ this.1]; exact this.2

example : (Regression.run (selfOps (finOps [.push 0, .push 4])) : Regression 64 (X binary64)).slope = X.fin 1 := by
  rw [C77_slope binary64_binary _ (by show (0 : BitVec 64) < 2; decide) variance_four, if_neg (by norm_num)]

/-! ### C78 -/

/-- C78: the computed correlation lies between -1 and 1. -/
def C78_Statement (F : Fmt) (p : Nat) (emin : Int) (w : Nat) : Prop :=
  ∀ ops : List (Op (ℝ × ℝ)), F.Data p emin (Spec.xsOf (sinceClear ops)) → F.Data p emin (Spec.ysOf (sinceClear ops)) →
    (sinceClear ops).length < 2 ^ w → ∀ r, (Correlation.run (finOps2 ops) : Correlation w (X F)).value = X.fin r → |r| ≤ 1

/-- C78 for pairs `(x, x)` and pairs `(x, -x)`, rounding to nearest, if the square of the variance does not overflow: the
value is exactly 1 or -1. -/
theorem C78_diagonal_partial (hp : 2 ≤ p) (he : emin + 2 * p ≤ 1) (hm : 1 < emax) (ops : List (Op ℝ))
    (hd : (Fmt.ieee p emin emax).Data p emin (sinceClear ops)) (hne : sinceClear ops ≠ []) (hw : (sinceClear ops).length < 2 ^ w)
    {v : ℝ} (hv : (Variance.run (finOps ops) : Variance w (X (Fmt.ieee p emin emax))).variance = X.fin v)
    (hov : (Fmt.ieee p emin emax).fits ((Fmt.ieee p emin emax).rnd (v * v))) :
    (Correlation.run (finOps2 (ops.map (Op.map fun x => (x, x)))) : Correlation w (X (Fmt.ieee p emin emax))).value = X.fin 1
    ∧ (Correlation.run (finOps2 (ops.map (Op.map fun x => (x, -x)))) : Correlation w (X (Fmt.ieee p emin emax))).value
      = if lt (X.fin v * X.fin v : X (Fmt.ieee p emin emax)) eps then X.fin 1 else X.fin (-1) := by
  have hF := ieee_binary hp (by omega : emin ≤ 0) hm
  have h1 := C76_self_partial hp he hm ops hd hne hw hv hov
  have e1 : finOps2 (ops.map (Op.map fun x => (x, x))) = selfOps (finOps ops : List (Op (X (Fmt.ieee p emin emax)))) := by
    rw [finOps2, selfOps, finOps, List.map_map, List.map_map]
    refine List.map_congr_left fun op _ => ?_
    cases op <;> rfl
  have e2 : finOps2 (ops.map (Op.map fun x => (x, -x))) = negYOps (selfOps (finOps ops : List (Op (X (Fmt.ieee p emin emax))))) := by
    rw [finOps2, negYOps, selfOps, finOps, List.map_map, List.map_map, List.map_map]
    refine List.map_congr_left fun op _ => ?_
    cases op <;> rfl
  rw [e1, e2]
  refine ⟨h1, ?_⟩
  have h2 := C80_correlation (w := w) (ieee_odd p emin emax) (selfOps (finOps ops))
  have h3 : (Correlation.run (selfOps (finOps ops)) : Correlation w (X (Fmt.ieee p emin emax))).x.variance = X.fin v := by
    rw [(pairs_self _).1]; exact hv
  have h4 : (Correlation.run (selfOps (finOps ops)) : Correlation w (X (Fmt.ieee p emin emax))).y.variance = X.fin v := by
    rw [(pairs_self _).1]; exact hv
  dsimp only at h2
  rw [h1, h3, h4] at h2
  by_cases hc : lt (X.fin v * X.fin v : X (Fmt.ieee p emin emax)) eps = true
  · rw [if_pos hc] at h2 ⊢
    rw [h2.2, hF.ofNat_one]
  · rw [if_neg hc] at h2 ⊢
    rw [h2.2]; rfl

example : (Correlation.run (finOps2 [.push (0, -0), .push (4, -4)]) : Correlation 64 (X binary64)).value = X.fin (-1) := by
  have h := C78_diagonal_partial (w := 64) (p := 53) (emin := -1074) (emax := 1024) (by norm_num) (by norm_num) (by norm_num) [.push 0, .push 4]
    (double_data fun x hx => by
      have : x = 0 ∨ x = 4 := by simpa [sinceClear] using hx
      rcases this with h | h
      · exact ⟨0, by rw [h]; norm_num, by norm_num⟩
      · exact ⟨4, by rw [h]; norm_num, by norm_num⟩) (by simp [sinceClear]) (by simp [sinceClear]) variance_four (by
    have := binary64_int (n := 16) (by norm_num)
    have e : (4 : ℝ) * 4 = ((16 : Int) : ℝ) := by norm_num
    rw [e]
    show binary64.fits (binary64.rnd _)
    rw [binary64_binary.exact _ this.1]; exact this.2)
  have e : (X.fin 4 * X.fin 4 : X binary64) = X.fin 16 := by
    rw [X.mul_fin, round64_int 16 (by norm_num) (by norm_num)]; norm_num
  have k : (if lt (X.fin 4 * X.fin 4 : X binary64) eps then (X.fin 1 : X binary64) else X.fin (-1)) = X.fin (-1) := by
    rw [e, X.eps_eq, X.lt_fin, if_neg]
    rw [decide_eq_true_eq, not_lt]
    show (2 : ℝ) ^ (1 - ((53 : Nat) : Int)) ≤ 16
    norm_num
  exact h.2.trans k

/-- Two pairs, the first of which is (0, 0). -/
theorem correlation_two (hF : F.Binary p emin) {x y : ℝ} (hx : IsRep p emin x ∧ F.fits x) (hy : IsRep p emin y ∧ F.fits y) :
    (Correlation.run [.push (X.fin 0, X.fin 0), .push (X.fin x, X.fin y)] : Correlation 64 (X F)).value
      = let vx := (X.fin 0 + X.fin x * (X.fin x - (X.fin 0 + X.fin x / ofNat 2))) / ofNat 2
        let vy := (X.fin 0 + X.fin y * (X.fin y - (X.fin 0 + X.fin y / ofNat 2))) / ofNat 2
        let co := (X.fin 0 + (X.fin x - (X.fin 0 + X.fin x / ofNat 2)) * X.fin y) / ofNat 2
        if lt (vx * vy) eps then ofNat 1 else co / Scalar.sqrt (vx * vy) := by
  have hvx := variance_two hF hx
  have hvy := variance_two hF hy
  have hm : (Mean.init : Mean 64 (X F)).push (X.fin 0) = { mean := X.fin 0, count := 1 } := by
    show ({ count := 0 + 1, mean := ofNat 0 + (X.fin 0 - ofNat 0) / ofNat 1 } : Mean 64 (X F)) = _
    rw [hF.ofNat_zero, hF.sub_self, hF.zero_div le_rfl, hF.add_zero (isRep_zero _ _) hF.fits_zero]
    rfl
  have h1 : (Comoment.init : Comoment 64 (X F)).push (X.fin 0, X.fin 0)
      = { xCenter := { mean := X.fin 0, count := 1 }, yCenter := { mean := X.fin 0, count := 1 }, center := X.fin 0 } := by
    show ({ xCenter := (Mean.init : Mean 64 (X F)).push (X.fin 0), yCenter := (Mean.init : Mean 64 (X F)).push (X.fin 0)
            center := ofNat 0 + (X.fin 0 - ((Mean.init : Mean 64 (X F)).push (X.fin 0)).mean) * (X.fin 0 - ofNat 0) } : Comoment 64 (X F)) = _
    rw [hm, hF.ofNat_zero, hF.sub_self, hF.mul_zero, hF.add_zero (isRep_zero _ _) hF.fits_zero]
  have h2 : (Comoment.run [.push (X.fin 0, X.fin 0), .push (X.fin x, X.fin y)] : Comoment 64 (X F)).variance
      = (X.fin 0 + (X.fin x - (X.fin 0 + X.fin x / ofNat 2)) * X.fin y) / ofNat 2 := by
    show (((Comoment.init : Comoment 64 (X F)).push (X.fin 0, X.fin 0)).push (X.fin x, X.fin y)).variance = _
    rw [h1]
    show (X.fin 0 + (X.fin x - (X.fin 0 + (X.fin x - X.fin 0) / ofNat 2)) * (X.fin y - X.fin 0)) / ofNat 2 = _
    rw [hF.sub_zero hx.1 hx.2, hF.sub_zero hy.1 hy.2]
  have hc : (Correlation.run [.push (X.fin 0, X.fin 0), .push (X.fin x, X.fin y)] : Correlation 64 (X F))
      = { co := Comoment.run [.push (X.fin 0, X.fin 0), .push (X.fin x, X.fin y)]
          x := Variance.run [.push (X.fin 0), .push (X.fin x)]
          y := Variance.run [.push (X.fin 0), .push (X.fin y)] } := rfl
  rw [hc, hvx, hvy]
  unfold Correlation.value
  rw [h2]
  rfl

/-- (0, 0) and (3, 2^52 + 1) have the correlation 1 + 2^-52. -/
theorem C78_value : (Correlation.run (finOps2 [.push (0, 0), .push (3, 2 ^ 52 + 1)]) : Correlation 64 (X binary64)).value
    = X.fin (1 + 2 ^ (-52 : Int)) := by
  have hx : IsRep 53 (-1074) 3 ∧ binary64.fits 3 := by have := binary64_int (n := 3) (by norm_num); exact_mod_cast this
  have hy : IsRep 53 (-1074) (2 ^ 52 + 1) ∧ binary64.fits (2 ^ 52 + 1) := by
    have := binary64_int (n := 2 ^ 52 + 1) (by norm_num)
    have e : ((2 ^ 52 + 1 : Int) : ℝ) = 2 ^ 52 + 1 := by norm_num
    rw [e] at this; exact this
  show (Correlation.run [.push (X.fin 0, X.fin 0), .push (X.fin 3, X.fin (2 ^ 52 + 1))] : Correlation 64 (X binary64)).value = _
  rw [correlation_two binary64_binary hx hy]
  have mx : (X.fin 0 + X.fin 3 / ofNat 2 : X binary64) = X.fin (3 / 2) := by
    rw [ofNat64 (by norm_num), X.div_fin_of_ne _ (by norm_num),
      round64 3 (-1) (by norm_num) (by norm_num) (by norm_num) (by norm_num), X.add_fin,
      round64 3 (-1) (by norm_num) (by norm_num) (by norm_num) (by norm_num)]
    norm_num
  have my : (X.fin 0 + X.fin (2 ^ 52 + 1) / ofNat 2 : X binary64) = X.fin (2 ^ 51 + 1 / 2) := by
    rw [ofNat64 (by norm_num), X.div_fin_of_ne _ (by norm_num),
      round64 (2 ^ 52 + 1) (-1) (by norm_num) (by norm_num) (by norm_num) (by norm_num), X.add_fin,
      round64 (2 ^ 52 + 1) (-1) (by norm_num) (by norm_num) (by norm_num) (by norm_num)]
    norm_num
  have vx : ((X.fin 0 + X.fin 3 * (X.fin 3 - X.fin (3 / 2))) / ofNat 2 : X binary64) = X.fin (9 / 4) := by
    rw [ofNat64 (by norm_num), X.sub_fin, round64 3 (-1) (by norm_num) (by norm_num) (by norm_num) (by norm_num), X.mul_fin,
      round64 9 (-1) (by norm_num) (by norm_num) (by norm_num) (by norm_num), X.add_fin,
      round64 9 (-1) (by norm_num) (by norm_num) (by norm_num) (by norm_num), X.div_fin_of_ne _ (by norm_num),
      round64 9 (-2) (by norm_num) (by norm_num) (by norm_num) (by norm_num)]
    norm_num
  have vy : ((X.fin 0 + X.fin (2 ^ 52 + 1) * (X.fin (2 ^ 52 + 1) - X.fin (2 ^ 51 + 1 / 2))) / ofNat 2 : X binary64)
      = X.fin (2 ^ 102 + 2 ^ 51) := by
    rw [ofNat64 (by norm_num), X.sub_fin, round64 (2 ^ 52 + 1) (-1) (by norm_num) (by norm_num) (by norm_num) (by norm_num), X.mul_fin]
    have e : (X.round ((2 ^ 52 + 1) * ((2 ^ 52 + 1) - (2 ^ 51 + 1 / 2))) : X binary64) = X.fin (2 ^ 103 + 2 ^ 52) := by
      refine round64_of (2 ^ 52 + 2) 51 ?_ (by norm_num) (by norm_num) (by norm_num) (by norm_num)
      rw [rnd64_near (2 ^ 52 + 2) 51 (by norm_num) (by rw [abs_of_pos (by norm_num)]; norm_num)
        (by rw [abs_of_pos (by norm_num)]; norm_num) (by rw [abs_lt]; constructor <;> norm_num)]
      norm_num
    rw [e, X.add_fin, round64 (2 ^ 52 + 2) 51 (by norm_num) (by norm_num) (by norm_num) (by norm_num), X.div_fin_of_ne _ (by norm_num),
      round64 (2 ^ 52 + 2) 50 (by norm_num) (by norm_num) (by norm_num) (by norm_num)]
    norm_num
  have co : ((X.fin 0 + (X.fin 3 - X.fin (3 / 2)) * X.fin (2 ^ 52 + 1)) / ofNat 2 : X binary64) = X.fin (3 * 2 ^ 50 + 1) := by
    rw [ofNat64 (by norm_num), X.sub_fin, round64 3 (-1) (by norm_num) (by norm_num) (by norm_num) (by norm_num), X.mul_fin]
    have e : (X.round ((3 - 3 / 2) * (2 ^ 52 + 1)) : X binary64) = X.fin (3 * 2 ^ 51 + 2) := by
      refine round64_of (3 * 2 ^ 51 + 2) 0 ?_ (by norm_num) (by norm_num) (by norm_num) (by norm_num)
      rw [rnd64_tie (3 * 2 ^ 51 + 1) 0 (by norm_num) (by rw [abs_of_pos (by norm_num)]; norm_num)
        (by rw [abs_of_pos (by norm_num)]; norm_num) (by norm_num), if_neg (by decide)]
      norm_num
    rw [e, X.add_fin, round64_int (3 * 2 ^ 51 + 2) (by norm_num) (by norm_num), X.div_fin_of_ne _ (by norm_num),
      round64_int (3 * 2 ^ 50 + 1) (by norm_num) (by norm_num)]
    norm_num
  have vp : (X.fin (9 / 4) * X.fin (2 ^ 102 + 2 ^ 51) : X binary64) = X.fin (9 * 2 ^ 100 + 2 ^ 52) := by
    rw [X.mul_fin]
    refine round64_of (9 * 2 ^ 49 + 2) 51 ?_ (by norm_num) (by norm_num) (by norm_num) (by norm_num)
    rw [rnd64_near (9 * 2 ^ 49 + 2) 51 (by norm_num) (by rw [abs_of_pos (by norm_num)]; norm_num)
      (by rw [abs_of_pos (by norm_num)]; norm_num) (by rw [abs_lt]; constructor <;> norm_num)]
    norm_num
  have sq : (Scalar.sqrt (X.fin (9 * 2 ^ 100 + 2 ^ 52)) : X binary64) = X.fin (3 * 2 ^ 50 + 1 / 2) := by
    rw [X.sqrt_fin_of_nonneg (by norm_num)]
    have l : (3 * 2 ^ 50 + 13 / 20 : ℝ) < Real.sqrt (9 * 2 ^ 100 + 2 ^ 52) := by
      apply Real.lt_sqrt_of_sq_lt; norm_num
    have u : Real.sqrt (9 * 2 ^ 100 + 2 ^ 52) < (3 * 2 ^ 50 + 7 / 10 : ℝ) := by
      rw [Real.sqrt_lt' (by norm_num)]; norm_num
    refine round64_of (3 * 2 ^ 51 + 1) (-1) ?_ (by norm_num) (by norm_num) (by norm_num) (by norm_num)
    have e : ((2 : ℝ) ^ (-1 : Int)) = 1 / 2 := by norm_num
    rw [rnd64_near (3 * 2 ^ 51 + 1) (-1) (by norm_num)
      (by rw [e, abs_of_pos (div_pos (lt_trans (by norm_num) l) (by norm_num)), le_div_iff₀ (by norm_num)]; norm_num at l ⊢; linarith)
      (by rw [e, abs_of_pos (div_pos (lt_trans (by norm_num) l) (by norm_num)), div_lt_iff₀ (by norm_num)]; norm_num at u ⊢; linarith)
      (by rw [e, abs_lt]; push_cast; norm_num at l u ⊢; constructor <;> linarith)]
    norm_num
  rw [mx, my]
  dsimp only
  rw [vx, vy, co, vp, sq, X.eps_eq, X.lt_fin, if_neg, X.div_fin_of_ne _ (by norm_num)]
  · refine round64_of (2 ^ 52 + 1) (-52) ?_ (by norm_num) (by norm_num) (by norm_num) (by norm_num)
    rw [rnd64_near (2 ^ 52 + 1) (-52) (by norm_num) (by rw [abs_of_pos (by norm_num)]; norm_num)
      (by rw [abs_of_pos (by norm_num)]; norm_num) (by rw [abs_lt]; constructor <;> norm_num)]
    norm_num
  · have : binary64.eps ≤ 1 := by
      show (2 : ℝ) ^ (1 - ((53 : Nat) : Int)) ≤ 1
      norm_num
    rw [decide_eq_true_eq, not_lt]
    refine this.trans ?_
    norm_num

/-- C78 is violated in binary64. -/
theorem C78_violated : ¬ C78_Statement binary64 53 (-1074) 64 := by
  intro h
  have h1 := h [.push (0, 0), .push (3, 2 ^ 52 + 1)] ?_ ?_ (by simp [sinceClear]) _ C78_value
  · rw [abs_of_pos (by positivity)] at h1
    norm_num at h1
  · refine double_data ?_
    intro x hx
    have : x = 0 ∨ x = 3 := by simpa [sinceClear, Spec.xsOf] using hx
    rcases this with h | h
    · exact ⟨0, by rw [h]; norm_num, by norm_num⟩
    · exact ⟨3, by rw [h]; norm_num, by norm_num⟩
  · refine data_two binary64_binary ?_
    have := binary64_int (n := 2 ^ 52 + 1) (by norm_num)
    have e : ((2 ^ 52 + 1 : Int) : ℝ) = 2 ^ 52 + 1 := by norm_num
    rw [e] at this; exact this

/-- Far outside: (2^53 + 8, 2^53) and (2^53 + 10, 2^53 + 6) have the correlation 6 / sqrt 12 = 1.73..., because the
mean of each coordinate is rounded to an even multiple of 2. -/
theorem C78_far : ∃ v : ℝ, (Correlation.run (finOps2 [.push (2 ^ 53 + 8, 2 ^ 53), .push (2 ^ 53 + 10, 2 ^ 53 + 6)])
    : Correlation 64 (X binary64)).value = X.fin v ∧ 17 / 10 < v := by
  have o1 : (ofSize (0 + 1 : SizeT 64) : X binary64) = X.fin 1 := by
    have := ofNat64 (n := 1) (by norm_num)
    rw [Nat.cast_one] at this; exact this
  have o2 : (ofSize (0 + 1 + 1 : SizeT 64) : X binary64) = X.fin 2 := by
    have := ofNat64 (n := 2) (by norm_num)
    rw [Nat.cast_ofNat] at this; exact this
  have o0 : (ofNat 0 : X binary64) = X.fin 0 := by have := ofNat64 (n := 0) (by norm_num); simpa using this
  have r : ∀ m : Int, |m| ≤ 2 ^ 53 → (X.round ((m : ℝ) * 2) : X binary64) = X.fin ((m : ℝ) * 2) := fun m hm =>
    round64 m 1 (by norm_num) hm (by norm_num) (by norm_num)
  have i : ∀ m : Int, |m| ≤ 2 ^ 53 → (X.round (m : ℝ) : X binary64) = X.fin (m : ℝ) := fun m hm => round64_int m rfl hm
  -- first push of a coordinate
  have first : ∀ m : Int, |m| ≤ 2 ^ 53 → (Mean.init : Mean 64 (X binary64)).push (X.fin ((m : ℝ) * 2))
      = { mean := X.fin ((m : ℝ) * 2), count := 0 + 1 } := by
    intro m hm
    have e : (X.fin 0 + (X.fin ((m : ℝ) * 2) - X.fin 0) / X.fin 1 : X binary64) = X.fin ((m : ℝ) * 2) := by
      rw [X.sub_fin, sub_zero, r m hm, X.div_fin_of_ne _ (by norm_num), div_one, r m hm, X.add_fin, zero_add, r m hm]
    show ({ count := 0 + 1, mean := ofNat 0 + (X.fin ((m : ℝ) * 2) - ofNat 0) / ofSize (0 + 1 : SizeT 64) } : Mean 64 (X binary64)) = _
    rw [o0, o1, e]
  have mx : (Mean.push { mean := X.fin (2 ^ 53 + 8), count := 0 + 1 } (X.fin (2 ^ 53 + 10)) : Mean 64 (X binary64))
      = { mean := X.fin (2 ^ 53 + 8), count := 0 + 1 + 1 } := by
    have e : (X.fin (2 ^ 53 + 8) + (X.fin (2 ^ 53 + 10) - X.fin (2 ^ 53 + 8)) / X.fin 2 : X binary64) = X.fin (2 ^ 53 + 8) := by
      rw [X.sub_fin, round64_int 2 (by norm_num) (by norm_num), X.div_fin_of_ne _ (by norm_num),
        round64_int 1 (by norm_num) (by norm_num), X.add_fin]
      refine round64_of (2 ^ 52 + 4) 1 ?_ (by norm_num) (by norm_num) (by norm_num) (by norm_num)
      rw [rnd64_tie (2 ^ 52 + 4) 1 (by norm_num) (by rw [abs_of_pos (by norm_num)]; norm_num)
        (by rw [abs_of_pos (by norm_num)]; norm_num) (by norm_num), if_pos (by decide)]
      norm_num
    show ({ count := 0 + 1 + 1, mean := X.fin (2 ^ 53 + 8) + (X.fin (2 ^ 53 + 10) - X.fin (2 ^ 53 + 8)) / ofSize (0 + 1 + 1 : SizeT 64) }
      : Mean 64 (X binary64)) = _
    rw [o2, e]
  have my : (Mean.push { mean := X.fin (2 ^ 53), count := 0 + 1 } (X.fin (2 ^ 53 + 6)) : Mean 64 (X binary64))
      = { mean := X.fin (2 ^ 53 + 4), count := 0 + 1 + 1 } := by
    have e : (X.fin (2 ^ 53) + (X.fin (2 ^ 53 + 6) - X.fin (2 ^ 53)) / X.fin 2 : X binary64) = X.fin (2 ^ 53 + 4) := by
      rw [X.sub_fin, round64_int 6 (by norm_num) (by norm_num), X.div_fin_of_ne _ (by norm_num),
        round64_int 3 (by norm_num) (by norm_num), X.add_fin]
      refine round64_of (2 ^ 52 + 2) 1 ?_ (by norm_num) (by norm_num) (by norm_num) (by norm_num)
      rw [rnd64_tie (2 ^ 52 + 1) 1 (by norm_num) (by rw [abs_of_pos (by norm_num)]; norm_num)
        (by rw [abs_of_pos (by norm_num)]; norm_num) (by norm_num), if_neg (by decide)]
      norm_num
    show ({ count := 0 + 1 + 1, mean := X.fin (2 ^ 53) + (X.fin (2 ^ 53 + 6) - X.fin (2 ^ 53)) / ofSize (0 + 1 + 1 : SizeT 64) }
      : Mean 64 (X binary64)) = _
    rw [o2, e]
  have f1 : (Mean.init : Mean 64 (X binary64)).push (X.fin (2 ^ 53 + 8)) = { mean := X.fin (2 ^ 53 + 8), count := 0 + 1 } := by
    have := first (2 ^ 52 + 4) (by norm_num)
    have e : ((2 ^ 52 + 4 : Int) : ℝ) * 2 = 2 ^ 53 + 8 := by norm_num
    rwa [e] at this
  have f2 : (Mean.init : Mean 64 (X binary64)).push (X.fin (2 ^ 53)) = { mean := X.fin (2 ^ 53), count := 0 + 1 } := by
    have := first (2 ^ 52) (by norm_num)
    have e : ((2 ^ 52 : Int) : ℝ) * 2 = 2 ^ 53 := by norm_num
    rwa [e] at this
  have B := binary64_binary
  -- one coordinate: difference, mean, new difference
  have coord : ∀ (x0 x1 m1 d0 d1 s : ℝ), (X.fin x0 - X.fin 0 : X binary64) = X.fin x0 →
      (Mean.init : Mean 64 (X binary64)).push (X.fin x0) = { mean := X.fin x0, count := 0 + 1 } →
      (Mean.push { mean := X.fin x0, count := 0 + 1 } (X.fin x1) : Mean 64 (X binary64))
        = { mean := X.fin m1, count := 0 + 1 + 1 } →
      (X.fin x1 - X.fin x0 : X binary64) = X.fin d0 → (X.fin x1 - X.fin m1 : X binary64) = X.fin d1 →
      (X.fin 0 + X.fin d0 * X.fin d1 : X binary64) = X.fin s →
      (Variance.run [.push (X.fin x0), .push (X.fin x1)] : Variance 64 (X binary64)).variance = X.fin s / X.fin 2 := by
    intro x0 x1 m1 d0 d1 s hr h1 h2 h3 h4 h5
    have g1 : (Variance.init : Variance 64 (X binary64)).push (X.fin x0)
        = { super := { mean := X.fin x0, count := 0 + 1 }, sumVariance := X.fin 0 } := by
      show ({ super := (Mean.init : Mean 64 (X binary64)).push (X.fin x0)
              sumVariance := ofNat 0 + (X.fin x0 - ofNat 0) * (X.fin x0 - ((Mean.init : Mean 64 (X binary64)).push (X.fin x0)).mean) }
        : Variance 64 (X binary64)) = _
      rw [h1, o0]
      dsimp only
      rw [B.sub_self]
      rw [hr, B.mul_zero, B.add_zero (isRep_zero _ _) B.fits_zero]
    show (((Variance.init : Variance 64 (X binary64)).push (X.fin x0)).push (X.fin x1)).variance = _
    rw [g1]
    show (X.fin 0 + (X.fin x1 - X.fin x0) * (X.fin x1 - (Mean.push { mean := X.fin x0, count := 0 + 1 } (X.fin x1) : Mean 64 (X binary64)).mean))
      / ofSize (0 + 1 + 1 : SizeT 64) = _
    rw [h2, h3]
    dsimp only
    rw [h4, h5, o2]
  have z1 : (X.fin (2 ^ 53 + 8) - X.fin 0 : X binary64) = X.fin (2 ^ 53 + 8) := by
    rw [X.sub_fin, sub_zero]
    exact round64 (2 ^ 52 + 4) 1 (by norm_num) (by norm_num) (by norm_num) (by norm_num)
  have z2 : (X.fin (2 ^ 53) - X.fin 0 : X binary64) = X.fin (2 ^ 53) := by
    rw [X.sub_fin, sub_zero]
    exact round64 (2 ^ 52) 1 (by norm_num) (by norm_num) (by norm_num) (by norm_num)
  have dx : (X.fin (2 ^ 53 + 10) - X.fin (2 ^ 53 + 8) : X binary64) = X.fin 2 := by
    rw [X.sub_fin, round64_int 2 (by norm_num) (by norm_num)]; norm_num
  have dy0 : (X.fin (2 ^ 53 + 6) - X.fin (2 ^ 53) : X binary64) = X.fin 6 := by
    rw [X.sub_fin, round64_int 6 (by norm_num) (by norm_num)]; norm_num
  have dy1 : (X.fin (2 ^ 53 + 6) - X.fin (2 ^ 53 + 4) : X binary64) = X.fin 2 := by
    rw [X.sub_fin, round64_int 2 (by norm_num) (by norm_num)]; norm_num
  have vx := coord (2 ^ 53 + 8) (2 ^ 53 + 10) (2 ^ 53 + 8) 2 2 4 z1 f1 mx dx dx (by
    rw [X.mul_fin, round64_int 4 (by norm_num) (by norm_num), X.add_fin, round64_int 4 (by norm_num) (by norm_num)]; norm_num)
  have vy := coord (2 ^ 53) (2 ^ 53 + 6) (2 ^ 53 + 4) 6 2 12 z2 f2 my dy0 dy1 (by
    rw [X.mul_fin, round64_int 12 (by norm_num) (by norm_num), X.add_fin, round64_int 12 (by norm_num) (by norm_num)]; norm_num)
  have co : (Comoment.run [.push (X.fin (2 ^ 53 + 8), X.fin (2 ^ 53)), .push (X.fin (2 ^ 53 + 10), X.fin (2 ^ 53 + 6))]
      : Comoment 64 (X binary64)).variance = X.fin 6 := by
    have g1 : (Comoment.init : Comoment 64 (X binary64)).push (X.fin (2 ^ 53 + 8), X.fin (2 ^ 53))
        = { xCenter := { mean := X.fin (2 ^ 53 + 8), count := 0 + 1 }, yCenter := { mean := X.fin (2 ^ 53), count := 0 + 1 }
            center := X.fin 0 } := by
      show ({ xCenter := (Mean.init : Mean 64 (X binary64)).push (X.fin (2 ^ 53 + 8))
              yCenter := (Mean.init : Mean 64 (X binary64)).push (X.fin (2 ^ 53))
              center := ofNat 0 + (X.fin (2 ^ 53 + 8) - ((Mean.init : Mean 64 (X binary64)).push (X.fin (2 ^ 53 + 8))).mean)
                * (X.fin (2 ^ 53) - ofNat 0) } : Comoment 64 (X binary64)) = _
      rw [f1, f2, o0]
      dsimp only
      rw [B.sub_self, z2, B.zero_mul, B.add_zero (isRep_zero _ _) B.fits_zero]
    show (((Comoment.init : Comoment 64 (X binary64)).push (X.fin (2 ^ 53 + 8), X.fin (2 ^ 53))).push
      (X.fin (2 ^ 53 + 10), X.fin (2 ^ 53 + 6))).variance = _
    rw [g1]
    show (X.fin 0 + (X.fin (2 ^ 53 + 10)
        - (Mean.push { mean := X.fin (2 ^ 53 + 8), count := 0 + 1 } (X.fin (2 ^ 53 + 10)) : Mean 64 (X binary64)).mean)
        * (X.fin (2 ^ 53 + 6) - X.fin (2 ^ 53))) / ofSize (0 + 1 + 1 : SizeT 64) = _
    rw [mx]
    dsimp only
    rw [dx, dy0, o2, X.mul_fin, round64_int 12 (by norm_num) (by norm_num), X.add_fin, round64_int 12 (by norm_num) (by norm_num),
      X.div_fin_of_ne _ (by norm_num), round64_int 6 (by norm_num) (by norm_num)]
    norm_num
  have vp : (X.fin 4 / X.fin 2 * (X.fin 12 / X.fin 2) : X binary64) = X.fin 12 := by
    rw [X.div_fin_of_ne _ (by norm_num), round64_int 2 (by norm_num) (by norm_num), X.div_fin_of_ne _ (by norm_num),
      round64_int 6 (by norm_num) (by norm_num), X.mul_fin, round64_int 12 (by norm_num) (by norm_num)]
    norm_num
  have hv : (Correlation.run (finOps2 [.push (2 ^ 53 + 8, 2 ^ 53), .push (2 ^ 53 + 10, 2 ^ 53 + 6)])
      : Correlation 64 (X binary64)).value = X.fin 6 / Scalar.sqrt (X.fin 12) := by
    show (if lt ((Variance.run [.push (X.fin (2 ^ 53 + 8)), .push (X.fin (2 ^ 53 + 10))] : Variance 64 (X binary64)).variance
        * (Variance.run [.push (X.fin (2 ^ 53)), .push (X.fin (2 ^ 53 + 6))] : Variance 64 (X binary64)).variance) eps then ofNat 1
      else (Comoment.run [.push (X.fin (2 ^ 53 + 8), X.fin (2 ^ 53)), .push (X.fin (2 ^ 53 + 10), X.fin (2 ^ 53 + 6))]
          : Comoment 64 (X binary64)).variance
        / Scalar.sqrt ((Variance.run [.push (X.fin (2 ^ 53 + 8)), .push (X.fin (2 ^ 53 + 10))] : Variance 64 (X binary64)).variance
          * (Variance.run [.push (X.fin (2 ^ 53)), .push (X.fin (2 ^ 53 + 6))] : Variance 64 (X binary64)).variance)) = _
    rw [vx, vy, vp, co, X.eps_eq, X.lt_fin, if_neg]
    rw [decide_eq_true_eq, not_lt]
    show (2 : ℝ) ^ (1 - ((53 : Nat) : Int)) ≤ 12
    norm_num
  have l : (3 : ℝ) < Real.sqrt 12 := by apply Real.lt_sqrt_of_sq_lt; norm_num
  have u : Real.sqrt 12 < (7 / 2 : ℝ) := by rw [Real.sqrt_lt' (by norm_num)]; norm_num
  have r3 : IsRep 53 (-1074) (3 : ℝ) ∧ binary64.fits 3 := by have := double 3 0 (by norm_num) (by norm_num) (by norm_num); norm_num at this; exact this
  have r7 : IsRep 53 (-1074) (7 / 2 : ℝ) ∧ binary64.fits (7 / 2) := by
    have := double 7 (-1) (by norm_num) (by norm_num) (by norm_num)
    have e : ((7 : Int) : ℝ) * 2 ^ (-1 : Int) = 7 / 2 := by norm_num
    rwa [e] at this
  have r109 : IsRep 53 (-1074) (109 / 64 : ℝ) ∧ binary64.fits (109 / 64) := by
    have := double 109 (-6) (by norm_num) (by norm_num) (by norm_num)
    have e : ((109 : Int) : ℝ) * 2 ^ (-6 : Int) = 109 / 64 := by norm_num
    rwa [e] at this
  have s1 : 3 ≤ binary64.rnd (Real.sqrt 12) := by have := B.mono l.le; rwa [B.exact _ r3.1] at this
  have s2 : binary64.rnd (Real.sqrt 12) ≤ 7 / 2 := by have := B.mono u.le; rwa [B.exact _ r7.1] at this
  have hs : (Scalar.sqrt (X.fin 12) : X binary64) = X.fin (binary64.rnd (Real.sqrt 12)) := by
    rw [X.sqrt_fin_of_nonneg (by norm_num)]
    unfold X.round
    rw [if_pos]
    exact B.fits_abs _ _ (by rw [abs_of_pos (by linarith), abs_of_pos (by norm_num)]; exact s2) r7.2
  have q1 : 109 / 64 ≤ 6 / binary64.rnd (Real.sqrt 12) := by
    rw [le_div_iff₀ (by linarith)]; linarith
  have q2 : 6 / binary64.rnd (Real.sqrt 12) ≤ 3 := by
    rw [div_le_iff₀ (by linarith)]; linarith
  have t1 : 109 / 64 ≤ binary64.rnd (6 / binary64.rnd (Real.sqrt 12)) := by
    have := B.mono q1; rwa [B.exact _ r109.1] at this
  have t2 : binary64.rnd (6 / binary64.rnd (Real.sqrt 12)) ≤ 3 := by
    have := B.mono q2; rwa [B.exact _ r3.1] at this
  refine ⟨binary64.rnd (6 / binary64.rnd (Real.sqrt 12)), ?_, by linarith⟩
  rw [hv, hs, X.div_fin_of_ne _ (by linarith)]
  unfold X.round
  rw [if_pos]
  exact B.fits_abs _ _ (by rw [abs_of_pos (by linarith), abs_of_pos (by norm_num)]; exact t2) r3.2

end Verif.Props
