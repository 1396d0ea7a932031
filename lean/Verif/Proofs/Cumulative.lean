import Verif.Model.Cumulative
import Verif.Proofs.History
import Verif.Proofs.SpecLemmas
/-
Run lemmas: the state of the cumulative filters after pushing a list of finite numbers, in exact
arithmetic.
-/
namespace Verif.Cumulative
open Scalar Exact Spec

variable {w : Nat} {ε : ℝ}

theorem Mean.fold (xs : List ℝ) (h : xs.length < 2 ^ w) :
    (xs.map X.fin).foldl Mean.push (Mean.init : Mean w (E ε))
      = { mean := X.fin (Spec.mean xs), count := BitVec.ofNat w xs.length } := by
  induction xs using List.reverseRecOn with
  | nil => simp [Mean.init]
  | append_singleton xs x ih =>
    simp only [List.length_append, List.length_singleton] at h
    rw [List.map_append, List.foldl_append, ih (by omega)]
    simp only [List.map_cons, List.map_nil, List.foldl_cons, List.foldl_nil, Mean.push,
      ofNat_add_one, ofSize_exact h, List.length_append, List.length_singleton]
    rw [sub_fin, div_fin _ (by positivity), add_fin, mean_snoc]
    push_cast; rfl

theorem Variance.fold (xs : List ℝ) (h : xs.length < 2 ^ w) :
    (xs.map X.fin).foldl Variance.push (Variance.init : Variance w (E ε))
      = { super := { mean := X.fin (Spec.mean xs), count := BitVec.ofNat w xs.length }
          sumVariance := X.fin (central 2 xs) } := by
  induction xs using List.reverseRecOn with
  | nil => simp [Variance.init, Mean.init]
  | append_singleton xs x ih =>
    have hm := Mean.fold (ε := ε) _ h
    simp only [List.length_append, List.length_singleton] at h
    have hm' := Mean.fold (ε := ε) xs (by omega : xs.length < 2 ^ w)
    rw [List.map_append, List.foldl_append, hm'] at hm
    rw [List.map_append, List.foldl_append, ih (by omega)]
    simp only [List.map_cons, List.map_nil, List.foldl_cons, List.foldl_nil] at hm ⊢
    simp only [Variance.push, hm, Mean.getMean, sub_fin, mul_fin, add_fin, central_two_snoc]

/-- `ofSize (n - 2)` at count `n = m + 1`, multiplied by `n - 1 = m`. -/
theorem size_sub_two_mul (a : ℝ) (m : Nat) (h : m + 1 < 2 ^ w) :
    (X.fin a * ofSize (BitVec.ofNat w (m + 1) - 1) * ofSize (BitVec.ofNat w (m + 1) - 2) : E ε)
      = X.fin (a * m * (m - 1)) := by
  rw [ofNat_sub_one (by omega), Nat.add_sub_cancel, ofSize_exact (by omega)]
  cases m with
  | zero => simp [Scalar.ofSize]
  | succ m =>
    have : BitVec.ofNat w (m + 1 + 1) - 2 = BitVec.ofNat w m := ofNat_sub (k := 2) (by omega)
    rw [this, ofSize_exact (by omega)]
    simp

theorem Skewness.fold (xs : List ℝ) (h : xs.length < 2 ^ w) :
    (xs.map X.fin).foldl Skewness.push (Skewness.init : Skewness w (E ε))
      = { super :=
            { super := { mean := X.fin (Spec.mean xs), count := BitVec.ofNat w xs.length }
              sumVariance := X.fin (central 2 xs) }
          sumSkewness := X.fin (central 3 xs) } := by
  induction xs using List.reverseRecOn with
  | nil => simp [Skewness.init, Variance.init, Mean.init]
  | append_singleton xs x ih =>
    have hm := Variance.fold (ε := ε) _ h
    simp only [List.length_append, List.length_singleton] at h
    have hm' := Variance.fold (ε := ε) xs (by omega : xs.length < 2 ^ w)
    rw [List.map_append, List.foldl_append, hm'] at hm
    rw [List.map_append, List.foldl_append, ih (by omega)]
    simp only [List.map_cons, List.map_nil, List.foldl_cons, List.foldl_nil] at hm ⊢
    simp only [Skewness.push, hm, Skewness.size, Variance.size, Mean.size, Variance.getMean,
      Mean.getMean, sub_fin, ofNat_add_one, ofSize_exact h]
    rw [div_fin _ (by positivity), mul_fin, size_sub_two_mul _ _ h]
    simp only [Exact.ofNat_eq, mul_fin, sub_fin, add_fin, central_three_snoc]
    push_cast; rfl

theorem three_mul_le (n : Nat) : 3 * n ≤ n * n + 3 := by
  rcases n with _ | _ | n
  · norm_num
  · norm_num
  · nlinarith

/-- The `size_t` expression `n * (n - 3) + 3`; the intermediate `n - 3` wraps for `n < 3`. -/
theorem size_poly (n : Nat) (h1 : 1 ≤ n) (h : n * n < 2 ^ w) :
    (ofSize (BitVec.ofNat w n * (BitVec.ofNat w n - 3) + 3) : E ε)
      = X.fin ((n : ℝ) ^ 2 - 3 * n + 3) := by
  have key : BitVec.ofNat w n * (BitVec.ofNat w n - 3) + 3 = BitVec.ofNat w (n * n + 3 - 3 * n) := by
    have h3 : (3 : BitVec w) = BitVec.ofNat w 3 := rfl
    rw [← ofNat_sub (three_mul_le n), BitVec.ofNat_add, BitVec.ofNat_mul, BitVec.ofNat_mul, h3]
    ring
  have hle : n * n + 3 - 3 * n < 2 ^ w := by omega
  rw [key, ofSize_exact hle, Nat.cast_sub (three_mul_le n)]
  congr 1
  push_cast; ring

theorem Kurtosis.fold (xs : List ℝ) (h : xs.length * xs.length < 2 ^ w) :
    (xs.map X.fin).foldl Kurtosis.push (Kurtosis.init : Kurtosis w (E ε))
      = { super :=
            { super :=
                { super := { mean := X.fin (Spec.mean xs), count := BitVec.ofNat w xs.length }
                  sumVariance := X.fin (central 2 xs) }
              sumSkewness := X.fin (central 3 xs) }
          sumKurtosis := X.fin (central 4 xs) } := by
  induction xs using List.reverseRecOn with
  | nil => simp [Kurtosis.init, Skewness.init, Variance.init, Mean.init]
  | append_singleton xs x ih =>
    have hl : (xs ++ [x]).length < 2 ^ w := by
      have : 1 ≤ (xs ++ [x]).length := by simp
      nlinarith
    have hm := Skewness.fold (ε := ε) _ hl
    simp only [List.length_append, List.length_singleton] at h hl
    have hm' := Skewness.fold (ε := ε) xs (by omega : xs.length < 2 ^ w)
    rw [List.map_append, List.foldl_append, hm'] at hm
    rw [List.map_append, List.foldl_append, ih (by nlinarith)]
    simp only [List.map_cons, List.map_nil, List.foldl_cons, List.foldl_nil] at hm ⊢
    simp only [Kurtosis.push, hm, Kurtosis.size, Skewness.size, Variance.size, Mean.size,
      Skewness.getMean, Variance.getMean, Mean.getMean, sub_fin, ofNat_add_one, ofSize_exact hl]
    rw [div_fin _ (by positivity), mul_fin, size_poly _ (by omega) h,
      ofNat_sub_one (by omega), Nat.add_sub_cancel, ofSize_exact (by omega)]
    simp only [Exact.ofNat_eq, mul_fin, sub_fin, add_fin, central_four_snoc]
    push_cast; rfl

/-! ### Pairs -/

/-- A pair of finite numbers. -/
abbrev fin2 (p : ℝ × ℝ) : E ε × E ε := (X.fin p.1, X.fin p.2)

/-- In any arithmetic, the two means of a covariance filter are the mean filters of the coordinates. -/
theorem Comoment.fold_centers {α} [Scalar α] (ps : List (α × α)) :
    (ps.foldl Comoment.push (Comoment.init : Comoment w α)).xCenter
        = (ps.map Prod.fst).foldl Mean.push Mean.init ∧
    (ps.foldl Comoment.push (Comoment.init : Comoment w α)).yCenter
        = (ps.map Prod.snd).foldl Mean.push Mean.init := by
  induction ps using List.reverseRecOn with
  | nil => exact ⟨rfl, rfl⟩
  | append_singleton ps p ih =>
    simp only [List.foldl_append, List.foldl_cons, List.foldl_nil, List.map_append, List.map_cons,
      List.map_nil, ← ih.1, ← ih.2]
    exact ⟨rfl, rfl⟩

theorem map_fst_fin2 (ps : List (ℝ × ℝ)) :
    (ps.map (fin2 (ε := ε))).map Prod.fst = (xsOf ps).map X.fin := by
  simp [xsOf, Function.comp_def]
theorem map_snd_fin2 (ps : List (ℝ × ℝ)) :
    (ps.map (fin2 (ε := ε))).map Prod.snd = (ysOf ps).map X.fin := by
  simp [ysOf, Function.comp_def]

theorem Comoment.fold (ps : List (ℝ × ℝ)) (h : ps.length < 2 ^ w) :
    (ps.map fin2).foldl Comoment.push (Comoment.init : Comoment w (E ε))
      = { xCenter := { mean := X.fin (Spec.mean (xsOf ps)), count := BitVec.ofNat w ps.length }
          yCenter := { mean := X.fin (Spec.mean (ysOf ps)), count := BitVec.ofNat w ps.length }
          center := X.fin (cosum ps) } := by
  have hc := Comoment.fold_centers (w := w) (ps.map (fin2 (ε := ε)))
  rw [map_fst_fin2, map_snd_fin2, Mean.fold _ (by simpa using h), Mean.fold _ (by simpa using h),
    length_xsOf, length_ysOf] at hc
  have : ((ps.map fin2).foldl Comoment.push (Comoment.init : Comoment w (E ε))).center
      = X.fin (cosum ps) := by
    clear hc
    induction ps using List.reverseRecOn with
    | nil => simp [Comoment.init]
    | append_singleton ps p ih =>
      have hc := Comoment.fold_centers (w := w) (ps.map (fin2 (ε := ε)))
      have hd := Comoment.fold_centers (w := w) ((ps ++ [p]).map (fin2 (ε := ε)))
      simp only [List.length_append, List.length_singleton] at h
      rw [map_fst_fin2, map_snd_fin2, Mean.fold _ (by simp; omega), Mean.fold _ (by simp; omega)] at hc
      rw [map_fst_fin2, map_snd_fin2, Mean.fold _ (by simpa using h), Mean.fold _ (by simpa using h)]
        at hd
      simp only [List.map_append, List.foldl_append, List.map_cons, List.map_nil, List.foldl_cons,
        List.foldl_nil] at hd ⊢
      have hx := hd.1
      simp only [Comoment.push] at hx ⊢
      rw [hx, hc.2, ih (by omega), cosum_snoc]
      simp [Mean.getMean]
  rw [← hc.1, ← hc.2, ← this]

theorem Correlation.fold_any {α} [Scalar α] (ps : List (α × α)) :
    ps.foldl Correlation.push (Correlation.init : Correlation w α)
      = { co := ps.foldl Comoment.push Comoment.init
          x := (ps.map Prod.fst).foldl Variance.push Variance.init
          y := (ps.map Prod.snd).foldl Variance.push Variance.init } := by
  induction ps using List.reverseRecOn with
  | nil => rfl
  | append_singleton ps p ih =>
    simp only [List.foldl_append, List.foldl_cons, List.foldl_nil, List.map_append, List.map_cons,
      List.map_nil, ih, Correlation.push]

theorem Regression.fold_any {α} [Scalar α] (ps : List (α × α)) :
    ps.foldl Regression.push (Regression.init : Regression w α)
      = { co := ps.foldl Comoment.push Comoment.init
          x := (ps.map Prod.fst).foldl Variance.push Variance.init
          y := (ps.map Prod.snd).foldl Variance.push Variance.init } := by
  induction ps using List.reverseRecOn with
  | nil => rfl
  | append_singleton ps p ih =>
    simp only [List.foldl_append, List.foldl_cons, List.foldl_nil, List.map_append, List.map_cons,
      List.map_nil, ih, Regression.push]

theorem Trend.fold (xs : List ℝ) (h : xs.length < 2 ^ w) :
    (xs.map X.fin).foldl Trend.push (Trend.init : Trend w (E ε))
      = { center := { mean := X.fin (Spec.mean xs), count := BitVec.ofNat w xs.length }
          grand := { mean := X.fin (Spec.mean (runningMeans xs)),
                     count := BitVec.ofNat w xs.length } } := by
  have hc : ∀ xs : List ℝ, ((xs.map X.fin).foldl Trend.push (Trend.init : Trend w (E ε))).center
      = (xs.map X.fin).foldl Mean.push Mean.init := by
    intro xs
    induction xs using List.reverseRecOn with
    | nil => rfl
    | append_singleton xs x ih =>
      simp only [List.map_append, List.foldl_append, List.map_cons, List.map_nil, List.foldl_cons,
        List.foldl_nil, ← ih]
      rfl
  have hg : ((xs.map X.fin).foldl Trend.push (Trend.init : Trend w (E ε))).grand
      = ((runningMeans xs).map X.fin).foldl Mean.push Mean.init := by
    induction xs using List.reverseRecOn with
    | nil => rfl
    | append_singleton xs x ih =>
      have hcc := hc (xs ++ [x])
      rw [Mean.fold _ h] at hcc
      simp only [List.length_append, List.length_singleton] at h
      rw [runningMeans_snoc]
      simp only [List.map_append, List.foldl_append, List.map_cons, List.map_nil, List.foldl_cons,
        List.foldl_nil] at hcc ⊢
      rw [← ih (by omega)]
      simp only [Trend.push] at hcc ⊢
      rw [hcc]
      rfl
  have hc' := hc xs
  rw [Mean.fold _ h] at hc'
  rw [Mean.fold _ (by simpa using h), length_runningMeans] at hg
  rw [← hc', ← hg]

/-! ### From folds to histories -/

theorem Mean.clear_eq {α} [Scalar α] (s : Mean w α) : s.clear = Mean.init := rfl
theorem Variance.clear_eq {α} [Scalar α] (s : Variance w α) : s.clear = Variance.init := rfl
theorem Skewness.clear_eq {α} [Scalar α] (s : Skewness w α) : s.clear = Skewness.init := rfl
theorem Kurtosis.clear_eq {α} [Scalar α] (s : Kurtosis w α) : s.clear = Kurtosis.init := rfl
theorem Comoment.clear_eq {α} [Scalar α] (s : Comoment w α) : s.clear = Comoment.init := rfl
theorem Correlation.clear_eq {α} [Scalar α] (s : Correlation w α) :
    s.clear = Correlation.init := rfl
theorem Regression.clear_eq {α} [Scalar α] (s : Regression w α) : s.clear = Regression.init := rfl
theorem Trend.clear_eq {α} [Scalar α] (s : Trend w α) : s.clear = Trend.init := rfl

theorem Mean.run_eq {α} [Scalar α] (ops : List (Op α)) :
    (Mean.run ops : Mean w α) = (sinceClear ops).foldl Mean.push Mean.init :=
  runOps_eq _ _ _ Mean.clear_eq ops
theorem Variance.run_eq {α} [Scalar α] (ops : List (Op α)) :
    (Variance.run ops : Variance w α) = (sinceClear ops).foldl Variance.push Variance.init :=
  runOps_eq _ _ _ Variance.clear_eq ops
theorem Skewness.run_eq {α} [Scalar α] (ops : List (Op α)) :
    (Skewness.run ops : Skewness w α) = (sinceClear ops).foldl Skewness.push Skewness.init :=
  runOps_eq _ _ _ Skewness.clear_eq ops
theorem Kurtosis.run_eq {α} [Scalar α] (ops : List (Op α)) :
    (Kurtosis.run ops : Kurtosis w α) = (sinceClear ops).foldl Kurtosis.push Kurtosis.init :=
  runOps_eq _ _ _ Kurtosis.clear_eq ops
theorem Comoment.run_eq {α} [Scalar α] (ops : List (Op (α × α))) :
    (Comoment.run ops : Comoment w α) = (sinceClear ops).foldl Comoment.push Comoment.init :=
  runOps_eq _ _ _ Comoment.clear_eq ops
theorem Correlation.run_eq {α} [Scalar α] (ops : List (Op (α × α))) :
    (Correlation.run ops : Correlation w α)
      = (sinceClear ops).foldl Correlation.push Correlation.init :=
  runOps_eq _ _ _ Correlation.clear_eq ops
theorem Regression.run_eq {α} [Scalar α] (ops : List (Op (α × α))) :
    (Regression.run ops : Regression w α)
      = (sinceClear ops).foldl Regression.push Regression.init :=
  runOps_eq _ _ _ Regression.clear_eq ops
theorem Trend.run_eq {α} [Scalar α] (ops : List (Op α)) :
    (Trend.run ops : Trend w α) = (sinceClear ops).foldl Trend.push Trend.init :=
  runOps_eq _ _ _ Trend.clear_eq ops

/-! ### The states after a history -/

theorem Mean.run_fin (ops : List (Op ℝ)) (h : (sinceClear ops).length < 2 ^ w) :
    (Mean.run (finOps ops) : Mean w (E ε))
      = { mean := X.fin (Spec.mean (sinceClear ops)),
          count := BitVec.ofNat w (sinceClear ops).length } := by
  rw [Mean.run_eq, sinceClear_finOps, Mean.fold _ h]

theorem Variance.run_fin (ops : List (Op ℝ)) (h : (sinceClear ops).length < 2 ^ w) :
    (Variance.run (finOps ops) : Variance w (E ε))
      = { super := { mean := X.fin (Spec.mean (sinceClear ops)),
                     count := BitVec.ofNat w (sinceClear ops).length }
          sumVariance := X.fin (central 2 (sinceClear ops)) } := by
  rw [Variance.run_eq, sinceClear_finOps, Variance.fold _ h]

theorem Skewness.run_fin (ops : List (Op ℝ)) (h : (sinceClear ops).length < 2 ^ w) :
    (Skewness.run (finOps ops) : Skewness w (E ε))
      = { super :=
            { super := { mean := X.fin (Spec.mean (sinceClear ops)),
                         count := BitVec.ofNat w (sinceClear ops).length }
              sumVariance := X.fin (central 2 (sinceClear ops)) }
          sumSkewness := X.fin (central 3 (sinceClear ops)) } := by
  rw [Skewness.run_eq, sinceClear_finOps, Skewness.fold _ h]

theorem Kurtosis.run_fin (ops : List (Op ℝ))
    (h : (sinceClear ops).length * (sinceClear ops).length < 2 ^ w) :
    (Kurtosis.run (finOps ops) : Kurtosis w (E ε))
      = { super :=
            { super :=
                { super := { mean := X.fin (Spec.mean (sinceClear ops)),
                             count := BitVec.ofNat w (sinceClear ops).length }
                  sumVariance := X.fin (central 2 (sinceClear ops)) }
              sumSkewness := X.fin (central 3 (sinceClear ops)) }
          sumKurtosis := X.fin (central 4 (sinceClear ops)) } := by
  rw [Kurtosis.run_eq, sinceClear_finOps, Kurtosis.fold _ h]

/-- In any arithmetic a kurtosis filter contains the skewness filter of the same history. -/
theorem Kurtosis.run_super {α} [Scalar α] (ops : List (Op α)) :
    (Kurtosis.run ops : Kurtosis w α).super = Skewness.run ops := by
  rw [Kurtosis.run_eq, Skewness.run_eq]
  induction sinceClear ops using List.reverseRecOn with
  | nil => rfl
  | append_singleton xs x ih =>
    simp only [List.foldl_append, List.foldl_cons, List.foldl_nil, ← ih]; rfl

/-- In any arithmetic a skewness filter contains the variance filter of the same history. -/
theorem Skewness.run_super {α} [Scalar α] (ops : List (Op α)) :
    (Skewness.run ops : Skewness w α).super = Variance.run ops := by
  rw [Skewness.run_eq, Variance.run_eq]
  induction sinceClear ops using List.reverseRecOn with
  | nil => rfl
  | append_singleton xs x ih =>
    simp only [List.foldl_append, List.foldl_cons, List.foldl_nil, ← ih]; rfl

/-- In any arithmetic a variance filter contains the mean filter of the same history. -/
theorem Variance.run_super {α} [Scalar α] (ops : List (Op α)) :
    (Variance.run ops : Variance w α).super = Mean.run ops := by
  rw [Variance.run_eq, Mean.run_eq]
  induction sinceClear ops using List.reverseRecOn with
  | nil => rfl
  | append_singleton xs x ih =>
    simp only [List.foldl_append, List.foldl_cons, List.foldl_nil, ← ih]; rfl

theorem Comoment.run_fin (ops : List (Op (ℝ × ℝ))) (h : (sinceClear ops).length < 2 ^ w) :
    (Comoment.run (finOps2 ops) : Comoment w (E ε))
      = { xCenter := { mean := X.fin (Spec.mean (xsOf (sinceClear ops))),
                       count := BitVec.ofNat w (sinceClear ops).length }
          yCenter := { mean := X.fin (Spec.mean (ysOf (sinceClear ops))),
                       count := BitVec.ofNat w (sinceClear ops).length }
          center := X.fin (cosum (sinceClear ops)) } := by
  rw [Comoment.run_eq, sinceClear_finOps2]
  exact Comoment.fold _ h

theorem Correlation.run_fin (ops : List (Op (ℝ × ℝ))) (h : (sinceClear ops).length < 2 ^ w) :
    (Correlation.run (finOps2 ops) : Correlation w (E ε))
      = { co := { xCenter := { mean := X.fin (Spec.mean (xsOf (sinceClear ops))),
                               count := BitVec.ofNat w (sinceClear ops).length }
                  yCenter := { mean := X.fin (Spec.mean (ysOf (sinceClear ops))),
                               count := BitVec.ofNat w (sinceClear ops).length }
                  center := X.fin (cosum (sinceClear ops)) }
          x := { super := { mean := X.fin (Spec.mean (xsOf (sinceClear ops))),
                            count := BitVec.ofNat w (sinceClear ops).length }
                 sumVariance := X.fin (central 2 (xsOf (sinceClear ops))) }
          y := { super := { mean := X.fin (Spec.mean (ysOf (sinceClear ops))),
                            count := BitVec.ofNat w (sinceClear ops).length }
                 sumVariance := X.fin (central 2 (ysOf (sinceClear ops))) } } := by
  have e1 := Variance.fold (ε := ε) (w := w) (xsOf (sinceClear ops)) (by simpa using h)
  have e2 := Variance.fold (ε := ε) (w := w) (ysOf (sinceClear ops)) (by simpa using h)
  have e3 := Comoment.fold (ε := ε) (w := w) (sinceClear ops) h
  rw [← map_fst_fin2] at e1
  rw [← map_snd_fin2] at e2
  rw [length_xsOf] at e1
  rw [length_ysOf] at e2
  rw [Correlation.run_eq, sinceClear_finOps2, Correlation.fold_any]
  exact congr (congr (congrArg Correlation.mk e3) e1) e2

theorem Regression.run_fin (ops : List (Op (ℝ × ℝ))) (h : (sinceClear ops).length < 2 ^ w) :
    (Regression.run (finOps2 ops) : Regression w (E ε))
      = { co := { xCenter := { mean := X.fin (Spec.mean (xsOf (sinceClear ops))),
                               count := BitVec.ofNat w (sinceClear ops).length }
                  yCenter := { mean := X.fin (Spec.mean (ysOf (sinceClear ops))),
                               count := BitVec.ofNat w (sinceClear ops).length }
                  center := X.fin (cosum (sinceClear ops)) }
          x := { super := { mean := X.fin (Spec.mean (xsOf (sinceClear ops))),
                            count := BitVec.ofNat w (sinceClear ops).length }
                 sumVariance := X.fin (central 2 (xsOf (sinceClear ops))) }
          y := { super := { mean := X.fin (Spec.mean (ysOf (sinceClear ops))),
                            count := BitVec.ofNat w (sinceClear ops).length }
                 sumVariance := X.fin (central 2 (ysOf (sinceClear ops))) } } := by
  have e1 := Variance.fold (ε := ε) (w := w) (xsOf (sinceClear ops)) (by simpa using h)
  have e2 := Variance.fold (ε := ε) (w := w) (ysOf (sinceClear ops)) (by simpa using h)
  have e3 := Comoment.fold (ε := ε) (w := w) (sinceClear ops) h
  rw [← map_fst_fin2] at e1
  rw [← map_snd_fin2] at e2
  rw [length_xsOf] at e1
  rw [length_ysOf] at e2
  rw [Regression.run_eq, sinceClear_finOps2, Regression.fold_any]
  exact congr (congr (congrArg Regression.mk e3) e1) e2

theorem Trend.run_fin (ops : List (Op ℝ)) (h : (sinceClear ops).length < 2 ^ w) :
    (Trend.run (finOps ops) : Trend w (E ε))
      = { center := { mean := X.fin (Spec.mean (sinceClear ops)),
                      count := BitVec.ofNat w (sinceClear ops).length }
          grand := { mean := X.fin (Spec.mean (runningMeans (sinceClear ops))),
                     count := BitVec.ofNat w (sinceClear ops).length } } := by
  rw [Trend.run_eq, sinceClear_finOps, Trend.fold _ h]

end Verif.Cumulative
