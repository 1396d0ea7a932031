import Verif.Proofs.SpecLemmas
import Verif.Proofs.History
import Verif.Model.Decay
import Mathlib.Data.List.GetD
/-
State of the decay filters after any history, in exact arithmetic.
-/
namespace Verif.Spec

/-- The weights. -/
theorem ewSum_snoc (f : ℝ) (xs : List ℝ) (x : ℝ) :
    ewSum f (xs ++ [x]) = (1 - f) * ewSum f xs + f * x := by
  unfold ewSum
  rw [List.length_append, List.length_singleton, List.range_succ, List.map_append, List.sum_append,
    ← List.sum_map_mul_left]
  congr 1
  · congr 1
    apply List.map_congr_left
    intro i hi
    rw [List.mem_range] at hi
    rw [List.getD_append _ _ _ _ hi,
      show xs.length + 1 - 1 - i = (xs.length - 1 - i) + 1 by omega, pow_succ]
    ring
  · simp

@[simp] theorem ewSum_nil (f : ℝ) : ewSum f [] = 0 := rfl

theorem ewDevs_snoc (f : ℝ) (xs : List ℝ) (x : ℝ) :
    ewDevs f (xs ++ [x]) = ewDevs f xs ++ [x - ewMean f (xs ++ [x])] := by
  unfold ewDevs
  rw [List.length_append, List.length_singleton, List.range_succ, List.map_append]
  congr 1
  · apply List.map_congr_left
    intro i hi
    rw [List.mem_range] at hi
    rw [List.getD_append _ _ _ _ hi, List.take_append_of_le_length (by omega)]
  · simp [List.take_of_length_le]

@[simp] theorem ewDevs_nil (f : ℝ) : ewDevs f [] = [] := rfl

@[simp] theorem length_ewDevs (f : ℝ) (xs : List ℝ) : (ewDevs f xs).length = xs.length := by
  simp [ewDevs]

theorem pow_lt_one' {f : ℝ} (h0 : 0 < f) (h1 : f ≤ 1) {n : ℕ} (hn : n ≠ 0) : (1 - f) ^ n < 1 :=
  pow_lt_one₀ (by linarith) (by linarith) hn

theorem norm_nonneg {f : ℝ} (h0 : 0 < f) (h1 : f ≤ 1) (n : ℕ) : 0 ≤ 1 - (1 - f) ^ n := by
  have := pow_le_one₀ (n := n) (a := 1 - f) (by linarith) (by linarith)
  linarith

theorem norm_pos {f : ℝ} (h0 : 0 < f) (h1 : f ≤ 1) {n : ℕ} (hn : n ≠ 0) : 0 < 1 - (1 - f) ^ n := by
  have := pow_lt_one' h0 h1 hn
  linarith

/-- Bounds on the data carry over to the weighted sum. -/
theorem ewSum_le {f : ℝ} (h0 : 0 < f) (h1 : f ≤ 1) {b : ℝ} {xs : List ℝ} (h : ∀ x ∈ xs, x ≤ b) :
    ewSum f xs ≤ b * (1 - (1 - f) ^ xs.length) := by
  induction xs using List.reverseRecOn with
  | nil => simp
  | append_singleton xs x ih =>
    rw [ewSum_snoc, List.length_append, List.length_singleton, pow_succ]
    have i1 := ih (fun y hy => h y (by simp [hy]))
    have i2 := h x (by simp)
    have := mul_le_mul_of_nonneg_left i1 (show (0 : ℝ) ≤ 1 - f by linarith)
    have := mul_le_mul_of_nonneg_left i2 h0.le
    nlinarith

theorem le_ewSum {f : ℝ} (h0 : 0 < f) (h1 : f ≤ 1) {a : ℝ} {xs : List ℝ} (h : ∀ x ∈ xs, a ≤ x) :
    a * (1 - (1 - f) ^ xs.length) ≤ ewSum f xs := by
  induction xs using List.reverseRecOn with
  | nil => simp
  | append_singleton xs x ih =>
    rw [ewSum_snoc, List.length_append, List.length_singleton, pow_succ]
    have i1 := ih (fun y hy => h y (by simp [hy]))
    have i2 := h x (by simp)
    have := mul_le_mul_of_nonneg_left i1 (show (0 : ℝ) ≤ 1 - f by linarith)
    have := mul_le_mul_of_nonneg_left i2 h0.le
    nlinarith

theorem ewSum_nonneg {f : ℝ} (h0 : 0 < f) (h1 : f ≤ 1) {xs : List ℝ} (h : ∀ x ∈ xs, 0 ≤ x) :
    0 ≤ ewSum f xs := by
  simpa using le_ewSum h0 h1 h

theorem ewMean_le {f : ℝ} (h0 : 0 < f) (h1 : f ≤ 1) {b : ℝ} {xs : List ℝ} (hne : xs ≠ [])
    (h : ∀ x ∈ xs, x ≤ b) : ewMean f xs ≤ b := by
  have hn : xs.length ≠ 0 := by simpa using hne
  rw [ewMean, div_le_iff₀ (norm_pos h0 h1 hn)]
  exact ewSum_le h0 h1 h

theorem le_ewMean {f : ℝ} (h0 : 0 < f) (h1 : f ≤ 1) {a : ℝ} {xs : List ℝ} (hne : xs ≠ [])
    (h : ∀ x ∈ xs, a ≤ x) : a ≤ ewMean f xs := by
  have hn : xs.length ≠ 0 := by simpa using hne
  rw [ewMean, le_div_iff₀ (norm_pos h0 h1 hn)]
  exact le_ewSum h0 h1 h

theorem ewMean_const {f : ℝ} (h0 : 0 < f) (h1 : f ≤ 1) {c : ℝ} {xs : List ℝ} (hne : xs ≠ [])
    (h : ∀ x ∈ xs, x = c) : ewMean f xs = c :=
  le_antisymm (ewMean_le h0 h1 hne fun x hx => (h x hx).le)
    (le_ewMean h0 h1 hne fun x hx => (h x hx).ge)

/-- The sum of the weights. -/
theorem ewSum_one (f : ℝ) (n : ℕ) : ewSum f (List.replicate n 1) = 1 - (1 - f) ^ n := by
  induction n with
  | zero => simp
  | succ n ih => rw [List.replicate_succ', ewSum_snoc, ih, pow_succ]; ring

theorem ewDevs_const {f : ℝ} (h0 : 0 < f) (h1 : f ≤ 1) {c : ℝ} {xs : List ℝ}
    (h : ∀ x ∈ xs, x = c) : ∀ d ∈ ewDevs f xs, d = 0 := by
  intro d hd
  simp only [ewDevs, List.mem_map, List.mem_range] at hd
  obtain ⟨k, hk, rfl⟩ := hd
  have hm : ewMean f (xs.take (k + 1)) = c := by
    apply ewMean_const h0 h1
    · intro e
      have := congrArg List.length e
      simp only [List.length_take, List.length_nil] at this
      omega
    · intro x hx
      exact h x (List.mem_of_mem_take hx)
  rw [hm, List.getD_eq_getElem _ _ hk, h _ (List.getElem_mem hk), sub_self]

end Verif.Spec

namespace Verif.Decay
open Scalar Exact

/-- Number of values pushed in a history, also before `clear`. -/
def pushCount {β : Type} : List (Op β) → ℕ
  | [] => 0
  | .push _ :: l => pushCount l + 1
  | .clear :: l => pushCount l

theorem pushCount_append {β : Type} (a b : List (Op β)) :
    pushCount (a ++ b) = pushCount a + pushCount b := by
  induction a with
  | nil => simp [pushCount]
  | cons op a ih => cases op <;> (simp [pushCount, ih]; try omega)

theorem pushCount_pushes {β : Type} (xs : List β) : pushCount (xs.map Op.push) = xs.length := by
  induction xs with
  | nil => rfl
  | cons x xs ih => simp [pushCount, ih]

theorem length_sinceClear_le {β : Type} (ops : List (Op β)) :
    (sinceClear ops).length ≤ pushCount ops := by
  induction ops using List.reverseRecOn with
  | nil => simp
  | append_singleton ops op ih =>
    cases op with
    | push x => rw [sinceClear_append_push, pushCount_append]; simp [pushCount]; omega
    | clear => rw [sinceClear_append_clear]; simp

variable {ε : ℝ}

/-- The state of the mean filter. -/
noncomputable def Mean.of (f : ℝ) (xs : List ℝ) : Mean (E ε) :=
  { meanFactor := X.fin f, normalization := X.fin (1 - (1 - f) ^ xs.length)
    sumMean := X.fin (Spec.ewSum f xs) }

theorem Mean.push_of (f : ℝ) (xs : List ℝ) (x : ℝ) :
    (Mean.of f xs : Mean (E ε)).push (X.fin x) = Mean.of f (xs ++ [x]) := by
  simp only [Mean.push, Mean.of, sub_fin, mul_fin, add_fin, Exact.ofNat_eq, Spec.ewSum_snoc,
    List.length_append, List.length_singleton, pow_succ, Nat.cast_one, Mean.mk.injEq, X.fin_inj]
  refine ⟨trivial, by ring, by ring⟩

theorem Mean.mean_of {f : ℝ} (h0 : 0 < f) (h1 : f ≤ 1) (xs : List ℝ) :
    (Mean.of f xs : Mean (E ε)).mean = X.fin (Spec.ewMean f xs) := by
  simp only [Mean.mean, Mean.of, Exact.ofNat_eq, lt_fin, Nat.cast_zero]
  by_cases hn : xs.length = 0
  · rw [List.length_eq_zero_iff] at hn
    subst hn
    simp [Spec.ewMean]
  · have := Spec.norm_pos h0 h1 hn
    rw [decide_eq_true this, if_pos rfl, div_fin _ this.ne']
    rfl

theorem Mean.run_fin (f : ℝ) (ops : List (Op ℝ)) :
    (Mean.run (X.fin f) (finOps ops) : Mean (E ε)) = Mean.of f (sinceClear ops) := by
  induction ops using List.reverseRecOn with
  | nil => simp [Mean.run, finOps, runOps, Mean.init, Mean.of, Exact.ofNat_eq]
  | append_singleton ops op ih =>
    rw [Mean.run, finOps, List.map_append, runOps_append]
    rw [Mean.run, finOps] at ih
    rw [ih]
    cases op with
    | push x =>
      rw [sinceClear_append_push, ← Mean.push_of]
      rfl
    | clear =>
      rw [sinceClear_append_clear]
      simp [runOps, Op.map, Mean.clear, Mean.of, Exact.ofNat_eq]

/-- The state of the variance filter; `k` counts all values, also those pushed before `clear`. -/
noncomputable def Variance.of (f g : ℝ) (k : ℕ) (xs : List ℝ) : Variance (E ε) :=
  { super := Mean.of f xs, varFactor := X.fin g, normalization := X.fin (1 - (1 - g) ^ k)
    sumVariance := X.fin (Spec.ewSum g ((Spec.ewDevs f xs).map (· ^ 2))) }

theorem Variance.push_of {f : ℝ} (h0 : 0 < f) (h1 : f ≤ 1) (g : ℝ) (k : ℕ) (xs : List ℝ) (x : ℝ) :
    (Variance.of f g k xs : Variance (E ε)).push (X.fin x) = Variance.of f g (k + 1) (xs ++ [x]) := by
  simp only [Variance.push, Variance.of, Mean.push_of, Mean.mean_of h0 h1, sub_fin, mul_fin, add_fin,
    Exact.ofNat_eq, Spec.ewDevs_snoc, List.map_append, List.map_singleton, Spec.ewSum_snoc, pow_succ,
    Nat.cast_one, Variance.mk.injEq, X.fin_inj]
  refine ⟨trivial, trivial, by ring, by ring⟩

theorem Variance.run_fin {f : ℝ} (h0 : 0 < f) (h1 : f ≤ 1) (g : ℝ) (ops : List (Op ℝ)) :
    (Variance.run (X.fin f) (X.fin g) (finOps ops) : Variance (E ε))
      = Variance.of f g (pushCount ops) (sinceClear ops) := by
  induction ops using List.reverseRecOn with
  | nil =>
    simp [Variance.run, finOps, runOps, Variance.init, Mean.init, Variance.of, Mean.of, pushCount,
      Exact.ofNat_eq]
  | append_singleton ops op ih =>
    rw [Variance.run, finOps, List.map_append, runOps_append]
    rw [Variance.run, finOps] at ih
    rw [ih, pushCount_append]
    cases op with
    | push x =>
      rw [sinceClear_append_push]
      show (Variance.of f g _ _ : Variance (E ε)).push (X.fin x) = _
      rw [Variance.push_of h0 h1]
      rfl
    | clear =>
      rw [sinceClear_append_clear]
      simp [runOps, Op.map, Variance.clear, Variance.of, Mean.clear, Mean.of, pushCount,
        Exact.ofNat_eq]

theorem Variance.variance_of {f g : ℝ} (h0 : 0 < g) (h1 : g ≤ 1) {k : ℕ} {xs : List ℝ}
    (hk : xs.length ≤ k) :
    (Variance.of f g k xs : Variance (E ε)).variance
      = X.fin (Spec.ewSum g ((Spec.ewDevs f xs).map (· ^ 2)) / (1 - (1 - g) ^ k)) := by
  simp only [Variance.variance, Variance.of, Exact.ofNat_eq, lt_fin, Nat.cast_zero]
  by_cases hn : k = 0
  · subst hn
    simp
  · have := Spec.norm_pos h0 h1 hn
    rw [decide_eq_true this, if_pos rfl, div_fin _ this.ne']

/-- The state of the skewness filter. -/
noncomputable def Skewness.of (f g h : ℝ) (k : ℕ) (xs : List ℝ) : Skewness (E ε) :=
  { super := Variance.of f g k xs, skewnessFactor := X.fin h
    normalization := X.fin (1 - (1 - h) ^ k)
    sumSkewness := X.fin (Spec.ewSum h ((Spec.ewDevs f xs).map (· ^ 3))) }

theorem Variance.mean_of {f : ℝ} (h0 : 0 < f) (h1 : f ≤ 1) (g : ℝ) (k : ℕ) (xs : List ℝ) :
    (Variance.of f g k xs : Variance (E ε)).mean = X.fin (Spec.ewMean f xs) := Mean.mean_of h0 h1 xs

theorem Skewness.mean_of {f : ℝ} (h0 : 0 < f) (h1 : f ≤ 1) (g h : ℝ) (k : ℕ) (xs : List ℝ) :
    (Skewness.of f g h k xs : Skewness (E ε)).mean = X.fin (Spec.ewMean f xs) := Mean.mean_of h0 h1 xs

theorem Skewness.push_of {f : ℝ} (h0 : 0 < f) (h1 : f ≤ 1) (g h : ℝ) (k : ℕ) (xs : List ℝ) (x : ℝ) :
    (Skewness.of f g h k xs : Skewness (E ε)).push (X.fin x)
      = Skewness.of f g h (k + 1) (xs ++ [x]) := by
  simp only [Skewness.push, Skewness.of, Variance.push_of h0 h1, Variance.mean_of h0 h1, sub_fin,
    mul_fin, add_fin, Exact.ofNat_eq, Spec.ewDevs_snoc, List.map_append, List.map_singleton,
    Spec.ewSum_snoc, pow_succ, Nat.cast_one, Skewness.mk.injEq, X.fin_inj]
  refine ⟨trivial, trivial, by ring, by ring⟩

theorem Skewness.run_fin {f : ℝ} (h0 : 0 < f) (h1 : f ≤ 1) (g h : ℝ) (ops : List (Op ℝ)) :
    (Skewness.run (X.fin f) (X.fin g) (X.fin h) (finOps ops) : Skewness (E ε))
      = Skewness.of f g h (pushCount ops) (sinceClear ops) := by
  induction ops using List.reverseRecOn with
  | nil =>
    simp [Skewness.run, finOps, runOps, Skewness.init, Skewness.of, Variance.init, Mean.init,
      Variance.of, Mean.of, pushCount, Exact.ofNat_eq]
  | append_singleton ops op ih =>
    rw [Skewness.run, finOps, List.map_append, runOps_append]
    rw [Skewness.run, finOps] at ih
    rw [ih, pushCount_append]
    cases op with
    | push x =>
      rw [sinceClear_append_push]
      show (Skewness.of f g h _ _ : Skewness (E ε)).push (X.fin x) = _
      rw [Skewness.push_of h0 h1]
      rfl
    | clear =>
      rw [sinceClear_append_clear]
      simp [runOps, Op.map, Skewness.clear, Skewness.of, Variance.clear, Variance.of, Mean.clear,
        Mean.of, pushCount, Exact.ofNat_eq]

/-- The state of the kurtosis filter. -/
noncomputable def Kurtosis.of (f g h i : ℝ) (k : ℕ) (xs : List ℝ) : Kurtosis (E ε) :=
  { super := Skewness.of f g h k xs, kurtosisFactor := X.fin i
    normalization := X.fin (1 - (1 - i) ^ k)
    sumKurtosis := X.fin (Spec.ewSum i ((Spec.ewDevs f xs).map (· ^ 4))) }

theorem Kurtosis.push_of {f : ℝ} (h0 : 0 < f) (h1 : f ≤ 1) (g h i : ℝ) (k : ℕ) (xs : List ℝ)
    (x : ℝ) :
    (Kurtosis.of f g h i k xs : Kurtosis (E ε)).push (X.fin x)
      = Kurtosis.of f g h i (k + 1) (xs ++ [x]) := by
  simp only [Kurtosis.push, Kurtosis.of, Skewness.push_of h0 h1, Skewness.mean_of h0 h1, sub_fin,
    mul_fin, add_fin, Exact.ofNat_eq, Spec.ewDevs_snoc, List.map_append, List.map_singleton,
    Spec.ewSum_snoc, pow_succ, Nat.cast_one, Kurtosis.mk.injEq, X.fin_inj]
  refine ⟨trivial, trivial, by ring, by ring⟩

theorem Kurtosis.run_fin {f : ℝ} (h0 : 0 < f) (h1 : f ≤ 1) (g h i : ℝ) (ops : List (Op ℝ)) :
    (Kurtosis.run (X.fin f) (X.fin g) (X.fin h) (X.fin i) (finOps ops) : Kurtosis (E ε))
      = Kurtosis.of f g h i (pushCount ops) (sinceClear ops) := by
  induction ops using List.reverseRecOn with
  | nil =>
    simp [Kurtosis.run, finOps, runOps, Kurtosis.init, Kurtosis.of, Skewness.init, Skewness.of,
      Variance.init, Mean.init, Variance.of, Mean.of, pushCount, Exact.ofNat_eq]
  | append_singleton ops op ih =>
    rw [Kurtosis.run, finOps, List.map_append, runOps_append]
    rw [Kurtosis.run, finOps] at ih
    rw [ih, pushCount_append]
    cases op with
    | push x =>
      rw [sinceClear_append_push]
      show (Kurtosis.of f g h i _ _ : Kurtosis (E ε)).push (X.fin x) = _
      rw [Kurtosis.push_of h0 h1]
      rfl
    | clear =>
      rw [sinceClear_append_clear]
      simp [runOps, Op.map, Kurtosis.clear, Kurtosis.of, Skewness.clear, Skewness.of, Variance.clear,
        Variance.of, Mean.clear, Mean.of, pushCount, Exact.ofNat_eq]

end Verif.Decay
