import Verif.Proofs.TrendError
import Verif.Props.CumulativePairs
import Verif.Props.Limits
import Verif.Props.Rounded
import Verif.Proofs.Double
import Mathlib.Algebra.BigOperators.Intervals
import Mathlib.Algebra.BigOperators.Field
/-
C121: the trend in floating point.  C122: laws of the trend.
-/
namespace Verif.Props
open Scalar Exact Cumulative

variable {F : Fmt} {p : Nat} {emin : Int} {u η : ℝ} {w : Nat} {ε : ℝ}

/-! ### C121 -/

/-- C121: the trend of a constant stream is the constant, bit for bit. -/
theorem C121_constant (hF : F.Binary p emin) (ops : List (Op (X F))) {c : ℝ} {n : Nat} (hc : IsRep p emin c) (hf : F.fits c)
    (hops : sinceClear ops = List.replicate n (X.fin c)) (hn : 1 ≤ n) (hw : n < 2 ^ w) :
    (Trend.run ops : Trend w (X F)).value = X.fin c := by
  rw [Trend.run_eq, hops]
  have key : ∀ k : Nat, k < 2 ^ w → (List.replicate k (X.fin c : X F)).foldl Trend.push (Trend.init : Trend w (X F))
      = ⟨(List.replicate k (X.fin c)).foldl Mean.push Mean.init, (List.replicate k (X.fin c)).foldl Mean.push Mean.init⟩ := by
    intro k
    induction k with
    | zero => intro _; rfl
    | succ k ih =>
      intro hk
      have hm := (C17_constant (w := w) hF ((List.replicate (k + 1) (X.fin c)).map .push) hc hf (sinceClear_pushes _) (by omega) hk).1
      rw [Mean.run_eq, sinceClear_pushes] at hm
      rw [List.replicate_succ'] at hm ⊢
      simp only [List.foldl_append, List.foldl_cons, List.foldl_nil] at hm ⊢
      rw [ih (by omega)]
      show (⟨_, Mean.push _ (Mean.push _ _).getMean⟩ : Trend w (X F)) = _
      rw [hm]
  have hm := (C17_constant (w := w) hF ((List.replicate n (X.fin c)).map .push) hc hf (sinceClear_pushes _) hn hw).1
  rw [Mean.run_eq, sinceClear_pushes] at hm
  rw [key n hw]
  show Mean.getMean _ + ofNat 2 * (Mean.getMean _ - Mean.getMean _) = X.fin c
  have e2 : (ofNat 2 : X F) = X.fin 2 := by
    rw [X.ofNat_eq]; exact hF.round_exact hF.isRep_two hF.fits_two
  rw [hm, hF.sub_self, e2, hF.mul_zero, hF.add_zero hc hf]

/-- C121: the rounding error of the trend of `n` values of size at most `B` is at most `(3.5 n + 54) u B` plus underflow. -/
theorem C121_error (hF : F.Binary p emin) (hE : F.Err u η) (ops : List (Op ℝ)) (hd : F.Data p emin (sinceClear ops))
    (hn : sinceClear ops ≠ []) (hw : (sinceClear ops).length < 2 ^ w) (hp : (sinceClear ops).length ≤ 2 ^ p)
    (hfit : F.fits ((sinceClear ops).length : ℝ)) {B K : ℝ} (hB : ∀ x ∈ sinceClear ops, |x| ≤ B)
    (hK : IsRep p emin K) (hKf : F.fits K) (hBK : 8 * (B + η) ≤ K) :
    ∃ v : ℝ, (Trend.run (finOps ops) : Trend w (X F)).value = X.fin v
      ∧ |v - (3 * Spec.mean (sinceClear ops) - 2 * Spec.mean (Spec.runningMeans (sinceClear ops)))|
        ≤ (7 / 2 * (sinceClear ops).length + 54) * (u * B) + (21 / 2 * (sinceClear ops).length + 30) * η := by
  rw [Trend.run_eq, sinceClear_finOps]
  obtain ⟨v, h1, h2⟩ := Trend.rounded_error (w := w) hF hE _ hn hd hw hp hfit hB hK hKf hBK
  refine ⟨v, h1, h2.trans ?_⟩
  unfold meanErr
  obtain ⟨x0, hx0⟩ := List.exists_mem_of_ne_nil _ hn
  have h3 := mul_nonneg hE.u_nonneg ((abs_nonneg _).trans (hB x0 hx0))
  have h4 := hE.eta_nonneg
  nlinarith

example : (Trend.run [.push X.nan, .clear, .push (X.fin 3), .push (X.fin 3), .push (X.fin 3)] : Trend 64 (X binary64)).value = X.fin 3 := by
  have := binary64_int (n := 3) (by norm_num)
  exact C121_constant (n := 3) binary64_binary _ (by exact_mod_cast this.1) (by exact_mod_cast this.2) rfl (by norm_num) (by norm_num)

/-- The trend of the `double` values 1, 2, 6. -/
example : ∃ v : ℝ, (Trend.run (finOps [.push 1, .push 2, .push 6]) : Trend 64 (X binary64)).value = X.fin v
    ∧ |v - 16 / 3| ≤ (7 / 2 * 3 + 54) * (2 ^ (-53 : Int) * 6) + (21 / 2 * 3 + 30) * 2 ^ (-1075 : Int) := by
  have hs : sinceClear ([.push 1, .push 2, .push 6] : List (Op ℝ)) = [1, 2, 6] := rfl
  have hd : binary64.Data 53 (-1074) (sinceClear ([.push 1, .push 2, .push 6] : List (Op ℝ))) := by
    rw [hs]
    have := binary64_data [1, 2, 6] (by simp)
    simpa using this
  obtain ⟨v, h1, h2⟩ := C121_error (w := 64) (K := (100 : Int)) (B := 6) binary64_binary binary64_err _ hd (by simp [sinceClear])
    (by simp [sinceClear]) (by simp [sinceClear]) (by rw [hs]; exact (binary64_int (n := 3) (by norm_num)).2)
    (by
      intro x hx
      rw [hs] at hx
      have : x = 1 ∨ x = 2 ∨ x = 6 := by simpa using hx
      rcases this with rfl | rfl | rfl <;> norm_num)
    (binary64_int (n := 100) (by norm_num)).1 (binary64_int (n := 100) (by norm_num)).2
    (by
      have : (2 : ℝ) ^ (-1075 : Int) ≤ 2 ^ (0 : Int) := zpow_le_zpow_right₀ (by norm_num) (by norm_num)
      rw [zpow_zero] at this
      push_cast; linarith)
  refine ⟨v, h1, ?_⟩
  rw [hs] at h2
  have e : 3 * Spec.mean [1, 2, 6] - 2 * Spec.mean (Spec.runningMeans [1, 2, 6]) = 16 / 3 := by
    simp [Spec.mean, Spec.runningMeans, List.range_succ]; norm_num
  rw [e] at h2
  simpa using h2

/-! ### C122 -/

/-- C122: change of units and origin. -/
theorem C122_affine (a b : ℝ) (ops : List (Op ℝ)) (hn : sinceClear ops ≠ []) (hw : (sinceClear ops).length < 2 ^ w) :
    ∃ v : ℝ, (Trend.run (finOps ops) : Trend w (E ε)).value = X.fin v
      ∧ (Trend.run (finOps (affine a b ops)) : Trend w (E ε)).value = X.fin (a * v + b) := by
  refine ⟨_, (C14_trend ops hw).1, ?_⟩
  have hs := sinceClear_affine a b ops
  rw [(C14_trend (affine a b ops) (by rw [hs, List.length_map]; exact hw)).1, hs, X.fin_inj]
  have hm : ∀ xs : List ℝ, xs ≠ [] → Spec.mean (xs.map fun x => a * x + b) = a * Spec.mean xs + b := by
    intro xs hne
    induction xs using List.reverseRecOn with
    | nil => exact absurd rfl hne
    | append_singleton xs x ih =>
      rw [List.map_append, List.map_singleton, Spec.mean_snoc, Spec.mean_snoc, List.length_map]
      rcases eq_or_ne xs [] with rfl | h
      · simp
      · rw [ih h]
        have : (xs.length : ℝ) + 1 ≠ 0 := by positivity
        field_simp; ring
  have hr : Spec.runningMeans ((sinceClear ops).map fun x => a * x + b)
      = (Spec.runningMeans (sinceClear ops)).map fun x => a * x + b := by
    generalize sinceClear ops = xs
    induction xs using List.reverseRecOn with
    | nil => rfl
    | append_singleton xs x ih =>
      have := hm (xs ++ [x]) (by simp)
      rw [List.map_append, List.map_singleton] at this ⊢
      rw [Spec.runningMeans_snoc, Spec.runningMeans_snoc, ih, List.map_append, List.map_singleton, this]
  have hne : Spec.runningMeans (sinceClear ops) ≠ [] := by
    rw [← List.length_pos_iff, Spec.length_runningMeans]; exact List.length_pos_iff.2 hn
  rw [hr, hm _ hn, hm _ hne]
  ring

theorem runningMeans_bounds {lo hi : ℝ} {xs : List ℝ} (h : ∀ x ∈ xs, lo ≤ x ∧ x ≤ hi) :
    ∀ m ∈ Spec.runningMeans xs, lo ≤ m ∧ m ≤ hi := by
  induction xs using List.reverseRecOn with
  | nil => intro m hm; simp [Spec.runningMeans] at hm
  | append_singleton xs x ih =>
    intro m hm
    rw [Spec.runningMeans_snoc] at hm
    rcases List.mem_append.1 hm with hm | hm
    · exact ih (fun y hy => h y (List.mem_append_left _ hy)) m hm
    · rw [List.mem_singleton.1 hm]
      exact Spec.mean_bounds (by simp) h

/-- C122: the trend leaves the range of the data by at most twice its width. -/
theorem C122_bounds (ops : List (Op ℝ)) (hn : sinceClear ops ≠ []) (hw : (sinceClear ops).length < 2 ^ w) {lo hi : ℝ}
    (h : ∀ x ∈ sinceClear ops, lo ≤ x ∧ x ≤ hi) :
    ∃ v : ℝ, (Trend.run (finOps ops) : Trend w (E ε)).value = X.fin v ∧ lo - 2 * (hi - lo) ≤ v ∧ v ≤ hi + 2 * (hi - lo) := by
  refine ⟨_, (C14_trend ops hw).1, ?_⟩
  have hne : Spec.runningMeans (sinceClear ops) ≠ [] := by
    rw [← List.length_pos_iff, Spec.length_runningMeans]; exact List.length_pos_iff.2 hn
  have h1 := Spec.mean_bounds hn h
  have h2 := Spec.mean_bounds hne (runningMeans_bounds h)
  constructor <;> linarith [h1.1, h1.2, h2.1, h2.2]

/-- C122: data that do not decrease have a trend that is not below their mean. -/
theorem C122_increasing (ops : List (Op ℝ)) (hn : sinceClear ops ≠ []) (hw : (sinceClear ops).length < 2 ^ w)
    (h : (sinceClear ops).Pairwise (· ≤ ·)) :
    ∃ v : ℝ, (Trend.run (finOps ops) : Trend w (E ε)).value = X.fin v ∧ Spec.mean (sinceClear ops) ≤ v := by
  refine ⟨_, (C14_trend ops hw).1, ?_⟩
  have hne : Spec.runningMeans (sinceClear ops) ≠ [] := by
    rw [← List.length_pos_iff, Spec.length_runningMeans]; exact List.length_pos_iff.2 hn
  have key : ∀ xs : List ℝ, xs.Pairwise (· ≤ ·) → ∀ m ∈ Spec.runningMeans xs, m ≤ Spec.mean xs := by
    intro xs
    induction xs using List.reverseRecOn with
    | nil => intro _ m hm; simp [Spec.runningMeans] at hm
    | append_singleton xs x ih =>
      intro hs m hm
      rw [Spec.runningMeans_snoc] at hm
      rcases List.mem_append.1 hm with hm | hm
      · have hx := List.pairwise_append.1 hs
        refine (ih hx.1 m hm).trans ?_
        rw [Spec.mean_snoc]
        have hxs : xs ≠ [] := by rintro rfl; simp [Spec.runningMeans] at hm
        have : Spec.mean xs ≤ x := by
          obtain ⟨y, hy⟩ := List.exists_mem_of_ne_nil _ hxs
          have hle : ∀ z ∈ xs, z ≤ x := fun z hz => hx.2.2 z hz x (by simp)
          unfold Spec.mean
          rw [div_le_iff₀ (by exact_mod_cast List.length_pos_iff.2 hxs), mul_comm]
          have := List.sum_le_card_nsmul xs x hle
          rwa [nsmul_eq_mul] at this
        have : 0 ≤ (x - Spec.mean xs) / (xs.length + 1) := div_nonneg (by linarith) (by positivity)
        linarith
      · rw [List.mem_singleton.1 hm]
  have h2 : Spec.mean (Spec.runningMeans (sinceClear ops)) ≤ Spec.mean (sinceClear ops) := by
    have hpos : (0 : ℝ) < (Spec.runningMeans (sinceClear ops)).length := by exact_mod_cast List.length_pos_iff.2 hne
    have := List.sum_le_card_nsmul _ _ (key _ h)
    rw [nsmul_eq_mul] at this
    unfold Spec.mean at this ⊢
    rw [div_le_iff₀ hpos]; linarith
  linarith

theorem runningMeans_range (u : ℕ → ℝ) (n : ℕ) :
    Spec.runningMeans ((List.range n).map u) = (List.range n).map fun k => Spec.mean ((List.range (k + 1)).map u) := by
  induction n with
  | zero => rfl
  | succ n ih =>
    have e : (List.range (n + 1)).map u = (List.range n).map u ++ [u n] := by rw [List.range_succ, List.map_append, List.map_singleton]
    have e2 : (List.range (n + 1)).map (fun k => Spec.mean ((List.range (k + 1)).map u))
        = (List.range n).map (fun k => Spec.mean ((List.range (k + 1)).map u)) ++ [Spec.mean ((List.range (n + 1)).map u)] := by
      rw [List.range_succ, List.map_append, List.map_singleton]
      rw [List.range_succ]
    rw [e2, e, Spec.runningMeans_snoc, ih]

/-- C122: the weight of the `j`-th of `n` values. -/
noncomputable def trendWeight (n j : ℕ) : ℝ := (3 - 2 * ∑ k ∈ Finset.Ico j n, 1 / ((k : ℝ) + 1)) / n

/-- C122: the trend is a weighted sum of the values; the weights add up to 1. -/
theorem C122_weights (x : ℕ → ℝ) (n : ℕ) (hn : 1 ≤ n) (hw : n < 2 ^ w) :
    (Trend.run (finOps (pushesOf x n)) : Trend w (E ε)).value = X.fin (∑ j ∈ Finset.range n, trendWeight n j * x j)
    ∧ ∑ j ∈ Finset.range n, trendWeight n j = 1 := by
  have hs := sinceClear_pushesOf x n
  have hlen : (sinceClear (pushesOf x n)).length = n := by rw [hs]; simp
  have hswap : ∀ (x : ℕ → ℝ) (n : ℕ), (Spec.runningMeans ((List.range n).map x)).sum
      = ∑ j ∈ Finset.range n, (∑ k ∈ Finset.Ico j n, 1 / ((k : ℝ) + 1)) * x j := by
    intro x n
    rw [runningMeans_range]
    induction n with
    | zero => simp
    | succ n ih =>
      rw [List.range_succ, List.map_append, List.sum_append, ih, Finset.sum_range_succ, List.map_singleton, List.sum_singleton,
        Spec.mean, sum_range_map, List.length_map, List.length_range, Finset.sum_range_succ]
      have h1 : ∑ j ∈ Finset.range n, (∑ k ∈ Finset.Ico j (n + 1), 1 / ((k : ℝ) + 1)) * x j
          = ∑ j ∈ Finset.range n, (∑ k ∈ Finset.Ico j n, 1 / ((k : ℝ) + 1)) * x j + ∑ j ∈ Finset.range n, 1 / ((n : ℝ) + 1) * x j := by
        rw [← Finset.sum_add_distrib]
        refine Finset.sum_congr rfl fun j hj => ?_
        rw [Finset.sum_Ico_succ_top (Finset.mem_range.1 hj).le]
        ring
      rw [h1, ← Finset.mul_sum]
      simp only [Nat.Ico_succ_singleton, Finset.sum_singleton]
      push_cast
      ring
  have hval : ∀ x : ℕ → ℝ, 3 * Spec.mean ((List.range n).map x) - 2 * Spec.mean (Spec.runningMeans ((List.range n).map x))
      = ∑ j ∈ Finset.range n, trendWeight n j * x j := by
    intro x
    have hn0 : (n : ℝ) ≠ 0 := by exact_mod_cast (by omega : n ≠ 0)
    unfold Spec.mean trendWeight
    rw [hswap, sum_range_map, Spec.length_runningMeans, List.length_map, List.length_range, ← mul_div_assoc, ← mul_div_assoc, ← sub_div,
      Finset.mul_sum, Finset.mul_sum, ← Finset.sum_sub_distrib, Finset.sum_div]
    refine Finset.sum_congr rfl fun j _ => ?_
    ring
  constructor
  · rw [(C14_trend (pushesOf x n) (by rw [hlen]; exact hw)).1, hs, hval]
  · have h1 := hval fun _ => 1
    simp only [mul_one] at h1
    rw [← h1]
    have hc : ∀ xs : List ℝ, xs ≠ [] → (∀ y ∈ xs, y = 1) → Spec.mean xs = 1 := fun xs hne h => Spec.mean_const hne h
    rw [hc _ (by simp; omega) (by simp), hc _ (by rw [runningMeans_range]; simp; omega) ?_]
    · norm_num
    · rw [runningMeans_range]
      intro y hy
      obtain ⟨k, -, rfl⟩ := List.mem_map.1 hy
      exact hc _ (by simp) (by simp)

/-- C122: the trend of data that converge converges to the same limit. -/
theorem C122_limit {x : ℕ → ℝ} {L : ℝ} (hx : Filter.Tendsto x Filter.atTop (nhds L)) {δ : ℝ} (hδ : 0 < δ) :
    ∃ n₀, ∀ n ≥ n₀, ∀ w : ℕ, n < 2 ^ w → ∃ v : ℝ,
      (Trend.run (finOps (pushesOf x n)) : Trend w (E ε)).value = X.fin v ∧ |v - L| < δ := by
  have h1 := mean_tendsto hx
  have h2 := mean_tendsto ((Filter.tendsto_add_atTop_iff_nat 1).2 h1)
  have h3 := (h1.const_mul 3).sub (h2.const_mul 2)
  rw [show 3 * L - 2 * L = L by ring] at h3
  obtain ⟨n₀, hn⟩ := Metric.tendsto_atTop.1 h3 δ hδ
  refine ⟨n₀, fun n hn' w hw => ?_⟩
  have hs := sinceClear_pushesOf x n
  have hlen : (sinceClear (pushesOf x n)).length = n := by rw [hs]; simp
  refine ⟨_, (C14_trend (pushesOf x n) (by rw [hlen]; exact hw)).1, ?_⟩
  rw [hs, runningMeans_range]
  have := hn n hn'
  rwa [Real.dist_eq] at this

/-- Unlike the mean, the trend depends on the order of the data. -/
theorem C122_order : (Trend.run (finOps [.push 0, .push 4]) : Trend 64 (E ε)).value = X.fin 4
    ∧ (Trend.run (finOps [.push 4, .push 0]) : Trend 64 (E ε)).value = X.fin 0 := by
  have hs1 : sinceClear ([.push 0, .push 4] : List (Op ℝ)) = [0, 4] := rfl
  have hs2 : sinceClear ([.push 4, .push 0] : List (Op ℝ)) = [4, 0] := rfl
  rw [(C14_trend _ (by rw [hs1]; simp)).1, (C14_trend _ (by rw [hs2]; simp)).1, hs1, hs2, X.fin_inj, X.fin_inj]
  simp [Spec.mean, Spec.runningMeans, List.range_succ]
  norm_num

/-- The weights of three values are -2/9, 4/9 and 7/9. -/
example : trendWeight 3 0 = -2 / 9 ∧ trendWeight 3 1 = 4 / 9 ∧ trendWeight 3 2 = 7 / 9 := by
  refine ⟨?_, ?_, ?_⟩ <;> simp [trendWeight, Finset.sum_Ico_succ_top] <;> norm_num

example : ∃ v : ℝ, (Trend.run (finOps [.push 1, .push 2, .push 6]) : Trend 64 (E ε)).value = X.fin v ∧ Spec.mean [1, 2, 6] ≤ v :=
  C122_increasing [.push 1, .push 2, .push 6] (by simp [sinceClear]) (by simp [sinceClear]) (by simp [sinceClear]; norm_num)

end Verif.Props
