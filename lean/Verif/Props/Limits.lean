import Verif.Props.Response
import Verif.Props.AffineLaws
import Verif.Proofs.Inequalities
import Mathlib.Tactic.LinearCombination
import Mathlib.Analysis.Asymptotics.SpecificAsymptotics
/-
C90: forgetting of the decaying mean. C91: data that converge.
-/
namespace Verif.Spec

theorem ewSum_append (f : ℝ) (xs ys : List ℝ) :
    ewSum f (xs ++ ys) = (1 - f) ^ ys.length * ewSum f xs + ewSum f ys := by
  induction ys using List.reverseRecOn with
  | nil => simp
  | append_singleton ys y ih =>
    rw [← List.append_assoc, ewSum_snoc, ewSum_snoc, ih, List.length_append, List.length_singleton, pow_succ]
    ring

/-- The weighted mean of old and new values is a weighted average of the two weighted means. -/
theorem ewMean_append {f : ℝ} (h0 : 0 < f) (h1 : f ≤ 1) {xs ys : List ℝ} (hx : xs ≠ []) (hy : ys ≠ []) :
    ewMean f (xs ++ ys)
      = blend ((1 - f) ^ ys.length * (1 - (1 - f) ^ xs.length)) (1 - (1 - f) ^ ys.length) (ewMean f xs) (ewMean f ys) := by
  have h2 := (norm_pos h0 h1 (n := xs.length) (by simpa using hx)).ne'
  have h3 := (norm_pos h0 h1 (n := ys.length) (by simpa using hy)).ne'
  rw [blend, ewMean, ewMean, ewMean, ewSum_append, List.length_append, pow_add]
  congr 1
  · field_simp
  · ring

end Verif.Spec

namespace Verif.Props
open Scalar Exact

variable {w N W : Nat} {ε : ℝ}

/-! ### C90 -/

open Decay in
/-- C90: pushing `x` moves the mean towards `x` by the fraction `f / (1 - (1-f)^n)` of the difference, where
`n` counts the values with `x`; this fraction is in `(0, 1]`. -/
theorem C90_step {f : ℝ} (h0 : 0 < f) (h1 : f ≤ 1) (ops : List (Op ℝ)) (x : ℝ) :
    ∃ m m' : ℝ, (Mean.run (X.fin f) (finOps ops) : Mean (E ε)).mean = X.fin m
      ∧ (Mean.run (X.fin f) (finOps (ops ++ [.push x])) : Mean (E ε)).mean = X.fin m'
      ∧ m' = m + f / (1 - (1 - f) ^ ((sinceClear ops).length + 1)) * (x - m)
      ∧ 0 < f / (1 - (1 - f) ^ ((sinceClear ops).length + 1))
      ∧ f / (1 - (1 - f) ^ ((sinceClear ops).length + 1)) ≤ 1 := by
  have hp := Spec.norm_pos h0 h1 (n := (sinceClear ops).length + 1) (by omega)
  refine ⟨_, _, C25_decay_mean h0 h1 ops, C25_decay_mean h0 h1 _, ?_, div_pos h0 hp, ?_⟩
  · rw [sinceClear_append_push, Spec.ewMean, Spec.ewMean, Spec.ewSum_snoc, List.length_append, List.length_singleton]
    rcases eq_or_ne (sinceClear ops) [] with e | e
    · simp only [e, List.length_nil, Spec.ewSum_nil]
      have := h0.ne'
      field_simp; simp
    · have h2 := (Spec.norm_pos h0 h1 (n := (sinceClear ops).length) (by simpa using e)).ne'
      rw [pow_succ] at hp ⊢
      have hp' := hp.ne'
      generalize (1 - f) ^ (sinceClear ops).length = q at *
      generalize Spec.ewSum f (sinceClear ops) = S
      rw [div_mul_eq_mul_div, div_add_div _ _ h2 hp', div_eq_div_iff hp' (mul_ne_zero h2 hp')]
      have : S / (1 - q) * (1 - q) = S := div_mul_cancel₀ _ h2
      linear_combination f * (1 - q * (1 - f)) * this
  · rw [div_le_one hp, pow_succ]
    have := pow_le_one₀ (n := (sinceClear ops).length) (a := 1 - f) (by linarith) (by linarith)
    nlinarith

open Decay in
/-- C90: the values before the last `k` together move the mean by at most the fraction `(1-f)^k` of the
range of the data. -/
theorem C90_forget {f : ℝ} (h0 : 0 < f) (h1 : f ≤ 1) (ops : List (Op ℝ)) (k : ℕ) (hk : 1 ≤ k)
    {lo hi : ℝ} (hb : ∀ x ∈ sinceClear ops, lo ≤ x ∧ x ≤ hi) :
    ∃ m m' : ℝ, (Mean.run (X.fin f) (finOps ops) : Mean (E ε)).mean = X.fin m
      ∧ (Mean.run (X.fin f) (finOps ((Spec.lastN k (sinceClear ops)).map .push)) : Mean (E ε)).mean = X.fin m'
      ∧ |m - m'| ≤ (1 - f) ^ k * |hi - lo| := by
  refine ⟨_, _, C25_decay_mean h0 h1 ops, C25_decay_mean h0 h1 _, ?_⟩
  rw [sinceClear_pushes]
  generalize sinceClear ops = xs at *
  have hf : 0 ≤ 1 - f := by linarith
  by_cases hl : xs.length ≤ k
  · rw [Spec.lastN_of_le hl, sub_self, abs_zero]; positivity
  · obtain ⟨a, b, rfl, hbl⟩ : ∃ a b : List ℝ, xs = a ++ b ∧ b.length = k :=
      ⟨xs.take (xs.length - k), xs.drop (xs.length - k), (List.take_append_drop _ _).symm, by simp; omega⟩
    have e : Spec.lastN k (a ++ b) = b := by rw [Spec.lastN, ← hbl]; simp
    have ha : a ≠ [] := by rintro rfl; simp at hl; omega
    have hbn : b ≠ [] := by rintro rfl; simp at hbl; omega
    rw [e, Spec.ewMean_append h0 h1 ha hbn, hbl]
    have hp : 0 < 1 - (1 - f) ^ a.length := Spec.norm_pos h0 h1 (by simpa using ha)
    have hq : 0 < 1 - (1 - f) ^ k := Spec.norm_pos h0 h1 (by omega)
    have hpw : 0 ≤ (1 - f) ^ k := pow_nonneg hf k
    have hpa : 0 ≤ (1 - f) ^ a.length := pow_nonneg hf _
    have hba := fun x hx => hb x (List.mem_append_left b hx)
    have hbb := fun x hx => hb x (List.mem_append_right a hx)
    have m1 := Spec.le_ewMean h0 h1 ha fun x hx => (hba x hx).1
    have m2 := Spec.ewMean_le h0 h1 ha fun x hx => (hba x hx).2
    have m3 := Spec.le_ewMean h0 h1 hbn fun x hx => (hbb x hx).1
    have m4 := Spec.ewMean_le h0 h1 hbn fun x hx => (hbb x hx).2
    set A := Spec.ewMean f a
    set B := Spec.ewMean f b
    set q := (1 - f) ^ k
    set p := (1 - f) ^ a.length
    have hs : 0 < q * (1 - p) + (1 - q) := by nlinarith
    have e2 : Spec.blend (q * (1 - p)) (1 - q) A B - B = q * ((1 - p) / (q * (1 - p) + (1 - q))) * (A - B) := by
      rw [Spec.blend]; field_simp; ring
    have hr : (1 - p) / (q * (1 - p) + (1 - q)) ≤ 1 := by
      rw [div_le_one hs]; nlinarith
    have hr0 : 0 ≤ (1 - p) / (q * (1 - p) + (1 - q)) := div_nonneg hp.le hs.le
    have hAB : |A - B| ≤ |hi - lo| := by
      rw [abs_of_nonneg (show 0 ≤ hi - lo by linarith), abs_le]; constructor <;> linarith
    rw [e2, abs_mul, abs_mul, abs_of_nonneg hpw, abs_of_nonneg hr0]
    exact mul_le_mul (by nlinarith) hAB (abs_nonneg _) hpw

example : ∃ m m' : ℝ, (Decay.Mean.run (X.fin (1 / 2)) (finOps [.push 0, .push 8, .push 4]) : Decay.Mean (E ε)).mean
      = X.fin m
    ∧ (Decay.Mean.run (X.fin (1 / 2)) (finOps [.push 8, .push 4]) : Decay.Mean (E ε)).mean = X.fin m'
    ∧ |m - m'| ≤ 2 := by
  obtain ⟨m, m', h1, h2, h3⟩ := C90_forget (ε := ε) (f := 1 / 2) (by norm_num) (by norm_num)
    [.push 0, .push 8, .push 4] 2 (by norm_num) (lo := 0) (hi := 8) (by simp [sinceClear]; norm_num)
  refine ⟨m, m', h1, h2, h3.trans (by norm_num)⟩

/-! ### C91 -/

/-- The history that pushes `u 0, ..., u (n-1)`. -/
def pushesOf (u : ℕ → ℝ) (n : ℕ) : List (Op ℝ) := ((List.range n).map u).map .push

theorem sinceClear_pushesOf (u : ℕ → ℝ) (n : ℕ) : sinceClear (pushesOf u n) = (List.range n).map u :=
  sinceClear_pushes _

theorem sum_range_map (u : ℕ → ℝ) (n : ℕ) : ((List.range n).map u).sum = ∑ i ∈ Finset.range n, u i := by
  induction n with
  | zero => simp
  | succ n ih => rw [List.range_succ, List.map_append, List.sum_append, ih, Finset.sum_range_succ]; simp

theorem mean_tendsto {u : ℕ → ℝ} {L : ℝ} (hu : Filter.Tendsto u Filter.atTop (nhds L)) :
    Filter.Tendsto (fun n => Spec.mean ((List.range n).map u)) Filter.atTop (nhds L) := by
  refine hu.cesaro.congr fun n => ?_
  rw [Spec.mean, sum_range_map, List.length_map, List.length_range, div_eq_inv_mul]

theorem variance_nonneg' (xs : List ℝ) : 0 ≤ Spec.variance xs :=
  div_nonneg (Spec.central_two_nonneg _) (Nat.cast_nonneg _)

theorem central_two_le_about (L : ℝ) (xs : List ℝ) : Spec.central 2 xs ≤ Spec.about 2 L xs := by
  rcases eq_or_ne xs [] with rfl | hne
  · simp
  · have h := Spec.about_two_shift (Spec.mean xs) (L - Spec.mean xs) xs
    rw [add_sub_cancel, ← Spec.central_eq_about, ← Spec.central_eq_about, Spec.central_one] at h
    have := mul_nonneg (Spec.length_pos hne).le (sq_nonneg (L - Spec.mean xs))
    rw [h]; linarith

theorem variance_tendsto {u : ℕ → ℝ} {L : ℝ} (hu : Filter.Tendsto u Filter.atTop (nhds L)) :
    Filter.Tendsto (fun n => Spec.variance ((List.range n).map u)) Filter.atTop (nhds 0) := by
  have hd : Filter.Tendsto (fun n => (u n - L) ^ 2) Filter.atTop (nhds 0) := by
    have := (hu.sub_const L).pow 2
    simpa using this
  refine squeeze_zero (fun n => variance_nonneg' _) (fun n => ?_) (mean_tendsto hd)
  rw [Spec.variance, Spec.mean, List.length_map, List.length_range, List.length_map, List.length_range]
  apply div_le_div_of_nonneg_right _ (Nat.cast_nonneg n)
  refine (central_two_le_about L _).trans (le_of_eq ?_)
  rw [Spec.about, List.map_map]; rfl

/-- From some `n` on, the last `k` of the first `n` values are within `δ` of the limit. -/
theorem lastN_near {u : ℕ → ℝ} {L : ℝ} (hu : Filter.Tendsto u Filter.atTop (nhds L)) (k : ℕ) {δ : ℝ} (hδ : 0 < δ) :
    ∃ n₀, ∀ n ≥ n₀, ∀ x ∈ Spec.lastN k ((List.range n).map u), L - δ ≤ x ∧ x ≤ L + δ := by
  rw [Metric.tendsto_atTop] at hu
  obtain ⟨n₀, h⟩ := hu δ hδ
  refine ⟨n₀ + k, fun n hn x hx => ?_⟩
  rw [Spec.lastN, List.mem_drop_iff_getElem] at hx
  obtain ⟨i, hi, rfl⟩ := hx
  simp only [List.length_map, List.length_range] at hi ⊢
  simp only [List.getElem_map, List.getElem_range]
  have := h (n - k + i) (by omega)
  rw [Real.dist_eq, abs_lt] at this
  constructor <;> linarith

open Cumulative in
/-- C91, cumulative filter: for data that converge to `L` the mean comes as close to `L` and the variance as
close to 0 as wanted, whatever the width of the counter (as long as it does not wrap). -/
theorem C91_cumulative {u : ℕ → ℝ} {L : ℝ} (hu : Filter.Tendsto u Filter.atTop (nhds L)) {δ : ℝ} (hδ : 0 < δ) :
    ∃ n₀, ∀ n ≥ n₀, ∀ w : ℕ, n < 2 ^ w → ∃ m v : ℝ,
      (Variance.run (finOps (pushesOf u n)) : Variance w (E ε)).getMean = X.fin m
      ∧ (Variance.run (finOps (pushesOf u n)) : Variance w (E ε)).variance = X.fin v
      ∧ |m - L| < δ ∧ |v| < δ := by
  obtain ⟨n₁, h1⟩ := (Metric.tendsto_atTop.1 (mean_tendsto hu)) δ hδ
  obtain ⟨n₂, h2⟩ := (Metric.tendsto_atTop.1 (variance_tendsto hu)) δ hδ
  refine ⟨max (max n₁ n₂) 1, fun n hn w hw => ?_⟩
  have hs := sinceClear_pushesOf u n
  have hlen : (sinceClear (pushesOf u n)).length = n := by rw [hs]; simp
  have hn1 : n₁ ≤ n := by omega
  have hn2 : n₂ ≤ n := by omega
  have hn3 : 1 ≤ n := by omega
  have r1 := h1 n hn1
  have r2 := h2 n hn2
  rw [Real.dist_eq] at r1 r2
  rw [sub_zero] at r2
  refine ⟨Spec.mean (sinceClear (pushesOf u n)), _, ?_, ((C02_variance (ε := ε) (w := w) (pushesOf u n) (by rwa [hlen])).1 (by rwa [hlen])).1, ?_, ?_⟩
  · exact ((C01_mean_inherited _).1.1).trans (C01_mean (pushesOf u n) (by rwa [hlen])).1
  · rwa [hs]
  · rwa [hs]

open Window in
/-- C91, window filter. -/
theorem C91_window (hN : 1 ≤ N) {u : ℕ → ℝ} {L : ℝ} (hu : Filter.Tendsto u Filter.atTop (nhds L)) :
    ∃ m v : ℕ → ℝ, (∀ n, ∃ s : Variance N (E ε), Variance.run (finOps (pushesOf u (n + 1))) = some s
        ∧ s.getMean = X.fin (m n) ∧ s.variance = X.fin (v n))
      ∧ Filter.Tendsto m Filter.atTop (nhds L) ∧ Filter.Tendsto v Filter.atTop (nhds 0) := by
  have hne : ∀ n, (List.range (n + 1)).map u ≠ [] := fun n => by simp
  refine ⟨fun n => Spec.mean (Spec.lastN N ((List.range (n + 1)).map u)),
    fun n => Spec.variance (Spec.lastN N ((List.range (n + 1)).map u)), ?_, ?_, ?_⟩
  · intro n
    have hs := sinceClear_pushesOf u (n + 1)
    obtain ⟨s, hr, hv, -⟩ := C19_window_variance (ε := ε) hN (pushesOf u (n + 1))
    obtain ⟨s', m, hs', hm, hg, -⟩ := C18_window_mean_inherited (N := N) hN
      (finOps (pushesOf u (n + 1)) : List (Op (E ε)))
    rw [hr] at hs'; cases hs'
    obtain ⟨m', hm', hgm⟩ := C18_window_mean (ε := ε) hN (pushesOf u (n + 1))
    rw [hm] at hm'; cases hm'
    rw [hs] at hv hgm
    exact ⟨s, hr, hg.trans hgm, hv (List.length_pos_iff.2 (lastN_ne_nil hN (hne n)))⟩
  · rw [Metric.tendsto_atTop]
    intro δ hδ
    obtain ⟨n₀, h⟩ := lastN_near hu N (half_pos hδ)
    refine ⟨n₀, fun n hn => ?_⟩
    have := Spec.mean_bounds (lastN_ne_nil hN (hne n)) (h (n + 1) (by omega))
    rw [Real.dist_eq, abs_lt]
    constructor <;> linarith [this.1, this.2]
  · rw [Metric.tendsto_atTop]
    intro δ hδ
    have hd : 0 < min (δ / 2) 1 := lt_min (half_pos hδ) one_pos
    obtain ⟨n₀, h⟩ := lastN_near hu N hd
    refine ⟨n₀, fun n hn => ?_⟩
    have := Spec.popoviciu (lastN_ne_nil hN (hne n)) (h (n + 1) (by omega))
    rw [Real.dist_eq, sub_zero, abs_of_nonneg (variance_nonneg' _)]
    have e : (L + min (δ / 2) 1 - (L - min (δ / 2) 1)) ^ 2 / 4 = min (δ / 2) 1 * min (δ / 2) 1 := by ring
    rw [e] at this
    have h1 : min (δ / 2) 1 * min (δ / 2) 1 ≤ min (δ / 2) 1 * 1 :=
      mul_le_mul_of_nonneg_left (min_le_right _ _) hd.le
    have h2 : min (δ / 2) 1 ≤ δ / 2 := min_le_left _ _
    linarith

theorem ewSum_tendsto {f : ℝ} (h0 : 0 < f) (h1 : f ≤ 1) {u : ℕ → ℝ} {L : ℝ}
    (hu : Filter.Tendsto u Filter.atTop (nhds L)) :
    Filter.Tendsto (fun n => Spec.ewSum f ((List.range n).map u)) Filter.atTop (nhds L) := by
  obtain ⟨B, hB⟩ : ∃ B, ∀ n, |u n - L| ≤ B := by
    obtain ⟨B, hB⟩ := (Metric.isBounded_iff_subset_closedBall L).1 (Metric.isBounded_range_of_tendsto u hu)
    refine ⟨B, fun n => ?_⟩
    have := hB ⟨n, rfl⟩
    rwa [Metric.mem_closedBall, Real.dist_eq] at this
  have hB0 : 0 ≤ B := (abs_nonneg _).trans (hB 0)
  set e : ℕ → ℝ := fun n => Spec.ewSum f ((List.range n).map u) - L with he
  have hrec : ∀ n, e (n + 1) = (1 - f) * e n + f * (u n - L) := by
    intro n
    simp only [he, List.range_succ, List.map_append, List.map_singleton, Spec.ewSum_snoc]; ring
  have hbound : ∀ n, |e n| ≤ max |L| B := by
    intro n
    induction n with
    | zero => simp [he]
    | succ n ih =>
      rw [hrec]
      refine (abs_add_le _ _).trans ?_
      rw [abs_mul, abs_mul, abs_of_nonneg (show 0 ≤ 1 - f by linarith), abs_of_pos h0]
      have h2 : (1 - f) * |e n| ≤ (1 - f) * max |L| B := mul_le_mul_of_nonneg_left ih (by linarith)
      have h3 : f * |u n - L| ≤ f * max |L| B :=
        mul_le_mul_of_nonneg_left ((hB n).trans (le_max_right _ _)) h0.le
      linarith
  have hlim : Filter.Tendsto e Filter.atTop (nhds 0) := by
    refine tendsto_zero_of_contract (ρ := 1 - f) (M := max |L| B) (by linarith) (by linarith)
      ⟨0, fun n _ => hbound n⟩ ?_
    intro T δ hδ ⟨M, hM⟩
    obtain ⟨M', hM'⟩ := (Metric.tendsto_atTop.1 hu) (δ / f) (div_pos hδ h0)
    refine ⟨max M M' + 1, fun n hn => ?_⟩
    obtain ⟨k, rfl⟩ : ∃ k, n = k + 1 := ⟨n - 1, by omega⟩
    rw [hrec]
    refine (abs_add_le _ _).trans ?_
    rw [abs_mul, abs_mul, abs_of_nonneg (show 0 ≤ 1 - f by linarith), abs_of_pos h0]
    have h2 : (1 - f) * |e k| ≤ (1 - f) * T :=
      mul_le_mul_of_nonneg_left (hM k (by have := le_max_left M M'; omega)) (by linarith)
    have h3 := hM' k (by have := le_max_right M M'; omega)
    rw [Real.dist_eq] at h3
    have h4 : f * |u k - L| ≤ f * (δ / f) := mul_le_mul_of_nonneg_left h3.le h0.le
    rw [mul_div_cancel₀ _ h0.ne'] at h4
    linarith
  have := hlim.add_const L
  simpa [he] using this

theorem norm_tendsto {f : ℝ} (h0 : 0 < f) (h1 : f ≤ 1) :
    Filter.Tendsto (fun n : ℕ => 1 - (1 - f) ^ n) Filter.atTop (nhds 1) := by
  have := (tendsto_pow_atTop_nhds_zero_of_lt_one (r := 1 - f) (by linarith) (by linarith)).const_sub 1
  simpa using this

theorem ewMean_tendsto {f : ℝ} (h0 : 0 < f) (h1 : f ≤ 1) {u : ℕ → ℝ} {L : ℝ}
    (hu : Filter.Tendsto u Filter.atTop (nhds L)) :
    Filter.Tendsto (fun n => Spec.ewMean f ((List.range n).map u)) Filter.atTop (nhds L) := by
  have := (ewSum_tendsto h0 h1 hu).div (norm_tendsto h0 h1) one_ne_zero
  rw [div_one] at this
  refine this.congr fun n => ?_
  simp [Spec.ewMean]

theorem ewDevs_range (f : ℝ) (u : ℕ → ℝ) (n : ℕ) : Spec.ewDevs f ((List.range n).map u)
    = (List.range n).map fun k => u k - Spec.ewMean f ((List.range (k + 1)).map u) := by
  induction n with
  | zero => rfl
  | succ n ih =>
    have e : (List.range (n + 1)).map u = (List.range n).map u ++ [u n] := by
      rw [List.range_succ, List.map_append]; rfl
    rw [e, Spec.ewDevs_snoc, ih, ← e, List.range_succ (n := n), List.map_append (l₁ := List.range n)]
    simp only [List.map_singleton, List.range_succ, List.map_append]

open Decay in
/-- C91, decaying filter. -/
theorem C91_decay {f g : ℝ} (hf : 0 < f ∧ f ≤ 1) (hg : 0 < g ∧ g ≤ 1) {u : ℕ → ℝ} {L : ℝ}
    (hu : Filter.Tendsto u Filter.atTop (nhds L)) :
    ∃ m v : ℕ → ℝ,
      (∀ n, (Variance.run (X.fin f) (X.fin g) (finOps (pushesOf u n)) : Variance (E ε)).mean = X.fin (m n)
        ∧ (Variance.run (X.fin f) (X.fin g) (finOps (pushesOf u n)) : Variance (E ε)).variance = X.fin (v n))
      ∧ Filter.Tendsto m Filter.atTop (nhds L) ∧ Filter.Tendsto v Filter.atTop (nhds 0) := by
  refine ⟨fun n => Spec.ewMean f ((List.range n).map u),
    fun n => Spec.ewSum g ((Spec.ewDevs f ((List.range n).map u)).map (· ^ 2)) / (1 - (1 - g) ^ n), ?_,
    ewMean_tendsto hf.1 hf.2 hu, ?_⟩
  · intro n
    have hs := sinceClear_pushesOf u n
    have hp : pushCount (pushesOf u n) = n := by rw [pushesOf, pushCount_pushes]; simp
    rw [Variance.run_fin hf.1 hf.2, hs, hp, Variance.variance_of hg.1 hg.2 (by simp)]
    exact ⟨Mean.mean_of hf.1 hf.2 _, rfl⟩
  · have hd : Filter.Tendsto (fun k => (u k - Spec.ewMean f ((List.range (k + 1)).map u)) ^ 2) Filter.atTop (nhds 0) := by
      have := (hu.sub ((ewMean_tendsto hf.1 hf.2 hu).comp (Filter.tendsto_add_atTop_nat 1))).pow 2
      simpa using this
    have h2 := (ewSum_tendsto hg.1 hg.2 hd).div (norm_tendsto hg.1 hg.2) one_ne_zero
    rw [div_one] at h2
    refine h2.congr fun n => ?_
    rw [ewDevs_range, List.map_map]; rfl

open Interim Cumulative in
/-- C91, interim filter. -/
theorem C91_interim (hW : 1 ≤ W) (hw : W * W < 2 ^ w) (hw2 : 2 * W < 2 ^ w) {u : ℕ → ℝ} {L : ℝ}
    (hu : Filter.Tendsto u Filter.atTop (nhds L)) :
    ∃ m v : ℕ → ℝ,
      (∀ n, IVariance.mean (Interim.run (finOps (pushesOf u (n + 1))) : IVariance w W (E ε)) = X.fin (m n)
        ∧ IVariance.variance (Interim.run (finOps (pushesOf u (n + 1))) : IVariance w W (E ε)) = X.fin (v n))
      ∧ Filter.Tendsto m Filter.atTop (nhds L) ∧ Filter.Tendsto v Filter.atTop (nhds 0) := by
  have hne : ∀ n, (List.range (n + 1)).map u ≠ [] := fun n => by simp
  have hblocks : ∀ xs : List ℝ, ∀ x ∈ Spec.prevBlock W xs ++ Spec.curBlock W xs, x ∈ Spec.lastN (2 * W) xs := by
    intro xs x hx
    rw [Spec.blocks_suffix hW, Spec.lastN] at hx
    rw [Spec.lastN]
    rw [List.mem_drop_iff_getElem] at hx ⊢
    obtain ⟨i, hi, rfl⟩ := hx
    have hle : (Spec.prevBlock W xs).length + (Spec.curBlock W xs).length ≤ 2 * W := by
      rw [Spec.length_prevBlock hW]
      have := Spec.length_curBlock_le hW xs
      split_ifs <;> omega
    exact ⟨i + (xs.length - ((Spec.prevBlock W xs).length + (Spec.curBlock W xs).length) - (xs.length - 2 * W)), by omega,
      by congr 1; omega⟩
  refine ⟨fun n => Spec_interimMean W ((List.range (n + 1)).map u),
    fun n => Spec_interimVariance W Spec.variance ((List.range (n + 1)).map u), ?_, ?_, ?_⟩
  · intro n
    have hs := sinceClear_pushesOf u (n + 1)
    have h1 := (C29_interim_mean (ε := ε) hW hw2 (pushesOf u (n + 1))).2.1
    have h2 := (C30_interim_variance (ε := ε) hW hw (pushesOf u (n + 1)) (by rw [hs]; exact hne n)).1
    rw [hs] at h1 h2
    exact ⟨h1, h2⟩
  · rw [Metric.tendsto_atTop]
    intro δ hδ
    obtain ⟨n₀, h⟩ := lastN_near hu (2 * W) (half_pos hδ)
    refine ⟨n₀, fun n hn => ?_⟩
    have := (C29_interim_mean_laws hW _ (hne n)).1 _ _ fun x hx => h (n + 1) (by omega) x (hblocks _ x hx)
    rw [Real.dist_eq, abs_lt]
    constructor <;> linarith [this.1, this.2]
  · rw [Metric.tendsto_atTop]
    intro δ hδ
    have hd : 0 < min (δ / 2) 1 := lt_min (half_pos hδ) one_pos
    obtain ⟨n₀, h⟩ := lastN_near hu (2 * W) hd
    refine ⟨max n₀ W, fun n hn => ?_⟩
    have hnW : W < ((List.range (n + 1)).map u).length := by
      have := le_trans (le_max_right n₀ W) hn
      simp; omega
    have hn0 : n₀ ≤ n + 1 := by have := le_trans (le_max_left n₀ W) hn; omega
    have hv : ∀ l : List ℝ, l ≠ [] → (∀ x ∈ l, x ∈ Spec.lastN (2 * W) ((List.range (n + 1)).map u)) →
        0 ≤ Spec.variance l ∧ Spec.variance l ≤ δ / 2 := by
      intro l hl hx
      refine ⟨variance_nonneg' _, ?_⟩
      have := Spec.popoviciu hl fun x hxl => h (n + 1) hn0 x (hx x hxl)
      have e : (L + min (δ / 2) 1 - (L - min (δ / 2) 1)) ^ 2 / 4 = min (δ / 2) 1 * min (δ / 2) 1 := by ring
      rw [e] at this
      have h1 : min (δ / 2) 1 * min (δ / 2) 1 ≤ min (δ / 2) 1 * 1 :=
        mul_le_mul_of_nonneg_left (min_le_right _ _) hd.le
      have h2 : min (δ / 2) 1 ≤ δ / 2 := min_le_left _ _
      linarith
    have hcne : Spec.curBlock W ((List.range (n + 1)).map u) ≠ [] := fun e => hne n ((Spec.curBlock_eq_nil hW _).1 e)
    have hpne : Spec.prevBlock W ((List.range (n + 1)).map u) ≠ [] := fun e =>
      (not_le.2 hnW) ((Spec.prevBlock_eq_nil hW _).1 e)
    have := (C30_interim_variance_convex hW Spec.variance _ (hne n)).2.1 hnW 0 (δ / 2)
      (hv _ hpne fun x hx => hblocks _ x (List.mem_append_left _ hx))
      (hv _ hcne fun x hx => hblocks _ x (List.mem_append_right _ hx))
    rw [Real.dist_eq, sub_zero, abs_of_nonneg this.1]
    linarith [this.2]

/-- The values `1 / (n + 1)`. -/
example : ∃ m v : ℕ → ℝ, (∀ n, ∃ s : Window.Variance 3 (E ε),
        Window.Variance.run (finOps (pushesOf (fun k => 1 / ((k : ℝ) + 1)) (n + 1))) = some s
        ∧ s.getMean = X.fin (m n) ∧ s.variance = X.fin (v n))
      ∧ Filter.Tendsto m Filter.atTop (nhds 0) ∧ Filter.Tendsto v Filter.atTop (nhds 0) :=
  C91_window (by norm_num) tendsto_one_div_add_atTop_nhds_zero_nat

end Verif.Props
