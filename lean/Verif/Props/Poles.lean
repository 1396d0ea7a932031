import Mathlib.Analysis.Complex.Polynomial.Basic
import Mathlib.Analysis.Normed.Ring.InfiniteSum
import Mathlib.RingTheory.PowerSeries.Basic
import Verif.Props.Series
import Verif.Props.IIRNoise
/-
C181: the IIR filter is stable if and only if its poles lie inside the unit circle.
-/
namespace Verif.Spec

/-- The polynomial with the coefficients `l` at `z`. -/
noncomputable def polyAt (l : List ℝ) (z : ℂ) : ℂ := ∑ i ∈ Finset.range l.length, (l.getD i 0 : ℂ) * z ^ i

/-- The denominator `scale + b_1 z + b_2 z² + ...` has no zero in the closed unit disk (its zeros are the reciprocals of the poles). -/
def PolesInside (bs : List ℝ) (c : ℝ) : Prop := ∀ z : ℂ, ‖z‖ ≤ 1 → polyAt (c :: bs) z ≠ 0

end Verif.Spec

namespace Verif.Props
open Filter Topology Exact

variable {ε : ℝ}

/-! ### Division of power series by polynomials -/

/-- Division by `p` keeps bounded coefficients bounded. -/
def KeepsBounds (p : PowerSeries ℂ) : Prop :=
  ∃ K : ℝ, 0 ≤ K ∧ ∀ (F : PowerSeries ℂ) (B : ℝ), (∀ k, ‖PowerSeries.coeff k (p * F)‖ ≤ B) → ∀ k, ‖PowerSeries.coeff k F‖ ≤ K * B

/-- Division by `p` keeps limits, up to the factor `v`. -/
def KeepsLimits (p : PowerSeries ℂ) (v : ℂ) : Prop :=
  v ≠ 0 ∧ ∀ (F : PowerSeries ℂ) (L : ℂ), Tendsto (fun k => PowerSeries.coeff k (p * F)) atTop (𝓝 L)
    → Tendsto (fun k => PowerSeries.coeff k F) atTop (𝓝 (L / v))

theorem keepsBounds_mul {p q : PowerSeries ℂ} (hp : KeepsBounds p) (hq : KeepsBounds q) : KeepsBounds (p * q) := by
  obtain ⟨K, hK, h⟩ := hp
  obtain ⟨K', hK', h'⟩ := hq
  refine ⟨K' * K, mul_nonneg hK' hK, fun F B hB => ?_⟩
  simp only [mul_assoc] at hB ⊢
  exact h' F _ (h (q * F) B hB)

theorem keepsLimits_mul {p q : PowerSeries ℂ} {v v' : ℂ} (hp : KeepsLimits p v) (hq : KeepsLimits q v') : KeepsLimits (p * q) (v * v') := by
  refine ⟨mul_ne_zero hp.1 hq.1, fun F L hL => ?_⟩
  simp only [mul_assoc] at hL
  rw [← div_div]
  exact hq.2 F _ (hp.2 (q * F) L hL)

theorem keeps_const {c : ℂ} (hc : c ≠ 0) : KeepsBounds (PowerSeries.C c) ∧ KeepsLimits (PowerSeries.C c) c := by
  constructor
  · refine ⟨‖c‖⁻¹, by positivity, fun F B hB k => ?_⟩
    have := hB k
    rw [PowerSeries.coeff_C_mul, norm_mul] at this
    rw [inv_mul_eq_div, le_div_iff₀ (norm_pos_iff.2 hc), mul_comm]
    exact this
  · refine ⟨hc, fun F L hL => ?_⟩
    have := hL.div_const c
    refine this.congr fun k => ?_
    rw [PowerSeries.coeff_C_mul, mul_div_cancel_left₀ _ hc]

/-- The recursion of a filter of first order. -/
theorem root_rec {r : ℂ} (hr : r ≠ 0) (F : PowerSeries ℂ) :
    PowerSeries.coeff 0 F = -PowerSeries.coeff 0 ((PowerSeries.X - PowerSeries.C r) * F) / r
    ∧ ∀ k, PowerSeries.coeff (k + 1) F
      = (PowerSeries.coeff k F - PowerSeries.coeff (k + 1) ((PowerSeries.X - PowerSeries.C r) * F)) / r := by
  constructor
  · rw [sub_mul, map_sub, PowerSeries.coeff_C_mul, PowerSeries.coeff_zero_X_mul, eq_div_iff hr]
    ring
  · intro k
    rw [sub_mul, map_sub, PowerSeries.coeff_C_mul, PowerSeries.coeff_succ_X_mul, eq_div_iff hr]
    ring

theorem root_bound {r : ℂ} (hr : 1 < ‖r‖) (F : PowerSeries ℂ) (B : ℝ)
    (hB : ∀ k, ‖PowerSeries.coeff k ((PowerSeries.X - PowerSeries.C r) * F)‖ ≤ B) (k : ℕ) : ‖PowerSeries.coeff k F‖ ≤ (‖r‖ - 1)⁻¹ * B := by
  have h0 : r ≠ 0 := by rintro rfl; simp at hr; linarith
  have hr1 : 0 < ‖r‖ - 1 := by linarith
  have hrp : 0 < ‖r‖ := by linarith
  obtain ⟨e0, e⟩ := root_rec h0 F
  have hB0 : 0 ≤ B := (norm_nonneg _).trans (hB 0)
  induction k with
  | zero =>
    rw [e0, norm_div, norm_neg, div_le_iff₀ hrp]
    refine (hB 0).trans ?_
    rw [inv_mul_eq_div, div_mul_eq_mul_div, le_div_iff₀ hr1]
    nlinarith
  | succ k ih =>
    rw [e k, norm_div, div_le_iff₀ hrp]
    refine (norm_sub_le _ _).trans ((add_le_add ih (hB (k + 1))).trans (le_of_eq ?_))
    field_simp
    ring

theorem keeps_root {r : ℂ} (hr : 1 < ‖r‖) :
    KeepsBounds (PowerSeries.X - PowerSeries.C r) ∧ KeepsLimits (PowerSeries.X - PowerSeries.C r) (1 - r) := by
  have h0 : r ≠ 0 := by rintro rfl; simp at hr; linarith
  have hr1 : 0 < ‖r‖ - 1 := by linarith
  have hb := root_bound hr
  refine ⟨⟨_, by positivity, hb⟩, ?_, ?_⟩
  · intro h
    have : r = 1 := by linear_combination -h
    rw [this] at hr; simp at hr
  · intro F L hL
    have h1 : (1 : ℂ) - r ≠ 0 := by
      intro h
      have : r = 1 := by linear_combination -h
      rw [this] at hr; simp at hr
    obtain ⟨B, hB⟩ : ∃ B, ∀ k, ‖PowerSeries.coeff k ((PowerSeries.X - PowerSeries.C r) * F)‖ ≤ B := by
      obtain ⟨B, hB⟩ := (Metric.isBounded_iff_subset_closedBall (0 : ℂ)).1 (Metric.isBounded_range_of_tendsto _ hL)
      refine ⟨B, fun n => ?_⟩
      have := hB ⟨n, rfl⟩
      rwa [Metric.mem_closedBall, dist_zero_right] at this
    have hF := hb F B hB
    set l := L / (1 - r) with hl
    have hle : r * l = l - L := by rw [hl]; field_simp; ring
    obtain ⟨-, e⟩ := root_rec h0 F
    rw [tendsto_iff_norm_sub_tendsto_zero]
    refine tendsto_zero_of_contract (ρ := ‖r‖⁻¹) (M := (‖r‖ - 1)⁻¹ * B + ‖l‖) (by positivity) (inv_lt_one_of_one_lt₀ hr) ?_ ?_
    · refine ⟨0, fun n _ => ?_⟩
      rw [abs_of_nonneg (norm_nonneg _)]
      exact (norm_sub_le _ _).trans (by linarith [hF n])
    · intro T δ hδ hT
      obtain ⟨N, hN⟩ := hT
      obtain ⟨N', hN'⟩ := Metric.tendsto_atTop.1 hL δ hδ
      refine ⟨max N N' + 1, fun n hn => ?_⟩
      obtain ⟨k, rfl⟩ : ∃ k, n = k + 1 := ⟨n - 1, by omega⟩
      have a1 := hN k (by omega)
      have a2 := hN' (k + 1) (by omega)
      rw [abs_of_nonneg (norm_nonneg _)] at a1 ⊢
      rw [dist_eq_norm] at a2
      have ee : PowerSeries.coeff (k + 1) F - l
          = r⁻¹ * ((PowerSeries.coeff k F - l) - (PowerSeries.coeff (k + 1) ((PowerSeries.X - PowerSeries.C r) * F) - L)) := by
        rw [e k, eq_inv_mul_iff_mul_eq₀ h0, mul_sub, mul_div_cancel₀ _ h0, hle]
        ring
      rw [ee, norm_mul, norm_inv]
      have hi : ‖r‖⁻¹ ≤ 1 := (inv_lt_one_of_one_lt₀ hr).le
      have hi0 : 0 ≤ ‖r‖⁻¹ := by positivity
      calc _ ≤ ‖r‖⁻¹ * (T + δ) := mul_le_mul_of_nonneg_left ((norm_sub_le _ _).trans (by linarith)) hi0
        _ ≤ ‖r‖⁻¹ * T + δ := by nlinarith

/-- The polynomial with the coefficients `l`. -/
noncomputable def polyOf (l : List ℝ) : Polynomial ℂ :=
  ∑ i ∈ Finset.range l.length, Polynomial.C (l.getD i 0 : ℂ) * Polynomial.X ^ i

theorem polyOf_eval (l : List ℝ) (z : ℂ) : (polyOf l).eval z = Spec.polyAt l z := by
  simp [polyOf, Spec.polyAt, Polynomial.eval_finsetSum]

theorem polyOf_coeff (l : List ℝ) (k : ℕ) : (polyOf l).coeff k = (l.getD k 0 : ℂ) := by
  rw [polyOf, Polynomial.finsetSum_coeff]
  simp only [Polynomial.coeff_C_mul_X_pow]
  rw [Finset.sum_ite_eq (Finset.range l.length) k]
  split_ifs with h
  · rfl
  · rw [List.getD_eq_default _ _ (by simpa using h)]; simp

/-- The power series of `l` with complex coefficients. -/
noncomputable def cseries (l : List ℝ) : PowerSeries ℂ := PowerSeries.map Complex.ofRealHom (Spec.series l)

theorem cseries_eq (l : List ℝ) : cseries l = (polyOf l : PowerSeries ℂ) := by
  ext k
  rw [cseries, PowerSeries.coeff_map, Spec.coeff_series, Polynomial.coeff_coe, polyOf_coeff]
  rfl

/-- Without zeros in the closed unit disk, division by a polynomial keeps bounds and limits. -/
theorem keeps_poly {l : List ℝ} (h : ∀ z : ℂ, ‖z‖ ≤ 1 → Spec.polyAt l z ≠ 0) :
    KeepsBounds (cseries l) ∧ KeepsLimits (cseries l) (Spec.polyAt l 1) := by
  have hs := IsAlgClosed.splits (polyOf l)
  have hne : polyOf l ≠ 0 := by
    intro e
    have := h 0 (by simp)
    rw [← polyOf_eval, e, Polynomial.eval_zero] at this
    exact this rfl
  have hr : ∀ r ∈ (polyOf l).roots, 1 < ‖r‖ := by
    intro r hr
    by_contra hc
    refine h r (not_lt.1 hc) ?_
    rw [← polyOf_eval]
    exact (Polynomial.mem_roots hne).1 hr
  have hlead : (polyOf l).leadingCoeff ≠ 0 := Polynomial.leadingCoeff_ne_zero.2 hne
  have key : ∀ m : Multiset ℂ, (∀ r ∈ m, 1 < ‖r‖) → KeepsBounds (m.map fun r => (PowerSeries.X - PowerSeries.C r : PowerSeries ℂ)).prod
      ∧ KeepsLimits (m.map fun r => (PowerSeries.X - PowerSeries.C r : PowerSeries ℂ)).prod (m.map fun r => 1 - r).prod := by
    intro m
    induction m using Multiset.induction with
    | empty =>
      intro _
      have := keeps_const (c := 1) one_ne_zero
      simpa using this
    | cons r m ih =>
      intro hm
      rw [Multiset.map_cons, Multiset.prod_cons, Multiset.map_cons, Multiset.prod_cons]
      have h1 := keeps_root (hm r (Multiset.mem_cons_self r m))
      have h2 := ih fun r' hr' => hm r' (Multiset.mem_cons_of_mem hr')
      exact ⟨keepsBounds_mul h1.1 h2.1, keepsLimits_mul h1.2 h2.2⟩
  have e : cseries l = PowerSeries.C (polyOf l).leadingCoeff
      * ((polyOf l).roots.map fun r => (PowerSeries.X - PowerSeries.C r : PowerSeries ℂ)).prod := by
    rw [cseries_eq]
    conv_lhs => rw [hs.eq_prod_roots]
    rw [Polynomial.coe_mul, Polynomial.coe_C, ← Polynomial.coeToPowerSeries.ringHom_apply (φ := Multiset.prod _), map_multiset_prod, Multiset.map_map]
    congr 3
    funext r
    simp
  have ev : Spec.polyAt l 1 = (polyOf l).leadingCoeff * ((polyOf l).roots.map fun r => 1 - r).prod := by
    rw [← polyOf_eval, hs.eval_eq_prod_roots]
  obtain ⟨k1, k2⟩ := keeps_const hlead
  obtain ⟨k3, k4⟩ := key _ hr
  rw [e, ev]
  exact ⟨keepsBounds_mul k1 k3, keepsLimits_mul k2 k4⟩

/-! ### The filter -/

theorem fir_mk (cs : List ℝ) (u : ℕ → ℝ) (k : ℕ) :
    Spec.fir cs ((List.range (k + 1)).map u) = PowerSeries.coeff k (Spec.series cs * PowerSeries.mk u) := by
  have h := Spec.fir_series cs ((List.range (k + 1)).map u) (k := k) (by simp)
  rw [List.take_of_length_le (by simp)] at h
  rw [h, Spec.coeff_series_mul, PowerSeries.coeff_mul, Finset.Nat.sum_antidiagonal_eq_sum_range_succ_mk]
  refine Finset.sum_congr rfl fun i hi => ?_
  rw [Finset.mem_range] at hi
  rw [Spec.coeff_series, PowerSeries.coeff_mk, List.getD_eq_getElem ((List.range (k + 1)).map u) 0 (n := k - i) (by rw [List.length_map, List.length_range]; omega)]
  simp

theorem iirOut_rec (as bs : List ℝ) {c : ℝ} (hc : c ≠ 0) (u : ℕ → ℝ) (n : ℕ) :
    c * iirOut as bs c u n = Spec.fir as ((List.range (n + 1)).map u) - Spec.fir bs ((List.range n).map (iirOut as bs c u)) := by
  rw [iirOut, ← iirList_eq, mul_div_cancel₀ _ hc]

/-- The difference equation for the whole output. -/
theorem iirOut_series (as bs : List ℝ) {c : ℝ} (hc : c ≠ 0) (u : ℕ → ℝ) :
    Spec.series (c :: bs) * PowerSeries.mk (iirOut as bs c u) = Spec.series as * PowerSeries.mk u := by
  ext k
  rw [← fir_mk as u, Spec.series_cons, add_mul, map_add, PowerSeries.coeff_C_mul, PowerSeries.coeff_mk, iirOut_rec as bs hc, mul_assoc]
  rcases k with _ | k
  · simp [Spec.fir]
  · rw [PowerSeries.coeff_succ_X_mul, ← fir_mk]
    ring

theorem iirOut_cseries (as bs : List ℝ) {c : ℝ} (hc : c ≠ 0) (u : ℕ → ℝ) :
    cseries (c :: bs) * PowerSeries.mk (fun k => (iirOut as bs c u k : ℂ)) = PowerSeries.map Complex.ofRealHom (Spec.series as * PowerSeries.mk u) := by
  rw [← iirOut_series as bs hc u, map_mul, cseries]
  congr 1

theorem polyAt_one (l : List ℝ) : Spec.polyAt l 1 = (l.sum : ℂ) := by
  have : l.sum = ∑ i ∈ Finset.range l.length, l.getD i 0 := by
    rw [← List.toFinset_range, List.sum_toFinset _ List.nodup_range]
    congr 1
    apply List.ext_getElem (by simp)
    intro i h1 h2
    simp [h1]
  rw [Spec.polyAt, this]
  push_cast
  simp

theorem fir_bound (cs : List ℝ) {u : ℕ → ℝ} {B : ℝ} (hB : ∀ n, |u n| ≤ B) (k : ℕ) :
    |Spec.fir cs ((List.range (k + 1)).map u)| ≤ (cs.map abs).sum * B := by
  have hB0 : 0 ≤ B := (abs_nonneg _).trans (hB 0)
  have e : (cs.map abs).sum = ∑ i ∈ Finset.range cs.length, |cs.getD i 0| := by
    rw [← List.toFinset_range, List.sum_toFinset _ List.nodup_range]
    congr 1
    apply List.ext_getElem (by simp)
    intro i h1 h2
    simp at h2
    simp [h2]
  rw [e, Finset.sum_mul, Spec.fir, ← List.sum_toFinset _ List.nodup_range, List.toFinset_range]
  refine (Finset.abs_sum_le_sum_abs _ _).trans (Finset.sum_le_sum fun i _ => ?_)
  rw [abs_mul, getD_reverse_range]
  refine mul_le_mul_of_nonneg_left ?_ (abs_nonneg _)
  split_ifs
  · exact hB _
  · simpa using hB0

/-- The value after any history, as the output for an infinite input. -/
theorem iir_history {as bs : List ℝ} (ha : as ≠ []) (hb : bs ≠ []) {c : ℝ} (hc : c ≠ 0) (ops : List (Op ℝ)) (hne : sinceClear ops ≠ []) :
    ∃ s : Impulse.Infinite (E ε), Impulse.Infinite.run (as.map X.fin) (bs.map X.fin) (X.fin c) (finOps ops) = some s
      ∧ s.value = X.fin (iirOut as bs c (fun i => (sinceClear ops).getD i 0) ((sinceClear ops).length - 1)) := by
  obtain ⟨s, ys, hs, -, hu, hv⟩ := C52_iir (ε := ε) ha hb hc ops
  set xs := sinceClear ops with hxs
  refine ⟨s, hs, ?_⟩
  have h := iirList_isIIR as bs hc (fun i => xs.getD i 0) xs.length
  rw [show (List.range xs.length).map (fun i => xs.getD i 0) = xs from ?_] at h
  · rw [hv, ← hu _ h, iirList_eq]
    have : 0 < xs.length := List.length_pos_iff.2 hne
    obtain ⟨m, hm⟩ : ∃ m, xs.length = m + 1 := ⟨xs.length - 1, by omega⟩
    rw [hm, List.range_succ, List.map_append, List.map_singleton, List.getLastD_concat, Nat.add_sub_cancel]
  · refine List.ext_getElem (by simp) fun i h1 h2 => ?_
    simp [h2]

/-- C181: with the poles inside the unit circle the output is bounded by a multiple of the largest input, for ever. -/
theorem C181_stable {as bs : List ℝ} (ha : as ≠ []) (hb : bs ≠ []) {c : ℝ} (h : Spec.PolesInside bs c) :
    ∃ K : ℝ, ∀ (ops : List (Op ℝ)) (B : ℝ), 0 ≤ B → (∀ x ∈ sinceClear ops, |x| ≤ B) →
      ∃ (s : Impulse.Infinite (E ε)) (y : ℝ),
        Impulse.Infinite.run (as.map X.fin) (bs.map X.fin) (X.fin c) (finOps ops) = some s ∧ s.value = X.fin y ∧ |y| ≤ K * B := by
  have hc : c ≠ 0 := by
    rintro rfl
    refine h 0 (by simp) ?_
    rw [Spec.polyAt, List.length_cons, Finset.sum_range_succ']
    simp
  obtain ⟨⟨K, hK, hb'⟩, -⟩ := keeps_poly h
  have hs : 0 ≤ (as.map abs).sum :=
    List.sum_nonneg (by intro x hx; obtain ⟨y, -, rfl⟩ := List.mem_map.1 hx; exact abs_nonneg y)
  refine ⟨K * (as.map abs).sum, fun ops B hB0 hB => ?_⟩
  by_cases hne : sinceClear ops = []
  · obtain ⟨s, ys, hs', hy, -, hv⟩ := C52_iir (ε := ε) ha hb hc ops
    rw [hne] at hy
    obtain rfl := List.length_eq_zero_iff.1 hy.1
    exact ⟨s, 0, hs', by simpa using hv, by rw [abs_zero]; positivity⟩
  · obtain ⟨s, h1, h2⟩ := iir_history (ε := ε) ha hb hc ops hne
    refine ⟨s, _, h1, h2, ?_⟩
    set u : ℕ → ℝ := fun i => (sinceClear ops).getD i 0 with hu
    have hub : ∀ n, |u n| ≤ B := by
      intro n
      rcases Nat.lt_or_ge n (sinceClear ops).length with hn | hn
      · simp only [hu, List.getD_eq_getElem _ _ hn]
        exact hB _ (List.getElem_mem hn)
      · simp only [hu, List.getD_eq_default _ _ hn, abs_zero]
        exact hB0
    have := hb' (PowerSeries.mk fun k => (iirOut as bs c u k : ℂ)) ((as.map abs).sum * B) (fun k => ?_) ((sinceClear ops).length - 1)
    · rw [PowerSeries.coeff_mk, Complex.norm_real, Real.norm_eq_abs] at this
      rw [mul_assoc]; exact this
    · rw [iirOut_cseries as bs hc, PowerSeries.coeff_map, ← fir_mk]
      show ‖((Spec.fir as ((List.range (k + 1)).map u) : ℝ) : ℂ)‖ ≤ _
      rw [Complex.norm_real, Real.norm_eq_abs]
      exact fir_bound as hub k

/-- C181: with the poles inside the unit circle the output follows an input that converges. -/
theorem C181_converges {as bs : List ℝ} (ha : as ≠ []) (hb : bs ≠ []) {c : ℝ} (h : Spec.PolesInside bs c) {u : ℕ → ℝ} {L : ℝ}
    (hu : Tendsto u atTop (𝓝 L)) :
    ∃ y : ℕ → ℝ, (∀ n, ∃ s : Impulse.Infinite (E ε),
        Impulse.Infinite.run (as.map X.fin) (bs.map X.fin) (X.fin c) (finOps (((List.range (n + 1)).map u).map .push)) = some s
          ∧ s.value = X.fin (y n))
      ∧ c + bs.sum ≠ 0 ∧ Tendsto y atTop (𝓝 (L * as.sum / (c + bs.sum))) := by
  have hc : c ≠ 0 := by
    rintro rfl
    refine h 0 (by simp) ?_
    rw [Spec.polyAt, List.length_cons, Finset.sum_range_succ']
    simp
  obtain ⟨-, h0, hl⟩ := keeps_poly h
  rw [polyAt_one, List.sum_cons] at h0 hl
  refine ⟨iirOut as bs c u, fun n => iir_value ha hb hc u n, by exact_mod_cast h0, ?_⟩
  have := hl (PowerSeries.mk fun k => (iirOut as bs c u k : ℂ)) ((L * as.sum : ℝ) : ℂ) ?_
  · simp only [PowerSeries.coeff_mk] at this
    have := (Complex.continuous_re.tendsto _).comp this
    have e : ((L * as.sum : ℝ) : ℂ) / ((c + bs.sum : ℝ) : ℂ) = ((L * as.sum / (c + bs.sum) : ℝ) : ℂ) := by push_cast; rfl
    rw [e, Complex.ofReal_re] at this
    exact this
  · have hf := (fir_tendsto as hu).comp (tendsto_add_atTop_nat 1)
    have := (Complex.continuous_ofReal.tendsto _).comp hf
    refine this.congr fun k => ?_
    rw [iirOut_cseries as bs hc, PowerSeries.coeff_map, ← fir_mk]
    rfl

/-- C181: a pole on or outside the unit circle that is not cancelled by a zero of the numerator makes the output unbounded, although no input
exceeds 1. -/
theorem C181_unstable {as bs : List ℝ} (ha : as ≠ []) (hb : bs ≠ []) {c : ℝ} (hc : c ≠ 0) {z : ℂ} (hz : ‖z‖ ≤ 1)
    (h0 : Spec.polyAt (c :: bs) z = 0) (h1 : Spec.polyAt as z ≠ 0) (M : ℝ) :
    ∃ (xs : List ℝ) (s : Impulse.Infinite (E ε)) (y : ℝ), (∀ x ∈ xs, |x| ≤ 1)
      ∧ Impulse.Infinite.run (as.map X.fin) (bs.map X.fin) (X.fin c) (finOps (xs.map .push)) = some s ∧ s.value = X.fin y ∧ M < y := by
  by_contra hcon
  set g := impulseResponse as bs c with hg
  have hsum : ∀ n, ∑ i ∈ Finset.range n, |g i| ≤ M := by
    intro n
    by_contra hM
    apply hcon
    let xs : List ℝ := ((List.range n).map fun i => if 0 ≤ g i then (1 : ℝ) else -1).reverse
    obtain ⟨s, ys, hs, hy, -, hv⟩ := C52_iir (ε := ε) ha hb hc (xs.map .push)
    rw [sinceClear_pushes] at hy
    refine ⟨xs, s, _, ?_, hs, hv, ?_⟩
    · intro x hx
      simp only [xs, List.mem_reverse, List.mem_map] at hx
      obtain ⟨i, -, rfl⟩ := hx
      split_ifs <;> simp
    · rw [iir_conv hc hy]
      simp only [xs, List.reverse_reverse, List.length_reverse, List.length_map, List.length_range]
      rw [Stochastic.lin, List.zipWith_map, List.zipWith_self]
      refine lt_of_lt_of_eq (not_le.1 hM) ?_
      rw [← List.toFinset_range, List.sum_toFinset _ List.nodup_range]
      congr 1
      refine List.map_congr_left fun i _ => ?_
      split_ifs with h
      · rw [abs_of_nonneg h, mul_one]
      · rw [abs_of_neg (not_le.1 h)]; ring
  have sg : Summable fun i => |g i| := summable_of_sum_range_le (fun i => abs_nonneg _) hsum
  have sg' : Summable fun i => ‖(g i : ℂ) * z ^ i‖ := by
    refine Summable.of_nonneg_of_le (fun i => norm_nonneg _) (fun i => ?_) sg
    rw [norm_mul, Complex.norm_real, Real.norm_eq_abs, norm_pow]
    exact mul_le_of_le_one_right (abs_nonneg _) (pow_le_one₀ (norm_nonneg _) hz)
  have fin : ∀ l : List ℝ, (Summable fun i => ‖(l.getD i 0 : ℂ) * z ^ i‖) ∧ ∑' i, (l.getD i 0 : ℂ) * z ^ i = Spec.polyAt l z := by
    intro l
    have hz : ∀ i ∉ Finset.range l.length, (l.getD i 0 : ℂ) * z ^ i = 0 := by
      intro i hi
      rw [List.getD_eq_default _ _ (by simpa using hi)]; simp
    refine ⟨?_, tsum_eq_sum hz⟩
    refine summable_of_ne_finset_zero (s := Finset.range l.length) fun i hi => ?_
    rw [hz i hi, norm_zero]
  have key := tsum_mul_tsum_eq_tsum_sum_antidiagonal_of_summable_norm (fin (c :: bs)).1 sg'
  rw [(fin (c :: bs)).2, h0, zero_mul] at key
  have e : ∀ n, ∑ kl ∈ Finset.antidiagonal n, ((c :: bs).getD kl.1 0 : ℂ) * z ^ kl.1 * ((g kl.2 : ℂ) * z ^ kl.2) = (as.getD n 0 : ℂ) * z ^ n := by
    intro n
    have hD := iirOut_series as bs hc fun i => if i = 0 then 1 else 0
    have h1 : (PowerSeries.mk fun i => if i = 0 then (1 : ℝ) else 0) = 1 := by
      ext k
      rw [PowerSeries.coeff_mk, PowerSeries.coeff_one]
    rw [h1, mul_one] at hD
    have := congrArg (fun F => ((PowerSeries.coeff n F : ℝ) : ℂ)) hD
    simp only [PowerSeries.coeff_mul, Spec.coeff_series, PowerSeries.coeff_mk] at this
    rw [← this, Complex.ofReal_sum, Finset.sum_mul]
    refine Finset.sum_congr rfl fun kl hkl => ?_
    rw [← Finset.mem_antidiagonal.1 hkl, pow_add, Complex.ofReal_mul]
    show _ * _ * ((impulseResponse as bs c kl.2 : ℂ) * _) = _ * (impulseResponse as bs c kl.2 : ℂ) * _
    ring
  simp only [e] at key
  rw [(fin as).2] at key
  exact h1 key.symm

/-- C181: a filter whose numerator and denominator have no zero in common in the closed unit disk is stable if and only if its poles are inside
the unit circle. -/
theorem C181_iff {as bs : List ℝ} (ha : as ≠ []) (hb : bs ≠ []) {c : ℝ} (hc : c ≠ 0)
    (hcop : ∀ z : ℂ, ‖z‖ ≤ 1 → Spec.polyAt (c :: bs) z = 0 → Spec.polyAt as z ≠ 0) :
    (∃ K : ℝ, ∀ (ops : List (Op ℝ)) (B : ℝ), 0 ≤ B → (∀ x ∈ sinceClear ops, |x| ≤ B) →
      ∃ (s : Impulse.Infinite (E ε)) (y : ℝ),
        Impulse.Infinite.run (as.map X.fin) (bs.map X.fin) (X.fin c) (finOps ops) = some s ∧ s.value = X.fin y ∧ |y| ≤ K * B)
    ↔ Spec.PolesInside bs c := by
  refine ⟨fun ⟨K, hK⟩ z hz h0 => ?_, C181_stable ha hb⟩
  obtain ⟨xs, s, y, hx, hs, hv, hy⟩ := C181_unstable (ε := ε) ha hb hc hz h0 (hcop z hz h0) K
  obtain ⟨s', y', hs', hv', hy'⟩ := hK (xs.map .push) 1 zero_le_one (by rw [sinceClear_pushes]; exact hx)
  rw [hs] at hs'
  cases hs'
  rw [hv, X.fin_inj] at hv'
  subst hv'
  rw [mul_one] at hy'
  exact absurd ((le_abs_self y).trans hy') (not_le.2 hy)

/-! ### Non-vacuity -/

/-- `y_n = 1.2 y_{n-1} - 0.72 y_{n-2} + x_n` has the poles `0.6 (1 ± i)` of size 0.85; the sum of the sizes of the coefficients is 1.92, so that
the criterion of C88 does not apply. -/
theorem polesInside_example : Spec.PolesInside [-6 / 5, 18 / 25] 1 := by
  intro z hz h0
  have e : Spec.polyAt [1, -6 / 5, 18 / 25] z = 18 / 25 * (z - (5 / 6) * (1 + Complex.I)) * (z - (5 / 6) * (1 - Complex.I)) := by
    simp [Spec.polyAt, Finset.sum_range_succ]
    linear_combination (1 / 2 : ℂ) * Complex.I_sq
  rw [e] at h0
  have hn : ∀ σ : ℝ, σ ^ 2 = 1 → z ≠ (5 / 6) * (1 + σ * Complex.I) := by
    rintro σ hσ rfl
    have : ‖(5 / 6 : ℂ) * (1 + σ * Complex.I)‖ ^ 2 = 25 / 18 := by
      rw [← Complex.normSq_eq_norm_sq, Complex.normSq_apply]
      simp
      nlinarith
    nlinarith [norm_nonneg ((5 / 6 : ℂ) * (1 + σ * Complex.I))]
  rcases mul_eq_zero.1 h0 with h | h
  · rcases mul_eq_zero.1 h with h | h
    · norm_num at h
    · refine hn 1 (by norm_num) ?_
      rw [sub_eq_zero.1 h]; push_cast; ring
  · refine hn (-1) (by norm_num) ?_
    rw [sub_eq_zero.1 h]; push_cast; ring

example : ∃ K : ℝ, ∀ (ops : List (Op ℝ)) (B : ℝ), 0 ≤ B → (∀ x ∈ sinceClear ops, |x| ≤ B) →
    ∃ (s : Impulse.Infinite (E ε)) (y : ℝ),
      Impulse.Infinite.run ([1].map X.fin) ([-6 / 5, 18 / 25].map X.fin) (X.fin 1) (finOps ops) = some s ∧ s.value = X.fin y ∧ |y| ≤ K * B :=
  C181_stable (by simp) (by simp) polesInside_example

/-- The sum of all values, `y_n = y_{n-1} + x_n`, has the pole 1. -/
example (M : ℝ) : ∃ (xs : List ℝ) (s : Impulse.Infinite (E ε)) (y : ℝ), (∀ x ∈ xs, |x| ≤ 1)
    ∧ Impulse.Infinite.run ([1].map X.fin) ([-1].map X.fin) (X.fin 1) (finOps (xs.map .push)) = some s ∧ s.value = X.fin y ∧ M < y :=
  C181_unstable (by simp) (by simp) one_ne_zero (z := 1) (by simp) (by simp [Spec.polyAt, Finset.sum_range_succ])
    (by simp [Spec.polyAt]) M

end Verif.Props
