import Mathlib.Probability.Moments.SubGaussian
import Verif.Props.Unbiased
import Verif.Props.BiasCorrection
import Verif.Props.ErrorBound
/-
C159: probability of a large error.  Uncorrelated data: Chebyshev's inequality.  Independent data in an interval of length `R`:
Hoeffding's inequality, for every filter that is a weighted sum of its data, and for the variance.
-/
namespace Verif.Props
open MeasureTheory ProbabilityTheory Verif.Stochastic Exact
open scoped ENNReal NNReal

variable {ε : ℝ} {w N W : ℕ} {Ω : Type} {mΩ : MeasurableSpace Ω} {P : Measure Ω} [IsProbabilityMeasure P]

/-- The result `f` is a finite number, and the probability that it differs from `m` by `t` or more is at most `g t`. -/
def Tail {F : Fmt} (f : Ω → Option (X F)) (P : Measure Ω) (m : ℝ) (g : ℝ → ℝ) : Prop :=
  ∃ Y : Ω → ℝ, (∀ ω, f ω = some (X.fin (Y ω))) ∧ ∀ t, 0 < t → P.real {ω | t ≤ |Y ω - m|} ≤ g t

/-- Independent random values in `[lo, hi]` with expectation `m`. -/
structure IndependentIn (xs : List (Ω → ℝ)) (P : Measure Ω) (lo hi m : ℝ) : Prop where
  indep : iIndepFun (fun i : Fin xs.length => xs.get i) P
  meas : ∀ Y ∈ xs, AEMeasurable Y P
  range : ∀ Y ∈ xs, ∀ᵐ ω ∂P, Y ω ∈ Set.Icc lo hi
  mean : ∀ Y ∈ xs, ∫ ω, Y ω ∂P = m

omit [IsProbabilityMeasure P] in
theorem IndependentIn.sublist {xs ys : List (Ω → ℝ)} {lo hi m : ℝ} (h : IndependentIn xs P lo hi m) (hs : ys.Sublist xs) :
    IndependentIn ys P lo hi m := by
  refine ⟨?_, fun Y hY => h.meas Y (hs.subset hY), fun Y hY => h.range Y (hs.subset hY), fun Y hY => h.mean Y (hs.subset hY)⟩
  obtain ⟨f, hf⟩ := List.sublist_iff_exists_fin_orderEmbedding_get_eq.1 hs
  have := h.indep.precomp f.injective
  have e : (fun i : Fin ys.length => ys.get i) = (fun i => xs.get (f i)) := by funext i; exact hf i
  rw [e]; exact this

/-- Bound of Hoeffding. -/
noncomputable def hoeffding (R q t : ℝ) : ℝ := 2 * Real.exp (-(2 * t ^ 2) / (q * R ^ 2))

omit mΩ in
theorem lin_seen (cs : List ℝ) (xs : List (Ω → ℝ)) (ω : Ω) : lin cs (seen xs ω) = ∑ i : Fin xs.length, cs.getD i 0 * xs.get i ω := by
  induction xs generalizing cs with
  | nil => simp [seen]
  | cons y ys ih =>
    cases cs with
    | nil => simp
    | cons c cs =>
      have e : seen (y :: ys) ω = y ω :: seen ys ω := rfl
      rw [e, lin_cons, ih]
      simp only [List.length_cons]
      rw [Fin.sum_univ_succ]
      rfl

theorem sum_sq_eq_sum (cs : List ℝ) (n : ℕ) (h : cs.length = n) : (cs.map (· ^ 2)).sum = ∑ i : Fin n, cs.getD i 0 ^ 2 := by
  subst h
  rw [← List.sum_ofFn]
  congr 1
  apply List.ext_getElem
  · simp
  · intro i h1 h2; simp

/-- Hoeffding's inequality for a weighted sum. -/
theorem lin_tail (cs : List ℝ) {xs : List (Ω → ℝ)} {lo hi m : ℝ} (h : IndependentIn xs P lo hi m) (hl : cs.length = xs.length)
    {t : ℝ} (ht : 0 ≤ t) :
    P.real {ω | t ≤ |lin cs (seen xs ω) - m * cs.sum|} ≤ hoeffding (hi - lo) (cs.map (· ^ 2)).sum t := by
  have e : ∀ ω, lin cs (seen xs ω) - m * cs.sum = ∑ i : Fin xs.length, cs.getD i 0 * (xs.get i ω - P[xs.get i]) := by
    intro ω
    have h1 : m * cs.sum = ∑ i : Fin xs.length, cs.getD i 0 * m := by
      rw [← Finset.sum_mul, mul_comm, ← List.sum_ofFn]
      congr 2
      apply List.ext_getElem
      · simpa using hl
      · intro i a1 a2; simp [a1]
    rw [h1, lin_seen, ← Finset.sum_sub_distrib]
    refine Finset.sum_congr rfl fun i _ => ?_
    rw [h.mean _ (List.get_mem ..)]
    ring
  have hind : iIndepFun (fun (i : Fin xs.length) ω => cs.getD i 0 * (xs.get i ω - P[xs.get i])) P :=
    h.indep.comp (fun i x => cs.getD i 0 * (x - ∫ ω, xs.get i ω ∂P)) (fun i => by fun_prop)
  have hsub := HasSubgaussianMGF.sum_of_iIndepFun hind (s := Finset.univ)
    (c := fun i => Real.toNNReal (cs.getD i 0 ^ 2) * (‖hi - lo‖₊ / 2) ^ 2)
    fun i _ => by
      rw [Real.toNNReal_of_nonneg (sq_nonneg (cs.getD i 0))]
      exact (hasSubgaussianMGF_of_mem_Icc (h.meas _ (List.get_mem ..)) (h.range _ (List.get_mem ..))).const_mul _
  have hc : ((∑ i : Fin xs.length, Real.toNNReal (cs.getD i 0 ^ 2) * (‖hi - lo‖₊ / 2) ^ 2 : ℝ≥0) : ℝ)
      = (cs.map (· ^ 2)).sum * (hi - lo) ^ 2 / 4 := by
    rw [sum_sq_eq_sum cs _ hl, Finset.sum_mul, Finset.sum_div]
    rw [NNReal.coe_sum]
    refine Finset.sum_congr rfl fun i _ => ?_
    rw [NNReal.coe_mul, NNReal.coe_pow, NNReal.coe_div, coe_nnnorm, div_pow, Real.norm_eq_abs, sq_abs]
    rw [Real.coe_toNNReal _ (sq_nonneg _), NNReal.coe_ofNat]
    ring
  have hexp : Real.exp (-t ^ 2 / (2 * ((cs.map (· ^ 2)).sum * (hi - lo) ^ 2 / 4)))
      = Real.exp (-(2 * t ^ 2) / ((cs.map (· ^ 2)).sum * (hi - lo) ^ 2)) := by
    congr 1
    rw [show 2 * ((cs.map (· ^ 2)).sum * (hi - lo) ^ 2 / 4) = (cs.map (· ^ 2)).sum * (hi - lo) ^ 2 / 2 by ring, div_div_eq_mul_div]
    ring
  have b1 := hsub.measure_ge_le ht
  have b2 := hsub.neg.measure_ge_le ht
  rw [hc, hexp] at b1 b2
  calc P.real {ω | t ≤ |lin cs (seen xs ω) - m * cs.sum|}
      ≤ P.real ({ω | t ≤ ∑ i : Fin xs.length, cs.getD i 0 * (xs.get i ω - P[xs.get i])}
        ∪ {ω | t ≤ (-fun ω => ∑ i : Fin xs.length, cs.getD i 0 * (xs.get i ω - P[xs.get i])) ω}) := by
        refine measureReal_mono fun ω hω => ?_
        rw [Set.mem_ofPred_eq, e] at hω
        rcases le_abs.1 hω with h | h
        · exact Or.inl h
        · exact Or.inr h
    _ ≤ _ := measureReal_union_le ..
    _ ≤ _ := by rw [hoeffding, two_mul]; exact add_le_add b1 b2

/-- Hoeffding's inequality for the mean. -/
theorem mean_tail {xs : List (Ω → ℝ)} {lo hi m : ℝ} (h : IndependentIn xs P lo hi m) (hne : xs ≠ []) {t : ℝ} (ht : 0 ≤ t) :
    P.real {ω | t ≤ |Spec.mean (seen xs ω) - m|} ≤ 2 * Real.exp (-(2 * xs.length * t ^ 2) / (hi - lo) ^ 2) := by
  have hn : (xs.length : ℝ) ≠ 0 := by
    have := List.length_pos_iff.2 hne; positivity
  have := lin_tail (List.replicate xs.length (1 / xs.length : ℝ)) h (by simp) ht
  have h1 : m * (List.replicate xs.length (1 / xs.length : ℝ)).sum = m := by
    rw [List.sum_replicate, nsmul_eq_mul, mul_one_div_cancel hn, mul_one]
  have h2 : ((List.replicate xs.length (1 / xs.length : ℝ)).map (· ^ 2)).sum = (1 / xs.length : ℝ) := by
    rw [List.map_replicate, List.sum_replicate, nsmul_eq_mul]; field_simp
  rw [h1, h2, hoeffding] at this
  convert this using 3
  · funext ω; rw [mean_eq_lin, seen_length]
  · rw [one_div_mul_eq_div, div_div_eq_mul_div]; congr 1; ring

/-! ### The filters -/

section C159
variable {ops : List (Op (Ω → ℝ))} {m lo hi : ℝ}

/-- C159: whatever has expectation `m` and variance `v` (C127, C129) differs from `m` by `t` or more with probability at most `v / t²`. -/
theorem C159_chebyshev {f : Ω → Option (E ε)} {m v : ℝ} (h : HasMeanVar f P m v) : Tail f P m fun t => v / t ^ 2 := by
  obtain ⟨Y, h1, h2, h3, h4⟩ := h
  refine ⟨Y, h2, fun t ht => ?_⟩
  have := meas_ge_le_variance_div_sq h1 ht
  rw [h3, h4] at this
  refine ENNReal.toReal_le_of_le_ofReal ?_ this
  have : 0 ≤ v := by rw [← h4]; exact ProbabilityTheory.variance_nonneg ..
  positivity

/-- C159: cumulative mean of `n` independent values in an interval of length `R`: `2 exp(-2 n t² / R²)`. -/
theorem C159_mean (h : IndependentIn (sinceClear ops) P lo hi m) (hne : sinceClear ops ≠ []) (hw : (sinceClear ops).length < 2 ^ w) :
    Tail (fun ω => some (Cumulative.Mean.run (finOps (observed ops ω)) : Cumulative.Mean w (E ε)).getMean) P m
      fun t => 2 * Real.exp (-(2 * (sinceClear ops).length * t ^ 2) / (hi - lo) ^ 2) := by
  refine ⟨_, fun ω => ?_, fun t ht => mean_tail h hne ht.le⟩
  beta_reduce
  rw [(C01_mean (observed ops ω) (by rw [sinceClear_observed, seen_length]; exact hw)).1, sinceClear_observed]

/-- C159: window mean, `min(N, n)` values. -/
theorem C159_window (hN : 1 ≤ N) (h : IndependentIn (sinceClear ops) P lo hi m) (hne : sinceClear ops ≠ []) :
    Tail (fun ω => (Window.Mean.run (finOps (observed ops ω)) : Option (Window.Mean N (E ε))).map (·.getMean)) P m
      fun t => 2 * Real.exp (-(2 * (min N (sinceClear ops).length : ℕ) * t ^ 2) / (hi - lo) ^ 2) := by
  have hk : (Spec.lastN N (sinceClear ops)).length = min N (sinceClear ops).length := Spec.length_lastN ..
  have hne' : Spec.lastN N (sinceClear ops) ≠ [] := by
    have := List.length_pos_iff.2 hne
    exact List.length_pos_iff.1 (by omega)
  refine ⟨fun ω => Spec.mean (seen (Spec.lastN N (sinceClear ops)) ω), fun ω => ?_, fun t ht => ?_⟩
  rotate_left
  · have := mean_tail (h.sublist (lastN_sublist N _)) hne' ht.le
    rw [hk] at this
    exact this
  · beta_reduce
    obtain ⟨t, ht, hv⟩ := C18_window_mean (ε := ε) hN (observed ops ω)
    rw [ht, Option.map_some, hv, sinceClear_observed, lastN_seen]

/-- C159: decaying mean. -/
theorem C159_decay {f : ℝ} (h0 : 0 < f) (h1 : f ≤ 1) (h : IndependentIn (sinceClear ops) P lo hi m) (hne : sinceClear ops ≠ []) :
    Tail (fun ω => some (Decay.Mean.run (X.fin f) (finOps (observed ops ω)) : Decay.Mean (E ε)).mean) P m
      (hoeffding (hi - lo) (f / (2 - f) * ((1 + (1 - f) ^ (sinceClear ops).length) / (1 - (1 - f) ^ (sinceClear ops).length)))) := by
  obtain ⟨w1, w2⟩ := ew_weights h0 h1 (List.length_pos_iff.2 hne : 1 ≤ (sinceClear ops).length)
  refine ⟨fun ω => lin ((List.range (sinceClear ops).length).map
    fun i => f * (1 - f) ^ ((sinceClear ops).length - 1 - i) / (1 - (1 - f) ^ (sinceClear ops).length)) (seen (sinceClear ops) ω), fun ω => ?_, fun t ht => ?_⟩
  rotate_left
  · have := lin_tail ((List.range (sinceClear ops).length).map
      fun i => f * (1 - f) ^ ((sinceClear ops).length - 1 - i) / (1 - (1 - f) ^ (sinceClear ops).length)) h (by simp) ht.le
    rw [w1, w2, mul_one] at this
    exact this
  · beta_reduce
    rw [C25_decay_mean h0 h1, sinceClear_observed, ewMean_eq_lin, seen_length]

theorem lin_reverse (cs xs : List ℝ) (hl : cs.length = xs.length) : lin cs xs.reverse = lin cs.reverse xs := by
  rw [lin, lin, ← List.sum_reverse, List.reverse_zipWith (by simpa using hl), List.reverse_reverse]

/-- C159: FIR filter. -/
theorem C159_fir {cs : List ℝ} (hc : cs ≠ []) {xs : List (Ω → ℝ)} (h : IndependentIn xs P lo hi m) (hn : cs.length ≤ xs.length) :
    Tail (fun ω => (Impulse.Finite.run (cs.map X.fin) (finOps (observed (xs.map .push) ω)) : Option (Impulse.Finite (E ε))).map
        (·.value)) P (m * cs.sum) (hoeffding (hi - lo) (cs.map (· ^ 2)).sum) := by
  have hk : (Spec.lastN cs.length xs).length = cs.length := by rw [Spec.length_lastN]; omega
  have hne : xs ≠ [] := by rintro rfl; exact hc (List.length_eq_zero_iff.1 (by simpa using hn))
  refine ⟨fun ω => lin cs.reverse (seen (Spec.lastN cs.length xs) ω), fun ω => ?_, fun t ht => ?_⟩
  rotate_left
  · have := lin_tail cs.reverse (h.sublist (lastN_sublist cs.length xs)) (by simp [hk]) ht.le
    rw [List.sum_reverse, List.map_reverse, List.sum_reverse] at this
    exact this
  · obtain ⟨t, ht, hv⟩ := fir_pushes (ε := ε) hc (l := seen xs ω) (by simpa [seen] using hne)
    have e : observed (xs.map .push) ω = (seen xs ω).map .push := by simp [observed, seen, Op.map]
    beta_reduce
    rw [e, ht, Option.map_some, hv, Spec.fir, sum_getD_eq_lin, ← lin_reverse _ _ (by rw [seen_length, hk])]
    congr 2
    have e2 : (seen xs ω).reverse = (seen (Spec.lastN cs.length xs) ω).reverse ++ (seen (xs.take (xs.length - cs.length)) ω).reverse := by
      rw [← List.reverse_append]
      congr 1
      rw [seen, seen, seen, ← List.map_append]
      congr 1
      exact (List.take_append_drop _ _).symm
    rw [e2, ← List.append_nil cs, lin_append _ _ _ _ (by simp [hk])]
    simp

open Interim in
/-- C159: interim mean; `k` is the number of values in the current block. -/
theorem C159_interim (hW : 1 ≤ W) (hw : 2 * W < 2 ^ w) (h : IndependentIn (sinceClear ops) P lo hi m) (hne : sinceClear ops ≠ []) :
    let k : ℝ := (Spec.curBlock W (sinceClear ops)).length
    Tail (fun ω => some (IMean.mean (Interim.run (finOps (observed ops ω)) : IMean w W (E ε)))) P m
      (hoeffding (hi - lo) (if (sinceClear ops).length ≤ W then 1 / (sinceClear ops).length else ((W - k) ^ 2 / W + 4 * k) / (W + k) ^ 2)) := by
  intro k
  have hobs : ∀ ω, IMean.mean (Interim.run (finOps (observed ops ω)) : IMean w W (E ε))
      = X.fin (Spec_interimMean W (seen (sinceClear ops) ω)) := fun ω => by
    rw [(C29_interim_mean hW hw (observed ops ω)).1, sinceClear_observed]
  by_cases hle : (sinceClear ops).length ≤ W
  · rw [if_pos hle]
    refine ⟨_, fun ω => ?_, fun t ht => (mean_tail h hne ht.le).trans (le_of_eq ?_)⟩
    · beta_reduce
      rw [hobs, Spec_interimMean, seen_length, if_pos hle]
    · rw [hoeffding, one_div_mul_eq_div, div_div_eq_mul_div]
      congr 3; ring
  · rw [if_neg hle]
    set pb := Spec.prevBlock W (sinceClear ops) with hpb
    set cb := Spec.curBlock W (sinceClear ops) with hcb
    have hpl : pb.length = W := by rw [hpb, Spec.length_prevBlock hW, if_neg hle]
    have hcl : cb ≠ [] := fun e => hne ((Spec.curBlock_eq_nil hW _).1 e)
    have hk : 0 < k := by
      have := List.length_pos_iff.2 hcl
      simp only [k]; exact_mod_cast this
    have hWp : (0 : ℝ) < W := by exact_mod_cast hW
    have hsub : (pb ++ cb).Sublist (sinceClear ops) := by
      rw [hpb, hcb, Spec.blocks_suffix hW]; exact lastN_sublist ..
    refine ⟨fun ω => lin (List.replicate pb.length ((W - k) / (W + k) * (1 / pb.length : ℝ))
      ++ List.replicate cb.length (2 * k / (W + k) * (1 / cb.length : ℝ))) (seen (pb ++ cb) ω), fun ω => ?_, fun t ht => ?_⟩
    · beta_reduce
      have e1 : Spec.prevBlock W (seen (sinceClear ops) ω) = seen pb ω := Spec.prevBlock_map ..
      have e2 : Spec.curBlock W (seen (sinceClear ops) ω) = seen cb ω := Spec.curBlock_map ..
      rw [hobs, Spec_interimMean, seen_length, if_neg hle, e1, e2, Spec.blend,
        show seen (pb ++ cb) ω = seen pb ω ++ seen cb ω from List.map_append .., lin_append _ _ _ _ (by simp), lin_scale, lin_scale,
        seen_length, ← seen_length pb ω, ← seen_length cb ω, ← mean_eq_lin, ← mean_eq_lin, seen_length]
      congr 2
      change ((W - k) * _ + 2 * k * _) / (W - k + 2 * k) = _
      rw [show W - k + 2 * k = W + k by ring]
      ring
    · have := lin_tail (List.replicate pb.length ((W - k) / (W + k) * (1 / pb.length : ℝ))
        ++ List.replicate cb.length (2 * k / (W + k) * (1 / cb.length : ℝ))) (h.sublist hsub) (by simp) ht.le
      have es : m * (List.replicate pb.length ((W - k) / (W + k) * (1 / pb.length : ℝ))
          ++ List.replicate cb.length (2 * k / (W + k) * (1 / cb.length : ℝ))).sum = m := by
        rw [List.sum_append, List.sum_replicate, List.sum_replicate, nsmul_eq_mul, nsmul_eq_mul, hpl]
        change m * (W * ((W - k) / (W + k) * (1 / W)) + k * (2 * k / (W + k) * (1 / k))) = m
        field_simp
        ring
      rw [es] at this
      convert this using 2
      · rw [List.map_append, List.sum_append, List.map_replicate, List.map_replicate, List.sum_replicate, List.sum_replicate,
          nsmul_eq_mul, nsmul_eq_mul, hpl]
        change _ = W * ((W - k) / (W + k) * (1 / W)) ^ 2 + k * (2 * k / (W + k) * (1 / k)) ^ 2
        field_simp
        ring

/-! ### Variance -/

theorem IndependentIn.squares {xs : List (Ω → ℝ)} {s : ℝ} (h : IndependentIn xs P lo hi m) (hs : ∀ Y ∈ xs, Var[Y; P] = s) :
    IndependentIn (xs.map fun Y ω => (Y ω - m) ^ 2) P 0 ((hi - lo) ^ 2) s := by
  refine ⟨?_, ?_, ?_, ?_⟩
  · have h1 := h.indep.comp (fun _ x => (x - m) ^ 2) (fun _ => by fun_prop)
    have h2 := h1.precomp (g := Fin.cast (List.length_map (as := xs) (fun Y ω => (Y ω - m) ^ 2))) (Fin.cast_injective _)
    convert h2 using 2 with i
    funext ω
    simp
  · intro Z hZ
    obtain ⟨Y, hY, rfl⟩ := List.mem_map.1 hZ
    exact ((h.meas Y hY).sub_const m).pow_const 2
  · intro Z hZ
    obtain ⟨Y, hY, rfl⟩ := List.mem_map.1 hZ
    have hi' : Integrable Y P := Integrable.of_mem_Icc lo hi (h.meas Y hY) (h.range Y hY)
    have m1 : lo ≤ m := by
      rw [← h.mean Y hY]
      have := integral_mono_ae (integrable_const lo) hi' ((h.range Y hY).mono fun ω hω => hω.1)
      simpa using this
    have m2 : m ≤ hi := by
      rw [← h.mean Y hY]
      have := integral_mono_ae hi' (integrable_const hi) ((h.range Y hY).mono fun ω hω => hω.2)
      simpa using this
    filter_upwards [h.range Y hY] with ω hω
    refine ⟨sq_nonneg _, sq_le_sq' ?_ ?_⟩ <;> linarith [hω.1, hω.2]
  · intro Z hZ
    obtain ⟨Y, hY, rfl⟩ := List.mem_map.1 hZ
    rw [← hs Y hY, variance_eq_integral (h.meas Y hY), h.mean Y hY]

/-- Probability of a large error of the variance. -/
noncomputable def varianceTail (R : ℝ) (n : ℕ) (t : ℝ) : ℝ := 2 * Real.exp (-(n * t ^ 2) / (2 * R ^ 4)) + 2 * Real.exp (-(n * t) / R ^ 2)

theorem variance_tail {xs : List (Ω → ℝ)} {s : ℝ} (h : IndependentIn xs P lo hi m) (hs : ∀ Y ∈ xs, Var[Y; P] = s) (hne : xs ≠ [])
    {t : ℝ} (ht : 0 < t) : P.real {ω | t ≤ |Spec.variance (seen xs ω) - s|} ≤ varianceTail (hi - lo) xs.length t := by
  set ys : List (Ω → ℝ) := xs.map fun Y ω => (Y ω - m) ^ 2 with hys
  have hl : ys.length = xs.length := List.length_map ..
  have hyne : ys ≠ [] := by simpa [hys] using hne
  have hn : (xs.length : ℝ) ≠ 0 := by
    have := List.length_pos_iff.2 hne; positivity
  have b1 := mean_tail (h.squares hs) hyne (t := t / 2) (by positivity)
  have b2 := mean_tail h hne (t := √(t / 2)) (Real.sqrt_nonneg _)
  have e : ∀ ω, Spec.variance (seen xs ω) = Spec.mean (seen ys ω) - (Spec.mean (seen xs ω) - m) ^ 2 := by
    intro ω
    have hne' : seen xs ω ≠ [] := by simpa [seen] using hne
    have e1 : (seen ys ω).sum = Spec.about 2 m (seen xs ω) := by
      simp [seen, hys, Spec.about, Function.comp_def]
    have e2 : Spec.mean (seen ys ω) = (seen ys ω).sum / (seen ys ω).length := rfl
    rw [Spec.variance, central_two_about m hne', e2, e1, seen_length, seen_length, hl, sub_div, mul_div_cancel_left₀ _ hn]
  calc P.real {ω | t ≤ |Spec.variance (seen xs ω) - s|}
      ≤ P.real ({ω | t / 2 ≤ |Spec.mean (seen ys ω) - s|} ∪ {ω | √(t / 2) ≤ |Spec.mean (seen xs ω) - m|}) := by
        refine measureReal_mono fun ω hω => ?_
        rw [Set.mem_ofPred_eq, e] at hω
        by_contra hcon
        rw [Set.mem_union, not_or, Set.mem_ofPred_eq, Set.mem_ofPred_eq, not_le, not_le] at hcon
        have h2 : (Spec.mean (seen xs ω) - m) ^ 2 < t / 2 := by
          rw [← sq_abs]
          exact (Real.lt_sqrt (abs_nonneg _)).1 hcon.2
        have h3 : |Spec.mean (seen ys ω) - (Spec.mean (seen xs ω) - m) ^ 2 - s| < t := by
          have := abs_lt.1 hcon.1
          rw [abs_lt]
          constructor <;> nlinarith [sq_nonneg (Spec.mean (seen xs ω) - m), this.1, this.2]
        linarith
    _ ≤ _ := measureReal_union_le ..
    _ ≤ _ := add_le_add b1 b2
    _ = _ := by
      rw [varianceTail, hl, Real.sq_sqrt (by positivity)]
      congr 3
      · rw [sub_zero, show -(2 * (xs.length : ℝ) * (t / 2) ^ 2) = -(xs.length * t ^ 2) / 2 by ring, div_div, ← pow_mul]
      · congr 1; ring

/-- C159: cumulative variance. -/
theorem C159_variance {s : ℝ} (h : IndependentIn (sinceClear ops) P lo hi m) (hs : ∀ Y ∈ sinceClear ops, Var[Y; P] = s)
    (hne : sinceClear ops ≠ []) (hw : (sinceClear ops).length < 2 ^ w) :
    Tail (fun ω => some (Cumulative.Variance.run (finOps (observed ops ω)) : Cumulative.Variance w (E ε)).variance) P s
      (varianceTail (hi - lo) (sinceClear ops).length) := by
  have hl : ∀ ω, (sinceClear (observed ops ω)).length = (sinceClear ops).length := fun ω => by rw [sinceClear_observed, seen_length]
  refine ⟨fun ω => Spec.variance (seen (sinceClear ops) ω), fun ω => ?_, fun t ht => variance_tail h hs hne ht⟩
  beta_reduce
  rw [((C02_variance (observed ops ω) (by rw [hl]; exact hw)).1 (by rw [hl]; exact List.length_pos_iff.2 hne)).1, sinceClear_observed]

/-- C159: window variance. -/
theorem C159_window_variance {s : ℝ} (hN : 1 ≤ N) (h : IndependentIn (sinceClear ops) P lo hi m) (hs : ∀ Y ∈ sinceClear ops, Var[Y; P] = s)
    (hne : sinceClear ops ≠ []) :
    Tail (fun ω => (Window.Variance.run (finOps (observed ops ω)) : Option (Window.Variance N (E ε))).map (·.variance)) P s
      (varianceTail (hi - lo) (min N (sinceClear ops).length)) := by
  have hk : (Spec.lastN N (sinceClear ops)).length = min N (sinceClear ops).length := Spec.length_lastN ..
  have hpos := List.length_pos_iff.2 hne
  have hne' : Spec.lastN N (sinceClear ops) ≠ [] := List.length_pos_iff.1 (by omega)
  refine ⟨fun ω => Spec.variance (seen (Spec.lastN N (sinceClear ops)) ω), fun ω => ?_, fun t ht => ?_⟩
  · beta_reduce
    obtain ⟨t, ht, hv, -⟩ := C19_window_variance (ε := ε) hN (observed ops ω)
    simp only [sinceClear_observed, lastN_seen, seen_length, hk] at hv
    rw [ht, Option.map_some, hv (by omega)]
  · rw [← hk]
    exact variance_tail (h.sublist (lastN_sublist N _)) (fun Y hY => hs Y ((lastN_sublist N _).subset hY)) hne' ht

/-! ### With rounding -/

/-- C159: the mean in a floating-point format; to the deviation `t` the rounding error of C61 is added. -/
theorem C159_mean_rounded {F : Fmt} {p : ℕ} {emin : ℤ} {u η B : ℝ} (hF : F.Binary p emin) (hE : F.Err u η)
    (h : IndependentIn (sinceClear ops) P lo hi m) (hne : sinceClear ops ≠ [])
    (hd : ∀ ω, F.Data p emin (seen (sinceClear ops) ω)) (hB : ∀ ω, ∀ x ∈ seen (sinceClear ops) ω, |x| ≤ B)
    (hw : (sinceClear ops).length < 2 ^ w) (hp : (sinceClear ops).length ≤ 2 ^ p) (hfit : F.fits ((sinceClear ops).length : ℝ)) :
    ∃ Y : Ω → ℝ, (∀ ω, (Cumulative.Mean.run (finOps (observed ops ω)) : Cumulative.Mean w (X F)).getMean = X.fin (Y ω))
      ∧ ∀ t, 0 < t → P.real {ω | t + ((((sinceClear ops).length + 1) / 2 + 5) * (u * B) + (3 * ((sinceClear ops).length + 1) / 2 + 2) * η) ≤ |Y ω - m|}
        ≤ 2 * Real.exp (-(2 * (sinceClear ops).length * t ^ 2) / (hi - lo) ^ 2) := by
  have hl : ∀ ω, (sinceClear (observed ops ω)).length = (sinceClear ops).length := fun ω => by rw [sinceClear_observed, seen_length]
  have key := fun ω => C61_mean_error (w := w) hF hE (observed ops ω) (by rw [sinceClear_observed]; exact hd ω)
    (by rw [sinceClear_observed]; simpa [seen] using hne) (by rw [hl]; exact hw) (by rw [hl]; exact hp) (by rw [hl]; exact hfit)
    (B := B) (by rw [sinceClear_observed]; exact hB ω)
  choose Y hY hYe using key
  refine ⟨Y, hY, fun t ht => le_trans (measureReal_mono fun ω hω => ?_) (mean_tail h hne ht.le)⟩
  have a := hYe ω
  rw [hl, sinceClear_observed] at a
  rw [Set.mem_ofPred_eq] at hω ⊢
  have := abs_sub_le (Y ω) (Spec.mean (seen (sinceClear ops) ω)) m
  linarith

end C159

/-! ### Example -/

/-- Independent throws of a coin with the sides 1 (probability 1/4) and 5. -/
theorem coin_independent (n : ℕ) : ∃ (P : Measure (ℕ → ℝ)) (_ : IsProbabilityMeasure P),
    IndependentIn (firstN (fun i (ω : ℕ → ℝ) => ω i) n) P 1 5 4 ∧ ∀ Y ∈ firstN (fun i (ω : ℕ → ℝ) => ω i) n, Var[Y; P] = 3 := by
  have h0 : (0 : ℝ) ≤ 1 / 4 := by norm_num
  have h1 : (1 / 4 : ℝ) ≤ 1 := by norm_num
  have hp := coin_prob (a := (1 : ℝ)) (b := 5) h0 h1
  have hm := coin_moments (a := 1) (b := 5) h0 h1 2
  have h2 := eval_memLp (coin (1 / 4) (1 : ℝ) 5) (coin_memLp h0 h1 measurable_id' 2)
  have hu := (iid_eval (coin (1 / 4) (1 : ℝ) 5)).uncorrelated h2 n
  have hc : ∀ᵐ x ∂(coin (1 / 4) (1 : ℝ) 5), x ∈ Set.Icc (1 : ℝ) 5 := by
    rw [coin, ae_add_measure_iff]
    constructor
    · refine Measure.ae_smul_measure ?_ _
      rw [ae_dirac_eq]; exact ⟨le_refl _, by norm_num⟩
    · refine Measure.ae_smul_measure ?_ _
      rw [ae_dirac_eq]; exact ⟨by norm_num, le_refl _⟩
  refine ⟨Measure.infinitePi fun _ : ℕ => coin (1 / 4) (1 : ℝ) 5, inferInstance, ⟨?_, ?_, ?_, ?_⟩, ?_⟩
  · have := (sample_eval (coin (1 / 4) (1 : ℝ) 5)).indep.precomp
      (g := fun i : Fin (firstN (fun i (ω : ℕ → ℝ) => ω i) n).length => (i : ℕ)) Fin.val_injective
    convert this using 2 with i
    funext ω
    have e : (firstN (fun i (ω : ℕ → ℝ) => ω i) n)[(i : ℕ)]'i.2 = fun ω => ω i := by simp [firstN]
    exact congrFun e ω
  · intro Y hY
    obtain ⟨i, -, rfl⟩ := List.mem_map.1 hY
    exact (measurable_pi_apply i).aemeasurable
  · intro Y hY
    obtain ⟨i, -, rfl⟩ := List.mem_map.1 hY
    exact (measurePreserving_eval_infinitePi (fun _ : ℕ => coin (1 / 4) (1 : ℝ) 5) i).quasiMeasurePreserving.ae hc
  · intro Y hY
    rw [hu.2 Y hY, hm.1]; norm_num
  · intro Y hY
    rw [hu.1.var Y hY, variance_eq_integral h2.1.aemeasurable]
    refine hm.2.trans ?_
    norm_num

/-- The mean of 800 throws differs from 4 by 1 or more with probability at most `2 exp(-100)`. -/
example : ∃ (P : Measure (ℕ → ℝ)) (_ : IsProbabilityMeasure P) (ops : List (Op ((ℕ → ℝ) → ℝ))) (Y : (ℕ → ℝ) → ℝ),
    (∀ ω, (Cumulative.Mean.run (finOps (observed ops ω)) : Cumulative.Mean 64 (E ε)).getMean = X.fin (Y ω))
    ∧ P.real {ω | 1 ≤ |Y ω - 4|} ≤ 2 * Real.exp (-100) := by
  obtain ⟨P, hP, h, -⟩ := coin_independent 800
  have hs : sinceClear ((firstN (fun i (ω : ℕ → ℝ) => ω i) 800).map Op.push) = firstN (fun i (ω : ℕ → ℝ) => ω i) 800 := sinceClear_pushes _
  have hl : (firstN (fun i (ω : ℕ → ℝ) => ω i) 800).length = 800 := firstN_length ..
  obtain ⟨Y, hY, hT⟩ := C159_mean (ε := ε) (w := 64) (ops := (firstN (fun i (ω : ℕ → ℝ) => ω i) 800).map Op.push) (by rw [hs]; exact h)
    (by rw [hs]; intro e; rw [e] at hl; simp at hl) (by rw [hs, hl]; norm_num)
  refine ⟨P, hP, _, Y, fun ω => Option.some.inj (hY ω), (hT 1 one_pos).trans (le_of_eq ?_)⟩
  rw [hs, hl]
  norm_num

end Verif.Props
