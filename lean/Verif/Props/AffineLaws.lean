import Verif.Proofs.Decay
import Verif.Proofs.Interim
import Verif.Props.CumulativeLaws
import Verif.Props.CumulativePairs
import Verif.Props.Decay
import Verif.Props.Interim
import Verif.Props.Window
/-
C89: change of units, `x ↦ a x + b` and `y ↦ c y + d`, for the window, decaying and interim filters and for
the filters on pairs.
-/
namespace Verif.Props
open Scalar Exact

variable {w N W : Nat} {ε : ℝ}

/-- Every pair `(x, y)` replaced by `(a x + b, c y + d)`. -/
def affine2 (a b c d : ℝ) (ops : List (Op (ℝ × ℝ))) : List (Op (ℝ × ℝ)) :=
  ops.map (Op.map fun p => (a * p.1 + b, c * p.2 + d))

theorem sinceClear_affine2 (a b c d : ℝ) (ops : List (Op (ℝ × ℝ))) :
    sinceClear (affine2 a b c d ops) = (sinceClear ops).map fun p => (a * p.1 + b, c * p.2 + d) :=
  sinceClear_map _ _

theorem xsOf_affine2 (a b c d : ℝ) (ps : List (ℝ × ℝ)) :
    Spec.xsOf (ps.map fun p => (a * p.1 + b, c * p.2 + d)) = (Spec.xsOf ps).map fun x => a * x + b := by
  simp [Spec.xsOf, Function.comp_def]

theorem ysOf_affine2 (a b c d : ℝ) (ps : List (ℝ × ℝ)) :
    Spec.ysOf (ps.map fun p => (a * p.1 + b, c * p.2 + d)) = (Spec.ysOf ps).map fun y => c * y + d := by
  simp [Spec.ysOf, Function.comp_def]

theorem cosum_affine2 (a b c d : ℝ) (ps : List (ℝ × ℝ)) :
    Spec.cosum (ps.map fun p => (a * p.1 + b, c * p.2 + d)) = a * c * Spec.cosum ps := by
  rcases eq_or_ne ps [] with rfl | hne
  · simp [Spec.cosum]
  · have hx : Spec.xsOf ps ≠ [] := by simpa [Spec.xsOf] using hne
    have hy : Spec.ysOf ps ≠ [] := by simpa [Spec.ysOf] using hne
    rw [Spec.cosum, Spec.cosum, xsOf_affine2, ysOf_affine2, mean_affine a b hx, mean_affine c d hy, List.map_map,
      ← List.sum_map_mul_left]
    congr 1
    apply List.map_congr_left
    intro p _
    simp only [Function.comp_def]; ring

theorem variance_affine (a b : ℝ) (xs : List ℝ) :
    Spec.variance (xs.map fun x => a * x + b) = a ^ 2 * Spec.variance xs := by
  rw [Spec.variance, Spec.variance, central_affine, List.length_map, mul_div_assoc]

theorem covariance_affine2 (a b c d : ℝ) (ps : List (ℝ × ℝ)) :
    Spec.covariance (ps.map fun p => (a * p.1 + b, c * p.2 + d)) = a * c * Spec.covariance ps := by
  rw [Spec.covariance, Spec.covariance, cosum_affine2, List.length_map, mul_div_assoc]

theorem lastN_ne_nil {β : Type} {l : List β} (hN : 1 ≤ N) (h : l ≠ []) : Spec.lastN N l ≠ [] := by
  have := List.length_pos_iff.2 h
  apply List.length_pos_iff.1; rw [Spec.length_lastN]; omega

/-! ### Window -/

open Window in
/-- C89: the window filter. -/
theorem C89_window (hN : 1 ≤ N) (a b : ℝ) (ops : List (Op ℝ)) (hne : sinceClear ops ≠ []) :
    ∃ (s t : Variance N (E ε)) (m v : ℝ), Variance.run (finOps ops) = some s
      ∧ Variance.run (finOps (affine a b ops)) = some t
      ∧ s.getMean = X.fin m ∧ s.variance = X.fin v
      ∧ t.getMean = X.fin (a * m + b) ∧ t.variance = X.fin (a ^ 2 * v) := by
  have hl := lastN_ne_nil (N := N) hN hne
  have gen : ∀ ops : List (Op ℝ), sinceClear ops ≠ [] → ∃ s : Variance N (E ε), Variance.run (finOps ops) = some s
      ∧ s.getMean = X.fin (Spec.mean (Spec.lastN N (sinceClear ops)))
      ∧ s.variance = X.fin (Spec.variance (Spec.lastN N (sinceClear ops))) := by
    intro ops hne
    obtain ⟨s, hs, hv, -⟩ := C19_window_variance (ε := ε) hN ops
    obtain ⟨s', m, hs', hm, hg, -⟩ := C18_window_mean_inherited (N := N) hN (finOps ops : List (Op (E ε)))
    rw [hs] at hs'; cases hs'
    obtain ⟨m', hm', hgm⟩ := C18_window_mean (ε := ε) hN ops
    rw [hm] at hm'; cases hm'
    exact ⟨s, hs, hg.trans hgm, hv (List.length_pos_iff.2 (lastN_ne_nil hN hne))⟩
  obtain ⟨s, hs, h1, h2⟩ := gen ops hne
  obtain ⟨t, ht, h3, h4⟩ := gen (affine a b ops) (by rw [sinceClear_affine]; simpa using hne)
  rw [sinceClear_affine, Spec.lastN_map] at h3 h4
  rw [mean_affine a b hl] at h3
  rw [variance_affine] at h4
  exact ⟨s, t, _, _, hs, ht, h1, h2, h3, h4⟩

/-! ### Decay -/

theorem ewSum_affine (f a b : ℝ) (xs : List ℝ) :
    Spec.ewSum f (xs.map fun x => a * x + b) = a * Spec.ewSum f xs + b * (1 - (1 - f) ^ xs.length) := by
  induction xs using List.reverseRecOn with
  | nil => simp
  | append_singleton xs x ih =>
    rw [List.map_append, List.map_singleton, Spec.ewSum_snoc, Spec.ewSum_snoc, ih, List.length_append,
      List.length_singleton, pow_succ]
    ring

theorem ewSum_smul (f a : ℝ) (xs : List ℝ) : Spec.ewSum f (xs.map fun x => a * x) = a * Spec.ewSum f xs := by
  have := ewSum_affine f a 0 xs
  simpa using this

theorem ewMean_affine {f : ℝ} (h0 : 0 < f) (h1 : f ≤ 1) (a b : ℝ) {xs : List ℝ} (hne : xs ≠ []) :
    Spec.ewMean f (xs.map fun x => a * x + b) = a * Spec.ewMean f xs + b := by
  have hn : xs.length ≠ 0 := by simpa using hne
  have hp := (Spec.norm_pos h0 h1 hn).ne'
  rw [Spec.ewMean, Spec.ewMean, ewSum_affine, List.length_map, add_div, mul_div_assoc, mul_div_assoc, div_self hp,
    mul_one]

theorem ewDevs_affine {f : ℝ} (h0 : 0 < f) (h1 : f ≤ 1) (a b : ℝ) (xs : List ℝ) :
    Spec.ewDevs f (xs.map fun x => a * x + b) = (Spec.ewDevs f xs).map fun x => a * x := by
  induction xs using List.reverseRecOn with
  | nil => simp
  | append_singleton xs x ih =>
    have := ewMean_affine h0 h1 a b (xs := xs ++ [x]) (by simp)
    rw [List.map_append, List.map_singleton] at this
    rw [List.map_append, List.map_singleton, Spec.ewDevs_snoc, Spec.ewDevs_snoc, ih, this, List.map_append,
      List.map_singleton]
    congr 2; ring

theorem ewSum_devs_pow (f g : ℝ) (h0 : 0 < f) (h1 : f ≤ 1) (a b : ℝ) (k : ℕ) (xs : List ℝ) :
    Spec.ewSum g ((Spec.ewDevs f (xs.map fun x => a * x + b)).map (· ^ k))
      = a ^ k * Spec.ewSum g ((Spec.ewDevs f xs).map (· ^ k)) := by
  rw [ewDevs_affine h0 h1, ← ewSum_smul, List.map_map, List.map_map]
  congr 1
  apply List.map_congr_left
  intro x _
  simp only [Function.comp_def]; rw [mul_pow]

open Decay in
theorem pushCount_map {β γ : Type} (f : β → γ) (ops : List (Op β)) : pushCount (ops.map (Op.map f)) = pushCount ops := by
  induction ops with
  | nil => rfl
  | cons op ops ih => cases op <;> simp [pushCount, Op.map, ih]

open Decay in
/-- C89: the decaying mean and variance, for every history. -/
theorem C89_decay {f g : ℝ} (hf : 0 < f ∧ f ≤ 1) (hg : 0 < g ∧ g ≤ 1) (a b : ℝ) (ops : List (Op ℝ))
    (hne : sinceClear ops ≠ []) :
    ∃ m v : ℝ, (Variance.run (X.fin f) (X.fin g) (finOps ops) : Variance (E ε)).mean = X.fin m
      ∧ (Variance.run (X.fin f) (X.fin g) (finOps ops) : Variance (E ε)).variance = X.fin v
      ∧ (Variance.run (X.fin f) (X.fin g) (finOps (affine a b ops)) : Variance (E ε)).mean = X.fin (a * m + b)
      ∧ (Variance.run (X.fin f) (X.fin g) (finOps (affine a b ops)) : Variance (E ε)).variance = X.fin (a ^ 2 * v) := by
  refine ⟨Spec.ewMean f (sinceClear ops),
    Spec.ewSum g ((Spec.ewDevs f (sinceClear ops)).map (· ^ 2)) / (1 - (1 - g) ^ pushCount ops), ?_, ?_, ?_, ?_⟩
  · rw [Variance.run_fin hf.1 hf.2]; exact Mean.mean_of hf.1 hf.2 _
  · rw [Variance.run_fin hf.1 hf.2, Variance.variance_of hg.1 hg.2 (length_sinceClear_le _)]
  · rw [Variance.run_fin hf.1 hf.2, ← ewMean_affine hf.1 hf.2 a b hne, ← sinceClear_affine]
    exact Mean.mean_of hf.1 hf.2 _
  · have hp : pushCount (affine a b ops) = pushCount ops := pushCount_map _ _
    rw [Variance.run_fin hf.1 hf.2, Variance.variance_of hg.1 hg.2 (length_sinceClear_le _), sinceClear_affine,
      ewSum_devs_pow f g hf.1 hf.2, hp, mul_div_assoc]

open Decay in
/-- C89: decaying skewness and kurtosis do not change, as long as the variances before and after the change
are above the cut-off (histories as in C26). -/
theorem C89_decay_shape (hε : 0 ≤ ε) {f g h i : ℝ} (hf : 0 < f ∧ f ≤ 1) (hg : 0 < g ∧ g ≤ 1)
    (hh : 0 < h ∧ h ≤ 1) (hi : 0 < i ∧ i ≤ 1) {a : ℝ} (ha : 0 < a) (b : ℝ) (ops : List (Op ℝ))
    (hops : pushCount ops = (sinceClear ops).length)
    (hcut : ε < Spec_decayVariance f g (sinceClear ops)) (hcut' : ε < a ^ 2 * Spec_decayVariance f g (sinceClear ops)) :
    let s : Kurtosis (E ε) := Kurtosis.run (X.fin f) (X.fin g) (X.fin h) (X.fin i) (finOps ops)
    let t : Kurtosis (E ε) := Kurtosis.run (X.fin f) (X.fin g) (X.fin h) (X.fin i) (finOps (affine a b ops))
    t.skewness = s.skewness ∧ t.kurtosis = s.kurtosis := by
  intro s t
  have hp : pushCount (affine a b ops) = pushCount ops := pushCount_map _ _
  obtain ⟨-, -, s3, s4⟩ := C26_decay_moments_partial hε hf hg hh hi ops hops
  obtain ⟨-, -, t3, t4⟩ := C26_decay_moments_partial hε hf hg hh hi (affine a b ops)
    (by rw [hp, hops, sinceClear_affine, List.length_map])
  have hew : ∀ (g : ℝ) (k : ℕ) (xs : List ℝ), Spec.ewMean g ((Spec.ewDevs f (xs.map fun x => a * x + b)).map (· ^ k))
      = a ^ k * Spec.ewMean g ((Spec.ewDevs f xs).map (· ^ k)) := by
    intro g k xs
    rw [Spec.ewMean, Spec.ewMean, ewSum_devs_pow f g hf.1 hf.2]
    simp only [List.length_map, Spec.length_ewDevs, mul_div_assoc]
  have hv : Spec_decayVariance f g (sinceClear (affine a b ops)) = a ^ 2 * Spec_decayVariance f g (sinceClear ops) := by
    rw [Spec_decayVariance, sinceClear_affine, hew]; rfl
  have hsq : Real.sqrt (a ^ 2 * Spec_decayVariance f g (sinceClear ops))
      = a * Real.sqrt (Spec_decayVariance f g (sinceClear ops)) := by
    rw [Real.sqrt_mul (sq_nonneg a), Real.sqrt_sq ha.le]
  rw [hv, if_pos hcut', sinceClear_affine, hew] at t3 t4
  rw [if_pos hcut] at s3 s4
  have ha3 : (a : ℝ) ^ 3 ≠ 0 := by positivity
  have ha4 : (a : ℝ) ^ 4 ≠ 0 := by positivity
  constructor
  · rw [show s.skewness = _ from s3, show t.skewness = _ from t3, hsq, mul_pow, mul_div_mul_left _ _ ha3]
  · rw [show s.kurtosis = _ from s4, show t.kurtosis = _ from t4, mul_pow, ← pow_mul, mul_div_mul_left _ _ ha4]

/-! ### Interim -/

open Interim Cumulative in
/-- C89: the interim filter. -/
theorem C89_interim (hW : 1 ≤ W) (hw : W * W < 2 ^ w) (hw2 : 2 * W < 2 ^ w) (a b : ℝ) (ops : List (Op ℝ))
    (hne : sinceClear ops ≠ []) :
    ∃ m v : ℝ, IVariance.mean (Interim.run (finOps ops) : IVariance w W (E ε)) = X.fin m
      ∧ IVariance.variance (Interim.run (finOps ops) : IVariance w W (E ε)) = X.fin v
      ∧ IVariance.mean (Interim.run (finOps (affine a b ops)) : IVariance w W (E ε)) = X.fin (a * m + b)
      ∧ IVariance.variance (Interim.run (finOps (affine a b ops)) : IVariance w W (E ε)) = X.fin (a ^ 2 * v) := by
  have hne' : sinceClear (affine a b ops) ≠ [] := by rw [sinceClear_affine]; simpa using hne
  refine ⟨_, _, (C29_interim_mean (ε := ε) hW hw2 ops).2.1, (C30_interim_variance (ε := ε) hW hw ops hne).1, ?_, ?_⟩
  · rw [(C29_interim_mean (ε := ε) hW hw2 _).2.1, X.fin_inj, sinceClear_affine]
    have hcne : Spec.curBlock W (sinceClear ops) ≠ [] := fun h => hne ((Spec.curBlock_eq_nil hW _).1 h)
    rw [Spec_interimMean, Spec_interimMean, Spec.curBlock_map, Spec.prevBlock_map, List.length_map, List.length_map,
      mean_affine a b hcne]
    split_ifs with hn
    · exact mean_affine a b hne
    · have hpne : Spec.prevBlock W (sinceClear ops) ≠ [] := fun h => hn ((Spec.prevBlock_eq_nil hW _).1 h)
      rw [mean_affine a b hpne]
      have hc0 : (0 : ℝ) < (Spec.curBlock W (sinceClear ops)).length := by
        exact_mod_cast List.length_pos_iff.2 hcne
      have hcW : ((Spec.curBlock W (sinceClear ops)).length : ℝ) ≤ W := by
        exact_mod_cast Spec.length_curBlock_le hW _
      have hd : (W - ((Spec.curBlock W (sinceClear ops)).length : ℝ))
          + 2 * ((Spec.curBlock W (sinceClear ops)).length : ℝ) ≠ 0 := by linarith
      have hb : ∀ p q x y : ℝ, p + q ≠ 0 →
          Spec.blend p q (a * x + b) (a * y + b) = a * Spec.blend p q x y + b := by
        intro p q x y h
        rw [Spec.blend, Spec.blend]; field_simp; ring
      exact hb _ _ _ _ hd
  · rw [(C30_interim_variance (ε := ε) hW hw _ hne').1, X.fin_inj, sinceClear_affine]
    rw [Spec_interimVariance, Spec_interimVariance, Spec.curBlock_map, Spec.prevBlock_map, List.length_map, List.length_map,
      variance_affine, variance_affine, variance_affine]
    split_ifs
    · rfl
    · rw [Spec.blend, Spec.blend, ← mul_div_assoc]; congr 1; ring

/-! ### Pairs -/

open Cumulative in
/-- C89: covariance, slope and line. -/
theorem C89_pairs {a : ℝ} (ha : a ≠ 0) (b c d : ℝ) (ops : List (Op (ℝ × ℝ))) (h : (sinceClear ops).length < 2 ^ w)
    (h1 : 1 ≤ (sinceClear ops).length) :
    (∃ v : ℝ, (Comoment.run (finOps2 ops) : Comoment w (E ε)).variance = X.fin v
      ∧ (Comoment.run (finOps2 (affine2 a b c d ops)) : Comoment w (E ε)).variance = X.fin (a * c * v))
    ∧ (∃ (k : ℝ) (f : ℝ → ℝ), (Regression.run (finOps2 ops) : Regression w (E ε)).slope = X.fin k
      ∧ (∀ x : ℝ, (Regression.run (finOps2 ops) : Regression w (E ε)).at' (X.fin x) = X.fin (f x))
      ∧ (Regression.run (finOps2 (affine2 a b c d ops)) : Regression w (E ε)).slope = X.fin (c / a * k)
      ∧ ∀ x : ℝ, (Regression.run (finOps2 (affine2 a b c d ops)) : Regression w (E ε)).at' (X.fin (a * x + b))
          = X.fin (c * f x + d)) := by
  have e := sinceClear_affine2 a b c d ops
  have h' : (sinceClear (affine2 a b c d ops)).length < 2 ^ w := by rw [e, List.length_map]; exact h
  have h1' : 1 ≤ (sinceClear (affine2 a b c d ops)).length := by rw [e, List.length_map]; exact h1
  have hne : sinceClear ops ≠ [] := List.length_pos_iff.1 h1
  have hx : Spec.xsOf (sinceClear ops) ≠ [] := by simpa [Spec.xsOf] using hne
  have hy : Spec.ysOf (sinceClear ops) ≠ [] := by simpa [Spec.ysOf] using hne
  constructor
  · refine ⟨_, (C09_covariance ops h).2.2.1 h1, ?_⟩
    rw [(C09_covariance _ h').2.2.1 h1', e, covariance_affine2]
  · obtain ⟨hs, hat⟩ := regression_result (ε := ε) ops h h1
    obtain ⟨hs', hat'⟩ := regression_result (ε := ε) _ h' h1'
    rw [e, xsOf_affine2, central_affine, cosum_affine2] at hs'
    rw [e, xsOf_affine2, ysOf_affine2, central_affine, cosum_affine2] at hat'
    rw [mean_affine a b hx, mean_affine c d hy] at hat'
    have key : (if a ^ 2 * Spec.central 2 (Spec.xsOf (sinceClear ops)) = 0 then 0
          else a * c * Spec.cosum (sinceClear ops) / (a ^ 2 * Spec.central 2 (Spec.xsOf (sinceClear ops))))
        = c / a * (if Spec.central 2 (Spec.xsOf (sinceClear ops)) = 0 then 0
          else Spec.cosum (sinceClear ops) / Spec.central 2 (Spec.xsOf (sinceClear ops))) := by
      by_cases h0 : Spec.central 2 (Spec.xsOf (sinceClear ops)) = 0
      · rw [h0]; simp
      · rw [if_neg h0, if_neg (mul_ne_zero (pow_ne_zero 2 ha) h0)]
        field_simp
    rw [key] at hs' hat'
    refine ⟨_, _, hs, hat, hs', fun x => ?_⟩
    rw [hat', X.fin_inj]
    field_simp; ring

open Window in
/-- C89: the filters on pairs with a window. -/
theorem C89_window_pairs (hN : 1 ≤ N) {a : ℝ} (ha : a ≠ 0) (b c d : ℝ) (ops : List (Op (ℝ × ℝ)))
    (hne : sinceClear ops ≠ []) :
    (∃ (s t : Comoment N (E ε)) (v : ℝ), Comoment.run (finOps2 ops) = some s
      ∧ Comoment.run (finOps2 (affine2 a b c d ops)) = some t
      ∧ s.variance = X.fin v ∧ t.variance = X.fin (a * c * v))
    ∧ (∃ (s t : Regression N (E ε)) (k : ℝ) (f : ℝ → ℝ), Regression.run (finOps2 ops) = some s
      ∧ Regression.run (finOps2 (affine2 a b c d ops)) = some t
      ∧ s.slope = X.fin k ∧ (∀ x : ℝ, s.at' (X.fin x) = X.fin (f x))
      ∧ t.slope = X.fin (c / a * k) ∧ ∀ x : ℝ, t.at' (X.fin (a * x + b)) = X.fin (c * f x + d)) := by
  have e := sinceClear_affine2 a b c d ops
  have hne' : sinceClear (affine2 a b c d ops) ≠ [] := by rw [e]; simpa using hne
  have hl := lastN_ne_nil (N := N) hN hne
  have hl' := lastN_ne_nil (N := N) hN hne'
  have hx : Spec.xsOf (Spec.lastN N (sinceClear ops)) ≠ [] := by simpa [Spec.xsOf] using hl
  have hy : Spec.ysOf (Spec.lastN N (sinceClear ops)) ≠ [] := by simpa [Spec.ysOf] using hl
  constructor
  · obtain ⟨s, hs, -, hv, -⟩ := C20_window_covariance (ε := ε) hN ops
    obtain ⟨t, ht, -, hv', -⟩ := C20_window_covariance (ε := ε) hN (affine2 a b c d ops)
    refine ⟨s, t, _, hs, ht, hv (List.length_pos_iff.2 hl), ?_⟩
    rw [hv' (List.length_pos_iff.2 hl'), e, Spec.lastN_map, covariance_affine2]
  · obtain ⟨s, hs, -, hk, hat⟩ := window_regression_result (ε := ε) hN ops hne
    obtain ⟨t, ht, -, hk', hat'⟩ := window_regression_result (ε := ε) hN (affine2 a b c d ops) hne'
    rw [e, Spec.lastN_map, xsOf_affine2, ysOf_affine2, central_affine, cosum_affine2] at hat'
    rw [e, Spec.lastN_map, xsOf_affine2, central_affine, cosum_affine2] at hk'
    rw [mean_affine a b hx, mean_affine c d hy] at hat'
    generalize Spec.lastN N (sinceClear ops) = ps at *
    have key : (if a ^ 2 * Spec.central 2 (Spec.xsOf ps) = 0 then 0
          else a * c * Spec.cosum ps / (a ^ 2 * Spec.central 2 (Spec.xsOf ps)))
        = c / a * (if Spec.central 2 (Spec.xsOf ps) = 0 then 0
          else Spec.cosum ps / Spec.central 2 (Spec.xsOf ps)) := by
      by_cases h0 : Spec.central 2 (Spec.xsOf ps) = 0
      · rw [h0]; simp
      · rw [if_neg h0, if_neg (mul_ne_zero (pow_ne_zero 2 ha) h0)]
        field_simp
    rw [key] at hk' hat'
    refine ⟨s, t, _, _, hs, ht, hk, hat, hk', fun x => ?_⟩
    rw [hat', X.fin_inj]
    field_simp; ring

open Cumulative in
/-- C89: the correlation keeps its magnitude, and changes its sign if exactly one of the units is reversed;
above the cut-off before and after the change. -/
theorem C89_correlation (hε : 0 < ε) {a c : ℝ} (ha : a ≠ 0) (hc : c ≠ 0) (b d : ℝ) (ops : List (Op (ℝ × ℝ)))
    (h : (sinceClear ops).length < 2 ^ w) (h1 : 1 ≤ (sinceClear ops).length)
    (hcut : ε ≤ Spec.variance (Spec.xsOf (sinceClear ops)) * Spec.variance (Spec.ysOf (sinceClear ops)))
    (hcut' : ε ≤ a ^ 2 * c ^ 2 * (Spec.variance (Spec.xsOf (sinceClear ops)) * Spec.variance (Spec.ysOf (sinceClear ops)))) :
    ∃ r : ℝ, (Correlation.run (finOps2 ops) : Correlation w (E ε)).value = X.fin r
      ∧ (Correlation.run (finOps2 (affine2 a b c d ops)) : Correlation w (E ε)).value
        = X.fin (if 0 < a * c then r else -r) := by
  have e := sinceClear_affine2 a b c d ops
  have h' : (sinceClear (affine2 a b c d ops)).length < 2 ^ w := by rw [e, List.length_map]; exact h
  have h1' : 1 ≤ (sinceClear (affine2 a b c d ops)).length := by rw [e, List.length_map]; exact h1
  have hr := correlation_result hε ops h h1
  have hr' := correlation_result hε _ h' h1'
  simp only [e, xsOf_affine2, ysOf_affine2, variance_affine, covariance_affine2] at hr'
  simp only at hr
  generalize sinceClear ops = ps at *
  set P := Spec.variance (Spec.xsOf ps) * Spec.variance (Spec.ysOf ps) with hP
  have e2 : a ^ 2 * Spec.variance (Spec.xsOf ps) * (c ^ 2 * Spec.variance (Spec.ysOf ps)) = (a * c) ^ 2 * P := by
    rw [hP]; ring
  rw [e2, if_neg (not_lt.2 (by rw [mul_pow]; exact hcut')), Real.sqrt_mul (sq_nonneg _), Real.sqrt_sq_eq_abs] at hr'
  rw [if_neg (not_lt.2 hcut)] at hr
  refine ⟨_, hr, ?_⟩
  rw [hr', X.fin_inj]
  have hac : a * c ≠ 0 := mul_ne_zero ha hc
  split_ifs with hs
  · rw [abs_of_pos hs, mul_div_mul_left _ _ hac]
  · rw [abs_of_neg (lt_of_le_of_ne (not_lt.1 hs) hac), neg_mul, div_neg, mul_div_mul_left _ _ hac]

example : ∃ (s t : Window.Variance 2 (E ε)) (m v : ℝ),
    Window.Variance.run (finOps [.push 1, .push 2, .push 6]) = some s
      ∧ Window.Variance.run (finOps (affine 3 1 [.push 1, .push 2, .push 6])) = some t
      ∧ s.getMean = X.fin m ∧ s.variance = X.fin v
      ∧ t.getMean = X.fin (3 * m + 1) ∧ t.variance = X.fin (3 ^ 2 * v) :=
  C89_window (by norm_num) 3 1 _ (by simp [sinceClear])

end Verif.Props
