import Verif.Props.AffineLaws
import Verif.Props.Relations
/-
C178: superposition.  The filters fed with `a x + b y`, compared with the filters fed with `x` and with `y`.
-/
namespace Verif.Props
open Scalar Exact

variable {w N W : Nat} {ε : ℝ}

/-- Every pair `(x, y)` replaced by `a x + b y`. -/
def combine (a b : ℝ) (ops : List (Op (ℝ × ℝ))) : List (Op ℝ) := ops.map (Op.map fun p => a * p.1 + b * p.2)

/-- The first and the second of each pair. -/
def firsts {β γ : Type} (ops : List (Op (β × γ))) : List (Op β) := ops.map (Op.map Prod.fst)
@[inherit_doc firsts] def seconds {β γ : Type} (ops : List (Op (β × γ))) : List (Op γ) := ops.map (Op.map Prod.snd)

theorem sinceClear_combine (a b : ℝ) (ops : List (Op (ℝ × ℝ))) :
    sinceClear (combine a b ops) = (sinceClear ops).map fun p => a * p.1 + b * p.2 := sinceClear_map _ _
theorem sinceClear_firsts {β γ : Type} (ops : List (Op (β × γ))) : sinceClear (firsts ops) = (sinceClear ops).map Prod.fst :=
  sinceClear_map _ _
theorem sinceClear_seconds {β γ : Type} (ops : List (Op (β × γ))) : sinceClear (seconds ops) = (sinceClear ops).map Prod.snd :=
  sinceClear_map _ _

/-! ### Specification -/

/-- A functional on lists is linear. -/
def Linear (T : List ℝ → ℝ) : Prop := ∀ (a b : ℝ) (ps : List (ℝ × ℝ)),
  T (ps.map fun p => a * p.1 + b * p.2) = a * T (ps.map Prod.fst) + b * T (ps.map Prod.snd)

/-- `V` is a quadratic form, and `C` the bilinear form that belongs to it. -/
def Quadratic (V : List ℝ → ℝ) (C : List (ℝ × ℝ) → ℝ) : Prop := ∀ (a b : ℝ) (ps : List (ℝ × ℝ)),
  V (ps.map fun p => a * p.1 + b * p.2) = a ^ 2 * V (ps.map Prod.fst) + 2 * a * b * C ps + b ^ 2 * V (ps.map Prod.snd)

theorem linear_sum : Linear List.sum := by
  intro a b ps
  induction ps with
  | nil => simp
  | cons p ps ih => simp only [List.map_cons, List.sum_cons, ih]; ring

theorem linear_mean : Linear Spec.mean := by
  intro a b ps
  simp only [Spec.mean, linear_sum a b ps, List.length_map]
  ring

theorem quadratic_central : Quadratic (Spec.central 2) Spec.cosum := by
  intro a b ps
  have gen : ∀ (m n : ℝ) (ps : List (ℝ × ℝ)), (ps.map fun p => (a * p.1 + b * p.2 - (a * m + b * n)) ^ 2).sum
      = a ^ 2 * (ps.map fun p => (p.1 - m) ^ 2).sum + 2 * a * b * (ps.map fun p => (p.1 - m) * (p.2 - n)).sum
        + b ^ 2 * (ps.map fun p => (p.2 - n) ^ 2).sum := by
    intro m n ps
    induction ps with
    | nil => simp
    | cons p ps ih => simp only [List.map_cons, List.sum_cons, ih]; ring
  have := gen (Spec.mean (ps.map Prod.fst)) (Spec.mean (ps.map Prod.snd)) ps
  rw [← linear_mean a b ps] at this
  simpa [Spec.central, Spec.cosum, Spec.xsOf, Spec.ysOf, Function.comp_def] using this

theorem quadratic_variance : Quadratic Spec.variance Spec.covariance := by
  intro a b ps
  simp only [Spec.variance, Spec.covariance, List.length_map, quadratic_central a b ps]
  ring

theorem linear_ewSum (f : ℝ) : Linear (Spec.ewSum f) := by
  intro a b ps
  induction ps using List.reverseRecOn with
  | nil => simp
  | append_singleton ps p ih =>
    simp only [List.map_append, List.map_singleton, Spec.ewSum_snoc, ih]
    ring

theorem linear_ewMean (f : ℝ) : Linear (Spec.ewMean f) := by
  intro a b ps
  simp only [Spec.ewMean, linear_ewSum f a b ps, List.length_map]
  ring

theorem linear_runningMeans : Linear fun xs => Spec.mean (Spec.runningMeans xs) := by
  intro a b ps
  have h : ∀ (u : ℝ × ℝ → ℝ), Spec.runningMeans (ps.map u) = (List.range ps.length).map fun k => Spec.mean ((ps.take (k + 1)).map u) := by
    intro u
    simp only [Spec.runningMeans, List.length_map, List.map_take]
  have := linear_mean a b ((List.range ps.length).map fun k =>
    (Spec.mean ((ps.take (k + 1)).map Prod.fst), Spec.mean ((ps.take (k + 1)).map Prod.snd)))
  simp only [List.map_map, Function.comp_def] at this
  simp only [h, linear_mean a b]
  exact this

theorem linear_lastN {T : List ℝ → ℝ} (h : Linear T) (N : ℕ) : Linear fun xs => T (Spec.lastN N xs) := by
  intro a b ps
  simp only [Spec.lastN_map]
  exact h a b _

theorem quadratic_lastN {V : List ℝ → ℝ} {C : List (ℝ × ℝ) → ℝ} (h : Quadratic V C) (N : ℕ) :
    Quadratic (fun xs => V (Spec.lastN N xs)) fun ps => C (Spec.lastN N ps) := by
  intro a b ps
  simp only [Spec.lastN_map]
  exact h a b _

theorem linear_interim (W : ℕ) : Linear (Spec_interimMean W) := by
  intro a b ps
  simp only [Spec_interimMean, Spec.curBlock_map, Spec.prevBlock_map, List.length_map, linear_mean a b, Spec.blend]
  split_ifs
  · rfl
  · ring

theorem quadratic_interim (W : ℕ) :
    Quadratic (Spec_interimVariance W Spec.variance) (Spec_interimVariance W Spec.covariance) := by
  intro a b ps
  simp only [Spec_interimVariance, Spec.curBlock_map, Spec.prevBlock_map, List.length_map, quadratic_variance a b, Spec.blend]
  split_ifs
  · rfl
  · ring

/-- The decaying deviations are linear, so that the decaying sum of their squares is a quadratic form. -/
theorem quadratic_decay (f g : ℝ) : Quadratic (fun xs => Spec.ewSum g ((Spec.ewDevs f xs).map (· ^ 2)))
    fun ps => Spec.ewSum g (((Spec.ewDevs f (ps.map Prod.fst)).zip (Spec.ewDevs f (ps.map Prod.snd))).map fun d => d.1 * d.2) := by
  intro a b ps
  induction ps using List.reverseRecOn with
  | nil => simp [Spec.ewDevs]
  | append_singleton ps p ih =>
    have hm := linear_ewMean f a b (ps ++ [p])
    simp only [List.map_append, List.map_singleton] at hm
    have hl : (Spec.ewDevs f (ps.map Prod.fst)).length = (Spec.ewDevs f (ps.map Prod.snd)).length := by
      simp [Spec.length_ewDevs]
    simp only [List.map_append, List.map_singleton, Spec.ewDevs_snoc, Spec.ewSum_snoc, List.zip_append hl, List.zip_cons_cons,
      List.zip_nil_right, hm]
    simp only [] at ih
    rw [ih]
    ring

/-! ### Mean -/

open Cumulative in
/-- C178: the cumulative mean. -/
theorem C178_mean (ops : List (Op (ℝ × ℝ))) (h : (sinceClear ops).length < 2 ^ w) :
    ∃ x y : ℝ, (Mean.run (finOps (firsts ops)) : Mean w (E ε)).getMean = X.fin x
      ∧ (Mean.run (finOps (seconds ops)) : Mean w (E ε)).getMean = X.fin y
      ∧ ∀ a b : ℝ, (Mean.run (finOps (combine a b ops)) : Mean w (E ε)).getMean = X.fin (a * x + b * y) := by
  refine ⟨_, _, (C01_mean _ (by rw [sinceClear_firsts, List.length_map]; exact h)).1,
    (C01_mean _ (by rw [sinceClear_seconds, List.length_map]; exact h)).1, fun a b => ?_⟩
  rw [(C01_mean _ (by rw [sinceClear_combine, List.length_map]; exact h)).1, sinceClear_combine, sinceClear_firsts, sinceClear_seconds,
    linear_mean a b]

open Cumulative in
/-- C178: the trend. -/
theorem C178_trend (ops : List (Op (ℝ × ℝ))) (h : (sinceClear ops).length < 2 ^ w) :
    ∃ x y : ℝ, (Trend.run (finOps (firsts ops)) : Trend w (E ε)).value = X.fin x
      ∧ (Trend.run (finOps (seconds ops)) : Trend w (E ε)).value = X.fin y
      ∧ ∀ a b : ℝ, (Trend.run (finOps (combine a b ops)) : Trend w (E ε)).value = X.fin (a * x + b * y) := by
  refine ⟨_, _, (C14_trend _ (by rw [sinceClear_firsts, List.length_map]; exact h)).1,
    (C14_trend _ (by rw [sinceClear_seconds, List.length_map]; exact h)).1, fun a b => ?_⟩
  have := linear_runningMeans a b (sinceClear ops)
  dsimp only at this
  rw [(C14_trend _ (by rw [sinceClear_combine, List.length_map]; exact h)).1, sinceClear_combine, sinceClear_firsts, sinceClear_seconds,
    linear_mean a b, this, X.fin_inj]
  ring

open Decay in
/-- C178: the decaying mean, for every history. -/
theorem C178_decay_mean {f : ℝ} (h0 : 0 < f) (h1 : f ≤ 1) (ops : List (Op (ℝ × ℝ))) :
    ∃ x y : ℝ, (Mean.run (X.fin f) (finOps (firsts ops)) : Mean (E ε)).mean = X.fin x
      ∧ (Mean.run (X.fin f) (finOps (seconds ops)) : Mean (E ε)).mean = X.fin y
      ∧ ∀ a b : ℝ, (Mean.run (X.fin f) (finOps (combine a b ops)) : Mean (E ε)).mean = X.fin (a * x + b * y) := by
  have gen : ∀ l : List (Op ℝ), (Mean.run (X.fin f) (finOps l) : Mean (E ε)).mean = X.fin (Spec.ewMean f (sinceClear l)) := by
    intro l
    rw [Mean.run_fin]
    exact Mean.mean_of h0 h1 _
  refine ⟨_, _, gen _, gen _, fun a b => ?_⟩
  rw [gen, sinceClear_combine, sinceClear_firsts, sinceClear_seconds, linear_ewMean f a b]

open Window in
/-- C178: the mean of a window. -/
theorem C178_window_mean (hN : 1 ≤ N) (ops : List (Op (ℝ × ℝ))) :
    ∃ (s t : Mean N (E ε)) (x y : ℝ), Mean.run (finOps (firsts ops)) = some s ∧ Mean.run (finOps (seconds ops)) = some t
      ∧ s.getMean = X.fin x ∧ t.getMean = X.fin y
      ∧ ∀ a b : ℝ, ∃ u : Mean N (E ε), Mean.run (finOps (combine a b ops)) = some u ∧ u.getMean = X.fin (a * x + b * y) := by
  obtain ⟨s, hs, hx⟩ := C18_window_mean (ε := ε) hN (firsts ops)
  obtain ⟨t, ht, hy⟩ := C18_window_mean (ε := ε) hN (seconds ops)
  refine ⟨s, t, _, _, hs, ht, hx, hy, fun a b => ?_⟩
  obtain ⟨u, hu, hz⟩ := C18_window_mean (ε := ε) hN (combine a b ops)
  refine ⟨u, hu, ?_⟩
  have := linear_lastN linear_mean N a b (sinceClear ops)
  dsimp only at this
  rw [hz, sinceClear_combine, sinceClear_firsts, sinceClear_seconds, this]

open Interim in
/-- C178: the interim mean. -/
theorem C178_interim_mean (hW : 1 ≤ W) (hw : 2 * W < 2 ^ w) (ops : List (Op (ℝ × ℝ))) :
    ∃ x y : ℝ, IMean.mean (Interim.run (finOps (firsts ops)) : IMean w W (E ε)) = X.fin x
      ∧ IMean.mean (Interim.run (finOps (seconds ops)) : IMean w W (E ε)) = X.fin y
      ∧ ∀ a b : ℝ, IMean.mean (Interim.run (finOps (combine a b ops)) : IMean w W (E ε)) = X.fin (a * x + b * y) := by
  refine ⟨_, _, (C29_interim_mean hW hw _).1, (C29_interim_mean hW hw _).1, fun a b => ?_⟩
  rw [(C29_interim_mean hW hw _).1, sinceClear_combine, sinceClear_firsts, sinceClear_seconds, linear_interim W a b]

/-! ### Variance -/

open Cumulative in
/-- C178: variance and covariance. -/
theorem C178_variance (ops : List (Op (ℝ × ℝ))) (h : (sinceClear ops).length < 2 ^ w) (h1 : 1 ≤ (sinceClear ops).length) :
    ∃ x y c : ℝ, (Variance.run (finOps (firsts ops)) : Variance w (E ε)).variance = X.fin x
      ∧ (Variance.run (finOps (seconds ops)) : Variance w (E ε)).variance = X.fin y
      ∧ (Comoment.run (finOps2 ops) : Comoment w (E ε)).variance = X.fin c
      ∧ ∀ a b : ℝ, (Variance.run (finOps (combine a b ops)) : Variance w (E ε)).variance
          = X.fin (a ^ 2 * x + 2 * a * b * c + b ^ 2 * y) := by
  refine ⟨_, _, _, ((C02_variance _ (by rw [sinceClear_firsts, List.length_map]; exact h)).1 (by rw [sinceClear_firsts, List.length_map]; exact h1)).1,
    ((C02_variance _ (by rw [sinceClear_seconds, List.length_map]; exact h)).1 (by rw [sinceClear_seconds, List.length_map]; exact h1)).1,
    (C09_covariance ops h).2.2.1 h1, fun a b => ?_⟩
  rw [((C02_variance _ (by rw [sinceClear_combine, List.length_map]; exact h)).1 (by rw [sinceClear_combine, List.length_map]; exact h1)).1,
    sinceClear_combine, sinceClear_firsts, sinceClear_seconds, quadratic_variance a b]

open Window in
/-- C178: variance and covariance of a window. -/
theorem C178_window_variance (hN : 1 ≤ N) (ops : List (Op (ℝ × ℝ))) (hne : sinceClear ops ≠ []) :
    ∃ (s t : Variance N (E ε)) (z : Comoment N (E ε)) (x y c : ℝ), Variance.run (finOps (firsts ops)) = some s
      ∧ Variance.run (finOps (seconds ops)) = some t ∧ Comoment.run (finOps2 ops) = some z
      ∧ s.variance = X.fin x ∧ t.variance = X.fin y ∧ z.variance = X.fin c
      ∧ ∀ a b : ℝ, ∃ u : Variance N (E ε), Variance.run (finOps (combine a b ops)) = some u
          ∧ u.variance = X.fin (a ^ 2 * x + 2 * a * b * c + b ^ 2 * y) := by
  have hl := List.length_pos_iff.2 (lastN_ne_nil (N := N) hN hne)
  obtain ⟨s, hs, hx, -⟩ := C19_window_variance (ε := ε) hN (firsts ops)
  obtain ⟨t, ht, hy, -⟩ := C19_window_variance (ε := ε) hN (seconds ops)
  obtain ⟨z, hz, -, hc, -⟩ := C20_window_covariance (ε := ε) hN ops
  refine ⟨s, t, z, _, _, _, hs, ht, hz, hx ?_, hy ?_, hc hl, fun a b => ?_⟩
  · rw [sinceClear_firsts, Spec.lastN_map, List.length_map]; exact hl
  · rw [sinceClear_seconds, Spec.lastN_map, List.length_map]; exact hl
  obtain ⟨u, hu, hv, -⟩ := C19_window_variance (ε := ε) hN (combine a b ops)
  refine ⟨u, hu, ?_⟩
  have := quadratic_lastN quadratic_variance N a b (sinceClear ops)
  dsimp only at this
  rw [hv (by rw [sinceClear_combine, Spec.lastN_map, List.length_map]; exact hl), sinceClear_combine, sinceClear_firsts,
    sinceClear_seconds, this]

open Interim in
/-- C178: interim variance and covariance. -/
theorem C178_interim_variance (hW : 1 ≤ W) (hw : W * W < 2 ^ w) (ops : List (Op (ℝ × ℝ))) (hne : sinceClear ops ≠ []) :
    ∃ x y c : ℝ, IVariance.variance (Interim.run (finOps (firsts ops)) : IVariance w W (E ε)) = X.fin x
      ∧ IVariance.variance (Interim.run (finOps (seconds ops)) : IVariance w W (E ε)) = X.fin y
      ∧ IComoment.variance (Interim.run (finOps2 ops) : IComoment w W (E ε)) = X.fin c
      ∧ ∀ a b : ℝ, IVariance.variance (Interim.run (finOps (combine a b ops)) : IVariance w W (E ε))
          = X.fin (a ^ 2 * x + 2 * a * b * c + b ^ 2 * y) := by
  refine ⟨_, _, _, (C30_interim_variance hW hw _ ?_).1, (C30_interim_variance hW hw _ ?_).1, C31_interim_covariance hW hw ops hne,
    fun a b => ?_⟩
  · rw [sinceClear_firsts]; simpa using hne
  · rw [sinceClear_seconds]; simpa using hne
  rw [(C30_interim_variance hW hw _ (by rw [sinceClear_combine]; simpa using hne)).1, sinceClear_combine, sinceClear_firsts,
    sinceClear_seconds, quadratic_interim W a b]

open Decay in
/-- C178: the decaying variance is a quadratic form of the data, for every history. -/
theorem C178_decay_variance {f g : ℝ} (hf : 0 < f ∧ f ≤ 1) (hg : 0 < g ∧ g ≤ 1) (ops : List (Op (ℝ × ℝ))) :
    ∃ x y c : ℝ, (Variance.run (X.fin f) (X.fin g) (finOps (firsts ops)) : Variance (E ε)).variance = X.fin x
      ∧ (Variance.run (X.fin f) (X.fin g) (finOps (seconds ops)) : Variance (E ε)).variance = X.fin y
      ∧ ∀ a b : ℝ, (Variance.run (X.fin f) (X.fin g) (finOps (combine a b ops)) : Variance (E ε)).variance
          = X.fin (a ^ 2 * x + 2 * a * b * c + b ^ 2 * y) := by
  have gen : ∀ l : List (Op ℝ), (Variance.run (X.fin f) (X.fin g) (finOps l) : Variance (E ε)).variance
      = X.fin (Spec.ewSum g ((Spec.ewDevs f (sinceClear l)).map (· ^ 2)) / (1 - (1 - g) ^ pushCount l)) := by
    intro l
    rw [Variance.run_fin hf.1 hf.2, Variance.variance_of hg.1 hg.2 (length_sinceClear_le _)]
  refine ⟨_, _, Spec.ewSum g (((Spec.ewDevs f ((sinceClear ops).map Prod.fst)).zip
    (Spec.ewDevs f ((sinceClear ops).map Prod.snd))).map fun d => d.1 * d.2) / (1 - (1 - g) ^ pushCount ops), gen _, gen _, fun a b => ?_⟩
  have := quadratic_decay f g a b (sinceClear ops)
  dsimp only at this
  have p1 : pushCount (combine a b ops) = pushCount ops := pushCount_map _ _
  have p2 : pushCount (firsts ops) = pushCount ops := pushCount_map _ _
  have p3 : pushCount (seconds ops) = pushCount ops := pushCount_map _ _
  rw [gen, sinceClear_combine, sinceClear_firsts, sinceClear_seconds, this, p1, p2, p3, X.fin_inj]
  ring

/-! ### Regression -/

/-- Every triple `(x, (y, z))` replaced by `(x, a y + b z)`. -/
def combine2 (a b : ℝ) (ops : List (Op (ℝ × ℝ × ℝ))) : List (Op (ℝ × ℝ)) :=
  ops.map (Op.map fun p => (p.1, a * p.2.1 + b * p.2.2))

theorem sinceClear_combine2 (a b : ℝ) (ops : List (Op (ℝ × ℝ × ℝ))) :
    sinceClear (combine2 a b ops) = (sinceClear ops).map fun p => (p.1, a * p.2.1 + b * p.2.2) := sinceClear_map _ _

theorem mean_triples (a b : ℝ) (ts : List (ℝ × ℝ × ℝ)) : Spec.mean (ts.map fun p => a * p.2.1 + b * p.2.2)
    = a * Spec.mean (ts.map fun p => p.2.1) + b * Spec.mean (ts.map fun p => p.2.2) := by
  have := linear_mean a b (ts.map Prod.snd)
  simpa [Function.comp_def] using this

theorem cosum_triples (a b : ℝ) (ts : List (ℝ × ℝ × ℝ)) : Spec.cosum (ts.map fun p => (p.1, a * p.2.1 + b * p.2.2))
    = a * Spec.cosum (ts.map fun p => (p.1, p.2.1)) + b * Spec.cosum (ts.map fun p => (p.1, p.2.2)) := by
  have gen : ∀ (m n k : ℝ) (ts : List (ℝ × ℝ × ℝ)), (ts.map fun p => (p.1 - m) * (a * p.2.1 + b * p.2.2 - (a * n + b * k))).sum
      = a * (ts.map fun p => (p.1 - m) * (p.2.1 - n)).sum + b * (ts.map fun p => (p.1 - m) * (p.2.2 - k)).sum := by
    intro m n k ts
    induction ts with
    | nil => simp
    | cons p ps ih => simp only [List.map_cons, List.sum_cons, ih]; ring
  have := gen (Spec.mean (ts.map Prod.fst)) (Spec.mean (ts.map fun p => p.2.1)) (Spec.mean (ts.map fun p => p.2.2)) ts
  rw [← mean_triples] at this
  simpa [Spec.cosum, Spec.xsOf, Spec.ysOf, Function.comp_def] using this

open Cumulative in
/-- C178: covariance, slope and line are linear in the second variable.  `c`, `k`, `f` belong to `y` (a = 1, b = 0)
and `d`, `l`, `g` to `z`. -/
theorem C178_regression (ops : List (Op (ℝ × ℝ × ℝ))) (h : (sinceClear ops).length < 2 ^ w) (h1 : 1 ≤ (sinceClear ops).length) :
    ∃ (c d k l : ℝ) (f g : ℝ → ℝ), ∀ a b : ℝ,
      (Comoment.run (finOps2 (combine2 a b ops)) : Comoment w (E ε)).variance = X.fin (a * c + b * d)
      ∧ (Regression.run (finOps2 (combine2 a b ops)) : Regression w (E ε)).slope = X.fin (a * k + b * l)
      ∧ ∀ x : ℝ, (Regression.run (finOps2 (combine2 a b ops)) : Regression w (E ε)).at' (X.fin x) = X.fin (a * f x + b * g x) := by
  set ts := sinceClear ops with hts
  refine ⟨Spec.cosum (ts.map fun p => (p.1, p.2.1)) / ts.length, Spec.cosum (ts.map fun p => (p.1, p.2.2)) / ts.length,
    if Spec.central 2 (ts.map Prod.fst) = 0 then 0 else Spec.cosum (ts.map fun p => (p.1, p.2.1)) / Spec.central 2 (ts.map Prod.fst),
    if Spec.central 2 (ts.map Prod.fst) = 0 then 0 else Spec.cosum (ts.map fun p => (p.1, p.2.2)) / Spec.central 2 (ts.map Prod.fst),
    fun x => Spec.mean (ts.map fun p => p.2.1) - (if Spec.central 2 (ts.map Prod.fst) = 0 then 0 else
      Spec.cosum (ts.map fun p => (p.1, p.2.1)) / Spec.central 2 (ts.map Prod.fst)) * (Spec.mean (ts.map Prod.fst) - x),
    fun x => Spec.mean (ts.map fun p => p.2.2) - (if Spec.central 2 (ts.map Prod.fst) = 0 then 0 else
      Spec.cosum (ts.map fun p => (p.1, p.2.2)) / Spec.central 2 (ts.map Prod.fst)) * (Spec.mean (ts.map Prod.fst) - x), fun a b => ?_⟩
  have e := sinceClear_combine2 a b ops
  have h' : (sinceClear (combine2 a b ops)).length < 2 ^ w := by rw [e, List.length_map]; exact h
  have h1' : 1 ≤ (sinceClear (combine2 a b ops)).length := by rw [e, List.length_map]; exact h1
  have hc := (C09_covariance (ε := ε) _ h').2.2.1 h1'
  obtain ⟨hs, hat⟩ := regression_result (ε := ε) _ h' h1'
  have ex : Spec.xsOf (ts.map fun p => (p.1, a * p.2.1 + b * p.2.2)) = ts.map Prod.fst := by simp [Spec.xsOf, Function.comp_def]
  have ey : Spec.ysOf (ts.map fun p => (p.1, a * p.2.1 + b * p.2.2)) = ts.map fun p => a * p.2.1 + b * p.2.2 := by
    simp [Spec.ysOf, Function.comp_def]
  rw [e, ← hts] at hc hs hat
  rw [ex, cosum_triples] at hs
  simp only [ex, ey, cosum_triples, mean_triples] at hat
  refine ⟨?_, ?_, fun x => ?_⟩
  · rw [hc, Spec.covariance, cosum_triples, List.length_map, X.fin_inj]; ring
  · rw [hs, X.fin_inj]; split_ifs <;> ring
  · rw [hat, X.fin_inj]; split_ifs <;> ring

open Window in
/-- C178: covariance, slope and line of a window. -/
theorem C178_window_regression (hN : 1 ≤ N) (ops : List (Op (ℝ × ℝ × ℝ))) (hne : sinceClear ops ≠ []) :
    ∃ (c d k l : ℝ) (f g : ℝ → ℝ), ∀ a b : ℝ, ∃ (s : Comoment N (E ε)) (t : Regression N (E ε)),
      Comoment.run (finOps2 (combine2 a b ops)) = some s ∧ Regression.run (finOps2 (combine2 a b ops)) = some t
      ∧ s.variance = X.fin (a * c + b * d) ∧ t.slope = X.fin (a * k + b * l)
      ∧ ∀ x : ℝ, t.at' (X.fin x) = X.fin (a * f x + b * g x) := by
  set ts := Spec.lastN N (sinceClear ops) with hts
  refine ⟨Spec.cosum (ts.map fun p => (p.1, p.2.1)) / ts.length, Spec.cosum (ts.map fun p => (p.1, p.2.2)) / ts.length,
    if Spec.central 2 (ts.map Prod.fst) = 0 then 0 else Spec.cosum (ts.map fun p => (p.1, p.2.1)) / Spec.central 2 (ts.map Prod.fst),
    if Spec.central 2 (ts.map Prod.fst) = 0 then 0 else Spec.cosum (ts.map fun p => (p.1, p.2.2)) / Spec.central 2 (ts.map Prod.fst),
    fun x => Spec.mean (ts.map fun p => p.2.1) - (if Spec.central 2 (ts.map Prod.fst) = 0 then 0 else
      Spec.cosum (ts.map fun p => (p.1, p.2.1)) / Spec.central 2 (ts.map Prod.fst)) * (Spec.mean (ts.map Prod.fst) - x),
    fun x => Spec.mean (ts.map fun p => p.2.2) - (if Spec.central 2 (ts.map Prod.fst) = 0 then 0 else
      Spec.cosum (ts.map fun p => (p.1, p.2.2)) / Spec.central 2 (ts.map Prod.fst)) * (Spec.mean (ts.map Prod.fst) - x), fun a b => ?_⟩
  have e := sinceClear_combine2 a b ops
  have hne' : sinceClear (combine2 a b ops) ≠ [] := by rw [e]; simpa using hne
  obtain ⟨s, hs, -, hc, -⟩ := C20_window_covariance (ε := ε) hN (combine2 a b ops)
  obtain ⟨t, ht, -, hk, hat⟩ := window_regression_result (ε := ε) hN (combine2 a b ops) hne'
  replace hc := hc (List.length_pos_iff.2 (lastN_ne_nil hN hne'))
  have ex : Spec.xsOf (ts.map fun p => (p.1, a * p.2.1 + b * p.2.2)) = ts.map Prod.fst := by simp [Spec.xsOf, Function.comp_def]
  have ey : Spec.ysOf (ts.map fun p => (p.1, a * p.2.1 + b * p.2.2)) = ts.map fun p => a * p.2.1 + b * p.2.2 := by
    simp [Spec.ysOf, Function.comp_def]
  rw [e, Spec.lastN_map, ← hts] at hc hk hat
  rw [ex, cosum_triples] at hk
  simp only [ex, ey, cosum_triples, mean_triples] at hat
  refine ⟨s, t, hs, ht, ?_, ?_, fun x => ?_⟩
  · rw [hc, Spec.covariance, cosum_triples, List.length_map, X.fin_inj]; ring
  · rw [hk, X.fin_inj]; split_ifs <;> ring
  · rw [hat, X.fin_inj]; split_ifs <;> ring

open Interim in
/-- C178: interim covariance and slope. -/
theorem C178_interim_slope (hW : 1 ≤ W) (hw : W * W < 2 ^ w) (ops : List (Op (ℝ × ℝ × ℝ))) (hne : sinceClear ops ≠ []) :
    ∃ c d k l : ℝ, ∀ a b : ℝ,
      IComoment.variance (Interim.run (finOps2 (combine2 a b ops)) : IComoment w W (E ε)) = X.fin (a * c + b * d)
      ∧ (Interim.Regression.run (finOps2 (combine2 a b ops)) : Interim.Regression w W (E ε)).slope = X.fin (a * k + b * l) := by
  set ts := sinceClear ops with hts
  set C := fun u : ℝ × ℝ × ℝ → ℝ × ℝ => Spec_interimVariance W Spec.covariance (ts.map u) with hC
  set V := Spec_interimVariance W Spec.variance (ts.map Prod.fst) with hV
  refine ⟨C fun p => (p.1, p.2.1), C fun p => (p.1, p.2.2), if V = 0 then 0 else C (fun p => (p.1, p.2.1)) / V,
    if V = 0 then 0 else C (fun p => (p.1, p.2.2)) / V, fun a b => ?_⟩
  have e := sinceClear_combine2 a b ops
  have hne' : sinceClear (combine2 a b ops) ≠ [] := by rw [e]; simpa using hne
  have hcov := C31_interim_covariance (w := w) (W := W) (ε := ε) hW hw _ hne'
  have hlin : Spec_interimVariance W Spec.covariance (sinceClear (combine2 a b ops))
      = a * C (fun p => (p.1, p.2.1)) + b * C fun p => (p.1, p.2.2) := by
    have hc : ∀ l : List (ℝ × ℝ × ℝ), Spec.covariance (l.map fun p => (p.1, a * p.2.1 + b * p.2.2))
        = a * Spec.covariance (l.map fun p => (p.1, p.2.1)) + b * Spec.covariance (l.map fun p => (p.1, p.2.2)) := by
      intro l
      simp only [Spec.covariance, cosum_triples, List.length_map]
      ring
    rw [e, hC]
    simp only [Spec_interimVariance, Spec.curBlock_map, Spec.prevBlock_map, List.length_map, hc, Spec.blend]
    split_ifs
    · rfl
    · ring
  rw [hlin] at hcov
  refine ⟨hcov, ?_⟩
  obtain ⟨r1, r2, -⟩ := regression_run (w := w) (W := W) (finOps2 (combine2 a b ops) : List (Op (E ε × E ε)))
  have hmap : (finOps2 (combine2 a b ops) : List (Op (E ε × E ε))).map (Op.map Prod.fst) = finOps (firsts ops) := by
    simp only [finOps, finOps2, combine2, firsts, List.map_map]
    refine List.map_congr_left fun op _ => ?_
    cases op <;> rfl
  have hvar := (C30_interim_variance (w := w) (W := W) (ε := ε) hW hw (firsts ops)
    (by rw [sinceClear_firsts]; simpa using hne)).1
  rw [sinceClear_firsts] at hvar
  rw [Interim.Regression.slope]
  simp only [r1, r2, hmap, hcov, hvar, Exact.ofNat_eq, beq_fin, Nat.cast_zero, decide_eq_true_eq, ← hts, ← hV]
  split_ifs with h0
  · simp
  · rw [div_fin _ h0, X.fin_inj]; ring

/-! ### Examples -/

/-- x = 1, 2, 6 and y = 2, 3, 1: mean and variance of 2 x - y. -/
example : (Cumulative.Variance.run (finOps (combine 2 (-1) demo2)) : Cumulative.Variance 64 (E ε)).variance = X.fin (74 / 3) := by
  obtain ⟨x, y, c, hx, hy, hc, h⟩ := C178_variance (w := 64) (ε := ε) demo2 (by decide) (by decide)
  rw [h]
  have e := sinceClear_demo2
  rw [((C02_variance _ (by rw [sinceClear_firsts, e]; decide)).1 (by rw [sinceClear_firsts, e]; decide)).1, sinceClear_firsts, e,
    X.fin_inj] at hx
  rw [((C02_variance _ (by rw [sinceClear_seconds, e]; decide)).1 (by rw [sinceClear_seconds, e]; decide)).1, sinceClear_seconds, e,
    X.fin_inj] at hy
  rw [(C09_covariance demo2 (by rw [e]; decide)).2.2.1 (by rw [e]; decide), e, X.fin_inj] at hc
  rw [← hx, ← hy, ← hc, X.fin_inj]
  simp [Spec.variance, Spec.central, Spec.covariance, Spec.cosum, Spec.mean, Spec.xsOf, Spec.ysOf]
  norm_num

end Verif.Props
