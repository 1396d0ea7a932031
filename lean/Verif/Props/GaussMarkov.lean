import Verif.Props.Unbiased
/-
C130: the regression line is the best linear unbiased estimate.
-/
namespace Verif.Props
open MeasureTheory ProbabilityTheory Verif.Stochastic Exact

variable {ε : ℝ} {w : ℕ} {Ω : Type} {mΩ : MeasurableSpace Ω} {P : Measure Ω} [IsProbabilityMeasure P]

theorem lin_map (g h : ℝ → ℝ) (xs : List ℝ) : lin (xs.map g) (xs.map h) = (xs.map fun x => g x * h x).sum := by
  induction xs with
  | nil => simp
  | cons x xs ih => simp [ih]

theorem lin_affine (a b : ℝ) {cs xs : List ℝ} (hl : cs.length = xs.length) :
    lin cs (xs.map fun x => a + b * x) = a * cs.sum + b * lin cs xs := by
  induction cs generalizing xs with
  | nil => simp
  | cons c cs ih =>
    cases xs with
    | nil => simp at hl
    | cons x xs => rw [List.map_cons, lin_cons, lin_cons, ih (by simpa using hl), List.sum_cons]; ring

theorem lin_sq {cs ds : List ℝ} (hl : cs.length = ds.length) : 2 * lin cs ds ≤ (cs.map (· ^ 2)).sum + (ds.map (· ^ 2)).sum := by
  induction cs generalizing ds with
  | nil =>
    have : ds = [] := List.length_eq_zero_iff.1 hl.symm
    simp [this]
  | cons c cs ih =>
    cases ds with
    | nil => simp at hl
    | cons d ds =>
      have := ih (ds := ds) (by simpa using hl)
      simp only [lin_cons, List.map_cons, List.sum_cons]
      nlinarith [sq_nonneg (c - d)]

/-- Among all weights with the same sum and the same first moment those that are affine have the smallest sum of squares. -/
theorem affine_weights_min (a b : ℝ) {cs xs : List ℝ} (hl : cs.length = xs.length)
    (h0 : cs.sum = (xs.map fun x => a + b * x).sum) (h1 : lin cs xs = (xs.map fun x => (a + b * x) * x).sum) :
    (xs.map fun x => (a + b * x) ^ 2).sum ≤ (cs.map (· ^ 2)).sum := by
  have h := lin_sq (cs := cs) (ds := xs.map fun x => a + b * x) (by simpa using hl)
  rw [lin_affine a b hl, h0, h1, List.map_map] at h
  have e : a * (xs.map fun x => a + b * x).sum + b * (xs.map fun x => (a + b * x) * x).sum = (xs.map fun x => (a + b * x) ^ 2).sum := by
    rw [← List.sum_map_mul_left, ← List.sum_map_mul_left, ← List.sum_map_add]
    congr 2; funext x; ring
  rw [e] at h
  simp only [Function.comp_def] at h
  linarith

section sums
variable (xs : List ℝ)

theorem sum_dev (hne : xs ≠ []) : (xs.map fun x => x - Spec.mean xs).sum = 0 := by
  have hn : (xs.length : ℝ) ≠ 0 := by
    have := List.length_pos_iff.2 hne; positivity
  have := Spec.about_one (Spec.mean xs) xs
  simp only [Spec.about, pow_one] at this
  rw [this, Spec.mean]; field_simp; ring

theorem sum_dev_mul (hne : xs ≠ []) : (xs.map fun x => (x - Spec.mean xs) * x).sum = Spec.central 2 xs := by
  have e : (xs.map fun x => (x - Spec.mean xs) * x).sum
      = Spec.central 2 xs + (xs.map fun x => x - Spec.mean xs).sum * Spec.mean xs := by
    rw [Spec.central, ← List.sum_map_mul_right, ← List.sum_map_add]
    congr 2; funext x; ring
  rw [e, sum_dev xs hne]; ring

theorem sum_affine (a b : ℝ) : (xs.map fun x => a + b * x).sum = xs.length * a + b * xs.sum := by
  induction xs with
  | nil => simp
  | cons x xs ih => simp only [List.map_cons, List.sum_cons, ih, List.length_cons]; push_cast; ring

/-- The weights of the regression line at the position `t`: `1/n + (t - mean) (x - mean) / S`. -/
theorem line_weights (hne : xs ≠ []) (hS : Spec.central 2 xs ≠ 0) (p t : ℝ) :
    let g := fun x => p / xs.length + t * ((x - Spec.mean xs) / Spec.central 2 xs)
    (xs.map g).sum = p ∧ (xs.map fun x => g x * x).sum = p * Spec.mean xs + t
      ∧ (xs.map fun x => g x ^ 2).sum = p ^ 2 / xs.length + t ^ 2 / Spec.central 2 xs := by
  have hn : (xs.length : ℝ) ≠ 0 := by
    have := List.length_pos_iff.2 hne; positivity
  have h1 := sum_dev xs hne
  have h2 := sum_dev_mul xs hne
  have hc : ∀ c : ℝ, (xs.map fun _ => c).sum = xs.length * c := fun c => by simp
  intro g
  refine ⟨?_, ?_, ?_⟩
  · have e : (xs.map g).sum = (xs.map fun _ => p / (xs.length : ℝ)).sum + t / Spec.central 2 xs * (xs.map fun x => x - Spec.mean xs).sum := by
      rw [← List.sum_map_mul_left, ← List.sum_map_add]
      congr 2; funext x; simp only [g]; ring
    rw [e, h1, hc]; field_simp; ring
  · have e : (xs.map fun x => g x * x).sum = p / xs.length * xs.sum + t / Spec.central 2 xs * (xs.map fun x => (x - Spec.mean xs) * x).sum := by
      rw [← List.sum_map_mul_left, show xs.sum = (xs.map fun x => x).sum by simp, ← List.sum_map_mul_left, ← List.sum_map_add]
      congr 2; funext x; simp only [g]; ring
    rw [e, h2, Spec.mean]; field_simp
  · have e : (xs.map fun x => g x ^ 2).sum = (xs.map fun _ => (p / (xs.length : ℝ)) ^ 2).sum
        + 2 * p / xs.length * t / Spec.central 2 xs * (xs.map fun x => x - Spec.mean xs).sum
        + (t / Spec.central 2 xs) ^ 2 * Spec.central 2 xs := by
      conv_rhs => rw [show (t / Spec.central 2 xs) ^ 2 * Spec.central 2 xs
        = (t / Spec.central 2 xs) ^ 2 * (xs.map fun x => (x - Spec.mean xs) ^ 2).sum from rfl]
      rw [← List.sum_map_mul_left, ← List.sum_map_mul_left, ← List.sum_map_add, ← List.sum_map_add]
      congr 2; funext x; simp only [g]; ring
    rw [e, h1, hc]; field_simp; ring

end sums

/-- The calls in the case `ω`: known x-coordinates, random y-coordinates. -/
def observedY (ops : List (Op (ℝ × (Ω → ℝ)))) (ω : Ω) : List (Op (ℝ × ℝ)) := ops.map (Op.map fun p => (p.1, p.2 ω))

omit mΩ in
theorem observedY_parts (ops : List (Op (ℝ × (Ω → ℝ)))) (ω : Ω) :
    Spec.xsOf (sinceClear (observedY ops ω)) = (sinceClear ops).map Prod.fst
    ∧ Spec.ysOf (sinceClear (observedY ops ω)) = seen ((sinceClear ops).map Prod.snd) ω
    ∧ (sinceClear (observedY ops ω)).length = (sinceClear ops).length := by
  rw [observedY, sinceClear_map]
  simp [Spec.xsOf, Spec.ysOf, seen, Function.comp_def]

theorem cosum_lin {ps : List (ℝ × ℝ)} (hne : ps ≠ []) :
    Spec.cosum ps = lin ((Spec.xsOf ps).map fun x => x - Spec.mean (Spec.xsOf ps)) (Spec.ysOf ps) := by
  have e : ∀ (a b : ℝ) (qs : List (ℝ × ℝ)), (qs.map fun p => (p.1 - a) * (p.2 - b)).sum
      = lin ((Spec.xsOf qs).map fun x => x - a) (Spec.ysOf qs) - b * ((Spec.xsOf qs).map fun x => x - a).sum := by
    intro a b qs
    induction qs with
    | nil => simp [Spec.xsOf, Spec.ysOf]
    | cons q qs ih =>
      simp only [Spec.xsOf, Spec.ysOf, List.map_cons, List.sum_cons, lin_cons] at ih ⊢
      rw [ih]; ring
  rw [Spec.cosum, e, sum_dev _ (by simpa [Spec.xsOf] using hne)]; ring

theorem lin_add_weights (a b : ℝ) (f g : ℝ → ℝ) (xs ys : List ℝ) :
    lin (xs.map fun x => a * f x + b * g x) ys = a * lin (xs.map f) ys + b * lin (xs.map g) ys := by
  induction xs generalizing ys with
  | nil => simp
  | cons x xs ih =>
    cases ys with
    | nil => simp
    | cons y ys => simp only [List.map_cons, lin_cons, ih]; ring

/-- Slope (`p = 0`, `t = 1`) and line as linear combinations of the y-coordinates. -/
theorem line_lin {ps : List (ℝ × ℝ)} (hne : ps ≠ []) (p t : ℝ) :
    let xs := Spec.xsOf ps
    p * Spec.mean (Spec.ysOf ps) + t * (Spec.cosum ps / Spec.central 2 xs)
      = lin (xs.map fun x => p / xs.length + t * ((x - Spec.mean xs) / Spec.central 2 xs)) (Spec.ysOf ps) := by
  intro xs
  have e : (xs.map fun x => p / (xs.length : ℝ) + t * ((x - Spec.mean xs) / Spec.central 2 xs))
      = xs.map fun x => p * (1 / (xs.length : ℝ)) + t / Spec.central 2 xs * (x - Spec.mean xs) := by
    congr 1; funext x; ring
  rw [e, lin_add_weights p (t / Spec.central 2 xs) (fun _ => 1 / (xs.length : ℝ)) (fun x => x - Spec.mean xs), ← cosum_lin hne]
  have e2 : (xs.map fun _ => 1 / (xs.length : ℝ)) = List.replicate (Spec.ysOf ps).length (1 / ((Spec.ysOf ps).length : ℝ)) := by
    rw [List.map_const', Spec.length_ysOf, Spec.length_xsOf]
  rw [e2, ← mean_eq_lin]; ring

/-- C130: x-coordinates that are not all equal, uncorrelated y-coordinates with expectation `a + b x` and variance `s`. The slope has
expectation `b` and variance `s / S`, the line at `t` expectation `a + b t` and variance `s (1/n + (t - mean)^2 / S)`; no other linear
combination of the y-coordinates that has the right expectation for every line has a smaller variance. -/
theorem C130_gauss_markov {ops : List (Op (ℝ × (Ω → ℝ)))} {a b s : ℝ} (h : Uncorrelated ((sinceClear ops).map Prod.snd) P s)
    (hm : ∀ p ∈ sinceClear ops, ∫ ω, p.2 ω ∂P = a + b * p.1)
    (hS : Spec.central 2 ((sinceClear ops).map Prod.fst) ≠ 0) (hw : (sinceClear ops).length < 2 ^ w) :
    let xs := (sinceClear ops).map Prod.fst
    let ys := (sinceClear ops).map Prod.snd
    let S := Spec.central 2 xs
    HasMeanVar (fun ω => some (Cumulative.Regression.run (finOps2 (observedY ops ω)) : Cumulative.Regression w (E ε)).slope) P b (s / S)
    ∧ (∀ t : ℝ, HasMeanVar (fun ω => some ((Cumulative.Regression.run (finOps2 (observedY ops ω)) : Cumulative.Regression w (E ε)).at' (X.fin t)))
        P (a + b * t) (s * (1 / xs.length + (t - Spec.mean xs) ^ 2 / S)))
    ∧ (∀ cs : List ℝ, cs.length = xs.length → (∀ a' b' : ℝ, lin cs (xs.map fun x => a' + b' * x) = b') →
        s / S ≤ Var[fun ω => lin cs (seen ys ω); P])
    ∧ (∀ (t : ℝ) (cs : List ℝ), cs.length = xs.length → (∀ a' b' : ℝ, lin cs (xs.map fun x => a' + b' * x) = a' + b' * t) →
        s * (1 / xs.length + (t - Spec.mean xs) ^ 2 / S) ≤ Var[fun ω => lin cs (seen ys ω); P]) := by
  intro xs ys S
  have hne : sinceClear ops ≠ [] := by
    intro e; apply hS; rw [e]; simp [Spec.central]
  have hxne : xs ≠ [] := by simpa [xs] using hne
  have hyl : ys.length = xs.length := by simp [xs, ys]
  have hs : 0 ≤ s := by
    obtain ⟨p, hp⟩ := List.exists_mem_of_ne_nil _ hne
    rw [← h.var p.2 (List.mem_map_of_mem hp)]; exact ProbabilityTheory.variance_nonneg ..
  have hobs := observedY_parts ops
  have hone : ∀ ω, sinceClear (observedY ops ω) ≠ [] := fun ω e => by
    have := (hobs ω).2.2; rw [e] at this; exact hne (List.length_eq_zero_iff.1 this.symm)
  have hmeans : ys.map (fun Y => ∫ ω, Y ω ∂P) = xs.map fun x => a + b * x := by
    simp only [xs, ys, List.map_map]
    exact List.map_congr_left fun p hp => hm p hp
  -- any combination `p * mean + t * slope`
  have key : ∀ p t : ℝ, MemLp (fun ω => lin (xs.map fun x => p / xs.length + t * ((x - Spec.mean xs) / S)) (seen ys ω)) 2 P
      ∧ ∫ ω, lin (xs.map fun x => p / xs.length + t * ((x - Spec.mean xs) / S)) (seen ys ω) ∂P = p * (a + b * Spec.mean xs) + b * t
      ∧ Var[fun ω => lin (xs.map fun x => p / xs.length + t * ((x - Spec.mean xs) / S)) (seen ys ω); P]
          = s * (p ^ 2 / xs.length + t ^ 2 / S) := by
    intro p t
    obtain ⟨w1, w2, w3⟩ := line_weights xs hxne hS p t
    obtain ⟨k1, k2, k3, -⟩ := lin_stats (xs.map fun x => p / xs.length + t * ((x - Spec.mean xs) / S)) h
      (by rw [List.length_map]; exact hyl.ge)
    refine ⟨k1, ?_, ?_⟩
    · rw [k2, hmeans, lin_affine a b (by simp), w1]
      have : lin (xs.map fun x => p / xs.length + t * ((x - Spec.mean xs) / S)) xs = p * Spec.mean xs + t := by
        rw [← w2]
        have := lin_map (fun x => p / xs.length + t * ((x - Spec.mean xs) / S)) id xs
        simpa using this
      rw [this]; ring
    · rw [k3, List.map_map, ← w3]; rfl
  have best : ∀ (p t : ℝ) (cs : List ℝ), cs.length = xs.length → cs.sum = p → lin cs xs = p * Spec.mean xs + t →
      s * (p ^ 2 / xs.length + t ^ 2 / S) ≤ Var[fun ω => lin cs (seen ys ω); P] := by
    intro p t cs hl h0 h1
    obtain ⟨w1, w2, w3⟩ := line_weights xs hxne hS p t
    rw [(lin_stats cs h (by rw [hl]; exact hyl.ge)).2.2.1, ← w3]
    refine mul_le_mul_of_nonneg_left ?_ hs
    have e : ∀ x, p / xs.length + t * ((x - Spec.mean xs) / Spec.central 2 xs)
        = (p / xs.length - t * Spec.mean xs / Spec.central 2 xs) + t / Spec.central 2 xs * x := fun x => by ring
    simp only [e] at w1 w2 ⊢
    exact affine_weights_min _ _ hl (h0.trans w1.symm) (h1.trans w2.symm)
  have unb : ∀ cs : List ℝ, cs.length = xs.length → ∀ q r : ℝ, (∀ a' b' : ℝ, lin cs (xs.map fun x => a' + b' * x) = a' * q + b' * r) →
      cs.sum = q ∧ lin cs xs = r := by
    intro cs hl q r hu
    have h0 := hu 1 0
    have h1 := hu 0 1
    rw [lin_affine _ _ hl] at h0 h1
    constructor <;> linarith
  have res : ∀ ω, _ := fun ω => regression_result (w := w) (ε := ε) (observedY ops ω) (by rw [(hobs ω).2.2]; exact hw)
    (List.length_pos_iff.2 (hone ω))
  simp only [fun ω => (hobs ω).1, if_neg hS] at res
  refine ⟨?_, fun t => ?_, fun cs hl hu => ?_, fun t cs hl hu => ?_⟩
  · obtain ⟨k1, k2, k3⟩ := key 0 1
    refine ⟨_, k1, fun ω => ?_, k2.trans (by ring), k3.trans (by ring)⟩
    beta_reduce
    have := line_lin (hone ω) 0 1
    simp only [(hobs ω).1, (hobs ω).2.1] at this
    rw [(res ω).1, ← this]; ring_nf
  · obtain ⟨k1, k2, k3⟩ := key 1 (t - Spec.mean xs)
    refine ⟨_, k1, fun ω => ?_, k2.trans (by ring), k3.trans (by ring)⟩
    beta_reduce
    have := line_lin (hone ω) 1 (t - Spec.mean xs)
    simp only [(hobs ω).1, (hobs ω).2.1] at this
    rw [(res ω).2, ← this, (hobs ω).2.1]
    congr 2; ring
  · obtain ⟨u0, u1⟩ := unb cs hl 0 1 (fun a' b' => by rw [hu]; ring)
    have := best 0 1 cs hl u0 (by rw [u1]; ring)
    refine le_trans (le_of_eq ?_) this
    ring
  · obtain ⟨u0, u1⟩ := unb cs hl 1 t (fun a' b' => by rw [hu]; ring)
    have := best 1 (t - Spec.mean xs) cs hl u0 (by rw [u1]; ring)
    refine le_trans (le_of_eq ?_) this
    ring

/-- Three points: x = 0, 1, 2 and y = 1 + 2 x plus independent noise with the variance 3. The slope has variance 3/2, the line at 4
has expectation 9 and variance 3 (1/3 + 9/2). -/
example : ∃ (P : Measure (ℕ → ℝ)) (_ : IsProbabilityMeasure P) (ops : List (Op (ℝ × ((ℕ → ℝ) → ℝ)))),
    (sinceClear ops).map Prod.fst = [0, 1, 2]
    ∧ HasMeanVar (fun ω => some (Cumulative.Regression.run (finOps2 (observedY ops ω)) : Cumulative.Regression 64 (E ε)).slope) P 2 (3 / 2)
    ∧ HasMeanVar (fun ω => some ((Cumulative.Regression.run (finOps2 (observedY ops ω)) : Cumulative.Regression 64 (E ε)).at' (X.fin 4))) P 9
        (29 / 2) := by
  obtain ⟨P, hP, hu, hm⟩ := coin_throws 3
  have e3 : firstN (fun i (ω : ℕ → ℝ) => ω i) 3 = [fun ω => ω 0, fun ω => ω 1, fun ω => ω 2] := rfl
  rw [e3] at hu hm
  have m0 := hu.memLp (fun ω => ω 0) (by simp)
  have m1 := hu.memLp (fun ω => ω 1) (by simp)
  have m2 := hu.memLp (fun ω => ω 2) (by simp)
  have hi : (1 : ENNReal) ≤ 2 := by norm_num
  let ops : List (Op (ℝ × ((ℕ → ℝ) → ℝ))) := [.push (0, fun ω => ω 0 + (-3)), .push (1, fun ω => ω 1 + (-1)), .push (2, fun ω => ω 2 + 1)]
  have hs : sinceClear ops = [(0, fun ω => ω 0 + (-3)), (1, fun ω => ω 1 + (-1)), (2, fun ω => ω 2 + 1)] := rfl
  have hU : Uncorrelated ((sinceClear ops).map Prod.snd) P 3 := by
    rw [hs]
    have hun := hu.uncorr
    simp only [List.pairwise_cons, List.mem_cons, List.not_mem_nil, or_false, forall_eq_or_imp, forall_eq] at hun
    refine ⟨?_, ?_, ?_⟩
    · simp only [List.map_cons, List.map_nil, List.mem_cons, List.not_mem_nil, or_false, forall_eq_or_imp, forall_eq]
      exact ⟨m0.add (memLp_const _), m1.add (memLp_const _), m2.add (memLp_const _)⟩
    · simp only [List.map_cons, List.map_nil, List.mem_cons, List.not_mem_nil, or_false, forall_eq_or_imp, forall_eq]
      exact ⟨(variance_add_const m0.1 _).trans (hu.var _ (by simp)), (variance_add_const m1.1 _).trans (hu.var _ (by simp)),
        (variance_add_const m2.1 _).trans (hu.var _ (by simp))⟩
    · simp only [List.map_cons, List.map_nil, List.pairwise_cons, List.mem_cons, List.not_mem_nil, or_false, forall_eq_or_imp, forall_eq]
      refine ⟨⟨?_, ?_⟩, ?_, by simp⟩
      · rw [covariance_add_const_left (m0.integrable hi), covariance_add_const_right (m1.integrable hi)]; exact hun.1.1
      · rw [covariance_add_const_left (m0.integrable hi), covariance_add_const_right (m2.integrable hi)]; exact hun.1.2
      · rw [covariance_add_const_left (m1.integrable hi), covariance_add_const_right (m2.integrable hi)]; exact hun.2.1
  have hM : ∀ p ∈ sinceClear ops, ∫ ω, p.2 ω ∂P = 1 + 2 * p.1 := by
    rw [hs]
    simp only [List.mem_cons, List.not_mem_nil, or_false, forall_eq_or_imp, forall_eq]
    refine ⟨?_, ?_, ?_⟩
    · rw [integral_add (m0.integrable hi) (integrable_const _), hm _ (by simp), integral_const, probReal_univ]; norm_num
    · rw [integral_add (m1.integrable hi) (integrable_const _), hm _ (by simp), integral_const, probReal_univ]; norm_num
    · rw [integral_add (m2.integrable hi) (integrable_const _), hm _ (by simp), integral_const, probReal_univ]; norm_num
  have hx : (sinceClear ops).map Prod.fst = [0, 1, 2] := rfl
  have hmean : Spec.mean [0, 1, 2] = 1 := by simp [Spec.mean]; norm_num
  have hS : Spec.central 2 [0, 1, 2] = 2 := by
    rw [Spec.central, hmean]; norm_num
  have g := C130_gauss_markov (ε := ε) (w := 64) hU hM (by rw [hx, hS]; norm_num) (by rw [hs]; simp)
  simp only [hx, hmean, hS] at g
  refine ⟨P, hP, ops, hx, g.1, ?_⟩
  convert g.2.1 4 using 1 <;> norm_num

end Verif.Props
