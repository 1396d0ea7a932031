import Verif.Model.ContractedDecay
import Verif.Props.ContractedImpulse
import Verif.Props.DecayRounded
import Verif.Props.DecaySign
/-
C163, C164: the decay filters compiled with contracted floating-point expressions (fused multiply-add).
-/
namespace Verif.Props
open Scalar Exact Verif.Contracted

variable {F : Fmt} {p : Nat} {emin : Int} {u η : ℝ}

/-! ### Contraction nowhere, and contraction in exact arithmetic -/

theorem runOps_withoutChoices {σ κ β : Type} {push : σ → κ × β → σ} {push' : σ → β → σ} {clear : σ → σ} (ops : List (Op (κ × β)))
    (h : ∀ i, Op.push i ∈ ops → ∀ s, push s i = push' s i.2) (s : σ) :
    runOps s push clear ops = runOps s push' clear (withoutChoices ops) := by
  induction ops generalizing s with
  | nil => rfl
  | cons op ops ih =>
    have ih := ih fun i hi => h i (List.mem_cons_of_mem _ hi)
    cases op with
    | clear => exact ih _
    | push i =>
      show runOps (push s i) push clear ops = runOps (push' s i.2) push' clear (withoutChoices ops)
      rw [h i (by simp), ih]

/-- No statement of the push is contracted. -/
def noSmoothing : Smoothing := ⟨false, false, false⟩

/-- C163: contraction nowhere is the model of the other properties, in any arithmetic. -/
theorem C163_plain {α : Type} [Fused α] (f g h k : α) (ops : List (Op (((((Bool × Bool) × Smoothing) × Smoothing) × Smoothing) × α)))
    (hops : ∀ i, Op.push i ∈ ops → i.1 = ((((false, false), noSmoothing), noSmoothing), noSmoothing)) :
    DecayKurtosis.run f g h k ops = Decay.Kurtosis.run f g h k (withoutChoices ops)
    ∧ DecaySkewness.run f g h (ops.map (Op.map fun i => (i.1.1, i.2))) = Decay.Skewness.run f g h (withoutChoices ops)
    ∧ DecayVariance.run f g (ops.map (Op.map fun i => (i.1.1.1, i.2))) = Decay.Variance.run f g (withoutChoices ops)
    ∧ DecayMean.run f (ops.map (Op.map fun i => (i.1.1.1.1, i.2))) = Decay.Mean.run f (withoutChoices ops) := by
  have e : ∀ {κ : Type} (c : _ → κ), withoutChoices (ops.map (Op.map fun i => (c i.1, i.2))) = withoutChoices ops := by
    intro κ c
    rw [withoutChoices, withoutChoices, List.map_map]
    congr 1
    funext op
    cases op <;> rfl
  have m : ∀ {κ : Type} (c : _ → κ) (i : κ × α), Op.push i ∈ ops.map (Op.map fun i => (c i.1, i.2)) →
      i.1 = c ((((false, false), noSmoothing), noSmoothing), noSmoothing) := by
    intro κ c i hi
    obtain ⟨op, ho, he⟩ := List.mem_map.1 hi
    cases op with
    | clear => cases he
    | push j =>
      injection he with he
      rw [← he]
      show c j.1 = _
      rw [hops j ho]
  refine ⟨runOps_withoutChoices ops (fun i hi s => ?_) _, ?_, ?_, ?_⟩
  · obtain ⟨i, x⟩ := i
    obtain rfl : i = _ := hops _ hi
    rfl
  · rw [← e fun i => i.1]
    refine runOps_withoutChoices _ (fun i hi s => ?_) _
    obtain ⟨i, x⟩ := i
    have hm := m (fun i => i.1) _ hi
    change i = _ at hm
    subst hm
    rfl
  · rw [← e fun i => i.1.1]
    refine runOps_withoutChoices _ (fun i hi s => ?_) _
    obtain ⟨i, x⟩ := i
    have hm := m (fun i => i.1.1) _ hi
    change i = _ at hm
    subst hm
    rfl
  · rw [← e fun i => i.1.1.1]
    refine runOps_withoutChoices _ (fun i hi s => ?_) _
    obtain ⟨i, x⟩ := i
    have hm := m (fun i => i.1.1.1) _ hi
    change i = _ at hm
    subst hm
    rfl

theorem addMul_unrounded {ε : ℝ} (b : Bool) (s f d : E ε) : addMul b s f d = s + f * d := by
  cases b
  · rfl
  · show X.fma f d s = s + f * d
    cases f <;> cases d <;> cases s <;> first | rfl | skip
    · simp [X.fma, add_comm]
    · rw [mul_fin]; rfl
    · rw [mul_fin]; rfl

theorem mulSub_unrounded {ε : ℝ} (b : Bool) (x y s : E ε) : mulSub b x y s = x * y - s := by
  cases b
  · rfl
  · have h1 : mulSub true x y s = s.neg + x * y := addMul_unrounded true s.neg x y
    rw [h1]
    generalize x * y = z
    cases z <;> cases s <;> first | rfl | skip
    show X.fin _ + X.fin _ = _
    rw [add_fin, sub_fin, sub_eq_add_neg, add_comm]

/-- C163: in exact arithmetic contraction changes nothing. -/
theorem C163_exact {ε : ℝ} (f g h k : E ε) :
    (∀ ops, DecayKurtosis.run f g h k ops = Decay.Kurtosis.run f g h k (withoutChoices ops))
    ∧ (∀ ops, DecaySkewness.run f g h ops = Decay.Skewness.run f g h (withoutChoices ops))
    ∧ (∀ ops, DecayVariance.run f g ops = Decay.Variance.run f g (withoutChoices ops))
    ∧ (∀ ops, DecayMean.run f ops = Decay.Mean.run f (withoutChoices ops)) := by
  have h1 : ∀ (s : Decay.Mean (E ε)) i, DecayMean.push s i = s.push i.2 := fun s i => by
    simp only [DecayMean.push, addMul_unrounded]; rfl
  have h2 : ∀ (s : Decay.Variance (E ε)) i, DecayVariance.push s i = s.push i.2 := fun s i => by
    simp only [DecayVariance.push, addMul_unrounded, mulSub_unrounded, h1]; rfl
  have h3 : ∀ (s : Decay.Skewness (E ε)) i, DecaySkewness.push s i = s.push i.2 := fun s i => by
    simp only [DecaySkewness.push, addMul_unrounded, mulSub_unrounded, h2]; rfl
  have h4 : ∀ (s : Decay.Kurtosis (E ε)) i, DecayKurtosis.push s i = s.push i.2 := fun s i => by
    simp only [DecayKurtosis.push, addMul_unrounded, mulSub_unrounded, h3]; rfl
  exact ⟨fun ops => runOps_withoutChoices ops (fun i _ s => h4 s i) _, fun ops => runOps_withoutChoices ops (fun i _ s => h3 s i) _,
    fun ops => runOps_withoutChoices ops (fun i _ s => h2 s i) _, fun ops => runOps_withoutChoices ops (fun i _ s => h1 s i) _⟩

/-! ### The sums are not negative -/

theorem mul_f_inf {f : ℝ} (hf0 : 0 < f) : (X.fin f * X.pinf : X F) = X.pinf ∧ (X.fin f * X.ninf : X F) = X.ninf := by
  constructor
  · show X.signedInf f = _
    rw [X.signedInf, if_pos hf0]
  · show X.signedInf (-f) = _
    rw [X.signedInf, if_neg (by linarith), if_pos (by linarith)]

/-- What is known of the difference in the brackets, if the sum is a finite number. -/
def InnerDiff (s d : X F) : Prop :=
  ∀ r : ℝ, s = X.fin r → d = X.nan ∨ d = X.pinf ∨ ∃ v : ℝ, -r ≤ v ∧ d = X.fin v

/-- Adding a fraction of the difference. -/
theorem outer_notNeg (hF : F.Binary p emin) {f : ℝ} (hf0 : 0 < f) (hf1 : f ≤ 1) (b : Bool) {s d : X F} (hs : SumNotNeg p emin s)
    (hd : InnerDiff s d) : SumNotNeg p emin (addMul b s (X.fin f) d) := by
  obtain ⟨e1, e2⟩ := mul_f_inf (F := F) hf0
  have e3 : (X.fin f * X.nan : X F) = X.nan := rfl
  rcases hs with rfl | rfl | ⟨r, hr, hrep, hfit, rfl⟩
  · cases b
    · exact .inl rfl
    · cases d <;> exact .inl rfl
  · cases b
    · show SumNotNeg p emin (X.pinf + X.fin f * d)
      generalize X.fin f * d = z
      cases z with
      | fin _ => exact .inr (.inl rfl)
      | pinf => exact .inr (.inl rfl)
      | ninf => exact .inl rfl
      | nan => exact .inl rfl
    · cases d with
      | fin v => exact .inr (.inl rfl)
      | pinf => show SumNotNeg p emin (X.pinf + X.fin f * X.pinf); rw [e1]; exact .inr (.inl rfl)
      | ninf => show SumNotNeg p emin (X.pinf + X.fin f * X.ninf); rw [e2]; exact .inl rfl
      | nan => exact .inl rfl
  · rcases hd r rfl with rfl | rfl | ⟨v, hv, rfl⟩
    · cases b <;> exact .inl rfl
    · refine .inr (.inl ?_)
      cases b
      · show X.fin r + X.fin f * X.pinf = _
        rw [e1]; rfl
      · show X.fin r + X.fin f * X.pinf = _
        rw [e1]; rfl
    · have hfv : -r ≤ f * v := by
        rcases le_total 0 v with h | h
        · have := mul_nonneg hf0.le h; linarith
        · nlinarith
      rw [addMul_fin]
      split_ifs
      · exact sumNotNeg_round hF (by linarith)
      · rw [X.round]
        have h2 : -r ≤ F.rnd (f * v) := hF.le_rnd hrep.neg hfv
        split_ifs with hfm hpos'
        · rw [X.add_fin]
          exact sumNotNeg_round hF (by linarith)
        · exact .inr (.inl rfl)
        · exact absurd (hF.fits_between (hF.fits_neg hfit) hF.fits_zero h2 (hF.rnd_nonpos (not_lt.1 hpos'))) hfm

theorem round_innerDiff (hF : F.Binary p emin) {r t : ℝ} (hrep : IsRep p emin r) (hfit : F.fits r) (ht : 0 ≤ t) :
    (X.round (t - r) : X F) = X.nan ∨ (X.round (t - r) : X F) = X.pinf ∨ ∃ v : ℝ, -r ≤ v ∧ (X.round (t - r) : X F) = X.fin v := by
  have h1 : -r ≤ F.rnd (t - r) := hF.le_rnd hrep.neg (by linarith)
  rw [X.round]
  split_ifs with hfd hpos
  · exact .inr (.inr ⟨_, h1, rfl⟩)
  · exact .inr (.inl rfl)
  · exact absurd (hF.fits_between (hF.fits_neg hfit) hF.fits_zero h1 (hF.rnd_nonpos (not_lt.1 hpos))) hfd

/-- The difference in the brackets. -/
theorem mulSub_innerDiff (hF : F.Binary p emin) (b : Bool) {x y s : X F} (hs : SumNotNeg p emin s) (hxy : NonNegOrNan (x * y))
    (hfin : ∀ v w : ℝ, x = X.fin v → y = X.fin w → 0 ≤ v * w) : InnerDiff s (mulSub b x y s) := by
  rintro r rfl
  obtain ⟨hrep, hfit⟩ : IsRep p emin r ∧ F.fits r := by
    rcases hs with h | h | ⟨q, -, h1, h2, h⟩
    · cases h
    · cases h
    · obtain rfl := X.fin_inj.1 h
      exact ⟨h1, h2⟩
  have key : (x * y - X.fin r = X.nan) ∨ (x * y - X.fin r = X.pinf) ∨ ∃ v : ℝ, -r ≤ v ∧ x * y - X.fin r = X.fin v := by
    rcases hxy with h | h | ⟨t, ht, h⟩
    · rw [h]; exact .inl rfl
    · rw [h]; exact .inr (.inl rfl)
    · rw [h, X.sub_fin]; exact round_innerDiff hF hrep hfit ht
  cases b
  · exact key
  · show (X.fma x y (X.fin (-r)) = X.nan) ∨ (X.fma x y (X.fin (-r)) = X.pinf) ∨ ∃ v : ℝ, -r ≤ v ∧ X.fma x y (X.fin (-r)) = X.fin v
    have inf : ∀ z : X F, NonNegOrNan z → (∀ q : ℝ, z ≠ X.fin q) → X.add (X.fin (-r)) z = X.nan ∨ X.add (X.fin (-r)) z = X.pinf := by
      rintro z (rfl | rfl | ⟨q, -, rfl⟩) h
      · exact .inl rfl
      · exact .inr rfl
      · exact absurd rfl (h q)
    have conv : ∀ z : X F, (z = X.nan ∨ z = X.pinf) → z = X.nan ∨ z = X.pinf ∨ ∃ v : ℝ, -r ≤ v ∧ z = X.fin v := fun z h => by
      rcases h with h | h
      · exact .inl h
      · exact .inr (.inl h)
    have sgn : ∀ a q : ℝ, X.signedInf a ≠ (X.fin q : X F) := by
      intro a q
      rw [X.signedInf]
      split_ifs <;> (intro h; cases h)
    cases x with
    | fin v =>
      cases y with
      | fin w =>
        show (X.round (v * w + -r) = X.nan) ∨ (X.round (v * w + -r) = X.pinf) ∨ ∃ z : ℝ, -r ≤ z ∧ (X.round (v * w + -r) : X F) = X.fin z
        rw [← sub_eq_add_neg]
        exact round_innerDiff hF hrep hfit (hfin v w rfl rfl)
      | pinf => exact conv _ (inf _ hxy fun q => sgn v q)
      | ninf => exact conv _ (inf _ hxy fun q => sgn (-v) q)
      | nan => exact conv _ (inf _ hxy fun q h => by cases h)
    | pinf =>
      cases y with
      | fin w => exact conv _ (inf _ hxy fun q => sgn w q)
      | pinf => exact conv _ (inf _ hxy fun q h => by cases h)
      | ninf => exact conv _ (inf _ hxy fun q h => by cases h)
      | nan => exact conv _ (inf _ hxy fun q h => by cases h)
    | ninf =>
      cases y with
      | fin w => exact conv _ (inf _ hxy fun q => sgn (-w) q)
      | pinf => exact conv _ (inf _ hxy fun q h => by cases h)
      | ninf => exact conv _ (inf _ hxy fun q h => by cases h)
      | nan => exact conv _ (inf _ hxy fun q h => by cases h)
    | nan => exact .inl (by cases y <;> rfl)

/-- The cube has the sign of the number. -/
theorem cube_mul_nonneg (hF : F.Binary p emin) (d : X F) : ∀ v w : ℝ, d * d * d = X.fin v → d = X.fin w → 0 ≤ v * w := by
  rintro v w h rfl
  rw [X.mul_fin] at h
  rcases (round_sign hF (w * w)).1 (mul_self_nonneg w) with h1 | ⟨q, hq, h1⟩
  · rw [h1] at h
    exfalso
    change X.signedInf w = X.fin v at h
    rw [X.signedInf] at h
    split_ifs at h
  · rw [h1, X.mul_fin] at h
    rcases le_total 0 w with hw | hw
    · rcases (round_sign hF (q * w)).1 (mul_nonneg hq hw) with h2 | ⟨c, hc, h2⟩
      · rw [h2] at h; cases h
      · rw [h2, X.fin_inj] at h; rw [← h]; exact mul_nonneg hc hw
    · rcases (round_sign hF (q * w)).2 (mul_nonpos_of_nonneg_of_nonpos hq hw) with h2 | ⟨c, hc, h2⟩
      · rw [h2] at h; cases h
      · rw [h2, X.fin_inj] at h; rw [← h]; exact mul_nonneg_of_nonpos_of_nonpos hc hw

theorem square_innerDiff (hF : F.Binary p emin) (b : Bool) (d : X F) {s : X F} (hs : SumNotNeg p emin s) :
    InnerDiff s (mulSub b d d s) :=
  mulSub_innerDiff hF b hs (square_notNeg hF d) fun v w h1 h2 => by
    rw [h1, X.fin_inj] at h2
    rw [h2]; exact mul_self_nonneg w

/-- C163: whichever statements are contracted, for every history and all data including NaN and infinities, the decaying
variance does not compare below zero. -/
theorem C163_variance (hF : F.Binary p emin) {f : ℝ} (hf0 : 0 < f) (hf1 : f ≤ 1) (m : X F)
    (ops : List (Op (((Bool × Bool) × Smoothing) × X F))) :
    lt (DecayVariance.run m (X.fin f) ops).variance (ofNat 0) = false := by
  rw [← nonNegOrNan_iff hF]
  have key : ∀ (ops : List (Op (((Bool × Bool) × Smoothing) × X F))) (s : Decay.Variance (X F)), s.varFactor = X.fin f →
      SumNotNeg p emin s.sumVariance → SumNotNeg p emin (runOps s DecayVariance.push Decay.Variance.clear ops).sumVariance := by
    intro ops
    induction ops with
    | nil => intro s _ h; exact h
    | cons op ops ih =>
      intro s hs h
      cases op with
      | clear => exact ih _ hs (.inr (.inr ⟨0, le_refl _, isRep_zero _ _, hF.fits_zero, hF.ofNat_zero⟩))
      | push x =>
        refine ih _ hs ?_
        simp only [DecayVariance.push, hs]
        exact outer_notNeg hF hf0 hf1 _ h (square_innerDiff hF _ _ h)
  have hsum := key ops (Decay.Variance.init m (X.fin f)) rfl
    (.inr (.inr ⟨0, le_refl _, isRep_zero _ _, hF.fits_zero, hF.ofNat_zero⟩))
  rw [Decay.Variance.variance]
  split_ifs with h
  · exact div_notNeg hF hsum.notNeg (lt_zero_notNeg hF h)
  · exact .inr (.inr ⟨0, le_refl _, hF.ofNat_zero⟩)

/-- C163 for the variance of the filter with skewness. -/
theorem C163_skewness (hF : F.Binary p emin) {f : ℝ} (hf0 : 0 < f) (hf1 : f ≤ 1) (m g : X F)
    (ops : List (Op ((((Bool × Bool) × Smoothing) × Smoothing) × X F))) :
    lt (DecaySkewness.run m (X.fin f) g ops).variance (ofNat 0) = false := by
  have e : ∀ (ops : List (Op ((((Bool × Bool) × Smoothing) × Smoothing) × X F))) (s : Decay.Skewness (X F)),
      (runOps s DecaySkewness.push Decay.Skewness.clear ops).super
      = runOps s.super DecayVariance.push Decay.Variance.clear (ops.map (Op.map fun i => (i.1.1, i.2))) := by
    intro ops
    induction ops with
    | nil => intro s; rfl
    | cons op ops ih =>
      intro s
      cases op with
      | clear => exact ih _
      | push x => exact ih _
  have := C163_variance hF hf0 hf1 m (ops.map (Op.map fun i => (i.1.1, i.2)))
  rw [Decay.Skewness.variance, DecaySkewness.run, e]
  exact this

/-- C163 for the variance and the kurtosis of the filter with kurtosis. -/
theorem C163_kurtosis (hF : F.Binary p emin) {f k : ℝ} (hf0 : 0 < f) (hf1 : f ≤ 1) (hk0 : 0 < k) (hk1 : k ≤ 1) (m g : X F)
    (ops : List (Op (((((Bool × Bool) × Smoothing) × Smoothing) × Smoothing) × X F))) :
    lt (DecayKurtosis.run m (X.fin f) g (X.fin k) ops).variance (ofNat 0) = false
    ∧ lt (DecayKurtosis.run m (X.fin f) g (X.fin k) ops).kurtosis (ofNat 0) = false := by
  rw [← nonNegOrNan_iff hF, ← nonNegOrNan_iff hF]
  have h0 : SumNotNeg p emin (ofNat 0 : X F) := .inr (.inr ⟨0, le_refl _, isRep_zero _ _, hF.fits_zero, hF.ofNat_zero⟩)
  have hz : NonNegOrNan (ofNat 0 : X F) := h0.notNeg
  have key : ∀ (ops : List (Op (((((Bool × Bool) × Smoothing) × Smoothing) × Smoothing) × X F))) (s : Decay.Kurtosis (X F)),
      s.super.super.varFactor = X.fin f → s.kurtosisFactor = X.fin k → SumNotNeg p emin s.super.super.sumVariance →
      SumNotNeg p emin s.sumKurtosis →
      SumNotNeg p emin (runOps s DecayKurtosis.push Decay.Kurtosis.clear ops).super.super.sumVariance
      ∧ SumNotNeg p emin (runOps s DecayKurtosis.push Decay.Kurtosis.clear ops).sumKurtosis := by
    intro ops
    induction ops with
    | nil => intro s _ _ h1 h2; exact ⟨h1, h2⟩
    | cons op ops ih =>
      intro s hs hs' h1 h2
      cases op with
      | clear => exact ih _ hs hs' h0 h0
      | push x =>
        refine ih _ hs hs' ?_ ?_
        · simp only [DecayKurtosis.push, DecaySkewness.push, DecayVariance.push, hs]
          exact outer_notNeg hF hf0 hf1 _ h1 (square_innerDiff hF _ _ h1)
        · simp only [DecayKurtosis.push, hs']
          exact outer_notNeg hF hk0 hk1 _ h2 (mulSub_innerDiff hF _ h2 (fourth_notNeg hF _) (cube_mul_nonneg hF _))
  obtain ⟨h1, h2⟩ := key ops (Decay.Kurtosis.init m (X.fin f) g (X.fin k)) rfl rfl h0 h0
  constructor
  · rw [Decay.Kurtosis.variance, Decay.Skewness.variance, Decay.Variance.variance]
    split_ifs with h
    · exact div_notNeg hF h1.notNeg (lt_zero_notNeg hF h)
    · exact hz
  · simp only [Decay.Kurtosis.kurtosis]
    split_ifs with h
    · exact div_notNeg hF (div_notNeg hF h2.notNeg (square_notNeg hF _)) (lt_zero_notNeg hF h)
    · exact hz
    · exact hz

/-- `double`, factor 1/2, everything contracted, data with an infinity. -/
example : lt (DecayVariance.run (X.fin (1 / 2)) (X.fin (1 / 2))
    [.push (((true, true), ⟨true, true, true⟩), X.fin 1), .push (((true, false), ⟨true, false, true⟩), X.pinf), .clear,
      .push (((true, true), ⟨false, true, false⟩), X.fin 3)] : Decay.Variance (X binary64)).variance (ofNat 0) = false :=
  C163_variance binary64_binary (by norm_num) (by norm_num) _ _

/-! ### The error of the mean -/

theorem fused_step_le (h : F.Err u η) (b : Bool) {m x y t B : ℝ} (ht : 0 ≤ t) (hd : |x - y| ≤ 2 * B) (hm : |m + t * (x - y)| ≤ B) :
    |F.rnd (m + fusedProduct F b (t * F.rnd (x - y))) - (m + t * (x - y))| ≤ t * (5 * (u * B) + 2 * η) + (u * B + 3 * η) := by
  cases b
  · exact h.step_le ht hd hm
  · show |F.rnd (m + t * F.rnd (x - y)) - _| ≤ _
    have hu := h.u_nonneg
    have hu8 := h.u_le
    have he := h.eta_nonneg
    have hB : 0 ≤ B := (abs_nonneg _).trans hm
    have huB := mul_nonneg hu hB
    have h1 := h.err (x - y)
    have h2 := h.err (m + t * F.rnd (x - y))
    set d := F.rnd (x - y)
    have h3 : |t * (d - (x - y))| ≤ t * (2 * (u * B) + η) := by
      rw [abs_mul, abs_of_nonneg ht]
      refine mul_le_mul_of_nonneg_left (h1.trans ?_) ht
      have := mul_le_mul_of_nonneg_left hd hu
      linarith
    have e : m + t * d = (m + t * (x - y)) + t * (d - (x - y)) := by ring
    have h4 : |m + t * d| ≤ B + t * (2 * (u * B) + η) := by
      rw [e]; exact (abs_add_le _ _).trans (add_le_add hm h3)
    have h5 := abs_add_le (F.rnd (m + t * d) - (m + t * d)) (t * (d - (x - y)))
    rw [show F.rnd (m + t * d) - (m + t * d) + t * (d - (x - y)) = F.rnd (m + t * d) - (m + t * (x - y)) by ring] at h5
    have h6 := mul_le_mul_of_nonneg_left h4 hu
    have h7 : u * (t * (2 * (u * B) + η)) ≤ 1 / 8 * (t * (2 * (u * B) + η)) := mul_le_mul_of_nonneg_right hu8 (by positivity)
    have h8 : 0 ≤ t * (u * B) := by positivity
    have h9 : 0 ≤ t * η := by positivity
    nlinarith

/-- The error of one step, on top of the error so far. -/
theorem fused_smooth_err (hE : F.Err u η) (b : Bool) {B f s S x : ℝ} (hf0 : 0 < f) (hf1 : f ≤ 1) (hs : |s| ≤ 2 * B) (hx : |x| ≤ B)
    (h : |s - S| ≤ Decay.sumErr u η f B) :
    |F.rnd (s + fusedProduct F b (f * F.rnd (x - s))) - ((1 - f) * S + f * x)| ≤ Decay.sumErr u η f B := by
  unfold Decay.sumErr at *
  have hB : 0 ≤ B := (abs_nonneg _).trans hx
  have hM : s + f * (x - s) = (1 - f) * s + f * x := by ring
  have h1 := fused_step_le hE b (m := s) (x := x) (y := s) (t := f) (B := 2 * B) hf0.le
    (by have := abs_sub x s; linarith)
    (by
      rw [hM]
      refine (abs_add_le _ _).trans ?_
      rw [abs_mul, abs_mul, abs_of_nonneg hf0.le, abs_of_nonneg (by linarith : 0 ≤ 1 - f)]
      have := mul_le_mul_of_nonneg_left hs (by linarith : 0 ≤ 1 - f)
      have := mul_le_mul_of_nonneg_left (show |x| ≤ 2 * B by linarith) hf0.le
      linarith)
  set r := F.rnd (s + fusedProduct F b (f * F.rnd (x - s)))
  have e : r - ((1 - f) * S + f * x) = (r - (s + f * (x - s))) + (1 - f) * (s - S) := by ring
  rw [e]
  refine (abs_add_le _ _).trans ?_
  rw [abs_mul, abs_of_nonneg (by linarith : 0 ≤ 1 - f)]
  have h2 := mul_le_mul_of_nonneg_left h (by linarith : 0 ≤ 1 - f)
  have e2 : (1 - f) * ((10 * (u * B) + 2 * η) + (2 * (u * B) + 3 * η) / f)
      = (10 * (u * B) + 2 * η) + (2 * (u * B) + 3 * η) / f - f * (10 * (u * B) + 2 * η) - (2 * (u * B) + 3 * η) := by
    field_simp; ring
  rw [e2] at h2
  linarith

/-- One step of the normalization. -/
theorem fused_norm_step (h : F.Binary p emin) (b : Bool) {f n : ℝ} (hf0 : 0 < f) (hf1 : f ≤ 1) (hfr : IsRep p emin f)
    (hn : IsRep p emin n) (hn1 : n ≤ 1) (h0 : n = 0 ∨ f ≤ n) :
    ∃ n', (addMul b (X.fin n) (X.fin f) (ofNat 1 - X.fin n) : X F) = X.fin n'
      ∧ n' = F.rnd (n + fusedProduct F b (f * F.rnd (1 - n))) ∧ IsRep p emin n' ∧ n ≤ n' ∧ f ≤ n' ∧ n' ≤ 1 := by
  cases b
  · exact Decay.norm_step h hf0 hf1 hfr hn hn1 h0
  · have hn0 : 0 ≤ n := by rcases h0 with h0 | h0 <;> linarith
    have hd0 : 0 ≤ F.rnd (1 - n) := h.rnd_nonneg (sub_nonneg.2 hn1)
    have hd1 : F.rnd (1 - n) ≤ 1 := h.rnd_le h.isRep_one (by linarith)
    have hlo : n ≤ F.rnd (n + f * F.rnd (1 - n)) := h.le_rnd hn (by have := mul_nonneg hf0.le hd0; linarith)
    have hhi : n + f * F.rnd (1 - n) ≤ 1 := by
      rcases h0 with h0 | h0
      · rw [h0, sub_zero, h.exact _ h.isRep_one]; linarith
      · rcases le_total n (1 / 2) with hc | hc
        · have : f * F.rnd (1 - n) ≤ 1 / 2 * 1 := mul_le_mul (h0.trans hc) hd1 hd0 (by norm_num)
          linarith
        · rw [h.exact _ (h.one_sub hn hc hn1)]
          have := mul_le_of_le_one_left (sub_nonneg.2 hn1) hf1
          linarith
    have hf' : f ≤ F.rnd (n + f * F.rnd (1 - n)) := by
      rcases h0 with h0 | h0
      · rw [h0, sub_zero, h.exact _ h.isRep_one, zero_add, mul_one, h.exact _ hfr]
      · exact h0.trans hlo
    have hhi' := h.rnd_le h.isRep_one hhi
    refine ⟨_, ?_, rfl, h.rep _, hlo, hf', hhi'⟩
    have f1 : |1 - n| ≤ 1 := by rw [abs_of_nonneg (by linarith)]; linarith
    rw [h.ofNat_one, X.sub_fin, (h.round_le (F := F) h.isRep_one h.fits_one f1).1, addMul_fin, if_pos rfl, add_comm]
    unfold X.round
    rw [if_pos (h.fits_between h.fits_zero h.fits_one (by linarith) hhi')]
    rfl

/-- The update does not overflow. -/
theorem fused_update (hF : F.Binary p emin) (hE : F.Err u η) (b : Bool) {B K s x f : ℝ} (hK : IsRep p emin K) (hKf : F.fits K)
    (hBK : 8 * B ≤ K) (hη : 2 * η ≤ B) (hs : |s| ≤ 2 * B) (hx : |x| ≤ B) (hf0 : 0 ≤ f) (hf1 : f ≤ 1) :
    (addMul b (X.fin s) (X.fin f) (X.fin x - X.fin s) : X F) = X.fin (F.rnd (s + fusedProduct F b (f * F.rnd (x - s)))) := by
  cases b
  · exact Decay.update hF hE hK hKf hBK hη hs hx hf0 hf1
  · have hu := hE.u_nonneg
    have hu8 := hE.u_le
    have hB : 0 ≤ B := (abs_nonneg _).trans hx
    have hxs : |x - s| ≤ 3 * B := by have := abs_sub x s; linarith
    obtain ⟨h1, -⟩ := hF.round_le (F := F) hK hKf (show |x - s| ≤ K by linarith)
    have hd : |F.rnd (x - s)| ≤ 31 / 8 * B := by
      refine (hE.abs_le _).trans ?_
      have : (1 + u) * |x - s| ≤ (1 + 1 / 8) * (3 * B) := mul_le_mul (by linarith) hxs (abs_nonneg _) (by norm_num)
      linarith
    have hq : |f * F.rnd (x - s)| ≤ 31 / 8 * B := by
      rw [abs_mul, abs_of_nonneg hf0]
      exact (mul_le_of_le_one_left (abs_nonneg _) hf1).trans hd
    rw [X.sub_fin, h1, addMul_fin, if_pos rfl, add_comm]
    refine (hF.round_le hK hKf ?_).1
    exact (abs_add_le _ _).trans (by linarith)

/-- What is known of the sums after pushing `is`. -/
structure FusedInv (F : Fmt) (p : Nat) (emin : Int) (u η f B : ℝ) (is : List ((Bool × Bool) × ℝ)) (st : Decay.Mean (X F)) (s n : ℝ) : Prop where
  factor : st.meanFactor = X.fin f
  norm : st.normalization = X.fin n
  rep : IsRep p emin n
  le_one : n ≤ 1
  empty : is = [] → n = 0
  ge : is ≠ [] → f ≤ n
  err : |n - (1 - (1 - f) ^ is.length)| ≤ Decay.sumErr u η f 1
  sum : st.sumMean = X.fin s
  sumErr : |s - Spec.ewSum f (is.map Prod.snd)| ≤ Decay.sumErr u η f B

theorem fused_fold (hF : F.Binary p emin) (hE : F.Err u η) {B K f : ℝ} (hB0 : 0 ≤ B) (hf0 : 0 < f) (hf1 : f ≤ 1)
    (hfr : IsRep p emin f) (hK : IsRep p emin K) (hKf : F.fits K) (hBK : 8 * B ≤ K) (hc : Decay.sumErr u η f B ≤ B)
    (is : List ((Bool × Bool) × ℝ)) (hB : ∀ i ∈ is, |i.2| ≤ B) :
    ∃ s n, FusedInv F p emin u η f B is ((is.map fun i => (i.1, X.fin i.2)).foldl DecayMean.push (Decay.Mean.init (X.fin f))) s n := by
  induction is using List.reverseRecOn with
  | nil =>
    refine ⟨0, 0, ⟨rfl, hF.ofNat_zero, isRep_zero _ _, zero_le_one, fun _ => rfl, fun h => absurd rfl h, ?_, hF.ofNat_zero, ?_⟩⟩
    · simp only [List.length_nil, pow_zero, sub_self, abs_zero]; exact Decay.sumErr_nonneg hE zero_le_one hf0
    · rw [List.map_nil, Spec.ewSum_nil, sub_zero, abs_zero]; exact Decay.sumErr_nonneg hE hB0 hf0
  | append_singleton is i ih =>
    obtain ⟨s, n, h⟩ := ih (fun y hy => hB y (List.mem_append_left _ hy))
    rw [List.map_append, List.map_singleton, List.foldl_append]
    set st := (is.map fun i => (i.1, X.fin i.2)).foldl DecayMean.push (Decay.Mean.init (X.fin f) : Decay.Mean (X F))
    have h0 : n = 0 ∨ f ≤ n := by
      rcases eq_or_ne is [] with h0 | h0
      · exact Or.inl (h.empty h0)
      · exact Or.inr (h.ge h0)
    obtain ⟨n', b1, b2, b3, b4, b5, b6⟩ := fused_norm_step hF i.1.2 hf0 hf1 hfr h.rep h.le_one h0
    have hn0 : 0 ≤ n := by rcases h0 with h0 | h0 <;> linarith
    have hB' : ∀ y ∈ is.map Prod.snd, |y| ≤ B := by
      intro y hy
      obtain ⟨j, hj, rfl⟩ := List.mem_map.1 hy
      exact hB j (List.mem_append_left _ hj)
    have hS := Decay.abs_ewSum_le hf0 hf1 hB0 hB'
    have hs : |s| ≤ 2 * B := by
      have := abs_add_le (s - Spec.ewSum f (is.map Prod.snd)) (Spec.ewSum f (is.map Prod.snd))
      rw [sub_add_cancel] at this
      linarith [h.sumErr]
    have hx := hB i (by simp)
    have hη : 2 * η ≤ B := by
      refine le_trans ?_ hc
      have := hE.u_nonneg; have := hE.eta_nonneg
      unfold Decay.sumErr
      have : 0 ≤ (2 * (u * B) + 3 * η) / f := by positivity
      have : 0 ≤ u * B := by positivity
      linarith
    refine ⟨F.rnd (s + fusedProduct F i.1.1 (f * F.rnd (i.2 - s))), n', ⟨h.factor, ?_, b3, b6, ?_, fun _ => b5, ?_, ?_, ?_⟩⟩
    · show addMul i.1.2 st.normalization st.meanFactor (ofNat 1 - st.normalization) = _
      rw [h.norm, h.factor, b1]
    · intro h; simp at h
    · have := fused_smooth_err hE i.1.2 (B := 1) (x := 1) (s := n) (S := 1 - (1 - f) ^ is.length) hf0 hf1
        (by rw [abs_of_nonneg hn0]; linarith [h.le_one]) (by simp) h.err
      rw [← b2] at this
      rw [List.length_append, List.length_singleton, pow_succ]
      convert this using 3
      ring
    · show addMul i.1.1 st.sumMean st.meanFactor (X.fin i.2 - st.sumMean) = _
      rw [h.factor, h.sum, fused_update hF hE i.1.1 hK hKf hBK hη hs hx hf0.le hf1]
    · rw [List.map_append, List.map_singleton, Spec.ewSum_snoc]
      exact fused_smooth_err hE i.1.1 hf0 hf1 hs hx h.sumErr

theorem decayMean_run_eq {α : Type} [Fused α] (f : α) (ops : List (Op ((Bool × Bool) × α))) :
    DecayMean.run f ops = (sinceClear ops).foldl DecayMean.push (Decay.Mean.init f) :=
  (runOps_eq_inv (fun s : Decay.Mean α => s.meanFactor = f) (Decay.Mean.init f) DecayMean.push Decay.Mean.clear rfl (fun _ _ h => h)
    (fun s h => by simp [Decay.Mean.clear, Decay.Mean.init, h]) ops).1

/-- C163: the error bound of the decaying mean (C64) holds whichever statements are contracted. -/
theorem C163_mean_error (hF : F.Binary p emin) (hE : F.Err u η) {f B K : ℝ} (hf0 : 0 < f) (hf1 : f ≤ 1)
    (hfr : IsRep p emin f) (hB0 : 0 ≤ B) (hK : IsRep p emin K) (hKf : F.fits K) (hBK : 8 * B ≤ K)
    (hBK' : B + (Decay.sumErr u η f B + B * Decay.sumErr u η f 1) / f ≤ K) (hc : Decay.sumErr u η f B ≤ B)
    (ops : List (Op ((Bool × Bool) × ℝ))) (hB : ∀ x ∈ pushed ops, |x| ≤ B) :
    ∃ m : ℝ, (DecayMean.run (X.fin f) (finK ops) : Decay.Mean (X F)).mean = X.fin m
      ∧ |m - Spec.ewMean f (pushed ops)|
        ≤ (1 + u) * ((Decay.sumErr u η f B + B * Decay.sumErr u η f 1) / f) + u * B + η := by
  have hc1 := Decay.sumErr_nonneg hE (zero_le_one (α := ℝ)) hf0
  have hcB := Decay.sumErr_nonneg hE hB0 hf0
  have hu := hE.u_nonneg
  have he := hE.eta_nonneg
  rw [decayMean_run_eq, sinceClear_finK]
  obtain ⟨s, n, h⟩ := fused_fold (F := F) hF hE hB0 hf0 hf1 hfr hK hKf hBK hc (sinceClear ops)
    (fun i hi => hB _ (List.mem_map_of_mem hi))
  set st := ((sinceClear ops).map fun i => (i.1, X.fin i.2)).foldl DecayMean.push (Decay.Mean.init (X.fin f) : Decay.Mean (X F))
  show ∃ m, (if lt (ofNat 0) st.normalization then st.sumMean / st.normalization else ofNat 0) = X.fin m ∧ _
  rw [h.sum, h.norm, hF.ofNat_zero, X.lt_fin]
  rcases eq_or_ne (sinceClear ops) [] with h0 | h0
  · have : n = 0 := h.empty h0
    rw [this]
    refine ⟨0, by simp, ?_⟩
    rw [pushed, h0]
    simp only [List.map_nil, Spec.ewMean, Spec.ewSum_nil, zero_div, sub_zero, abs_zero]
    positivity
  · have hge : f ≤ n := h.ge h0
    have hN := Spec.norm_pos hf0 hf1 (n := (sinceClear ops).length) (by simpa using h0)
    obtain ⟨k1, k2⟩ := Decay.mean_err hF hE hK hKf hf0 hge hN
      (by
        have := Decay.abs_ewMean_le hf0 hf1 hB0 hB
        rw [Spec.ewMean, pushed, List.length_map] at this
        exact this) h.sumErr h.err hBK'
    refine ⟨_, by rw [decide_eq_true (by linarith), if_pos rfl, k1], ?_⟩
    rw [Spec.ewMean, pushed, List.length_map]
    exact k2

/-- `double` with factor 1/2 and values up to 8: the error is at most `2^-42` after any number of values, contracted
anyhow. -/
example (ops : List (Op ((Bool × Bool) × ℝ))) (hB : ∀ x ∈ pushed ops, |x| ≤ 8) :
    ∃ m : ℝ, (DecayMean.run (X.fin (1 / 2)) (finK ops) : Decay.Mean (X binary64)).mean = X.fin m
      ∧ |m - Spec.ewMean (1 / 2) (pushed ops)| ≤ 2 ^ (-42 : Int) := by
  have h128 := binary64_int (n := 128) (by norm_num)
  push_cast at h128
  have hf := double 1 (-1) (by norm_num) (by norm_num) (by norm_num)
  have hff : ((1 : Int) : ℝ) * 2 ^ (-1 : Int) = 1 / 2 := by norm_num
  rw [hff] at hf
  have hu : (2 : ℝ) ^ (-53 : Int) ≤ 1 / 2 ^ 53 := by norm_num
  have hη : (2 : ℝ) ^ (-1075 : Int) ≤ 2 ^ (-53 : Int) := zpow_le_zpow_right₀ (by norm_num) (by norm_num)
  have hu0 : (0 : ℝ) ≤ 2 ^ (-53 : Int) := by positivity
  have hη0 : (0 : ℝ) ≤ 2 ^ (-1075 : Int) := by positivity
  have h42 : (2 : ℝ) ^ (-42 : Int) = 2048 * (1 / 2 ^ 53) := by norm_num
  have hE := binary64_err
  rw [h42]
  generalize (2 : ℝ) ^ (-53 : Int) = u at *
  generalize (2 : ℝ) ^ (-1075 : Int) = η at *
  have e8 : Decay.sumErr u η (1 / 2) 8 ≤ 120 * u := by unfold Decay.sumErr; linarith
  have e1 : Decay.sumErr u η (1 / 2) 1 ≤ 22 * u := by unfold Decay.sumErr; linarith
  obtain ⟨m, h1, h2⟩ := C163_mean_error binary64_binary hE (f := 1 / 2) (B := 8) (K := 128) (by norm_num) (by norm_num)
    hf.1 (by norm_num) h128.1 h128.2 (by norm_num) (by norm_num at hu ⊢; linarith) (by norm_num at hu; linarith) ops hB
  refine ⟨m, h1, h2.trans ?_⟩
  have h3 : (1 + u) * ((Decay.sumErr u η (1 / 2) 8 + 8 * Decay.sumErr u η (1 / 2) 1) / (1 / 2)) ≤ (1 + 1) * ((120 * u + 8 * (22 * u)) / (1 / 2)) := by
    refine mul_le_mul (by norm_num at hu; linarith) (by linarith) ?_ (by norm_num)
    have := Decay.sumErr_nonneg hE (B := 8) (f := 1 / 2) (by norm_num) (by norm_num)
    have := Decay.sumErr_nonneg hE (B := 1) (f := 1 / 2) (by norm_num) (by norm_num)
    positivity
  linarith

/-! ### C164 -/

/-- C164 as stated, for `double`: the mean of a stream of ones is exactly 1 (C65), whichever statements are contracted. -/
def C164_Statement : Prop :=
  ∀ (f : ℝ), 0 < f → f ≤ 1 → IsRep 53 (-1074) f → ∀ ops : List (Op ((Bool × Bool) × ℝ)), pushed ops ≠ [] → (∀ x ∈ pushed ops, x = 1) →
    (DecayMean.run (X.fin f) (finK ops) : Decay.Mean (X binary64)).mean = X.fin 1

/-- C164 is violated: factor `1/2 + (2^26 - 1) 2^-53`, two ones, and line 53 contracted but not line 54 in the second push
give `1 + 2^-52`. -/
theorem C164_violated_value :
    (DecayMean.run (X.fin (((2 ^ 52 + 2 ^ 26 - 1 : Int) : ℝ) * 2 ^ (-53 : Int)))
      (finK [.push ((false, false), 1), .push ((true, false), 1)]) : Decay.Mean (X binary64)).mean
    = X.fin (((2 ^ 52 + 1 : Int) : ℝ) * 2 ^ (-52 : Int)) := by
  have b := binary64_binary
  set f : ℝ := ((2 ^ 52 + 2 ^ 26 - 1 : Int) : ℝ) * 2 ^ (-53 : Int) with hf
  have hfd : IsRep 53 (-1074) f ∧ binary64.fits f := double (2 ^ 52 + 2 ^ 26 - 1) (-53) (by norm_num) (by norm_num) (by norm_num)
  have h0 : (ofNat 0 : X binary64) = X.fin 0 := b.ofNat_zero
  have h1 : (ofNat 1 : X binary64) = X.fin 1 := b.ofNat_one
  have e1 : (X.fin 1 - X.fin 0 : X binary64) = X.fin 1 := by rw [X.sub_fin, sub_zero, b.round_exact b.isRep_one b.fits_one]
  have e2 : (X.fin 0 + X.fin f * X.fin 1 : X binary64) = X.fin f := by
    rw [X.mul_fin, mul_one, b.round_exact hfd.1 hfd.2, X.add_fin, zero_add, b.round_exact hfd.1 hfd.2]
  have hdd := double (2 ^ 52 - 2 ^ 26 + 1) (-53) (by norm_num) (by norm_num) (by norm_num)
  set d : ℝ := ((2 ^ 52 - 2 ^ 26 + 1 : Int) : ℝ) * 2 ^ (-53 : Int) with hd
  have e3 : (X.fin 1 - X.fin f : X binary64) = X.fin d := by
    rw [X.sub_fin, show 1 - f = d by rw [hf, hd]; norm_num, b.round_exact hdd.1 hdd.2]
  have e4 : (X.fin f * X.fin d : X binary64) = X.fin (((2 ^ 53 - 2 : Int) : ℝ) * 2 ^ (-55 : Int)) := by
    rw [X.mul_fin]
    refine round64_of (2 ^ 53 - 2) (-55) (rnd64_near _ _ (by norm_num) ?_ ?_ ?_) rfl (by norm_num) (by norm_num) (by norm_num)
    · rw [hf, hd, abs_of_pos (by positivity)]; norm_num
    · rw [hf, hd, abs_of_pos (by positivity)]; norm_num
    · rw [hf, hd, abs_lt]; constructor <;> norm_num
  have e5 : (X.fin f + X.fin f * X.fin d : X binary64) = X.fin (((3 * 2 ^ 51 + 2 ^ 26 - 2 : Int) : ℝ) * 2 ^ (-53 : Int)) := by
    rw [e4, X.add_fin]
    refine round64_of (3 * 2 ^ 51 + 2 ^ 26 - 2) (-53) ?_ rfl (by norm_num) (by norm_num) (by norm_num)
    rw [rnd64_tie (3 * 2 ^ 51 + 2 ^ 26 - 2) (-53) (by norm_num)
      (by rw [hf, abs_of_pos (by positivity)]; norm_num) (by rw [hf, abs_of_pos (by positivity)]; norm_num) (by rw [hf]; norm_num),
      if_pos (by decide)]
  have e6 : (addMul true (X.fin f) (X.fin f) (X.fin d) : X binary64) = X.fin (((3 * 2 ^ 51 + 2 ^ 26 - 1 : Int) : ℝ) * 2 ^ (-53 : Int)) := by
    rw [addMul_fin, if_pos rfl]
    refine round64_of (3 * 2 ^ 51 + 2 ^ 26 - 1) (-53) (rnd64_near _ _ (by norm_num) ?_ ?_ ?_) rfl (by norm_num) (by norm_num) (by norm_num)
    · rw [hf, hd, abs_of_pos (by positivity)]; norm_num
    · rw [hf, hd, abs_of_pos (by positivity)]; norm_num
    · rw [hf, hd, abs_lt]; constructor <;> norm_num
  have s1 : DecayMean.push (Decay.Mean.init (X.fin f)) ((false, false), X.fin 1)
      = ({ meanFactor := X.fin f, normalization := X.fin f, sumMean := X.fin f } : Decay.Mean (X binary64)) := by
    show Decay.Mean.mk (X.fin f) (ofNat 0 + X.fin f * (ofNat 1 - ofNat 0)) (ofNat 0 + X.fin f * (X.fin 1 - ofNat 0)) = _
    rw [h0, h1, e1, e2]
  have s2 : DecayMean.push ({ meanFactor := X.fin f, normalization := X.fin f, sumMean := X.fin f } : Decay.Mean (X binary64))
      ((true, false), X.fin 1)
      = { meanFactor := X.fin f, normalization := X.fin (((3 * 2 ^ 51 + 2 ^ 26 - 2 : Int) : ℝ) * 2 ^ (-53 : Int)),
          sumMean := X.fin (((3 * 2 ^ 51 + 2 ^ 26 - 1 : Int) : ℝ) * 2 ^ (-53 : Int)) } := by
    show Decay.Mean.mk (X.fin f) (X.fin f + X.fin f * (ofNat 1 - X.fin f)) (addMul true (X.fin f) (X.fin f) (X.fin 1 - X.fin f)) = _
    rw [h1, e3, e5, e6]
  show (DecayMean.push (DecayMean.push (Decay.Mean.init (X.fin f)) ((false, false), X.fin 1)) ((true, false), X.fin 1)).mean = _
  rw [s1, s2]
  show (if lt (ofNat 0) (X.fin _) then X.fin _ / X.fin _ else ofNat 0) = _
  rw [h0, X.lt_fin, if_pos (by norm_num), X.div_fin_of_ne _ (by norm_num)]
  refine round64_of (2 ^ 52 + 1) (-52) (rnd64_near _ _ (by norm_num) ?_ ?_ ?_) rfl (by norm_num) (by norm_num) (by norm_num)
  · rw [abs_of_pos (by positivity)]; norm_num
  · rw [abs_of_pos (by positivity)]; norm_num
  · rw [abs_lt]; constructor <;> norm_num

theorem C164_violated : ¬ C164_Statement := by
  intro h
  have hfd := double (2 ^ 52 + 2 ^ 26 - 1) (-53) (by norm_num) (by norm_num) (by norm_num)
  have := h _ (by norm_num) (by norm_num) hfd.1 [.push ((false, false), 1), .push ((true, false), 1)]
    (by simp [pushed, sinceClear]) (by simp [pushed, sinceClear])
  rw [C164_violated_value, X.fin_inj] at this
  norm_num at this

/-- C164, the part that holds: if lines 53 and 54 are contracted alike in every push then the mean of a stream of ones is
exactly 1; if not, the error is bounded (`C163_mean_error`). -/
theorem C164_ones_partial (hF : F.Binary p emin) {f : ℝ} (hf0 : 0 < f) (hf1 : f ≤ 1) (hfr : IsRep p emin f)
    (ops : List (Op ((Bool × Bool) × ℝ))) (hne : pushed ops ≠ []) (h : ∀ x ∈ pushed ops, x = 1)
    (alike : ∀ i ∈ sinceClear ops, i.1.1 = i.1.2) :
    (DecayMean.run (X.fin f) (finK ops) : Decay.Mean (X F)).mean = X.fin 1 := by
  have key : ∀ is : List ((Bool × Bool) × ℝ), (∀ i ∈ is, i.2 = 1) → (∀ i ∈ is, i.1.1 = i.1.2) →
      ∃ n : ℝ, (is.map fun i => (i.1, X.fin i.2)).foldl DecayMean.push (Decay.Mean.init (X.fin f) : Decay.Mean (X F))
        = { meanFactor := X.fin f, normalization := X.fin n, sumMean := X.fin n }
        ∧ IsRep p emin n ∧ n ≤ 1 ∧ (is = [] → n = 0) ∧ (is ≠ [] → f ≤ n) := by
    intro is
    induction is using List.reverseRecOn with
    | nil =>
      intro _ _
      refine ⟨0, ?_, isRep_zero _ _, zero_le_one, fun _ => rfl, fun h => absurd rfl h⟩
      show Decay.Mean.mk (X.fin f) (ofNat 0) (ofNat 0) = _
      rw [hF.ofNat_zero]
    | append_singleton is i ih =>
      intro h1 h2
      obtain ⟨n, e, hr, hn1, hz, hge⟩ := ih (fun j hj => h1 j (List.mem_append_left _ hj)) (fun j hj => h2 j (List.mem_append_left _ hj))
      have h0 : n = 0 ∨ f ≤ n := by
        rcases eq_or_ne is [] with h0 | h0
        · exact Or.inl (hz h0)
        · exact Or.inr (hge h0)
      obtain ⟨n', b1, -, b3, -, b5, b6⟩ := fused_norm_step (F := F) hF i.1.2 hf0 hf1 hfr hr hn1 h0
      refine ⟨n', ?_, b3, b6, fun h => by simp at h, fun _ => b5⟩
      rw [List.map_append, List.map_singleton, List.foldl_append, e]
      show Decay.Mean.mk (X.fin f) (addMul i.1.2 (X.fin n) (X.fin f) (ofNat 1 - X.fin n))
        (addMul i.1.1 (X.fin n) (X.fin f) (X.fin i.2 - X.fin n)) = _
      rw [h2 i (by simp), h1 i (by simp), ← hF.ofNat_one, b1]
  have hne' : sinceClear ops ≠ [] := fun h0 => hne (by rw [pushed, h0]; rfl)
  obtain ⟨n, e, hr, hn1, -, hge⟩ := key (sinceClear ops) (fun i hi => h _ (List.mem_map_of_mem hi)) alike
  have hn0 : 0 < n := lt_of_lt_of_le hf0 (hge hne')
  rw [decayMean_run_eq, sinceClear_finK, e]
  show (if lt (ofNat 0) (X.fin n) then X.fin n / X.fin n else ofNat 0) = _
  rw [hF.ofNat_zero, X.lt_fin, decide_eq_true hn0, if_pos rfl, X.div_fin_of_ne _ hn0.ne', div_self hn0.ne',
    hF.round_exact hF.isRep_one hF.fits_one]

/-- The factor of the example: alike in both lines, contracted in the second push only. -/
example : (DecayMean.run (X.fin (((2 ^ 52 + 2 ^ 26 - 1 : Int) : ℝ) * 2 ^ (-53 : Int)))
    (finK [.push ((true, false), 7), .clear, .push ((false, false), 1), .push ((true, true), 1)]) : Decay.Mean (X binary64)).mean
    = X.fin 1 :=
  C164_ones_partial binary64_binary (by norm_num) (by norm_num)
    (double (2 ^ 52 + 2 ^ 26 - 1) (-53) (by norm_num) (by norm_num) (by norm_num)).1 _
    (by simp [pushed, sinceClear]) (by simp [pushed, sinceClear]) (by simp [sinceClear])

end Verif.Props
