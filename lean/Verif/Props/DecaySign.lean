import Verif.Proofs.Nearest
import Verif.Proofs.DecayRounded
/-
C100: the decaying variance and kurtosis are never negative in floating-point arithmetic.
-/
namespace Verif.Props
open Scalar Verif.Decay

variable {F : Fmt} {p : Nat} {emin : Int}

/-- Not below zero: NaN, `+inf`, or a number that is not negative. -/
def NonNegOrNan (v : X F) : Prop := v = X.nan ∨ v = X.pinf ∨ ∃ r : ℝ, 0 ≤ r ∧ v = X.fin r

/-- `NonNegOrNan` is what a comparison with 0 sees. -/
theorem nonNegOrNan_iff (hF : F.Binary p emin) (v : X F) : NonNegOrNan v ↔ lt v (ofNat 0) = false := by
  rw [hF.ofNat_zero]
  constructor
  · rintro (rfl | rfl | ⟨r, hr, rfl⟩)
    · rfl
    · rfl
    · rw [X.lt_fin]; simpa using hr
  · intro h
    cases v with
    | fin r => rw [X.lt_fin] at h; exact .inr (.inr ⟨r, by simpa using h, rfl⟩)
    | pinf => exact .inr (.inl rfl)
    | ninf => exact absurd h Bool.noConfusion
    | nan => exact .inl rfl

/-- The same for a sum kept by a filter; finite ones are numbers of the format. -/
def SumNotNeg (p : Nat) (emin : Int) (v : X F) : Prop :=
  v = X.nan ∨ v = X.pinf ∨ ∃ r : ℝ, 0 ≤ r ∧ IsRep p emin r ∧ F.fits r ∧ v = X.fin r

theorem SumNotNeg.notNeg {v : X F} (h : SumNotNeg p emin v) : NonNegOrNan v := by
  rcases h with h | h | ⟨r, h, -, -, e⟩
  · exact .inl h
  · exact .inr (.inl h)
  · exact .inr (.inr ⟨r, h, e⟩)

theorem sumNotNeg_round (hF : F.Binary p emin) {r : ℝ} (hr : 0 ≤ r) : SumNotNeg p emin (X.round r : X F) := by
  rcases hF.round_nonneg hr with h | ⟨d, h0, h1, h2, -, h⟩
  · exact .inr (.inl h)
  · exact .inr (.inr ⟨d, h0, h1, h2, h⟩)

/-- One step of exponential smoothing towards a target that is not negative. -/
theorem smooth_notNeg (hF : F.Binary p emin) {f : ℝ} (hf0 : 0 < f) (hf1 : f ≤ 1) {s t : X F} (hs : SumNotNeg p emin s)
    (ht : NonNegOrNan t) : SumNotNeg p emin (s + X.fin f * (t - s)) := by
  have e1 : (X.fin f * X.pinf : X F) = X.pinf := by
    show X.signedInf f = _
    rw [X.signedInf, if_pos hf0]
  have e2 : (X.fin f * X.ninf : X F) = X.ninf := by
    show X.signedInf (-f) = _
    rw [X.signedInf, if_neg (by linarith), if_pos (by linarith)]
  rcases hs with rfl | rfl | ⟨r, hr, hrep, hfit, rfl⟩
  · exact .inl rfl
  · refine .inl ?_
    rcases ht with rfl | rfl | ⟨d, -, rfl⟩
    · rfl
    · rfl
    · show X.pinf + X.fin f * X.ninf = _
      rw [e2]; rfl
  · rcases ht with rfl | rfl | ⟨d, hd, rfl⟩
    · exact .inl rfl
    · refine .inr (.inl ?_)
      show X.fin r + X.fin f * X.pinf = _
      rw [e1]; rfl
    · rw [X.sub_fin, X.round]
      have h1 : -r ≤ F.rnd (d - r) := hF.le_rnd hrep.neg (by linarith)
      split_ifs with hfd hpos
      · rw [X.mul_fin, X.round]
        have h2 : -r ≤ F.rnd (f * F.rnd (d - r)) := by
          refine hF.le_rnd hrep.neg ?_
          rcases le_total 0 (F.rnd (d - r)) with h | h
          · have := mul_nonneg hf0.le h
            linarith
          · nlinarith
        split_ifs with hfm hpos'
        · rw [X.add_fin]
          exact sumNotNeg_round hF (by linarith)
        · exact .inr (.inl rfl)
        · exfalso
          refine hfm (hF.fits_between (hF.fits_neg hfit) hF.fits_zero h2 (hF.rnd_nonpos (not_lt.1 hpos')))
      · rw [e1]; exact .inr (.inl rfl)
      · exfalso
        exact hfd (hF.fits_between (hF.fits_neg hfit) hF.fits_zero h1 (hF.rnd_nonpos (not_lt.1 hpos)))

/-- Squares are not negative. -/
theorem square_notNeg (hF : F.Binary p emin) (d : X F) : NonNegOrNan (d * d) := by
  cases d with
  | fin r => rw [X.mul_fin]; exact (sumNotNeg_round hF (mul_self_nonneg r)).notNeg
  | pinf => exact .inr (.inl rfl)
  | ninf => exact .inr (.inl rfl)
  | nan => exact .inl rfl

theorem round_sign (hF : F.Binary p emin) (r : ℝ) :
    (0 ≤ r → (X.round r : X F) = X.pinf ∨ ∃ d, 0 ≤ d ∧ (X.round r : X F) = X.fin d)
    ∧ (r ≤ 0 → (X.round r : X F) = X.ninf ∨ ∃ d, d ≤ 0 ∧ (X.round r : X F) = X.fin d) := by
  constructor
  · intro hr
    rcases hF.round_nonneg hr with h | ⟨d, h0, -, -, -, h⟩
    · exact .inl h
    · exact .inr ⟨d, h0, h⟩
  · intro hr
    rw [X.round]
    split_ifs with h h'
    · exact .inr ⟨_, hF.rnd_nonpos hr, rfl⟩
    · exact absurd h' (not_lt.2 hr)
    · exact .inl rfl

/-- Fourth powers, computed as the code does. -/
theorem fourth_notNeg (hF : F.Binary p emin) (d : X F) : NonNegOrNan (d * d * d * d) := by
  cases d with
  | nan => exact .inl rfl
  | pinf => exact .inr (.inl rfl)
  | ninf => exact .inr (.inl rfl)
  | fin r =>
    have sgn : ∀ a : ℝ, (0 < a → X.signedInf a = (X.pinf : X F)) ∧ (a < 0 → X.signedInf a = (X.ninf : X F))
        ∧ (a = 0 → X.signedInf a = (X.nan : X F)) := by
      intro a
      refine ⟨fun h => by rw [X.signedInf, if_pos h], fun h => by rw [X.signedInf, if_neg (by linarith), if_pos h], ?_⟩
      rintro rfl
      simp [X.signedInf]
    have hmul : ∀ a : ℝ, (X.pinf * X.fin a : X F) = X.signedInf a ∧ (X.ninf * X.fin a : X F) = X.signedInf (-a) :=
      fun a => ⟨rfl, rfl⟩
    rw [X.mul_fin]
    rcases (round_sign hF (r * r)).1 (mul_self_nonneg r) with h | ⟨q, hq, h⟩
    · rw [h, (hmul r).1]
      rcases lt_trichotomy r 0 with hr | hr | hr
      · rw [(sgn r).2.1 hr, (hmul r).2, (sgn (-r)).1 (by linarith)]; exact .inr (.inl rfl)
      · rw [(sgn r).2.2 hr]; exact .inl rfl
      · rw [(sgn r).1 hr, (hmul r).1, (sgn r).1 hr]; exact .inr (.inl rfl)
    · rw [h, X.mul_fin]
      rcases le_total 0 r with hr | hr
      · rcases (round_sign hF (q * r)).1 (mul_nonneg hq hr) with h | ⟨c, hc, h⟩
        · rw [h, (hmul r).1]
          rcases hr.lt_or_eq with hr | hr
          · rw [(sgn r).1 hr]; exact .inr (.inl rfl)
          · rw [(sgn r).2.2 hr.symm]; exact .inl rfl
        · rw [h, X.mul_fin]; exact (sumNotNeg_round hF (mul_nonneg hc hr)).notNeg
      · rcases (round_sign hF (q * r)).2 (mul_nonpos_of_nonneg_of_nonpos hq hr) with h | ⟨c, hc, h⟩
        · rw [h, (hmul r).2]
          rcases hr.lt_or_eq with hr | hr
          · rw [(sgn (-r)).1 (by linarith)]; exact .inr (.inl rfl)
          · rw [(sgn (-r)).2.2 (by linarith)]; exact .inl rfl
        · rw [h, X.mul_fin]; exact (sumNotNeg_round hF (mul_nonneg_of_nonpos_of_nonpos hc hr)).notNeg

/-- Quotients of numbers that are not negative. -/
theorem div_notNeg (hF : F.Binary p emin) {a b : X F} (ha : NonNegOrNan a) (hb : NonNegOrNan b) : NonNegOrNan (a / b) := by
  rcases ha with rfl | rfl | ⟨r, hr, rfl⟩
  · exact .inl (by cases b <;> rfl)
  · rcases hb with rfl | rfl | ⟨q, hq, rfl⟩
    · exact .inl rfl
    · exact .inl rfl
    · refine .inr (.inl ?_)
      show (if q < 0 then _ else _) = _
      rw [if_neg (not_lt.2 hq)]
  · rcases hb with rfl | rfl | ⟨q, hq, rfl⟩
    · exact .inl rfl
    · exact .inr (.inr ⟨0, le_refl _, rfl⟩)
    · rcases hq.lt_or_eq with hq | rfl
      · rw [X.div_fin_of_ne _ hq.ne']
        exact (sumNotNeg_round hF (div_nonneg hr hq.le)).notNeg
      · rw [X.div_fin_zero, X.signedInf]
        split_ifs with h h'
        · exact .inr (.inl rfl)
        · linarith
        · exact .inl rfl

theorem lt_zero_notNeg (hF : F.Binary p emin) {v : X F} (h : lt (ofNat 0) v = true) : NonNegOrNan v := by
  rw [hF.ofNat_zero] at h
  cases v with
  | fin r => rw [X.lt_fin] at h; exact .inr (.inr ⟨r, (of_decide_eq_true h).le, rfl⟩)
  | pinf => exact .inr (.inl rfl)
  | ninf => exact absurd h Bool.noConfusion
  | nan => exact .inl rfl

/-- C100: in every binary format and rounding direction, for every history of calls and all data including NaN and
infinities, the decaying variance does not compare below zero. -/
theorem C100_variance (hF : F.Binary p emin) {f : ℝ} (hf0 : 0 < f) (hf1 : f ≤ 1) (m : X F) (ops : List (Op (X F))) :
    lt (Variance.run m (X.fin f) ops).variance (ofNat 0) = false := by
  rw [← nonNegOrNan_iff hF]
  have key : ∀ (ops : List (Op (X F))) (s : Variance (X F)), s.varFactor = X.fin f → SumNotNeg p emin s.sumVariance →
      SumNotNeg p emin (runOps s Variance.push Variance.clear ops).sumVariance := by
    intro ops
    induction ops with
    | nil => intro s _ h; exact h
    | cons op ops ih =>
      intro s hs h
      cases op with
      | clear => exact ih _ hs (.inr (.inr ⟨0, le_refl _, isRep_zero _ _, hF.fits_zero, hF.ofNat_zero⟩))
      | push x =>
        refine ih _ hs ?_
        simp only [Variance.push, hs]
        exact smooth_notNeg hF hf0 hf1 h (square_notNeg hF _)
  have hsum := key ops (Variance.init m (X.fin f)) rfl
    (.inr (.inr ⟨0, le_refl _, isRep_zero _ _, hF.fits_zero, hF.ofNat_zero⟩))
  rw [Variance.variance]
  split_ifs with h
  · exact div_notNeg hF hsum.notNeg (lt_zero_notNeg hF h)
  · exact .inr (.inr ⟨0, le_refl _, hF.ofNat_zero⟩)

/-- C100 for the variance and the kurtosis of the filter with kurtosis. -/
theorem C100_kurtosis (hF : F.Binary p emin) {f k : ℝ} (hf0 : 0 < f) (hf1 : f ≤ 1) (hk0 : 0 < k) (hk1 : k ≤ 1) (m g : X F)
    (ops : List (Op (X F))) :
    lt (Kurtosis.run m (X.fin f) g (X.fin k) ops).variance (ofNat 0) = false
    ∧ lt (Kurtosis.run m (X.fin f) g (X.fin k) ops).kurtosis (ofNat 0) = false := by
  rw [← nonNegOrNan_iff hF, ← nonNegOrNan_iff hF]
  have h0 : SumNotNeg p emin (ofNat 0 : X F) := .inr (.inr ⟨0, le_refl _, isRep_zero _ _, hF.fits_zero, hF.ofNat_zero⟩)
  have hz : NonNegOrNan (ofNat 0 : X F) := h0.notNeg
  have key : ∀ (ops : List (Op (X F))) (s : Kurtosis (X F)), s.super.super.varFactor = X.fin f →
      s.kurtosisFactor = X.fin k → SumNotNeg p emin s.super.super.sumVariance → SumNotNeg p emin s.sumKurtosis →
      SumNotNeg p emin (runOps s Kurtosis.push Kurtosis.clear ops).super.super.sumVariance
      ∧ SumNotNeg p emin (runOps s Kurtosis.push Kurtosis.clear ops).sumKurtosis := by
    intro ops
    induction ops with
    | nil => intro s _ _ h1 h2; exact ⟨h1, h2⟩
    | cons op ops ih =>
      intro s hs hs' h1 h2
      cases op with
      | clear => exact ih _ hs hs' h0 h0
      | push x =>
        refine ih _ hs hs' ?_ ?_
        · simp only [Kurtosis.push, Skewness.push, Variance.push, hs]
          exact smooth_notNeg hF hf0 hf1 h1 (square_notNeg hF _)
        · simp only [Kurtosis.push, hs']
          exact smooth_notNeg hF hk0 hk1 h2 (fourth_notNeg hF _)
  obtain ⟨h1, h2⟩ := key ops (Kurtosis.init m (X.fin f) g (X.fin k)) rfl rfl h0 h0
  constructor
  · rw [Kurtosis.variance, Skewness.variance, Variance.variance]
    split_ifs with h
    · exact div_notNeg hF h1.notNeg (lt_zero_notNeg hF h)
    · exact hz
  · simp only [Kurtosis.kurtosis]
    split_ifs with h
    · exact div_notNeg hF (div_notNeg hF h2.notNeg (square_notNeg hF _)) (lt_zero_notNeg hF h)
    · exact hz
    · exact hz

/-- C100 for the variance of the filter with skewness. -/
theorem C100_skewness (hF : F.Binary p emin) {f : ℝ} (hf0 : 0 < f) (hf1 : f ≤ 1) (m g : X F)
    (ops : List (Op (X F))) : lt (Skewness.run m (X.fin f) g ops).variance (ofNat 0) = false := by
  have e : ∀ (ops : List (Op (X F))) (s : Skewness (X F)), (runOps s Skewness.push Skewness.clear ops).super
      = runOps s.super Variance.push Variance.clear ops := by
    intro ops
    induction ops with
    | nil => intro s; rfl
    | cons op ops ih =>
      intro s
      cases op with
      | clear => exact ih _
      | push x => exact ih _
  have := C100_variance hF hf0 hf1 m ops
  rw [Skewness.variance, Skewness.run, e]
  exact this

/-- `double`, factor 1/2, data with an infinity. -/
example : lt (Variance.run (X.fin (1 / 2)) (X.fin (1 / 2)) [.push (X.fin 1), .push X.pinf, .clear, .push (X.fin 3)]
    : Variance (X binary64)).variance (ofNat 0) = false :=
  C100_variance binary64_binary (by norm_num) (by norm_num) _ _

end Verif.Props
