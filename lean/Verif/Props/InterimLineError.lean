import Verif.Props.LineError
import Verif.Props.InterimInputError
import Mathlib.Algebra.QuadraticDiscriminant
/-
C189: the interim regression of data with measurement errors in both variables.
-/
namespace Verif.Props
open Scalar Exact

variable {w W : Nat} {ε δ₁ δ₂ : ℝ} {β : Type}

/-- A symmetric bilinear form that is not negative on the diagonal. -/
structure Semi (B : (β → ℝ) → (β → ℝ) → ℝ) : Prop where
  left : ∀ (a b : ℝ) (u u' v : β → ℝ), B (fun q => a * u q + b * u' q) v = a * B u v + b * B u' v
  symm : ∀ u v, B u v = B v u
  nonneg : ∀ u, 0 ≤ B u u

namespace Semi

variable {B : (β → ℝ) → (β → ℝ) → ℝ} (h : Semi B)
include h

theorem right (a b : ℝ) (u v v' : β → ℝ) : B u (fun q => a * v q + b * v' q) = a * B u v + b * B u v' := by
  rw [h.symm, h.left, h.symm v, h.symm v']

theorem abs_le (u v : β → ℝ) : |B u v| ≤ √(B u u) * √(B v v) := by
  have hq : ∀ t : ℝ, 0 ≤ B v v * (t * t) + 2 * B u v * t + B u u := by
    intro t
    have := h.nonneg fun q => 1 * u q + t * v q
    rw [h.left, h.right, h.right, h.symm v u] at this
    linarith
  have hd := discrim_le_zero hq
  rw [discrim] at hd
  rw [← Real.sqrt_mul (h.nonneg _), ← Real.sqrt_sq_eq_abs]
  exact Real.sqrt_le_sqrt (by nlinarith)

/-- The bound for the slope, for any `k`, `k'` that solve the normal equations. -/
theorem slope {x y x' y' : β → ℝ} {k k' : ℝ} (hk : B x y = k * B x x) (hk' : B x' y' = k' * B x' x')
    (h1 : √(B (fun q => (-1) * x q + 1 * x' q) (fun q => (-1) * x q + 1 * x' q)) ≤ δ₁)
    (h2 : √(B (fun q => (-1) * y q + 1 * y' q) (fun q => (-1) * y q + 1 * y' q)) ≤ δ₂) (hv : 0 < B x' x') :
    |k' - k| ≤ (δ₁ * √(B y y) / √(B x' x') + |k| * δ₁ + δ₂) / √(B x' x') := by
  set d : β → ℝ := fun q => (-1) * x q + 1 * x' q with hd
  set e : β → ℝ := fun q => (-1) * y q + 1 * y' q with he
  set r : β → ℝ := fun q => 1 * y q + (-k) * x q with hr
  have hδ1 : 0 ≤ δ₁ := (Real.sqrt_nonneg _).trans h1
  have hs : 0 < √(B x' x') := Real.sqrt_pos.2 hv
  have hsq := Real.mul_self_sqrt hv.le
  have hxr : B x r = 0 := by rw [hr, h.right, hk]; ring
  have hrr : B r r ≤ B y y := by
    have e1 : B r r = 1 * B y r + (-k) * B x r := h.left 1 (-k) y x r
    have e2 : B y r = 1 * B y y + (-k) * B y x := h.right 1 (-k) y y x
    rw [e1, e2, hxr, h.symm y x, hk]
    have := mul_nonneg (mul_self_nonneg k) (h.nonneg x)
    linarith
  have key : (k' - k) * B x' x' = B d r - k * B x' d + B x' e := by
    have e1 : B x' e = (-1) * B x' y + 1 * B x' y' := h.right (-1) 1 x' y y'
    have e2 : B x' d = (-1) * B x' x + 1 * B x' x' := h.right (-1) 1 x' x x'
    have e3 : B d r = (-1) * B x r + 1 * B x' r := h.left (-1) 1 x x' r
    have e4 : B x' r = 1 * B x' y + (-k) * B x' x := h.right 1 (-k) x' y x
    rw [e1, e2, e3, e4, hxr, hk']
    ring
  have b1 : |B d r| ≤ δ₁ * √(B y y) :=
    (h.abs_le d r).trans (mul_le_mul h1 (Real.sqrt_le_sqrt hrr) (Real.sqrt_nonneg _) hδ1)
  have b2 : |B x' d| ≤ √(B x' x') * δ₁ := (h.abs_le x' d).trans (mul_le_mul_of_nonneg_left h1 hs.le)
  have b3 : |B x' e| ≤ √(B x' x') * δ₂ := (h.abs_le x' e).trans (mul_le_mul_of_nonneg_left h2 hs.le)
  have b4 : |(k' - k) * B x' x'| ≤ δ₁ * √(B y y) + |k| * (√(B x' x') * δ₁) + √(B x' x') * δ₂ := by
    rw [key]
    refine (abs_add_le _ _).trans (add_le_add ((abs_sub _ _).trans (add_le_add b1 ?_)) b3)
    rw [abs_mul]
    exact mul_le_mul_of_nonneg_left b2 (abs_nonneg _)
  rw [abs_mul, abs_of_pos hv] at b4
  rw [le_div_iff₀ hs]
  have e : δ₁ * √(B y y) / √(B x' x') * √(B x' x') = δ₁ * √(B y y) := div_mul_cancel₀ _ hs.ne'
  refine le_of_mul_le_mul_right ?_ hs
  rw [mul_assoc, hsq, add_mul, add_mul, e]
  linarith

end Semi

/-- The interim covariance of two quantities that belong to the elements of a list. -/
noncomputable def icv (W : Nat) (qs : List β) (u v : β → ℝ) : ℝ :=
  Spec_interimVariance W Spec.covariance (qs.map fun q => (u q, v q))

theorem icv_eq (qs : List β) (u v : β → ℝ) : icv W qs u v = if qs.length ≤ W then cv qs u v
    else Spec.blend ((W - (((Spec.curBlock W qs).length : ℝ) - 1)) ^ 2) (2 * (((Spec.curBlock W qs).length : ℝ) - 1))
      (cv (Spec.prevBlock W qs) u v) (cv (Spec.curBlock W qs) u v) := by
  simp only [icv, Spec_interimVariance, Spec.curBlock_map, Spec.prevBlock_map, List.length_map, cv]

theorem icv_self (qs : List β) (u : β → ℝ) : icv W qs u u = Spec_interimVariance W Spec.variance (qs.map u) := by
  simp only [icv_eq, Spec_interimVariance, Spec.curBlock_map, Spec.prevBlock_map, List.length_map, cv_self]

theorem icv_semi (hW : 1 ≤ W) {qs : List β} (hne : qs ≠ []) : Semi (icv W qs) where
  left a b u u' v := by
    simp only [icv_eq]
    split_ifs
    · exact cv_left qs a b u u' v
    · rw [cv_left, cv_left, Spec.blend, Spec.blend, Spec.blend]; ring
  symm u v := by
    simp only [icv_eq]
    rw [cv_symm qs, cv_symm (Spec.prevBlock W qs), cv_symm (Spec.curBlock W qs)]
  nonneg u := by
    rw [icv_self]
    exact (C30_interim_variance_convex hW _ _ (by simpa using hne)).2.2 variance_nonneg

/-- The slope of the code: 0 if the interim variance is 0. -/
theorem icv_slope (hW : 1 ≤ W) {qs : List β} (hne : qs ≠ []) (x y : β → ℝ) :
    icv W qs x y = (if icv W qs x x = 0 then 0 else icv W qs x y / icv W qs x x) * icv W qs x x := by
  split_ifs with h
  · have := (icv_semi hW hne).abs_le x y
    rw [h, Real.sqrt_zero, zero_mul] at this
    rw [zero_mul]
    exact abs_nonpos_iff.1 this
  · rw [div_mul_cancel₀ _ h]

theorem icv_error (hW : 1 ≤ W) {qs : List β} (hne : qs ≠ []) {d : β → ℝ} {δ : ℝ} (h0 : 0 ≤ δ)
    (h : ∀ q ∈ Spec.prevBlock W qs ++ Spec.curBlock W qs, |d q| ≤ δ) : √(icv W qs d d) ≤ δ := by
  refine sqrt_le_of_le_mul h0 ?_
  have hcne : Spec.curBlock W qs ≠ [] := fun h => hne ((Spec.curBlock_eq_nil hW qs).1 h)
  have hc1 : (1 : ℝ) ≤ (Spec.curBlock W qs).length := by exact_mod_cast List.length_pos_iff.2 hcne
  have hcW : ((Spec.curBlock W qs).length : ℝ) ≤ W := by exact_mod_cast Spec.length_curBlock_le hW qs
  have one : ∀ l : List β, l ≠ [] → (∀ q ∈ l, q ∈ Spec.prevBlock W qs ++ Spec.curBlock W qs) → 0 ≤ cv l d d ∧ cv l d d ≤ δ * δ := by
    intro l hl hs
    refine ⟨cv_nonneg l d, ?_⟩
    rw [cv_self]
    refine PairData.variance_le (by simpa using hl) fun x hx => ?_
    obtain ⟨q, hq, rfl⟩ := List.mem_map.1 hx
    exact h q (hs q hq)
  rw [icv_eq]
  by_cases hl : qs.length ≤ W
  · rw [if_pos hl]
    refine (one qs hne fun q hq => ?_).2
    rw [Spec.curBlock_of_le hW hl]
    exact List.mem_append_right _ hq
  · rw [if_neg hl]
    have hpne : Spec.prevBlock W qs ≠ [] := fun h => hl ((Spec.prevBlock_eq_nil hW qs).1 h)
    exact (Spec.blend_mem (by positivity) (by linarith) (by nlinarith) (one _ hpne fun q hq => List.mem_append_left _ hq)
      (one _ hcne fun q hq => List.mem_append_right _ hq)).2

/-- The slope of the interim regression in exact arithmetic, for any history. -/
theorem interim_slope_result (hW : 1 ≤ W) (hw : W * W < 2 ^ w) (ops : List (Op (ℝ × ℝ))) (hne : sinceClear ops ≠ []) :
    (Interim.Regression.run (finOps2 ops) : Interim.Regression w W (E ε)).slope
      = X.fin (if icv W (sinceClear ops) Prod.fst Prod.fst = 0 then 0
          else icv W (sinceClear ops) Prod.fst Prod.snd / icv W (sinceClear ops) Prod.fst Prod.fst) := by
  obtain ⟨h1, h2, -⟩ := regression_run (w := w) (W := W) (finOps2 ops : List (Op (E ε × E ε)))
  have hcov := C31_interim_covariance (w := w) (W := W) (ε := ε) hW hw ops hne
  have hmap : (finOps2 ops : List (Op (E ε × E ε))).map (Op.map Prod.fst) = finOps (ops.map (Op.map Prod.fst)) := by
    simp only [finOps, finOps2, List.map_map]
    refine List.map_congr_left fun op _ => ?_
    cases op <;> rfl
  have hsx : sinceClear (ops.map (Op.map Prod.fst)) = (sinceClear ops).map Prod.fst := sinceClear_map _ _
  have hvar := (C30_interim_variance (w := w) (W := W) (ε := ε) hW hw (ops.map (Op.map Prod.fst))
    (by rw [hsx]; simpa using hne)).1
  rw [hsx, ← icv_self] at hvar
  have e : icv W (sinceClear ops) Prod.fst Prod.snd = Spec_interimVariance W Spec.covariance (sinceClear ops) := by
    simp [icv]
  rw [← e] at hcov
  rw [Interim.Regression.slope]
  simp only [h1, h2, hmap, hcov, hvar, Exact.ofNat_eq, beq_fin, Nat.cast_zero, decide_eq_true_eq]
  split_ifs with h
  · rfl
  · rw [div_fin _ h]

theorem measured2_blocks {qs : List ((ℝ × ℝ) × (ℝ × ℝ))} (hm : Measured2 δ₁ δ₂ (Spec.prevBlock W qs ++ Spec.curBlock W qs)) :
    (∀ q ∈ Spec.prevBlock W qs ++ Spec.curBlock W qs, |(-1) * q.1.1 + 1 * q.2.1| ≤ δ₁)
      ∧ ∀ q ∈ Spec.prevBlock W qs ++ Spec.curBlock W qs, |(-1) * q.1.2 + 1 * q.2.2| ≤ δ₂ := by
  constructor <;> intro q hq
  · rw [show (-1) * q.1.1 + 1 * q.2.1 = q.2.1 - q.1.1 by ring]
    exact hm.1.2 _ (List.mem_map.2 ⟨q, hq, rfl⟩)
  · rw [show (-1) * q.1.2 + 1 * q.2.2 = q.2.2 - q.1.2 by ring]
    exact hm.2.2 _ (List.mem_map.2 ⟨q, hq, rfl⟩)

theorem icv_map {γ : Type} (f : β → γ) (qs : List β) (u v : γ → ℝ) :
    icv W (qs.map f) u v = icv W qs (fun q => u (f q)) fun q => v (f q) := by
  simp [icv, Function.comp_def]

open Interim in
/-- C189: the slope of the interim regression; only the errors in the last two blocks count. -/
theorem C189_interim_slope (hW : 1 ≤ W) (hw : W * W < 2 ^ w) (ops : List (Op ((ℝ × ℝ) × (ℝ × ℝ)))) (hne : sinceClear ops ≠ [])
    (hm : Measured2 δ₁ δ₂ (Spec.prevBlock W (sinceClear ops) ++ Spec.curBlock W (sinceClear ops))) :
    ∃ k k' vy vx' : ℝ, (Regression.run (finOps2 (firsts ops)) : Regression w W (E ε)).slope = X.fin k
      ∧ (Regression.run (finOps2 (seconds ops)) : Regression w W (E ε)).slope = X.fin k'
      ∧ IVariance.variance (Interim.run (finOps (seconds (firsts ops))) : IVariance w W (E ε)) = X.fin vy
      ∧ IVariance.variance (Interim.run (finOps (firsts (seconds ops))) : IVariance w W (E ε)) = X.fin vx'
      ∧ (0 < vx' → |k' - k| ≤ Spec_slopeError δ₁ δ₂ k √vy √vx') := by
  refine ⟨_, _, _, _, interim_slope_result hW hw _ ?_, interim_slope_result hW hw _ ?_, (C30_interim_variance hW hw _ ?_).1,
    (C30_interim_variance hW hw _ ?_).1, fun hv => ?_⟩
  · simpa [sinceClear_firsts] using hne
  · simpa [sinceClear_seconds] using hne
  · simpa [sinceClear_firsts, sinceClear_seconds] using hne
  · simpa [sinceClear_firsts, sinceClear_seconds] using hne
  · simp only [sinceClear_firsts, sinceClear_seconds, ← icv_self, icv_map, List.map_map] at hv ⊢
    obtain ⟨m1, m2⟩ := measured2_blocks hm
    exact (icv_semi hW hne).slope (x := fun q => q.1.1) (y := fun q => q.1.2) (x' := fun q => q.2.1) (y' := fun q => q.2.2)
      (icv_slope hW hne _ _) (icv_slope hW hne _ _) (icv_error hW hne hm.1.1 m1) (icv_error hW hne hm.2.1 m2) hv

/-- The interim mean of measured values. -/
theorem interimMean_error (hW : 1 ≤ W) {qs : List β} (hne : qs ≠ []) {x x' : β → ℝ} {δ : ℝ} (h0 : 0 ≤ δ)
    (h : ∀ q ∈ Spec.prevBlock W qs ++ Spec.curBlock W qs, |(-1) * x q + 1 * x' q| ≤ δ) :
    |Spec_interimMean W (qs.map x') - Spec_interimMean W (qs.map x)| ≤ δ := by
  have hcne : Spec.curBlock W qs ≠ [] := fun h => hne ((Spec.curBlock_eq_nil hW qs).1 h)
  have hc1 : (1 : ℝ) ≤ (Spec.curBlock W qs).length := by exact_mod_cast List.length_pos_iff.2 hcne
  have hcW : ((Spec.curBlock W qs).length : ℝ) ≤ W := by exact_mod_cast Spec.length_curBlock_le hW qs
  have one : ∀ l : List β, (∀ q ∈ l, q ∈ Spec.prevBlock W qs ++ Spec.curBlock W qs) →
      |Spec.mean (l.map fun q => (-1) * x q + 1 * x' q)| ≤ δ := by
    intro l hs
    refine Window.abs_mean_le h0 fun y hy => ?_
    obtain ⟨q, hq, rfl⟩ := List.mem_map.1 hy
    exact h q (hs q hq)
  have e := linear_error (linear_interim W) (qs.map fun q => (x q, x' q))
  simp only [errors, List.map_map, Function.comp_def] at e
  rw [e]
  simp only [Spec_interimMean, Spec.prevBlock_map, Spec.curBlock_map, List.length_map]
  by_cases hl : qs.length ≤ W
  · rw [if_pos hl]
    refine one qs fun q hq => ?_
    rw [Spec.curBlock_of_le hW hl]
    exact List.mem_append_right _ hq
  · rw [if_neg hl]
    exact abs_le.2 (Spec.blend_mem (by linarith) (by linarith) (by linarith) (abs_le.1 (one _ fun q hq => List.mem_append_left _ hq))
      (abs_le.1 (one _ fun q hq => List.mem_append_right _ hq)))

/-- The line of the interim regression in exact arithmetic, without `clear()` (C33). -/
theorem interim_line_result (hW : 1 ≤ W) (hw : 2 * W < 2 ^ w) (ps : List (ℝ × ℝ)) {k : ℝ}
    (hk : (Interim.Regression.run (finOps2 (ps.map .push)) : Interim.Regression w W (E ε)).slope = X.fin k) (z : ℝ) :
    (Interim.Regression.run (finOps2 (ps.map .push)) : Interim.Regression w W (E ε)).at' (X.fin z)
      = X.fin (Spec_interimMean W (ps.map Prod.snd) - k * (Spec_interimMean W (ps.map Prod.fst) - z)) := by
  obtain ⟨-, h2, h3⟩ := regression_run (w := w) (W := W) (finOps2 (ps.map .push) : List (Op (E ε × E ε)))
  have ex : (finOps2 (ps.map .push) : List (Op (E ε × E ε))).map (Op.map Prod.fst)
      = finOps ((ps.map Prod.fst).map .push) := by
    simp [finOps, finOps2, Op.map, Function.comp_def]
  have hmx := (C29_interim_mean (w := w) (W := W) (ε := ε) hW hw ((ps.map Prod.fst).map .push)).2.1
  have hmy := (C29_interim_mean (w := w) (W := W) (ε := ε) hW hw ((ps.map Prod.snd).map .push)).1
  rw [sinceClear_pushes] at hmx hmy
  have h3' : (Interim.Regression.run (finOps2 (ps.map .push)) : Interim.Regression w W (E ε)).yMoment
      = Interim.Interim.run (finOps ((ps.map Prod.snd).map .push)) := by
    refine h3.trans (congrArg _ ?_)
    simp only [finOps, finOps2, List.filterMap_map, List.map_map]
    simp [Function.comp_def, Op.map]
  rw [Interim.Regression.at', hk]
  simp only [h2, h3', ex, hmx, hmy, sub_fin, mul_fin]

open Interim in
/-- C189: the line of the interim regression, for histories without `clear()` (which the line does not survive, C33). -/
theorem C189_interim_line (hW : 1 ≤ W) (hw : W * W < 2 ^ w) (hw2 : 2 * W < 2 ^ w) (qs : List ((ℝ × ℝ) × (ℝ × ℝ))) (hne : qs ≠ [])
    (hm : Measured2 δ₁ δ₂ (Spec.prevBlock W qs ++ Spec.curBlock W qs)) :
    ∃ k vy vx' m' : ℝ, (Regression.run (finOps2 (firsts (qs.map .push))) : Regression w W (E ε)).slope = X.fin k
      ∧ IVariance.variance (Interim.run (finOps (seconds (firsts (qs.map .push)))) : IVariance w W (E ε)) = X.fin vy
      ∧ IVariance.variance (Interim.run (finOps (firsts (seconds (qs.map .push)))) : IVariance w W (E ε)) = X.fin vx'
      ∧ IMean.mean (Interim.run (finOps (firsts (seconds (qs.map .push)))) : IMean w W (E ε)) = X.fin m'
      ∧ (0 < vx' → ∀ z : ℝ, ∃ y y' : ℝ,
        (Regression.run (finOps2 (firsts (qs.map .push))) : Regression w W (E ε)).at' (X.fin z) = X.fin y
        ∧ (Regression.run (finOps2 (seconds (qs.map .push))) : Regression w W (E ε)).at' (X.fin z) = X.fin y'
        ∧ |y' - y| ≤ Spec_lineError δ₁ δ₂ k √vy √vx' m' z) := by
  have es : sinceClear (qs.map Op.push) = qs := sinceClear_pushes qs
  have e1 : firsts (qs.map Op.push) = (qs.map Prod.fst).map Op.push := by simp [firsts, Op.map, Function.comp_def]
  have e2 : seconds (qs.map Op.push) = (qs.map Prod.snd).map Op.push := by simp [seconds, Op.map, Function.comp_def]
  obtain ⟨k, k', vy, vx', h1, h2, h3, h4, h5⟩ := C189_interim_slope (ε := ε) (w := w) hW hw (qs.map .push) (by rw [es]; exact hne)
    (by rw [es]; exact hm)
  refine ⟨k, vy, vx', _, h1, h3, h4, (C29_interim_mean hW hw2 _).1, fun hv z => ?_⟩
  have h := h5 hv
  rw [e1] at h1 ⊢
  rw [e2] at h2 ⊢
  refine ⟨_, _, interim_line_result hW hw2 _ h1 z, interim_line_result hW hw2 _ h2 z, ?_⟩
  obtain ⟨m1, m2⟩ := measured2_blocks hm
  have ex := interimMean_error hW hne hm.1.1 m1
  have ey := interimMean_error hW hne hm.2.1 m2
  rw [sinceClear_firsts, sinceClear_pushes]
  simp only [List.map_map, Function.comp_def] at ex ey ⊢
  generalize Spec_interimMean W (qs.map fun q => q.2.1) = a' at *
  generalize Spec_interimMean W (qs.map fun q => q.1.1) = a at *
  generalize Spec_interimMean W (qs.map fun q => q.2.2) = b' at *
  generalize Spec_interimMean W (qs.map fun q => q.1.2) = b at *
  rw [show b' - k' * (a' - z) - (b - k * (a - z)) = -((k' - k) * (a' - z)) + -(k * (a' - a)) + (b' - b) by ring]
  refine (abs_add_three _ _ _).trans (add_le_add (add_le_add ?_ ?_) ey)
  · rw [abs_neg, abs_mul]; exact mul_le_mul_of_nonneg_right h (abs_nonneg _)
  · rw [abs_neg, abs_mul]; exact mul_le_mul_of_nonneg_left ex (abs_nonneg _)

open Interim in
/-- Blocks of 2, large errors in the first block: the slope is that of the true data up to the errors of the last two. -/
example : ∃ k k' vy vx' : ℝ, (Regression.run (finOps2 (firsts demoMeasured)) : Regression 64 2 (E ε)).slope = X.fin k
    ∧ (Regression.run (finOps2 (seconds demoMeasured)) : Regression 64 2 (E ε)).slope = X.fin k'
    ∧ IVariance.variance (Interim.run (finOps (seconds (firsts demoMeasured))) : IVariance 64 2 (E ε)) = X.fin vy
    ∧ IVariance.variance (Interim.run (finOps (firsts (seconds demoMeasured))) : IVariance 64 2 (E ε)) = X.fin vx'
    ∧ 0 < vx' ∧ |k' - k| ≤ Spec_slopeError 0.1 0.2 k √vy √vx' := by
  have e : sinceClear demoMeasured
      = [((0, 1), (90, 1)), ((2, 3), (2, 90)), ((1, 1), (1.1, 1)), ((4, 2), (4, 2.2)), ((3, 3), (2.9, 3))] := rfl
  obtain ⟨k, k', vy, vx', h1, h2, h3, h4, h5⟩ := C189_interim_slope (w := 64) (W := 2) (ε := ε) (δ₁ := 0.1) (δ₂ := 0.2) (by norm_num)
    (by norm_num) demoMeasured (by rw [e]; simp) (by
      rw [e]
      simp only [Spec.prevBlock, Spec.curBlock, Measured2, Measured]
      norm_num [abs_le])
  have hv : 0 < vx' := by
    have e2 : sinceClear (firsts (seconds demoMeasured)) = [90, 2, 1.1, 4, 2.9] := rfl
    have := h4.symm.trans (C30_interim_variance (w := 64) (W := 2) (ε := ε) (by norm_num) (by norm_num) _ (by rw [e2]; simp)).1
    rw [X.fin_inj, e2] at this
    rw [this]
    refine interimVariance_pos (by norm_num) (.inl ?_)
    refine ⟨1.1, by simp [Spec.prevBlock], 4, by simp [Spec.prevBlock], by norm_num⟩
  exact ⟨k, k', vy, vx', h1, h2, h3, h4, hv, h5 hv⟩

open Interim in
/-- The line at 7 for the same data. -/
example : ∃ k vy vx' m' y y' : ℝ, (Regression.run (finOps2 (firsts demoMeasured)) : Regression 64 2 (E ε)).slope = X.fin k
    ∧ IVariance.variance (Interim.run (finOps (seconds (firsts demoMeasured))) : IVariance 64 2 (E ε)) = X.fin vy
    ∧ IVariance.variance (Interim.run (finOps (firsts (seconds demoMeasured))) : IVariance 64 2 (E ε)) = X.fin vx'
    ∧ IMean.mean (Interim.run (finOps (firsts (seconds demoMeasured))) : IMean 64 2 (E ε)) = X.fin m'
    ∧ (Regression.run (finOps2 (firsts demoMeasured)) : Regression 64 2 (E ε)).at' (X.fin 7) = X.fin y
    ∧ (Regression.run (finOps2 (seconds demoMeasured)) : Regression 64 2 (E ε)).at' (X.fin 7) = X.fin y'
    ∧ |y' - y| ≤ Spec_lineError 0.1 0.2 k √vy √vx' m' 7 := by
  obtain ⟨k, vy, vx', m', h1, h2, h3, h4, h5⟩ := C189_interim_line (w := 64) (W := 2) (ε := ε) (δ₁ := 0.1) (δ₂ := 0.2) (by norm_num)
    (by norm_num) (by norm_num)
    [((0, 1), (90, 1)), ((2, 3), (2, 90)), ((1, 1), (1.1, 1)), ((4, 2), (4, 2.2)), ((3, 3), (2.9, 3))] (by simp) (by
      simp only [Spec.prevBlock, Spec.curBlock, Measured2, Measured]
      norm_num [abs_le])
  have hv : 0 < vx' := by
    have e2 : sinceClear (firsts (seconds demoMeasured)) = [90, 2, 1.1, 4, 2.9] := rfl
    have := (show IVariance.variance (Interim.run (finOps (firsts (seconds demoMeasured))) : IVariance 64 2 (E ε)) = X.fin vx'
      from h3).symm.trans (C30_interim_variance (w := 64) (W := 2) (ε := ε) (by norm_num) (by norm_num) _ (by rw [e2]; simp)).1
    rw [X.fin_inj, e2] at this
    rw [this]
    refine interimVariance_pos (by norm_num) (.inl ?_)
    refine ⟨1.1, by simp [Spec.prevBlock], 4, by simp [Spec.prevBlock], by norm_num⟩
  obtain ⟨y, y', h6, h7, h8⟩ := h5 hv 7
  exact ⟨k, vy, vx', m', y, y', h1, h2, h3, h4, h6, h7, h8⟩

end Verif.Props
