import Verif.Props.Window
import Verif.Props.Interim
import Verif.Props.Impulse
import Verif.Props.Decay
/-
C96 - C99: relations between filters.

C96: the interim regression reproduces exact lines.
C97: the covariance is bounded by the variances (window and interim filters).
C98: statistics of data that come in two parts.
C99: filters that compute the same thing.
-/
namespace Verif.Props
open Scalar Exact

variable {w W N : Nat} {ε : ℝ}

/-! ### C96 -/

/-- The blend of the interim covariance and variance is linear. -/
theorem interimVariance_mul {β γ : Type} (v : List β → ℝ) (u : List γ → ℝ) (f : β → γ) (a : ℝ) {xs : List β}
    (hW : 1 ≤ W) (h : ∀ l : List β, (∀ x ∈ l, x ∈ Spec.prevBlock W xs ++ Spec.curBlock W xs) → v l = a * u (l.map f)) :
    Spec_interimVariance W v xs = a * Spec_interimVariance W u (xs.map f) := by
  rw [Spec_interimVariance, Spec_interimVariance, Spec.curBlock_map, Spec.prevBlock_map, List.length_map,
    List.length_map]
  by_cases hl : xs.length ≤ W
  · rw [if_pos hl, if_pos hl]
    refine h xs fun x hx => ?_
    rw [Spec.curBlock_of_le hW hl]
    exact List.mem_append_right _ hx
  · rw [if_neg hl, if_neg hl, h _ fun x hx => List.mem_append_left _ hx, h _ fun x hx => List.mem_append_right _ hx]
    simp only [Spec.blend]
    ring

/-- The interim variance vanishes only if the values of each of the two blocks are equal. -/
theorem interimVariance_pos (hW : 1 ≤ W) {xs : List ℝ}
    (hx : (∃ x ∈ Spec.prevBlock W xs, ∃ y ∈ Spec.prevBlock W xs, x ≠ y)
      ∨ ∃ x ∈ Spec.curBlock W xs, ∃ y ∈ Spec.curBlock W xs, x ≠ y) :
    0 < Spec_interimVariance W Spec.variance xs := by
  have hpos : ∀ l : List ℝ, (∃ x ∈ l, ∃ y ∈ l, x ≠ y) → 0 < Spec.variance l := by
    rintro l ⟨x, hx, y, hy, hxy⟩
    refine div_pos (lt_of_le_of_ne (Spec.central_two_nonneg l) fun e => ?_) (Spec.length_pos (List.ne_nil_of_mem hx))
    exact hxy ((Spec.central_two_eq_zero l).1 e.symm x hx y hy)
  have hcW : ((Spec.curBlock W xs).length : ℝ) ≤ W := by exact_mod_cast Spec.length_curBlock_le hW xs
  rw [Spec_interimVariance]
  by_cases hl : xs.length ≤ W
  · rw [if_pos hl]
    rcases hx with ⟨x, hx, -⟩ | hx
    · rw [(Spec.prevBlock_eq_nil hW xs).2 hl] at hx
      exact absurd hx List.not_mem_nil
    · rw [Spec.curBlock_of_le hW hl] at hx
      exact hpos xs hx
  · have hne : xs ≠ [] := by rintro rfl; simp at hl
    have hc1 : (1 : ℝ) ≤ (Spec.curBlock W xs).length := by
      exact_mod_cast List.length_pos_iff.2 fun h => hne ((Spec.curBlock_eq_nil hW xs).1 h)
    have hsq : (0 : ℝ) < (W - ((Spec.curBlock W xs).length - 1)) ^ 2 := pow_pos (by linarith) _
    rw [if_neg hl, Spec.blend]
    refine div_pos ?_ (by linarith)
    rcases hx with hx | hx
    · have h1 := mul_pos hsq (hpos _ hx)
      have h2 := mul_nonneg (show (0 : ℝ) ≤ 2 * ((Spec.curBlock W xs).length - 1) by linarith)
        (variance_nonneg (Spec.curBlock W xs))
      linarith
    · have h1 := mul_nonneg hsq.le (variance_nonneg (Spec.prevBlock W xs))
      have h3 : (2 : ℝ) ≤ (Spec.curBlock W xs).length := by
        obtain ⟨x, hx, y, hy, hxy⟩ := hx
        have : 2 ≤ (Spec.curBlock W xs).length := by
          by_contra hlt
          obtain ⟨z, hz⟩ := List.length_eq_one_iff.1
            (show (Spec.curBlock W xs).length = 1 by have := List.length_pos_of_mem hx; omega)
          rw [hz, List.mem_singleton] at hx hy
          exact hxy (hx.trans hy.symm)
        exact_mod_cast this
      have h2 := mul_pos (show (0 : ℝ) < 2 * ((Spec.curBlock W xs).length - 1) by linarith) (hpos _ hx)
      linarith

/-- C96, slope: if the pairs of the two blocks lie on a line and not all x of a block are equal, the slope is
that of the line, for every history. -/
theorem C96_slope (hW : 1 ≤ W) (hw : W * W < 2 ^ w) (ops : List (Op (ℝ × ℝ))) (a b : ℝ)
    (hline : ∀ p ∈ Spec.prevBlock W (sinceClear ops) ++ Spec.curBlock W (sinceClear ops), p.2 = a * p.1 + b)
    (hx : (∃ p ∈ Spec.prevBlock W (sinceClear ops), ∃ q ∈ Spec.prevBlock W (sinceClear ops), p.1 ≠ q.1)
      ∨ ∃ p ∈ Spec.curBlock W (sinceClear ops), ∃ q ∈ Spec.curBlock W (sinceClear ops), p.1 ≠ q.1) :
    (Interim.Regression.run (finOps2 ops) : Interim.Regression w W (E ε)).slope = X.fin a := by
  have hne : sinceClear ops ≠ [] := by
    intro e
    rw [e] at hx
    simp [Spec.prevBlock, Spec.curBlock] at hx
  obtain ⟨h1, h2, -⟩ := regression_run (w := w) (W := W) (finOps2 ops : List (Op (E ε × E ε)))
  have hcov := C31_interim_covariance (w := w) (W := W) (ε := ε) hW hw ops hne
  have hmap : (finOps2 ops : List (Op (E ε × E ε))).map (Op.map Prod.fst) = finOps (ops.map (Op.map Prod.fst)) := by
    simp only [finOps, finOps2, List.map_map]
    refine List.map_congr_left fun op _ => ?_
    cases op <;> rfl
  have hsx : sinceClear (ops.map (Op.map Prod.fst)) = (sinceClear ops).map Prod.fst := sinceClear_map _ _
  have hvar := (C30_interim_variance (w := w) (W := W) (ε := ε) hW hw (ops.map (Op.map Prod.fst))
    (by rw [hsx]; simpa using hne)).1
  rw [hsx] at hvar
  have hpos : 0 < Spec_interimVariance W Spec.variance ((sinceClear ops).map Prod.fst) := by
    apply interimVariance_pos hW
    rw [Spec.prevBlock_map, Spec.curBlock_map]
    rcases hx with ⟨p, hp, q, hq, hpq⟩ | ⟨p, hp, q, hq, hpq⟩
    · exact .inl ⟨_, List.mem_map_of_mem hp, _, List.mem_map_of_mem hq, hpq⟩
    · exact .inr ⟨_, List.mem_map_of_mem hp, _, List.mem_map_of_mem hq, hpq⟩
  have hlin : Spec_interimVariance W Spec.covariance (sinceClear ops)
      = a * Spec_interimVariance W Spec.variance ((sinceClear ops).map Prod.fst) := by
    refine interimVariance_mul _ _ _ a hW fun l hl => ?_
    rw [Spec.covariance, Spec.cosum_of_line fun p hp => hline p (hl p hp), Spec.variance, List.length_map, mul_div_assoc]
    rfl
  rw [Interim.Regression.slope]
  simp only [h1, h2, hmap, hcov, hvar, Exact.ofNat_eq, beq_fin, Nat.cast_zero, decide_eq_true_eq, hpos.ne', if_false]
  rw [div_fin _ hpos.ne', hlin, mul_div_cancel_right₀ _ hpos.ne']

/-- The interim mean of the values of a line. -/
theorem interimMean_line (hW : 1 ≤ W) (a b : ℝ) {ps : List (ℝ × ℝ)} (hne : ps ≠ [])
    (hline : ∀ p ∈ Spec.prevBlock W ps ++ Spec.curBlock W ps, p.2 = a * p.1 + b) :
    Spec_interimMean W (ps.map Prod.snd) = a * Spec_interimMean W (ps.map Prod.fst) + b := by
  have hcne : Spec.curBlock W ps ≠ [] := fun h => hne ((Spec.curBlock_eq_nil hW ps).1 h)
  have hc1 : (1 : ℝ) ≤ (Spec.curBlock W ps).length := by exact_mod_cast List.length_pos_iff.2 hcne
  have hcW : ((Spec.curBlock W ps).length : ℝ) ≤ W := by exact_mod_cast Spec.length_curBlock_le hW ps
  have key : ∀ l : List (ℝ × ℝ), l ≠ [] → (∀ p ∈ l, p ∈ Spec.prevBlock W ps ++ Spec.curBlock W ps) →
      Spec.mean (l.map Prod.snd) = a * Spec.mean (l.map Prod.fst) + b := by
    intro l hl hm
    have := Spec.mean_ys_of_line hl (fun p hp => hline p (hm p hp))
    simp only [Spec.xsOf, Spec.ysOf] at this
    linarith
  simp only [Spec_interimMean, Spec.prevBlock_map, Spec.curBlock_map, List.length_map]
  by_cases hl : ps.length ≤ W
  · rw [if_pos hl, if_pos hl]
    refine key ps hne fun p hp => ?_
    rw [Spec.curBlock_of_le hW hl]
    exact List.mem_append_right _ hp
  · have hpne : Spec.prevBlock W ps ≠ [] := fun h => hl ((Spec.prevBlock_eq_nil hW ps).1 h)
    rw [if_neg hl, if_neg hl, key _ hpne fun p hp => List.mem_append_left _ hp,
      key _ hcne fun p hp => List.mem_append_right _ hp]
    simp only [Spec.blend]
    have : (W : ℝ) - (Spec.curBlock W ps).length + 2 * (Spec.curBlock W ps).length ≠ 0 := by linarith
    rw [div_eq_iff this, add_mul, mul_assoc a, div_mul_cancel₀ _ this]
    ring

/-- C96, all results, without `clear()` (which `at()` does not survive, C33): any number of pairs on a line is
reproduced exactly. -/
theorem C96_exact_line (hW : 1 ≤ W) (hw : W * W < 2 ^ w) (hw2 : 2 * W < 2 ^ w) (ps : List (ℝ × ℝ)) (a b : ℝ)
    (hline : ∀ p ∈ Spec.prevBlock W ps ++ Spec.curBlock W ps, p.2 = a * p.1 + b)
    (hx : (∃ p ∈ Spec.prevBlock W ps, ∃ q ∈ Spec.prevBlock W ps, p.1 ≠ q.1)
      ∨ ∃ p ∈ Spec.curBlock W ps, ∃ q ∈ Spec.curBlock W ps, p.1 ≠ q.1) :
    let s : Interim.Regression w W (E ε) := Interim.Regression.run (finOps2 (ps.map .push))
    s.slope = X.fin a ∧ ∀ x : ℝ, s.at' (X.fin x) = X.fin (a * x + b) := by
  intro s
  have hsc : sinceClear (ps.map Op.push) = ps := sinceClear_pushes ps
  have hne : ps ≠ [] := by
    rintro rfl
    simp [Spec.prevBlock, Spec.curBlock] at hx
  have hsl : s.slope = X.fin a := C96_slope hW hw _ a b (by rw [hsc]; exact hline) (by rw [hsc]; exact hx)
  refine ⟨hsl, fun x => ?_⟩
  obtain ⟨-, h2, h3⟩ := regression_run (w := w) (W := W) (finOps2 (ps.map .push) : List (Op (E ε × E ε)))
  have ex : (finOps2 (ps.map .push) : List (Op (E ε × E ε))).map (Op.map Prod.fst)
      = finOps ((ps.map Prod.fst).map .push) := by
    simp [finOps, finOps2, Op.map, Function.comp_def]
  have hmx := (C29_interim_mean (w := w) (W := W) (ε := ε) hW hw2 ((ps.map Prod.fst).map .push)).2.1
  have hmy := (C29_interim_mean (w := w) (W := W) (ε := ε) hW hw2 ((ps.map Prod.snd).map .push)).1
  rw [sinceClear_pushes] at hmx hmy
  have hm := interimMean_line hW a b hne hline
  have h3' : (Interim.Regression.run (finOps2 (ps.map .push)) : Interim.Regression w W (E ε)).yMoment
      = Interim.Interim.run (finOps ((ps.map Prod.snd).map .push)) := by
    refine h3.trans (congrArg _ ?_)
    simp only [finOps, finOps2, List.filterMap_map, List.map_map]
    simp [Function.comp_def, Op.map]
  rw [Interim.Regression.at', hsl]
  simp only [s, h2, h3', ex, hmx, hmy, sub_fin, mul_fin, X.fin_inj]
  rw [hm]; ring

/-- Window 2, four points of `y = 3 x + 1`. -/
example : (Interim.Regression.run (finOps2 ([(0, 1), (1, 4), (2, 7), (4, 13)].map .push))
    : Interim.Regression 64 2 (E ε)).at' (X.fin 10) = X.fin (3 * 10 + 1) := by
  have e1 : Spec.prevBlock 2 ([(0, 1), (1, 4), (2, 7), (4, 13)] : List (ℝ × ℝ)) = [(0, 1), (1, 4)] := by
    simp [Spec.prevBlock]
  have e2 : Spec.curBlock 2 ([(0, 1), (1, 4), (2, 7), (4, 13)] : List (ℝ × ℝ)) = [(2, 7), (4, 13)] := by
    simp [Spec.curBlock]
  refine (C96_exact_line (by norm_num) (by norm_num) (by norm_num) _ 3 1 ?_ ?_).2 10
  · rw [e1, e2]
    intro p hp
    simp at hp
    rcases hp with rfl | rfl | rfl | rfl <;> norm_num
  · rw [e1]
    exact .inl ⟨(0, 1), by simp, (1, 4), by simp, by norm_num⟩

/-! ### C97 -/

/-- Cauchy-Schwarz for covariance and variances. -/
theorem covariance_sq_le (ps : List (ℝ × ℝ)) :
    Spec.covariance ps ^ 2 ≤ Spec.variance (Spec.xsOf ps) * Spec.variance (Spec.ysOf ps) := by
  rw [Spec.covariance, Spec.variance, Spec.variance, Spec.length_xsOf, Spec.length_ysOf, div_pow, div_mul_div_comm, ← pow_two]
  exact div_le_div_of_nonneg_right (Spec.cosum_sq_le ps) (by positivity)

/-- Cauchy-Schwarz is preserved by blending. -/
theorem blend_sq_le {p q c c' x x' y y' : ℝ} (hp : 0 ≤ p) (hq : 0 ≤ q) (hpq : 0 < p + q) (hx : 0 ≤ x) (hx' : 0 ≤ x')
    (hy : 0 ≤ y) (hy' : 0 ≤ y') (h : c ^ 2 ≤ x * y) (h' : c' ^ 2 ≤ x' * y') :
    Spec.blend p q c c' ^ 2 ≤ Spec.blend p q x x' * Spec.blend p q y y' := by
  simp only [Spec.blend]
  rw [div_pow, div_mul_div_comm, ← pow_two]
  refine div_le_div_of_nonneg_right ?_ (by positivity)
  have hcc : 2 * (c * c') ≤ x * y' + x' * y := by
    have h1 : (c * c') ^ 2 ≤ (x * y') * (x' * y) := by
      have := mul_le_mul h h' (sq_nonneg _) (mul_nonneg hx hy)
      nlinarith [this]
    have h2 : (2 * (c * c')) ^ 2 ≤ (x * y' + x' * y) ^ 2 := by nlinarith [sq_nonneg (x * y' - x' * y)]
    have h3 : 0 ≤ x * y' + x' * y := add_nonneg (mul_nonneg hx hy') (mul_nonneg hx' hy)
    exact le_of_abs_le (abs_le_of_sq_le_sq h2 h3)
  nlinarith [mul_le_mul_of_nonneg_left hcc (mul_nonneg hp hq), mul_le_mul_of_nonneg_left h (mul_nonneg hp hp),
    mul_le_mul_of_nonneg_left h' (mul_nonneg hq hq)]

/-- C97, window filters fed with the same pairs. -/
theorem C97_window (hN : 1 ≤ N) (ops : List (Op (ℝ × ℝ))) (hne : sinceClear ops ≠ []) :
    ∃ (s : Window.Comoment N (E ε)) (x y : Window.Variance N (E ε)) (c vx vy : ℝ),
      Window.Comoment.run (finOps2 ops) = some s
      ∧ Window.Variance.run (finOps (ops.map (Op.map Prod.fst))) = some x
      ∧ Window.Variance.run (finOps (ops.map (Op.map Prod.snd))) = some y
      ∧ s.variance = X.fin c ∧ x.variance = X.fin vx ∧ y.variance = X.fin vy
      ∧ c ^ 2 ≤ vx * vy := by
  obtain ⟨s, hs, -, hc, -⟩ := C20_window_covariance (ε := ε) hN ops
  obtain ⟨x, hx, hvx, -⟩ := C19_window_variance (ε := ε) hN (ops.map (Op.map Prod.fst))
  obtain ⟨y, hy, hvy, -⟩ := C19_window_variance (ε := ε) hN (ops.map (Op.map Prod.snd))
  have hl : 1 ≤ (Spec.lastN N (sinceClear ops)).length := by
    rw [Spec.length_lastN]
    have := List.length_pos_iff.2 hne
    omega
  have e1 : Spec.lastN N (sinceClear (ops.map (Op.map Prod.fst))) = Spec.xsOf (Spec.lastN N (sinceClear ops)) := by
    rw [sinceClear_map, Spec.lastN, Spec.lastN, Spec.xsOf, List.length_map, List.map_drop]
  have e2 : Spec.lastN N (sinceClear (ops.map (Op.map Prod.snd))) = Spec.ysOf (Spec.lastN N (sinceClear ops)) := by
    rw [sinceClear_map, Spec.lastN, Spec.lastN, Spec.ysOf, List.length_map, List.map_drop]
  rw [e1] at hvx
  rw [e2] at hvy
  exact ⟨s, x, y, _, _, _, hs, hx, hy, hc hl, hvx (by simpa using hl), hvy (by simpa using hl), covariance_sq_le _⟩

/-- C97, interim filters fed with the same pairs. -/
theorem C97_interim (hW : 1 ≤ W) (hw : W * W < 2 ^ w) (ops : List (Op (ℝ × ℝ))) (hne : sinceClear ops ≠ []) :
    ∃ c vx vy : ℝ, Interim.IComoment.variance (Interim.Interim.run (finOps2 ops) : Interim.IComoment w W (E ε)) = X.fin c
      ∧ Interim.IVariance.variance (Interim.Interim.run (finOps (ops.map (Op.map Prod.fst)))
          : Interim.IVariance w W (E ε)) = X.fin vx
      ∧ Interim.IVariance.variance (Interim.Interim.run (finOps (ops.map (Op.map Prod.snd)))
          : Interim.IVariance w W (E ε)) = X.fin vy
      ∧ c ^ 2 ≤ vx * vy := by
  refine ⟨_, _, _, C31_interim_covariance hW hw ops hne, (C30_interim_variance hW hw _ ?_).1,
    (C30_interim_variance hW hw _ ?_).1, ?_⟩
  · rw [sinceClear_map]; simpa using hne
  · rw [sinceClear_map]; simpa using hne
  · rw [sinceClear_map, sinceClear_map]
    simp only [Spec_interimVariance, Spec.curBlock_map, Spec.prevBlock_map, List.length_map]
    by_cases hl : (sinceClear ops).length ≤ W
    · simp only [if_pos hl]
      exact covariance_sq_le _
    · simp only [if_neg hl]
      have hc1 : (1 : ℝ) ≤ (Spec.curBlock W (sinceClear ops)).length := by
        exact_mod_cast List.length_pos_iff.2 fun h => hne ((Spec.curBlock_eq_nil hW _).1 h)
      have hcW : ((Spec.curBlock W (sinceClear ops)).length : ℝ) ≤ W := by
        exact_mod_cast Spec.length_curBlock_le hW (sinceClear ops)
      have hsq : (0 : ℝ) < (W - ((Spec.curBlock W (sinceClear ops)).length - 1)) ^ 2 := pow_pos (by linarith) _
      exact blend_sq_le hsq.le (by linarith) (by linarith) (variance_nonneg _) (variance_nonneg _) (variance_nonneg _)
        (variance_nonneg _) (covariance_sq_le _) (covariance_sq_le _)

/-- Equality for pairs on a line: (0,0), (2,4): covariance 2, variances 1 and 4. -/
example : ∃ c vx vy : ℝ, c = 2 ∧ vx = 1 ∧ vy = 4 ∧ Interim.IComoment.variance
      (Interim.Interim.run (finOps2 [.push (0, 0), .push (2, 4)]) : Interim.IComoment 64 2 (E ε)) = X.fin c
    ∧ c ^ 2 ≤ vx * vy := by
  refine ⟨2, 1, 4, rfl, rfl, rfl, ?_, by norm_num⟩
  have e : sinceClear [.push (0, 0), .push (2, 4)] = ([(0, 0), (2, 4)] : List (ℝ × ℝ)) := rfl
  refine (C31_interim_covariance (by norm_num) (by norm_num) _ (by rw [e]; simp)).trans ?_
  rw [e, Spec_interimVariance, if_pos (by simp), X.fin_inj]
  simp [Spec.covariance, Spec.cosum, Spec.mean]; norm_num

/-! ### C98 -/

theorem mean_append {xs ys : List ℝ} (hx : xs ≠ []) (hy : ys ≠ []) :
    Spec.mean (xs ++ ys) = (xs.length * Spec.mean xs + ys.length * Spec.mean ys) / (xs.length + ys.length) := by
  have h1 := Spec.length_pos hx
  have h2 := Spec.length_pos hy
  rw [Spec.mean, Spec.mean, Spec.mean, List.sum_append, List.length_append]
  push_cast
  field_simp

theorem cosum_append {ps qs : List (ℝ × ℝ)} (hp : ps ≠ []) (hq : qs ≠ []) :
    Spec.cosum (ps ++ qs) = Spec.cosum ps + Spec.cosum qs
      + ps.length * qs.length / (ps.length + qs.length)
        * ((Spec.mean (Spec.xsOf ps) - Spec.mean (Spec.xsOf qs)) * (Spec.mean (Spec.ysOf ps) - Spec.mean (Spec.ysOf qs))) := by
  have h1 := Spec.length_pos hp
  have h2 := Spec.length_pos hq
  have e1 : Spec.xsOf ps ≠ [] := by simpa [Spec.xsOf] using hp
  have e2 : Spec.xsOf qs ≠ [] := by simpa [Spec.xsOf] using hq
  have e3 : Spec.ysOf ps ≠ [] := by simpa [Spec.ysOf] using hp
  have e4 : Spec.ysOf qs ≠ [] := by simpa [Spec.ysOf] using hq
  have hab : ∀ (a b : ℝ) (l : List (ℝ × ℝ)), l ≠ [] → Spec.coabout a b l
      = Spec.cosum l + l.length * ((Spec.mean (Spec.xsOf l) - a) * (Spec.mean (Spec.ysOf l) - b)) := by
    intro a b l hl
    rw [Spec.cosum_eq_coabout]
    have hs := Spec.coabout_shift (Spec.mean (Spec.xsOf l)) (Spec.mean (Spec.ysOf l))
      (a - Spec.mean (Spec.xsOf l)) (b - Spec.mean (Spec.ysOf l)) l
    rw [Spec.about_one, Spec.about_one, Spec.sum_eq_mean_mul (Spec.xsOf l), Spec.sum_eq_mean_mul (Spec.ysOf l),
      Spec.length_xsOf, Spec.length_ysOf] at hs
    simp only [add_sub_cancel] at hs
    rw [hs]; ring
  rw [Spec.cosum_eq_coabout, Spec.coabout_append, hab _ _ ps hp, hab _ _ qs hq, Spec.xsOf_append, Spec.ysOf_append,
    mean_append e1 e2, mean_append e3 e4]
  simp only [Spec.length_xsOf, Spec.length_ysOf]
  field_simp
  ring

theorem central_two_append {xs ys : List ℝ} (hx : xs ≠ []) (hy : ys ≠ []) :
    Spec.central 2 (xs ++ ys) = Spec.central 2 xs + Spec.central 2 ys
      + xs.length * ys.length / (xs.length + ys.length) * (Spec.mean xs - Spec.mean ys) ^ 2 := by
  have e : ∀ l : List ℝ, Spec.xsOf (l.map fun x => (x, x)) = l ∧ Spec.ysOf (l.map fun x => (x, x)) = l := by
    intro l
    simp [Spec.xsOf, Spec.ysOf, Function.comp_def]
  have := cosum_append (ps := xs.map fun x => (x, x)) (qs := ys.map fun x => (x, x)) (by simpa using hx) (by simpa using hy)
  rw [← List.map_append, Spec.cosum_diag, Spec.cosum_diag, Spec.cosum_diag, (e xs).1, (e ys).1, (e xs).2, (e ys).2,
    List.length_map, List.length_map] at this
  rw [this]; ring

/-- C98, mean and variance: the results for all data follow from those of two parts. -/
theorem C98_moments (xs ys : List ℝ) (hx : xs ≠ []) (hy : ys ≠ []) (h : (xs ++ ys).length < 2 ^ w) :
    ∃ m₁ v₁ m₂ v₂ : ℝ,
      (Cumulative.Variance.run (finOps (xs.map .push)) : Cumulative.Variance w (E ε)).getMean = X.fin m₁
      ∧ (Cumulative.Variance.run (finOps (xs.map .push)) : Cumulative.Variance w (E ε)).variance = X.fin v₁
      ∧ (Cumulative.Variance.run (finOps (ys.map .push)) : Cumulative.Variance w (E ε)).getMean = X.fin m₂
      ∧ (Cumulative.Variance.run (finOps (ys.map .push)) : Cumulative.Variance w (E ε)).variance = X.fin v₂
      ∧ (Cumulative.Variance.run (finOps ((xs ++ ys).map .push)) : Cumulative.Variance w (E ε)).getMean
          = X.fin ((xs.length * m₁ + ys.length * m₂) / (xs.length + ys.length))
      ∧ (Cumulative.Variance.run (finOps ((xs ++ ys).map .push)) : Cumulative.Variance w (E ε)).variance
          = X.fin ((xs.length * v₁ + ys.length * v₂) / (xs.length + ys.length)
              + xs.length * ys.length * (m₁ - m₂) ^ 2 / (xs.length + ys.length) ^ 2) := by
  have h1 := Spec.length_pos hx
  have h2 := Spec.length_pos hy
  have hl := List.length_append (as := xs) (bs := ys)
  have mean_of : ∀ l : List ℝ, l.length < 2 ^ w →
      (Cumulative.Variance.run (finOps (l.map .push)) : Cumulative.Variance w (E ε)).getMean = X.fin (Spec.mean l) := by
    intro l hl
    rw [Cumulative.Variance.run_fin _ (by rw [sinceClear_pushes]; exact hl), sinceClear_pushes]
    rfl
  have var_of : ∀ l : List ℝ, l ≠ [] → l.length < 2 ^ w →
      (Cumulative.Variance.run (finOps (l.map .push)) : Cumulative.Variance w (E ε)).variance = X.fin (Spec.variance l) := by
    intro l hne hl
    have := (C02_variance (w := w) (ε := ε) (l.map .push) (by rw [sinceClear_pushes]; exact hl)).1
    rw [sinceClear_pushes] at this
    exact (this (List.length_pos_iff.2 hne)).1
  refine ⟨_, _, _, _, mean_of xs (by omega), var_of xs hx (by omega), mean_of ys (by omega), var_of ys hy (by omega),
    (mean_of _ h).trans ?_, (var_of _ (by simp [hx]) h).trans ?_⟩
  · rw [mean_append hx hy]
  · rw [Spec.variance, central_two_append hx hy, hl, X.fin_inj, Spec.variance, Spec.variance]
    push_cast
    field_simp

/-- C98, covariance. -/
theorem C98_covariance (ps qs : List (ℝ × ℝ)) (hp : ps ≠ []) (hq : qs ≠ []) (h : (ps ++ qs).length < 2 ^ w) :
    ∃ c₁ c₂ : ℝ,
      (Cumulative.Comoment.run (finOps2 (ps.map .push)) : Cumulative.Comoment w (E ε)).variance = X.fin c₁
      ∧ (Cumulative.Comoment.run (finOps2 (qs.map .push)) : Cumulative.Comoment w (E ε)).variance = X.fin c₂
      ∧ (Cumulative.Comoment.run (finOps2 ((ps ++ qs).map .push)) : Cumulative.Comoment w (E ε)).variance
          = X.fin ((ps.length * c₁ + qs.length * c₂) / (ps.length + qs.length)
              + ps.length * qs.length * ((Spec.mean (Spec.xsOf ps) - Spec.mean (Spec.xsOf qs))
                * (Spec.mean (Spec.ysOf ps) - Spec.mean (Spec.ysOf qs))) / (ps.length + qs.length) ^ 2) := by
  have h1 := Spec.length_pos hp
  have h2 := Spec.length_pos hq
  have hl := List.length_append (as := ps) (bs := qs)
  have cov_of : ∀ l : List (ℝ × ℝ), l ≠ [] → l.length < 2 ^ w →
      (Cumulative.Comoment.run (finOps2 (l.map .push)) : Cumulative.Comoment w (E ε)).variance
        = X.fin (Spec.covariance l) := by
    intro l hne hl
    have := (C09_covariance (w := w) (ε := ε) (l.map .push) (by rw [sinceClear_pushes]; exact hl)).2.2.1
    rw [sinceClear_pushes] at this
    exact this (List.length_pos_iff.2 hne)
  refine ⟨_, _, cov_of ps hp (by omega), cov_of qs hq (by omega), (cov_of _ (by simp [hp]) h).trans ?_⟩
  rw [Spec.covariance, cosum_append hp hq, hl, X.fin_inj, Spec.covariance, Spec.covariance]
  push_cast
  field_simp

/-- (1, 3) and (8): variance (2*1 + 1*0)/3 + 2*36/9 = 26/3. -/
example : (Cumulative.Variance.run (finOps ((([1, 3] : List ℝ) ++ [8]).map .push)) : Cumulative.Variance 64 (E ε)).variance
    = X.fin (26 / 3) := by
  obtain ⟨m₁, v₁, m₂, v₂, h1, h2, h3, h4, -, h⟩ := C98_moments (w := 64) (ε := ε) [1, 3] [8] (by simp) (by simp) (by simp)
  have s1 : sinceClear (([1, 3] : List ℝ).map Op.push) = [1, 3] := rfl
  have s2 : sinceClear (([8] : List ℝ).map Op.push) = [8] := rfl
  have v1 := ((C02_variance (w := 64) (ε := ε) (([1, 3] : List ℝ).map .push) (by rw [s1]; simp)).1 (by rw [s1]; simp)).1
  have v2 := ((C02_variance (w := 64) (ε := ε) (([8] : List ℝ).map .push) (by rw [s2]; simp)).1 (by rw [s2]; simp)).1
  rw [Cumulative.Variance.run_fin _ (by rw [s1]; simp), s1] at h1
  rw [Cumulative.Variance.run_fin _ (by rw [s2]; simp), s2] at h3
  have e1 : Spec.mean [1, 3] = m₁ := (X.fin_inj (F := Fmt.exact ε)).1 h1
  have e2 : Spec.mean [8] = m₂ := (X.fin_inj (F := Fmt.exact ε)).1 h3
  rw [h2, X.fin_inj, s1] at v1
  rw [h4, X.fin_inj, s2] at v2
  rw [h, ← e1, ← e2, v1, v2, X.fin_inj]
  simp [Spec.variance, Spec.central, Spec.mean]; norm_num

/-! ### C99 -/

theorem fir_replicate (c : ℝ) (n : ℕ) (xs : List ℝ) :
    Spec.fir (List.replicate n c) xs = c * (Spec.lastN n xs).sum := by
  have key : ∀ (n : ℕ) (l : List ℝ), (List.zipWith (· * ·) l (List.replicate n c)).sum = c * (l.take n).sum := by
    intro n
    induction n with
    | zero => intro l; simp
    | succ n ih =>
      intro l
      cases l with
      | nil => simp
      | cons x l =>
        rw [List.replicate_succ, List.zipWith_cons_cons, List.take_succ_cons, List.sum_cons, List.sum_cons, ih]
        ring
  rw [Spec.fir_eq, key, Spec.lastN, List.take_reverse, List.sum_reverse]

/-- C99: the FIR filter with `N` coefficients `1/N` is the window mean once the window is full; before, the
missing values count as zeros. -/
theorem C99_moving_average (hN : 1 ≤ N) (ops : List (Op ℝ)) (x : ℝ) :
    ∃ (s : Impulse.Finite (E ε)) (t : Window.Mean N (E ε)) (m : ℝ),
      Impulse.Finite.run ((List.replicate N (1 / (N : ℝ))).map X.fin) (finOps (ops ++ [.push x])) = some s
      ∧ Window.Mean.run (finOps (ops ++ [.push x])) = some t ∧ t.getMean = X.fin m
      ∧ s.value = X.fin (t.size / N * m) ∧ (t.full = true → s.value = t.getMean) := by
  have hc : List.replicate N (1 / (N : ℝ)) ≠ [] := by simp; omega
  obtain ⟨s, hs, hv⟩ := C50_fir (ε := ε) hc ops x
  obtain ⟨t, ht, hm⟩ := C18_window_mean (ε := ε) hN (ops ++ [.push x])
  obtain ⟨t', ht', hsz, -, hfull, -⟩ := C18_window_bookkeeping (N := N) hN (finOps (ops ++ [.push x]) : List (Op (E ε)))
  obtain rfl : t = t' := Option.some.inj (ht.symm.trans ht')
  have hlen : (sinceClear (finOps (ops ++ [.push x]) : List (Op (E ε)))).length = (sinceClear (ops ++ [.push x])).length := by
    rw [finOps, sinceClear_map, List.length_map]
  rw [hlen] at hsz hfull
  set l := Spec.lastN N (sinceClear (ops ++ [.push x])) with hl
  have hsz' : t.size = l.length := by rw [hsz, hl, Spec.length_lastN]
  have hpos : (0 : ℝ) < l.length := by
    have : 0 < (sinceClear (ops ++ [.push x])).length := by rw [sinceClear_append_push]; simp
    have h2 : 0 < l.length := by rw [hl, Spec.length_lastN]; omega
    exact_mod_cast h2
  have hNpos : (0 : ℝ) < N := by exact_mod_cast hN
  have e : s.value = X.fin (t.size / N * Spec.mean l) := by
    rw [hv, fir_replicate, ← hl, X.fin_inj, hsz', Spec.mean]
    field_simp
  refine ⟨s, t, _, hs, ht, hm, e, fun hf => ?_⟩
  have : t.size = N := by
    have := hfull.1 hf
    rw [hsz]; omega
  rw [e, hm, this, X.fin_inj, div_self hNpos.ne', one_mul]

theorem isIIR_ewSum (f : ℝ) (xs : List ℝ) :
    ∃ ys, Spec.IsIIR [f] [f - 1] 1 xs ys ∧ ys.getLastD 0 = Spec.ewSum f xs := by
  induction xs using List.reverseRecOn with
  | nil => exact ⟨[], Spec.isIIR_nil _ _ _, rfl⟩
  | append_singleton xs x ih =>
    obtain ⟨ys, hy, hl⟩ := ih
    refine ⟨_, Spec.isIIR_snoc one_ne_zero hy x, ?_⟩
    have one : ∀ (c : ℝ) (l : List ℝ), Spec.fir [c] l = c * l.getLastD 0 := by
      intro c l
      rcases List.eq_nil_or_concat l with rfl | ⟨l, y, rfl⟩
      · simp
      · simp [Spec.fir_eq, mul_comm]
    have e : ∀ (l : List ℝ) (y : ℝ), (l ++ [y]).getLastD 0 = y := by
      intro l y; simp
    rw [e, one, one, e, hl, Spec.ewSum_snoc]
    ring

/-- C99: the IIR filter `y_n = f x_n + (1 - f) y_{n-1}` is the decaying mean up to the compensation for the
start, `1 - (1-f)^n`. -/
theorem C99_exponential_smoothing {f : ℝ} (h0 : 0 < f) (h1 : f ≤ 1) (ops : List (Op ℝ)) :
    ∃ (s : Impulse.Infinite (E ε)) (y m : ℝ),
      Impulse.Infinite.run ([f].map X.fin) ([f - 1].map X.fin) (X.fin 1) (finOps ops) = some s
      ∧ s.value = X.fin y ∧ (Decay.Mean.run (X.fin f) (finOps ops) : Decay.Mean (E ε)).mean = X.fin m
      ∧ y = m * (1 - (1 - f) ^ (sinceClear ops).length) := by
  obtain ⟨s, ys, hs, hy, hu, hv⟩ := C52_iir (ε := ε) (as := [f]) (bs := [f - 1]) (by simp) (by simp) one_ne_zero ops
  obtain ⟨zs, hz, hl⟩ := isIIR_ewSum f (sinceClear ops)
  rw [← hu zs hz, hl] at hv
  refine ⟨s, _, _, hs, hv, C25_decay_mean h0 h1 ops, ?_⟩
  rw [Spec.ewMean]
  by_cases hn : sinceClear ops = []
  · simp [hn]
  · have : (1 - (1 - f) ^ (sinceClear ops).length) ≠ 0 := by
      have h2 : (1 - f) ^ (sinceClear ops).length ≤ (1 - f) ^ 1 :=
        pow_le_pow_of_le_one (by linarith) (by linarith) (List.length_pos_iff.2 hn)
      rw [pow_one] at h2
      linarith
    rw [div_mul_cancel₀ _ this]

/-- C99: an IIR filter whose feedback coefficients are all 0 and whose scale is 1 is the FIR filter. -/
theorem C99_no_feedback {cs : List ℝ} (hc : cs ≠ []) {q : ℕ} (hq : 1 ≤ q) (ops : List (Op ℝ)) (x : ℝ) :
    ∃ (s : Impulse.Infinite (E ε)) (t : Impulse.Finite (E ε)),
      Impulse.Infinite.run (cs.map X.fin) ((List.replicate q 0).map X.fin) (X.fin 1) (finOps (ops ++ [.push x])) = some s
      ∧ Impulse.Finite.run (cs.map X.fin) (finOps (ops ++ [.push x])) = some t
      ∧ s.value = t.value := by
  obtain ⟨t, ht, hv⟩ := C50_fir (ε := ε) hc ops x
  have hb : List.replicate q (0 : ℝ) ≠ [] := by simp; omega
  obtain ⟨s, ys, hs, hy, -, hv'⟩ := C52_iir (ε := ε) hc hb one_ne_zero (ops ++ [.push x])
  refine ⟨s, t, hs, ht, ?_⟩
  rw [hv, hv', X.fin_inj]
  obtain ⟨hlen, h⟩ := hy
  have hpos : 0 < (sinceClear (ops ++ [.push x])).length := by rw [sinceClear_append_push]; simp
  have := h ((sinceClear (ops ++ [.push x])).length - 1) (by omega)
  rw [fir_replicate, zero_mul, sub_zero, one_mul, Nat.sub_add_cancel hpos, List.take_length] at this
  rw [← this]
  have hne : ys ≠ [] := by rintro rfl; simp at hlen; omega
  rw [← hlen, List.getLastD_eq_getLast?, List.getLast?_eq_getElem?, List.getD_eq_getElem?_getD]

/-- A moving average of 2: 1, 3, 8 gives 5.5. -/
example : ∃ s : Impulse.Finite (E ε),
    Impulse.Finite.run ([1 / 2, 1 / 2].map X.fin) (finOps ([.push 1, .push 3] ++ [.push 8])) = some s
      ∧ s.value = X.fin (11 / 2) := by
  obtain ⟨s, t, m, hs, ht, hm, hv, -⟩ := C99_moving_average (N := 2) (ε := ε) (by norm_num) [.push 1, .push 3] 8
  obtain ⟨t', ht', hm'⟩ := C18_window_mean (N := 2) (ε := ε) (by norm_num) ([.push 1, .push 3] ++ [.push 8])
  obtain ⟨s', hs', hv'⟩ := C50_fir (ε := ε) (cs := [1 / 2, 1 / 2]) (by simp) [.push 1, .push 3] 8
  refine ⟨s', hs', hv'.trans ?_⟩
  have e : sinceClear ([.push 1, .push 3] ++ [.push 8]) = ([1, 3, 8] : List ℝ) := rfl
  rw [e, X.fin_inj, Spec.fir_eq]
  norm_num

end Verif.Props
