import Verif.Props.VarianceError
import Verif.Proofs.TrendError
/-
C123, C124: rounding errors of the cumulative regression and correlation.
-/
namespace Verif.Props
open Scalar Verif.Cumulative

variable {w : Nat} {F : Fmt} {p : Nat} {emin : Int} {u η : ℝ}

/-- The error of a quotient. -/
theorem quotient_error {c C v V e₁ e₂ : ℝ} (h1 : |c - C| ≤ e₁) (h2 : |v - V| ≤ e₂) (hV : 0 < V) (h : 2 * e₂ ≤ V) :
    V / 2 ≤ v ∧ |c / v - C / V| ≤ 2 * (e₁ * V + |C| * e₂) / (V * V) := by
  have h2' := abs_le.1 h2
  have hv : V / 2 ≤ v := by linarith
  refine ⟨hv, ?_⟩
  have hv0 : 0 < v := by linarith
  have e : c / v - C / V = ((c - C) * V - C * (v - V)) / (v * V) := by field_simp; ring
  have hn : |(c - C) * V - C * (v - V)| ≤ e₁ * V + |C| * e₂ := by
    refine (abs_sub _ _).trans ?_
    rw [abs_mul, abs_mul, abs_of_pos hV]
    exact add_le_add (mul_le_mul_of_nonneg_right h1 hV.le) (mul_le_mul_of_nonneg_left h2 (abs_nonneg _))
  have hnn := (abs_nonneg _).trans hn
  rw [e, abs_div, abs_of_pos (mul_pos hv0 hV), div_le_div_iff₀ (mul_pos hv0 hV) (mul_pos hV hV)]
  calc |(c - C) * V - C * (v - V)| * (V * V) ≤ (e₁ * V + |C| * e₂) * (V * V) := mul_le_mul_of_nonneg_right hn (by positivity)
    _ ≤ (e₁ * V + |C| * e₂) * (2 * (v * V)) := mul_le_mul_of_nonneg_left (by nlinarith) hnn
    _ = _ := by ring

/-- The parts of the regression and correlation filters. -/
theorem pairs_parts (ops : List (Op (ℝ × ℝ))) :
    (Correlation.run (finOps2 ops) : Correlation w (X F))
      = { co := Comoment.run (finOps2 ops), x := Variance.run (finOps ((Spec.xsOf (sinceClear ops)).map Op.push)),
          y := Variance.run (finOps ((Spec.ysOf (sinceClear ops)).map Op.push)) }
    ∧ (Regression.run (finOps2 ops) : Regression w (X F))
      = { co := Comoment.run (finOps2 ops), x := Variance.run (finOps ((Spec.xsOf (sinceClear ops)).map Op.push)),
          y := Variance.run (finOps ((Spec.ysOf (sinceClear ops)).map Op.push)) } := by
  have e1 : ((sinceClear ops).map fun q => ((X.fin q.1, X.fin q.2) : X F × X F)).map Prod.fst = (Spec.xsOf (sinceClear ops)).map X.fin := by
    simp [Spec.xsOf, Function.comp_def]
  have e2 : ((sinceClear ops).map fun q => ((X.fin q.1, X.fin q.2) : X F × X F)).map Prod.snd = (Spec.ysOf (sinceClear ops)).map X.fin := by
    simp [Spec.ysOf, Function.comp_def]
  rw [Correlation.run_eq, Regression.run_eq, Comoment.run_eq, Variance.run_eq, Variance.run_eq, sinceClear_finOps2, sinceClear_finOps,
    sinceClear_finOps, sinceClear_pushes, sinceClear_pushes, Correlation.fold_any, Regression.fold_any, e1, e2]
  exact ⟨rfl, rfl⟩

/-- What the error bounds assume of the pairs: they are numbers of the format of size at most `A` and `B`, there are at most
`2 ^ w - 1` of them, and `K` exceeds the intermediate results by far (so that nothing overflows). -/
structure PairData (F : Fmt) (p : Nat) (emin : Int) (u η : ℝ) (w : Nat) (A B K : ℝ) (ps : List (ℝ × ℝ)) : Prop where
  ne : ps ≠ []
  dx : F.Data p emin (Spec.xsOf ps)
  dy : F.Data p emin (Spec.ysOf ps)
  hw : ps.length < 2 ^ w
  hp : ps.length ≤ 2 ^ p
  fit : F.fits (ps.length : ℝ)
  hA : ∀ q ∈ ps, |q.1| ≤ A
  hB : ∀ q ∈ ps, |q.2| ≤ B
  ηA : η ≤ u * A
  ηB : η ≤ u * B
  ηAA : η ≤ u * (A * A)
  ηAB : η ≤ u * (A * B)
  ηBB : η ≤ u * (B * B)
  K_rep : IsRep p emin K
  K_fits : F.fits K
  KAA : 8 * ps.length * (A * A) ≤ K
  KAB : 8 * ps.length * (A * B) ≤ K
  KBB : 8 * ps.length * (B * B) ≤ K

namespace PairData
variable {A B K : ℝ} {ops : List (Op (ℝ × ℝ))}

theorem A_nonneg {ps} (h : PairData F p emin u η w A B K ps) : 0 ≤ A := by
  obtain ⟨q, hq⟩ := List.exists_mem_of_ne_nil _ h.ne
  exact (abs_nonneg _).trans (h.hA q hq)

theorem B_nonneg {ps} (h : PairData F p emin u η w A B K ps) : 0 ≤ B := by
  obtain ⟨q, hq⟩ := List.exists_mem_of_ne_nil _ h.ne
  exact (abs_nonneg _).trans (h.hB q hq)

theorem xs_le {ps} (h : PairData F p emin u η w A B K ps) : ∀ x ∈ Spec.xsOf ps, |x| ≤ A := by
  intro x hx; obtain ⟨q, hq, rfl⟩ := List.mem_map.1 hx; exact h.hA q hq

theorem ys_le {ps} (h : PairData F p emin u η w A B K ps) : ∀ x ∈ Spec.ysOf ps, |x| ≤ B := by
  intro x hx; obtain ⟨q, hq, rfl⟩ := List.mem_map.1 hx; exact h.hB q hq

theorem variance_le {xs : List ℝ} (hne : xs ≠ []) {C : ℝ} (h : ∀ x ∈ xs, |x| ≤ C) : Spec.variance xs ≤ C * C := by
  have hpos : (0 : ℝ) < xs.length := by exact_mod_cast List.length_pos_iff.2 hne
  unfold Spec.variance
  rw [div_le_iff₀ hpos]
  have := Spec.central_two_le xs h
  nlinarith

theorem covariance_le {ps} (h : PairData F p emin u η w A B K ps) : |Spec.covariance ps| ≤ A * B := by
  have hpos : (0 : ℝ) < ps.length := by exact_mod_cast List.length_pos_iff.2 h.ne
  unfold Spec.covariance
  rw [abs_div, abs_of_pos hpos, div_le_iff₀ hpos]
  have := Spec.abs_cosum_le h.A_nonneg h.B_nonneg ps h.hA h.hB
  linarith

theorem xs_ne {ps} (h : PairData F p emin u η w A B K ps) : Spec.xsOf ps ≠ [] := by
  intro e; exact h.ne (List.map_eq_nil_iff.1 e)

theorem ys_ne {ps} (h : PairData F p emin u η w A B K ps) : Spec.ysOf ps ≠ [] := by
  intro e; exact h.ne (List.map_eq_nil_iff.1 e)

theorem x_error (hF : F.Binary p emin) (hE : F.Err u η) {ps} (h : PairData F p emin u η w A B K ps) (hs : (6 * ps.length + 65) * u ≤ 1) :
    ∃ v : ℝ, (Variance.run (finOps ((Spec.xsOf ps).map Op.push)) : Variance w (X F)).variance = X.fin v
      ∧ |v - Spec.variance (Spec.xsOf ps)| ≤ (6 * ps.length + 68) * (u * (A * A)) := by
  have hl : (Spec.xsOf ps).length = ps.length := List.length_map ..
  have := C70_variance_error (w := w) hF hE h.A_nonneg h.ηA h.ηAA h.K_rep h.K_fits ((Spec.xsOf ps).map Op.push)
    (by rw [sinceClear_pushes]; exact h.xs_ne) (by rw [sinceClear_pushes]; exact h.dx) (by rw [sinceClear_pushes, hl]; exact h.hw)
    (by rw [sinceClear_pushes, hl]; exact h.hp) (by rw [sinceClear_pushes, hl]; exact h.fit)
    (by rw [sinceClear_pushes]; exact h.xs_le) (by rw [sinceClear_pushes, hl]; exact h.KAA) (by rw [sinceClear_pushes, hl]; exact hs)
  rwa [sinceClear_pushes, hl] at this

theorem y_error (hF : F.Binary p emin) (hE : F.Err u η) {ps} (h : PairData F p emin u η w A B K ps) (hs : (6 * ps.length + 65) * u ≤ 1) :
    ∃ v : ℝ, (Variance.run (finOps ((Spec.ysOf ps).map Op.push)) : Variance w (X F)).variance = X.fin v
      ∧ |v - Spec.variance (Spec.ysOf ps)| ≤ (6 * ps.length + 68) * (u * (B * B)) := by
  have hl : (Spec.ysOf ps).length = ps.length := List.length_map ..
  have := C70_variance_error (w := w) hF hE h.B_nonneg h.ηB h.ηBB h.K_rep h.K_fits ((Spec.ysOf ps).map Op.push)
    (by rw [sinceClear_pushes]; exact h.ys_ne) (by rw [sinceClear_pushes]; exact h.dy) (by rw [sinceClear_pushes, hl]; exact h.hw)
    (by rw [sinceClear_pushes, hl]; exact h.hp) (by rw [sinceClear_pushes, hl]; exact h.fit)
    (by rw [sinceClear_pushes]; exact h.ys_le) (by rw [sinceClear_pushes, hl]; exact h.KBB) (by rw [sinceClear_pushes, hl]; exact hs)
  rwa [sinceClear_pushes, hl] at this

theorem co_error (hF : F.Binary p emin) (hE : F.Err u η) (h : PairData F p emin u η w A B K (sinceClear ops))
    (hs : (6 * (sinceClear ops).length + 65) * u ≤ 1) :
    ∃ c : ℝ, (Comoment.run (finOps2 ops) : Comoment w (X F)).variance = X.fin c
      ∧ |c - Spec.covariance (sinceClear ops)| ≤ (6 * (sinceClear ops).length + 68) * (u * (A * B)) :=
  C70_covariance_error hF hE h.A_nonneg h.B_nonneg h.ηA h.ηB h.ηAB h.K_rep h.K_fits ops h.ne h.dx h.dy h.hw h.hp h.fit h.hA h.hB h.KAB hs

end PairData

/-- The slope and its error, the bound of the slope. -/
theorem slope_error (hF : F.Binary p emin) (hE : F.Err u η) {A B K : ℝ} (ops : List (Op (ℝ × ℝ)))
    (h : PairData F p emin u η w A B K (sinceClear ops)) {V : ℝ} (hVe : V = Spec.variance (Spec.xsOf (sinceClear ops))) (hV : 0 < V)
    (hcond : 2 * ((6 * (sinceClear ops).length + 68) * (u * (A * A))) ≤ V)
    (hη : η ≤ u * (A * B / V)) (hK : 4 * (A * B / V) ≤ K) :
    ∃ s : ℝ, (Regression.run (finOps2 ops) : Regression w (X F)).slope = X.fin s
      ∧ |s - Spec.covariance (sinceClear ops) / V| ≤ (12 * (sinceClear ops).length + 140) * (u * ((A * B / V) * (1 + A * A / V)))
      ∧ |s| ≤ 4 * (A * B / V) := by
  have hA0 := h.A_nonneg
  have hB0 := h.B_nonneg
  have hu := hE.u_nonneg
  have hVA : V ≤ A * A := hVe ▸ PairData.variance_le h.xs_ne h.xs_le
  have hAA : 0 < A * A := hV.trans_le hVA
  set n : ℝ := ((sinceClear ops).length : ℝ) with hn
  have hδ : (6 * n + 68) * u ≤ 1 / 2 := by
    refine le_of_mul_le_mul_right (a := A * A) ?_ hAA
    nlinarith
  have hs : (6 * n + 65) * u ≤ 1 := by nlinarith
  obtain ⟨v, hv, hve⟩ := h.x_error hF hE hs
  obtain ⟨c, hc, hce⟩ := h.co_error hF hE hs
  rw [← hVe] at hve
  set C := Spec.covariance (sinceClear ops)
  have hC : |C| ≤ A * B := h.covariance_le
  have hAB := mul_nonneg hA0 hB0
  obtain ⟨hv2, hq⟩ := quotient_error hce hve hV hcond
  have hv0 : 0 < v := by linarith
  set b := A * B / V with hb
  set κ := A * A / V with hκ
  have hb0 : 0 ≤ b := div_nonneg hAB hV.le
  have hκ1 : 1 ≤ κ := by rw [hκ, le_div_iff₀ hV]; linarith
  have hABV : A * B = b * V := by rw [hb]; field_simp
  have hAAV : A * A = κ * V := by rw [hκ]; field_simp
  have hq' : |c / v - C / V| ≤ 2 * ((6 * n + 68) * (u * (b * (1 + κ)))) := by
    refine hq.trans ?_
    rw [div_le_iff₀ (mul_pos hV hV)]
    have : |C| * ((6 * n + 68) * (u * (A * A))) ≤ (A * B) * ((6 * n + 68) * (u * (A * A))) :=
      mul_le_mul_of_nonneg_right hC (by positivity)
    rw [hABV, hAAV] at this
    rw [hABV, hAAV]
    nlinarith
  have hcb : |c / v| ≤ 3 * b := by
    rw [abs_div, abs_of_pos hv0, div_le_iff₀ hv0]
    have e : c = (c - C) + C := by ring
    have h1 : |c| ≤ (6 * n + 68) * (u * (A * B)) + A * B := by
      rw [e]; exact (abs_add_le _ _).trans (add_le_add hce hC)
    have h2 : (6 * n + 68) * u * (A * B) ≤ 1 / 2 * (A * B) := mul_le_mul_of_nonneg_right hδ hAB
    have h3 : b * (V / 2) ≤ b * v := mul_le_mul_of_nonneg_left hv2 hb0
    rw [hABV] at h1 h2
    linarith
  have h1 := hE.err (c / v)
  have h2 : u * |c / v| ≤ 3 * (u * b) := by have := mul_le_mul_of_nonneg_left hcb hu; linarith
  obtain ⟨r1, -⟩ := hF.round_le h.K_rep h.K_fits (r := c / v) (hcb.trans (by linarith))
  refine ⟨F.rnd (c / v), ?_, ?_, ?_⟩
  · rw [(pairs_parts ops).2]
    unfold Regression.slope
    simp only
    rw [hv, hc, hF.ofNat_zero, X.beq_fin, decide_eq_false hv0.ne', if_neg (by simp), X.div_fin_of_ne _ hv0.ne', r1]
  · have e : F.rnd (c / v) - C / V = (F.rnd (c / v) - c / v) + (c / v - C / V) := by ring
    rw [e]
    refine (abs_add_le _ _).trans ?_
    have h3 : u * b * 1 ≤ u * b * κ := mul_le_mul_of_nonneg_left hκ1 (by positivity)
    nlinarith
  · have e : F.rnd (c / v) = (F.rnd (c / v) - c / v) + c / v := by ring
    rw [e]
    refine (abs_add_le _ _).trans ?_
    have := mul_le_mul_of_nonneg_right hE.u_le hb0
    linarith

/-- C123: the rounding error of the slope of the regression line.  `A * A / V` is the condition number of the data: `V` is the
variance of the x-coordinates, `A` bounds their size and `B` that of the y-coordinates; `2 (6 n + 68) u` must not exceed the
reciprocal of the condition number. -/
theorem C123_slope (hF : F.Binary p emin) (hE : F.Err u η) {A B K V : ℝ} (ops : List (Op (ℝ × ℝ)))
    (h : PairData F p emin u η w A B K (sinceClear ops)) (hVe : V = Spec.variance (Spec.xsOf (sinceClear ops))) (hV : 0 < V)
    (hcond : 2 * ((6 * (sinceClear ops).length + 68) * (u * (A * A))) ≤ V)
    (hη : η ≤ u * (A * B / V)) (hK : 4 * (A * B / V) ≤ K) :
    ∃ s : ℝ, (Regression.run (finOps2 ops) : Regression w (X F)).slope = X.fin s
      ∧ |s - Spec.covariance (sinceClear ops) / V| ≤ (12 * (sinceClear ops).length + 140) * (u * ((A * B / V) * (1 + A * A / V))) := by
  obtain ⟨s, h1, h2, -⟩ := slope_error hF hE ops h hVe hV hcond hη hK
  exact ⟨s, h1, h2⟩

/-- The mean of one coordinate. -/
theorem mean_error' (hF : F.Binary p emin) (hE : F.Err u η) {B : ℝ} (xs : List ℝ) (hne : xs ≠ []) (hd : F.Data p emin xs)
    (hw : xs.length < 2 ^ w) (hp : xs.length ≤ 2 ^ p) (hfit : F.fits (xs.length : ℝ)) (hB : ∀ x ∈ xs, |x| ≤ B) (hη : η ≤ u * B) :
    ∃ m, (Variance.run (finOps (xs.map Op.push)) : Variance w (X F)).getMean = X.fin m ∧ |m| ≤ B
      ∧ |m - Spec.mean xs| ≤ (2 * xs.length + 9) * (u * B) := by
  obtain ⟨m, hm, he⟩ := Mean.rounded_error (w := w) hF hE xs hne hd hw hp hfit hB
  refine ⟨m, ?_, (hm.within hne).abs_le hB, he.trans ?_⟩
  · have := hm.mean
    unfold Variance.getMean Mean.getMean
    rw [Variance.run_super, Mean.run_eq, sinceClear_finOps, sinceClear_pushes, this]
  · unfold meanErr
    have : (0 : ℝ) ≤ xs.length := by positivity
    nlinarith

/-- C123: the rounding error of the regression line within the range of the data. -/
theorem C123_at (hF : F.Binary p emin) (hE : F.Err u η) {A B K V : ℝ} (ops : List (Op (ℝ × ℝ)))
    (h : PairData F p emin u η w A B K (sinceClear ops)) (hVe : V = Spec.variance (Spec.xsOf (sinceClear ops))) (hV : 0 < V)
    (hcond : 2 * ((6 * (sinceClear ops).length + 68) * (u * (A * A))) ≤ V)
    (hη : η ≤ u * (A * B / V)) (hK : 4 * (A * B / V) ≤ K) (hKA : 3 * A ≤ K) (hKB : 16 * (A * A / V * B) ≤ K)
    (x : ℝ) (hx : |x| ≤ A) :
    ∃ y : ℝ, (Regression.run (finOps2 ops) : Regression w (X F)).at' (X.fin x) = X.fin y
      ∧ |y - (Spec.mean (Spec.ysOf (sinceClear ops))
            - Spec.covariance (sinceClear ops) / V * (Spec.mean (Spec.xsOf (sinceClear ops)) - x))|
          ≤ (38 * (sinceClear ops).length + 445) * (u * (A * A / V * (1 + A * A / V) * B)) := by
  have hlx : (Spec.xsOf (sinceClear ops)).length = (sinceClear ops).length := List.length_map ..
  have hly : (Spec.ysOf (sinceClear ops)).length = (sinceClear ops).length := List.length_map ..
  have hA0 := h.A_nonneg
  have hB0 := h.B_nonneg
  have hu := hE.u_nonneg
  have hη0 := hE.eta_nonneg
  have hu8 := hE.u_le
  have hVA : V ≤ A * A := hVe ▸ PairData.variance_le h.xs_ne h.xs_le
  obtain ⟨s, hs, hse, hsb⟩ := slope_error hF hE ops h hVe hV hcond hη hK
  obtain ⟨mx, hmx, hmxb, hmxe⟩ := mean_error' (w := w) hF hE _ h.xs_ne h.dx (by rw [hlx]; exact h.hw) (by rw [hlx]; exact h.hp)
    (by rw [hlx]; exact h.fit) h.xs_le h.ηA
  obtain ⟨my, hmy, hmyb, hmye⟩ := mean_error' (w := w) hF hE _ h.ys_ne h.dy (by rw [hly]; exact h.hw) (by rw [hly]; exact h.hp)
    (by rw [hly]; exact h.fit) h.ys_le h.ηB
  rw [hlx] at hmxe
  rw [hly] at hmye
  set n : ℝ := ((sinceClear ops).length : ℝ) with hn
  have hn0 : 0 ≤ n := by positivity
  set C := Spec.covariance (sinceClear ops)
  have hC : |C| ≤ A * B := h.covariance_le
  set μx := Spec.mean (Spec.xsOf (sinceClear ops))
  set μy := Spec.mean (Spec.ysOf (sinceClear ops))
  set b := A * B / V with hb
  set κ := A * A / V with hκ
  have hb0 : 0 ≤ b := div_nonneg (mul_nonneg hA0 hB0) hV.le
  have hκ1 : 1 ≤ κ := by rw [hκ, le_div_iff₀ hV]; linarith
  have hbA : A * b = κ * B := by rw [hb, hκ]; ring
  have hSb : |C / V| ≤ b := by rw [abs_div, abs_of_pos hV, hb]; exact div_le_div_of_nonneg_right hC hV.le
  have huA := mul_nonneg hu hA0
  have huB := mul_nonneg hu hB0
  have huA8 : u * A ≤ 1 / 8 * A := mul_le_mul_of_nonneg_right hu8 hA0
  have huB8 : u * B ≤ 1 / 8 * B := mul_le_mul_of_nonneg_right hu8 hB0
  -- the distance
  have d0 : |mx - x| ≤ 2 * A := (abs_sub _ _).trans (by linarith)
  have d1 := hE.err (mx - x)
  obtain ⟨r1, -⟩ := hF.round_le h.K_rep h.K_fits (r := mx - x) (d0.trans (by linarith))
  set d := F.rnd (mx - x)
  have d2 : u * |mx - x| ≤ 2 * (u * A) := by have := mul_le_mul_of_nonneg_left d0 hu; linarith
  have hηA := h.ηA
  have hηB := h.ηB
  have d3 : |d| ≤ 3 * A := by
    have := abs_add_le (d - (mx - x)) (mx - x)
    rw [sub_add_cancel] at this
    linarith
  have d4 : |d - (μx - x)| ≤ (2 * n + 12) * (u * A) := by
    have e : d - (μx - x) = (d - (mx - x)) + (mx - μx) := by ring
    rw [e]
    refine (abs_add_le _ _).trans ?_
    linarith
  -- the product
  have hκB : B ≤ κ * B := by nlinarith
  have huκB : u * B ≤ u * (κ * B) := mul_le_mul_of_nonneg_left hκB hu
  have t0 : |s * d| ≤ 12 * (κ * B) := by
    rw [abs_mul]
    calc |s| * |d| ≤ 4 * b * (3 * A) := mul_le_mul hsb d3 (abs_nonneg _) (by positivity)
      _ = 12 * (A * b) := by ring
      _ = _ := by rw [hbA]
  have t1 := hE.err (s * d)
  obtain ⟨r2, -⟩ := hF.round_le h.K_rep h.K_fits (r := s * d) (t0.trans (by linarith [mul_nonneg (zero_le_one.trans hκ1) hB0]))
  set t := F.rnd (s * d)
  have t2 : u * |s * d| ≤ 12 * (u * (κ * B)) := by have := mul_le_mul_of_nonneg_left t0 hu; linarith
  have hκB0 : 0 ≤ κ * B := hB0.trans hκB
  have huκB8 : u * (κ * B) ≤ 1 / 8 * (κ * B) := mul_le_mul_of_nonneg_right hu8 hκB0
  have t3 : |t| ≤ 14 * (κ * B) := by
    have := abs_add_le (t - s * d) (s * d)
    rw [sub_add_cancel] at this
    linarith
  have t4 : |t - C / V * (μx - x)| ≤ 13 * (u * (κ * B)) + (36 * n + 420) * (u * (κ * (1 + κ) * B)) + (2 * n + 12) * (u * (κ * B)) := by
    have e : t - C / V * (μx - x) = (t - s * d) + ((s - C / V) * d + C / V * (d - (μx - x))) := by ring
    rw [e]
    refine (abs_add_le _ _).trans ?_
    have i1 : |(s - C / V) * d| ≤ (36 * n + 420) * (u * (κ * (1 + κ) * B)) := by
      rw [abs_mul]
      calc |s - C / V| * |d| ≤ (12 * n + 140) * (u * (b * (1 + κ))) * (3 * A) := mul_le_mul hse d3 (abs_nonneg _) (by positivity)
        _ = (36 * n + 420) * (u * ((A * b) * (1 + κ))) := by ring
        _ = _ := by rw [hbA]; ring
    have i2 : |C / V * (d - (μx - x))| ≤ (2 * n + 12) * (u * (κ * B)) := by
      rw [abs_mul]
      calc |C / V| * |d - (μx - x)| ≤ b * ((2 * n + 12) * (u * A)) := mul_le_mul hSb d4 (abs_nonneg _) hb0
        _ = (2 * n + 12) * (u * (A * b)) := by ring
        _ = _ := by rw [hbA]
    have i3 := abs_add_le ((s - C / V) * d) (C / V * (d - (μx - x)))
    linarith
  -- the result
  have y0 : |my - t| ≤ 15 * (κ * B) := (abs_sub _ _).trans (by linarith)
  have y1 := hE.err (my - t)
  obtain ⟨r3, -⟩ := hF.round_le h.K_rep h.K_fits (r := my - t) (y0.trans (by linarith))
  have y2 : u * |my - t| ≤ 15 * (u * (κ * B)) := by have := mul_le_mul_of_nonneg_left y0 hu; linarith
  refine ⟨F.rnd (my - t), ?_, ?_⟩
  · have hx' : (Regression.run (finOps2 ops) : Regression w (X F)).x.getMean = X.fin mx := by rw [(pairs_parts ops).2]; exact hmx
    have hy' : (Regression.run (finOps2 ops) : Regression w (X F)).y.getMean = X.fin my := by rw [(pairs_parts ops).2]; exact hmy
    unfold Regression.at'
    rw [hx', hy', hs, X.sub_fin, r1, X.mul_fin, r2, X.sub_fin, r3]
  · have e : F.rnd (my - t) - (μy - C / V * (μx - x)) = (F.rnd (my - t) - (my - t)) + ((my - μy) - (t - C / V * (μx - x))) := by ring
    rw [e]
    refine (abs_add_le _ _).trans ?_
    have i1 := abs_sub (my - μy) (t - C / V * (μx - x))
    have i2 : u * (κ * B) * 2 ≤ u * (κ * (1 + κ) * B) := by
      have : u * (κ * B) * 2 ≤ u * (κ * B) * (1 + κ) := mul_le_mul_of_nonneg_left (by linarith) (by positivity)
      linarith
    have i3 : (2 * n + 9) * (u * B) ≤ (2 * n + 9) * (u * (κ * B)) := mul_le_mul_of_nonneg_left huκB (by positivity)
    have i4 : (4 * n + 50) * (u * (κ * B) * 2) ≤ (4 * n + 50) * (u * (κ * (1 + κ) * B)) := mul_le_mul_of_nonneg_left i2 (by positivity)
    linarith

/-- Cauchy-Schwarz for the covariance. -/
theorem covariance_sq_le_variances (ps : List (ℝ × ℝ)) (hne : ps ≠ []) :
    Spec.covariance ps ^ 2 ≤ Spec.variance (Spec.xsOf ps) * Spec.variance (Spec.ysOf ps) := by
  have hpos : (0 : ℝ) < ps.length := by exact_mod_cast List.length_pos_iff.2 hne
  have := Spec.cosum_sq_le ps
  unfold Spec.covariance Spec.variance
  rw [show (Spec.xsOf ps).length = ps.length from List.length_map .., show (Spec.ysOf ps).length = ps.length from List.length_map ..,
    div_pow, div_mul_div_comm, ← pow_two]
  exact div_le_div_of_nonneg_right this (by positivity)

/-- The relative error of a product. -/
theorem product_error {v V y W α β : ℝ} (hV : 0 < V) (hW : 0 < W) (hve : |v - V| ≤ α * V) (hye : |y - W| ≤ β * W) (hα0 : 0 ≤ α)
    (hβ0 : 0 ≤ β) (hα8 : α ≤ 1 / 8) (hβ8 : β ≤ 1 / 8) : 0 < v * y ∧ |v * y - V * W| ≤ 17 / 16 * (α + β) * (V * W) := by
  have hv' := abs_le.1 hve
  have hy' := abs_le.1 hye
  have hαV8 : α * V ≤ 1 / 8 * V := mul_le_mul_of_nonneg_right hα8 hV.le
  have hβW8 : β * W ≤ 1 / 8 * W := mul_le_mul_of_nonneg_right hβ8 hW.le
  refine ⟨mul_pos (by linarith) (by linarith), ?_⟩
  have e : v * y - V * W = (v - V) * (y - W) + V * (y - W) + W * (v - V) := by ring
  have i1 : |(v - V) * (y - W)| ≤ α * V * (β * W) := by
    rw [abs_mul]; exact mul_le_mul hve hye (abs_nonneg _) (by positivity)
  have i2 : |V * (y - W)| ≤ V * (β * W) := by rw [abs_mul, abs_of_pos hV]; exact mul_le_mul_of_nonneg_left hye hV.le
  have i3 : |W * (v - V)| ≤ W * (α * V) := by rw [abs_mul, abs_of_pos hW]; exact mul_le_mul_of_nonneg_left hve hW.le
  have i4 : α * β ≤ 1 / 16 * (α + β) := by nlinarith
  have i5 : α * β * (V * W) ≤ 1 / 16 * (α + β) * (V * W) := mul_le_mul_of_nonneg_right i4 (mul_pos hV hW).le
  rw [e]
  refine (abs_add_le _ _).trans ?_
  have := abs_add_le ((v - V) * (y - W)) (V * (y - W))
  linarith

/-- The relative error of a square root. -/
theorem sqrt_error {g P σ : ℝ} (hP0 : 0 < P) (hσ0 : 0 ≤ σ) (hσ4 : σ ≤ 1 / 4) (hgP : |g - P| ≤ 27 / 25 * (σ * P)) :
    0 ≤ g ∧ |√g - √P| ≤ 3 / 5 * (σ * √P) := by
  have hσP : σ * P ≤ 1 / 4 * P := mul_le_mul_of_nonneg_right hσ4 hP0.le
  have hgP' := abs_le.1 hgP
  have hg73 : 73 / 100 * P ≤ g := by linarith
  have hg0 : 0 ≤ g := by linarith
  refine ⟨hg0, ?_⟩
  have hR0 : 0 < √P := Real.sqrt_pos.2 hP0
  have hRR : √P * √P = P := Real.mul_self_sqrt hP0.le
  have hqq : √g * √g = g := Real.mul_self_sqrt hg0
  have hq0 : 0 ≤ √g := Real.sqrt_nonneg _
  generalize √P = R at *
  have hqR : 17 / 20 * R ≤ √g := by
    refine Real.le_sqrt_of_sq_le ?_
    have : (17 / 20 * R) ^ 2 = 289 / 400 * P := by rw [← hRR]; ring
    rw [this]; linarith
  generalize √g = q at *
  have e : (q - R) * (q + R) = g - P := by rw [← hqq, ← hRR]; ring
  have i : |q - R| * (q + R) ≤ 27 / 25 * (σ * P) := by
    rw [← abs_of_nonneg (by linarith : 0 ≤ q + R), ← abs_mul, e]; exact hgP
  have i2 : |q - R| * (37 / 20 * R) ≤ |q - R| * (q + R) := mul_le_mul_of_nonneg_left (by linarith) (abs_nonneg _)
  refine le_of_mul_le_mul_right (a := 37 / 20 * R) ?_ (by positivity)
  refine (i2.trans i).trans ?_
  rw [← hRR]
  have : 0 ≤ σ * (R * R) := by positivity
  linarith

/-- The error of the quotient. -/
theorem normalised_error {c C s R σ : ℝ} (hR0 : 0 < R) (hσ0 : 0 ≤ σ) (hσ4 : σ ≤ 1 / 4) (hC : |C| ≤ R) (hcR : |c - C| ≤ 1 / 2 * σ * R)
    (hsR : |s - R| ≤ 31 / 50 * (σ * R)) : 0 < s ∧ |c / s - C / R| ≤ 4 / 3 * σ + 1 / 100 * σ := by
  have hσR : σ * R ≤ 1 / 4 * R := mul_le_mul_of_nonneg_right hσ4 hR0.le
  have hσR0 : 0 ≤ σ * R := mul_nonneg hσ0 hR0.le
  have hsR' := abs_le.1 hsR
  have hs84 : 21 / 25 * R ≤ s := by linarith
  have hs0 : 0 < s := by linarith
  refine ⟨hs0, ?_⟩
  have e : c / s - C / R = ((c - C) * R - C * (s - R)) / (s * R) := by field_simp; ring
  rw [e, abs_div, abs_of_pos (mul_pos hs0 hR0), div_le_iff₀ (mul_pos hs0 hR0)]
  have i1 : |(c - C) * R| ≤ 1 / 2 * σ * R * R := by
    rw [abs_mul, abs_of_pos hR0]; exact mul_le_mul_of_nonneg_right hcR hR0.le
  have i2 : |C * (s - R)| ≤ R * (31 / 50 * (σ * R)) := by
    rw [abs_mul]; exact mul_le_mul hC hsR (abs_nonneg _) hR0.le
  have i3 : σ * R * (21 / 25 * R) ≤ σ * R * s := mul_le_mul_of_nonneg_left hs84 hσR0
  have i4 : 0 ≤ σ * R * R := by positivity
  refine (abs_sub _ _).trans ?_
  linarith

/-- C124: the rounding error of the correlation.  `α = (6 n + 68) u A² / Vx` and `β = (6 n + 68) u B² / Vy` are the relative errors
of the two variances; the product of the variances must be large enough for the correlation to be computed at all. -/
theorem C124_error (hF : F.Binary p emin) (hE : F.Err u η) {A B K V W α β : ℝ} (ops : List (Op (ℝ × ℝ)))
    (h : PairData F p emin u η w A B K (sinceClear ops))
    (hVe : V = Spec.variance (Spec.xsOf (sinceClear ops))) (hWe : W = Spec.variance (Spec.ysOf (sinceClear ops)))
    (hV : 0 < V) (hW : 0 < W)
    (hα : α = (6 * (sinceClear ops).length + 68) * (u * (A * A)) / V) (hβ : β = (6 * (sinceClear ops).length + 68) * (u * (B * B)) / W)
    (hα8 : α ≤ 1 / 8) (hβ8 : β ≤ 1 / 8) (hη : η ≤ u) (hηP : η ≤ u * (V * W)) (hηR : η ≤ u * √(V * W))
    (heps : 2 * F.eps ≤ V * W) (hKP : 2 * (A * A * (B * B)) ≤ K) (hK2 : 2 ≤ K) :
    ∃ r : ℝ, (Correlation.run (finOps2 ops) : Correlation w (X F)).value = X.fin r
      ∧ |r - Spec.covariance (sinceClear ops) / √(V * W)| ≤ 3 / 2 * (α + β) := by
  have hA0 := h.A_nonneg
  have hB0 := h.B_nonneg
  have hu := hE.u_nonneg
  have hVA : V ≤ A * A := hVe ▸ PairData.variance_le h.xs_ne h.xs_le
  have hWB : W ≤ B * B := hWe ▸ PairData.variance_le h.ys_ne h.ys_le
  have hAA : 0 < A * A := hV.trans_le hVA
  have hlen : 1 ≤ (sinceClear ops).length := List.length_pos_iff.2 h.ne
  have hcs := covariance_sq_le_variances _ h.ne
  rw [← hVe, ← hWe] at hcs
  have hKAB := h.KAB
  set n : ℝ := ((sinceClear ops).length : ℝ) with hn
  have hn1 : 1 ≤ n := by rw [hn]; exact_mod_cast hlen
  have hαV : (6 * n + 68) * (u * (A * A)) = α * V := by rw [hα]; field_simp
  have hβW : (6 * n + 68) * (u * (B * B)) = β * W := by rw [hβ]; field_simp
  have hα0 : 0 ≤ α := by rw [hα]; positivity
  have hβ0 : 0 ≤ β := by rw [hβ]; positivity
  have hδα : (6 * n + 68) * u ≤ α := by
    rw [hα, le_div_iff₀ hV]
    have : (6 * n + 68) * u * V ≤ (6 * n + 68) * u * (A * A) := mul_le_mul_of_nonneg_left hVA (by positivity)
    linarith
  have hδβ : (6 * n + 68) * u ≤ β := by
    rw [hβ, le_div_iff₀ hW]
    have : (6 * n + 68) * u * W ≤ (6 * n + 68) * u * (B * B) := mul_le_mul_of_nonneg_left hWB (by positivity)
    linarith
  have hnu : 0 ≤ n * u := mul_nonneg (by linarith) hu
  have hnu1 : 1 * u ≤ n * u := mul_le_mul_of_nonneg_right hn1 hu
  have huα : 148 * u ≤ α + β := by linarith
  obtain ⟨v, hv, hve⟩ := h.x_error hF hE (by linarith)
  obtain ⟨y, hy, hye⟩ := h.y_error hF hE (by linarith)
  obtain ⟨c, hc, hce⟩ := h.co_error hF hE (by linarith)
  rw [← hVe, hαV] at hve
  rw [← hWe, hβW] at hye
  set C := Spec.covariance (sinceClear ops)
  set P := V * W with hP
  have hP0 : 0 < P := mul_pos hV hW
  set R := √P with hR
  have hR0 : 0 < R := Real.sqrt_pos.2 hP0
  have hRR : R * R = P := Real.mul_self_sqrt hP0.le
  set σ := α + β with hσ
  have hσ0 : 0 ≤ σ := by linarith
  have hσ4 : σ ≤ 1 / 4 := by linarith
  have hC : |C| ≤ R := by
    rw [hR]; exact Real.abs_le_sqrt hcs
  -- the covariance
  have hcR : |c - C| ≤ 1 / 2 * σ * R := by
    refine hce.trans ?_
    refine abs_le_of_sq_le_sq' ?_ (by positivity) |>.2
    have e1 : ((6 * n + 68) * (u * (A * B))) ^ 2 = ((6 * n + 68) * (u * (A * A))) * ((6 * n + 68) * (u * (B * B))) := by ring
    have e2 : (1 / 2 * σ * R) ^ 2 = 1 / 4 * σ ^ 2 * P := by rw [← hRR]; ring
    rw [e1, e2, hαV, hβW]
    have : α * β ≤ 1 / 4 * σ ^ 2 := by rw [hσ]; nlinarith [sq_nonneg (α - β)]
    calc α * V * (β * W) = α * β * P := by rw [hP]; ring
      _ ≤ _ := mul_le_mul_of_nonneg_right this hP0.le
  -- the product of the variances
  obtain ⟨hvy0, hvy⟩ := product_error hV hW hve hye hα0 hβ0 hα8 hβ8
  rw [← hP, ← hσ] at hvy
  have hσP : σ * P ≤ 1 / 4 * P := mul_le_mul_of_nonneg_right hσ4 hP0.le
  have hσP0 : 0 ≤ σ * P := mul_nonneg hσ0 hP0.le
  have hvy' := abs_le.1 hvy
  have hvyb : |v * y| ≤ 13 / 10 * P := by
    rw [abs_of_pos hvy0]; linarith
  have hPK : 2 * P ≤ K := by
    have : P ≤ A * A * (B * B) := mul_le_mul hVA hWB hW.le (mul_nonneg hA0 hA0)
    linarith
  obtain ⟨r1, -⟩ := hF.round_le h.K_rep h.K_fits (r := v * y) (hvyb.trans (by linarith))
  have g1 := hE.err (v * y)
  set g := F.rnd (v * y)
  have huP : 148 * (u * P) ≤ σ * P := by have := mul_le_mul_of_nonneg_right huα hP0.le; linarith
  have hgP : |g - P| ≤ 27 / 25 * (σ * P) := by
    have i := mul_le_mul_of_nonneg_left hvyb hu
    have e : g - P = (g - v * y) + (v * y - P) := by ring
    rw [e]
    refine (abs_add_le _ _).trans ?_
    linarith
  have hgP' := abs_le.1 hgP
  have hg73 : 73 / 100 * P ≤ g := by linarith
  -- the square root
  obtain ⟨hg0, hqRe⟩ := sqrt_error hP0 hσ0 hσ4 hgP
  have hq0 : 0 ≤ √g := Real.sqrt_nonneg _
  set q := √g with hq
  have hσR : σ * R ≤ 1 / 4 * R := mul_le_mul_of_nonneg_right hσ4 hR0.le
  have hσR0 : 0 ≤ σ * R := mul_nonneg hσ0 hR0.le
  have hqRe' := abs_le.1 hqRe
  have hqb : |q| ≤ 23 / 20 * R := by rw [abs_of_nonneg hq0]; linarith
  have hRK : 8 * R ≤ K := by
    have i1 : R ≤ A * B := by
      rw [hR]; refine Real.sqrt_le_left (by positivity) |>.2 ?_ |> id
      calc P ≤ A * A * (B * B) := mul_le_mul hVA hWB hW.le (mul_nonneg hA0 hA0)
        _ = (A * B) ^ 2 := by ring
    have i2 : 1 * (A * B) ≤ n * (A * B) := mul_le_mul_of_nonneg_right hn1 (mul_nonneg hA0 hB0)
    linarith
  obtain ⟨r2, -⟩ := hF.round_le h.K_rep h.K_fits (r := q) (hqb.trans (by linarith))
  have s1 := hE.err q
  set s := F.rnd q
  have huR : 148 * (u * R) ≤ σ * R := by have := mul_le_mul_of_nonneg_right huα hR0.le; linarith
  have hsR : |s - R| ≤ 31 / 50 * (σ * R) := by
    have i := mul_le_mul_of_nonneg_left hqb hu
    have e : s - R = (s - q) + (q - R) := by ring
    rw [e]
    refine (abs_add_le _ _).trans ?_
    linarith
  -- the quotient
  obtain ⟨hs0, hqt⟩ := normalised_error hR0 hσ0 hσ4 hC hcR hsR
  have hCR : |C / R| ≤ 1 := by rw [abs_div, abs_of_pos hR0]; exact (div_le_one hR0).2 hC
  have hcs2 : |c / s| ≤ 7 / 5 := by
    have e : c / s = (c / s - C / R) + C / R := by ring
    rw [e]; refine (abs_add_le _ _).trans ?_; linarith
  obtain ⟨r3, -⟩ := hF.round_le h.K_rep h.K_fits (r := c / s) (hcs2.trans (by linarith))
  have t1 := hE.err (c / s)
  refine ⟨F.rnd (c / s), ?_, ?_⟩
  · rw [(pairs_parts ops).1]
    unfold Correlation.value
    simp only
    rw [hv, hy, hc, X.mul_fin, r1, X.eps_eq, X.lt_fin, decide_eq_false (by linarith), if_neg (by simp), X.sqrt_fin_of_nonneg hg0, r2,
      X.div_fin_of_ne _ hs0.ne', r3]
  · have e : F.rnd (c / s) - C / R = (F.rnd (c / s) - c / s) + (c / s - C / R) := by ring
    rw [e]
    refine (abs_add_le _ _).trans ?_
    have := mul_le_mul_of_nonneg_left hcs2 hu
    linarith

/-! ### Examples -/

theorem pairData_example : PairData binary64 53 (-1074) (2 ^ (-53 : Int)) (2 ^ (-1075 : Int)) 64 4 6 1048576
    (sinceClear [.push (9, 9), .clear, .push (1, 2), .push (2, 1), .push (4, 6)]) := by
  have hs : sinceClear ([.push (9, 9), .clear, .push (1, 2), .push (2, 1), .push (4, 6)] : List (Op (ℝ × ℝ))) = [(1, 2), (2, 1), (4, 6)] := rfl
  have hη : (2 : ℝ) ^ (-1075 : Int) ≤ 2 ^ (-53 : Int) := zpow_le_zpow_right₀ (by norm_num) (by norm_num)
  have hu : (0 : ℝ) < 2 ^ (-53 : Int) := by positivity
  have h3 := binary64_int (n := 3) (by norm_num)
  have hK := binary64_int (n := 1048576) (by norm_num)
  push_cast at h3 hK
  rw [hs]
  exact {
    ne := by simp
    dx := by have := binary64_data [1, 2, 4] (by simp); simpa [Spec.xsOf] using this
    dy := by have := binary64_data [2, 1, 6] (by simp); simpa [Spec.ysOf] using this
    hw := by simp
    hp := by norm_num
    fit := by simpa using h3.2
    hA := by
      intro q hq; simp only [List.mem_cons, List.not_mem_nil, or_false] at hq
      rcases hq with rfl | rfl | rfl <;> norm_num
    hB := by
      intro q hq; simp only [List.mem_cons, List.not_mem_nil, or_false] at hq
      rcases hq with rfl | rfl | rfl <;> norm_num
    ηA := by linarith
    ηB := by linarith
    ηAA := by linarith
    ηAB := by linarith
    ηBB := by linarith
    K_rep := hK.1
    K_fits := hK.2
    KAA := by norm_num
    KAB := by norm_num
    KBB := by norm_num }

theorem moments_example : Spec.variance [1, 2, 4] = 14 / 9 ∧ Spec.variance [2, 1, 6] = 14 / 3
    ∧ Spec.covariance [(1, 2), (2, 1), (4, 6)] = 7 / 3 := by
  refine ⟨?_, ?_, ?_⟩
  · simp [Spec.variance, Spec.central, Spec.mean]; norm_num
  · simp [Spec.variance, Spec.central, Spec.mean]; norm_num
  · simp [Spec.covariance, Spec.cosum, Spec.mean, Spec.xsOf, Spec.ysOf]; norm_num

/-- The `double` slope of the pairs (1, 2), (2, 1), (4, 6) is 3/2 up to `10^-10`. -/
example : ∃ s : ℝ, (Regression.run (finOps2 [.push (9, 9), .clear, .push (1, 2), .push (2, 1), .push (4, 6)]) : Regression 64 (X binary64)).slope = X.fin s
    ∧ |s - 3 / 2| ≤ 10 ^ (-10 : Int) := by
  have hs : sinceClear ([.push (9, 9), .clear, .push (1, 2), .push (2, 1), .push (4, 6)] : List (Op (ℝ × ℝ))) = [(1, 2), (2, 1), (4, 6)] := rfl
  obtain ⟨e1, -, e3⟩ := moments_example
  have hη : (2 : ℝ) ^ (-1075 : Int) ≤ 2 ^ (-53 : Int) := zpow_le_zpow_right₀ (by norm_num) (by norm_num)
  have hu : (0 : ℝ) < 2 ^ (-53 : Int) := by positivity
  obtain ⟨s, h1, h2⟩ := C123_slope (w := 64) binary64_binary binary64_err _ pairData_example (V := 14 / 9)
    (by rw [hs]; exact e1.symm) (by norm_num) (by rw [hs]; norm_num) (hη.trans (le_mul_of_one_le_right hu.le (by norm_num))) (by norm_num)
  refine ⟨s, h1, ?_⟩
  rw [hs, e3] at h2
  rw [show (7 / 3 / (14 / 9) : ℝ) = 3 / 2 by norm_num] at h2
  refine h2.trans ?_
  norm_num

/-- The `double` regression line of these pairs at 3 is 4 up to `10^-8`. -/
example : ∃ y : ℝ, (Regression.run (finOps2 [.push (9, 9), .clear, .push (1, 2), .push (2, 1), .push (4, 6)]) : Regression 64 (X binary64)).at' (X.fin 3) = X.fin y
    ∧ |y - 4| ≤ 10 ^ (-8 : Int) := by
  have hs : sinceClear ([.push (9, 9), .clear, .push (1, 2), .push (2, 1), .push (4, 6)] : List (Op (ℝ × ℝ))) = [(1, 2), (2, 1), (4, 6)] := rfl
  obtain ⟨e1, -, e3⟩ := moments_example
  have hη : (2 : ℝ) ^ (-1075 : Int) ≤ 2 ^ (-53 : Int) := zpow_le_zpow_right₀ (by norm_num) (by norm_num)
  have hu : (0 : ℝ) < 2 ^ (-53 : Int) := by positivity
  obtain ⟨y, h1, h2⟩ := C123_at (w := 64) binary64_binary binary64_err _ pairData_example (V := 14 / 9)
    (by rw [hs]; exact e1.symm) (by norm_num) (by rw [hs]; norm_num) (hη.trans (le_mul_of_one_le_right hu.le (by norm_num))) (by norm_num) (by norm_num) (by norm_num) 3 (by norm_num)
  refine ⟨y, h1, ?_⟩
  rw [hs, e3] at h2
  rw [show (7 / 3 / (14 / 9) : ℝ) = 3 / 2 by norm_num,
    show Spec.mean (Spec.ysOf [(1, 2), (2, 1), (4, 6)]) - 3 / 2 * (Spec.mean (Spec.xsOf [(1, 2), (2, 1), (4, 6)]) - 3) = (4 : ℝ) by
      simp [Spec.mean, Spec.xsOf, Spec.ysOf]; norm_num] at h2
  refine h2.trans ?_
  norm_num

/-- The `double` correlation of these pairs is `(7 / 3) / √(196 / 27)` up to `10^-10`. -/
example : ∃ r : ℝ, (Correlation.run (finOps2 [.push (9, 9), .clear, .push (1, 2), .push (2, 1), .push (4, 6)]) : Correlation 64 (X binary64)).value = X.fin r
    ∧ |r - 7 / 3 / √(14 / 9 * (14 / 3))| ≤ 10 ^ (-10 : Int) := by
  have hs : sinceClear ([.push (9, 9), .clear, .push (1, 2), .push (2, 1), .push (4, 6)] : List (Op (ℝ × ℝ))) = [(1, 2), (2, 1), (4, 6)] := rfl
  obtain ⟨e1, e2, e3⟩ := moments_example
  have hη : (2 : ℝ) ^ (-1075 : Int) ≤ 2 ^ (-53 : Int) := zpow_le_zpow_right₀ (by norm_num) (by norm_num)
  have hu : (0 : ℝ) < 2 ^ (-53 : Int) := by positivity
  have hq : (1 : ℝ) ≤ √(14 / 9 * (14 / 3)) := Real.le_sqrt_of_sq_le (by norm_num)
  obtain ⟨r, h1, h2⟩ := C124_error (w := 64) binary64_binary binary64_err _ pairData_example (V := 14 / 9) (W := 14 / 3)
    (by rw [hs]; exact e1.symm) (by rw [hs]; exact e2.symm) (by norm_num) (by norm_num) rfl rfl (by rw [hs]; norm_num)
    (by rw [hs]; norm_num) hη (hη.trans (le_mul_of_one_le_right hu.le (by norm_num))) (hη.trans (le_mul_of_one_le_right hu.le hq)) (by show 2 * (2 : ℝ) ^ (-52 : Int) ≤ _; norm_num) (by norm_num) (by norm_num)
  refine ⟨r, h1, ?_⟩
  rw [hs, e3] at h2
  refine h2.trans ?_
  norm_num

end Verif.Props
