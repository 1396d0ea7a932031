import Verif.Proofs.LineError
import Verif.Props.InterimError
import Verif.Proofs.Interim
import Verif.Props.Relations
/-
C150: rounding error of the interim regression.
-/
namespace Verif.Props
open Scalar Verif.Interim
open Verif.Cumulative (Mean Variance Comoment)

variable {w W : Nat} {F : Fmt} {p : Nat} {emin : Int} {u η : ℝ}

/-- The interim mean of a variance filter. -/
theorem interim_variance_mean {α : Type} [Scalar α] (hW : 1 ≤ W) (hw : W < 2 ^ w) (ops : List (Op α)) :
    IVariance.mean (Interim.run ops : IVariance w W α) = IMean.mean (Interim.run ops : IMean w W α) := by
  have hsuper : ∀ l : List α, (foldB l : Variance w α).super = (foldB l : Mean w α) := by
    intro l
    induction l using List.reverseRecOn with
    | nil => rfl
    | append_singleton l x ih => rw [foldB_snoc, foldB_snoc, ← ih]; rfl
  unfold IVariance.mean IMean.mean
  rw [run_blocks hW hw, run_blocks hW hw]
  unfold Interim.meanWith Interim.passiveEmpty
  simp only [size_foldB]
  simp only [Variance.getMean, Mean.getMean, hsuper]

theorem abs_interimVariance {β : Type} (hW : 1 ≤ W) {v : List β → ℝ} {xs : List β} (hne : xs ≠ []) {M : ℝ}
    (h : ∀ l : List β, l ≠ [] → (∀ x ∈ l, x ∈ xs) → |v l| ≤ M) : |Spec_interimVariance W v xs| ≤ M := by
  have hcne : Spec.curBlock W xs ≠ [] := fun h => hne ((Spec.curBlock_eq_nil hW xs).1 h)
  have hc1 : (1 : ℝ) ≤ (Spec.curBlock W xs).length := by exact_mod_cast List.length_pos_iff.2 hcne
  have hcW : ((Spec.curBlock W xs).length : ℝ) ≤ W := by exact_mod_cast Spec.length_curBlock_le hW xs
  rw [Spec_interimVariance]
  by_cases hl : xs.length ≤ W
  · rw [if_pos hl]; exact h xs hne fun _ hx => hx
  · rw [if_neg hl]
    have hpne : Spec.prevBlock W xs ≠ [] := fun h => hl ((Spec.prevBlock_eq_nil hW xs).1 h)
    have h1 := abs_le.1 (h _ hpne fun x hx => mem_prevBlock hx)
    have h2 := abs_le.1 (h _ hcne fun x hx => List.mem_of_mem_drop hx)
    exact abs_le.2 (Spec.blend_mem (by positivity) (by linarith) (by nlinarith) h1 h2)

theorem abs_interimMean (hW : 1 ≤ W) {xs : List ℝ} (hne : xs ≠ []) {M : ℝ} (h : ∀ x ∈ xs, |x| ≤ M) :
    |Spec_interimMean W xs| ≤ M := by
  have hM : 0 ≤ M := by
    obtain ⟨q, hq⟩ := List.exists_mem_of_ne_nil _ hne
    exact (abs_nonneg _).trans (h q hq)
  have hcne : Spec.curBlock W xs ≠ [] := fun h => hne ((Spec.curBlock_eq_nil hW xs).1 h)
  have hc1 : (1 : ℝ) ≤ (Spec.curBlock W xs).length := by exact_mod_cast List.length_pos_iff.2 hcne
  have hcW : ((Spec.curBlock W xs).length : ℝ) ≤ W := by exact_mod_cast Spec.length_curBlock_le hW xs
  rw [Spec_interimMean]
  by_cases hl : xs.length ≤ W
  · rw [if_pos hl]; exact Window.abs_mean_le hM h
  · rw [if_neg hl]
    have h1 := abs_le.1 (Window.abs_mean_le hM fun x hx => h x (mem_prevBlock hx) : |Spec.mean (Spec.prevBlock W xs)| ≤ M)
    have h2 := abs_le.1 (Window.abs_mean_le hM fun x hx => h x (List.mem_of_mem_drop hx) : |Spec.mean (Spec.curBlock W xs)| ≤ M)
    exact abs_le.2 (Spec.blend_mem (by linarith) (by linarith) (by linarith) h1 h2)

/-- What the bounds for the interim regression assume of the pairs. -/
structure InterimPairs (F : Fmt) (p : Nat) (emin : Int) (u η : ℝ) (w W : Nat) (A B K : ℝ) (ps : List (ℝ × ℝ)) : Prop where
  ne : ps ≠ []
  size : 2 ≤ W
  hw : W * W < 2 ^ w
  hp : W * W ≤ 2 ^ p
  fit : F.fits ((W * W : Nat) : ℝ)
  dx : F.Data p emin (Spec.xsOf ps)
  dy : F.Data p emin (Spec.ysOf ps)
  hA : ∀ q ∈ ps, |q.1| ≤ A
  hB : ∀ q ∈ ps, |q.2| ≤ B
  ηA : η ≤ u * A
  ηB : η ≤ u * B
  ηAA : η ≤ u * (A * A)
  ηAB : η ≤ u * (A * B)
  K_rep : IsRep p emin K
  K_fits : F.fits K
  KA : 6 * W * A ≤ K
  KB : 6 * W * B ≤ K
  KAA : 8 * (W * W) * (A * A) ≤ K
  KAB : 8 * (W * W) * (A * B) ≤ K
  small : (6 * W + 68) * u ≤ 1

variable {A B K : ℝ} {ops : List (Op (ℝ × ℝ))}

theorem InterimPairs.A_nonneg {ps} (h : InterimPairs F p emin u η w W A B K ps) : 0 ≤ A := by
  obtain ⟨q, hq⟩ := List.exists_mem_of_ne_nil _ h.ne
  exact (abs_nonneg _).trans (h.hA q hq)

theorem InterimPairs.B_nonneg {ps} (h : InterimPairs F p emin u η w W A B K ps) : 0 ≤ B := by
  obtain ⟨q, hq⟩ := List.exists_mem_of_ne_nil _ h.ne
  exact (abs_nonneg _).trans (h.hB q hq)

theorem InterimPairs.xs_le {ps} (h : InterimPairs F p emin u η w W A B K ps) : ∀ x ∈ Spec.xsOf ps, |x| ≤ A := by
  intro x hx; obtain ⟨q, hq, rfl⟩ := List.mem_map.1 hx; exact h.hA q hq

theorem InterimPairs.ys_le {ps} (h : InterimPairs F p emin u η w W A B K ps) : ∀ x ∈ Spec.ysOf ps, |x| ≤ B := by
  intro x hx; obtain ⟨q, hq, rfl⟩ := List.mem_map.1 hx; exact h.hB q hq

theorem InterimPairs.xs_ne {ps} (h : InterimPairs F p emin u η w W A B K ps) : Spec.xsOf ps ≠ [] := by
  intro e; exact h.ne (List.map_eq_nil_iff.1 e)

theorem InterimPairs.ys_ne {ps} (h : InterimPairs F p emin u η w W A B K ps) : Spec.ysOf ps ≠ [] := by
  intro e; exact h.ne (List.map_eq_nil_iff.1 e)

theorem finOps2_fst (ops : List (Op (ℝ × ℝ))) :
    (finOps2 ops : List (Op (X F × X F))).map (Op.map Prod.fst) = finOps (ops.map (Op.map Prod.fst)) := by
  simp only [finOps, finOps2, List.map_map]
  refine List.map_congr_left fun op _ => ?_
  cases op <;> rfl

theorem sinceClear_fst (ops : List (Op (ℝ × ℝ))) : sinceClear (ops.map (Op.map Prod.fst)) = Spec.xsOf (sinceClear ops) :=
  sinceClear_map Prod.fst ops

theorem interim_slope_error (hF : F.Binary p emin) (hE : F.Err u η) {V : ℝ} (h : InterimPairs F p emin u η w W A B K (sinceClear ops))
    (hVe : V = Spec_interimVariance W Spec.variance (Spec.xsOf (sinceClear ops))) (hV : 0 < V)
    (hcond : 2 * ((6 * W + 80) * u * (A * A)) ≤ V) (hη : η ≤ u * (A * B / V)) (hK : 4 * (A * B / V) ≤ K) :
    ∃ b : ℝ, (Interim.Regression.run (finOps2 ops) : Interim.Regression w W (X F)).slope = X.fin b
      ∧ |b - Spec_interimVariance W Spec.covariance (sinceClear ops) / V| ≤ (12 * W + 162) * (u * ((A * B / V) * (1 + A * A / V)))
      ∧ |b| ≤ 4 * (A * B / V) ∧ 1 ≤ A * A / V ∧ |Spec_interimVariance W Spec.covariance (sinceClear ops) / V| ≤ A * B / V := by
  have hA0 := h.A_nonneg
  have hB0 := h.B_nonneg
  have hW1 : 1 ≤ W := by have := h.size; omega
  obtain ⟨h1, h2, -⟩ := regression_run (w := w) (W := W) (finOps2 ops : List (Op (X F × X F)))
  obtain ⟨c, c1, c2⟩ := C109_covariance_error (w := w) hF hE hW1 h.hw h.hp h.fit hA0 hB0 h.ηA h.ηB h.ηAB h.K_rep h.K_fits h.KAB
    h.small ops h.ne h.dx h.dy h.hA h.hB
  obtain ⟨v, v1, v2⟩ := C109_variance_error (w := w) hF hE hW1 h.hw h.hp h.fit hA0 h.ηA h.ηAA h.K_rep h.K_fits h.KAA
    h.small (ops.map (Op.map Prod.fst)) (by rw [sinceClear_fst]; exact h.xs_ne) (by rw [sinceClear_fst]; exact h.dx)
    (by rw [sinceClear_fst]; exact h.xs_le)
  rw [sinceClear_fst, ← hVe] at v2
  have hVA : V ≤ A * A := by
    rw [hVe]
    refine (le_abs_self _).trans (abs_interimVariance hW1 h.xs_ne fun l hl hm => ?_)
    rw [abs_of_nonneg (show (0 : ℝ) ≤ Spec.variance l from div_nonneg (Spec.central_two_nonneg l) (Nat.cast_nonneg _))]
    exact PairData.variance_le hl fun x hx => h.xs_le x (hm x hx)
  have hC : |Spec_interimVariance W Spec.covariance (sinceClear ops)| ≤ A * B := by
    refine abs_interimVariance hW1 h.ne fun l hl hm => ?_
    have hl0 : (0 : ℝ) < l.length := by exact_mod_cast List.length_pos_iff.2 hl
    unfold Spec.covariance
    rw [abs_div, abs_of_pos hl0, div_le_iff₀ hl0]
    have := Spec.abs_cosum_le hA0 hB0 l (fun q hq => h.hA q (hm q hq)) (fun q hq => h.hB q (hm q hq))
    linarith
  obtain ⟨hv0, b, b1, b2, b3⟩ := slope_quotient hF hE (ε := (6 * W + 80) * u) hA0 hB0 h.K_rep h.K_fits hV hVA hC
    (by rw [mul_assoc]; exact c2) (by rw [mul_assoc]; exact v2) hcond hη hK
  refine ⟨b, ?_, b2.trans (le_of_eq (by ring)), b3, ?_, ?_⟩
  · unfold Interim.Regression.slope
    simp only
    rw [h1, h2, finOps2_fst, v1, c1, hF.ofNat_zero, X.beq_fin, decide_eq_false hv0.ne', if_neg (by simp), b1]
  · rw [le_div_iff₀ hV]; linarith
  · rw [abs_div, abs_of_pos hV]; exact div_le_div_of_nonneg_right hC hV.le

/-- C150 for the interim regression: the error of the slope is at most `(12 W + 162) u κ'` with `κ' = (A B / V) (1 + A A / V)`,
for any number of pairs; `V` is the interim variance of the x-coordinates. -/
theorem C150_interim_slope (hF : F.Binary p emin) (hE : F.Err u η) {V : ℝ} (h : InterimPairs F p emin u η w W A B K (sinceClear ops))
    (hVe : V = Spec_interimVariance W Spec.variance (Spec.xsOf (sinceClear ops))) (hV : 0 < V)
    (hcond : 2 * ((6 * W + 80) * u * (A * A)) ≤ V) (hη : η ≤ u * (A * B / V)) (hK : 4 * (A * B / V) ≤ K) :
    ∃ b : ℝ, (Interim.Regression.run (finOps2 ops) : Interim.Regression w W (X F)).slope = X.fin b
      ∧ |b - Spec_interimVariance W Spec.covariance (sinceClear ops) / V|
        ≤ (12 * W + 162) * (u * ((A * B / V) * (1 + A * A / V))) := by
  obtain ⟨b, h1, h2, -⟩ := interim_slope_error hF hE h hVe hV hcond hη hK
  exact ⟨b, h1, h2⟩

/-- C150 for the interim regression: the error of the line within the range of the data, without `clear()` (which `at()` does
not survive, C33). -/
theorem C150_interim_at (hF : F.Binary p emin) (hE : F.Err u η) {V : ℝ} {ps : List (ℝ × ℝ)}
    (h : InterimPairs F p emin u η w W A B K ps)
    (hVe : V = Spec_interimVariance W Spec.variance (Spec.xsOf ps)) (hV : 0 < V)
    (hcond : 2 * ((6 * W + 80) * u * (A * A)) ≤ V) (hη : η ≤ u * (A * B / V)) (hK : 4 * (A * B / V) ≤ K)
    (hKB : 24 * (A * A / V * B) ≤ K) (x : ℝ) (hx : |x| ≤ A) :
    ∃ y : ℝ, (Interim.Regression.run (finOps2 (ps.map Op.push)) : Interim.Regression w W (X F)).at' (X.fin x) = X.fin y
      ∧ |y - (Spec_interimMean W (Spec.ysOf ps)
            - Spec_interimVariance W Spec.covariance ps / V * (Spec_interimMean W (Spec.xsOf ps) - x))|
        ≤ (50 * W + 691) * (u * (A * A / V * (1 + A * A / V) * B)) := by
  have hA0 := h.A_nonneg
  have hB0 := h.B_nonneg
  have hu := hE.u_nonneg
  have hs : sinceClear (ps.map Op.push) = ps := sinceClear_pushes ps
  have hW1 : 1 ≤ W := by have := h.size; omega
  have hWr : (2 : ℝ) ≤ W := by exact_mod_cast h.size
  have h2W : 2 * W ≤ W * W := Nat.mul_le_mul_right W h.size
  have hw := h.hw
  have hp := h.hp
  have hsmall := h.small
  have hWu : 0 ≤ (W : ℝ) * u := by positivity
  obtain ⟨b, b1, b2, b3, b4, b5⟩ := interim_slope_error (ops := ps.map Op.push) hF hE (by rw [hs]; exact h) (by rw [hs]; exact hVe) hV hcond hη hK
  rw [hs] at b2 b5
  obtain ⟨-, g2, g3⟩ := regression_run (w := w) (W := W) (finOps2 (ps.map Op.push) : List (Op (X F × X F)))
  have hfit : F.fits ((2 * W : Nat) : ℝ) := fits_small hF h2W h.fit
  have hsx : sinceClear ((Spec.xsOf ps).map Op.push) = Spec.xsOf ps := sinceClear_pushes _
  have hsy : sinceClear ((Spec.ysOf ps).map Op.push) = Spec.ysOf ps := sinceClear_pushes _
  obtain ⟨mx, x1, x2⟩ := C109_mean_error (w := w) hF hE hW1 (by omega) (by omega) hfit hA0 h.ηA h.K_rep h.K_fits h.KA (by linarith)
    ((Spec.xsOf ps).map Op.push) (by rw [hsx]; exact h.xs_ne) (by rw [hsx]; exact h.dx) (by rw [hsx]; exact h.xs_le)
  obtain ⟨my, y1, y2⟩ := C109_mean_error (w := w) hF hE hW1 (by omega) (by omega) hfit hB0 h.ηB h.K_rep h.K_fits h.KB (by linarith)
    ((Spec.ysOf ps).map Op.push) (by rw [hsy]; exact h.ys_ne) (by rw [hsy]; exact h.dy) (by rw [hsy]; exact h.ys_le)
  rw [hsx] at x2
  rw [hsy] at y2
  have ax := abs_interimMean hW1 h.xs_ne h.xs_le
  have ay := abs_interimMean hW1 h.ys_ne h.ys_le
  have hrel : (2 * (W : ℝ) + 21) * u ≤ 1 := by linarith
  have e1 : (finOps2 (ps.map Op.push) : List (Op (X F × X F))).map (Op.map Prod.fst) = finOps ((Spec.xsOf ps).map Op.push) := by
    rw [finOps2_fst]
    simp [Spec.xsOf, Op.map, Function.comp_def]
  have e2 : (Interim.Regression.run (finOps2 (ps.map Op.push)) : Interim.Regression w W (X F)).yMoment
      = Interim.run (finOps ((Spec.ysOf ps).map Op.push)) := by
    refine g3.trans (congrArg _ ?_)
    simp only [finOps, finOps2, List.filterMap_map, List.map_map]
    simp [Function.comp_def, Op.map, Spec.ysOf]
  have hKA := h.KA
  have hWA : 2 * A ≤ W * A := mul_le_mul_of_nonneg_right hWr hA0
  obtain ⟨y, v1, v2⟩ := line_value hF hE (A := A) (B := B) (K := K) (b := A * B / V) (κ := A * A / V)
    (S := Spec_interimVariance W Spec.covariance ps / V)
    (s := b) (mx := mx) (μx := Spec_interimMean W (Spec.xsOf ps)) (my := my) (μy := Spec_interimMean W (Spec.ysOf ps))
    (e := (12 * W + 162) * u) (δ := (2 * W + 21) * u) (x := x) hA0 hB0
    (div_nonneg (mul_nonneg hA0 hB0) hV.le) b4 (by ring) (by positivity) (by positivity) h.K_rep h.K_fits (by linarith) hKB h.ηA h.ηB
    (by rw [mul_assoc]; exact b2) b3 b5 (by rw [mul_assoc]; exact x2)
    (by
      have := abs_add_le (mx - Spec_interimMean W (Spec.xsOf ps)) (Spec_interimMean W (Spec.xsOf ps))
      rw [sub_add_cancel] at this
      have := mul_le_mul_of_nonneg_right hrel hA0
      rw [← mul_assoc] at x2
      linarith) (by rw [mul_assoc]; exact y2)
    (by
      have := abs_add_le (my - Spec_interimMean W (Spec.ysOf ps)) (Spec_interimMean W (Spec.ysOf ps))
      rw [sub_add_cancel] at this
      have := mul_le_mul_of_nonneg_right hrel hB0
      rw [← mul_assoc] at y2
      linarith) hx
  refine ⟨y, ?_, v2.trans (le_of_eq (by ring))⟩
  unfold Interim.Regression.at'
  rw [b1, g2, e1, e2, interim_variance_mean hW1 (by omega), x1, y1, v1]

/-- `double`, blocks of 2, pairs (1, 1), (2, 5), (6, 1), (4, 3): the last block is complete; slope of the blend, and its line at 5. -/
example : ∃ b y : ℝ,
    (Interim.Regression.run (finOps2 [.push (1, 1), .push (2, 5), .push (6, 1), .push (4, 3)]) : Interim.Regression 64 2 (X binary64)).slope
      = X.fin b ∧ |b - -4 / 9| ≤ 10 ^ 8 * 2 ^ (-53 : Int)
    ∧ (Interim.Regression.run (finOps2 [.push (1, 1), .push (2, 5), .push (6, 1), .push (4, 3)]) : Interim.Regression 64 2 (X binary64)).at'
        (X.fin 5) = X.fin y ∧ |y - 2| ≤ 10 ^ 9 * 2 ^ (-53 : Int) := by
  have hs : sinceClear ([.push (1, 1), .push (2, 5), .push (6, 1), .push (4, 3)] : List (Op (ℝ × ℝ))) = [(1, 1), (2, 5), (6, 1), (4, 3)] := rfl
  have hη : (2 : ℝ) ^ (-1075 : Int) ≤ 2 ^ (-53 : Int) := zpow_le_zpow_right₀ (by norm_num) (by norm_num)
  have hu : (0 : ℝ) < 2 ^ (-53 : Int) := by positivity
  have hK := binary64_int (n := 6000) (by norm_num)
  push_cast at hK
  have c1 : Spec.covariance [((1 : ℝ), (1 : ℝ)), (2, 5)] = 1 := by
    simp [Spec.covariance, Spec.cosum, Spec.mean]; norm_num
  have c2 : Spec.covariance [((6 : ℝ), (1 : ℝ)), (4, 3)] = -1 := by
    simp [Spec.covariance, Spec.cosum, Spec.mean]; norm_num
  have v1 : Spec.variance [(1 : ℝ), 2] = 1 / 4 := by
    simp [Spec.variance, Spec.central, Spec.mean]; norm_num
  have v2 : Spec.variance [(6 : ℝ), 4] = 1 := by
    simp [Spec.variance, Spec.central, Spec.mean]; norm_num
  have ec : Spec_interimVariance 2 Spec.covariance [((1 : ℝ), (1 : ℝ)), (2, 5), (6, 1), (4, 3)] = -1 / 3 := by
    rw [Spec_interimVariance]
    norm_num [Spec.prevBlock, Spec.curBlock, c1, c2, Spec.blend]
  have ev : Spec_interimVariance 2 Spec.variance (Spec.xsOf [((1 : ℝ), (1 : ℝ)), (2, 5), (6, 1), (4, 3)]) = 3 / 4 := by
    rw [Spec_interimVariance]
    norm_num [Spec.xsOf, Spec.prevBlock, Spec.curBlock, v1, v2, Spec.blend]
  have h : InterimPairs binary64 53 (-1074) (2 ^ (-53 : Int)) (2 ^ (-1075 : Int)) 64 2 6 5 6000
      (sinceClear ([.push (1, 1), .push (2, 5), .push (6, 1), .push (4, 3)] : List (Op (ℝ × ℝ)))) := by
    rw [hs]
    refine ⟨by simp, by norm_num, by norm_num, by norm_num, (binary64_int (n := 4) (by norm_num)).2, (by have := binary64_data [1, 2, 6, 4] (by simp); simpa [Spec.xsOf] using this),
      (by have := binary64_data [1, 5, 1, 3] (by simp); simpa [Spec.ysOf] using this), by simp; norm_num, by simp; norm_num, by linarith,
      by linarith, by linarith, by linarith, hK.1, hK.2, by norm_num, by norm_num, by norm_num, by norm_num, by norm_num⟩
  obtain ⟨b, h1, h2⟩ := C150_interim_slope (V := 3 / 4) binary64_binary binary64_err h (by rw [hs, ev]) (by norm_num) (by norm_num)
    (by rw [show (6 : ℝ) * 5 / (3 / 4) = 40 by norm_num]; linarith) (by norm_num)
  obtain ⟨y, g1, g2⟩ := C150_interim_at (V := 3 / 4) (ps := [(1, 1), (2, 5), (6, 1), (4, 3)]) binary64_binary binary64_err (by rw [hs] at h; exact h) ev.symm
    (by norm_num) (by norm_num) (by rw [show (6 : ℝ) * 5 / (3 / 4) = 40 by norm_num]; linarith) (by norm_num) (by norm_num) 5 (by norm_num)
  have m1 : Spec_interimMean 2 (Spec.xsOf [((1 : ℝ), (1 : ℝ)), (2, 5), (6, 1), (4, 3)]) = 5 := by
    rw [Spec_interimMean]
    norm_num [Spec.xsOf, Spec.prevBlock, Spec.curBlock, Spec.blend, Spec.mean]
  have m2 : Spec_interimMean 2 (Spec.ysOf [((1 : ℝ), (1 : ℝ)), (2, 5), (6, 1), (4, 3)]) = 2 := by
    rw [Spec_interimMean]
    norm_num [Spec.ysOf, Spec.prevBlock, Spec.curBlock, Spec.blend, Spec.mean]
  rw [hs, ec] at h2
  rw [m1, m2] at g2
  refine ⟨b, y, h1, ?_, g1, ?_⟩
  · norm_num at h2 ⊢
    linarith
  · norm_num at g2 ⊢
    linarith

end Verif.Props
