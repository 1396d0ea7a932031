import Verif.Props.Unbiased
/-
C140: expectation of the interim variance and covariance of uncorrelated random data.
-/
namespace Verif.Props
open MeasureTheory ProbabilityTheory Verif.Stochastic Exact

variable {ε : ℝ} {w W : ℕ} {Ω : Type} {mΩ : MeasurableSpace Ω} {P : Measure Ω} [IsProbabilityMeasure P]

/-- The factor between the expectation of the interim variance of `n` values and the variance, for the window `W` if `k` values are
in the current block: the blend of the factors `(W-1)/W` and `(k-1)/k` of the two blocks. -/
noncomputable def biasFactor (W n k : ℝ) : ℝ :=
  if n ≤ W then (n - 1) / n
  else ((W - (k - 1)) ^ 2 * ((W - 1) / W) + 2 * (k - 1) * ((k - 1) / k)) / ((W - (k - 1)) ^ 2 + 2 * (k - 1))

omit [IsProbabilityMeasure P] in
theorem interimVariance_stats {β : Type} (hW : 1 ≤ W) (v : List β → ℝ) (c : ℝ) {xs : List (Ω → β)} (hne : xs ≠ [])
    (hv : ∀ ys : List (Ω → β), ys.Sublist xs → ys ≠ [] →
      Integrable (fun ω => v (seen ys ω)) P ∧ ∫ ω, v (seen ys ω) ∂P = (ys.length - 1) / ys.length * c) :
    Integrable (fun ω => Spec_interimVariance W v (seen xs ω)) P
    ∧ ∫ ω, Spec_interimVariance W v (seen xs ω) ∂P = biasFactor W xs.length (Spec.curBlock W xs).length * c := by
  by_cases hle : xs.length ≤ W
  · have e : (fun ω => Spec_interimVariance W v (seen xs ω)) = fun ω => v (seen xs ω) := by
      funext ω; rw [Spec_interimVariance, seen_length, if_pos hle]
    rw [e, biasFactor, if_pos (by exact_mod_cast hle)]
    exact hv xs (List.Sublist.refl _) hne
  · set pb := Spec.prevBlock W xs with hpb
    set cb := Spec.curBlock W xs with hcb
    have hpl : pb.length = W := by rw [hpb, Spec.length_prevBlock hW, if_neg hle]
    have hcl : cb ≠ [] := fun e => hne ((Spec.curBlock_eq_nil hW _).1 e)
    have hsub : (pb ++ cb).Sublist xs := by rw [hpb, hcb, Spec.blocks_suffix hW]; exact lastN_sublist ..
    obtain ⟨p1, p2⟩ := hv pb ((List.sublist_append_left _ _).trans hsub) (List.length_pos_iff.1 (by omega))
    obtain ⟨c1, c2⟩ := hv cb ((List.sublist_append_right _ _).trans hsub) hcl
    set k : ℝ := ((cb.length : ℕ) : ℝ) with hk
    have e : (fun ω => Spec_interimVariance W v (seen xs ω))
        = fun ω => ((W - (k - 1)) ^ 2 * v (seen pb ω) + 2 * (k - 1) * v (seen cb ω)) / ((W - (k - 1)) ^ 2 + 2 * (k - 1)) := by
      funext ω
      have e1 : Spec.prevBlock W (seen xs ω) = seen pb ω := Spec.prevBlock_map ..
      have e2 : Spec.curBlock W (seen xs ω) = seen cb ω := Spec.curBlock_map ..
      rw [Spec_interimVariance, seen_length, if_neg hle, e1, e2, Spec.blend, seen_length]
    rw [e, biasFactor, if_neg (by exact_mod_cast hle)]
    refine ⟨((p1.const_mul _).add (c1.const_mul _)).div_const _, ?_⟩
    rw [integral_div, integral_add (p1.const_mul _) (c1.const_mul _), integral_const_mul, integral_const_mul, p2, c2, hpl]
    ring

open Interim in
/-- C140: expectation of `variance()` of the three interim filters that offer it. -/
theorem C140_variance (hW : 1 ≤ W) (hw : W * W < 2 ^ w) {ops : List (Op (Ω → ℝ))} {m s : ℝ} (h : Uncorrelated (sinceClear ops) P s)
    (hm : ∀ Y ∈ sinceClear ops, ∫ ω, Y ω ∂P = m) (hne : sinceClear ops ≠ []) :
    let b := biasFactor W (sinceClear ops).length (Spec.curBlock W (sinceClear ops)).length
    HasMean (fun ω => some (IVariance.variance (Interim.run (finOps (observed ops ω)) : IVariance w W (E ε)))) P (b * s)
    ∧ HasMean (fun ω => some (ISkewness.variance (Interim.run (finOps (observed ops ω)) : ISkewness w W (E ε)))) P (b * s)
    ∧ HasMean (fun ω => some (IKurtosis.variance (Interim.run (finOps (observed ops ω)) : IKurtosis w W (E ε)))) P (b * s) := by
  intro b
  obtain ⟨a1, a2⟩ := interimVariance_stats (P := P) hW Spec.variance s hne (fun ys hs hy => by
    obtain ⟨c1, c2⟩ := central_stats (h.sublist hs) (fun Y hY => hm Y (hs.subset hY)) hy
    have e : (fun ω => Spec.variance (seen ys ω)) = fun ω => Spec.central 2 (seen ys ω) / ys.length := by
      funext ω; rw [Spec.variance, seen_length]
    refine ⟨by rw [e]; exact c1.div_const _, ?_⟩
    rw [e, integral_div, c2]; ring)
  have hv := fun ω => C30_interim_variance (ε := ε) hW hw (observed ops ω)
    (by rw [sinceClear_observed]; simpa [seen] using hne)
  simp only [sinceClear_observed] at hv
  exact ⟨⟨_, a1, fun ω => congrArg some (hv ω).1, a2⟩, ⟨_, a1, fun ω => congrArg some (hv ω).2.1, a2⟩,
    ⟨_, a1, fun ω => congrArg some (hv ω).2.2, a2⟩⟩

open Interim in
/-- C140: expectation of the interim covariance. -/
theorem C140_covariance (hW : 1 ≤ W) (hw : W * W < 2 ^ w) {ops : List (Op (Ω → ℝ × ℝ))} {a b c : ℝ}
    (h : UncorrelatedPairs (sinceClear ops) P a b c) (hne : sinceClear ops ≠ []) :
    HasMean (fun ω => some (IComoment.variance (Interim.run (finOps2 (observed ops ω)) : IComoment w W (E ε)))) P
      (biasFactor W (sinceClear ops).length (Spec.curBlock W (sinceClear ops)).length * c) := by
  obtain ⟨a1, a2⟩ := interimVariance_stats (P := P) hW Spec.covariance c hne (fun ys hs hy => by
    obtain ⟨c1, c2⟩ := cosum_stats (h.sublist hs) hy
    have e : (fun ω => Spec.covariance (seen ys ω)) = fun ω => Spec.cosum (seen ys ω) / ys.length := by
      funext ω; rw [Spec.covariance, seen_length]
    refine ⟨by rw [e]; exact c1.div_const _, ?_⟩
    rw [e, integral_div, c2]; ring)
  refine ⟨_, a1, fun ω => ?_, a2⟩
  have hv := C31_interim_covariance (ε := ε) hW hw (observed ops ω) (by rw [sinceClear_observed]; simpa [seen] using hne)
  rw [sinceClear_observed] at hv
  exact congrArg some hv

/-- C140: after the first full window the factor lies between `1 - 2/W` and `1 - 1/W`; the upper bound is attained by the first and
by the last value of each block. -/
theorem C140_factor {W n k : ℕ} (hn : W < n) (hk1 : 1 ≤ k) (hkW : k ≤ W) :
    1 - 2 / (W : ℝ) ≤ biasFactor W n k ∧ biasFactor W n k ≤ 1 - 1 / (W : ℝ)
    ∧ (k = 1 ∨ k = W → biasFactor W n k = 1 - 1 / (W : ℝ))
    ∧ (1 < k → k < W → biasFactor W n k < 1 - 1 / (W : ℝ)) := by
  have hk : (1 : ℝ) ≤ k := by exact_mod_cast hk1
  have hWk : (k : ℝ) ≤ W := by exact_mod_cast hkW
  have hW : (0 : ℝ) < W := by linarith
  have hk0 : (0 : ℝ) < k := by linarith
  rw [biasFactor, if_neg (by exact_mod_cast Nat.not_le.2 hn)]
  set p : ℝ := (W - (k - 1)) ^ 2 with hp
  set a : ℝ := 2 * ((k : ℝ) - 1) with ha
  have hp1 : 1 ≤ (W : ℝ) - (k - 1) := by linarith
  have hp0 : 0 < p := by positivity
  have ha0 : 0 ≤ a := by rw [ha]; linarith
  have hpa : 0 < p + a := by linarith
  have key : ∀ t : ℝ, (p * ((W - 1) / W) + a * ((k - 1) / k)) / (p + a) = 1 - 1 / W - a * (1 / k - 1 / W) / (p + a) := by
    intro _; field_simp; ring
  rw [key 0]
  have hd : 0 ≤ (1 : ℝ) / k - 1 / W := by
    have := one_div_le_one_div_of_le hk0 hWk; linarith
  refine ⟨?_, ?_, ?_, ?_⟩
  · have h2 : a * (1 / k - 1 / W) ≤ 1 / W * (p + a) := by
      have e : 1 / W * (p + a) - a * (1 / k - 1 / W) = (k * p - a * (W - 2 * k)) / (W * k) := by field_simp; ring
      have h3 : 0 ≤ k * p - a * (W - 2 * k) := by
        rw [hp, ha]
        rcases le_or_gt (W : ℝ) (2 * k) with hc | hc
        · have : 0 ≤ 2 * ((k : ℝ) - 1) * (2 * k - W) := mul_nonneg (by linarith) (by linarith)
          nlinarith [mul_pos hk0 hp0]
        · have h4 : (2 : ℝ) * (W - 2 * k) ≤ (W - (k - 1)) ^ 2 := by nlinarith [sq_nonneg ((W : ℝ) - (k - 1) - 1)]
          nlinarith [mul_le_mul_of_nonneg_left h4 hk0.le]
      have := div_nonneg h3 (by positivity : (0 : ℝ) ≤ W * k)
      linarith
    have h5 : a * (1 / k - 1 / W) / (p + a) ≤ 1 / W := (div_le_iff₀ hpa).2 h2
    have : (2 : ℝ) / W = 1 / W + 1 / W := by ring
    linarith
  · have := div_nonneg (mul_nonneg ha0 hd) hpa.le
    linarith
  · rintro (h | h)
    · have : a = 0 := by rw [ha, h]; norm_num
      rw [this]; ring
    · rw [h, sub_self, mul_zero, zero_div, sub_zero]
  · intro h1 h2
    have h1' : (1 : ℝ) < k := by exact_mod_cast h1
    have h2' : (k : ℝ) < W := by exact_mod_cast h2
    have ha1 : 0 < a := by rw [ha]; linarith
    have hd1 : 0 < (1 : ℝ) / k - 1 / W := by
      have := one_div_lt_one_div_of_lt hk0 h2'; linarith
    have := div_pos (mul_pos ha1 hd1) hpa
    linarith

/-- Six throws with a window of 4 (blocks of 4 and 2 values): the factor is (9·3/4 + 2·1/2)/11, the expectation of the interim variance
93/44 of 3. -/
example : ∃ (P : Measure (ℕ → ℝ)) (_ : IsProbabilityMeasure P) (ops : List (Op ((ℕ → ℝ) → ℝ))),
    (sinceClear ops).length = 6
    ∧ HasMean (fun ω => some (Interim.IVariance.variance (Interim.Interim.run (finOps (observed ops ω)) : Interim.IVariance 64 4 (E ε)))) P
        (93 / 44) := by
  obtain ⟨P, hP, hu, hm⟩ := coin_throws 6
  have hs : sinceClear ((firstN (fun i (ω : ℕ → ℝ) => ω i) 6).map Op.push) = firstN (fun i (ω : ℕ → ℝ) => ω i) 6 := sinceClear_pushes _
  have hl : (sinceClear ((firstN (fun i (ω : ℕ → ℝ) => ω i) 6).map Op.push)).length = 6 := by rw [hs, firstN_length]
  rw [← hs] at hu hm
  have a := (C140_variance (ε := ε) (W := 4) (w := 64) (by norm_num) (by norm_num) hu hm (List.length_pos_iff.1 (by omega))).1
  have hc : (Spec.curBlock 4 (sinceClear ((firstN (fun i (ω : ℕ → ℝ) => ω i) 6).map Op.push))).length = 2 := by
    rw [Spec.curBlock, List.length_drop, hl]
  rw [hl, hc, biasFactor, if_neg (by norm_num)] at a
  refine ⟨P, hP, _, hl, ?_⟩
  convert a using 1; norm_num

end Verif.Props
