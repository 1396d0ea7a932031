import Verif.Proofs.DecayVarianceError
import Verif.Proofs.Double
import Verif.Props.Decay
/-
C108: rounding error of the decay variance.
-/
namespace Verif.Props
open Scalar Verif.Decay

variable {F : Fmt} {p : Nat} {emin : Int} {u η : ℝ}

/-- Histories without values before the last `clear` (see C27 for the others). -/
theorem decay_variance_run {α : Type} [Scalar α] (f g : α) (ops : List (Op α)) (h : pushCount ops = (sinceClear ops).length) :
    Variance.run f g ops = (sinceClear ops).foldl Variance.push (Variance.init f g) := by
  induction ops using List.reverseRecOn with
  | nil => rfl
  | append_singleton ops op ih =>
    unfold Variance.run at ih ⊢
    rw [runOps_append]
    cases op with
    | push x =>
      rw [sinceClear_append_push, pushCount_append, List.length_append] at h
      simp only [pushCount, List.length_singleton] at h
      rw [ih (by omega), sinceClear_append_push, List.foldl_append]
      rfl
    | clear =>
      rw [sinceClear_append_clear, pushCount_append] at h
      simp only [pushCount, List.length_nil] at h
      have hs : sinceClear ops = [] := List.length_eq_zero_iff.1 (by have := length_sinceClear_le ops; omega)
      rw [ih (by rw [hs]; simpa using h), hs, sinceClear_append_clear]
      rfl

theorem pushCount_map {β γ : Type} (f : β → γ) (ops : List (Op β)) : pushCount (ops.map (Op.map f)) = pushCount ops := by
  induction ops with
  | nil => rfl
  | cons op ops ih => cases op <;> simp [pushCount, Op.map, ih]

/-- The bound of the error of the decay variance. -/
noncomputable def decayVarErr (u η f g B : ℝ) : ℝ :=
  (1 + u) * ((sumErr u η g (14 * (B * B)) + (6 * (B * meanErr u η f B) + 36 * (u * (B * B))) + 4 * (B * B) * sumErr u η g 1) / g)
    + u * (4 * (B * B)) + η

/-- C108: the rounding error of the decay variance does not grow with the number of values.  The bound `decayVarErr` depends
on the factors, the format and the bound `B` of the data only. -/
theorem C108_decay_variance_error (hF : F.Binary p emin) (hE : F.Err u η) {f g B K : ℝ} (hf0 : 0 < f) (hf1 : f ≤ 1)
    (hg0 : 0 < g) (hg1 : g ≤ 1) (hfr : IsRep p emin f) (hgr : IsRep p emin g) (hB0 : 0 ≤ B) (hK : IsRep p emin K) (hKf : F.fits K)
    (hBK : 8 * B ≤ K) (hBBK : 112 * (B * B) ≤ K) (hη : η ≤ u * B) (hηB : η ≤ u * (B * B))
    (hBK' : B + (sumErr u η f B + B * sumErr u η f 1) / f ≤ K) (hc : sumErr u η f B ≤ B) (hD : meanErr u η f B ≤ B)
    (hc' : sumErr u η g (14 * (B * B)) ≤ 14 * (B * B))
    (hBBK' : 4 * (B * B) + (sumErr u η g (14 * (B * B)) + (6 * (B * meanErr u η f B) + 36 * (u * (B * B)))
      + 4 * (B * B) * sumErr u η g 1) / g ≤ K)
    (ops : List (Op ℝ)) (hops : pushCount ops = (sinceClear ops).length) (hB : ∀ x ∈ sinceClear ops, |x| ≤ B) :
    ∃ v : ℝ, (Variance.run (X.fin f) (X.fin g) (finOps ops) : Variance (X F)).variance = X.fin v
      ∧ |v - Spec_decayVariance f g (sinceClear ops)| ≤ decayVarErr u η f g B := by
  have hBB := mul_nonneg hB0 hB0
  have hu := hE.u_nonneg
  have he := hE.eta_nonneg
  rw [decay_variance_run _ _ _ (by rw [sinceClear_finOps, List.length_map, ← hops]; exact pushCount_map _ ops), sinceClear_finOps]
  obtain ⟨rs, h1, h2, h3, h4, h5⟩ := Variance.fold_squares (F := F) (g := g) hF hE hf0 hf1 hg0 hg1 hfr hB0 hK hKf hBK (by linarith)
    hBK' hc hD hη hηB _ hB
  rw [h4]
  obtain ⟨n, hn⟩ := Mean.fold_norm (u := u) (η := η) hF hE hg0 hg1 hgr (rs.map X.fin)
  obtain ⟨s, -, k2, k3⟩ := Mean.fold_sum (F := F) (f := g) (B := 14 * (B * B)) hF hE (by positivity) hg0 hg1 hK hKf (by linarith) hc' rs h2
  unfold Variance.variance
  set xs := sinceClear ops
  simp only [k2, hn.norm, hF.ofNat_zero, X.lt_fin]
  have herr := hn.err
  rw [List.length_map, h1] at herr
  have hc1 := sumErr_nonneg hE (zero_le_one (α := ℝ)) hf0
  have hcB := sumErr_nonneg hE hB0 hf0
  have hD0 : 0 ≤ meanErr u η f B := by unfold meanErr; positivity
  have hc2 := sumErr_nonneg hE (zero_le_one (α := ℝ)) hg0
  have hc3 := sumErr_nonneg hE (show 0 ≤ 14 * (B * B) by positivity) hg0
  rcases eq_or_ne xs [] with h0 | h0
  · have hrs : rs = [] := List.length_eq_zero_iff.1 (by rw [h1, h0]; rfl)
    have : n = 0 := hn.empty (by rw [hrs]; rfl)
    rw [this]
    refine ⟨0, by simp, ?_⟩
    rw [h0]
    simp only [Spec_decayVariance, Spec.ewMean, Spec.ewDevs_nil, List.map_nil, Spec.ewSum_nil, zero_div, sub_zero, abs_zero]
    unfold decayVarErr
    positivity
  · have hrs : rs ≠ [] := by
      intro h; rw [h] at h1; exact h0 (List.length_eq_zero_iff.1 h1.symm)
    have hge : g ≤ n := hn.ge (by simpa using hrs)
    have hlen : ((Spec.ewDevs f xs).map (· ^ 2)).length = xs.length := by simp
    have hN := Spec.norm_pos hg0 hg1 (n := xs.length) (by simpa using h0)
    have hdev : ∀ d ∈ Spec.ewDevs f xs, |d| ≤ 2 * B := by
      intro d hd
      obtain ⟨k, hk, rfl⟩ := List.mem_map.1 hd
      rw [List.mem_range] at hk
      have a1 : |Spec.ewMean f (xs.take (k + 1))| ≤ B :=
        abs_ewMean_le hf0 hf1 hB0 fun y hy => hB y (List.mem_of_mem_take hy)
      have a2 : |xs.getD k 0| ≤ B := by
        rw [List.getD_eq_getElem _ _ hk]; exact hB _ (List.getElem_mem hk)
      exact (abs_sub _ _).trans (by linarith)
    have hS : |Spec.ewSum g ((Spec.ewDevs f xs).map (· ^ 2)) / (1 - (1 - g) ^ xs.length)| ≤ 4 * (B * B) := by
      have := abs_ewMean_le hg0 hg1 (xs := (Spec.ewDevs f xs).map (· ^ 2)) (B := 4 * (B * B)) (by positivity) (by
        intro y hy
        obtain ⟨d, hd, rfl⟩ := List.mem_map.1 hy
        have a := hdev d hd
        rw [pow_two, abs_mul]
        have := mul_le_mul a a (abs_nonneg _) (by positivity)
        linarith)
      rwa [Spec.ewMean, hlen] at this
    have hs : |s - Spec.ewSum g ((Spec.ewDevs f xs).map (· ^ 2))|
        ≤ sumErr u η g (14 * (B * B)) + (6 * (B * meanErr u η f B) + 36 * (u * (B * B))) := by
      have e : s - Spec.ewSum g ((Spec.ewDevs f xs).map (· ^ 2))
          = (s - Spec.ewSum g rs) + (Spec.ewSum g rs - Spec.ewSum g ((Spec.ewDevs f xs).map (· ^ 2))) := by ring
      rw [e]
      exact (abs_add_le _ _).trans (by linarith)
    obtain ⟨q1, q2⟩ := mean_err hF hE hK hKf hg0 hge hN hS hs herr hBBK'
    refine ⟨_, by rw [decide_eq_true (by linarith), if_pos rfl, q1], ?_⟩
    rw [Spec_decayVariance, Spec.ewMean, hlen]
    exact q2

/-- `double` with both factors 1/2 and values up to 8: the error is at most `2^-30` after any number of values. -/
example (xs : List ℝ) (hB : ∀ x ∈ xs, |x| ≤ 8) :
    ∃ v : ℝ, (Variance.run (X.fin (1 / 2)) (X.fin (1 / 2)) (finOps (xs.map Op.push)) : Variance (X binary64)).variance = X.fin v
      ∧ |v - Spec_decayVariance (1 / 2) (1 / 2) xs| ≤ 2 ^ (-30 : Int) := by
  have h16 := binary64_int (n := 8192) (by norm_num)
  push_cast at h16
  have hf := double 1 (-1) (by norm_num) (by norm_num) (by norm_num)
  have hff : ((1 : Int) : ℝ) * 2 ^ (-1 : Int) = 1 / 2 := by norm_num
  rw [hff] at hf
  have hu : (2 : ℝ) ^ (-53 : Int) ≤ 1 / 2 ^ 53 := by norm_num
  have hη : (2 : ℝ) ^ (-1075 : Int) ≤ 2 ^ (-53 : Int) := zpow_le_zpow_right₀ (by norm_num) (by norm_num)
  have hu0 : (0 : ℝ) ≤ 2 ^ (-53 : Int) := by positivity
  have hη0 : (0 : ℝ) ≤ 2 ^ (-1075 : Int) := by positivity
  have h30 : (2 : ℝ) ^ (-30 : Int) = 2 ^ 23 * (1 / 2 ^ 53) := by norm_num
  have hE := binary64_err
  rw [h30]
  have hs : sinceClear (xs.map Op.push) = xs := by
    have h := sinceClear_pushes xs
    exact h
  generalize (2 : ℝ) ^ (-53 : Int) = u at *
  generalize (2 : ℝ) ^ (-1075 : Int) = η at *
  have hu1 : u ≤ 1 / 2 ^ 53 := hu
  have e8 : sumErr u η (1 / 2) 8 ≤ 120 * u := by unfold sumErr; linarith
  have e1 : sumErr u η (1 / 2) 1 ≤ 22 * u := by unfold sumErr; linarith
  have e14 : sumErr u η (1 / 2) (14 * (8 * 8)) ≤ 12560 * u := by unfold sumErr; linarith
  have p8 := sumErr_nonneg hE (B := 8) (f := 1 / 2) (by norm_num) (by norm_num)
  have p1 := sumErr_nonneg hE (B := 1) (f := 1 / 2) (by norm_num) (by norm_num)
  have p14 := sumErr_nonneg hE (B := 14 * (8 * 8)) (f := 1 / 2) (by norm_num) (by norm_num)
  have eM : meanErr u η (1 / 2) 8 ≤ 1200 * u := by
    unfold meanErr
    have h3 : (1 + u) * ((sumErr u η (1 / 2) 8 + 8 * sumErr u η (1 / 2) 1) / (1 / 2)) ≤ (1 + 1) * ((120 * u + 8 * (22 * u)) / (1 / 2)) := by
      refine mul_le_mul (by norm_num at hu; linarith) (by linarith) ?_ (by norm_num)
      positivity
    linarith
  have pM : 0 ≤ meanErr u η (1 / 2) 8 := by unfold meanErr; positivity
  norm_num at hu1
  obtain ⟨v, h1, h2⟩ := C108_decay_variance_error binary64_binary hE (f := 1 / 2) (g := 1 / 2) (B := 8) (K := 8192) (by norm_num)
    (by norm_num) (by norm_num) (by norm_num) hf.1 hf.1 (by norm_num) h16.1 h16.2 (by norm_num) (by norm_num) (by linarith) (by linarith)
    (by linarith) (by linarith) (by linarith) (by linarith) (by linarith) (xs.map Op.push)
    (by rw [pushCount_pushes, hs]) (by rw [hs]; exact hB)
  rw [hs] at h2
  refine ⟨v, h1, h2.trans ?_⟩
  unfold decayVarErr
  have h3 : (1 + u) * ((sumErr u η (1 / 2) (14 * (8 * 8)) + (6 * (8 * meanErr u η (1 / 2) 8) + 36 * (u * (8 * 8)))
      + 4 * (8 * 8) * sumErr u η (1 / 2) 1) / (1 / 2)) ≤ (1 + 1) * (200000 * u) := by
    refine mul_le_mul (by linarith) (by linarith) ?_ (by norm_num)
    positivity
  norm_num
  linarith

end Verif.Props
