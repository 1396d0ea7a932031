import Verif.Proofs.Contracted
import Verif.Proofs.Double
import Verif.Props.VarianceError
/-
C138: the cumulative variance and covariance compiled with contracted floating-point expressions (fused
multiply-add).  A history says of every push whether it is contracted.
-/
namespace Verif.Props
open Scalar Verif.Contracted

variable {w : Nat} {F : Fmt} {p : Nat} {emin : Int} {u η : ℝ}

/-- The data points of a history since the last `clear`. -/
def dataOf {β : Type} (ops : List (Op (Bool × β))) : List β := (sinceClear ops).map Prod.snd

/-- A history of calls with finite numbers. -/
def finC (ops : List (Op (Bool × ℝ))) : List (Op (Bool × X F)) := ops.map (Op.map fun i => (i.1, X.fin i.2))
/-- A history of calls with pairs of finite numbers. -/
def finC2 (ops : List (Op (Bool × (ℝ × ℝ)))) : List (Op (Bool × (X F × X F))) :=
  ops.map (Op.map fun i => (i.1, (X.fin i.2.1, X.fin i.2.2)))
/-- The history of a variable paired with itself. -/
def selfC {β : Type} (ops : List (Op (Bool × β))) : List (Op (Bool × (β × β))) := ops.map (Op.map fun i => (i.1, (i.2, i.2)))

theorem sinceClear_finC (ops : List (Op (Bool × ℝ))) :
    sinceClear (finC ops : List (Op (Bool × X F))) = (sinceClear ops).map fin1 := sinceClear_map _ _
theorem sinceClear_finC2 (ops : List (Op (Bool × (ℝ × ℝ)))) :
    sinceClear (finC2 ops : List (Op (Bool × (X F × X F)))) = (sinceClear ops).map fin2 := sinceClear_map _ _

theorem contracted_count (hF : F.Binary p emin) (ops : List (Op (Bool × ℝ))) (hd : F.Data p emin (dataOf ops))
    (hw : (dataOf ops).length < 2 ^ w) :
    (Variance.run (finC ops) : Cumulative.Variance w (X F)).super.count = BitVec.ofNat w (dataOf ops).length := by
  rw [Variance.run_eq, sinceClear_finC]
  rw [dataOf, List.length_map] at hw
  obtain ⟨m, hm⟩ := Variance.mean_inv (w := w) hF _ hd hw
  exact hm.count

/-- C138: whichever pushes are contracted, the variance is not negative (not NaN with a count that fits the
format) and the mean lies within the data. -/
theorem C138_nonneg (hF : F.Binary p emin) (ops : List (Op (Bool × ℝ))) (hd : F.Data p emin (dataOf ops))
    (hw : (dataOf ops).length < 2 ^ w) :
    let s : Cumulative.Variance w (X F) := Variance.run (finC ops)
    (lt s.variance (ofNat 0) = false ∧ lt s.unbiasedVariance (ofNat 0) = false)
    ∧ (1 ≤ (dataOf ops).length → F.fits (F.rnd (dataOf ops).length) → le (ofNat 0) s.variance = true)
    ∧ (2 ≤ (dataOf ops).length → F.fits (F.rnd ((dataOf ops).length - 1 : Nat)) →
        le (ofNat 0) s.unbiasedVariance = true)
    ∧ (dataOf ops ≠ [] → ∃ m : ℝ, s.getMean = X.fin m ∧ (∃ x ∈ dataOf ops, x ≤ m) ∧ (∃ y ∈ dataOf ops, m ≤ y)) := by
  intro s
  have hs : s = _ := Variance.run_eq (finC ops)
  rw [sinceClear_finC] at hs
  have hw' := hw
  rw [dataOf, List.length_map] at hw'
  obtain ⟨m, hm⟩ := Variance.mean_inv (w := w) hF _ hd hw'
  have hv := Variance.rounded (w := w) hF _ hd hw'
  rw [← hs] at hm hv
  have hle : ∀ x : X F, Cumulative.NonNeg F p emin x → le (ofNat 0) x = true := by
    intro x hx
    rw [hF.ofNat_zero]
    rcases hx with rfl | ⟨t, h0, -, -, rfl⟩
    · rfl
    · rw [X.le_fin]; exact decide_eq_true h0
  have hc : s.super.count = BitVec.ofNat w (dataOf ops).length := hm.count
  simp only [Cumulative.Variance.variance, Cumulative.Variance.unbiasedVariance]
  refine ⟨⟨hv.div_lt_zero hF _, hv.div_lt_zero hF _⟩, ?_, ?_, ?_⟩
  · intro h1 hf
    refine hle _ ?_
    rw [hc, ofSize, toNat_ofNat_lt hw]
    exact hv.div hF h1 hf
  · intro h1 hf
    refine hle _ ?_
    rw [hc, ofNat_sub_one (by omega), ofSize, toNat_ofNat_lt (by omega)]
    exact hv.div hF (by omega) hf
  · intro hne
    exact ⟨m, hm.mean, hm.within hne⟩

/-- `double` values 1, 2, 6; only the last push is contracted. -/
example : lt (Variance.run (finC [.push (false, 1), .push (false, 2), .push (true, 6)]) : Cumulative.Variance 64 (X binary64)).variance
    (ofNat 0) = false := by
  refine (C138_nonneg binary64_binary _ ?_ (by simp [dataOf, sinceClear])).1.1
  have := binary64_data [1, 2, 6] (by simp)
  simpa [dataOf, sinceClear] using this

/-- C138: the accumulated sum does not decrease with a push. -/
theorem C138_monotone (hF : F.Binary p emin) (ops : List (Op (Bool × ℝ))) (i : Bool × ℝ)
    (hd : F.Data p emin (dataOf ops ++ [i.2])) (hw : (dataOf ops).length + 1 < 2 ^ w) :
    le (Variance.run (finC ops) : Cumulative.Variance w (X F)).sumVariance
      (Variance.run (finC (ops ++ [.push i])) : Cumulative.Variance w (X F)).sumVariance = true := by
  rw [Variance.run_eq, Variance.run_eq, sinceClear_finC, sinceClear_finC, sinceClear_append_push,
    List.map_append, List.map_singleton, List.foldl_append]
  have hw' := hw
  rw [dataOf, List.length_map] at hw'
  obtain ⟨m, hm⟩ := Variance.mean_inv (w := w) hF _ hd.init (by omega)
  exact (Variance.rounded_push hF i.1 hd hw hm (Variance.rounded (w := w) hF _ hd.init (by omega))).2

example : le (Variance.run (finC [.push (true, 1), .push (true, 2)]) : Cumulative.Variance 64 (X binary64)).sumVariance
    (Variance.run (finC ([.push (true, 1), .push (true, 2)] ++ [.push (true, 6)])) : Cumulative.Variance 64 (X binary64)).sumVariance
    = true := by
  refine C138_monotone binary64_binary _ _ ?_ (by simp [dataOf, sinceClear])
  have := binary64_data [1, 2, 6] (by simp)
  simpa [dataOf, sinceClear] using this

/-- The sum of the covariance with a constant coordinate. -/
theorem contracted_const (hF : F.Binary p emin) (is : List (Bool × (ℝ × ℝ))) (hx : F.Data p emin (Spec.xsOf (is.map Prod.snd)))
    (hy : F.Data p emin (Spec.ysOf (is.map Prod.snd))) (hw : is.length < 2 ^ w) (hc : ConstantCoordinate (is.map Prod.snd)) :
    ((is.map fin2).foldl Comoment.push (Cumulative.Comoment.init : Cumulative.Comoment w (X F))).center = X.fin 0 := by
  induction is using List.reverseRecOn with
  | nil => exact hF.ofNat_zero
  | append_singleton is i ih =>
    rw [List.map_append, List.map_singleton] at hx hy hc
    set ps := is.map Prod.snd with hps
    set q := i.2 with hq
    have lps : ps.length = is.length := by rw [hps, List.length_map]
    have ex : Spec.xsOf (ps ++ [q]) = Spec.xsOf ps ++ [q.1] := by simp [Spec.xsOf]
    have ey : Spec.ysOf (ps ++ [q]) = Spec.ysOf ps ++ [q.2] := by simp [Spec.ysOf]
    rw [ex] at hx
    rw [ey] at hy
    rw [List.length_append, List.length_singleton] at hw
    have hc' : ConstantCoordinate ps := by
      rcases hc with ⟨c, h⟩ | ⟨c, h⟩
      · exact Or.inl ⟨c, fun r hr => h r (List.mem_append_left _ hr)⟩
      · exact Or.inr ⟨c, fun r hr => h r (List.mem_append_left _ hr)⟩
    have ih := ih hx.init hy.init (by omega) hc'
    have hcen := Comoment.fold_centers (w := w) (is.map fin2 : List (Bool × (X F × X F)))
    have m1 : ((is.map fin2 : List (Bool × (X F × X F))).map fun i => i.2.1) = (Spec.xsOf ps).map X.fin := by
      simp [Spec.xsOf, hps, Function.comp_def]
    have m2 : ((is.map fin2 : List (Bool × (X F × X F))).map fun i => i.2.2) = (Spec.ysOf ps).map X.fin := by
      simp [Spec.ysOf, hps, Function.comp_def]
    rw [m1, m2] at hcen
    have lx : (Spec.xsOf ps).length = is.length := by simp [Spec.xsOf, lps]
    have ly : (Spec.ysOf ps).length = is.length := by simp [Spec.ysOf, lps]
    obtain ⟨mx, hmx⟩ := Cumulative.Mean.rounded (w := w) hF _ hx.init (by omega)
    obtain ⟨my, hmy⟩ := Cumulative.Mean.rounded (w := w) hF _ hy.init (by omega)
    rw [← hcen.1] at hmx
    rw [← hcen.2] at hmy
    rw [List.map_append, List.map_singleton, List.foldl_append]
    set st := (is.map fin2).foldl Comoment.push (Cumulative.Comoment.init : Cumulative.Comoment w (X F))
    obtain ⟨mx', hmx', -, hdx, -, -, h0⟩ := hmx.push hF hx (by omega)
    obtain ⟨my', hmy', hdy, -⟩ := hmy.push hF hy (by omega)
    show addMul i.1 st.center (X.fin q.1 - (st.xCenter.push (X.fin q.1)).mean) (X.fin q.2 - st.yCenter.mean) = X.fin 0
    rw [hmx'.mean, hmy.mean, hdx, hdy, ih]
    have z : F.rnd (q.1 - mx') = 0 ∨ F.rnd (q.2 - my) = 0 := by
      rcases hc with ⟨c, h⟩ | ⟨c, h⟩
      · refine Or.inl ?_
        have hq : q.1 = c := h q (by simp)
        have hin : ∀ x ∈ Spec.xsOf ps ++ [q.1], x = c := by
          rw [← ex]
          intro x hx
          obtain ⟨r, hr, rfl⟩ := List.mem_map.1 hx
          exact h r hr
        rw [within_const (hmx'.within (by simp)) hin, hq, sub_self, hF.rnd_zero]
      · rcases eq_or_ne ps [] with hp | hp
        · refine Or.inl ?_
          rw [h0 (by rw [hp]; rfl), sub_self, hF.rnd_zero]
        · refine Or.inr ?_
          have hq : q.2 = c := h q (by simp)
          have hin : ∀ x ∈ Spec.ysOf ps, x = c := by
            intro x hx
            obtain ⟨r, hr, rfl⟩ := List.mem_map.1 hx
            exact h r (List.mem_append_left _ hr)
          rw [within_const (hmy.within (by simpa [Spec.ysOf] using hp)) hin, hq, sub_self, hF.rnd_zero]
    refine addMul_zero hF _ ?_
    rcases z with z | z
    · rw [z, zero_mul]
    · rw [z, mul_zero]

theorem contracted_comoment_count (hF : F.Binary p emin) (ops : List (Op (Bool × (ℝ × ℝ))))
    (hx : F.Data p emin (Spec.xsOf (dataOf ops))) (hw : (dataOf ops).length < 2 ^ w) :
    (Comoment.run (finC2 ops) : Cumulative.Comoment w (X F)).size = BitVec.ofNat w (dataOf ops).length := by
  rw [Comoment.run_eq, sinceClear_finC2]
  show (((sinceClear ops).map fin2).foldl Comoment.push (Cumulative.Comoment.init : Cumulative.Comoment w (X F))).xCenter.count = _
  rw [(Comoment.fold_centers _).1]
  have m1 : (((sinceClear ops).map fin2 : List (Bool × (X F × X F))).map fun i => i.2.1) = (Spec.xsOf (dataOf ops)).map X.fin := by
    simp [Spec.xsOf, dataOf, Function.comp_def]
  have hl : (Spec.xsOf (dataOf ops)).length = (dataOf ops).length := by simp [Spec.xsOf]
  obtain ⟨m, hm⟩ := Cumulative.Mean.rounded (w := w) hF _ hx (by rw [hl]; exact hw)
  rw [m1, hm.count, hl]

/-- C138: if one coordinate is constant, the covariance is exactly 0. -/
theorem C138_constant (hF : F.Binary p emin) (ops : List (Op (Bool × (ℝ × ℝ)))) (hx : F.Data p emin (Spec.xsOf (dataOf ops)))
    (hy : F.Data p emin (Spec.ysOf (dataOf ops))) (hw : (dataOf ops).length < 2 ^ w) (hc : ConstantCoordinate (dataOf ops)) :
    (Comoment.run (finC2 ops) : Cumulative.Comoment w (X F)).variance = X.fin 0
    ∧ (Comoment.run (finC2 ops) : Cumulative.Comoment w (X F)).unbiasedVariance = X.fin 0 := by
  have hsize := contracted_comoment_count (w := w) hF ops hx hw
  have h1 : (Comoment.run (finC2 ops) : Cumulative.Comoment w (X F)).center = X.fin 0 := by
    rw [Comoment.run_eq, sinceClear_finC2]
    exact contracted_const (w := w) hF _ hx hy (by rw [dataOf, List.length_map] at hw; exact hw) hc
  unfold Cumulative.Comoment.variance Cumulative.Comoment.unbiasedVariance
  rw [h1, hF.ofNat_zero, hsize]
  constructor
  · split_ifs with h
    · refine hF.zero_div ?_
      rw [gt_iff_lt, BitVec.lt_def] at h
      simp only [BitVec.ofNat_eq_ofNat, BitVec.toNat_ofNat, Nat.zero_mod] at h
      rw [BitVec.toNat_ofNat]; omega
    · rfl
  · split_ifs with h
    · refine hF.zero_div ?_
      rw [gt_iff_lt, BitVec.lt_def] at h
      by_contra hc
      have h3 : (BitVec.ofNat w (dataOf ops).length - 1).toNat = 0 := by omega
      have h4 : BitVec.ofNat w (dataOf ops).length - 1 = 0 := BitVec.eq_of_toNat_eq (by rw [h3]; simp)
      have h5 : BitVec.ofNat w (dataOf ops).length = 1 := by rw [← sub_eq_zero]; exact h4
      rw [h5] at h
      exact absurd h (lt_irrefl _)
    · rfl

example : (Comoment.run (finC2 [.push (true, (5, 1)), .push (true, (5, 2)), .push (true, (5, 6))]) : Cumulative.Comoment 64 (X binary64)).variance
    = X.fin 0 := by
  refine (C138_constant binary64_binary _ ?_ ?_ (by simp [dataOf, sinceClear]) (Or.inl ⟨5, ?_⟩)).1
  · have := binary64_data [5, 5, 5] (by simp)
    simpa [dataOf, sinceClear, Spec.xsOf] using this
  · have := binary64_data [1, 2, 6] (by simp)
    simpa [dataOf, sinceClear, Spec.ysOf] using this
  · simp [dataOf, sinceClear]

theorem contracted_self (is : List (Bool × X F)) :
    ((is.map fun i => (i.1, (i.2, i.2))).foldl Comoment.push (Cumulative.Comoment.init : Cumulative.Comoment w (X F))).center
      = (is.foldl Variance.push (Cumulative.Variance.init : Cumulative.Variance w (X F))).sumVariance := by
  induction is using List.reverseRecOn with
  | nil => rfl
  | append_singleton is i ih =>
    have h1 := Comoment.fold_centers (w := w) (is.map fun i => (i.1, (i.2, i.2)))
    have h2 := Variance.fold_super (w := w) is
    simp only [List.map_map, Function.comp_def] at h1
    rw [List.map_append, List.map_singleton, List.foldl_append, List.foldl_append]
    set c := (is.map fun i => (i.1, (i.2, i.2))).foldl Comoment.push (Cumulative.Comoment.init : Cumulative.Comoment w (X F))
    set v := is.foldl Variance.push (Cumulative.Variance.init : Cumulative.Variance w (X F))
    show addMul i.1 c.center (i.2 - (c.xCenter.push i.2).mean) (i.2 - c.yCenter.mean)
      = addMul i.1 v.sumVariance (i.2 - v.super.mean) (i.2 - (v.super.push i.2).mean)
    rw [h1.1, h1.2, h2, ih, addMul_comm]

/-- C138: the covariance of a variable with itself is bit for bit the variance, if the same pushes are contracted. -/
theorem C138_self_partial (ops : List (Op (Bool × X F))) :
    (Comoment.run (selfC ops) : Cumulative.Comoment w (X F)).size = (Variance.run ops : Cumulative.Variance w (X F)).size
    ∧ (0 < (Variance.run ops : Cumulative.Variance w (X F)).size →
      (Comoment.run (selfC ops) : Cumulative.Comoment w (X F)).variance = (Variance.run ops : Cumulative.Variance w (X F)).variance)
    ∧ (1 < (Variance.run ops : Cumulative.Variance w (X F)).size →
      (Comoment.run (selfC ops) : Cumulative.Comoment w (X F)).unbiasedVariance
        = (Variance.run ops : Cumulative.Variance w (X F)).unbiasedVariance) := by
  have e : sinceClear (selfC ops) = (sinceClear ops).map fun i => (i.1, (i.2, i.2)) := sinceClear_map _ _
  rw [Comoment.run_eq, Variance.run_eq, e]
  have h1 := (Comoment.fold_centers (w := w) ((sinceClear ops).map fun i => (i.1, (i.2, i.2)))).1
  have h2 := Variance.fold_super (w := w) (sinceClear ops)
  have h3 := contracted_self (w := w) (sinceClear ops)
  simp only [List.map_map, Function.comp_def] at h1
  set c := ((sinceClear ops).map fun i => (i.1, (i.2, i.2))).foldl Comoment.push (Cumulative.Comoment.init : Cumulative.Comoment w (X F))
  set v := (sinceClear ops).foldl Variance.push (Cumulative.Variance.init : Cumulative.Variance w (X F))
  have hs : c.size = v.size := by
    show c.xCenter.count = v.super.count
    rw [h1, h2]
  refine ⟨hs, ?_, ?_⟩
  · intro h
    unfold Cumulative.Comoment.variance
    rw [hs, if_pos h, h3]; rfl
  · intro h
    unfold Cumulative.Comoment.unbiasedVariance
    rw [hs, if_pos h, h3]; rfl

example : (Comoment.run (selfC [.push (true, X.fin 1), .push (true, X.fin 2)]) : Cumulative.Comoment 64 (X binary64)).variance
    = (Variance.run [.push (true, X.fin 1), .push (true, X.fin 2)] : Cumulative.Variance 64 (X binary64)).variance :=
  (C138_self_partial _).2.1 (by show (0 : BitVec 64) < 2; decide)

/-- C138: the error bound of C70 holds whichever pushes are contracted. -/
theorem C138_error (hF : F.Binary p emin) (hE : F.Err u η) {A B K : ℝ} (hA0 : 0 ≤ A) (hB0 : 0 ≤ B)
    (hηA : η ≤ u * A) (hηB : η ≤ u * B) (hηAB : η ≤ u * (A * B)) (hK : IsRep p emin K) (hKf : F.fits K)
    (ops : List (Op (Bool × (ℝ × ℝ)))) (hne : dataOf ops ≠ []) (hdx : F.Data p emin (Spec.xsOf (dataOf ops)))
    (hdy : F.Data p emin (Spec.ysOf (dataOf ops)))
    (hw : (dataOf ops).length < 2 ^ w) (hp : (dataOf ops).length ≤ 2 ^ p) (hfit : F.fits ((dataOf ops).length : ℝ))
    (hA : ∀ q ∈ dataOf ops, |q.1| ≤ A) (hB : ∀ q ∈ dataOf ops, |q.2| ≤ B)
    (hBK : 8 * (dataOf ops).length * (A * B) ≤ K) (hsmall : (6 * (dataOf ops).length + 65) * u ≤ 1) :
    ∃ c : ℝ, (Comoment.run (finC2 ops) : Cumulative.Comoment w (X F)).variance = X.fin c
      ∧ |c - Spec.covariance (dataOf ops)| ≤ (6 * (dataOf ops).length + 68) * (u * (A * B)) := by
  have hl : (sinceClear ops).length = (dataOf ops).length := by rw [dataOf, List.length_map]
  obtain ⟨S, hS, he⟩ := Comoment.rounded_err (w := w) hF hE hA0 hB0 hηA hηB hηAB hK hKf (sinceClear ops) hdx hdy
    (by rw [hl]; exact hw) (by rw [hl]; exact hp) (by rw [hl]; exact hfit) hA hB (by rw [hl]; exact hBK) (by rw [hl]; exact hsmall)
  change |S - Spec.cosum (dataOf ops)| ≤ _ at he
  rw [hl] at he
  have hcos := Spec.abs_cosum_le hA0 hB0 _ hA hB
  have hlen := List.length_pos_iff.2 hne
  have hsize := contracted_comoment_count (w := w) hF ops hdx hw
  rw [← sinceClear_finC2, ← Comoment.run_eq] at hS
  unfold Cumulative.Comoment.variance
  rw [hsize, hS, if_pos (by rw [gt_iff_lt, BitVec.lt_def, toNat_ofNat_lt hw]; simpa using hlen), ofSize, toNat_ofNat_lt hw,
    hF.ofNat_fin hp hfit]
  unfold Spec.covariance
  set n := (dataOf ops).length
  have hpos : (0 : ℝ) < n := by exact_mod_cast hlen
  have h1n : (1 : ℝ) ≤ n := by exact_mod_cast hlen
  set C := Spec.cosum (dataOf ops)
  have hu := hE.u_nonneg
  have hAB := mul_nonneg hA0 hB0
  have hSb : |S| ≤ n * (2 * (A * B)) := by
    have e : S = (S - C) + C := by ring
    rw [e]
    refine (abs_add_le _ _).trans ?_
    have : (n : ℝ) * (A * B) * ((6 * n + 65) * u) ≤ n * (A * B) * 1 := mul_le_mul_of_nonneg_left hsmall (by positivity)
    linarith
  have hdiv : |S / n| ≤ 2 * (A * B) := by
    rw [abs_div, abs_of_pos hpos, div_le_iff₀ hpos]; linarith
  have hnAB := mul_le_mul_of_nonneg_right h1n hAB
  obtain ⟨r1, -⟩ := hF.round_le hK hKf (r := S / n) (hdiv.trans (by linarith))
  rw [X.div_fin_of_ne _ hpos.ne', r1]
  refine ⟨_, rfl, ?_⟩
  have h1 := hE.err (S / n)
  have h2 := mul_le_mul_of_nonneg_left hdiv hu
  have h3 : |S / n - C / n| ≤ (6 * n + 65) * (u * (A * B)) := by
    rw [← sub_div, abs_div, abs_of_pos hpos, div_le_iff₀ hpos]; linarith
  have e : F.rnd (S / n) - C / n = (F.rnd (S / n) - S / n) + (S / n - C / n) := by ring
  rw [e]
  refine (abs_add_le _ _).trans ?_
  linarith

/-- 1, 2, 6 paired with themselves; the second push is contracted. -/
example : ∃ c : ℝ, (Comoment.run (finC2 [.push (false, (1, 1)), .push (true, (2, 2)), .push (false, (6, 6))])
      : Cumulative.Comoment 64 (X binary64)).variance = X.fin c
    ∧ |c - 14 / 3| ≤ 86 * (2 ^ (-53 : Int) * 36) := by
  have hs : dataOf ([.push (false, (1, 1)), .push (true, (2, 2)), .push (false, (6, 6))] : List (Op (Bool × (ℝ × ℝ))))
      = [(1, 1), (2, 2), (6, 6)] := rfl
  have hη : (2 : ℝ) ^ (-1075 : Int) ≤ 2 ^ (-53 : Int) := zpow_le_zpow_right₀ (by norm_num) (by norm_num)
  have hu : (0 : ℝ) < 2 ^ (-53 : Int) := by positivity
  have hK := binary64_int (n := 864) (by norm_num)
  have h3 := binary64_int (n := 3) (by norm_num)
  push_cast at hK h3
  have hd : binary64.Data 53 (-1074) [1, 2, 6] := by have := binary64_data [1, 2, 6] (by simp); simpa using this
  have hb : ∀ q ∈ ([(1, 1), (2, 2), (6, 6)] : List (ℝ × ℝ)), |q.1| ≤ 6 ∧ |q.2| ≤ 6 := by
    intro q hq
    simp only [List.mem_cons, List.not_mem_nil, or_false] at hq
    rcases hq with rfl | rfl | rfl <;> constructor <;> norm_num
  obtain ⟨c, h1, h2⟩ := C138_error (w := 64) binary64_binary binary64_err (A := 6) (B := 6) (K := 864) (by norm_num) (by norm_num)
    (by linarith) (by linarith) (by linarith) hK.1 hK.2
    [.push (false, (1, 1)), .push (true, (2, 2)), .push (false, (6, 6))] (by rw [hs]; simp)
    (by rw [hs]; exact hd) (by rw [hs]; exact hd) (by rw [hs]; simp) (by rw [hs]; norm_num)
    (by rw [hs]; simpa using h3.2) (fun q hq => (hb q hq).1) (fun q hq => (hb q hq).2)
    (by rw [hs]; norm_num) (by rw [hs]; norm_num)
  refine ⟨c, h1, ?_⟩
  rw [hs] at h2
  have e : Spec.covariance [(1, 1), (2, 2), (6, 6)] = 14 / 3 := by
    simp [Spec.covariance, Spec.cosum, Spec.xsOf, Spec.ysOf, Spec.mean]; norm_num
  rw [e] at h2
  refine h2.trans (le_of_eq ?_)
  simp only [List.length_cons, List.length_nil]
  norm_num

/-! ### Violation: contracted in one filter and not in the other -/

/-- C138 without the restriction to the same pushes. -/
def C138_SelfStatement : Prop :=
  ∀ cov var : List (Op (Bool × ℝ)), dataOf cov = dataOf var → binary64.Data 53 (-1074) (dataOf var) →
    (dataOf var).length < 2 ^ 64 → 0 < (dataOf var).length →
    (Comoment.run (selfC (finC cov)) : Cumulative.Comoment 64 (X binary64)).variance
      = (Variance.run (finC var) : Cumulative.Variance 64 (X binary64)).variance

/-- The third of three pushes: `0, 4, 2 + 3 k` with `k = 2^27 + 1`.  The product of the deviations is `6 k^2`, which is
not a number of the format. -/
theorem C138_third (b : Bool) :
    (Variance.run (finC [.push (b, 0), .push (b, 4), .push (b, 402653189)]) : Cumulative.Variance 64 (X binary64)).variance
      = X.fin (2 ^ 55 + 2 ^ 29 + if b then 8 else 0) := by
  have ri : ∀ (m : Int), |m| ≤ 2 ^ 53 → (X.round (m : ℝ) : X binary64) = X.fin m := fun m hm => round64_int m rfl hm
  have hsub : ∀ a b c : Int, a - b = c → |c| ≤ 2 ^ 53 → (X.fin (a : ℝ) - X.fin (b : ℝ) : X binary64) = X.fin (c : ℝ) := by
    intro a b c h hc
    rw [X.sub_fin, ← Int.cast_sub, h, ri c hc]
  have hadd : ∀ a b c : Int, a + b = c → |c| ≤ 2 ^ 53 → (X.fin (a : ℝ) + X.fin (b : ℝ) : X binary64) = X.fin (c : ℝ) := by
    intro a b c h hc
    rw [X.add_fin, ← Int.cast_add, h, ri c hc]
  have hdiv : ∀ a c : Int, ∀ n : Nat, n ≠ 0 → n ≤ 2 ^ 53 → a = c * n → |c| ≤ 2 ^ 53 → (X.fin (a : ℝ) / ofNat n : X binary64) = X.fin (c : ℝ) := by
    intro a c n hn hn2 h hc
    have hn' : (n : ℝ) ≠ 0 := by exact_mod_cast hn
    rw [ofNat64 hn2, X.div_fin_of_ne _ hn', h]
    push_cast
    rw [mul_div_assoc, div_self hn', mul_one, ri c hc]
  have hmul : ∀ s a b c : Int, a * b + s = c → |a * b| ≤ 2 ^ 53 → |c| ≤ 2 ^ 53 → ∀ f : Bool,
      (addMul f (X.fin (s : ℝ)) (X.fin (a : ℝ)) (X.fin (b : ℝ)) : X binary64) = X.fin (c : ℝ) := by
    intro s a b c h hab hc f
    rw [addMul_fin, ← Int.cast_mul, ri _ hab, ← Int.cast_add, h, ri c hc, hadd s (a * b) c (by omega) hc]
    split_ifs <;> rfl
  have z0 : (ofNat 0 : X binary64) = X.fin ((0 : Int) : ℝ) := by rw [ofNat64 (by norm_num)]; norm_num
  have step : ∀ (M x d q M' e S : Int) (c : SizeT 64), x - M = d → d = q * (c + 1).toNat → M + q = M' → x - M' = e →
      |d| ≤ 2 ^ 53 → |q| ≤ 2 ^ 53 → |M'| ≤ 2 ^ 53 → |e| ≤ 2 ^ 53 → (c + 1).toNat ≠ 0 → (c + 1).toNat ≤ 2 ^ 53 →
      Variance.push { super := { mean := X.fin (M : ℝ), count := c }, sumVariance := X.fin (S : ℝ) } (b, X.fin (x : ℝ))
        = ({ super := { mean := X.fin (M' : ℝ), count := c + 1 }
             sumVariance := addMul b (X.fin (S : ℝ)) (X.fin (d : ℝ)) (X.fin (e : ℝ)) } : Cumulative.Variance 64 (X binary64)) := by
    intro M x d q M' e S c h1 h2 h3 h4 g1 g2 g3 g4 hc hc2
    have hm : Cumulative.Mean.push { mean := X.fin (M : ℝ), count := c } (X.fin (x : ℝ))
        = ({ mean := X.fin (M' : ℝ), count := c + 1 } : Cumulative.Mean 64 (X binary64)) := by
      show ({ mean := X.fin _ + (X.fin _ - X.fin _) / ofNat (c + 1).toNat, count := c + 1 } : Cumulative.Mean 64 (X binary64)) = _
      rw [hsub x M d h1 g1, hdiv d q _ hc hc2 h2 g2, hadd M q M' h3 g3]
    unfold Variance.push
    simp only [hm]
    congr 1
    show addMul b (X.fin _) (X.fin _ - X.fin _) (X.fin _ - X.fin _) = _
    rw [hsub x M d h1 g1, hsub x M' e h4 g4]
  have e0 : (Cumulative.Variance.init : Cumulative.Variance 64 (X binary64))
      = { super := { mean := X.fin ((0 : Int) : ℝ), count := 0 }, sumVariance := X.fin ((0 : Int) : ℝ) } := by
    unfold Cumulative.Variance.init Cumulative.Mean.init
    rw [z0]
  have e1 := step 0 0 0 0 0 0 0 0 (by norm_num) (by norm_num) (by norm_num) (by norm_num) (by norm_num) (by norm_num) (by norm_num)
    (by norm_num) (by decide) (by decide)
  rw [hmul 0 0 0 0 (by norm_num) (by norm_num) (by norm_num)] at e1
  have e2 := step 0 4 4 2 2 2 0 1 (by norm_num) (by decide) (by norm_num) (by norm_num) (by norm_num) (by norm_num) (by norm_num)
    (by norm_num) (by decide) (by decide)
  rw [hmul 0 4 2 8 (by norm_num) (by norm_num) (by norm_num)] at e2
  have e3 := step 2 402653189 402653187 134217729 134217731 268435458 8 2 (by norm_num) (by decide) (by norm_num) (by norm_num)
    (by norm_num) (by norm_num) (by norm_num) (by norm_num) (by decide) (by decide)
  have hrun : (Variance.run (finC [.push (b, 0), .push (b, 4), .push (b, 402653189)]) : Cumulative.Variance 64 (X binary64))
      = Variance.push (Variance.push (Variance.push Cumulative.Variance.init (b, X.fin ((0 : Int) : ℝ))) (b, X.fin ((4 : Int) : ℝ)))
          (b, X.fin ((402653189 : Int) : ℝ)) := by
    norm_num [Variance.run, runOps, finC, Op.map]
  rw [hrun, e0, e1]
  rw [show (0 : SizeT 64) + 1 = 1 from rfl, e2, show (1 : SizeT 64) + 1 = 2 from rfl, e3]
  show addMul b _ _ _ / ofNat 3 = _
  have hsum : (addMul b (X.fin ((8 : Int) : ℝ)) (X.fin ((402653187 : Int) : ℝ)) (X.fin ((268435458 : Int) : ℝ)) : X binary64)
      = X.fin (2 ^ 56 + 2 ^ 55 + 3 * 2 ^ 29 + if b then 16 else 0) := by
    rw [addMul_fin]
    cases b
    · have r1 : (X.round (((402653187 : Int) : ℝ) * ((268435458 : Int) : ℝ)) : X binary64) = X.fin (2 ^ 56 + 2 ^ 55 + 3 * 2 ^ 29) := by
        refine round64_of (2 ^ 52 + 2 ^ 51 + 3 * 2 ^ 25) 4 ?_ (by norm_num) (by norm_num) (by norm_num) (by norm_num)
        rw [rnd64_near (2 ^ 52 + 2 ^ 51 + 3 * 2 ^ 25) 4 (by norm_num) (by rw [abs_of_pos (by norm_num)]; norm_num)
          (by rw [abs_of_pos (by norm_num)]; norm_num) (by rw [abs_lt]; constructor <;> norm_num)]
        norm_num
      simp only [Bool.false_eq_true, if_false]
      rw [r1, X.add_fin]
      refine round64_of (2 ^ 52 + 2 ^ 51 + 3 * 2 ^ 25) 4 ?_ (by norm_num) (by norm_num) (by norm_num) (by norm_num)
      show roundNearest 53 (-1074) _ = _
      rw [roundNearest_eq (x := ((2 ^ 52 + 2 ^ 51 + 3 * 2 ^ 25 : Int) : ℝ) + 1 / 2) 56 (by rw [abs_of_nonneg (by norm_num)]; norm_num)
        (by rw [abs_of_nonneg (by norm_num)]; norm_num) (by norm_num) (by norm_num), nearestEven_tie, if_pos (by decide)]
      norm_num
    · simp only [if_true]
      refine round64_of (2 ^ 52 + 2 ^ 51 + 3 * 2 ^ 25 + 1) 4 ?_ (by norm_num) (by norm_num) (by norm_num) (by norm_num)
      rw [rnd64_near (2 ^ 52 + 2 ^ 51 + 3 * 2 ^ 25 + 1) 4 (by norm_num) (by rw [abs_of_pos (by norm_num)]; norm_num)
        (by rw [abs_of_pos (by norm_num)]; norm_num) (by rw [abs_lt]; constructor <;> norm_num)]
      norm_num
  rw [hsum, ofNat64 (by norm_num), X.div_fin_of_ne _ (by norm_num)]
  cases b
  · simp only [Bool.false_eq_true, if_false]
    rw [round64 (r := (2 ^ 56 + 2 ^ 55 + 3 * 2 ^ 29 + 0) / ((3 : Nat) : ℝ)) (2 ^ 52 + 2 ^ 26) 3 (by norm_num) (by norm_num) (by norm_num) (by norm_num)]
    norm_num
  · simp only [if_true]
    refine round64_of (2 ^ 52 + 2 ^ 26 + 1) 3 ?_ (by norm_num) (by norm_num) (by norm_num) (by norm_num)
    rw [rnd64_near (2 ^ 52 + 2 ^ 26 + 1) 3 (by norm_num) (by rw [abs_of_pos (by norm_num)]; norm_num)
      (by rw [abs_of_pos (by norm_num)]; norm_num) (by rw [abs_lt]; constructor <;> norm_num)]
    norm_num

/-- C138 is violated if the covariance is contracted and the variance is not. -/
theorem C138_violated : ¬ C138_SelfStatement := by
  intro h
  have h1 := h [.push (true, 0), .push (true, 4), .push (true, 402653189)]
    [.push (false, 0), .push (false, 4), .push (false, 402653189)] rfl
    (double_data (by
      intro x hx
      have : x = 0 ∨ x = 4 ∨ x = 402653189 := by simpa [dataOf, sinceClear] using hx
      rcases this with h | h | h
      · exact ⟨0, by rw [h]; norm_num, by norm_num⟩
      · exact ⟨4, by rw [h]; norm_num, by norm_num⟩
      · exact ⟨402653189, by rw [h]; norm_num, by norm_num⟩)) (by simp [dataOf, sinceClear]) (by simp [dataOf, sinceClear])
  rw [(C138_self_partial _).2.1 (by show (0 : BitVec 64) < 3; decide), C138_third, C138_third] at h1
  injection h1 with h1
  norm_num at h1

end Verif.Props
