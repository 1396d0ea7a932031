import Verif.Proofs.DecayRounded
import Verif.Proofs.Double
/-
C64, C65: the decay mean with rounding.
-/
namespace Verif.Props
open Scalar Verif.Decay

variable {F : Fmt} {p : Nat} {emin : Int} {u η : ℝ}

/-! ### C64 -/

/-- C64: the rounding error of the decay mean does not grow with the number of values.  With `c = sumErr u η f`,
`c B = (10 u B + 2 η) + (2 u B + 3 η) / f`. -/
theorem C64_decay_mean_error (hF : F.Binary p emin) (hE : F.Err u η) {f B K : ℝ} (hf0 : 0 < f) (hf1 : f ≤ 1)
    (hfr : IsRep p emin f) (hB0 : 0 ≤ B) (hK : IsRep p emin K) (hKf : F.fits K) (hBK : 8 * B ≤ K)
    (hBK' : B + (sumErr u η f B + B * sumErr u η f 1) / f ≤ K) (hc : sumErr u η f B ≤ B)
    (ops : List (Op ℝ)) (hB : ∀ x ∈ sinceClear ops, |x| ≤ B) :
    ∃ m : ℝ, (Mean.run (X.fin f) (finOps ops) : Mean (X F)).mean = X.fin m
      ∧ |m - Spec.ewMean f (sinceClear ops)|
        ≤ (1 + u) * ((sumErr u η f B + B * sumErr u η f 1) / f) + u * B + η := by
  have hc1 := sumErr_nonneg hE (zero_le_one (α := ℝ)) hf0
  have hcB := sumErr_nonneg hE hB0 hf0
  have hu := hE.u_nonneg
  have he := hE.eta_nonneg
  rw [Mean.run_eq, sinceClear_finOps]
  obtain ⟨n, hn⟩ := Mean.fold_norm (u := u) (η := η) hF hE hf0 hf1 hfr ((sinceClear ops).map X.fin)
  obtain ⟨s, h1, h2, h3⟩ := Mean.fold_sum (F := F) hF hE hB0 hf0 hf1 hK hKf hBK hc _ hB
  set st := ((sinceClear ops).map X.fin).foldl Mean.push (Mean.init (X.fin f) : Mean (X F))
  have hlen : ((sinceClear ops).map (X.fin : ℝ → X F)).length = (sinceClear ops).length := by simp
  show ∃ m, (if lt (ofNat 0) st.normalization then st.sumMean / st.normalization else ofNat 0) = X.fin m ∧ _
  rw [h2, hn.norm, hF.ofNat_zero, X.lt_fin]
  rcases eq_or_ne (sinceClear ops) [] with h0 | h0
  · have : n = 0 := hn.empty (by rw [h0]; rfl)
    rw [this]
    refine ⟨0, by simp, ?_⟩
    rw [h0]
    simp only [Spec.ewMean, Spec.ewSum_nil, zero_div, sub_zero, abs_zero]
    positivity
  · have hge : f ≤ n := hn.ge (by simpa using h0)
    have hN := Spec.norm_pos hf0 hf1 (n := (sinceClear ops).length) (by simpa using h0)
    have herr := hn.err
    rw [hlen] at herr
    obtain ⟨k1, k2⟩ := mean_err hF hE hK hKf hf0 hge hN (abs_ewMean_le hf0 hf1 hB0 hB) h3 herr hBK'
    exact ⟨_, by rw [decide_eq_true (by linarith), if_pos rfl, k1], k2⟩

/-- `double` with factor 1/2 and values up to 8: the error is at most `2^-42` after any number of values. -/
example (ops : List (Op ℝ)) (hB : ∀ x ∈ sinceClear ops, |x| ≤ 8) :
    ∃ m : ℝ, (Mean.run (X.fin (1 / 2)) (finOps ops) : Mean (X binary64)).mean = X.fin m
      ∧ |m - Spec.ewMean (1 / 2) (sinceClear ops)| ≤ 2 ^ (-42 : Int) := by
  have h128 := binary64_int (n := 128) (by norm_num)
  push_cast at h128
  have hf := double 1 (-1) (by norm_num) (by norm_num) (by norm_num)
  have hff : ((1 : Int) : ℝ) * 2 ^ (-1 : Int) = 1 / 2 := by norm_num
  rw [hff] at hf
  have hu : (2 : ℝ) ^ (-53 : Int) ≤ 1 / 2 ^ 53 := by norm_num
  have hη : (2 : ℝ) ^ (-1075 : Int) ≤ 2 ^ (-53 : Int) := zpow_le_zpow_right₀ (by norm_num) (by norm_num)
  have hu0 : (0 : ℝ) ≤ 2 ^ (-53 : Int) := by positivity
  have hη0 : (0 : ℝ) ≤ 2 ^ (-1075 : Int) := by positivity
  have h42 : (2 : ℝ) ^ (-42 : Int) = 2048 * (1 / 2 ^ 53) := by norm_num
  have hE := binary64_err
  rw [h42]
  generalize (2 : ℝ) ^ (-53 : Int) = u at *
  generalize (2 : ℝ) ^ (-1075 : Int) = η at *
  have e8 : sumErr u η (1 / 2) 8 ≤ 120 * u := by unfold sumErr; linarith
  have e1 : sumErr u η (1 / 2) 1 ≤ 22 * u := by unfold sumErr; linarith
  obtain ⟨m, h1, h2⟩ := C64_decay_mean_error binary64_binary hE (f := 1 / 2) (B := 8) (K := 128) (by norm_num) (by norm_num)
    hf.1 (by norm_num) h128.1 h128.2 (by norm_num) (by norm_num at hu ⊢; linarith) (by norm_num at hu; linarith) ops hB
  refine ⟨m, h1, h2.trans ?_⟩
  have h3 : (1 + u) * ((sumErr u η (1 / 2) 8 + 8 * sumErr u η (1 / 2) 1) / (1 / 2)) ≤ (1 + 1) * ((120 * u + 8 * (22 * u)) / (1 / 2)) := by
    refine mul_le_mul (by norm_num at hu; linarith) (by linarith) ?_ (by norm_num)
    have := sumErr_nonneg hE (B := 8) (f := 1 / 2) (by norm_num) (by norm_num)
    have := sumErr_nonneg hE (B := 1) (f := 1 / 2) (by norm_num) (by norm_num)
    positivity
  linarith

/-! ### C65 -/

/-- C65 as stated, for `double`: a constant stream has that constant as mean, and a filter with factor 1 returns the
last value. -/
def C65_Statement : Prop :=
  ∀ (f : ℝ), 0 < f → f ≤ 1 → IsRep 53 (-1074) f → ∀ ops : List (Op ℝ), binary64.Data 53 (-1074) (sinceClear ops) →
    ∀ hne : sinceClear ops ≠ [], ((∀ x ∈ sinceClear ops, x = (sinceClear ops).getLast hne) ∨ f = 1) →
      (Mean.run (X.fin f) (finOps ops) : Mean (X binary64)).mean = X.fin ((sinceClear ops).getLast hne)

/-- After the first value. -/
theorem decay_first {f x s : ℝ} (hF : F.Binary p emin) (hf : IsRep p emin f) (hff : F.fits f)
    (hx : IsRep p emin x) (hxf : F.fits x) (hs : F.rnd (f * x) = s) (hsf : F.fits s) :
    (Mean.init (X.fin f) : Mean (X F)).push (X.fin x) = { meanFactor := X.fin f, normalization := X.fin f, sumMean := X.fin s } := by
  have h1 : (X.fin f * X.fin x : X F) = X.fin s := by
    rw [X.mul_fin]; unfold X.round; rw [hs, if_pos hsf]
  have h2 : (X.fin f * X.fin 1 : X F) = X.fin f := by
    rw [X.mul_fin, mul_one, hF.round_exact hf hff]
  have hsr : IsRep p emin s := by rw [← hs]; exact hF.rep _
  show Mean.mk (X.fin f) (ofNat 0 + X.fin f * (ofNat 1 - ofNat 0)) (ofNat 0 + X.fin f * (X.fin x - ofNat 0)) = _
  rw [hF.ofNat_zero, hF.ofNat_one, hF.sub_zero hF.isRep_one hF.fits_one, hF.sub_zero hx hxf, h1, h2,
    hF.zero_add hf hff, hF.zero_add hsr hsf]

/-- C65 is violated: with factor `3/4 + 2^-52` the mean of the single value 3 is `3 + 2^-51`. -/
theorem C65_constant_value :
    (Mean.run (X.fin ((3 * 2 ^ 50 + 1 : Int) * 2 ^ (-52 : Int))) (finOps [.push 3]) : Mean (X binary64)).mean
      = X.fin ((3 * 2 ^ 51 + 1 : Int) * 2 ^ (-51 : Int)) := by
  have b := binary64_binary
  have hf := double (3 * 2 ^ 50 + 1) (-52) (by norm_num) (by norm_num) (by norm_num)
  have h3 := binary64_int (n := 3) (by norm_num)
  push_cast at h3
  have hs : binary64.rnd (((3 * 2 ^ 50 + 1 : Int) : ℝ) * 2 ^ (-52 : Int) * 3) = ((9 * 2 ^ 49 + 2 : Int) : ℝ) * 2 ^ (-51 : Int) := by
    rw [rnd64_tie (9 * 2 ^ 49 + 1) (-51) (by norm_num) (by rw [abs_of_pos (by norm_num)]; norm_num)
      (by rw [abs_of_pos (by norm_num)]; norm_num) (by norm_num), if_neg (by decide)]
    norm_num
  have hsf := double (9 * 2 ^ 49 + 2) (-51) (by norm_num) (by norm_num) (by norm_num)
  have hq : binary64.rnd (((9 * 2 ^ 49 + 2 : Int) : ℝ) * 2 ^ (-51 : Int) / (((3 * 2 ^ 50 + 1 : Int) : ℝ) * 2 ^ (-52 : Int)))
      = ((3 * 2 ^ 51 + 1 : Int) : ℝ) * 2 ^ (-51 : Int) := by
    rw [rnd64_near (3 * 2 ^ 51 + 1) (-51) (by norm_num) (by rw [abs_of_pos (by norm_num)]; norm_num)
      (by rw [abs_of_pos (by norm_num)]; norm_num) (by rw [abs_lt]; constructor <;> norm_num)]
  show ((Mean.init (X.fin _) : Mean (X binary64)).push (X.fin 3)).mean = _
  rw [decay_first b hf.1 hf.2 h3.1 h3.2 hs hsf.2]
  show (if lt (ofNat 0) (X.fin _) then _ / _ else _) = _
  rw [b.ofNat_zero, X.lt_fin, decide_eq_true (by norm_num), if_pos rfl, X.div_fin_of_ne _ (by norm_num)]
  exact round64_of (3 * 2 ^ 51 + 1) (-51) hq rfl (by norm_num) (by norm_num) (by norm_num)

theorem C65_constant_violated : ¬ C65_Statement := by
  intro h
  have hf := double (3 * 2 ^ 50 + 1) (-52) (by norm_num) (by norm_num) (by norm_num)
  have := h _ (by norm_num) (by norm_num) hf.1 [.push 3]
    (by
      have := binary64_data [3] (by simp)
      simpa [sinceClear] using this)
    (by simp [sinceClear]) (Or.inl (by simp [sinceClear]))
  rw [C65_constant_value] at this
  injection this with this
  norm_num [sinceClear] at this

/-- C65 is also violated for factor 1: after `2^60, 1` the mean is 0. -/
theorem C65_factor_one_value :
    (Mean.run (X.fin 1) (finOps [.push (2 ^ 60), .push 1]) : Mean (X binary64)).mean = X.fin 0 := by
  have b := binary64_binary
  have hr := double 1 60 (by norm_num) (by norm_num) (by norm_num)
  have hrr : ((1 : Int) : ℝ) * 2 ^ (60 : Int) = 2 ^ 60 := by norm_num
  rw [hrr] at hr
  have h1 : (X.fin 1 - X.fin (2 ^ 60) : X binary64) = X.fin (-2 ^ 60) := by
    rw [X.sub_fin]
    refine round64_of (-1) 60 ?_ (by norm_num) (by norm_num) (by norm_num) (by norm_num)
    rw [rnd64_near (-2 ^ 53) 7 (by norm_num) (by rw [abs_div, abs_of_neg (by norm_num)]; norm_num)
      (by rw [abs_div, abs_of_neg (by norm_num)]; norm_num) (by rw [abs_lt]; norm_num)]
    norm_num
  have s2 : ({ meanFactor := X.fin 1, normalization := X.fin 1, sumMean := X.fin (2 ^ 60) } : Mean (X binary64)).push (X.fin 1)
      = { meanFactor := X.fin 1, normalization := X.fin 1, sumMean := X.fin 0 } := by
    show Mean.mk (X.fin 1) (X.fin 1 + X.fin 1 * (ofNat 1 - X.fin 1)) (X.fin (2 ^ 60) + X.fin 1 * (X.fin 1 - X.fin (2 ^ 60))) = _
    rw [b.ofNat_one, b.sub_self, b.mul_zero, b.add_zero b.isRep_one b.fits_one, h1, X.mul_fin, one_mul,
      b.round_exact hr.1.neg (b.fits_neg hr.2), X.add_fin, add_neg_cancel, b.round_exact (isRep_zero _ _) b.fits_zero]
  show ((((Mean.init (X.fin 1) : Mean (X binary64)).push (X.fin (2 ^ 60)))).push (X.fin 1)).mean = _
  rw [decay_first b b.isRep_one b.fits_one hr.1 hr.2 (by rw [one_mul, b.exact _ hr.1]) hr.2, s2]
  show (if lt (ofNat 0) (X.fin 1) then X.fin 0 / X.fin 1 else _) = _
  rw [b.ofNat_zero, X.lt_fin, decide_eq_true (by norm_num), if_pos rfl, X.div_fin_of_ne _ (by norm_num), zero_div,
    b.round_exact (isRep_zero _ _) b.fits_zero]

theorem C65_factor_one_violated : ¬ C65_Statement := by
  intro h
  have b := binary64_binary
  have hr := double 1 60 (by norm_num) (by norm_num) (by norm_num)
  have hrr : ((1 : Int) : ℝ) * 2 ^ (60 : Int) = 2 ^ 60 := by norm_num
  rw [hrr] at hr
  have hs : sinceClear ([.push (2 ^ 60), .push 1] : List (Op ℝ)) = [2 ^ 60, 1] := rfl
  have hmem : ∀ x ∈ ([2 ^ 60, 1] : List ℝ), x = 2 ^ 60 ∨ x = 1 := by
    intro x hx
    simpa using hx
  have := h 1 one_pos le_rfl b.isRep_one [.push (2 ^ 60), .push 1]
    (by
      rw [hs]
      refine ⟨fun x hx => ?_, fun x hx y hy => ?_⟩
      · rcases hmem x hx with rfl | rfl
        · exact hr
        · exact ⟨b.isRep_one, b.fits_one⟩
      · have h0 : ∀ z ∈ ([2 ^ 60, 1] : List ℝ), 0 ≤ z ∧ z ≤ 2 ^ 60 := by
          intro z hz
          rcases hmem z hz with rfl | rfl <;> norm_num
        refine b.fits_between (b.fits_neg hr.2) hr.2 (b.le_rnd hr.1.neg ?_) (b.rnd_le hr.1 ?_) <;>
          linarith [h0 x hx, h0 y hy])
    (by simp [sinceClear]) (Or.inr rfl)
  rw [C65_factor_one_value] at this
  injection this with this
  norm_num [sinceClear] at this

/-- C65, the part that holds: streams of zeros and of ones are exact, for every format and every factor.  Other
constants: the error is bounded (C64). -/
theorem C65_constant_partial (hF : F.Binary p emin) {f : ℝ} (hf0 : 0 < f) (hf1 : f ≤ 1) (hfr : IsRep p emin f)
    (hp : 4 ≤ p) (c : Nat) (hc : c ≤ 1) (ops : List (Op ℝ)) (hne : sinceClear ops ≠ []) (h : ∀ x ∈ sinceClear ops, x = c) :
    (Mean.run (X.fin f) (finOps ops) : Mean (X F)).mean = X.fin c := by
  rw [Mean.run_eq, sinceClear_finOps]
  obtain ⟨n, hn⟩ := Mean.fold_norm (F := F) hF (hF.err hp) hf0 hf1 hfr ((sinceClear ops).map X.fin)
  have hnpos : 0 < n := lt_of_lt_of_le hf0 (hn.ge (by simpa using hne))
  have hs : (((sinceClear ops).map X.fin).foldl Mean.push (Mean.init (X.fin f) : Mean (X F))).sumMean
      = if c = 0 then X.fin 0 else (((sinceClear ops).map X.fin).foldl Mean.push (Mean.init (X.fin f) : Mean (X F))).normalization := by
    clear hn hnpos hne
    generalize sinceClear ops = xs at h ⊢
    induction xs using List.reverseRecOn with
    | nil => split_ifs <;> [exact hF.ofNat_zero; rfl]
    | append_singleton xs x ih =>
      have ih := ih (fun y hy => h y (List.mem_append_left _ hy))
      have hx := h x (by simp)
      rw [List.map_append, List.map_singleton, List.foldl_append]
      have hfac : ((xs.map X.fin).foldl Mean.push (Mean.init (X.fin f) : Mean (X F))).meanFactor = X.fin f := by
        generalize xs.map (X.fin : ℝ → X F) = ys
        induction ys using List.reverseRecOn with
        | nil => rfl
        | append_singleton ys y ih => rw [List.foldl_append]; exact ih
      generalize (xs.map X.fin).foldl Mean.push (Mean.init (X.fin f) : Mean (X F)) = st at ih hfac ⊢
      show st.sumMean + st.meanFactor * (X.fin x - st.sumMean)
        = if c = 0 then X.fin 0 else st.normalization + st.meanFactor * (ofNat 1 - st.normalization)
      rw [ih, hfac, hx]
      split_ifs with h0
      · rw [h0, Nat.cast_zero, hF.sub_self, hF.mul_zero, hF.add_zero (isRep_zero _ _) hF.fits_zero]
      · have : c = 1 := by omega
        rw [this, Nat.cast_one, hF.ofNat_one]
  set st := ((sinceClear ops).map X.fin).foldl Mean.push (Mean.init (X.fin f) : Mean (X F))
  show (if lt (ofNat 0) st.normalization then st.sumMean / st.normalization else ofNat 0) = X.fin c
  rw [hs, hn.norm, hF.ofNat_zero, X.lt_fin, decide_eq_true hnpos, if_pos rfl]
  split_ifs with h0
  · rw [X.div_fin_of_ne _ hnpos.ne', zero_div, hF.round_exact (isRep_zero _ _) hF.fits_zero, h0, Nat.cast_zero]
  · have : c = 1 := by omega
    rw [X.div_fin_of_ne _ hnpos.ne', div_self hnpos.ne', hF.round_exact hF.isRep_one hF.fits_one, this, Nat.cast_one]

/-- Three ones with factor 1/2 as `float`. -/
example : (Mean.run (X.fin (1 / 2)) (finOps [.push 7, .clear, .push 1, .push 1, .push 1]) : Mean (X binary32)).mean = X.fin 1 := by
  have hf : IsRep 24 (-149) (1 / 2 : ℝ) := by
    have := isRep_mul (p := 24) (emin := -149) (m := 1) (e := -1) (by norm_num) (by norm_num) (by norm_num)
    norm_num at this ⊢; exact this
  have := C65_constant_partial binary32_binary (f := 1 / 2) (by norm_num) (by norm_num) hf (by norm_num) 1 le_rfl
    [.push 7, .clear, .push 1, .push 1, .push 1] (by simp [sinceClear]) (by simp [sinceClear])
  simpa using this

end Verif.Props
