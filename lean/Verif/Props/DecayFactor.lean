import Verif.Props.DecayRounded
import Verif.Props.Superposition
/-
C186: the decaying mean and variance depend little on the factors, for any number of values.
-/
namespace Verif.Props
open Scalar Decay Exact

variable {F : Fmt} {p : Nat} {emin : Int} {u η ε : ℝ}

/-- The sum of the weights relative to the last one. -/
noncomputable def weightSum (q : ℝ) : ℕ → ℝ
  | 0 => 0
  | n + 1 => 1 + q * weightSum q n

theorem weightSum_eq (f : ℝ) (n : ℕ) : f * weightSum (1 - f) n = 1 - (1 - f) ^ n := by
  induction n with
  | zero => simp [weightSum]
  | succ n ih => rw [weightSum, pow_succ]; linear_combination (1 - f) * ih

theorem weightSum_nonneg {q : ℝ} (hq : 0 ≤ q) (n : ℕ) : 0 ≤ weightSum q n := by
  induction n with
  | zero => simp [weightSum]
  | succ n ih => rw [weightSum]; positivity

theorem one_le_weightSum {q : ℝ} (hq : 0 ≤ q) (n : ℕ) : 1 ≤ weightSum q (n + 1) := by
  rw [weightSum]
  have := weightSum_nonneg hq n
  have : 0 ≤ q * weightSum q n := by positivity
  linarith

theorem weightSum_mono {q : ℝ} (hq : 0 ≤ q) (n : ℕ) : weightSum q n ≤ weightSum q (n + 1) := by
  induction n with
  | zero => simp [weightSum]
  | succ n ih =>
    rw [weightSum, weightSum]
    have := mul_le_mul_of_nonneg_left ih hq
    linarith

theorem weightSum_sub {q q' : ℝ} (hq : 0 ≤ q) (hq' : 0 ≤ q') (n : ℕ) :
    |weightSum q n - weightSum q' n| ≤ |q' - q| * (weightSum q n * weightSum q' n) := by
  induction n with
  | zero => simp [weightSum]
  | succ n ih =>
    have h1 := weightSum_nonneg hq n
    have h2 := weightSum_nonneg hq' (n + 1)
    have h3 := weightSum_mono hq n
    have e : weightSum q (n + 1) - weightSum q' (n + 1) = -((q' - q) * weightSum q n) + q' * (weightSum q n - weightSum q' n) := by
      rw [weightSum, weightSum]; ring
    have h4 := abs_add_le (-((q' - q) * weightSum q n)) (q' * (weightSum q n - weightSum q' n))
    rw [abs_neg, abs_mul, abs_mul, abs_of_nonneg h1, abs_of_nonneg hq'] at h4
    have h5 := mul_le_mul_of_nonneg_left ih hq'
    have h6 : |q' - q| * (weightSum q n * weightSum q' (n + 1)) ≤ |q' - q| * (weightSum q (n + 1) * weightSum q' (n + 1)) :=
      mul_le_mul_of_nonneg_left (mul_le_mul_of_nonneg_right h3 h2) (abs_nonneg _)
    have e2 : weightSum q' (n + 1) = 1 + q' * weightSum q' n := rfl
    rw [e]
    refine (h4.trans ?_).trans h6
    rw [e2]
    nlinarith

/-- A step of the decaying mean. -/
theorem ewMean_snoc {f : ℝ} (h0 : 0 < f) (h1 : f ≤ 1) (xs : List ℝ) (x : ℝ) :
    Spec.ewMean f (xs ++ [x]) = Spec.ewMean f xs + (x - Spec.ewMean f xs) / weightSum (1 - f) (xs.length + 1) := by
  have hS := one_le_weightSum (q := 1 - f) (by linarith) xs.length
  have e1 : Spec.ewSum f xs = Spec.ewMean f xs * (f * weightSum (1 - f) xs.length) := by
    rw [weightSum_eq]
    rcases eq_or_ne xs [] with rfl | hne
    · simp
    · rw [Spec.ewMean, div_mul_cancel₀ _ (Spec.norm_pos h0 h1 (by simpa using hne)).ne']
  have e2 : weightSum (1 - f) (xs.length + 1) = 1 + (1 - f) * weightSum (1 - f) xs.length := rfl
  have h2 : Spec.ewMean f (xs ++ [x]) = Spec.ewSum f (xs ++ [x]) / (f * weightSum (1 - f) (xs.length + 1)) := by
    rw [weightSum_eq, Spec.ewMean, List.length_append, List.length_singleton]
  rw [h2, Spec.ewSum_snoc, e1]
  generalize Spec.ewMean f xs = m
  rw [e2] at hS ⊢
  generalize weightSum (1 - f) xs.length = S at *
  have : 1 + (1 - f) * S ≠ 0 := by linarith
  field_simp
  ring

/-- The change of the decaying mean with the factor. -/
theorem ewMean_factor {f f' : ℝ} (h0 : 0 < f) (h1 : f ≤ 1) (h0' : 0 < f') (h1' : f' ≤ 1) {lo hi : ℝ} {xs : List ℝ}
    (hx : ∀ x ∈ xs, lo ≤ x ∧ x ≤ hi) : f * |Spec.ewMean f' xs - Spec.ewMean f xs| ≤ |f' - f| * max 0 (hi - lo) := by
  induction xs using List.reverseRecOn with
  | nil => simp [Spec.ewMean]; positivity
  | append_singleton xs x ih =>
    have ih := ih fun y hy => hx y (by simp [hy])
    have hq : 0 ≤ 1 - f := by linarith
    have hq' : 0 ≤ 1 - f' := by linarith
    rw [ewMean_snoc h0 h1, ewMean_snoc h0' h1']
    set S := weightSum (1 - f) (xs.length + 1) with hS
    set S' := weightSum (1 - f') (xs.length + 1) with hS'
    have hS1 : 1 ≤ S := one_le_weightSum hq xs.length
    have hS1' : 1 ≤ S' := one_le_weightSum hq' xs.length
    have hfS : f * S ≤ 1 := by
      rw [hS, weightSum_eq]
      linarith [pow_nonneg hq (xs.length + 1)]
    have hd := weightSum_sub hq hq' (xs.length + 1)
    rw [← hS, ← hS', show 1 - f' - (1 - f) = -(f' - f) by ring, abs_neg] at hd
    rcases eq_or_ne xs [] with rfl | hne
    · have e1 : S = 1 := by rw [hS]; simp [weightSum]
      have e2 : S' = 1 := by rw [hS']; simp [weightSum]
      rw [e1, e2]
      simp [Spec.ewMean]
      positivity
    · have hm : |x - Spec.ewMean f' xs| ≤ max 0 (hi - lo) := by
        have i1 := hx x (by simp)
        have i2 := Spec.ewMean_le h0' h1' hne fun y hy => (hx y (by simp [hy])).2
        have i3 := Spec.le_ewMean h0' h1' hne fun y hy => (hx y (by simp [hy])).1
        refine le_max_of_le_right (abs_le.2 ⟨by linarith, by linarith⟩)
      generalize Spec.ewMean f' xs = m' at *
      generalize Spec.ewMean f xs = m at *
      generalize max 0 (hi - lo) = R at *
      have e : m' + (x - m') / S' - (m + (x - m) / S) = (1 - 1 / S) * (m' - m) + (S - S') / (S * S') * (x - m') := by
        field_simp; ring
      have hα : 1 / S ≤ 1 := by rw [div_le_one (by linarith)]; exact hS1
      have hfα : f ≤ 1 / S := by rw [le_div_iff₀ (by linarith)]; exact hfS
      have hdd : |(S - S') / (S * S')| ≤ |f' - f| := by
        rw [abs_div, abs_of_pos (show 0 < S * S' by positivity), div_le_iff₀ (by positivity)]
        exact hd
      have h2 := abs_add_le ((1 - 1 / S) * (m' - m)) ((S - S') / (S * S') * (x - m'))
      rw [abs_mul, abs_mul, abs_of_nonneg (show 0 ≤ 1 - 1 / S by linarith)] at h2
      have h3 := mul_le_mul hdd hm (abs_nonneg _) (abs_nonneg _)
      rw [e]
      have h4 : f * |(1 - 1 / S) * (m' - m) + (S - S') / (S * S') * (x - m')| ≤ (1 - 1 / S) * (f * |m' - m|) + f * (|f' - f| * R) := by
        have := mul_le_mul_of_nonneg_left (h2.trans (add_le_add_right h3 _)) h0.le
        linarith
      have h5 : (1 - 1 / S) * (f * |m' - m|) ≤ (1 - 1 / S) * (|f' - f| * R) := mul_le_mul_of_nonneg_left ih (by linarith)
      have h6 : f * (|f' - f| * R) ≤ 1 / S * (|f' - f| * R) :=
        mul_le_mul_of_nonneg_right hfα (mul_nonneg (abs_nonneg _) ((abs_nonneg _).trans hm))
      linarith

/-- The relative change of a factor. -/
noncomputable def Spec_factorChange (f f' : ℝ) : ℝ := |f' - f| / max f f'

theorem ewMean_factor_max {f f' : ℝ} (h0 : 0 < f) (h1 : f ≤ 1) (h0' : 0 < f') (h1' : f' ≤ 1) {lo hi : ℝ} (hR : lo ≤ hi) {xs : List ℝ}
    (hx : ∀ x ∈ xs, lo ≤ x ∧ x ≤ hi) : |Spec.ewMean f' xs - Spec.ewMean f xs| ≤ Spec_factorChange f f' * (hi - lo) := by
  have a := ewMean_factor h0 h1 h0' h1' hx
  have b := ewMean_factor h0' h1' h0 h1 hx
  rw [abs_sub_comm (Spec.ewMean f xs), abs_sub_comm f] at b
  rw [max_eq_right (by linarith)] at a b
  rw [Spec_factorChange, div_mul_eq_mul_div, le_div_iff₀ (lt_max_of_lt_left h0)]
  rcases max_choice f f' with e | e <;> rw [e] <;> linarith

/-- C186: the decaying mean of data in an interval. -/
theorem C186_mean {f f' : ℝ} (h0 : 0 < f) (h1 : f ≤ 1) (h0' : 0 < f') (h1' : f' ≤ 1) {lo hi : ℝ} (hR : lo ≤ hi) (ops : List (Op ℝ))
    (hx : ∀ x ∈ sinceClear ops, lo ≤ x ∧ x ≤ hi) :
    ∃ m m' : ℝ, (Mean.run (X.fin f) (finOps ops) : Mean (E ε)).mean = X.fin m ∧ (Mean.run (X.fin f') (finOps ops) : Mean (E ε)).mean = X.fin m'
      ∧ |m' - m| ≤ Spec_factorChange f f' * (hi - lo) :=
  ⟨_, _, C25_decay_mean h0 h1 ops, C25_decay_mean h0' h1' ops, ewMean_factor_max h0 h1 h0' h1' hR hx⟩

theorem ewDevs_bound {f : ℝ} (h0 : 0 < f) (h1 : f ≤ 1) {lo hi : ℝ} {xs : List ℝ} (hx : ∀ x ∈ xs, lo ≤ x ∧ x ≤ hi) {k : ℕ} (hk : k < xs.length) :
    |xs.getD k 0 - Spec.ewMean f (xs.take (k + 1))| ≤ hi - lo := by
  have hne : xs.take (k + 1) ≠ [] := by
    intro h
    have := congrArg List.length h
    rw [List.length_take, List.length_nil] at this
    omega
  have i1 := hx (xs.getD k 0) (by rw [List.getD_eq_getElem _ _ hk]; exact List.getElem_mem hk)
  have i2 := Spec.ewMean_le h0 h1 hne fun y hy => (hx y (List.mem_of_mem_take hy)).2
  have i3 := Spec.le_ewMean h0 h1 hne fun y hy => (hx y (List.mem_of_mem_take hy)).1
  exact abs_le.2 ⟨by linarith, by linarith⟩

theorem decayVariance_factor {f f' g g' : ℝ} (hf : 0 < f ∧ f ≤ 1) (hf' : 0 < f' ∧ f' ≤ 1) (hg : 0 < g ∧ g ≤ 1) (hg' : 0 < g' ∧ g' ≤ 1) {lo hi : ℝ} (hR : lo ≤ hi) {xs : List ℝ}
    (hx : ∀ x ∈ xs, lo ≤ x ∧ x ≤ hi) :
    |Spec_decayVariance f' g' xs - Spec_decayVariance f g xs| ≤ (2 * Spec_factorChange f f' + Spec_factorChange g g') * (hi - lo) ^ 2 := by
  have h1 : |Spec_decayVariance f' g' xs - Spec_decayVariance f' g xs| ≤ Spec_factorChange g g' * (hi - lo) ^ 2 := by
    have := ewMean_factor_max hg.1 hg.2 hg'.1 hg'.2 (lo := 0) (hi := (hi - lo) ^ 2) (by positivity) (xs := (Spec.ewDevs f' xs).map (· ^ 2)) (by
      intro y hy
      simp only [Spec.ewDevs, List.map_map, List.mem_map, List.mem_range] at hy
      obtain ⟨k, hk, rfl⟩ := hy
      refine ⟨by simp only [Function.comp]; positivity, ?_⟩
      have := ewDevs_bound hf'.1 hf'.2 hx hk
      exact sq_le_sq' (abs_le.1 this).1 (abs_le.1 this).2)
    rwa [sub_zero] at this
  have h2 : |Spec_decayVariance f' g xs - Spec_decayVariance f g xs| ≤ 2 * Spec_factorChange f f' * (hi - lo) ^ 2 := by
    set d : ℝ → ℕ → ℝ := fun f k => xs.getD k 0 - Spec.ewMean f (xs.take (k + 1)) with hd
    have e := linear_ewMean g 1 (-1) ((List.range xs.length).map fun k => (d f' k ^ 2, d f k ^ 2))
    have e' : Spec_decayVariance f' g xs - Spec_decayVariance f g xs
        = Spec.ewMean g ((List.range xs.length).map fun k => 1 * d f' k ^ 2 + (-1) * d f k ^ 2) := by
      simp only [List.map_map, Function.comp_def] at e
      simp only [Spec_decayVariance, Spec.ewDevs, List.map_map, Function.comp_def]
      rw [e]
      ring
    have hc0 : 0 ≤ Spec_factorChange f f' := div_nonneg (abs_nonneg _) (hf.1.le.trans (le_max_left _ _))
    rw [e']
    refine abs_ewMean_le hg.1 hg.2 (by positivity) fun y hy => ?_
    obtain ⟨k, hk, rfl⟩ := List.mem_map.1 hy
    rw [List.mem_range] at hk
    have i1 := ewDevs_bound hf.1 hf.2 hx hk
    have i2 := ewDevs_bound hf'.1 hf'.2 hx hk
    have i3 := ewMean_factor_max hf.1 hf.2 hf'.1 hf'.2 hR (xs := xs.take (k + 1)) fun x h => hx x (List.mem_of_mem_take h)
    have i4 := abs_add_le (d f' k) (d f k)
    rw [show 1 * d f' k ^ 2 + -1 * d f k ^ 2 = -(Spec.ewMean f' (xs.take (k + 1)) - Spec.ewMean f (xs.take (k + 1))) * (d f' k + d f k) by simp only [hd]; ring, abs_mul,
      abs_neg]
    have i5 := mul_le_mul i3 (i4.trans (add_le_add i2 i1)) (abs_nonneg _) (mul_nonneg hc0 (by linarith))
    refine i5.trans (le_of_eq ?_)
    ring
  have h3 := abs_sub_le (Spec_decayVariance f' g' xs) (Spec_decayVariance f' g xs) (Spec_decayVariance f g xs)
  linarith

/-- C186: the decaying variance of data in an interval. -/
theorem C186_variance {f f' g g' : ℝ} (hf : 0 < f ∧ f ≤ 1) (hf' : 0 < f' ∧ f' ≤ 1) (hg : 0 < g ∧ g ≤ 1) (hg' : 0 < g' ∧ g' ≤ 1) {lo hi : ℝ} (hR : lo ≤ hi)
    (ops : List (Op ℝ)) (hops : pushCount ops = (sinceClear ops).length) (hx : ∀ x ∈ sinceClear ops, lo ≤ x ∧ x ≤ hi) :
    ∃ v v' : ℝ, (Variance.run (X.fin f) (X.fin g) (finOps ops) : Variance (E ε)).variance = X.fin v
      ∧ (Variance.run (X.fin f') (X.fin g') (finOps ops) : Variance (E ε)).variance = X.fin v'
      ∧ |v' - v| ≤ (2 * Spec_factorChange f f' + Spec_factorChange g g') * (hi - lo) ^ 2 := by
  have gen : ∀ f g : ℝ, 0 < f ∧ f ≤ 1 → 0 < g ∧ g ≤ 1 →
      (Variance.run (X.fin f) (X.fin g) (finOps ops) : Variance (E ε)).variance = X.fin (Spec_decayVariance f g (sinceClear ops)) := by
    intro f g hf hg
    rw [Variance.run_fin hf.1 hf.2, Variance.variance_of hg.1 hg.2 (length_sinceClear_le _), hops, Spec_decayVariance, Spec.ewMean, List.length_map, Spec.length_ewDevs]
  exact ⟨_, _, gen f g hf hg, gen f' g' hf' hg', decayVariance_factor hf hf' hg hg' hR hx⟩

/-- C186: the computed mean with a factor `f'` that is near the factor `f` that was meant. -/
theorem C186_rounded (hF : F.Binary p emin) (hE : F.Err u η) {f f' B K : ℝ} (h0 : 0 < f) (h1 : f ≤ 1) (hf0 : 0 < f') (hf1 : f' ≤ 1)
    (hfr : IsRep p emin f') (hB0 : 0 ≤ B) (hK : IsRep p emin K) (hKf : F.fits K) (hBK : 8 * B ≤ K)
    (hBK' : B + (sumErr u η f' B + B * sumErr u η f' 1) / f' ≤ K) (hc : sumErr u η f' B ≤ B)
    (ops : List (Op ℝ)) (hB : ∀ x ∈ sinceClear ops, |x| ≤ B) :
    ∃ m : ℝ, (Mean.run (X.fin f') (finOps ops) : Mean (X F)).mean = X.fin m
      ∧ |m - Spec.ewMean f (sinceClear ops)|
        ≤ (1 + u) * ((sumErr u η f' B + B * sumErr u η f' 1) / f') + u * B + η + Spec_factorChange f f' * (2 * B) := by
  obtain ⟨m, hm, he⟩ := C64_decay_mean_error hF hE hf0 hf1 hfr hB0 hK hKf hBK hBK' hc ops hB
  have h2 := ewMean_factor_max h0 h1 hf0 hf1 (lo := -B) (hi := B) (by linarith) (xs := sinceClear ops) fun x hx => abs_le.1 (hB x hx)
  refine ⟨m, hm, ?_⟩
  have := abs_sub_le m (Spec.ewMean f' (sinceClear ops)) (Spec.ewMean f (sinceClear ops))
  rw [show B - -B = 2 * B by ring] at h2
  linarith

/-! ### Non-vacuity -/

/-- The change is needed up to a constant: after `0, 1` the means with the factors `1` and `1/2` are `1` and `2/3`. -/
example : Spec.ewMean 1 [0, 1] - Spec.ewMean (1 / 2) [0, 1] = 1 / 3 ∧ Spec_factorChange (1 / 2) 1 * (1 - 0) = 1 / 2 := by
  constructor
  · rw [show ([0, 1] : List ℝ) = [0] ++ [1] from rfl, ewMean_snoc (by norm_num) le_rfl, ewMean_snoc (by norm_num) (by norm_num)]
    norm_num [weightSum, Spec.ewMean, Spec.ewSum]
  · norm_num [Spec_factorChange]

/-- The factor `0.1` rounded to binary64: data in `[0, 100]` have a mean within `2^-46` of the mean with the factor that was meant. -/
example {f : ℝ} (hf : |f - 1 / 10| ≤ 2 ^ (-57 : Int)) (ops : List (Op ℝ)) (hx : ∀ x ∈ sinceClear ops, 0 ≤ x ∧ x ≤ 100) :
    ∃ m m' : ℝ, (Mean.run (X.fin (1 / 10)) (finOps ops) : Mean (E ε)).mean = X.fin m ∧ (Mean.run (X.fin f) (finOps ops) : Mean (E ε)).mean = X.fin m'
      ∧ |m' - m| ≤ 2 ^ (-46 : Int) := by
  have h := abs_le.1 hf
  norm_num at h
  obtain ⟨m, m', h1, h2, h3⟩ := C186_mean (ε := ε) (f := 1 / 10) (f' := f) (by norm_num) (by norm_num) (by linarith [h.1]) (by linarith [h.2]) (lo := 0) (hi := 100)
    (by norm_num) ops hx
  refine ⟨m, m', h1, h2, h3.trans ?_⟩
  have : Spec_factorChange (1 / 10) f ≤ 2 ^ (-57 : Int) / (1 / 10) :=
    div_le_div₀ (by positivity) hf (by norm_num) (le_max_left _ _)
  norm_num at this ⊢
  linarith

/-- The double `0.1` as the factor and every operation rounded, compared with the exact decaying mean with the factor `1/10`. -/
example (ops : List (Op ℝ)) (hB : ∀ x ∈ sinceClear ops, |x| ≤ 8) :
    ∃ m : ℝ, (Mean.run (X.fin (3602879701896397 / 2 ^ 55)) (finOps ops) : Mean (X binary64)).mean = X.fin m
      ∧ |m - Spec.ewMean (1 / 10) (sinceClear ops)| ≤ 2 ^ (-38 : Int) := by
  have h128 := binary64_int (n := 128) (by norm_num)
  push_cast at h128
  have hf := double 3602879701896397 (-55) (by norm_num) (by norm_num) (by norm_num)
  have hff : ((3602879701896397 : Int) : ℝ) * 2 ^ (-55 : Int) = 3602879701896397 / 2 ^ 55 := by norm_num
  rw [hff] at hf
  have hc : Spec_factorChange (1 / 10) (3602879701896397 / 2 ^ 55) ≤ 1 / 2 ^ 53 := by
    rw [Spec_factorChange, max_eq_right (by norm_num), abs_of_pos (by norm_num)]
    norm_num
  have hu : (2 : ℝ) ^ (-53 : Int) ≤ 1 / 2 ^ 53 := by norm_num
  have hη : (2 : ℝ) ^ (-1075 : Int) ≤ 2 ^ (-53 : Int) := zpow_le_zpow_right₀ (by norm_num) (by norm_num)
  have hu0 : (0 : ℝ) ≤ 2 ^ (-53 : Int) := by positivity
  have hη0 : (0 : ℝ) ≤ 2 ^ (-1075 : Int) := by positivity
  have h38 : (2 : ℝ) ^ (-38 : Int) = 32768 * (1 / 2 ^ 53) := by norm_num
  have hE := binary64_err
  rw [h38]
  generalize (2 : ℝ) ^ (-53 : Int) = u at *
  generalize (2 : ℝ) ^ (-1075 : Int) = η at *
  obtain ⟨f, hfd⟩ : ∃ f : ℝ, f = 3602879701896397 / 2 ^ 55 := ⟨_, rfl⟩
  rw [← hfd] at hf hc ⊢
  have hf1 : 1 / 10 ≤ f := by rw [hfd]; norm_num
  have hf2 : f ≤ 1 := by rw [hfd]; norm_num
  have hf0 : 0 < f := by linarith
  have div10 : ∀ y : ℝ, 0 ≤ y → y / f ≤ 10 * y := fun y hy => by
    rw [div_le_iff₀ hf0]; nlinarith
  have e8 : sumErr u η f 8 ≤ 280 * u := by unfold sumErr; linarith [div10 (2 * (u * 8) + 3 * η) (by positivity)]
  have e1 : sumErr u η f 1 ≤ 70 * u := by unfold sumErr; linarith [div10 (2 * (u * 1) + 3 * η) (by positivity)]
  have p8 := sumErr_nonneg hE (B := 8) (f := f) (by norm_num) hf0
  have p1 := sumErr_nonneg hE (B := 1) (f := f) (by norm_num) hf0
  have e3 := div10 (sumErr u η f 8 + 8 * sumErr u η f 1) (by positivity)
  obtain ⟨m, h1, h2⟩ := C186_rounded binary64_binary hE (f := 1 / 10) (B := 8) (K := 128) (by norm_num) (by norm_num) hf0 hf2
    hf.1 (by norm_num) h128.1 h128.2 (by norm_num) (by norm_num at hu ⊢; linarith) (by norm_num at hu; linarith) ops hB
  refine ⟨m, h1, h2.trans ?_⟩
  have h3 : (1 + u) * ((sumErr u η f 8 + 8 * sumErr u η f 1) / f) ≤ (1 + 1) * (8400 * u) := by
    refine mul_le_mul (by norm_num at hu; linarith) (by linarith) (by positivity) (by norm_num)
  linarith

/-- The variance with the factors `0.1` and `0.05`, each changed by up to 1%, of data in `[0, 10]` changes by at most 3. -/
example {f g : ℝ} (hf : |f - 1 / 10| ≤ 1 / 1000) (hg : |g - 1 / 20| ≤ 1 / 2000) (xs : List ℝ) (hx : ∀ x ∈ xs, 0 ≤ x ∧ x ≤ 10) :
    ∃ v v' : ℝ, (Variance.run (X.fin (1 / 10)) (X.fin (1 / 20)) (finOps (xs.map .push)) : Variance (E ε)).variance = X.fin v
      ∧ (Variance.run (X.fin f) (X.fin g) (finOps (xs.map .push)) : Variance (E ε)).variance = X.fin v' ∧ |v' - v| ≤ 3 := by
  have h := abs_le.1 hf
  have h' := abs_le.1 hg
  have e : sinceClear (xs.map Op.push) = xs := sinceClear_pushes xs
  obtain ⟨v, v', h1, h2, h3⟩ := C186_variance (ε := ε) (f := 1 / 10) (f' := f) (g := 1 / 20) (g' := g) (by norm_num) ⟨by linarith, by linarith⟩ (by norm_num)
    ⟨by linarith, by linarith⟩ (lo := 0) (hi := 10) (by norm_num) (xs.map .push) (by rw [e]; exact pushCount_pushes xs) (by rw [e]; exact hx)
  refine ⟨v, v', h1, h2, h3.trans ?_⟩
  have k1 : Spec_factorChange (1 / 10) f ≤ (1 / 1000) / (1 / 10) := div_le_div₀ (by norm_num) hf (by norm_num) (le_max_left _ _)
  have k2 : Spec_factorChange (1 / 20) g ≤ (1 / 2000) / (1 / 20) := div_le_div₀ (by norm_num) hg (by norm_num) (le_max_left _ _)
  norm_num at k1 k2 ⊢
  linarith

end Verif.Props
