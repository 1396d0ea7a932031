import Verif.Props.Influence
import Verif.Props.Impulse
/-
C160: response of the filters to a linear series (delay) and to a step (settling).
-/
namespace Verif.Props
open Exact

variable {ε : ℝ} {w N W : ℕ}

/-- The linear series `a, a + d, ..., a + (n - 1) d`. -/
noncomputable def ramp (a d : ℝ) (n : ℕ) : List ℝ := (List.range n).map fun k : ℕ => a + k * d

@[simp] theorem ramp_length (a d : ℝ) (n : ℕ) : (ramp a d n).length = n := by simp [ramp]

theorem ramp_drop (a d : ℝ) (n j : ℕ) : (ramp a d n).drop j = ramp (a + j * d) d (n - j) := by
  apply List.ext_getElem
  · simp
  · intro i h1 h2
    simp [ramp]
    ring

theorem ramp_take (a d : ℝ) (n j : ℕ) (h : j ≤ n) : (ramp a d n).take j = ramp a d j := by
  apply List.ext_getElem
  · simp [h]
  · intro i h1 h2
    simp [ramp]

theorem ramp_succ (a d : ℝ) (n : ℕ) : ramp a d (n + 1) = ramp a d n ++ [a + n * d] := by
  rw [ramp, List.range_succ, List.map_append]; rfl

theorem ramp_mean (a d : ℝ) {n : ℕ} (hn : 1 ≤ n) : Spec.mean (ramp a d n) = a + (n - 1) / 2 * d := Spec.mean_progression a d hn

theorem ramp_variance (a d : ℝ) {n : ℕ} (hn : 1 ≤ n) : Spec.variance (ramp a d n) = d ^ 2 * (n ^ 2 - 1) / 12 := by
  have hn0 : (n : ℝ) ≠ 0 := by positivity
  have h : ∀ (c : ℝ) (k : ℕ), Spec.about 2 c (ramp a d k) = k * (a - c) ^ 2 + k * (k - 1) * (a - c) * d + (k - 1) * k * (2 * k - 1) / 6 * d ^ 2 := by
    intro c k
    induction k with
    | zero => simp [ramp, Spec.about]
    | succ k ih =>
      rw [ramp_succ, Spec.about, List.map_append, List.sum_append, ← Spec.about, ih]
      push_cast
      simp
      ring
  rw [Spec.variance, Spec.central_eq_about, h, ramp_mean a d hn, ramp_length]
  field_simp
  ring

/-- The weights of the past values. -/
theorem ramp_ewSum (f a d : ℝ) (n : ℕ) :
    f * Spec.ewSum f (ramp a d n) = f * (1 - (1 - f) ^ n) * (a + (n - 1) * d) - d * ((1 - f) * (1 - (1 - f) ^ n) - f * (n * (1 - f) ^ n)) := by
  induction n with
  | zero => simp [ramp, Spec.ewSum]
  | succ n ih =>
    rw [ramp_succ, Spec.ewSum_snoc, mul_add, ← mul_assoc, mul_comm f (1 - f), mul_assoc, ih]
    push_cast
    ring

/-! ### Linear series -/

section Ramp
variable {a d : ℝ} {n : ℕ} {ops : List (Op ℝ)}

/-- C160: cumulative filter; the mean is `(n - 1) / 2` steps behind the last value. -/
theorem C160_ramp_cumulative (hn : 1 ≤ n) (hw : n < 2 ^ w) (ho : sinceClear ops = ramp a d n) :
    (Cumulative.Mean.run (finOps ops) : Cumulative.Mean w (E ε)).getMean = X.fin (a + (n - 1) * d - (n - 1) / 2 * d)
    ∧ (Cumulative.Variance.run (finOps ops) : Cumulative.Variance w (E ε)).variance = X.fin (d ^ 2 * (n ^ 2 - 1) / 12) := by
  have hl : (sinceClear ops).length = n := by rw [ho, ramp_length]
  rw [(C01_mean ops (by rw [hl]; exact hw)).1, ((C02_variance ops (by rw [hl]; exact hw)).1 (by rw [hl]; exact hn)).1, ho, ramp_mean a d hn,
    ramp_variance a d hn]
  refine ⟨?_, rfl⟩
  congr 1; ring

theorem lastN_ramp (M : ℕ) : Spec.lastN M (ramp a d n) = ramp (a + (n - min M n : ℕ) * d) d (min M n) := by
  rw [Spec.lastN, ramp_drop, ramp_length, show n - (n - M) = min M n by omega, show n - M = n - min M n by omega]

/-- C160: window filter; the mean is `(N - 1) / 2` steps behind once the window is full. -/
theorem C160_ramp_window (hN : 1 ≤ N) (hn : 1 ≤ n) (ho : sinceClear ops = ramp a d n) :
    ∃ s : Window.Variance N (E ε), Window.Variance.run (finOps ops) = some s
      ∧ s.getMean = X.fin (a + (n - 1) * d - ((min N n : ℕ) - 1) / 2 * d)
      ∧ s.variance = X.fin (d ^ 2 * ((min N n : ℕ) ^ 2 - 1) / 12) := by
  obtain ⟨v, hv, h1, -⟩ := C19_window_variance (ε := ε) hN ops
  obtain ⟨v', t, hv', ht, hm, -⟩ := C18_window_mean_inherited hN (finOps ops : List (Op (E ε)))
  obtain ⟨t', ht', hm'⟩ := C18_window_mean (ε := ε) hN ops
  cases hv.symm.trans hv'
  cases ht.symm.trans ht'
  have hk : 1 ≤ min N n := by omega
  have hc : ((n - min N n : ℕ) : ℝ) = n - (min N n : ℕ) := Nat.cast_sub (by omega)
  refine ⟨v, hv, ?_, ?_⟩
  · rw [hm, hm', ho, lastN_ramp, ramp_mean _ _ hk, hc]
    congr 1; ring
  · rw [h1 (by rw [ho, lastN_ramp, ramp_length]; exact hk), ho, lastN_ramp, ramp_variance _ _ hk]

/-- C160: decaying mean; the delay tends to `(1 - f) / f` steps. -/
theorem C160_ramp_decay {f : ℝ} (h0 : 0 < f) (h1 : f ≤ 1) (hn : 1 ≤ n) (ho : sinceClear ops = ramp a d n) :
    (Decay.Mean.run (X.fin f) (finOps ops) : Decay.Mean (E ε)).mean
      = X.fin (a + (n - 1) * d - ((1 - f) / f - n * (1 - f) ^ n / (1 - (1 - f) ^ n)) * d) := by
  have hp := (Spec.norm_pos h0 h1 (n := n) (by omega)).ne'
  rw [C25_decay_mean h0 h1, ho, Spec.ewMean, ramp_length]
  congr 1
  have := ramp_ewSum f a d n
  rw [div_eq_iff hp]
  refine mul_left_cancel₀ h0.ne' (this.trans ?_)
  field_simp

/-- C160: interim mean; the delay is that of the window filter of the same size. -/
theorem C160_ramp_interim (hW : 1 ≤ W) (hw : 2 * W < 2 ^ w) (hn : 1 ≤ n) (ho : sinceClear ops = ramp a d n) :
    Interim.IMean.mean (Interim.Interim.run (finOps ops) : Interim.IMean w W (E ε))
      = X.fin (a + (n - 1) * d - ((min W n : ℕ) - 1) / 2 * d) := by
  rw [(C29_interim_mean hW hw ops).1, ho, Spec_interimMean, ramp_length]
  by_cases h : n ≤ W
  · rw [if_pos h, ramp_mean a d hn, Nat.min_eq_right h]
    congr 1; ring
  · rw [if_neg h, Nat.min_eq_left (by omega)]
    have hq : 1 ≤ (n - 1) / W := (Nat.one_le_div_iff (by omega)).2 (by omega)
    have hB : (n - 1) / W * W ≤ n - 1 := Nat.div_mul_le_self _ _
    have hBW : W ≤ (n - 1) / W * W := Nat.le_mul_of_pos_left _ hq
    have hBs : ((n - 1) / W - 1) * W = (n - 1) / W * W - W := by rw [Nat.sub_mul, one_mul]
    have e1 : Spec.curBlock W (ramp a d n) = ramp (a + ((n - 1) / W * W : ℕ) * d) d (n - (n - 1) / W * W) := by
      rw [Spec.curBlock, ramp_length, ramp_drop]
    have e2 : Spec.prevBlock W (ramp a d n) = ramp (a + ((n - 1) / W * W - W : ℕ) * d) d W := by
      rw [Spec.prevBlock, ramp_length, if_neg (by omega), ramp_drop, hBs, ramp_take _ _ _ _ (by omega)]
    rw [e1, e2, ramp_mean _ _ hW, ramp_mean _ _ (by omega), ramp_length, Spec.blend]
    generalize (n - 1) / W * W = B at hB hBW
    have c1 : ((n - B : ℕ) : ℝ) = n - B := Nat.cast_sub (by omega)
    have c2 : ((B - W : ℕ) : ℝ) = B - W := Nat.cast_sub hBW
    have hpos : (W : ℝ) - (n - B) + 2 * (n - B) ≠ 0 := by
      have h1 : (B : ℝ) + 1 ≤ n := by exact_mod_cast (by omega : B + 1 ≤ n)
      have h2 : (1 : ℝ) ≤ W := by exact_mod_cast hW
      linarith
    rw [c1, c2]
    congr 1
    rw [div_eq_iff hpos]
    ring

theorem fir_ramp (cs : List ℝ) (a d : ℝ) (n : ℕ) (h : cs.length ≤ n) :
    Spec.fir cs (ramp a d n) = (a + (n - 1) * d) * cs.sum - d * ((List.range cs.length).map fun i : ℕ => i * cs.getD i 0).sum := by
  have e : Spec.fir cs (ramp a d n)
      = ((List.range cs.length).map fun i : ℕ => (a + (n - 1) * d) * cs.getD i 0 - d * (i * cs.getD i 0)).sum := by
    rw [Spec.fir]
    congr 1
    apply List.map_congr_left
    intro i hi
    have hi' : i < cs.length := List.mem_range.1 hi
    have h1 : (ramp a d n).reverse.getD i 0 = a + (n - 1 - i) * d := by
      rw [List.getD_eq_getElem _ _ (by simp; omega), List.getElem_reverse]
      simp only [ramp, List.getElem_map, List.getElem_range, List.length_map, List.length_range]
      rw [Nat.cast_sub (by omega), Nat.cast_sub (by omega)]
      simp
    rw [h1]; ring
  have hs : cs.sum = ((List.range cs.length).map fun i : ℕ => cs.getD i 0).sum := by
    congr 1
    apply List.ext_getElem
    · simp
    · intro i h1 h2; simp [h1]
  rw [e, hs, ← List.sum_map_mul_left, ← List.sum_map_mul_left]
  generalize List.range cs.length = l
  induction l with
  | nil => simp
  | cons i l ih => simp only [List.map_cons, List.sum_cons, ih]; ring

/-- C160: FIR filter; with coefficients of sum 1 the delay is the mean index of the coefficients. -/
theorem C160_ramp_fir {cs : List ℝ} (hc : cs ≠ []) (hn : cs.length ≤ n) :
    ∃ s : Impulse.Finite (E ε), Impulse.Finite.run (cs.map X.fin) (finOps ((ramp a d n).map .push)) = some s
      ∧ s.value = X.fin ((a + (n - 1) * d) * cs.sum - d * ((List.range cs.length).map fun i : ℕ => i * cs.getD i 0).sum) := by
  have hl := List.length_pos_iff.2 hc
  have hne : ramp a d n ≠ [] := by
    intro e
    have := ramp_length a d n
    rw [e] at this; simp at this; omega
  obtain ⟨s, hs, hv⟩ := fir_pushes (ε := ε) hc hne
  exact ⟨s, hs, by rw [hv, fir_ramp cs a d n hn]⟩

end Ramp

/-! ### Step -/

/-- `n` times `a`, then `k` times `b`. -/
def step (a b : ℝ) (n k : ℕ) : List ℝ := List.replicate n a ++ List.replicate k b

@[simp] theorem step_length (a b : ℝ) (n k : ℕ) : (step a b n k).length = n + k := by simp [step]

theorem step_drop (a b : ℝ) (n k j : ℕ) : (step a b n k).drop j = step a b (n - j) (k - (j - n)) := by
  simp [step, List.drop_append]

theorem step_take (a b : ℝ) (n k j : ℕ) : (step a b n k).take j = step a b (min j n) (min (j - n) k) := by
  simp [step, List.take_append]

theorem step_mean (a b : ℝ) {n k : ℕ} (h : 1 ≤ n + k) : Spec.mean (step a b n k) = a + (b - a) * (k / (n + k : ℕ)) := by
  have h0 : ((n + k : ℕ) : ℝ) ≠ 0 := by positivity
  rw [Spec.mean, step_length, step, List.sum_append, List.sum_replicate, List.sum_replicate, nsmul_eq_mul, nsmul_eq_mul]
  push_cast at h0 ⊢
  field_simp
  ring

theorem step_variance (a b : ℝ) {n k : ℕ} (h : 1 ≤ n + k) :
    Spec.variance (step a b n k) = (n : ℝ) * k / (n + k : ℕ) ^ 2 * (b - a) ^ 2 := by
  have h0 : ((n + k : ℕ) : ℝ) ≠ 0 := by positivity
  rw [Spec.variance, Spec.central_eq_about, step_mean a b h, step_length, Spec.about, step, List.map_append, List.map_replicate,
    List.map_replicate, List.sum_append, List.sum_replicate, List.sum_replicate, nsmul_eq_mul, nsmul_eq_mul]
  push_cast at h0 ⊢
  field_simp
  ring

theorem lastN_step (a b : ℝ) (n k M : ℕ) : Spec.lastN M (step a b n k) = step a b (min n (M - k)) (min k M) := by
  rw [Spec.lastN, step_drop, step_length]
  congr 1 <;> omega

section Step
variable {a b : ℝ} {n k : ℕ} {ops : List (Op ℝ)}

/-- C160: cumulative filter. -/
theorem C160_step_cumulative (hn : 1 ≤ n + k) (hw : n + k < 2 ^ w) (ho : sinceClear ops = step a b n k) :
    (Cumulative.Mean.run (finOps ops) : Cumulative.Mean w (E ε)).getMean = X.fin (a + (b - a) * (k / (n + k : ℕ)))
    ∧ (Cumulative.Variance.run (finOps ops) : Cumulative.Variance w (E ε)).variance
      = X.fin ((n : ℝ) * k / (n + k : ℕ) ^ 2 * (b - a) ^ 2) := by
  have hl : (sinceClear ops).length = n + k := by rw [ho, step_length]
  rw [(C01_mean ops (by rw [hl]; exact hw)).1, ((C02_variance ops (by rw [hl]; exact hw)).1 (by rw [hl]; exact hn)).1, ho, step_mean a b hn,
    step_variance a b hn]
  exact ⟨rfl, rfl⟩

/-- C160: window filter; once `n + k ≥ N` the mean is `a + (b - a) k / N`, and `b` after `N` values. -/
theorem C160_step_window (hN : 1 ≤ N) (hn : 1 ≤ n + k) (ho : sinceClear ops = step a b n k) :
    ∃ s : Window.Variance N (E ε), Window.Variance.run (finOps ops) = some s
      ∧ s.getMean = X.fin (a + (b - a) * ((min k N : ℕ) / (min N (n + k) : ℕ)))
      ∧ s.variance = X.fin ((min n (N - k) : ℕ) * (min k N : ℕ) / (min N (n + k) : ℕ) ^ 2 * (b - a) ^ 2) := by
  obtain ⟨v, hv, h1, -⟩ := C19_window_variance (ε := ε) hN ops
  obtain ⟨v', t, hv', ht, hm, -⟩ := C18_window_mean_inherited hN (finOps ops : List (Op (E ε)))
  obtain ⟨t', ht', hm'⟩ := C18_window_mean (ε := ε) hN ops
  cases hv.symm.trans hv'
  cases ht.symm.trans ht'
  have hk : min n (N - k) + min k N = min N (n + k) := by omega
  refine ⟨v, hv, ?_, ?_⟩
  · rw [hm, hm', ho, lastN_step, step_mean _ _ (by omega), hk]
  · rw [h1 (by rw [ho, lastN_step, step_length]; omega), ho, lastN_step, step_variance _ _ (by omega), hk]

theorem step_ewSum (f a b : ℝ) (n k : ℕ) :
    Spec.ewSum f (step a b n k) = a * ((1 - f) ^ k * (1 - (1 - f) ^ n)) + b * (1 - (1 - f) ^ k) := by
  induction k with
  | zero =>
    have : Spec.ewSum f (List.replicate n a) = a * (1 - (1 - f) ^ n) := by
      induction n with
      | zero => simp
      | succ n ih => rw [List.replicate_succ', Spec.ewSum_snoc, ih, pow_succ]; ring
    simp [step, this]
  | succ k ih =>
    rw [step, List.replicate_succ', ← List.append_assoc, Spec.ewSum_snoc, ← step, ih, pow_succ]
    ring

/-- C160: decaying mean. -/
theorem C160_step_decay {f : ℝ} (h0 : 0 < f) (h1 : f ≤ 1) (hn : 1 ≤ n + k) (ho : sinceClear ops = step a b n k) :
    (Decay.Mean.run (X.fin f) (finOps ops) : Decay.Mean (E ε)).mean
      = X.fin (a + (b - a) * ((1 - (1 - f) ^ k) / (1 - (1 - f) ^ (n + k)))) := by
  have hp := (Spec.norm_pos h0 h1 (n := n + k) (by omega)).ne'
  rw [C25_decay_mean h0 h1, ho, Spec.ewMean, step_length, step_ewSum]
  congr 1
  field_simp
  rw [pow_add]
  ring

/-- C160: interim mean; `s` values are in the current block, and the step is over after `2 W` values at the latest. -/
theorem C160_step_interim (hW : 1 ≤ W) (hw : 2 * W < 2 ^ w) (hn : W < n + k) (ho : sinceClear ops = step a b n k) :
    let s : ℕ := n + k - (n + k - 1) / W * W
    Interim.IMean.mean (Interim.Interim.run (finOps ops) : Interim.IMean w W (E ε))
      = X.fin (a + (b - a) * (((W - s) * ((min (k - s) W : ℕ) / W) + 2 * (min k s : ℕ)) / (W + s)))
    ∧ (2 * W ≤ k → Interim.IMean.mean (Interim.Interim.run (finOps ops) : Interim.IMean w W (E ε)) = X.fin b) := by
  intro s
  have hq : 1 ≤ (n + k - 1) / W := (Nat.one_le_div_iff (by omega)).2 (by omega)
  have hB : (n + k - 1) / W * W ≤ n + k - 1 := Nat.div_mul_le_self _ _
  have hB2 : n + k - 1 < (n + k - 1) / W * W + W := Nat.lt_div_mul_add (by omega)
  have hBW : W ≤ (n + k - 1) / W * W := Nat.le_mul_of_pos_left _ hq
  have hBs : ((n + k - 1) / W - 1) * W = (n + k - 1) / W * W - W := by rw [Nat.sub_mul, one_mul]
  have e1 : Spec.curBlock W (step a b n k) = step a b (s - min k s) (min k s) := by
    rw [Spec.curBlock, step_length, step_drop]
    congr 1 <;> omega
  have e2 : Spec.prevBlock W (step a b n k) = step a b (W - min (k - s) W) (min (k - s) W) := by
    rw [Spec.prevBlock, step_length, if_neg (by omega), step_drop, hBs, step_take]
    congr 1 <;> omega
  have hWr : (0 : ℝ) < W := by exact_mod_cast hW
  have hs1 : 1 ≤ s := by omega
  have hsr : (0 : ℝ) < s := by exact_mod_cast hs1
  have key : Interim.IMean.mean (Interim.Interim.run (finOps ops) : Interim.IMean w W (E ε))
      = X.fin (a + (b - a) * (((W - s) * ((min (k - s) W : ℕ) / W) + 2 * (min k s : ℕ)) / (W + s))) := by
    rw [(C29_interim_mean hW hw ops).1, ho, Spec_interimMean, step_length, if_neg (by omega), e1, e2, step_mean _ _ (by omega),
      step_mean _ _ (by omega), step_length, Spec.blend, show s - min k s + min k s = s by omega,
      show W - min (k - s) W + min (k - s) W = W by omega]
    congr 1
    have h1 : (W : ℝ) - s + 2 * s ≠ 0 := by linarith
    have h2 : (W : ℝ) + s ≠ 0 := by linarith
    rw [div_eq_iff h1, show (W : ℝ) - s + 2 * s = W + s by ring]
    field_simp
    ring
  refine ⟨key, fun hk => ?_⟩
  rw [key, show min (k - s) W = W by omega, show min k s = s by omega]
  congr 1
  have h2 : (W : ℝ) + s ≠ 0 := by linarith
  field_simp
  ring

end Step

/-! ### Cases -/

/-- Ten values 0, 1, ..., 9: the window mean of four values and the interim mean of `W = 4` are both 7.5. -/
example : (∃ s : Window.Variance 4 (E ε), Window.Variance.run (finOps ((ramp 0 1 10).map .push)) = some s ∧ s.getMean = X.fin (15 / 2)
      ∧ s.variance = X.fin (5 / 4))
    ∧ Interim.IMean.mean (Interim.Interim.run (finOps ((ramp 0 1 10).map .push)) : Interim.IMean 64 4 (E ε)) = X.fin (15 / 2) := by
  constructor
  · obtain ⟨s, h1, h2, h3⟩ := C160_ramp_window (ε := ε) (N := 4) (by norm_num) (by norm_num) (sinceClear_pushes (ramp 0 1 10))
    exact ⟨s, h1, by rw [h2]; norm_num, by rw [h3]; norm_num⟩
  · rw [C160_ramp_interim (W := 4) (by norm_num) (by norm_num) (by norm_num) (sinceClear_pushes (ramp 0 1 10))]
    norm_num

/-- Seven zeros and three ones: 3/10 on the whole, 3/4 in the window of four values; `f = 1/2`: `(7/8) / (1 - 2^-10) = 896/1023`;
interim, `W = 4`: the current block has two values, the weight is `(2/4 + 4)/6 = 3/4`. -/
example : (Cumulative.Mean.run (finOps ((step 0 1 7 3).map .push)) : Cumulative.Mean 64 (E ε)).getMean = X.fin (3 / 10)
    ∧ (∃ s : Window.Variance 4 (E ε), Window.Variance.run (finOps ((step 0 1 7 3).map .push)) = some s ∧ s.getMean = X.fin (3 / 4)
      ∧ s.variance = X.fin (3 / 16))
    ∧ (Decay.Mean.run (X.fin (1 / 2)) (finOps ((step 0 1 7 3).map .push)) : Decay.Mean (E ε)).mean = X.fin (896 / 1023)
    ∧ Interim.IMean.mean (Interim.Interim.run (finOps ((step 0 1 7 3).map .push)) : Interim.IMean 64 4 (E ε)) = X.fin (3 / 4) := by
  have hs := sinceClear_pushes (step 0 1 7 3)
  refine ⟨?_, ?_, ?_, ?_⟩
  · rw [(C160_step_cumulative (w := 64) (by norm_num) (by norm_num) hs).1]; norm_num
  · obtain ⟨s, h1, h2, h3⟩ := C160_step_window (ε := ε) (N := 4) (by norm_num) (by norm_num) hs
    exact ⟨s, h1, by rw [h2]; norm_num, by rw [h3]; norm_num⟩
  · rw [C160_step_decay (by norm_num) (by norm_num) (by norm_num) hs]; norm_num
  · rw [(C160_step_interim (W := 4) (by norm_num) (by norm_num) (by norm_num) hs).1]; norm_num

end Verif.Props
