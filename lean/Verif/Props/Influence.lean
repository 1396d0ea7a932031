import Verif.Props.CumulativeMoments
import Verif.Props.CumulativePairs
import Verif.Props.Window
import Verif.Props.Decay
import Verif.Props.Interim
/-
C158: how much one value changes the results.

Two histories that differ in one value: the data since the last `clear()` are `l₁ ++ a :: l₂` and `l₁ ++ b :: l₂`.
-/
namespace Verif.Props
open Scalar Exact

variable {w W : Nat} {ε : ℝ}

/-! ### The specification -/

namespace Influence

theorem perm_end {β : Type} (l₁ l₂ : List β) (x : β) : (l₁ ++ x :: l₂).Perm ((l₁ ++ l₂) ++ [x]) := by
  refine List.perm_middle.trans ?_
  exact List.perm_append_comm (l₁ := [x])

theorem sum_mid (l₁ l₂ : List ℝ) (x : ℝ) : (l₁ ++ x :: l₂).sum = (l₁ ++ l₂).sum + x := by
  simp only [List.sum_append, List.sum_cons]; ring

theorem mean_mid (l₁ l₂ : List ℝ) (a b : ℝ) :
    Spec.mean (l₁ ++ b :: l₂) - Spec.mean (l₁ ++ a :: l₂) = (b - a) / (l₁.length + l₂.length + 1 : Nat) := by
  unfold Spec.mean
  rw [sum_mid, sum_mid]
  simp only [List.length_append, List.length_cons]
  push_cast
  ring

theorem mean_perm {xs ys : List ℝ} (h : xs.Perm ys) : Spec.mean xs = Spec.mean ys := by
  unfold Spec.mean; rw [h.sum_eq, h.length_eq]

theorem central_perm {xs ys : List ℝ} (h : xs.Perm ys) (k : Nat) : Spec.central k xs = Spec.central k ys := by
  unfold Spec.central
  rw [mean_perm h]
  exact (h.map _).sum_eq

theorem cosum_perm {xs ys : List (ℝ × ℝ)} (h : xs.Perm ys) : Spec.cosum xs = Spec.cosum ys := by
  unfold Spec.cosum
  rw [mean_perm (show (Spec.xsOf xs).Perm (Spec.xsOf ys) from h.map _), mean_perm (show (Spec.ysOf xs).Perm (Spec.ysOf ys) from h.map _)]
  exact (h.map _).sum_eq

/-- The sum of the squared deviations: that of the other values, and a multiple of the squared distance from their mean. -/
theorem central_mid (l₁ l₂ : List ℝ) (x : ℝ) :
    Spec.central 2 (l₁ ++ x :: l₂) = Spec.central 2 (l₁ ++ l₂)
      + (l₁.length + l₂.length : Nat) / ((l₁.length + l₂.length : Nat) + 1) * (x - Spec.mean (l₁ ++ l₂)) ^ 2 := by
  rw [central_perm (perm_end l₁ l₂ x), Spec.central_two_snoc, Spec.mean_snoc, List.length_append]
  have h : (((l₁.length + l₂.length : Nat) : ℝ)) + 1 ≠ 0 := by positivity
  field_simp
  ring

theorem cosum_mid (l₁ l₂ : List (ℝ × ℝ)) (q : ℝ × ℝ) :
    Spec.cosum (l₁ ++ q :: l₂) = Spec.cosum (l₁ ++ l₂)
      + (l₁.length + l₂.length : Nat) / ((l₁.length + l₂.length : Nat) + 1)
        * ((q.1 - Spec.mean (Spec.xsOf (l₁ ++ l₂))) * (q.2 - Spec.mean (Spec.ysOf (l₁ ++ l₂)))) := by
  rw [cosum_perm (perm_end l₁ l₂ q), Spec.cosum_snoc]
  have e : Spec.xsOf ((l₁ ++ l₂) ++ [q]) = Spec.xsOf (l₁ ++ l₂) ++ [q.1] := by simp [Spec.xsOf]
  have hl : (Spec.xsOf (l₁ ++ l₂)).length = l₁.length + l₂.length := by simp [Spec.xsOf]
  rw [e, Spec.mean_snoc, hl]
  have h : (((l₁.length + l₂.length : Nat) : ℝ)) + 1 ≠ 0 := by positivity
  field_simp
  ring

theorem variance_mid (l₁ l₂ : List ℝ) (a b : ℝ) :
    Spec.variance (l₁ ++ b :: l₂) - Spec.variance (l₁ ++ a :: l₂)
      = (l₁.length + l₂.length : Nat) / ((l₁.length + l₂.length : Nat) + 1) ^ 2
        * ((b - a) * ((a - Spec.mean (l₁ ++ l₂)) + (b - Spec.mean (l₁ ++ l₂)))) := by
  unfold Spec.variance
  rw [central_mid, central_mid]
  simp only [List.length_append, List.length_cons]
  have h : (((l₁.length + l₂.length : Nat) : ℝ)) + 1 ≠ 0 := by positivity
  push_cast at h ⊢
  field_simp
  ring

theorem covariance_mid (l₁ l₂ : List (ℝ × ℝ)) (a b : ℝ × ℝ) :
    Spec.covariance (l₁ ++ b :: l₂) - Spec.covariance (l₁ ++ a :: l₂)
      = (l₁.length + l₂.length : Nat) / ((l₁.length + l₂.length : Nat) + 1) ^ 2
        * ((b.1 - Spec.mean (Spec.xsOf (l₁ ++ l₂))) * (b.2 - Spec.mean (Spec.ysOf (l₁ ++ l₂)))
          - (a.1 - Spec.mean (Spec.xsOf (l₁ ++ l₂))) * (a.2 - Spec.mean (Spec.ysOf (l₁ ++ l₂)))) := by
  unfold Spec.covariance
  rw [cosum_mid, cosum_mid]
  simp only [List.length_append, List.length_cons]
  have h : (((l₁.length + l₂.length : Nat) : ℝ)) + 1 ≠ 0 := by positivity
  push_cast at h ⊢
  field_simp
  ring

theorem ewSum_mid (f : ℝ) (l₁ l₂ : List ℝ) (a b : ℝ) :
    Spec.ewSum f (l₁ ++ b :: l₂) - Spec.ewSum f (l₁ ++ a :: l₂) = f * (1 - f) ^ l₂.length * (b - a) := by
  induction l₂ using List.reverseRecOn with
  | nil => rw [Spec.ewSum_snoc, Spec.ewSum_snoc]; simp; ring
  | append_singleton l x ih =>
    have e : ∀ y, l₁ ++ y :: (l ++ [x]) = (l₁ ++ y :: l) ++ [x] := by intro y; simp
    rw [e, e, Spec.ewSum_snoc, Spec.ewSum_snoc, List.length_append, List.length_singleton, pow_succ]
    have := congrArg (fun t => (1 - f) * t) ih
    rw [show (1 - f) * Spec.ewSum f (l₁ ++ b :: l) + f * x - ((1 - f) * Spec.ewSum f (l₁ ++ a :: l) + f * x)
      = (1 - f) * (Spec.ewSum f (l₁ ++ b :: l) - Spec.ewSum f (l₁ ++ a :: l)) by ring, this]
    ring

/-- Data in an interval. -/
theorem mean_in {lo hi : ℝ} {l : List ℝ} (h : ∀ x ∈ l, lo ≤ x ∧ x ≤ hi) (hne : l ≠ []) : lo ≤ Spec.mean l ∧ Spec.mean l ≤ hi :=
  Spec.mean_bounds hne h

/-- The variance of data in an interval of length `R` changes by at most `(n - 1) / n² R²`. -/
theorem variance_bound {lo hi : ℝ} (l₁ l₂ : List ℝ) (a b : ℝ) (h : ∀ x ∈ l₁ ++ l₂, lo ≤ x ∧ x ≤ hi) (ha : lo ≤ a ∧ a ≤ hi) (hb : lo ≤ b ∧ b ≤ hi) :
    |Spec.variance (l₁ ++ b :: l₂) - Spec.variance (l₁ ++ a :: l₂)|
      ≤ (l₁.length + l₂.length : Nat) / ((l₁.length + l₂.length : Nat) + 1) ^ 2 * (hi - lo) ^ 2 := by
  rw [variance_mid, abs_mul, abs_of_nonneg (a := ((l₁.length + l₂.length : Nat) : ℝ) / _) (by positivity)]
  rcases eq_or_ne (l₁ ++ l₂) [] with he | hne
  · have : l₁.length + l₂.length = 0 := by rw [← List.length_append, he]; rfl
    rw [this]; simp
  · obtain ⟨m1, m2⟩ := mean_in h hne
    refine mul_le_mul_of_nonneg_left ?_ (by positivity)
    set μ := Spec.mean (l₁ ++ l₂)
    have : (b - a) * ((a - μ) + (b - μ)) = (b - μ) ^ 2 - (a - μ) ^ 2 := by ring
    rw [this, abs_le]
    have sq : ∀ x, lo ≤ x ∧ x ≤ hi → (x - μ) ^ 2 ≤ (hi - lo) ^ 2 := by
      intro x hx
      exact sq_le_sq' (by linarith) (by linarith)
    constructor
    · linarith [sq a ha, sq_nonneg (b - μ)]
    · linarith [sq b hb, sq_nonneg (a - μ)]

end Influence

/-! ### The filters -/

/-- C158, cumulative mean: it changes by `(b - a) / n`. -/
theorem C158_mean (l₁ l₂ : List ℝ) (a b : ℝ) (ops ops' : List (Op ℝ)) (ho : sinceClear ops = l₁ ++ a :: l₂)
    (ho' : sinceClear ops' = l₁ ++ b :: l₂) (hw : (sinceClear ops).length < 2 ^ w) :
    ∃ r r' : ℝ, (Cumulative.Mean.run (finOps ops) : Cumulative.Mean w (E ε)).getMean = X.fin r
      ∧ (Cumulative.Mean.run (finOps ops') : Cumulative.Mean w (E ε)).getMean = X.fin r'
      ∧ r' - r = (b - a) / (sinceClear ops).length := by
  have hl : (sinceClear ops').length = (sinceClear ops).length := by rw [ho, ho']; simp
  refine ⟨_, _, (C01_mean ops hw).1, (C01_mean ops' (by rw [hl]; exact hw)).1, ?_⟩
  rw [ho, ho', Influence.mean_mid]
  simp only [List.length_append, List.length_cons]
  push_cast; ring

/-- C158, cumulative variance: it changes by `(n - 1) / n² (b - a) (a + b - 2 μ)`, `μ` the mean of the other values; if the data are in an
interval of length `R`, by at most `(n - 1) / n² R²`. -/
theorem C158_variance (l₁ l₂ : List ℝ) (a b : ℝ) (ops ops' : List (Op ℝ)) (ho : sinceClear ops = l₁ ++ a :: l₂)
    (ho' : sinceClear ops' = l₁ ++ b :: l₂) (hw : (sinceClear ops).length < 2 ^ w) :
    ∃ r r' : ℝ, (Cumulative.Variance.run (finOps ops) : Cumulative.Variance w (E ε)).variance = X.fin r
      ∧ (Cumulative.Variance.run (finOps ops') : Cumulative.Variance w (E ε)).variance = X.fin r'
      ∧ r' - r = ((sinceClear ops).length - 1) / (sinceClear ops).length ^ 2 * ((b - a) * (a + b - 2 * Spec.mean (l₁ ++ l₂)))
      ∧ ∀ lo hi, (∀ x ∈ sinceClear ops, lo ≤ x ∧ x ≤ hi) → lo ≤ b ∧ b ≤ hi →
        |r' - r| ≤ ((sinceClear ops).length - 1) / (sinceClear ops).length ^ 2 * (hi - lo) ^ 2 := by
  have hl : (sinceClear ops').length = (sinceClear ops).length := by rw [ho, ho']; simp
  have hn : 1 ≤ (sinceClear ops).length := by rw [ho]; simp; omega
  have hlen : ((sinceClear ops).length : ℝ) = ((l₁.length + l₂.length : Nat) : ℝ) + 1 := by
    rw [ho]; simp only [List.length_append, List.length_cons]; push_cast; ring
  refine ⟨_, _, ((C02_variance ops hw).1 hn).1, ((C02_variance ops' (by rw [hl]; exact hw)).1 (by rw [hl]; exact hn)).1, ?_, ?_⟩
  · rw [hlen, ho, ho', Influence.variance_mid]
    ring
  · intro lo hi h hb
    have := Influence.variance_bound (lo := lo) (hi := hi) l₁ l₂ a b (fun x hx => h x (by rw [ho]; simp only [List.mem_append, List.mem_cons] at hx ⊢; tauto))
      (h a (by rw [ho]; simp)) hb
    rw [hlen, ho, ho', add_sub_cancel_right]
    exact this

/-- C158, cumulative covariance. -/
theorem C158_covariance (l₁ l₂ : List (ℝ × ℝ)) (a b : ℝ × ℝ) (ops ops' : List (Op (ℝ × ℝ))) (ho : sinceClear ops = l₁ ++ a :: l₂)
    (ho' : sinceClear ops' = l₁ ++ b :: l₂) (hw : (sinceClear ops).length < 2 ^ w) :
    let μ := Spec.mean (Spec.xsOf (l₁ ++ l₂))
    let ν := Spec.mean (Spec.ysOf (l₁ ++ l₂))
    ∃ r r' : ℝ, (Cumulative.Comoment.run (finOps2 ops) : Cumulative.Comoment w (E ε)).variance = X.fin r
      ∧ (Cumulative.Comoment.run (finOps2 ops') : Cumulative.Comoment w (E ε)).variance = X.fin r'
      ∧ r' - r = ((sinceClear ops).length - 1) / (sinceClear ops).length ^ 2 * ((b.1 - μ) * (b.2 - ν) - (a.1 - μ) * (a.2 - ν)) := by
  intro μ ν
  have hl : (sinceClear ops').length = (sinceClear ops).length := by rw [ho, ho']; simp
  have hn : 1 ≤ (sinceClear ops).length := by rw [ho]; simp; omega
  have hlen : ((sinceClear ops).length : ℝ) = ((l₁.length + l₂.length : Nat) : ℝ) + 1 := by
    rw [ho]; simp only [List.length_append, List.length_cons]; push_cast; ring
  refine ⟨_, _, (C09_covariance ops hw).2.2.1 hn, (C09_covariance ops' (by rw [hl]; exact hw)).2.2.1 (by rw [hl]; exact hn), ?_⟩
  rw [hlen, ho, ho', Influence.covariance_mid, add_sub_cancel_right]

/-- The window and one value: it is in the window if fewer than `N` values follow. -/
theorem lastN_mid {β : Type} {N : Nat} (l₁ l₂ : List β) (x : β) :
    Spec.lastN N (l₁ ++ x :: l₂) = if l₂.length < N then Spec.lastN (N - (l₂.length + 1)) l₁ ++ x :: l₂ else Spec.lastN N l₂ := by
  unfold Spec.lastN
  split_ifs with h
  · rw [List.drop_append_of_le_length (by simp only [List.length_append, List.length_cons]; omega)]
    congr 2
    simp only [List.length_append, List.length_cons]
    omega
  · rw [show l₁ ++ x :: l₂ = (l₁ ++ [x]) ++ l₂ by simp, List.drop_append]
    have e1 : List.drop ((l₁ ++ [x] ++ l₂).length - N) (l₁ ++ [x]) = [] :=
      List.drop_eq_nil_of_le (by simp only [List.length_append, List.length_singleton]; omega)
    rw [e1, List.nil_append]
    congr 1
    simp only [List.length_append, List.length_singleton]
    omega

/-- C158, window mean and variance: a value with fewer than `N` successors changes them as in the cumulative filter of the window;
a value with `N` or more successors does not change them. -/
theorem C158_window {N : Nat} (hN : 1 ≤ N) (l₁ l₂ : List ℝ) (a b : ℝ) (ops ops' : List (Op ℝ)) (ho : sinceClear ops = l₁ ++ a :: l₂)
    (ho' : sinceClear ops' = l₁ ++ b :: l₂) :
    let n : ℝ := (min N (sinceClear ops).length : Nat)
    ∃ (s s' : Window.Variance N (E ε)) (m m' v v' : ℝ), Window.Variance.run (finOps ops) = some s ∧ Window.Variance.run (finOps ops') = some s'
      ∧ s.getMean = X.fin m ∧ s'.getMean = X.fin m' ∧ s.variance = X.fin v ∧ s'.variance = X.fin v'
      ∧ (l₂.length < N → m' - m = (b - a) / n
        ∧ v' - v = (n - 1) / n ^ 2 * ((b - a) * (a + b - 2 * Spec.mean (Spec.lastN (N - (l₂.length + 1)) l₁ ++ l₂))))
      ∧ (N ≤ l₂.length → m' = m ∧ v' = v) := by
  intro n
  have data : ∀ o : List (Op ℝ), sinceClear o ≠ [] → ∃ s : Window.Variance N (E ε), Window.Variance.run (finOps o) = some s
      ∧ s.getMean = X.fin (Spec.mean (Spec.lastN N (sinceClear o))) ∧ s.variance = X.fin (Spec.variance (Spec.lastN N (sinceClear o))) := by
    intro o hne
    obtain ⟨s, h1, h2, -⟩ := C19_window_variance (ε := ε) hN o
    obtain ⟨v, m, e1, e2, e3, -⟩ := C18_window_mean_inherited hN (finOps o : List (Op (E ε)))
    obtain ⟨m', f1, f2⟩ := C18_window_mean (ε := ε) hN o
    have hs : v = s := Option.some.inj (e1.symm.trans h1)
    have hm : m = m' := Option.some.inj (e2.symm.trans f1)
    subst hs hm
    refine ⟨v, h1, e3.trans f2, h2 ?_⟩
    rw [Spec.length_lastN]
    have := List.length_pos_iff.2 hne
    omega
  obtain ⟨s, h1, h2, h3⟩ := data ops (by rw [ho]; simp)
  obtain ⟨s', h1', h2', h3'⟩ := data ops' (by rw [ho']; simp)
  refine ⟨s, s', _, _, _, _, h1, h1', h2, h2', h3, h3', fun h => ?_, fun h => ?_⟩
  · have hlen : n = ((Spec.lastN (N - (l₂.length + 1)) l₁).length + l₂.length : Nat) + 1 := by
      show ((min N (sinceClear ops).length : Nat) : ℝ) = _
      rw [ho, Spec.length_lastN, ← Nat.cast_add_one]
      congr 1
      simp only [List.length_append, List.length_cons]
      omega
    rw [ho, ho', lastN_mid, lastN_mid, if_pos h, if_pos h, Influence.mean_mid, Influence.variance_mid, hlen]
    constructor
    · push_cast; ring
    · ring
  · rw [ho, ho', lastN_mid, lastN_mid, if_neg (by omega), if_neg (by omega)]
    exact ⟨rfl, rfl⟩

/-- C158, decaying mean: a value with `k` successors has weight `f (1 - f)^k / (1 - (1 - f)^n)`. -/
theorem C158_decay_mean {f : ℝ} (h0 : 0 < f) (h1 : f ≤ 1) (l₁ l₂ : List ℝ) (a b : ℝ) (ops ops' : List (Op ℝ)) (ho : sinceClear ops = l₁ ++ a :: l₂)
    (ho' : sinceClear ops' = l₁ ++ b :: l₂) :
    ∃ r r' : ℝ, (Decay.Mean.run (X.fin f) (finOps ops) : Decay.Mean (E ε)).mean = X.fin r
      ∧ (Decay.Mean.run (X.fin f) (finOps ops') : Decay.Mean (E ε)).mean = X.fin r'
      ∧ r' - r = f * (1 - f) ^ l₂.length / (1 - (1 - f) ^ (sinceClear ops).length) * (b - a) := by
  have hl : (sinceClear ops').length = (sinceClear ops).length := by rw [ho, ho']; simp
  refine ⟨_, _, C25_decay_mean h0 h1 ops, C25_decay_mean h0 h1 ops', ?_⟩
  unfold Spec.ewMean
  rw [hl, ← sub_div, ho, ho', Influence.ewSum_mid]
  ring

/-! ### The interim mean -/

/-- The weight of the value number `j` (from 0) among `n` in the interim mean. -/
noncomputable def interimWeight (W n j : Nat) : ℝ :=
  let B := (n - 1) / W * W
  let s := n - B
  if n ≤ W then 1 / n
  else if B ≤ j then 2 / (W + s)
  else if B ≤ j + W then (W - s) / (W * (W + s))
  else 0

/-- The weights are not negative, and at most `2 / (W + 1)` after the first block. -/
theorem C158_interim_weight (hW : 1 ≤ W) {n j : Nat} (hn : W < n) : 0 ≤ interimWeight W n j ∧ interimWeight W n j ≤ 2 / (W + 1) := by
  have hB : (n - 1) / W * W ≤ n - 1 := Nat.div_mul_le_self _ _
  have hB2 : n - 1 < (n - 1) / W * W + W := Nat.lt_div_mul_add (by omega)
  have hs1 : (1 : ℝ) ≤ (n - (n - 1) / W * W : Nat) := by exact_mod_cast (show 1 ≤ n - (n - 1) / W * W by omega)
  have hs2 : ((n - (n - 1) / W * W : Nat) : ℝ) ≤ W := by exact_mod_cast (show n - (n - 1) / W * W ≤ W by omega)
  have hW1 : (1 : ℝ) ≤ W := by exact_mod_cast hW
  unfold interimWeight
  dsimp only
  rw [if_neg (by omega)]
  set s : ℝ := ((n - (n - 1) / W * W : Nat) : ℝ)
  split_ifs
  · exact ⟨by positivity, div_le_div_of_nonneg_left (by norm_num) (by positivity) (by linarith)⟩
  · refine ⟨div_nonneg (by linarith) (by positivity), ?_⟩
    rw [div_le_div_iff₀ (by positivity) (by positivity)]
    nlinarith
  · exact ⟨le_rfl, by positivity⟩

theorem interimMean_mid (hW : 1 ≤ W) (l₁ l₂ : List ℝ) (a b : ℝ) :
    Spec_interimMean W (l₁ ++ b :: l₂) - Spec_interimMean W (l₁ ++ a :: l₂)
      = interimWeight W (l₁.length + l₂.length + 1) l₁.length * (b - a) := by
  set n := l₁.length + l₂.length + 1 with hn
  have hlen : ∀ x : ℝ, (l₁ ++ x :: l₂).length = n := by intro x; simp [hn]; omega
  have hB : (n - 1) / W * W ≤ n - 1 := Nat.div_mul_le_self _ _
  have hB2 : n - 1 < (n - 1) / W * W + W := Nat.lt_div_mul_add (by omega)
  have hcl : ∀ x : ℝ, (Spec.curBlock W (l₁ ++ x :: l₂)).length = n - (n - 1) / W * W := by
    intro x; rw [Spec.curBlock, List.length_drop, hlen]
  have hW1 : (1 : ℝ) ≤ W := by exact_mod_cast hW
  unfold Spec_interimMean interimWeight
  simp only [hlen, hcl]
  split_ifs with h1 h2 h3
  · rw [Influence.mean_mid]; rw [← hn]; ring
  all_goals
    have hq : 1 ≤ (n - 1) / W := (Nat.one_le_div_iff (by omega)).2 (by omega)
    have hpb : ∀ x : ℝ, Spec.prevBlock W (l₁ ++ x :: l₂) = ((l₁ ++ x :: l₂).drop (((n - 1) / W - 1) * W)).take W := by
      intro x; rw [Spec.prevBlock, hlen, if_neg (by omega)]
    have hB3 : ((n - 1) / W - 1) * W = (n - 1) / W * W - W := by rw [Nat.sub_mul, one_mul]
    have hB4 : W ≤ (n - 1) / W * W := Nat.le_mul_of_pos_left W hq
    set B := (n - 1) / W * W with hBdef
    have hs1 : (1 : ℝ) ≤ (n - B : Nat) := by exact_mod_cast (show 1 ≤ n - B by omega)
    have hs2 : ((n - B : Nat) : ℝ) ≤ W := by exact_mod_cast (show n - B ≤ W by omega)
    unfold Spec.blend
    rw [← sub_div]
  · -- in the last block
    have hp : ∀ x : ℝ, Spec.prevBlock W (l₁ ++ x :: l₂) = (l₁.drop (B - W)).take W := by
      intro x
      rw [hpb, hB3, List.drop_append_of_le_length (by omega), List.take_append_of_le_length (by rw [List.length_drop]; omega)]
    have hc : ∀ x : ℝ, Spec.curBlock W (l₁ ++ x :: l₂) = l₁.drop B ++ x :: l₂ := by
      intro x
      rw [Spec.curBlock, hlen, List.drop_append_of_le_length (by omega)]
    rw [hp, hp, hc, hc]
    have hm := Influence.mean_mid (l₁.drop B) l₂ a b
    have e : (l₁.drop B).length + l₂.length + 1 = n - B := by rw [List.length_drop]; omega
    rw [e] at hm
    have : (W : ℝ) + (n - B : Nat) ≠ 0 := by positivity
    have h0 : ((n - B : Nat) : ℝ) ≠ 0 := by linarith
    rw [eq_add_of_sub_eq hm]
    rw [show (W : ℝ) - (n - B : Nat) + 2 * (n - B : Nat) = W + (n - B : Nat) by ring]
    field_simp
    ring
  · -- in the block before the last
    have hp : ∀ x : ℝ, Spec.prevBlock W (l₁ ++ x :: l₂) = l₁.drop (B - W) ++ x :: l₂.take (B - 1 - l₁.length) := by
      intro x
      rw [hpb, hB3, List.drop_append_of_le_length (by omega), List.take_append, List.take_of_length_le (by rw [List.length_drop]; omega),
        List.length_drop, show W - (l₁.length - (B - W)) = (B - 1 - l₁.length) + 1 by omega, List.take_succ_cons]
    have hc : ∀ x : ℝ, Spec.curBlock W (l₁ ++ x :: l₂) = l₂.drop (B - 1 - l₁.length) := by
      intro x
      rw [Spec.curBlock, hlen, List.drop_append, List.drop_eq_nil_of_le (by omega), List.nil_append,
        show (n - 1) / W * W - l₁.length = (B - 1 - l₁.length) + 1 by omega, List.drop_succ_cons]
    rw [hp, hp, hc, hc]
    have hm := Influence.mean_mid (l₁.drop (B - W)) (l₂.take (B - 1 - l₁.length)) a b
    have e : (l₁.drop (B - W)).length + (l₂.take (B - 1 - l₁.length)).length + 1 = W := by
      rw [List.length_drop, List.length_take]; omega
    rw [e] at hm
    have : (W : ℝ) + (n - B : Nat) ≠ 0 := by positivity
    have h0 : (W : ℝ) ≠ 0 := by positivity
    rw [eq_add_of_sub_eq hm]
    rw [show (W : ℝ) - (n - B : Nat) + 2 * (n - B : Nat) = W + (n - B : Nat) by ring]
    field_simp
    ring
  · -- older
    have hp : ∀ x : ℝ, Spec.prevBlock W (l₁ ++ x :: l₂) = (l₂.drop (B - W - 1 - l₁.length)).take W := by
      intro x
      rw [hpb, hB3, List.drop_append, List.drop_eq_nil_of_le (by omega), List.nil_append,
        show B - W - l₁.length = (B - W - 1 - l₁.length) + 1 by omega, List.drop_succ_cons]
    have hc : ∀ x : ℝ, Spec.curBlock W (l₁ ++ x :: l₂) = l₂.drop (B - 1 - l₁.length) := by
      intro x
      rw [Spec.curBlock, hlen, List.drop_append, List.drop_eq_nil_of_le (by omega), List.nil_append,
        show (n - 1) / W * W - l₁.length = (B - 1 - l₁.length) + 1 by omega, List.drop_succ_cons]
    rw [hp, hp, hc, hc, sub_self, zero_div, zero_mul]

/-- C158, interim mean. -/
theorem C158_interim_mean (hW : 1 ≤ W) (hw : 2 * W < 2 ^ w) (l₁ l₂ : List ℝ) (a b : ℝ) (ops ops' : List (Op ℝ)) (ho : sinceClear ops = l₁ ++ a :: l₂)
    (ho' : sinceClear ops' = l₁ ++ b :: l₂) :
    ∃ r r' : ℝ, Interim.IMean.mean (Interim.Interim.run (finOps ops) : Interim.IMean w W (E ε)) = X.fin r
      ∧ Interim.IMean.mean (Interim.Interim.run (finOps ops') : Interim.IMean w W (E ε)) = X.fin r'
      ∧ r' - r = interimWeight W (sinceClear ops).length l₁.length * (b - a) := by
  refine ⟨_, _, (C29_interim_mean hW hw ops).1, (C29_interim_mean hW hw ops').1, ?_⟩
  have hl : (sinceClear ops).length = l₁.length + l₂.length + 1 := by rw [ho]; simp; omega
  rw [hl, ho, ho', interimMean_mid hW]

/-! ### The trend -/

theorem runningMeans_mid (l₁ l₂ : List ℝ) (a b : ℝ) :
    (Spec.runningMeans (l₁ ++ b :: l₂)).sum - (Spec.runningMeans (l₁ ++ a :: l₂)).sum
      = (b - a) * ∑ k ∈ Finset.range (l₂.length + 1), 1 / ((l₁.length + k + 1 : Nat) : ℝ) := by
  induction l₂ using List.reverseRecOn with
  | nil =>
    have hm := Influence.mean_mid l₁ [] a b
    rw [Spec.runningMeans_snoc, Spec.runningMeans_snoc, List.sum_append, List.sum_append, List.sum_singleton, List.sum_singleton, add_sub_add_left_eq_sub, hm]
    simp [div_eq_mul_inv]
  | append_singleton l x ih =>
    have e : ∀ y, l₁ ++ y :: (l ++ [x]) = (l₁ ++ y :: l) ++ [x] := by intro y; simp
    have hm := Influence.mean_mid l₁ (l ++ [x]) a b
    rw [e, e] at hm
    rw [e, e, Spec.runningMeans_snoc, Spec.runningMeans_snoc, List.sum_append, List.sum_append, List.sum_singleton, List.sum_singleton, add_sub_add_comm, ih, hm,
      List.length_append, List.length_singleton, Finset.sum_range_succ (n := l.length + 1), mul_add]
    congr 1
    rw [div_eq_mul_one_div]

/-- C158, trend: value number `j` of `n` (from 0) has the weight `(3 - 2 (1 / (j + 1) + ... + 1 / n)) / n`. -/
theorem C158_trend (l₁ l₂ : List ℝ) (a b : ℝ) (ops ops' : List (Op ℝ)) (ho : sinceClear ops = l₁ ++ a :: l₂)
    (ho' : sinceClear ops' = l₁ ++ b :: l₂) (hw : (sinceClear ops).length < 2 ^ w) :
    ∃ r r' : ℝ, (Cumulative.Trend.run (finOps ops) : Cumulative.Trend w (E ε)).value = X.fin r
      ∧ (Cumulative.Trend.run (finOps ops') : Cumulative.Trend w (E ε)).value = X.fin r'
      ∧ r' - r = (3 - 2 * ∑ k ∈ Finset.Ico (l₁.length + 1) ((sinceClear ops).length + 1), 1 / (k : ℝ)) / (sinceClear ops).length * (b - a) := by
  have hl : (sinceClear ops').length = (sinceClear ops).length := by rw [ho, ho']; simp
  refine ⟨_, _, (C14_trend ops hw).1, (C14_trend ops' (by rw [hl]; exact hw)).1, ?_⟩
  have hr : ∀ xs : List ℝ, Spec.mean (Spec.runningMeans xs) = (Spec.runningMeans xs).sum / xs.length := by
    intro xs; rw [Spec.mean]; simp [Spec.runningMeans]
  have hn : (sinceClear ops).length = l₁.length + l₂.length + 1 := by rw [ho]; simp; omega
  have hsum : ∑ k ∈ Finset.Ico (l₁.length + 1) ((sinceClear ops).length + 1), 1 / (k : ℝ)
      = ∑ k ∈ Finset.range (l₂.length + 1), 1 / ((l₁.length + k + 1 : Nat) : ℝ) := by
    rw [Finset.sum_Ico_eq_sum_range, hn, show l₁.length + l₂.length + 1 + 1 - (l₁.length + 1) = l₂.length + 1 by omega]
    refine Finset.sum_congr rfl fun k _ => ?_
    rw [show l₁.length + 1 + k = l₁.length + k + 1 by omega]
  have h1 := Influence.mean_mid l₁ l₂ a b
  have h2 := runningMeans_mid l₁ l₂ a b
  rw [hr, hr, hl, hsum]
  rw [← hn] at h1
  rw [← ho, ← ho'] at h1 h2
  calc _ = 3 * (Spec.mean (sinceClear ops') - Spec.mean (sinceClear ops))
        - 2 * ((Spec.runningMeans (sinceClear ops')).sum - (Spec.runningMeans (sinceClear ops)).sum) / (sinceClear ops).length := by ring
    _ = _ := by rw [h1, h2]; ring

/-- 1, 4, 7 rise; the first value pulls the trend the other way: its weight is `(3 - 2 (1 + 1/2 + 1/3)) / 3 = -2/9`. -/
example : ∃ r r' : ℝ, (Cumulative.Trend.run (finOps [.push 1, .push 4, .push 7]) : Cumulative.Trend 64 (E ε)).value = X.fin r
    ∧ (Cumulative.Trend.run (finOps [.push 10, .push 4, .push 7]) : Cumulative.Trend 64 (E ε)).value = X.fin r' ∧ r' - r = -2 := by
  obtain ⟨r, r', h1, h2, h3⟩ := C158_trend (w := 64) (ε := ε) [] [4, 7] 1 10 [.push 1, .push 4, .push 7] [.push 10, .push 4, .push 7]
    rfl rfl (by decide)
  exact ⟨r, r', h1, h2, by rw [h3]; norm_num [sinceClear, Finset.sum_Ico_succ_top]⟩

/-! ### Cases -/

/-- 10 instead of 4 among 1, 4, 7: the variance grows by `2/9 (10 - 4) (10 + 4 - 2 * 4) = 8`. -/
example : ∃ r r' : ℝ, (Cumulative.Variance.run (finOps [.push 1, .push 4, .push 7]) : Cumulative.Variance 64 (E ε)).variance = X.fin r
    ∧ (Cumulative.Variance.run (finOps [.push 1, .push 10, .push 7]) : Cumulative.Variance 64 (E ε)).variance = X.fin r' ∧ r' - r = 8 := by
  obtain ⟨r, r', h1, h2, h3, -⟩ := C158_variance (w := 64) (ε := ε) [1] [7] 4 10 [.push 1, .push 4, .push 7] [.push 1, .push 10, .push 7]
    rfl rfl (by decide)
  exact ⟨r, r', h1, h2, by rw [h3]; norm_num [sinceClear, Spec.mean]⟩

/-- `f = 1/2`, values 1, 4, 7: the weight of the first value is `(1/8) / (7/8) = 1/7`. -/
example : ∃ r r' : ℝ, (Decay.Mean.run (X.fin (1 / 2)) (finOps [.push 1, .push 4, .push 7]) : Decay.Mean (E ε)).mean = X.fin r
    ∧ (Decay.Mean.run (X.fin (1 / 2)) (finOps [.push 8, .push 4, .push 7]) : Decay.Mean (E ε)).mean = X.fin r' ∧ r' - r = 1 := by
  obtain ⟨r, r', h1, h2, h3⟩ := C158_decay_mean (ε := ε) (f := 1 / 2) (by norm_num) (by norm_num) [] [4, 7] 1 8 [.push 1, .push 4, .push 7]
    [.push 8, .push 4, .push 7] rfl rfl
  exact ⟨r, r', h1, h2, by rw [h3]; norm_num [sinceClear]⟩


/-- 10 instead of 4 among 1, 4, 7: the mean grows by 2. -/
example : ∃ r r' : ℝ, (Cumulative.Mean.run (finOps [.push 1, .push 4, .push 7]) : Cumulative.Mean 64 (E ε)).getMean = X.fin r
    ∧ (Cumulative.Mean.run (finOps [.push 9, .clear, .push 1, .push 10, .push 7]) : Cumulative.Mean 64 (E ε)).getMean = X.fin r' ∧ r' - r = 2 := by
  obtain ⟨r, r', h1, h2, h3⟩ := C158_mean (w := 64) (ε := ε) [1] [7] 4 10 [.push 1, .push 4, .push 7] [.push 9, .clear, .push 1, .push 10, .push 7]
    rfl rfl (by decide)
  exact ⟨r, r', h1, h2, by rw [h3]; norm_num [sinceClear]⟩

/-- Six values in blocks of two: weights 2/4 for the last block, 0 before the second block. -/
example : interimWeight 2 6 5 = 1 / 2 ∧ interimWeight 2 6 3 = 0 ∧ interimWeight 2 5 4 = 2 / 3 ∧ interimWeight 2 5 3 = 1 / 6 ∧ interimWeight 2 5 1 = 0 := by
  unfold interimWeight
  norm_num

end Verif.Props
