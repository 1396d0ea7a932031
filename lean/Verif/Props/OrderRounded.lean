import Verif.Props.Monotone
import Verif.Props.VarianceError
import Verif.Props.ErrorBound
import Verif.Props.CovarianceRounded
import Verif.Props.CumulativeLaws
import Verif.Props.Rounded
/-
C102: the order of the data, with rounding.
C104: regression with one constant coordinate, with rounding.
-/
namespace Verif.Props
open Scalar

variable {F : Fmt} {p : Nat} {emin : Int} {u η : ℝ} {w N : Nat}

/-! ### C102 -/

/-- C102 as stated, for the mean of `double`. -/
def C102_Statement (F : Fmt) (p : Nat) (emin : Int) (w : Nat) : Prop :=
  ∀ xs ys : List ℝ, F.Data p emin xs → xs.Perm ys →
    (Cumulative.Mean.run (xs.map fun x => .push (X.fin x)) : Cumulative.Mean w (X F)).getMean
      = (Cumulative.Mean.run (ys.map fun x => .push (X.fin x)) : Cumulative.Mean w (X F)).getMean

/-- The mean of 2^53 + 2 and 0.75 is computed as 2^52 + 1, that of 0.75 and 2^53 + 2 as 2^52 + 2 (`C94_smaller`). -/
theorem C102_reversed : (Cumulative.Mean.run ([2 ^ 53 + 2, 3 / 4].map fun x : ℝ => .push (X.fin x))
    : Cumulative.Mean 64 (X binary64)).getMean = X.fin (2 ^ 52 + 1) := by
  have ha := double (2 ^ 52 + 1) 1 (by norm_num) (by norm_num) (by norm_num)
  rw [show ((2 ^ 52 + 1 : Int) : ℝ) * 2 ^ (1 : Int) = 2 ^ 53 + 2 by norm_num] at ha
  rw [mean_pair binary64_binary ha.1 ha.2 (by norm_num), X.sub_fin]
  have r1 : (X.round (3 / 4 - (2 ^ 53 + 2) : ℝ) : X binary64) = X.fin (-(2 ^ 53 + 2)) := by
    refine round64_of (-(2 ^ 52 + 1)) 1 ?_ (by norm_num) (by norm_num) (by norm_num) (by norm_num)
    rw [rnd64_near (-(2 ^ 52 + 1)) 1 (by norm_num) (by rw [abs_of_neg (by norm_num)]; norm_num)
      (by rw [abs_of_neg (by norm_num)]; norm_num) (by rw [abs_lt]; constructor <;> norm_num)]
    norm_num
  have r2 : (X.round (-(2 ^ 53 + 2 : ℝ) / (2 : Nat)) : X binary64) = X.fin (-(2 ^ 53 + 2 : ℝ) / (2 : Nat)) :=
    round64 (-(2 ^ 52 + 1)) 0 (by norm_num) (by norm_num) (by norm_num) (by norm_num)
  rw [r1, ofNat64 (by norm_num), X.div_fin_of_ne _ (by norm_num), r2, X.add_fin]
  exact (round64 (2 ^ 52 + 1) 0 (by norm_num) (by norm_num) (by norm_num) (by norm_num)).trans (by norm_num)

/-- C102 is violated: the mean of two values depends on their order. -/
theorem C102_violated : ¬ C102_Statement binary64 53 (-1074) 64 := by
  intro h
  have ha := double 3 (-2) (by norm_num) (by norm_num) (by norm_num)
  rw [show ((3 : Int) : ℝ) * 2 ^ (-2 : Int) = 3 / 4 by norm_num] at ha
  have hb := double (2 ^ 52 + 1) 1 (by norm_num) (by norm_num) (by norm_num)
  rw [show ((2 ^ 52 + 1 : Int) : ℝ) * 2 ^ (1 : Int) = 2 ^ 53 + 2 by norm_num] at hb
  have hdiff : ∀ x y : ℝ, |x| ≤ 2 ^ 54 → |y| ≤ 2 ^ 54 → binary64.fits (binary64.rnd (x - y)) := by
    intro x y hx hy
    have hK := double 1 55 (by norm_num) (by norm_num) (by norm_num)
    rw [show ((1 : Int) : ℝ) * 2 ^ (55 : Int) = 2 ^ 55 by norm_num] at hK
    have hxy : |x - y| ≤ 2 ^ 55 := (abs_sub _ _).trans (by linarith)
    have := abs_le.1 hxy
    exact binary64_binary.fits_between (binary64_binary.fits_neg hK.2) hK.2 (binary64_binary.le_rnd hK.1.neg this.1)
      (binary64_binary.rnd_le hK.1 this.2)
  have hd : binary64.Data 53 (-1074) [3 / 4, 2 ^ 53 + 2] := by
    have hm : ∀ x ∈ ([3 / 4, 2 ^ 53 + 2] : List ℝ), |x| ≤ 2 ^ 54 := by
      intro x hx
      simp only [List.mem_cons, List.not_mem_nil, or_false] at hx
      rcases hx with rfl | rfl <;> rw [abs_of_pos (by norm_num)] <;> norm_num
    refine ⟨fun x hx => ?_, fun x hx y hy => hdiff x y (hm x hx) (hm y hy)⟩
    simp only [List.mem_cons, List.not_mem_nil, or_false] at hx
    rcases hx with rfl | rfl
    · exact ha
    · exact hb
  have := h _ [2 ^ 53 + 2, 3 / 4] hd (List.Perm.swap _ _ _)
  rw [C94_smaller, C102_reversed, X.fin_inj] at this
  norm_num at this

/-- C102, the part that holds for the mean (exact arithmetic: C07): the means of the same values in different orders
differ by at most `(n + 11) u B` plus underflow terms.  Missing: equality (violated). -/
theorem C102_mean_partial (hF : F.Binary p emin) (hE : F.Err u η) (ops ops' : List (Op ℝ))
    (hp : (sinceClear ops).Perm (sinceClear ops')) (hd : F.Data p emin (sinceClear ops))
    (hn : sinceClear ops ≠ []) (hw : (sinceClear ops).length < 2 ^ w) (hnp : (sinceClear ops).length ≤ 2 ^ p)
    (hfit : F.fits ((sinceClear ops).length : ℝ)) {B : ℝ} (hB : ∀ x ∈ sinceClear ops, |x| ≤ B) :
    ∃ m m' : ℝ, (Cumulative.Mean.run (finOps ops) : Cumulative.Mean w (X F)).getMean = X.fin m
      ∧ (Cumulative.Mean.run (finOps ops') : Cumulative.Mean w (X F)).getMean = X.fin m'
      ∧ |m - m'| ≤ ((sinceClear ops).length + 11) * (u * B) + (3 * (sinceClear ops).length + 7) * η := by
  have hl := hp.length_eq
  obtain ⟨m, h1, h2⟩ := C61_mean_error (w := w) hF hE ops hd hn hw hnp hfit hB
  obtain ⟨m', h1', h2'⟩ := C61_mean_error (w := w) hF hE ops'
    ⟨fun x hx => hd.number x (hp.mem_iff.2 hx), fun x hx y hy => hd.difference x (hp.mem_iff.2 hx) y (hp.mem_iff.2 hy)⟩
    (fun h => hn (by rw [h] at hp; exact hp.eq_nil)) (by rwa [← hl]) (by rwa [← hl]) (by rwa [← hl])
    (fun x hx => hB x (hp.mem_iff.2 hx))
  refine ⟨m, m', h1, h1', ?_⟩
  rw [← hl, ← mean_perm hp] at h2'
  rw [abs_le] at h2 h2' ⊢
  constructor <;> linarith [h2.1, h2.2, h2'.1, h2'.2]

/-- 1, 2, 6 and 6, 1, 2 as `double`. -/
example : ∃ m m' : ℝ, (Cumulative.Mean.run (finOps [.push 1, .push 2, .push 6]) : Cumulative.Mean 64 (X binary64)).getMean = X.fin m
    ∧ (Cumulative.Mean.run (finOps [.push 9, .clear, .push 6, .push 1, .push 2]) : Cumulative.Mean 64 (X binary64)).getMean = X.fin m'
    ∧ |m - m'| ≤ 84 * 2 ^ (-53 : Int) + 16 * 2 ^ (-1075 : Int) := by
  have hs : sinceClear ([.push 1, .push 2, .push 6] : List (Op ℝ)) = [1, 2, 6] := rfl
  have hs' : sinceClear ([.push 9, .clear, .push 6, .push 1, .push 2] : List (Op ℝ)) = [6, 1, 2] := rfl
  obtain ⟨m, m', h1, h2, h3⟩ := C102_mean_partial (w := 64) binary64_binary C61_binary64 [.push 1, .push 2, .push 6]
    [.push 9, .clear, .push 6, .push 1, .push 2]
    (by rw [hs, hs']; exact (List.perm_append_comm (l₁ := [1, 2]) (l₂ := [6])))
    (by rw [hs]; have := binary64_data [1, 2, 6] (by simp); simpa using this) (by rw [hs]; simp) (by rw [hs]; norm_num)
    (by rw [hs]; norm_num) (by rw [hs]; exact (binary64_int (n := 3) (by norm_num)).2) (B := 6)
    (by
      intro x hx
      rw [hs] at hx
      have : x = 1 ∨ x = 2 ∨ x = 6 := by simpa using hx
      rcases this with rfl | rfl | rfl <;> norm_num)
  refine ⟨m, m', h1, h2, h3.trans (le_of_eq ?_)⟩
  rw [hs]
  simp only [List.length_cons, List.length_nil]
  push_cast
  ring

/-- C102, the part that holds for the variance. -/
theorem C102_variance_partial (hF : F.Binary p emin) (hE : F.Err u η) {B K : ℝ} (hB0 : 0 ≤ B)
    (hηB : η ≤ u * B) (hηBB : η ≤ u * (B * B)) (hK : IsRep p emin K) (hKf : F.fits K)
    (ops ops' : List (Op ℝ)) (hp : (sinceClear ops).Perm (sinceClear ops')) (hne : sinceClear ops ≠ [])
    (hd : F.Data p emin (sinceClear ops))
    (hw : (sinceClear ops).length < 2 ^ w) (hnp : (sinceClear ops).length ≤ 2 ^ p) (hfit : F.fits ((sinceClear ops).length : ℝ))
    (hB : ∀ x ∈ sinceClear ops, |x| ≤ B)
    (hBK : 8 * (sinceClear ops).length * (B * B) ≤ K) (hsmall : (6 * (sinceClear ops).length + 65) * u ≤ 1) :
    ∃ v v' : ℝ, (Cumulative.Variance.run (finOps ops) : Cumulative.Variance w (X F)).variance = X.fin v
      ∧ (Cumulative.Variance.run (finOps ops') : Cumulative.Variance w (X F)).variance = X.fin v'
      ∧ |v - v'| ≤ (12 * (sinceClear ops).length + 136) * (u * (B * B)) := by
  have hl := hp.length_eq
  obtain ⟨v, h1, h2⟩ := C70_variance_error (w := w) hF hE hB0 hηB hηBB hK hKf ops hne hd hw hnp hfit hB hBK hsmall
  obtain ⟨v', h1', h2'⟩ := C70_variance_error (w := w) hF hE hB0 hηB hηBB hK hKf ops'
    (fun h => hne (by rw [h] at hp; exact hp.eq_nil))
    ⟨fun x hx => hd.number x (hp.mem_iff.2 hx), fun x hx y hy => hd.difference x (hp.mem_iff.2 hx) y (hp.mem_iff.2 hy)⟩
    (by rwa [← hl]) (by rwa [← hl]) (by rwa [← hl]) (fun x hx => hB x (hp.mem_iff.2 hx)) (by rwa [← hl]) (by rwa [← hl])
  refine ⟨v, v', h1, h1', ?_⟩
  have hv : Spec.variance (sinceClear ops') = Spec.variance (sinceClear ops) := by
    rw [Spec.variance, Spec.variance, central_perm hp, hl]
  rw [← hl, hv] at h2'
  rw [abs_le] at h2 h2' ⊢
  constructor <;> linarith [h2.1, h2.2, h2'.1, h2'.2]

/-! ### C104 -/

/-- C104 as stated, for the window regression of `double`: points on a horizontal line have slope 0. -/
def C104_WindowStatement : Prop :=
  ∀ (N : Nat), 1 ≤ N → ∀ (ops : List (Op (ℝ × ℝ))) (c : ℝ), binary64.Data 53 (-1074) (Spec.xsOf (sinceClear ops)) →
    binary64.Data 53 (-1074) (Spec.ysOf (sinceClear ops)) → (∀ q ∈ sinceClear ops, q.2 = c) →
    ∃ s : Window.Regression N (X binary64), Window.Regression.run (finOps2 ops) = some s ∧ s.slope = X.fin 0

/-- The points (2^27+1, c), (2^27+2, c) with c = 2^27+3: the window regression has the slope 16. -/
theorem C104_window_slope : ∃ s : Window.Regression 2 (X binary64),
    Window.Regression.run (finOps2 [.push (2 ^ 27 + 1, 2 ^ 27 + 3), .push (2 ^ 27 + 2, 2 ^ 27 + 3)]) = some s
      ∧ s.slope = X.fin 16 := by
  have hrun : Window.Regression.run (finOps2 [.push (2 ^ 27 + 1, 2 ^ 27 + 3), .push (2 ^ 27 + 2, 2 ^ 27 + 3)])
      = some ({ covariance :=
                  { window := ⟨[(X.fin (2 ^ 27 + 1), X.fin (2 ^ 27 + 3)), (X.fin (2 ^ 27 + 2), X.fin (2 ^ 27 + 3))]⟩
                    sumX := ofNat 0 + X.fin (2 ^ 27 + 1) + X.fin (2 ^ 27 + 2)
                    sumY := ofNat 0 + X.fin (2 ^ 27 + 3) + X.fin (2 ^ 27 + 3)
                    sumXY := ofNat 0 + X.fin (2 ^ 27 + 1) * X.fin (2 ^ 27 + 3) + X.fin (2 ^ 27 + 2) * X.fin (2 ^ 27 + 3) }
                xMoment :=
                  { super :=
                      { mean := (ofNat 0 + (X.fin (2 ^ 27 + 1) - ofNat 0) / ofNat 1)
                          + (X.fin (2 ^ 27 + 2) - (ofNat 0 + (X.fin (2 ^ 27 + 1) - ofNat 0) / ofNat 1)) / ofNat 2
                        window := ⟨[X.fin (2 ^ 27 + 1), X.fin (2 ^ 27 + 2)]⟩ }
                    sumVariance := ofNat 0
                        + (X.fin (2 ^ 27 + 1) - ofNat 0)
                          * (X.fin (2 ^ 27 + 1) - (ofNat 0 + (X.fin (2 ^ 27 + 1) - ofNat 0) / ofNat 1))
                        + (X.fin (2 ^ 27 + 2) - (ofNat 0 + (X.fin (2 ^ 27 + 1) - ofNat 0) / ofNat 1))
                          * (X.fin (2 ^ 27 + 2) - ((ofNat 0 + (X.fin (2 ^ 27 + 1) - ofNat 0) / ofNat 1)
                              + (X.fin (2 ^ 27 + 2) - (ofNat 0 + (X.fin (2 ^ 27 + 1) - ofNat 0) / ofNat 1)) / ofNat 2)) } }
          : Window.Regression 2 (X binary64)) := rfl
  refine ⟨_, hrun, ?_⟩
  have z : (ofNat 0 : X binary64) = X.fin 0 := binary64_binary.ofNat_zero
  have sx : (ofNat 0 + X.fin (2 ^ 27 + 1) + X.fin (2 ^ 27 + 2) : X binary64) = X.fin (2 ^ 28 + 3) := by
    rw [ofNat64 (by norm_num), X.add_fin, round64_int (2 ^ 27 + 1) (by norm_num) (by norm_num), X.add_fin,
      round64_int (2 ^ 28 + 3) (by norm_num) (by norm_num)]
    norm_num
  have sy : (ofNat 0 + X.fin (2 ^ 27 + 3) + X.fin (2 ^ 27 + 3) : X binary64) = X.fin (2 ^ 28 + 6) := by
    rw [ofNat64 (by norm_num), X.add_fin, round64_int (2 ^ 27 + 3) (by norm_num) (by norm_num), X.add_fin,
      round64_int (2 ^ 28 + 6) (by norm_num) (by norm_num)]
    norm_num
  have p1 : (X.fin (2 ^ 27 + 1) * X.fin (2 ^ 27 + 3) : X binary64) = X.fin (2 ^ 54 + 2 ^ 29 + 4) := by
    rw [X.mul_fin]
    refine round64_of (2 ^ 52 + 2 ^ 27 + 1) 2 ?_ (by norm_num) (by norm_num) (by norm_num) (by norm_num)
    rw [rnd64_near (2 ^ 52 + 2 ^ 27 + 1) 2 (by norm_num) (by rw [abs_of_pos (by norm_num)]; norm_num)
      (by rw [abs_of_pos (by norm_num)]; norm_num) (by rw [abs_lt]; constructor <;> norm_num)]
    norm_num
  have p2 : (X.fin (2 ^ 27 + 2) * X.fin (2 ^ 27 + 3) : X binary64) = X.fin (2 ^ 54 + 5 * 2 ^ 27 + 8) := by
    rw [X.mul_fin]
    refine round64_of (2 ^ 52 + 5 * 2 ^ 25 + 2) 2 ?_ (by norm_num) (by norm_num) (by norm_num) (by norm_num)
    rw [rnd64_tie (2 ^ 52 + 5 * 2 ^ 25 + 1) 2 (by norm_num) (by rw [abs_of_pos (by norm_num)]; norm_num)
      (by rw [abs_of_pos (by norm_num)]; norm_num) (by norm_num), if_neg (by decide)]
    norm_num
  have sxy : (ofNat 0 + X.fin (2 ^ 27 + 1) * X.fin (2 ^ 27 + 3) + X.fin (2 ^ 27 + 2) * X.fin (2 ^ 27 + 3) : X binary64)
      = X.fin (2 ^ 55 + 9 * 2 ^ 27 + 16) := by
    rw [p1, p2, z, X.add_fin,
      round64 (2 ^ 52 + 2 ^ 27 + 1) 2 (by norm_num) (by norm_num) (by norm_num) (by norm_num), X.add_fin]
    refine round64_of (2 ^ 52 + 9 * 2 ^ 24 + 2) 3 ?_ (by norm_num) (by norm_num) (by norm_num) (by norm_num)
    rw [rnd64_tie (2 ^ 52 + 9 * 2 ^ 24 + 1) 3 (by norm_num) (by rw [abs_of_pos (by norm_num)]; norm_num)
      (by rw [abs_of_pos (by norm_num)]; norm_num) (by norm_num), if_neg (by decide)]
    norm_num
  have spr : (X.fin (2 ^ 28 + 3) * X.fin (2 ^ 28 + 6) : X binary64) = X.fin (2 ^ 56 + 9 * 2 ^ 28 + 16) := by
    rw [X.mul_fin]
    refine round64_of (2 ^ 52 + 9 * 2 ^ 24 + 1) 4 ?_ (by norm_num) (by norm_num) (by norm_num) (by norm_num)
    rw [rnd64_near (2 ^ 52 + 9 * 2 ^ 24 + 1) 4 (by norm_num) (by rw [abs_of_pos (by norm_num)]; norm_num)
      (by rw [abs_of_pos (by norm_num)]; norm_num) (by rw [abs_lt]; constructor <;> norm_num)]
    norm_num
  have hcov : ((X.fin (2 ^ 55 + 9 * 2 ^ 27 + 16) - X.fin (2 ^ 28 + 3) * X.fin (2 ^ 28 + 6) / ofNat 2) / ofNat 2 : X binary64)
      = X.fin 4 := by
    rw [spr, ofNat64 (by norm_num), X.div_fin_of_ne _ (by norm_num),
      round64 (2 ^ 52 + 9 * 2 ^ 24 + 1) 3 (by norm_num) (by norm_num) (by norm_num) (by norm_num), X.sub_fin,
      round64_int 8 (by norm_num) (by norm_num), X.div_fin_of_ne _ (by norm_num), round64_int 4 (by norm_num) (by norm_num)]
    norm_num
  have m1 : (ofNat 0 + (X.fin (2 ^ 27 + 1) - ofNat 0) / ofNat 1 : X binary64) = X.fin (2 ^ 27 + 1) := by
    rw [z, ofNat64 (by norm_num), X.sub_fin, sub_zero, round64_int (2 ^ 27 + 1) (by norm_num) (by norm_num),
      X.div_fin_of_ne _ (by norm_num), Nat.cast_one, div_one, round64_int (2 ^ 27 + 1) (by norm_num) (by norm_num), X.add_fin,
      zero_add, round64_int (2 ^ 27 + 1) (by norm_num) (by norm_num)]
  have d1 : (X.fin (2 ^ 27 + 2) - X.fin (2 ^ 27 + 1) : X binary64) = X.fin 1 := by
    rw [X.sub_fin, round64_int 1 (by norm_num) (by norm_num)]; norm_num
  have m2 : (X.fin (2 ^ 27 + 1) + X.fin 1 / ofNat 2 : X binary64) = X.fin (2 ^ 27 + 3 / 2) := by
    rw [ofNat64 (by norm_num), X.div_fin_of_ne _ (by norm_num),
      round64 1 (-1) (by norm_num) (by norm_num) (by norm_num) (by norm_num), X.add_fin,
      round64 (2 ^ 28 + 3) (-1) (by norm_num) (by norm_num) (by norm_num) (by norm_num)]
    norm_num
  have hvar : (ofNat 0 + (X.fin (2 ^ 27 + 1) - ofNat 0) * (X.fin (2 ^ 27 + 1) - X.fin (2 ^ 27 + 1))
      + X.fin 1 * (X.fin (2 ^ 27 + 2) - X.fin (2 ^ 27 + 3 / 2)) : X binary64) = X.fin (1 / 2) := by
    rw [binary64_binary.sub_self, z, X.sub_fin, sub_zero, round64_int (2 ^ 27 + 1) (by norm_num) (by norm_num),
      binary64_binary.mul_zero, X.add_fin, add_zero, round64_int 0 (by norm_num) (by norm_num), X.sub_fin,
      round64 1 (-1) (by norm_num) (by norm_num) (by norm_num) (by norm_num), X.mul_fin, one_mul,
      round64 1 (-1) (by norm_num) (by norm_num) (by norm_num) (by norm_num), X.add_fin, zero_add,
      round64 1 (-1) (by norm_num) (by norm_num) (by norm_num) (by norm_num)]
    norm_num
  have hv : Scalar.max (ofNat 0) (X.fin (1 / 2) / ofNat 2 : X binary64) = X.fin (1 / 4) := by
    rw [z, ofNat64 (by norm_num), X.div_fin_of_ne _ (by norm_num),
      round64 1 (-2) (by norm_num) (by norm_num) (by norm_num) (by norm_num)]
    norm_num [Scalar.max, X.lt_fin]
  simp only [m1, d1, m2, hvar, sx, sy, sxy]
  show (if beq (Scalar.max (ofNat 0) (X.fin (1 / 2) / ofNat 2 : X binary64)) (ofNat 0) then (ofNat 0 : X binary64)
    else ((X.fin (2 ^ 55 + 9 * 2 ^ 27 + 16) - X.fin (2 ^ 28 + 3) * X.fin (2 ^ 28 + 6) / ofNat 2) / ofNat 2)
      / Scalar.max (ofNat 0) (X.fin (1 / 2) / ofNat 2)) = X.fin 16
  rw [hv, hcov, z, X.beq_fin, if_neg (by norm_num), X.div_fin_of_ne _ (by norm_num), round64_int 16 (by norm_num) (by norm_num)]
  norm_num

/-- C104 is violated by the window regression. -/
theorem C104_violated : ¬ C104_WindowStatement := by
  intro h
  obtain ⟨s, h1, h2⟩ := C104_window_slope
  obtain ⟨t, h3, h4⟩ := h 2 (by norm_num) [.push (2 ^ 27 + 1, 2 ^ 27 + 3), .push (2 ^ 27 + 2, 2 ^ 27 + 3)] (2 ^ 27 + 3)
    (double_data (by
      intro x hx
      have : x = 2 ^ 27 + 1 ∨ x = 2 ^ 27 + 2 := by simpa [sinceClear, Spec.xsOf] using hx
      rcases this with h | h
      · exact ⟨2 ^ 27 + 1, by rw [h]; norm_num, by norm_num⟩
      · exact ⟨2 ^ 27 + 2, by rw [h]; norm_num, by norm_num⟩))
    (double_data (by
      intro x hx
      have : x = 2 ^ 27 + 3 := by simpa [sinceClear, Spec.ysOf] using hx
      exact ⟨2 ^ 27 + 3, by rw [this]; norm_num, by norm_num⟩))
    (by simp [sinceClear])
  rw [h1, Option.some.injEq] at h3
  rw [← h3, h2, X.fin_inj] at h4
  norm_num at h4

/-- The parts of the regression. -/
theorem regression_parts (ops : List (Op (ℝ × ℝ))) :
    (Cumulative.Regression.run (finOps2 ops) : Cumulative.Regression w (X F))
      = { co := Cumulative.Comoment.run (finOps2 ops)
          x := Cumulative.Variance.run (finOps (ops.map (Op.map Prod.fst)))
          y := Cumulative.Variance.run (finOps (ops.map (Op.map Prod.snd))) } := by
  induction ops using List.reverseRecOn with
  | nil => rfl
  | append_singleton ops op ih =>
    simp only [finOps2, finOps, List.map_append, Cumulative.Regression.run, Cumulative.Comoment.run, Cumulative.Variance.run,
      runOps_append] at ih ⊢
    rw [ih]
    cases op <;> rfl

/-- A quotient of 0 by a variance. -/
theorem zero_div_variance (hF : F.Binary p emin) {v : X F} (h : le (ofNat 0) v = true) :
    (if beq v (ofNat 0) then (ofNat 0 : X F) else X.fin 0 / v) = X.fin 0 := by
  rw [hF.ofNat_zero] at h ⊢
  split_ifs with h0
  · rfl
  · cases v with
    | fin r =>
      have hr : r ≠ 0 := fun e => h0 (by rw [X.beq_fin]; simpa using e)
      rw [X.div_fin_of_ne _ hr, zero_div, hF.round_exact (isRep_zero _ _) hF.fits_zero]
    | pinf => rfl
    | ninf => cases h
    | nan => cases h

/-- C104, cumulative regression with a constant coordinate: the slope is exactly 0, and the prediction is the computed
mean of y, which is the constant if y is constant.  The window regression violates C104. -/
theorem C104_cumulative_partial (hF : F.Binary p emin) (ops : List (Op (ℝ × ℝ)))
    (hx : F.Data p emin (Spec.xsOf (sinceClear ops))) (hy : F.Data p emin (Spec.ysOf (sinceClear ops)))
    (hne : sinceClear ops ≠ []) (hw : (sinceClear ops).length < 2 ^ w) (hfit : F.fits (F.rnd (sinceClear ops).length))
    (hc : ConstantCoordinate (sinceClear ops)) :
    (Cumulative.Regression.run (finOps2 ops) : Cumulative.Regression w (X F)).slope = X.fin 0
    ∧ ∃ m : ℝ, (Cumulative.Mean.run (finOps (ops.map (Op.map Prod.snd))) : Cumulative.Mean w (X F)).getMean = X.fin m
      ∧ (∀ c, (∀ q ∈ sinceClear ops, q.2 = c) → m = c)
      ∧ ∀ t : ℝ, (∀ q ∈ sinceClear ops, F.fits (F.rnd (q.1 - t))) →
        (Cumulative.Regression.run (finOps2 ops) : Cumulative.Regression w (X F)).at' (X.fin t) = X.fin m := by
  have ex : sinceClear (ops.map (Op.map Prod.fst)) = Spec.xsOf (sinceClear ops) := sinceClear_map _ _
  have ey : sinceClear (ops.map (Op.map Prod.snd)) = Spec.ysOf (sinceClear ops) := sinceClear_map _ _
  have lx : (Spec.xsOf (sinceClear ops)).length = (sinceClear ops).length := List.length_map _
  have ly : (Spec.ysOf (sinceClear ops)).length = (sinceClear ops).length := List.length_map _
  have h1 : 1 ≤ (sinceClear ops).length := List.length_pos_iff.2 hne
  have hcov := (C66_constant_partial (w := w) hF ops hx hy hw hc).1
  have hvar := (C16_nonneg_partial (w := w) hF (ops.map (Op.map Prod.fst)) (by rw [ex]; exact hx) (by rw [ex, lx]; exact hw)).2.1
    (by rw [ex, lx]; exact h1) (by rw [ex, lx]; exact hfit)
  have hslope : (Cumulative.Regression.run (finOps2 ops) : Cumulative.Regression w (X F)).slope = X.fin 0 := by
    rw [regression_parts]
    simp only [Cumulative.Regression.slope]
    rw [hcov]
    exact zero_div_variance hF hvar
  obtain ⟨mx, hmx⟩ := Cumulative.Mean.rounded (w := w) hF _ hx (by omega)
  obtain ⟨my, hmy⟩ := Cumulative.Mean.rounded (w := w) hF _ hy (by omega)
  have hxrun : (Cumulative.Variance.run (finOps (ops.map (Op.map Prod.fst))) : Cumulative.Variance w (X F)).getMean = X.fin mx := by
    show (Cumulative.Variance.run _ : Cumulative.Variance w (X F)).super.mean = _
    rw [Cumulative.Variance.run_super, Cumulative.Mean.run_eq, sinceClear_finOps, ex]
    exact hmx.mean
  have hyrun : (Cumulative.Mean.run (finOps (ops.map (Op.map Prod.snd))) : Cumulative.Mean w (X F)).getMean = X.fin my := by
    rw [Cumulative.Mean.run_eq, sinceClear_finOps, ey]
    exact hmy.mean
  have hne' : Spec.ysOf (sinceClear ops) ≠ [] := by simpa [Spec.ysOf] using hne
  have hnex : Spec.xsOf (sinceClear ops) ≠ [] := by simpa [Spec.xsOf] using hne
  refine ⟨hslope, my, hyrun, ?_, ?_⟩
  · intro c hcc
    refine within_const (hmy.within hne') fun y hy => ?_
    obtain ⟨q, hq, rfl⟩ := List.mem_map.1 hy
    exact hcc q hq
  · intro t ht
    have hd : (X.fin mx - X.fin t : X F) = X.fin (F.rnd (mx - t)) := by
      rw [X.sub_fin, X.round, if_pos]
      obtain ⟨⟨a, ha, ham⟩, ⟨b, hb, hmb⟩⟩ := hmx.within hnex
      obtain ⟨qa, hqa, rfl⟩ := List.mem_map.1 ha
      obtain ⟨qb, hqb, rfl⟩ := List.mem_map.1 hb
      exact hF.fits_between (ht qa hqa) (ht qb hqb) (hF.mono (by linarith)) (hF.mono (by linarith))
    rw [Cumulative.Regression.at', hslope, regression_parts]
    simp only
    rw [hxrun, hd, hF.zero_mul, ← hF.ofNat_zero]
    have : (Cumulative.Variance.run (finOps (ops.map (Op.map Prod.snd))) : Cumulative.Variance w (X F)).getMean = X.fin my := by
      show (Cumulative.Variance.run _ : Cumulative.Variance w (X F)).super.mean = _
      rw [Cumulative.Variance.run_super]; exact hyrun
    rw [this, hF.ofNat_zero, hF.sub_zero hmy.rep hmy.fits]

/-- The points (1, 7), (2, 7), (6, 7) after another point, as `double`. -/
example : (Cumulative.Regression.run (finOps2 [.push (0, 1), .clear, .push (1, 7), .push (2, 7), .push (6, 7)])
    : Cumulative.Regression 64 (X binary64)).at' (X.fin 100) = X.fin 7 := by
  have hs : sinceClear ([.push (0, 1), .clear, .push (1, 7), .push (2, 7), .push (6, 7)] : List (Op (ℝ × ℝ)))
    = [(1, 7), (2, 7), (6, 7)] := rfl
  have h3 := binary64_int (n := 3) (by norm_num)
  push_cast at h3
  have hsub : ∀ n : Int, |n| ≤ 2 ^ 53 → binary64.fits (binary64.rnd (n : ℝ)) := fun n hn => by
    rw [binary64_binary.exact _ (binary64_int hn).1]; exact (binary64_int hn).2
  obtain ⟨-, m, -, h2, h4⟩ := C104_cumulative_partial (w := 64) binary64_binary
    [.push (0, 1), .clear, .push (1, 7), .push (2, 7), .push (6, 7)]
    (by rw [hs]; have := binary64_data [1, 2, 6] (by simp); simpa [Spec.xsOf] using this)
    (by rw [hs]; have := binary64_data [7, 7, 7] (by simp); simpa [Spec.ysOf] using this) (by rw [hs]; simp)
    (by rw [hs]; norm_num) (by rw [hs]; have := hsub 3 (by norm_num); simpa using this)
    (by rw [hs]; exact Or.inr ⟨7, by simp⟩)
  rw [h4 100, h2 7 (by rw [hs]; simp)]
  rw [hs]
  intro q hq
  simp only [List.mem_cons, List.not_mem_nil, or_false] at hq
  rcases hq with rfl | rfl | rfl
  · have := hsub (-99) (by norm_num); norm_num at this ⊢; exact this
  · have := hsub (-98) (by norm_num); norm_num at this ⊢; exact this
  · have := hsub (-94) (by norm_num); norm_num at this ⊢; exact this

end Verif.Props
