import Verif.Proofs.WindowRounded
import Verif.Proofs.Double
/-
C60 - C63: window filters compared with cumulative filters; rounding errors of the cumulative and window mean.
`F.Err u η`: an operation with exact result `r` has an error of at most `u |r| + η`.
-/
namespace Verif.Props
open Scalar

variable {w N : Nat} {F : Fmt} {p : Nat} {emin : Int} {u η : ℝ}

/-! ### C60 -/

/-- C60, any arithmetic: until more than `N` values are pushed, the window filters return bit for bit what the
cumulative filters return (for the variance: up to the `max` with 0, and 0 where the cumulative filter divides by
zero). -/
theorem C60_until_full {α : Type} [Scalar α] (hN : 1 ≤ N) (ops : List (Op α)) (hlen : (sinceClear ops).length ≤ N)
    (hw : (sinceClear ops).length < 2 ^ w) :
    let cm : Cumulative.Mean w α := Cumulative.Mean.run ops
    let cv : Cumulative.Variance w α := Cumulative.Variance.run ops
    ∃ (m : Window.Mean N α) (v : Window.Variance N α), Window.Mean.run ops = some m ∧ Window.Variance.run ops = some v
      ∧ m.getMean = cm.getMean ∧ v.getMean = cv.getMean
      ∧ m.size = cm.size.toNat ∧ v.size = cv.size.toNat
      ∧ (1 ≤ (sinceClear ops).length → v.variance = Scalar.max (ofNat 0) cv.variance)
      ∧ (2 ≤ (sinceClear ops).length → v.unbiasedVariance = Scalar.max (ofNat 0) cv.unbiasedVariance) := by
  intro cm cv
  obtain ⟨h1, h2⟩ := Window.Mean.until_full (N := N) (w := w) _ hlen hw
  obtain ⟨h3, h4⟩ := Window.Variance.until_full (N := N) (w := w) _ hlen hw
  have e1 : cm = (sinceClear ops).foldl Cumulative.Mean.push Cumulative.Mean.init := Cumulative.Mean.run_eq ops
  have e2 : cv = (sinceClear ops).foldl Cumulative.Variance.push Cumulative.Variance.init := Cumulative.Variance.run_eq ops
  rw [← e1] at h1 h2
  rw [← e2] at h3 h4
  refine ⟨_, _, (Window.Mean.run_eq hN ops).trans h1, (Window.Variance.run_eq hN ops).trans h3, rfl, rfl, ?_, ?_, ?_, ?_⟩
  · show (sinceClear ops).length = cm.count.toNat
    rw [h2, toNat_ofNat_lt hw]
  · show (sinceClear ops).length = cv.super.count.toNat
    rw [h4, toNat_ofNat_lt hw]
  · intro hl
    show (if (sinceClear ops).length > 0 then _ else _) = Scalar.max _ (cv.sumVariance / ofSize cv.super.count)
    rw [if_pos (show (sinceClear ops).length > 0 from hl), h4, ofSize, toNat_ofNat_lt hw]
    rfl
  · intro hl
    show (if (sinceClear ops).length > 1 then _ else _) = Scalar.max _ (cv.sumVariance / ofSize (cv.super.count - 1))
    have e : (cv.super.count - 1).toNat = (sinceClear ops).length - 1 := by
      rw [h4]
      have h1w : (1 : Nat) < 2 ^ w := by omega
      rw [BitVec.toNat_sub_of_le]
      · rw [toNat_ofNat_lt hw]
        have : (1 : BitVec w).toNat = 1 := by simp [Nat.mod_eq_of_lt h1w]
        rw [this]
      · rw [BitVec.le_def, toNat_ofNat_lt hw]
        have : (1 : BitVec w).toNat = 1 := by simp [Nat.mod_eq_of_lt h1w]
        rw [this]; omega
    rw [if_pos (show (sinceClear ops).length > 1 from hl), ofSize, e]
    rfl

/-- `double` values 1, 2, 6 in a window of 4. -/
example : ∃ m : Window.Mean 4 (X binary64), Window.Mean.run (finOps [.push 100, .clear, .push 1, .push 2, .push 6]) = some m
    ∧ m.getMean = (Cumulative.Mean.run (finOps [.push 100, .clear, .push 1, .push 2, .push 6]) : Cumulative.Mean 64 (X binary64)).getMean
    ∧ m.size = 3 := by
  obtain ⟨m, v, h1, -, h2, -, h3, -⟩ := C60_until_full (N := 4) (w := 64) (α := X binary64) (by norm_num)
    (finOps [.push 100, .clear, .push 1, .push 2, .push 6]) (by rw [sinceClear_finOps]; simp [sinceClear])
    (by rw [sinceClear_finOps]; simp [sinceClear])
  exact ⟨m, h1, h2, h3.trans rfl⟩

/-! ### C61 -/

/-- The error model holds for every rounding direction, and for `double` and `float` with half a unit in the last place. -/
theorem C61_error_model (h : F.Binary p emin) (hp : 4 ≤ p) : F.Err (2 ^ (1 - (p : Int))) (2 ^ emin) := h.err hp
theorem C61_binary64 : binary64.Err (2 ^ (-53 : Int)) (2 ^ (-1075 : Int)) := binary64_err
theorem C61_binary32 : binary32.Err (2 ^ (-24 : Int)) (2 ^ (-150 : Int)) := binary32_err

/-- C61: the rounding error of the cumulative mean of `n` values of size at most `B` is at most
`((n + 1) / 2 + 5) u B` plus underflow terms. -/
theorem C61_mean_error (hF : F.Binary p emin) (hE : F.Err u η) (ops : List (Op ℝ)) (hd : F.Data p emin (sinceClear ops))
    (hn : sinceClear ops ≠ []) (hw : (sinceClear ops).length < 2 ^ w) (hp : (sinceClear ops).length ≤ 2 ^ p)
    (hfit : F.fits ((sinceClear ops).length : ℝ)) {B : ℝ} (hB : ∀ x ∈ sinceClear ops, |x| ≤ B) :
    ∃ m : ℝ, (Cumulative.Mean.run (finOps ops) : Cumulative.Mean w (X F)).getMean = X.fin m
      ∧ |m - Spec.mean (sinceClear ops)|
        ≤ (((sinceClear ops).length + 1) / 2 + 5) * (u * B) + (3 * ((sinceClear ops).length + 1) / 2 + 2) * η := by
  rw [Cumulative.Mean.run_eq, sinceClear_finOps]
  obtain ⟨m, hm, he⟩ := Cumulative.Mean.rounded_err (w := w) hF hE _ hd hw hp hfit hB
  refine ⟨m, hm.mean, ?_⟩
  have hpos : (0 : ℝ) < (sinceClear ops).length := by exact_mod_cast List.length_pos_iff.2 hn
  refine le_of_mul_le_mul_left (he.trans (le_of_eq ?_)) hpos
  ring

/-- The mean of the `double` values 1, 2, 6 has an error of at most `42 * 2^-53` (plus underflow). -/
example : ∃ m : ℝ, (Cumulative.Mean.run (finOps [.push 100, .clear, .push 1, .push 2, .push 6]) : Cumulative.Mean 64 (X binary64)).getMean = X.fin m
    ∧ |m - 3| ≤ 42 * 2 ^ (-53 : Int) + 8 * 2 ^ (-1075 : Int) := by
  have hd : binary64.Data 53 (-1074) (sinceClear ([.push 100, .clear, .push 1, .push 2, .push 6] : List (Op ℝ))) := by
    have := binary64_data [1, 2, 6] (by simp)
    simpa [sinceClear] using this
  have hs : sinceClear ([.push 100, .clear, .push 1, .push 2, .push 6] : List (Op ℝ)) = [1, 2, 6] := rfl
  obtain ⟨m, h1, h2⟩ := C61_mean_error (w := 64) binary64_binary C61_binary64 _ hd (by simp [sinceClear]) (by simp [sinceClear])
    (by simp [sinceClear]) (by rw [hs]; exact (binary64_int (n := 3) (by norm_num)).2) (B := 6)
    (by
      intro x hx
      rw [hs] at hx
      have : x = 1 ∨ x = 2 ∨ x = 6 := by simpa using hx
      rcases this with rfl | rfl | rfl <;> norm_num)
  refine ⟨m, h1, ?_⟩
  rw [hs] at h2
  have e : Spec.mean [1, 2, 6] = 3 := by simp [Spec.mean]; norm_num
  rw [e] at h2
  refine h2.trans (le_of_eq ?_)
  simp only [List.length_cons, List.length_nil]
  push_cast
  ring

/-! ### C62 -/

/-- C62: the error of the window mean grows at most linearly with the number `t` of values pushed since the last
`clear`. -/
theorem C62_window_drift (hF : F.Binary p emin) (hE : F.Err u η) (hN : 1 ≤ N) (hp : N ≤ 2 ^ p) (hfit : F.fits (N : ℝ))
    {B K : ℝ} (hK : IsRep p emin K) (hKf : F.fits K) (hBK : 8 * B ≤ K) (ops : List (Op ℝ))
    (hB : ∀ x ∈ sinceClear ops, |x| ≤ B) (ht : (sinceClear ops).length * (12 * (u * B) + 5 * η) ≤ B) :
    ∃ (s : Window.Mean N (X F)) (m : ℝ), Window.Mean.run (finOps ops) = some s ∧ s.getMean = X.fin m
      ∧ |m - Spec.mean (Spec.lastN N (sinceClear ops))| ≤ (sinceClear ops).length * (12 * (u * B) + 5 * η) := by
  obtain ⟨m, h1, h2⟩ := Window.Mean.drift hF hE hN hp hfit hK hKf hBK _ hB ht
  exact ⟨_, m, by rw [Window.Mean.run_eq hN, sinceClear_finOps, h1], rfl, h2⟩

/-- `double`, window of 2, values 1, 2, 6, 4. -/
example : ∃ (s : Window.Mean 2 (X binary64)) (m : ℝ), Window.Mean.run (finOps [.push 1, .push 2, .push 6, .push 4]) = some s
    ∧ s.getMean = X.fin m ∧ |m - 5| ≤ 4 * (12 * (2 ^ (-53 : Int) * 6) + 5 * 2 ^ (-1075 : Int)) := by
  have hs : sinceClear ([.push 1, .push 2, .push 6, .push 4] : List (Op ℝ)) = [1, 2, 6, 4] := rfl
  have hη : (2 : ℝ) ^ (-1075 : Int) ≤ 2 ^ (-53 : Int) := zpow_le_zpow_right₀ (by norm_num) (by norm_num)
  have h48 := (binary64_int (n := 48) (by norm_num))
  push_cast at h48
  obtain ⟨s, m, h1, h2, h3⟩ := C62_window_drift (N := 2) (B := 6) (K := 48) binary64_binary C61_binary64 (by norm_num)
    (by norm_num) (binary64_int (n := 2) (by norm_num)).2 h48.1 h48.2 (by norm_num) [.push 1, .push 2, .push 6, .push 4]
    (by
      intro x hx
      rw [hs] at hx
      have : x = 1 ∨ x = 2 ∨ x = 6 ∨ x = 4 := by simpa using hx
      rcases this with rfl | rfl | rfl | rfl <;> norm_num)
    (by
      rw [hs]
      simp only [List.length_cons, List.length_nil]
      push_cast
      have h0 : (2 : ℝ) ^ (-53 : Int) ≤ 1 / 1000 := by norm_num
      have key : ∀ a b : ℝ, b ≤ a → a ≤ 1 / 1000 → 4 * (12 * (a * 6) + 5 * b) ≤ 6 := by
        intros; linarith
      exact key _ _ hη h0)
  refine ⟨s, m, h1, h2, ?_⟩
  rw [hs] at h3
  have e : Spec.mean (Spec.lastN 2 [1, 2, 6, 4]) = 5 := by simp [Spec.lastN, Spec.mean]; norm_num
  rw [e] at h3
  refine h3.trans (le_of_eq ?_)
  simp only [List.length_cons, List.length_nil]
  push_cast
  ring

/-! ### C63 -/

/-- C63 as stated: the window mean of `double` values lies between the smallest and the largest value in the window. -/
def C63_Statement : Prop :=
  ∀ (N : Nat), 1 ≤ N → ∀ ops : List (Op ℝ), binary64.Data 53 (-1074) (sinceClear ops) → sinceClear ops ≠ [] →
    ∃ (s : Window.Mean N (X binary64)) (m : ℝ), Window.Mean.run (finOps ops) = some s ∧ s.getMean = X.fin m
      ∧ (∃ x ∈ Spec.lastN N (sinceClear ops), x ≤ m) ∧ (∃ y ∈ Spec.lastN N (sinceClear ops), m ≤ y)

theorem one_sub_huge : (X.fin 1 - X.fin (2 ^ 60) : X binary64) = X.fin (-2 ^ 60) := by
  rw [X.sub_fin]
  refine round64_of (-1) 60 ?_ (by norm_num) (by norm_num) (by norm_num) (by norm_num)
  rw [rnd64_near (-2 ^ 53) 7 (by norm_num) (by rw [abs_div, abs_of_neg (by norm_num)]; norm_num)
    (by rw [abs_div, abs_of_neg (by norm_num)]; norm_num) (by rw [abs_lt]; norm_num)]
  norm_num

/-- A window of 2 after `2^60, 0, 1, 1` holds `1, 1` and has mean 1/2. -/
theorem window_lost :
    (Window.Mean.run (finOps [.push (2 ^ 60), .push 0, .push 1, .push 1]) : Option (Window.Mean 2 (X binary64)))
      = some { window := ⟨[X.fin 1, X.fin 1]⟩, mean := X.fin (1 / 2) } := by
  have b := binary64_binary
  have hr := double 1 60 (by norm_num) (by norm_num) (by norm_num)
  have hrr : ((1 : Int) : ℝ) * 2 ^ (60 : Int) = 2 ^ 60 := by norm_num
  rw [hrr] at hr
  have s0 : (Window.Mean.init : Window.Mean 2 (X binary64)) = { window := ⟨[]⟩, mean := X.fin 0 } := by
    simp only [Window.Mean.init, Window.Ring.init, b.ofNat_zero]
  have s1 : (⟨⟨[]⟩, X.fin 0⟩ : Window.Mean 2 (X binary64)).push (X.fin (2 ^ 60))
      = some ⟨⟨[X.fin (2 ^ 60)]⟩, X.fin (2 ^ 60)⟩ := by
    show some (Window.Mean.mk _ (X.fin 0 + (X.fin (2 ^ 60) - X.fin 0) / ofNat 1)) = _
    rw [b.sub_zero hr.1 hr.2, b.div_one hr.1 hr.2, b.zero_add hr.1 hr.2]
    rfl
  have s2 : (⟨⟨[X.fin (2 ^ 60)]⟩, X.fin (2 ^ 60)⟩ : Window.Mean 2 (X binary64)).push (X.fin 0)
      = some ⟨⟨[X.fin (2 ^ 60), X.fin 0]⟩, X.fin (2 ^ 59)⟩ := by
    show some (Window.Mean.mk _ (X.fin (2 ^ 60) + (X.fin 0 - X.fin (2 ^ 60)) / ofNat 2)) = _
    rw [X.sub_fin, round64 (-1) 60 (by norm_num) (by norm_num) (by norm_num) (by norm_num), ofNat64 (by norm_num),
      X.div_fin_of_ne _ (by norm_num), round64 (-1) 59 (by norm_num) (by norm_num) (by norm_num) (by norm_num), X.add_fin,
      round64 1 59 (by norm_num) (by norm_num) (by norm_num) (by norm_num)]
    norm_num
    rfl
  have s3 : (⟨⟨[X.fin (2 ^ 60), X.fin 0]⟩, X.fin (2 ^ 59)⟩ : Window.Mean 2 (X binary64)).push (X.fin 1)
      = some ⟨⟨[X.fin 0, X.fin 1]⟩, X.fin 0⟩ := by
    show some (Window.Mean.mk _ (X.fin (2 ^ 59) + (X.fin 1 - X.fin (2 ^ 60)) / ofNat 2)) = _
    rw [one_sub_huge, ofNat64 (by norm_num), X.div_fin_of_ne _ (by norm_num),
      round64 (-1) 59 (by norm_num) (by norm_num) (by norm_num) (by norm_num), X.add_fin,
      round64_int 0 (by norm_num) (by norm_num)]
    norm_num
    rfl
  have s4 : (⟨⟨[X.fin 0, X.fin 1]⟩, X.fin 0⟩ : Window.Mean 2 (X binary64)).push (X.fin 1)
      = some ⟨⟨[X.fin 1, X.fin 1]⟩, X.fin (1 / 2)⟩ := by
    show some (Window.Mean.mk _ (X.fin 0 + (X.fin 1 - X.fin 0) / ofNat 2)) = _
    rw [b.sub_zero b.isRep_one b.fits_one, ofNat64 (by norm_num), X.div_fin_of_ne _ (by norm_num),
      round64 1 (-1) (by norm_num) (by norm_num) (by norm_num) (by norm_num), X.add_fin,
      round64 1 (-1) (by norm_num) (by norm_num) (by norm_num) (by norm_num)]
    norm_num
    rfl
  show ((((Window.Mean.init : Window.Mean 2 (X binary64)).push (X.fin (2 ^ 60))).bind (Window.Mean.push · (X.fin 0))).bind (Window.Mean.push · (X.fin 1))).bind
    (Window.Mean.push · (X.fin 1)) = _
  rw [s0, s1, Option.bind_some, s2, Option.bind_some, s3, Option.bind_some, s4]

/-- C63 is violated: a large value cancels the digits of the others, and they stay lost after it has left the
window. -/
theorem C63_within_violated : ¬ C63_Statement := by
  intro h
  have hs : sinceClear ([.push (2 ^ 60), .push 0, .push 1, .push 1] : List (Op ℝ)) = [2 ^ 60, 0, 1, 1] := rfl
  have hl : Spec.lastN 2 ([2 ^ 60, 0, 1, 1] : List ℝ) = [1, 1] := rfl
  have hmem : ∀ x ∈ ([2 ^ 60, 0, 1, 1] : List ℝ), x = 2 ^ 60 ∨ x = 0 ∨ x = 1 := by
    intro x hx
    simp only [List.mem_cons, List.not_mem_nil, or_false] at hx
    tauto
  have hr := double 1 60 (by norm_num) (by norm_num) (by norm_num)
  have hrr : ((1 : Int) : ℝ) * 2 ^ (60 : Int) = 2 ^ 60 := by norm_num
  rw [hrr] at hr
  have b := binary64_binary
  obtain ⟨s, m, h1, h2, ⟨x, hx, h3⟩, -⟩ := h 2 (by norm_num) [.push (2 ^ 60), .push 0, .push 1, .push 1]
    (by
      rw [hs]
      refine ⟨fun x hx => ?_, fun x hx y hy => ?_⟩
      · rcases hmem x hx with rfl | rfl | rfl
        · exact hr
        · exact ⟨isRep_zero _ _, b.fits_zero⟩
        · exact ⟨b.isRep_one, b.fits_one⟩
      · have h0 : ∀ z ∈ ([2 ^ 60, 0, 1, 1] : List ℝ), 0 ≤ z ∧ z ≤ 2 ^ 60 := by
          intro z hz
          rcases hmem z hz with rfl | rfl | rfl <;> norm_num
        refine b.fits_between (b.fits_neg hr.2) hr.2 (b.le_rnd hr.1.neg ?_) (b.rnd_le hr.1 ?_) <;>
          linarith [h0 x hx, h0 y hy])
    (by rw [hs]; simp)
  rw [window_lost] at h1
  injection h1 with h1
  rw [← h1] at h2
  change X.fin (1 / 2) = X.fin m at h2
  injection h2 with h2
  rw [hs, hl] at hx
  have : x = 1 := by simpa using hx
  rw [this, ← h2] at h3
  norm_num at h3

/-- C63, the part that holds: until the window is full (any format, any rounding direction).  After that only the bound
of C62 holds. -/
theorem C63_within_partial (hF : F.Binary p emin) (hN : 1 ≤ N) (ops : List (Op ℝ)) (hd : F.Data p emin (sinceClear ops))
    (hne : sinceClear ops ≠ []) (hlen : (sinceClear ops).length ≤ N) :
    ∃ (s : Window.Mean N (X F)) (m : ℝ), Window.Mean.run (finOps ops) = some s ∧ s.getMean = X.fin m
      ∧ (∃ x ∈ Spec.lastN N (sinceClear ops), x ≤ m) ∧ (∃ y ∈ Spec.lastN N (sinceClear ops), m ≤ y) := by
  obtain ⟨w, hw⟩ : ∃ w, (sinceClear ops).length < 2 ^ w := ⟨_, Nat.lt_two_pow_self⟩
  have hl : (sinceClear (finOps ops : List (Op (X F)))).length = (sinceClear ops).length := by
    rw [sinceClear_finOps, List.length_map]
  obtain ⟨s, v, h1, -, h2, -⟩ := C60_until_full (w := w) hN (finOps ops : List (Op (X F))) (by rw [hl]; exact hlen)
    (by rw [hl]; exact hw)
  obtain ⟨m, hm⟩ := Cumulative.Mean.rounded (w := w) hF _ hd hw
  refine ⟨s, m, h1, ?_, ?_⟩
  · rw [h2, Cumulative.Mean.run_eq, sinceClear_finOps]; exact hm.mean
  · rw [Spec.lastN_of_le hlen]
    exact hm.within hne

/-- `double` values 1, 2, 6 in a window of 3. -/
example : ∃ (s : Window.Mean 3 (X binary64)) (m : ℝ), Window.Mean.run (finOps [.push 1, .push 2, .push 6]) = some s
    ∧ s.getMean = X.fin m ∧ 1 ≤ m ∧ m ≤ 6 := by
  have hs : sinceClear ([.push 1, .push 2, .push 6] : List (Op ℝ)) = [1, 2, 6] := rfl
  have hmem : ∀ x ∈ Spec.lastN 3 ([1, 2, 6] : List ℝ), 1 ≤ x ∧ x ≤ 6 := by
    intro x hx
    have : x = 1 ∨ x = 2 ∨ x = 6 := by simpa [Spec.lastN] using hx
    rcases this with rfl | rfl | rfl <;> norm_num
  obtain ⟨s, m, h1, h2, ⟨x, hx, hxm⟩, ⟨y, hy, hmy⟩⟩ := C63_within_partial (N := 3) binary64_binary (by norm_num)
    [.push 1, .push 2, .push 6]
    (by
      have := binary64_data [1, 2, 6] (by simp)
      simpa [sinceClear] using this) (by rw [hs]; simp) (by rw [hs]; simp)
  exact ⟨s, m, h1, h2, (hmem x hx).1.trans hxm, hmy.trans (hmem y hy).2⟩

end Verif.Props
