import Verif.Props.Rounded
import Verif.Props.CumulativeMoments
import Verif.Props.Monotone
import Verif.Proofs.PSquareOrder
/-
C192: a variance of zero means that all values are equal.
-/
namespace Verif.Props
open Scalar Cumulative

variable {F : Fmt} {p : Nat} {emin : Int} {w : Nat}

/-- `+inf` or a number of the format that is at least `σ`. -/
def SumAtLeast (F : Fmt) (p : Nat) (emin : Int) (σ : ℝ) (x : X F) : Prop :=
  x = X.pinf ∨ ∃ s : ℝ, σ ≤ s ∧ IsRep p emin s ∧ F.fits s ∧ x = X.fin s

theorem SumAtLeast.nonNeg {σ : ℝ} (hσ : 0 ≤ σ) {x : X F} (h : SumAtLeast F p emin σ x) : NonNeg F p emin x := by
  rcases h with h | ⟨s, h1, h2, h3, h4⟩
  · exact Or.inl h
  · exact Or.inr ⟨s, hσ.trans h1, h2, h3, h4⟩

theorem atLeast_round (hF : F.Binary p emin) {σ r : ℝ} (h0 : 0 ≤ σ) (hσ : IsRep p emin σ) (h : σ ≤ r) :
    SumAtLeast F p emin σ (X.round r) := by
  rcases hF.round_nonneg (h0.trans h) with e | ⟨d, -, h2, h3, h4, h5⟩
  · exact Or.inl e
  · exact Or.inr ⟨d, by rw [h4]; exact hF.le_rnd hσ h, h2, h3, h5⟩

theorem SumAtLeast.add_left (hF : F.Binary p emin) {σ : ℝ} (h0 : 0 ≤ σ) (hσ : IsRep p emin σ) {x y : X F}
    (hx : SumAtLeast F p emin σ x) (hy : NonNeg F p emin y) : SumAtLeast F p emin σ (x + y) := by
  rcases hx with rfl | ⟨s, h1, -, -, rfl⟩
  · rcases hy with rfl | ⟨t, -, -, -, rfl⟩ <;> exact Or.inl rfl
  · rcases hy with rfl | ⟨t, g1, -, -, rfl⟩
    · exact Or.inl rfl
    · rw [X.add_fin]; exact atLeast_round hF h0 hσ (by linarith)

theorem SumAtLeast.add_right (hF : F.Binary p emin) {σ : ℝ} (h0 : 0 ≤ σ) (hσ : IsRep p emin σ) {x y : X F}
    (hx : NonNeg F p emin x) (hy : SumAtLeast F p emin σ y) : SumAtLeast F p emin σ (x + y) := by
  rcases hx with rfl | ⟨s, h1, -, -, rfl⟩
  · rcases hy with rfl | ⟨t, -, -, -, rfl⟩ <;> exact Or.inl rfl
  · rcases hy with rfl | ⟨t, g1, -, -, rfl⟩
    · exact Or.inl rfl
    · rw [X.add_fin]; exact atLeast_round hF h0 hσ (by linarith)

/-- The values are integer multiples of `2^e`, with at most `p - 2` binary digits. -/
def OnGrid (p : Nat) (e : Int) (xs : List ℝ) : Prop := ∀ x ∈ xs, ∃ k : Int, x = k * 2 ^ e ∧ 4 * |k| ≤ 2 ^ p

/-- Half of a small integer multiple of `2^e` is a number of the format. -/
theorem isRep_half {e k : Int} (he : emin + 1 ≤ e) (hk : |k| < 2 ^ p) : IsRep p emin (k * 2 ^ e / 2) := by
  refine ⟨k, e - 1, ?_, hk, by omega⟩
  rw [zpow_sub_one₀ (by norm_num)]; ring

/-- A mean `m` of equal values and a new value `x`: the new mean goes at most half of the way. -/
theorem mean_half (hF : F.Binary p emin) {m x : ℝ} (hm : IsRep p emin m) (hmf : F.fits m)
    (hd : F.fits (F.rnd (x - m))) (h1 : IsRep p emin (x - m)) (h2 : IsRep p emin ((x - m) / 2)) (h3 : IsRep p emin ((m + x) / 2))
    {d : X F} (hdiv : d = X.pinf ∨ ∃ n : ℝ, 2 ≤ n ∧ d = X.fin n) {m' : ℝ}
    (he : (X.fin m + (X.fin x - X.fin m) / d : X F) = X.fin m') :
    (m ≤ x → m' ≤ (m + x) / 2) ∧ (x ≤ m → (m + x) / 2 ≤ m') := by
  have e : (X.fin x - X.fin m : X F) = X.fin (x - m) := by
    rw [X.sub_fin, hF.round_exact h1 (by rwa [hF.exact _ h1] at hd)]
  rw [e] at he
  rw [hF.exact _ h1] at hd
  rcases hdiv with rfl | ⟨n, hn, rfl⟩
  · have : (X.fin (x - m) / X.pinf : X F) = X.fin 0 := rfl
    rw [this, X.add_fin, add_zero, hF.round_exact hm hmf] at he
    cases he
    exact ⟨fun h => by linarith, fun h => by linarith⟩
  · have up : 0 ≤ x - m → 0 ≤ F.rnd ((x - m) / n) ∧ F.rnd ((x - m) / n) ≤ (x - m) / 2 := fun h =>
      ⟨hF.rnd_nonneg (by positivity), hF.rnd_le h2 (by gcongr)⟩
    have dn : x - m ≤ 0 → F.rnd ((x - m) / n) ≤ 0 ∧ (x - m) / 2 ≤ F.rnd ((x - m) / n) := fun h =>
      ⟨hF.rnd_nonpos (div_nonpos_of_nonpos_of_nonneg h (by linarith)), hF.le_rnd h2 (by
        rw [le_div_iff₀ (by linarith)]; nlinarith)⟩
    have hq : F.fits (F.rnd ((x - m) / n)) := by
      rcases le_total 0 (x - m) with h0 | h0
      · exact hF.fits_between hF.fits_zero hd (up h0).1 ((up h0).2.trans (by linarith))
      · exact hF.fits_between hd hF.fits_zero (by have := (dn h0).2; linarith) (dn h0).1
    rw [X.div_fin_of_ne _ (by linarith)] at he
    unfold X.round at he
    rw [if_pos hq, X.add_fin] at he
    unfold X.round at he
    split_ifs at he
    cases he
    exact ⟨fun h => hF.rnd_le h3 (by have := (up (by linarith)).2; linarith),
      fun h => hF.le_rnd h3 (by have := (dn (by linarith)).2; linarith)⟩

/-- The sum of squares of values that are not all equal. -/
theorem sum_atLeast (hF : F.Binary p emin) {e : Int} (he : emin + 1 ≤ e) (he2 : emin + 1 ≤ 2 * e) (xs : List ℝ)
    (hd : F.Data p emin xs) (hg : OnGrid p e xs) (hw : xs.length < 2 ^ w) (hne : ¬ ∀ x ∈ xs, ∀ y ∈ xs, x = y) :
    SumAtLeast F p emin (2 ^ (2 * e - 1)) ((xs.map X.fin).foldl Variance.push (Variance.init (w := w) (α := X F))).sumVariance := by
  have hp := hF.digits
  have hσ : IsRep p emin ((2 : ℝ) ^ (2 * e - 1)) := isRep_zpow (by omega) (by omega)
  have hσ0 : (0 : ℝ) < 2 ^ (2 * e - 1) := by positivity
  induction xs using List.reverseRecOn with
  | nil => simp at hne
  | append_singleton xs x ih =>
    rw [List.length_append, List.length_singleton] at hw
    obtain ⟨⟨m, hm⟩, hv⟩ := Variance.rounded (w := w) hF xs hd.init (by omega)
    rw [List.map_append, List.map_singleton, List.foldl_append]
    have ih := ih hd.init (fun y hy => hg y (List.mem_append_left _ hy)) (by omega)
    generalize (xs.map X.fin).foldl Variance.push (Variance.init (w := w) (α := X F)) = s at *
    obtain ⟨m', h1, h2, h3, h4, -⟩ := hm.push hF hd hw
    have es : (s.push (X.fin x)).sumVariance = s.sumVariance + X.fin (F.rnd (x - m)) * X.fin (F.rnd (x - m')) := by
      show s.sumVariance + (X.fin x - s.super.mean) * (X.fin x - (s.super.push (X.fin x)).mean) = _
      rw [h1.mean, hm.mean, h2, h3]
    show SumAtLeast F p emin _ (s.push (X.fin x)).sumVariance
    rw [es]
    by_cases hall : ∀ y ∈ xs, ∀ z ∈ xs, y = z
    · -- the first value that differs
      have hxs : xs ≠ [] := by
        rintro rfl
        refine hne ?_
        simp
      obtain ⟨⟨a, ha, ham⟩, ⟨b, hb, hmb⟩⟩ := hm.within hxs
      have hma : m = a := by rw [hall b hb a ha] at hmb; exact le_antisymm hmb ham
      have hmx : m ≠ x := by
        rintro rfl
        refine hne fun y hy z hz => ?_
        have : ∀ y ∈ xs ++ [m], y = m := by
          intro y hy
          rcases List.mem_append.1 hy with h | h
          · rw [hall y h a ha, hma]
          · simpa using h
        rw [this y hy, this z hz]
      obtain ⟨k, hk, hk4⟩ := hg m (by rw [hma]; exact List.mem_append_left _ ha)
      obtain ⟨l, hl, hl4⟩ := hg x (by simp)
      have hkl : |l - k| < 2 ^ p := by
        have := abs_sub l k
        have h2p : (0 : Int) < 2 ^ p := by positivity
        omega
      have hkl' : |k + l| < 2 ^ p := by
        have := abs_add_le k l
        have h2p : (0 : Int) < 2 ^ p := by positivity
        omega
      have r1 : IsRep p emin (x - m) := ⟨l - k, e, by rw [hk, hl]; push_cast; ring, hkl, by omega⟩
      have r2 : IsRep p emin ((x - m) / 2) := by
        have := isRep_half (p := p) he hkl
        rwa [show ((l - k : Int) : ℝ) * 2 ^ e / 2 = (x - m) / 2 by rw [hk, hl]; push_cast; ring] at this
      have r3 : IsRep p emin ((m + x) / 2) := by
        have := isRep_half (p := p) he hkl'
        rwa [show ((k + l : Int) : ℝ) * 2 ^ e / 2 = (m + x) / 2 by rw [hk, hl]; push_cast; ring] at this
      have hlk : l ≠ k := by rintro rfl; exact hmx (hk.trans hl.symm)
      have hdist : (2 : ℝ) ^ e ≤ |x - m| := by
        rw [hk, hl, ← sub_mul, abs_mul, abs_of_pos (by positivity : (0 : ℝ) < 2 ^ e)]
        have : (1 : ℝ) ≤ |(l : ℝ) - k| := by
          have : (1 : Int) ≤ |l - k| := Int.one_le_abs (sub_ne_zero.2 hlk)
          exact_mod_cast this
        nlinarith [show (0 : ℝ) < 2 ^ e by positivity]
      have hfd : F.fits (F.rnd (x - m)) := hd.difference x (by simp) m (by rw [hma]; exact List.mem_append_left _ ha)
      have hof : (ofSize (s.super.count + 1) : X F) = ofNat (xs.length + 1) := by
        rw [hm.count, ofNat_add_one, ofSize, toNat_ofNat_lt hw]
      have hlen : 2 ≤ xs.length + 1 := by have := List.length_pos_iff.2 hxs; omega
      have hmean : (X.fin m + (X.fin x - X.fin m) / ofNat (xs.length + 1) : X F) = X.fin m' := by
        have := h1.mean
        rw [← this]
        show _ = s.super.mean + (X.fin x - s.super.mean) / ofSize (s.super.count + 1)
        rw [hof, hm.mean]
      obtain ⟨hup, hdn⟩ := mean_half hF hm.rep hm.fits hfd r1 r2 r3 (hF.ofNat_two_le hlen) hmean
      have hz : (2 : ℝ) ^ (2 * e - 1) = 2 ^ e * 2 ^ (e - 1) := by
        rw [← zpow_add₀ (by norm_num)]; congr 1; ring
      have hzh : (2 : ℝ) ^ (e - 1) = 2 ^ e / 2 := by rw [zpow_sub_one₀ (by norm_num)]; ring
      have hre : IsRep p emin ((2 : ℝ) ^ (e - 1)) := isRep_zpow (by omega) (by omega)
      have hpe : (0 : ℝ) < 2 ^ e := by positivity
      refine SumAtLeast.add_right hF hσ0.le hσ hv ?_
      rw [X.mul_fin, hF.exact _ r1]
      refine atLeast_round hF hσ0.le hσ ?_
      rw [hz]
      rcases lt_or_gt_of_ne hmx with h | h
      · rw [abs_of_pos (by linarith)] at hdist
        have hx' := hup h.le
        exact mul_le_mul hdist (hF.le_rnd hre (by linarith)) (by positivity) (by linarith)
      · rw [abs_of_neg (by linarith)] at hdist
        have hx' := hdn h.le
        have h5 := hF.rnd_le hre.neg (show x - m' ≤ -2 ^ (e - 1) by linarith)
        rw [← neg_mul_neg (x - m)]
        exact mul_le_mul (by linarith) (by linarith) (by positivity) (by linarith)
    · exact SumAtLeast.add_left hF hσ0.le hσ (ih hall) (nonNeg_mul hF h4)

/-- A large sum divided by a count is positive. -/
theorem SumAtLeast.div_pos (hF : F.Binary p emin) {k : Int} {j n : Nat} (hn : 1 ≤ n) (hnj : n ≤ 2 ^ j) (hf : F.fits (F.rnd n))
    (hk : emin + j ≤ k) {x : X F} (h : SumAtLeast F p emin (2 ^ k) x) : lt (ofNat 0) (x / ofNat n) = true := by
  have hp := hF.digits
  have he := hF.emin_le
  have h1 : (ofNat n : X F) = X.fin (F.rnd n) := by
    rw [X.ofNat_eq]; unfold X.round; rw [if_pos hf]
  have h2 : 1 ≤ F.rnd (n : ℝ) := hF.le_rnd hF.isRep_one (by exact_mod_cast hn)
  have h3 : F.rnd (n : ℝ) ≤ 2 ^ (j : Int) := hF.rnd_le (isRep_zpow (by omega) (by omega)) (by
    rw [zpow_natCast]; exact_mod_cast hnj)
  rw [h1, hF.ofNat_zero]
  rcases h with rfl | ⟨s, g1, -, -, rfl⟩
  · show lt (X.fin 0 : X F) (if F.rnd (n : ℝ) < 0 then X.ninf else X.pinf : X F) = true
    rw [if_neg (by linarith)]; rfl
  · rw [X.div_fin_of_ne _ (by linarith)]
    have h4 : (2 : ℝ) ^ (k - j) ≤ s / F.rnd n := by
      rw [zpow_sub₀ (by norm_num)]
      exact div_le_div₀ (le_trans (by positivity) g1) g1 (by linarith) h3
    rcases atLeast_round hF (by positivity) (isRep_zpow (by omega) (by omega)) h4 with e | ⟨t, t1, -, -, e⟩
    · rw [e]; rfl
    · rw [e, X.lt_fin]
      exact decide_eq_true (lt_of_lt_of_le (by positivity) t1)

/-- The full statement of C192 for one format: the variance of numbers of the format is zero only if they are all equal. -/
def C192_Statement (F : Fmt) (p : Nat) (emin : Int) (w : Nat) : Prop :=
  ∀ ops : List (Op ℝ), sinceClear ops ≠ [] → F.Data p emin (sinceClear ops) → (sinceClear ops).length < 2 ^ w →
    F.fits (F.rnd (sinceClear ops).length) →
    ((Variance.run (finOps ops) : Variance w (X F)).variance = X.fin 0 ↔ ∀ x ∈ sinceClear ops, ∀ y ∈ sinceClear ops, x = y)

/-- C192 for multiples of `2^e` with at most `p - 2` binary digits. -/
theorem C192_grid_partial (hF : F.Binary p emin) {e : Int} {j : Nat} (he : emin + 1 ≤ e) (he2 : emin + j + 1 ≤ 2 * e) (ops : List (Op ℝ))
    (hne : sinceClear ops ≠ []) (hd : F.Data p emin (sinceClear ops)) (hg : OnGrid p e (sinceClear ops))
    (hw : (sinceClear ops).length < 2 ^ w) (hj : (sinceClear ops).length ≤ 2 ^ j) (hf : F.fits (F.rnd (sinceClear ops).length)) :
    let s : Variance w (X F) := Variance.run (finOps ops)
    (s.variance = X.fin 0 ↔ ∀ x ∈ sinceClear ops, ∀ y ∈ sinceClear ops, x = y)
    ∧ (lt (ofNat 0) s.variance = true ↔ ¬ ∀ x ∈ sinceClear ops, ∀ y ∈ sinceClear ops, x = y) := by
  intro s
  have hpos := List.length_pos_iff.2 hne
  have eq0 : (∀ x ∈ sinceClear ops, ∀ y ∈ sinceClear ops, x = y) → s.variance = X.fin 0 := by
    intro h
    obtain ⟨c, hc⟩ := List.exists_mem_of_ne_nil _ hne
    have hr : sinceClear ops = List.replicate (sinceClear ops).length c :=
      List.eq_replicate_iff.2 ⟨rfl, fun y hy => h y hy c hc⟩
    refine (C17_constant (w := w) hF (finOps ops) (n := (sinceClear ops).length) (hd.number c hc).1 (hd.number c hc).2 ?_ hpos hw).2.2.1
    rw [sinceClear_finOps]
    conv_lhs => rw [hr]
    rw [List.map_replicate]
  have ne0 : (¬ ∀ x ∈ sinceClear ops, ∀ y ∈ sinceClear ops, x = y) → lt (ofNat 0) s.variance = true := by
    intro h
    have hs : s = _ := Variance.run_eq (finOps ops)
    rw [sinceClear_finOps] at hs
    have hsum := sum_atLeast (w := w) hF he (by omega) _ hd hg hw h
    have hcount : s.super.count = BitVec.ofNat w (sinceClear ops).length := by
      obtain ⟨⟨m, hm⟩, -⟩ := Variance.rounded (w := w) hF _ hd hw
      rw [hs]; exact hm.count
    rw [← hs] at hsum
    show lt (ofNat 0) (s.sumVariance / ofSize s.super.count) = true
    rw [hcount, ofSize, toNat_ofNat_lt hw]
    exact SumAtLeast.div_pos hF hpos hj hf (by omega) hsum
  have excl : s.variance = X.fin 0 → lt (ofNat 0) s.variance = true → False := by
    intro h1 h2
    rw [h1, hF.ofNat_zero, X.lt_fin] at h2
    simp at h2
  refine ⟨⟨fun h => ?_, eq0⟩, ⟨fun h h' => excl (eq0 h') h, ne0⟩⟩
  by_contra h'
  exact excl h (ne0 h')

/-- Two values, the first representable. -/
theorem two_values (hF : F.Binary p emin) (hw : 2 < 2 ^ w) {a b d m q : ℝ} (ha : IsRep p emin a) (hf : F.fits a)
    (h1 : (X.fin b - X.fin a : X F) = X.fin d) (h2 : (X.fin a + X.fin d / X.fin 2 : X F) = X.fin m)
    (h3 : (X.fin b - X.fin m : X F) = X.fin q) (h4 : (X.fin d * X.fin q : X F) = X.fin 0) :
    (Variance.run (finOps [.push a, .push b]) : Variance w (X F)).variance = X.fin 0 := by
  have two : (ofNat 2 : X F) = X.fin 2 := by
    have : IsRep p emin 2 := by
      have := isRep_zpow (p := p) (emin := emin) (k := 1) (by have := hF.digits; omega) (by have := hF.emin_le; omega)
      simpa using this
    rw [X.ofNat_eq]; exact hF.round_exact (by exact_mod_cast this) (by exact_mod_cast hF.fits_two)
  obtain ⟨s, e1, e2, e3, e4⟩ := replicate_fold (w := w) hF ha hf 1 (by omega)
  rw [if_neg one_ne_zero] at e2
  have hrun : (Variance.run (finOps [.push a, .push b]) : Variance w (X F)) = s.push (X.fin b) := by
    rw [Variance.run_eq, sinceClear_finOps, ← e1]; rfl
  have hc : (ofSize (s.super.count + 1) : X F) = X.fin 2 := by
    rw [e3, ofNat_add_one, ofSize, toNat_ofNat_lt (by omega), two]
  have hmean : (s.push (X.fin b)).super.mean = X.fin m := by
    show s.super.mean + (X.fin b - s.super.mean) / ofSize (s.super.count + 1) = _
    rw [hc, e2, h1, h2]
  have hsum : (s.push (X.fin b)).sumVariance = X.fin 0 := by
    show s.sumVariance + (X.fin b - s.super.mean) * (X.fin b - (s.push (X.fin b)).super.mean) = _
    rw [hmean, e4, e2, h1, h3, h4, X.add_fin, add_zero, hF.round_exact (isRep_zero _ _) hF.fits_zero]
  rw [hrun]
  show (s.push (X.fin b)).sumVariance / ofSize (s.super.count + 1) = _
  rw [hsum, hc, X.div_fin_of_ne _ two_ne_zero, zero_div, hF.round_exact (isRep_zero _ _) hF.fits_zero]

/-- C192 is violated in binary64: the mean of the neighbours 2^52+1 and 2^52+2 is rounded to the second. -/
theorem C192_neighbours :
    (Variance.run (finOps [.push (2 ^ 52 + 1), .push (2 ^ 52 + 2)]) : Variance 64 (X binary64)).variance = X.fin 0 := by
  have hB := binary64_binary
  have ha := double (2 ^ 52 + 1) 0 (by norm_num) (by norm_num) (by norm_num)
  have hb := double (2 ^ 52 + 2) 0 (by norm_num) (by norm_num) (by norm_num)
  have hh := double 1 (-1) (by norm_num) (by norm_num) (by norm_num)
  rw [show ((2 ^ 52 + 1 : Int) : ℝ) * 2 ^ (0 : Int) = 2 ^ 52 + 1 by norm_num] at ha
  rw [show ((2 ^ 52 + 2 : Int) : ℝ) * 2 ^ (0 : Int) = 2 ^ 52 + 2 by norm_num] at hb
  rw [show ((1 : Int) : ℝ) * 2 ^ (-1 : Int) = 1 / 2 by norm_num] at hh
  have tie : binary64.rnd (2 ^ 52 + 1 + 1 / 2) = 2 ^ 52 + 2 := by
    have h1 : roundNearest 53 (-1074) (2 ^ 52 + 1 + 1 / 2) = nearestEven (4503599627370497 + 1 / 2) * 2 ^ (52 + 1 - ((53 : Nat) : Int)) :=
      roundNearest_eq (p := 53) (emin := -1074) 52 (by norm_num) (by norm_num) (by norm_num) (by norm_num)
    have h2 := nearestEven_tie 4503599627370497
    push_cast at h2
    rw [h2, if_neg (by decide)] at h1
    show roundNearest 53 (-1074) (2 ^ 52 + 1 + 1 / 2) = _
    rw [h1]; norm_num
  refine two_values (w := 64) hB (by norm_num) (d := 1) (m := 2 ^ 52 + 2) (q := 0) ha.1 ha.2 ?_ ?_ ?_ ?_
  · rw [X.sub_fin, show (2 ^ 52 + 2 - (2 ^ 52 + 1) : ℝ) = 1 by norm_num, hB.round_exact hB.isRep_one hB.fits_one]
  · rw [X.div_fin_of_ne _ two_ne_zero, hB.round_exact hh.1 hh.2, X.add_fin]
    unfold X.round
    rw [tie, if_pos hb.2]
  · rw [X.sub_fin, sub_self, hB.round_exact (isRep_zero _ _) hB.fits_zero]
  · rw [X.mul_fin, mul_zero, hB.round_exact (isRep_zero _ _) hB.fits_zero]

/-- C192 is violated in binary64: the product of the deviations 2^-600 and 2^-601 underflows. -/
theorem C192_underflow :
    (Variance.run (finOps [.push 0, .push (2 ^ (-600 : Int))]) : Variance 64 (X binary64)).variance = X.fin 0 := by
  have hB := binary64_binary
  have ha := double 1 (-600) (by norm_num) (by norm_num) (by norm_num)
  have hb := double 1 (-601) (by norm_num) (by norm_num) (by norm_num)
  rw [Int.cast_one, one_mul] at ha hb
  have e1 : (2 : ℝ) ^ (-600 : Int) / 2 = 2 ^ (-601 : Int) := by
    rw [show (-601 : Int) = -600 - 1 by norm_num, zpow_sub_one₀ (by norm_num)]; ring
  have e2 : (2 : ℝ) ^ (-600 : Int) - 2 ^ (-601 : Int) = 2 ^ (-601 : Int) := by rw [← e1]; ring
  have e3 : (2 : ℝ) ^ (-600 : Int) * 2 ^ (-601 : Int) = 2 ^ (-1201 : Int) := by rw [← zpow_add₀ (by norm_num)]; norm_num
  have tiny : binary64.rnd (2 ^ (-1201 : Int)) = 0 := by
    have h0 : (0 : ℝ) ≤ binary64.rnd (2 ^ (-1201 : Int)) := hB.rnd_nonneg (by positivity)
    by_contra hne
    have h1 := IsRep.le_of_pos (hB.rep (2 ^ (-1201 : Int))) (lt_of_le_of_ne h0 (Ne.symm hne))
    have h2 := (abs_le.1 (C15_nearest (2 ^ (-1201 : Int)) 0 (isRep_zero _ _))).2
    rw [zero_sub, abs_neg, abs_of_pos (by positivity)] at h2
    have h3 : (2 : ℝ) ^ (-1201 : Int) * 4 ≤ 2 ^ (-1074 : Int) := by
      rw [show (4 : ℝ) = 2 ^ (2 : Int) by norm_num, ← zpow_add₀ (by norm_num)]
      exact zpow_le_zpow_right₀ (by norm_num) (by norm_num)
    have h4 : (0 : ℝ) < 2 ^ (-1201 : Int) := by positivity
    linarith
  refine two_values (w := 64) hB (by norm_num) (d := 2 ^ (-600 : Int)) (m := 2 ^ (-601 : Int)) (q := 2 ^ (-601 : Int))
    (isRep_zero _ _) hB.fits_zero ?_ ?_ ?_ ?_
  · rw [X.sub_fin, sub_zero, hB.round_exact ha.1 ha.2]
  · rw [X.div_fin_of_ne _ two_ne_zero, e1, hB.round_exact hb.1 hb.2, X.add_fin, zero_add, hB.round_exact hb.1 hb.2]
  · rw [X.sub_fin, e2, hB.round_exact hb.1 hb.2]
  · rw [X.mul_fin, e3]
    unfold X.round
    rw [tiny, if_pos hB.fits_zero]

theorem C192_violated : ¬ C192_Statement binary64 53 (-1074) 64 := by
  intro h
  have hB := binary64_binary
  have h2 := binary64_int (n := 2) (by norm_num)
  push_cast at h2
  have hs : sinceClear ([.push (2 ^ 52 + 1), .push (2 ^ 52 + 2)] : List (Op ℝ)) = [2 ^ 52 + 1, 2 ^ 52 + 2] := rfl
  have ha := binary64_int (n := 2 ^ 52 + 1) (by norm_num)
  have hb := binary64_int (n := 2 ^ 52 + 2) (by norm_num)
  have h0 := binary64_int (n := 0) (by norm_num)
  have h1 := binary64_int (n := 1) (by norm_num)
  have hm := binary64_int (n := -1) (by norm_num)
  push_cast at ha hb h0 h1 hm
  have hd : binary64.Data 53 (-1074) [2 ^ 52 + 1, 2 ^ 52 + 2] := by
    constructor
    · intro x hx
      simp only [List.mem_cons, List.not_mem_nil, or_false] at hx
      rcases hx with rfl | rfl
      · norm_num; exact ha
      · norm_num; exact hb
    · intro x hx y hy
      simp only [List.mem_cons, List.not_mem_nil, or_false] at hx hy
      rcases hx with rfl | rfl <;> rcases hy with rfl | rfl
      · rw [sub_self, hB.exact _ h0.1]; exact h0.2
      · rw [show (2 ^ 52 + 1 - (2 ^ 52 + 2) : ℝ) = -1 by norm_num, hB.exact _ hm.1]; exact hm.2
      · rw [show (2 ^ 52 + 2 - (2 ^ 52 + 1) : ℝ) = 1 by norm_num, hB.exact _ h1.1]; exact h1.2
      · rw [sub_self, hB.exact _ h0.1]; exact h0.2
  have := (h [.push (2 ^ 52 + 1), .push (2 ^ 52 + 2)] (by rw [hs]; simp) (by rw [hs]; exact hd) (by rw [hs]; norm_num)
    (by rw [hs]; simpa [hB.exact _ h2.1] using h2.2)).1 C192_neighbours
  have := this (2 ^ 52 + 1) (by rw [hs]; simp) (2 ^ 52 + 2) (by rw [hs]; simp)
  norm_num at this

/-- The `double` variance of 3, 3, 4 is positive. -/
example : lt (ofNat 0) (Variance.run (finOps [.push 3, .push 3, .push 4]) : Variance 64 (X binary64)).variance = true := by
  have hs : sinceClear ([.push 3, .push 3, .push 4] : List (Op ℝ)) = [3, 3, 4] := rfl
  have h3 := binary64_int (n := 3) (by norm_num)
  push_cast at h3
  refine (C192_grid_partial (w := 64) binary64_binary (e := 0) (j := 2) (by norm_num) (by norm_num) [.push 3, .push 3, .push 4]
    (by rw [hs]; simp) (by rw [hs]; have := binary64_data [3, 3, 4] (by simp); simpa using this) ?_ (by rw [hs]; simp)
    (by rw [hs]; norm_num) (by rw [hs]; simpa [binary64_binary.exact _ h3.1] using h3.2)).2.2 ?_
  · rw [hs]
    intro x hx
    simp only [List.mem_cons, List.not_mem_nil, or_false] at hx
    rcases hx with rfl | rfl | rfl
    · exact ⟨3, by norm_num, by norm_num⟩
    · exact ⟨3, by norm_num, by norm_num⟩
    · exact ⟨4, by norm_num, by norm_num⟩
  · rw [hs]
    intro h
    have := h 3 (by simp) 4 (by simp)
    norm_num at this

end Verif.Props
