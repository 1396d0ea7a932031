import Verif.Proofs.Nearest
import Verif.Proofs.History
/-
Consequences of the format axioms `Fmt.Binary`.
-/
namespace Verif

/-- The format with the opposite rounding direction. -/
def Fmt.mirror (F : Fmt) : Fmt := { rnd := fun r => -F.rnd (-r), fits := F.fits, eps := F.eps }

namespace Fmt.Binary
variable {F : Fmt} {p : Nat} {emin : Int}

theorem mirror (h : F.Binary p emin) : F.mirror.Binary p emin where
  digits := h.digits
  emin_le := h.emin_le
  rep r := (h.rep _).neg
  exact r hr := by
    show -F.rnd (-r) = r
    rw [h.exact _ hr.neg, neg_neg]
  mono a b hab := neg_le_neg (h.mono (neg_le_neg hab))
  fits_abs := h.fits_abs
  fits_two := h.fits_two

theorem rnd_zero (h : F.Binary p emin) : F.rnd 0 = 0 := h.exact _ (isRep_zero _ _)
theorem rnd_nonneg (h : F.Binary p emin) {r : ℝ} (hr : 0 ≤ r) : 0 ≤ F.rnd r := by
  have := h.mono hr; rwa [h.rnd_zero] at this
theorem rnd_nonpos (h : F.Binary p emin) {r : ℝ} (hr : r ≤ 0) : F.rnd r ≤ 0 := by
  have := h.mono hr; rwa [h.rnd_zero] at this
theorem rnd_le (h : F.Binary p emin) {a b : ℝ} (hb : IsRep p emin b) (hab : a ≤ b) : F.rnd a ≤ b := by
  have := h.mono hab; rwa [h.exact _ hb] at this
theorem le_rnd (h : F.Binary p emin) {a b : ℝ} (ha : IsRep p emin a) (hab : a ≤ b) : a ≤ F.rnd b := by
  have := h.mono hab; rwa [h.exact _ ha] at this

theorem isRep_one (h : F.Binary p emin) : IsRep p emin 1 := by
  have := isRep_zpow (p := p) (emin := emin) (k := 0) (by have := h.digits; omega) h.emin_le
  simpa using this
theorem isRep_two (h : F.Binary p emin) : IsRep p emin 2 := by
  have := isRep_zpow (p := p) (emin := emin) (k := 1) (by have := h.digits; omega) (by have := h.emin_le; omega)
  simpa using this

theorem fits_zero (h : F.Binary p emin) : F.fits 0 := h.fits_abs 0 2 (by simp) h.fits_two
theorem fits_one (h : F.Binary p emin) : F.fits 1 := h.fits_abs 1 2 (by norm_num) h.fits_two

theorem fits_between (h : F.Binary p emin) {a b c : ℝ} (ha : F.fits a) (hc : F.fits c) (h1 : a ≤ b) (h2 : b ≤ c) :
    F.fits b := by
  rcases le_total 0 b with h0 | h0
  · exact h.fits_abs b c (by rw [abs_of_nonneg h0, abs_of_nonneg (h0.trans h2)]; exact h2) hc
  · exact h.fits_abs b a (by rw [abs_of_nonpos h0, abs_of_nonpos (h1.trans h0)]; linarith) ha

/-- Rounding at most doubles a number that is not below the smallest positive number. -/
theorem rnd_le_two_mul (h : F.Binary p emin) {y : ℝ} (hy : 2 ^ emin ≤ y) : F.rnd y ≤ 2 * y := by
  have hy0 : 0 < y := lt_of_lt_of_le (by positivity) hy
  have h1 := Int.lt_zpow_succ_log_self (b := 2) (by norm_num) y
  have h2 := Int.zpow_log_le_self (b := 2) (by norm_num) hy0
  push_cast at h1 h2
  have hl : emin ≤ Int.log 2 y := by
    rw [← Int.zpow_le_iff_le_log (by norm_num) hy0]; exact_mod_cast hy
  have := h.rnd_le (isRep_zpow (by have := h.digits; omega) (show emin ≤ Int.log 2 y + 1 by omega)) h1.le
  rw [zpow_add₀ (by norm_num), zpow_one] at this
  linarith

/-- The difference of two numbers of the format is a multiple of the smallest positive number. -/
theorem exists_mul_of_isRep {a : ℝ} (ha : IsRep p emin a) : ∃ k : Int, a = k * 2 ^ emin := by
  obtain ⟨m, e, h1, -, h3⟩ := ha
  refine ⟨m * 2 ^ (e - emin).toNat, ?_⟩
  rw [h1]
  push_cast
  rw [← zpow_natCast, Int.toNat_of_nonneg (by omega), mul_assoc, ← zpow_add₀ (by norm_num), sub_add_cancel]

/-- Dividing a rounded difference by 2 or more does not exceed the exact difference. -/
theorem rnd_div_le (h : F.Binary p emin) {y n : ℝ} (hy : ∃ k : Int, y = k * 2 ^ emin) (h0 : 0 ≤ y) (hn : 2 ≤ n) :
    F.rnd (F.rnd y / n) ≤ y := by
  obtain ⟨k, hk⟩ := hy
  have hpos : (0 : ℝ) < 2 ^ emin := by positivity
  have hk0 : 0 ≤ k := by
    have : (0 : ℝ) ≤ k := by
      by_contra hc
      push Not at hc
      have := mul_neg_of_neg_of_pos hc hpos
      rw [← hk] at this; linarith
    exact_mod_cast this
  rcases lt_or_ge k (2 ^ p) with hlt | hge
  · have hr : IsRep p emin y := ⟨k, emin, hk, by rw [abs_of_nonneg hk0]; exact hlt, le_refl _⟩
    rw [h.exact _ hr]
    exact h.rnd_le hr (div_le_self h0 (by linarith))
  · have hy1 : (2 : ℝ) ^ (emin + p) ≤ y := by
      rw [hk, zpow_add₀ (by norm_num), mul_comm]
      refine mul_le_mul_of_nonneg_right ?_ hpos.le
      rw [zpow_natCast]; exact_mod_cast hge
    have hy2 : (2 : ℝ) ^ (emin + p) ≤ F.rnd y :=
      h.le_rnd (isRep_zpow (by have := h.digits; omega) (by omega)) hy1
    have hmin : (2 : ℝ) ^ emin ≤ y := le_trans (zpow_le_zpow_right₀ (by norm_num) (by omega)) hy1
    have hd := h.rnd_le_two_mul hmin
    have hhalf : IsRep p emin (F.rnd y / 2) := by
      obtain ⟨m, e, h1, h2, h3⟩ := h.rep y
      have he : emin < e := by
        by_contra hc
        have hee : e = emin := by omega
        rw [hee] at h1
        have hm : (m : ℝ) < 2 ^ p := by
          have := (le_abs_self m).trans_lt h2
          exact_mod_cast this
        have := mul_lt_mul_of_pos_right hm hpos
        rw [← h1, ← zpow_natCast, ← zpow_add₀ (by norm_num), add_comm] at this
        linarith
      refine ⟨m, e - 1, ?_, h2, by omega⟩
      rw [h1, zpow_sub₀ (by norm_num), zpow_one]; ring
    have hr0 := h.rnd_nonneg h0
    refine (h.rnd_le hhalf ?_).trans (by linarith)
    rw [div_le_div_iff₀ (by linarith) (by norm_num)]
    nlinarith

/-- The update of a running mean moves towards the value and not past it. -/
theorem step_up (h : F.Binary p emin) {m x n : ℝ} (hm : IsRep p emin m) (hx : IsRep p emin x) (hn : 2 ≤ n) (hmx : m ≤ x) :
    m ≤ F.rnd (m + F.rnd (F.rnd (x - m) / n)) ∧ F.rnd (m + F.rnd (F.rnd (x - m) / n)) ≤ x := by
  constructor
  · refine h.le_rnd hm ?_
    have := h.rnd_nonneg (div_nonneg (h.rnd_nonneg (sub_nonneg.2 hmx)) (by linarith : (0 : ℝ) ≤ n))
    linarith
  · refine h.rnd_le hx ?_
    have : F.rnd (F.rnd (x - m) / n) ≤ x - m := by
      refine h.rnd_div_le ?_ (sub_nonneg.2 hmx) hn
      obtain ⟨k, hk⟩ := exists_mul_of_isRep hm
      obtain ⟨l, hl⟩ := exists_mul_of_isRep hx
      exact ⟨l - k, by rw [hk, hl]; push_cast; ring⟩
    linarith

theorem step_down (h : F.Binary p emin) {m x n : ℝ} (hm : IsRep p emin m) (hx : IsRep p emin x) (hn : 2 ≤ n) (hmx : x ≤ m) :
    x ≤ F.rnd (m + F.rnd (F.rnd (x - m) / n)) ∧ F.rnd (m + F.rnd (F.rnd (x - m) / n)) ≤ m := by
  have := h.mirror.step_up hm.neg hx.neg hn (neg_le_neg hmx)
  simp only [Fmt.mirror] at this
  have e1 : -(-x - -m) = x - m := by ring
  rw [e1] at this
  have e2 : -(-F.rnd (x - m) / n) = F.rnd (x - m) / n := by ring
  rw [e2] at this
  have e3 : -(-m + -F.rnd (F.rnd (x - m) / n)) = m + F.rnd (F.rnd (x - m) / n) := by ring
  rw [e3] at this
  exact ⟨by linarith [this.2], by linarith [this.1]⟩

/-! ### Operations -/

theorem round_exact (h : F.Binary p emin) {r : ℝ} (hr : IsRep p emin r) (hf : F.fits r) : (X.round r : X F) = X.fin r := by
  unfold X.round; rw [h.exact _ hr, if_pos hf]

theorem ofNat_zero (h : F.Binary p emin) : (Scalar.ofNat 0 : X F) = X.fin 0 := by
  rw [X.ofNat_eq, Nat.cast_zero, h.round_exact (isRep_zero _ _) h.fits_zero]
theorem ofNat_one (h : F.Binary p emin) : (Scalar.ofNat 1 : X F) = X.fin 1 := by
  rw [X.ofNat_eq, Nat.cast_one, h.round_exact h.isRep_one h.fits_one]

/-- A count of 2 or more as divisor. -/
theorem ofNat_two_le (h : F.Binary p emin) {n : Nat} (hn : 2 ≤ n) :
    (Scalar.ofNat n : X F) = X.pinf ∨ ∃ d : ℝ, 2 ≤ d ∧ (Scalar.ofNat n : X F) = X.fin d := by
  have h2 : (2 : ℝ) ≤ n := by exact_mod_cast hn
  rw [X.ofNat_eq]
  unfold X.round
  split_ifs with a b
  · exact Or.inr ⟨_, h.le_rnd h.isRep_two h2, rfl⟩
  · exact Or.inl rfl
  · exact absurd (by linarith) b

/-- A count of 1 or more as divisor. -/
theorem ofNat_one_le (h : F.Binary p emin) {n : Nat} (hn : 1 ≤ n) :
    (Scalar.ofNat n : X F) = X.pinf ∨ ∃ d : ℝ, 1 ≤ d ∧ (Scalar.ofNat n : X F) = X.fin d := by
  have h2 : (1 : ℝ) ≤ n := by exact_mod_cast hn
  rw [X.ofNat_eq]
  unfold X.round
  split_ifs with a b
  · exact Or.inr ⟨_, h.le_rnd h.isRep_one h2, rfl⟩
  · exact Or.inl rfl
  · exact absurd (by linarith) b

/-- A rounded nonnegative number is nonnegative or `+inf`. -/
theorem round_nonneg (h : F.Binary p emin) {r : ℝ} (hr : 0 ≤ r) :
    (X.round r : X F) = X.pinf ∨ ∃ d : ℝ, 0 ≤ d ∧ IsRep p emin d ∧ F.fits d ∧ d = F.rnd r ∧ (X.round r : X F) = X.fin d := by
  unfold X.round
  split_ifs with a b
  · exact Or.inr ⟨_, h.rnd_nonneg hr, h.rep _, a, rfl, rfl⟩
  · exact Or.inl rfl
  · have : r = 0 := le_antisymm (not_lt.1 b) hr
    rw [this, h.rnd_zero] at a
    exact absurd h.fits_zero a

/-- The update of a running mean, as the code computes it. -/
theorem mean_step (h : F.Binary p emin) {m x : ℝ} (hm : IsRep p emin m) (hmf : F.fits m) (hx : IsRep p emin x) (hxf : F.fits x)
    (hd : F.fits (F.rnd (x - m))) {d : X F} (hdiv : d = X.pinf ∨ ∃ n : ℝ, 2 ≤ n ∧ d = X.fin n) :
    ∃ m', (X.fin m + (X.fin x - X.fin m) / d : X F) = X.fin m' ∧ IsRep p emin m' ∧ F.fits m'
      ∧ (m ≤ x → m ≤ m' ∧ m' ≤ x) ∧ (x ≤ m → x ≤ m' ∧ m' ≤ m) := by
  have e : (X.fin x - X.fin m : X F) = X.fin (F.rnd (x - m)) := by
    rw [X.sub_fin]; unfold X.round; rw [if_pos hd]
  rw [e]
  rcases hdiv with rfl | ⟨n, hn, rfl⟩
  · refine ⟨m, ?_, hm, hmf, fun h1 => ⟨le_refl _, h1⟩, fun h1 => ⟨h1, le_refl _⟩⟩
    have : (X.fin (F.rnd (x - m)) / X.pinf : X F) = X.fin 0 := rfl
    rw [this, X.add_fin, add_zero, h.round_exact hm hmf]
  · have hq : F.fits (F.rnd (F.rnd (x - m) / n)) := by
      have hn1 : 1 ≤ n := by linarith
      rcases le_total 0 (F.rnd (x - m)) with h0 | h0
      · exact h.fits_between h.fits_zero hd (h.rnd_nonneg (by positivity)) (h.rnd_le (h.rep _) (div_le_self h0 hn1))
      · refine h.fits_between hd h.fits_zero (h.le_rnd (h.rep _) ?_) (h.rnd_nonpos (div_nonpos_of_nonpos_of_nonneg h0 (by linarith)))
        rw [le_div_iff₀ (by linarith)]; nlinarith
    have e2 : (X.fin (F.rnd (x - m)) / X.fin n : X F) = X.fin (F.rnd (F.rnd (x - m) / n)) := by
      rw [X.div_fin_of_ne _ (by linarith)]; unfold X.round; rw [if_pos hq]
    rw [e2, X.add_fin]
    have hup := fun hmx => h.step_up hm hx hn (m := m) (x := x) hmx
    have hdn := fun hmx => h.step_down hm hx hn (m := m) (x := x) hmx
    have hf : F.fits (F.rnd (m + F.rnd (F.rnd (x - m) / n))) := by
      rcases le_total m x with hc | hc
      · exact h.fits_between hmf hxf (hup hc).1 (hup hc).2
      · exact h.fits_between hxf hmf (hdn hc).1 (hdn hc).2
    refine ⟨_, ?_, h.rep _, hf, hup, hdn⟩
    unfold X.round; rw [if_pos hf]

end Fmt.Binary
end Verif

namespace Verif.Fmt.Binary
variable {F : Fmt} {p : Nat} {emin : Int}

theorem fits_neg (h : F.Binary p emin) {r : ℝ} (hr : F.fits r) : F.fits (-r) := h.fits_abs _ r (by rw [abs_neg]) hr

/-- Sums with zero and products with zero. -/
theorem add_zero (h : F.Binary p emin) {r : ℝ} (hr : IsRep p emin r) (hf : F.fits r) : (X.fin r + X.fin 0 : X F) = X.fin r := by
  rw [X.add_fin, _root_.add_zero, h.round_exact hr hf]
theorem zero_add (h : F.Binary p emin) {r : ℝ} (hr : IsRep p emin r) (hf : F.fits r) : (X.fin 0 + X.fin r : X F) = X.fin r := by
  rw [X.add_fin, _root_.zero_add, h.round_exact hr hf]
theorem sub_zero (h : F.Binary p emin) {r : ℝ} (hr : IsRep p emin r) (hf : F.fits r) : (X.fin r - X.fin 0 : X F) = X.fin r := by
  rw [X.sub_fin, _root_.sub_zero, h.round_exact hr hf]
theorem sub_self (h : F.Binary p emin) (r : ℝ) : (X.fin r - X.fin r : X F) = X.fin 0 := by
  rw [X.sub_fin, _root_.sub_self, h.round_exact (isRep_zero _ _) h.fits_zero]
theorem mul_zero (h : F.Binary p emin) (r : ℝ) : (X.fin r * X.fin 0 : X F) = X.fin 0 := by
  rw [X.mul_fin, MulZeroClass.mul_zero, h.round_exact (isRep_zero _ _) h.fits_zero]
theorem zero_mul (h : F.Binary p emin) (r : ℝ) : (X.fin 0 * X.fin r : X F) = X.fin 0 := by
  rw [X.mul_fin, MulZeroClass.zero_mul, h.round_exact (isRep_zero _ _) h.fits_zero]
theorem zero_div (h : F.Binary p emin) {n : Nat} (hn : 1 ≤ n) : (X.fin 0 / Scalar.ofNat n : X F) = X.fin 0 := by
  rcases h.ofNat_one_le hn with e | ⟨d, hd, e⟩
  · rw [e]; rfl
  · rw [e, X.div_fin_of_ne _ (by linarith), _root_.zero_div, h.round_exact (isRep_zero _ _) h.fits_zero]
theorem div_one (h : F.Binary p emin) {r : ℝ} (hr : IsRep p emin r) (hf : F.fits r) : (X.fin r / Scalar.ofNat 1 : X F) = X.fin r := by
  rw [h.ofNat_one, X.div_fin_of_ne _ one_ne_zero, _root_.div_one, h.round_exact hr hf]

/-- Counts are finite if the largest one is. -/
theorem ofSize_fin (h : F.Binary p emin) {w : Nat} (hw : F.fits (F.rnd ((2 ^ w : Nat) : ℝ))) (n : SizeT w) :
    ∃ d : ℝ, (Scalar.ofSize n : X F) = X.fin d := by
  refine ⟨F.rnd (n.toNat : ℝ), ?_⟩
  rw [Scalar.ofSize, X.ofNat_eq]
  unfold X.round
  rw [if_pos]
  refine h.fits_between h.fits_zero hw (h.rnd_nonneg (Nat.cast_nonneg _)) (h.mono ?_)
  exact_mod_cast n.isLt.le

end Verif.Fmt.Binary

namespace Verif

theorem binary64_fits {r : ℝ} : binary64.fits r ↔ |r| < 2 ^ (1024 : Int) := Iff.rfl
theorem binary32_fits {r : ℝ} : binary32.fits r ↔ |r| < 2 ^ (128 : Int) := Iff.rfl

/-- Integers of up to 53 bits are `double` numbers. -/
theorem binary64_int {n : Int} (h : |n| ≤ 2 ^ 53) : IsRep 53 (-1074) (n : ℝ) ∧ binary64.fits (n : ℝ) := by
  constructor
  · have := isRep_mul (p := 53) (emin := -1074) (e := 0) (m := n) (by norm_num) (by norm_num) h
    simpa using this
  · rw [binary64_fits]
    have h1 : |(n : ℝ)| ≤ 2 ^ 53 := by exact_mod_cast h
    refine h1.trans_lt ?_
    rw [← zpow_natCast]
    exact zpow_lt_zpow_right₀ (by norm_num) (by norm_num)

/-- Integer data of up to 52 bits is fine for `double`. -/
theorem binary64_data (ns : List Int) (h : ∀ n ∈ ns, |n| ≤ 2 ^ 52) : binary64.Data 53 (-1074) (ns.map Int.cast) where
  number x hx := by
    obtain ⟨n, hn, rfl⟩ := List.mem_map.1 hx
    exact binary64_int ((h n hn).trans (by norm_num))
  difference x hx y hy := by
    obtain ⟨n, hn, rfl⟩ := List.mem_map.1 hx
    obtain ⟨k, hk, rfl⟩ := List.mem_map.1 hy
    have : |n - k| ≤ 2 ^ 53 := by
      have h1 := abs_le.1 (h n hn)
      have h2 := abs_le.1 (h k hk)
      rw [abs_le]
      constructor <;> norm_num at * <;> omega
    obtain ⟨h1, h2⟩ := binary64_int this
    push_cast at h1 h2
    rw [binary64_binary.exact _ h1]
    exact h2

theorem binary64_size : binary64.fits (binary64.rnd ((2 ^ 64 : Nat) : ℝ)) := by
  have hr : IsRep 53 (-1074) ((2 ^ 64 : Nat) : ℝ) := by
    have := isRep_zpow (p := 53) (emin := -1074) (k := 64) (by norm_num) (by norm_num)
    rw [show ((2 : ℝ) ^ (64 : Int)) = ((2 ^ 64 : Nat) : ℝ) by norm_num] at this
    exact this
  rw [binary64_binary.exact _ hr, binary64_fits, abs_of_nonneg (Nat.cast_nonneg _),
    show ((2 ^ 64 : Nat) : ℝ) = 2 ^ (64 : Int) by norm_num]
  exact zpow_lt_zpow_right₀ (by norm_num) (by norm_num)

end Verif
