import Verif.Format
import Mathlib.Tactic.Linarith
import Mathlib.Tactic.NormNum
import Mathlib.Tactic.Positivity
import Mathlib.Tactic.Ring
import Mathlib.Tactic.FieldSimp
import Mathlib.Algebra.Order.Field.Power
/-
Round to nearest even satisfies the format axioms.
-/
namespace Verif

/-! ### Nearest integer -/

theorem nearestEven_err (x : ℝ) : |(nearestEven x : ℝ) - x| ≤ 1 / 2 := by
  have h0 := Int.fract_nonneg x
  have h1 := Int.fract_lt_one x
  have h2 := Int.floor_add_fract x
  unfold nearestEven
  rw [abs_le]
  split_ifs with a b c <;> push_cast <;> constructor <;> linarith

theorem nearestEven_intCast (n : Int) : nearestEven (n : ℝ) = n := by
  unfold nearestEven; simp

theorem nearestEven_mono : Monotone nearestEven := by
  intro x y h
  rcases lt_or_eq_of_le (Int.floor_le_floor h) with hf | hf
  · have h1 : nearestEven x ≤ ⌊x⌋ + 1 := by unfold nearestEven; split_ifs <;> omega
    have h2 : ⌊y⌋ ≤ nearestEven y := by unfold nearestEven; split_ifs <;> omega
    omega
  · have hfr : Int.fract x ≤ Int.fract y := by
      have a := Int.floor_add_fract x
      have b := Int.floor_add_fract y
      rw [hf] at a; linarith
    unfold nearestEven
    rw [hf]
    split_ifs <;> first | omega | linarith

theorem nearestEven_neg (x : ℝ) : nearestEven (-x) = -nearestEven x := by
  by_cases hz : Int.fract x = 0
  · have : x = ⌊x⌋ := by have := Int.floor_add_fract x; linarith
    rw [this, ← Int.cast_neg, nearestEven_intCast, nearestEven_intCast]
  · have hfr : Int.fract (-x) = 1 - Int.fract x := Int.fract_neg hz
    have hfl : ⌊-x⌋ = -⌊x⌋ - 1 := by
      have a := Int.floor_add_fract (-x)
      have b := Int.floor_add_fract x
      rw [hfr] at a
      have : ((⌊-x⌋ : Int) : ℝ) = ((-⌊x⌋ - 1 : Int) : ℝ) := by push_cast; linarith
      exact_mod_cast this
    unfold nearestEven
    rw [hfr, hfl]
    by_cases c1 : Int.fract x < 1 / 2
    · rw [if_neg (by linarith), if_pos (by linarith), if_pos c1]; omega
    · by_cases c2 : 1 / 2 < Int.fract x
      · rw [if_pos (by linarith), if_neg c1, if_pos c2]; omega
      · rw [if_neg (by linarith), if_neg (by linarith), if_neg c1, if_neg c2]
        have : Even (-⌊x⌋ - 1) ↔ ¬ Even ⌊x⌋ := by
          rw [Int.even_sub_one, even_neg]
        by_cases c3 : Even ⌊x⌋
        · rw [if_neg (by rw [this]; simpa using c3), if_pos c3]; omega
        · rw [if_pos (this.2 c3), if_neg c3]; omega

/-! ### Representable numbers -/

theorem isRep_zero (p : Nat) (emin : Int) : IsRep p emin 0 := ⟨0, emin, by simp, by simp, le_refl _⟩

theorem IsRep.neg {p : Nat} {emin : Int} {r : ℝ} (h : IsRep p emin r) : IsRep p emin (-r) := by
  obtain ⟨m, e, h1, h2, h3⟩ := h
  exact ⟨-m, e, by rw [h1]; push_cast; ring, by rwa [abs_neg], h3⟩

theorem isRep_zpow {p : Nat} {emin k : Int} (hp : 1 ≤ p) (hk : emin ≤ k) : IsRep p emin (2 ^ k) :=
  ⟨1, k, by simp, by rw [abs_one]; exact one_lt_pow₀ (by decide) (by omega), hk⟩

theorem isRep_int {p : Nat} {emin n : Int} (he : emin ≤ 0) (hn : |n| < 2 ^ p) : IsRep p emin n :=
  ⟨n, 0, by simp, hn, he⟩

/-- A multiple of `2^e` below `2^(p+e)`, boundary included. -/
theorem isRep_mul {p : Nat} {emin e m : Int} (hp : 1 ≤ p) (he : emin ≤ e) (hm : |m| ≤ 2 ^ p) : IsRep p emin (m * 2 ^ e) := by
  rcases lt_or_eq_of_le hm with h | h
  · exact ⟨m, e, rfl, h, he⟩
  · have hpow : ((2 : Int) ^ p : Int) = 2 ^ (p - 1) * 2 := by rw [← pow_succ]; congr 1; omega
    have hz : ((2 : ℝ) ^ (e + 1)) = 2 ^ e * 2 := by rw [zpow_add₀ (by norm_num)]; norm_num
    have hlt : |(2 : Int) ^ (p - 1)| < 2 ^ p := by
      rw [abs_of_nonneg (by positivity)]; exact pow_lt_pow_right₀ (by decide) (by omega)
    rcases abs_choice m with h' | h'
    · have hm' : m = 2 ^ (p - 1) * 2 := by rw [← h', h, hpow]
      refine ⟨2 ^ (p - 1), e + 1, ?_, hlt, by omega⟩
      rw [hm', hz]; push_cast; ring
    · have hm' : m = -(2 ^ (p - 1)) * 2 := by linarith [h'.symm.trans h, hpow]
      refine ⟨-(2 ^ (p - 1)), e + 1, ?_, by rwa [abs_neg], by omega⟩
      rw [hm', hz]; push_cast; ring

/-- Every number of the format is a multiple of its last digit. -/
theorem IsRep.lastDigit_mul {p : Nat} {emin : Int} {r : ℝ} (h : IsRep p emin r) :
    ∃ m : Int, r = m * 2 ^ lastDigit p emin r := by
  obtain ⟨m, e, h1, h2, h3⟩ := h
  by_cases hr : m = 0
  · exact ⟨0, by rw [h1, hr]; simp⟩
  have hr0 : 0 < |r| := by
    rw [h1, abs_pos]; exact mul_ne_zero (by exact_mod_cast hr) (zpow_ne_zero _ (by norm_num))
  have hle : lastDigit p emin r ≤ e := by
    unfold lastDigit
    refine max_le ?_ h3
    have hlog : Int.log 2 |r| < p + e := by
      rw [← Int.lt_zpow_iff_log_lt (by norm_num) hr0]
      rw [h1, abs_mul, abs_of_pos (show (0 : ℝ) < 2 ^ e by positivity)]
      push_cast
      rw [zpow_add₀ (by norm_num)]
      refine mul_lt_mul_of_pos_right ?_ (by positivity)
      rw [zpow_natCast]; exact_mod_cast h2
    omega
  refine ⟨m * 2 ^ (e - lastDigit p emin r).toNat, ?_⟩
  push_cast
  rw [← zpow_natCast, Int.toNat_of_nonneg (by omega), mul_assoc, ← zpow_add₀ (by norm_num), sub_add_cancel]
  exact h1

/-! ### Round to nearest -/

section
variable {p : Nat} {emin : Int}

theorem lastDigit_neg (r : ℝ) : lastDigit p emin (-r) = lastDigit p emin r := by
  unfold lastDigit; rw [abs_neg]

theorem roundNearest_neg (r : ℝ) : roundNearest p emin (-r) = -roundNearest p emin r := by
  unfold roundNearest
  rw [lastDigit_neg, neg_div, nearestEven_neg]; push_cast; ring

theorem roundNearest_exact {r : ℝ} (h : IsRep p emin r) : roundNearest p emin r = r := by
  obtain ⟨m, hm⟩ := h.lastDigit_mul
  have h0 : (2 : ℝ) ^ lastDigit p emin r ≠ 0 := zpow_ne_zero _ (by norm_num)
  have : r / 2 ^ lastDigit p emin r = m := by rw [div_eq_iff h0]; exact hm
  unfold roundNearest
  rw [this, nearestEven_intCast]; exact hm.symm

/-- In units of its last digit, `|r|` is below `2^p`. -/
theorem abs_div_lastDigit_lt (r : ℝ) : |r / 2 ^ lastDigit p emin r| < 2 ^ p := by
  rw [abs_div, abs_of_pos (show (0 : ℝ) < 2 ^ lastDigit p emin r by positivity), div_lt_iff₀ (by positivity)]
  by_cases hr : r = 0
  · rw [hr, abs_zero]; positivity
  have h1 := Int.lt_zpow_succ_log_self (b := 2) (by norm_num) |r|
  push_cast at h1
  refine h1.trans_le ?_
  rw [← zpow_natCast, ← zpow_add₀ (by norm_num)]
  exact zpow_le_zpow_right₀ (by norm_num) (by unfold lastDigit; omega)

theorem roundNearest_rep (hp : 1 ≤ p) (r : ℝ) : IsRep p emin (roundNearest p emin r) := by
  refine isRep_mul hp (le_max_right _ _) ?_
  have h := abs_lt.1 (abs_div_lastDigit_lt (p := p) (emin := emin) r)
  have e : ((2 : ℝ) ^ p) = (((2 : Int) ^ p : Int) : ℝ) := by push_cast; rfl
  rw [e] at h
  rw [abs_le]
  constructor
  · have := nearestEven_mono h.1.le
    rwa [← Int.cast_neg, nearestEven_intCast] at this
  · have := nearestEven_mono h.2.le
    rwa [nearestEven_intCast] at this

theorem roundNearest_nonneg {r : ℝ} (h : 0 ≤ r) : 0 ≤ roundNearest p emin r := by
  refine mul_nonneg ?_ (by positivity)
  have := nearestEven_mono (show ((0 : Int) : ℝ) ≤ r / 2 ^ lastDigit p emin r by push_cast; positivity)
  rw [nearestEven_intCast] at this
  exact_mod_cast this

theorem roundNearest_mono_pos (hp : 1 ≤ p) {a b : ℝ} (ha : 0 < a) (hab : a ≤ b) :
    roundNearest p emin a ≤ roundNearest p emin b := by
  have hb : 0 < b := ha.trans_le hab
  have hlog : Int.log 2 a ≤ Int.log 2 b := Int.log_mono_right ha hab
  have hle : lastDigit p emin a ≤ lastDigit p emin b := by
    unfold lastDigit; rw [abs_of_pos ha, abs_of_pos hb]; omega
  rcases lt_or_eq_of_le hle with hlt | heq
  · have e1 : lastDigit p emin b = Int.log 2 b + 1 - p := by
      unfold lastDigit at hlt ⊢; rw [abs_of_pos ha, abs_of_pos hb] at hlt; rw [abs_of_pos hb]; omega
    have hllt : Int.log 2 a < Int.log 2 b := by
      unfold lastDigit at hlt; rw [abs_of_pos ha, abs_of_pos hb] at hlt; omega
    have up : roundNearest p emin a ≤ 2 ^ Int.log 2 b := by
      have h1 : a / 2 ^ lastDigit p emin a ≤ (((2 : Int) ^ (Int.log 2 b - lastDigit p emin a).toNat : Int) : ℝ) := by
        push_cast
        rw [← zpow_natCast, Int.toNat_of_nonneg (by omega), zpow_sub₀ (by norm_num)]
        refine div_le_div_of_nonneg_right ?_ (by positivity)
        have := Int.lt_zpow_succ_log_self (b := 2) (by norm_num) a
        push_cast at this
        exact this.le.trans (zpow_le_zpow_right₀ (by norm_num) (by omega))
      have h2 := nearestEven_mono h1
      rw [nearestEven_intCast] at h2
      have h3 : (nearestEven (a / 2 ^ lastDigit p emin a) : ℝ) ≤ 2 ^ (Int.log 2 b - lastDigit p emin a) := by
        refine (Int.cast_le.2 h2).trans (le_of_eq ?_)
        push_cast
        rw [← zpow_natCast, Int.toNat_of_nonneg (by omega)]
      refine (mul_le_mul_of_nonneg_right h3 (by positivity)).trans (le_of_eq ?_)
      rw [← zpow_add₀ (by norm_num)]; congr 1; omega
    have down : 2 ^ Int.log 2 b ≤ roundNearest p emin b := by
      have h1 : (((2 : Int) ^ (p - 1) : Int) : ℝ) ≤ b / 2 ^ lastDigit p emin b := by
        rw [le_div_iff₀ (by positivity), e1]
        push_cast
        rw [← zpow_natCast, ← zpow_add₀ (by norm_num)]
        have := Int.zpow_log_le_self (b := 2) (by norm_num) hb
        push_cast at this
        refine le_trans (le_of_eq ?_) this
        congr 1; omega
      have h2 := nearestEven_mono h1
      rw [nearestEven_intCast] at h2
      have h3 : ((2 : ℝ) ^ (p - 1)) ≤ (nearestEven (b / 2 ^ lastDigit p emin b) : ℝ) := by
        refine le_trans (le_of_eq ?_) (Int.cast_le.2 h2)
        push_cast; rfl
      refine le_trans (le_of_eq ?_) (mul_le_mul_of_nonneg_right h3 (by positivity))
      rw [← zpow_natCast, ← zpow_add₀ (by norm_num), e1]; congr 1; omega
    exact up.trans down
  · unfold roundNearest
    rw [heq]
    refine mul_le_mul_of_nonneg_right ?_ (by positivity)
    exact_mod_cast nearestEven_mono (div_le_div_of_nonneg_right hab (by positivity))

theorem roundNearest_mono (hp : 1 ≤ p) : Monotone (roundNearest p emin) := by
  intro a b hab
  rcases lt_or_ge 0 a with ha | ha
  · exact roundNearest_mono_pos hp ha hab
  rcases lt_or_ge b 0 with hb | hb
  · have := roundNearest_mono_pos (emin := emin) hp (neg_pos.2 hb) (neg_le_neg hab)
    rw [roundNearest_neg, roundNearest_neg] at this
    linarith
  · have h1 := roundNearest_nonneg (p := p) (emin := emin) hb
    have h2 := roundNearest_nonneg (p := p) (emin := emin) (neg_nonneg.2 ha)
    rw [roundNearest_neg] at h2
    linarith

/-- The error is at most half a unit of the last digit. -/
theorem roundNearest_err (r : ℝ) : |roundNearest p emin r - r| ≤ 2 ^ lastDigit p emin r / 2 := by
  have h0 : (0 : ℝ) < 2 ^ lastDigit p emin r := by positivity
  have : roundNearest p emin r - r
      = ((nearestEven (r / 2 ^ lastDigit p emin r) : ℝ) - r / 2 ^ lastDigit p emin r) * 2 ^ lastDigit p emin r := by
    unfold roundNearest
    field_simp
  rw [this, abs_mul, abs_of_pos h0]
  have := mul_le_mul_of_nonneg_right (nearestEven_err (r / 2 ^ lastDigit p emin r)) h0.le
  linarith

theorem nearestEven_best (x : ℝ) (n : Int) : |(nearestEven x : ℝ) - x| ≤ |(n : ℝ) - x| := by
  have h0 := Int.fract_nonneg x
  have h1 := Int.fract_lt_one x
  have h2 := Int.floor_add_fract x
  have h3 : |(nearestEven x : ℝ) - x| ≤ Int.fract x ∧ |(nearestEven x : ℝ) - x| ≤ 1 - Int.fract x := by
    unfold nearestEven
    split_ifs <;> push_cast <;> constructor <;> rw [abs_le] <;> constructor <;> linarith
  rcases le_or_gt n ⌊x⌋ with h | h
  · have : (n : ℝ) ≤ ⌊x⌋ := by exact_mod_cast h
    rw [abs_of_nonpos (by linarith : (n : ℝ) - x ≤ 0)]; linarith
  · have : (⌊x⌋ : ℝ) + 1 ≤ n := by exact_mod_cast h
    rw [abs_of_nonneg (by linarith : 0 ≤ (n : ℝ) - x)]; linarith

theorem roundNearest_best (r : ℝ) (n : Int) :
    |roundNearest p emin r - r| ≤ |n * 2 ^ lastDigit p emin r - r| := by
  have h0 : (0 : ℝ) < 2 ^ lastDigit p emin r := by positivity
  have e : ∀ k : Int, (k : ℝ) * 2 ^ lastDigit p emin r - r
      = ((k : ℝ) - r / 2 ^ lastDigit p emin r) * 2 ^ lastDigit p emin r := by
    intro k; field_simp
  unfold roundNearest
  rw [e, e, abs_mul, abs_mul]
  exact mul_le_mul_of_nonneg_right (nearestEven_best _ _) (abs_nonneg _)

theorem roundNearest_nearest_pos (hp : 1 ≤ p) {r y : ℝ} (hr : 0 < r) (hy : IsRep p emin y) :
    |roundNearest p emin r - r| ≤ |y - r| := by
  by_cases hy0 : y = 0
  · have := roundNearest_best (p := p) (emin := emin) r 0
    rw [hy0]; simpa using this
  obtain ⟨m, hm⟩ := hy.lastDigit_mul
  rcases le_or_gt (lastDigit p emin r) (lastDigit p emin y) with h | h
  · have : y = ((m * 2 ^ (lastDigit p emin y - lastDigit p emin r).toNat : Int) : ℝ) * 2 ^ lastDigit p emin r := by
      push_cast
      rw [← zpow_natCast, Int.toNat_of_nonneg (by omega), mul_assoc, ← zpow_add₀ (by norm_num),
        sub_add_cancel]
      exact hm
    have hb := roundNearest_best (p := p) (emin := emin) r (m * 2 ^ (lastDigit p emin y - lastDigit p emin r).toNat)
    rwa [← this] at hb
  · have e1 : lastDigit p emin r = Int.log 2 r + 1 - p := by
      unfold lastDigit at h ⊢; rw [abs_of_pos hr] at h ⊢; omega
    have hl : Int.log 2 |y| < Int.log 2 r := by
      unfold lastDigit at h; rw [abs_of_pos hr] at h; omega
    have h1 : |y| ≤ 2 ^ Int.log 2 r := by
      have := Int.lt_zpow_succ_log_self (b := 2) (by norm_num) |y|
      push_cast at this
      exact this.le.trans (zpow_le_zpow_right₀ (by norm_num) (by omega))
    have h2 : (2 : ℝ) ^ Int.log 2 r ≤ r := by
      have := Int.zpow_log_le_self (b := 2) (by norm_num) hr
      exact_mod_cast this
    have hb := roundNearest_best (p := p) (emin := emin) r (2 ^ (p - 1))
    have e2 : (((2 : Int) ^ (p - 1) : Int) : ℝ) * 2 ^ lastDigit p emin r = 2 ^ Int.log 2 r := by
      push_cast
      rw [← zpow_natCast, ← zpow_add₀ (by norm_num), e1]; congr 1; omega
    rw [e2, abs_of_nonpos (by linarith : (2 : ℝ) ^ Int.log 2 r - r ≤ 0)] at hb
    have := le_abs_self y
    rw [abs_of_nonpos (by linarith : y - r ≤ 0)]
    linarith

/-- No number of the format is nearer to `r` than the result. -/
theorem roundNearest_nearest (hp : 1 ≤ p) (r y : ℝ) (hy : IsRep p emin y) :
    |roundNearest p emin r - r| ≤ |y - r| := by
  rcases lt_trichotomy r 0 with h | h | h
  · have := roundNearest_nearest_pos hp (neg_pos.2 h) hy.neg
    rw [roundNearest_neg] at this
    rwa [show -roundNearest p emin r - -r = -(roundNearest p emin r - r) by ring, abs_neg,
      show -y - -r = -(y - r) by ring, abs_neg] at this
  · rw [h, roundNearest_exact (isRep_zero _ _)]; simp
  · exact roundNearest_nearest_pos hp h hy

theorem ieee_binary (hp : 2 ≤ p) (he : emin ≤ 0) {emax : Int} (hm : 1 < emax) :
    (Fmt.ieee p emin emax).Binary p emin where
  digits := hp
  emin_le := he
  rep := roundNearest_rep (by omega)
  exact _ := roundNearest_exact
  mono := roundNearest_mono (by omega)
  fits_abs a b h hb := h.trans_lt hb
  fits_two := by
    show |(2 : ℝ)| < 2 ^ emax
    rw [abs_of_pos (by norm_num)]
    calc (2 : ℝ) = 2 ^ (1 : Int) := by norm_num
      _ < 2 ^ emax := zpow_lt_zpow_right₀ (by norm_num) hm

end

theorem binary64_binary : binary64.Binary 53 (-1074) := ieee_binary (by norm_num) (by norm_num) (by norm_num)
theorem binary32_binary : binary32.Binary 24 (-149) := ieee_binary (by norm_num) (by norm_num) (by norm_num)

end Verif

namespace Verif

theorem lastDigit_eq {p : Nat} {emin : Int} {r : ℝ} (k : Int) (h1 : 2 ^ k ≤ |r|) (h2 : |r| < 2 ^ (k + 1)) :
    lastDigit p emin r = max (k + 1 - p) emin := by
  have h0 : 0 < |r| := lt_of_lt_of_le (by positivity) h1
  have a : k ≤ Int.log 2 |r| := by
    rw [← Int.zpow_le_iff_le_log (by norm_num) h0]; exact_mod_cast h1
  have b : Int.log 2 |r| < k + 1 := by
    rw [← Int.lt_zpow_iff_log_lt (by norm_num) h0]; exact_mod_cast h2
  unfold lastDigit
  rw [show Int.log 2 |r| = k by omega]

/-- A tie between `m` and `m + 1` units goes to the even one. -/
theorem nearestEven_tie (m : Int) : nearestEven ((m : ℝ) + 1 / 2) = if Even m then m else m + 1 := by
  have hf : ⌊(m : ℝ) + 1 / 2⌋ = m := by
    rw [Int.floor_eq_iff]; constructor <;> linarith
  have hfr : Int.fract ((m : ℝ) + 1 / 2) = 1 / 2 := by
    have := Int.floor_add_fract ((m : ℝ) + 1 / 2); rw [hf] at this; linarith
  unfold nearestEven
  rw [hf, hfr, if_neg (lt_irrefl _), if_neg (lt_irrefl _)]

/-- Rounding when the number is known in units of the last digit. -/
theorem roundNearest_eq {p : Nat} {emin : Int} {r : ℝ} (k : Int) (h1 : 2 ^ k ≤ |r|) (h2 : |r| < 2 ^ (k + 1)) (he : emin ≤ k + 1 - p)
    {x : ℝ} (hx : r = x * 2 ^ (k + 1 - (p : Int))) : roundNearest p emin r = nearestEven x * 2 ^ (k + 1 - (p : Int)) := by
  have e : lastDigit p emin r = k + 1 - p := by rw [lastDigit_eq k h1 h2, max_eq_left he]
  unfold roundNearest
  rw [e]
  congr 2
  rw [hx, mul_div_assoc, div_self (zpow_ne_zero _ (by norm_num)), mul_one]

end Verif
