import Verif.Proofs.PSquareFmt
import Verif.Proofs.ErrorBound
import Verif.Proofs.WindowRounded
import Mathlib.Tactic.FieldSimp
/-
P-square estimator with rounding to nearest: an adjusted marker stays between its neighbours.
-/
namespace Verif

/-- A format with rounding to nearest. -/
structure Fmt.Nearest (F : Fmt) (p : Nat) (emin : Int) : Prop where
  binary : F.Binary p emin
  digits : 3 ≤ p
  nearest : ∀ r y, IsRep p emin y → |F.rnd r - r| ≤ |y - r|
  neg : ∀ r, F.rnd (-r) = -F.rnd r
  err : F.Err (2 ^ (-(p : Int))) (2 ^ (emin - 1))

theorem ieee_nearest {p : Nat} {emin emax : Int} (hp : 3 ≤ p) (he : emin ≤ 0) (hm : 1 < emax) :
    (Fmt.ieee p emin emax).Nearest p emin where
  binary := ieee_binary (by omega) he hm
  digits := hp
  nearest := roundNearest_nearest (by omega)
  neg := roundNearest_neg
  err := Fmt.ieee_err hp emax

theorem binary64_nearest : binary64.Nearest 53 (-1074) := ieee_nearest (by norm_num) (by norm_num) (by norm_num)
theorem binary32_nearest : binary32.Nearest 24 (-149) := ieee_nearest (by norm_num) (by norm_num) (by norm_num)

/-- A positive number of the format is at least the smallest one. -/
theorem IsRep.le_of_pos {p : Nat} {emin : Int} {a : ℝ} (ha : IsRep p emin a) (h : 0 < a) : 2 ^ emin ≤ a := by
  obtain ⟨k, hk⟩ := Fmt.Binary.exists_mul_of_isRep ha
  have hpos : (0 : ℝ) < 2 ^ emin := by positivity
  have h1 : (0 : ℝ) < k := by
    by_contra hc
    push Not at hc
    have := mul_nonpos_of_nonpos_of_nonneg hc hpos.le
    rw [← hk] at this; linarith
  have h2 : (1 : ℝ) ≤ k := by
    have : 0 < k := by exact_mod_cast h1
    exact_mod_cast this
  rw [hk]; nlinarith

theorem IsRep.sub_le {p : Nat} {emin : Int} {a b : ℝ} (ha : IsRep p emin a) (hb : IsRep p emin b) (h : a < b) :
    2 ^ emin ≤ b - a := by
  obtain ⟨k, hk⟩ := Fmt.Binary.exists_mul_of_isRep ha
  obtain ⟨l, hl⟩ := Fmt.Binary.exists_mul_of_isRep hb
  have hpos : (0 : ℝ) < 2 ^ emin := by positivity
  have h1 : k < l := by
    by_contra hc
    have h2 : (l : ℝ) ≤ k := by exact_mod_cast not_lt.1 hc
    have := mul_le_mul_of_nonneg_right h2 hpos.le
    rw [← hk, ← hl] at this; linarith
  have h2 : (k : ℝ) + 1 ≤ l := by exact_mod_cast h1
  rw [hk, hl]; nlinarith

/-- The distance to the next smaller number is at most twice the distance to a larger number. -/
theorem IsRep.below {p : Nat} {emin : Int} (hp : 1 ≤ p) {h y : ℝ} (hh : IsRep p emin h) (hy : IsRep p emin y) (hlt : h < y) :
    ∃ z, IsRep p emin z ∧ z < h ∧ h - z ≤ 2 * (y - h) := by
  by_cases h0 : h = 0
  · subst h0
    exact ⟨-y, hy.neg, by linarith, by linarith⟩
  obtain ⟨m, hm⟩ := hh.lastDigit_mul
  set e := lastDigit p emin h with he
  have hpos : (0 : ℝ) < 2 ^ e := by positivity
  have hee : emin ≤ e := le_max_right _ _
  have hmb : |m| < 2 ^ p := by
    have := abs_div_lastDigit_lt (p := p) (emin := emin) h
    rw [← he] at this
    rw [show h / 2 ^ e = m by rw [hm]; field_simp] at this
    exact_mod_cast this
  have hz : IsRep p emin (h - 2 ^ e) := by
    have : h - 2 ^ e = ((m - 1 : Int) : ℝ) * 2 ^ e := by push_cast; rw [hm]; ring
    rw [this]
    refine isRep_mul hp hee ?_
    rw [abs_lt] at hmb
    rw [abs_le]; constructor <;> omega
  refine ⟨_, hz, by linarith, ?_⟩
  suffices hs : (2 : ℝ) ^ e ≤ 2 * (y - h) by linarith
  -- multiples of `2^k` that differ
  have mult : ∀ (a b : ℝ) (k : Int), (∃ i : Int, a = i * 2 ^ k) → (∃ j : Int, b = j * 2 ^ k) → a < b → 2 ^ k ≤ b - a := by
    rintro a b k ⟨i, hi⟩ ⟨j, hj⟩ hab
    have hk : (0 : ℝ) < 2 ^ k := by positivity
    have h1 : i < j := by
      by_contra hc
      have h2 : (j : ℝ) ≤ i := by exact_mod_cast not_lt.1 hc
      have := mul_le_mul_of_nonneg_right h2 hk.le
      rw [← hi, ← hj] at this; linarith
    have h2 : (i : ℝ) + 1 ≤ j := by exact_mod_cast h1
    rw [hi, hj]; nlinarith
  have lower : ∀ (a : ℝ) (k l : Int), (∃ i : Int, a = i * 2 ^ k) → l ≤ k → ∃ i : Int, a = i * 2 ^ l := by
    rintro a k l ⟨i, hi⟩ hl
    refine ⟨i * 2 ^ (k - l).toNat, ?_⟩
    push_cast
    rw [← zpow_natCast, Int.toNat_of_nonneg (by omega), mul_assoc, ← zpow_add₀ (by norm_num), sub_add_cancel]
    exact hi
  rcases eq_or_lt_of_le hee with heq | hgt
  · have := hh.sub_le hy hlt
    rw [heq] at this
    linarith
  -- `e` is given by the size of `h`
  have hlog : e = Int.log 2 |h| + 1 - p := by
    rw [he]; unfold lastDigit
    rw [he] at hgt; unfold lastDigit at hgt
    omega
  have hl1 : (2 : ℝ) ^ Int.log 2 |h| ≤ |h| := by
    have := Int.zpow_log_le_self (b := 2) (by norm_num) (abs_pos.2 h0)
    exact_mod_cast this
  have half : (2 : ℝ) ^ e = 2 * 2 ^ (e - 1) := by
    rw [zpow_sub₀ (by norm_num), zpow_one]; ring
  rw [half]
  suffices hs : (2 : ℝ) ^ (e - 1) ≤ y - h by linarith
  have hhm : ∃ i : Int, h = i * 2 ^ (e - 1) := lower h e (e - 1) ⟨m, hm⟩ (by omega)
  by_cases hyl : lastDigit p emin y < e - 1
  · -- `y` is much smaller than `h`
    have hy1 : Int.log 2 |y| + 1 - p < e - 1 := lt_of_le_of_lt (le_max_left _ _) hyl
    have hy2 : |y| < 2 ^ (Int.log 2 |h| - 1) := by
      have := Int.lt_zpow_succ_log_self (b := 2) (by norm_num) |y|
      push_cast at this
      refine this.trans_le (zpow_le_zpow_right₀ (by norm_num) (by omega))
    have hhalf : (2 : ℝ) ^ Int.log 2 |h| = 2 * 2 ^ (Int.log 2 |h| - 1) := by
      rw [zpow_sub₀ (by norm_num), zpow_one]; ring
    have hle : (2 : ℝ) ^ (e - 1) ≤ 2 ^ (Int.log 2 |h| - 1) := zpow_le_zpow_right₀ (by norm_num) (by omega)
    have hya := abs_lt.1 hy2
    rcases lt_or_gt_of_ne h0 with hneg | hposh
    · rw [abs_of_neg hneg] at hl1 hhalf hle hya
      linarith
    · rw [abs_of_pos hposh] at hl1 hhalf hle hya
      linarith
  · obtain ⟨j, hj⟩ := hy.lastDigit_mul
    exact mult h y (e - 1) hhm (lower y _ (e - 1) ⟨j, hj⟩ (by omega)) hlt

namespace Fmt.Nearest
variable {F : Fmt} {p : Nat} {emin : Int}

theorem le_two_mul (h : F.Nearest p emin) {r : ℝ} (hr : 0 ≤ r) : F.rnd r ≤ 2 * r := by
  have := h.nearest r 0 (isRep_zero _ _)
  rw [zero_sub, abs_neg, abs_of_nonneg hr] at this
  have := (abs_le.1 this).2
  linarith

theorem le_err (h : F.Nearest p emin) {r : ℝ} (hr : 0 ≤ r) : F.rnd r ≤ (1 + 2 ^ (-(p : Int))) * r + 2 ^ emin / 2 := by
  have := (abs_le.1 (h.err.err r)).2
  have e2 : (2 : ℝ) ^ (emin - 1) = 2 ^ emin / 2 := by rw [zpow_sub₀ (by norm_num), zpow_one]
  rw [abs_of_nonneg hr, e2] at this
  linarith

theorem quarter_le (h : F.Nearest p emin) {r : ℝ} (hr : 2 ^ emin ≤ r) : r / 4 ≤ F.rnd r := by
  have h0 : (0 : ℝ) < 2 ^ emin := by positivity
  have hr0 : 0 < r := h0.trans_le hr
  have := (abs_le.1 (h.err.err r)).1
  have e2 : (2 : ℝ) ^ (emin - 1) = 2 ^ emin / 2 := by rw [zpow_sub₀ (by norm_num), zpow_one]
  rw [abs_of_pos hr0, e2] at this
  have hu := h.err.u_le
  nlinarith

/-- The step of the parabola is less than half the distance to the previous marker if the next marker is close. -/
theorem down_half (h : F.Nearest p emin) {N f b : Nat} {κ : ℝ} (hκ0 : 0 < κ) (hNκ : 2 ^ 11 * (N : ℝ) ^ 2 * κ ≤ 1)
    (hNu : 64 * (N : ℝ) * 2 ^ (-(p : Int)) ≤ 1) (hNe : (N : ℝ) * 2 ^ emin ≤ 2 ^ (-(p : Int))) (hf : 1 ≤ f) (hb : 2 ≤ b)
    (hfb : f + b ≤ N) {δ D q g A B S c t : ℝ} (hδ0 : 0 < δ) (hD : D = F.rnd δ) (hηδ : 2 ^ emin ≤ 8 * κ * δ) (hg0 : 0 ≤ g)
    (hge : g ≤ 8 * κ * δ) (hq : q = F.rnd (D / b)) (hA : A = F.rnd ((b - 1 : Nat) * g)) (hB : B = F.rnd ((f + 1 : Nat) * q))
    (hS : S = F.rnd (A + B)) (hc' : c = F.rnd (1 / (f + b : Nat))) (ht : t = F.rnd (c * S)) : t < δ / 2 := by
  have hbin := h.binary
  set u : ℝ := 2 ^ (-(p : Int)) with hu
  set η : ℝ := 2 ^ emin with hη
  have hη0 : 0 < η := by positivity
  have hu0 : 0 < u := by positivity
  have hfR : (1 : ℝ) ≤ f := by exact_mod_cast hf
  have hbR : (2 : ℝ) ≤ b := by exact_mod_cast hb
  have hfbR : (f : ℝ) + b ≤ N := by exact_mod_cast hfb
  have hNR : (3 : ℝ) ≤ N := by linarith
  have hT0 : (0 : ℝ) < f + b := by linarith
  have hD0 : 0 ≤ D := by rw [hD]; exact hbin.rnd_nonneg hδ0.le
  have hq0 : 0 ≤ q := by rw [hq]; exact hbin.rnd_nonneg (by positivity)
  have hA0 : 0 ≤ A := by rw [hA]; exact hbin.rnd_nonneg (by positivity)
  have hB0 : 0 ≤ B := by rw [hB]; exact hbin.rnd_nonneg (by positivity)
  have hS0 : 0 ≤ S := by rw [hS]; exact hbin.rnd_nonneg (by linarith)
  have hc0 : 0 ≤ c := by rw [hc']; exact hbin.rnd_nonneg (by positivity)
  have hN0 : (0 : ℝ) < N := by linarith
  have hκN : κ ≤ 1 / (2048 * N ^ 2) := by
    rw [le_div_iff₀ (by positivity)]; linarith
  have hus : u ≤ 1 / 192 := by
    have := mul_le_mul_of_nonneg_right hNR hu0.le
    linarith
  have hκ3 : κ ≤ 1 / 18432 := by
    refine hκN.trans ?_
    refine one_div_le_one_div_of_le (by norm_num) ?_
    have : (3 : ℝ) ^ 2 ≤ N ^ 2 := by gcongr
    linarith
  have huu : u * u ≤ 1 / 192 * u := mul_le_mul_of_nonneg_right hus hu0.le
  have huκ : u * κ ≤ 1 / 192 * κ := mul_le_mul_of_nonneg_right hus hκ0.le
  have h4κ : 4 * κ * δ ≤ δ * (4 * N * κ) := by
    have := mul_le_mul_of_nonneg_left (show (1 : ℝ) ≤ N by linarith) (mul_nonneg hκ0.le hδ0.le)
    linarith
  have hDδ : D ≤ δ * (1 + u + 4 * κ) := by
    have := h.le_err hδ0.le
    rw [← hD, ← hu, ← hη] at this
    linarith
  have hAδ : A ≤ δ * (16 * N * κ) := by
    have e1 : ((b - 1 : Nat) : ℝ) ≤ N := by
      have : b - 1 ≤ N := by omega
      exact_mod_cast this
    have e2 : ((b - 1 : Nat) : ℝ) * g ≤ N * (8 * κ * δ) := mul_le_mul e1 hge hg0 (by linarith)
    have := h.le_two_mul (r := ((b - 1 : Nat) : ℝ) * g) (by positivity)
    rw [← hA] at this
    linarith
  have hqδ : q ≤ δ * ((1 + 3 * u) / b + 8 * κ) := by
    have e1 := h.le_err (r := D / b) (by positivity)
    rw [← hq, ← hu, ← hη] at e1
    have e2 : (1 + u) * (D / b) ≤ δ * ((1 + 3 * u) / b + 4 * κ) := by
      have e3 : (1 + u) * D ≤ (1 + u) * (δ * (1 + u + 4 * κ)) := mul_le_mul_of_nonneg_left hDδ (by linarith)
      have e4 : (1 + u) * (1 + u + 4 * κ) ≤ 1 + 3 * u + 8 * κ := by linarith
      have e5 := mul_le_mul_of_nonneg_left e4 hδ0.le
      have e6 : (1 + u) * D ≤ δ * (1 + 3 * u + 8 * κ) := by linarith
      have e7 : δ * (1 + 3 * u + 8 * κ) ≤ δ * ((1 + 3 * u) + 4 * κ * b) := by
        refine mul_le_mul_of_nonneg_left ?_ hδ0.le
        have := mul_le_mul_of_nonneg_left hbR hκ0.le
        linarith
      calc (1 + u) * (D / b) = (1 + u) * D / b := by ring
        _ ≤ δ * ((1 + 3 * u) + 4 * κ * b) / b := div_le_div_of_nonneg_right (e6.trans e7) (by linarith)
        _ = _ := by field_simp
    linarith
  set M := ((f : ℝ) + 1) / b with hM
  have hM0 : 0 ≤ M := by positivity
  have hBδ : B ≤ δ * ((1 + 5 * u) * M + 20 * N * κ) := by
    have e1 := h.le_err (r := ((f + 1 : Nat) : ℝ) * q) (by positivity)
    rw [← hB, ← hu, ← hη] at e1
    push_cast at e1
    have e2 : (1 + u) * (((f : ℝ) + 1) * q) ≤ (1 + u) * (((f : ℝ) + 1) * (δ * ((1 + 3 * u) / b + 8 * κ))) := by
      gcongr
    have e3 : (1 + u) * (((f : ℝ) + 1) * ((1 + 3 * u) / b + 8 * κ)) ≤ (1 + 5 * u) * M + 16 * N * κ := by
      have e4 : (1 + u) * (((f : ℝ) + 1) * ((1 + 3 * u) / b + 8 * κ))
          = (1 + u) * (1 + 3 * u) * M + 8 * κ * ((1 + u) * (f + 1)) := by rw [hM]; field_simp
      rw [e4]
      have e5 : (1 + u) * (1 + 3 * u) ≤ 1 + 5 * u := by linarith
      have e6 := mul_le_mul_of_nonneg_right e5 hM0
      have e7 : (1 + u) * ((f : ℝ) + 1) ≤ 2 * N := mul_le_mul (by linarith) (by linarith) (by linarith) (by linarith)
      have e8 := mul_le_mul_of_nonneg_left e7 (by positivity : 0 ≤ 8 * κ)
      linarith
    have e4 := mul_le_mul_of_nonneg_left e3 hδ0.le
    linarith
  have hSδ : S ≤ δ * ((1 + 7 * u) * M + 76 * N * κ) := by
    have e1 := h.le_err (r := A + B) (by linarith)
    rw [← hS, ← hu, ← hη] at e1
    have e2 : (1 + u) * (A + B) ≤ (1 + u) * (δ * ((1 + 5 * u) * M + 36 * N * κ)) := by
      gcongr
      linarith
    have e3 : (1 + u) * ((1 + 5 * u) * M + 36 * N * κ) ≤ (1 + 7 * u) * M + 72 * N * κ := by
      have e5 : (1 + u) * (1 + 5 * u) ≤ 1 + 7 * u := by linarith
      have e6 := mul_le_mul_of_nonneg_right e5 hM0
      have e7 : (1 + u) * (36 * N * κ) ≤ 2 * (36 * N * κ) := by gcongr; linarith
      linarith
    have e4 := mul_le_mul_of_nonneg_left e3 hδ0.le
    linarith
  have hcT : c ≤ (1 + 2 * u) / (f + b) := by
    have e1 := h.le_err (r := 1 / ((f + b : Nat) : ℝ)) (by positivity)
    rw [← hc', ← hu, ← hη] at e1
    push_cast at e1
    have e2 : η / 2 ≤ u / (f + b) := by
      rw [le_div_iff₀ hT0]
      have := mul_le_mul_of_nonneg_left hfbR hη0.le
      linarith
    calc c ≤ (1 + u) * (1 / ((f : ℝ) + b)) + η / 2 := e1
      _ ≤ (1 + u) * (1 / ((f : ℝ) + b)) + u / (f + b) := by linarith
      _ = _ := by field_simp; ring
  have hmid : M / (f + b) ≤ 1 / 2 - 1 / (2 * N) := by
    have e1 : M ≤ (f + 1) / 2 := by
      rw [hM]; gcongr
    have e2 : (f + 1) / 2 ≤ ((f : ℝ) + b) * (1 / 2 - 1 / (2 * N)) := by
      have e3 : ((f : ℝ) + b) * (1 / (2 * N)) ≤ 1 / 2 := by
        rw [mul_one_div, div_le_iff₀ (by linarith)]; linarith
      linarith
    rw [div_le_iff₀ hT0]; linarith
  have hm0 : 0 ≤ M / (f + b) := by positivity
  have hcS : c * S ≤ δ * ((1 + 10 * u) * (M / (f + b)) + 76 * N * κ) := by
    have e1 : c * S ≤ (1 + 2 * u) / (f + b) * (δ * ((1 + 7 * u) * M + 76 * N * κ)) :=
      mul_le_mul hcT hSδ hS0 (by positivity)
    have e2 : (1 + 2 * u) / (f + b) * ((1 + 7 * u) * M + 76 * N * κ)
        ≤ (1 + 10 * u) * (M / (f + b)) + 76 * N * κ := by
      have e3 : (1 + 2 * u) * (1 + 7 * u) ≤ 1 + 10 * u := by linarith
      have e4 := mul_le_mul_of_nonneg_right e3 hm0
      have e5 : (1 + 2 * u) / ((f : ℝ) + b) ≤ 1 := by
        rw [div_le_one hT0]; linarith
      have e6 := mul_le_mul_of_nonneg_right e5 (by positivity : 0 ≤ 76 * (N : ℝ) * κ)
      calc (1 + 2 * u) / (f + b) * ((1 + 7 * u) * M + 76 * N * κ)
          = (1 + 2 * u) * (1 + 7 * u) * (M / (f + b)) + (1 + 2 * u) / (f + b) * (76 * N * κ) := by ring
        _ ≤ _ := by linarith
    have e3 := mul_le_mul_of_nonneg_left e2 hδ0.le
    linarith
  have htδ' : t ≤ δ * ((1 + 12 * u) * (M / (f + b)) + 156 * N * κ) := by
    have e1 := h.le_err (r := c * S) (by positivity)
    rw [← ht, ← hu, ← hη] at e1
    have e2 := mul_le_mul_of_nonneg_left hcS (by linarith : 0 ≤ 1 + u)
    have e3 : (1 + u) * ((1 + 10 * u) * (M / (f + b)) + 76 * N * κ) ≤ (1 + 12 * u) * (M / (f + b)) + 152 * N * κ := by
      have e5 : (1 + u) * (1 + 10 * u) ≤ 1 + 12 * u := by linarith
      have e6 := mul_le_mul_of_nonneg_right e5 hm0
      have e7 : (1 + u) * (76 * N * κ) ≤ 2 * (76 * N * κ) := by gcongr; linarith
      linarith
    have e4 := mul_le_mul_of_nonneg_left e3 hδ0.le
    linarith
  have hfin : (1 + 12 * u) * (M / (f + b)) + 156 * N * κ < 1 / 2 := by
    have e1 : u ≤ 1 / (64 * N) := by rw [le_div_iff₀ (by linarith)]; linarith
    have e2 : 156 * N * κ ≤ 156 / 2048 * (1 / N) := by
      calc 156 * N * κ ≤ 156 * N * (1 / (2048 * N ^ 2)) := by gcongr
        _ = 156 / 2048 * (1 / N) := by field_simp
    have e3 : (1 / (64 * N) : ℝ) = 1 / 64 * (1 / N) := by field_simp
    have e4 : (1 / (2 * N) : ℝ) = 1 / 2 * (1 / N) := by field_simp
    rw [e3] at e1
    rw [e4] at hmid
    have e5 : (0 : ℝ) < 1 / N := by positivity
    have e6 : u * (M / (f + b)) ≤ u * (1 / 2) := by
      apply mul_le_mul_of_nonneg_left _ hu0.le
      linarith
    linarith
  have := mul_lt_mul_of_pos_left hfin hδ0
  linarith

/-- The step of the parabola is larger than the step of the straight line. -/
theorem down_quarter (h : F.Nearest p emin) {N f b : Nat} {κ : ℝ} (hκ0 : 0 < κ) (hNκ : 2 ^ 11 * (N : ℝ) ^ 2 * κ ≤ 1)
    (hNu : 64 * (N : ℝ) * 2 ^ (-(p : Int)) ≤ 1) (hNe : (N : ℝ) * 2 ^ emin ≤ 2 ^ (-(p : Int))) (hf : 1 ≤ f) (hb : 2 ≤ b)
    (hfb : f + b ≤ N) {D e q A B S c t : ℝ} (hD0 : 0 ≤ D) (hDη : 2 ^ emin ≤ 4 * κ * D) (he2 : e ≤ 4 * κ * D)
    (hq : q = F.rnd (D / b)) (hA0 : 0 ≤ A) (hB1 : q ≤ B) (hS : S = F.rnd (A + B)) (hc' : c = F.rnd (1 / (f + b : Nat)))
    (ht : t = F.rnd (c * S)) : 4 * e ≤ t := by
  have hbin := h.binary
  set u : ℝ := 2 ^ (-(p : Int)) with hu
  set η : ℝ := 2 ^ emin with hη
  have hη0 : 0 < η := by positivity
  have hu0 : 0 < u := by positivity
  have hfR : (1 : ℝ) ≤ f := by exact_mod_cast hf
  have hbR : (2 : ℝ) ≤ b := by exact_mod_cast hb
  have hfbR : (f : ℝ) + b ≤ N := by exact_mod_cast hfb
  have hNR : (3 : ℝ) ≤ N := by linarith
  have hT0 : (0 : ℝ) < f + b := by linarith
  have hN0 : (0 : ℝ) < N := by linarith
  have hbN : (b : ℝ) ≤ N := by linarith
  have hNN : (N : ℝ) ≤ N ^ 2 := by
    have := mul_le_mul_of_nonneg_right (show (1 : ℝ) ≤ N by linarith) hN0.le
    linarith
  have hc0 : 0 ≤ c := by rw [hc']; exact hbin.rnd_nonneg (by positivity)
  have hu1 : u ≤ 1 := by
    have := mul_le_mul_of_nonneg_right hNR hu0.le
    linarith
  have q1 : D / (4 * b) ≤ q := by
    have : η ≤ D / b := by
      rw [le_div_iff₀ (by linarith)]
      have e1 : 4 * κ * (b : ℝ) ≤ 1 := by
        have := mul_le_mul_of_nonneg_left (hbN.trans hNN) hκ0.le
        have := mul_nonneg hκ0.le (sq_nonneg (N : ℝ))
        linarith
      calc η * b ≤ 4 * κ * D * b := by gcongr
        _ = 4 * κ * b * D := by ring
        _ ≤ 1 * D := mul_le_mul_of_nonneg_right e1 hD0
        _ = D := one_mul D
    have := h.quarter_le this
    rw [← hq] at this
    calc D / (4 * b) = D / b / 4 := by field_simp
      _ ≤ q := this
  have c1 : 1 / (4 * ((f : ℝ) + b)) ≤ c := by
    have : η ≤ 1 / ((f + b : Nat) : ℝ) := by
      push_cast
      rw [le_div_iff₀ hT0]
      have := mul_le_mul_of_nonneg_left hfbR hη0.le
      linarith
    have := h.quarter_le this
    rw [← hc'] at this
    push_cast at this
    calc 1 / (4 * ((f : ℝ) + b)) = 1 / ((f : ℝ) + b) / 4 := by field_simp
      _ ≤ c := this
  have s1 : q ≤ S := by
    rw [hS]
    have hqr : IsRep p emin q := by rw [hq]; exact hbin.rep _
    exact hbin.le_rnd hqr (by linarith)
  have cS : D / (16 * N ^ 2) ≤ c * S := by
    have e1 : 1 / (4 * ((f : ℝ) + b)) * (D / (4 * b)) ≤ c * S :=
      mul_le_mul c1 (q1.trans s1) (by positivity) hc0
    refine le_trans ?_ e1
    rw [div_mul_div_comm, one_mul]
    refine div_le_div_of_nonneg_left hD0 (by positivity) ?_
    have := mul_le_mul hfbR hbN (by linarith) hN0.le
    calc 4 * ((f : ℝ) + b) * (4 * b) = 16 * ((f + b) * b) := by ring
      _ ≤ 16 * (N * N) := by linarith
      _ = 16 * N ^ 2 := by ring
  have hκD := mul_le_mul_of_nonneg_right hNκ hD0
  have hbig : η ≤ D / (16 * N ^ 2) := by
    rw [le_div_iff₀ (by positivity)]
    have : η * (16 * (N : ℝ) ^ 2) ≤ 4 * κ * D * (16 * N ^ 2) := by gcongr
    have := mul_nonneg (mul_nonneg (sq_nonneg (N : ℝ)) hκ0.le) hD0
    linarith
  have := h.quarter_le (hbig.trans cS)
  rw [← ht] at this
  have e5 : D / (64 * N ^ 2) ≤ t := by
    calc D / (64 * N ^ 2) = D / (16 * N ^ 2) / 4 := by rw [div_div]; congr 1; ring
      _ ≤ c * S / 4 := by gcongr
      _ ≤ t := this
  refine le_trans ?_ e5
  rw [le_div_iff₀ (by positivity)]
  have : 4 * e * (64 * (N : ℝ) ^ 2) ≤ 4 * (4 * κ * D) * (64 * N ^ 2) := by gcongr
  have := mul_nonneg (mul_nonneg (sq_nonneg (N : ℝ)) hκ0.le) hD0
  linarith

/-- A marker that cannot be moved down by the parabolic formula is moved up, but not past the next marker. -/
theorem down (h : F.Nearest p emin) {w N f b : Nat} (hN : 2 ^ 11 * N ^ 2 ≤ 2 ^ w) (hNp : 64 * N ≤ 2 ^ p)
    (hNe : (N : ℝ) * 2 ^ emin ≤ 2 ^ (-(p : Int))) (hf : 1 ≤ f) (hb : 2 ≤ b) (hfb : f + b ≤ N) {hp hc hn : ℝ}
    (rc : IsRep p emin hc) (rn : IsRep p emin hn) (h1 : hp ≤ hc) (h2 : hc ≤ hn)
    {D G W e q g A B S c t : ℝ} (hD : D = F.rnd (hc - hp)) (hG : G = F.rnd (hn - hc))
    (hW : W = F.rnd ((2 ^ w - b : Nat) : ℝ)) (he : e = F.rnd (D / W)) (hq : q = F.rnd (D / b)) (hg : g = F.rnd (G / f))
    (hA : A = F.rnd ((b - 1 : Nat) * g)) (hB : B = F.rnd ((f + 1 : Nat) * q)) (hS : S = F.rnd (A + B))
    (hc' : c = F.rnd (1 / (f + b : Nat))) (ht : t = F.rnd (c * S))
    (hfail : F.rnd (hc - t) ≤ hp ∨ hn ≤ F.rnd (hc - t)) : F.rnd (hc + e) ≤ hn := by
  have hbin := h.binary
  have hpd : 1 ≤ p := by have := h.digits; omega
  set u : ℝ := 2 ^ (-(p : Int)) with hu
  set η : ℝ := 2 ^ emin with hη
  have hη0 : 0 < η := by positivity
  have hu0 : 0 < u := by positivity
  set κ : ℝ := 1 / 2 ^ w with hκ
  have hκ0 : 0 < κ := by positivity
  have hκw : κ * 2 ^ w = 1 := by rw [hκ]; field_simp
  have hfR : (1 : ℝ) ≤ f := by exact_mod_cast hf
  have hbR : (2 : ℝ) ≤ b := by exact_mod_cast hb
  have hfbR : (f : ℝ) + b ≤ N := by exact_mod_cast hfb
  have hNR : (3 : ℝ) ≤ N := by linarith
  have hNκ : 2 ^ 11 * (N : ℝ) ^ 2 * κ ≤ 1 := by
    have : (2 ^ 11 * (N : ℝ) ^ 2) ≤ 2 ^ w := by exact_mod_cast hN
    have := mul_le_mul_of_nonneg_right this hκ0.le
    linarith
  have hNu : 64 * (N : ℝ) * u ≤ 1 := by
    have h3 : (64 * (N : ℝ)) ≤ 2 ^ p := by exact_mod_cast hNp
    have h4 : u * 2 ^ p = 1 := by
      rw [hu, zpow_neg, zpow_natCast]; field_simp
    have := mul_le_mul_of_nonneg_right h3 hu0.le
    linarith
  have hD0 : 0 ≤ D := by rw [hD]; exact hbin.rnd_nonneg (by linarith)
  have hG0 : 0 ≤ G := by rw [hG]; exact hbin.rnd_nonneg (by linarith)
  have hDr : IsRep p emin D := by rw [hD]; exact hbin.rep _
  have hGr : IsRep p emin G := by rw [hG]; exact hbin.rep _
  have hbw : b ≤ 2 ^ (w - 1) ∧ 1 ≤ w := by
    have hw1 : 1 ≤ w := by
      rcases Nat.eq_zero_or_pos w with h0 | h0
      · subst h0
        have : 1 ≤ N ^ 2 := Nat.one_le_pow _ _ (by omega)
        omega
      · exact h0
    refine ⟨?_, hw1⟩
    have e1 : 2 ^ w = 2 * 2 ^ (w - 1) := by rw [← pow_succ']; congr 1; omega
    nlinarith
  have hW2 : (2 : ℝ) ^ w ≤ 2 * W := by
    have e1 : 2 ^ w = 2 * 2 ^ (w - 1) := by rw [← pow_succ']; congr 1; omega
    have e1' : (2 : ℝ) ^ w = 2 * 2 ^ (w - 1) := by rw [← pow_succ']; congr 1; omega
    have e2 : (2 : ℝ) ^ (w - 1) ≤ ((2 ^ w - b : Nat) : ℝ) := by
      have : 2 ^ (w - 1) ≤ 2 ^ w - b := by omega
      exact_mod_cast this
    have e3 : IsRep p emin ((2 : ℝ) ^ (w - 1)) := by
      rw [← zpow_natCast]; exact isRep_zpow hpd (by have := hbin.emin_le; omega)
    have := hbin.le_rnd e3 e2
    rw [← hW] at this
    rw [e1']; linarith
  have hW0 : 0 < W := by
    have : (0 : ℝ) < 2 ^ w := by positivity
    linarith
  have hDW : D / W ≤ 2 * κ * D := by
    rw [div_le_iff₀ hW0]
    have : 1 ≤ 2 * κ * W := by
      calc (1 : ℝ) = κ * 2 ^ w := hκw.symm
        _ ≤ κ * (2 * W) := mul_le_mul_of_nonneg_left hW2 hκ0.le
        _ = 2 * κ * W := by ring
    calc D = D * 1 := by ring
      _ ≤ D * (2 * κ * W) := mul_le_mul_of_nonneg_left this hD0
      _ = _ := by ring
  have hDW0 : 0 ≤ D / W := div_nonneg hD0 hW0.le
  have he0 : 0 ≤ e := by rw [he]; exact hbin.rnd_nonneg hDW0
  have he2 : e ≤ 4 * κ * D := by
    have := h.le_two_mul hDW0
    rw [← he] at this; linarith
  have her : IsRep p emin e := by rw [he]; exact hbin.rep _
  have hT0 : (0 : ℝ) < f + b := by linarith
  have hc0 : 0 ≤ c := by
    rw [hc']; exact hbin.rnd_nonneg (by positivity)
  have hq0 : 0 ≤ q := by rw [hq]; exact hbin.rnd_nonneg (by positivity)
  have hg0 : 0 ≤ g := by rw [hg]; exact hbin.rnd_nonneg (by positivity)
  have hA0 : 0 ≤ A := by rw [hA]; exact hbin.rnd_nonneg (by positivity)
  have hB0 : 0 ≤ B := by rw [hB]; exact hbin.rnd_nonneg (by positivity)
  have hS0 : 0 ≤ S := by rw [hS]; exact hbin.rnd_nonneg (by linarith)
  have ht0 : 0 ≤ t := by rw [ht]; exact hbin.rnd_nonneg (by positivity)
  by_cases hle : hc + e ≤ hn
  · exact hbin.rnd_le rn hle
  push Not at hle
  have hepos : 0 < e := by linarith
  have heη : η ≤ e := her.le_of_pos hepos
  -- the difference does not underflow
  have hDη : η ≤ 4 * κ * D := heη.trans he2
  have hDpos : 0 < D := by
    rcases hD0.lt_or_eq with h3 | h3
    · exact h3
    · rw [← h3] at hDη; linarith
  have hB1 : q ≤ B := by
    rw [hB]
    have hqr : IsRep p emin q := by rw [hq]; exact hbin.rep _
    refine hbin.le_rnd hqr ?_
    push_cast
    have := mul_nonneg (show (0 : ℝ) ≤ f by linarith) hq0
    linarith
  rcases hfail with hfail | hfail
  · -- the parabola fell below the previous marker
    set δ := hc - hp with hδ
    have hδ0 : 0 < δ := by
      rcases h1.lt_or_eq with h3 | h3
      · linarith
      · exfalso
        rw [hδ, h3, sub_self, hbin.rnd_zero] at hD
        linarith
    have htδ : δ / 2 ≤ t := by
      by_contra hcon
      push Not at hcon
      have := h.nearest (hc - t) hc rc
      rw [show hc - (hc - t) = t by ring, abs_of_nonneg ht0] at this
      have := (abs_le.1 this).1
      linarith
    exfalso
    have hge : g ≤ e := by
      rw [hg]
      refine hbin.rnd_le her ?_
      have : G ≤ e := by rw [hG]; exact hbin.rnd_le her (by linarith)
      exact (div_le_self hG0 hfR).trans this
    have hD2 : D ≤ 2 * δ := by rw [hD]; exact h.le_two_mul hδ0.le
    have hηδ : η ≤ 8 * κ * δ := by
      have := mul_le_mul_of_nonneg_left hD2 (by positivity : 0 ≤ 4 * κ)
      linarith
    have heδ : e ≤ 8 * κ * δ := by
      have := mul_le_mul_of_nonneg_left hD2 (by positivity : 0 ≤ 4 * κ)
      linarith
    have := h.down_half hκ0 hNκ hNu hNe hf hb hfb hδ0 hD hηδ hg0 (hge.trans heδ) hq hA hB hS hc' ht
    linarith
  · -- the marker equals the next one
    have hupper : F.rnd (hc - t) ≤ hc := hbin.rnd_le rc (by linarith)
    have heq : hn = hc := le_antisymm (hfail.trans hupper) h2
    have hback : F.rnd (hc - t) = hc := le_antisymm hupper (heq ▸ hfail)
    have h4e : 4 * e ≤ t := h.down_quarter hκ0 hNκ hNu hNe hf hb hfb hD0 hDη he2 hq hA0 hB1 hS hc' ht
    rw [heq]
    by_contra hcon
    push Not at hcon
    obtain ⟨z, z1, z2, z3⟩ := rc.below hpd (hbin.rep (hc + e)) hcon
    have n1 := h.nearest (hc + e) hc rc
    rw [show hc - (hc + e) = -e by ring, abs_neg, abs_of_nonneg he0] at n1
    have n2 := (abs_le.1 n1).2
    have n3 := h.nearest (hc - t) z z1
    rw [hback, show hc - (hc - t) = t by ring, abs_of_nonneg ht0] at n3
    rw [abs_of_nonneg (by linarith : 0 ≤ z - (hc - t))] at n3
    linarith

theorem abs_le_two_mul (h : F.Nearest p emin) (r : ℝ) : |F.rnd r| ≤ 2 * |r| := by
  rcases le_total 0 r with h0 | h0
  · rw [abs_of_nonneg h0, abs_of_nonneg (h.binary.rnd_nonneg h0)]
    exact h.le_two_mul h0
  · have := h.le_two_mul (r := -r) (by linarith)
    rw [h.neg] at this
    rw [abs_of_nonpos h0, abs_of_nonpos (h.binary.rnd_nonpos h0)]
    exact this

end Fmt.Nearest

namespace PSquare
open Scalar

/-- What is needed to keep the markers of up to `N` values up to `B` in order: `N` is small compared to the size type, to
the number of digits, and to the smallest number; nothing overflows. -/
structure Fits (F : Fmt) (p : Nat) (emin : Int) (w N : Nat) (B : ℝ) : Prop where
  size : 2 ^ 11 * N ^ 2 ≤ 2 ^ w
  digits : 64 * N ≤ 2 ^ p
  small : (N : ℝ) * 2 ^ emin ≤ 2 ^ (-(p : Int))
  count : F.fits (2 ^ w)
  values : F.fits (128 * N * B)

variable {F : Fmt} {p : Nat} {emin : Int} {w N : Nat} {B : ℝ}

/-- The new height of a marker is a number between its neighbours. -/
theorem predict_betweenF (h : F.Nearest p emin) (hfit : Fits F p emin w N B) {f b : Nat} (hf : 1 ≤ f) (hb : 1 ≤ b) (hfb : f + b ≤ N)
    {sign : Int} (hs : sign = 1 ∧ 1 < f ∨ sign = -1 ∧ 1 < b) {hp hc hn : ℝ} (rc : IsRep p emin hc)
    (rn : IsRep p emin hn) (h1 : hp ≤ hc) (h2 : hc ≤ hn) (bp : |hp| ≤ B) (bc : |hc| ≤ B) (bn : |hn| ≤ B) :
    ∃ v, predict w sign f b (X.fin hp : X F) (X.fin hc) (X.fin hn) = X.fin v ∧ IsRep p emin v ∧ hp ≤ v ∧ v ≤ hn := by
  have hbin := h.binary
  have hB0 : 0 ≤ B := (abs_nonneg _).trans bc
  have hfR : (1 : ℝ) ≤ f := by exact_mod_cast hf
  have hbR : (1 : ℝ) ≤ b := by exact_mod_cast hb
  have hfbR : (f : ℝ) + b ≤ N := by exact_mod_cast hfb
  have hN1 : (1 : ℝ) ≤ N := by linarith
  have hNB : B ≤ N * B := by
    have := mul_le_mul_of_nonneg_right hN1 hB0
    linarith
  -- results of up to 64 N B are finite
  have rnd_fin : ∀ r : ℝ, |r| ≤ 64 * N * B → (X.round r : X F) = X.fin (F.rnd r) := by
    intro r hr
    unfold X.round
    rw [if_pos]
    refine hbin.fits_abs _ _ ?_ hfit.values
    have h3 := h.abs_le_two_mul r
    rw [abs_of_nonneg (by positivity : 0 ≤ 128 * (N : ℝ) * B)]
    linarith
  have one_fit : ∀ r : ℝ, |r| ≤ 1 → F.fits r := fun r hr => hbin.fits_abs _ 1 (by rwa [abs_one]) hbin.fits_one
  have fitB : ∀ r : ℝ, |r| ≤ B → F.fits r := by
    intro r hr
    refine hbin.fits_abs _ _ ?_ hfit.values
    rw [abs_of_nonneg (by positivity : 0 ≤ 128 * (N : ℝ) * B)]
    linarith
  have hN2w : N ≤ 2 ^ w := by
    refine le_trans ?_ hfit.size
    nlinarith
  have ofn : ∀ n : Nat, n ≤ N → (ofNat n : X F) = X.fin n := by
    intro n hn
    refine hbin.ofNat_fin ?_ (hbin.fits_abs _ _ ?_ hfit.count)
    · have := hfit.digits; omega
    · rw [abs_of_nonneg (Nat.cast_nonneg n), abs_of_nonneg (by positivity)]
      exact_mod_cast hn.trans hN2w
  have b1 := abs_le.1 bp
  have b2 := abs_le.1 bc
  have b3 := abs_le.1 bn
  unfold predict
  by_cases hcond : (lt (X.fin hp) (para sign f b (X.fin hp : X F) (X.fin hc) (X.fin hn))
      && lt (para sign f b (X.fin hp : X F) (X.fin hc) (X.fin hn)) (X.fin hn)) = true
  · rw [if_pos hcond]
    cases hv : para sign f b (X.fin hp : X F) (X.fin hc) (X.fin hn) with
    | fin r =>
      rw [hv, X.lt_fin, X.lt_fin, Bool.and_eq_true, decide_eq_true_eq, decide_eq_true_eq] at hcond
      refine ⟨r, rfl, ?_, hcond.1.le, hcond.2.le⟩
      unfold para at hv
      obtain ⟨y, -, rfl⟩ := X.fin_of_add hv
      exact hbin.rep _
    | pinf => rw [hv] at hcond; simp [Scalar.lt, X.lt] at hcond
    | ninf => rw [hv] at hcond; simp [Scalar.lt, X.lt] at hcond
    | nan => rw [hv] at hcond; simp [Scalar.lt, X.lt] at hcond
  · rw [if_neg hcond]
    rcases hs with ⟨rfl, hf2⟩ | ⟨rfl, hb2⟩
    · -- up
      unfold lin
      rw [if_pos rfl, ofn f (by omega)]
      have hf2R : (2 : ℝ) ≤ f := by exact_mod_cast hf2
      have hsub : |hn - hc| ≤ 64 * N * B := by rw [abs_le]; constructor <;> linarith
      have hd : F.fits (F.rnd (hn - hc)) := by
        have := rnd_fin _ hsub
        unfold X.round at this
        by_contra hcon
        rw [if_neg hcon] at this
        split_ifs at this
      obtain ⟨v, e1, e2, -, e4, -⟩ := hbin.mean_step rc (fitB _ bc) rn (fitB _ bn) hd (Or.inr ⟨(f : ℝ), hf2R, rfl⟩)
      refine ⟨v, ?_, e2, h1.trans (e4 h2).1, (e4 h2).2⟩
      rw [← e1]
      congr 1
      have e5 : (ofInt 1 : X F) = X.fin 1 := by
        rw [X.ofInt_eq, Int.cast_one]; exact hbin.round_exact hbin.isRep_one hbin.fits_one
      obtain ⟨y, ey, -⟩ := X.fin_of_add e1
      have hy : IsRep p emin y ∧ F.fits y := by
        rw [X.sub_fin, rnd_fin _ hsub, X.div_fin_of_ne _ (by linarith)] at ey
        have e6 := X.eq_of_round_eq ey
        refine ⟨e6 ▸ hbin.rep _, ?_⟩
        unfold X.round at ey
        split_ifs at ey with c
        rw [e6]; exact c
      rw [e5, ey, X.mul_fin, one_mul, hbin.round_exact hy.1 hy.2]
    · -- down
      have hb2R : (2 : ℝ) ≤ b := by exact_mod_cast hb2
      have m1 : (ofInt (-1) : X F) = X.fin (-1) := by
        rw [X.ofInt_eq, Int.cast_neg, Int.cast_one]
        exact hbin.round_exact hbin.isRep_one.neg (hbin.fits_neg hbin.fits_one)
      have t1 : ((b : Int) + -1).toNat = b - 1 := by omega
      have t2 : ((f : Int) - -1).toNat = f + 1 := by omega
      have hT0 : (0 : ℝ) < f + b := by linarith
      -- all intermediate results
      obtain ⟨D, hD⟩ : ∃ D, D = F.rnd (hc - hp) := ⟨_, rfl⟩
      obtain ⟨G, hG⟩ : ∃ G, G = F.rnd (hn - hc) := ⟨_, rfl⟩
      obtain ⟨W, hW⟩ : ∃ W, W = F.rnd ((2 ^ w - b : Nat) : ℝ) := ⟨_, rfl⟩
      obtain ⟨e, he⟩ : ∃ e, e = F.rnd (D / W) := ⟨_, rfl⟩
      obtain ⟨q, hq⟩ : ∃ q, q = F.rnd (D / b) := ⟨_, rfl⟩
      obtain ⟨g, hg⟩ : ∃ g, g = F.rnd (G / f) := ⟨_, rfl⟩
      obtain ⟨A, hA⟩ : ∃ A, A = F.rnd ((b - 1 : Nat) * g) := ⟨_, rfl⟩
      obtain ⟨Q, hQ⟩ : ∃ Q, Q = F.rnd ((f + 1 : Nat) * q) := ⟨_, rfl⟩
      obtain ⟨S, hS⟩ : ∃ S, S = F.rnd (A + Q) := ⟨_, rfl⟩
      obtain ⟨c, hc'⟩ : ∃ c, c = F.rnd (1 / (f + b : Nat)) := ⟨_, rfl⟩
      obtain ⟨t, ht⟩ : ∃ t, t = F.rnd (c * S) := ⟨_, rfl⟩
      have hD0 : 0 ≤ D := by rw [hD]; exact hbin.rnd_nonneg (by linarith)
      have hG0 : 0 ≤ G := by rw [hG]; exact hbin.rnd_nonneg (by linarith)
      have hDB : D ≤ 4 * B := by
        have := h.le_two_mul (r := hc - hp) (by linarith)
        rw [← hD] at this; linarith
      have hGB : G ≤ 4 * B := by
        have := h.le_two_mul (r := hn - hc) (by linarith)
        rw [← hG] at this; linarith
      have hDr : IsRep p emin D := by rw [hD]; exact hbin.rep _
      have hGr : IsRep p emin G := by rw [hG]; exact hbin.rep _
      have hW1 : 1 ≤ W := by
        rw [hW]
        refine hbin.le_rnd hbin.isRep_one ?_
        have : 1 ≤ 2 ^ w - b := by
          have := hfit.size
          have h3 : N < 2 ^ 11 * N ^ 2 := by nlinarith
          omega
        exact_mod_cast this
      have hq0 : 0 ≤ q := by rw [hq]; exact hbin.rnd_nonneg (by positivity)
      have hg0 : 0 ≤ g := by rw [hg]; exact hbin.rnd_nonneg (by positivity)
      have hA0 : 0 ≤ A := by rw [hA]; exact hbin.rnd_nonneg (by positivity)
      have hQ0 : 0 ≤ Q := by rw [hQ]; exact hbin.rnd_nonneg (by positivity)
      have hS0 : 0 ≤ S := by rw [hS]; exact hbin.rnd_nonneg (by linarith)
      have hc0 : 0 ≤ c := by rw [hc']; exact hbin.rnd_nonneg (by positivity)
      have ht0 : 0 ≤ t := by rw [ht]; exact hbin.rnd_nonneg (by positivity)
      have he0 : 0 ≤ e := by rw [he]; exact hbin.rnd_nonneg (by positivity)
      have heB : e ≤ 4 * B := by
        rw [he]; exact (hbin.rnd_le hDr (div_le_self hD0 hW1)).trans hDB
      have hqB : q ≤ 4 * B := by
        rw [hq]; exact (hbin.rnd_le hDr (div_le_self hD0 hbR)).trans hDB
      have hgB : g ≤ 4 * B := by
        rw [hg]; exact (hbin.rnd_le hGr (div_le_self hG0 hfR)).trans hGB
      have n1 : ((b - 1 : Nat) : ℝ) ≤ N := by
        have : b - 1 ≤ N := by omega
        exact_mod_cast this
      have n2 : ((f + 1 : Nat) : ℝ) ≤ N := by
        have : f + 1 ≤ N := by omega
        exact_mod_cast this
      have a1 : ((b - 1 : Nat) : ℝ) * g ≤ N * (4 * B) := mul_le_mul n1 hgB hg0 (by linarith)
      have a2 : ((f + 1 : Nat) : ℝ) * q ≤ N * (4 * B) := mul_le_mul n2 hqB hq0 (by linarith)
      have a10 : 0 ≤ ((b - 1 : Nat) : ℝ) * g := by positivity
      have a20 : 0 ≤ ((f + 1 : Nat) : ℝ) * q := by positivity
      have hAB : A ≤ 8 * N * B := by
        have := h.le_two_mul a10
        rw [← hA] at this; linarith
      have hQB : Q ≤ 8 * N * B := by
        have := h.le_two_mul a20
        rw [← hQ] at this; linarith
      have hSB : S ≤ 32 * N * B := by
        have := h.le_two_mul (r := A + Q) (by linarith)
        rw [← hS] at this; linarith
      have hc1 : c ≤ 1 := by
        rw [hc']
        refine hbin.rnd_le hbin.isRep_one ?_
        push_cast
        rw [div_le_one hT0]; linarith
      have hcS : c * S ≤ S := by
        have := mul_le_mul_of_nonneg_right hc1 hS0
        linarith
      have hcS0 : 0 ≤ c * S := by positivity
      have hSr : IsRep p emin S := by rw [hS]; exact hbin.rep _
      have htB : t ≤ 32 * N * B := by
        rw [ht]; exact (hbin.rnd_le hSr hcS).trans hSB
      have hNB0 : 0 ≤ N * B := by positivity
      have hpara : para (-1) f b (X.fin hp : X F) (X.fin hc) (X.fin hn) = X.fin (F.rnd (hc - t)) := by
        unfold para
        rw [t1, t2, m1, ofn f (by omega), ofn b (by omega), ofn (b - 1) (by omega), ofn (f + 1) (by omega), ofn (f + b) hfb]
        rw [X.sub_fin, rnd_fin _ (by rw [abs_le]; constructor <;> linarith), ← hG,
          X.sub_fin, rnd_fin _ (by rw [abs_le]; constructor <;> linarith), ← hD,
          X.div_fin_of_ne _ (show (f : ℝ) ≠ 0 by linarith), X.div_fin_of_ne _ (show (b : ℝ) ≠ 0 by linarith),
          X.div_fin_of_ne _ (show ((f + b : Nat) : ℝ) ≠ 0 by push_cast; linarith)]
        rw [rnd_fin (G / f) (by rw [abs_of_nonneg (by positivity)]; exact (div_le_self hG0 hfR).trans (by linarith)), ← hg,
          rnd_fin (D / b) (by rw [abs_of_nonneg (by positivity)]; exact (div_le_self hD0 hbR).trans (by linarith)), ← hq]
        have hneg : (X.round (-1 / ((f + b : Nat) : ℝ)) : X F) = X.fin (-c) := by
          have e1 : F.rnd (-1 / ((f + b : Nat) : ℝ)) = -c := by rw [hc', ← h.neg]; congr 1; ring
          unfold X.round
          rw [e1, if_pos]
          refine one_fit _ ?_
          rw [abs_neg, abs_of_nonneg hc0]; exact hc1
        rw [hneg, X.mul_fin, X.mul_fin, rnd_fin _ (by rw [abs_of_nonneg a10]; linarith), ← hA,
          rnd_fin _ (by rw [abs_of_nonneg a20]; linarith), ← hQ, X.add_fin,
          rnd_fin _ (by rw [abs_of_nonneg (by linarith)]; linarith), ← hS, X.mul_fin,
          rnd_fin _ (by rw [neg_mul, abs_neg, abs_of_nonneg hcS0]; linarith), neg_mul, h.neg, ← ht, X.add_fin,
          rnd_fin _ (by rw [abs_le]; constructor <;> linarith), ← sub_eq_add_neg]
      have hWfin : (ofNat (2 ^ w - b) : X F) = X.fin W := by
        rw [X.ofNat_eq, hW]
        unfold X.round
        rw [if_pos]
        refine hbin.fits_between hbin.fits_zero hfit.count (hbin.rnd_nonneg (Nat.cast_nonneg _)) (hbin.rnd_le ?_ ?_)
        · rw [← zpow_natCast]
          exact isRep_zpow (by have := h.digits; omega) (by have := hbin.emin_le; omega)
        · have : 2 ^ w - b ≤ 2 ^ w := Nat.sub_le _ _
          exact_mod_cast this
      have hlin : lin w (-1) f b (X.fin hp : X F) (X.fin hc) (X.fin hn) = X.fin (F.rnd (hc + e)) := by
        unfold lin
        rw [if_neg (by decide), m1, hWfin, X.sub_fin, rnd_fin _ (by rw [abs_le]; constructor <;> linarith),
          show hp - hc = -(hc - hp) by ring, h.neg, ← hD, X.div_fin_of_ne _ (by linarith), neg_div,
          rnd_fin _ (by rw [abs_neg, abs_of_nonneg (by positivity)]; exact (div_le_self hD0 hW1).trans (by linarith)),
          h.neg, ← he, X.mul_fin, neg_mul_neg, one_mul,
          rnd_fin e (by rw [abs_of_nonneg he0]; linarith), show F.rnd e = e by rw [he]; exact hbin.exact _ (hbin.rep _), X.add_fin,
          rnd_fin _ (by rw [abs_le]; constructor <;> linarith)]
      rw [hpara, X.lt_fin, X.lt_fin, Bool.and_eq_true, decide_eq_true_eq, decide_eq_true_eq] at hcond
      refine ⟨_, hlin, hbin.rep _, h1.trans (hbin.le_rnd rc (by linarith)), ?_⟩
      refine h.down hfit.size hfit.digits hfit.small hf hb2 hfb rc rn h1 h2 hD hG hW he hq hg hA hQ hS hc' ht ?_
      by_contra hcon
      push Not at hcon
      exact hcond ⟨hcon.1, hcon.2⟩

end PSquare
end Verif
