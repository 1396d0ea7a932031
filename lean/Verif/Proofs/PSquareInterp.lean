import Verif.Proofs.PSquareOrder
import Verif.Proofs.PSquareFmt
/-
The interpolation of quantile::psquare for few values, in floating point.
-/
namespace Verif
open Scalar

namespace Fmt.Nearest
variable {F : Fmt} {p : Nat} {emin : Int}

/-- A factor of at most `1 - 2^-p` makes a (normal) number smaller, also after rounding. -/
theorem rnd_scale_lt (h : F.Nearest p emin) {D t : ℝ} (hD : IsRep p emin D) (hlo : (2 : ℝ) ^ ((p : Int) - 1 + emin) < D)
    (ht : t ≤ 1 - 2 ^ (-(p : Int))) : F.rnd (t * D) < D := by
  have hD0 : 0 < D := lt_trans (by positivity) hlo
  obtain ⟨m, hm⟩ := hD.lastDigit_mul
  have hlt := abs_div_lastDigit_lt (p := p) (emin := emin) D
  set e := lastDigit p emin D with he
  have he0 : emin ≤ e := le_max_right _ _
  have hE : (0 : ℝ) < 2 ^ e := by positivity
  rw [show D / 2 ^ e = m by rw [div_eq_iff hE.ne']; exact hm] at hlt
  have hmpos : (0 : ℝ) < m := by
    by_contra hc
    have := mul_nonpos_of_nonpos_of_nonneg (not_lt.1 hc) hE.le
    linarith
  have hp1 : (p : Int) - 1 = ((p - 1 : Nat) : Int) := by have := h.digits; omega
  have hpp : (2 : ℝ) ^ p = 2 * 2 ^ (p - 1) := by
    rw [← pow_succ']; congr 1; have := h.digits; omega
  have hu : (2 : ℝ) ^ (-(p : Int)) = 1 / (2 * 2 ^ (p - 1)) := by rw [zpow_neg, zpow_natCast, hpp, one_div]
  have hP : (0 : ℝ) < 2 ^ (p - 1) := by positivity
  have hm1 : (2 : Int) ^ (p - 1) ≤ m ∧ (e = emin → (2 : Int) ^ (p - 1) < m) := by
    by_cases hee : e = emin
    · have : (2 : ℝ) ^ (p - 1) < m := by
        rw [hm, hee, zpow_add₀ (by norm_num), hp1, zpow_natCast] at hlo
        exact lt_of_mul_lt_mul_right hlo (by positivity)
      have : (2 : Int) ^ (p - 1) < m := by exact_mod_cast this
      exact ⟨this.le, fun _ => this⟩
    · refine ⟨?_, fun h => absurd h hee⟩
      have e1 : e = Int.log 2 |D| + 1 - p := by
        rw [he] at hee ⊢
        unfold lastDigit at hee ⊢
        omega
      have h2 := Int.zpow_log_le_self (b := 2) (r := |D|) (by norm_num) (abs_pos.2 hD0.ne')
      have h2 := h2.trans_eq ((abs_of_pos hD0).trans hm)
      rw [show Int.log 2 |D| = ((p - 1 : Nat) : Int) + e by omega] at h2
      push_cast at h2
      rw [zpow_add₀ (by norm_num), zpow_natCast] at h2
      have := le_of_mul_le_mul_right h2 hE
      exact_mod_cast this
  have hmlt : m < 2 ^ p := by
    have := (abs_lt.1 hlt).2
    exact_mod_cast this
  have htD : t * D ≤ D - m / (2 * 2 ^ (p - 1)) * 2 ^ e := by
    have := mul_le_mul_of_nonneg_right ht hD0.le
    rw [hu] at this
    refine this.trans (le_of_eq ?_)
    nth_rewrite 1 [hm]
    rw [hm]; ring
  rcases hm1.1.lt_or_eq with hgt | heq
  · -- below the middle between `D` and the number before it
    have hz : IsRep p emin ((m - 1 : Int) * 2 ^ e) := ⟨m - 1, e, rfl, by
      rw [abs_of_nonneg]
      · omega
      · have : (0 : Int) < 2 ^ (p - 1) := by positivity
        omega, he0⟩
    have hzD : ((m - 1 : Int) : ℝ) * 2 ^ e = D - 2 ^ e := by rw [hm]; push_cast; ring
    rw [hzD] at hz
    have hm2 : (2 : ℝ) ^ (p - 1) < m := by exact_mod_cast hgt
    have hhalf : 1 / 2 < (m : ℝ) / (2 * 2 ^ (p - 1)) := by rw [div_lt_div_iff₀ (by norm_num) (by positivity)]; linarith
    have hmid : t * D < D - 1 / 2 * 2 ^ e := by
      have := mul_lt_mul_of_pos_right hhalf hE
      linarith
    by_contra hc
    push Not at hc
    have hle : F.rnd (t * D) ≤ D := h.binary.rnd_le hD (by linarith)
    have heq' : F.rnd (t * D) = D := le_antisymm hle hc
    rcases le_total (t * D) (D - 2 ^ e) with hcase | hcase
    · have := h.binary.rnd_le hz hcase
      linarith
    · have := h.nearest (t * D) _ hz
      rw [heq', abs_of_nonneg (by linarith), abs_of_nonpos (by linarith)] at this
      linarith
  · have hne : e ≠ emin := fun hc => absurd (hm1.2 hc) (by omega)
    have hz : IsRep p emin (((2 * m - 1 : Int) : ℝ) * 2 ^ (e - 1)) := ⟨2 * m - 1, e - 1, rfl, by
      have hppi : (2 : Int) ^ p = 2 * 2 ^ (p - 1) := by exact_mod_cast hpp
      have : (0 : Int) < 2 ^ (p - 1) := by positivity
      rw [abs_of_nonneg (by omega)]
      omega, by omega⟩
    have hee : (2 : ℝ) ^ e = 2 * 2 ^ (e - 1) := by rw [← zpow_one_add₀ (by norm_num)]; congr 1; omega
    have hzD : ((2 * m - 1 : Int) : ℝ) * 2 ^ (e - 1) = D - 2 ^ e / 2 := by rw [hm, hee]; push_cast; ring
    rw [hzD] at hz
    have hmr : (m : ℝ) = 2 ^ (p - 1) := by exact_mod_cast heq.symm
    have : (m : ℝ) / (2 * 2 ^ (p - 1)) = 1 / 2 := by rw [hmr]; field_simp
    rw [this] at htD
    have := h.binary.rnd_le (a := t * D) hz (by linarith)
    linarith

/-- The interpolated value lies between its neighbours. -/
theorem interp_between (h : F.Nearest p emin) {a b t : ℝ} (ha : IsRep p emin a) (hb : IsRep p emin b) (hab : a ≤ b) (ht0 : 0 ≤ t)
    (ht : t ≤ 1 - 2 ^ (-(p : Int))) :
    0 ≤ F.rnd (t * F.rnd (b - a)) ∧ F.rnd (t * F.rnd (b - a)) ≤ b - a
    ∧ a ≤ F.rnd (a + F.rnd (t * F.rnd (b - a))) ∧ F.rnd (a + F.rnd (t * F.rnd (b - a))) ≤ b := by
  have hB := h.binary
  set d := b - a with hd
  have hd0 : 0 ≤ d := by linarith
  have hr0 : 0 ≤ F.rnd d := hB.rnd_nonneg hd0
  have hg0 : 0 ≤ F.rnd (t * F.rnd d) := hB.rnd_nonneg (mul_nonneg ht0 hr0)
  have hu : (0 : ℝ) < 2 ^ (-(p : Int)) := by positivity
  have hgd' : F.rnd (t * F.rnd d) ≤ F.rnd d := hB.rnd_le (hB.rep _) (by nlinarith)
  have hgd : F.rnd (t * F.rnd d) ≤ d := by
    rcases le_or_gt (F.rnd d) d with hle | hgt
    · exact hgd'.trans hle
    · by_contra hc
      push Not at hc
      have hn := h.nearest d _ (hB.rep (t * F.rnd d))
      rw [abs_of_pos (by linarith), abs_of_pos (by linarith)] at hn
      refine absurd (h.rnd_scale_lt (hB.rep d) ?_ ht) (not_lt.2 (by linarith))
      by_contra hc2
      push Not at hc2
      obtain ⟨k, hk⟩ := Fmt.Binary.exists_mul_of_isRep ha
      obtain ⟨l, hl⟩ := Fmt.Binary.exists_mul_of_isRep hb
      have hpos : (0 : ℝ) < 2 ^ emin := by positivity
      have hdm : d = ((l - k : Int) : ℝ) * 2 ^ emin := by rw [hd, hk, hl]; push_cast; ring
      have hp1 : (p : Int) - 1 = ((p - 1 : Nat) : Int) := by have := h.digits; omega
      have hlt : ((l - k : Int) : ℝ) < 2 ^ (p - 1) := by
        have := hgt.trans_le hc2
        rw [hdm, zpow_add₀ (by norm_num), hp1, zpow_natCast] at this
        exact lt_of_mul_lt_mul_right this hpos.le
      have hge : (0 : ℝ) ≤ ((l - k : Int) : ℝ) := by
        by_contra hneg
        have := mul_neg_of_neg_of_pos (not_le.1 hneg) hpos
        linarith
      have hlt' : l - k < 2 ^ (p - 1) := by exact_mod_cast hlt
      have hge' : 0 ≤ l - k := by exact_mod_cast hge
      have hrep : IsRep p emin d := ⟨l - k, emin, hdm, by
        rw [abs_of_nonneg hge']
        exact hlt'.trans_le (pow_le_pow_right₀ (by norm_num) (by omega)), le_refl _⟩
      rw [hB.exact d hrep] at hgt
      exact lt_irrefl _ hgt
  exact ⟨hg0, hgd, hB.le_rnd ha (by linarith), hB.rnd_le hb (by linarith)⟩

/-- The fractional part of a number is a number of the format, at most `1 - 2^-p`. -/
theorem fract_rep (h : F.Nearest p emin) {R : ℝ} (hR : IsRep p emin R) (h0 : 0 ≤ R) :
    IsRep p emin (R - ⌊R⌋) ∧ 0 ≤ R - ⌊R⌋ ∧ R - ⌊R⌋ ≤ 1 - 2 ^ (-(p : Int)) := by
  have hf0 := Int.floor_le R
  have hf1 := Int.lt_floor_add_one R
  have hfl0 : 0 ≤ ⌊R⌋ := Int.floor_nonneg.2 h0
  have hu2 : (2 : ℝ) ^ (-(p : Int)) ≤ 1 / 2 := by
    have : (2 : ℝ) ^ (-(p : Int)) ≤ 2 ^ (-1 : Int) := zpow_le_zpow_right₀ (by norm_num) (by have := h.digits; omega)
    norm_num at this ⊢; exact this
  refine ⟨?_, by linarith, ?_⟩
  · obtain ⟨m, e, h1, h2, h3⟩ := hR
    rcases le_or_gt 0 e with he | he
    · have : R = ((m * 2 ^ e.toNat : Int) : ℝ) := by
        rw [h1]; push_cast; rw [← zpow_natCast, Int.toNat_of_nonneg he]
      rw [this, Int.floor_intCast, sub_self]
      exact isRep_zero _ _
    · have hE : (0 : ℝ) < 2 ^ e := by positivity
      have hee : (1 : ℝ) = ((2 ^ (-e).toNat : Int) : ℝ) * 2 ^ e := by
        push_cast; rw [← zpow_natCast, Int.toNat_of_nonneg (by omega), ← zpow_add₀ (by norm_num)]; simp
      have heq : R - ⌊R⌋ = ((m - ⌊R⌋ * 2 ^ (-e).toNat : Int) : ℝ) * 2 ^ e := by
        push_cast at hee ⊢
        rw [sub_mul, ← h1, mul_assoc, ← hee, mul_one]
      refine ⟨m - ⌊R⌋ * 2 ^ (-e).toNat, e, heq, ?_, h3⟩
      have hm0 : 0 ≤ m := by
        have : (0 : ℝ) ≤ m := by
          by_contra hc
          have := mul_neg_of_neg_of_pos (not_le.1 hc) hE
          linarith
        exact_mod_cast this
      have hk0 : 0 ≤ m - ⌊R⌋ * 2 ^ (-e).toNat := by
        have : (0 : ℝ) ≤ ((m - ⌊R⌋ * 2 ^ (-e).toNat : Int) : ℝ) := by
          by_contra hc
          have := mul_neg_of_neg_of_pos (not_le.1 hc) hE
          rw [← heq] at this
          linarith
        exact_mod_cast this
      rw [abs_of_nonneg hk0]
      rw [abs_of_nonneg hm0] at h2
      have : 0 ≤ ⌊R⌋ * 2 ^ (-e).toNat := mul_nonneg hfl0 (by positivity)
      omega
  · rcases lt_or_ge R (1 / 2) with hs | hs
    · have : ⌊R⌋ = 0 := by rw [Int.floor_eq_zero_iff]; exact ⟨h0, by linarith⟩
      rw [this]; push_cast; linarith
    · -- a multiple of 2^-p
      obtain ⟨m, hm⟩ := hR.lastDigit_mul
      set e := lastDigit p emin R with he
      have hlog : -1 ≤ Int.log 2 |R| := by
        rw [abs_of_nonneg h0, ← Int.zpow_le_iff_le_log (by norm_num) (by linarith)]
        norm_num; linarith
      have hep : -(p : Int) ≤ e := by rw [he]; unfold lastDigit; omega
      have hPp : (0 : ℝ) < 2 ^ (-(p : Int)) := by positivity
      have hk : R = ((m * 2 ^ (e + p).toNat : Int) : ℝ) * 2 ^ (-(p : Int)) := by
        push_cast
        rw [← zpow_natCast, Int.toNat_of_nonneg (by omega), mul_assoc, ← zpow_add₀ (by norm_num), add_neg_cancel_right]
        exact hm
      have hone : (1 : ℝ) = ((2 ^ p : Int) : ℝ) * 2 ^ (-(p : Int)) := by
        push_cast; rw [← zpow_natCast, ← zpow_add₀ (by norm_num)]; simp
      have heq : R - ⌊R⌋ = ((m * 2 ^ (e + p).toNat - ⌊R⌋ * 2 ^ p : Int) : ℝ) * 2 ^ (-(p : Int)) := by
        rw [Int.cast_sub, sub_mul, ← hk, Int.cast_mul, mul_assoc, ← hone, mul_one]
      have hlt : (m * 2 ^ (e + p).toNat - ⌊R⌋ * 2 ^ p : Int) < 2 ^ p := by
        have h3 : R - ⌊R⌋ < 1 := by linarith
        rw [heq, hone] at h3
        have := lt_of_mul_lt_mul_right h3 hPp.le
        exact_mod_cast this
      have hle : ((m * 2 ^ (e + p).toNat - ⌊R⌋ * 2 ^ p : Int) : ℝ) ≤ ((2 ^ p - 1 : Int) : ℝ) := by exact_mod_cast Int.le_sub_one_of_lt hlt
      have := mul_le_mul_of_nonneg_right hle hPp.le
      rw [← heq, Int.cast_sub, sub_mul, ← hone, Int.cast_one, one_mul] at this
      exact this

end Fmt.Nearest
namespace PSquare
variable {w : Nat} {F : Fmt} {pr : Nat} {emin : Int}

/-- The rounded rank of a quantile `q` among `m + 1` values, and what is computed for sorted values `S`. -/
noncomputable def rank (F : Fmt) (m : Nat) (q : ℝ) : ℝ := F.rnd (m * q)
noncomputable def lower (F : Fmt) (m : Nat) (q : ℝ) : Nat := ⌊rank F m q⌋₊
noncomputable def upper (F : Fmt) (m : Nat) (q : ℝ) : Nat := ⌊F.rnd (rank F m q + 1)⌋₊
noncomputable def interp (F : Fmt) (S : Nat → ℝ) (m : Nat) (q : ℝ) : ℝ :=
  F.rnd (S (lower F m q) + F.rnd ((rank F m q - ⌊rank F m q⌋) * F.rnd (S (upper F m q) - S (lower F m q))))

theorem rank_bounds (hF : F.Binary pr emin) {m : Nat} (hm : IsRep pr emin (m : ℝ)) {q : ℝ} (hq0 : 0 ≤ q) (hq1 : q ≤ 1) :
    0 ≤ rank F m q ∧ rank F m q ≤ m := by
  have hm0 : (0 : ℝ) ≤ m := Nat.cast_nonneg m
  exact ⟨hF.rnd_nonneg (mul_nonneg hm0 hq0), hF.rnd_le hm (by nlinarith)⟩

theorem lower_le_upper (hF : F.Binary pr emin) (m : Nat) (q : ℝ) : lower F m q ≤ upper F m q :=
  Nat.floor_mono (hF.le_rnd (hF.rep _) (by linarith))

section
variable {qs : List (X F)} {xs : List ℝ} {J : (Nat → X F) → Prop} {s : PSquare w (X F)} {p : Nat → Nat} {h d : Nat → X F}

/-- What `get` computes for few values. -/
theorem get_interpF (hN : F.Nearest pr emin) (hL : paramLength qs.length < 2 ^ w) (hi : InvF qs xs J s p h d) (h2 : 2 ≤ xs.length)
    (hn : xs.length ≤ paramLength qs.length) (hd : F.Data pr emin xs) (hp : xs.length ≤ 2 ^ pr) (hfit : F.fits (xs.length : ℝ))
    {i : Nat} (h1 : 1 ≤ i) (hidx : i ≤ qs.length) {q : ℝ} (hq : qs[i - 1]? = some (X.fin q)) (hq0 : 0 ≤ q) (hq1 : q ≤ 1)
    (hup : upper F (xs.length - 1) q < xs.length) :
    s.get i = some (X.fin (interp F (fun k => (Spec.sorted xs).getD k 0) (xs.length - 1) q)) := by
  have hF := hN.binary
  have hpl : paramLength qs.length = 2 * qs.length + 3 := rfl
  have hone : (1 : SizeT w) = BitVec.ofNat w 1 := rfl
  have hmrep : IsRep pr emin ((xs.length - 1 : Nat) : ℝ) := by
    have := isRep_mul (p := pr) (emin := emin) (e := 0) (m := ((xs.length - 1 : Nat) : Int)) (by have := hN.digits; omega) hF.emin_le (by
      rw [abs_of_nonneg (by omega)]
      have : xs.length - 1 ≤ 2 ^ pr := by omega
      exact_mod_cast this)
    simpa using this
  have hmrep1 : IsRep pr emin ((xs.length : Nat) : ℝ) := by
    have := isRep_mul (p := pr) (emin := emin) (e := 0) (m := ((xs.length : Nat) : Int)) (by have := hN.digits; omega) hF.emin_le (by
      rw [abs_of_nonneg (by omega)]
      exact_mod_cast hp)
    simpa using this
  have hlen1 : (((xs.length - 1 : Nat) : ℝ)) + 1 = (xs.length : ℝ) := by
    rw [Nat.cast_sub (by omega), Nat.cast_one]; ring
  obtain ⟨hR0, hRm⟩ := rank_bounds hF hmrep hq0 hq1
  have hlow : lower F (xs.length - 1) q ≤ upper F (xs.length - 1) q := lower_le_upper hF _ _
  have hR0' : 0 ≤ F.rnd (((xs.length - 1 : Nat) : ℝ) * q) := hR0
  have hRm' : F.rnd (((xs.length - 1 : Nat) : ℝ) * q) ≤ ((xs.length - 1 : Nat) : ℝ) := hRm
  unfold PSquare.get
  rw [PSquare.q, hi.inv.qs_eq, if_neg (by omega), hi.inv.rep.len_eq, hi.inv.count,
    if_neg (by rw [gt_iff (by omega) (by omega)]; omega), ofNat_sub_one (by omega), toNat_ofNat_lt (by omega),
    if_pos (by rw [hone, gt_iff (by omega) (by omega)]; omega), if_neg (by omega), if_neg (by omega), hq]
  have hfm : F.fits ((xs.length - 1 : Nat) : ℝ) :=
    hF.fits_between hF.fits_zero hfit (Nat.cast_nonneg _) (by linarith)
  have hrank : (ofSize (BitVec.ofNat w (xs.length - 1)) * X.fin q : X F) = X.fin (rank F (xs.length - 1) q) := by
    unfold ofSize
    rw [toNat_ofNat_lt (by omega), hF.ofNat_fin (by omega) hfm, X.mul_fin]
    unfold X.round
    rw [if_pos (hF.fits_between hF.fits_zero hfm hR0' hRm')]
    rfl
  simp only [Option.bind_eq_bind, Option.bind_some, Option.pure_def]
  obtain ⟨f1, f2, f3⟩ := hN.fract_rep (R := rank F (xs.length - 1) q) (hF.rep _) hR0
  have f3' : rank F (xs.length - 1) q - ⌊rank F (xs.length - 1) q⌋ ≤ 1 := by
    have : (0 : ℝ) < 2 ^ (-(pr : Int)) := by positivity
    linarith
  have hslope : (X.fin (rank F (xs.length - 1) q) - X.fin (⌊rank F (xs.length - 1) q⌋ : ℝ) : X F)
      = X.fin (rank F (xs.length - 1) q - ⌊rank F (xs.length - 1) q⌋) := by
    rw [X.sub_fin]
    exact hF.round_exact f1 (hF.fits_between hF.fits_zero hF.fits_one f2 f3')
  have hR1 : (X.fin (rank F (xs.length - 1) q) + ofNat 1 : X F) = X.fin (F.rnd (rank F (xs.length - 1) q + 1)) := by
    rw [hF.ofNat_one, X.add_fin]
    unfold X.round
    rw [if_pos (hF.fits_between hF.fits_zero hfit (hF.rnd_nonneg (by linarith)) (hF.rnd_le hmrep1 (by linarith)))]
  have hR1n : (0 : ℝ) ≤ F.rnd (rank F (xs.length - 1) q + 1) := hF.rnd_nonneg (by linarith)
  rw [hrank, X.floor_fin, hslope, hR1, X.toIndex_fin, X.toIndex_fin, if_pos (by linarith), if_pos (by linarith)]
  simp only [Option.bind_some]
  change (s.heights[lower F (xs.length - 1) q]?).bind (fun hi' => (s.heights[upper F (xs.length - 1) q]?).bind _) = _
  rw [hi.height_few hn (show lower F (xs.length - 1) q < xs.length by omega), hi.height_few hn hup]
  simp only [Option.bind_some]
  set S : Nat → ℝ := fun k => (Spec.sorted xs).getD k 0 with hS
  change some (X.fin (S (lower F (xs.length - 1) q)) + X.fin (rank F (xs.length - 1) q - ⌊rank F (xs.length - 1) q⌋)
    * (X.fin (S (upper F (xs.length - 1) q)) - X.fin (S (lower F (xs.length - 1) q))) : X F) = _
  have hmem : ∀ k, k < xs.length → S k ∈ xs := by
    intro k hk
    have hk' : k < (Spec.sorted xs).length := by simpa using hk
    rw [hS]
    dsimp only
    rw [List.getD_eq_getElem _ _ hk']
    exact (Spec.sorted_perm xs).mem_iff.1 (List.getElem_mem hk')
  have m1 := hmem (lower F (xs.length - 1) q) (by omega)
  have m2 := hmem (upper F (xs.length - 1) q) hup
  obtain ⟨r1, k1⟩ := hd.number _ m1
  obtain ⟨r2, k2⟩ := hd.number _ m2
  have hfd := hd.difference _ m2 _ m1
  have hab : S (lower F (xs.length - 1) q) ≤ S (upper F (xs.length - 1) q) := Spec.sorted_mono hlow hup
  obtain ⟨b1, b2, b3, b4⟩ := hN.interp_between r1 r2 hab f2 f3
  have b1' : F.rnd ((rank F (xs.length - 1) q - ⌊rank F (xs.length - 1) q⌋)
      * F.rnd (S (upper F (xs.length - 1) q) - S (lower F (xs.length - 1) q)))
      ≤ F.rnd (S (upper F (xs.length - 1) q) - S (lower F (xs.length - 1) q)) := by
    have := hF.rnd_nonneg (sub_nonneg.2 hab)
    exact hF.rnd_le (hF.rep _) (by nlinarith)
  rw [X.sub_fin]
  have e1 : (X.round (S (upper F (xs.length - 1) q) - S (lower F (xs.length - 1) q)) : X F)
      = X.fin (F.rnd (S (upper F (xs.length - 1) q) - S (lower F (xs.length - 1) q))) := by
    unfold X.round; rw [if_pos hfd]
  rw [e1, X.mul_fin]
  have e2 : (X.round ((rank F (xs.length - 1) q - ⌊rank F (xs.length - 1) q⌋)
      * F.rnd (S (upper F (xs.length - 1) q) - S (lower F (xs.length - 1) q))) : X F)
      = X.fin (F.rnd ((rank F (xs.length - 1) q - ⌊rank F (xs.length - 1) q⌋)
      * F.rnd (S (upper F (xs.length - 1) q) - S (lower F (xs.length - 1) q)))) := by
    unfold X.round; rw [if_pos (hF.fits_between hF.fits_zero hfd b1 b1')]
  rw [e2, X.add_fin]
  unfold X.round
  rw [if_pos (hF.fits_between k1 k2 b3 b4)]
  rfl

/-- A single value is every quantile. -/
theorem get_oneF (hL : paramLength qs.length < 2 ^ w) (hi : InvF qs xs J s p h d) (h1 : xs.length = 1) {i : Nat}
    (hidx : i ≤ qs.length + 1) : s.get i = some (X.fin ((Spec.sorted xs).getD 0 0)) := by
  have hpl : paramLength qs.length = 2 * qs.length + 3 := rfl
  have hone : (1 : SizeT w) = BitVec.ofNat w 1 := rfl
  have hzero : (0 : SizeT w) = BitVec.ofNat w 0 := rfl
  unfold PSquare.get
  rw [PSquare.q, hi.inv.qs_eq, if_neg (by omega), hi.inv.rep.len_eq, hi.inv.count,
    if_neg (by rw [gt_iff (by omega) (by omega)]; omega), ofNat_sub_one (by omega), toNat_ofNat_lt (by omega),
    if_neg (by rw [hone, gt_iff (by omega) (by omega)]; omega),
    if_pos (by rw [hzero, gt_iff (by omega) (by omega)]; omega), hi.height_few (by omega) (by omega), h1]

end

/-- The second index is inside of the data if the quantile is not too close to 1. -/
theorem upper_lt (hN : F.Nearest pr emin) (he : emin ≤ -(pr : Int)) {m : Nat} (hm : 1 ≤ m) {q : ℝ} (hq0 : 0 ≤ q)
    (hq : q ≤ 1 - 2 ^ (4 - (pr : Int))) : upper F m q < m + 1 := by
  have hu : (0 : ℝ) < 2 ^ (-(pr : Int)) := by positivity
  have hη : (2 : ℝ) ^ (emin - 1) ≤ 2 ^ (-(pr : Int)) := zpow_le_zpow_right₀ (by norm_num) (by omega)
  have hu1 : (2 : ℝ) ^ (-(pr : Int)) ≤ 1 / 8 := hN.err.u_le
  have h16 : (2 : ℝ) ^ (4 - (pr : Int)) = 16 * 2 ^ (-(pr : Int)) := by
    rw [sub_eq_add_neg, zpow_add₀ (by norm_num)]; norm_num
  have hm1 : (1 : ℝ) ≤ m := by exact_mod_cast hm
  have e1 := (abs_le.1 (hN.err.err (m * q))).2
  have e2 := (abs_le.1 (hN.err.err (rank F m q + 1))).2
  have hmq : 0 ≤ (m : ℝ) * q := mul_nonneg (by linarith) hq0
  have hR0 : 0 ≤ rank F m q := hN.binary.rnd_nonneg hmq
  rw [abs_of_nonneg hmq] at e1
  rw [abs_of_nonneg (by linarith)] at e2
  rw [h16] at hq
  generalize (2 : ℝ) ^ (-(pr : Int)) = u at *
  generalize (2 : ℝ) ^ (emin - 1) = η at *
  have h1 : (m : ℝ) * q ≤ m - 16 * (m * u) := by nlinarith
  have h2 : u * ((m : ℝ) * q) ≤ m * u := by
    have : u * ((m : ℝ) * q) ≤ u * m := mul_le_mul_of_nonneg_left (by nlinarith) hu.le
    linarith
  have hmu : u ≤ m * u := by nlinarith
  have hR : rank F m q ≤ m - 14 * (m * u) := by
    have : rank F m q = F.rnd (m * q) := rfl
    linarith
  have h3 : u * (rank F m q + 1) ≤ 2 * (m * u) := by
    have : u * (rank F m q + 1) ≤ u * (2 * m) := mul_le_mul_of_nonneg_left (by nlinarith) hu.le
    linarith
  have h4 : F.rnd (rank F m q + 1) ≤ m + 1 - 11 * (m * u) := by linarith
  unfold upper
  rw [Nat.floor_lt (hN.binary.rnd_nonneg (by linarith))]
  push_cast
  linarith

/-- Between the two values. -/
theorem interp_within (hN : F.Nearest pr emin) {xs : List ℝ} (hd : F.Data pr emin xs) {m : Nat} {q : ℝ} (hq0 : 0 ≤ q)
    (hup : upper F m q < xs.length) :
    (Spec.sorted xs).getD (lower F m q) 0 ≤ interp F (fun k => (Spec.sorted xs).getD k 0) m q
    ∧ interp F (fun k => (Spec.sorted xs).getD k 0) m q ≤ (Spec.sorted xs).getD (upper F m q) 0 := by
  have hF := hN.binary
  have hmem : ∀ k, k < xs.length → (Spec.sorted xs).getD k 0 ∈ xs := by
    intro k hk
    have hk' : k < (Spec.sorted xs).length := by simpa using hk
    rw [List.getD_eq_getElem _ _ hk']
    exact (Spec.sorted_perm xs).mem_iff.1 (List.getElem_mem hk')
  have hlow : lower F m q ≤ upper F m q := lower_le_upper hF _ _
  have hR0 : 0 ≤ rank F m q := hF.rnd_nonneg (mul_nonneg (Nat.cast_nonneg m) hq0)
  obtain ⟨-, f2, f3⟩ := hN.fract_rep (R := rank F m q) (hF.rep _) hR0
  obtain ⟨-, -, b3, b4⟩ := hN.interp_between (hd.number _ (hmem (lower F m q) (by omega))).1 (hd.number _ (hmem _ hup)).1
    (Spec.sorted_mono hlow hup) f2 f3
  exact ⟨b3, b4⟩

/-- A larger quantile has a larger estimate, if the second index of the smaller one follows the first. -/
theorem interp_mono (hN : F.Nearest pr emin) {xs : List ℝ} (hd : F.Data pr emin xs) {m : Nat} {q q' : ℝ} (hq0 : 0 ≤ q) (hqq : q ≤ q')
    (hj : upper F m q ≤ lower F m q + 1) (hup : upper F m q' < xs.length) :
    interp F (fun k => (Spec.sorted xs).getD k 0) m q ≤ interp F (fun k => (Spec.sorted xs).getD k 0) m q' := by
  have hF := hN.binary
  have hm0 : (0 : ℝ) ≤ m := Nat.cast_nonneg m
  have hrr : rank F m q ≤ rank F m q' := hF.mono (mul_le_mul_of_nonneg_left hqq hm0)
  have hR0 : 0 ≤ rank F m q := hF.rnd_nonneg (mul_nonneg hm0 hq0)
  have hll : lower F m q ≤ lower F m q' := Nat.floor_mono hrr
  have huu : upper F m q ≤ upper F m q' := Nat.floor_mono (hF.mono (by linarith))
  rcases hll.lt_or_eq with hlt | heq
  · refine (interp_within hN hd hq0 (by omega)).2.trans ?_
    refine le_trans ?_ (interp_within hN hd (hq0.trans hqq) hup).1
    have := lower_le_upper hF m q'
    exact Spec.sorted_mono (by omega) (by omega)
  · unfold interp
    rw [← heq]
    have hfl : ⌊rank F m q⌋ = ⌊rank F m q'⌋ := by
      have h1 := Int.natCast_floor_eq_floor hR0
      have h2 := Int.natCast_floor_eq_floor (hR0.trans hrr)
      rw [← h1, ← h2]; exact congrArg _ heq
    rw [← hfl]
    have hs := Spec.sorted_mono (xs := xs) huu hup
    have hs0 := Spec.sorted_mono (xs := xs) (lower_le_upper hF m q) (by omega)
    have h1 : F.rnd ((Spec.sorted xs).getD (upper F m q) 0 - (Spec.sorted xs).getD (lower F m q) 0)
        ≤ F.rnd ((Spec.sorted xs).getD (upper F m q') 0 - (Spec.sorted xs).getD (lower F m q) 0) := hF.mono (by linarith)
    have h0 : 0 ≤ F.rnd ((Spec.sorted xs).getD (upper F m q) 0 - (Spec.sorted xs).getD (lower F m q) 0) := hF.rnd_nonneg (by linarith)
    have f0 := Int.floor_le (rank F m q)
    refine hF.mono (add_le_add_right (hF.mono ?_) _)
    exact mul_le_mul (by linarith) h1 h0 (by linarith)

/-- Quantiles in quarters, eighths, ...: the rank is exact and the second index follows the first. -/
theorem upper_dyadic (hF : F.Binary pr emin) {m k : Nat} {a : Nat} (hk : emin ≤ -(k : Int)) (h : m * a + 2 ^ k ≤ 2 ^ pr) :
    upper F m (a * 2 ^ (-(k : Int))) = lower F m (a * 2 ^ (-(k : Int))) + 1 := by
  have hd2 := hF.digits
  have e1 : (m : ℝ) * (a * 2 ^ (-(k : Int))) = ((m * a : Nat) : Int) * 2 ^ (-(k : Int)) := by push_cast; ring
  have hrank : rank F m (a * 2 ^ (-(k : Int))) = ((m * a : Nat) : Int) * 2 ^ (-(k : Int)) := by
    unfold rank
    rw [e1]
    refine hF.exact _ (isRep_mul (by omega) hk ?_)
    rw [abs_of_nonneg (by positivity)]
    have : m * a ≤ 2 ^ pr := le_trans (Nat.le_add_right _ _) h
    exact_mod_cast this
  unfold upper lower
  rw [hrank]
  have e2 : (((m * a : Nat) : Int) : ℝ) * 2 ^ (-(k : Int)) + 1 = ((m * a + 2 ^ k : Nat) : Int) * 2 ^ (-(k : Int)) := by
    push_cast
    rw [add_mul, ← zpow_natCast, ← zpow_add₀ (by norm_num)]
    simp
  rw [hF.exact, Nat.floor_add_one (by positivity)]
  rw [e2]
  refine isRep_mul (by omega) hk ?_
  rw [abs_of_nonneg (by positivity)]
  exact_mod_cast h

end PSquare
end Verif
