import Verif.Proofs.PSquareFloat
import Verif.Props.PSquarePositions
/-
C149: the markers of the P-square estimator in floating point.
-/
namespace Verif.Props
open Scalar Verif.PSquare

variable {F : Fmt} {p : Nat} {emin : Int} {w : Nat}

/-- Quantiles in ascending order between 0 and 1 whose numerators and denominators are numbers of the format. -/
structure FloatQuantiles (p : Nat) (quantiles : List Ratio) : Prop where
  den : ∀ r ∈ quantiles, 0 < r.den ∧ r.den ≤ 2 ^ p
  range : ∀ r ∈ quantiles, 0 ≤ r.val ∧ r.val ≤ 1
  ascending : ∀ i ≤ quantiles.length, quantileAt quantiles i ≤ quantileAt quantiles (i + 1)
  few : 2 * quantiles.length + 3 ≤ 2 ^ p

/-- The increment of the desired position of marker `i`, as computed. -/
noncomputable def deltaF (F : Fmt) (quantiles : List Ratio) (i : Nat) : ℝ :=
  if i % 2 = 0 then F.rnd (quantileAt quantiles (i / 2))
  else F.rnd (F.rnd (F.rnd (quantileAt quantiles (i / 2)) + F.rnd (quantileAt quantiles (i / 2 + 1))) / 2)

/-- The desired position of marker `i` after `2 q + 3 + k` values, as computed. -/
noncomputable def desF (F : Fmt) (quantiles : List Ratio) (i : Nat) : Nat → ℝ
  | 0 => F.rnd (1 + F.rnd ((2 * ((quantiles.length : ℝ) + 1)) * deltaF F quantiles i))
  | k + 1 => F.rnd (desF F quantiles i k + deltaF F quantiles i)

variable {quantiles : List Ratio}

theorem FloatQuantiles.quantile (h : FloatQuantiles p quantiles) (i : Nat) : 0 ≤ quantileAt quantiles i ∧ quantileAt quantiles i ≤ 1 := by
  unfold quantileAt
  rw [List.getD_eq_getElem?_getD]
  cases hg : (0 :: quantiles.map Ratio.val ++ [1])[i]? with
  | none => simp
  | some v =>
    have hm := List.mem_of_getElem? hg
    simp only [List.cons_append, List.mem_cons, List.mem_append, List.mem_map, List.not_mem_nil, or_false] at hm
    rw [Option.getD_some]
    rcases hm with rfl | ⟨r, hr, rfl⟩ | rfl
    · norm_num
    · exact h.range r hr
    · norm_num

theorem fin_round (h : F.Binary p emin) {r K : ℝ} (hK : IsRep p emin K) (hKf : F.fits K) (h0 : 0 ≤ r) (hr : r ≤ K) :
    (X.round r : X F) = X.fin (F.rnd r) := by
  have h1 := h.rnd_nonneg h0
  have h2 := h.rnd_le hK hr
  unfold X.round
  rw [if_pos (h.fits_abs _ K (by rw [abs_of_nonneg h1]; exact h2.trans (le_abs_self _)) hKf)]

theorem isRep_natpow (h : F.Binary p emin) (k : Nat) : IsRep p emin (2 ^ k) := by
  have := isRep_zpow (p := p) (emin := emin) (k := (k : Int)) (by have := h.digits; omega) (by have := h.emin_le; omega)
  rwa [zpow_natCast] at this

theorem fits_natpow (h : F.Binary p emin) {K : Nat} (hf : F.fits (2 ^ K)) {k : Nat} (hk : k ≤ K) : F.fits (2 ^ k) :=
  h.fits_abs _ _ (by
    rw [abs_of_nonneg (by positivity), abs_of_nonneg (by positivity)]
    exact pow_le_pow_right₀ (by norm_num) hk) hf

theorem ratio_round (h : F.Binary p emin) (hf : F.fits (2 ^ p)) {r : Ratio} (hd : 0 < r.den) (hd2 : r.den ≤ 2 ^ p)
    (h0 : 0 ≤ r.val) (h1 : r.val ≤ 1) : (r.toScalar : X F) = X.fin (F.rnd r.val) := by
  have hden : (0 : ℝ) < r.den := by exact_mod_cast hd
  have hnum0 : 0 ≤ r.num := by
    unfold Ratio.val at h0
    have : (0 : ℝ) ≤ r.num := by
      by_contra hc
      push Not at hc
      exact absurd (div_neg_of_neg_of_pos hc hden) (not_lt.2 h0)
    exact_mod_cast this
  have hnum1 : r.num ≤ r.den := by
    unfold Ratio.val at h1
    rw [div_le_one hden] at h1
    exact_mod_cast h1
  have hdp : (r.den : ℝ) ≤ 2 ^ p := by exact_mod_cast hd2
  have hfd : F.fits (r.den : ℝ) := h.fits_between h.fits_zero hf hden.le hdp
  have e1 : (ofInt r.num : X F) = X.fin r.num := by
    have e : r.num = (r.num.toNat : Int) := by omega
    have hle : r.num.toNat ≤ r.den := by omega
    have := h.ofNat_fin (n := r.num.toNat) (hle.trans hd2) (h.fits_between h.fits_zero hfd (Nat.cast_nonneg _) (by exact_mod_cast hle))
    rw [X.ofNat_eq] at this
    rw [X.ofInt_eq, e]
    exact_mod_cast this
  unfold Ratio.toScalar
  rw [e1, h.ofNat_fin hd2 hfd, X.div_fin_of_ne _ hden.ne']
  exact fin_round h h.isRep_one h.fits_one h0 h1

/-- The increments. -/
theorem marker_round (h : F.Binary p emin) (hf : F.fits (2 ^ p)) (hq : FloatQuantiles p quantiles) (i : Nat) :
    markerQuantile (quantiles.map (Ratio.toScalar : Ratio → X F)) i = X.fin (deltaF F quantiles i) := by
  have hnode : ∀ j, ((ofNat 0 :: quantiles.map (Ratio.toScalar : Ratio → X F) ++ [ofNat 1])[j]?).getD (ofNat 0)
      = X.fin (F.rnd (quantileAt quantiles j)) := by
    intro j
    have e : (ofNat 0 :: quantiles.map (Ratio.toScalar : Ratio → X F) ++ [ofNat 1])
        = (0 :: quantiles.map Ratio.val ++ [1]).map fun v => X.fin (F.rnd v) := by
      simp only [List.cons_append, List.map_cons, List.map_append, List.map_map, List.map_nil]
      rw [h.rnd_zero, h.exact _ h.isRep_one, h.ofNat_zero, h.ofNat_one]
      congr 2
      apply List.map_congr_left
      intro r hr
      exact ratio_round h hf (hq.den r hr).1 (hq.den r hr).2 (hq.range r hr).1 (hq.range r hr).2
    rw [e, List.getElem?_map, quantileAt, List.getD_eq_getElem?_getD]
    cases (0 :: quantiles.map Ratio.val ++ [1])[j]? with
    | none => rw [Option.map_none, Option.getD_none, Option.getD_none, h.rnd_zero, h.ofNat_zero]
    | some v => rfl
  unfold markerQuantile deltaF
  dsimp only
  split_ifs
  · exact hnode _
  · rw [hnode, hnode, X.add_fin]
    have a := hq.quantile (i / 2)
    have b := hq.quantile (i / 2 + 1)
    have a0 := h.rnd_nonneg a.1
    have b0 := h.rnd_nonneg b.1
    have a1 := h.rnd_le h.isRep_one a.2
    have b1 := h.rnd_le h.isRep_one b.2
    rw [fin_round h h.isRep_two h.fits_two (by linarith) (by linarith)]
    have s0 := h.rnd_nonneg (show 0 ≤ F.rnd (quantileAt quantiles (i / 2)) + F.rnd (quantileAt quantiles (i / 2 + 1)) by linarith)
    have s1 := h.rnd_le h.isRep_two (show F.rnd (quantileAt quantiles (i / 2)) + F.rnd (quantileAt quantiles (i / 2 + 1)) ≤ 2 by linarith)
    have e2 : (ofNat 2 : X F) = X.fin 2 := by
      have := h.ofNat_fin (n := 2) (by
        have := Nat.pow_le_pow_right (n := 2) (by norm_num) (show 1 ≤ p by have := h.digits; omega)
        simpa using this) (by exact_mod_cast h.fits_two)
      exact_mod_cast this
    rw [e2, X.div_fin_of_ne _ (by norm_num)]
    exact fin_round h h.isRep_one h.fits_one (by linarith) (by linarith)

theorem delta_node (h : F.Binary p emin) (hq : FloatQuantiles p quantiles) {i : Nat} (hi : i < 2 * quantiles.length + 2) :
    deltaF F quantiles (2 * (i / 2)) ≤ deltaF F quantiles i ∧ deltaF F quantiles i ≤ deltaF F quantiles (2 * (i / 2) + 2) := by
  have hasc := h.mono (hq.ascending (i / 2) (by omega))
  have e1 : deltaF F quantiles (2 * (i / 2)) = F.rnd (quantileAt quantiles (i / 2)) := by
    unfold deltaF; rw [if_pos (by omega), show 2 * (i / 2) / 2 = i / 2 by omega]
  have e2 : deltaF F quantiles (2 * (i / 2) + 2) = F.rnd (quantileAt quantiles (i / 2 + 1)) := by
    unfold deltaF; rw [if_pos (by omega), show (2 * (i / 2) + 2) / 2 = i / 2 + 1 by omega]
  rw [e1, e2]
  unfold deltaF
  split_ifs
  · exact ⟨le_refl _, hasc⟩
  · have r1 := h.rep (quantileAt quantiles (i / 2))
    have r2 := h.rep (quantileAt quantiles (i / 2 + 1))
    have s1 := h.le_rnd r1.double (show 2 * F.rnd (quantileAt quantiles (i / 2)) ≤ F.rnd (quantileAt quantiles (i / 2)) + F.rnd (quantileAt quantiles (i / 2 + 1)) by linarith)
    have s2 := h.rnd_le r2.double (show F.rnd (quantileAt quantiles (i / 2)) + F.rnd (quantileAt quantiles (i / 2 + 1)) ≤ 2 * F.rnd (quantileAt quantiles (i / 2 + 1)) by linarith)
    exact ⟨h.le_rnd r1 (by linarith), h.rnd_le r2 (by linarith)⟩

theorem delta_mono (h : F.Binary p emin) (hq : FloatQuantiles p quantiles) {i : Nat} (hi : i + 1 < 2 * quantiles.length + 3) :
    deltaF F quantiles i ≤ deltaF F quantiles (i + 1) := by
  rcases Nat.mod_two_eq_zero_or_one i with e | e
  · have := (delta_node h hq (i := i + 1) (by omega)).1
    rwa [show 2 * ((i + 1) / 2) = i by omega] at this
  · have := (delta_node h hq (i := i) (by omega)).2
    rwa [show 2 * (i / 2) + 2 = i + 1 by omega] at this

theorem delta_zero (h : F.Binary p emin) (quantiles : List Ratio) : deltaF F quantiles 0 = 0 := by
  simp [deltaF, quantileAt, h.rnd_zero]

theorem delta_last (h : F.Binary p emin) (quantiles : List Ratio) : deltaF F quantiles (2 * quantiles.length + 2) = 1 := by
  have : (2 * quantiles.length + 2) / 2 = quantiles.length + 1 := by omega
  unfold deltaF
  rw [if_pos (by omega), this]
  have : quantileAt quantiles (quantiles.length + 1) = 1 := by simp [quantileAt]
  rw [this, h.exact _ h.isRep_one]

theorem delta_range (h : F.Binary p emin) (hq : FloatQuantiles p quantiles) (i : Nat) :
    0 ≤ deltaF F quantiles i ∧ deltaF F quantiles i ≤ 1 := by
  have a := hq.quantile (i / 2)
  have b := hq.quantile (i / 2 + 1)
  have a0 := h.rnd_nonneg a.1
  have b0 := h.rnd_nonneg b.1
  have a1 := h.rnd_le h.isRep_one a.2
  have b1 := h.rnd_le h.isRep_one b.2
  have s0 := h.rnd_nonneg (show 0 ≤ F.rnd (quantileAt quantiles (i / 2)) + F.rnd (quantileAt quantiles (i / 2 + 1)) by linarith)
  have s1 := h.rnd_le h.isRep_two (show F.rnd (quantileAt quantiles (i / 2)) + F.rnd (quantileAt quantiles (i / 2 + 1)) ≤ 2 by linarith)
  unfold deltaF
  split_ifs
  · exact ⟨a0, a1⟩
  · exact ⟨h.rnd_nonneg (by linarith), h.rnd_le h.isRep_one (by linarith)⟩

/-- The error of an increment. -/
theorem delta_err {u η : ℝ} (h : F.Binary p emin) (hE : F.Err u η) (hq : FloatQuantiles p quantiles) (i : Nat) :
    |deltaF F quantiles i - fractionAt quantiles i| ≤ 4 * (u + η) := by
  have a := hq.quantile (i / 2)
  have b := hq.quantile (i / 2 + 1)
  have hu := hE.u_nonneg
  have hη := hE.eta_nonneg
  have a0 := h.rnd_nonneg a.1
  have b0 := h.rnd_nonneg b.1
  have a1 := h.rnd_le h.isRep_one a.2
  have b1 := h.rnd_le h.isRep_one b.2
  have s0 := h.rnd_nonneg (show 0 ≤ F.rnd (quantileAt quantiles (i / 2)) + F.rnd (quantileAt quantiles (i / 2 + 1)) by linarith)
  have s1 := h.rnd_le h.isRep_two (show F.rnd (quantileAt quantiles (i / 2)) + F.rnd (quantileAt quantiles (i / 2 + 1)) ≤ 2 by linarith)
  have ea := hE.err (quantileAt quantiles (i / 2))
  have eb := hE.err (quantileAt quantiles (i / 2 + 1))
  rw [abs_of_nonneg a.1] at ea
  rw [abs_of_nonneg b.1] at eb
  have ua := mul_le_mul_of_nonneg_left a.2 hu
  have ub := mul_le_mul_of_nonneg_left b.2 hu
  unfold deltaF fractionAt
  split_ifs
  · linarith
  · generalize quantileAt quantiles (i / 2) = x at *
    generalize quantileAt quantiles (i / 2 + 1) = y at *
    generalize F.rnd x = x' at *
    generalize F.rnd y = y' at *
    have es := hE.err (x' + y')
    have et := hE.err (F.rnd (x' + y') / 2)
    generalize F.rnd (x' + y') = s at *
    rw [abs_of_nonneg (show 0 ≤ x' + y' by linarith)] at es
    rw [abs_of_nonneg (show 0 ≤ s / 2 by linarith)] at et
    generalize F.rnd (s / 2) = t at *
    have us := mul_le_mul_of_nonneg_left (show x' + y' ≤ 2 by linarith) hu
    have ut := mul_le_mul_of_nonneg_left (show s / 2 ≤ 1 by linarith) hu
    rw [abs_le] at ea eb es et ⊢
    constructor <;> linarith

/-! ### The desired positions -/

theorem des_rep (h : F.Binary p emin) (quantiles : List Ratio) (i k : Nat) : IsRep p emin (desF F quantiles i k) := by
  cases k with
  | zero => exact h.rep _
  | succ k => exact h.rep _

theorem nat_rep (h : F.Binary p emin) {n : Nat} (hn : n ≤ 2 ^ p) : IsRep p emin (n : ℝ) := by
  have := isRep_mul (p := p) (emin := emin) (m := (n : Int)) (e := 0) (by have := h.digits; omega) h.emin_le
    (by rw [abs_of_nonneg (by positivity)]; exact_mod_cast hn)
  simpa using this

theorem len_cast (quantiles : List Ratio) : (2 * ((quantiles.length : ℝ) + 1)) = ((2 * quantiles.length + 2 : Nat) : ℝ) := by
  push_cast; ring

theorem one_le_des (h : F.Binary p emin) (hq : FloatQuantiles p quantiles) (i k : Nat) : 1 ≤ desF F quantiles i k := by
  have hδ := delta_range h hq i
  induction k with
  | zero =>
    have hL : (0 : ℝ) ≤ 2 * ((quantiles.length : ℝ) + 1) := by positivity
    have := h.rnd_nonneg (mul_nonneg hL hδ.1)
    exact h.le_rnd h.isRep_one (by linarith)
  | succ k ih => exact h.le_rnd h.isRep_one (by linarith)

/-- The first desired position is between 1 and the number of markers. -/
theorem des_first (h : F.Binary p emin) (hq : FloatQuantiles p quantiles) (i : Nat) :
    0 ≤ F.rnd ((2 * ((quantiles.length : ℝ) + 1)) * deltaF F quantiles i)
    ∧ F.rnd ((2 * ((quantiles.length : ℝ) + 1)) * deltaF F quantiles i) ≤ 2 * ((quantiles.length : ℝ) + 1)
    ∧ desF F quantiles i 0 ≤ (2 * quantiles.length + 3 : Nat) := by
  have hδ := delta_range h hq i
  have hL : (0 : ℝ) ≤ 2 * ((quantiles.length : ℝ) + 1) := by positivity
  have hfew := hq.few
  have h1 : F.rnd ((2 * ((quantiles.length : ℝ) + 1)) * deltaF F quantiles i) ≤ 2 * ((quantiles.length : ℝ) + 1) := by
    refine h.rnd_le ?_ (by nlinarith)
    rw [len_cast]
    exact nat_rep h (by omega)
  refine ⟨h.rnd_nonneg (mul_nonneg hL hδ.1), h1, h.rnd_le (nat_rep h hfew) ?_⟩
  push_cast; linarith

theorem des_le (h : F.Nearest p emin) (hq : FloatQuantiles p quantiles) (i k : Nat) : desF F quantiles i k ≤ 2 ^ (p + 1) := by
  have hδ := delta_range h.binary hq i
  induction k with
  | zero =>
    have h1 := (des_first h.binary hq i).2.2
    have h2 : ((2 * quantiles.length + 3 : Nat) : ℝ) ≤ 2 ^ p := by exact_mod_cast hq.few
    have h3 : (2 : ℝ) ^ (p + 1) = 2 * 2 ^ p := by ring
    have h4 : (0 : ℝ) < 2 ^ p := by positivity
    linarith
  | succ k ih => exact h.stuck ih hδ.2

theorem des_le_count (h : F.Binary p emin) (hq : FloatQuantiles p quantiles) (i : Nat) {k : Nat}
    (hk : 2 * quantiles.length + 3 + k ≤ 2 ^ p) : desF F quantiles i k ≤ (2 * quantiles.length + 3 + k : Nat) := by
  have hδ := delta_range h hq i
  induction k with
  | zero => exact (des_first h hq i).2.2
  | succ k ih =>
    have := ih (by omega)
    refine h.rnd_le (nat_rep h hk) ?_
    push_cast at this ⊢
    linarith

theorem des_of_one (h : F.Binary p emin) {i : Nat} (hi : deltaF F quantiles i = 1) {k : Nat}
    (hk : 2 * quantiles.length + 3 + k ≤ 2 ^ p) : desF F quantiles i k = (2 * quantiles.length + 3 + k : Nat) := by
  induction k with
  | zero =>
    show F.rnd _ = _
    rw [hi, mul_one, len_cast, h.exact _ (nat_rep h (by omega)), h.exact]
    · push_cast; ring
    · have := nat_rep h hk
      push_cast at this ⊢
      convert this using 1; ring
  | succ k ih =>
    show F.rnd _ = _
    rw [ih (by omega), hi, h.exact]
    · push_cast; ring
    · have := nat_rep h hk
      push_cast at this ⊢
      convert this using 1; ring

theorem des_mono (h : F.Binary p emin) (hq : FloatQuantiles p quantiles) {i : Nat} (hi : i + 1 < 2 * quantiles.length + 3) (k : Nat) :
    desF F quantiles i k ≤ desF F quantiles (i + 1) k := by
  have hδ := delta_mono h hq hi
  have hL : (0 : ℝ) ≤ 2 * ((quantiles.length : ℝ) + 1) := by positivity
  induction k with
  | zero =>
    apply h.mono
    have := h.mono (mul_le_mul_of_nonneg_left hδ hL)
    linarith
  | succ k ih => exact h.mono (by linarith)

theorem des_zero (h : F.Binary p emin) (quantiles : List Ratio) (k : Nat) : desF F quantiles 0 k = 1 := by
  induction k with
  | zero =>
    show F.rnd _ = _
    rw [delta_zero h, mul_zero, h.rnd_zero, add_zero, h.exact _ h.isRep_one]
  | succ k ih =>
    show F.rnd _ = _
    rw [ih, delta_zero h, add_zero, h.exact _ h.isRep_one]

theorem des_step (h : F.Nearest p emin) (hq : FloatQuantiles p quantiles) (i : Nat) {k : Nat}
    (hk : 2 * quantiles.length + 3 + (k + 1) ≤ 2 ^ p) :
    desF F quantiles i k ≤ desF F quantiles i (k + 1) ∧ desF F quantiles i (k + 1) ≤ desF F quantiles i k + 1 := by
  have hδ := delta_range h.binary hq i
  refine ⟨h.binary.le_rnd (des_rep h.binary _ _ _) (by linarith), ?_⟩
  rcases hδ.2.lt_or_eq with h1 | h1
  · refine h.add_le (des_rep h.binary _ _ _) (one_le_des h.binary hq i k) ?_ h1
    have := des_le_count h.binary hq i (k := k) (by omega)
    refine this.trans_lt ?_
    exact_mod_cast (by omega : 2 * quantiles.length + 3 + k < 2 ^ p)
  · rw [des_of_one h.binary h1 hk, des_of_one h.binary h1 (by omega)]
    push_cast; linarith

/-- The error of a desired position grows at most with the square of the number of values. -/
theorem des_err (h : F.Nearest p emin) {u η : ℝ} (hE : F.Err u η) (hq : FloatQuantiles p quantiles) (i : Nat) {k : Nat}
    (hk : 2 * quantiles.length + 3 + k ≤ 2 ^ p) :
    |desF F quantiles i k - (1 + (((2 * quantiles.length + 3 + k : Nat) : ℝ) - 1) * fractionAt quantiles i)|
      ≤ 2 * ((2 * quantiles.length + 3 + k : Nat) : ℝ) ^ 2 * (u + η) := by
  have hu := hE.u_nonneg
  have hη := hE.eta_nonneg
  have hB := h.binary
  have hδ := delta_range hB hq i
  have ed := delta_err hB hE hq i
  induction k with
  | zero =>
    obtain ⟨f1, f2, -⟩ := des_first hB hq i
    have e1 := hE.err ((2 * ((quantiles.length : ℝ) + 1)) * deltaF F quantiles i)
    have e2 := hE.err (1 + F.rnd ((2 * ((quantiles.length : ℝ) + 1)) * deltaF F quantiles i))
    have hq0 : (0 : ℝ) ≤ quantiles.length := Nat.cast_nonneg _
    have hL : (0 : ℝ) ≤ 2 * ((quantiles.length : ℝ) + 1) := by positivity
    rw [abs_of_nonneg (mul_nonneg hL hδ.1)] at e1
    rw [abs_of_nonneg (show 0 ≤ 1 + F.rnd ((2 * ((quantiles.length : ℝ) + 1)) * deltaF F quantiles i) by linarith)] at e2
    show |F.rnd _ - _| ≤ _
    generalize F.rnd ((2 * ((quantiles.length : ℝ) + 1)) * deltaF F quantiles i) = t at *
    generalize F.rnd (1 + t) = v at *
    generalize deltaF F quantiles i = δ at *
    generalize fractionAt quantiles i = f at *
    push_cast
    generalize (quantiles.length : ℝ) = q at *
    have g1 : u * (2 * (q + 1) * δ) ≤ u * (2 * (q + 1)) := mul_le_mul_of_nonneg_left (by nlinarith) hu
    have g2 : u * (1 + t) ≤ u * (2 * q + 3) := mul_le_mul_of_nonneg_left (by linarith) hu
    rw [abs_le] at ed e1 e2 ⊢
    have g3 := mul_le_mul_of_nonneg_left ed.1 hL
    have g4 := mul_le_mul_of_nonneg_left ed.2 hL
    have g5 : 0 ≤ (u + η) * q := mul_nonneg (by linarith) hq0
    have g6 : 0 ≤ (u + η) * q * q := mul_nonneg g5 hq0
    have g7 : 0 ≤ u * q := mul_nonneg hu hq0
    have g8 : 0 ≤ η * q := mul_nonneg hη hq0
    constructor <;> nlinarith
  | succ k ih =>
    have ih' := ih (by omega)
    have h1 := one_le_des hB hq i k
    have h2 := des_le_count hB hq i (k := k) (by omega)
    have e1 := hE.err (desF F quantiles i k + deltaF F quantiles i)
    rw [abs_of_nonneg (show 0 ≤ desF F quantiles i k + deltaF F quantiles i by linarith)] at e1
    show |F.rnd _ - _| ≤ _
    have hN : (3 : ℝ) ≤ ((2 * quantiles.length + 3 + k : Nat) : ℝ) := by
      exact_mod_cast (by omega : 3 ≤ 2 * quantiles.length + 3 + k)
    have eN : ((2 * quantiles.length + 3 + (k + 1) : Nat) : ℝ) = ((2 * quantiles.length + 3 + k : Nat) : ℝ) + 1 := by push_cast; ring
    rw [eN]
    generalize ((2 * quantiles.length + 3 + k : Nat) : ℝ) = N at *
    generalize F.rnd (desF F quantiles i k + deltaF F quantiles i) = v at *
    generalize desF F quantiles i k = D at *
    generalize deltaF F quantiles i = δ at *
    generalize fractionAt quantiles i = f at *
    have g1 : u * (D + δ) ≤ u * (N + 1) := mul_le_mul_of_nonneg_left (by linarith) hu
    have g2 : 0 ≤ (u + η) * (N - 3) := mul_nonneg (by linarith) (by linarith)
    have g3 : 0 ≤ η * (N - 3) := mul_nonneg hη (by linarith)
    rw [abs_le] at ed e1 ih' ⊢
    constructor <;> nlinarith

/-! ### States -/

/-- The state of a full estimator after `n` values: desired positions and increments as computed. -/
structure FloatState (F : Fmt) (quantiles : List Ratio) (n : Nat) (s : PSquare w (X F)) (ps : Nat → Nat) (h : Nat → X F) : Prop where
  rep : Rep (2 * quantiles.length + 3) s ps h (fun i => X.fin (desF F quantiles i (n - (2 * quantiles.length + 3))))
    (fun i => X.fin (deltaF F quantiles i))
  mono : Mono w (2 * quantiles.length + 3) ps
  count : s.count = BitVec.ofNat w n
  last : ps (2 * quantiles.length + 2) ≤ n

theorem rep_congr {α : Type} [Scalar α] {L : Nat} {s : PSquare w α} {ps : Nat → Nat} {h d d' δ δ' : Nat → α} (hr : Rep L s ps h d δ)
    (hd : ∀ i < L, d i = d' i) (hδ : ∀ i < L, δ i = δ' i) : Rep L s ps h d' δ' :=
  ⟨hr.len_eq, hr.pos_len, hr.pos, hr.ht_len, hr.ht, hr.des_len, fun i hi => by rw [hr.des i hi, hd i hi], hr.del_len,
    fun i hi => by rw [hr.del i hi, hδ i hi]⟩

theorem des_first_fin (hF : F.Binary p emin) (hf : F.fits (2 ^ (p + 1))) (hq : FloatQuantiles p quantiles) (i : Nat) :
    (ofNat 1 + ofNat (2 * (quantiles.length + 1)) * X.fin (deltaF F quantiles i) : X F) = X.fin (desF F quantiles i 0) := by
  have hfew := hq.few
  have hfp := fits_natpow hF hf (show p ≤ p + 1 by omega)
  obtain ⟨f1, f2, -⟩ := des_first hF hq i
  have hδ := delta_range hF hq i
  have hL : (0 : ℝ) ≤ 2 * ((quantiles.length : ℝ) + 1) := by positivity
  have hc : 2 * ((quantiles.length : ℝ) + 1) + 1 ≤ 2 ^ p := by
    have : ((2 * quantiles.length + 3 : Nat) : ℝ) ≤ 2 ^ p := by exact_mod_cast hfew
    push_cast at this; linarith
  have e : (ofNat (2 * (quantiles.length + 1)) : X F) = X.fin (2 * ((quantiles.length : ℝ) + 1)) := by
    have := hF.ofNat_fin (n := 2 * (quantiles.length + 1)) (by omega)
      (hF.fits_between hF.fits_zero hfp (Nat.cast_nonneg _) (by push_cast; linarith))
    rw [this]; push_cast; rfl
  rw [e, hF.ofNat_one, X.mul_fin, fin_round hF (isRep_natpow hF p) hfp (mul_nonneg hL hδ.1) (by nlinarith), X.add_fin,
    fin_round hF (isRep_natpow hF p) hfp (by linarith) (by linarith)]
  rfl

/-- The state after as many values as there are markers. -/
theorem float_base (hF : F.Binary p emin) (hf : F.fits (2 ^ (p + 1))) (hq : FloatQuantiles p quantiles)
    (hL : 2 * quantiles.length + 3 < 2 ^ w) (xs : List (X F)) (hx : xs.length = 2 * quantiles.length + 3) :
    ∃ (s : PSquare w (X F)) (h : Nat → X F), pushes w (quantiles.map Ratio.toScalar) xs = some s
      ∧ FloatState F quantiles xs.length s (fun i => i + 1) h := by
  have hlen : paramLength (quantiles.map (Ratio.toScalar : Ratio → X F)).length = 2 * quantiles.length + 3 := by
    simp [paramLength]
  obtain ⟨s, ps, h, d, hs, hi⟩ := pushes_inv (quantiles.map (Ratio.toScalar : Ratio → X F)) (by rw [hlen]; exact hL) xs (by omega)
  obtain ⟨hp, hd⟩ := hi.few (by rw [hlen]; omega)
  have hpe : ps = fun i => i + 1 := funext hp
  subst hpe
  refine ⟨s, h, hs, ?_, ?_, hi.count, by show 2 * quantiles.length + 2 + 1 ≤ _; omega⟩
  · have hr := hi.rep
    rw [hlen] at hr
    refine rep_congr hr (fun i _ => ?_) (fun i _ => marker_round hF (fits_natpow hF hf (by omega)) hq i)
    rw [hd i, marker_round hF (fits_natpow hF hf (by omega)) hq i, List.length_map, hx, Nat.sub_self]
    exact des_first_fin hF hf hq i
  · have := hi.mono
    rwa [hlen] at this

/-- One more value. -/
theorem float_push (hF : F.Nearest p emin) (hf : F.fits (2 ^ (p + 2))) (hq : FloatQuantiles p quantiles)
    {n : Nat} (hLn : 2 * quantiles.length + 3 ≤ n) (hn : n + 1 < 2 ^ w) {s : PSquare w (X F)} {ps : Nat → Nat} {h : Nat → X F}
    (hs : FloatState F quantiles n s ps h) (x : X F) :
    ∃ (k : Nat) (h1 : Nat → X F) (s' : PSquare w (X F)) (ps' : Nat → Nat) (h' : Nat → X F), 1 ≤ k ∧ k ≤ 2 * quantiles.length + 3
      ∧ (lt x (h (2 * quantiles.length + 2)) = true ∨ le (h (2 * quantiles.length + 2)) x = true → k ≤ 2 * quantiles.length + 2)
      ∧ ((lt x (h 0) = true ∧ k = 1 ∧ h1 = Function.update h 0 x)
        ∨ (lt x (h 0) = false ∧ le (h (2 * quantiles.length + 2)) x = true ∧ k = 2 * quantiles.length + 2
          ∧ h1 = Function.update h (2 * quantiles.length + 2) x)
        ∨ (lt x (h 0) = false ∧ le (h (2 * quantiles.length + 2)) x = false ∧ h1 = h))
      ∧ s.push x = some s' ∧ FloatState F quantiles (n + 1) s' ps' h'
      ∧ ps' 0 = ps 0 ∧ ps' (2 * quantiles.length + 2) = bumped k ps (2 * quantiles.length + 2)
      ∧ h' (2 * quantiles.length + 2) = h1 (2 * quantiles.length + 2) ∧ h' 0 = h1 0
      ∧ (∀ j, ps' j = bumped k ps j → h' j = h1 j)
      ∧ ∀ j, 1 ≤ j → j + 1 < 2 * quantiles.length + 3 →
        AdjustedBy (ps' (j - 1)) (bumped k ps j) (bumped k ps (j + 1)) (ps' j)
          (PSquare.signOf (X.fin (desF F quantiles j (n + 1 - (2 * quantiles.length + 3))) - ofNat (bumped k ps j) : X F)) := by
  have hB := hF.binary
  have hsum : ∀ i, (X.fin (desF F quantiles i (n - (2 * quantiles.length + 3))) + X.fin (deltaF F quantiles i) : X F)
      = X.fin (desF F quantiles i (n + 1 - (2 * quantiles.length + 3))) := by
    intro i
    have h1 := one_le_des hB hq i (n - (2 * quantiles.length + 3))
    have h2 := des_le hF hq i (n - (2 * quantiles.length + 3))
    have hδ := delta_range hB hq i
    have h3 : (1 : ℝ) ≤ 2 ^ (p + 1) := one_le_pow₀ (by norm_num)
    rw [X.add_fin, fin_round hB (isRep_natpow hB (p + 2)) hf (by linarith) (by rw [pow_succ _ (p + 1)]; linarith),
      show n + 1 - (2 * quantiles.length + 3) = n - (2 * quantiles.length + 3) + 1 by omega]
    rfl
  obtain ⟨k, h1, s', ps', h', a1, a2, a3, a4, a5, a6, a7, a8, a9, a10, a11, a12, a13, a15, a14⟩ :=
    push_steps (by omega) hLn hn hs.rep hs.mono hs.last hs.count x
  refine ⟨k, h1, s', ps', h', a1, a2, a3, a4, a5, ⟨?_, a9, a6, ?_⟩, a10, a11, a13, a12, a15, ?_⟩
  · exact rep_congr a8 (fun i _ => hsum i) (fun i _ => rfl)
  · have e : 2 * quantiles.length + 3 - 1 = 2 * quantiles.length + 2 := rfl
    rw [e] at a11
    rw [a11]
    have := hs.last
    unfold bumped
    split_ifs <;> omega
  · intro j h1 h2
    have := a14 j h1 h2
    rw [hsum j] at this
    exact this

/-! ### Many values -/

theorem ofNat_large_sign (hF : F.Nearest p emin) {D : ℝ} (hD2 : D ≤ 2 ^ (p + 1)) {b : Nat}
    (hsize : F.fits (F.rnd (b : ℝ))) :
    (2 ^ (p + 1) + 4 < b → PSquare.signOf (X.fin D - ofNat b : X F) = -1)
    ∧ (2 ^ (p + 1) + 4 ≤ b → PSquare.signOf (X.fin D - ofNat b : X F) ≠ 1) := by
  have hB := hF.binary
  have e : (ofNat b : X F) = X.fin (F.rnd b) := by
    rw [X.ofNat_eq]; unfold X.round; rw [if_pos hsize]
  have hrep : IsRep p emin ((2 ^ (p + 1) + 4 : Nat) : ℝ) := by
    have hp := hF.digits
    have := isRep_mul (p := p) (emin := emin) (m := 2 ^ (p - 1) + 1) (e := 2) (by omega) (by have := hB.emin_le; omega)
      (by
        rw [abs_of_nonneg (by positivity)]
        have h1 : (2 : Int) ^ p = 2 * 2 ^ (p - 1) := by rw [← pow_succ']; congr 1; omega
        have h2 : (0 : Int) < 2 ^ (p - 1) := by positivity
        omega)
    convert this using 1
    push_cast
    have : (2 : ℝ) ^ (p + 1) = 2 ^ (p - 1) * 4 := by
      rw [show (4 : ℝ) = 2 ^ 2 by norm_num, ← pow_add]; congr 1; omega
    rw [this]; norm_num; ring
  have h4 : IsRep p emin (-4) := by
    have := (isRep_natpow hB 2).neg
    norm_num at this; exact this
  have key : 2 ^ (p + 1) + 4 ≤ b → D - F.rnd b ≤ -4 := by
    intro h
    have h1 : ((2 ^ (p + 1) + 4 : Nat) : ℝ) ≤ b := by exact_mod_cast h
    have h2 := hB.le_rnd hrep h1
    push_cast at h2
    linarith
  rw [e, X.sub_fin]
  refine ⟨fun h => hB.signOf_round_neg h4 (by norm_num) (key h.le), fun h => ?_⟩
  rw [hB.signOf_round_neg h4 (by norm_num) (key h)]
  decide

/-- Whatever values are pushed, the positions of the inner markers do not exceed `2^(p+1) + 4 + i`. -/
theorem float_frozen (hF : F.Nearest p emin) (hf : F.fits (2 ^ (p + 2))) (hsize : F.fits (F.rnd ((2 ^ w : Nat) : ℝ)))
    (hq : FloatQuantiles p quantiles) (hL : 2 * quantiles.length + 3 < 2 ^ w) (xs : List (X F)) (hn : xs.length < 2 ^ w)
    (hx : 2 * quantiles.length + 3 ≤ xs.length) :
    ∃ (s : PSquare w (X F)) (ps : Nat → Nat) (h : Nat → X F), pushes w (quantiles.map Ratio.toScalar) xs = some s
      ∧ FloatState F quantiles xs.length s ps h ∧ ∀ i, i + 1 < 2 * quantiles.length + 3 → ps i ≤ 2 ^ (p + 1) + 4 + i := by
  have hB := hF.binary
  induction xs using List.reverseRecOn with
  | nil => simp at hx
  | append_singleton xs x ih =>
    have hlen : (xs ++ [x]).length = xs.length + 1 := by simp
    rcases Nat.lt_or_ge xs.length (2 * quantiles.length + 3) with hlt | hge
    · obtain ⟨s, h, hs, hst⟩ := float_base (w := w) hB (fits_natpow hB hf (by omega)) hq hL (xs ++ [x]) (by omega)
      refine ⟨s, _, h, hs, hst, fun i _ => ?_⟩
      show i + 1 ≤ _
      have : 0 < 2 ^ (p + 1) := by positivity
      omega
    · rw [hlen] at hn
      obtain ⟨s, ps, h, hs, hst, hb⟩ := ih (by omega) hge
      obtain ⟨k, h1, s', ps', h', -, -, -, -, a5, a6, a7, -, -, -, -, a9⟩ := float_push hF hf hq hge hn hst x
      refine ⟨s', ps', h', by rw [pushes_snoc, hs]; exact a5, by rw [hlen]; exact a6, ?_⟩
      refine bounded_step (k := k) hb a7 fun j h2 h3 => ⟨_, ?_, ?_, a9 j h2 h3⟩
      all_goals
        have hbj : bumped k ps j ≤ 2 ^ w := by
          have := hst.mono.bound (i := j) (by omega)
          unfold bumped
          split_ifs <;> omega
        have hsz : F.fits (F.rnd (bumped k ps j : ℝ)) := by
          refine hB.fits_abs _ _ ?_ hsize
          rw [abs_of_nonneg (hB.rnd_nonneg (Nat.cast_nonneg _)), abs_of_nonneg (hB.rnd_nonneg (Nat.cast_nonneg _))]
          exact hB.mono (by exact_mod_cast hbj)
        have := ofNat_large_sign hF (des_le hF hq j (xs.length + 1 - (2 * quantiles.length + 3))) hsz
      · exact this.1
      · exact this.2

/-! ### Not too many values -/

theorem follow_init {L : Nat} (hL : 3 ≤ L) {D : Nat → ℝ} (h1 : ∀ i, 1 ≤ D i) (h2 : ∀ i, D i ≤ L) :
    Follow L D L fun i => i + 1 := by
  refine ⟨rfl, by show L - 1 + 1 = L; omega, fun i hi => ?_, fun i _ => ?_⟩
  · have := h2 i
    have h3 : (i : ℝ) + 1 ≤ L := by exact_mod_cast hi
    push_cast; linarith
  · have := h1 i
    push_cast; linarith

/-- With at most `2^p` finite values the markers follow the computed desired positions. -/
theorem float_follow (hF : F.Nearest p emin) (hf : F.fits (2 ^ (p + 2)))
    (hq : FloatQuantiles p quantiles) (hL : 2 * quantiles.length + 3 < 2 ^ w) (xs : List ℝ) (hn : xs.length < 2 ^ w)
    (hp : xs.length ≤ 2 ^ p) (hx : 2 * quantiles.length + 3 ≤ xs.length) :
    ∃ (s : PSquare w (X F)) (ps : Nat → Nat) (h : Nat → X F) (hi : ℝ), pushes w (quantiles.map Ratio.toScalar) (xs.map X.fin) = some s
      ∧ FloatState F quantiles xs.length s ps h ∧ h (2 * quantiles.length + 2) = X.fin hi
      ∧ Follow (2 * quantiles.length + 3) (fun i => desF F quantiles i (xs.length - (2 * quantiles.length + 3))) xs.length ps := by
  have hB := hF.binary
  have hlast := delta_last hB quantiles
  induction xs using List.reverseRecOn with
  | nil => simp at hx
  | append_singleton xs x ih =>
    have hlen : (xs ++ [x]).length = xs.length + 1 := by simp
    rcases Nat.lt_or_ge xs.length (2 * quantiles.length + 3) with hlt | hge
    · have hl : (xs ++ [x]).length = 2 * quantiles.length + 3 := by omega
      obtain ⟨s, h, hs, hst⟩ := float_base (w := w) hB (fits_natpow hB hf (by omega)) hq hL ((xs ++ [x]).map X.fin) (by rw [List.length_map]; omega)
      have hpl : paramLength (quantiles.map (Ratio.toScalar : Ratio → X F)).length = 2 * quantiles.length + 3 := by
        simp [paramLength]
      obtain ⟨s2, p2, h2, d2, hs2, hi2⟩ := pushes_invF (quantiles.map (Ratio.toScalar : Ratio → X F)) (by rw [hpl]; exact hL)
        (fun _ => True) (fun _ => True) (b := (xs ++ [x]).length) (fun _ _ _ _ _ => trivial) (fun _ _ _ _ _ _ _ => trivial)
        (fun _ _ _ _ _ _ _ => trivial) (fun _ _ _ _ _ _ _ _ _ _ _ => trivial) (xs ++ [x]) (le_refl _) hn (fun _ _ => trivial)
      rw [hs] at hs2
      obtain rfl := Option.some.inj hs2
      obtain ⟨-, lo, hi, -, hhi, -⟩ := hi2.many (by rw [hpl]; omega)
      have hr2 := hi2.inv.rep
      rw [hpl] at hr2 hhi
      have e1 := hr2.ht (2 * quantiles.length + 2) (by omega)
      rw [hst.rep.ht (2 * quantiles.length + 2) (by omega)] at e1
      rw [List.length_map] at hst
      refine ⟨s, _, h, hi, hs, hst, ?_, ?_⟩
      · rw [Option.some.inj e1]; exact hhi
      · rw [hl, Nat.sub_self]
        exact follow_init (by omega) (fun i => one_le_des hB hq i 0) (fun i => (des_first hB hq i).2.2)
    · rw [hlen] at hn hp
      obtain ⟨s, ps, h, hi, hs, hst, hh, hfo⟩ := ih (by omega) (by omega) hge
      obtain ⟨k, h1, s', ps', h', a1, a2, a3, a4, a5, a6, a7, a8, a10, -, -, a9⟩ := float_push hF hf hq hge hn hst (X.fin x)
      have hk : k ≤ 2 * quantiles.length + 2 := by
        apply a3
        rw [hh, X.lt_fin, X.le_fin]
        rcases lt_or_ge x hi with h5 | h5
        · left; simpa using h5
        · right; simpa using h5
      have hh' : ∃ hi' : ℝ, h' (2 * quantiles.length + 2) = X.fin hi' := by
        rw [a10]
        rcases a4 with ⟨-, -, h5⟩ | ⟨-, -, -, h5⟩ | ⟨-, -, h5⟩
        · exact ⟨hi, by rw [h5, Function.update_of_ne (by omega), hh]⟩
        · exact ⟨x, by rw [h5, Function.update_self]⟩
        · exact ⟨hi, by rw [h5, hh]⟩
      obtain ⟨hi', hh'⟩ := hh'
      refine ⟨s', ps', h', hi', ?_, by rw [hlen]; exact a6, hh', ?_⟩
      · rw [List.map_append, List.map_singleton, pushes_snoc, hs]; exact a5
      rw [hlen]
      have ek : xs.length + 1 - (2 * quantiles.length + 3) = xs.length - (2 * quantiles.length + 3) + 1 := by omega
      have eN : 2 * quantiles.length + 3 + (xs.length - (2 * quantiles.length + 3)) = xs.length := by omega
      refine hfo.step (by omega) a1 (by omega) ?_ ?_ ?_ ?_ a7 a8 ?_
      · intro i _
        rw [ek]
        exact des_step hF hq i (by omega)
      · intro i h5
        exact des_mono hB hq h5 _
      · exact des_zero hB quantiles _
      · show desF F quantiles (2 * quantiles.length + 2) _ = _
        rw [des_of_one hB hlast (by omega), ek]
        push_cast
        rw [← eN]; push_cast; rw [eN]; ring
      · intro j h5 h6
        refine ⟨_, ?_, a9 j h5 h6⟩
        have hpj : ps j ≤ xs.length := by
          have := hst.mono.le (i := j) (j := 2 * quantiles.length + 2) (by omega) (by omega)
          exact this.trans hst.last
        have hbj : bumped k ps j ≤ xs.length + 1 := by unfold bumped; split_ifs <;> omega
        have hbr : (bumped k ps j : ℝ) ≤ 2 ^ p := by exact_mod_cast hbj.trans hp
        have hfp := fits_natpow hB hf (show p ≤ p + 2 by omega)
        rw [hB.ofNat_fin (hbj.trans hp) (hB.fits_between hB.fits_zero hfp (Nat.cast_nonneg _) hbr)]
        refine hB.signOf_sub (des_rep hB _ _ _) (nat_rep hB (hbj.trans hp)) (isRep_natpow hB p) hfp ?_
        have d1 := one_le_des hB hq j (xs.length + 1 - (2 * quantiles.length + 3))
        have d2 := des_le_count hB hq j (k := xs.length + 1 - (2 * quantiles.length + 3)) (by omega)
        have d3 : ((2 * quantiles.length + 3 + (xs.length + 1 - (2 * quantiles.length + 3)) : Nat) : ℝ) ≤ 2 ^ p := by
          exact_mod_cast (by omega : 2 * quantiles.length + 3 + (xs.length + 1 - (2 * quantiles.length + 3)) ≤ 2 ^ p)
        have d4 : (0 : ℝ) ≤ bumped k ps j := Nat.cast_nonneg _
        rw [abs_le]
        constructor <;> linarith

/-! ### C149 -/

/-- C149, full statement: the bounds of C147 for the distances of the markers from their desired positions
`1 + (n - 1) f_i` also hold in floating point. -/
def C149_Statement (F : Fmt) (p w : Nat) : Prop :=
  ∀ (quantiles : List Ratio), FloatQuantiles p quantiles → 2 * quantiles.length + 3 < 2 ^ w →
    ∀ (ops : List (Op ℝ)), ops.length < 2 ^ w → 2 * quantiles.length + 3 ≤ (sinceClear ops).length →
      ∃ (s : PSquare w (X F)) (n : Nat → Nat), PSquare.run quantiles (finOps ops) = some s
        ∧ ∀ i < 2 * quantiles.length + 3, s.positions[i]? = some (BitVec.ofNat w (n i)) ∧ n i < 2 ^ w
          ∧ (n i : ℝ) - (1 + (((sinceClear ops).length : ℝ) - 1) * fractionAt quantiles i) ≤ i
          ∧ (1 + (((sinceClear ops).length : ℝ) - 1) * fractionAt quantiles i) - n i ≤ 2 * (2 * (quantiles.length : ℝ) + 2 - i)

/-- C149: in every format with `p` digits and rounding to nearest, the position of marker `i` below the last never
exceeds `2^(p+1) + 4 + i`, however many values are pushed and whatever they are (also NaN and infinities). -/
theorem C149_frozen (hF : F.Nearest p emin) (hf : F.fits (2 ^ (p + 2))) (hsize : F.fits (F.rnd ((2 ^ w : Nat) : ℝ)))
    (hq : FloatQuantiles p quantiles) (hL : 2 * quantiles.length + 3 < 2 ^ w) (ops : List (Op (X F))) (hops : ops.length < 2 ^ w)
    (hn : 2 * quantiles.length + 3 ≤ (sinceClear ops).length) :
    ∃ (s : PSquare w (X F)) (n : Nat → Nat), PSquare.run quantiles ops = some s
      ∧ ∀ i < 2 * quantiles.length + 2, s.positions[i]? = some (BitVec.ofNat w (n i)) ∧ n i < 2 ^ w ∧ n i ≤ 2 ^ (p + 1) + 4 + i := by
  obtain ⟨s, ps, h, hs, hst, hb⟩ := float_frozen hF hf hsize hq hL (sinceClear ops)
    ((sinceClear_length_le ops).trans_lt hops) hn
  refine ⟨s, ps, ?_, fun i hi => ⟨hst.rep.pos i (by omega), hst.mono.bound (by omega), hb i (by omega)⟩⟩
  rw [run_eq_pushes quantiles (by unfold paramLength; omega) ops hops]
  exact hs

theorem median_float (hp : 3 ≤ p) : FloatQuantiles p [median] := by
  obtain ⟨q0, q1, q2⟩ := quantileAt_median
  have h8 : 2 ^ 3 ≤ 2 ^ p := Nat.pow_le_pow_right (by norm_num) hp
  refine ⟨fun r hr => ?_, fun r hr => ?_, fun i hi => ?_, by simpa using (by omega : 5 ≤ 2 ^ p)⟩
  · obtain rfl := List.mem_singleton.1 hr
    exact ⟨by decide, by show 2 ≤ 2 ^ p; omega⟩
  · obtain rfl := List.mem_singleton.1 hr
    constructor <;> norm_num [median, Ratio.val]
  · have : i = 0 ∨ i = 1 := by simp only [List.length_cons, List.length_nil] at hi; omega
    rcases this with rfl | rfl
    · rw [q0, q1]; norm_num
    · rw [q1, q2]; norm_num

/-- C149 is violated in every format with `p` digits and rounding to nearest, if `size_t` can count `2^(p+5)` values:
after so many values the marker of the median should be near position `2^(p+4)` but is at most at `2^(p+1) + 6`. -/
theorem C149_violated (hF : F.Nearest p emin) (hf : F.fits (2 ^ (p + 2))) (hsize : F.fits (F.rnd ((2 ^ w : Nat) : ℝ)))
    (hw : p + 6 ≤ w) : ¬ C149_Statement F p w := by
  intro h
  have hp := hF.digits
  have hw2 : 2 ^ (p + 6) ≤ 2 ^ w := Nat.pow_le_pow_right (by norm_num) hw
  have h6 : 2 ^ (p + 6) = 64 * 2 ^ p := by rw [pow_add]; ring
  have h5 : 2 ^ (p + 5) = 32 * 2 ^ p := by rw [pow_add]; ring
  have h8 : 2 ^ 3 ≤ 2 ^ p := Nat.pow_le_pow_right (by norm_num) hp
  have hlen : (sinceClear (((List.replicate (2 ^ (p + 5)) (0 : ℝ)).map Op.push))).length = 2 ^ (p + 5) := by
    rw [sinceClear_pushes, List.length_replicate]
  obtain ⟨s, n, hs, hb⟩ := h [median] (median_float hp) (by simp; omega) ((List.replicate (2 ^ (p + 5)) (0 : ℝ)).map .push)
    (by simp; omega) (by rw [hlen]; simp; omega)
  obtain ⟨s', n', hs', hb'⟩ := C149_frozen (w := w) hF hf hsize (median_float hp) (by simp; omega)
    (finOps ((List.replicate (2 ^ (p + 5)) (0 : ℝ)).map .push)) (by simp [finOps]; omega)
    (by rw [sinceClear_finOps, List.length_map, hlen]; simp; omega)
  rw [hs] at hs'
  obtain rfl := Option.some.inj hs'
  obtain ⟨a1, a2, -, a3⟩ := hb 2 (by simp)
  obtain ⟨b1, b2, b3⟩ := hb' 2 (by simp)
  rw [a1] at b1
  have e : n 2 = n' 2 := by
    have := congrArg BitVec.toNat (Option.some.inj b1)
    rwa [toNat_ofNat_lt a2, toNat_ofNat_lt b2] at this
  rw [← e] at b3
  rw [hlen, fractionAt_median.2.1] at a3
  have b3' : (n 2 : ℝ) ≤ 2 * 2 ^ p + 6 := by
    have : n 2 ≤ 2 * 2 ^ p + 6 := by rw [pow_succ] at b3; omega
    exact_mod_cast this
  have h8' : (8 : ℝ) ≤ 2 ^ p := by exact_mod_cast h8
  have h5' : ((2 ^ (p + 5) : Nat) : ℝ) = 32 * 2 ^ p := by push_cast; rw [pow_add]; ring
  rw [h5'] at a3
  push_cast [List.length_singleton] at a3
  linarith

/-- C149, the part that holds: with rounding to nearest and at most `2^p` values, the bounds of C147 hold up to a drift
of at most `2 n^2 (u + η)` positions, where `u = 2^-p` and `η` is half the smallest positive number. -/
theorem C149_partial (hF : F.Nearest p emin) (hf : F.fits (2 ^ (p + 2))) (hq : FloatQuantiles p quantiles)
    (hL : 2 * quantiles.length + 3 < 2 ^ w) (ops : List (Op ℝ)) (hops : ops.length < 2 ^ w)
    (hn : 2 * quantiles.length + 3 ≤ (sinceClear ops).length) (hp : (sinceClear ops).length ≤ 2 ^ p) :
    ∃ (s : PSquare w (X F)) (n : Nat → Nat), PSquare.run quantiles (finOps ops) = some s
      ∧ ∀ i < 2 * quantiles.length + 3, s.positions[i]? = some (BitVec.ofNat w (n i)) ∧ n i < 2 ^ w
        ∧ (n i : ℝ) - (1 + (((sinceClear ops).length : ℝ) - 1) * fractionAt quantiles i)
          ≤ i + 2 * ((sinceClear ops).length : ℝ) ^ 2 * (2 ^ (-(p : Int)) + 2 ^ (emin - 1))
        ∧ (1 + (((sinceClear ops).length : ℝ) - 1) * fractionAt quantiles i) - n i
          ≤ 2 * (2 * (quantiles.length : ℝ) + 2 - i) + 2 * ((sinceClear ops).length : ℝ) ^ 2 * (2 ^ (-(p : Int)) + 2 ^ (emin - 1)) := by
  obtain ⟨s, ps, h, hi, hs, hst, -, hfo⟩ := float_follow hF hf hq hL (sinceClear ops)
    ((sinceClear_length_le ops).trans_lt hops) hp hn
  refine ⟨s, ps, ?_, fun i hi => ⟨hst.rep.pos i (by omega), hst.mono.bound (by omega), ?_, ?_⟩⟩
  · rw [run_eq_pushes quantiles (by unfold paramLength; omega) _ (by simpa [finOps] using hops), sinceClear_finOps]
    exact hs
  all_goals
    have he := des_err hF hF.err hq i (k := (sinceClear ops).length - (2 * quantiles.length + 3)) (by omega)
    rw [show 2 * quantiles.length + 3 + ((sinceClear ops).length - (2 * quantiles.length + 3)) = (sinceClear ops).length by omega, abs_le] at he
    have h1 := hfo.behind i hi
    have h2 := hfo.ahead i hi
    push_cast at h1
    linarith [he.1, he.2]

end Verif.Props
