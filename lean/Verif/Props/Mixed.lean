import Verif.Proofs.Mixed
import Verif.Proofs.Cumulative
import Verif.Proofs.Nearest
import Verif.Props.InterimShapeError
/-
C153: the skewness in value types other than `double`.
-/
namespace Verif.Props
open Scalar Verif.Cumulative

variable {F D W : Fmt} {p q k : Nat} {emin gmin dmin : Int} {u η v ζ t θ : ℝ} {w : Nat}

/-- The sum of cubes is a number of the format, whatever was pushed. -/
theorem sumSkewness_number (hF : F.Binary p emin) (ops : List (Op (X F))) :
    X.Number p emin (Skewness.run ops : Skewness w (X F)).sumSkewness := by
  have h0 : X.Number p emin (ofNat 0 : X F) := by
    rw [hF.ofNat_zero]; exact ⟨isRep_zero _ _, hF.fits_zero⟩
  rw [Skewness.run_eq]
  induction sinceClear ops using List.reverseRecOn with
  | nil => exact h0
  | append_singleton xs x _ => rw [List.foldl_append]; exact X.number_add hF _ _

/-- C153 for `double`: with a single type the mixed expressions are the ones of the model. -/
theorem C153_same_type (hF : F.Binary p emin) (ops : List (Op (X F))) :
    let s : Skewness w (X F) := Skewness.run ops
    s.skewnessIn F F = s.skewness ∧ s.unbiasedSkewnessIn F F = s.unbiasedSkewness := by
  intro s
  have hs : s.skewnessIn F F = s.skewness := by
    unfold Skewness.skewnessIn Skewness.skewness
    split
    · rfl
    · rw [X.conv_self hF (X.number_sqrt hF _), X.conv_self hF (sumSkewness_number hF ops), X.conv_self hF (X.number_mul hF _ _),
        X.conv_self hF (X.number_div hF _ _)]
  refine ⟨hs, ?_⟩
  have hn : X.Number p emin s.skewness := by
    unfold Skewness.skewness
    split
    · rw [hF.ofNat_zero]; exact ⟨isRep_zero _ _, hF.fits_zero⟩
    · exact X.number_div hF _ _
  have hsz : X.Number p emin (ofSize (s.size - 2) : X F) := by
    unfold ofSize; rw [X.ofNat_eq]; exact X.number_round hF _
  unfold Skewness.unbiasedSkewnessIn Skewness.unbiasedSkewness
  rw [hs]
  dsimp only
  split
  · rfl
  · split
    · rfl
    · rw [X.conv_self hF hn, X.conv_self hF (X.number_sqrt hF _), X.conv_self hF hsz, X.conv_self hF (X.number_div hF _ _)]

/-- The skewness of the sums `S`, `T` of a filter with `n` values. -/
noncomputable def quotientOf (n : Nat) (S T : ℝ) : ℝ := √(n : ℝ) * T / (√S * S)

/-- C153, the general bound: `u`, `t`, `v` are the units of the value type, of `double` and of the wider of the two. -/
theorem C153_accuracy (hF : F.Binary p emin) (hE : F.Err u η) (hW : W.Binary q gmin) (hEW : W.Err v ζ) (hD : D.Binary k dmin) (hED : D.Err t θ)
    (hFW : W.Wider F q gmin p emin) (hDW : W.Wider D q gmin k dmin) (hu : 64 * u ≤ 1) (hv : 64 * v ≤ 1) (ht : 64 * t ≤ 1)
    {K L J : ℝ} (hK : IsRep p emin K) (hKf : F.fits K) (hL : IsRep q gmin L) (hLf : W.fits L) (hJ : IsRep k dmin J) (hJf : D.fits J)
    (s : Skewness w (X F)) {S T : ℝ} (hS : s.super.sumVariance = X.fin S) (hT : s.sumSkewness = X.fin T) (hTr : IsRep p emin T) (hTf : F.fits T)
    (hS0 : 0 < S) (hT0 : 0 < T) (hcut : F.eps ≤ T) (hn1 : 1 ≤ s.size.toNat) (hn : s.size.toNat ≤ 2 ^ k) (hnJ : (s.size.toNat : ℝ) ≤ J)
    (hθ : θ ≤ t) (hJ1 : 2 * √(s.size.toNat : ℝ) ≤ J)
    (hη1 : η ≤ u * √S) (hη2 : η ≤ u * (√S * S)) (hη3 : 2 * η ≤ u * quotientOf s.size.toNat S T)
    (hζ1 : 2 * ζ ≤ v * (√(s.size.toNat : ℝ) * T)) (hζ2 : 2 * ζ ≤ v * quotientOf s.size.toNat S T)
    (hK1 : 2 * √S ≤ K) (hK2 : 2 * (√S * S) ≤ K) (hK3 : 3 * quotientOf s.size.toNat S T ≤ K)
    (hL1 : 3 * (√(s.size.toNat : ℝ) * T) ≤ L) (hL2 : 3 * quotientOf s.size.toNat S T ≤ L) :
    ∃ r, s.skewnessIn D W = X.fin r ∧ |r - quotientOf s.size.toNat S T| ≤ (7 * u + 5 * v + 3 * t) * quotientOf s.size.toNat S T := by
  have hu0 := hE.u_nonneg
  have hv0 := hEW.u_nonneg
  have ht0 := hED.u_nonneg
  set n := s.size.toNat with hnd
  have hn1' : (1 : ℝ) ≤ n := by exact_mod_cast hn1
  have hsn1 : 1 ≤ √(n : ℝ) := Real.one_le_sqrt.2 hn1'
  have hsn : 0 < √(n : ℝ) := by linarith
  have hσ := Real.sqrt_pos.2 hS0
  have hP : 0 < √S * S := by positivity
  have hQ : 0 < quotientOf n S T := by unfold quotientOf; positivity
  have htn := mul_le_mul_of_nonneg_left hsn1 ht0
  obtain ⟨d1, d2, d3⟩ := (Rel.self √(n : ℝ)).round hD hED hJ hJf hsn (by linarith) (by linarith)
  set d := D.rnd √(n : ℝ)
  have d3' : Rel d √(n : ℝ) (2 * t) := d3.mono hsn (by linarith)
  have hd := d3'.pos hsn (by linarith)
  have hdl : 1 / 2 * √(n : ℝ) ≤ d := by
    have := (abs_le.1 d3').1
    have := mul_le_mul_of_nonneg_right ht hsn.le
    linarith
  have hdu : d ≤ 3 / 2 * √(n : ℝ) := by
    have := (abs_le.1 d3').2
    have := mul_le_mul_of_nonneg_right ht hsn.le
    linarith
  have dT1 : 1 / 2 * (√(n : ℝ) * T) ≤ d * T := by
    have := mul_le_mul_of_nonneg_right hdl hT0.le; linarith
  have dT2 : d * T ≤ 3 / 2 * (√(n : ℝ) * T) := by
    have := mul_le_mul_of_nonneg_right hdu hT0.le; linarith
  have q1 : 1 / 2 * quotientOf n S T ≤ d * T / (√S * S) := by
    have := div_le_div_of_nonneg_right dT1 hP.le
    unfold quotientOf; rw [mul_div_assoc] at this; exact this
  have q2 : d * T / (√S * S) ≤ 3 / 2 * quotientOf n S T := by
    have := div_le_div_of_nonneg_right dT2 hP.le
    refine this.trans (le_of_eq ?_)
    unfold quotientOf; ring
  have m1 := mul_le_mul_of_nonneg_left q1 hu0
  have m2 := mul_le_mul_of_nonneg_left dT1 hv0
  have m3 := mul_le_mul_of_nonneg_left q1 hv0
  obtain ⟨r, r1, r2, r3, r4⟩ := mixed_quotient hF hE hW hEW hFW hu hv hK hKf hL hLf hd hT0 hS0 hη1 hη2 (by linarith) (by linarith)
    (by linarith) hK1 hK2 (by linarith) (by linarith) (by linarith)
  refine ⟨r, ?_, ?_⟩
  · unfold Skewness.skewnessIn
    have hnf : D.fits (n : ℝ) := hD.fits_abs _ J (by
      rw [abs_of_nonneg (by linarith)]; exact hnJ.trans (le_abs_self J)) hJf
    rw [hS, hT, X.eps_eq, X.lt_fin, decide_eq_false (by linarith), ofSize, ← hnd, hD.ofNat_fin hn hnf, X.sqrt_fin_of_nonneg (by linarith), d1,
      hDW.conv_fin hW (hD.rep _) d2, hFW.conv_fin hW hTr hTf]
    exact r1
  · have hqd : Rel (d * T / (√S * S)) (quotientOf n S T) (2 * t) := by
      have e : d * T / (√S * S) - quotientOf n S T = (d - √(n : ℝ)) * (T / (√S * S)) := by unfold quotientOf; ring
      unfold Rel
      rw [e, abs_mul, abs_of_pos (show 0 < T / (√S * S) by positivity)]
      have := mul_le_mul_of_nonneg_right d3' (show 0 ≤ T / (√S * S) by positivity)
      refine this.trans (le_of_eq ?_)
      unfold quotientOf; ring
    have h1 := abs_add_le (r - d * T / (√S * S)) (d * T / (√S * S) - quotientOf n S T)
    rw [sub_add_sub_cancel] at h1
    unfold Rel at hqd r4
    have h2 : d * T / (√S * S) ≤ (1 + 2 * t) * quotientOf n S T := by
      have := (abs_le.1 hqd).2; linarith
    have h3 := mul_le_mul_of_nonneg_left h2 (show 0 ≤ 7 * u + 5 * v by linarith)
    have h4 : (7 * u + 5 * v) * (2 * t) ≤ t := by
      have := mul_le_mul_of_nonneg_right (show 7 * u + 5 * v ≤ 1 / 2 by linarith) ht0
      linarith
    have h5 := mul_le_mul_of_nonneg_right h4 hQ.le
    linarith

/-- C153 as stated: in each value type, the skewness differs from that of its sums by at most 15 units of the value type.  The sums
and the number of values are from 1 to `2^20`, so nothing overflows or underflows. -/
def C153_Statement (F D W : Fmt) (u : ℝ) : Prop :=
  ∀ (ops : List (Op ℝ)) (S T : ℝ),
    let s : Skewness 64 (X F) := Skewness.run (finOps ops)
    s.super.sumVariance = X.fin S → s.sumSkewness = X.fin T → 1 ≤ S → S ≤ 2 ^ 20 → 1 ≤ T → T ≤ 2 ^ 20 → 1 ≤ s.size.toNat →
    s.size.toNat ≤ 2 ^ 20 →
    ∃ r, s.skewnessIn D W = X.fin r ∧ |r - quotientOf s.size.toNat S T| ≤ 15 * u * quotientOf s.size.toNat S T

/-- C153, the part that holds: value types not wider than `double`. -/
theorem C153_accuracy_range (hF : F.Binary p emin) (hE : F.Err u η) (hW : W.Binary q gmin) (hEW : W.Err v ζ) (hD : D.Binary k dmin) (hED : D.Err t θ)
    (hFW : W.Wider F q gmin p emin) (hDW : W.Wider D q gmin k dmin) (hu : 64 * u ≤ 1) (hv : v ≤ u) (ht : t ≤ u)
    (hη : η ≤ u * 2 ^ (-31 : Int)) (hζ : ζ ≤ v * 2 ^ (-31 : Int)) (hθ : θ ≤ t) (heps : F.eps ≤ 1) (hk : 20 ≤ k)
    (hK : IsRep p emin (2 ^ 40)) (hKf : F.fits (2 ^ 40)) (hL : IsRep q gmin (2 ^ 40)) (hLf : W.fits (2 ^ 40))
    (hJ : IsRep k dmin (2 ^ 40)) (hJf : D.fits (2 ^ 40)) : C153_Statement F D W u := by
  intro ops S T s hS hT hS1 hS2 hT1 hT2 hn1 hn2
  have hu0 := hE.u_nonneg
  have hv0 := hEW.u_nonneg
  have ht0 := hED.u_nonneg
  have hTn := sumSkewness_number (w := 64) hF (finOps ops)
  rw [hT] at hTn
  have hn1' : (1 : ℝ) ≤ s.size.toNat := by exact_mod_cast hn1
  have hn2' : (s.size.toNat : ℝ) ≤ 2 ^ 20 := by exact_mod_cast hn2
  have hsn1 : 1 ≤ √(s.size.toNat : ℝ) := Real.one_le_sqrt.2 hn1'
  have hsn2 : √(s.size.toNat : ℝ) ≤ 2 ^ 10 := Real.sqrt_le_iff.2 ⟨by norm_num, hn2'.trans (by norm_num)⟩
  have hσ1 : 1 ≤ √S := Real.one_le_sqrt.2 hS1
  have hσ2 : √S ≤ 2 ^ 10 := Real.sqrt_le_iff.2 ⟨by norm_num, hS2.trans (by norm_num)⟩
  have hP1 : 1 ≤ √S * S := one_le_mul_of_one_le_of_one_le hσ1 hS1
  have hP2 : √S * S ≤ 2 ^ 10 * 2 ^ 20 := mul_le_mul hσ2 hS2 (by linarith) (by norm_num)
  have hN1 : 1 ≤ √(s.size.toNat : ℝ) * T := one_le_mul_of_one_le_of_one_le hsn1 hT1
  have hN2 : √(s.size.toNat : ℝ) * T ≤ 2 ^ 10 * 2 ^ 20 := mul_le_mul hsn2 hT2 (by linarith) (by norm_num)
  have hQ1 : 1 / 2 ^ 30 ≤ quotientOf s.size.toNat S T := by
    unfold quotientOf
    rw [le_div_iff₀ (by linarith)]
    have := mul_le_mul_of_nonneg_left hP2 (show (0 : ℝ) ≤ 1 / 2 ^ 30 by norm_num)
    norm_num at this ⊢; linarith
  have hQ2 : quotientOf s.size.toNat S T ≤ 2 ^ 30 := by
    unfold quotientOf
    rw [div_le_iff₀ (by linarith)]
    have := mul_le_mul_of_nonneg_left hP1 (show (0 : ℝ) ≤ 2 ^ 30 by norm_num)
    norm_num at this hN2 ⊢; linarith
  have uσ := mul_le_mul_of_nonneg_left hσ1 hu0
  have uP := mul_le_mul_of_nonneg_left hP1 hu0
  have uQ := mul_le_mul_of_nonneg_left hQ1 hu0
  have vN := mul_le_mul_of_nonneg_left hN1 hv0
  have vQ := mul_le_mul_of_nonneg_left hQ1 hv0
  have hz : (2 : ℝ) ^ (-31 : Int) = 1 / 2 ^ 31 := by norm_num
  rw [hz] at hη hζ
  norm_num at hσ2 hP2 hN2 hQ2 hη hζ uQ vQ hsn2 hn2'
  obtain ⟨r, r1, r2⟩ := C153_accuracy hF hE hW hEW hD hED hFW hDW hu (by linarith) (by linarith) hK hKf hL hLf hJ hJf s hS hT hTn.1 hTn.2
    (by linarith) (by linarith) (by linarith) hn1 (hn2.trans (Nat.pow_le_pow_right (by norm_num) hk)) (by norm_num; linarith) hθ
    (by norm_num; linarith) (by linarith) (by linarith) (by linarith) (by linarith) (by linarith) (by norm_num; linarith) (by norm_num; linarith)
    (by norm_num; linarith) (by norm_num; linarith) (by norm_num; linarith)
  refine ⟨r, r1, r2.trans (mul_le_mul_of_nonneg_right (by linarith) ?_)⟩
  have : (0 : ℝ) ≤ 1 / 2 ^ 30 := by norm_num
  linarith

theorem isRep_two_pow {n : Nat} (hp : 1 ≤ p) (he : emin ≤ 0) : IsRep p emin (2 ^ n) :=
  ⟨1, n, by simp, by simpa using Nat.one_lt_two_pow (by omega : p ≠ 0) |> fun h => (by exact_mod_cast h : (1 : Int) < 2 ^ p), by omega⟩

theorem binary32_wider : binary64.Wider binary32 53 (-1074) 24 (-149) where
  digits := by norm_num
  emin_le := by norm_num
  fits r h := by
    have h' : |r| < 2 ^ (128 : Int) := h
    exact lt_trans h' (zpow_lt_zpow_right₀ (by norm_num) (by norm_num))

theorem ieee_fits_two_pow (p : Nat) (emin : Int) {emax : Int} {n : Nat} (h : (n : Int) < emax) : (Fmt.ieee p emin emax).fits (2 ^ n) := by
  show |(2 : ℝ) ^ n| < 2 ^ emax
  rw [abs_of_pos (by positivity), ← zpow_natCast]
  exact zpow_lt_zpow_right₀ (by norm_num) h

/-- C153 for `float` and `double`. -/
theorem C153_float_double_partial :
    C153_Statement binary32 binary64 binary64 (2 ^ (-24 : Int)) ∧ C153_Statement binary64 binary64 binary64 (2 ^ (-53 : Int)) := by
  have h53 : (2 : ℝ) ^ (-53 : Int) ≤ 2 ^ (-24 : Int) := zpow_le_zpow_right₀ (by norm_num) (by norm_num)
  have h64 := binary64_err
  have h32 := binary32_err
  have e1 : (2 : ℝ) ^ (-150 : Int) ≤ 2 ^ (-24 : Int) * 2 ^ (-31 : Int) := by
    rw [← zpow_add₀ (by norm_num)]; exact zpow_le_zpow_right₀ (by norm_num) (by norm_num)
  have e2 : (2 : ℝ) ^ (-1075 : Int) ≤ 2 ^ (-53 : Int) * 2 ^ (-31 : Int) := by
    rw [← zpow_add₀ (by norm_num)]; exact zpow_le_zpow_right₀ (by norm_num) (by norm_num)
  have e3 : (2 : ℝ) ^ (-1075 : Int) ≤ 2 ^ (-53 : Int) := zpow_le_zpow_right₀ (by norm_num) (by norm_num)
  have p1 : binary32.eps ≤ 1 := by
    show (2 : ℝ) ^ _ ≤ 1
    norm_num
  have p2 : binary64.eps ≤ 1 := by
    show (2 : ℝ) ^ _ ≤ 1
    norm_num
  have r32 : IsRep 24 (-149) (2 ^ 40) := isRep_two_pow (by norm_num) (by norm_num)
  have r64 : IsRep 53 (-1074) (2 ^ 40) := isRep_two_pow (by norm_num) (by norm_num)
  have f32 : binary32.fits (2 ^ 40) := ieee_fits_two_pow _ _ (by norm_num)
  have f64 : binary64.fits (2 ^ 40) := ieee_fits_two_pow _ _ (by norm_num)
  exact ⟨C153_accuracy_range binary32_binary h32 binary64_binary h64 binary64_binary h64 binary32_wider (Fmt.Wider.refl _ _ _) (by norm_num)
      h53 h53 e1 e2 e3 p1 (by norm_num) r32 f32 r64 f64 r64 f64,
    C153_accuracy_range binary64_binary h64 binary64_binary h64 binary64_binary h64 (Fmt.Wider.refl _ _ _) (Fmt.Wider.refl _ _ _) (by norm_num)
      (le_refl _) (le_refl _) e2 e2 e3 p2 (by norm_num) r64 f64 r64 f64 r64 f64⟩

/-- C153 and C143: the skewness of the data in value types that satisfy C153. -/
theorem C153_skewness_error (hF : F.Binary p emin) (hE : F.Err u η) (h1 : C153_Statement F F F u) (h2 : C153_Statement F D W u)
    {B K : ℝ} (ops : List (Op ℝ)) (hd : F.Data p emin (sinceClear ops))
    (hB : ∀ x ∈ sinceClear ops, |x| ≤ B) (h : Cumulative.ShapeData F p emin u η 64 B K (sinceClear ops).length)
    (hV : 0 < Spec.variance (sinceClear ops))
    (hcond : (160 * (sinceClear ops).length + 3200) * (u * condition B (sinceClear ops) ^ 3) ≤ 1)
    (hη0 : η ≤ u) (hη1 : η ≤ u * √(Spec.variance (sinceClear ops))) (hη3 : η ≤ u * √(Spec.variance (sinceClear ops)) ^ 3)
    (hK3 : 8 * ((sinceClear ops).length * √((sinceClear ops).length : ℝ) * B ^ 3) ≤ K) (hKκ : 4 * condition B (sinceClear ops) ≤ K)
    (hcut : F.eps + (sinceClear ops).length * (63 * (sinceClear ops).length + 1600) * (u * B ^ 3) ≤ Spec.central 3 (sinceClear ops))
    {S T : ℝ} (hS : (Skewness.run (finOps ops) : Skewness 64 (X F)).super.sumVariance = X.fin S)
    (hT : (Skewness.run (finOps ops) : Skewness 64 (X F)).sumSkewness = X.fin T) (hS1 : 1 ≤ S) (hS2 : S ≤ 2 ^ 20) (hT1 : 1 ≤ T)
    (hT2 : T ≤ 2 ^ 20) (hn1 : 1 ≤ (Skewness.run (finOps ops) : Skewness 64 (X F)).size.toNat)
    (hn2 : (Skewness.run (finOps ops) : Skewness 64 (X F)).size.toNat ≤ 2 ^ 20) :
    ∃ r : ℝ, (Skewness.run (finOps ops) : Skewness 64 (X F)).skewnessIn D W = X.fin r
      ∧ |r - Spec.skewness (sinceClear ops)| ≤ (92 * (sinceClear ops).length + 2180) * (u * condition B (sinceClear ops) ^ 3) := by
  obtain ⟨a, a1, a2⟩ := C143_skewness_error (w := 64) hF hE ops hd hB h hV hcond hη0 hη1 hη3 hK3 hKκ hcut
  obtain ⟨b, b1, b2⟩ := h1 ops S T hS hT hS1 hS2 hT1 hT2 hn1 hn2
  obtain ⟨r, r1, r2⟩ := h2 ops S T hS hT hS1 hS2 hT1 hT2 hn1 hn2
  have hab : b = a := by
    have := (C153_same_type (w := 64) hF (finOps ops)).1
    rw [b1, a1] at this
    exact X.fin_inj.1 this
  rw [hab] at b2
  refine ⟨r, r1, ?_⟩
  have hκ := (condition_facts h.B_nonneg hB hV).2.2.2.1
  have hsk := abs_skewness_le h.B_nonneg hB hV
  have hu0 := hE.u_nonneg
  set κ := condition B (sinceClear ops)
  set Q := quotientOf (Skewness.run (finOps ops) : Skewness 64 (X F)).size.toNat S T
  have hQ : 0 ≤ Q := by
    have : (0 : ℝ) ≤ √S * S := mul_nonneg (Real.sqrt_nonneg _) (by linarith)
    exact div_nonneg (mul_nonneg (Real.sqrt_nonneg _) (by linarith)) this
  have hκ3 : κ ≤ κ ^ 3 := by
    have : 1 ≤ κ ^ 2 := one_le_pow₀ hκ
    have := mul_le_mul_of_nonneg_left this (show 0 ≤ κ by linarith)
    linarith
  have hn0 : (0 : ℝ) ≤ (sinceClear ops).length := Nat.cast_nonneg _
  have huκ : 0 ≤ u * κ ^ 3 := by positivity
  have hnu : 0 ≤ (sinceClear ops).length * (u * κ ^ 3) := by positivity
  have huκ1 : u * κ ≤ u * κ ^ 3 := mul_le_mul_of_nonneg_left hκ3 hu0
  have hu1 : u * 1 ≤ u * κ := mul_le_mul_of_nonneg_left hκ hu0
  have hus : 3200 * u ≤ 1 := by linarith
  have hQu : 15 * u * Q ≤ 1 / 2 * Q := mul_le_mul_of_nonneg_right (by linarith) hQ
  have hQ6 : Q ≤ 6 * κ := by
    have c1 := abs_add_le (Q - a) (a - Spec.skewness (sinceClear ops))
    have c2 := abs_add_le (Q - a + (a - Spec.skewness (sinceClear ops))) (Spec.skewness (sinceClear ops))
    rw [abs_sub_comm Q a] at c1
    have c3 : Q - a + (a - Spec.skewness (sinceClear ops)) + Spec.skewness (sinceClear ops) = Q := by ring
    rw [c3, abs_of_nonneg hQ] at c2
    linarith
  have hra := abs_add_le (r - Q) (Q - a)
  rw [sub_add_sub_cancel, abs_sub_comm Q a] at hra
  have hrs := abs_add_le (r - a) (a - Spec.skewness (sinceClear ops))
  rw [sub_add_sub_cancel] at hrs
  have := mul_le_mul_of_nonneg_left hQ6 hu0
  linarith

/-- No number with 53 digits is close to the square root of 3. -/
theorem sqrt_three_far {x : ℝ} (hx : IsRep 53 dmin x) (h1 : 1 ≤ x) : 9 / 20 / 2 ^ 52 ≤ |x - √3| := by
  obtain ⟨m, e, rfl, hm, he⟩ := hx
  have he52 : -52 ≤ e := by
    by_contra h
    have h2 : (2 : ℝ) ^ e ≤ 2 ^ (-53 : Int) := zpow_le_zpow_right₀ (by norm_num) (by omega)
    have h3 : (m : ℝ) < 2 ^ 53 := by exact_mod_cast (le_abs_self m).trans_lt hm
    have h4 : (m : ℝ) * 2 ^ e < 1 := by
      rcases le_or_gt (m : ℝ) 0 with h0 | h0
      · have : (m : ℝ) * 2 ^ e ≤ 0 := mul_nonpos_of_nonpos_of_nonneg h0 (by positivity)
        linarith
      · have : (m : ℝ) * 2 ^ e ≤ m * 2 ^ (-53 : Int) := mul_le_mul_of_nonneg_left h2 h0.le
        have h5 : (2 : ℝ) ^ (-53 : Int) = 1 / 2 ^ 53 := by norm_num
        rw [h5] at this
        have : (m : ℝ) * (1 / 2 ^ 53) < 1 := by
          rw [mul_one_div, div_lt_one (by positivity)]; exact h3
        linarith
    linarith
  obtain ⟨j, hj⟩ : ∃ j : Nat, e = -52 + j := ⟨(e + 52).toNat, by omega⟩
  obtain ⟨M, hM⟩ : ∃ M : Int, (m : ℝ) * 2 ^ e = M / 2 ^ 52 := by
    refine ⟨m * 2 ^ j, ?_⟩
    rw [hj, zpow_add₀ (by norm_num), zpow_natCast]
    have : (2 : ℝ) ^ (-52 : Int) = 1 / 2 ^ 52 := by norm_num
    rw [this]
    push_cast
    ring
  rw [hM]
  rcases le_or_gt M 7800463371553962 with h | h
  · have h' : (M : ℝ) ≤ 7800463371553962 := by exact_mod_cast h
    have hs : (7800463371553962 + 9 / 20) / 2 ^ 52 ≤ √(3 : ℝ) := by
      rw [Real.le_sqrt' (by positivity)]; norm_num
    rw [abs_sub_comm]
    refine le_trans ?_ (le_abs_self _)
    have : (M : ℝ) / 2 ^ 52 ≤ 7800463371553962 / 2 ^ 52 := div_le_div_of_nonneg_right h' (by positivity)
    linarith
  · have h' : (7800463371553963 : ℝ) ≤ M := by exact_mod_cast h
    have hs : √(3 : ℝ) ≤ (7800463371553963 - 9 / 20) / 2 ^ 52 := by
      rw [Real.sqrt_le_iff]; norm_num
    refine le_trans ?_ (le_abs_self _)
    have : 7800463371553963 / 2 ^ 52 ≤ (M : ℝ) / 2 ^ 52 := div_le_div_of_nonneg_right h' (by positivity)
    linarith

/-- The sums of 0, 0, 3. -/
theorem sums_of_three (hF : F.Binary p emin) (hp : 4 ≤ p) (hfit : F.fits (2 ^ 64)) :
    let s : Skewness 64 (X F) := Skewness.run (finOps [.push 0, .push 0, .push 3])
    s.super.sumVariance = X.fin 6 ∧ s.sumSkewness = X.fin 6 ∧ s.size = 3 := by
  have hi : ∀ k : Nat, k ≤ 16 → (X.round (k : ℝ) : X F) = X.fin k := by
    intro k hk
    rw [← X.ofNat_eq]
    refine hF.ofNat_fin (hk.trans (Nat.pow_le_pow_right (n := 2) (by norm_num) hp)) (hF.fits_abs _ _ ?_ hfit)
    rw [abs_of_nonneg (Nat.cast_nonneg k), abs_of_nonneg (by positivity : (0 : ℝ) ≤ 2 ^ 64)]
    have : (k : ℝ) ≤ 16 := by exact_mod_cast hk
    exact this.trans (by norm_num)
  have h0 : (X.round 0 : X F) = X.fin 0 := by simpa using hi 0 (by norm_num)
  have h1 : (X.round 1 : X F) = X.fin 1 := by simpa using hi 1 (by norm_num)
  have h2 : (X.round 2 : X F) = X.fin 2 := by simpa using hi 2 (by norm_num)
  have h3 : (X.round 3 : X F) = X.fin 3 := by simpa using hi 3 (by norm_num)
  have h6 : (X.round 6 : X F) = X.fin 6 := by simpa using hi 6 (by norm_num)
  have hwrap : ∃ z, (X.round (18446744073709551615 : ℝ) : X F) = X.fin z := by
    refine ⟨_, (hF.round_le (K := 2 ^ 64) (isRep_two_pow (by omega) hF.emin_le) hfit ?_).1⟩
    rw [abs_of_nonneg (by norm_num)]; norm_num
  obtain ⟨z, hz⟩ := hwrap
  have o0 : (ofNat 0 : X F) = X.fin 0 := by rw [X.ofNat_eq, Nat.cast_zero, h0]
  have o3 : (ofNat 3 : X F) = X.fin 3 := by rw [X.ofNat_eq]; simpa using h3
  have s0 : (ofSize (0 : SizeT 64) : X F) = X.fin 0 := o0
  have s1 : (ofSize (1 : SizeT 64) : X F) = X.fin 1 := by show (ofNat 1 : X F) = _; rw [X.ofNat_eq, Nat.cast_one, h1]
  have s2 : (ofSize (2 : SizeT 64) : X F) = X.fin 2 := by show (ofNat 2 : X F) = _; rw [X.ofNat_eq]; simpa using h2
  have s3 : (ofSize (3 : SizeT 64) : X F) = X.fin 3 := o3
  have sw : (ofSize (1 - 2 : SizeT 64) : X F) = X.fin z := by
    show (ofNat 18446744073709551615 : X F) = _; rw [X.ofNat_eq]; simpa using hz
  have e1 : (Skewness.push Skewness.init (X.fin 0) : Skewness 64 (X F))
      = { super := { super := { mean := X.fin 0, count := 1 }, sumVariance := X.fin 0 }, sumSkewness := X.fin 0 } := by
    unfold Skewness.push Variance.push Mean.push Skewness.init Variance.init Mean.init Skewness.size Variance.size Mean.size Variance.getMean
      Mean.getMean
    have c1 : (0 + 1 : SizeT 64) = 1 := rfl
    have c2 : (1 - 1 : SizeT 64) = 0 := rfl
    simp only [c1, c2, o0, o3, s0, s1, sw, X.sub_fin, X.mul_fin, X.add_fin, X.div_fin_of_ne _ one_ne_zero, sub_zero, mul_zero, zero_mul, zero_div,
      add_zero, h0]
  have e2 : (Skewness.push { super := { super := { mean := X.fin 0, count := 1 }, sumVariance := X.fin 0 }, sumSkewness := X.fin 0 } (X.fin 0) :
      Skewness 64 (X F)) = { super := { super := { mean := X.fin 0, count := 2 }, sumVariance := X.fin 0 }, sumSkewness := X.fin 0 } := by
    unfold Skewness.push Variance.push Mean.push Skewness.size Variance.size Mean.size Variance.getMean Mean.getMean
    have c1 : (1 + 1 : SizeT 64) = 2 := rfl
    have c2 : (2 - 1 : SizeT 64) = 1 := rfl
    have c3 : (2 - 2 : SizeT 64) = 0 := rfl
    simp only [c1, c2, c3, o3, s0, s1, s2, X.sub_fin, X.mul_fin, X.add_fin, X.div_fin_of_ne _ two_ne_zero, sub_zero, mul_zero, zero_mul, zero_div,
      add_zero, h0]
  have e3 : (Skewness.push { super := { super := { mean := X.fin 0, count := 2 }, sumVariance := X.fin 0 }, sumSkewness := X.fin 0 } (X.fin 3) :
      Skewness 64 (X F)) = { super := { super := { mean := X.fin 1, count := 3 }, sumVariance := X.fin 6 }, sumSkewness := X.fin 6 } := by
    unfold Skewness.push Variance.push Mean.push Skewness.size Variance.size Mean.size Variance.getMean Mean.getMean
    have c1 : (2 + 1 : SizeT 64) = 3 := rfl
    have c2 : (3 - 1 : SizeT 64) = 2 := rfl
    have c3 : (3 - 2 : SizeT 64) = 1 := rfl
    have d3 : (3 : ℝ) - 1 = 2 := by norm_num
    have d6 : (3 : ℝ) * 2 = 6 := by norm_num
    simp only [c1, c2, c3, o3, s1, s2, s3, X.sub_fin, X.mul_fin, X.add_fin, X.div_fin_of_ne _ three_ne_zero, div_self (three_ne_zero (α := ℝ)), sub_zero,
      mul_zero, mul_one, zero_add, h0, h1, h2, h3, h6, d3, d6]
  intro s
  have : s = { super := { super := { mean := X.fin 1, count := 3 }, sumVariance := X.fin 6 }, sumSkewness := X.fin 6 } := by
    show Skewness.push (Skewness.push (Skewness.push Skewness.init (X.fin 0)) (X.fin 0)) (X.fin 3) = _
    rw [e1, e2, e3]
  rw [this]
  exact ⟨rfl, rfl, rfl⟩

/-- C153 is violated in value types wider than `double`: the square root of the count has 53 digits only.  With the values 0, 0, 3
the error is about `2^-54`, whatever the unit `u` of the value type. -/
theorem C153_long_double_violated (hF : F.Binary p emin) (hE : F.Err u η) (hD : D.Binary 53 dmin) (hDF : F.Wider D p emin 53 dmin)
    (hu : 2 ^ 60 * u ≤ 1) (hη : η ≤ u / 64) (heps : F.eps ≤ 1) (hfit : F.fits (2 ^ 64)) (hfitD : D.fits 4) : ¬ C153_Statement F D F u := by
  intro h
  have hp : 53 ≤ p := hDF.digits
  obtain ⟨hS, hT, hn⟩ := sums_of_three hF (by omega) hfit
  obtain ⟨r, r1, r2⟩ := h [.push 0, .push 0, .push 3] 6 6 hS hT (by norm_num) (by norm_num) (by norm_num) (by norm_num)
    (by rw [hn]; decide) (by rw [hn]; decide)
  have h3 : (3 : BitVec 64).toNat = 3 := rfl
  rw [hn, h3] at r2
  have hu0 := hE.u_nonneg
  have s3l : 3 / 2 ≤ √(3 : ℝ) := by rw [Real.le_sqrt' (by norm_num)]; norm_num
  have s3u : √(3 : ℝ) ≤ 2 := by rw [Real.sqrt_le_iff]; norm_num
  have s6l : 2 ≤ √(6 : ℝ) := by rw [Real.le_sqrt' (by norm_num)]; norm_num
  have s6u : √(6 : ℝ) ≤ 3 := by rw [Real.sqrt_le_iff]; norm_num
  have rep4 : ∀ n : Nat, IsRep p emin (2 ^ n) := fun n => isRep_two_pow (by omega) hF.emin_le
  have repD : ∀ n : Nat, IsRep 53 dmin (2 ^ n) := fun n => isRep_two_pow (by norm_num) hD.emin_le
  have hd1 : 1 ≤ D.rnd √3 := by
    have := hD.mono (show (1 : ℝ) ≤ √3 by linarith)
    rwa [hD.exact 1 (by simpa using repD 0)] at this
  have hd2 : D.rnd √3 ≤ 2 := by
    have := hD.mono s3u
    rwa [hD.exact 2 (by simpa using repD 1)] at this
  have far := sqrt_three_far (hD.rep √3) hd1
  have hfD : D.fits (D.rnd √3) := hD.fits_abs _ _ (by rw [abs_of_nonneg (by linarith), abs_of_nonneg (by norm_num)]; linarith) hfitD
  have hround : (X.round √3 : X D) = X.fin (D.rnd √3) := by unfold X.round; rw [if_pos hfD]
  have hq : ∀ d : ℝ, d * 6 / (√6 * 6) = d / √6 := by
    intro d; field_simp
  have hql : 1 / 3 ≤ D.rnd √3 / √6 := by rw [le_div_iff₀ (by linarith)]; linarith
  have hqu : D.rnd √3 / √6 ≤ 1 := by rw [div_le_iff₀ (by linarith)]; linarith
  have m1 := mul_le_mul_of_nonneg_left hql hu0
  have m2 := mul_le_mul_of_nonneg_left s6l hu0
  have hd0 : 0 < D.rnd √3 := by linarith
  have m3 := mul_le_mul_of_nonneg_left hd1 hu0
  obtain ⟨r', a1, -, -, a4⟩ := mixed_quotient (d := D.rnd √3) (T := 6) (S := 6) hF hE hF hE (Fmt.Wider.refl F p emin) (by linarith) (by linarith)
    (rep4 64) hfit (rep4 64) hfit hd0 (by norm_num) (by norm_num) (by linarith) (by linarith) (by rw [hq]; linarith) (by linarith)
    (by rw [hq]; linarith) (by norm_num; linarith) (by norm_num; linarith) (by rw [hq]; norm_num; linarith) (by norm_num; linarith)
    (by rw [hq]; norm_num; linarith)
  have hr : r = r' := by
    have : (Skewness.run (finOps [.push 0, .push 0, .push 3]) : Skewness 64 (X F)).skewnessIn D F = X.fin r' := by
      unfold Skewness.skewnessIn
      have hD3 : (ofNat 3 : X D) = X.fin 3 := by
        have := hD.ofNat_fin (n := 3) (by norm_num) (hD.fits_abs _ 4 (by
          rw [abs_of_nonneg (by positivity), abs_of_nonneg (by norm_num)]; norm_num) hfitD)
        simpa using this
      have h6r : IsRep p emin 6 := by
        refine ⟨3, 1, by norm_num, ?_, by have := hF.emin_le; omega⟩
        have : (2 : Int) ^ 2 ≤ 2 ^ p := pow_le_pow_right₀ (by norm_num) (by omega)
        rw [abs_of_pos (by norm_num)]; omega
      have h6f : F.fits 6 := hF.fits_abs _ _ (by
        rw [abs_of_nonneg (by norm_num), abs_of_nonneg (by positivity)]; norm_num) hfit
      rw [hS, hT, hn, X.eps_eq, X.lt_fin, decide_eq_false (by linarith), ofSize, h3, hD3, X.sqrt_fin_of_nonneg (by norm_num), hround,
        hDF.conv_fin hF (hD.rep _) hfD, (Fmt.Wider.refl F p emin).conv_fin hF h6r h6f]
      exact a1
    have h' := r1.symm.trans this
    exact X.fin_inj.1 h'
  rw [hr] at r2
  unfold quotientOf at r2
  unfold Rel at a4
  push_cast at r2
  rw [hq] at r2 a4
  have h6 : 0 < √(6 : ℝ) := by linarith
  have b1 : |D.rnd √3 / √6 - √3 / √6| ≤ 15 * u * (√3 / √6) + (7 * u + 5 * u) * (D.rnd √3 / √6) := by
    have := abs_add_le (D.rnd √3 / √6 - r') (r' - √3 / √6)
    rw [sub_add_sub_cancel, abs_sub_comm (D.rnd √3 / √6) r'] at this
    linarith
  have b2 : |D.rnd √3 - √3| ≤ 15 * u * √3 + 12 * u * D.rnd √3 := by
    have e : D.rnd √3 / √6 - √3 / √6 = (D.rnd √3 - √3) / √6 := by ring
    rw [e, abs_div, abs_of_pos h6, div_le_iff₀ h6] at b1
    refine b1.trans (le_of_eq ?_)
    field_simp
    ring
  have c1 := mul_le_mul_of_nonneg_left s3u hu0
  have c2 := mul_le_mul_of_nonneg_left hd2 hu0
  norm_num at hu far
  linarith

/-- In both kinds of `long double`. -/
theorem C153_violated :
    ¬ C153_Statement extended80 binary64 extended80 (2 ^ (-64 : Int)) ∧ ¬ C153_Statement binary128 binary64 binary128 (2 ^ (-113 : Int)) := by
  have f4 : binary64.fits 4 := by
    have := ieee_fits_two_pow 53 (-1074) (emax := 1024) (n := 2) (by norm_num)
    norm_num at this; exact this
  constructor
  · have hE := Fmt.ieee_err (p := 64) (emin := -16445) (by norm_num) 16384
    refine C153_long_double_violated (p := 64) (emin := -16445) (ieee_binary (by norm_num) (by norm_num) (by norm_num)) hE binary64_binary
      ⟨by norm_num, by norm_num, fun r h => lt_trans h (zpow_lt_zpow_right₀ (by norm_num) (by norm_num))⟩ (by norm_num) ?_ ?_
      (ieee_fits_two_pow _ _ (by norm_num)) f4
    · have : (2 : ℝ) ^ (-16445 - 1 : Int) ≤ 2 ^ (-70 : Int) := zpow_le_zpow_right₀ (by norm_num) (by norm_num)
      refine this.trans (by norm_num)
    · show (2 : ℝ) ^ _ ≤ 1
      exact zpow_le_one_of_nonpos₀ (by norm_num) (by norm_num)
  · have hE := Fmt.ieee_err (p := 113) (emin := -16494) (by norm_num) 16384
    refine C153_long_double_violated (p := 113) (emin := -16494) (ieee_binary (by norm_num) (by norm_num) (by norm_num)) hE binary64_binary
      ⟨by norm_num, by norm_num, fun r h => lt_trans h (zpow_lt_zpow_right₀ (by norm_num) (by norm_num))⟩ (by norm_num) ?_ ?_
      (ieee_fits_two_pow _ _ (by norm_num)) f4
    · have : (2 : ℝ) ^ (-16494 - 1 : Int) ≤ 2 ^ (-119 : Int) := zpow_le_zpow_right₀ (by norm_num) (by norm_num)
      refine this.trans (by norm_num)
    · show (2 : ℝ) ^ _ ≤ 1
      exact zpow_le_one_of_nonpos₀ (by norm_num) (by norm_num)

/-- `float`, 0, 0, 3: the result is within 15 units. -/
example : ∃ r, (Skewness.run (finOps [.push 0, .push 0, .push 3]) : Skewness 64 (X binary32)).skewnessIn binary64 binary64 = X.fin r
    ∧ |r - quotientOf 3 6 6| ≤ 15 * 2 ^ (-24 : Int) * quotientOf 3 6 6 := by
  obtain ⟨hS, hT, hn⟩ := sums_of_three (F := binary32) binary32_binary (by norm_num) (ieee_fits_two_pow _ _ (by norm_num))
  obtain ⟨r, r1, r2⟩ := C153_float_double_partial.1 [.push 0, .push 0, .push 3] 6 6 hS hT (by norm_num) (by norm_num) (by norm_num) (by norm_num)
    (by rw [hn]; decide) (by rw [hn]; decide)
  rw [hn] at r2
  exact ⟨r, r1, r2⟩

end Verif.Props
