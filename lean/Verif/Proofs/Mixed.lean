import Verif.Model.Mixed
import Verif.Proofs.WindowRounded
/-
Conversions between formats, and relative errors.
-/
namespace Verif
open Scalar

variable {F G : Fmt} {p q : Nat} {emin gmin : Int} {u η : ℝ}

/-- Every number of `F` is a number of `G`. -/
structure Fmt.Wider (G F : Fmt) (q : Nat) (gmin : Int) (p : Nat) (emin : Int) : Prop where
  digits : p ≤ q
  emin_le : gmin ≤ emin
  fits : ∀ r, F.fits r → G.fits r

theorem Fmt.Wider.refl (F : Fmt) (p : Nat) (emin : Int) : F.Wider F p emin p emin := ⟨le_refl _, le_refl _, fun _ h => h⟩

theorem Fmt.Wider.rep (h : G.Wider F q gmin p emin) {r : ℝ} (hr : IsRep p emin r) : IsRep q gmin r := by
  obtain ⟨m, e, h1, h2, h3⟩ := hr
  exact ⟨m, e, h1, h2.trans_le (pow_le_pow_right₀ (by norm_num) h.digits), h.emin_le.trans h3⟩

theorem Fmt.Wider.conv_fin (h : G.Wider F q gmin p emin) (hG : G.Binary q gmin) {r : ℝ} (hr : IsRep p emin r) (hf : F.fits r) :
    X.conv G (X.fin r : X F) = X.fin r := by
  unfold X.conv
  exact hG.round_exact (h.rep hr) (h.fits _ hf)

/-- A value that an operation of the format can return. -/
def X.Number (p : Nat) (emin : Int) : X F → Prop
  | X.fin r => IsRep p emin r ∧ F.fits r
  | _ => True

theorem X.number_round (hF : F.Binary p emin) (r : ℝ) : X.Number p emin (X.round r : X F) := by
  unfold X.round
  by_cases h : F.fits (F.rnd r)
  · rw [if_pos h]; exact ⟨hF.rep r, h⟩
  · rw [if_neg h]; split <;> trivial

theorem X.number_add (hF : F.Binary p emin) (a b : X F) : X.Number p emin (a + b) := by
  cases a <;> cases b <;> first | exact X.number_round hF _ | trivial

theorem X.number_signedInf (r : ℝ) : X.Number p emin (X.signedInf r : X F) := by
  unfold X.signedInf; split; · trivial
  split <;> trivial

theorem X.number_mul (hF : F.Binary p emin) (a b : X F) : X.Number p emin (a * b) := by
  cases a <;> cases b <;> first | exact X.number_round hF _ | exact X.number_signedInf _ | trivial

theorem X.number_div (hF : F.Binary p emin) (a b : X F) : X.Number p emin (a / b) := by
  cases a with
  | fin a =>
    cases b with
    | fin b =>
      rw [X.div_fin]; split
      · exact X.number_signedInf _
      · exact X.number_round hF _
    | nan => trivial
    | pinf => exact ⟨isRep_zero _ _, hF.fits_zero⟩
    | ninf => exact ⟨isRep_zero _ _, hF.fits_zero⟩
  | pinf =>
    cases b with
    | fin b => show X.Number p emin (if b < 0 then X.ninf else X.pinf : X F); split <;> trivial
    | nan => trivial
    | pinf => trivial
    | ninf => trivial
  | ninf =>
    cases b with
    | fin b => show X.Number p emin (if b < 0 then X.pinf else X.ninf : X F); split <;> trivial
    | nan => trivial
    | pinf => trivial
    | ninf => trivial
  | nan => cases b <;> trivial

theorem X.number_sqrt (hF : F.Binary p emin) (a : X F) : X.Number p emin (Scalar.sqrt a) := by
  cases a with
  | fin a => rw [X.sqrt_fin]; split; · trivial
             · exact X.number_round hF _
  | _ => trivial

theorem X.conv_self (hF : F.Binary p emin) {x : X F} (h : X.Number p emin x) : X.conv F x = x := by
  cases x with
  | fin r => exact hF.round_exact h.1 h.2
  | _ => rfl

/-! ### Relative errors -/

/-- `x` is `y` with relative error `e`. -/
def Rel (x y e : ℝ) : Prop := |x - y| ≤ e * y

theorem Rel.self (y : ℝ) : Rel y y 0 := by simp [Rel]

theorem Rel.mono {x y e f : ℝ} (h : Rel x y e) (hy : 0 < y) (hf : e ≤ f) : Rel x y f :=
  le_trans h (mul_le_mul_of_nonneg_right hf hy.le)

theorem Rel.nonneg {x y e : ℝ} (h : Rel x y e) (hy : 0 < y) : 0 ≤ e :=
  nonneg_of_mul_nonneg_left ((abs_nonneg _).trans h) hy

theorem Rel.abs_le {x y e : ℝ} (h : Rel x y e) (hy : 0 < y) : |x| ≤ (1 + e) * y := by
  have := abs_add_le (x - y) y
  rw [sub_add_cancel, abs_of_pos hy] at this
  unfold Rel at h
  linarith

theorem Rel.pos {x y e : ℝ} (h : Rel x y e) (hy : 0 < y) (he : e < 1) : 0 < x := by
  have h1 := (_root_.abs_le.1 h).1
  have := mul_lt_mul_of_pos_right he hy
  linarith

theorem Rel.mul {x y e x' y' e' : ℝ} (h : Rel x y e) (h' : Rel x' y' e') (hy : 0 < y) (hy' : 0 < y') :
    Rel (x * x') (y * y') (e + e' + e * e') := by
  have e0 : x * x' - y * y' = (x - y) * x' + y * (x' - y') := by ring
  unfold Rel
  rw [e0]
  refine (abs_add_le _ _).trans ?_
  rw [abs_mul, abs_mul, abs_of_pos hy]
  have i1 := mul_le_mul h (h'.abs_le hy') (abs_nonneg _) ((abs_nonneg _).trans h)
  have i2 := mul_le_mul_of_nonneg_left h' hy.le
  linarith

theorem Rel.div {x y e x' y' e' : ℝ} (h : Rel x y e) (h' : Rel x' y' e') (hy : 0 < y) (hy' : 0 < y') (he : e' < 1) :
    Rel (x / x') (y / y') ((e + e') / (1 - e')) := by
  have hx' := h'.pos hy' he
  have h1 := (_root_.abs_le.1 h').1
  have hlow : (1 - e') * y' ≤ x' := by linarith
  have e0 : x / x' - y / y' = ((x - y) - y / y' * (x' - y')) / x' := by field_simp; ring
  have he0 := h.nonneg hy
  have he0' := h'.nonneg hy'
  have h1e : 0 < 1 - e' := by linarith
  unfold Rel
  rw [e0, abs_div, abs_of_pos hx', div_le_iff₀ hx']
  have i1 : |y / y' * (x' - y')| ≤ y / y' * (e' * y') := by
    rw [abs_mul, abs_of_pos (div_pos hy hy')]
    exact mul_le_mul_of_nonneg_left h' (div_pos hy hy').le
  have i2 := abs_sub (x - y) (y / y' * (x' - y'))
  have i3 : (e + e') / (1 - e') * (y / y') * ((1 - e') * y') ≤ (e + e') / (1 - e') * (y / y') * x' :=
    mul_le_mul_of_nonneg_left hlow (by positivity)
  have i4 : (e + e') / (1 - e') * (y / y') * ((1 - e') * y') = (e + e') * y := by field_simp
  have i5 : y / y' * (e' * y') = e' * y := by field_simp
  unfold Rel at h
  linarith

/-- Rounding adds two units. -/
theorem Rel.round (hF : F.Binary p emin) (hE : F.Err u η) {K x y e : ℝ} (hK : IsRep p emin K) (hKf : F.fits K) (h : Rel x y e) (hy : 0 < y)
    (hη : η ≤ u * y) (hyK : (1 + e) * y ≤ K) : (X.round x : X F) = X.fin (F.rnd x) ∧ F.fits (F.rnd x) ∧ Rel (F.rnd x) y (e + 2 * u * (1 + e)) := by
  have hx := h.abs_le hy
  have he := h.nonneg hy
  have hfit : F.fits (F.rnd x) := hF.fits_abs _ _ ((hF.round_le hK hKf (hx.trans hyK)).2.trans (le_abs_self K)) hKf
  refine ⟨by unfold X.round; rw [if_pos hfit], hfit, ?_⟩
  have h1 := hE.err x
  have h2 := mul_le_mul_of_nonneg_left hx hE.u_nonneg
  have h3 := abs_add_le (F.rnd x - x) (x - y)
  rw [sub_add_sub_cancel] at h3
  have : 0 ≤ u * e * y := mul_nonneg (mul_nonneg hE.u_nonneg he) hy.le
  unfold Rel at h ⊢
  linarith

/-- The quotient of cumulative/detail/moment.ipp:110 with `d` for the square root of the count. -/
theorem mixed_quotient {W : Fmt} {v ζ : ℝ} (hF : F.Binary p emin) (hE : F.Err u η) (hW : W.Binary q gmin) (hEW : W.Err v ζ)
    (hFW : W.Wider F q gmin p emin) (hu : 64 * u ≤ 1) (hv : 64 * v ≤ 1) {K L d T S : ℝ} (hK : IsRep p emin K) (hKf : F.fits K)
    (hL : IsRep q gmin L) (hLf : W.fits L) (hd : 0 < d) (hT : 0 < T) (hS : 0 < S)
    (hη1 : η ≤ u * √S) (hη2 : η ≤ u * (√S * S)) (hη3 : η ≤ u * (d * T / (√S * S)))
    (hζ1 : ζ ≤ v * (d * T)) (hζ2 : ζ ≤ v * (d * T / (√S * S)))
    (hK1 : 2 * √S ≤ K) (hK2 : 2 * (√S * S) ≤ K) (hK3 : 2 * (d * T / (√S * S)) ≤ K) (hL1 : 2 * (d * T) ≤ L)
    (hL2 : 2 * (d * T / (√S * S)) ≤ L) :
    ∃ r, X.conv F (X.fin d * X.fin T / X.conv W (Scalar.sqrt (X.fin S : X F) * X.fin S) : X W) = X.fin r
      ∧ IsRep p emin r ∧ F.fits r ∧ Rel r (d * T / (√S * S)) (7 * u + 5 * v) := by
  have hu0 := hE.u_nonneg
  have hv0 := hEW.u_nonneg
  have hσ := Real.sqrt_pos.2 hS
  have hP0 : 0 < √S * S := by positivity
  have hdT : 0 < d * T := by positivity
  have hQ : 0 < d * T / (√S * S) := by positivity
  have huu : u * u ≤ 1 / 64 * u := mul_le_mul_of_nonneg_right (by linarith) hu0
  have hvv : v * v ≤ 1 / 64 * v := mul_le_mul_of_nonneg_right (by linarith) hv0
  have huv : u * v ≤ 1 / 64 * v := mul_le_mul_of_nonneg_right (by linarith) hv0
  have huv0 : 0 ≤ u * v := mul_nonneg hu0 hv0
  have huu0 : 0 ≤ u * u := mul_nonneg hu0 hu0
  obtain ⟨s1, -, s3⟩ := (Rel.self √S).round hF hE hK hKf hσ hη1 (by linarith)
  have t1 := (s3.mul (Rel.self S) hσ hS).mono (f := 2 * u) (mul_pos hσ hS) (by linarith)
  obtain ⟨p1, p2, p3⟩ := t1.round hF hE hK hKf hP0 hη2 (by
    have := mul_le_mul_of_nonneg_right (show 1 + 2 * u ≤ 2 by linarith) hP0.le
    linarith)
  have p3' := p3.mono (f := 41 / 10 * u) hP0 (by linarith)
  obtain ⟨m1, -, m3⟩ := (Rel.self (d * T)).round hW hEW hL hLf hdT hζ1 (by linarith)
  have hP := p3'.pos hP0 (by linarith)
  have q0 := m3.div p3' hdT hP0 (by linarith)
  have q1 : Rel (W.rnd (d * T) / F.rnd (F.rnd √S * S)) (d * T / (√S * S)) (9 / 4 * v + 22 / 5 * u) := by
    refine q0.mono hQ ?_
    rw [div_le_iff₀ (by linarith)]
    linarith
  obtain ⟨r1, r2, r3⟩ := q1.round hW hEW hL hLf hQ hζ2 (by
    have := mul_le_mul_of_nonneg_right (show 1 + (9 / 4 * v + 22 / 5 * u) ≤ 2 by linarith) hQ.le
    linarith)
  have r3' := r3.mono (f := 23 / 5 * v + 9 / 2 * u) hQ (by linarith)
  obtain ⟨z1, z2, z3⟩ := r3'.round hF hE hK hKf hQ hη3 (by
    have := mul_le_mul_of_nonneg_right (show 1 + (23 / 5 * v + 9 / 2 * u) ≤ 2 by linarith) hQ.le
    linarith)
  refine ⟨_, ?_, hF.rep _, z2, z3.mono hQ (by linarith)⟩
  rw [X.sqrt_fin_of_nonneg hS.le, s1, X.mul_fin, X.mul_fin, p1, m1, hFW.conv_fin hW (hF.rep _) p2, X.div_fin_of_ne _ hP.ne', r1]
  exact z1

end Verif
