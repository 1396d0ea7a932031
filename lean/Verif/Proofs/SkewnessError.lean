import Verif.Proofs.CovarianceError
import Verif.Props.CovarianceRounded
/-
Forward error bound of the sums of the cumulative skewness and kurtosis filters.
-/
namespace Verif
open Scalar

variable {F : Fmt} {p : Nat} {emin : Int} {u η : ℝ}

/-- One rounding: the error grows by `u M + u U` where `M` bounds the exact result and `U` the underflow. -/
theorem Fmt.Err.round_step (hF : F.Binary p emin) (hE : F.Err u η) {K : ℝ} (hK : IsRep p emin K) (hKf : F.fits K)
    {r x e M U : ℝ} (h1 : |r - x| ≤ e) (h2 : |r| ≤ M) (hη : η ≤ u * U) (hU : U ≤ M) (hM : M ≤ K) :
    (X.round r : X F) = X.fin (F.rnd r) ∧ |F.rnd r - x| ≤ e + u * M + u * U ∧ |F.rnd r| ≤ 5 / 4 * M := by
  have hu := hE.u_nonneg
  have hM0 := (abs_nonneg r).trans h2
  refine ⟨(hF.round_le hK hKf (h2.trans hM)).1, ?_, ?_⟩
  · have e : F.rnd r - x = (F.rnd r - r) + (r - x) := by ring
    rw [e]
    refine (abs_add_le _ _).trans ?_
    have h3 := hE.err r
    have h4 := mul_le_mul_of_nonneg_left h2 hu
    linarith
  · have h3 := hE.abs_le r
    have h4 := mul_le_mul_of_nonneg_left h2 hu
    have h5 := mul_le_mul_of_nonneg_left hU hu
    have h6 := mul_le_mul_of_nonneg_right hE.u_le hM0
    linarith

theorem abs_mul_sub_le {a b a₀ b₀ ea eb Ma Mb : ℝ} (h1 : |a - a₀| ≤ ea) (h2 : |a| ≤ Ma) (h3 : |b - b₀| ≤ eb) (h4 : |b₀| ≤ Mb) :
    |a * b - a₀ * b₀| ≤ Ma * eb + ea * Mb := by
  have e : a * b - a₀ * b₀ = a * (b - b₀) + (a - a₀) * b₀ := by ring
  rw [e]
  refine (abs_add_le _ _).trans ?_
  rw [abs_mul, abs_mul]
  exact add_le_add (mul_le_mul h2 h3 (abs_nonneg _) ((abs_nonneg _).trans h2)) (mul_le_mul h1 h4 (abs_nonneg _) ((abs_nonneg _).trans h1))

theorem abs_mul_le_of {a b Ma Mb : ℝ} (h1 : |a| ≤ Ma) (h2 : |b| ≤ Mb) : |a * b| ≤ Ma * Mb := by
  rw [abs_mul]; exact mul_le_mul h1 h2 (abs_nonneg _) ((abs_nonneg _).trans h1)

namespace Spec

theorem abs_dev_le {B : ℝ} (hB0 : 0 ≤ B) (xs : List ℝ) (hB : ∀ x ∈ xs, |x| ≤ B) (x : ℝ) (hx : x ∈ xs) : |x - mean xs| ≤ 2 * B := by
  have h := Window.abs_mean_le hB0 hB
  have := hB x hx
  exact (abs_sub _ _).trans (by linarith)

/-- The third central sum is at most `2 B` times the second. -/
theorem abs_central_three_le {B : ℝ} (hB0 : 0 ≤ B) (xs : List ℝ) (hB : ∀ x ∈ xs, |x| ≤ B) : |central 3 xs| ≤ 2 * B * central 2 xs := by
  have key : ∀ l : List ℝ, (∀ x ∈ l, |x - mean xs| ≤ 2 * B) → |about 3 (mean xs) l| ≤ 2 * B * about 2 (mean xs) l := by
    intro l
    induction l with
    | nil => intro _; simp
    | cons a l ih =>
      intro h
      rw [about_cons, about_cons]
      have h1 := ih fun x hx => h x (List.mem_cons_of_mem _ hx)
      have h2 := h a (by simp)
      refine (abs_add_le _ _).trans ?_
      have e : |(a - mean xs) ^ 3| = |a - mean xs| * (a - mean xs) ^ 2 := by
        rw [abs_pow, ← sq_abs (a - mean xs)]; ring
      rw [e]
      have := mul_le_mul_of_nonneg_right h2 (sq_nonneg (a - mean xs))
      linarith
  exact key xs (abs_dev_le hB0 xs hB)

/-- The fourth central sum is at most `4 B²` times the second. -/
theorem central_four_le {B : ℝ} (hB0 : 0 ≤ B) (xs : List ℝ) (hB : ∀ x ∈ xs, |x| ≤ B) : central 4 xs ≤ 4 * B ^ 2 * central 2 xs := by
  have key : ∀ l : List ℝ, (∀ x ∈ l, |x - mean xs| ≤ 2 * B) → about 4 (mean xs) l ≤ 4 * B ^ 2 * about 2 (mean xs) l := by
    intro l
    induction l with
    | nil => intro _; simp
    | cons a l ih =>
      intro h
      rw [about_cons, about_cons]
      have h1 := ih fun x hx => h x (List.mem_cons_of_mem _ hx)
      have h2 := abs_le.1 (h a (by simp))
      have h3 : (a - mean xs) ^ 2 ≤ 4 * B ^ 2 := by nlinarith
      have := mul_le_mul_of_nonneg_right h3 (sq_nonneg (a - mean xs))
      nlinarith
  exact key xs (abs_dev_le hB0 xs hB)

end Spec

namespace Cumulative
variable {w : Nat}

theorem Skewness.fold_super {α : Type} [Scalar α] (xs : List α) :
    (xs.foldl Skewness.push (Skewness.init : Skewness w α)).super = xs.foldl Variance.push Variance.init := by
  induction xs using List.reverseRecOn with
  | nil => rfl
  | append_singleton xs x ih =>
    simp only [List.foldl_append, List.foldl_cons, List.foldl_nil, ← ih]; rfl

theorem Kurtosis.fold_super {α : Type} [Scalar α] (xs : List α) :
    (xs.foldl Kurtosis.push (Kurtosis.init : Kurtosis w α)).super = xs.foldl Skewness.push Skewness.init := by
  induction xs using List.reverseRecOn with
  | nil => rfl
  | append_singleton xs x ih =>
    simp only [List.foldl_append, List.foldl_cons, List.foldl_nil, ← ih]; rfl

theorem Variance.fold_super' {α : Type} [Scalar α] (xs : List α) :
    (xs.foldl Variance.push (Variance.init : Variance w α)).super = xs.foldl Mean.push Mean.init := by
  induction xs using List.reverseRecOn with
  | nil => rfl
  | append_singleton xs x ih =>
    simp only [List.foldl_append, List.foldl_cons, List.foldl_nil, ← ih]; rfl

/-- Error of the sum of squares. -/
theorem Variance.rounded_err (hF : F.Binary p emin) (hE : F.Err u η) {B K : ℝ} (hB0 : 0 ≤ B) (hηB : η ≤ u * B) (hηBB : η ≤ u * B ^ 2)
    (hK : IsRep p emin K) (hKf : F.fits K) (xs : List ℝ) (hd : F.Data p emin xs) (hw : xs.length < 2 ^ w) (hp : xs.length ≤ 2 ^ p)
    (hfit : F.fits (xs.length : ℝ)) (hB : ∀ x ∈ xs, |x| ≤ B) (hBK : 8 * xs.length * B ^ 2 ≤ K) (hsmall : (6 * xs.length + 65) * u ≤ 1) :
    ∃ S : ℝ, ((xs.map X.fin).foldl Variance.push (Variance.init : Variance w (X F))).sumVariance = X.fin S
      ∧ |S - Spec.central 2 xs| ≤ xs.length * (6 * xs.length + 65) * (u * B ^ 2) := by
  have hx : Spec.xsOf (xs.map fun x => (x, x)) = xs := by simp [Spec.xsOf, Function.comp_def]
  have hy : Spec.ysOf (xs.map fun x => (x, x)) = xs := by simp [Spec.ysOf, Function.comp_def]
  have hq : ∀ q ∈ xs.map fun x => (x, x), |q.1| ≤ B ∧ |q.2| ≤ B := by
    intro q hq; obtain ⟨x, hx, rfl⟩ := List.mem_map.1 hq; exact ⟨hB x hx, hB x hx⟩
  have e2 : B ^ 2 = B * B := by ring
  rw [e2] at hηBB hBK ⊢
  obtain ⟨S, h1, h2⟩ := Comoment.rounded_err (w := w) hF hE hB0 hB0 hηB hηB hηBB hK hKf (xs.map fun x => (x, x))
    (by rw [hx]; exact hd) (by rw [hy]; exact hd) (by simpa using hw) (by simpa using hp) (by simpa using hfit)
    (fun q h => (hq q h).1) (fun q h => (hq q h).2) (by simpa using hBK) (by simpa using hsmall)
  refine ⟨S, ?_, ?_⟩
  · rw [← h1, ← (Props.comoment_self (w := w) Props.X.mul_comm (xs.map X.fin : List (X F))).2.2, List.map_map, List.map_map]
    rfl
  · rw [Spec.cosum_diag, List.length_map] at h2
    exact h2

/-- Data for the error bounds of skewness and kurtosis: `n` values of size at most `B`, no overflow above `K`, no
underflow. -/
structure ShapeData (F : Fmt) (p : Nat) (emin : Int) (u η : ℝ) (w : Nat) (B K : ℝ) (n : Nat) : Prop where
  B_nonneg : 0 ≤ B
  K_rep : IsRep p emin K
  K_fits : F.fits K
  size : n < 2 ^ w
  digits : n ≤ 2 ^ p
  wrap : F.fits (F.rnd ((2 ^ w - 1 : Nat) : ℝ))
  under1 : n * η ≤ u * B
  under2 : n * η ≤ u * B ^ 2
  under3 : n * η ≤ u * B ^ 3
  over0 : 6 + n ≤ K
  over1 : 4 * B ≤ K
  over2 : 40 * n * B ^ 2 ≤ K
  over3 : 200 * n * B ^ 3 ≤ K
  small : (63 * n + 1600) * u ≤ 1

theorem ShapeData.mono (hE : F.Err u η) {B K : ℝ} {n k : Nat} (h : ShapeData F p emin u η w B K n) (hk : k ≤ n) :
    ShapeData F p emin u η w B K k := by
  have hk' : (k : ℝ) ≤ n := by exact_mod_cast hk
  have hB := h.B_nonneg
  have h1 := mul_le_mul_of_nonneg_right hk' hE.eta_nonneg
  have h2 := mul_le_mul_of_nonneg_right hk' (pow_nonneg hB 2)
  have h3 := mul_le_mul_of_nonneg_right hk' (pow_nonneg hB 3)
  have h4 := mul_le_mul_of_nonneg_right hk' hE.u_nonneg
  have := h.over0; have := h.over2; have := h.over3; have := h.small
  exact ⟨hB, h.K_rep, h.K_fits, hk.trans_lt h.size, hk.trans h.digits, h.wrap, h1.trans h.under1, h1.trans h.under2, h1.trans h.under3,
    by linarith, h.over1, by linarith, by linarith, by linarith⟩

theorem ShapeData.fits (hF : F.Binary p emin) {B K : ℝ} {n k : Nat} (h : ShapeData F p emin u η w B K n) (hk : k ≤ n + 6) :
    F.fits (k : ℝ) := by
  have hk' : (k : ℝ) ≤ n + 6 := by exact_mod_cast hk
  have := h.over0
  have hK : (0:ℝ) ≤ K := by have : (0:ℝ) ≤ n := Nat.cast_nonneg n; linarith
  exact hF.fits_abs _ _ (by rw [abs_of_nonneg (by positivity), abs_of_nonneg hK]; linarith) h.K_fits

/-- The common part of the updates: `d̂ / N` and `d̂ (d̂ / N) (N - 1)`. -/
theorem shape_prefix (hF : F.Binary p emin) (hE : F.Err u η) {B K : ℝ} {n : Nat} (h : ShapeData F p emin u η w B K (n + 1))
    {dh d : ℝ} (h1 : |dh - d| ≤ (2 * n + 12) * (u * B)) (h2 : |dh| ≤ 5 / 2 * B) (h3 : |d| ≤ 2 * B) :
    ∃ q a : ℝ, (X.fin dh / X.fin ((n : ℝ) + 1) : X F) = X.fin q ∧ (X.fin dh * X.fin q * X.fin (n : ℝ) : X F) = X.fin a
      ∧ |q - d / (n + 1)| * (n + 1) ≤ (2 * n + 16) * (u * B) ∧ |q| * (n + 1) ≤ 4 * B ∧ |d / (n + 1)| * (n + 1) ≤ 2 * B
      ∧ |a - d * (d / (n + 1)) * n| ≤ (9 * n + 89) * (u * B ^ 2) ∧ |a| ≤ 17 * B ^ 2 ∧ |d * (d / (n + 1)) * n| ≤ 4 * B ^ 2
      ∧ (n = 0 → a = 0) := by
  have hB := h.B_nonneg
  have hu := hE.u_nonneg
  have hη := hE.eta_nonneg
  have hn0 : (0 : ℝ) ≤ n := Nat.cast_nonneg n
  have hN : (0 : ℝ) < n + 1 := by positivity
  obtain ⟨b, hb⟩ : ∃ b, b = B / (n + 1) := ⟨_, rfl⟩
  have hbB : b * (n + 1) = B := by rw [hb]; field_simp
  have hb0 : 0 ≤ b := by rw [hb]; positivity
  have hbB' : b ≤ B := by rw [hb]; exact div_le_self hB (by linarith)
  have hub := mul_nonneg hu hb0
  have hnub := mul_nonneg hn0 hub
  have hdd : |d / (n + 1)| ≤ 2 * b := by
    rw [abs_div, abs_of_pos hN, div_le_iff₀ hN]; linarith
  have u1 := h.under1
  have u2 := h.under2
  push_cast at u1 u2
  have over1 := h.over1
  have over2 := h.over2
  push_cast at over2
  -- d̂ / N
  have q1 : |dh / (n + 1) - d / (n + 1)| ≤ (2 * n + 12) * (u * b) := by
    rw [← sub_div, abs_div, abs_of_pos hN, div_le_iff₀ hN]
    calc _ ≤ _ := h1
      _ = _ := by rw [← hbB]; ring
  have q2 : |dh / (n + 1)| ≤ 5 / 2 * b := by
    rw [abs_div, abs_of_pos hN, div_le_iff₀ hN]; linarith
  have ηb : η ≤ u * b := by
    have : (n + 1) * η ≤ (n + 1) * (u * b) := by rw [← hbB] at u1; linarith
    exact le_of_mul_le_mul_left this hN
  obtain ⟨rq, q3, q4⟩ := hE.round_step hF h.K_rep h.K_fits q1 q2 ηb (by linarith) (by linarith)
  set q := F.rnd (dh / (n + 1))
  have q3' : |q - d / (n + 1)| ≤ (2 * n + 16) * (u * b) := q3.trans (by linarith)
  have q4' : |q| ≤ 4 * b := by linarith
  -- d̂ (d̂ / N)
  have hBb := mul_nonneg hB hb0
  have huBb := mul_nonneg hu hBb
  have hnuBb := mul_nonneg hn0 huBb
  have hBBb : B * b ≤ B ^ 2 := by nlinarith
  have hBBn : B ^ 2 ≤ (n + 1) * B ^ 2 := by have := mul_nonneg hn0 (sq_nonneg B); linarith
  have a1 := abs_mul_sub_le h1 h2 q3' hdd
  have a2 := abs_mul_le_of h2 q4'
  have a1' : |dh * q - d * (d / (n + 1))| ≤ (9 * n + 64) * (u * (B * b)) := a1.trans (by linarith)
  have a2' : |dh * q| ≤ 10 * (B * b) := a2.trans (by linarith)
  have ηBb : η ≤ u * (B * b) := by
    have : (n + 1) * η ≤ (n + 1) * (u * (B * b)) := by
      calc _ ≤ _ := u2
        _ = u * (B * (b * (n + 1))) := by rw [hbB]; ring
        _ = _ := by ring
    exact le_of_mul_le_mul_left this hN
  obtain ⟨ra, a3, a4⟩ := hE.round_step hF h.K_rep h.K_fits a1' a2' ηBb (by linarith) (by linarith)
  set t := F.rnd (dh * q)
  have a3' : |t - d * (d / (n + 1))| ≤ (9 * n + 75) * (u * (B * b)) := a3.trans (by linarith)
  -- times N - 1
  have hnb : n * b ≤ B := by linarith
  have hnBb : n * (B * b) ≤ B ^ 2 := by have := mul_le_mul_of_nonneg_left hnb hB; nlinarith
  have huB2 : 0 ≤ u * B ^ 2 := by positivity
  have hnuB2 := mul_nonneg hn0 huB2
  have c1 : |t * n - d * (d / (n + 1)) * n| ≤ (9 * n + 75) * (u * B ^ 2) := by
    rw [← sub_mul, abs_mul, abs_of_nonneg hn0]
    have i1 := mul_le_mul_of_nonneg_right a3' hn0
    have i2 := mul_le_mul_of_nonneg_left hnBb (mul_nonneg (by positivity : 0 ≤ (9 * n + 75 : ℝ)) hu)
    linarith
  have c2 : |t * n| ≤ 13 * B ^ 2 := by
    rw [abs_mul, abs_of_nonneg hn0]
    have i1 := mul_le_mul_of_nonneg_right a4 hn0
    linarith
  have ηB2 : η ≤ u * B ^ 2 := by have := mul_nonneg hn0 hη; linarith
  obtain ⟨rc, c3, c4⟩ := hE.round_step hF h.K_rep h.K_fits c1 c2 ηB2 (by have := sq_nonneg B; linarith) (by linarith)
  refine ⟨q, F.rnd (t * n), ?_, ?_, ?_, ?_, ?_, ?_, ?_, ?_, ?_⟩
  · rw [X.div_fin_of_ne _ hN.ne', rq]
  · rw [X.mul_fin, ra, X.mul_fin, rc]
  · have := mul_le_mul_of_nonneg_right q3' hN.le
    calc _ ≤ _ := this
      _ = (2 * n + 16) * (u * (b * (n + 1))) := by ring
      _ = _ := by rw [hbB]
  · have := mul_le_mul_of_nonneg_right q4' hN.le
    linarith
  · have := mul_le_mul_of_nonneg_right hdd hN.le
    linarith
  · exact c3.trans (by linarith)
  · have := sq_nonneg B; linarith
  · have i1 := abs_mul_le_of h3 hdd
    rw [abs_mul, abs_of_nonneg hn0]
    have i2 := mul_le_mul_of_nonneg_right i1 hn0
    linarith
  · rintro rfl
    rw [Nat.cast_zero, mul_zero, hF.exact 0 (isRep_zero _ _)]

/-- One update of the skewness sum; at least one value has been pushed before. -/
theorem skewness_step (hF : F.Binary p emin) (hE : F.Err u η) {B K : ℝ} {n : Nat} (hn : 1 ≤ n) (h : ShapeData F p emin u η w B K (n + 1))
    {dh d S C T D : ℝ} (h1 : |dh - d| ≤ (2 * n + 12) * (u * B)) (h2 : |dh| ≤ 5 / 2 * B) (h3 : |d| ≤ 2 * B)
    (hS : |S - C| ≤ n * (6 * n + 65) * (u * B ^ 2)) (hC : |C| ≤ n * B ^ 2)
    (hT : |T - D| ≤ n * (63 * n + 1600) * (u * B ^ 3))
    (hD : |D + (d * (d / (n + 1)) * n * (n - 1) - 3 * C) * (d / (n + 1))| ≤ 2 * (n + 1) * B ^ 3) :
    ∃ T' : ℝ, (X.fin T + (X.fin dh * (X.fin dh / X.fin ((n : ℝ) + 1)) * X.fin (n : ℝ) * X.fin ((n : ℝ) - 1) - X.fin 3 * X.fin S)
        * (X.fin dh / X.fin ((n : ℝ) + 1)) : X F) = X.fin T'
      ∧ |T' - (D + (d * (d / (n + 1)) * n * (n - 1) - 3 * C) * (d / (n + 1)))| ≤ (n + 1) * (63 * (n + 1) + 1600) * (u * B ^ 3) := by
  obtain ⟨q, a, eq, ea, q1, q2, q3, a1, a2, a3, -⟩ := shape_prefix hF hE h h1 h2 h3
  have hB := h.B_nonneg
  have hu := hE.u_nonneg
  have hη := hE.eta_nonneg
  have hn1 : (1 : ℝ) ≤ n := by exact_mod_cast hn
  have hn0 : (0 : ℝ) ≤ n := by linarith
  have hN : (0 : ℝ) < n + 1 := by positivity
  have hB2 : 0 ≤ B ^ 2 := by positivity
  have hB3 : 0 ≤ B ^ 3 := by positivity
  have huB2 := mul_nonneg hu hB2
  have huB3 := mul_nonneg hu hB3
  have hnB2 := mul_le_mul_of_nonneg_right hn1 hB2
  have hnB3 := mul_le_mul_of_nonneg_right hn1 hB3
  have hnuB2 := mul_le_mul_of_nonneg_right hn1 huB2
  have hnuB3 := mul_le_mul_of_nonneg_right hn1 huB3
  have hnnuB2 := mul_le_mul_of_nonneg_right hn1 (mul_nonneg hn0 huB2)
  have hnnuB3 := mul_le_mul_of_nonneg_right hn1 (mul_nonneg hn0 huB3)
  have u2 := h.under2
  have u3 := h.under3
  have over2 := h.over2
  have over3 := h.over3
  have small := h.small
  push_cast at u2 u3 over2 over3 small
  have ηB2 : η ≤ u * B ^ 2 := by have := mul_nonneg hn0 hη; linarith
  have ηB3 : η ≤ u * B ^ 3 := by have := mul_nonneg hn0 hη; linarith
  set A := d * (d / (n + 1)) * n with hA
  -- a (N - 2)
  have hm0 : (0 : ℝ) ≤ n - 1 := by linarith
  have b1 : |a * (n - 1) - A * (n - 1)| ≤ n * (9 * n + 89) * (u * B ^ 2) := by
    rw [← sub_mul, abs_mul, abs_of_nonneg hm0]
    have i1 := mul_le_mul a1 (show (n : ℝ) - 1 ≤ n by linarith) hm0 (by positivity)
    linarith
  have b2 : |a * (n - 1)| ≤ 17 * n * B ^ 2 := by
    rw [abs_mul, abs_of_nonneg hm0]
    have i1 := mul_le_mul a2 (show (n : ℝ) - 1 ≤ n by linarith) hm0 (by positivity)
    linarith
  have b3 : |A * (n - 1)| ≤ 4 * n * B ^ 2 := by
    rw [abs_mul, abs_of_nonneg hm0]
    have i1 := mul_le_mul a3 (show (n : ℝ) - 1 ≤ n by linarith) hm0 (by positivity)
    linarith
  obtain ⟨rb, b4, b5⟩ := hE.round_step hF h.K_rep h.K_fits b1 b2 ηB2 (by linarith) (by linarith)
  set e := F.rnd (a * (n - 1))
  -- 3 S
  have sS : |S| ≤ 2 * n * B ^ 2 := by
    have e1 : S = (S - C) + C := by ring
    rw [e1]
    refine (abs_add_le _ _).trans ?_
    have i1 : (n * B ^ 2) * ((6 * n + 65) * u) ≤ (n * B ^ 2) * 1 := by
      refine mul_le_mul_of_nonneg_left ?_ (by positivity)
      have : 0 ≤ (57 * n + 1500) * u := by positivity
      linarith
    linarith
  have c1 : |3 * S - 3 * C| ≤ n * (18 * n + 195) * (u * B ^ 2) := by
    rw [← mul_sub, abs_mul, abs_of_pos (by norm_num : (0:ℝ) < 3)]; linarith
  have c2 : |3 * S| ≤ 6 * n * B ^ 2 := by
    rw [abs_mul, abs_of_pos (by norm_num : (0:ℝ) < 3)]; linarith
  obtain ⟨rc, c3, c4⟩ := hE.round_step hF h.K_rep h.K_fits c1 c2 ηB2 (by linarith) (by linarith)
  set b := F.rnd (3 * S)
  -- difference
  have f1 : |(e - b) - (A * (n - 1) - 3 * C)| ≤ n * (27 * n + 309) * (u * B ^ 2) := by
    have e1 : (e - b) - (A * (n - 1) - 3 * C) = (e - A * (n - 1)) - (b - 3 * C) := by ring
    rw [e1]
    refine (abs_sub _ _).trans ?_
    linarith
  have f2 : |e - b| ≤ 30 * n * B ^ 2 := (abs_sub _ _).trans (by linarith)
  have f3 : |A * (n - 1) - 3 * C| ≤ 7 * n * B ^ 2 := by
    refine (abs_sub _ _).trans ?_
    rw [abs_mul 3 C, abs_of_pos (by norm_num : (0:ℝ) < 3)]; linarith
  obtain ⟨rf, f4, f5⟩ := hE.round_step hF h.K_rep h.K_fits f1 f2 ηB2 (by linarith) (by linarith)
  set f := F.rnd (e - b)
  set f0 := A * (n - 1) - 3 * C
  have f4' : |f - f0| ≤ n * (27 * n + 340) * (u * B ^ 2) := f4.trans (by linarith)
  have f5' : |f| ≤ 38 * n * B ^ 2 := by linarith
  -- times d̂ / N
  have hnN : (n : ℝ) ≤ n + 1 := by linarith
  have g1 : |f * q - f0 * (d / (n + 1))| ≤ (122 * n + 1472) * (u * B ^ 3) := by
    have e1 : f * q - f0 * (d / (n + 1)) = (f - f0) * q + f0 * (q - d / (n + 1)) := by ring
    rw [e1]
    refine (abs_add_le _ _).trans ?_
    refine le_of_mul_le_mul_right ?_ hN
    rw [add_mul, abs_mul, abs_mul, mul_assoc, mul_assoc]
    have i1 := mul_le_mul f4' q2 (by positivity) (by positivity)
    have i2 := mul_le_mul f3 q1 (by positivity) (by positivity)
    have i3 : n * (27 * n + 340) * (u * B ^ 2) * (4 * B) + 7 * n * B ^ 2 * ((2 * n + 16) * (u * B))
        = (122 * n + 1472) * (u * B ^ 3) * n := by ring
    have i4 := mul_le_mul_of_nonneg_left hnN (show 0 ≤ (122 * n + 1472) * (u * B ^ 3) by positivity)
    linarith
  have g2 : |f * q| ≤ 152 * B ^ 3 := by
    refine le_of_mul_le_mul_right ?_ hN
    rw [abs_mul, mul_assoc]
    have i1 := mul_le_mul f5' q2 (by positivity) (by positivity)
    have i3 : 38 * n * B ^ 2 * (4 * B) = 152 * B ^ 3 * n := by ring
    have i4 := mul_le_mul_of_nonneg_left hnN (show 0 ≤ 152 * B ^ 3 by positivity)
    linarith
  obtain ⟨rg, g3, g4⟩ := hE.round_step hF h.K_rep h.K_fits g1 g2 ηB3 (by linarith) (by linarith)
  set g := F.rnd (f * q)
  -- sum
  set D' := D + f0 * (d / (n + 1)) with hD'
  have t1 : |T + g - D'| ≤ (n * (63 * n + 1600) + (122 * n + 1625)) * (u * B ^ 3) := by
    have e1 : T + g - D' = (T - D) + (g - f0 * (d / (n + 1))) := by rw [hD']; ring
    rw [e1]
    refine (abs_add_le _ _).trans ?_
    linarith
  have t2 : |T + g| ≤ 3 * (n + 1) * B ^ 3 := by
    have e1 : T + g = (T + g - D') + D' := by ring
    rw [e1]
    refine (abs_add_le _ _).trans ?_
    have i1 : (n + 1) * B ^ 3 * ((63 * (n + 1) + 1600) * u) ≤ (n + 1) * B ^ 3 * 1 :=
      mul_le_mul_of_nonneg_left small (by positivity)
    linarith
  obtain ⟨rt, t3, -⟩ := hE.round_step hF h.K_rep h.K_fits t1 t2 ηB3 (by linarith) (by linarith)
  refine ⟨F.rnd (T + g), ?_, t3.trans (by linarith)⟩
  rw [eq, ea, X.mul_fin, rb, X.mul_fin, rc, X.sub_fin, rf, X.mul_fin, rg, X.add_fin, rt]

/-- Small integers in the format. -/
theorem ofNat_small (hF : F.Binary p emin) {k : Nat} (h : k = 3 ∨ k = 4 ∨ k = 6) (hf : F.fits (k : ℝ)) : (ofNat k : X F) = X.fin (k : ℝ) := by
  rw [X.ofNat_eq]
  refine hF.round_exact ?_ hf
  have hp := hF.digits
  have h4 : (4 : Int) ≤ 2 ^ p := by
    have : (2 : Int) ^ 2 ≤ 2 ^ p := pow_le_pow_right₀ (by norm_num) hp
    linarith
  have hem := hF.emin_le
  rcases h with rfl | rfl | rfl
  · have := isRep_mul (p := p) (emin := emin) (m := 3) (e := 0) (by omega) hem (by rw [abs_of_pos (by norm_num)]; linarith)
    simpa using this
  · have := isRep_mul (p := p) (emin := emin) (m := 4) (e := 0) (by omega) hem (by rw [abs_of_pos (by norm_num)]; linarith)
    simpa using this
  · have := isRep_mul (p := p) (emin := emin) (m := 3) (e := 1) (by omega) (by omega) (by rw [abs_of_pos (by norm_num)]; linarith)
    norm_num at this
    exact_mod_cast this

/-- What one push finds: the computed difference, the sum of squares and the counts. -/
theorem shape_before (hF : F.Binary p emin) (hE : F.Err u η) {B K : ℝ} (xs : List ℝ) (x : ℝ) (hd : F.Data p emin (xs ++ [x]))
    (hB : ∀ y ∈ xs ++ [x], |y| ≤ B) (h : ShapeData F p emin u η w B K (xs.length + 1)) :
    ∃ dh S : ℝ,
      (X.fin x - ((xs.map X.fin).foldl Mean.push (Mean.init : Mean w (X F))).mean : X F) = X.fin dh
      ∧ ((xs.map X.fin).foldl Variance.push (Variance.init : Variance w (X F))).sumVariance = X.fin S
      ∧ ((xs.map X.fin).foldl Mean.push (Mean.init : Mean w (X F))).count = BitVec.ofNat w xs.length
      ∧ |dh - (x - Spec.mean xs)| ≤ (2 * xs.length + 12) * (u * B) ∧ |dh| ≤ 5 / 2 * B ∧ |x - Spec.mean xs| ≤ 2 * B
      ∧ |S - Spec.central 2 xs| ≤ xs.length * (6 * xs.length + 65) * (u * B ^ 2) ∧ |Spec.central 2 xs| ≤ xs.length * B ^ 2
      ∧ (xs = [] → S = 0) := by
  have hη := hE.eta_nonneg
  have hu := hE.u_nonneg
  have hn0 : (0 : ℝ) ≤ xs.length := Nat.cast_nonneg _
  have hnη := mul_nonneg hn0 hη
  have u1 := h.under1
  have u2 := h.under2
  push_cast at u1 u2
  have hB' : ∀ y ∈ xs, |y| ≤ B := fun y hy => hB y (List.mem_append_left _ hy)
  have hs := h.size
  have hdg := h.digits
  have hfit := h.fits hF (k := xs.length) (by omega)
  have h0 := h.mono hE (k := xs.length) (by omega)
  have hBK : 8 * xs.length * B ^ 2 ≤ K := by
    have i1 := h0.over2
    have : 0 ≤ xs.length * B ^ 2 := by positivity
    linarith
  have hsmall : (6 * xs.length + 65) * u ≤ 1 := by
    have i1 := h0.small
    have : 0 ≤ (57 * xs.length + 1500) * u := by positivity
    linarith
  obtain ⟨m, hm, hmd⟩ := Mean.rounded_diff (w := w) hF hE (B := B) xs hd.init (by omega) (by omega) hfit hB' h.B_nonneg (by linarith)
  obtain ⟨S, hS, hSe⟩ := Variance.rounded_err (w := w) hF hE h.B_nonneg (by linarith) (by linarith) h.K_rep h.K_fits xs hd.init (by omega)
    (by omega) hfit hB' hBK hsmall
  obtain ⟨m', -, hdm, -⟩ := hm.push hF hd (by omega)
  obtain ⟨d1, d2, d3⟩ := hmd x (hB x (by simp))
  refine ⟨_, S, ?_, hS, hm.count, d1, d2, d3, hSe, ?_, ?_⟩
  · rw [hm.mean, hdm]
  · rw [abs_of_nonneg (Spec.central_two_nonneg _)]
    exact Spec.central_two_le xs hB'
  · rintro rfl
    have : (X.fin S : X F) = X.fin 0 := by rw [← hS, ← hF.ofNat_zero]; rfl
    injection this

/-- Error of the sum of cubes. -/
theorem Skewness.rounded_err (hF : F.Binary p emin) (hE : F.Err u η) {B K : ℝ} (xs : List ℝ) (hd : F.Data p emin xs)
    (hB : ∀ x ∈ xs, |x| ≤ B) (h : ShapeData F p emin u η w B K xs.length) :
    ∃ T : ℝ, ((xs.map X.fin).foldl Skewness.push (Skewness.init : Skewness w (X F))).sumSkewness = X.fin T
      ∧ |T - Spec.central 3 xs| ≤ xs.length * (63 * xs.length + 1600) * (u * B ^ 3) := by
  induction xs using List.reverseRecOn with
  | nil => exact ⟨0, hF.ofNat_zero, by simp [Spec.central]⟩
  | append_singleton xs x ih =>
    rw [List.length_append, List.length_singleton] at h ⊢
    obtain ⟨T, hT, hTe⟩ := ih hd.init (fun y hy => hB y (List.mem_append_left _ hy)) (h.mono hE (by omega))
    obtain ⟨dh, S, hdh, hS, hc, d1, d2, d3, S1, S2, S0⟩ := shape_before hF hE xs x hd hB h
    have hsn := Spec.central_three_snoc xs x
    have hbound : |Spec.central 3 (xs ++ [x])| ≤ 2 * (xs.length + 1) * B ^ 3 := by
      refine (Spec.abs_central_three_le h.B_nonneg _ hB).trans ?_
      have i1 := mul_le_mul_of_nonneg_left (Spec.central_two_le _ hB) (show 0 ≤ 2 * B by have := h.B_nonneg; linarith)
      rw [List.length_append, List.length_singleton] at i1
      push_cast at i1
      linarith
    have hs := h.size
    have hdg := h.digits
    have h3 : (ofNat 3 : X F) = X.fin 3 := by
      have := ofNat_small hF (k := 3) (by simp) (h.fits hF (by omega))
      exact_mod_cast this
    have e1 : (ofSize (BitVec.ofNat w xs.length + 1) : X F) = X.fin ((xs.length : ℝ) + 1) := by
      rw [ofNat_add_one, ofSize, toNat_ofNat_lt hs, hF.ofNat_fin hdg (h.fits hF (by omega))]
      push_cast; rfl
    have e2 : (ofSize (BitVec.ofNat w xs.length + 1 - 1) : X F) = X.fin (xs.length : ℝ) := by
      rw [BitVec.add_sub_cancel, ofSize, toNat_ofNat_lt (by omega), hF.ofNat_fin (by omega) (h.fits hF (by omega))]
    have hpush : (((xs.map X.fin).foldl Skewness.push (Skewness.init : Skewness w (X F))).push (X.fin x)).sumSkewness =
        X.fin T + (X.fin dh * (X.fin dh / X.fin ((xs.length : ℝ) + 1)) * X.fin (xs.length : ℝ) * ofSize (BitVec.ofNat w xs.length + 1 - 2)
          - X.fin 3 * X.fin S) * (X.fin dh / X.fin ((xs.length : ℝ) + 1)) := by
      have hsup := Skewness.fold_super (w := w) (xs.map X.fin : List (X F))
      have hsup' := Variance.fold_super' (w := w) (xs.map X.fin : List (X F))
      set st := (xs.map X.fin).foldl Skewness.push (Skewness.init : Skewness w (X F))
      show st.sumSkewness + ((X.fin x - st.super.super.mean) * ((X.fin x - st.super.super.mean) / ofSize (st.super.super.count + 1))
          * ofSize (st.super.super.count + 1 - 1) * ofSize (st.super.super.count + 1 - 2) - ofNat 3 * st.super.sumVariance)
        * ((X.fin x - st.super.super.mean) / ofSize (st.super.super.count + 1)) = _
      rw [hT, hsup, hS, hsup', hdh, hc, e1, e2, h3]
    rw [List.map_append, List.map_singleton, List.foldl_append, List.foldl_cons, List.foldl_nil, hpush]
    rcases Nat.eq_zero_or_pos xs.length with h0 | h0
    · -- the first value
      have hx : xs = [] := List.length_eq_zero_iff.1 h0
      have hS0 := S0 hx
      subst hx
      have hT0 : T = 0 := by
        have : (X.fin T : X F) = X.fin 0 := by rw [← hT, ← hF.ofNat_zero]; rfl
        injection this
      obtain ⟨q, a, eq, ea, -, -, -, -, -, -, ha⟩ := shape_prefix hF hE h d1 d2 d3
      rw [ha rfl] at ea
      have z : (X.round 0 : X F) = X.fin 0 := hF.round_exact (isRep_zero _ _) hF.fits_zero
      have ew : (ofSize (BitVec.ofNat w ([] : List ℝ).length + 1 - 2) : X F) = X.fin (F.rnd ((2 ^ w - 1 : Nat) : ℝ)) := by
        have : (BitVec.ofNat w ([] : List ℝ).length + 1 - 2).toNat = 2 ^ w - 1 := by
          have hw1 : 1 < 2 ^ w := by simpa using hs
          have : BitVec.ofNat w ([] : List ℝ).length + 1 - 2 = BitVec.allOnes w := by
            rw [← BitVec.neg_one_eq_allOnes]
            show (0 : BitVec w) + 1 - 2 = -1
            ring
          rw [this, BitVec.toNat_allOnes]
        rw [ofSize, this, X.ofNat_eq, X.round, if_pos h.wrap]
      rw [eq, ea, ew, hS0, hT0, X.mul_fin, zero_mul, z, X.mul_fin, mul_zero, z, X.sub_fin, sub_zero, z, X.mul_fin, zero_mul, z,
        X.add_fin, add_zero, z]
      refine ⟨0, rfl, ?_⟩
      rw [hsn]
      simp [Spec.central]
      have := h.B_nonneg; have := hE.u_nonneg
      positivity
    · have e3 : (ofSize (BitVec.ofNat w xs.length + 1 - 2) : X F) = X.fin ((xs.length : ℝ) - 1) := by
        have i1 : BitVec.ofNat w xs.length + 1 - 2 = BitVec.ofNat w (xs.length - 1) := by
          obtain ⟨k, hk⟩ : ∃ k, xs.length = k + 1 := ⟨xs.length - 1, by omega⟩
          rw [hk, Nat.add_sub_cancel, ← ofNat_add_one]; ring
        rw [i1, ofSize, toNat_ofNat_lt (by omega), hF.ofNat_fin (by omega) (h.fits hF (by omega)), Nat.cast_sub h0, Nat.cast_one]
      rw [e3]
      push_cast
      rw [hsn] at hbound ⊢
      exact skewness_step hF hE h0 h d1 d2 d3 S1 S2 hTe hbound

end Cumulative
end Verif
