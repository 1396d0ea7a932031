import Verif.Proofs.Stochastic
import Mathlib.Probability.Independence.Integration
/-
Expectations of the products of the power sums of independent, identically distributed values.
-/
namespace Verif.Stochastic
open MeasureTheory ProbabilityTheory

variable {Ω : Type} {mΩ : MeasurableSpace Ω} {P : Measure Ω} [IsProbabilityMeasure P]

/-- `Z i` are independent and have the distribution of `Z 0`. -/
structure Sample (Z : ℕ → Ω → ℝ) (P : Measure Ω) : Prop where
  indep : iIndepFun Z P
  meas : ∀ i, Measurable (Z i)
  ident : ∀ i, IdentDistrib (Z i) (Z 0) P P

/-- The `k`-th central moment of the distribution of `Y`. -/
noncomputable def moment (Y : Ω → ℝ) (P : Measure Ω) (k : ℕ) : ℝ := ∫ ω, (Y ω - ∫ ω', Y ω' ∂P) ^ k ∂P

/-- Sum of the `k`-th powers of the deviations of the first `n` values from `c`. -/
noncomputable def psum (Z : ℕ → Ω → ℝ) (c : ℝ) (k n : ℕ) (ω : Ω) : ℝ := ∑ i ∈ Finset.range n, (Z i ω - c) ^ k

omit mΩ in
theorem psum_succ (Z : ℕ → Ω → ℝ) (c : ℝ) (k n : ℕ) (ω : Ω) :
    psum Z c k (n + 1) ω = psum Z c k n ω + (Z n ω - c) ^ k := Finset.sum_range_succ _ _

omit mΩ in
theorem psum_zero (Z : ℕ → Ω → ℝ) (c : ℝ) (k : ℕ) (ω : Ω) : psum Z c k 0 ω = 0 := Finset.sum_range_zero _

/-- An integrable function with its expectation. -/
def Ex (f : Ω → ℝ) (P : Measure Ω) (m : ℝ) : Prop := Integrable f P ∧ ∫ ω, f ω ∂P = m

omit [IsProbabilityMeasure P] in
theorem Ex.add {f g : Ω → ℝ} {a b : ℝ} (hf : Ex f P a) (hg : Ex g P b) : Ex (fun ω => f ω + g ω) P (a + b) :=
  ⟨hf.1.add hg.1, by rw [integral_add hf.1 hg.1, hf.2, hg.2]⟩

omit [IsProbabilityMeasure P] in
theorem Ex.smul {f : Ω → ℝ} {a : ℝ} (c : ℝ) (hf : Ex f P a) : Ex (fun ω => c * f ω) P (c * a) :=
  ⟨hf.1.const_mul c, by rw [integral_const_mul, hf.2]⟩

omit [IsProbabilityMeasure P] in
theorem Ex.congr {f g : Ω → ℝ} {a b : ℝ} (hf : Ex f P a) (e : ∀ ω, g ω = f ω) (e' : b = a) : Ex g P b := by
  rw [show g = f from funext e, e']; exact hf

omit [IsProbabilityMeasure P] in
theorem Ex.zero : Ex (fun _ : Ω => (0 : ℝ)) P 0 := ⟨integrable_zero _ _ _, by simp⟩

namespace Sample

variable {Z : ℕ → Ω → ℝ} {c : ℝ}

omit [IsProbabilityMeasure P] in
/-- The next value is independent of the power sums of the earlier ones. -/
theorem mul_next (hZ : Sample Z P) {n : ℕ} {φ : ℝ × ℝ × ℝ → ℝ} (hφ : Measurable φ) {k : ℕ} {a b : ℝ}
    (h1 : Ex (fun ω => φ (psum Z c 1 n ω, psum Z c 2 n ω, psum Z c 3 n ω)) P a)
    (h2 : Ex (fun ω => (Z n ω - c) ^ k) P b) :
    Ex (fun ω => φ (psum Z c 1 n ω, psum Z c 2 n ω, psum Z c 3 n ω) * (Z n ω - c) ^ k) P (a * b) := by
  have hi := hZ.indep.indepFun_finset (Finset.range n) {n} (by simp) hZ.meas
  let F : (Finset.range n → ℝ) → ℝ := fun v =>
    φ (∑ i, (v i - c) ^ 1, ∑ i, (v i - c) ^ 2, ∑ i, (v i - c) ^ 3)
  let G : (({n} : Finset ℕ) → ℝ) → ℝ := fun v => (v ⟨n, by simp⟩ - c) ^ k
  have hF : Measurable F := by fun_prop
  have hG : Measurable G := by fun_prop
  have hi' := hi.comp hF hG
  have e1 : (F ∘ fun ω (i : Finset.range n) => Z i ω)
      = fun ω => φ (psum Z c 1 n ω, psum Z c 2 n ω, psum Z c 3 n ω) := by
    funext ω
    simp only [F, Function.comp, psum]
    congr 1
    simp only [Finset.sum_coe_sort (Finset.range n) (fun i => (Z i ω - c) ^ 1),
      Finset.sum_coe_sort (Finset.range n) (fun i => (Z i ω - c) ^ 2),
      Finset.sum_coe_sort (Finset.range n) (fun i => (Z i ω - c) ^ 3)]
  have e2 : (G ∘ fun ω (i : ({n} : Finset ℕ)) => Z i ω) = fun ω => (Z n ω - c) ^ k := rfl
  rw [e1, e2] at hi'
  refine ⟨hi'.integrable_mul h1.1 h2.1, ?_⟩
  rw [hi'.integral_fun_mul_eq_mul_integral h1.1.aestronglyMeasurable h2.1.aestronglyMeasurable, h1.2, h2.2]

/-- The moments of order up to 3 of the power sums. -/
structure Three (Z : ℕ → Ω → ℝ) (c : ℝ) (P : Measure Ω) (n : ℕ) (s t : ℝ) : Prop where
  p1 : Ex (fun ω => psum Z c 1 n ω) P 0
  p2 : Ex (fun ω => psum Z c 2 n ω) P (n * s)
  p3 : Ex (fun ω => psum Z c 3 n ω) P (n * t)
  p11 : Ex (fun ω => psum Z c 1 n ω ^ 2) P (n * s)
  p12 : Ex (fun ω => psum Z c 1 n ω * psum Z c 2 n ω) P (n * t)
  p111 : Ex (fun ω => psum Z c 1 n ω ^ 3) P (n * t)

omit [IsProbabilityMeasure P] in
theorem three (hZ : Sample Z P) {s t : ℝ} (h1 : ∀ i, Ex (fun ω => (Z i ω - c) ^ 1) P 0)
    (h2 : ∀ i, Ex (fun ω => (Z i ω - c) ^ 2) P s) (h3 : ∀ i, Ex (fun ω => (Z i ω - c) ^ 3) P t) (n : ℕ) :
    Three Z c P n s t := by
  induction n with
  | zero =>
    constructor <;>
    exact Ex.zero.congr (fun ω => by simp [psum_zero]) (by simp)
  | succ n ih =>
    constructor
    · exact (ih.p1.add (h1 n)).congr (fun ω => psum_succ ..) (by ring)
    · exact (ih.p2.add (h2 n)).congr (fun ω => psum_succ ..) (by push_cast; ring)
    · exact (ih.p3.add (h3 n)).congr (fun ω => psum_succ ..) (by push_cast; ring)
    · have a := hZ.mul_next (φ := fun p => p.1) (by fun_prop) ih.p1 (h1 n)
      exact ((ih.p11.add (a.smul 2)).add (h2 n)).congr (fun ω => by rw [psum_succ]; ring) (by push_cast; ring)
    · have a := hZ.mul_next (φ := fun p => p.1) (by fun_prop) ih.p1 (h2 n)
      have b := hZ.mul_next (φ := fun p => p.2.1) (by fun_prop) ih.p2 (h1 n)
      exact (((ih.p12.add a).add b).add (h3 n)).congr (fun ω => by rw [psum_succ, psum_succ]; ring) (by push_cast; ring)
    · have a := hZ.mul_next (φ := fun p => p.1) (by fun_prop) ih.p1 (h2 n)
      have b := hZ.mul_next (φ := fun p => p.1 ^ 2) (by fun_prop) ih.p11 (h1 n)
      exact (((ih.p111.add (a.smul 3)).add (b.smul 3)).add (h3 n)).congr (fun ω => by rw [psum_succ]; ring) (by push_cast; ring)

/-- The moments of order 4 of the power sums. -/
structure Four (Z : ℕ → Ω → ℝ) (c : ℝ) (P : Measure Ω) (n : ℕ) (s k : ℝ) : Prop where
  p4 : Ex (fun ω => psum Z c 4 n ω) P (n * k)
  p13 : Ex (fun ω => psum Z c 1 n ω * psum Z c 3 n ω) P (n * k)
  p22 : Ex (fun ω => psum Z c 2 n ω ^ 2) P (n * k + n * (n - 1) * s ^ 2)
  p112 : Ex (fun ω => psum Z c 1 n ω ^ 2 * psum Z c 2 n ω) P (n * k + n * (n - 1) * s ^ 2)
  p1111 : Ex (fun ω => psum Z c 1 n ω ^ 4) P (n * k + 3 * (n * (n - 1)) * s ^ 2)

omit [IsProbabilityMeasure P] in
theorem four (hZ : Sample Z P) {s t k : ℝ} (h1 : ∀ i, Ex (fun ω => (Z i ω - c) ^ 1) P 0)
    (h2 : ∀ i, Ex (fun ω => (Z i ω - c) ^ 2) P s) (h3 : ∀ i, Ex (fun ω => (Z i ω - c) ^ 3) P t)
    (h4 : ∀ i, Ex (fun ω => (Z i ω - c) ^ 4) P k) (n : ℕ) : Four Z c P n s k := by
  induction n with
  | zero =>
    constructor <;>
    exact Ex.zero.congr (fun ω => by simp [psum_zero]) (by simp)
  | succ n ih =>
    have th := hZ.three h1 h2 h3 n
    have a1 := hZ.mul_next (φ := fun p => p.1) (by fun_prop) th.p1 (h3 n)
    have a2 := hZ.mul_next (φ := fun p => p.2.1) (by fun_prop) th.p2 (h2 n)
    have a3 := hZ.mul_next (φ := fun p => p.2.2) (by fun_prop) th.p3 (h1 n)
    have a11 := hZ.mul_next (φ := fun p => p.1 ^ 2) (by fun_prop) th.p11 (h2 n)
    have a12 := hZ.mul_next (φ := fun p => p.1 * p.2.1) (by fun_prop) th.p12 (h1 n)
    have a111 := hZ.mul_next (φ := fun p => p.1 ^ 3) (by fun_prop) th.p111 (h1 n)
    constructor
    · exact (ih.p4.add (h4 n)).congr (fun ω => psum_succ ..) (by push_cast; ring)
    · exact (((ih.p13.add a1).add a3).add (h4 n)).congr (fun ω => by rw [psum_succ, psum_succ]; ring) (by push_cast; ring)
    · exact ((ih.p22.add (a2.smul 2)).add (h4 n)).congr (fun ω => by rw [psum_succ]; ring) (by push_cast; ring)
    · exact (((((ih.p112.add a11).add (a12.smul 2)).add (a1.smul 2)).add a2).add (h4 n)).congr
        (fun ω => by rw [psum_succ, psum_succ]; ring) (by push_cast; ring)
    · exact ((((ih.p1111.add (a111.smul 4)).add (a11.smul 6)).add (a1.smul 4)).add (h4 n)).congr
        (fun ω => by rw [psum_succ]; ring) (by push_cast; ring)

/-! ### The moments of one value -/

theorem ex_pow (hZ : Sample Z P) {k : ℕ} (hk : MemLp (Z 0) k P) (j : ℕ) (hj : j ≤ k) (i : ℕ) :
    Ex (fun ω => (Z i ω - ∫ ω', Z 0 ω' ∂P) ^ j) P (moment (Z 0) P j) := by
  have h0 : MemLp (fun ω => Z 0 ω - ∫ ω', Z 0 ω' ∂P) k P := hk.sub (memLp_const _)
  have h0' : MemLp (fun ω => Z 0 ω - ∫ ω', Z 0 ω' ∂P) j P := h0.mono_exponent (by exact_mod_cast hj)
  have hid := (hZ.ident i).comp (u := fun z : ℝ => (z - ∫ ω', Z 0 ω' ∂P) ^ j) (by fun_prop)
  have hint : Integrable (fun ω => (Z 0 ω - ∫ ω', Z 0 ω' ∂P) ^ j) P := by
    refine (integrable_norm_iff (h0.1.pow j)).1 ?_
    simpa only [Pi.pow_apply, norm_pow] using h0'.integrable_norm_pow'
  exact ⟨hid.integrable_iff.2 hint, hid.integral_eq⟩

theorem moment_one (h : Integrable (Z 0) P) : moment (Z 0) P 1 = 0 := by
  simp only [moment, pow_one]
  rw [integral_sub h (integrable_const _)]
  simp

/-! ### The sums of the powers of the deviations from the mean -/

theorem central_two_psum (x : ℕ → ℝ) (c : ℝ) {n : ℕ} (hn : n ≠ 0) :
    Spec.central 2 (firstN x n) = (∑ i ∈ Finset.range n, (x i - c) ^ 2)
      + (-1 / n) * (∑ i ∈ Finset.range n, (x i - c) ^ 1) ^ 2 := by
  have h0 : (n : ℝ) ≠ 0 := by exact_mod_cast hn
  have h := central_two_avg x c hn
  rw [div_eq_iff h0] at h
  rw [h]; simp only [avg]; field_simp; ring

theorem central_three_psum (x : ℕ → ℝ) (c : ℝ) {n : ℕ} (hn : n ≠ 0) :
    Spec.central 3 (firstN x n) = (∑ i ∈ Finset.range n, (x i - c) ^ 3)
      + (-3 / n) * ((∑ i ∈ Finset.range n, (x i - c) ^ 1) * ∑ i ∈ Finset.range n, (x i - c) ^ 2)
      + (2 / n ^ 2) * (∑ i ∈ Finset.range n, (x i - c) ^ 1) ^ 3 := by
  have h0 : (n : ℝ) ≠ 0 := by exact_mod_cast hn
  have h := central_three_avg x c hn
  rw [div_eq_iff h0] at h
  rw [h]; simp only [avg]; field_simp; ring

theorem central_four_psum (x : ℕ → ℝ) (c : ℝ) {n : ℕ} (hn : n ≠ 0) :
    Spec.central 4 (firstN x n) = (∑ i ∈ Finset.range n, (x i - c) ^ 4)
      + (-4 / n) * ((∑ i ∈ Finset.range n, (x i - c) ^ 1) * ∑ i ∈ Finset.range n, (x i - c) ^ 3)
      + (6 / n ^ 2) * ((∑ i ∈ Finset.range n, (x i - c) ^ 1) ^ 2 * ∑ i ∈ Finset.range n, (x i - c) ^ 2)
      + (-3 / n ^ 3) * (∑ i ∈ Finset.range n, (x i - c) ^ 1) ^ 4 := by
  have h0 : (n : ℝ) ≠ 0 := by exact_mod_cast hn
  have h := central_four_avg x c hn
  rw [div_eq_iff h0] at h
  rw [h]; simp only [avg]; field_simp; ring

theorem ex_central_two (hZ : Sample Z P) (h : MemLp (Z 0) (2 : ℕ) P) {n : ℕ} (hn : n ≠ 0) :
    Ex (fun ω => Spec.central 2 (firstN (fun i => Z i ω) n)) P ((n - 1) * moment (Z 0) P 2) := by
  have h0 : (n : ℝ) ≠ 0 := by exact_mod_cast hn
  have hint : Integrable (Z 0) P := h.integrable (by norm_num)
  have e := hZ.ex_pow h
  have h1 : ∀ i, Ex (fun ω => (Z i ω - ∫ ω', Z 0 ω' ∂P) ^ 1) P 0 := fun i => moment_one hint ▸ e 1 (by norm_num) i
  have hp : ∀ n : ℕ, Ex (fun ω => psum Z (∫ ω', Z 0 ω' ∂P) 1 n ω) P 0
      ∧ Ex (fun ω => psum Z (∫ ω', Z 0 ω' ∂P) 2 n ω) P (n * moment (Z 0) P 2)
      ∧ Ex (fun ω => psum Z (∫ ω', Z 0 ω' ∂P) 1 n ω ^ 2) P (n * moment (Z 0) P 2) := by
    intro n
    induction n with
    | zero => refine ⟨?_, ?_, ?_⟩ <;> exact Ex.zero.congr (fun ω => by simp [psum_zero]) (by simp)
    | succ n ih =>
      obtain ⟨i1, i2, i3⟩ := ih
      have a := hZ.mul_next (φ := fun p => p.1) (by fun_prop) i1 (h1 n)
      exact ⟨(i1.add (h1 n)).congr (fun ω => psum_succ ..) (by ring),
        (i2.add (e 2 le_rfl n)).congr (fun ω => psum_succ ..) (by push_cast; ring),
        ((i3.add (a.smul 2)).add (e 2 le_rfl n)).congr (fun ω => by rw [psum_succ]; ring) (by push_cast; ring)⟩
  obtain ⟨-, i2, i3⟩ := hp n
  exact (i2.add (i3.smul (-1 / n))).congr (fun ω => central_two_psum _ _ hn) (by field_simp; ring)

theorem ex_central_three (hZ : Sample Z P) (h : MemLp (Z 0) (3 : ℕ) P) {n : ℕ} (hn : n ≠ 0) :
    Ex (fun ω => Spec.central 3 (firstN (fun i => Z i ω) n)) P ((n - 1) * (n - 2) / n * moment (Z 0) P 3) := by
  have h0 : (n : ℝ) ≠ 0 := by exact_mod_cast hn
  have hint : Integrable (Z 0) P := h.integrable (by norm_num)
  have e := hZ.ex_pow h
  have th := hZ.three (fun i => moment_one hint ▸ e 1 (by norm_num) i) (e 2 (by norm_num)) (e 3 le_rfl) n
  exact ((th.p3.add (th.p12.smul (-3 / n))).add (th.p111.smul (2 / n ^ 2))).congr (fun ω => central_three_psum _ _ hn)
    (by field_simp; ring)

theorem ex_central_four (hZ : Sample Z P) (h : MemLp (Z 0) (4 : ℕ) P) {n : ℕ} (hn : n ≠ 0) :
    Ex (fun ω => Spec.central 4 (firstN (fun i => Z i ω) n)) P
      ((n - 1) * ((n ^ 2 - 3 * n + 3) / n ^ 2 * moment (Z 0) P 4 + 3 * (2 * n - 3) / n ^ 2 * moment (Z 0) P 2 ^ 2))
    ∧ Ex (fun ω => Spec.central 2 (firstN (fun i => Z i ω) n) ^ 2) P
      ((n - 1) * ((n - 1) / n * moment (Z 0) P 4 + (n ^ 2 - 2 * n + 3) / n * moment (Z 0) P 2 ^ 2)) := by
  have h0 : (n : ℝ) ≠ 0 := by exact_mod_cast hn
  have hint : Integrable (Z 0) P := h.integrable (by norm_num)
  have e := hZ.ex_pow h
  have f := hZ.four (fun i => moment_one hint ▸ e 1 (by norm_num) i) (e 2 (by norm_num)) (e 3 (by norm_num)) (e 4 le_rfl) n
  refine ⟨(((f.p4.add (f.p13.smul (-4 / n))).add (f.p112.smul (6 / n ^ 2))).add (f.p1111.smul (-3 / n ^ 3))).congr
    (fun ω => central_four_psum _ _ hn) (by field_simp; ring), ?_⟩
  refine ((f.p22.add (f.p112.smul (-2 / n))).add (f.p1111.smul (1 / n ^ 2))).congr (fun ω => ?_) (by field_simp; ring)
  rw [central_two_psum _ (∫ ω', Z 0 ω' ∂P) hn]
  simp only [psum]
  field_simp
  ring

end Sample
end Verif.Stochastic
