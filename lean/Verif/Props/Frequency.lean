import Verif.Props.Poles
import Verif.Props.Periodic
/-
C182: the frequency response of the impulse filters.  C183: stable infinite filters forget geometrically.
-/
namespace Verif.Spec

/-- The frequency response of the filter with the numerator `as` and the denominator `ds` at the angle `ω` per value. -/
noncomputable def frequencyResponse (as ds : List ℝ) (ω : ℝ) : ℂ :=
  polyAt as (Complex.exp (-(ω * Complex.I))) / polyAt ds (Complex.exp (-(ω * Complex.I)))

end Verif.Spec

namespace Verif.Props
open Filter Topology Exact

variable {ε : ℝ}

/-- The finite filter for a complex oscillation. -/
theorem fir_oscillation (cs : List ℝ) {ζ : ℂ} (hζ : ζ ≠ 0) (a : ℂ) {k : ℕ} (hk : cs.length ≤ k + 1) :
    Spec.fir cs ((List.range (k + 1)).map fun n => (a * ζ ^ n).re) = (a * Spec.polyAt cs ζ⁻¹ * ζ ^ k).re := by
  rw [Spec.fir, ← List.sum_toFinset _ List.nodup_range, List.toFinset_range, Spec.polyAt, Finset.mul_sum, Finset.sum_mul, Complex.re_sum]
  refine Finset.sum_congr rfl fun i hi => ?_
  rw [Finset.mem_range] at hi
  rw [getD_reverse_range, if_pos (by omega), ← Complex.re_ofReal_mul]
  congr 1
  have e : ζ ^ k = ζ ^ (k - i) * ζ ^ i := by rw [← pow_add]; congr 1; omega
  rw [show k + 1 - 1 - i = k - i by omega, e, inv_pow]
  have := pow_ne_zero i hζ
  field_simp

theorem cos_re (ω φ : ℝ) (n : ℕ) :
    Real.cos (ω * n + φ) = (Complex.exp (φ * Complex.I) * Complex.exp (ω * Complex.I) ^ n).re := by
  rw [← Complex.exp_nat_mul, ← Complex.exp_add, ← Complex.exp_ofReal_mul_I_re]
  congr 2
  push_cast
  ring

theorem cos_gain (H : ℂ) (ω φ : ℝ) (n : ℕ) :
    ‖H‖ * Real.cos (ω * n + φ + H.arg) = (Complex.exp (φ * Complex.I) * H * Complex.exp (ω * Complex.I) ^ n).re := by
  conv_rhs => rw [← Complex.norm_mul_exp_arg_mul_I H]
  rw [← Complex.exp_ofReal_mul_I_re, ← Complex.re_ofReal_mul]
  congr 1
  rw [← Complex.exp_nat_mul]
  have : Complex.exp (((ω * n + φ + H.arg : ℝ) : ℂ) * Complex.I)
      = Complex.exp (φ * Complex.I) * Complex.exp (H.arg * Complex.I) * Complex.exp (n * (ω * Complex.I)) := by
    rw [← Complex.exp_add, ← Complex.exp_add]
    congr 1
    push_cast
    ring
  rw [this]
  ring

/-- C182: the finite filter multiplies an oscillation by the size of its frequency response and shifts it by the angle, exactly, once all
coefficients are in use. -/
theorem C182_fir {cs : List ℝ} (hc : cs ≠ []) (ω φ : ℝ) (n : ℕ) (hn : cs.length ≤ n + 1) :
    ∃ s : Impulse.Finite (E ε),
      Impulse.Finite.run (cs.map X.fin) (finOps (((List.range (n + 1)).map fun k : ℕ => Real.cos (ω * k + φ)).map .push)) = some s
        ∧ s.value = X.fin (‖Spec.frequencyResponse cs [1] ω‖ * Real.cos (ω * n + φ + (Spec.frequencyResponse cs [1] ω).arg)) := by
  have e : ((List.range (n + 1)).map fun k : ℕ => Real.cos (ω * k + φ)).map Op.push
      = ((List.range n).map fun k : ℕ => Real.cos (ω * k + φ)).map Op.push ++ [.push (Real.cos (ω * n + φ))] := by
    rw [List.range_succ, List.map_append, List.map_append, List.map_singleton, List.map_singleton]
  obtain ⟨s, hs, hv⟩ := C50_fir (ε := ε) hc (((List.range n).map fun k : ℕ => Real.cos (ω * k + φ)).map Op.push) (Real.cos (ω * n + φ))
  rw [← e, sinceClear_pushes] at hv
  rw [← e] at hs
  refine ⟨s, hs, ?_⟩
  have h1 : Spec.polyAt [1] (Complex.exp (-(ω * Complex.I))) = 1 := by simp [Spec.polyAt]
  rw [hv, cos_gain, Spec.frequencyResponse, h1, div_one, Complex.exp_neg, ← fir_oscillation cs (Complex.exp_ne_zero _) _ hn]
  simp only [cos_re]

/-- C182: the output of a stable infinite filter for an oscillation approaches the oscillation multiplied by the size of the frequency response
and shifted by its angle. -/
theorem C182_iir {as bs : List ℝ} (ha : as ≠ []) (hb : bs ≠ []) {c : ℝ} (h : Spec.PolesInside bs c) (ω φ : ℝ) :
    ∃ y : ℕ → ℝ, (∀ n, ∃ s : Impulse.Infinite (E ε),
        Impulse.Infinite.run (as.map X.fin) (bs.map X.fin) (X.fin c)
          (finOps (((List.range (n + 1)).map fun k : ℕ => Real.cos (ω * k + φ)).map .push)) = some s ∧ s.value = X.fin (y n))
      ∧ Tendsto (fun n : ℕ => y n - ‖Spec.frequencyResponse as (c :: bs) ω‖
          * Real.cos (ω * n + φ + (Spec.frequencyResponse as (c :: bs) ω).arg)) atTop (𝓝 0) := by
  have hc : c ≠ 0 := by
    rintro rfl
    refine h 0 (by simp) ?_
    rw [Spec.polyAt, List.length_cons, Finset.sum_range_succ']
    simp
  obtain ⟨-, h0, hl⟩ := keeps_poly h
  set u : ℕ → ℝ := fun k => Real.cos (ω * k + φ) with hu
  refine ⟨iirOut as bs c u, fun n => iir_value ha hb hc u n, ?_⟩
  set ζ := Complex.exp (ω * Complex.I) with hζ
  set a := Complex.exp (φ * Complex.I) with ha'
  set H := Spec.frequencyResponse as (c :: bs) ω with hH
  have hζ0 : ζ ≠ 0 := Complex.exp_ne_zero _
  have hD : Spec.polyAt (c :: bs) ζ⁻¹ ≠ 0 := by
    refine h _ ?_
    rw [norm_inv, hζ, Complex.norm_exp_ofReal_mul_I, inv_one]
  have hHe : H * Spec.polyAt (c :: bs) ζ⁻¹ = Spec.polyAt as ζ⁻¹ := by
    rw [hH, Spec.frequencyResponse, Complex.exp_neg, div_mul_cancel₀ _ hD]
  have hue : u = fun n => (a * ζ ^ n).re := by funext n; exact cos_re ω φ n
  have hw : (fun n : ℕ => ‖H‖ * Real.cos (ω * n + φ + H.arg)) = fun n => (a * H * ζ ^ n).re := by funext n; exact cos_gain H ω φ n
  have key : ∀ k, max as.length (c :: bs).length ≤ k + 1 →
      PowerSeries.coeff k (Spec.series (c :: bs) * PowerSeries.mk fun n => iirOut as bs c u n - (a * H * ζ ^ n).re) = 0 := by
    intro k hk
    have e : (PowerSeries.mk fun n => iirOut as bs c u n - (a * H * ζ ^ n).re)
        = PowerSeries.mk (iirOut as bs c u) - PowerSeries.mk fun n => (a * H * ζ ^ n).re := by
      ext n; simp
    rw [e, mul_sub, map_sub, iirOut_series as bs hc, ← fir_mk, ← fir_mk, hue, fir_oscillation as hζ0 a (by omega),
      fir_oscillation (c :: bs) hζ0 _ (by omega), ← hHe, ← Complex.sub_re]
    rw [show a * (H * Spec.polyAt (c :: bs) ζ⁻¹) * ζ ^ k - a * H * Spec.polyAt (c :: bs) ζ⁻¹ * ζ ^ k = 0 by ring]
    rfl
  have := hl (PowerSeries.mk fun n => ((iirOut as bs c u n - (a * H * ζ ^ n).re : ℝ) : ℂ)) 0 ?_
  · simp only [PowerSeries.coeff_mk, zero_div] at this
    have := (Complex.continuous_re.tendsto _).comp this
    rw [Complex.zero_re] at this
    refine this.congr fun n => ?_
    rw [Function.comp_apply, Complex.ofReal_re, ← congrFun hw n]
  · refine tendsto_const_nhds.congr' ?_
    filter_upwards [eventually_ge_atTop (max as.length (c :: bs).length)] with k hk
    have e : (PowerSeries.mk fun n => ((iirOut as bs c u n - (a * H * ζ ^ n).re : ℝ) : ℂ))
        = PowerSeries.map Complex.ofRealHom (PowerSeries.mk fun n => iirOut as bs c u n - (a * H * ζ ^ n).re) := by
      ext n; simp
    rw [e, cseries, ← map_mul, PowerSeries.coeff_map, key k (by omega), map_zero]

/-! ### Geometric decay -/

/-- The coefficients `l_i t^i`. -/
noncomputable def scaled (l : List ℝ) (t : ℝ) : List ℝ := (List.range l.length).map fun i => l.getD i 0 * t ^ i

theorem scaled_getD (l : List ℝ) (t : ℝ) (i : ℕ) : (scaled l t).getD i 0 = l.getD i 0 * t ^ i := by
  rcases Nat.lt_or_ge i l.length with h | h
  · rw [List.getD_eq_getElem _ _ (by simpa [scaled] using h)]
    simp [scaled]
  · rw [List.getD_eq_default _ _ (by simpa [scaled] using h), List.getD_eq_default _ _ h, zero_mul]

theorem scaled_polyAt (l : List ℝ) (t : ℝ) (z : ℂ) : Spec.polyAt (scaled l t) z = Spec.polyAt l (t * z) := by
  rw [Spec.polyAt, Spec.polyAt, show (scaled l t).length = l.length by simp [scaled]]
  refine Finset.sum_congr rfl fun i _ => ?_
  rw [scaled_getD]
  push_cast
  ring

/-- A polynomial without zeros in the closed disk has none in a larger disk. -/
theorem larger_disk {l : List ℝ} (h : ∀ z : ℂ, ‖z‖ ≤ 1 → Spec.polyAt l z ≠ 0) :
    ∃ t : ℝ, 1 < t ∧ ∀ z : ℂ, ‖z‖ ≤ t → Spec.polyAt l z ≠ 0 := by
  have hne : polyOf l ≠ 0 := by
    intro e
    have := h 0 (by simp)
    rw [← polyOf_eval, e, Polynomial.eval_zero] at this
    exact this rfl
  have key : ∀ m : Multiset ℂ, (∀ r ∈ m, 1 < ‖r‖) → ∃ t : ℝ, 1 < t ∧ ∀ r ∈ m, t < ‖r‖ := by
    intro m
    induction m using Multiset.induction with
    | empty => exact fun _ => ⟨2, by norm_num, by simp⟩
    | cons r m ih =>
      intro hm
      obtain ⟨t, ht, h2⟩ := ih fun r' hr' => hm r' (Multiset.mem_cons_of_mem hr')
      have hr := hm r (Multiset.mem_cons_self r m)
      refine ⟨min t ((1 + ‖r‖) / 2), lt_min ht (by linarith), fun r' hr' => ?_⟩
      rcases Multiset.mem_cons.1 hr' with rfl | hr'
      · exact (min_le_right _ _).trans_lt (by linarith)
      · exact (min_le_left _ _).trans_lt (h2 r' hr')
  obtain ⟨t, ht, h2⟩ := key (polyOf l).roots fun r hr => by
    by_contra hc
    refine h r (not_lt.1 hc) ?_
    rw [← polyOf_eval]
    exact (Polynomial.mem_roots hne).1 hr
  refine ⟨t, ht, fun z hz h0 => ?_⟩
  have := h2 z ((Polynomial.mem_roots hne).2 (by rw [Polynomial.IsRoot, polyOf_eval, h0]))
  linarith

/-- The impulse response of a stable filter decays geometrically. -/
theorem response_geometric {as bs : List ℝ} {c : ℝ} (h : Spec.PolesInside bs c) :
    ∃ K ρ : ℝ, 0 ≤ K ∧ 0 < ρ ∧ ρ < 1 ∧ ∀ n, |impulseResponse as bs c n| ≤ K * ρ ^ n := by
  have hc : c ≠ 0 := by
    rintro rfl
    refine h 0 (by simp) ?_
    rw [Spec.polyAt, List.length_cons, Finset.sum_range_succ']
    simp
  obtain ⟨t, ht, h2⟩ := larger_disk h
  have ht0 : 0 < t := by linarith
  obtain ⟨⟨K, hK, hb⟩, -⟩ := keeps_poly (l := scaled (c :: bs) t) fun z hz => by
    rw [scaled_polyAt]
    refine h2 _ ?_
    rw [norm_mul, Complex.norm_real, Real.norm_eq_abs, abs_of_pos ht0]
    exact mul_le_of_le_one_right ht0.le hz
  set g := impulseResponse as bs c with hg
  have hprod : cseries (scaled (c :: bs) t) * PowerSeries.mk (fun k => ((g k * t ^ k : ℝ) : ℂ)) = cseries (scaled as t) := by
    have hD := iirOut_series as bs hc fun i => if i = 0 then 1 else 0
    have h1 : (PowerSeries.mk fun i => if i = 0 then (1 : ℝ) else 0) = 1 := by
      ext k
      rw [PowerSeries.coeff_mk, PowerSeries.coeff_one]
    rw [h1, mul_one] at hD
    have er : Spec.series (scaled (c :: bs) t) * PowerSeries.mk (fun k => g k * t ^ k) = Spec.series (scaled as t) := by
      ext n
      have := congrArg (PowerSeries.coeff n) hD
      simp only [PowerSeries.coeff_mul, Spec.coeff_series, PowerSeries.coeff_mk] at this
      rw [PowerSeries.coeff_mul, Spec.coeff_series, scaled_getD, ← this, Finset.sum_mul]
      refine Finset.sum_congr rfl fun kl hkl => ?_
      rw [Spec.coeff_series, scaled_getD, PowerSeries.coeff_mk, ← Finset.mem_antidiagonal.1 hkl, pow_add]
      show _ * _ * (impulseResponse as bs c kl.2 * _) = _ * impulseResponse as bs c kl.2 * _
      ring
    rw [cseries, cseries, ← er, map_mul]
    congr 1
  have hbound := hb _ (((scaled as t).map abs).sum) (fun k => by
    rw [hprod, cseries, PowerSeries.coeff_map, Spec.coeff_series]
    show ‖(((scaled as t).getD k 0 : ℝ) : ℂ)‖ ≤ _
    rw [Complex.norm_real, Real.norm_eq_abs]
    rcases Nat.lt_or_ge k (scaled as t).length with hk | hk
    · rw [List.getD_eq_getElem _ _ hk]
      exact List.single_le_sum (by intro x hx; obtain ⟨y, -, rfl⟩ := List.mem_map.1 hx; exact abs_nonneg y) _
        (List.mem_map_of_mem (List.getElem_mem hk))
    · rw [List.getD_eq_default _ _ hk, abs_zero]
      exact List.sum_nonneg (by intro x hx; obtain ⟨y, -, rfl⟩ := List.mem_map.1 hx; exact abs_nonneg y))
  refine ⟨K * ((scaled as t).map abs).sum, t⁻¹, mul_nonneg hK
    (List.sum_nonneg (by intro x hx; obtain ⟨y, -, rfl⟩ := List.mem_map.1 hx; exact abs_nonneg y)), by positivity, inv_lt_one_of_one_lt₀ ht, fun n => ?_⟩
  have := hbound n
  rw [PowerSeries.coeff_mk, Complex.norm_real, Real.norm_eq_abs, abs_mul, abs_of_pos (pow_pos ht0 n)] at this
  rw [inv_pow, ← div_eq_mul_inv, le_div_iff₀ (pow_pos ht0 n)]
  exact this

/-- C183: the influence of old inputs on a stable infinite filter decays geometrically: two histories whose last `n` inputs agree give outputs
that differ by at most `K ρ^n` times the size of the inputs. -/
theorem C183_forgets {as bs : List ℝ} (ha : as ≠ []) (hb : bs ≠ []) {c : ℝ} (h : Spec.PolesInside bs c) :
    ∃ K ρ : ℝ, 0 ≤ K ∧ 0 < ρ ∧ ρ < 1 ∧ ∀ (ops ops' : List (Op ℝ)) (zs : List ℝ) (B : ℝ), 0 ≤ B →
      (∀ x ∈ sinceClear ops, |x| ≤ B) → (∀ x ∈ sinceClear ops', |x| ≤ B) →
      ∃ (s s' : Impulse.Infinite (E ε)) (y y' : ℝ),
        Impulse.Infinite.run (as.map X.fin) (bs.map X.fin) (X.fin c) (finOps (ops ++ zs.map .push)) = some s
        ∧ Impulse.Infinite.run (as.map X.fin) (bs.map X.fin) (X.fin c) (finOps (ops' ++ zs.map .push)) = some s'
        ∧ s.value = X.fin y ∧ s'.value = X.fin y' ∧ |y - y'| ≤ K * ρ ^ zs.length * B := by
  have hc : c ≠ 0 := by
    rintro rfl
    refine h 0 (by simp) ?_
    rw [Spec.polyAt, List.length_cons, Finset.sum_range_succ']
    simp
  obtain ⟨K, ρ, hK, hρ0, hρ1, hg⟩ := response_geometric (as := as) h
  set g := impulseResponse as bs c with hgdef
  have value : ∀ (o : List (Op ℝ)) (zs : List ℝ), ∃ s : Impulse.Infinite (E ε),
      Impulse.Infinite.run (as.map X.fin) (bs.map X.fin) (X.fin c) (finOps (o ++ zs.map .push)) = some s
      ∧ s.value = X.fin (Stochastic.lin ((List.range zs.length).map g) zs.reverse
        + Stochastic.lin ((List.range (sinceClear o).length).map fun i => g (zs.length + i)) (sinceClear o).reverse) := by
    intro o zs
    obtain ⟨s, ys, hs, hy, -, hv⟩ := C52_iir (ε := ε) ha hb hc (o ++ zs.map .push)
    refine ⟨s, hs, ?_⟩
    rw [hv, iir_conv hc hy, sinceClear_append_pushes, List.length_append, List.reverse_append, Nat.add_comm, List.range_add, List.map_append,
      Stochastic.lin, List.zipWith_append (by simp), List.sum_append, List.map_map]
    rfl
  have tail : ∀ (o : List (Op ℝ)) (n : ℕ) (B : ℝ), 0 ≤ B → (∀ x ∈ sinceClear o, |x| ≤ B) →
      |Stochastic.lin ((List.range (sinceClear o).length).map fun i => g (n + i)) (sinceClear o).reverse| ≤ K / (1 - ρ) * ρ ^ n * B := by
    intro o n B hB hx
    generalize hxs : (sinceClear o).reverse = xs
    have hx' : ∀ x ∈ xs, |x| ≤ B := fun x hm => hx x (by rw [← hxs] at hm; simpa using hm)
    rw [show (sinceClear o).length = xs.length by rw [← hxs, List.length_reverse]]
    clear hxs hx
    induction xs generalizing n with
    | nil => simp; have := sub_pos.2 hρ1; positivity
    | cons x xs ih =>
      rw [List.length_cons, List.range_succ_eq_map, List.map_cons, List.map_map, Stochastic.lin_cons]
      have e : ((fun i => g (n + i)) ∘ Nat.succ) = fun i => g (n + 1 + i) := by
        funext i; simp only [Function.comp_apply]; congr 1; omega
      rw [e]
      refine (abs_add_le _ _).trans ?_
      have h1 := ih (n + 1) fun x hm => hx' x (List.mem_cons_of_mem _ hm)
      have h2 : |g (n + 0) * x| ≤ K * ρ ^ n * B := by
        rw [abs_mul, add_zero]
        exact mul_le_mul (hg n) (hx' x List.mem_cons_self) (abs_nonneg _) (by positivity)
      refine (add_le_add h2 h1).trans (le_of_eq ?_)
      have := (sub_pos.2 hρ1).ne'
      field_simp
      ring
  refine ⟨2 * (K / (1 - ρ)), ρ, by have := sub_pos.2 hρ1; positivity, hρ0, hρ1, fun ops ops' zs B hB h1 h2 => ?_⟩
  obtain ⟨s, hs, hv⟩ := value ops zs
  obtain ⟨s', hs', hv'⟩ := value ops' zs
  refine ⟨s, s', _, _, hs, hs', hv, hv', ?_⟩
  rw [add_sub_add_left_eq_sub]
  refine (abs_sub _ _).trans ((add_le_add (tail ops zs.length B hB h1) (tail ops' zs.length B hB h2)).trans (le_of_eq ?_))
  ring

/-! ### Non-vacuity -/

/-- The moving average of two values removes the oscillation that changes its sign with every value. -/
example (φ : ℝ) (n : ℕ) (hn : 1 ≤ n) : ∃ s : Impulse.Finite (E ε),
    Impulse.Finite.run ([1 / 2, 1 / 2].map X.fin) (finOps (((List.range (n + 1)).map fun k : ℕ => Real.cos (Real.pi * k + φ)).map .push)) = some s
      ∧ s.value = X.fin 0 := by
  obtain ⟨s, hs, hv⟩ := C182_fir (ε := ε) (cs := [1 / 2, 1 / 2]) (by simp) Real.pi φ n (by simpa using hn)
  refine ⟨s, hs, ?_⟩
  have : Spec.frequencyResponse [1 / 2, 1 / 2] [1] Real.pi = 0 := by
    rw [Spec.frequencyResponse, Complex.exp_neg, Complex.exp_pi_mul_I]
    simp [Spec.polyAt, Finset.sum_range_succ]
  rw [hv, this, norm_zero, zero_mul]

example (ω φ : ℝ) : ∃ y : ℕ → ℝ, (∀ n, ∃ s : Impulse.Infinite (E ε),
      Impulse.Infinite.run ([1].map X.fin) ([-6 / 5, 18 / 25].map X.fin) (X.fin 1)
        (finOps (((List.range (n + 1)).map fun k : ℕ => Real.cos (ω * k + φ)).map .push)) = some s ∧ s.value = X.fin (y n))
    ∧ Tendsto (fun n : ℕ => y n - ‖Spec.frequencyResponse [1] [1, -6 / 5, 18 / 25] ω‖
        * Real.cos (ω * n + φ + (Spec.frequencyResponse [1] [1, -6 / 5, 18 / 25] ω).arg)) atTop (𝓝 0) :=
  C182_iir (by simp) (by simp) polesInside_example ω φ

example : ∃ K ρ : ℝ, 0 ≤ K ∧ 0 < ρ ∧ ρ < 1 ∧ ∀ (ops ops' : List (Op ℝ)) (zs : List ℝ) (B : ℝ), 0 ≤ B →
    (∀ x ∈ sinceClear ops, |x| ≤ B) → (∀ x ∈ sinceClear ops', |x| ≤ B) →
    ∃ (s s' : Impulse.Infinite (E ε)) (y y' : ℝ),
      Impulse.Infinite.run ([1].map X.fin) ([-6 / 5, 18 / 25].map X.fin) (X.fin 1) (finOps (ops ++ zs.map .push)) = some s
      ∧ Impulse.Infinite.run ([1].map X.fin) ([-6 / 5, 18 / 25].map X.fin) (X.fin 1) (finOps (ops' ++ zs.map .push)) = some s'
      ∧ s.value = X.fin y ∧ s'.value = X.fin y' ∧ |y - y'| ≤ K * ρ ^ zs.length * B :=
  C183_forgets (by simp) (by simp) polesInside_example

end Verif.Props
