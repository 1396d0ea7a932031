import Verif.Props.InputError
import Verif.Props.VarianceError
import Verif.Props.ErrorBound
import Verif.Props.DecayRounded
import Verif.Props.InterimError
import Verif.Props.Trend
import Verif.Proofs.PSquareFloat
/-
C190: data that are converted to the number type before they are pushed, such as decimal literals or values read from a
file.  The computed result is compared with the exact statistic of the data before the conversion.
-/
namespace Verif.Props
open Scalar Exact

variable {F : Fmt} {p : Nat} {emin : Int} {u η : ℝ} {w N W : Nat}

/-- The history after the conversion of its values. -/
def converted (F : Fmt) (ops : List (Op ℝ)) : List (Op ℝ) := ops.map (Op.map F.rnd)

/-- The history of pairs after the conversion of both coordinates. -/
def converted2 (F : Fmt) (ops : List (Op (ℝ × ℝ))) : List (Op (ℝ × ℝ)) := ops.map (Op.map fun q => (F.rnd q.1, F.rnd q.2))

theorem sinceClear_converted (ops : List (Op ℝ)) : sinceClear (converted F ops) = (sinceClear ops).map F.rnd :=
  sinceClear_map _ _

theorem sinceClear_converted2 (ops : List (Op (ℝ × ℝ))) :
    sinceClear (converted2 F ops) = (sinceClear ops).map fun q => (F.rnd q.1, F.rnd q.2) := sinceClear_map _ _

/-- Values up to the number `B` remain within `B`. -/
theorem rnd_within (hF : F.Binary p emin) {B x : ℝ} (hB : IsRep p emin B) (h : |x| ≤ B) : |F.rnd x| ≤ B := by
  have h' := abs_le.1 h
  have h1 := hF.mono h'.1
  have h2 := hF.mono h'.2
  rw [hF.exact _ hB.neg] at h1
  rw [hF.exact _ hB] at h2
  exact abs_le.2 ⟨h1, h2⟩

theorem converted_within (hF : F.Binary p emin) {B : ℝ} (hB : IsRep p emin B) {xs : List ℝ} (h : ∀ x ∈ xs, |x| ≤ B) :
    ∀ y ∈ xs.map F.rnd, |y| ≤ B := by
  intro y hy
  obtain ⟨x, hx, rfl⟩ := List.mem_map.1 hy
  exact rnd_within hF hB (h x hx)

theorem converted_data (hF : F.Binary p emin) {B : ℝ} (hB : IsRep p emin B) (hf : F.fits (2 * B)) {xs : List ℝ}
    (h : ∀ x ∈ xs, |x| ≤ B) : F.Data p emin (xs.map F.rnd) := by
  have hw := converted_within hF hB h
  refine ⟨fun y hy => ⟨?_, ?_⟩, fun x hx y hy => ?_⟩
  · obtain ⟨x, -, rfl⟩ := List.mem_map.1 hy
    exact hF.rep x
  · have h1 := hw y hy
    have h2 := (abs_nonneg y).trans h1
    refine hF.fits_abs _ _ ?_ hf
    rw [abs_of_nonneg (by linarith : (0 : ℝ) ≤ 2 * B)]
    linarith
  · have h1 := hw x hx
    have h2 := hw y hy
    have h3 := (abs_nonneg y).trans h2
    refine hF.fits_abs _ _ ?_ hf
    rw [abs_of_nonneg (by linarith : (0 : ℝ) ≤ 2 * B)]
    refine rnd_within hF hB.double ((abs_sub _ _).trans ?_)
    linarith

/-- The true and the converted values. -/
theorem converted_measured (hE : F.Err u η) {B : ℝ} (hB0 : 0 ≤ B) {xs : List ℝ} (h : ∀ x ∈ xs, |x| ≤ B) :
    Measured (u * B + η) (xs.map fun x => (x, F.rnd x)) := by
  refine ⟨add_nonneg (mul_nonneg hE.u_nonneg hB0) hE.eta_nonneg, fun q hq => ?_⟩
  obtain ⟨x, hx, rfl⟩ := List.mem_map.1 hq
  refine (hE.err x).trans ?_
  have := mul_le_mul_of_nonneg_left (h x hx) hE.u_nonneg
  linarith

theorem map_fst_rnd (xs : List ℝ) : (xs.map fun x => (x, F.rnd x)).map Prod.fst = xs := by simp [Function.comp_def]
theorem map_snd_rnd (xs : List ℝ) : (xs.map fun x => (x, F.rnd x)).map Prod.snd = xs.map F.rnd := by simp

/-- A linear statistic that is bounded by the largest value changes by at most the largest conversion error. -/
theorem linear_converted (hE : F.Err u η) {T : List ℝ → ℝ} (hT : Linear T) {B : ℝ} (hB0 : 0 ≤ B) {xs : List ℝ}
    (h : ∀ x ∈ xs, |x| ≤ B)
    (hb : ∀ δ : ℝ, 0 ≤ δ → ∀ l : List ℝ, l.length = xs.length → (∀ x ∈ l, |x| ≤ δ) → |T l| ≤ δ) :
    |T (xs.map F.rnd) - T xs| ≤ u * B + η := by
  have hm := converted_measured hE hB0 h
  have e := linear_error hT (xs.map fun x => (x, F.rnd x))
  rw [map_fst_rnd, map_snd_rnd] at e
  rw [e]
  exact hb _ hm.1 _ (by simp [errors]) hm.errors

/-- C190: the mean. -/
theorem C190_mean (hF : F.Binary p emin) (hE : F.Err u η) (ops : List (Op ℝ)) (hn : sinceClear ops ≠ [])
    (hw : (sinceClear ops).length < 2 ^ w) (hp : (sinceClear ops).length ≤ 2 ^ p)
    (hfit : F.fits ((sinceClear ops).length : ℝ)) {B : ℝ} (hBr : IsRep p emin B) (hBf : F.fits (2 * B))
    (hB : ∀ x ∈ sinceClear ops, |x| ≤ B) :
    ∃ m : ℝ, (Cumulative.Mean.run (finOps (converted F ops)) : Cumulative.Mean w (X F)).getMean = X.fin m
      ∧ |m - Spec.mean (sinceClear ops)|
        ≤ (((sinceClear ops).length + 1) / 2 + 6) * (u * B) + (3 * ((sinceClear ops).length + 1) / 2 + 3) * η := by
  obtain ⟨x0, hx0⟩ := List.exists_mem_of_ne_nil _ hn
  have hB0 := (abs_nonneg _).trans (hB x0 hx0)
  have hs := sinceClear_converted (F := F) ops
  obtain ⟨m, h1, h2⟩ := C61_mean_error (w := w) hF hE (converted F ops) (by rw [hs]; exact converted_data hF hBr hBf hB)
    (by rw [hs]; simpa using hn) (by rw [hs, List.length_map]; exact hw) (by rw [hs, List.length_map]; exact hp)
    (by rw [hs, List.length_map]; exact hfit) (B := B) (by rw [hs]; exact converted_within hF hBr hB)
  refine ⟨m, h1, ?_⟩
  rw [hs, List.length_map] at h2
  have h3 := linear_converted hE linear_mean hB0 hB (fun δ hδ l _ hl => Window.abs_mean_le hδ hl)
  refine (abs_sub_le _ (Spec.mean ((sinceClear ops).map F.rnd)) _).trans ((add_le_add h2 h3).trans (le_of_eq ?_))
  ring

/-- C190: the trend. -/
theorem C190_trend (hF : F.Binary p emin) (hE : F.Err u η) (ops : List (Op ℝ)) (hn : sinceClear ops ≠ [])
    (hw : (sinceClear ops).length < 2 ^ w) (hp : (sinceClear ops).length ≤ 2 ^ p)
    (hfit : F.fits ((sinceClear ops).length : ℝ)) {B K : ℝ} (hBr : IsRep p emin B)
    (hB : ∀ x ∈ sinceClear ops, |x| ≤ B) (hK : IsRep p emin K) (hKf : F.fits K) (hBK : 8 * (B + η) ≤ K) :
    ∃ v : ℝ, (Cumulative.Trend.run (finOps (converted F ops)) : Cumulative.Trend w (X F)).value = X.fin v
      ∧ |v - (3 * Spec.mean (sinceClear ops) - 2 * Spec.mean (Spec.runningMeans (sinceClear ops)))|
        ≤ (7 / 2 * (sinceClear ops).length + 59) * (u * B) + (21 / 2 * (sinceClear ops).length + 35) * η := by
  obtain ⟨x0, hx0⟩ := List.exists_mem_of_ne_nil _ hn
  have hB0 := (abs_nonneg _).trans (hB x0 hx0)
  have hη := hE.eta_nonneg
  have hs := sinceClear_converted (F := F) ops
  have hBf : F.fits (2 * B) := by
    refine hF.fits_abs _ _ ?_ hKf
    rw [abs_of_nonneg (by linarith : (0 : ℝ) ≤ 2 * B), abs_of_nonneg (by linarith : (0 : ℝ) ≤ K)]
    linarith
  obtain ⟨m, h1, h2⟩ := C121_error (w := w) hF hE (converted F ops) (by rw [hs]; exact converted_data hF hBr hBf hB)
    (by rw [hs]; simpa using hn) (by rw [hs, List.length_map]; exact hw) (by rw [hs, List.length_map]; exact hp)
    (by rw [hs, List.length_map]; exact hfit) (B := B) (by rw [hs]; exact converted_within hF hBr hB) hK hKf hBK
  refine ⟨m, h1, ?_⟩
  rw [hs, List.length_map] at h2
  have h3 := abs_le.1 (linear_converted hE linear_mean hB0 hB (fun δ hδ l _ hl => Window.abs_mean_le hδ hl))
  have h4 := abs_le.1 (linear_converted hE linear_runningMeans hB0 hB (fun δ hδ l _ hl => by
    refine Window.abs_mean_le hδ fun y hy => ?_
    simp only [Spec.runningMeans, List.mem_map] at hy
    obtain ⟨k, -, rfl⟩ := hy
    exact Window.abs_mean_le hδ fun x hx => hl x (List.mem_of_mem_take hx)))
  have h2 := abs_le.1 h2
  exact abs_le.2 ⟨by linarith, by linarith⟩

open Decay in
/-- C190: the decay mean. -/
theorem C190_decay_mean (hF : F.Binary p emin) (hE : F.Err u η) {f B K : ℝ} (hf0 : 0 < f) (hf1 : f ≤ 1)
    (hfr : IsRep p emin f) (hB0 : 0 ≤ B) (hBr : IsRep p emin B) (hK : IsRep p emin K) (hKf : F.fits K) (hBK : 8 * B ≤ K)
    (hBK' : B + (sumErr u η f B + B * sumErr u η f 1) / f ≤ K) (hc : sumErr u η f B ≤ B)
    (ops : List (Op ℝ)) (hB : ∀ x ∈ sinceClear ops, |x| ≤ B) :
    ∃ m : ℝ, (Mean.run (X.fin f) (finOps (converted F ops)) : Mean (X F)).mean = X.fin m
      ∧ |m - Spec.ewMean f (sinceClear ops)|
        ≤ (1 + u) * ((sumErr u η f B + B * sumErr u η f 1) / f) + 2 * (u * B + η) := by
  have hs := sinceClear_converted (F := F) ops
  obtain ⟨m, h1, h2⟩ := C64_decay_mean_error hF hE hf0 hf1 hfr hB0 hK hKf hBK hBK' hc (converted F ops)
    (by rw [hs]; exact converted_within hF hBr hB)
  refine ⟨m, h1, ?_⟩
  rw [hs] at h2
  have h3 := linear_converted hE (linear_ewMean f) hB0 hB (fun δ hδ l _ hl => abs_ewMean_le hf0 hf1 hδ hl)
  refine (abs_sub_le _ (Spec.ewMean f ((sinceClear ops).map F.rnd)) _).trans ((add_le_add h2 h3).trans (le_of_eq ?_))
  ring

/-- C190: the window mean. -/
theorem C190_window_mean (hF : F.Binary p emin) (hE : F.Err u η) (hN : 1 ≤ N) (hp : N ≤ 2 ^ p) (hfit : F.fits (N : ℝ))
    {B K : ℝ} (hB0 : 0 ≤ B) (hBr : IsRep p emin B) (hK : IsRep p emin K) (hKf : F.fits K) (hBK : 8 * B ≤ K) (ops : List (Op ℝ))
    (hB : ∀ x ∈ sinceClear ops, |x| ≤ B) (ht : (sinceClear ops).length * (12 * (u * B) + 5 * η) ≤ B) :
    ∃ (s : Window.Mean N (X F)) (m : ℝ), Window.Mean.run (finOps (converted F ops)) = some s ∧ s.getMean = X.fin m
      ∧ |m - Spec.mean (Spec.lastN N (sinceClear ops))|
        ≤ (sinceClear ops).length * (12 * (u * B) + 5 * η) + (u * B + η) := by
  have hs := sinceClear_converted (F := F) ops
  obtain ⟨s, m, h0, h1, h2⟩ := C62_window_drift hF hE hN hp hfit hK hKf hBK (converted F ops)
    (by rw [hs]; exact converted_within hF hBr hB) (by rw [hs, List.length_map]; exact ht)
  refine ⟨s, m, h0, h1, ?_⟩
  rw [hs, List.length_map, Spec.lastN_map] at h2
  have h3 := linear_converted hE linear_mean hB0 (xs := Spec.lastN N (sinceClear ops)) (fun x hx => hB x (List.mem_of_mem_drop hx))
    (fun δ hδ l _ hl => Window.abs_mean_le hδ hl)
  exact (abs_sub_le _ (Spec.mean ((Spec.lastN N (sinceClear ops)).map F.rnd)) _).trans (add_le_add h2 h3)

open Cumulative Interim in
/-- C190: the interim mean. -/
theorem C190_interim_mean (hF : F.Binary p emin) (hE : F.Err u η) (hW : 1 ≤ W) (hw : 2 * W < 2 ^ w) (hp : 2 * W ≤ 2 ^ p)
    (hf : F.fits ((2 * W : Nat) : ℝ)) {B K : ℝ} (hB0 : 0 ≤ B) (hBr : IsRep p emin B) (hη : η ≤ u * B) (hK : IsRep p emin K) (hKf : F.fits K)
    (hBK : 6 * W * B ≤ K) (hsmall : (2 * W + 9) * u ≤ 1) (ops : List (Op ℝ)) (hne : sinceClear ops ≠ [])
    (hB : ∀ x ∈ sinceClear ops, |x| ≤ B) :
    ∃ r : ℝ, IMean.mean (Interim.run (finOps (converted F ops)) : IMean w W (X F)) = X.fin r
      ∧ |r - Spec_interimMean W (sinceClear ops)| ≤ (2 * W + 23) * (u * B) := by
  have hs := sinceClear_converted (F := F) ops
  have hW1 : (1 : ℝ) ≤ W := by exact_mod_cast hW
  have hBW := mul_le_mul_of_nonneg_right hW1 hB0
  have hBf : F.fits (2 * B) := by
    refine hF.fits_abs _ _ ?_ hKf
    rw [abs_of_nonneg (by linarith : (0 : ℝ) ≤ 2 * B), abs_of_nonneg (by linarith : (0 : ℝ) ≤ K)]
    linarith
  obtain ⟨r, h1, h2⟩ := C109_mean_error (w := w) hF hE hW hw hp hf hB0 hη hK hKf hBK hsmall (converted F ops)
    (by rw [hs]; simpa using hne) (by rw [hs]; exact converted_data hF hBr hBf hB) (by rw [hs]; exact converted_within hF hBr hB)
  refine ⟨r, h1, ?_⟩
  rw [hs] at h2
  have h3 := linear_converted hE (linear_interim W) hB0 hB (fun δ hδ l hl hx => by
    rcases eq_or_ne l [] with e | e
    · rw [e]; simp [Spec_interimMean, Spec.mean, hδ]
    · exact abs_interimMean hW e hx)
  refine (abs_sub_le _ (Spec_interimMean W ((sinceClear ops).map F.rnd)) _).trans ((add_le_add h2 h3).trans ?_)
  linarith

theorem variance_converted (hE : F.Err u η) {B : ℝ} (hB0 : 0 ≤ B) (hη : η ≤ u * B) {xs : List ℝ} (hne : xs ≠ [])
    (h : ∀ x ∈ xs, |x| ≤ B) : |Spec.variance (xs.map F.rnd) - Spec.variance xs| ≤ 5 * (u * (B * B)) := by
  have hm := converted_measured hE hB0 h
  have hs := sqrt_variance_error (by simpa using hne) hm
  rw [map_fst_rnd, map_snd_rnd] at hs
  have h1 := Real.sq_sqrt (variance_nonneg xs)
  have h2 := Real.sq_sqrt (variance_nonneg (xs.map F.rnd))
  have hv := sqrt_le_of_le_mul hB0 (PairData.variance_le hne h)
  have s1 := Real.sqrt_nonneg (Spec.variance xs)
  have s2 := Real.sqrt_nonneg (Spec.variance (xs.map F.rnd))
  have hu := hE.u_nonneg
  have hu' := hE.u_le
  set a := √(Spec.variance xs)
  set b := √(Spec.variance (xs.map F.rnd))
  rw [← h1, ← h2, show b ^ 2 - a ^ 2 = (b - a) * (b + a) by ring, abs_mul, abs_of_nonneg (add_nonneg s2 s1)]
  have hd : |b - a| ≤ 2 * (u * B) := hs.trans (by linarith)
  have huB := mul_nonneg hu hB0
  have hb : b + a ≤ 2 * B + 2 * (u * B) := by have := (abs_le.1 hd).2; linarith
  refine (mul_le_mul hd hb (add_nonneg s2 s1) (by linarith)).trans ?_
  have : u * B * (u * B) ≤ 1 / 8 * (u * (B * B)) := by
    have := mul_le_mul_of_nonneg_right hu' (mul_nonneg hu (mul_nonneg hB0 hB0))
    nlinarith
  nlinarith [mul_nonneg hu (mul_nonneg hB0 hB0)]

/-- C190: the variance. -/
theorem C190_variance (hF : F.Binary p emin) (hE : F.Err u η) {B K : ℝ} (hB0 : 0 ≤ B) (hBr : IsRep p emin B)
    (hηB : η ≤ u * B) (hηBB : η ≤ u * (B * B)) (hK : IsRep p emin K) (hKf : F.fits K) (hBf : F.fits (2 * B))
    (ops : List (Op ℝ)) (hne : sinceClear ops ≠ [])
    (hw : (sinceClear ops).length < 2 ^ w) (hp : (sinceClear ops).length ≤ 2 ^ p) (hfit : F.fits ((sinceClear ops).length : ℝ))
    (hB : ∀ x ∈ sinceClear ops, |x| ≤ B)
    (hBK : 8 * (sinceClear ops).length * (B * B) ≤ K) (hsmall : (6 * (sinceClear ops).length + 65) * u ≤ 1) :
    ∃ v : ℝ, (Cumulative.Variance.run (finOps (converted F ops)) : Cumulative.Variance w (X F)).variance = X.fin v
      ∧ |v - Spec.variance (sinceClear ops)| ≤ (6 * (sinceClear ops).length + 73) * (u * (B * B)) := by
  have hs := sinceClear_converted (F := F) ops
  obtain ⟨v, h1, h2⟩ := C70_variance_error (w := w) hF hE hB0 hηB hηBB hK hKf (converted F ops)
    (by rw [hs]; simpa using hne) (by rw [hs]; exact converted_data hF hBr hBf hB) (by rw [hs, List.length_map]; exact hw)
    (by rw [hs, List.length_map]; exact hp) (by rw [hs, List.length_map]; exact hfit)
    (by rw [hs]; exact converted_within hF hBr hB) (by rw [hs, List.length_map]; exact hBK) (by rw [hs, List.length_map]; exact hsmall)
  refine ⟨v, h1, ?_⟩
  rw [hs, List.length_map] at h2
  refine (abs_sub_le _ (Spec.variance ((sinceClear ops).map F.rnd)) _).trans
    ((add_le_add h2 (variance_converted hE hB0 hηB hne hB)).trans (le_of_eq ?_))
  ring

theorem covariance_converted (hE : F.Err u η) {A B : ℝ} (hA0 : 0 ≤ A) (hB0 : 0 ≤ B) (hηA : η ≤ u * A) (hηB : η ≤ u * B)
    {qs : List (ℝ × ℝ)} (hne : qs ≠ []) (hA : ∀ q ∈ qs, |q.1| ≤ A) (hB : ∀ q ∈ qs, |q.2| ≤ B) :
    |Spec.covariance (qs.map fun q => (F.rnd q.1, F.rnd q.2)) - Spec.covariance qs| ≤ 5 * (u * (A * B)) := by
  have hax : ∀ x ∈ Spec.xsOf qs, |x| ≤ A := by
    intro x hx; obtain ⟨q, hq, rfl⟩ := List.mem_map.1 hx; exact hA q hq
  have hby : ∀ y ∈ Spec.ysOf qs, |y| ≤ B := by
    intro x hx; obtain ⟨q, hq, rfl⟩ := List.mem_map.1 hx; exact hB q hq
  have m1 := converted_measured hE hA0 hax
  have m2 := converted_measured hE hB0 hby
  have hc := covariance_error (δ₁ := u * A + η) (δ₂ := u * B + η) (qs := qs.map fun q => (q, (F.rnd q.1, F.rnd q.2)))
    (by simpa using hne) ⟨by simpa [Spec.xsOf, Function.comp_def] using m1, by simpa [Spec.ysOf, Function.comp_def] using m2⟩
  have e1 : (qs.map fun q => (q, (F.rnd q.1, F.rnd q.2))).map Prod.fst = qs := by simp [Function.comp_def]
  have e2 : (qs.map fun q => (q, (F.rnd q.1, F.rnd q.2))).map Prod.snd = qs.map fun q => (F.rnd q.1, F.rnd q.2) := by simp
  rw [e1, e2] at hc
  have hx := sqrt_le_of_le_mul hA0 (PairData.variance_le (by simpa [Spec.xsOf] using hne) hax)
  have hy := sqrt_le_of_le_mul hB0 (PairData.variance_le (by simpa [Spec.ysOf] using hne) hby)
  have hu := hE.u_nonneg
  have hu' := hE.u_le
  have huA := mul_nonneg hu hA0
  have huB := mul_nonneg hu hB0
  have hAB := mul_nonneg hA0 hB0
  refine hc.trans ?_
  have t1 := mul_le_mul (show u * A + η ≤ 2 * (u * A) by linarith) hy (Real.sqrt_nonneg _) (by linarith)
  have t2 := mul_le_mul (show u * B + η ≤ 2 * (u * B) by linarith) hx (Real.sqrt_nonneg _) (by linarith)
  have t3 := mul_le_mul (show u * A + η ≤ 2 * (u * A) by linarith) (show u * B + η ≤ 2 * (u * B) by linarith)
    (add_nonneg huB hE.eta_nonneg) (by linarith)
  have t4 : 2 * (u * A) * (2 * (u * B)) ≤ u * (A * B) := by
    have := mul_le_mul_of_nonneg_right hu' (mul_nonneg hu hAB)
    nlinarith [mul_nonneg hu hAB]
  nlinarith [mul_nonneg hu hAB]

/-- C190: the covariance. -/
theorem C190_covariance (hF : F.Binary p emin) (hE : F.Err u η) {A B K : ℝ} (hA0 : 0 ≤ A) (hB0 : 0 ≤ B)
    (hAr : IsRep p emin A) (hBr : IsRep p emin B) (hAf : F.fits (2 * A)) (hBf : F.fits (2 * B))
    (hηA : η ≤ u * A) (hηB : η ≤ u * B) (hηAB : η ≤ u * (A * B)) (hK : IsRep p emin K) (hKf : F.fits K)
    (ops : List (Op (ℝ × ℝ))) (hne : sinceClear ops ≠ [])
    (hw : (sinceClear ops).length < 2 ^ w) (hp : (sinceClear ops).length ≤ 2 ^ p) (hfit : F.fits ((sinceClear ops).length : ℝ))
    (hA : ∀ q ∈ sinceClear ops, |q.1| ≤ A) (hB : ∀ q ∈ sinceClear ops, |q.2| ≤ B)
    (hBK : 8 * (sinceClear ops).length * (A * B) ≤ K) (hsmall : (6 * (sinceClear ops).length + 65) * u ≤ 1) :
    ∃ c : ℝ, (Cumulative.Comoment.run (finOps2 (converted2 F ops)) : Cumulative.Comoment w (X F)).variance = X.fin c
      ∧ |c - Spec.covariance (sinceClear ops)| ≤ (6 * (sinceClear ops).length + 73) * (u * (A * B)) := by
  have hs := sinceClear_converted2 (F := F) ops
  have hx : Spec.xsOf (sinceClear (converted2 F ops)) = (Spec.xsOf (sinceClear ops)).map F.rnd := by
    rw [hs]; simp [Spec.xsOf]
  have hy : Spec.ysOf (sinceClear (converted2 F ops)) = (Spec.ysOf (sinceClear ops)).map F.rnd := by
    rw [hs]; simp [Spec.ysOf]
  have hax : ∀ x ∈ Spec.xsOf (sinceClear ops), |x| ≤ A := by
    intro x hx; obtain ⟨q, hq, rfl⟩ := List.mem_map.1 hx; exact hA q hq
  have hby : ∀ y ∈ Spec.ysOf (sinceClear ops), |y| ≤ B := by
    intro x hx; obtain ⟨q, hq, rfl⟩ := List.mem_map.1 hx; exact hB q hq
  have hl : (sinceClear (converted2 F ops)).length = (sinceClear ops).length := by rw [hs, List.length_map]
  have d1 := converted_data hF hAr hAf hax
  have d2 := converted_data hF hBr hBf hby
  have b1 : ∀ q ∈ sinceClear (converted2 F ops), |q.1| ≤ A := by
    rw [hs]; intro q hq; obtain ⟨r, hr, rfl⟩ := List.mem_map.1 hq; exact rnd_within hF hAr (hA r hr)
  have b2 : ∀ q ∈ sinceClear (converted2 F ops), |q.2| ≤ B := by
    rw [hs]; intro q hq; obtain ⟨r, hr, rfl⟩ := List.mem_map.1 hq; exact rnd_within hF hBr (hB r hr)
  have hne' : sinceClear (converted2 F ops) ≠ [] := by rw [hs]; simpa using hne
  have h3 := covariance_converted hE hA0 hB0 hηA hηB hne hA hB
  rw [← hx] at d1
  rw [← hy] at d2
  rw [← hs] at h3
  rw [← hl] at hw hp hfit hBK hsmall ⊢
  clear hs hx hy hl
  generalize converted2 F ops = ops' at *
  obtain ⟨c, h1, h2⟩ := C70_covariance_error (w := w) hF hE hA0 hB0 hηA hηB hηAB hK hKf ops' hne' d1 d2 hw hp hfit b1 b2 hBK hsmall
  refine ⟨c, h1, (abs_sub_le _ (Spec.covariance (sinceClear ops')) _).trans ((add_le_add h2 h3).trans (le_of_eq ?_))⟩
  ring

/-- The `double` mean of the literals 0.1, 0.2, 0.6 is 0.3 up to `8 * 2^-53` and a negligible term. -/
example : ∃ m : ℝ, (Cumulative.Mean.run (finOps (converted binary64 [.push 100, .clear, .push (1 / 10), .push (1 / 5), .push (3 / 5)])) :
      Cumulative.Mean 64 (X binary64)).getMean = X.fin m
    ∧ |m - 3 / 10| ≤ 8 * 2 ^ (-53 : Int) + 9 * 2 ^ (-1075 : Int) := by
  generalize hops : ([.push 100, .clear, .push (1 / 10), .push (1 / 5), .push (3 / 5)] : List (Op ℝ)) = ops
  have hs : sinceClear ops = [1 / 10, 1 / 5, 3 / 5] := by rw [← hops]; rfl
  have h1 := binary64_int (n := 1) (by norm_num)
  have h2 := binary64_int (n := 2) (by norm_num)
  have h3 := binary64_int (n := 3) (by norm_num)
  push_cast at h1 h2 h3
  obtain ⟨m, e1, e2⟩ := C190_mean (w := 64) binary64_binary binary64_err ops
    (by rw [hs]; simp) (by rw [hs]; simp) (by rw [hs]; norm_num) (by rw [hs]; simpa using h3.2) (B := 1) h1.1 (by simpa using h2.2)
    (by rw [hs]; intro x hx; simp only [List.mem_cons, List.not_mem_nil, or_false] at hx
        rcases hx with rfl | rfl | rfl <;> norm_num [abs_le])
  refine ⟨m, e1, ?_⟩
  rw [hs] at e2
  have e : Spec.mean [1 / 10, 1 / 5, 3 / 5] = 3 / 10 := by simp [Spec.mean]; norm_num
  rw [e] at e2
  refine e2.trans (le_of_eq ?_)
  simp only [List.length_cons, List.length_nil]
  generalize (2 : ℝ) ^ (-53 : Int) = a
  generalize (2 : ℝ) ^ (-1075 : Int) = b
  push_cast
  ring

end Verif.Props
