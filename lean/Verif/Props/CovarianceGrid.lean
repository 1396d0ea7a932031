import Verif.Props.IntegerData
import Verif.Props.CovarianceRounded
import Verif.Props.OrderRounded
import Verif.Props.WindowRegressionError
/-
C66, C67, C104: sign of the window covariance of integer data (whole multiples of a power of two) in floating point.
-/
namespace Verif.Props
open Scalar Window Exact

variable {F : Fmt} {p : Nat} {emin : Int} {W : Nat}

/-- Dividing a representable number by a number that is at least 1 keeps its sign. -/
theorem div_sign (hF : F.Binary p emin) {r n : ℝ} (hr : IsRep p emin r) (hf : F.fits r) (hn : 1 ≤ n) :
    ∃ c : ℝ, (X.fin r / X.fin n : X F) = X.fin c ∧ (0 ≤ r → 0 ≤ c) ∧ (r ≤ 0 → c ≤ 0) := by
  have hn0 : 0 < n := by linarith
  have z := isRep_zero p emin
  have hpos : 0 ≤ r → 0 ≤ F.rnd (r / n) := fun h => hF.le_rnd z (by positivity)
  have hneg : r ≤ 0 → F.rnd (r / n) ≤ 0 := fun h => hF.rnd_le z (div_nonpos_of_nonpos_of_nonneg h hn0.le)
  refine ⟨F.rnd (r / n), ?_, hpos, hneg⟩
  rw [X.div_fin_of_ne _ hn0.ne', X.round, if_pos]
  rcases le_total 0 r with h | h
  · exact hF.fits_between hF.fits_zero hf (hpos h) (hF.rnd_le hr (div_le_self h hn))
  · refine hF.fits_between hf hF.fits_zero (hF.le_rnd hr ?_) (hneg h)
    rw [le_div_iff₀ hn0]; nlinarith

/-- The computed covariance of integer data never has the wrong sign, and it is 0 if the covariance is 0. -/
theorem window_sign (hF : F.Binary p emin) (hW : 1 ≤ W) (hWp : W ≤ 2 ^ p) (hWf : F.fits (W : ℝ)) {e e' : Int} {A B : Nat}
    (ops : List (Op (ℝ × ℝ))) (h : IntegerPairs F p emin W e e' A B (sinceClear ops)) (hp : 2 * (W * W * (A * B)) < 2 ^ p) :
    ∃ (s : Comoment W (X F)) (c d : ℝ), Comoment.run (finOps2 ops) = some s ∧ s.variance = X.fin c ∧ s.unbiasedVariance = X.fin d
      ∧ (0 ≤ Spec.cosum (Spec.lastN W (sinceClear ops)) → 0 ≤ c ∧ 0 ≤ d)
      ∧ (Spec.cosum (Spec.lastN W (sinceClear ops)) ≤ 0 → c ≤ 0 ∧ d ≤ 0) := by
  obtain ⟨s, h1, h2, h3, h4, h5⟩ := C155_sums_partial hF hW ops h
  have hsub : ∀ q ∈ Spec.lastN W (sinceClear ops), q ∈ sinceClear ops := fun q hq => List.mem_of_mem_drop hq
  have hlen : (Spec.lastN W (sinceClear ops)).length ≤ W := by rw [Spec.length_lastN]; omega
  set l := Spec.lastN W (sinceClear ops) with hl
  have hsize : s.size = l.length := by
    show s.window.items.length = _
    rw [h2, List.length_map]
  by_cases h0 : l.length = 0
  · refine ⟨s, 0, 0, h1, ?_, ?_, fun _ => ⟨le_rfl, le_rfl⟩, fun _ => ⟨le_rfl, le_rfl⟩⟩
    · rw [Comoment.variance, if_neg (by omega), hF.ofNat_zero]
    · rw [Comoment.unbiasedVariance, if_neg (by omega), hF.ofNat_zero]
  have hnat : ∀ k : Nat, k ≤ W → (ofNat k : X F) = X.fin k := fun k hk =>
    hF.ofNat_fin (hk.trans hWp) (hF.fits_abs _ _ (by rw [Nat.abs_cast, Nat.abs_cast]; exact_mod_cast hk) hWf)
  have g1 : Grid e (W * A) (Spec.xsOf l).sum := by
    refine (Grid.sum (B := A) fun y hy => ?_).mono (Nat.mul_le_mul_right _ (by rw [Spec.length_xsOf]; exact hlen))
    obtain ⟨r, hr, rfl⟩ := List.mem_map.1 hy; exact h.xs r (hsub r hr)
  have g2 : Grid e' (W * B) (Spec.ysOf l).sum := by
    refine (Grid.sum (B := B) fun y hy => ?_).mono (Nat.mul_le_mul_right _ (by rw [Spec.length_ysOf]; exact hlen))
    obtain ⟨r, hr, rfl⟩ := List.mem_map.1 hy; exact h.ys r (hsub r hr)
  have g3 : Grid (e + e') (W * (A * B)) (l.map fun q => q.1 * q.2).sum := by
    refine (Grid.sum (B := A * B) fun y hy => ?_).mono (Nat.mul_le_mul_right _ (by rw [List.length_map]; exact hlen))
    obtain ⟨r, hr, rfl⟩ := List.mem_map.1 hy; exact (h.xs r (hsub r hr)).mul (h.ys r (hsub r hr))
  have g4 := g1.mul g2
  rw [show W * A * (W * B) = W * W * (A * B) by ring] at g4
  have g3' : Grid (e + e') (W * W * (A * B)) (l.map fun q => q.1 * q.2).sum := g3.mono (by rw [mul_assoc]; exact Nat.le_mul_of_pos_left _ hW)
  have hcos := Spec.cosum_eq l
  set a := (Spec.xsOf l).sum
  set b := (Spec.ysOf l).sum
  set S := (l.map fun q => q.1 * q.2).sum
  have hn1 : (1 : ℝ) ≤ l.length := by exact_mod_cast (show 1 ≤ l.length by omega)
  have hn0 : (0 : ℝ) < l.length := by linarith
  -- numbers of the grid are representable
  have rep : ∀ {C : Nat} {x : ℝ}, Grid (e + e') C x → C < 2 ^ p → IsRep p emin x ∧ F.fits x := fun {C x} hg hC => by
    have ha := hg.abs_le
    obtain ⟨m, hm, hm2⟩ := hg
    refine ⟨⟨m, e + e', hm, lt_of_le_of_lt hm2 (by exact_mod_cast hC), h.minXY⟩, hF.fits_abs _ _ (ha.trans ?_) h.maxXY⟩
    rw [abs_of_pos (by positivity)]
    refine mul_le_mul_of_nonneg_right ?_ (by positivity)
    exact_mod_cast hC.le
  -- bound of everything
  set V : ℝ := ((W * W * (A * B) : Nat) : ℝ) * (2 : ℝ) ^ (e + e') with hV
  have hV0 : 0 ≤ V := by positivity
  have rV : IsRep p emin V ∧ F.fits V := rep (C := W * W * (A * B)) ⟨(W * W * (A * B) : Nat), by rw [hV]; push_cast; rfl, by rw [Nat.abs_cast]⟩ (by omega)
  have rV2 : IsRep p emin (2 * V) ∧ F.fits (2 * V) :=
    rep (C := 2 * (W * W * (A * B))) ⟨(2 * (W * W * (A * B)) : Nat), by rw [hV]; push_cast; ring, by rw [Nat.abs_cast]⟩ hp
  have hab := abs_le.1 g4.abs_le
  have hS := abs_le.1 g3'.abs_le
  rw [← hV] at hab hS
  have rS := rep g3' (by omega)
  -- the quotient
  have hq1 : -V ≤ a * b / l.length := by rw [le_div_iff₀ hn0]; nlinarith
  have hq2 : a * b / l.length ≤ V := by rw [div_le_iff₀ hn0]; nlinarith
  have q1 := hF.le_rnd rV.1.neg hq1
  have q2 := hF.rnd_le rV.1 hq2
  have hqr : (X.round (a * b / l.length) : X F) = X.fin (F.rnd (a * b / l.length)) := by
    rw [X.round, if_pos (hF.fits_between (hF.fits_neg rV.2) rV.2 q1 q2)]
  have sgn1 : 0 ≤ Spec.cosum l → F.rnd (a * b / l.length) ≤ S := fun h => hF.rnd_le rS.1 (by linarith)
  have sgn2 : Spec.cosum l ≤ 0 → S ≤ F.rnd (a * b / l.length) := fun h => hF.le_rnd rS.1 (by linarith)
  set q := F.rnd (a * b / l.length)
  -- the difference
  have d1 := hF.le_rnd rV2.1.neg (show -(2 * V) ≤ S - q by linarith)
  have d2 := hF.rnd_le rV2.1 (show S - q ≤ 2 * V by linarith)
  have hdf : F.fits (F.rnd (S - q)) := hF.fits_between (hF.fits_neg rV2.2) rV2.2 d1 d2
  have hdr : IsRep p emin (F.rnd (S - q)) := hF.rep _
  have z := isRep_zero p emin
  have s1 : 0 ≤ Spec.cosum l → 0 ≤ F.rnd (S - q) := fun h => hF.le_rnd z (by linarith [sgn1 h])
  have s2 : Spec.cosum l ≤ 0 → F.rnd (S - q) ≤ 0 := fun h => hF.rnd_le z (by linarith [sgn2 h])
  have hcosum : s.cosum = X.fin (F.rnd (S - q)) := by
    rw [Comoment.cosum, h3, h4, h5, hsize, hnat _ hlen, X.mul_fin, g4.round hF (by omega) h.minXY h.maxXY, X.div_fin_of_ne _ hn0.ne', hqr,
      X.sub_fin, X.round, if_pos hdf]
  obtain ⟨c, hc1, hc2, hc3⟩ := div_sign hF hdr hdf hn1
  have hvar : s.variance = X.fin c := by
    rw [Comoment.variance, if_pos (by omega), hcosum, hsize, hnat _ hlen, hc1]
  by_cases h2 : l.length = 1
  · refine ⟨s, c, 0, h1, hvar, ?_, fun h => ⟨hc2 (s1 h), le_rfl⟩, fun h => ⟨hc3 (s2 h), le_rfl⟩⟩
    rw [Comoment.unbiasedVariance, if_neg (by omega), hF.ofNat_zero]
  · obtain ⟨d, hd1, hd2, hd3⟩ := div_sign hF hdr hdf (n := ((l.length - 1 : Nat) : ℝ)) (by exact_mod_cast (show 1 ≤ l.length - 1 by omega))
    refine ⟨s, c, d, h1, hvar, ?_, fun h => ⟨hc2 (s1 h), hd2 (s1 h)⟩, fun h => ⟨hc3 (s2 h), hd3 (s2 h)⟩⟩
    rw [Comoment.unbiasedVariance, if_pos (by omega), hcosum, hsize, hnat _ (by omega), hd1]

/-- C66, window filter, integer data: if one coordinate is constant within the window, the covariance is exactly 0,
whatever was pushed before. -/
theorem C66_window_integers_partial (hF : F.Binary p emin) (hW : 1 ≤ W) (hWp : W ≤ 2 ^ p) (hWf : F.fits (W : ℝ)) {e e' : Int} {A B : Nat}
    (ops : List (Op (ℝ × ℝ))) (h : IntegerPairs F p emin W e e' A B (sinceClear ops)) (hp : 2 * (W * W * (A * B)) < 2 ^ p)
    (hc : ConstantCoordinate (Spec.lastN W (sinceClear ops))) :
    ∃ s : Comoment W (X F), Comoment.run (finOps2 ops) = some s ∧ s.variance = X.fin 0 ∧ s.unbiasedVariance = X.fin 0 := by
  obtain ⟨s, c, d, h1, h2, h3, h4, h5⟩ := window_sign hF hW hWp hWf ops h hp
  have h0 : Spec.cosum (Spec.lastN W (sinceClear ops)) = 0 := by
    generalize Spec.lastN W (sinceClear ops) = l at hc
    rw [Spec.cosum_eq]
    rcases l.eq_nil_or_concat with rfl | ⟨_, _, rfl⟩
    · simp [Spec.xsOf, Spec.ysOf]
    rename_i l q
    have hn : (((l.concat q).length : Nat) : ℝ) ≠ 0 := by simp; positivity
    rcases hc with ⟨k, hk⟩ | ⟨k, hk⟩
    · have e1 : (Spec.xsOf (l.concat q)).sum = (l.concat q).length * k := by
        rw [Spec.xsOf, List.map_congr_left (g := fun _ => k) hk]; simp; ring
      have e2 : ((l.concat q).map fun r => r.1 * r.2).sum = k * (Spec.ysOf (l.concat q)).sum := by
        rw [List.map_congr_left (g := fun r => k * r.2) (fun r hr => by rw [hk r hr]), List.sum_map_mul_left]; rfl
      rw [e1, e2]; field_simp; ring
    · have e1 : (Spec.ysOf (l.concat q)).sum = (l.concat q).length * k := by
        rw [Spec.ysOf, List.map_congr_left (g := fun _ => k) hk]; simp; ring
      have e2 : ((l.concat q).map fun r => r.1 * r.2).sum = (Spec.xsOf (l.concat q)).sum * k := by
        rw [List.map_congr_left (g := fun r => r.1 * k) (fun r hr => by rw [hk r hr]), List.sum_map_mul_right]; rfl
      rw [e1, e2]; field_simp; ring
  refine ⟨s, h1, ?_, ?_⟩
  · rw [h2, le_antisymm (h5 h0.le).1 (h4 h0.ge).1]
  · rw [h3, le_antisymm (h5 h0.le).2 (h4 h0.ge).2]

/-- `double`, a window of 3: after (7, 1) and three pairs with x = 5 the covariance is 0. -/
example : ∃ s : Comoment 3 (X binary64),
    Comoment.run (finOps2 [.push (7, 1), .push (5, -5), .push (5, 2), .push (5, 8)]) = some s ∧ s.variance = X.fin 0 ∧ s.unbiasedVariance = X.fin 0 := by
  refine C66_window_integers_partial binary64_binary (W := 3) (by norm_num) (by norm_num)
    (by have := (binary64_int (n := 3) (by norm_num)).2; exact_mod_cast this) [.push (7, 1), .push (5, -5), .push (5, 2), .push (5, 8)]
    (samples (by norm_num) _ (by
      intro q hq
      simp only [sinceClear, List.foldl_cons, List.foldl_nil, List.nil_append, List.cons_append, List.mem_cons, List.not_mem_nil, or_false] at hq
      rcases hq with rfl | rfl | rfl | rfl
      exacts [⟨7, 1, by norm_num⟩, ⟨5, -5, by norm_num⟩, ⟨5, 2, by norm_num⟩, ⟨5, 8, by norm_num⟩]))
    (by norm_num) (Or.inl ⟨5, by simp [sinceClear, Spec.lastN]⟩)

/-- C67, window filter, integer data: the covariance of a variable with itself is not negative. -/
theorem C67_window_integers_partial (hF : F.Binary p emin) (hW : 1 ≤ W) (hWp : W ≤ 2 ^ p) (hWf : F.fits (W : ℝ)) {e : Int} {A : Nat}
    (ops : List (Op ℝ)) (h : IntegerPairs F p emin W e e A A (sinceClear (selfOps ops))) (hp : 2 * (W * W * (A * A)) < 2 ^ p) :
    ∃ (s : Comoment W (X F)) (c d : ℝ), Comoment.run (finOps2 (selfOps ops)) = some s ∧ s.variance = X.fin c ∧ s.unbiasedVariance = X.fin d
      ∧ 0 ≤ c ∧ 0 ≤ d := by
  obtain ⟨s, c, d, h1, h2, h3, h4, -⟩ := window_sign hF hW hWp hWf (selfOps ops) h hp
  have hs : sinceClear (selfOps ops) = (sinceClear ops).map fun x => (x, x) := sinceClear_map _ _
  have h0 : 0 ≤ Spec.cosum (Spec.lastN W (sinceClear (selfOps ops))) := by
    rw [hs, Spec.lastN, ← List.map_drop, Spec.cosum]
    refine List.sum_nonneg fun y hy => ?_
    rw [List.mem_map] at hy
    obtain ⟨r, hr, rfl⟩ := hy
    obtain ⟨x, -, rfl⟩ := List.mem_map.1 hr
    have : Spec.xsOf (((sinceClear ops).drop ((((sinceClear ops).map fun x => (x, x))).length - W)).map fun x => (x, x))
        = Spec.ysOf (((sinceClear ops).drop ((((sinceClear ops).map fun x => (x, x))).length - W)).map fun x => (x, x)) := by
      simp [Spec.xsOf, Spec.ysOf, Function.comp_def]
    rw [this]
    exact mul_self_nonneg _
  exact ⟨s, c, d, h1, h2, h3, h4 h0⟩

/-- 16-bit samples as `double` in a window of at most 1023: the covariance of the samples with themselves is not negative. -/
example (hW : 1 ≤ W) (hW' : W ≤ 1023) (ns : List Int) (h : ∀ n ∈ ns, |n| ≤ 32768) :
    ∃ (s : Comoment W (X binary64)) (c d : ℝ), Comoment.run (finOps2 (selfOps (ns.map fun n : Int => .push (n : ℝ)))) = some s
      ∧ s.variance = X.fin c ∧ s.unbiasedVariance = X.fin d ∧ 0 ≤ c ∧ 0 ≤ d := by
  have e : sinceClear (selfOps (ns.map fun n : Int => Op.push (n : ℝ))) = ns.map fun n : Int => ((n : ℝ), (n : ℝ)) := by
    have := sinceClear_pushes (ns.map fun n : Int => ((n : ℝ), (n : ℝ)))
    rw [List.map_map] at this
    rw [selfOps, List.map_map]
    exact this
  refine C67_window_integers_partial binary64_binary hW (by omega)
    (by have := (binary64_int (n := W) (by rw [abs_of_nonneg (by positivity)]; norm_num; omega)).2; exact_mod_cast this) _
    (samples hW' _ ?_) (by have := Nat.mul_le_mul hW' hW'; omega)
  rw [e]
  intro q hq
  obtain ⟨n, hn, rfl⟩ := List.mem_map.1 hq
  exact ⟨n, n, rfl, h n hn, h n hn⟩

/-- C104, window regression, integer data: if one coordinate is constant within the window, the slope is exactly 0,
whatever was pushed before; if y is constant, the prediction is exactly the constant wherever the distance to the mean
of x is a finite number. -/
theorem C104_window_integers_partial (hF : F.Binary p emin) (hW : 1 ≤ W) (hWp : W ≤ 2 ^ p) (hWf : F.fits (W : ℝ)) {e e' : Int} {A B : Nat}
    (ops : List (Op (ℝ × ℝ))) (h : IntegerPairs F p emin W e e' A B (sinceClear ops)) (hp : 2 * (W * W * (A * B)) < 2 ^ p)
    (hc : ConstantCoordinate (Spec.lastN W (sinceClear ops))) :
    ∃ s : Regression W (X F), Regression.run (finOps2 ops) = some s ∧ s.slope = X.fin 0
      ∧ ∀ c : ℝ, sinceClear ops ≠ [] → (∀ q ∈ Spec.lastN W (sinceClear ops), q.2 = c) →
        ∀ t r : ℝ, s.xMoment.getMean - X.fin t = X.fin r → s.at' (X.fin t) = X.fin c := by
  obtain ⟨sc, h1, h2, -⟩ := C66_window_integers_partial hF hW hWp hWf ops h hp hc
  obtain ⟨sv, v1, v2, -⟩ := C19_window_variance_nonneg (F := F) ⟨hF.exact _ (isRep_zero _ _), hF.fits_zero⟩ hW (finOps (ops.map (Op.map Prod.fst)))
  have hslope : (⟨sc, sv⟩ : Regression W (X F)).slope = X.fin 0 := by
    show (if beq sv.variance (ofNat 0) then (ofNat 0 : X F) else sc.variance / sv.variance) = X.fin 0
    rw [h2]
    refine zero_div_variance hF ?_
    rw [hF.ofNat_zero]
    cases hv : sv.variance with
    | fin r => rw [hv] at v2; rw [X.le_fin]; exact decide_eq_true (show (0 : ℝ) ≤ r from v2)
    | pinf => rfl
    | ninf => rw [hv] at v2; exact v2.elim
    | nan => rw [hv] at v2; exact v2.elim
  refine ⟨⟨sc, sv⟩, ?_, hslope, ?_⟩
  · have ex : sinceClear (ops.map (Op.map Prod.fst)) = Spec.xsOf (sinceClear ops) := sinceClear_map _ _
    rw [Regression.run_eq hW, sinceClear_finOps2]
    rw [Comoment.run_eq hW, sinceClear_finOps2] at h1
    refine window_regression_parts _ h1 ?_
    rw [Variance.run_eq hW, sinceClear_finOps, ex] at v1
    rw [← v1]
    simp [Spec.xsOf, Function.comp_def]
  · intro c hne hy t r hr
    obtain ⟨s', h1', h2', -, h4', -⟩ := C155_sums_partial hF hW ops h
    rw [h1, Option.some.injEq] at h1'
    subst h1'
    have hlen : (Spec.lastN W (sinceClear ops)).length ≤ W := by rw [Spec.length_lastN]; omega
    have hpos : 1 ≤ (Spec.lastN W (sinceClear ops)).length := by rw [Spec.length_lastN]; have := List.length_pos_iff.2 hne; omega
    have hsub : ∀ q ∈ Spec.lastN W (sinceClear ops), q ∈ sinceClear ops := fun q hq => List.mem_of_mem_drop hq
    set l := Spec.lastN W (sinceClear ops)
    have hsize : sc.size = l.length := by
      show sc.window.items.length = _
      rw [h2', List.length_map]
    have hsum : (Spec.ysOf l).sum = l.length * c := by
      rw [Spec.ysOf, List.map_congr_left (g := fun _ => c) hy]; simp
    obtain ⟨q, hq⟩ := List.exists_mem_of_length_pos hpos
    have hB : B < 2 ^ p := lt_of_le_of_lt (Nat.le_mul_of_pos_left _ (by omega)) h.sumY
    have hcr : (X.round c : X F) = X.fin c := by
      have := (h.ys q (hsub q hq)).round hF hB h.minY h.maxY
      rwa [hy q hq] at this
    have hn : (l.length : ℝ) ≠ 0 := by exact_mod_cast (show l.length ≠ 0 by omega)
    have hmean : (sc.sumY / ofNat sc.size : X F) = X.fin c := by
      rw [h4', hsize, hsum, hF.ofNat_fin (hlen.trans hWp) (hF.fits_abs _ _ (by rw [Nat.abs_cast, Nat.abs_cast]; exact_mod_cast hlen) hWf),
        X.div_fin_of_ne _ hn, mul_div_cancel_left₀ _ hn, hcr]
    show sc.sumY / ofNat sc.size - (⟨sc, sv⟩ : Regression W (X F)).slope * (sv.getMean - X.fin t) = X.fin c
    have hr' : sv.getMean - X.fin t = X.fin r := hr
    rw [hmean, hslope, hr', X.mul_fin, zero_mul, hF.round_exact (isRep_zero _ _) hF.fits_zero, X.sub_fin, sub_zero, hcr]

/-- `double`, a window of 3: after (7, 1) and three points with y = 5 the slope is 0. -/
example : ∃ s : Regression 3 (X binary64),
    Regression.run (finOps2 [.push (7, 1), .push (-5, 5), .push (2, 5), .push (8, 5)]) = some s ∧ s.slope = X.fin 0 := by
  obtain ⟨s, h1, h2, -⟩ := C104_window_integers_partial binary64_binary (W := 3) (by norm_num) (by norm_num)
    (by have := (binary64_int (n := 3) (by norm_num)).2; exact_mod_cast this) [.push (7, 1), .push (-5, 5), .push (2, 5), .push (8, 5)]
    (samples (by norm_num) _ (by
      intro q hq
      simp only [sinceClear, List.foldl_cons, List.foldl_nil, List.nil_append, List.cons_append, List.mem_cons, List.not_mem_nil, or_false] at hq
      rcases hq with rfl | rfl | rfl | rfl
      exacts [⟨7, 1, by norm_num⟩, ⟨-5, 5, by norm_num⟩, ⟨2, 5, by norm_num⟩, ⟨8, 5, by norm_num⟩]))
    (by norm_num) (Or.inr ⟨5, by simp [sinceClear, Spec.lastN]⟩)
  exact ⟨s, h1, h2⟩

end Verif.Props
