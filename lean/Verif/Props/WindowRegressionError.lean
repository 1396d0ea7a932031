import Verif.Proofs.LineError
import Verif.Props.WindowVarianceError
/-
C150: rounding error of the window regression.
-/
namespace Verif.Props
open Scalar

variable {N : Nat} {F : Fmt} {p : Nat} {emin : Int} {u η : ℝ}

/-- The parts of the window regression. -/
theorem window_regression_parts {α : Type} [Scalar α] (ps : List (α × α)) {c : Window.Comoment N α} {v : Window.Variance N α}
    (hc : ps.foldl (fun s x => s.bind (Window.Comoment.push · x)) (some Window.Comoment.init) = some c)
    (hv : (ps.map Prod.fst).foldl (fun s x => s.bind (Window.Variance.push · x)) (some Window.Variance.init) = some v) :
    ps.foldl (fun s x => s.bind (Window.Regression.push · x)) (some Window.Regression.init) = some ⟨c, v⟩ := by
  induction ps using List.reverseRecOn generalizing c v with
  | nil =>
    simp only [List.foldl_nil, List.map_nil, Option.some.injEq] at hc hv
    subst hc hv
    rfl
  | append_singleton ps q ih =>
    rw [List.foldl_append, List.foldl_cons, List.foldl_nil] at hc ⊢
    rw [List.map_append, List.foldl_append, List.map_cons, List.map_nil, List.foldl_cons, List.foldl_nil] at hv
    obtain ⟨c0, hc0, hc1⟩ := Option.bind_eq_some_iff.1 hc
    obtain ⟨v0, hv0, hv1⟩ := Option.bind_eq_some_iff.1 hv
    rw [ih hc0 hv0]
    show Window.Regression.push _ q = _
    simp only [Window.Regression.push, hc1, hv1]

/-- What the bounds for the window regression assume: coordinates of size at most `A` and `B`, `K` large enough that nothing
overflows, and so few pairs that the drift stays below the size of the data. -/
structure WindowPairs (F : Fmt) (p : Nat) (emin : Int) (u η : ℝ) (N : Nat) (A B K : ℝ) (ps : List (ℝ × ℝ)) : Prop where
  ne : ps ≠ []
  size : 1 ≤ N
  hp : N ≤ 2 ^ p
  fit : F.fits (N : ℝ)
  hA : ∀ q ∈ ps, |q.1| ≤ A
  hB : ∀ q ∈ ps, |q.2| ≤ B
  ηA : η ≤ u * A
  ηB : η ≤ u * B
  ηAA : η ≤ u * (A * A)
  ηAB : η ≤ u * (A * B)
  K_rep : IsRep p emin K
  K_fits : F.fits K
  KA : 8 * (N * A) ≤ K
  KB : 8 * (N * B) ≤ K
  KAA : 34 * (N * (A * A)) ≤ K
  KAB : 8 * (N * (N * (A * B))) ≤ K
  few : 204 * (ps.length * (ps.length + N)) * u ≤ N

/-- The relative error of variance and covariance after `t` pairs with `l` of them in the window. -/
noncomputable def windowRel (u : ℝ) (t N l : ℝ) : ℝ := (230 * (t * (t + N)) / l + 29) * u

variable {A B K : ℝ} {ops : List (Op (ℝ × ℝ))}

/-- The parts of the window regression with their errors. -/
theorem window_parts_error (hF : F.Binary p emin) (hE : F.Err u η) (h : WindowPairs F p emin u η N A B K (sinceClear ops)) :
    ∃ (s : Window.Regression N (X F)) (c v mx sy : ℝ), Window.Regression.run (finOps2 ops) = some s
      ∧ s.covariance.variance = X.fin c ∧ s.xMoment.variance = X.fin v ∧ s.xMoment.getMean = X.fin mx
      ∧ s.covariance.sumY = X.fin sy ∧ s.covariance.size = (Spec.lastN N (sinceClear ops)).length
      ∧ |c - Spec.covariance (Spec.lastN N (sinceClear ops))|
        ≤ windowRel u (sinceClear ops).length N (Spec.lastN N (sinceClear ops)).length * (A * B)
      ∧ |v - Spec.variance (Spec.xsOf (Spec.lastN N (sinceClear ops)))|
        ≤ windowRel u (sinceClear ops).length N (Spec.lastN N (sinceClear ops)).length * (A * A)
      ∧ |mx - Spec.mean (Spec.xsOf (Spec.lastN N (sinceClear ops)))| ≤ 17 * (sinceClear ops).length * (u * A)
      ∧ |sy - (Spec.ysOf (Spec.lastN N (sinceClear ops))).sum|
        ≤ 12 * (sinceClear ops).length * ((Spec.lastN N (sinceClear ops)).length * (u * B)) := by
  have hA0 : 0 ≤ A := by
    obtain ⟨q, hq⟩ := List.exists_mem_of_ne_nil _ h.ne
    exact (abs_nonneg _).trans (h.hA q hq)
  have hB0 : 0 ≤ B := by
    obtain ⟨q, hq⟩ := List.exists_mem_of_ne_nil _ h.ne
    exact (abs_nonneg _).trans (h.hB q hq)
  have hu := hE.u_nonneg
  have hN1 : (1 : ℝ) ≤ N := by exact_mod_cast h.size
  have hNA : A ≤ N * A := le_mul_of_one_le_left hA0 hN1
  have hNB : B ≤ N * B := le_mul_of_one_le_left hB0 hN1
  have hABn := mul_nonneg hA0 hB0
  have hNAB : N * (A * B) ≤ N * (N * (A * B)) := le_mul_of_one_le_left (by positivity) hN1
  have hNAB0 : 0 ≤ (N : ℝ) * (A * B) := by positivity
  have hlen1 : 1 ≤ (sinceClear ops).length := List.length_pos_iff.2 h.ne
  have hT : 12 * ((sinceClear ops).length : ℝ) * u ≤ 1 := by
    have h1 := h.few
    have ht : (0 : ℝ) ≤ (sinceClear ops).length := by positivity
    have h2 : ((sinceClear ops).length : ℝ) * N ≤ (sinceClear ops).length * ((sinceClear ops).length + N) := by nlinarith
    have h3 : 204 * (((sinceClear ops).length : ℝ) * N) * u ≤ N := by
      refine le_trans ?_ h1
      exact mul_le_mul_of_nonneg_right (by linarith) hu
    have h4 : (204 * ((sinceClear ops).length : ℝ) * u) * N ≤ 1 * N := by linarith
    have h5 := le_of_mul_le_mul_right h4 (by linarith)
    nlinarith
  have hxA : ∀ x ∈ Spec.xsOf (sinceClear ops), |x| ≤ A := by
    intro x hx; obtain ⟨q, hq, rfl⟩ := List.mem_map.1 hx; exact h.hA q hq
  have hlx : (Spec.xsOf (sinceClear ops)).length = (sinceClear ops).length := List.length_map ..
  have hKA := h.KA
  have hKB := h.KB
  have hKAB := h.KAB
  -- covariance
  obtain ⟨sx, sy, sxy, c1, -, c2, -⟩ := Window.Comoment.drift hF hE h.size hA0 hB0 h.K_rep h.K_fits (by linarith) (by linarith)
    (by linarith) h.ηA h.ηB h.ηAB _ h.hA h.hB hT
  obtain ⟨sc, c, c3, c4, c5⟩ := C107_covariance_drift hF hE h.size h.hp h.fit hA0 hB0 h.K_rep h.K_fits (by linarith) (by linarith)
    hKAB h.ηA h.ηB h.ηAB ops h.ne h.hA h.hB hT
  rw [Window.Comoment.run_eq h.size, sinceClear_finOps2] at c3
  have ec : _ = sc := Option.some.inj (c1.symm.trans c3)
  -- variance
  have hT' : 204 * (((Spec.xsOf (sinceClear ops)).length : ℝ) * ((Spec.xsOf (sinceClear ops)).length + N)) * u ≤ N := by
    rw [hlx]; exact h.few
  obtain ⟨m, S, v1, v2, -⟩ := Window.Variance.drift hF hE h.size h.hp h.fit hA0 h.K_rep h.K_fits (by linarith) h.KAA h.ηA h.ηAA
    _ hxA hT'
  have hsx : sinceClear ((Spec.xsOf (sinceClear ops)).map Op.push) = Spec.xsOf (sinceClear ops) := sinceClear_pushes _
  obtain ⟨sv, v, v3, v4, v5⟩ := C107_variance_drift hF hE h.size h.hp h.fit hA0 h.K_rep h.K_fits (by linarith) h.KAA h.ηA h.ηAA
    ((Spec.xsOf (sinceClear ops)).map Op.push) (by rw [hsx]; intro e; exact h.ne (List.map_eq_nil_iff.1 e))
    (by rw [hsx]; exact hxA) (by rw [hsx]; exact hT')
  rw [Window.Variance.run_eq h.size, sinceClear_finOps, hsx] at v3
  have ev : _ = sv := Option.some.inj (v1.symm.trans v3)
  rw [hsx, hlx] at v5
  have exs : Spec.lastN N (Spec.xsOf (sinceClear ops)) = Spec.xsOf (Spec.lastN N (sinceClear ops)) := by
    unfold Spec.lastN Spec.xsOf; rw [List.map_drop, List.length_map]
  have hll : (Spec.xsOf (Spec.lastN N (sinceClear ops))).length = (Spec.lastN N (sinceClear ops)).length := List.length_map ..
  have hlpos : 0 < (Spec.lastN N (sinceClear ops)).length := by
    rw [Spec.length_lastN]; have := h.size; omega
  have hlN : (Spec.lastN N (sinceClear ops)).length ≤ N := by rw [Spec.length_lastN]; omega
  rw [exs, hll] at v5
  rw [exs, hlx] at v2
  refine ⟨⟨sc, sv⟩, c, v, m, sy, ?_, c4, v4, by rw [← ev]; rfl, by rw [← ec], ?_, c5.trans ?_, v5.trans ?_, v2, c2⟩
  · rw [Window.Regression.run_eq h.size, sinceClear_finOps2]
    refine window_regression_parts _ c3 ?_
    rw [← v3]
    simp [Spec.xsOf, Function.comp_def]
  · rw [← ec]
    simp [Window.Comoment.size, Window.Ring.size]
  all_goals
    unfold windowRel
    rw [mul_assoc]
    have hl1 : (0 : ℝ) < (Spec.lastN N (sinceClear ops)).length := by exact_mod_cast hlpos
    have hlN' : ((Spec.lastN N (sinceClear ops)).length : ℝ) ≤ N := by exact_mod_cast hlN
    have ht : (0 : ℝ) ≤ (sinceClear ops).length := by positivity
  · refine mul_le_mul_of_nonneg_right ?_ (by positivity)
    have : 48 * ((sinceClear ops).length : ℝ) ≤ 230 * ((sinceClear ops).length * ((sinceClear ops).length + N)) / (Spec.lastN N (sinceClear ops)).length := by
      rw [le_div_iff₀ hl1]
      nlinarith
    linarith
  · refine mul_le_mul_of_nonneg_right ?_ (by positivity)
    linarith

theorem WindowPairs.A_nonneg {ps} (h : WindowPairs F p emin u η N A B K ps) : 0 ≤ A := by
  obtain ⟨q, hq⟩ := List.exists_mem_of_ne_nil _ h.ne
  exact (abs_nonneg _).trans (h.hA q hq)

theorem WindowPairs.B_nonneg {ps} (h : WindowPairs F p emin u η N A B K ps) : 0 ≤ B := by
  obtain ⟨q, hq⟩ := List.exists_mem_of_ne_nil _ h.ne
  exact (abs_nonneg _).trans (h.hB q hq)

theorem window_slope_error (hF : F.Binary p emin) (hE : F.Err u η) {V : ℝ} (h : WindowPairs F p emin u η N A B K (sinceClear ops))
    (hVe : V = Spec.variance (Spec.xsOf (Spec.lastN N (sinceClear ops)))) (hV : 0 < V)
    (hcond : 2 * ((230 * ((sinceClear ops).length * ((sinceClear ops).length + N)) / (Spec.lastN N (sinceClear ops)).length + 29)
      * u * (A * A)) ≤ V)
    (hη : η ≤ u * (A * B / V)) (hK : 4 * (A * B / V) ≤ K) :
    ∃ (s : Window.Regression N (X F)) (b : ℝ), Window.Regression.run (finOps2 ops) = some s ∧ s.slope = X.fin b
      ∧ |b - Spec.covariance (Spec.lastN N (sinceClear ops)) / V|
        ≤ (460 * ((sinceClear ops).length * ((sinceClear ops).length + N)) / (Spec.lastN N (sinceClear ops)).length + 60)
          * (u * ((A * B / V) * (1 + A * A / V)))
      ∧ |b| ≤ 4 * (A * B / V) ∧ 1 ≤ A * A / V ∧ |Spec.covariance (Spec.lastN N (sinceClear ops)) / V| ≤ A * B / V
      ∧ ∃ mx sy : ℝ, s.xMoment.getMean = X.fin mx ∧ s.covariance.sumY = X.fin sy
        ∧ |mx - Spec.mean (Spec.xsOf (Spec.lastN N (sinceClear ops)))| ≤ 17 * (sinceClear ops).length * (u * A)
        ∧ |sy - (Spec.ysOf (Spec.lastN N (sinceClear ops))).sum|
          ≤ 12 * (sinceClear ops).length * ((Spec.lastN N (sinceClear ops)).length * (u * B))
        ∧ s.covariance.size = (Spec.lastN N (sinceClear ops)).length := by
  have hA0 := h.A_nonneg
  have hB0 := h.B_nonneg
  have hu := hE.u_nonneg
  obtain ⟨s, c, v, mx, sy, p1, p2, p3, p4, p5, p6, p7, p8, p9, p10⟩ := window_parts_error hF hE h
  set l := Spec.lastN N (sinceClear ops)
  have hlpos : 0 < l.length := by
    rw [Spec.length_lastN]; have := h.size; have := List.length_pos_iff.2 h.ne; omega
  have hl0 : (0 : ℝ) < l.length := by exact_mod_cast hlpos
  have hlA : ∀ q ∈ l, |q.1| ≤ A := fun q hq => h.hA q (List.mem_of_mem_drop hq)
  have hlB : ∀ q ∈ l, |q.2| ≤ B := fun q hq => h.hB q (List.mem_of_mem_drop hq)
  have hlne : l ≠ [] := List.length_pos_iff.1 hlpos
  have hVA : V ≤ A * A := hVe ▸ PairData.variance_le (xs := Spec.xsOf l) (by intro e; exact hlne (List.map_eq_nil_iff.1 e))
    (by intro y hy; obtain ⟨q, hq, rfl⟩ := List.mem_map.1 hy; exact hlA q hq)
  have hC : |Spec.covariance l| ≤ A * B := by
    unfold Spec.covariance
    rw [abs_div, abs_of_pos hl0, div_le_iff₀ hl0]
    have := Spec.abs_cosum_le hA0 hB0 l hlA hlB
    linarith
  rw [← hVe] at p8
  obtain ⟨hv0, b, b1, b2, b3⟩ := slope_quotient hF hE hA0 hB0 h.K_rep h.K_fits hV hVA hC p7 p8 hcond hη hK
  refine ⟨s, b, p1, ?_, b2.trans (le_of_eq ?_), b3, ?_, ?_, mx, sy, p4, p5, p9, p10, p6⟩
  · unfold Window.Regression.slope
    simp only
    rw [p3, p2, hF.ofNat_zero, X.beq_fin, decide_eq_false hv0.ne', if_neg (by simp), b1]
  · unfold windowRel; ring
  · rw [le_div_iff₀ hV]; linarith
  · rw [abs_div, abs_of_pos hV]; exact div_le_div_of_nonneg_right hC hV.le

/-- C150: the rounding error of the slope after `t` pairs, `l` of them in the window: `(460 t (t + N) / l + 60) u κ'` with
`κ' = (A B / V) (1 + A A / V)`, `V` the variance of the x-coordinates in the window, for coordinates of size at most `A`, `B`. -/
theorem C150_slope (hF : F.Binary p emin) (hE : F.Err u η) {V : ℝ} (h : WindowPairs F p emin u η N A B K (sinceClear ops))
    (hVe : V = Spec.variance (Spec.xsOf (Spec.lastN N (sinceClear ops)))) (hV : 0 < V)
    (hcond : 2 * ((230 * ((sinceClear ops).length * ((sinceClear ops).length + N)) / (Spec.lastN N (sinceClear ops)).length + 29)
      * u * (A * A)) ≤ V)
    (hη : η ≤ u * (A * B / V)) (hK : 4 * (A * B / V) ≤ K) :
    ∃ (s : Window.Regression N (X F)) (b : ℝ), Window.Regression.run (finOps2 ops) = some s ∧ s.slope = X.fin b
      ∧ |b - Spec.covariance (Spec.lastN N (sinceClear ops)) / V|
        ≤ (460 * ((sinceClear ops).length * ((sinceClear ops).length + N)) / (Spec.lastN N (sinceClear ops)).length + 60)
          * (u * ((A * B / V) * (1 + A * A / V))) := by
  obtain ⟨s, b, h1, h2, h3, -⟩ := window_slope_error hF hE h hVe hV hcond hη hK
  exact ⟨s, b, h1, h2, h3⟩

/-- The quotient of a running sum and the number of its terms. -/
theorem rounded_mean (hF : F.Binary p emin) (hE : F.Err u η) {B K q μ t : ℝ} (hB0 : 0 ≤ B) (hKr : IsRep p emin K) (hKf : F.fits K)
    (hBK : 2 * B ≤ K) (hηB : η ≤ u * B) (ht0 : 0 ≤ t) (htT : 204 * t * u ≤ 1) (m1 : |q - μ| ≤ 12 * t * (u * B)) (m2 : |μ| ≤ B) :
    (X.round q : X F) = X.fin (F.rnd q) ∧ |F.rnd q - μ| ≤ (17 * t + 3) * u * B ∧ |F.rnd q| ≤ 2 * B := by
  have hu := hE.u_nonneg
  have huB8 : u * B ≤ 1 / 8 * B := mul_le_mul_of_nonneg_right hE.u_le hB0
  have huB0 := mul_nonneg hu hB0
  have h1 := mul_le_mul_of_nonneg_right htT hB0
  have e : 204 * t * u * B = 17 * (12 * t * (u * B)) := by ring
  rw [e] at h1
  have h0 : 0 ≤ t * (u * B) := by positivity
  have m3 : |q| ≤ 12 * t * (u * B) + B := by
    have := abs_add_le (q - μ) μ
    rw [sub_add_cancel] at this
    linarith
  obtain ⟨r1, -⟩ := hF.round_le (F := F) hKr hKf (r := q) (m3.trans (by linarith))
  have m4 := hE.err q
  have m5 : u * |q| ≤ 2 * (u * B) := by have := mul_le_mul_of_nonneg_left (m3.trans (by linarith : _ ≤ 2 * B)) hu; linarith
  refine ⟨r1, ?_, ?_⟩
  · have := abs_add_le (F.rnd q - q) (q - μ)
    rw [sub_add_sub_cancel] at this
    have e2 : (17 * t + 3) * u * B = 17 * (t * (u * B)) + 3 * (u * B) := by ring
    rw [e2]
    linarith
  · have := abs_add_le (F.rnd q - q) q
    rw [sub_add_cancel] at this
    linarith

/-- C150: the rounding error of the line within the range of the data. -/
theorem C150_at (hF : F.Binary p emin) (hE : F.Err u η) {V : ℝ} (h : WindowPairs F p emin u η N A B K (sinceClear ops))
    (hVe : V = Spec.variance (Spec.xsOf (Spec.lastN N (sinceClear ops)))) (hV : 0 < V)
    (hcond : 2 * ((230 * ((sinceClear ops).length * ((sinceClear ops).length + N)) / (Spec.lastN N (sinceClear ops)).length + 29)
      * u * (A * A)) ≤ V)
    (hη : η ≤ u * (A * B / V)) (hK : 4 * (A * B / V) ≤ K) (hKB : 24 * (A * A / V * B) ≤ K) (x : ℝ) (hx : |x| ≤ A) :
    ∃ (s : Window.Regression N (X F)) (y : ℝ), Window.Regression.run (finOps2 ops) = some s ∧ s.at' (X.fin x) = X.fin y
      ∧ |y - (Spec.mean (Spec.ysOf (Spec.lastN N (sinceClear ops)))
            - Spec.covariance (Spec.lastN N (sinceClear ops)) / V * (Spec.mean (Spec.xsOf (Spec.lastN N (sinceClear ops))) - x))|
        ≤ (1860 * ((sinceClear ops).length * ((sinceClear ops).length + N)) / (Spec.lastN N (sinceClear ops)).length + 270)
          * (u * (A * A / V * (1 + A * A / V) * B)) := by
  have hA0 := h.A_nonneg
  have hB0 := h.B_nonneg
  have hu := hE.u_nonneg
  have hu8 := hE.u_le
  obtain ⟨s, b, s1, s2, s3, s4, s5, s6, mx, sy, s7, s8, s9, s10, s11⟩ := window_slope_error hF hE h hVe hV hcond hη hK
  set ps := sinceClear ops
  set l := Spec.lastN N ps
  set t : ℝ := (ps.length : ℝ) with ht
  have ht0 : 0 ≤ t := by positivity
  have hlpos : 0 < l.length := by
    rw [Spec.length_lastN]; have := h.size; have := List.length_pos_iff.2 h.ne; omega
  have hlN : l.length ≤ N := by rw [Spec.length_lastN]; omega
  have hl0 : (0 : ℝ) < l.length := by exact_mod_cast hlpos
  have hl1 : (1 : ℝ) ≤ l.length := by exact_mod_cast hlpos
  have hlN' : (l.length : ℝ) ≤ N := by exact_mod_cast hlN
  have htT : 204 * t * u ≤ 1 := by
    have h1 := h.few
    have h2 : t * N ≤ t * (t + N) := by nlinarith
    have hN1 : (1 : ℝ) ≤ N := by exact_mod_cast h.size
    have h3 : 204 * (t * N) * u ≤ N := le_trans (mul_le_mul_of_nonneg_right (by linarith) hu) h1
    have h4 : (204 * t * u) * N ≤ 1 * N := by linarith
    exact le_of_mul_le_mul_right h4 (by linarith)
  have htq : t ≤ t * (t + N) / l.length := by
    rw [le_div_iff₀ hl0]
    nlinarith
  have hlA : ∀ y ∈ Spec.xsOf l, |y| ≤ A := by
    intro y hy; obtain ⟨q, hq, rfl⟩ := List.mem_map.1 hy; exact h.hA q (List.mem_of_mem_drop hq)
  have hlB : ∀ y ∈ Spec.ysOf l, |y| ≤ B := by
    intro y hy; obtain ⟨q, hq, rfl⟩ := List.mem_map.1 hy; exact h.hB q (List.mem_of_mem_drop hq)
  have hlne : l ≠ [] := List.length_pos_iff.1 hlpos
  have bx : |Spec.mean (Spec.xsOf l)| ≤ A := by
    have := Window.abs_sum_le hlA
    rw [Spec.length_xsOf] at this
    unfold Spec.mean
    rw [Spec.length_xsOf, abs_div, abs_of_pos hl0, div_le_iff₀ hl0]; linarith
  have by' : |(Spec.ysOf l).sum| ≤ l.length * B := by
    have := Window.abs_sum_le hlB
    rwa [Spec.length_ysOf] at this
  have hKB' := h.KB
  have hKA' := h.KA
  have hNB : B ≤ N * B := le_mul_of_one_le_left hB0 (by linarith)
  have hNA : A ≤ N * A := le_mul_of_one_le_left hA0 (by linarith)
  have m2 : |Spec.mean (Spec.ysOf l)| ≤ B := by
    unfold Spec.mean
    rw [Spec.length_ysOf, abs_div, abs_of_pos hl0, div_le_iff₀ hl0]; linarith
  have m1 : |sy / l.length - Spec.mean (Spec.ysOf l)| ≤ 12 * t * (u * B) := by
    unfold Spec.mean
    rw [Spec.length_ysOf, ← sub_div, abs_div, abs_of_pos hl0, div_le_iff₀ hl0]
    linarith
  obtain ⟨r1, m6, m7⟩ := rounded_mean hF hE hB0 h.K_rep h.K_fits (show 2 * B ≤ K by linarith) h.ηB ht0 htT m1 m2
  obtain ⟨y, y1, y2⟩ := line_value hF hE (A := A) (B := B) (K := K) (b := A * B / V) (κ := A * A / V) (S := Spec.covariance l / V)
    (s := b) (mx := mx) (μx := Spec.mean (Spec.xsOf l)) (my := F.rnd (sy / l.length)) (μy := Spec.mean (Spec.ysOf l))
    (e := (460 * (t * (t + N)) / l.length + 60) * u) (δ := (17 * t + 3) * u) (x := x) hA0 hB0
    (div_nonneg (mul_nonneg hA0 hB0) hV.le) s5 (by ring) (by positivity) (by positivity) h.K_rep h.K_fits (by linarith) hKB h.ηA h.ηB
    (by rw [mul_assoc]; exact s3) s4 s6 (by
      have := mul_nonneg hu hA0
      have e : (17 * t + 3) * u * A = 17 * t * (u * A) + 3 * (u * A) := by ring
      rw [e]; linarith)
    (by
      have := abs_add_le (mx - Spec.mean (Spec.xsOf l)) (Spec.mean (Spec.xsOf l))
      rw [sub_add_cancel] at this
      have h2 := mul_le_mul_of_nonneg_right htT hA0
      have e : 204 * t * u * A = 12 * (17 * t * (u * A)) := by ring
      rw [e] at h2
      linarith) m6 m7 hx
  refine ⟨s, y, s1, ?_, y2.trans ?_⟩
  · unfold Window.Regression.at'
    simp only
    rw [s2, s7, s8, s11, hF.ofNat_fin (hlN.trans h.hp) (by
      refine hF.fits_abs _ _ ?_ h.fit
      rw [Nat.abs_cast, Nat.abs_cast]; exact hlN'), X.div_fin_of_ne _ hl0.ne', r1, y1]
  · have hκ : 0 ≤ A * A / V * (1 + A * A / V) * B := by positivity
    rw [← mul_assoc (1860 * (t * (t + N)) / l.length + 270) u]
    refine mul_le_mul_of_nonneg_right ?_ hκ
    rw [show 4 * ((460 * (t * (t + N)) / l.length + 60) * u) + 22 * u + (17 * t + 3) * u
        = (1840 * (t * (t + N) / l.length) + 17 * t + 265) * u by ring,
      show 1860 * (t * (t + N)) / l.length + 270 = 1860 * (t * (t + N) / l.length) + 270 by ring]
    exact mul_le_mul_of_nonneg_right (by linarith) hu

/-- `double`, window of 2: after four pairs the line through (6, 1) and (4, 3) has slope -1 and the value 2 at 5. -/
example : ∃ (s : Window.Regression 2 (X binary64)) (b y : ℝ),
    Window.Regression.run (finOps2 [.push (1, 1), .push (2, 5), .push (6, 1), .push (4, 3)]) = some s
    ∧ s.slope = X.fin b ∧ |b - -1| ≤ 10 ^ 7 * 2 ^ (-53 : Int) ∧ s.at' (X.fin 5) = X.fin y ∧ |y - 2| ≤ 10 ^ 9 * 2 ^ (-53 : Int) := by
  have hs : sinceClear ([.push (1, 1), .push (2, 5), .push (6, 1), .push (4, 3)] : List (Op (ℝ × ℝ))) = [(1, 1), (2, 5), (6, 1), (4, 3)] := rfl
  have hη : (2 : ℝ) ^ (-1075 : Int) ≤ 2 ^ (-53 : Int) := zpow_le_zpow_right₀ (by norm_num) (by norm_num)
  have hu : (0 : ℝ) < 2 ^ (-53 : Int) := by positivity
  have hK := binary64_int (n := 6000) (by norm_num)
  push_cast at hK
  have el : Spec.lastN 2 [((1 : ℝ), (1 : ℝ)), (2, 5), (6, 1), (4, 3)] = [(6, 1), (4, 3)] := by simp [Spec.lastN]
  have e : Spec.covariance [(6, 1), (4, 3)] = -1 := by
    simp [Spec.covariance, Spec.cosum, Spec.mean]; norm_num
  have ev : Spec.variance (Spec.xsOf [((6 : ℝ), (1 : ℝ)), (4, 3)]) = 1 := by
    simp [Spec.variance, Spec.central, Spec.mean, Spec.xsOf]; norm_num
  have h : WindowPairs binary64 53 (-1074) (2 ^ (-53 : Int)) (2 ^ (-1075 : Int)) 2 6 5 6000
      (sinceClear ([.push (1, 1), .push (2, 5), .push (6, 1), .push (4, 3)] : List (Op (ℝ × ℝ)))) := by
    rw [hs]
    refine ⟨by simp, by norm_num, by norm_num, (binary64_int (n := 2) (by norm_num)).2, by simp; norm_num, by simp; norm_num, by linarith,
      by linarith, by linarith, by linarith, hK.1, hK.2, by norm_num, by norm_num, by norm_num, by norm_num, by norm_num⟩
  have hv : (1 : ℝ) = Spec.variance (Spec.xsOf (Spec.lastN 2
      (sinceClear ([.push (1, 1), .push (2, 5), .push (6, 1), .push (4, 3)] : List (Op (ℝ × ℝ)))))) := by rw [hs, el, ev]
  obtain ⟨s, b, h1, h2, h3⟩ := C150_slope binary64_binary binary64_err h hv (by norm_num) (by rw [hs, el]; norm_num)
    (by rw [div_one]; linarith) (by norm_num)
  obtain ⟨s', y, g1, g2, g3⟩ := C150_at binary64_binary binary64_err h hv (by norm_num) (by rw [hs, el]; norm_num)
    (by rw [div_one]; linarith) (by norm_num) (by norm_num) 5 (by norm_num)
  rw [h1] at g1
  obtain rfl := Option.some.inj g1
  rw [hs, el, e] at h3 g3
  refine ⟨s, b, y, h1, h2, ?_, g2, ?_⟩
  · norm_num at h3 ⊢
    linarith
  · have ex : Spec.mean (Spec.xsOf [((6 : ℝ), (1 : ℝ)), (4, 3)]) = 5 := by simp [Spec.mean, Spec.xsOf]; norm_num
    have ey : Spec.mean (Spec.ysOf [((6 : ℝ), (1 : ℝ)), (4, 3)]) = 2 := by simp [Spec.mean, Spec.ysOf]; norm_num
    rw [ex, ey] at g3
    norm_num at g3 ⊢
    linarith

end Verif.Props
