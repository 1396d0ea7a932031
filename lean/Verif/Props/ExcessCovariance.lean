import Verif.Proofs.ExcessCovariance
import Verif.Props.Excess
import Verif.Props.Contracted
/-
C172: the cumulative covariance where expressions are evaluated with excess precision, and the rounding error of the
variance.  A history says of every push which intermediate results are rounded to the value type and whether the product
is contracted.
-/
namespace Verif.Props
open Scalar Verif.Excess

variable {w : Nat} {F W : Fmt} {p q : Nat} {emin gmin : Int} {u η u' η' : ℝ}

/-- A history of calls with pairs of finite numbers. -/
def finE2 {γ : Type} (ops : List (Op (γ × (ℝ × ℝ)))) : List (Op (γ × (X F × X F))) :=
  ops.map (Op.map fun i => (i.1, (X.fin i.2.1, X.fin i.2.2)))

theorem sinceClear_finE2 {γ : Type} (ops : List (Op (γ × (ℝ × ℝ)))) :
    sinceClear (finE2 ops : List (Op (γ × (X F × X F)))) = (sinceClear ops).map Excess.fin2 := sinceClear_map _ _

theorem excess_const (h : F.Eval W p emin q gmin) {D D' : ℝ} (is : List (PairSpills × (ℝ × ℝ)))
    (hx : F.Spread p emin D (Spec.xsOf (is.map Prod.snd)))
    (hy : F.Spread p emin D' (Spec.ysOf (is.map Prod.snd))) (hw : is.length < 2 ^ w) (hc : ConstantCoordinate (is.map Prod.snd)) :
    (pairState W is : Cumulative.Comoment w (X F)).center = X.fin 0 := by
  induction is using List.reverseRecOn with
  | nil => exact h.narrow.ofNat_zero
  | append_singleton is i ih =>
    rw [List.map_append, List.map_singleton] at hx hy hc
    set ps := is.map Prod.snd with hps
    set q := i.2 with hq
    have lps : ps.length = is.length := by rw [hps, List.length_map]
    have ex : Spec.xsOf (ps ++ [q]) = Spec.xsOf ps ++ [q.1] := by simp [Spec.xsOf]
    have ey : Spec.ysOf (ps ++ [q]) = Spec.ysOf ps ++ [q.2] := by simp [Spec.ysOf]
    rw [ex] at hx
    rw [ey] at hy
    rw [List.length_append, List.length_singleton] at hw
    have hc' : ConstantCoordinate ps := by
      rcases hc with ⟨c, h⟩ | ⟨c, h⟩
      · exact Or.inl ⟨c, fun r hr => h r (List.mem_append_left _ hr)⟩
      · exact Or.inr ⟨c, fun r hr => h r (List.mem_append_left _ hr)⟩
    have ih := ih hx.init hy.init (by omega) hc'
    have hcen := fold_centers (w := w) (F := F) (W := W) is
    have lx : (Spec.xsOf ps).length = is.length := by simp [Spec.xsOf, lps]
    have ly : (Spec.ysOf ps).length = is.length := by simp [Spec.ysOf, lps]
    obtain ⟨mx, hmx⟩ := mean_fold (w := w) h (xPushes is) (by rw [xPushes_snd]; exact hx.init) (by simp [xPushes]; omega)
    obtain ⟨my, hmy⟩ := mean_fold (w := w) h (yPushes is) (by rw [yPushes_snd]; exact hy.init) (by simp [yPushes]; omega)
    rw [← hcen.1, xPushes_snd] at hmx
    rw [← hcen.2, yPushes_snd] at hmy
    set st : Cumulative.Comoment w (X F) := pairState W is with hst
    obtain ⟨mx', hmx', -, hdx, -⟩ := mean_push h hx (by omega) hmx i.1.1.1
    obtain ⟨my', -, hdy, -⟩ := mean_push h hy (by omega) hmy i.1.1.2
    have hstep : (pairState W (is ++ [i]) : Cumulative.Comoment w (X F)) = Comoment.push W i.1 st (X.fin q.1) (X.fin q.2) := by
      rw [hst]; simp only [pairState, List.map_append, List.map_singleton, List.foldl_append, List.foldl_cons, List.foldl_nil]
      rfl
    rw [hstep]
    show addMul W i.1.2 st.center (X.conv W (X.fin q.1 : X F) - X.conv W (Mean.push W i.1.1.1 st.xCenter (X.fin q.1)).mean)
        (X.conv W (X.fin q.2 : X F) - X.conv W st.yCenter.mean) = _
    rw [hmx'.mean, hmy.mean, ih]
    have z0 : ∀ b, F.rnd2 W b 0 = 0 := fun b => h.rnd2_exact b (isRep_zero _ _)
    have z : F.rnd2 W i.1.2.left (q.1 - mx') = 0 ∨ F.rnd2 W i.1.2.right (q.2 - my) = 0 := by
      rcases hc with ⟨c, hc⟩ | ⟨c, hc⟩
      · refine Or.inl ?_
        have hq : q.1 = c := hc q (by simp)
        have hin : ∀ x ∈ Spec.xsOf ps ++ [q.1], x = c := by
          rw [← ex]
          intro x hx
          obtain ⟨r, hr, rfl⟩ := List.mem_map.1 hx
          exact hc r hr
        rw [within_const (hmx'.within (by simp)) hin, hq, sub_self, z0]
      · rcases eq_or_ne ps [] with hp | hp
        · refine Or.inl ?_
          have hin : ∀ x ∈ Spec.xsOf ps ++ [q.1], x = q.1 := by
            rw [hp]; intro x hx; simpa [Spec.xsOf] using hx
          rw [within_const (hmx'.within (by simp)) hin, sub_self, z0]
        · refine Or.inr ?_
          have hq : q.2 = c := hc q (by simp)
          have hin : ∀ x ∈ Spec.ysOf ps, x = c := by
            intro x hx
            obtain ⟨r, hr, rfl⟩ := List.mem_map.1 hx
            exact hc r (List.mem_append_left _ hr)
          rw [within_const (hmy.within (fun h0 => hp (List.map_eq_nil_iff.1 h0))) hin, hq, sub_self, z0]
    have hp0 : F.rnd2 W i.1.2.left (q.1 - mx') * F.rnd2 W i.1.2.right (q.2 - my) = 0 := by
      rcases z with z | z
      · rw [z, zero_mul]
      · rw [z, mul_zero]
    have ht : term F W i.1.2 (F.rnd2 W i.1.2.left (q.1 - mx')) (F.rnd2 W i.1.2.right (q.2 - my)) = 0 := by
      unfold term
      rw [hp0, z0, ite_self]
    obtain ⟨r1, -⟩ := addMul_fin h i.1.2 (isRep_zero _ _) h.narrow.fits_zero (hdx _) (hdy _) (isRep_zero _ _) h.narrow.fits_zero
      (by rw [hp0, abs_zero]) (by rw [ht, add_zero, abs_zero])
    rw [r1, ht, add_zero, z0]

theorem zero_div_countIn (h : F.Eval W p emin q gmin) (b : Bool) {n : SizeT w} (hn : 0 < n.toNat) :
    X.conv F (X.conv W (X.fin 0 : X F) / countIn F W b n) = X.fin 0 := by
  rw [h.conv_fin (isRep_zero _ _) h.narrow.fits_zero]
  have hz : X.conv F (X.fin 0 : X W) = X.fin 0 := by
    show X.round 0 = _
    rw [X.round, h.narrow.rnd_zero, if_pos h.narrow.fits_zero]
  rcases h.count_ge b n (Or.inl rfl) hn with e | ⟨d, hd, e⟩
  · rw [e]
    show X.conv F (X.fin 0 : X W) = _
    exact hz
  · have hd1 : (1 : ℝ) ≤ d := by exact_mod_cast hd
    rw [e, X.div_fin_of_ne _ (by linarith), zero_div, X.round, h.wide.rnd_zero, if_pos h.wide.fits_zero, hz]

theorem excess_pair_count (ops : List (Op (PairSpills × (ℝ × ℝ)))) :
    (Comoment.run W (finE2 ops) : Cumulative.Comoment w (X F)).size = BitVec.ofNat w (valuesOf ops).length := by
  rw [Comoment.run_eq, sinceClear_finE2, valuesOf, List.length_map]
  exact pair_count _

/-- C172: if one coordinate is constant, both covariances are exactly 0. -/
theorem C172_constant (h : F.Eval W p emin q gmin) {D D' : ℝ} (ops : List (Op (PairSpills × (ℝ × ℝ))))
    (hx : F.Spread p emin D (Spec.xsOf (valuesOf ops))) (hy : F.Spread p emin D' (Spec.ysOf (valuesOf ops)))
    (hw : (valuesOf ops).length < 2 ^ w) (hc : ConstantCoordinate (valuesOf ops)) (b : Bool) :
    Comoment.variance W b (Comoment.run W (finE2 ops) : Cumulative.Comoment w (X F)) = X.fin 0
    ∧ Comoment.unbiasedVariance W b (Comoment.run W (finE2 ops) : Cumulative.Comoment w (X F)) = X.fin 0 := by
  have h1 : (Comoment.run W (finE2 ops) : Cumulative.Comoment w (X F)).center = X.fin 0 := by
    rw [Comoment.run_eq, sinceClear_finE2]
    exact excess_const (w := w) h _ hx hy (by rw [valuesOf, List.length_map] at hw; exact hw) hc
  unfold Comoment.variance Comoment.unbiasedVariance
  rw [h1, h.narrow.ofNat_zero]
  constructor
  · split_ifs with hs
    · refine zero_div_countIn h b ?_
      rw [gt_iff_lt, BitVec.lt_def] at hs
      simpa using hs
    · rfl
  · split_ifs with hs
    · refine zero_div_countIn h b ?_
      rw [gt_iff_lt, BitVec.lt_def] at hs
      by_contra hc
      set n := (Comoment.run W (finE2 ops) : Cumulative.Comoment w (X F)).size
      have h3 : (n - 1).toNat = 0 := by omega
      have h4 : n - 1 = 0 := BitVec.eq_of_toNat_eq (by rw [h3]; simp)
      have h5 : n = 1 := by rw [← sub_eq_zero]; exact h4
      rw [h5] at hs
      exact absurd hs (lt_irrefl _)
    · rfl

/-- The quotient of a sum and the number of values. -/
theorem excess_quotient (h : F.Eval W p emin q gmin) (hF : F.Err u η) (hW : W.Err u' η') {M K C S : ℝ} {n : Nat} (hn : 0 < n)
    (hM0 : 0 ≤ M) (hη : η + (1 + u) * η' ≤ (u + u' + u * u') * M) (hK : IsRep p emin K) (hKf : F.fits K)
    (hw : n < 2 ^ w) (hp : n ≤ 2 ^ p) (hfit : F.fits (n : ℝ)) (hSr : IsRep p emin S) (hSf : F.fits S)
    (hS : |S - C| ≤ n * (6 * n + 65) * ((u + u' + u * u') * M)) (hC : |C| ≤ n * M) (hMK : 8 * n * M ≤ K)
    (hsmall : (6 * n + 65) * (u + u' + u * u') ≤ 1) (b : Bool) :
    ∃ c : ℝ, X.conv F (X.conv W (X.fin S : X F) / countIn F W b (BitVec.ofNat w n)) = X.fin c
      ∧ |c - C / n| ≤ (6 * n + 68) * ((u + u' + u * u') * M) := by
  set U := u + u' + u * u' with hU
  have hU0 : 0 ≤ U := by have := hF.u_nonneg; have := hW.u_nonneg; positivity
  have hpos : (0 : ℝ) < n := by exact_mod_cast hn
  have h1n : (1 : ℝ) ≤ n := by exact_mod_cast hn
  have hSb : |S| ≤ n * (2 * M) := by
    have e : S = (S - C) + C := by ring
    rw [e]
    refine (abs_add_le _ _).trans ?_
    have : (n : ℝ) * M * ((6 * n + 65) * U) ≤ n * M * 1 := mul_le_mul_of_nonneg_left hsmall (by positivity)
    linarith
  have hdiv : |S / n| ≤ 2 * M := by
    rw [abs_div, abs_of_pos hpos, div_le_iff₀ hpos]; linarith
  have hnM := mul_le_mul_of_nonneg_right h1n hM0
  have hab := abs_le.1 (hdiv.trans (by linarith : 2 * M ≤ K))
  rw [countIn_exact h b hw hp hfit, h.conv_fin hSr hSf, X.div_fin_of_ne _ hpos.ne']
  have hst := (h.store false hK.neg (h.narrow.fits_neg hKf) hK hKf hab.1 hab.2).1
  refine ⟨F.rnd2 W true (S / n), hst, ?_⟩
  have h1 := Fmt.Eval.rnd2_err hF hW true (S / n)
  rw [← hU] at h1
  have h2 := mul_le_mul_of_nonneg_left hdiv hU0
  have h3 : |S / n - C / n| ≤ (6 * n + 65) * (U * M) := by
    rw [← sub_div, abs_div, abs_of_pos hpos, div_le_iff₀ hpos]; linarith
  have e : F.rnd2 W true (S / n) - C / n = (F.rnd2 W true (S / n) - S / n) + (S / n - C / n) := by ring
  rw [e]
  refine (abs_add_le _ _).trans ?_
  linarith

/-- C172: the error bound of C70 with the sum of the unit roundoffs of both formats, for every choice of the compiler. -/
theorem C172_error (h : F.Eval W p emin q gmin) (hF : F.Err u η) (hW : W.Err u' η') {A B K D D' : ℝ} (hA0 : 0 ≤ A) (hB0 : 0 ≤ B)
    (hηA : η + (1 + u) * η' ≤ (u + u' + u * u') * A) (hηB : η + (1 + u) * η' ≤ (u + u' + u * u') * B)
    (hηAB : η + (1 + u) * η' ≤ (u + u' + u * u') * (A * B)) (hK : IsRep p emin K) (hKf : F.fits K)
    (ops : List (Op (PairSpills × (ℝ × ℝ)))) (hne : valuesOf ops ≠ []) (hdx : F.Spread p emin D (Spec.xsOf (valuesOf ops)))
    (hdy : F.Spread p emin D' (Spec.ysOf (valuesOf ops)))
    (hw : (valuesOf ops).length < 2 ^ w) (hp : (valuesOf ops).length ≤ 2 ^ p) (hfit : F.fits ((valuesOf ops).length : ℝ))
    (hA : ∀ q ∈ valuesOf ops, |q.1| ≤ A) (hB : ∀ q ∈ valuesOf ops, |q.2| ≤ B)
    (hBK : 8 * (valuesOf ops).length * (A * B) ≤ K) (hsmall : (6 * (valuesOf ops).length + 65) * (u + u' + u * u') ≤ 1) (b : Bool) :
    ∃ c : ℝ, Comoment.variance W b (Comoment.run W (finE2 ops) : Cumulative.Comoment w (X F)) = X.fin c
      ∧ |c - Spec.covariance (valuesOf ops)| ≤ (6 * (valuesOf ops).length + 68) * ((u + u' + u * u') * (A * B)) := by
  have hl : (sinceClear ops).length = (valuesOf ops).length := by rw [valuesOf, List.length_map]
  obtain ⟨S, hS, hSr, hSf, he⟩ := comoment_err (w := w) h hF hW hA0 hB0 hηA hηB hηAB hK hKf (sinceClear ops) hdx hdy
    (by rw [hl]; exact hw) (by rw [hl]; exact hp) (by rw [hl]; exact hfit) hA hB (by rw [hl]; exact hBK) (by rw [hl]; exact hsmall)
  change |S - Spec.cosum (valuesOf ops)| ≤ _ at he
  rw [hl] at he
  have hcos := Spec.abs_cosum_le hA0 hB0 _ hA hB
  have hlen := List.length_pos_iff.2 hne
  have hsize := excess_pair_count (w := w) (F := F) (W := W) ops
  rw [pairState, ← sinceClear_finE2, ← Comoment.run_eq] at hS
  unfold Comoment.variance
  rw [hsize, hS, if_pos (by rw [gt_iff_lt, BitVec.lt_def, toNat_ofNat_lt hw]; simpa using hlen)]
  exact excess_quotient h hF hW hlen (mul_nonneg hA0 hB0) hηAB hK hKf hw hp hfit hSr hSf he hcos hBK hsmall b

/-! ### A variable paired with itself -/

/-- The choices of the covariance that compute the same as those of the variance: both means in the same way, and the two
factors swapped. -/
def pairedSpills (c : MeanSpills × SumSpills) : PairSpills :=
  ((c.1, c.1), { c.2 with left := c.2.right, right := c.2.left })

/-- The history of a variable paired with itself. -/
def selfE {β : Type} (ops : List (Op ((MeanSpills × SumSpills) × β))) : List (Op (PairSpills × (β × β))) :=
  ops.map (Op.map fun i => (pairedSpills i.1, (i.2, i.2)))

theorem excess_addMul_swap (c : SumSpills) (s : X F) (a b : X W) :
    addMul W { c with left := c.right, right := c.left } s a b = addMul W c s b a := by
  have hm : ∀ x y : X W, x * y = y * x := by
    intro x y
    cases x <;> cases y <;> first | rfl | exact congrArg X.round (_root_.mul_comm _ _)
  have hf : ∀ x y z : X W, Fused.fma x y z = Fused.fma y x z := by
    intro x y z
    cases x <;> cases y <;> cases z <;> first | rfl | exact congrArg X.round (by rw [_root_.mul_comm])
  unfold addMul
  simp only
  rw [hf, hm]

theorem excess_self (is : List ((MeanSpills × SumSpills) × X F)) :
    let c := (is.map fun i => (pairedSpills i.1, (i.2, i.2))).foldl (fun s i => Comoment.push W i.1 s i.2.1 i.2.2)
      (Cumulative.Comoment.init : Cumulative.Comoment w (X F))
    let v := is.foldl (fun s i => Variance.push W i.1 s i.2) (Cumulative.Variance.init : Cumulative.Variance w (X F))
    c.center = v.sumVariance ∧ c.xCenter = v.super ∧ c.yCenter = v.super := by
  intro c v
  induction is using List.reverseRecOn with
  | nil => exact ⟨rfl, rfl, rfl⟩
  | append_singleton is i ih =>
    obtain ⟨h1, h2, h3⟩ := ih
    simp only [c, v]
    rw [List.map_append, List.map_singleton, List.foldl_append, List.foldl_append]
    set c0 := (is.map fun i => (pairedSpills i.1, (i.2, i.2))).foldl (fun s i => Comoment.push W i.1 s i.2.1 i.2.2)
      (Cumulative.Comoment.init : Cumulative.Comoment w (X F))
    set v0 := is.foldl (fun s i => Variance.push W i.1 s i.2) (Cumulative.Variance.init : Cumulative.Variance w (X F))
    refine ⟨?_, ?_, ?_⟩
    · show addMul W (pairedSpills i.1).2 c0.center (X.conv W i.2 - X.conv W (Mean.push W i.1.1 c0.xCenter i.2).mean)
          (X.conv W i.2 - X.conv W c0.yCenter.mean)
        = addMul W i.1.2 v0.sumVariance (X.conv W i.2 - X.conv W v0.super.mean) (X.conv W i.2 - X.conv W (Mean.push W i.1.1 v0.super i.2).mean)
      rw [h1, h2, h3]
      exact excess_addMul_swap _ _ _ _
    · show Mean.push W i.1.1 c0.xCenter i.2 = Mean.push W i.1.1 v0.super i.2
      rw [h2]
    · show Mean.push W i.1.1 c0.yCenter i.2 = Mean.push W i.1.1 v0.super i.2
      rw [h3]

/-- C172: the covariance of a variable with itself is bit for bit the variance, for all data, if the compiler makes the same choices. -/
theorem C172_self (ops : List (Op ((MeanSpills × SumSpills) × X F))) (b : Bool) :
    let c : Cumulative.Comoment w (X F) := Comoment.run W (selfE ops)
    let v : Cumulative.Variance w (X F) := Variance.run W ops
    c.size = v.size ∧ (0 < v.size → Comoment.variance W b c = Variance.variance W b v)
      ∧ (1 < v.size → Comoment.unbiasedVariance W b c = Variance.unbiasedVariance W b v) := by
  intro c v
  have e : sinceClear (selfE ops) = (sinceClear ops).map fun i => (pairedSpills i.1, (i.2, i.2)) := sinceClear_map _ _
  have hc : c = _ := Comoment.run_eq (selfE ops)
  have hv : v = _ := Variance.run_eq ops
  rw [e] at hc
  obtain ⟨h1, h2, -⟩ := excess_self (w := w) (W := W) (sinceClear ops)
  rw [← hc, ← hv] at h1 h2
  have hs : c.size = v.size := by
    show c.xCenter.count = v.super.count
    rw [h2]
  refine ⟨hs, fun h => ?_, fun h => ?_⟩
  · unfold Comoment.variance
    rw [hs, if_pos h, h1]; rfl
  · unfold Comoment.unbiasedVariance
    rw [hs, if_pos h, h1]; rfl

example : Comoment.variance binary64 true (Comoment.run binary64
      (selfE [.push ((noSpills, ⟨true, false, true, false, false⟩), X.fin 1), .push ((noSpills, ⟨false, false, false, false, true⟩), X.pinf)])
      : Cumulative.Comoment 64 (X binary32))
    = Variance.variance binary64 true (Variance.run binary64
      [.push ((noSpills, ⟨true, false, true, false, false⟩), X.fin 1), .push ((noSpills, ⟨false, false, false, false, true⟩), X.pinf)]
      : Cumulative.Variance 64 (X binary32)) :=
  (C172_self _ true).2.1 (by show (0 : BitVec 64) < 2; decide)

/-- C172: the rounding error of the variance. -/
theorem C172_variance_error (h : F.Eval W p emin q gmin) (hF : F.Err u η) (hW : W.Err u' η') {B K D : ℝ} (hB0 : 0 ≤ B)
    (hηB : η + (1 + u) * η' ≤ (u + u' + u * u') * B) (hηBB : η + (1 + u) * η' ≤ (u + u' + u * u') * (B * B))
    (hK : IsRep p emin K) (hKf : F.fits K)
    (ops : List (Op ((MeanSpills × SumSpills) × ℝ))) (hne : valuesOf ops ≠ []) (hd : F.Spread p emin D (valuesOf ops))
    (hw : (valuesOf ops).length < 2 ^ w) (hp : (valuesOf ops).length ≤ 2 ^ p) (hfit : F.fits ((valuesOf ops).length : ℝ))
    (hB : ∀ x ∈ valuesOf ops, |x| ≤ B)
    (hBK : 8 * (valuesOf ops).length * (B * B) ≤ K) (hsmall : (6 * (valuesOf ops).length + 65) * (u + u' + u * u') ≤ 1) (b : Bool) :
    ∃ c : ℝ, Variance.variance W b (Variance.run W (finE ops) : Cumulative.Variance w (X F)) = X.fin c
      ∧ |c - Spec.variance (valuesOf ops)| ≤ (6 * (valuesOf ops).length + 68) * ((u + u' + u * u') * (B * B)) := by
  have hv : valuesOf (selfE ops) = (valuesOf ops).map fun x => (x, x) := by
    unfold valuesOf selfE
    rw [sinceClear_map]
    simp [Function.comp_def]
  have hlen : (valuesOf (selfE ops)).length = (valuesOf ops).length := by rw [hv, List.length_map]
  have hxs : Spec.xsOf (valuesOf (selfE ops)) = valuesOf ops := by rw [hv]; simp [Spec.xsOf, Function.comp_def]
  have hys : Spec.ysOf (valuesOf (selfE ops)) = valuesOf ops := by rw [hv]; simp [Spec.ysOf, Function.comp_def]
  have hfin : (finE2 (selfE ops) : List (Op (PairSpills × (X F × X F)))) = selfE (finE ops) := by
    simp only [finE2, selfE, finE, List.map_map]
    refine List.map_congr_left fun o _ => ?_
    cases o <;> rfl
  have hmem : ∀ q ∈ valuesOf (selfE ops), |q.1| ≤ B ∧ |q.2| ≤ B := by
    rw [hv]
    intro q hq
    obtain ⟨x, hx, rfl⟩ := List.mem_map.1 hq
    exact ⟨hB x hx, hB x hx⟩
  obtain ⟨c, hc, he⟩ := C172_error (w := w) h hF hW hB0 hB0 hηB hηB hηBB hK hKf (selfE ops)
    (by rw [← List.length_pos_iff, hlen]; exact List.length_pos_iff.2 hne)
    (by rw [hxs]; exact hd) (by rw [hys]; exact hd) (by rw [hlen]; exact hw) (by rw [hlen]; exact hp) (by rw [hlen]; exact hfit)
    (fun q hq => (hmem q hq).1) (fun q hq => (hmem q hq).2) (by rw [hlen]; exact hBK) (by rw [hlen]; exact hsmall) b
  obtain ⟨s1, s2, -⟩ := C172_self (w := w) (W := W) (finE ops : List (Op ((MeanSpills × SumSpills) × X F))) b
  rw [hfin] at hc
  refine ⟨c, ?_, ?_⟩
  · rw [← s2 ?_]; exact hc
    rw [← s1, ← hfin, excess_pair_count, hlen, BitVec.lt_def, toNat_ofNat_lt hw]
    simpa using List.length_pos_iff.2 hne
  · rw [hlen, hv] at he
    have e : Spec.covariance ((valuesOf ops).map fun x => (x, x)) = Spec.variance (valuesOf ops) := by
      unfold Spec.covariance Spec.variance
      rw [Spec.cosum_diag, List.length_map]
    rw [e] at he
    exact he

/-- `float` pairs evaluated in `double`, some results rounded to `float`. -/
example : ∃ c : ℝ, Variance.variance binary64 true (Variance.run binary64
      (finE [.push ((noSpills, ⟨true, false, true, false, false⟩), 1), .push ((noSpills, ⟨false, false, false, false, true⟩), 2),
        .push ((⟨true, true, true, true⟩, ⟨false, true, true, true, false⟩), 6)]) : Cumulative.Variance 64 (X binary32)) = X.fin c
    ∧ |c - 14 / 3| ≤ 86 * ((2 ^ (-24 : Int) + 2 ^ (-53 : Int) + 2 ^ (-24 : Int) * 2 ^ (-53 : Int)) * 36) := by
  have hi : ∀ n : Int, |n| < 2 ^ 24 → IsRep 24 (-149) (n : ℝ) ∧ binary32.fits (n : ℝ) := by
    intro n hn
    refine ⟨isRep_int (by norm_num) hn, ?_⟩
    rw [binary32_fits]
    have : ((|n| : Int) : ℝ) < ((2 ^ 24 : Int) : ℝ) := by exact_mod_cast hn
    rw [Int.cast_abs] at this
    refine this.trans ?_
    norm_num
  have h1 := hi 1 (by norm_num)
  have h2 := hi 2 (by norm_num)
  have h3 := hi 3 (by norm_num)
  have h6 := hi 6 (by norm_num)
  have hK := hi 864 (by norm_num)
  push_cast at h1 h2 h3 h6 hK
  set ops : List (Op ((MeanSpills × SumSpills) × ℝ)) := [.push ((noSpills, ⟨true, false, true, false, false⟩), 1),
    .push ((noSpills, ⟨false, false, false, false, true⟩), 2), .push ((⟨true, true, true, true⟩, ⟨false, true, true, true, false⟩), 6)]
  have hs : valuesOf ops = [1, 2, 6] := rfl
  have hη : (2 : ℝ) ^ (-150 : Int) + (1 + 2 ^ (-24 : Int)) * 2 ^ (-1075 : Int) ≤ 2 ^ (-24 : Int) := by
    have a1 : (2 : ℝ) ^ (-150 : Int) ≤ 2 ^ (-26 : Int) := zpow_le_zpow_right₀ (by norm_num) (by norm_num)
    have a2 : (2 : ℝ) ^ (-1075 : Int) ≤ 2 ^ (-27 : Int) := zpow_le_zpow_right₀ (by norm_num) (by norm_num)
    have a3 : (1 + (2 : ℝ) ^ (-24 : Int)) ≤ 2 := by norm_num
    have a4 : (0 : ℝ) ≤ 2 ^ (-1075 : Int) := by positivity
    have a5 := mul_le_mul_of_nonneg_right a3 a4
    have a6 : (2 : ℝ) ^ (-26 : Int) + 2 * 2 ^ (-27 : Int) ≤ 2 ^ (-24 : Int) := by norm_num
    linarith
  have hu : (0 : ℝ) < 2 ^ (-53 : Int) + 2 ^ (-24 : Int) * 2 ^ (-53 : Int) := by positivity
  have hu2 : (0 : ℝ) < 2 ^ (-24 : Int) := by positivity
  obtain ⟨c, hc, he⟩ := C172_variance_error (w := 64) (D := 6) (B := 6) (K := 864) C171_formats.1 binary32_err binary64_err (by norm_num)
    (by linarith) (by linarith) hK.1 hK.2 ops (by rw [hs]; simp)
    ⟨by intro x hx; rw [hs] at hx; simp at hx; rcases hx with rfl | rfl | rfl <;> assumption, h6.1, h6.2, by
      intro x hx y hy
      rw [hs] at hx hy
      simp at hx hy
      rcases hx with rfl | rfl | rfl <;> rcases hy with rfl | rfl | rfl <;> norm_num⟩
    (by rw [hs]; simp) (by rw [hs]; norm_num) (by rw [hs]; simpa using h3.2)
    (by intro x hx; rw [hs] at hx; simp at hx; rcases hx with rfl | rfl | rfl <;> norm_num)
    (by rw [hs]; norm_num) (by rw [hs]; norm_num) true
  refine ⟨c, hc, ?_⟩
  rw [hs] at he
  have e : Spec.variance [1, 2, 6] = 14 / 3 := by
    simp [Spec.variance, Spec.central, Spec.mean]; norm_num
  rw [e] at he
  refine he.trans (le_of_eq ?_)
  simp only [List.length_cons, List.length_nil]
  norm_num

/-- A constant coordinate. -/
example : Comoment.variance binary64 false (Comoment.run binary64
    (finE2 [.push (((noSpills, noSpills), ⟨true, false, true, false, false⟩), (1, 2)),
      .push (((noSpills, noSpills), ⟨true, false, true, false, false⟩), (1, 6))]) : Cumulative.Comoment 64 (X binary32)) = X.fin 0 := by
  have hi : ∀ n : Int, |n| < 2 ^ 24 → IsRep 24 (-149) (n : ℝ) ∧ binary32.fits (n : ℝ) := by
    intro n hn
    refine ⟨isRep_int (by norm_num) hn, ?_⟩
    rw [binary32_fits]
    have : ((|n| : Int) : ℝ) < ((2 ^ 24 : Int) : ℝ) := by exact_mod_cast hn
    rw [Int.cast_abs] at this
    refine this.trans ?_
    norm_num
  have h1 := hi 1 (by norm_num)
  have h2 := hi 2 (by norm_num)
  have h6 := hi 6 (by norm_num)
  push_cast at h1 h2 h6
  refine (C172_constant (w := 64) (D := 6) (D' := 6) C171_formats.1 _ ?_ ?_ (by simp [valuesOf, sinceClear])
    (Or.inl ⟨1, by simp [valuesOf, sinceClear]⟩) false).1
  · refine ⟨?_, h6.1, h6.2, ?_⟩
    · intro x hx; simp [valuesOf, sinceClear, Spec.xsOf] at hx; rw [hx]; exact h1
    · intro x hx y hy; simp [valuesOf, sinceClear, Spec.xsOf] at hx hy; rw [hx, hy]; norm_num
  · refine ⟨?_, h6.1, h6.2, ?_⟩
    · intro x hx; simp [valuesOf, sinceClear, Spec.ysOf] at hx; rcases hx with rfl | rfl <;> assumption
    · intro x hx y hy; simp [valuesOf, sinceClear, Spec.ysOf] at hx hy
      rcases hx with rfl | rfl <;> rcases hy with rfl | rfl <;> norm_num

end Verif.Props
