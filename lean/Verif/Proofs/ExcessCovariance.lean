import Verif.Proofs.Excess
import Verif.Proofs.CovarianceError
/-
The cumulative covariance with excess precision: constant coordinates and the forward error bound.
-/
namespace Verif.Excess
open Scalar
open Verif.Cumulative (MeanInv NonNeg Within)

variable {w : Nat} {F W : Fmt} {p q : Nat} {emin gmin : Int} {u η u' η' : ℝ}

/-- The choices of the compiler for one push of a pair. -/
abbrev PairSpills := (MeanSpills × MeanSpills) × SumSpills

theorem Comoment.run_eq (ops : List (Op (PairSpills × (X F × X F)))) :
    (Comoment.run W ops : Cumulative.Comoment w (X F))
      = (sinceClear ops).foldl (fun s i => Comoment.push W i.1 s i.2.1 i.2.2) Cumulative.Comoment.init :=
  runOps_eq _ _ _ Cumulative.Comoment.clear_eq ops

/-- A pair that is pushed, with the choices of the compiler. -/
abbrev fin2 {β : Type} (i : β × (ℝ × ℝ)) : β × (X F × X F) := (i.1, (X.fin i.2.1, X.fin i.2.2))

/-- The state after pushes of finite pairs. -/
noncomputable abbrev pairState (W : Fmt) (is : List (PairSpills × (ℝ × ℝ))) : Cumulative.Comoment w (X F) :=
  (is.map fin2).foldl (fun s i => Comoment.push W i.1 s i.2.1 i.2.2) Cumulative.Comoment.init

/-- The pushes of the first and of the second coordinate. -/
abbrev xPushes (is : List (PairSpills × (ℝ × ℝ))) : List (MeanSpills × ℝ) := is.map fun i => (i.1.1.1, i.2.1)
abbrev yPushes (is : List (PairSpills × (ℝ × ℝ))) : List (MeanSpills × ℝ) := is.map fun i => (i.1.1.2, i.2.2)

theorem fold_centers (is : List (PairSpills × (ℝ × ℝ))) :
    (pairState W is : Cumulative.Comoment w (X F)).xCenter
      = ((xPushes is).map fin1).foldl (fun s i => Mean.push W i.1 s i.2) Cumulative.Mean.init
    ∧ (pairState W is : Cumulative.Comoment w (X F)).yCenter
      = ((yPushes is).map fin1).foldl (fun s i => Mean.push W i.1 s i.2) Cumulative.Mean.init := by
  induction is using List.reverseRecOn with
  | nil => exact ⟨rfl, rfl⟩
  | append_singleton is i ih =>
    simp only [pairState, xPushes, yPushes, List.map_append, List.map_singleton, List.foldl_append, List.foldl_cons, List.foldl_nil] at ih ⊢
    rw [← ih.1, ← ih.2]
    exact ⟨rfl, rfl⟩

theorem xPushes_snd (is : List (PairSpills × (ℝ × ℝ))) : (xPushes is).map Prod.snd = Spec.xsOf (is.map Prod.snd) := by
  simp [xPushes, Spec.xsOf, Function.comp_def]
theorem yPushes_snd (is : List (PairSpills × (ℝ × ℝ))) : (yPushes is).map Prod.snd = Spec.ysOf (is.map Prod.snd) := by
  simp [yPushes, Spec.ysOf, Function.comp_def]

/-- What enters the sum. -/
noncomputable def term (F W : Fmt) (c : SumSpills) (a b : ℝ) : ℝ := if c.fused then a * b else F.rnd2 W c.prod (a * b)

/-- The update of a sum where nothing overflows. -/
theorem addMul_fin (h : F.Eval W p emin q gmin) (c : SumSpills) {K S va vb : ℝ} (hK : IsRep p emin K) (hKf : F.fits K) {a b : X W}
    (ha : X.spill F c.left a = X.fin va) (hb : X.spill F c.right b = X.fin vb) (hS : IsRep p emin S) (hSf : F.fits S)
    (hab : |va * vb| ≤ K) (hsum : |S + term F W c va vb| ≤ K) :
    addMul W c (X.fin S : X F) a b = X.fin (F.rnd2 W true (S + term F W c va vb)) ∧ F.fits (F.rnd2 W true (S + term F W c va vb)) := by
  have hKn := hK.neg
  have hKnf := h.narrow.fits_neg hKf
  have h1 := abs_le.1 hab
  have h2 := abs_le.1 hsum
  unfold addMul
  rw [ha, hb, h.conv_fin hS hSf]
  have e : (if c.fused = true then Fused.fma (X.fin va) (X.fin vb) (X.fin S) else X.fin S + X.spill F c.prod (X.fin va * X.fin vb) : X W)
      = X.round (S + term F W c va vb) := by
    unfold term
    cases c.fused
    · simp only [Bool.false_eq_true, if_false]
      rw [X.mul_fin, h.spill c.prod hKn hKnf hK hKf h1.1 h1.2, X.add_fin]
    · simp only [if_true]
      show X.round (va * vb + S) = _
      rw [add_comm]
  simp only [e]
  exact h.store c.sum hKn hKnf hK hKf h2.1 h2.2

theorem spread_mean_diff (h : F.Eval W p emin q gmin) (hF : F.Err u η) (hW : W.Err u' η') (hu8 : u + u' + u * u' ≤ 1 / 8) {B D : ℝ}
    (is : List (MeanSpills × ℝ)) (hd : F.Spread p emin D (is.map Prod.snd))
    (hw : is.length < 2 ^ w) (hp : is.length ≤ 2 ^ p) (hfit : F.fits (is.length : ℝ)) (hB : ∀ x ∈ is.map Prod.snd, |x| ≤ B) (hB0 : 0 ≤ B)
    (hη : η + (1 + u) * η' ≤ (u + u' + u * u') * B) :
    ∃ m, MeanInv F p emin w (is.map Prod.snd)
      ((is.map fin1).foldl (fun s i => Mean.push W i.1 s i.2) (Cumulative.Mean.init : Cumulative.Mean w (X F))) m
      ∧ ∀ b x, |x| ≤ B → |F.rnd2 W b (x - m) - (x - Spec.mean (is.map Prod.snd))| ≤ (2 * is.length + 12) * ((u + u' + u * u') * B)
        ∧ |F.rnd2 W b (x - m)| ≤ 5 / 2 * B ∧ |x - Spec.mean (is.map Prod.snd)| ≤ 2 * B := by
  obtain ⟨m, hm, he⟩ := mean_err (w := w) h hF hW hu8 is hd hw hp hfit hB
  refine ⟨m, hm, fun b x hx => ?_⟩
  have herr := Fmt.Eval.rnd2_err hF hW b (x - m)
  set xs := is.map Prod.snd with hxs
  have hlen : is.length = xs.length := by rw [hxs, List.length_map]
  rw [hlen] at he ⊢
  set U := u + u' + u * u' with hU
  set H := η + (1 + u) * η' with hH
  have hU0 : 0 ≤ U := by have := hF.u_nonneg; have := hW.u_nonneg; positivity
  have huB := mul_nonneg hU0 hB0
  have hmB : |m| ≤ B := by
    rcases eq_or_ne xs [] with h0 | h0
    · rw [hm.empty h0, abs_zero]; exact hB0
    · obtain ⟨⟨a, ha, ham⟩, ⟨b, hb, hmb⟩⟩ := hm.within h0
      have ha' := abs_le.1 (hB a ha)
      have hb' := abs_le.1 (hB b hb)
      rw [abs_le]; constructor <;> linarith
  have hμB := Window.abs_mean_le hB0 hB
  have hmμ : |m - Spec.mean xs| ≤ (2 * xs.length + 9) * (U * B) := by
    rcases eq_or_ne xs [] with h0 | h0
    · rw [hm.empty h0, h0]; simp; positivity
    · have hpos : (0 : ℝ) < xs.length := by exact_mod_cast List.length_pos_iff.2 h0
      refine le_of_mul_le_mul_left (he.trans ?_) hpos
      have e : (xs.length : ℝ) * (5 * (U * B) + 2 * H) + xs.length * (xs.length + 1) / 2 * (U * B + 3 * H)
          = xs.length * ((5 * (U * B) + 2 * H) + (xs.length + 1) / 2 * (U * B + 3 * H)) := by ring
      rw [e]
      refine mul_le_mul_of_nonneg_left ?_ hpos.le
      have : ((xs.length : ℝ) + 1) / 2 * (U * B + 3 * H) ≤ (xs.length + 1) / 2 * (4 * (U * B)) :=
        mul_le_mul_of_nonneg_left (by linarith) (by positivity)
      nlinarith
  have hxm : |x - m| ≤ 2 * B := (abs_sub x m).trans (by linarith)
  have h2 := mul_le_mul_of_nonneg_left hxm hU0
  refine ⟨?_, ?_, (abs_sub x _).trans (by linarith)⟩
  · have e : F.rnd2 W b (x - m) - (x - Spec.mean xs) = (F.rnd2 W b (x - m) - (x - m)) + -(m - Spec.mean xs) := by ring
    rw [e]
    refine (abs_add_le _ _).trans ?_
    rw [abs_neg]
    linarith
  · have h3 := abs_add_le (F.rnd2 W b (x - m) - (x - m)) (x - m)
    rw [sub_add_cancel] at h3
    have h4 : U * B ≤ 1 / 8 * B := mul_le_mul_of_nonneg_right hu8 hB0
    linarith

theorem comoment_err (h : F.Eval W p emin q gmin) (hF : F.Err u η) (hW : W.Err u' η') {A B K D D' : ℝ} (hA0 : 0 ≤ A) (hB0 : 0 ≤ B)
    (hηA : η + (1 + u) * η' ≤ (u + u' + u * u') * A) (hηB : η + (1 + u) * η' ≤ (u + u' + u * u') * B)
    (hηAB : η + (1 + u) * η' ≤ (u + u' + u * u') * (A * B)) (hK : IsRep p emin K) (hKf : F.fits K)
    (is : List (PairSpills × (ℝ × ℝ))) (hdx : F.Spread p emin D (Spec.xsOf (is.map Prod.snd)))
    (hdy : F.Spread p emin D' (Spec.ysOf (is.map Prod.snd)))
    (hw : is.length < 2 ^ w) (hp : is.length ≤ 2 ^ p) (hfit : F.fits (is.length : ℝ))
    (hA : ∀ q ∈ is.map Prod.snd, |q.1| ≤ A) (hB : ∀ q ∈ is.map Prod.snd, |q.2| ≤ B) (hBK : 8 * is.length * (A * B) ≤ K)
    (hsmall : (6 * is.length + 65) * (u + u' + u * u') ≤ 1) :
    ∃ S : ℝ, (pairState W is : Cumulative.Comoment w (X F)).center = X.fin S ∧ IsRep p emin S ∧ F.fits S
      ∧ |S - Spec.cosum (is.map Prod.snd)| ≤ is.length * (6 * is.length + 65) * ((u + u' + u * u') * (A * B)) := by
  set U := u + u' + u * u' with hU
  set H := η + (1 + u) * η' with hH
  have hU0 : 0 ≤ U := by have := hF.u_nonneg; have := hW.u_nonneg; positivity
  have hu8 : U ≤ 1 / 8 := by
    have : 0 ≤ (is.length : ℝ) * U := by positivity
    linarith
  induction is using List.reverseRecOn with
  | nil => exact ⟨0, h.narrow.ofNat_zero, isRep_zero _ _, h.narrow.fits_zero, by simp [Spec.cosum]⟩
  | append_singleton is i ih =>
    have eps : (is ++ [i]).map Prod.snd = is.map Prod.snd ++ [i.2] := by rw [List.map_append, List.map_singleton]
    rw [eps] at hdx hdy hA hB ⊢
    set ps := is.map Prod.snd with hps
    set q := i.2 with hq
    have lps : ps.length = is.length := by rw [hps, List.length_map]
    have ex : Spec.xsOf (ps ++ [q]) = Spec.xsOf ps ++ [q.1] := by simp [Spec.xsOf]
    have ey : Spec.ysOf (ps ++ [q]) = Spec.ysOf ps ++ [q.2] := by simp [Spec.ysOf]
    have lx : (Spec.xsOf ps).length = is.length := by simp [Spec.xsOf, lps]
    have ly : (Spec.ysOf ps).length = is.length := by simp [Spec.ysOf, lps]
    have hcosum := Spec.abs_cosum_le hA0 hB0 (ps ++ [q]) hA hB
    have hsn := Spec.cosum_snoc ps q
    rw [ex] at hdx hsn
    rw [ey] at hdy
    rw [List.length_append, List.length_singleton, lps] at hcosum
    rw [List.length_append, List.length_singleton] at hw hp hfit hBK hsmall ⊢
    push_cast at hBK hsmall hcosum hfit ⊢
    set n := is.length with hn
    have hn0 : (0 : ℝ) ≤ n := Nat.cast_nonneg n
    have hAB := mul_nonneg hA0 hB0
    have huAB := mul_nonneg hU0 hAB
    have hnAB' := mul_nonneg hn0 hAB
    have hnuAB := mul_nonneg hn0 huAB
    have hnnuAB := mul_nonneg hn0 hnuAB
    have hfit' : F.fits (n : ℝ) :=
      h.narrow.fits_abs _ _ (by rw [abs_of_nonneg (by positivity), abs_of_nonneg (by positivity)]; linarith) hfit
    obtain ⟨S, hS, hSr, hSf, hSe⟩ := ih hdx.init hdy.init (by omega) (by omega) hfit'
      (fun r hr => hA r (List.mem_append_left _ hr)) (fun r hr => hB r (List.mem_append_left _ hr))
      (by linarith) (by linarith)
    have hcen := fold_centers (w := w) (F := F) (W := W) is
    have hcen' := (fold_centers (w := w) (F := F) (W := W) (is ++ [i])).1
    have hAx : ∀ x ∈ Spec.xsOf ps ++ [q.1], |x| ≤ A := by
      rw [← ex]; intro x hx; obtain ⟨r, hr, rfl⟩ := List.mem_map.1 hx; exact hA r hr
    have hBy : ∀ x ∈ Spec.ysOf ps, |x| ≤ B := by
      intro x hx; obtain ⟨r, hr, rfl⟩ := List.mem_map.1 hx; exact hB r (List.mem_append_left _ hr)
    have exs : (xPushes (is ++ [i])).map Prod.snd = Spec.xsOf ps ++ [q.1] := by rw [xPushes_snd, eps, ex]
    have exs0 : (xPushes is).map Prod.snd = Spec.xsOf ps := xPushes_snd is
    have eys0 : (yPushes is).map Prod.snd = Spec.ysOf ps := yPushes_snd is
    have lxp : (xPushes (is ++ [i])).length = n + 1 := by simp [xPushes, hn]
    have lxp0 : (xPushes is).length = n := by simp [xPushes, hn]
    have lyp0 : (yPushes is).length = n := by simp [yPushes, hn]
    obtain ⟨mx', hmx', hx'⟩ := spread_mean_diff (w := w) h hF hW hu8 (B := A) (xPushes (is ++ [i])) (by rw [exs]; exact hdx)
      (by rw [lxp]; exact hw) (by rw [lxp]; exact hp) (by rw [lxp]; push_cast; exact hfit) (by rw [exs]; exact hAx) hA0 hηA
    obtain ⟨mx, hmx⟩ := mean_fold (w := w) h (xPushes is) (by rw [exs0]; exact hdx.init) (by rw [lxp0]; omega)
    obtain ⟨my, hmy, hy⟩ := spread_mean_diff (w := w) h hF hW hu8 (B := B) (yPushes is) (by rw [eys0]; exact hdy.init)
      (by rw [lyp0]; omega) (by rw [lyp0]; omega) (by rw [lyp0]; exact hfit') (by rw [eys0]; exact hBy) hB0 hηB
    rw [← hcen', exs] at hmx'
    rw [exs] at hx'
    rw [← hcen.1, exs0] at hmx
    rw [← hcen.2, eys0] at hmy
    rw [eys0] at hy
    set st : Cumulative.Comoment w (X F) := pairState W is with hst
    have hstep : (pairState W (is ++ [i]) : Cumulative.Comoment w (X F)) = Comoment.push W i.1 st (X.fin q.1) (X.fin q.2) := by
      rw [hst]; simp only [pairState, List.map_append, List.map_singleton, List.foldl_append, List.foldl_cons, List.foldl_nil]
      rfl
    rw [hstep] at hmx'
    obtain ⟨mx2, hmx2, -, hdx2, -⟩ := mean_push h hdx (by omega) hmx i.1.1.1
    obtain ⟨my2, -, hdy2, -⟩ := mean_push h hdy (by omega) hmy i.1.1.2
    have hmm : mx2 = mx' := by
      have h1 := hmx2.mean
      have h2 := hmx'.mean
      change (Mean.push W i.1.1.1 st.xCenter (X.fin q.1)).mean = X.fin mx' at h2
      rw [h1] at h2
      injection h2
    rw [hmm] at hdx2 hmx2
    obtain ⟨x1, x2, -⟩ := hx' i.1.2.left q.1 (hA q (by simp))
    obtain ⟨y1, y2, y3⟩ := hy i.1.2.right q.2 (hB q (by simp))
    rw [lxp] at x1
    rw [lyp0] at y1
    push_cast at x1
    have hdx3 := hdx2 i.1.2.left
    have hdy3 := hdy2 i.1.2.right
    set d1 := F.rnd2 W i.1.2.left (q.1 - mx')
    set d2 := F.rnd2 W i.1.2.right (q.2 - my)
    set a := q.1 - Spec.mean (Spec.xsOf ps ++ [q.1])
    set b := q.2 - Spec.mean (Spec.ysOf ps)
    have hprod : |d1 * d2 - a * b| ≤ (9 * n + 58) * (U * (A * B)) := by
      have e : d1 * d2 - a * b = d1 * (d2 - b) + (d1 - a) * b := by ring
      rw [e]
      refine (abs_add_le _ _).trans ?_
      rw [abs_mul, abs_mul]
      have h1 := mul_le_mul x2 y1 (abs_nonneg _) (by positivity)
      have h2 := mul_le_mul x1 y3 (abs_nonneg _) (by positivity)
      linarith
    have hpabs : |d1 * d2| ≤ 25 / 4 * (A * B) := by
      rw [abs_mul]
      have := mul_le_mul x2 y2 (abs_nonneg _) (by positivity)
      linarith
    have hn1 : (A * B) ≤ (n + 1) * (A * B) := by linarith
    have q1 := Fmt.Eval.rnd2_err hF hW i.1.2.prod (d1 * d2)
    -- the product as it enters the sum
    set t := term F W i.1.2 d1 d2 with ht
    have hq : |t - a * b| ≤ (9 * n + 66) * (U * (A * B)) := by
      have e : t - a * b = (t - d1 * d2) + (d1 * d2 - a * b) := by ring
      rw [e]
      refine (abs_add_le _ _).trans ?_
      have h1 := mul_le_mul_of_nonneg_left hpabs hU0
      have h2 : |t - d1 * d2| ≤ 8 * (U * (A * B)) := by
        rw [ht]
        unfold term
        split_ifs
        · rw [sub_self, abs_zero]; positivity
        · linarith
      linarith
    have hsum : |S + t - Spec.cosum (ps ++ [q])| ≤ (n * (6 * n + 65) + (9 * n + 66)) * (U * (A * B)) := by
      have e : S + t - Spec.cosum (ps ++ [q]) = (S - Spec.cosum ps) + (t - a * b) := by rw [hsn]; ring
      rw [e]
      refine (abs_add_le _ _).trans ?_
      linarith
    have hsb : |S + t| ≤ 2 * (n + 1) * (A * B) := by
      have e : S + t = (S + t - Spec.cosum (ps ++ [q])) + Spec.cosum (ps ++ [q]) := by ring
      rw [e]
      refine (abs_add_le _ _).trans ?_
      have h1 : (n * (6 * n + 65) + (9 * n + 66)) * (U * (A * B)) ≤ (n + 1) * (A * B) := by
        have h2 : (n + 1) * (A * B) * ((6 * (n + 1) + 65) * U) ≤ (n + 1) * (A * B) * 1 :=
          mul_le_mul_of_nonneg_left hsmall (by positivity)
        have h3 : 0 ≤ (n : ℝ) * (U * (A * B)) := by positivity
        linarith
      linarith
    have hnAB : 0 ≤ ((n : ℝ) + 1) * (A * B) := by positivity
    obtain ⟨r1, r2⟩ := addMul_fin h i.1.2 hK hKf hdx3 hdy3 hSr hSf (hpabs.trans (by linarith)) (hsb.trans (by linarith))
    refine ⟨F.rnd2 W true (S + t), ?_, h.narrow.rep _, r2, ?_⟩
    · rw [hstep]
      show addMul W i.1.2 st.center (X.conv W (X.fin q.1 : X F) - X.conv W (Mean.push W i.1.1.1 st.xCenter (X.fin q.1)).mean)
        (X.conv W (X.fin q.2 : X F) - X.conv W st.yCenter.mean) = _
      rw [hmx2.mean, hmy.mean, hS, r1]
    · have h1 := Fmt.Eval.rnd2_err hF hW true (S + t)
      have h2 := mul_le_mul_of_nonneg_left hsb hU0
      have e : F.rnd2 W true (S + t) - Spec.cosum (ps ++ [q])
          = (F.rnd2 W true (S + t) - (S + t)) + (S + t - Spec.cosum (ps ++ [q])) := by ring
      rw [e]
      refine (abs_add_le _ _).trans ?_
      have h3 : 0 ≤ (n : ℝ) * (U * (A * B)) := by positivity
      linarith

theorem mean_count (is : List (MeanSpills × ℝ)) :
    ((is.map fin1).foldl (fun s i => Mean.push W i.1 s i.2) (Cumulative.Mean.init : Cumulative.Mean w (X F))).count
      = BitVec.ofNat w is.length := by
  induction is using List.reverseRecOn with
  | nil => rfl
  | append_singleton is i ih =>
    rw [List.map_append, List.map_singleton, List.foldl_append, List.foldl_cons, List.foldl_nil, List.length_append,
      List.length_singleton, ← ofNat_add_one, ← ih]
    rfl

theorem pair_count (is : List (PairSpills × (ℝ × ℝ))) :
    (pairState W is : Cumulative.Comoment w (X F)).size = BitVec.ofNat w is.length := by
  show (pairState W is : Cumulative.Comoment w (X F)).xCenter.count = _
  rw [(fold_centers is).1, mean_count]
  simp [xPushes]

end Verif.Excess
