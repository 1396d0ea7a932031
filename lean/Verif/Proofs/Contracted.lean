import Verif.Model.Contracted
import Verif.Proofs.CovarianceError
/-
The contracted cumulative variance and covariance.
-/
namespace Verif.Contracted
open Scalar
open Verif.Cumulative (Mean MeanInv NonNeg)

variable {w : Nat} {F : Fmt} {p : Nat} {emin : Int} {u η : ℝ}

theorem addMul_fin (b : Bool) (c x y : ℝ) :
    (addMul b (X.fin c) (X.fin x) (X.fin y) : X F) = if b then X.round (x * y + c) else X.fin c + X.round (x * y) := by
  cases b <;> rfl

theorem addMul_comm (b : Bool) (c x y : X F) : addMul b c x y = addMul b c y x := by
  unfold addMul
  cases b <;> cases x <;> cases y <;> cases c <;>
    first | rfl | (simp only [if_true, Bool.false_eq_true, if_false]; exact congrArg (_ + ·) (congrArg X.round (_root_.mul_comm _ _)))
          | (simp only [if_true]; exact congrArg X.round (by rw [_root_.mul_comm]))

/-- A product that is zero. -/
theorem addMul_zero (hF : F.Binary p emin) (b : Bool) {x y : ℝ} (h : x * y = 0) :
    (addMul b (X.fin 0) (X.fin x) (X.fin y) : X F) = X.fin 0 := by
  have hz : (X.round (0 : ℝ) : X F) = X.fin 0 := by rw [X.round, hF.rnd_zero, if_pos hF.fits_zero]
  rw [addMul_fin, h, add_zero, hz, hF.add_zero (isRep_zero _ _) hF.fits_zero]
  split_ifs <;> rfl

/-- Adding a product that is not negative. -/
theorem addMul_nonneg (hF : F.Binary p emin) (b : Bool) {s : X F} (hs : NonNeg F p emin s) {x y : ℝ} (h : 0 ≤ x * y) :
    NonNeg F p emin (addMul b s (X.fin x) (X.fin y)) ∧ le s (addMul b s (X.fin x) (X.fin y)) = true := by
  cases b
  · have h2 : NonNeg F p emin (X.fin x * X.fin y : X F) := by rw [X.mul_fin]; exact Cumulative.nonNeg_round hF h
    exact hs.add hF h2
  · rcases hs with rfl | ⟨c, h1, h2, h3, rfl⟩
    · exact ⟨Or.inl rfl, rfl⟩
    · rw [addMul_fin, if_pos rfl]
      refine ⟨Cumulative.nonNeg_round hF (by linarith), ?_⟩
      rcases hF.round_nonneg (show 0 ≤ x * y + c by linarith) with h | ⟨d, -, -, -, h5, h6⟩
      · rw [h]; rfl
      · rw [h6, X.le_fin, h5]
        exact decide_eq_true (hF.le_rnd h2 (by linarith))

theorem Variance.run_eq {α : Type} [Fused α] (ops : List (Op (Bool × α))) :
    (Variance.run ops : Cumulative.Variance w α) = (sinceClear ops).foldl Variance.push Cumulative.Variance.init :=
  runOps_eq _ _ _ Cumulative.Variance.clear_eq ops

theorem Comoment.run_eq {α : Type} [Fused α] (ops : List (Op (Bool × (α × α)))) :
    (Comoment.run ops : Cumulative.Comoment w α) = (sinceClear ops).foldl Comoment.push Cumulative.Comoment.init :=
  runOps_eq _ _ _ Cumulative.Comoment.clear_eq ops

/-- A value that is pushed, contracted or not. -/
abbrev fin1 (i : Bool × ℝ) : Bool × X F := (i.1, X.fin i.2)
/-- A pair that is pushed, contracted or not. -/
abbrev fin2 (i : Bool × (ℝ × ℝ)) : Bool × (X F × X F) := (i.1, (X.fin i.2.1, X.fin i.2.2))

theorem Variance.fold_super (is : List (Bool × X F)) :
    (is.foldl Variance.push (Cumulative.Variance.init : Cumulative.Variance w (X F))).super
      = (is.map Prod.snd).foldl Mean.push Mean.init := by
  induction is using List.reverseRecOn with
  | nil => rfl
  | append_singleton is i ih =>
    rw [List.map_append, List.map_singleton, List.foldl_append, List.foldl_append, List.foldl_cons, List.foldl_nil,
      List.foldl_cons, List.foldl_nil, ← ih]
    rfl

theorem Comoment.fold_centers (is : List (Bool × (X F × X F))) :
    (is.foldl Comoment.push (Cumulative.Comoment.init : Cumulative.Comoment w (X F))).xCenter
      = (is.map fun i => i.2.1).foldl Mean.push Mean.init
    ∧ (is.foldl Comoment.push (Cumulative.Comoment.init : Cumulative.Comoment w (X F))).yCenter
      = (is.map fun i => i.2.2).foldl Mean.push Mean.init := by
  induction is using List.reverseRecOn with
  | nil => exact ⟨rfl, rfl⟩
  | append_singleton is i ih =>
    simp only [List.map_append, List.map_singleton, List.foldl_append, List.foldl_cons, List.foldl_nil, ← ih.1, ← ih.2]
    exact ⟨rfl, rfl⟩

theorem Variance.rounded_push (hF : F.Binary p emin) {xs : List ℝ} {x : ℝ} (b : Bool) (hd : F.Data p emin (xs ++ [x]))
    (hw : xs.length + 1 < 2 ^ w) {s : Cumulative.Variance w (X F)} {m : ℝ} (hs : MeanInv F p emin w xs s.super m)
    (hv : NonNeg F p emin s.sumVariance) :
    NonNeg F p emin (push s (b, X.fin x)).sumVariance ∧ le s.sumVariance (push s (b, X.fin x)).sumVariance = true := by
  obtain ⟨m', h1, h2, h3, h4, -⟩ := hs.push hF hd hw
  have e : (push s (b, X.fin x)).sumVariance
      = addMul b s.sumVariance (X.fin (F.rnd (x - m))) (X.fin (F.rnd (x - m'))) := by
    show addMul b s.sumVariance (X.fin x - s.super.mean) (X.fin x - (s.super.push (X.fin x)).mean) = _
    rw [h1.mean, hs.mean, h2, h3]
  rw [e]
  refine addMul_nonneg hF b hv ?_
  rcases h4 with ⟨h1, h2⟩ | ⟨h1, h2⟩
  · exact mul_nonneg (hF.rnd_nonneg (by linarith)) (hF.rnd_nonneg (by linarith))
  · exact mul_nonneg_of_nonpos_of_nonpos (hF.rnd_nonpos (by linarith)) (hF.rnd_nonpos (by linarith))

theorem Variance.mean_inv (hF : F.Binary p emin) (is : List (Bool × ℝ)) (hd : F.Data p emin (is.map Prod.snd))
    (hw : is.length < 2 ^ w) :
    ∃ m, MeanInv F p emin w (is.map Prod.snd)
      ((is.map fin1).foldl push (Cumulative.Variance.init : Cumulative.Variance w (X F))).super m := by
  rw [fold_super, List.map_map]
  have := Mean.rounded (w := w) hF _ hd (by rw [List.length_map]; exact hw)
  rw [List.map_map] at this
  exact this

theorem Variance.rounded (hF : F.Binary p emin) (is : List (Bool × ℝ)) (hd : F.Data p emin (is.map Prod.snd))
    (hw : is.length < 2 ^ w) :
    NonNeg F p emin ((is.map fin1).foldl push (Cumulative.Variance.init : Cumulative.Variance w (X F))).sumVariance := by
  induction is using List.reverseRecOn with
  | nil => exact Or.inr ⟨0, le_refl _, isRep_zero _ _, hF.fits_zero, hF.ofNat_zero⟩
  | append_singleton is i ih =>
    rw [List.length_append, List.length_singleton] at hw
    rw [List.map_append, List.map_singleton] at hd
    obtain ⟨m, hm⟩ := mean_inv (w := w) hF is hd.init (by omega)
    have hv := ih hd.init (by omega)
    rw [List.map_append, List.map_singleton, List.foldl_append]
    exact (rounded_push hF i.1 hd (by rw [List.length_map]; omega) hm hv).1

theorem Comoment.rounded_err (hF : F.Binary p emin) (hE : F.Err u η) {A B K : ℝ} (hA0 : 0 ≤ A) (hB0 : 0 ≤ B)
    (hηA : η ≤ u * A) (hηB : η ≤ u * B) (hηAB : η ≤ u * (A * B)) (hK : IsRep p emin K) (hKf : F.fits K)
    (is : List (Bool × (ℝ × ℝ))) (hdx : F.Data p emin (Spec.xsOf (is.map Prod.snd))) (hdy : F.Data p emin (Spec.ysOf (is.map Prod.snd)))
    (hw : is.length < 2 ^ w) (hp : is.length ≤ 2 ^ p) (hfit : F.fits (is.length : ℝ))
    (hA : ∀ q ∈ is.map Prod.snd, |q.1| ≤ A) (hB : ∀ q ∈ is.map Prod.snd, |q.2| ≤ B) (hBK : 8 * is.length * (A * B) ≤ K)
    (hsmall : (6 * is.length + 65) * u ≤ 1) :
    ∃ S : ℝ, ((is.map fin2).foldl push (Cumulative.Comoment.init : Cumulative.Comoment w (X F))).center = X.fin S
      ∧ |S - Spec.cosum (is.map Prod.snd)| ≤ is.length * (6 * is.length + 65) * (u * (A * B)) := by
  induction is using List.reverseRecOn with
  | nil => exact ⟨0, hF.ofNat_zero, by simp [Spec.cosum]⟩
  | append_singleton is i ih =>
    rw [show (is ++ [i]).map Prod.snd = is.map Prod.snd ++ [i.2] by rw [List.map_append, List.map_singleton]] at hdx hdy hA hB ⊢
    set ps := is.map Prod.snd with hps
    set q := i.2 with hq
    have lps : ps.length = is.length := by rw [hps, List.length_map]
    have ex : Spec.xsOf (ps ++ [q]) = Spec.xsOf ps ++ [q.1] := by simp [Spec.xsOf]
    have ey : Spec.ysOf (ps ++ [q]) = Spec.ysOf ps ++ [q.2] := by simp [Spec.ysOf]
    have lx : (Spec.xsOf ps).length = is.length := by simp [Spec.xsOf, lps]
    have ly : (Spec.ysOf ps).length = is.length := by simp [Spec.ysOf, lps]
    have hcosum := Spec.abs_cosum_le hA0 hB0 (ps ++ [q]) hA hB
    have hsn := Spec.cosum_snoc ps q
    rw [ex] at hdx hsn
    rw [ey] at hdy
    rw [List.length_append, List.length_singleton, lps] at hcosum
    rw [List.length_append, List.length_singleton] at hw hp hfit hBK hsmall ⊢
    push_cast at hBK hsmall hcosum hfit ⊢
    set n := is.length with hn
    have hn0 : (0 : ℝ) ≤ n := Nat.cast_nonneg n
    have hu := hE.u_nonneg
    have hAB := mul_nonneg hA0 hB0
    have huAB := mul_nonneg hu hAB
    have hnAB' := mul_nonneg hn0 hAB
    have hnuAB := mul_nonneg hn0 huAB
    have hnnuAB := mul_nonneg hn0 hnuAB
    have hfit' : F.fits (n : ℝ) :=
      hF.fits_abs _ _ (by rw [abs_of_nonneg (by positivity), abs_of_nonneg (by positivity)]; linarith) hfit
    obtain ⟨S, hS, hSe⟩ := ih hdx.init hdy.init (by omega) (by omega) hfit'
      (fun r hr => hA r (List.mem_append_left _ hr)) (fun r hr => hB r (List.mem_append_left _ hr))
      (by linarith) (by linarith)
    have hcen := fold_centers (w := w) (is.map fin2 : List (Bool × (X F × X F)))
    have m1 : ((is.map fin2 : List (Bool × (X F × X F))).map fun i => i.2.1) = (Spec.xsOf ps).map X.fin := by
      simp [Spec.xsOf, hps, Function.comp_def]
    have m2 : ((is.map fin2 : List (Bool × (X F × X F))).map fun i => i.2.2) = (Spec.ysOf ps).map X.fin := by
      simp [Spec.ysOf, hps, Function.comp_def]
    rw [m1, m2] at hcen
    have hAx : ∀ x ∈ Spec.xsOf ps ++ [q.1], |x| ≤ A := by
      rw [← ex]; intro x hx; obtain ⟨r, hr, rfl⟩ := List.mem_map.1 hx; exact hA r hr
    have hBy : ∀ x ∈ Spec.ysOf ps, |x| ≤ B := by
      intro x hx; obtain ⟨r, hr, rfl⟩ := List.mem_map.1 hx; exact hB r (List.mem_append_left _ hr)
    obtain ⟨mx', hmx', hx'⟩ := Mean.rounded_diff (w := w) hF hE (B := A) _ hdx (by simp [lx]; omega) (by simp [lx]; omega)
      (by rw [List.length_append, lx]; push_cast; simpa using hfit) hAx hA0 hηA
    obtain ⟨mx, hmx, -⟩ := Mean.rounded_diff (w := w) hF hE (B := A) _ hdx.init (by omega) (by omega)
      (by rw [lx]; exact hfit') (fun x hx => hAx x (List.mem_append_left _ hx)) hA0 hηA
    obtain ⟨my, hmy, hy⟩ := Mean.rounded_diff (w := w) hF hE (B := B) _ hdy.init (by omega) (by omega)
      (by rw [ly]; exact hfit') hBy hB0 hηB
    obtain ⟨mx2, hmx2, -, hdx2, -⟩ := hmx.push hF hdx (by omega)
    obtain ⟨my2, -, hdy2, -⟩ := hmy.push hF hdy (by omega)
    have hmm : mx2 = mx' := by
      have h1 := hmx2.mean
      have h2 := hmx'.mean
      rw [List.map_append, List.map_singleton, List.foldl_append, List.foldl_cons, List.foldl_nil, h1] at h2
      injection h2
    rw [hmm] at hdx2
    have hmx2m := hmx2.mean
    rw [hmm, ← hcen.1] at hmx2m
    have hmym := hmy.mean
    rw [← hcen.2] at hmym
    obtain ⟨x1, x2, -⟩ := hx' q.1 (hA q (by simp))
    obtain ⟨y1, y2, y3⟩ := hy q.2 (hB q (by simp))
    rw [List.length_append, List.length_singleton, lx] at x1
    rw [ly] at y1
    push_cast at x1
    set d1 := F.rnd (q.1 - mx')
    set d2 := F.rnd (q.2 - my)
    set a := q.1 - Spec.mean (Spec.xsOf ps ++ [q.1])
    set b := q.2 - Spec.mean (Spec.ysOf ps)
    have hprod : |d1 * d2 - a * b| ≤ (9 * n + 58) * (u * (A * B)) := by
      have e : d1 * d2 - a * b = d1 * (d2 - b) + (d1 - a) * b := by ring
      rw [e]
      refine (abs_add_le _ _).trans ?_
      rw [abs_mul, abs_mul]
      have h1 := mul_le_mul x2 y1 (abs_nonneg _) (by positivity)
      have h2 := mul_le_mul x1 y3 (abs_nonneg _) (by positivity)
      linarith
    have hpabs : |d1 * d2| ≤ 25 / 4 * (A * B) := by
      rw [abs_mul]
      have := mul_le_mul x2 y2 (abs_nonneg _) (by positivity)
      linarith
    have hn1 : (A * B) ≤ (n + 1) * (A * B) := by linarith
    obtain ⟨r1, -⟩ := hF.round_le hK hKf (r := d1 * d2) (by linarith)
    have q1 := hE.err (d1 * d2)
    -- the product as it enters the sum
    set t := if i.1 then d1 * d2 else F.rnd (d1 * d2) with ht
    have hq : |t - a * b| ≤ (9 * n + 66) * (u * (A * B)) := by
      have e : t - a * b = (t - d1 * d2) + (d1 * d2 - a * b) := by ring
      rw [e]
      refine (abs_add_le _ _).trans ?_
      have h1 := mul_le_mul_of_nonneg_left hpabs hu
      have h2 : |t - d1 * d2| ≤ 8 * (u * (A * B)) := by
        rw [ht]
        split_ifs
        · rw [sub_self, abs_zero]; positivity
        · linarith
      linarith
    have hsum : |S + t - Spec.cosum (ps ++ [q])| ≤ (n * (6 * n + 65) + (9 * n + 66)) * (u * (A * B)) := by
      have e : S + t - Spec.cosum (ps ++ [q]) = (S - Spec.cosum ps) + (t - a * b) := by rw [hsn]; ring
      rw [e]
      refine (abs_add_le _ _).trans ?_
      linarith
    have hsb : |S + t| ≤ 2 * (n + 1) * (A * B) := by
      have e : S + t = (S + t - Spec.cosum (ps ++ [q])) + Spec.cosum (ps ++ [q]) := by ring
      rw [e]
      refine (abs_add_le _ _).trans ?_
      have h1 : (n * (6 * n + 65) + (9 * n + 66)) * (u * (A * B)) ≤ (n + 1) * (A * B) := by
        have h2 : (n + 1) * (A * B) * ((6 * (n + 1) + 65) * u) ≤ (n + 1) * (A * B) * 1 :=
          mul_le_mul_of_nonneg_left hsmall (by positivity)
        have h3 : 0 ≤ (n : ℝ) * (u * (A * B)) := by positivity
        linarith
      linarith
    have hnAB : 0 ≤ ((n : ℝ) + 1) * (A * B) := by positivity
    obtain ⟨r2, -⟩ := hF.round_le hK hKf (r := S + t) (hsb.trans (by linarith))
    refine ⟨F.rnd (S + t), ?_, ?_⟩
    · rw [List.map_append, List.map_singleton, List.foldl_append]
      set st := (is.map fin2).foldl push (Cumulative.Comoment.init : Cumulative.Comoment w (X F))
      show addMul i.1 st.center (X.fin q.1 - (st.xCenter.push (X.fin q.1)).mean) (X.fin q.2 - st.yCenter.mean) = _
      rw [hmx2m, hmym, hdx2, hdy2, hS, addMul_fin, r1, X.add_fin]
      rw [ht] at r2 ⊢
      split_ifs with hb
      · rw [if_pos hb] at r2; rw [add_comm (d1 * d2), r2]
      · rw [if_neg hb] at r2; exact r2
    · have h1 := hE.err (S + t)
      have h2 := mul_le_mul_of_nonneg_left hsb hu
      have e : F.rnd (S + t) - Spec.cosum (ps ++ [q]) = (F.rnd (S + t) - (S + t)) + (S + t - Spec.cosum (ps ++ [q])) := by ring
      rw [e]
      refine (abs_add_le _ _).trans ?_
      have h3 : 0 ≤ (n : ℝ) * (u * (A * B)) := by positivity
      linarith

end Verif.Contracted
