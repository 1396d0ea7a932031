import Verif.Proofs.WindowRounded
import Verif.Proofs.PairLemmas
/-
Forward error bound of the cumulative covariance.
-/
namespace Verif
open Scalar

variable {F : Fmt} {p : Nat} {emin : Int} {u η : ℝ}

namespace Spec

theorem central_two_le {B : ℝ} (xs : List ℝ) (hB : ∀ x ∈ xs, |x| ≤ B) : central 2 xs ≤ xs.length * B ^ 2 := by
  have h1 : ∀ l : List ℝ, (∀ x ∈ l, |x| ≤ B) → about 2 0 l ≤ l.length * B ^ 2 := by
    intro l
    induction l with
    | nil => intro _; simp
    | cons a l ih =>
      intro h
      rw [about_cons, List.length_cons, sub_zero]
      push_cast
      have h2 := ih fun x hx => h x (List.mem_cons_of_mem _ hx)
      have h3 : a ^ 2 ≤ B ^ 2 := sq_le_sq' (by have := abs_le.1 (h a (by simp)); linarith) (abs_le.1 (h a (by simp))).2
      linarith
  refine le_trans ?_ (h1 xs hB)
  have e := about_two_shift 0 (mean xs) xs
  rw [zero_add, about_one, sum_eq_mean_mul] at e
  rw [central_eq_about, e]
  have : 0 ≤ (xs.length : ℝ) * mean xs ^ 2 := by positivity
  linarith

theorem abs_cosum_le {A B : ℝ} (hA0 : 0 ≤ A) (hB0 : 0 ≤ B) (ps : List (ℝ × ℝ)) (hA : ∀ q ∈ ps, |q.1| ≤ A)
    (hB : ∀ q ∈ ps, |q.2| ≤ B) : |cosum ps| ≤ ps.length * (A * B) := by
  have h1 := cosum_sq_le ps
  have h2 := central_two_le (xsOf ps) (B := A) (by intro x hx; obtain ⟨q, hq, rfl⟩ := List.mem_map.1 hx; exact hA q hq)
  have h3 := central_two_le (ysOf ps) (B := B) (by intro x hx; obtain ⟨q, hq, rfl⟩ := List.mem_map.1 hx; exact hB q hq)
  rw [xsOf, List.length_map] at h2
  rw [ysOf, List.length_map] at h3
  refine abs_le_of_sq_le_sq (h1.trans ((mul_le_mul h2 h3 (central_two_nonneg _) (by positivity)).trans (le_of_eq ?_))) (by positivity)
  ring

end Spec

namespace Cumulative
variable {w : Nat}

/-- Error of the computed mean, and of the difference of a value and the computed mean. -/
theorem Mean.rounded_diff (hF : F.Binary p emin) (hE : F.Err u η) {B : ℝ} (xs : List ℝ) (hd : F.Data p emin xs)
    (hw : xs.length < 2 ^ w) (hp : xs.length ≤ 2 ^ p) (hfit : F.fits (xs.length : ℝ)) (hB : ∀ x ∈ xs, |x| ≤ B) (hB0 : 0 ≤ B)
    (hη : η ≤ u * B) :
    ∃ m, MeanInv F p emin w xs ((xs.map X.fin).foldl Mean.push Mean.init) m
      ∧ ∀ x, |x| ≤ B → |F.rnd (x - m) - (x - Spec.mean xs)| ≤ (2 * xs.length + 12) * (u * B)
        ∧ |F.rnd (x - m)| ≤ 5 / 2 * B ∧ |x - Spec.mean xs| ≤ 2 * B := by
  obtain ⟨m, hm, he⟩ := Mean.rounded_err (w := w) hF hE xs hd hw hp hfit hB
  refine ⟨m, hm, fun x hx => ?_⟩
  have hu := hE.u_nonneg
  have huB := mul_nonneg hu hB0
  have hmB : |m| ≤ B := by
    rcases eq_or_ne xs [] with h0 | h0
    · rw [hm.empty h0, abs_zero]; exact hB0
    · obtain ⟨⟨a, ha, ham⟩, ⟨b, hb, hmb⟩⟩ := hm.within h0
      have ha' := abs_le.1 (hB a ha)
      have hb' := abs_le.1 (hB b hb)
      rw [abs_le]; constructor <;> linarith
  have hμB := Window.abs_mean_le hB0 hB
  have hmμ : |m - Spec.mean xs| ≤ (2 * xs.length + 9) * (u * B) := by
    rcases eq_or_ne xs [] with h0 | h0
    · rw [hm.empty h0, h0]; simp; positivity
    · have hpos : (0 : ℝ) < xs.length := by exact_mod_cast List.length_pos_iff.2 h0
      refine le_of_mul_le_mul_left (he.trans ?_) hpos
      have e : (xs.length : ℝ) * (5 * (u * B) + 2 * η) + xs.length * (xs.length + 1) / 2 * (u * B + 3 * η)
          = xs.length * ((5 * (u * B) + 2 * η) + (xs.length + 1) / 2 * (u * B + 3 * η)) := by ring
      rw [e]
      refine mul_le_mul_of_nonneg_left ?_ hpos.le
      have : ((xs.length : ℝ) + 1) / 2 * (u * B + 3 * η) ≤ (xs.length + 1) / 2 * (4 * (u * B)) :=
        mul_le_mul_of_nonneg_left (by linarith) (by positivity)
      nlinarith
  have hxm : |x - m| ≤ 2 * B := (abs_sub x m).trans (by linarith)
  have h1 := hE.err (x - m)
  have h2 := mul_le_mul_of_nonneg_left hxm hu
  refine ⟨?_, ?_, (abs_sub x _).trans (by linarith)⟩
  · have e : F.rnd (x - m) - (x - Spec.mean xs) = (F.rnd (x - m) - (x - m)) + -(m - Spec.mean xs) := by ring
    rw [e]
    refine (abs_add_le _ _).trans ?_
    rw [abs_neg]
    linarith
  · have h3 := hE.abs_le (x - m)
    have h4 : u * B ≤ 1 / 8 * B := mul_le_mul_of_nonneg_right hE.u_le hB0
    linarith

theorem Comoment.rounded_err (hF : F.Binary p emin) (hE : F.Err u η) {A B K : ℝ} (hA0 : 0 ≤ A) (hB0 : 0 ≤ B)
    (hηA : η ≤ u * A) (hηB : η ≤ u * B) (hηAB : η ≤ u * (A * B)) (hK : IsRep p emin K) (hKf : F.fits K)
    (ps : List (ℝ × ℝ)) (hdx : F.Data p emin (Spec.xsOf ps)) (hdy : F.Data p emin (Spec.ysOf ps))
    (hw : ps.length < 2 ^ w) (hp : ps.length ≤ 2 ^ p) (hfit : F.fits (ps.length : ℝ))
    (hA : ∀ q ∈ ps, |q.1| ≤ A) (hB : ∀ q ∈ ps, |q.2| ≤ B) (hBK : 8 * ps.length * (A * B) ≤ K)
    (hsmall : (6 * ps.length + 65) * u ≤ 1) :
    ∃ S : ℝ, ((ps.map fun q => (X.fin q.1, X.fin q.2)).foldl Comoment.push (Comoment.init : Comoment w (X F))).center = X.fin S
      ∧ |S - Spec.cosum ps| ≤ ps.length * (6 * ps.length + 65) * (u * (A * B)) := by
  induction ps using List.reverseRecOn with
  | nil => exact ⟨0, hF.ofNat_zero, by simp [Spec.cosum]⟩
  | append_singleton ps q ih =>
    have ex : Spec.xsOf (ps ++ [q]) = Spec.xsOf ps ++ [q.1] := by simp [Spec.xsOf]
    have ey : Spec.ysOf (ps ++ [q]) = Spec.ysOf ps ++ [q.2] := by simp [Spec.ysOf]
    have lx : (Spec.xsOf ps).length = ps.length := by simp [Spec.xsOf]
    have ly : (Spec.ysOf ps).length = ps.length := by simp [Spec.ysOf]
    have hcosum := Spec.abs_cosum_le hA0 hB0 (ps ++ [q]) hA hB
    have hsn := Spec.cosum_snoc ps q
    rw [ex] at hdx hsn
    rw [ey] at hdy
    rw [List.length_append, List.length_singleton] at hw hp hfit hBK hsmall hcosum ⊢
    push_cast at hBK hsmall hcosum hfit ⊢
    set n := ps.length with hn
    have hn0 : (0 : ℝ) ≤ n := Nat.cast_nonneg n
    have hu := hE.u_nonneg
    have hAB := mul_nonneg hA0 hB0
    have huAB := mul_nonneg hu hAB
    have hnAB' := mul_nonneg hn0 hAB
    have hnuAB := mul_nonneg hn0 huAB
    have hnnuAB := mul_nonneg hn0 hnuAB
    have hfit' : F.fits (n : ℝ) :=
      hF.fits_abs _ _ (by rw [abs_of_nonneg (by positivity), abs_of_nonneg (by positivity)]; linarith) hfit
    obtain ⟨S, hS, hSe⟩ := ih hdx.init hdy.init (by omega) (by omega) hfit'
      (fun r hr => hA r (List.mem_append_left _ hr)) (fun r hr => hB r (List.mem_append_left _ hr))
      (by linarith) (by linarith)
    have hcen := Comoment.fold_centers (w := w) (ps.map fun q => ((X.fin q.1, X.fin q.2) : X F × X F))
    have m1 : ((ps.map fun q => ((X.fin q.1, X.fin q.2) : X F × X F)).map Prod.fst) = (Spec.xsOf ps).map X.fin := by
      simp [Spec.xsOf, Function.comp_def]
    have m2 : ((ps.map fun q => ((X.fin q.1, X.fin q.2) : X F × X F)).map Prod.snd) = (Spec.ysOf ps).map X.fin := by
      simp [Spec.ysOf, Function.comp_def]
    rw [m1, m2] at hcen
    have hAx : ∀ x ∈ Spec.xsOf ps ++ [q.1], |x| ≤ A := by
      rw [← ex]; intro x hx; obtain ⟨r, hr, rfl⟩ := List.mem_map.1 hx; exact hA r hr
    have hBy : ∀ x ∈ Spec.ysOf ps, |x| ≤ B := by
      intro x hx; obtain ⟨r, hr, rfl⟩ := List.mem_map.1 hx; exact hB r (List.mem_append_left _ hr)
    obtain ⟨mx', hmx', hx'⟩ := Mean.rounded_diff (w := w) hF hE (B := A) _ hdx (by simp [lx]; omega) (by simp [lx]; omega)
      (by rw [List.length_append, lx]; push_cast; simpa using hfit) hAx hA0 hηA
    obtain ⟨mx, hmx, -⟩ := Mean.rounded_diff (w := w) hF hE (B := A) _ hdx.init (by omega) (by omega)
      (by rw [lx]; exact hfit') (fun x hx => hAx x (List.mem_append_left _ hx)) hA0 hηA
    obtain ⟨my, hmy, hy⟩ := Mean.rounded_diff (w := w) hF hE (B := B) _ hdy.init (by omega) (by omega)
      (by rw [ly]; exact hfit') hBy hB0 hηB
    obtain ⟨mx2, hmx2, -, hdx2, -⟩ := hmx.push hF hdx (by omega)
    obtain ⟨my2, -, hdy2, -⟩ := hmy.push hF hdy (by omega)
    have hmm : mx2 = mx' := by
      have h1 := hmx2.mean
      have h2 := hmx'.mean
      rw [List.map_append, List.map_singleton, List.foldl_append, List.foldl_cons, List.foldl_nil, h1] at h2
      injection h2
    rw [hmm] at hdx2
    have hmx2m := hmx2.mean
    rw [hmm, ← hcen.1] at hmx2m
    have hmym := hmy.mean
    rw [← hcen.2] at hmym
    obtain ⟨x1, x2, -⟩ := hx' q.1 (hA q (by simp))
    obtain ⟨y1, y2, y3⟩ := hy q.2 (hB q (by simp))
    rw [List.length_append, List.length_singleton, lx] at x1
    rw [ly] at y1
    push_cast at x1
    set d1 := F.rnd (q.1 - mx')
    set d2 := F.rnd (q.2 - my)
    set a := q.1 - Spec.mean (Spec.xsOf ps ++ [q.1])
    set b := q.2 - Spec.mean (Spec.ysOf ps)
    have hprod : |d1 * d2 - a * b| ≤ (9 * n + 58) * (u * (A * B)) := by
      have e : d1 * d2 - a * b = d1 * (d2 - b) + (d1 - a) * b := by ring
      rw [e]
      refine (abs_add_le _ _).trans ?_
      rw [abs_mul, abs_mul]
      have h1 := mul_le_mul x2 y1 (abs_nonneg _) (by positivity)
      have h2 := mul_le_mul x1 y3 (abs_nonneg _) (by positivity)
      linarith
    have hpabs : |d1 * d2| ≤ 25 / 4 * (A * B) := by
      rw [abs_mul]
      have := mul_le_mul x2 y2 (abs_nonneg _) (by positivity)
      linarith
    have hn1 : (A * B) ≤ (n + 1) * (A * B) := by linarith
    obtain ⟨r1, -⟩ := hF.round_le hK hKf (r := d1 * d2) (by linarith)
    have q1 := hE.err (d1 * d2)
    set t := F.rnd (d1 * d2)
    have hq : |t - a * b| ≤ (9 * n + 66) * (u * (A * B)) := by
      have e : t - a * b = (t - d1 * d2) + (d1 * d2 - a * b) := by ring
      rw [e]
      refine (abs_add_le _ _).trans ?_
      have := mul_le_mul_of_nonneg_left hpabs hu
      linarith
    have hsum : |S + t - Spec.cosum (ps ++ [q])| ≤ (n * (6 * n + 65) + (9 * n + 66)) * (u * (A * B)) := by
      have e : S + t - Spec.cosum (ps ++ [q]) = (S - Spec.cosum ps) + (t - a * b) := by rw [hsn]; ring
      rw [e]
      refine (abs_add_le _ _).trans ?_
      linarith
    have hsb : |S + t| ≤ 2 * (n + 1) * (A * B) := by
      have e : S + t = (S + t - Spec.cosum (ps ++ [q])) + Spec.cosum (ps ++ [q]) := by ring
      rw [e]
      refine (abs_add_le _ _).trans ?_
      have h1 : (n * (6 * n + 65) + (9 * n + 66)) * (u * (A * B)) ≤ (n + 1) * (A * B) := by
        have h2 : (n + 1) * (A * B) * ((6 * (n + 1) + 65) * u) ≤ (n + 1) * (A * B) * 1 :=
          mul_le_mul_of_nonneg_left hsmall (by positivity)
        have h3 : 0 ≤ (n : ℝ) * (u * (A * B)) := by positivity
        linarith
      linarith
    have hnAB : 0 ≤ ((n : ℝ) + 1) * (A * B) := by positivity
    obtain ⟨r2, -⟩ := hF.round_le hK hKf (r := S + t) (hsb.trans (by linarith))
    refine ⟨F.rnd (S + t), ?_, ?_⟩
    · rw [List.map_append, List.map_singleton, List.foldl_append]
      set st := (ps.map fun q => ((X.fin q.1, X.fin q.2) : X F × X F)).foldl Comoment.push (Comoment.init : Comoment w (X F))
      show st.center + (X.fin q.1 - (st.xCenter.push (X.fin q.1)).mean) * (X.fin q.2 - st.yCenter.mean) = _
      rw [hmx2m, hmym, hdx2, hdy2, hS, X.mul_fin, r1, X.add_fin, r2]
    · have h1 := hE.err (S + t)
      have h2 := mul_le_mul_of_nonneg_left hsb hu
      have e : F.rnd (S + t) - Spec.cosum (ps ++ [q]) = (F.rnd (S + t) - (S + t)) + (S + t - Spec.cosum (ps ++ [q])) := by ring
      rw [e]
      refine (abs_add_le _ _).trans ?_
      have h3 : 0 ≤ (n : ℝ) * (u * (A * B)) := by positivity
      linarith

end Cumulative
end Verif
