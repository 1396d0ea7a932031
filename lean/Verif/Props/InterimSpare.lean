import Verif.Props.InterimRounded
import Verif.Proofs.InterimError
/-
C68: interim means of a constant stream with spare digits.
-/
namespace Verif.Props
open Scalar Verif.Interim
open Verif.Cumulative (Mean Variance)

variable {w W : Nat} {F : Fmt} {p : Nat} {emin : Int}

/-- The weighted average of equal numbers whose multiples are numbers of the format. -/
theorem blend_equal (hF : F.Binary p emin) {N : Nat} (hNp : N ≤ 2 ^ p) (hNf : F.fits (N : ℝ)) {c : ℝ} {k e : Int} (hc : c = k * 2 ^ e)
    (he : emin ≤ e) (hk : |k| * N ≤ 2 ^ p) (hcf : F.fits (c * N)) {P Q : Nat} (hPQ : P + Q ≤ N) (h1 : 1 ≤ P + Q) :
    ((X.fin c * ofNat P + X.fin c * ofNat Q) / ofNat (P + Q) : X F) = X.fin c := by
  have ex : ∀ n : Nat, n ≤ N → (X.round (c * n) : X F) = X.fin (c * n) := by
    intro n hn
    have hk' : |k * n| ≤ 2 ^ p := by
      rw [abs_mul, Nat.abs_cast]
      refine le_trans (mul_le_mul_of_nonneg_left ?_ (abs_nonneg k)) hk
      exact_mod_cast hn
    refine hF.round_exact (by
      rw [hc, show (k : ℝ) * 2 ^ e * n = ((k * n : Int) : ℝ) * 2 ^ e by push_cast; ring]
      exact isRep_mul (by have := hF.digits; omega) he hk') ?_
    refine hF.fits_abs _ _ ?_ hcf
    rw [abs_mul, abs_mul, Nat.abs_cast, Nat.abs_cast]
    exact mul_le_mul_of_nonneg_left (by exact_mod_cast hn) (abs_nonneg c)
  have h0 : ((P + Q : Nat) : ℝ) ≠ 0 := by exact_mod_cast (show P + Q ≠ 0 by omega)
  rw [hF.ofNat_small (show P ≤ N by omega) hNp hNf, hF.ofNat_small (show Q ≤ N by omega) hNp hNf, hF.ofNat_small hPQ hNp hNf,
    X.mul_fin, X.mul_fin, ex _ (by omega), ex _ (by omega), X.add_fin, ← mul_add, ← Nat.cast_add, ex _ hPQ,
    X.div_fin_of_ne _ h0, mul_div_assoc, div_self h0]
  have := ex 1 (by omega)
  rw [Nat.cast_one] at this
  rw [this, mul_one]

/-- The interim mean of a constant stream, for any block filter that is exact for constant streams. -/
theorem meanWith_constant {σ : Type} [Block σ w (X F)] [LawfulBlock σ w (X F)] (hF : F.Binary p emin) (hW : 1 ≤ W) (hw : 2 * W < 2 ^ w)
    (hWp : 2 * W ≤ 2 ^ p) (hWf : F.fits ((2 * W : Nat) : ℝ)) {c : ℝ} {k e : Int} (hc : c = k * 2 ^ e) (he : emin ≤ e)
    (hk : |k| * (2 * W : Nat) ≤ 2 ^ p) (hcf : F.fits (c * (2 * W : Nat))) (get : σ → X F)
    (hget : ∀ n, 1 ≤ n → n ≤ W → get (foldB (List.replicate n (X.fin c))) = X.fin c)
    (ops : List (Op (X F))) {n : Nat} (hn : 1 ≤ n) (hops : sinceClear ops = List.replicate n (X.fin c)) :
    (Interim.run ops : Interim W σ).meanWith get = X.fin c := by
  have hne : sinceClear ops ≠ [] := by
    rw [hops]; intro h; have := congrArg List.length h; simp at this; omega
  have hlc := Spec.length_curBlock_le hW (sinceClear ops)
  have hcne : Spec.curBlock W (sinceClear ops) ≠ [] := fun h => hne ((Spec.curBlock_eq_nil hW _).1 h)
  have hc1 := List.length_pos_iff.2 hcne
  have gc : get (foldB (Spec.curBlock W (sinceClear ops))) = X.fin c := by
    rw [hops] at hlc hc1 ⊢
    rw [curBlock_replicate]; exact hget _ hc1 hlc
  rw [run_blocks hW (by omega), Interim.meanWith, passiveEmpty_blocks hW (by omega)]
  by_cases hl : (sinceClear ops).length ≤ W
  · rw [decide_eq_true hl, if_pos rfl]; exact gc
  · rw [decide_eq_false hl]
    have hlp : (Spec.prevBlock W (sinceClear ops)).length ≤ W := by rw [Spec.length_prevBlock hW, if_neg hl]
    have hp1 : 1 ≤ (Spec.prevBlock W (sinceClear ops)).length := by rw [Spec.length_prevBlock hW, if_neg hl]; exact hW
    have gp : get (foldB (Spec.prevBlock W (sinceClear ops))) = X.fin c := by
      rw [hops] at hlp hp1 ⊢
      rw [prevBlock_replicate]; exact hget _ hp1 hlp
    simp only [Bool.false_eq_true, if_false]
    have h2 : (2 : BitVec w) = BitVec.ofNat w 2 := rfl
    rw [size_foldB, gc, gp, ofNat_sub hlc, h2, ← BitVec.ofNat_mul, ← BitVec.ofNat_add]
    unfold ofSize
    rw [toNat_ofNat_lt (by omega), toNat_ofNat_lt (by omega), toNat_ofNat_lt (by omega),
      show W + (Spec.curBlock W (sinceClear ops)).length
        = (W - (Spec.curBlock W (sinceClear ops)).length) + 2 * (Spec.curBlock W (sinceClear ops)).length by omega]
    exact blend_equal hF hWp hWf hc he hk hcf (by omega) (by omega)

/-- C68, another part that holds: the interim means of any number of equal values `k * 2^e` are exact if `2 W |k|` has
at most `p` binary digits. -/
theorem C68_spare_partial (hF : F.Binary p emin) (hW : 1 ≤ W) (hw : 2 * W < 2 ^ w) (hWp : 2 * W ≤ 2 ^ p)
    (hWf : F.fits ((2 * W : Nat) : ℝ)) {c : ℝ} {k e : Int} (hc : c = k * 2 ^ e) (he : emin ≤ e) (hk : |k| * (2 * W : Nat) ≤ 2 ^ p)
    (hcf : F.fits (c * (2 * W : Nat))) (ops : List (Op (X F))) {n : Nat} (hn : 1 ≤ n)
    (hops : sinceClear ops = List.replicate n (X.fin c)) :
    IMean.mean (Interim.run ops : IMean w W (X F)) = X.fin c
    ∧ IVariance.mean (Interim.run ops : IVariance w W (X F)) = X.fin c := by
  have h2 : (1 : ℝ) ≤ (2 * W : Nat) := by exact_mod_cast (show 1 ≤ 2 * W by omega)
  have hkp : |k| ≤ 2 ^ p := le_trans (by
    have : (1 : Int) ≤ (2 * W : Nat) := by exact_mod_cast (show 1 ≤ 2 * W by omega)
    nlinarith [abs_nonneg k]) hk
  have hcr : IsRep p emin c := by rw [hc]; exact isRep_mul (by have := hF.digits; omega) he hkp
  have hcf1 : F.fits c := hF.fits_abs _ _ (by
    rw [abs_mul, Nat.abs_cast]; nlinarith [abs_nonneg c]) hcf
  refine ⟨meanWith_constant hF hW hw hWp hWf hc he hk hcf _ (fun m h1 h2 => mean_block hF hcr hcf1 h1 (by omega)) ops hn hops,
    meanWith_constant hF hW hw hWp hWf hc he hk hcf _ (fun m h1 h2 => ?_) ops hn hops⟩
  have h := (C17_constant (w := w) hF ((List.replicate m (X.fin c)).map Op.push) hcr hcf1 (by rw [sinceClear_pushes]) h1 (by omega)).2.1
  rwa [Variance.run_eq, sinceClear_pushes] at h

/-- `double`, `W = 4`: the interim mean of seven times 0.375 is 0.375. -/
example : IMean.mean (Interim.run (.push X.nan :: .clear :: List.replicate 7 (.push (X.fin 0.375))) : IMean 64 4 (X binary64)) = X.fin 0.375 := by
  refine (C68_spare_partial (c := 0.375) (k := 3) (e := -3) binary64_binary (by norm_num) (by norm_num) (by norm_num) ?_ (by norm_num) (by norm_num)
    (by norm_num) ?_ _ (n := 7) (by norm_num) rfl).1
  · exact (binary64_int (n := 8) (by norm_num)).2
  · have := (binary64_int (n := 3) (by norm_num)).2
    norm_num at this ⊢; exact this

end Verif.Props
