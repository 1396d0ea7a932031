import Verif.Proofs.InterimError
import Verif.Props.InterimError
import Verif.Props.SkewnessError
/-
C151: the rounding errors of the interim skewness and kurtosis do not grow with the number of values.
-/
namespace Verif.Interim
open Scalar

variable {w W : Nat} {F : Fmt} {p : Nat} {emin : Int} {u η : ℝ}
variable {σ β γ : Type} [Block σ w β] [LawfulBlock σ w β]

/-- The interim skewness (kurtosis), if those of the blocks have errors of at most `e`.  A current block of one value is
ignored. -/
theorem blendWith_err (hF : F.Binary p emin) (hE : F.Err u η) (hmul : ∀ a b : X F, a * b = b * a) (hW : 1 ≤ W) (hw : 2 * W < 2 ^ w)
    (hp : 2 * W ≤ 2 ^ p) (hf : F.fits ((2 * W : Nat) : ℝ)) {M K e : ℝ} (hM : 0 ≤ M) (hη : η ≤ u * M) (hK : IsRep p emin K)
    (hKf : F.fits K) (hMK : 3 * (2 * W : Nat) * M ≤ K) (he : e ≤ M) (enc : γ → β) (get : σ → X F) (v : List γ → ℝ)
    (ops : List (Op γ)) (hne : sinceClear ops ≠ [])
    (hcur : (sinceClear ops).length ≤ W ∨ 2 ≤ (Spec.curBlock W (sinceClear ops)).length →
      |v (Spec.curBlock W (sinceClear ops))| ≤ M
        ∧ ∃ r : ℝ, get (foldB ((Spec.curBlock W (sinceClear ops)).map enc)) = X.fin r ∧ |r - v (Spec.curBlock W (sinceClear ops))| ≤ e)
    (hprev : W < (sinceClear ops).length →
      |v (Spec.prevBlock W (sinceClear ops))| ≤ M
        ∧ ∃ r : ℝ, get (foldB ((Spec.prevBlock W (sinceClear ops)).map enc)) = X.fin r ∧ |r - v (Spec.prevBlock W (sinceClear ops))| ≤ e) :
    ∃ r : ℝ, (Interim.run (ops.map (Op.map enc)) : Interim W σ).blendWith get = X.fin r
      ∧ |r - (if (sinceClear ops).length ≤ W then v (sinceClear ops)
          else Spec.blend (W - ((Spec.curBlock W (sinceClear ops)).length - 1)) (2 * ((Spec.curBlock W (sinceClear ops)).length - 1))
            (v (Spec.prevBlock W (sinceClear ops))) (v (Spec.curBlock W (sinceClear ops))))| ≤ e + 12 * (u * M) := by
  set xs := sinceClear ops with hxs
  have hlc := Spec.length_curBlock_le hW xs
  have hWw : W < 2 ^ w := by omega
  have hcne : Spec.curBlock W xs ≠ [] := fun h => hne ((Spec.curBlock_eq_nil hW xs).1 h)
  have hc1' := List.length_pos_iff.2 hcne
  have huM0 := mul_nonneg hE.u_nonneg hM
  rw [run_blocks hW hWw, sinceClear_map, ← hxs, Interim.blendWith, passiveEmpty_blocks hW hWw, List.length_map,
    Spec.curBlock_map]
  by_cases hn : xs.length ≤ W
  · obtain ⟨-, a, ha, hea⟩ := hcur (.inl hn)
    rw [decide_eq_true hn, if_pos rfl, if_pos hn, ha]
    rw [Spec.curBlock_of_le hW hn] at hea
    exact ⟨a, rfl, by linarith⟩
  · rw [decide_eq_false hn, if_neg hn]
    obtain ⟨hp1, b, hb, heb⟩ := hprev (Nat.lt_of_not_le hn)
    simp only [Bool.false_eq_true, if_false]
    have h1 : (1 : BitVec w) = BitVec.ofNat w 1 := rfl
    have h2 : (2 : BitVec w) = BitVec.ofNat w 2 := rfl
    rw [size_foldB, Spec.prevBlock_map, hb, List.length_map]
    have hle : BitVec.ofNat w (Spec.curBlock W xs).length ≤ 1 ↔ (Spec.curBlock W xs).length ≤ 1 := by
      rw [h1, BitVec.le_def, toNat_ofNat_lt (by omega), toNat_ofNat_lt (by omega)]
    by_cases hs : (Spec.curBlock W xs).length ≤ 1
    · rw [if_pos (hle.2 hs)]
      refine ⟨b, rfl, ?_⟩
      have hs1 : (Spec.curBlock W xs).length = 1 := by omega
      have hWr : (W : ℝ) ≠ 0 := by
        have : W ≠ 0 := by omega
        exact_mod_cast this
      have e0 : Spec.blend ((W : ℝ) - ((Spec.curBlock W xs).length - 1)) (2 * ((Spec.curBlock W xs).length - 1))
          (v (Spec.prevBlock W xs)) (v (Spec.curBlock W xs)) = v (Spec.prevBlock W xs) := by
        rw [hs1, Spec.blend, Nat.cast_one, sub_self, mul_zero, zero_mul, add_zero, add_zero, sub_zero,
          mul_div_cancel_left₀ _ hWr]
      rw [e0]; linarith
    · rw [if_neg (fun h => hs (hle.1 h))]
      obtain ⟨hc1, a, ha, hea⟩ := hcur (.inr (by omega))
      rw [ha]
      set c := (Spec.curBlock W xs).length with hc
      rw [ofNat_sub_one (by omega), ofNat_sub (by omega), h2, ← BitVec.ofNat_mul, ← BitVec.ofNat_add]
      unfold ofSize
      rw [toNat_ofNat_lt (by omega), toNat_ofNat_lt (by omega), toNat_ofNat_lt (by omega), hmul (ofNat _) (X.fin b),
        hmul (ofNat _) (X.fin a)]
      obtain ⟨r, h1, h3⟩ := blend_err hF hE (N := 2 * W) (P := W - (c - 1)) (Q := 2 * (c - 1))
        (by omega) hp hf (by omega) hM hη hK hKf hMK he hp1 hc1 heb hea
      refine ⟨r, h1, ?_⟩
      have e1 : ((W - (c - 1) : ℕ) : ℝ) = (W : ℝ) - (c - 1) := by
        rw [Nat.cast_sub (by omega), Nat.cast_sub (by omega), Nat.cast_one]
      have e2 : ((c - 1 : ℕ) : ℝ) = c - 1 := by rw [Nat.cast_sub (by omega), Nat.cast_one]
      rw [Nat.cast_mul, e1, e2, Nat.cast_ofNat] at h3
      exact h3

end Verif.Interim

namespace Verif.Props
open Scalar Verif.Interim
open Verif.Cumulative (Skewness Kurtosis)

variable {w W : Nat} {F : Fmt} {p : Nat} {emin : Int} {u η : ℝ}

/-- The value of the interim skewness and kurtosis: weights `W-s+1 : 2(s-1)`. -/
noncomputable def Spec_interimShape (W : ℕ) (v : List ℝ → ℝ) (xs : List ℝ) : ℝ :=
  let s : ℝ := (Spec.curBlock W xs).length
  if xs.length ≤ W then v xs
  else Spec.blend (W - (s - 1)) (2 * (s - 1)) (v (Spec.prevBlock W xs)) (v (Spec.curBlock W xs))

/-- The blocks that enter the skewness and kurtosis. -/
def Counts (W : Nat) (xs l : List ℝ) : Prop :=
  (l = Spec.curBlock W xs ∧ (xs.length ≤ W ∨ 2 ≤ l.length)) ∨ (l = Spec.prevBlock W xs ∧ W < xs.length)

/-- A block of values of size at most `B` whose skewness is computed accurately: `B` is at most `κ` standard deviations, and the sum of
cubes is beyond the cut-off. -/
structure SkewBlock (F : Fmt) (u η B K κ : ℝ) (l : List ℝ) : Prop where
  pos : 0 < Spec.variance l
  cond : condition B l ≤ κ
  under1 : η ≤ u * √(Spec.variance l)
  under3 : η ≤ u * √(Spec.variance l) ^ 3
  over : 8 * (l.length * √(l.length : ℝ) * B ^ 3) ≤ K
  cut : F.eps + l.length * (63 * l.length + 1600) * (u * B ^ 3) ≤ Spec.central 3 l

structure KurtBlock (F : Fmt) (u η B K κ : ℝ) (l : List ℝ) : Prop where
  pos : 0 < Spec.variance l
  cond : condition B l ≤ κ
  under4 : η ≤ u * √(Spec.variance l) ^ 4
  over : 8 * ((l.length : ℝ) ^ 2 * B ^ 4) ≤ K
  cut : F.eps + l.length * (647 * l.length + 40000) * (u * B ^ 4) ≤ Spec.central 4 l

theorem abs_skewness_le {B : ℝ} {l : List ℝ} (hB0 : 0 ≤ B) (hB : ∀ x ∈ l, |x| ≤ B) (hV : 0 < Spec.variance l) :
    |Spec.skewness l| ≤ 2 * condition B l := by
  obtain ⟨hne, hσ, hC, hκ1, hBκ⟩ := condition_facts hB0 hB hV
  have hn : (0 : ℝ) < l.length := by exact_mod_cast List.length_pos_iff.2 hne
  have hD := Spec.abs_central_three_le hB0 l hB
  have e0 : Spec.skewness l = Spec.central 3 l / (l.length * √(Spec.variance l) ^ 3) := by
    unfold Spec.skewness; field_simp
  rw [e0, abs_div, abs_of_pos (by positivity : 0 < l.length * √(Spec.variance l) ^ 3), div_le_iff₀ (by positivity)]
  rw [hC] at hD
  refine hD.trans (le_of_eq ?_)
  set κ := condition B l
  rw [hBκ]; ring

theorem abs_kurtosis_le {B : ℝ} {l : List ℝ} (hB0 : 0 ≤ B) (hB : ∀ x ∈ l, |x| ≤ B) (hV : 0 < Spec.variance l) :
    |Spec.kurtosis l| ≤ 4 * condition B l ^ 2 := by
  obtain ⟨hne, hσ, hC, hκ1, hBκ⟩ := condition_facts hB0 hB hV
  have hn : (0 : ℝ) < l.length := by exact_mod_cast List.length_pos_iff.2 hne
  have hD := Spec.central_four_le hB0 l hB
  have h4 : 0 ≤ Spec.central 4 l := Spec.about_even_nonneg 4 (by decide) _ _
  have hs : √(Spec.variance l) ^ 2 = Spec.variance l := Real.sq_sqrt hV.le
  have e0 : Spec.kurtosis l = Spec.central 4 l / (l.length * Spec.variance l ^ 2) := by
    unfold Spec.kurtosis; field_simp
  rw [e0, abs_of_nonneg (by positivity), div_le_iff₀ (by positivity)]
  rw [hC, hs] at hD
  refine hD.trans (le_of_eq ?_)
  have hB2 : B ^ 2 = condition B l ^ 2 * Spec.variance l := by
    rw [← hs, ← mul_pow, ← hBκ]
  rw [hB2]; ring

theorem counts_cases {xs l : List ℝ} (hW : 1 ≤ W) (h : Counts W xs l) : (∀ x ∈ l, x ∈ xs) ∧ l.length ≤ W := by
  rcases h with ⟨rfl, -⟩ | ⟨rfl, h⟩
  · exact ⟨fun x hx => List.mem_of_mem_drop hx, Spec.length_curBlock_le hW xs⟩
  · exact ⟨fun x hx => mem_prevBlock hx, by rw [Spec.length_prevBlock hW, if_neg (by omega)]⟩

/-- C151: the error of the interim skewness is at most `(92 W + 2024) u κ³`, for any number of values. -/
theorem C151_skewness (hF : F.Binary p emin) (hE : F.Err u η) (hW : 1 ≤ W) (hw : 2 * W < 2 ^ w) (hp : 2 * W ≤ 2 ^ p)
    (hf : F.fits ((2 * W : Nat) : ℝ)) {B K κ : ℝ} (h : Cumulative.ShapeData F p emin u η w B K W) (hη : η ≤ u)
    (hκ : (160 * W + 3200) * (u * κ ^ 3) ≤ 1) (hK : 12 * W * κ ^ 3 ≤ K)
    (ops : List (Op ℝ)) (hne : sinceClear ops ≠ []) (hd : F.Data p emin (sinceClear ops)) (hB : ∀ x ∈ sinceClear ops, |x| ≤ B)
    (hb : ∀ l, Counts W (sinceClear ops) l → SkewBlock F u η B K κ l) :
    ∃ r : ℝ, ISkewness.skewness (Interim.run (finOps ops) : ISkewness w W (X F)) = X.fin r
      ∧ |r - Spec_interimShape W Spec.skewness (sinceClear ops)| ≤ (92 * W + 2024) * (u * κ ^ 3) := by
  have hu := hE.u_nonneg
  have hW1 : (1 : ℝ) ≤ W := by exact_mod_cast hW
  obtain ⟨l0, hl0⟩ : ∃ l, Counts W (sinceClear ops) l := by
    by_cases hn : (sinceClear ops).length ≤ W
    · exact ⟨_, .inl ⟨rfl, .inl hn⟩⟩
    · exact ⟨_, .inr ⟨rfl, by omega⟩⟩
  have hκ1 : 1 ≤ κ := by
    have := hb l0 hl0
    have hm := (counts_cases hW hl0).1
    exact (condition_facts h.B_nonneg (fun x hx => hB x (hm x hx)) this.pos).2.2.2.1.trans this.cond
  have hκ3 : 1 ≤ κ ^ 3 := one_le_pow₀ hκ1
  have hκκ : κ ≤ κ ^ 3 := le_self_pow₀ hκ1 (by norm_num)
  have huκ : u ≤ u * κ ^ 3 := le_mul_of_one_le_right hu hκ3
  have huκ0 : 0 ≤ u * κ ^ 3 := by positivity
  have hWuκ : 0 ≤ W * (u * κ ^ 3) := by positivity
  have hblock : ∀ l, Counts W (sinceClear ops) l → |Spec.skewness l| ≤ 2 * κ ^ 3
      ∧ ∃ r : ℝ, Skewness.skewness (foldB (l.map X.fin) : Skewness w (X F)) = X.fin r ∧ |r - Spec.skewness l| ≤ (92 * W + 2000) * (u * κ ^ 3) := by
    intro l hl
    have hc := hb l hl
    obtain ⟨hm, hlen⟩ := counts_cases hW hl
    have hlB : ∀ x ∈ l, |x| ≤ B := fun x hx => hB x (hm x hx)
    have hlW : (l.length : ℝ) ≤ W := by exact_mod_cast hlen
    have hs := sinceClear_pushes l
    have hk1 := (condition_facts h.B_nonneg hlB hc.pos).2.2.2.1
    have hk3 : condition B l ^ 3 ≤ κ ^ 3 := pow_le_pow_left₀ (by linarith) hc.cond 3
    have huk := mul_le_mul_of_nonneg_left hk3 hu
    have huk0 : 0 ≤ u * condition B l ^ 3 := by positivity
    have i1 := mul_le_mul_of_nonneg_right hlW huk0
    have i2 := mul_le_mul_of_nonneg_left huk (by linarith : (0 : ℝ) ≤ W)
    refine ⟨(abs_skewness_le h.B_nonneg hlB hc.pos).trans (by linarith [hc.cond]), ?_⟩
    obtain ⟨s, h1, h2⟩ := C143_skewness_error (w := w) hF hE (B := B) (K := K) (l.map Op.push) (by rw [hs]; exact Fmt.Data.mono' hd hm)
      (by rw [hs]; exact hlB) (by rw [hs]; exact h.mono hE hlen) (by rw [hs]; exact hc.pos)
      (by rw [hs]; linarith) hη (by rw [hs]; exact hc.under1) (by rw [hs]; exact hc.under3) (by rw [hs]; exact hc.over)
      (by
        rw [hs]
        have := mul_le_mul_of_nonneg_right hW1 (by linarith : 0 ≤ κ ^ 3)
        linarith [hc.cond])
      (by rw [hs]; exact hc.cut)
    rw [Skewness.run_eq, sinceClear_finOps, hs] at h1
    rw [hs] at h2
    exact ⟨s, h1, by linarith⟩
  obtain ⟨r, h1, h2⟩ := blendWith_err (σ := Skewness w (X F)) (M := 2 * κ ^ 3) (K := K) (e := (92 * W + 2000) * (u * κ ^ 3))
    hF hE X.mul_comm hW hw hp hf (by linarith) (by linarith) h.K_rep h.K_fits (by push_cast; linarith) (by linarith)
    X.fin Skewness.skewness Spec.skewness ops hne (fun hc => hblock _ (.inl ⟨rfl, hc⟩)) (fun hc => hblock _ (.inr ⟨rfl, hc⟩))
  refine ⟨r, h1, ?_⟩
  have e : (92 * (W : ℝ) + 2000) * (u * κ ^ 3) + 12 * (u * (2 * κ ^ 3)) = (92 * W + 2024) * (u * κ ^ 3) := by ring
  rw [e] at h2
  exact h2

/-- C151: `skewness()` of the kurtosis filter is that of the skewness filter, in any arithmetic. -/
theorem C151_kurtosis_skewness {α : Type} [Scalar α] (hW : 1 ≤ W) (hw : W < 2 ^ w) (ops : List (Op α)) :
    IKurtosis.skewness (Interim.run ops : IKurtosis w W α) = ISkewness.skewness (Interim.run ops : ISkewness w W α) := by
  unfold IKurtosis.skewness ISkewness.skewness
  rw [run_blocks hW hw, run_blocks hW hw]
  unfold Interim.blendWith Interim.passiveEmpty
  simp only [size_foldB]
  simp only [Kurtosis.skewness, kurtosis_foldB_super]

/-- C151: the error of the interim kurtosis is at most `(753 W + 43748) u κ⁴`, for any number of values. -/
theorem C151_kurtosis (hF : F.Binary p emin) (hE : F.Err u η) (hW : 1 ≤ W) (hw : 2 * W < 2 ^ w) (hp : 2 * W ≤ 2 ^ p)
    (hf : F.fits ((2 * W : Nat) : ℝ)) {B K κ : ℝ} (h : Cumulative.KurtData F p emin u η w B K W)
    (hκ : (1300 * W + 82000) * (u * κ ^ 4) ≤ 1) (hK : 24 * W * κ ^ 4 ≤ K)
    (ops : List (Op ℝ)) (hne : sinceClear ops ≠ []) (hd : F.Data p emin (sinceClear ops)) (hB : ∀ x ∈ sinceClear ops, |x| ≤ B)
    (hb : ∀ l, Counts W (sinceClear ops) l → KurtBlock F u η B K κ l) :
    ∃ r : ℝ, IKurtosis.kurtosis (Interim.run (finOps ops) : IKurtosis w W (X F)) = X.fin r
      ∧ |r - Spec_interimShape W Spec.kurtosis (sinceClear ops)| ≤ (753 * W + 43748) * (u * κ ^ 4) := by
  have hu := hE.u_nonneg
  have hB0 := h.shape.B_nonneg
  have hη := h.under0
  have hW1 : (1 : ℝ) ≤ W := by exact_mod_cast hW
  obtain ⟨l0, hl0⟩ : ∃ l, Counts W (sinceClear ops) l := by
    by_cases hn : (sinceClear ops).length ≤ W
    · exact ⟨_, .inl ⟨rfl, .inl hn⟩⟩
    · exact ⟨_, .inr ⟨rfl, by omega⟩⟩
  have hκ1 : 1 ≤ κ := by
    have := hb l0 hl0
    have hm := (counts_cases hW hl0).1
    exact (condition_facts hB0 (fun x hx => hB x (hm x hx)) this.pos).2.2.2.1.trans this.cond
  have hκ3 : 1 ≤ κ ^ 4 := one_le_pow₀ hκ1
  have hκκ : κ ^ 2 ≤ κ ^ 4 := pow_le_pow_right₀ hκ1 (by norm_num)
  have huκ : u ≤ u * κ ^ 4 := le_mul_of_one_le_right hu hκ3
  have huκ0 : 0 ≤ u * κ ^ 4 := by positivity
  have hWuκ : 0 ≤ W * (u * κ ^ 4) := by positivity
  have hblock : ∀ l, Counts W (sinceClear ops) l → |Spec.kurtosis l| ≤ 4 * κ ^ 4
      ∧ ∃ r : ℝ, Kurtosis.kurtosis (foldB (l.map X.fin) : Kurtosis w (X F)) = X.fin r ∧ |r - Spec.kurtosis l| ≤ (753 * W + 43700) * (u * κ ^ 4) := by
    intro l hl
    have hc := hb l hl
    obtain ⟨hm, hlen⟩ := counts_cases hW hl
    have hlB : ∀ x ∈ l, |x| ≤ B := fun x hx => hB x (hm x hx)
    have hlW : (l.length : ℝ) ≤ W := by exact_mod_cast hlen
    have hs := sinceClear_pushes l
    have hk1 := (condition_facts hB0 hlB hc.pos).2.2.2.1
    have hk3 : condition B l ^ 4 ≤ κ ^ 4 := pow_le_pow_left₀ (by linarith) hc.cond 4
    have hk2 : condition B l ^ 2 ≤ κ ^ 2 := pow_le_pow_left₀ (by linarith) hc.cond 2
    have huk := mul_le_mul_of_nonneg_left hk3 hu
    have huk0 : 0 ≤ u * condition B l ^ 4 := by positivity
    have i1 := mul_le_mul_of_nonneg_right hlW huk0
    have i2 := mul_le_mul_of_nonneg_left huk (by linarith : (0 : ℝ) ≤ W)
    refine ⟨(abs_kurtosis_le hB0 hlB hc.pos).trans (by linarith [hc.cond]), ?_⟩
    obtain ⟨s, h1, h2⟩ := C143_kurtosis_error (w := w) hF hE (B := B) (K := K) (l.map Op.push) (by rw [hs]; exact Fmt.Data.mono' hd hm)
      (by rw [hs]; exact hlB) (by rw [hs]; exact h.mono hE hlen) (by rw [hs]; exact hc.pos)
      (by rw [hs]; linarith) (by rw [hs]; exact hc.under4) (by rw [hs]; exact hc.over)
      (by
        rw [hs]
        have := mul_le_mul_of_nonneg_right hW1 (by linarith : 0 ≤ κ ^ 4)
        linarith)
      (by rw [hs]; exact hc.cut)
    rw [Kurtosis.run_eq, sinceClear_finOps, hs] at h1
    rw [hs] at h2
    exact ⟨s, h1, by linarith⟩
  obtain ⟨r, h1, h2⟩ := blendWith_err (σ := Kurtosis w (X F)) (M := 4 * κ ^ 4) (K := K) (e := (753 * W + 43700) * (u * κ ^ 4))
    hF hE X.mul_comm hW hw hp hf (by linarith) (by linarith) h.shape.K_rep h.shape.K_fits (by push_cast; linarith) (by linarith)
    X.fin Kurtosis.kurtosis Spec.kurtosis ops hne (fun hc => hblock _ (.inl ⟨rfl, hc⟩)) (fun hc => hblock _ (.inr ⟨rfl, hc⟩))
  refine ⟨r, h1, ?_⟩
  have e : (753 * (W : ℝ) + 43700) * (u * κ ^ 4) + 12 * (u * (4 * κ ^ 4)) = (753 * W + 43748) * (u * κ ^ 4) := by ring
  rw [e] at h2
  exact h2

/-- `double`, blocks of 3: 1, 2, 6 and then 6, 1, 2. -/
example :
    (∃ r : ℝ, ISkewness.skewness (Interim.run (finOps [.push 1, .push 2, .push 6, .push 6, .push 1, .push 2]) : ISkewness 64 3 (X binary64))
        = X.fin r ∧ |r - Spec.skewness [1, 2, 6]| ≤ 2300 * (2 ^ (-53 : Int) * 27))
    ∧ ∃ r : ℝ, IKurtosis.kurtosis (Interim.run (finOps [.push 1, .push 2, .push 6, .push 6, .push 1, .push 2]) : IKurtosis 64 3 (X binary64))
        = X.fin r ∧ |r - Spec.kurtosis [1, 2, 6]| ≤ 46007 * (2 ^ (-53 : Int) * 81) := by
  have hs : sinceClear ([.push 1, .push 2, .push 6, .push 6, .push 1, .push 2] : List (Op ℝ)) = [1, 2, 6, 6, 1, 2] := rfl
  have hη : (2 : ℝ) ^ (-1075 : Int) ≤ 2 ^ (-53 : Int) := zpow_le_zpow_right₀ (by norm_num) (by norm_num)
  have hu : (0 : ℝ) < 2 ^ (-53 : Int) := zpow_pos (by norm_num) _
  have hd : binary64.Data 53 (-1074) [1, 2, 6, 6, 1, 2] := by
    have := binary64_data [1, 2, 6, 6, 1, 2] (by simp); simpa using this
  have hB : ∀ x ∈ ([1, 2, 6, 6, 1, 2] : List ℝ), |x| ≤ 6 := by
    intro x hx
    simp only [List.mem_cons, List.not_mem_nil, or_false] at hx
    rcases hx with rfl | rfl | rfl | rfl | rfl | rfl <;> norm_num
  have ep : Spec.prevBlock 3 ([1, 2, 6, 6, 1, 2] : List ℝ) = [1, 2, 6] := by simp [Spec.prevBlock]
  have ec : Spec.curBlock 3 ([1, 2, 6, 6, 1, 2] : List ℝ) = [6, 1, 2] := by simp [Spec.curBlock]
  have hm : Spec.mean [1, 2, 6] = 3 := by norm_num [Spec.mean]
  have hm' : Spec.mean [6, 1, 2] = 3 := by norm_num [Spec.mean]
  have hvar : Spec.variance [1, 2, 6] = 14 / 3 := by
    rw [Spec.variance, Spec.central, hm]; norm_num
  have hvar' : Spec.variance [6, 1, 2] = 14 / 3 := by
    rw [Spec.variance, Spec.central, hm']; norm_num
  have h3 : Spec.central 3 [1, 2, 6] = 18 := by rw [Spec.central, hm]; norm_num
  have h4 : Spec.central 4 [1, 2, 6] = 98 := by rw [Spec.central, hm]; norm_num
  have h3' : Spec.central 3 [6, 1, 2] = 18 := by rw [Spec.central, hm']; norm_num
  have h4' : Spec.central 4 [6, 1, 2] = 98 := by rw [Spec.central, hm']; norm_num
  have hl : ∀ l, Counts 3 ([1, 2, 6, 6, 1, 2] : List ℝ) l →
      l.length = 3 ∧ Spec.variance l = 14 / 3 ∧ Spec.central 3 l = 18 ∧ Spec.central 4 l = 98 := by
    rintro l (⟨h, -⟩ | ⟨h, -⟩)
    · rw [ec] at h; subst h; exact ⟨rfl, hvar', h3', h4'⟩
    · rw [ep] at h; subst h; exact ⟨rfl, hvar, h3, h4⟩
  have hσ : 2 ≤ √(14 / 3 : ℝ) := Real.le_sqrt_of_sq_le (by norm_num)
  have hκ : 6 / √(14 / 3 : ℝ) ≤ 3 := by
    rw [div_le_iff₀ (by linarith)]; linarith
  have hε : binary64.eps ≤ 1 := by
    show (2 : ℝ) ^ (-52 : Int) ≤ 1
    norm_num
  have p3 : 1 ≤ √(14 / 3 : ℝ) ^ 3 := one_le_pow₀ (by linarith)
  have p4 : 1 ≤ √(14 / 3 : ℝ) ^ 4 := one_le_pow₀ (by linarith)
  have q1 := mul_le_mul_of_nonneg_left hσ hu.le
  have q3 := mul_le_mul_of_nonneg_left p3 hu.le
  have q4 := mul_le_mul_of_nonneg_left p4 hu.le
  have hr3 : √((3 : Nat) : ℝ) ≤ 2 := by
    rw [Real.sqrt_le_left (by norm_num)]; norm_num
  have hu' : (2 : ℝ) ^ (-53 : Int) ≤ 1 / 2 ^ 50 := by norm_num
  have h6 := (binary64_int (n := 6) (by norm_num)).2
  have e1 : Spec.skewness [6, 1, 2] = Spec.skewness [1, 2, 6] := by
    unfold Spec.skewness; rw [h3, h3', hvar, hvar']; rfl
  have e2 : Spec.kurtosis [6, 1, 2] = Spec.kurtosis [1, 2, 6] := by
    unfold Spec.kurtosis; rw [h4, h4', hvar, hvar']; rfl
  have hblend : ∀ v : List ℝ → ℝ, v [6, 1, 2] = v [1, 2, 6] → Spec_interimShape 3 v [1, 2, 6, 6, 1, 2] = v [1, 2, 6] := by
    intro v hv
    rw [Spec_interimShape, ep, ec, if_neg (by simp), hv, Spec.blend]
    norm_num
    ring
  constructor
  · obtain ⟨r, g1, g2⟩ := C151_skewness (w := 64) (W := 3) (κ := 3) binary64_binary binary64_err (by norm_num) (by norm_num) (by norm_num)
      (by simpa using h6) example_shape hη (by generalize (2 : ℝ) ^ (-53 : Int) = U at *; norm_num; linarith) (by norm_num)
      [.push 1, .push 2, .push 6, .push 6, .push 1, .push 2] (by rw [hs]; simp) (by rw [hs]; exact hd) (by rw [hs]; exact hB)
      (by
        rw [hs]
        intro l hc
        obtain ⟨a1, a2, a3, -⟩ := hl l hc
        refine ⟨by rw [a2]; norm_num, by rw [condition, a2]; exact hκ, ?_, ?_, ?_, ?_⟩
        · rw [a2]; generalize (2 : ℝ) ^ (-53 : Int) = U at *; linarith
        · rw [a2]; generalize (2 : ℝ) ^ (-53 : Int) = U at *; linarith
        · rw [a1]; push_cast at hr3 ⊢; norm_num; linarith
        · rw [a1, a3]; push_cast; generalize (2 : ℝ) ^ (-53 : Int) = U at *; norm_num; linarith)
    refine ⟨r, g1, ?_⟩
    rw [hs, hblend _ e1] at g2
    refine g2.trans (le_of_eq ?_)
    push_cast; norm_num
  · obtain ⟨r, g1, g2⟩ := C151_kurtosis (w := 64) (W := 3) (κ := 3) binary64_binary binary64_err (by norm_num) (by norm_num) (by norm_num)
      (by simpa using h6) (B := 6) (K := 2 ^ 40) ⟨example_shape, by norm_num, hη, by push_cast; generalize (2 : ℝ) ^ (-53 : Int) = U at *; linarith,
        by norm_num, by norm_num, by norm_num, by norm_num, by norm_num⟩
      (by generalize (2 : ℝ) ^ (-53 : Int) = U at *; norm_num; linarith) (by norm_num)
      [.push 1, .push 2, .push 6, .push 6, .push 1, .push 2] (by rw [hs]; simp) (by rw [hs]; exact hd) (by rw [hs]; exact hB)
      (by
        rw [hs]
        intro l hc
        obtain ⟨a1, a2, -, a3⟩ := hl l hc
        refine ⟨by rw [a2]; norm_num, by rw [condition, a2]; exact hκ, ?_, ?_, ?_⟩
        · rw [a2]; generalize (2 : ℝ) ^ (-53 : Int) = U at *; linarith
        · rw [a1]; norm_num
        · rw [a1, a3]; push_cast; generalize (2 : ℝ) ^ (-53 : Int) = U at *; norm_num; linarith)
    refine ⟨r, g1, ?_⟩
    rw [hs, hblend _ e2] at g2
    refine g2.trans (le_of_eq ?_)
    push_cast; norm_num

end Verif.Props
