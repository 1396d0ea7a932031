import Verif.Proofs.Interim
import Verif.Proofs.WindowRounded
/-
Rounding errors of the weighted averages of the interim filters.
-/
namespace Verif.Interim
open Scalar

variable {w W : Nat} {F : Fmt} {p : Nat} {emin : Int} {u η : ℝ}

theorem _root_.Verif.Fmt.Binary.ofNat_small (hF : F.Binary p emin) {n N : Nat} (h : n ≤ N) (hp : N ≤ 2 ^ p) (hf : F.fits (N : ℝ)) :
    (ofNat n : X F) = X.fin n :=
  hF.ofNat_fin (h.trans hp) (hF.fits_between hF.fits_zero hf (Nat.cast_nonneg n) (by exact_mod_cast h))

/-- The rounded weighted average of two values with errors of at most `e`. -/
theorem blend_err (hF : F.Binary p emin) (hE : F.Err u η) {N P Q : Nat} (hN : P + Q ≤ N) (hp : N ≤ 2 ^ p) (hf : F.fits (N : ℝ))
    (hPQ : 1 ≤ P + Q) {M K e a b x y : ℝ} (hM : 0 ≤ M) (hη : η ≤ u * M) (hK : IsRep p emin K) (hKf : F.fits K)
    (hMK : 3 * N * M ≤ K) (he : e ≤ M) (hx : |x| ≤ M) (hy : |y| ≤ M) (ha : |a - x| ≤ e) (hb : |b - y| ≤ e) :
    ∃ r : ℝ, ((X.fin a * ofNat P + X.fin b * ofNat Q) / ofNat (P + Q) : X F) = X.fin r
      ∧ |r - Spec.blend P Q x y| ≤ e + 12 * (u * M) := by
  rw [hF.ofNat_small (show P ≤ N by omega) hp hf, hF.ofNat_small (show Q ≤ N by omega) hp hf, hF.ofNat_small hN hp hf, X.mul_fin, X.mul_fin]
  have hu := hE.u_nonneg
  have hu8 := hE.u_le
  have hη0 := hE.eta_nonneg
  have hT1 : (1 : ℝ) ≤ P + Q := by exact_mod_cast hPQ
  have hTN : (P + Q : ℝ) ≤ N := by exact_mod_cast hN
  have hP0 : (0 : ℝ) ≤ P := Nat.cast_nonneg P
  have hQ0 : (0 : ℝ) ≤ Q := Nat.cast_nonneg Q
  have huM : u * M ≤ M / 8 := by nlinarith
  have huM0 := mul_nonneg hu hM
  have ha2 : |a| ≤ 2 * M := by
    have := abs_add_le (a - x) x; rw [sub_add_cancel] at this; linarith
  have hb2 : |b| ≤ 2 * M := by
    have := abs_add_le (b - y) y; rw [sub_add_cancel] at this; linarith
  set T : ℝ := P + Q with hT
  have hNM : T * M ≤ N * M := mul_le_mul_of_nonneg_right hTN hM
  have hTM : M ≤ T * M := by nlinarith
  have hTuM : u * M ≤ T * (u * M) := by nlinarith
  have hTe : T * (u * M) ≤ T * (M / 8) := mul_le_mul_of_nonneg_left huM (by linarith)
  have h1 : |a * P| ≤ 2 * (P * M) := by
    rw [abs_mul, abs_of_nonneg hP0]; nlinarith
  have h2 : |b * Q| ≤ 2 * (Q * M) := by
    rw [abs_mul, abs_of_nonneg hQ0]; nlinarith
  have hPQM : P * M + Q * M = T * M := by rw [hT]; ring
  have hPM := mul_nonneg hP0 hM
  have hQM := mul_nonneg hQ0 hM
  obtain ⟨r1, -⟩ := hF.round_le hK hKf (r := a * P) (by linarith)
  obtain ⟨r2, -⟩ := hF.round_le hK hKf (r := b * Q) (by linarith)
  rw [r1, r2, X.add_fin]
  have e1 := hE.err (a * P)
  have e2 := hE.err (b * Q)
  have e1' := mul_le_mul_of_nonneg_left h1 hu
  have e2' := mul_le_mul_of_nonneg_left h2 hu
  have hsum : u * (2 * (P * M)) + u * (2 * (Q * M)) = 2 * (T * (u * M)) := by rw [hT]; ring
  have d1 : |a * P - x * P| ≤ P * e := by
    rw [← sub_mul, abs_mul, abs_of_nonneg hP0]; nlinarith
  have d2 : |b * Q - y * Q| ≤ Q * e := by
    rw [← sub_mul, abs_mul, abs_of_nonneg hQ0]; nlinarith
  have hPQe : P * e + Q * e = T * e := by rw [hT]; ring
  have hTeM : T * e ≤ T * M := mul_le_mul_of_nonneg_left he (by linarith)
  have hxy : |x * P + y * Q| ≤ T * M := by
    refine (abs_add_le _ _).trans ?_
    rw [abs_mul, abs_mul, abs_of_nonneg hP0, abs_of_nonneg hQ0]
    have := mul_le_mul_of_nonneg_right hx hP0
    have := mul_le_mul_of_nonneg_right hy hQ0
    linarith
  -- the sum before its rounding
  have hS : |F.rnd (a * P) + F.rnd (b * Q) - (x * P + y * Q)| ≤ T * e + 4 * (T * (u * M)) := by
    have e0 : F.rnd (a * P) + F.rnd (b * Q) - (x * P + y * Q)
        = (F.rnd (a * P) - a * P) + (F.rnd (b * Q) - b * Q) + (a * P - x * P) + (b * Q - y * Q) := by ring
    rw [e0]
    refine (abs_add_le _ _).trans ?_
    have k1 := abs_add_le (F.rnd (a * P) - a * P + (F.rnd (b * Q) - b * Q)) (a * P - x * P)
    have k2 := abs_add_le (F.rnd (a * P) - a * P) (F.rnd (b * Q) - b * Q)
    linarith
  have hSb : |F.rnd (a * P) + F.rnd (b * Q)| ≤ 5 / 2 * (T * M) := by
    have := abs_add_le (F.rnd (a * P) + F.rnd (b * Q) - (x * P + y * Q)) (x * P + y * Q)
    rw [sub_add_cancel] at this
    linarith
  obtain ⟨r3, -⟩ := hF.round_le hK hKf (r := F.rnd (a * P) + F.rnd (b * Q)) (by linarith)
  have e3 := hE.err (F.rnd (a * P) + F.rnd (b * Q))
  have e3' := mul_le_mul_of_nonneg_left hSb hu
  have hu52 : u * (5 / 2 * (T * M)) = 5 / 2 * (T * (u * M)) := by ring
  rw [r3, Nat.cast_add, ← hT, X.div_fin_of_ne _ (by linarith)]
  set S := F.rnd (F.rnd (a * P) + F.rnd (b * Q))
  have hSS : |S - (x * P + y * Q)| ≤ T * e + 15 / 2 * (T * (u * M)) := by
    have := abs_add_le (S - (F.rnd (a * P) + F.rnd (b * Q))) (F.rnd (a * P) + F.rnd (b * Q) - (x * P + y * Q))
    rw [sub_add_sub_cancel] at this
    linarith
  have hSSb : |S| ≤ 3 * (T * M) := by
    have := abs_add_le (S - (x * P + y * Q)) (x * P + y * Q)
    rw [sub_add_cancel] at this
    linarith
  have hTpos : 0 < T := by linarith
  have hq : |S / T| ≤ 3 * M := by
    rw [abs_div, abs_of_pos hTpos, div_le_iff₀ hTpos]; linarith
  obtain ⟨r4, -⟩ := hF.round_le hK hKf (r := S / T) (by linarith)
  rw [r4]
  refine ⟨_, rfl, ?_⟩
  have e4 := hE.err (S / T)
  have e4' := mul_le_mul_of_nonneg_left hq hu
  have hd : |S / T - Spec.blend P Q x y| ≤ e + 15 / 2 * (u * M) := by
    have : Spec.blend P Q x y = (x * P + y * Q) / T := by unfold Spec.blend; rw [hT]; ring
    rw [this, ← sub_div, abs_div, abs_of_pos hTpos, div_le_iff₀ hTpos]
    linarith
  have := abs_add_le (F.rnd (S / T) - S / T) (S / T - Spec.blend P Q x y)
  rw [sub_add_sub_cancel] at this
  linarith

theorem mem_prevBlock {β : Type} {xs : List β} {x : β} (h : x ∈ Spec.prevBlock W xs) : x ∈ xs := by
  unfold Spec.prevBlock at h
  split_ifs at h
  · exact absurd h (by simp)
  · exact List.mem_of_mem_drop (List.mem_of_mem_take h)

section
variable {σ β γ : Type} [Block σ w β] [LawfulBlock σ w β]

/-- The interim mean, if the means of the blocks have errors of at most `e`. -/
theorem meanWith_err (hF : F.Binary p emin) (hE : F.Err u η) (hW : 1 ≤ W) (hw : 2 * W < 2 ^ w) {N : Nat} (hN : 2 * W ≤ N)
    (hp : N ≤ 2 ^ p) (hf : F.fits (N : ℝ)) {M K e : ℝ} (hM : 0 ≤ M) (hη : η ≤ u * M) (hK : IsRep p emin K) (hKf : F.fits K)
    (hMK : 3 * N * M ≤ K) (he : e ≤ M) (enc : γ → β) (get : σ → X F) (m : List γ → ℝ) (ops : List (Op γ)) (hne : sinceClear ops ≠ [])
    (hget : ∀ l : List γ, l ≠ [] → (∀ x ∈ l, x ∈ sinceClear ops) → l.length ≤ W →
      |m l| ≤ M ∧ ∃ r : ℝ, get (foldB (l.map enc)) = X.fin r ∧ |r - m l| ≤ e) :
    ∃ r : ℝ, (Interim.run (ops.map (Op.map enc)) : Interim W σ).meanWith get = X.fin r
      ∧ |r - (if (sinceClear ops).length ≤ W then m (sinceClear ops)
          else Spec.blend (W - (Spec.curBlock W (sinceClear ops)).length) (2 * (Spec.curBlock W (sinceClear ops)).length)
            (m (Spec.prevBlock W (sinceClear ops))) (m (Spec.curBlock W (sinceClear ops))))| ≤ e + 12 * (u * M) := by
  set xs := sinceClear ops with hxs
  have hlc := Spec.length_curBlock_le hW xs
  have hcne : Spec.curBlock W xs ≠ [] := fun h => hne ((Spec.curBlock_eq_nil hW xs).1 h)
  have huM0 := mul_nonneg hE.u_nonneg hM
  obtain ⟨hc1, a, ha, hea⟩ := hget (Spec.curBlock W xs) hcne (fun x hx => List.mem_of_mem_drop hx) hlc
  rw [run_blocks hW (by omega), sinceClear_map, ← hxs, Interim.meanWith, passiveEmpty_blocks hW (by omega), List.length_map,
    Spec.curBlock_map, ha]
  by_cases hn : xs.length ≤ W
  · rw [decide_eq_true hn, if_pos rfl, if_pos hn]
    rw [Spec.curBlock_of_le hW hn] at hea
    exact ⟨a, rfl, by linarith⟩
  · rw [decide_eq_false hn, if_neg hn]
    have hlp : (Spec.prevBlock W xs).length ≤ W := by rw [Spec.length_prevBlock hW, if_neg hn]
    have hpne : Spec.prevBlock W xs ≠ [] := fun h => hn ((Spec.prevBlock_eq_nil hW xs).1 h)
    obtain ⟨hp1, b, hb, heb⟩ := hget (Spec.prevBlock W xs) hpne (fun x hx => mem_prevBlock hx) hlp
    simp only [Bool.false_eq_true, if_false]
    have h2 : (2 : BitVec w) = BitVec.ofNat w 2 := rfl
    rw [size_foldB, Spec.prevBlock_map, hb, List.length_map, ofNat_sub hlc, h2, ← BitVec.ofNat_mul, ← BitVec.ofNat_add]
    unfold ofSize
    rw [toNat_ofNat_lt (by omega), toNat_ofNat_lt (by omega), toNat_ofNat_lt (by omega)]
    have hs : W + (Spec.curBlock W xs).length = (W - (Spec.curBlock W xs).length) + 2 * (Spec.curBlock W xs).length := by omega
    rw [hs]
    obtain ⟨r, h1, h3⟩ := blend_err hF hE (N := N) (P := W - (Spec.curBlock W xs).length) (Q := 2 * (Spec.curBlock W xs).length)
      (by omega) hp hf (by omega) hM hη hK hKf hMK he hp1 hc1 heb hea
    refine ⟨r, h1, ?_⟩
    rw [Nat.cast_sub hlc, Nat.cast_mul] at h3
    exact_mod_cast h3

/-- The interim variance (covariance), if those of the blocks have errors of at most `e`. -/
theorem varianceWith_err (hF : F.Binary p emin) (hE : F.Err u η) (hmul : ∀ a b : X F, a * b = b * a) (hW : 1 ≤ W) (hw : W * W < 2 ^ w)
    (hp : W * W ≤ 2 ^ p) (hf : F.fits ((W * W : Nat) : ℝ)) {M K e : ℝ} (hM : 0 ≤ M) (hη : η ≤ u * M) (hK : IsRep p emin K)
    (hKf : F.fits K) (hMK : 3 * (W * W : Nat) * M ≤ K) (he : e ≤ M) (enc : γ → β) (get : σ → X F) (v : List γ → ℝ)
    (ops : List (Op γ)) (hne : sinceClear ops ≠ [])
    (hget : ∀ l : List γ, l ≠ [] → (∀ x ∈ l, x ∈ sinceClear ops) → l.length ≤ W →
      |v l| ≤ M ∧ ∃ r : ℝ, get (foldB (l.map enc)) = X.fin r ∧ |r - v l| ≤ e) :
    ∃ r : ℝ, (Interim.run (ops.map (Op.map enc)) : Interim W σ).varianceWith get = X.fin r
      ∧ |r - (if (sinceClear ops).length ≤ W then v (sinceClear ops)
          else Spec.blend ((W - ((Spec.curBlock W (sinceClear ops)).length - 1)) ^ 2) (2 * ((Spec.curBlock W (sinceClear ops)).length - 1))
            (v (Spec.prevBlock W (sinceClear ops))) (v (Spec.curBlock W (sinceClear ops))))| ≤ e + 12 * (u * M) := by
  set xs := sinceClear ops with hxs
  have hlc := Spec.length_curBlock_le hW xs
  have hWw : W < 2 ^ w := by nlinarith
  have hcne : Spec.curBlock W xs ≠ [] := fun h => hne ((Spec.curBlock_eq_nil hW xs).1 h)
  have hc1' := List.length_pos_iff.2 hcne
  have huM0 := mul_nonneg hE.u_nonneg hM
  obtain ⟨hc1, a, ha, hea⟩ := hget (Spec.curBlock W xs) hcne (fun x hx => List.mem_of_mem_drop hx) hlc
  rw [run_blocks hW hWw, sinceClear_map, ← hxs, Interim.varianceWith, passiveEmpty_blocks hW hWw, List.length_map,
    Spec.curBlock_map, ha]
  by_cases hn : xs.length ≤ W
  · rw [decide_eq_true hn, if_pos rfl, if_pos hn]
    rw [Spec.curBlock_of_le hW hn] at hea
    exact ⟨a, rfl, by linarith⟩
  · rw [decide_eq_false hn, if_neg hn]
    have hlp : (Spec.prevBlock W xs).length ≤ W := by rw [Spec.length_prevBlock hW, if_neg hn]
    have hpne : Spec.prevBlock W xs ≠ [] := fun h => hn ((Spec.prevBlock_eq_nil hW xs).1 h)
    obtain ⟨hp1, b, hb, heb⟩ := hget (Spec.prevBlock W xs) hpne (fun x hx => mem_prevBlock hx) hlp
    simp only [Bool.false_eq_true, if_false]
    have h1 : (1 : BitVec w) = BitVec.ofNat w 1 := rfl
    have h2 : (2 : BitVec w) = BitVec.ofNat w 2 := rfl
    rw [size_foldB, Spec.prevBlock_map, hb, List.length_map]
    have hle : BitVec.ofNat w (Spec.curBlock W xs).length ≤ 1 ↔ (Spec.curBlock W xs).length ≤ 1 := by
      rw [h1, BitVec.le_def, toNat_ofNat_lt (by omega), toNat_ofNat_lt (by omega)]
    by_cases hs : (Spec.curBlock W xs).length ≤ 1
    · rw [if_pos (hle.2 hs)]
      refine ⟨b, rfl, ?_⟩
      have hs1 : (Spec.curBlock W xs).length = 1 := by omega
      have hWr : (W : ℝ) ≠ 0 := by
        have : W ≠ 0 := by omega
        exact_mod_cast this
      have e0 : Spec.blend (((W : ℝ) - ((Spec.curBlock W xs).length - 1)) ^ 2) (2 * ((Spec.curBlock W xs).length - 1))
          (v (Spec.prevBlock W xs)) (v (Spec.curBlock W xs)) = v (Spec.prevBlock W xs) := by
        rw [hs1, Spec.blend, Nat.cast_one, sub_self, mul_zero, zero_mul, add_zero, add_zero, sub_zero,
          mul_div_cancel_left₀ _ (pow_ne_zero 2 hWr)]
      rw [e0]; linarith
    · rw [if_neg (fun h => hs (hle.1 h))]
      set c := (Spec.curBlock W xs).length with hc
      have hb' : (W - (c - 1)) * (W - (c - 1)) + 2 * (c - 1) ≤ W * W := by
        rcases weights_bound (W := W) (s := c - 1) (by omega) with h | h <;> omega
      have hp1' : 1 ≤ (W - (c - 1)) * (W - (c - 1)) := Nat.mul_pos (by omega) (by omega)
      rw [ofNat_sub_one (by omega), ofNat_sub (by omega), h2, ← BitVec.ofNat_mul, ← BitVec.ofNat_mul, ← BitVec.ofNat_add]
      unfold ofSize
      rw [toNat_ofNat_lt (by omega), toNat_ofNat_lt (by omega), toNat_ofNat_lt (by omega), hmul (ofNat _) (X.fin b),
        hmul (ofNat _) (X.fin a)]
      obtain ⟨r, h1, h3⟩ := blend_err hF hE (N := W * W) (P := (W - (c - 1)) * (W - (c - 1))) (Q := 2 * (c - 1))
        hb' hp hf (by omega) hM hη hK hKf hMK he hp1 hc1 heb hea
      refine ⟨r, h1, ?_⟩
      have e1 : ((W - (c - 1) : ℕ) : ℝ) = (W : ℝ) - (c - 1) := by
        rw [Nat.cast_sub (by omega), Nat.cast_sub (by omega), Nat.cast_one]
      have e2 : ((c - 1 : ℕ) : ℝ) = c - 1 := by rw [Nat.cast_sub (by omega), Nat.cast_one]
      rw [Nat.cast_mul, Nat.cast_mul, e1, e2, ← pow_two, Nat.cast_ofNat] at h3
      exact h3

end
end Verif.Interim
