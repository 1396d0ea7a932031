import Verif.Proofs.Rounding
import Verif.Proofs.Cumulative
/-
The cumulative mean and variance with rounding.
-/
namespace Verif.Cumulative
open Scalar

variable {w : Nat} {F : Fmt} {p : Nat} {emin : Int}

theorem _root_.Verif.Fmt.Data.init {xs : List ℝ} {x : ℝ} (h : F.Data p emin (xs ++ [x])) : F.Data p emin xs :=
  ⟨fun y hy => h.number y (List.mem_append_left _ hy),
   fun y hy z hz => h.difference y (List.mem_append_left _ hy) z (List.mem_append_left _ hz)⟩

/-- The mean lies within the data. -/
def Within (m : ℝ) (xs : List ℝ) : Prop := (∃ a ∈ xs, a ≤ m) ∧ (∃ b ∈ xs, m ≤ b)

/-- The difference of a data point and a number within the data does not overflow. -/
theorem _root_.Verif.Fmt.Data.fits_sub (hF : F.Binary p emin) {xs : List ℝ} (h : F.Data p emin xs) {m x : ℝ}
    (hm : Within m xs) (hx : x ∈ xs) : F.fits (F.rnd (x - m)) := by
  obtain ⟨⟨a, ha, ham⟩, ⟨b, hb, hmb⟩⟩ := hm
  exact hF.fits_between (h.difference x hx b hb) (h.difference x hx a ha) (hF.mono (by linarith)) (hF.mono (by linarith))

theorem Within.append {m : ℝ} {xs : List ℝ} (h : Within m xs) (x : ℝ) : Within m (xs ++ [x]) := by
  obtain ⟨⟨a, ha, h1⟩, ⟨b, hb, h2⟩⟩ := h
  exact ⟨⟨a, List.mem_append_left _ ha, h1⟩, ⟨b, List.mem_append_left _ hb, h2⟩⟩

/-- What is known of the mean after pushing `xs`. -/
structure MeanInv (F : Fmt) (p : Nat) (emin : Int) (w : Nat) (xs : List ℝ) (s : Mean w (X F)) (m : ℝ) : Prop where
  mean : s.mean = X.fin m
  count : s.count = BitVec.ofNat w xs.length
  rep : IsRep p emin m
  fits : F.fits m
  empty : xs = [] → m = 0
  within : xs ≠ [] → Within m xs

theorem MeanInv.nil (hF : F.Binary p emin) : MeanInv F p emin w [] Mean.init 0 where
  mean := hF.ofNat_zero
  count := rfl
  rep := isRep_zero _ _
  fits := hF.fits_zero
  empty _ := rfl
  within h := absurd rfl h

/-- One push: the mean moves towards the value and not past it. -/
theorem MeanInv.push (hF : F.Binary p emin) {xs : List ℝ} {x : ℝ} (hd : F.Data p emin (xs ++ [x]))
    (hw : xs.length + 1 < 2 ^ w) {s : Mean w (X F)} {m : ℝ} (hs : MeanInv F p emin w xs s m) :
    ∃ m', MeanInv F p emin w (xs ++ [x]) (s.push (X.fin x)) m'
      ∧ (X.fin x - X.fin m : X F) = X.fin (F.rnd (x - m))
      ∧ (X.fin x - X.fin m' : X F) = X.fin (F.rnd (x - m'))
      ∧ ((m ≤ x ∧ m' ≤ x) ∨ (x ≤ m ∧ x ≤ m'))
      ∧ (m = x → m' = x) ∧ (xs = [] → m' = x) := by
  have hxm : x ∈ xs ++ [x] := by simp
  obtain ⟨hx, hxf⟩ := hd.number x hxm
  have hc : s.count + 1 = BitVec.ofNat w (xs.length + 1) := by rw [hs.count, ofNat_add_one]
  have hof : (ofSize (s.count + 1) : X F) = ofNat (xs.length + 1) := by
    rw [hc, ofSize, toNat_ofNat_lt hw]
  by_cases h0 : xs = []
  · have hm0 := hs.empty h0
    have e1 : (X.fin x - X.fin m : X F) = X.fin (F.rnd (x - m)) := by
      rw [X.sub_fin, hm0, sub_zero, hF.round_exact hx hxf, hF.exact _ hx]
    have e2 : (X.fin x - X.fin x : X F) = X.fin (F.rnd (x - x)) := by
      rw [X.sub_fin, sub_self, hF.round_exact (isRep_zero _ _) hF.fits_zero, hF.rnd_zero]
    have e3 : (s.push (X.fin x)).mean = X.fin x := by
      show s.mean + (X.fin x - s.mean) / ofSize (s.count + 1) = X.fin x
      rw [hof, hs.mean, e1, hm0, sub_zero, hF.exact _ hx, h0, List.length_nil, zero_add, hF.ofNat_one,
        X.div_fin_of_ne _ one_ne_zero, div_one, hF.round_exact hx hxf, X.add_fin, zero_add,
        hF.round_exact hx hxf]
    refine ⟨x, ⟨e3, ?_, hx, hxf, by simp, fun _ => ⟨⟨x, hxm, le_refl _⟩, ⟨x, hxm, le_refl _⟩⟩⟩, e1, e2, ?_, fun _ => rfl, fun _ => rfl⟩
    · show s.count + 1 = _
      rw [hc]; simp
    · rcases le_total m x with h | h
      · exact Or.inl ⟨h, le_refl _⟩
      · exact Or.inr ⟨h, le_refl _⟩
  · have hin := (hs.within h0).append x
    have hlen : 2 ≤ xs.length + 1 := by
      have := List.length_pos_iff.2 h0; omega
    obtain ⟨m', h1, h2, h3, h4, h5⟩ := hF.mean_step hs.rep hs.fits hx hxf (hd.fits_sub hF hin hxm) (hF.ofNat_two_le hlen)
    have hin' : Within m' (xs ++ [x]) := by
      rcases le_total m x with h | h
      · obtain ⟨⟨a, ha, ham⟩, -⟩ := hin
        exact ⟨⟨a, ha, ham.trans (h4 h).1⟩, ⟨x, hxm, (h4 h).2⟩⟩
      · obtain ⟨-, ⟨b, hb, hmb⟩⟩ := hin
        exact ⟨⟨x, hxm, (h5 h).1⟩, ⟨b, hb, (h5 h).2.trans hmb⟩⟩
    refine ⟨m', ⟨?_, ?_, h2, h3, by simp, fun _ => hin'⟩, ?_, ?_, ?_, ?_, fun h => absurd h h0⟩
    · show s.mean + (X.fin x - s.mean) / ofSize (s.count + 1) = _
      rw [hof, hs.mean, h1]
    · show s.count + 1 = _
      rw [hc]; simp
    · rw [X.sub_fin]; unfold X.round; rw [if_pos (hd.fits_sub hF hin hxm)]
    · rw [X.sub_fin]; unfold X.round; rw [if_pos (hd.fits_sub hF hin' hxm)]
    · rcases le_total m x with h | h
      · exact Or.inl ⟨h, (h4 h).2⟩
      · exact Or.inr ⟨h, (h5 h).1⟩
    · rintro rfl; exact le_antisymm (h4 (le_refl _)).2 (h4 (le_refl _)).1

theorem Mean.rounded (hF : F.Binary p emin) (xs : List ℝ) (hd : F.Data p emin xs) (hw : xs.length < 2 ^ w) :
    ∃ m, MeanInv F p emin w xs ((xs.map X.fin).foldl Mean.push Mean.init) m := by
  induction xs using List.reverseRecOn with
  | nil => exact ⟨0, MeanInv.nil hF⟩
  | append_singleton xs x ih =>
    rw [List.length_append, List.length_singleton] at hw
    obtain ⟨m, hm⟩ := ih hd.init (by omega)
    obtain ⟨m', h, -⟩ := hm.push hF hd hw
    rw [List.map_append, List.map_singleton, List.foldl_append]
    exact ⟨m', h⟩

/-- `+inf` or a nonnegative number of the format. -/
def NonNeg (F : Fmt) (p : Nat) (emin : Int) (x : X F) : Prop :=
  x = X.pinf ∨ ∃ s : ℝ, 0 ≤ s ∧ IsRep p emin s ∧ F.fits s ∧ x = X.fin s

theorem NonNeg.lt_zero (hF : F.Binary p emin) {x : X F} (h : NonNeg F p emin x) : lt x (ofNat 0) = false := by
  rw [hF.ofNat_zero]
  rcases h with rfl | ⟨s, h0, -, -, rfl⟩
  · rfl
  · rw [X.lt_fin]; simpa using h0

theorem nonNeg_round (hF : F.Binary p emin) {r : ℝ} (h : 0 ≤ r) : NonNeg F p emin (X.round r) := by
  rcases hF.round_nonneg h with h | ⟨d, h1, h2, h3, -, h4⟩
  · exact Or.inl h
  · exact Or.inr ⟨d, h1, h2, h3, h4⟩

theorem NonNeg.add (hF : F.Binary p emin) {x y : X F} (hx : NonNeg F p emin x) (hy : NonNeg F p emin y) :
    NonNeg F p emin (x + y) ∧ le x (x + y) = true := by
  rcases hx with rfl | ⟨s, h1, h2, h3, rfl⟩
  · have : (X.pinf + y : X F) = X.pinf := by
      rcases hy with rfl | ⟨t, -, -, -, rfl⟩ <;> rfl
    rw [this]; exact ⟨Or.inl rfl, rfl⟩
  · rcases hy with rfl | ⟨t, g1, g2, g3, rfl⟩
    · exact ⟨Or.inl rfl, rfl⟩
    · rw [X.add_fin]
      refine ⟨nonNeg_round hF (by linarith), ?_⟩
      rcases hF.round_nonneg (show 0 ≤ s + t by linarith) with h | ⟨d, -, -, -, h5, h6⟩
      · rw [h]; rfl
      · rw [h6, X.le_fin, h5]
        exact decide_eq_true (hF.le_rnd h2 (by linarith))

/-- A nonnegative number divided by a count is not negative (possibly NaN). -/
theorem NonNeg.div_lt_zero (hF : F.Binary p emin) {x : X F} (hx : NonNeg F p emin x) (n : Nat) :
    lt (x / ofNat n) (ofNat 0) = false := by
  rw [hF.ofNat_zero]
  rcases Nat.eq_zero_or_pos n with rfl | hn
  · rw [hF.ofNat_zero]
    rcases hx with rfl | ⟨s, h1, h2, h3, rfl⟩
    · show lt (if (0 : ℝ) < 0 then X.ninf else X.pinf : X F) (X.fin 0) = false
      rw [if_neg (lt_irrefl _)]; rfl
    · rw [X.div_fin_zero]
      unfold X.signedInf
      rw [if_neg (not_lt.2 h1 : ¬ s < 0)]
      split_ifs <;> rfl
  · rcases hF.ofNat_one_le hn with h | ⟨d, hd, h⟩
    · rw [h]
      rcases hx with rfl | ⟨s, h1, h2, h3, rfl⟩
      · rfl
      · show lt (X.fin 0 : X F) (X.fin 0) = false
        rw [X.lt_fin]; simp
    · rw [h]
      rcases hx with rfl | ⟨s, h1, h2, h3, rfl⟩
      · show lt (if d < 0 then X.ninf else X.pinf : X F) (X.fin 0) = false
        rw [if_neg (by linarith)]; rfl
      · rw [X.div_fin_of_ne _ (by linarith), ← hF.ofNat_zero]
        exact (nonNeg_round hF (div_nonneg h1 (by linarith))).lt_zero hF

/-- Divided by a positive count that does not overflow it is a nonnegative number or `+inf`. -/
theorem NonNeg.div (hF : F.Binary p emin) {x : X F} (hx : NonNeg F p emin x) {n : Nat} (hn : 1 ≤ n)
    (hf : F.fits (F.rnd n)) : NonNeg F p emin (x / ofNat n) := by
  have h1 : (ofNat n : X F) = X.fin (F.rnd n) := by
    rw [X.ofNat_eq]; unfold X.round; rw [if_pos hf]
  have h2 : 1 ≤ F.rnd (n : ℝ) := hF.le_rnd hF.isRep_one (by exact_mod_cast hn)
  rw [h1]
  rcases hx with rfl | ⟨s, g1, -, -, rfl⟩
  · refine Or.inl ?_
    show (if F.rnd (n : ℝ) < 0 then X.ninf else X.pinf : X F) = X.pinf
    rw [if_neg (by linarith)]
  · rw [X.div_fin_of_ne _ (by linarith)]
    exact nonNeg_round hF (div_nonneg g1 (by linarith))

/-- The product of the two deviations is not negative. -/
theorem nonNeg_mul (hF : F.Binary p emin) {m m' x : ℝ} (h : (m ≤ x ∧ m' ≤ x) ∨ (x ≤ m ∧ x ≤ m')) :
    NonNeg F p emin (X.fin (F.rnd (x - m)) * X.fin (F.rnd (x - m'))) := by
  rw [X.mul_fin]
  refine nonNeg_round hF ?_
  rcases h with ⟨h1, h2⟩ | ⟨h1, h2⟩
  · exact mul_nonneg (hF.rnd_nonneg (by linarith)) (hF.rnd_nonneg (by linarith))
  · exact mul_nonneg_of_nonpos_of_nonpos (hF.rnd_nonpos (by linarith)) (hF.rnd_nonpos (by linarith))

theorem Variance.rounded_push (hF : F.Binary p emin) {xs : List ℝ} {x : ℝ} (hd : F.Data p emin (xs ++ [x]))
    (hw : xs.length + 1 < 2 ^ w) {s : Variance w (X F)} {m : ℝ} (hs : MeanInv F p emin w xs s.super m)
    (hv : NonNeg F p emin s.sumVariance) :
    (∃ m', MeanInv F p emin w (xs ++ [x]) (s.push (X.fin x)).super m')
      ∧ NonNeg F p emin (s.push (X.fin x)).sumVariance
      ∧ le s.sumVariance (s.push (X.fin x)).sumVariance = true := by
  obtain ⟨m', h1, h2, h3, h4, -⟩ := hs.push hF hd hw
  have e : (s.push (X.fin x)).sumVariance
      = s.sumVariance + X.fin (F.rnd (x - m)) * X.fin (F.rnd (x - m')) := by
    show s.sumVariance + (X.fin x - s.super.mean) * (X.fin x - (s.super.push (X.fin x)).mean) = _
    rw [h1.mean, hs.mean, h2, h3]
  rw [e]
  exact ⟨⟨m', h1⟩, hv.add hF (nonNeg_mul hF h4)⟩

theorem Variance.rounded (hF : F.Binary p emin) (xs : List ℝ) (hd : F.Data p emin xs) (hw : xs.length < 2 ^ w) :
    (∃ m, MeanInv F p emin w xs ((xs.map X.fin).foldl Variance.push Variance.init).super m)
      ∧ NonNeg F p emin ((xs.map X.fin).foldl Variance.push (Variance.init (w := w))).sumVariance := by
  induction xs using List.reverseRecOn with
  | nil => exact ⟨⟨0, MeanInv.nil hF⟩, Or.inr ⟨0, le_refl _, isRep_zero _ _, hF.fits_zero, hF.ofNat_zero⟩⟩
  | append_singleton xs x ih =>
    rw [List.length_append, List.length_singleton] at hw
    obtain ⟨⟨m, hm⟩, hv⟩ := ih hd.init (by omega)
    rw [List.map_append, List.map_singleton, List.foldl_append]
    have := Variance.rounded_push hF hd hw hm hv
    exact ⟨this.1, this.2.1⟩

end Verif.Cumulative
