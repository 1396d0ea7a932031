import Verif.Proofs.WindowRounded
import Verif.Proofs.Decay
/-
The decay mean with rounding.
-/
namespace Verif
open Scalar

variable {F : Fmt} {p : Nat} {emin : Int} {u η : ℝ}

/-- Differences from 1 are exact in `[1/2, 1]`. -/
theorem Fmt.Binary.one_sub (h : F.Binary p emin) {n : ℝ} (hn : IsRep p emin n) (h1 : 1 / 2 ≤ n) (h2 : n ≤ 1) :
    IsRep p emin (1 - n) := by
  obtain ⟨m, e, rfl, hm, he⟩ := hn
  have hm' : (m : ℝ) ≤ 2 ^ p := by
    have := (le_abs_self m).trans hm.le
    exact_mod_cast this
  set g : Int := min e 0 with hg
  have hge : emin ≤ g := by have := h.emin_le; omega
  have hgp : -(p : Int) - 1 ≤ g := by
    by_contra hc
    have he' : e ≤ -(p : Int) - 2 := by omega
    have : (2 : ℝ) ^ e ≤ 2 ^ (-(p : Int) - 2) := zpow_le_zpow_right₀ (by norm_num) he'
    have h3 : (m : ℝ) * 2 ^ e ≤ 2 ^ p * 2 ^ (-(p : Int) - 2) := by
      refine mul_le_mul hm' this (by positivity) (by positivity)
    rw [← zpow_natCast, ← zpow_add₀ (by norm_num)] at h3
    have e1 : (p : Int) + (-(p : Int) - 2) = -2 := by ring
    rw [e1] at h3
    norm_num at h3
    linarith
  have e1 : (1 : ℝ) = ((2 ^ (-g).toNat : Int) : ℝ) * 2 ^ g := by
    push_cast
    rw [← zpow_natCast, Int.toNat_of_nonneg (by omega), ← zpow_add₀ (by norm_num)]; simp
  have e2 : (m : ℝ) * 2 ^ e = ((m * 2 ^ (e - g).toNat : Int) : ℝ) * 2 ^ g := by
    push_cast
    rw [← zpow_natCast, Int.toNat_of_nonneg (by omega), mul_assoc, ← zpow_add₀ (by norm_num)]; simp
  set a : Int := 2 ^ (-g).toNat
  set b : Int := m * 2 ^ (e - g).toNat
  have e3 : 1 - (m : ℝ) * 2 ^ e = ((a - b : Int) : ℝ) * 2 ^ g := by
    rw [e2]; nth_rw 1 [e1]; push_cast; ring
  rw [e3]
  refine isRep_mul (by have := h.digits; omega) hge ?_
  have hpos : (0 : ℝ) < 2 ^ g := by positivity
  have h5 : (0 : ℝ) ≤ ((a - b : Int) : ℝ) * 2 ^ g := by rw [← e3]; linarith
  have h6 : ((a - b : Int) : ℝ) * 2 ^ g ≤ 1 / 2 := by rw [← e3]; linarith
  have h7 : (0 : ℝ) ≤ ((a - b : Int) : ℝ) := nonneg_of_mul_nonneg_left h5 hpos
  have h8 : ((a - b : Int) : ℝ) ≤ 2 ^ p := by
    have h9 : ((2 : ℝ) ^ p) * 2 ^ g ≥ 1 / 2 := by
      rw [← zpow_natCast, ← zpow_add₀ (by norm_num)]
      have : (2 : ℝ) ^ (-1 : Int) ≤ 2 ^ ((p : Int) + g) := zpow_le_zpow_right₀ (by norm_num) (by omega)
      norm_num at this ⊢; exact this
    exact le_of_mul_le_mul_right (h6.trans h9) hpos
  rw [abs_of_nonneg (by exact_mod_cast h7)]
  exact_mod_cast h8

namespace Decay

/-- One step of the normalization. -/
theorem norm_step (h : F.Binary p emin) {f n : ℝ} (hf0 : 0 < f) (hf1 : f ≤ 1) (hfr : IsRep p emin f)
    (hn : IsRep p emin n) (hn1 : n ≤ 1) (h0 : n = 0 ∨ f ≤ n) :
    ∃ n', (X.fin n + X.fin f * (ofNat 1 - X.fin n) : X F) = X.fin n' ∧ n' = F.rnd (n + F.rnd (f * F.rnd (1 - n)))
      ∧ IsRep p emin n' ∧ n ≤ n' ∧ f ≤ n' ∧ n' ≤ 1 := by
  have hff : F.fits f := h.fits_between h.fits_zero h.fits_one hf0.le hf1
  have hn0 : 0 ≤ n := by rcases h0 with h0 | h0 <;> linarith
  have key : n ≤ F.rnd (n + F.rnd (f * F.rnd (1 - n))) ∧ f ≤ F.rnd (n + F.rnd (f * F.rnd (1 - n)))
      ∧ F.rnd (n + F.rnd (f * F.rnd (1 - n))) ≤ 1 := by
    rcases h0 with h0 | h0
    · have e : F.rnd (n + F.rnd (f * F.rnd (1 - n))) = f := by
        rw [h0, sub_zero, h.exact _ h.isRep_one, mul_one, h.exact _ hfr, zero_add, h.exact _ hfr]
      rw [e, h0]; exact ⟨hf0.le, le_refl _, hf1⟩
    · have hlo : n ≤ F.rnd (n + F.rnd (f * F.rnd (1 - n))) := by
        refine h.le_rnd hn ?_
        have := h.rnd_nonneg (mul_nonneg hf0.le (h.rnd_nonneg (sub_nonneg.2 hn1)))
        linarith
      refine ⟨hlo, h0.trans hlo, ?_⟩
      rcases le_total f (1 / 2) with hc | hc
      · have hn2 : 2 ≤ 1 / f := by rw [le_div_iff₀ hf0]; linarith
        have e : ∀ y : ℝ, y / (1 / f) = f * y := fun y => by field_simp
        have := (h.step_up hn h.isRep_one hn2 hn1).2
        rwa [e] at this
      · have hr := h.one_sub hn (by linarith) hn1
        refine h.rnd_le h.isRep_one ?_
        rw [h.exact _ hr]
        have := h.rnd_le hr (mul_le_of_le_one_left (sub_nonneg.2 hn1) hf1)
        linarith
  obtain ⟨k1, k2, k3⟩ := key
  have f1 : |1 - n| ≤ 1 := by rw [abs_of_nonneg (by linarith)]; linarith
  obtain ⟨g1, g1'⟩ := h.round_le (F := F) h.isRep_one h.fits_one f1
  have f2 : |f * F.rnd (1 - n)| ≤ 1 := by
    rw [abs_mul, abs_of_pos hf0]
    exact (mul_le_of_le_one_left (abs_nonneg _) hf1).trans g1'
  obtain ⟨g2, -⟩ := h.round_le (F := F) h.isRep_one h.fits_one f2
  refine ⟨_, ?_, rfl, h.rep _, k1, k2, k3⟩
  rw [h.ofNat_one, X.sub_fin, g1, X.mul_fin, g2, X.add_fin]
  unfold X.round
  rw [if_pos (h.fits_between h.fits_zero h.fits_one (by linarith) k3)]

/-- The bound of the errors of the sums. -/
noncomputable def sumErr (u η f B : ℝ) : ℝ := (10 * (u * B) + 2 * η) + (2 * (u * B) + 3 * η) / f

theorem sumErr_nonneg (hE : F.Err u η) {B f : ℝ} (hB : 0 ≤ B) (hf : 0 < f) : 0 ≤ sumErr u η f B := by
  have := hE.u_nonneg; have := hE.eta_nonneg
  unfold sumErr; positivity

/-- The error of one step, on top of the error so far. -/
theorem smooth_err (hE : F.Err u η) {B f s S x : ℝ} (hf0 : 0 < f) (hf1 : f ≤ 1) (hs : |s| ≤ 2 * B) (hx : |x| ≤ B)
    (h : |s - S| ≤ sumErr u η f B) :
    |F.rnd (s + F.rnd (f * F.rnd (x - s))) - ((1 - f) * S + f * x)| ≤ sumErr u η f B := by
  unfold sumErr at *
  have hB : 0 ≤ B := (abs_nonneg _).trans hx
  have hM : s + f * (x - s) = (1 - f) * s + f * x := by ring
  have h1 := hE.step_le (m := s) (x := x) (y := s) (t := f) (B := 2 * B) hf0.le
    (by have := abs_sub x s; linarith)
    (by
      rw [hM]
      refine (abs_add_le _ _).trans ?_
      rw [abs_mul, abs_mul, abs_of_nonneg hf0.le, abs_of_nonneg (by linarith : 0 ≤ 1 - f)]
      have := mul_le_mul_of_nonneg_left hs (by linarith : 0 ≤ 1 - f)
      have := mul_le_mul_of_nonneg_left (show |x| ≤ 2 * B by linarith) hf0.le
      linarith)
  set r := F.rnd (s + F.rnd (f * F.rnd (x - s)))
  have e : r - ((1 - f) * S + f * x) = (r - (s + f * (x - s))) + (1 - f) * (s - S) := by ring
  rw [e]
  refine (abs_add_le _ _).trans ?_
  rw [abs_mul, abs_of_nonneg (by linarith : 0 ≤ 1 - f)]
  have h2 := mul_le_mul_of_nonneg_left h (by linarith : 0 ≤ 1 - f)
  have e2 : (1 - f) * ((10 * (u * B) + 2 * η) + (2 * (u * B) + 3 * η) / f)
      = (10 * (u * B) + 2 * η) + (2 * (u * B) + 3 * η) / f - f * (10 * (u * B) + 2 * η) - (2 * (u * B) + 3 * η) := by
    field_simp; ring
  rw [e2] at h2
  linarith

/-- What is known of the normalization after pushing `xs`. -/
structure NormInv (F : Fmt) (p : Nat) (emin : Int) (u η f : ℝ) {β : Type} (xs : List β) (st : Mean (X F)) (n : ℝ) : Prop where
  factor : st.meanFactor = X.fin f
  norm : st.normalization = X.fin n
  rep : IsRep p emin n
  le_one : n ≤ 1
  empty : xs = [] → n = 0
  ge : xs ≠ [] → f ≤ n
  err : |n - (1 - (1 - f) ^ xs.length)| ≤ sumErr u η f 1

theorem NormInv.nil (hF : F.Binary p emin) (hE : F.Err u η) {f : ℝ} (hf : 0 < f) {β : Type} :
    NormInv F p emin u η f ([] : List β) (Mean.init (X.fin f)) 0 where
  factor := rfl
  norm := hF.ofNat_zero
  rep := isRep_zero _ _
  le_one := zero_le_one
  empty _ := rfl
  ge h := absurd rfl h
  err := by
    simp only [List.length_nil, pow_zero, sub_self, abs_zero]; exact sumErr_nonneg hE zero_le_one hf

theorem NormInv.push (hF : F.Binary p emin) (hE : F.Err u η) {f : ℝ} (hf0 : 0 < f) (hf1 : f ≤ 1)
    (hfr : IsRep p emin f) {β : Type} {xs : List β} {st : Mean (X F)} {n : ℝ} (h : NormInv F p emin u η f xs st n)
    (y : β) (x : X F) : ∃ n', NormInv F p emin u η f (xs ++ [y]) (st.push x) n' ∧ n ≤ n' := by
  have h0 : n = 0 ∨ f ≤ n := by
    rcases eq_or_ne xs [] with h0 | h0
    · exact Or.inl (h.empty h0)
    · exact Or.inr (h.ge h0)
  obtain ⟨n', b1, b2, b3, b4, b5, b6⟩ := norm_step hF hf0 hf1 hfr h.rep h.le_one h0
  have hn0 : 0 ≤ n := by rcases h0 with h0 | h0 <;> linarith
  refine ⟨n', ⟨h.factor, ?_, b3, b6, ?_, fun _ => b5, ?_⟩, b4⟩
  · show st.normalization + st.meanFactor * (ofNat 1 - st.normalization) = _
    rw [h.norm, h.factor, b1]
  · intro h; simp at h
  · have := smooth_err hE (B := 1) (x := 1) (s := n) (S := 1 - (1 - f) ^ xs.length) hf0 hf1
      (by rw [abs_of_nonneg hn0]; linarith [h.le_one]) (by simp) h.err
    rw [← b2] at this
    rw [List.length_append, List.length_singleton, pow_succ]
    convert this using 3
    ring

theorem Mean.fold_norm (hF : F.Binary p emin) (hE : F.Err u η) {f : ℝ} (hf0 : 0 < f) (hf1 : f ≤ 1)
    (hfr : IsRep p emin f) (xs : List (X F)) :
    ∃ n, NormInv F p emin u η f xs (xs.foldl Mean.push (Mean.init (X.fin f))) n := by
  induction xs using List.reverseRecOn with
  | nil => exact ⟨0, NormInv.nil hF hE hf0⟩
  | append_singleton xs x ih =>
    obtain ⟨n, h⟩ := ih
    obtain ⟨n', h', -⟩ := h.push hF hE hf0 hf1 hfr x x
    rw [List.foldl_append]
    exact ⟨n', h'⟩

theorem Mean.run_eq {α : Type} [Scalar α] (f : α) (ops : List (Op α)) :
    Mean.run f ops = (sinceClear ops).foldl Mean.push (Mean.init f) :=
  (runOps_eq_inv (fun s : Mean α => s.meanFactor = f) (Mean.init f) Mean.push Mean.clear rfl (fun _ _ h => h)
    (fun s h => by simp [Mean.clear, Mean.init, h]) ops).1

/-- The update does not overflow. -/
theorem update (hF : F.Binary p emin) (hE : F.Err u η) {B K s x f : ℝ} (hK : IsRep p emin K) (hKf : F.fits K)
    (hBK : 8 * B ≤ K) (hη : 2 * η ≤ B) (hs : |s| ≤ 2 * B) (hx : |x| ≤ B) (hf0 : 0 ≤ f) (hf1 : f ≤ 1) :
    (X.fin s + X.fin f * (X.fin x - X.fin s) : X F) = X.fin (F.rnd (s + F.rnd (f * F.rnd (x - s)))) := by
  have hu := hE.u_nonneg
  have hu8 := hE.u_le
  have hB : 0 ≤ B := (abs_nonneg _).trans hx
  have hxs : |x - s| ≤ 3 * B := by have := abs_sub x s; linarith
  obtain ⟨h1, -⟩ := hF.round_le (F := F) hK hKf (show |x - s| ≤ K by linarith)
  have hd : |F.rnd (x - s)| ≤ 31 / 8 * B := by
    refine (hE.abs_le _).trans ?_
    have : (1 + u) * |x - s| ≤ (1 + 1 / 8) * (3 * B) := mul_le_mul (by linarith) hxs (abs_nonneg _) (by norm_num)
    linarith
  have hq : |f * F.rnd (x - s)| ≤ 31 / 8 * B := by
    rw [abs_mul, abs_of_nonneg hf0]
    exact (mul_le_of_le_one_left (abs_nonneg _) hf1).trans hd
  obtain ⟨h2, -⟩ := hF.round_le (F := F) hK hKf (show |f * F.rnd (x - s)| ≤ K by linarith)
  rw [X.sub_fin, h1, X.mul_fin, h2, X.add_fin]
  refine (hF.round_le hK hKf ?_).1
  refine (abs_add_le _ _).trans ?_
  have : |F.rnd (f * F.rnd (x - s))| ≤ 5 * B := by
    refine (hE.abs_le _).trans ?_
    have : (1 + u) * |f * F.rnd (x - s)| ≤ (1 + 1 / 8) * (31 / 8 * B) :=
      mul_le_mul (by linarith) hq (abs_nonneg _) (by norm_num)
    linarith
  linarith

theorem abs_ewSum_le {f : ℝ} (h0 : 0 < f) (h1 : f ≤ 1) {B : ℝ} (hB : 0 ≤ B) {xs : List ℝ} (h : ∀ x ∈ xs, |x| ≤ B) :
    |Spec.ewSum f xs| ≤ B := by
  have a := Spec.ewSum_le h0 h1 (fun x hx => (abs_le.1 (h x hx)).2)
  have b := Spec.le_ewSum h0 h1 (fun x hx => (abs_le.1 (h x hx)).1)
  have c := Spec.norm_nonneg h0 h1 xs.length
  have d : (0 : ℝ) ≤ (1 - f) ^ xs.length := pow_nonneg (by linarith) _
  rw [abs_le]
  constructor <;> nlinarith

theorem abs_ewMean_le {f : ℝ} (h0 : 0 < f) (h1 : f ≤ 1) {B : ℝ} (hB : 0 ≤ B) {xs : List ℝ} (h : ∀ x ∈ xs, |x| ≤ B) :
    |Spec.ewMean f xs| ≤ B := by
  rcases eq_or_ne xs [] with rfl | hne
  · simpa [Spec.ewMean] using hB
  · exact abs_le.2 ⟨Spec.le_ewMean h0 h1 hne fun x hx => (abs_le.1 (h x hx)).1,
      Spec.ewMean_le h0 h1 hne fun x hx => (abs_le.1 (h x hx)).2⟩

theorem Mean.fold_sum (hF : F.Binary p emin) (hE : F.Err u η) {B K f : ℝ} (hB0 : 0 ≤ B) (hf0 : 0 < f) (hf1 : f ≤ 1)
    (hK : IsRep p emin K) (hKf : F.fits K) (hBK : 8 * B ≤ K) (hc : sumErr u η f B ≤ B)
    (xs : List ℝ) (hB : ∀ y ∈ xs, |y| ≤ B) :
    let st : Mean (X F) := (xs.map X.fin).foldl Mean.push (Mean.init (X.fin f))
    ∃ s, st.meanFactor = X.fin f ∧ st.sumMean = X.fin s ∧ |s - Spec.ewSum f xs| ≤ sumErr u η f B := by
  induction xs using List.reverseRecOn with
  | nil =>
    refine ⟨0, rfl, hF.ofNat_zero, ?_⟩
    rw [Spec.ewSum_nil, sub_zero, abs_zero]; exact sumErr_nonneg hE hB0 hf0
  | append_singleton xs x ih =>
    obtain ⟨s, h1, h2, h3⟩ := ih (fun y hy => hB y (List.mem_append_left _ hy))
    rw [List.map_append, List.map_singleton, List.foldl_append]
    set st := (xs.map X.fin).foldl Mean.push (Mean.init (X.fin f) : Mean (X F))
    have hS := abs_ewSum_le hf0 hf1 hB0 (fun y hy => hB y (List.mem_append_left [x] hy))
    have hs : |s| ≤ 2 * B := by
      have := abs_add_le (s - Spec.ewSum f xs) (Spec.ewSum f xs)
      rw [sub_add_cancel] at this
      linarith
    have hx := hB x (by simp)
    have hη : 2 * η ≤ B := by
      refine le_trans ?_ hc
      have := hE.u_nonneg; have := hE.eta_nonneg
      unfold sumErr
      have : 0 ≤ (2 * (u * B) + 3 * η) / f := by positivity
      have : 0 ≤ u * B := by positivity
      linarith
    refine ⟨F.rnd (s + F.rnd (f * F.rnd (x - s))), h1, ?_, ?_⟩
    · show st.sumMean + st.meanFactor * (X.fin x - st.sumMean) = _
      rw [h1, h2, update hF hE hK hKf hBK hη hs hx hf0.le hf1]
    · rw [Spec.ewSum_snoc]
      exact smooth_err hE hf0 hf1 hs hx h3

/-- The quotient. -/
theorem mean_err (hF : F.Binary p emin) (hE : F.Err u η) {B f K s n S N es en : ℝ} (hK : IsRep p emin K) (hKf : F.fits K)
    (hf0 : 0 < f) (hn : f ≤ n) (hN : 0 < N) (hS : |S / N| ≤ B) (hs : |s - S| ≤ es) (hnn : |n - N| ≤ en)
    (hBK : B + (es + B * en) / f ≤ K) :
    (X.fin s / X.fin n : X F) = X.fin (F.rnd (s / n))
      ∧ |F.rnd (s / n) - S / N| ≤ (1 + u) * ((es + B * en) / f) + u * B + η := by
  have hn0 : 0 < n := by linarith
  have h1 : |s / n - S / N| ≤ (es + B * en) / f := by
    have e : s / n - S / N = ((s - S) - S / N * (n - N)) / n := by field_simp; ring
    rw [e, abs_div, abs_of_pos hn0]
    have h2 : |(s - S) - S / N * (n - N)| ≤ es + B * en := by
      refine (abs_sub _ _).trans ?_
      rw [abs_mul]
      have := mul_le_mul hS hnn (abs_nonneg _) ((abs_nonneg _).trans hS)
      linarith
    have h3 : 0 ≤ es + B * en := (abs_nonneg _).trans h2
    exact div_le_div₀ h3 h2 hf0 hn
  have h4 : |s / n| ≤ B + (es + B * en) / f := by
    have := abs_add_le (s / n - S / N) (S / N)
    rw [sub_add_cancel] at this
    linarith
  obtain ⟨h5, -⟩ := hF.round_le (F := F) hK hKf (h4.trans hBK)
  refine ⟨by rw [X.div_fin_of_ne _ hn0.ne', h5], ?_⟩
  have h6 := hE.err (s / n)
  have h7 := abs_add_le (F.rnd (s / n) - s / n) (s / n - S / N)
  rw [sub_add_sub_cancel] at h7
  have := mul_le_mul_of_nonneg_left h4 hE.u_nonneg
  linarith

end Decay
end Verif
