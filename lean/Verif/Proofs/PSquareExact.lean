import Verif.Proofs.PSquare
import Verif.Spec
import Mathlib.Data.List.GetD
import Mathlib.Tactic.Positivity
/-
P-square estimator in exact arithmetic.
-/
namespace Verif.Spec

theorem sorted_pairwise (xs : List ℝ) : (sorted xs).Pairwise (· ≤ ·) := List.pairwise_insertionSort _ _
theorem sorted_perm (xs : List ℝ) : (sorted xs).Perm xs := List.perm_insertionSort _ _
@[simp] theorem sorted_length (xs : List ℝ) : (sorted xs).length = xs.length := List.length_insertionSort _ _
theorem sorted_unique {ys xs : List ℝ} (hp : ys.Perm xs) (hs : ys.Pairwise (· ≤ ·)) : sorted xs = ys :=
  List.Perm.eq_of_pairwise' (sorted_pairwise xs) hs ((sorted_perm xs).trans hp.symm)

theorem sorted_mono {xs : List ℝ} {i j : Nat} (hij : i ≤ j) (hj : j < xs.length) :
    (sorted xs).getD i 0 ≤ (sorted xs).getD j 0 := by
  have hj' : j < (sorted xs).length := by simpa using hj
  rw [List.getD_eq_getElem _ _ hj', List.getD_eq_getElem _ _ (hij.trans_lt hj')]
  rcases Nat.lt_or_ge i j with h | h
  · exact List.pairwise_iff_getElem.1 (sorted_pairwise xs) i j _ hj' h
  · obtain rfl : i = j := by omega
    exact le_refl _

theorem quantile_between {xs : List ℝ} {q : ℝ} (h0 : 0 ≤ q) (h1 : q ≤ 1) (hx : xs ≠ []) :
    (sorted xs).getD ⌊q * (xs.length - 1)⌋₊ 0 ≤ quantile q xs
      ∧ quantile q xs ≤ (sorted xs).getD ⌈q * (xs.length - 1)⌉₊ 0 := by
  have hn : 1 ≤ xs.length := List.length_pos_iff.2 hx
  have hn' : (0 : ℝ) ≤ (xs.length : ℝ) - 1 := by
    have : (1 : ℝ) ≤ xs.length := by exact_mod_cast hn
    linarith
  set r : ℝ := q * (xs.length - 1) with hr
  have hr0 : 0 ≤ r := mul_nonneg h0 hn'
  have hr1 : r ≤ ((xs.length - 1 : Nat) : ℝ) := by
    push_cast [hn]
    calc r = q * (xs.length - 1) := hr
      _ ≤ 1 * (xs.length - 1) := mul_le_mul_of_nonneg_right h1 hn'
      _ = _ := one_mul _
  have hc : ⌈r⌉₊ < xs.length := by
    have := Nat.ceil_le.2 hr1; omega
  have hm := sorted_mono (xs := xs) (Nat.floor_le_ceil r) hc
  have hf := Nat.floor_le hr0
  have hf1 : r - ⌊r⌋₊ ≤ 1 := by have := Nat.lt_floor_add_one r; linarith
  have e : quantile q xs = (sorted xs).getD ⌊r⌋₊ 0
      + (r - ⌊r⌋₊) * ((sorted xs).getD ⌈r⌉₊ 0 - (sorted xs).getD ⌊r⌋₊ 0) := rfl
  rw [e]
  constructor
  · have := mul_nonneg (sub_nonneg.2 hf) (sub_nonneg.2 hm); linarith
  · have := mul_le_mul_of_nonneg_right hf1 (sub_nonneg.2 hm); linarith

/-- The quantile function of a sample is monotone. -/
theorem quantile_mono {xs : List ℝ} {q q' : ℝ} (h0 : 0 ≤ q) (hq : q ≤ q') (h1 : q' ≤ 1) (hx : xs ≠ []) :
    quantile q xs ≤ quantile q' xs := by
  have hn : 1 ≤ xs.length := List.length_pos_iff.2 hx
  have hn' : (0 : ℝ) ≤ (xs.length : ℝ) - 1 := by
    have : (1 : ℝ) ≤ xs.length := by exact_mod_cast hn
    linarith
  have b := quantile_between h0 (hq.trans h1) hx
  have b' := quantile_between (h0.trans hq) h1 hx
  have hrr : q * (xs.length - 1) ≤ q' * (xs.length - 1) := mul_le_mul_of_nonneg_right hq hn'
  have hr0 : 0 ≤ q * ((xs.length : ℝ) - 1) := mul_nonneg h0 hn'
  have hlast : q' * (xs.length - 1) ≤ ((xs.length - 1 : Nat) : ℝ) := by
    push_cast [hn]
    calc q' * ((xs.length : ℝ) - 1) ≤ 1 * (xs.length - 1) := mul_le_mul_of_nonneg_right h1 hn'
      _ = _ := one_mul _
  have e : quantile q xs = (sorted xs).getD ⌊q * ((xs.length : ℝ) - 1)⌋₊ 0
      + (q * ((xs.length : ℝ) - 1) - ⌊q * ((xs.length : ℝ) - 1)⌋₊) * ((sorted xs).getD ⌈q * ((xs.length : ℝ) - 1)⌉₊ 0 - (sorted xs).getD ⌊q * ((xs.length : ℝ) - 1)⌋₊ 0) := rfl
  have e' : quantile q' xs = (sorted xs).getD ⌊q' * ((xs.length : ℝ) - 1)⌋₊ 0
      + (q' * ((xs.length : ℝ) - 1) - ⌊q' * ((xs.length : ℝ) - 1)⌋₊) * ((sorted xs).getD ⌈q' * ((xs.length : ℝ) - 1)⌉₊ 0 - (sorted xs).getD ⌊q' * ((xs.length : ℝ) - 1)⌋₊ 0) := rfl
  generalize q * ((xs.length : ℝ) - 1) = r at *
  generalize q' * ((xs.length : ℝ) - 1) = r' at *
  have hr'0 : 0 ≤ r' := hr0.trans hrr
  have hc' : ⌈r'⌉₊ < xs.length := by have := Nat.ceil_le.2 hlast; omega
  by_cases hfl : ⌊r⌋₊ = ⌊r'⌋₊
  · by_cases hint : r = ⌊r⌋₊
    · -- r is an integer
      have : ⌈r⌉₊ = ⌊r⌋₊ := by rw [hint]; simp
      rw [this] at b
      rw [hfl] at b
      exact b.2.trans b'.1
    · have hlt : (⌊r⌋₊ : ℝ) < r := lt_of_le_of_ne (Nat.floor_le hr0) (Ne.symm hint)
      have hceil : ⌈r⌉₊ = ⌊r⌋₊ + 1 := by
        apply le_antisymm
        · exact Nat.ceil_le.2 (by push_cast; exact (Nat.lt_floor_add_one r).le)
        · exact Nat.lt_ceil.2 hlt
      have hceil' : ⌈r'⌉₊ = ⌊r⌋₊ + 1 := by
        apply le_antisymm
        · rw [hfl]; exact Nat.ceil_le.2 (by push_cast; exact (Nat.lt_floor_add_one r').le)
        · exact Nat.lt_ceil.2 (hlt.trans_le hrr)
      rw [e, e', hceil, hceil', ← hfl]
      have hm := sorted_mono (xs := xs) (show ⌊r⌋₊ ≤ ⌊r⌋₊ + 1 by omega) (by omega)
      have := mul_le_mul_of_nonneg_right (show r - ⌊r⌋₊ ≤ r' - ⌊r⌋₊ by linarith) (sub_nonneg.2 hm)
      linarith
  · have hlt : ⌊r⌋₊ < ⌊r'⌋₊ := lt_of_le_of_ne (Nat.floor_mono hrr) hfl
    have hcf : ⌈r⌉₊ ≤ ⌊r'⌋₊ := by
      apply Nat.ceil_le.2
      have := Nat.lt_floor_add_one r
      have h2 : ((⌊r⌋₊ + 1 : Nat) : ℝ) ≤ ⌊r'⌋₊ := by exact_mod_cast hlt
      push_cast at h2
      linarith
    exact b.2.trans ((sorted_mono hcf (by have := Nat.floor_le_ceil r'; omega)).trans b'.1)

end Verif.Spec

namespace Verif.PSquare
open Scalar Exact

variable {w : Nat} {ε : ℝ}

/-! ### The predictions -/

/-- Parabolic prediction over the reals. -/
noncomputable def paraR (sign f b hp hc hn : ℝ) : ℝ :=
  hc + sign / (f + b) * ((b + sign) * ((hn - hc) / f) + (f - sign) * ((hc - hp) / b))

theorem para_exact {sign : Int} {f b : Nat} (hf : 1 ≤ f) (hb : 1 ≤ b) (hs : sign = 1 ∨ sign = -1) (hp hc hn : ℝ) :
    (para sign f b (X.fin hp) (X.fin hc) (X.fin hn) : E ε) = X.fin (paraR sign f b hp hc hn) := by
  have hf' : (f : ℝ) ≠ 0 := by exact_mod_cast (by omega : f ≠ 0)
  have hb' : (b : ℝ) ≠ 0 := by exact_mod_cast (by omega : b ≠ 0)
  have hfb' : ((f + b : Nat) : ℝ) ≠ 0 := by exact_mod_cast (by omega : f + b ≠ 0)
  unfold para paraR
  simp only [Exact.ofNat_eq, Exact.ofInt_eq, Exact.sub_fin]
  rw [Exact.div_fin _ hf', Exact.div_fin _ hb', Exact.div_fin _ hfb']
  simp only [Exact.mul_fin, Exact.add_fin]
  have e1 : ((((b : Int) + sign).toNat : Nat) : ℝ) = (b : ℝ) + sign := by
    have : ((((b : Int) + sign).toNat : Nat) : Int) = (b : Int) + sign := Int.toNat_of_nonneg (by rcases hs with h | h <;> omega)
    exact_mod_cast this
  have e2 : ((((f : Int) - sign).toNat : Nat) : ℝ) = (f : ℝ) - sign := by
    have : ((((f : Int) - sign).toNat : Nat) : Int) = (f : Int) - sign := Int.toNat_of_nonneg (by rcases hs with h | h <;> omega)
    exact_mod_cast this
  rw [e1, e2]
  push_cast
  rfl

theorem lin_up_exact {f b : Nat} (hf : 1 ≤ f) (hp hc hn : ℝ) :
    (lin w 1 f b (X.fin hp) (X.fin hc) (X.fin hn) : E ε) = X.fin (hc + (hn - hc) / f) := by
  have hf' : (f : ℝ) ≠ 0 := by exact_mod_cast (by omega : f ≠ 0)
  unfold lin
  rw [if_pos rfl]
  simp only [Exact.ofNat_eq, Exact.ofInt_eq, Exact.sub_fin]
  rw [Exact.div_fin _ hf']
  simp

theorem lin_down_exact {f b : Nat} (hb : b < 2 ^ w) (hp hc hn : ℝ) :
    (lin w (-1) f b (X.fin hp) (X.fin hc) (X.fin hn) : E ε) = X.fin (hc + (hc - hp) / ((2 ^ w - b : Nat) : ℝ)) := by
  have hb' : ((2 ^ w - b : Nat) : ℝ) ≠ 0 := by exact_mod_cast (by omega : 2 ^ w - b ≠ 0)
  unfold lin
  rw [if_neg (by decide)]
  simp only [Exact.ofNat_eq, Exact.ofInt_eq, Exact.sub_fin]
  rw [Exact.div_fin _ hb', Exact.mul_fin, Exact.add_fin]
  congr 1
  push_cast
  ring

/-- If the parabolic prediction for a move down is at or below the previous height, the next height is at
least as far away as the previous one. -/
theorem para_down_reject {f b hp hc hn : ℝ} (hf : 1 ≤ f) (hb : 2 ≤ b) (h1 : hp ≤ hc)
    (hr : paraR (-1) f b hp hc hn ≤ hp) : hc - hp ≤ hn - hc := by
  unfold paraR at hr
  have hf0 : (0 : ℝ) < f := by linarith
  have hb0 : (0 : ℝ) < b := by linarith
  have hfb : (0 : ℝ) < f + b := by linarith
  have key : (hc - hp) * (f * b * (f + b)) ≤ (b - 1) * (hn - hc) * b + (f + 1) * (hc - hp) * f := by
    have h2 : hc - hp ≤ 1 / (f + b) * ((b - 1) * ((hn - hc) / f) + (f + 1) * ((hc - hp) / b)) := by
      have e : -1 / (f + b) * ((b + -1) * ((hn - hc) / f) + (f - -1) * ((hc - hp) / b))
          = -(1 / (f + b) * ((b - 1) * ((hn - hc) / f) + (f + 1) * ((hc - hp) / b))) := by ring
      rw [e] at hr; linarith
    have h3 := mul_le_mul_of_nonneg_right h2 (show 0 ≤ f * b * (f + b) by positivity)
    refine h3.trans (le_of_eq ?_)
    field_simp
  -- (b-1) b (hn-hc) ≥ (hc-hp) f (b-1) (f+b+1)
  have k2 : (b - 1) * ((hc - hp) * (f * (f + b + 1))) ≤ (b - 1) * ((hn - hc) * b) := by nlinarith
  have k3 : (hc - hp) * (f * (f + b + 1)) ≤ (hn - hc) * b := le_of_mul_le_mul_left k2 (by linarith)
  have k4 : (hc - hp) * b ≤ (hc - hp) * (f * (f + b + 1)) :=
    mul_le_mul_of_nonneg_left (by nlinarith) (by linarith)
  exact le_of_mul_le_mul_right (k4.trans k3) hb0

theorem para_down_le {f b hp hc hn : ℝ} (hf : 1 ≤ f) (hb : 2 ≤ b) (h1 : hp ≤ hc) (h2 : hc ≤ hn) :
    paraR (-1) f b hp hc hn ≤ hc := by
  unfold paraR
  have hf0 : (0 : ℝ) < f := by linarith
  have hb0 : (0 : ℝ) < b := by linarith
  have : 0 ≤ 1 / (f + b) * ((b - 1) * ((hn - hc) / f) + (f + 1) * ((hc - hp) / b)) := by
    apply mul_nonneg (by positivity)
    apply add_nonneg
    · exact mul_nonneg (by linarith) (div_nonneg (by linarith) hf0.le)
    · exact mul_nonneg (by linarith) (div_nonneg (by linarith) hb0.le)
  have e : -1 / (f + b) * ((b + -1) * ((hn - hc) / f) + (f - -1) * ((hc - hp) / b))
      = -(1 / (f + b) * ((b - 1) * ((hn - hc) / f) + (f + 1) * ((hc - hp) / b))) := by ring
  rw [e]; linarith

/-- The new height lies between the neighbours, although the fallback for a move down is wrong. -/
theorem predict_between {sign : Int} {f b : Nat} (hf : 1 ≤ f) (hb : 1 ≤ b) (hbw : b < 2 ^ w)
    (hs : (sign = 1 ∧ 1 < f) ∨ (sign = -1 ∧ 1 < b)) {hp hc hn : ℝ} (h1 : hp ≤ hc) (h2 : hc ≤ hn) :
    ∃ v, (predict w sign f b (X.fin hp) (X.fin hc) (X.fin hn) : E ε) = X.fin v ∧ hp ≤ v ∧ v ≤ hn := by
  have hs' : sign = 1 ∨ sign = -1 := by rcases hs with h | h <;> simp [h.1]
  unfold predict
  rw [para_exact hf hb hs', Exact.lt_fin, Exact.lt_fin]
  by_cases hc1 : hp < paraR sign f b hp hc hn ∧ paraR sign f b hp hc hn < hn
  · rw [if_pos (by simp [hc1])]
    exact ⟨_, rfl, hc1.1.le, hc1.2.le⟩
  · rw [if_neg (by simpa using hc1)]
    rcases hs with ⟨rfl, hf2⟩ | ⟨rfl, hb2⟩
    · rw [lin_up_exact hf]
      have hf0 : (0 : ℝ) < f := by exact_mod_cast (by omega : 0 < f)
      have hf1 : (1 : ℝ) ≤ f := by exact_mod_cast hf
      refine ⟨_, rfl, ?_, ?_⟩
      · have := div_nonneg (sub_nonneg.2 h2) hf0.le; linarith
      · have := div_le_self (sub_nonneg.2 h2) hf1; linarith
    · rw [lin_down_exact hbw]
      have hd1 : (1 : ℝ) ≤ ((2 ^ w - b : Nat) : ℝ) := by exact_mod_cast (by omega : 1 ≤ 2 ^ w - b)
      have hnn := div_nonneg (sub_nonneg.2 h1) (zero_le_one.trans hd1)
      have hle := div_le_self (sub_nonneg.2 h1) hd1
      have hfr : (1 : ℝ) ≤ f := by exact_mod_cast hf
      have hbr : (2 : ℝ) ≤ b := by exact_mod_cast hb2
      refine ⟨_, rfl, by linarith, ?_⟩
      have hcast : (((-1 : Int)) : ℝ) = -1 := by norm_num
      rw [hcast] at hc1
      have hrej : paraR (-1) f b hp hc hn ≤ hp ∨ (hc = hn) := by
        by_contra hcon
        push Not at hcon
        apply hc1
        refine ⟨hcon.1, ?_⟩
        exact (para_down_le hfr hbr h1 h2).trans_lt (lt_of_le_of_ne h2 hcon.2)
      rcases hrej with hrej | hrej
      · have := para_down_reject hfr hbr h1 hrej; linarith
      · -- hc = hn; then the prediction is at most hp or below hn
        by_cases hlow : paraR (-1) f b hp hc hn ≤ hp
        · have := para_down_reject hfr hbr h1 hlow; linarith
        · -- paraR is not below hn = hc, so it equals hc, so hc = hp
          have hge : hn ≤ paraR (-1) f b hp hc hn := by
            by_contra hh
            exact hc1 ⟨not_le.1 hlow, not_le.1 hh⟩
          have hz : hc - hp ≤ 0 := by
            have hb0 : (0 : ℝ) < b := by linarith
            have hf0 : (0 : ℝ) < f := by linarith
            unfold paraR at hge
            rw [← hrej] at hge
            have e : hc + -1 / ((f : ℝ) + b) * ((b + -1) * ((hc - hc) / f) + (f - -1) * ((hc - hp) / b))
                = hc - (hc - hp) * (((f : ℝ) + 1) / (((f : ℝ) + b) * b)) := by
              field_simp; ring
            rw [e] at hge
            have hpos : (0 : ℝ) < ((f : ℝ) + 1) / (((f : ℝ) + b) * b) := by positivity
            by_contra hh
            have := mul_pos (not_le.1 hh) hpos
            linarith
          linarith

/-! ### Insertion into the sorted sample -/

section insert
variable {α : Type} [Scalar α]

theorem insertAt_split (x : α) (ys : List α) : ∀ (z : α) (rest : List α),
    ∃ a b, ys = a ++ b ∧ PSquare.insertAt x ys.length (ys ++ z :: rest) = some (a ++ x :: b ++ rest)
      ∧ (∀ y ∈ b, lt x y = true) ∧ (∀ y, a.getLast? = some y → lt x y = false) := by
  induction ys using List.reverseRecOn with
  | nil => intro z rest; exact ⟨[], [], rfl, by simp [PSquare.insertAt], by simp, by simp⟩
  | append_singleton ys y ih =>
    intro z rest
    rw [List.length_append, List.length_singleton]
    unfold PSquare.insertAt
    have e1 : ((ys ++ [y]) ++ z :: rest)[ys.length]? = some y := by simp
    rw [e1]
    dsimp only
    have hlt : ys.length + 1 < (ys ++ [y] ++ z :: rest).length := by simp
    simp only [if_pos hlt]
    have e2 : ∀ v : α, ((ys ++ [y]) ++ z :: rest).set (ys.length + 1) v = ys ++ y :: v :: rest := by
      intro v; simp
    simp only [e2]
    split_ifs with c
    · obtain ⟨a, b, h1, h2, h3, h4⟩ := ih y (y :: rest)
      refine ⟨a, b ++ [y], by rw [h1, List.append_assoc], ?_, ?_, h4⟩
      · rw [h2]; simp
      · intro v hv
        rcases List.mem_append.1 hv with hv | hv
        · exact h3 v hv
        · rw [List.mem_singleton.1 hv]; exact c
    · refine ⟨ys ++ [y], [], by simp, by simp, by simp, ?_⟩
      intro v hv
      simp at hv
      subst hv
      simpa using c

end insert

/-- Inserting into the sorted sample gives the sorted sample. -/
theorem insertAt_sorted (x : ℝ) (xs : List ℝ) (z : E ε) (rest : List (E ε)) :
    PSquare.insertAt (X.fin x) xs.length ((Spec.sorted xs).map X.fin ++ z :: rest)
      = some ((Spec.sorted (xs ++ [x])).map X.fin ++ rest) := by
  obtain ⟨a, b, h1, h2, h3, h4⟩ := insertAt_split (X.fin x : E ε) ((Spec.sorted xs).map X.fin) z rest
  rw [List.length_map, Spec.sorted_length] at h2
  rw [h2]
  obtain ⟨a', b', hab, rfl, rfl⟩ := List.map_eq_append_iff.1 h1
  have hsrt := Spec.sorted_pairwise xs
  have : Spec.sorted (xs ++ [x]) = a' ++ x :: b' := by
    apply Spec.sorted_unique
    · refine List.perm_middle.trans ?_
      rw [← hab]
      exact ((Spec.sorted_perm xs).cons x).trans (List.perm_append_comm (l₁ := [x]))
    · rw [hab, List.pairwise_append] at hsrt
      obtain ⟨s1, s2, s3⟩ := hsrt
      have hb : ∀ y ∈ b', x < y := by
        intro y hy
        have := h3 (X.fin y) (List.mem_map_of_mem hy)
        simpa using this
      have ha : ∀ y ∈ a', y ≤ x := by
        intro y hy
        have hne : a' ≠ [] := List.ne_nil_of_mem hy
        have hl := h4 (X.fin (a'.getLast hne)) (by rw [List.getLast?_map, List.getLast?_eq_some_getLast hne]; rfl)
        have hl' : a'.getLast hne ≤ x := by simpa using hl
        refine le_trans ?_ hl'
        rcases List.mem_iff_getElem.1 hy with ⟨i, hi, rfl⟩
        rw [List.getLast_eq_getElem]
        rcases Nat.lt_or_ge i (a'.length - 1) with hlt | hge
        · exact List.pairwise_iff_getElem.1 s1 i _ hi (by omega) hlt
        · have : i = a'.length - 1 := by omega
          subst this; exact le_refl _
      rw [List.pairwise_append]
      refine ⟨s1, List.pairwise_cons.2 ⟨fun y hy => (hb y hy).le, s2⟩, ?_⟩
      intro u hu v hv
      rcases List.mem_cons.1 hv with rfl | hv
      · exact ha u hu
      · exact (ha u hu).trans (hb v hv).le
  rw [this]
  simp

/-! ### The invariant -/

/-- The quantile of marker `i`, over the reals. -/
noncomputable def markerR (qs : List ℝ) (i : Nat) : ℝ :=
  if i % 2 = 0 then (0 :: qs ++ [1]).getD (i / 2) 0
  else ((0 :: qs ++ [1]).getD (i / 2) 0 + (0 :: qs ++ [1]).getD (i / 2 + 1) 0) / 2

theorem markerQuantile_exact (qs : List ℝ) (i : Nat) :
    markerQuantile (qs.map X.fin : List (E ε)) i = X.fin (markerR qs i) := by
  have node : ∀ j : Nat, (((ofNat 0 : E ε) :: qs.map X.fin ++ [ofNat 1])[j]?).getD (ofNat 0)
      = X.fin ((0 :: qs ++ [1]).getD j 0) := by
    intro j
    have e : ((ofNat 0 : E ε) :: qs.map X.fin ++ [ofNat 1]) = (0 :: qs ++ [1]).map X.fin := by
      simp [Exact.ofNat_eq]
    rw [e, List.getElem?_map, List.getD_eq_getElem?_getD]
    cases (0 :: qs ++ [1])[j]? <;> simp [Exact.ofNat_eq]
  unfold markerQuantile markerR
  dsimp only
  rw [node, node]
  split_ifs
  · rfl
  · rw [Exact.add_fin, Exact.ofNat_eq, Exact.div_fin _ (by norm_num)]
    norm_num

/-- State after pushing `xs`. -/
structure InvE (qs xs : List ℝ) (s : PSquare w (E ε)) (p : Nat → Nat) (r : Nat → ℝ) : Prop where
  rep : Rep (paramLength qs.length) s p (fun i => X.fin (r i))
    (fun i => X.fin (1 + (max (xs.length : ℝ) (paramLength qs.length) - 1) * markerR qs i))
    (fun i => X.fin (markerR qs i))
  mono : Mono w (paramLength qs.length) p
  count : s.count = BitVec.ofNat w xs.length
  qs_eq : s.qs = qs.map X.fin
  first : p 0 = 1
  last : p (paramLength qs.length - 1) = max xs.length (paramLength qs.length)
  few : xs.length ≤ paramLength qs.length →
    s.heights = (Spec.sorted xs).map X.fin ++ List.replicate (paramLength qs.length - xs.length) (X.fin 0)
  many : paramLength qs.length ≤ xs.length → (∀ i, i + 1 < paramLength qs.length → r i ≤ r (i + 1))
    ∧ IsLeast {x | x ∈ xs} (r 0) ∧ IsGreatest {x | x ∈ xs} (r (paramLength qs.length - 1))

theorem paramLength_cast (n : Nat) : ((paramLength n : Nat) : ℝ) = 2 * (n + 1) + 1 := by
  unfold paramLength; push_cast; ring

theorem init_invE (qs : List ℝ) (hL : paramLength qs.length < 2 ^ w) :
    InvE qs [] (PSquare.initState (qs.map X.fin) : PSquare w (E ε)) (fun i => i + 1) (fun _ => 0) := by
  have hr := init_rep (w := w) (qs.map X.fin : List (E ε))
  rw [List.length_map] at hr
  refine ⟨?_, init_mono (by unfold paramLength; omega) hL, rfl, rfl, rfl, ?_, ?_, ?_⟩
  · have e1 : (fun i => X.fin (markerR qs i) : Nat → E ε) = markerQuantile (qs.map X.fin) := by
      funext i; rw [markerQuantile_exact]
    have e2 : (fun i => X.fin (1 + (max (([] : List ℝ).length : ℝ) (paramLength qs.length) - 1) * markerR qs i) : Nat → E ε)
        = fun i => ofNat 1 + ofNat (2 * (qs.length + 1)) * markerQuantile (qs.map X.fin) i := by
      funext i
      rw [markerQuantile_exact, Exact.ofNat_eq, Exact.ofNat_eq, Exact.mul_fin, Exact.add_fin]
      congr 1
      rw [max_eq_right (by simp), paramLength_cast]
      push_cast; ring
    have e3 : (fun _ => X.fin 0 : Nat → E ε) = fun _ => ofNat 0 := by funext i; simp [Exact.ofNat_eq]
    rw [e1, e2, e3]
    exact hr
  · show paramLength qs.length - 1 + 1 = _
    unfold paramLength
    simp
  · intro _
    have : Spec.sorted [] = [] := rfl
    rw [this]
    simp [PSquare.initState, Exact.ofNat_eq]
  · intro h
    exfalso
    unfold paramLength at h
    simp at h

theorem sorted_least {xs : List ℝ} (h : 0 < xs.length) : IsLeast {x | x ∈ xs} ((Spec.sorted xs).getD 0 0) := by
  have hl : 0 < (Spec.sorted xs).length := by simpa using h
  constructor
  · rw [List.getD_eq_getElem _ _ hl]
    exact (Spec.sorted_perm xs).mem_iff.1 (List.getElem_mem hl)
  · intro y hy
    have hy' : y ∈ Spec.sorted xs := (Spec.sorted_perm xs).mem_iff.2 hy
    obtain ⟨i, hi, rfl⟩ := List.mem_iff_getElem.1 hy'
    rw [← List.getD_eq_getElem _ 0 hi]
    exact Spec.sorted_mono (by omega) (by simpa using hi)

theorem sorted_greatest {xs : List ℝ} (h : 0 < xs.length) :
    IsGreatest {x | x ∈ xs} ((Spec.sorted xs).getD (xs.length - 1) 0) := by
  have hl : xs.length - 1 < (Spec.sorted xs).length := by rw [Spec.sorted_length]; omega
  constructor
  · rw [List.getD_eq_getElem _ _ hl]
    exact (Spec.sorted_perm xs).mem_iff.1 (List.getElem_mem hl)
  · intro y hy
    have hy' : y ∈ Spec.sorted xs := (Spec.sorted_perm xs).mem_iff.2 hy
    obtain ⟨i, hi, rfl⟩ := List.mem_iff_getElem.1 hy'
    rw [← List.getD_eq_getElem _ 0 hi]
    rw [Spec.sorted_length] at hi
    exact Spec.sorted_mono (by omega) (by omega)

/-- Pushing while the sample is not complete. -/
theorem push_few_exact {qs xs : List ℝ} {s : PSquare w (E ε)} {p : Nat → Nat} {r : Nat → ℝ}
    (hL : paramLength qs.length < 2 ^ w) (hi : InvE qs xs s p r) (hn : xs.length < paramLength qs.length) (x : ℝ) :
    ∃ s' r', s.push (X.fin x) = some s' ∧ InvE qs (xs ++ [x]) s' p r' := by
  obtain ⟨s', h', h1, h2, h3, h4, h5⟩ := push_few hn hL hi.rep hi.count (X.fin x)
  have hh : s'.heights = (Spec.sorted (xs ++ [x])).map X.fin
      ++ List.replicate (paramLength qs.length - (xs ++ [x]).length) (X.fin 0) := by
    have hrep : List.replicate (paramLength qs.length - xs.length) (X.fin 0 : E ε)
        = X.fin 0 :: List.replicate (paramLength qs.length - (xs ++ [x]).length) (X.fin 0) := by
      rw [List.length_append, List.length_singleton, ← List.replicate_succ]
      congr 1; omega
    rw [hi.few hn.le, hrep, insertAt_sorted] at h5
    exact (Option.some.inj h5).symm
  have hmaxN : max (xs ++ [x]).length (paramLength qs.length) = max xs.length (paramLength qs.length) := by
    rw [List.length_append, List.length_singleton]; omega
  have hmaxR : max ((xs ++ [x]).length : ℝ) (paramLength qs.length) = max (xs.length : ℝ) (paramLength qs.length) := by
    exact_mod_cast congrArg (Nat.cast (R := ℝ)) hmaxN
  have hget : ∀ i, i < paramLength qs.length → s'.heights[i]? = some (X.fin ((Spec.sorted (xs ++ [x])).getD i 0)) := by
    intro i hi'
    rw [hh]
    by_cases c : i < (xs ++ [x]).length
    · have hc2 : i < (Spec.sorted (xs ++ [x])).length := by simpa using c
      rw [List.getElem?_append_left (by simpa using c), List.getElem?_map, List.getElem?_eq_getElem hc2,
        List.getD_eq_getElem _ _ hc2]
      rfl
    · rw [List.getElem?_append_right (by simpa using c), List.getElem?_replicate]
      have hlen : ((Spec.sorted (xs ++ [x])).map (X.fin (F := Fmt.exact ε))).length = (xs ++ [x]).length := by simp
      rw [hlen, if_pos (by omega), List.getD_eq_default _ _ (by rw [Spec.sorted_length]; omega)]
  refine ⟨s', fun i => (Spec.sorted (xs ++ [x])).getD i 0, h1, ?_, hi.mono, ?_, h3.trans hi.qs_eq, hi.first, ?_, ?_, ?_⟩
  · rw [hmaxR]
    exact ⟨h4.len_eq, h4.pos_len, h4.pos, h4.ht_len, hget, h4.des_len, h4.des, h4.del_len, h4.del⟩
  · rw [h2, List.length_append, List.length_singleton]
  · rw [hmaxN]; exact hi.last
  · intro _; exact hh
  · intro hle
    have hlen : (xs ++ [x]).length = paramLength qs.length := by
      have : (xs ++ [x]).length = xs.length + 1 := by simp
      omega
    refine ⟨fun i hi' => Spec.sorted_mono (by omega) (by omega), ?_, ?_⟩
    · exact sorted_least (by simp)
    · rw [← hlen]; exact sorted_greatest (by simp)

theorem least_snoc {xs : List ℝ} {m x : ℝ} (h : IsLeast {y | y ∈ xs} m) :
    IsLeast {y | y ∈ xs ++ [x]} (if x < m then x else m) := by
  obtain ⟨h1, h2⟩ := h
  split_ifs with c
  · refine ⟨by simp, ?_⟩
    intro y hy
    rcases List.mem_append.1 hy with hy | hy
    · exact c.le.trans (h2 hy)
    · rw [List.mem_singleton.1 hy]
  · refine ⟨List.mem_append_left _ h1, ?_⟩
    intro y hy
    rcases List.mem_append.1 hy with hy | hy
    · exact h2 hy
    · rw [List.mem_singleton.1 hy]; exact not_lt.1 c

theorem greatest_snoc {xs : List ℝ} {m x : ℝ} (h : IsGreatest {y | y ∈ xs} m) :
    IsGreatest {y | y ∈ xs ++ [x]} (if m ≤ x then x else m) := by
  obtain ⟨h1, h2⟩ := h
  split_ifs with c
  · refine ⟨by simp, ?_⟩
    intro y hy
    rcases List.mem_append.1 hy with hy | hy
    · exact (h2 hy).trans c
    · rw [List.mem_singleton.1 hy]
  · refine ⟨List.mem_append_left _ h1, ?_⟩
    intro y hy
    rcases List.mem_append.1 hy with hy | hy
    · exact h2 hy
    · rw [List.mem_singleton.1 hy]; exact (not_le.1 c).le

/-- Heights are real numbers in ascending order. -/
def SortedH (L : Nat) (h : Nat → E ε) : Prop :=
  ∃ r : Nat → ℝ, (∀ i, i < L → h i = X.fin (r i)) ∧ ∀ i, i + 1 < L → r i ≤ r (i + 1)

theorem sortedH_step {L : Nat} {d : Nat → E ε} (p : Nat → Nat) (h : Nat → E ε) (i : Nat) (sign : Int)
    (hm : Mono w L p) (h1 : 1 ≤ i) (h2 : i + 1 < L) (hmv : Moves p d i sign) (hj : SortedH L h) :
    SortedH L (Function.update h i (predictAt w p h i sign)) := by
  obtain ⟨r, hr, hs⟩ := hj
  have m1 : p (i - 1) < p i := hm.lt (by omega) (by omega)
  have m2 : p i < p (i + 1) := hm.lt (by omega) (by omega)
  have m3 : p (i + 1) < 2 ^ w := hm.bound h2
  have s1 : r (i - 1) ≤ r i := by
    have := hs (i - 1) (by omega)
    rwa [Nat.sub_add_cancel h1] at this
  obtain ⟨v, hv, hv1, hv2⟩ := predict_between (ε := ε) (w := w) (sign := sign) (f := p (i + 1) - p i) (b := p i - p (i - 1))
    (by omega) (by omega) (by omega) hmv.2 s1 (hs i h2)
  have hp : predictAt w p h i sign = X.fin v := by
    rw [predictAt, hr (i - 1) (by omega), hr i (by omega), hr (i + 1) h2, hv]
  rw [hp]
  refine ⟨Function.update r i v, ?_, ?_⟩
  · intro j hj
    by_cases e : j = i
    · subst e; simp
    · rw [Function.update_of_ne e, Function.update_of_ne e, hr j hj]
  · intro j hj
    by_cases e : j = i
    · subst e
      rw [Function.update_self, Function.update_of_ne (by omega)]; exact hv2
    · rw [Function.update_of_ne e]
      by_cases e2 : j + 1 = i
      · subst e2
        rw [Function.update_self]
        simpa using hv1
      · rw [Function.update_of_ne e2]; exact hs j hj

theorem sorted_of_step {L : Nat} {r : Nat → ℝ} (hs : ∀ i, i + 1 < L → r i ≤ r (i + 1)) {i j : Nat} (hij : i ≤ j)
    (hj : j < L) : r i ≤ r j := by
  induction j with
  | zero => obtain rfl : i = 0 := by omega
            exact le_refl _
  | succ j ih =>
    rcases Nat.lt_or_ge i (j + 1) with h | h
    · exact (ih (by omega) (by omega)).trans (hs j hj)
    · obtain rfl : i = j + 1 := by omega
      exact le_refl _

/-- Pushing to a complete estimator.  `k` is the cell of the new value: it is not below marker `k - 1` and
below marker `k`, where markers 0 and `L - 1` have been extended to the new value. -/
theorem push_full_exact {qs xs : List ℝ} {s : PSquare w (E ε)} {p : Nat → Nat} {r : Nat → ℝ}
    (hn : xs.length + 1 < 2 ^ w) (hi : InvE qs xs s p r) (hf : paramLength qs.length ≤ xs.length) (x : ℝ) :
    ∃ s' p' r' k, s.push (X.fin x) = some s' ∧ InvE qs (xs ++ [x]) s' p' r' ∧ 1 ≤ k ∧ k + 1 ≤ paramLength qs.length
      ∧ (∀ i, 1 ≤ i → i < k → r i ≤ x) ∧ (∀ i, k ≤ i → i + 1 < paramLength qs.length → x < r i)
      ∧ ∀ j, (p' j = bumped k p j)
        ∨ (p' j = bumped k p j + 1 ∧ (bumped k p j : ℝ) < 1 + (xs.length : ℝ) * markerR qs j)
        ∨ (p' j + 1 = bumped k p j ∧ 1 + (xs.length : ℝ) * markerR qs j < (bumped k p j : ℝ)) := by
  set L := paramLength qs.length with hLdef
  have hL3 : 3 ≤ L := by rw [hLdef]; unfold paramLength; omega
  obtain ⟨hsort, hmin, hmax⟩ := hi.many hf
  obtain ⟨k, h1, hk, hcase, hpush⟩ := push_full hL3 hf hn hi.rep hi.mono (by rw [hi.last]; omega) hi.count (X.fin x)
  have hsum : (fun i => X.fin (1 + (max (xs.length : ℝ) L - 1) * markerR qs i) + X.fin (markerR qs i) : Nat → E ε)
      = fun i => X.fin (1 + (max ((xs ++ [x]).length : ℝ) L - 1) * markerR qs i) := by
    funext i
    rw [Exact.add_fin]
    congr 1
    have c1 : (L : ℝ) ≤ xs.length := by exact_mod_cast hf
    have c2 : ((xs ++ [x]).length : ℝ) = xs.length + 1 := by simp
    rw [c2, max_eq_left c1, max_eq_left (by linarith)]
    ring
  -- the cell
  have hcell : 1 ≤ k ∧ k + 1 ≤ L ∧ (∀ i, 1 ≤ i → i < k → r i ≤ x) ∧ (∀ i, k ≤ i → i + 1 < L → x < r i)
      ∧ SortedH L h1 ∧ h1 0 = X.fin (if x < r 0 then x else r 0)
      ∧ h1 (L - 1) = X.fin (if r (L - 1) ≤ x then x else r (L - 1)) := by
    simp only [Exact.lt_fin, Exact.le_fin, decide_eq_true_eq, decide_eq_false_iff_not] at hcase
    have hmm : r 0 ≤ r (L - 1) := sorted_of_step hsort (by omega) (by omega)
    rcases hcase with ⟨c, rfl, rfl⟩ | ⟨c1, c2, rfl, rfl⟩ | ⟨c1, c2, rfl, hub⟩
    · refine ⟨le_refl _, by omega, fun i _ _ => by omega, ?_, ?_, ?_, ?_⟩
      · intro i _ hi'
        exact c.trans_le (sorted_of_step hsort (by omega) (by omega))
      · refine ⟨Function.update r 0 x, ?_, ?_⟩
        · intro i _
          by_cases e : i = 0
          · subst e; simp
          · rw [Function.update_of_ne e, Function.update_of_ne e]
        · intro i hi'
          rw [Function.update_of_ne (show i + 1 ≠ 0 by omega)]
          by_cases e : i = 0
          · subst e; rw [Function.update_self]; exact c.le.trans (hsort 0 hi')
          · rw [Function.update_of_ne e]; exact hsort i hi'
      · rw [Function.update_self, if_pos c]
      · rw [Function.update_of_ne (by omega), if_neg (by linarith)]
    · refine ⟨by omega, by omega, ?_, fun i _ _ => by omega, ?_, ?_, ?_⟩
      · intro i _ hi'
        exact (sorted_of_step hsort (by omega) (by omega)).trans c2
      · refine ⟨Function.update r (L - 1) x, ?_, ?_⟩
        · intro i _
          by_cases e : i = L - 1
          · subst e; simp
          · rw [Function.update_of_ne e, Function.update_of_ne e]
        · intro i hi'
          rw [Function.update_of_ne (show i ≠ L - 1 by omega)]
          by_cases e : i + 1 = L - 1
          · rw [e, Function.update_self]
            exact (sorted_of_step hsort (by omega) (by omega)).trans c2
          · rw [Function.update_of_ne e]; exact hsort i hi'
      · rw [Function.update_of_ne (by omega), if_neg c1]
      · rw [Function.update_self, if_pos c2]
    · have hex : ∃ i, x < r i ∧ i < L := ⟨L - 1, not_le.1 c2, by omega⟩
      classical
      let m := Nat.find hex
      have hm : x < r m ∧ m < L := Nat.find_spec hex
      have hmlt : ∀ i, i < m → r i ≤ x := by
        intro i him
        by_contra hcon
        exact Nat.find_min hex him ⟨not_le.1 hcon, him.trans hm.2⟩
      have hpart : ∀ (i : Nat) (hi' : i < s.heights.length), lt (X.fin x : E ε) s.heights[i] = true ↔ m ≤ i := by
        intro i hi'
        have hiL : i < L := by rw [hi.rep.ht_len] at hi'; exact hi'
        have e : s.heights[i] = X.fin (r i) := by
          have := hi.rep.ht i hiL
          rw [List.getElem?_eq_getElem hi'] at this
          exact Option.some.inj this
        rw [e, Exact.lt_fin, decide_eq_true_eq]
        constructor
        · intro hlt
          by_contra hcon
          exact absurd (hmlt i (by omega)) (not_le.2 hlt)
        · intro hle
          exact hm.1.trans_le (sorted_of_step hsort hle hiL)
      have hmk := upperBound_partition s.heights (X.fin x : E ε) hpart s.heights.length 0 s.heights.length (le_refl _)
        (by omega) (by omega) (by rw [hi.rep.ht_len]; omega)
      rw [hmk] at hub
      obtain rfl : m = k := Option.some.inj hub
      have hm1 : 1 ≤ m := by
        by_contra hcon
        have hm0 : m = 0 := by omega
        rw [hm0] at hm
        exact c1 hm.1
      refine ⟨hm1, by omega, fun i _ h => hmlt i h, fun i h1 h2 => hm.1.trans_le (sorted_of_step hsort h1 (by omega)),
        ⟨r, fun i _ => rfl, hsort⟩, by rw [if_neg c1], by rw [if_neg c2]⟩
  obtain ⟨hk1, hk2, hlow, hhigh, hJ, hh0, hhL⟩ := hcell
  obtain ⟨s', p', h', e1, e2, e3, e4, e5, -, e7, e8, e9, e10, e11, e12⟩ := hpush (SortedH L) hJ
    (fun p h i sign a _ b c d e => sortedH_step p h i sign a b c d e)
  obtain ⟨r', hr', hs'⟩ := e7
  rw [hsum] at e4
  have hr0 : r' 0 = if x < r 0 then x else r 0 := by
    have := (hr' 0 (by omega)).symm.trans (e11.trans hh0)
    exact X.fin_inj.1 this
  have hrL : r' (L - 1) = if r (L - 1) ≤ x then x else r (L - 1) := by
    have := (hr' (L - 1) (by omega)).symm.trans (e12.trans hhL)
    exact X.fin_inj.1 this
  refine ⟨s', p', r', k, e1, ?_, hk1, hk2, hlow, hhigh, ?_⟩
  · refine ⟨?_, e5, ?_, e3.trans hi.qs_eq, ?_, ?_, ?_, ?_⟩
    · exact ⟨e4.len_eq, e4.pos_len, e4.pos, e4.ht_len, fun i hi' => by rw [e4.ht i hi', hr' i hi'], e4.des_len, e4.des,
        e4.del_len, e4.del⟩
    · rw [e2, List.length_append, List.length_singleton]
    · rw [e9, bumped, if_neg (by omega), hi.first]
    · rw [e10, bumped, if_pos (by omega), hi.last, List.length_append, List.length_singleton, ← hLdef]
      omega
    · intro hle
      rw [List.length_append, List.length_singleton] at hle
      omega
    · intro _
      refine ⟨hs', ?_, ?_⟩
      · rw [hr0]; exact least_snoc hmin
      · rw [hrL]; exact greatest_snoc hmax
  · intro j
    have c1 : (L : ℝ) ≤ xs.length := by exact_mod_cast hf
    have c2 : ((xs ++ [x]).length : ℝ) = xs.length + 1 := by simp
    have hdes : ∀ i, (1 + (max ((xs ++ [x]).length : ℝ) L - 1) * markerR qs i) = 1 + xs.length * markerR qs i := by
      intro i
      rw [c2, max_eq_left (by linarith)]; ring
    have ht := e8 j
    rw [hsum] at ht
    unfold Towards at ht
    simp only [hdes, Exact.ofNat_eq, Exact.sub_fin, Exact.lt_fin, decide_eq_true_eq, Nat.cast_zero, sub_pos, sub_neg] at ht
    exact ht

/-- Every push. -/
theorem push_exact {qs xs : List ℝ} {s : PSquare w (E ε)} {p : Nat → Nat} {r : Nat → ℝ}
    (hL : paramLength qs.length < 2 ^ w) (hn : xs.length + 1 < 2 ^ w) (hi : InvE qs xs s p r) (x : ℝ) :
    ∃ s' p' r', s.push (X.fin x) = some s' ∧ InvE qs (xs ++ [x]) s' p' r' := by
  rcases Nat.lt_or_ge xs.length (paramLength qs.length) with h | h
  · obtain ⟨s', r', h1, h2⟩ := push_few_exact hL hi h x
    exact ⟨s', p, r', h1, h2⟩
  · obtain ⟨s', p', r', k, h1, h2, -⟩ := push_full_exact hn hi h x
    exact ⟨s', p', r', h1, h2⟩

theorem pushes_exact (qs : List ℝ) (hL : paramLength qs.length < 2 ^ w) (xs : List ℝ) (hn : xs.length < 2 ^ w) :
    ∃ s p r, pushes w (qs.map X.fin : List (E ε)) (xs.map X.fin) = some s ∧ InvE qs xs s p r := by
  induction xs using List.reverseRecOn with
  | nil => exact ⟨_, _, _, rfl, init_invE qs hL⟩
  | append_singleton xs x ih =>
    rw [List.length_append, List.length_singleton] at hn
    obtain ⟨s, p, r, hs, hi⟩ := ih (by omega)
    obtain ⟨s', p', r', hp, hi'⟩ := push_exact hL hn hi x
    exact ⟨s', p', r', by rw [List.map_append, List.map_singleton, pushes_snoc, hs]; exact hp, hi'⟩

end Verif.PSquare
