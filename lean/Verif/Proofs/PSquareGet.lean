import Verif.Proofs.PSquareExact
import Mathlib.Data.List.Nodup
/-
P-square estimator: the observers.
-/
namespace Verif.PSquare
open Scalar Exact

variable {w : Nat} {ε : ℝ}

/-- The real number of a ratio. -/
noncomputable def Ratio.val (r : Ratio) : ℝ := r.num / r.den

theorem Ratio.toScalar_exact {r : Ratio} (h : 0 < r.den) : (r.toScalar : E ε) = X.fin r.val := by
  have h' : (r.den : ℝ) ≠ 0 := by exact_mod_cast h.ne'
  unfold Ratio.toScalar Ratio.val
  rw [Exact.ofInt_eq, Exact.ofNat_eq, Exact.div_fin _ h']

theorem map_toScalar {quantiles : List Ratio} (h : ∀ r ∈ quantiles, 0 < r.den) :
    quantiles.map (Ratio.toScalar : Ratio → E ε) = (quantiles.map Ratio.val).map X.fin := by
  rw [List.map_map]
  apply List.map_congr_left
  intro r hr
  exact Ratio.toScalar_exact (h r hr)

theorem sinceClear_length_le {β : Type} (ops : List (Op β)) : (sinceClear ops).length ≤ ops.length := by
  induction ops using List.reverseRecOn with
  | nil => simp
  | append_singleton ops op ih =>
    cases op with
    | push x => rw [sinceClear_append_push]; simpa using ih
    | clear => rw [sinceClear_append_clear]; simp

theorem run_exact {quantiles : List Ratio} (hq : ∀ r ∈ quantiles, 0 < r.den)
    (hL : paramLength quantiles.length < 2 ^ w) (ops : List (Op ℝ)) (hn : ops.length < 2 ^ w) :
    ∃ s p r, (PSquare.run quantiles (finOps ops) : Option (PSquare w (E ε))) = some s
      ∧ InvE (quantiles.map Ratio.val) (sinceClear ops) s p r := by
  rw [run_eq_pushes quantiles hL _ (by simpa [finOps] using hn), map_toScalar hq, sinceClear_finOps]
  exact pushes_exact _ (by simpa using hL) _ ((sinceClear_length_le ops).trans_lt hn)

section
variable {qs xs : List ℝ} {s : PSquare w (E ε)} {p : Nat → Nat} {r : Nat → ℝ}

theorem InvE.q_eq (hi : InvE qs xs s p r) : s.q = qs.length := by
  rw [PSquare.q, hi.qs_eq, List.length_map]

theorem InvE.height_few (hi : InvE qs xs s p r) (hn : xs.length ≤ paramLength qs.length) {i : Nat}
    (h : i < xs.length) : s.heights[i]? = some (X.fin ((Spec.sorted xs).getD i 0)) := by
  have hc2 : i < (Spec.sorted xs).length := by simpa using h
  rw [hi.few hn, List.getElem?_append_left (by simpa using h), List.getElem?_map, List.getElem?_eq_getElem hc2,
    List.getD_eq_getElem _ _ hc2]
  rfl

theorem get_empty (hi : InvE qs [] s p r) {i : Nat} (hidx : i ≤ qs.length + 1) : s.get i = some (X.fin 0) := by
  have hc : s.count = 0 := hi.count
  unfold PSquare.get
  rw [hi.q_eq, if_neg (by omega), hc, if_neg (by simp [BitVec.lt_def]), if_neg (by simp [BitVec.lt_def]),
    if_neg (by simp)]
  simp [Exact.ofNat_eq]

theorem get_few (hL : paramLength qs.length < 2 ^ w) (hi : InvE qs xs s p r) (hne : xs ≠ [])
    (hn : xs.length ≤ paramLength qs.length) {i : Nat} (hidx : i ≤ qs.length + 1)
    (hq : i = 0 ∨ i = qs.length + 1 ∨ (0 ≤ qs.getD (i - 1) 0 ∧ qs.getD (i - 1) 0 < 1)) :
    s.get i = some (X.fin (Spec.quantile ((0 :: qs ++ [1]).getD i 0) xs)) := by
  have hlen : 1 ≤ xs.length := List.length_pos_iff.2 hne
  have hpl : paramLength qs.length = 2 * qs.length + 3 := rfl
  unfold PSquare.get
  have hone : (1 : SizeT w) = BitVec.ofNat w 1 := rfl
  have hzero : (0 : SizeT w) = BitVec.ofNat w 0 := rfl
  rw [hi.q_eq, if_neg (by omega), hi.rep.len_eq, hi.count,
    if_neg (by rw [gt_iff (by omega) (by omega)]; omega), ofNat_sub_one hlen, toNat_ofNat_lt (by omega)]
  by_cases h1 : 1 < xs.length
  · rw [if_pos (by rw [hone, gt_iff (by omega) (by omega)]; exact h1)]
    by_cases c0 : i = 0
    · subst c0
      rw [if_pos rfl, hi.height_few hn (by omega)]
      simp [Spec.quantile]
    rw [if_neg c0]
    by_cases c1 : i = 1 + qs.length
    · rw [if_pos c1, hi.height_few hn (by omega)]
      have e : (0 :: qs ++ [1]).getD i 0 = 1 := by
        subst c1
        rw [List.cons_append, Nat.add_comm, List.getD_cons_succ, List.getD_append_right _ _ _ _ (le_refl _)]
        simp
      rw [e, Spec.quantile]
      have e2 : (1 : ℝ) * ((xs.length : ℝ) - 1) = ((xs.length - 1 : Nat) : ℝ) := by push_cast [hlen]; ring
      rw [e2, Nat.floor_natCast, Nat.ceil_natCast]
      simp
    rw [if_neg c1]
    have hq' : 0 ≤ qs.getD (i - 1) 0 ∧ qs.getD (i - 1) 0 < 1 := by
      rcases hq with h | h | h
      · exact absurd h c0
      · exact absurd (by omega) c1
      · exact h
    have hil : i - 1 < qs.length := by omega
    have e : (0 :: qs ++ [1]).getD i 0 = qs.getD (i - 1) 0 := by
      obtain ⟨j, rfl⟩ : ∃ j, i = j + 1 := ⟨i - 1, by omega⟩
      rw [List.cons_append, List.getD_cons_succ, List.getD_append _ _ _ _ (by omega)]
      rfl
    have hqs : s.qs[i - 1]? = some (X.fin (qs.getD (i - 1) 0)) := by
      rw [hi.qs_eq, List.getElem?_map, List.getElem?_eq_getElem hil, List.getD_eq_getElem _ _ hil]; rfl
    rw [e, hqs]
    generalize qs.getD (i - 1) 0 = q at *
    obtain ⟨hq0, hq1⟩ := hq'
    have hn1 : (0 : ℝ) < ((xs.length - 1 : Nat) : ℝ) := by exact_mod_cast (by omega : 0 < xs.length - 1)
    set R : ℝ := ((xs.length - 1 : Nat) : ℝ) * q with hR
    have hR0 : 0 ≤ R := mul_nonneg hn1.le hq0
    have hRlt : R < ((xs.length - 1 : Nat) : ℝ) := by
      have := mul_lt_mul_of_pos_left hq1 hn1; rwa [mul_one] at this
    have hfl : ⌊R⌋₊ < xs.length - 1 := (Nat.floor_lt hR0).2 hRlt
    have hrank : (ofSize (BitVec.ofNat w (xs.length - 1)) * X.fin q : E ε) = X.fin R := by
      rw [ofSize_exact (by omega), Exact.mul_fin]
    simp only [Option.bind_eq_bind, Option.bind_some, Option.pure_def]
    rw [hrank, X.floor_fin, Exact.ofNat_eq, Exact.sub_fin, Exact.add_fin, X.toIndex_fin, X.toIndex_fin,
      if_pos (show (-1 : ℝ) < R by linarith), if_pos (show (-1 : ℝ) < R + ((1 : Nat) : ℝ) by push_cast; linarith)]
    simp only [Option.bind_some]
    have hfl2 : ⌊R + ((1 : Nat) : ℝ)⌋₊ = ⌊R⌋₊ + 1 := by push_cast; exact Nat.floor_add_one hR0
    rw [hfl2, hi.height_few hn (show ⌊R⌋₊ < xs.length by omega), hi.height_few hn (show ⌊R⌋₊ + 1 < xs.length by omega)]
    simp only [Option.bind_some, Exact.sub_fin, Exact.mul_fin, Exact.add_fin]
    have e2 : q * ((xs.length : ℝ) - 1) = R := by rw [hR]; push_cast [hlen]; ring
    unfold Spec.quantile
    dsimp only
    rw [e2]
    have hint : ((⌊R⌋ : Int) : ℝ) = ((⌊R⌋₊ : Nat) : ℝ) := by
      have := Int.natCast_floor_eq_floor hR0
      exact_mod_cast this.symm
    rw [hint]
    by_cases hfrac : R = ⌊R⌋₊
    · rw [← hfrac]; simp
    · have hlt : (⌊R⌋₊ : ℝ) < R := lt_of_le_of_ne (Nat.floor_le hR0) (Ne.symm hfrac)
      have hceil : ⌈R⌉₊ = ⌊R⌋₊ + 1 := by
        apply le_antisymm
        · exact Nat.ceil_le.2 (by push_cast; exact (Nat.lt_floor_add_one R).le)
        · exact Nat.lt_ceil.2 hlt
      rw [hceil]
  · have hx1 : xs.length = 1 := by omega
    rw [if_neg (by rw [hone, gt_iff (by omega) (by omega)]; exact h1),
      if_pos (by rw [hzero, gt_iff (by omega) (by omega)]; exact hlen), hi.height_few hn (by omega)]
    unfold Spec.quantile
    rw [hx1]
    simp

theorem get_many (hi : InvE qs xs s p r) (hn : paramLength qs.length < xs.length) (hw : xs.length < 2 ^ w) {i : Nat}
    (hidx : i ≤ qs.length + 1) : s.get i = some (X.fin (r (2 * i))) := by
  have hpl : paramLength qs.length = 2 * qs.length + 3 := rfl
  unfold PSquare.get
  rw [hi.q_eq, if_neg (by omega), hi.rep.len_eq, hi.count,
    if_pos (by rw [gt_iff (by omega) (by omega)]; exact hn), hi.rep.ht (2 * i) (by omega)]

/-- get<0>() and get<q+1>() while there are few values; no condition on the quantiles. -/
theorem get_extreme (hL : paramLength qs.length < 2 ^ w) (hw : xs.length < 2 ^ w) (hi : InvE qs xs s p r)
    (hne : xs ≠ []) :
    ∃ lo hi', s.get 0 = some (X.fin lo) ∧ s.get (qs.length + 1) = some (X.fin hi') ∧ IsLeast {x | x ∈ xs} lo
      ∧ IsGreatest {x | x ∈ xs} hi' := by
  have hlen : 1 ≤ xs.length := List.length_pos_iff.2 hne
  have hpl : paramLength qs.length = 2 * qs.length + 3 := rfl
  rcases Nat.lt_or_ge (paramLength qs.length) xs.length with h | h
  · obtain ⟨-, h2, h3⟩ := hi.many h.le
    refine ⟨r (2 * 0), r (2 * (qs.length + 1)), get_many hi h hw (by omega), get_many hi h hw (le_refl _), h2, ?_⟩
    have e : 2 * (qs.length + 1) = paramLength qs.length - 1 := by omega
    rw [e]; exact h3
  · refine ⟨_, _, get_few hL hi hne h (by omega) (Or.inl rfl), get_few hL hi hne h (le_refl _) (Or.inr (Or.inl rfl)), ?_, ?_⟩
    · have : Spec.quantile ((0 :: qs ++ [1]).getD 0 0) xs = (Spec.sorted xs).getD 0 0 := by simp [Spec.quantile]
      rw [this]; exact sorted_least hlen
    · have e : (0 :: qs ++ [1]).getD (qs.length + 1) 0 = 1 := by
        rw [List.cons_append, List.getD_cons_succ, List.getD_append_right _ _ _ _ (le_refl _)]
        simp
      have e2 : (1 : ℝ) * ((xs.length : ℝ) - 1) = ((xs.length - 1 : Nat) : ℝ) := by push_cast [hlen]; ring
      have : Spec.quantile 1 xs = (Spec.sorted xs).getD (xs.length - 1) 0 := by
        unfold Spec.quantile
        dsimp only
        rw [e2, Nat.floor_natCast, Nat.ceil_natCast]
        simp
      rw [e, this]; exact sorted_greatest hlen

end

/-! ### Lookup by ratio -/

theorem insertSorted_of_less {a : Ratio} {l : List Ratio} (h : ∀ b ∈ l.head?, a.less b = true) : insertSorted a l = a :: l := by
  cases l with
  | nil => rfl
  | cons b l => simp only [insertSorted]; rw [if_pos (h b (by simp))]

theorem foldr_insertSorted (l : List Ratio) (h : l.Pairwise (fun a b => a.less b = true)) :
    l.foldr insertSorted [] = l := by
  induction l with
  | nil => rfl
  | cons a l ih =>
    rw [List.pairwise_cons] at h
    rw [List.foldr_cons, ih h.2]
    apply insertSorted_of_less
    intro b hb
    exact h.1 b (List.mem_of_mem_head? hb)

theorem less_iff {a b : Ratio} (ha : 0 < a.den) (hb : 0 < b.den) : a.less b = true ↔ a.val < b.val := by
  have ha' : (0 : ℝ) < a.den := by exact_mod_cast ha
  have hb' : (0 : ℝ) < b.den := by exact_mod_cast hb
  unfold Ratio.less Ratio.val
  rw [decide_eq_true_eq, div_lt_div_iff₀ ha' hb']
  exact_mod_cast Iff.rfl

theorem quantileList_ascending {quantiles : List Ratio} (hd : ∀ r ∈ quantiles, 0 < r.den ∧ 0 < r.val ∧ r.val < 1)
    (ha : quantiles.Pairwise fun a b => a.val < b.val) :
    quantileList quantiles = (⟨0, 1⟩ : Ratio) :: quantiles ++ [(⟨1, 1⟩ : Ratio)] := by
  unfold quantileList
  apply foldr_insertSorted
  have v0 : (⟨0, 1⟩ : Ratio).val = 0 := by simp [Ratio.val]
  have v1 : (⟨1, 1⟩ : Ratio).val = 1 := by simp [Ratio.val]
  have hp : ((⟨0, 1⟩ : Ratio) :: quantiles ++ [(⟨1, 1⟩ : Ratio)]).Pairwise
      fun a b => 0 < a.den ∧ 0 < b.den ∧ a.val < b.val := by
    rw [List.cons_append, List.pairwise_cons, List.pairwise_append]
    refine ⟨?_, ?_, by simp, ?_⟩
    · intro b hb
      rcases List.mem_append.1 hb with hb | hb
      · exact ⟨by decide, (hd b hb).1, by rw [v0]; exact (hd b hb).2.1⟩
      · rw [List.mem_singleton.1 hb, v0, v1]; exact ⟨by decide, by decide, by norm_num⟩
    · exact ha.imp_of_mem fun hx hy h => ⟨(hd _ hx).1, (hd _ hy).1, h⟩
    · intro a ha b hb
      rw [List.mem_singleton.1 hb, v1]
      exact ⟨(hd a ha).1, by decide, (hd a ha).2.2⟩
  exact hp.imp fun h => (less_iff h.1 h.2.1).2 h.2.2

theorem findIdx_ascending {quantiles : List Ratio} (hd : ∀ r ∈ quantiles, 0 < r.den ∧ 0 < r.val ∧ r.val < 1)
    (ha : quantiles.Pairwise fun a b => a.val < b.val) {i : Nat} (hi : i < quantiles.length) :
    (quantileList quantiles).findIdx (· == quantiles[i]) = i + 1 := by
  rw [quantileList_ascending hd ha]
  set l := (⟨0, 1⟩ : Ratio) :: quantiles ++ [(⟨1, 1⟩ : Ratio)] with hl
  have v0 : (⟨0, 1⟩ : Ratio).val = 0 := by simp [Ratio.val]
  have v1 : (⟨1, 1⟩ : Ratio).val = 1 := by simp [Ratio.val]
  have hlt : i + 1 < l.length := by simp [hl]; omega
  have hget : l[i + 1] = quantiles[i] := by
    simp only [hl, List.cons_append, List.getElem_cons_succ]
    rw [List.getElem_append_left hi]
  have hp : l.Pairwise fun a b => a.val < b.val := by
    rw [hl, List.cons_append, List.pairwise_cons, List.pairwise_append]
    refine ⟨?_, ha, by simp, ?_⟩
    · intro b hb
      rcases List.mem_append.1 hb with hb | hb
      · rw [v0]; exact (hd b hb).2.1
      · rw [List.mem_singleton.1 hb, v0, v1]; norm_num
    · intro a ha b hb
      rw [List.mem_singleton.1 hb, v1]; exact (hd a ha).2.2
  rw [← hget, List.findIdx_eq hlt]
  refine ⟨by simp, ?_⟩
  intro j hj
  have := List.pairwise_iff_getElem.1 hp j (i + 1) (by omega) hlt hj
  rw [beq_eq_false_iff_ne]
  intro e
  rw [e] at this
  exact lt_irrefl _ this

end Verif.PSquare
