import Verif.Props.PSquareOutlier
import Verif.Props.InputError
/-
C188: estimates of quantiles from data with measurement errors.
-/
namespace Verif.Spec

variable {δ : ℝ}

theorem le_count_sorted {l : List ℝ} (hs : l.Pairwise (· ≤ ·)) {i : Nat} (hi : i < l.length) :
    i + 1 ≤ l.countP fun y => decide (y ≤ l[i]) := by
  have h1 : (l.take (i + 1)).countP (fun y => decide (y ≤ l[i])) = i + 1 := by
    rw [List.countP_eq_length.2, List.length_take, min_eq_left hi]
    intro y hy
    obtain ⟨j, hj, rfl⟩ := List.getElem_of_mem hy
    rw [List.length_take, Nat.lt_min] at hj
    rw [List.getElem_take, decide_eq_true_eq]
    rcases Nat.lt_or_ge j i with h | h
    · exact List.pairwise_iff_getElem.1 hs j i hj.2 hi h
    · obtain rfl : j = i := by omega
      exact le_rfl
  rw [← h1]
  exact (List.take_sublist _ _).countP_le

theorem getElem_le_of_count {l : List ℝ} (hs : l.Pairwise (· ≤ ·)) {i : Nat} (hi : i < l.length) {t : ℝ}
    (h : i + 1 ≤ l.countP fun y => decide (y ≤ t)) : l[i] ≤ t := by
  by_contra hc
  push Not at hc
  have h0 : (l.drop i).countP (fun y => decide (y ≤ t)) = 0 := by
    rw [List.countP_eq_zero]
    intro y hy
    obtain ⟨j, hj, rfl⟩ := List.getElem_of_mem hy
    rw [List.length_drop] at hj
    rw [List.getElem_drop, decide_eq_true_eq, not_le]
    rcases Nat.eq_zero_or_pos j with rfl | h
    · simpa using hc
    · exact hc.trans_le (List.pairwise_iff_getElem.1 hs i (i + j) hi (by omega) (by omega))
  have h1 : (l.take i).countP (fun y => decide (y ≤ t)) ≤ i := List.countP_le_length.trans (by rw [List.length_take]; omega)
  have h2 := List.countP_append (p := fun y => decide (y ≤ t)) (l₁ := l.take i) (l₂ := l.drop i)
  rw [List.take_append_drop] at h2
  omega

/-- Order statistics move by at most as much as the data. -/
theorem sorted_near {ps : List (ℝ × ℝ)} (h : ∀ q ∈ ps, q.2 ≤ q.1 + δ) {i : Nat} (hi : i < ps.length) :
    (sorted (ps.map Prod.snd)).getD i 0 ≤ (sorted (ps.map Prod.fst)).getD i 0 + δ := by
  have h1 : i < (sorted (ps.map Prod.fst)).length := by simpa using hi
  have h2 : i < (sorted (ps.map Prod.snd)).length := by simpa using hi
  rw [List.getD_eq_getElem _ _ h1, List.getD_eq_getElem _ _ h2]
  refine getElem_le_of_count (sorted_pairwise _) h2 ((le_count_sorted (sorted_pairwise _) h1).trans ?_)
  rw [(sorted_perm (ps.map Prod.fst)).countP_eq, (sorted_perm (ps.map Prod.snd)).countP_eq, List.countP_map, List.countP_map]
  refine List.countP_mono_left fun q hq hle => ?_
  simp only [Function.comp_apply, decide_eq_true_eq] at hle ⊢
  linarith [h q hq]

/-- The quantile moves by at most as much as the data. -/
theorem quantile_near {f : ℝ} (h0 : 0 ≤ f) (h1 : f ≤ 1) {ps : List (ℝ × ℝ)} (hne : ps ≠ []) (h : ∀ q ∈ ps, q.2 ≤ q.1 + δ) :
    quantile f (ps.map Prod.snd) ≤ quantile f (ps.map Prod.fst) + δ := by
  have hp : 1 ≤ ps.length := List.length_pos_iff.2 hne
  have hpr : (1 : ℝ) ≤ ps.length := by exact_mod_cast hp
  simp only [quantile, List.length_map]
  set r : ℝ := f * (ps.length - 1) with hr
  have hr0 : 0 ≤ r := mul_nonneg h0 (by linarith)
  have hrn : r ≤ ((ps.length - 1 : Nat) : ℝ) := by
    rw [Nat.cast_sub hp, hr, Nat.cast_one]; exact mul_le_of_le_one_left (by linarith) h1
  have hc : ⌈r⌉₊ < ps.length := by
    have := Nat.ceil_le.2 hrn; omega
  have hf : ⌊r⌋₊ < ps.length := (Nat.floor_le_ceil r).trans_lt hc
  have a := sorted_near h hf
  have b := sorted_near h hc
  have w0 : 0 ≤ r - ⌊r⌋₊ := by linarith [Nat.floor_le hr0]
  have w1 : r - ⌊r⌋₊ ≤ 1 := by linarith [Nat.lt_floor_add_one r]
  nlinarith

end Verif.Spec

namespace Verif.Props
open Scalar Exact PSquare

variable {w : Nat} {ε δ : ℝ}

theorem quantile_error {f : ℝ} (h0 : 0 ≤ f) (h1 : f ≤ 1) {ps : List (ℝ × ℝ)} (hne : ps ≠ []) (hm : Measured δ ps) :
    |Spec.quantile f (ps.map Prod.snd) - Spec.quantile f (ps.map Prod.fst)| ≤ δ := by
  have a := Spec.quantile_near h0 h1 hne (δ := δ) fun q hq => by linarith [(abs_le.1 (hm.2 q hq)).2]
  have b := Spec.quantile_near h0 h1 (ps := ps.map Prod.swap) (by simpa using hne) (δ := δ) fun q hq => by
    obtain ⟨q, hq', rfl⟩ := List.mem_map.1 hq
    simp only [Prod.fst_swap, Prod.snd_swap]
    linarith [(abs_le.1 (hm.2 q hq')).1]
  simp only [List.map_map, Function.comp_def, Prod.fst_swap, Prod.snd_swap] at b
  exact abs_le.2 ⟨by linarith, by linarith⟩

/-- C188: an estimate of the median moves by at most `K` times the errors of the data. -/
def Steady (K ε : ℝ) (n : Nat) : Prop := ∀ (w : Nat) (δ : ℝ) (ops : List (Op (ℝ × ℝ))), 5 < 2 ^ w → ops.length < 2 ^ w →
  (sinceClear ops).length = n → Measured δ (sinceClear ops) →
    ∃ (s t : PSquare w (E ε)) (v v' : ℝ), PSquare.run [median] (finOps (firsts ops)) = some s
      ∧ PSquare.run [median] (finOps (seconds ops)) = some t ∧ s.get 1 = some (X.fin v) ∧ t.get 1 = some (X.fin v') ∧ |v' - v| ≤ K * δ

/-- C188: for every number of values there is such a constant. -/
def C188_Statement (ε : ℝ) : Prop := ∀ n, ∃ K, Steady K ε n

/-- 0, 1, 2, 3, 4 and then a value: the markers after it has been counted. -/
theorem p2_ramp (down : (Nat → ℝ) → (Nat → ℝ) → Nat → ℝ) (x : ℝ) :
    Spec.p2 Early down 5 (fractionAt [median]) ([0, 1, 2, 3, 4] ++ [x])
      = ([1, 2, 3].foldl (Spec.p2Adjust Early down fun i => 1 + (([0, 1, 2, 3, 4] : List ℝ).length : ℝ) * fractionAt [median] i)
        (Spec.p2Insert 5 { n := fun i => i + 1, q := fun i => ([0, 1, 2, 3, 4] : List ℝ).getD i 0 } x)) := by
  have hsort : Spec.sorted [0, 1, 2, 3, 4] = ([0, 1, 2, 3, 4] : List ℝ) :=
    Spec.sorted_unique (List.Perm.refl _) (by norm_num)
  rw [Spec.p2_snoc _ _ _ (by simp)]
  have h0 : Spec.p2 Early down 5 (fractionAt [median]) [0, 1, 2, 3, 4]
      = { n := fun i => i + 1, q := fun i => ([0, 1, 2, 3, 4] : List ℝ).getD i 0 } := by
    unfold Spec.p2
    simp [hsort]
  rw [h0]
  rfl

theorem p2_ramp_at (down : (Nat → ℝ) → (Nat → ℝ) → Nat → ℝ) :
    (Spec.p2 Early down 5 (fractionAt [median]) ([0, 1, 2, 3, 4] ++ [2])).q 2 = 8 / 3 := by
  obtain ⟨f1, f2, f3⟩ := fractionAt_median
  have hins : Spec.p2Insert 5 { n := fun i => i + 1, q := fun i => ([0, 1, 2, 3, 4] : List ℝ).getD i 0 } 2
      = { n := fun i => [1, 2, 3, 5, 6].getD i (i + 2), q := fun i => ([0, 1, 2, 3, 4] : List ℝ).getD i 0 } := by
    have hcell : Spec.p2Cell 5 (fun i => ([0, 1, 2, 3, 4] : List ℝ).getD i 0) 2 = 3 := by
      unfold Spec.p2Cell
      simp [List.range_succ, List.filter]
      norm_num
    unfold Spec.p2Insert
    dsimp only
    rw [hcell]
    congr 1
    · funext i
      rcases i with _ | _ | _ | _ | _ | i <;> simp
    · funext i
      rcases i with _ | _ | _ | _ | _ | i <;> norm_num
      omega
  rw [p2_ramp, hins, List.foldl_cons, List.foldl_cons, List.foldl_cons, List.foldl_nil, (p2Adjust_ne _ _ _ _ (by decide)).1]
  have a1 : Spec.p2Adjust Early down (fun i => 1 + (([0, 1, 2, 3, 4] : List ℝ).length : ℝ) * fractionAt [median] i)
      { n := fun i => [1, 2, 3, 5, 6].getD i (i + 2), q := fun i => ([0, 1, 2, 3, 4] : List ℝ).getD i 0 } 1
      = { n := fun i => [1, 2, 3, 5, 6].getD i (i + 2), q := fun i => ([0, 1, 2, 3, 4] : List ℝ).getD i 0 } := by
    unfold Spec.p2Adjust Early
    norm_num [f1]
  rw [a1]
  unfold Spec.p2Adjust Early
  norm_num [f2, Spec.psquareParabolic]

theorem p2_ramp_below (down : (Nat → ℝ) → (Nat → ℝ) → Nat → ℝ) {x : ℝ} (h1 : 1 ≤ x) (h2 : x < 2) :
    (Spec.p2 Early down 5 (fractionAt [median]) ([0, 1, 2, 3, 4] ++ [x])).q 2 = 2 := by
  obtain ⟨f1, f2, f3⟩ := fractionAt_median
  have hins : Spec.p2Insert 5 { n := fun i => i + 1, q := fun i => ([0, 1, 2, 3, 4] : List ℝ).getD i 0 } x
      = { n := fun i => [1, 2, 4, 5, 6].getD i (i + 2), q := fun i => ([0, 1, 2, 3, 4] : List ℝ).getD i 0 } := by
    have hcell : Spec.p2Cell 5 (fun i => ([0, 1, 2, 3, 4] : List ℝ).getD i 0) x = 2 := by
      have c0 : ¬ x < 0 := by linarith
      have c1 : 0 ≤ x := by linarith
      have c2 : ¬ 2 ≤ x := by linarith
      have c3 : ¬ 3 ≤ x := by linarith
      have c4 : ¬ 4 ≤ x := by linarith
      unfold Spec.p2Cell
      simp [List.range_succ, List.filter, c0, c1, c2, c3, c4, h1]
    unfold Spec.p2Insert
    dsimp only
    rw [hcell]
    congr 1
    · funext i
      rcases i with _ | _ | _ | _ | _ | i <;> simp
    · funext i
      have : (0 : ℝ) ≤ x := by linarith
      have : x ≤ 4 := by linarith
      rcases i with _ | _ | _ | _ | _ | i <;> simp [*]
  rw [p2_ramp, hins, List.foldl_cons, List.foldl_cons, List.foldl_cons, List.foldl_nil, (p2Adjust_ne _ _ _ _ (by decide)).1]
  have a1 : Spec.p2Adjust Early down (fun i => 1 + (([0, 1, 2, 3, 4] : List ℝ).length : ℝ) * fractionAt [median] i)
      { n := fun i => [1, 2, 4, 5, 6].getD i (i + 2), q := fun i => ([0, 1, 2, 3, 4] : List ℝ).getD i 0 } 1
      = { n := fun i => [1, 3, 4, 5, 6].getD i (i + 2), q := fun i => ([0, 5 / 3, 2, 3, 4] : List ℝ).getD i 0 } := by
    unfold Spec.p2Adjust Early
    norm_num [f1, Spec.psquareParabolic]
    constructor
    · funext i
      rcases i with _ | _ | _ | _ | _ | i <;> simp [Function.update]
    · funext i
      rcases i with _ | _ | _ | _ | _ | i <;> norm_num [Function.update]
  rw [a1]
  unfold Spec.p2Adjust Early
  norm_num [f2]

/-- C188: the estimate of the median of 0, 1, 2, 3, 4, x is 8/3 for x = 2 and 2 for every smaller x from 1 on. -/
theorem C188_jump (hw : 6 < 2 ^ w) {x : ℝ} (h1 : 1 ≤ x) (h2 : x ≤ 2) :
    ∃ s : PSquare w (E ε), PSquare.run [median] (finOps ([0, 1, 2, 3, 4, x].map Op.push)) = some s
      ∧ s.get 1 = some (X.fin (if x = 2 then 8 / 3 else 2)) := by
  have hL : 2 * [median].length + 3 < 2 ^ w := by simp only [List.length_cons, List.length_nil]; omega
  have hs1 : sinceClear ([0, 1, 2, 3, 4, x].map Op.push) = [0, 1, 2, 3, 4] ++ [x] := sinceClear_pushes _
  obtain ⟨s, hs, -, -, -, hget⟩ := C71_algorithm_partial (w := w) (ε := ε) (quantiles := [median]) median_ok.den
    hL ([0, 1, 2, 3, 4, x].map Op.push) (by simpa using hw) (by rw [hs1]; simp)
  refine ⟨s, hs, ?_⟩
  have hg := hget (by rw [hs1]; simp) 1 (by simp)
  rw [hs1] at hg
  rw [hg]
  congr 2
  split_ifs with h
  · subst h; exact p2_ramp_at _
  · exact p2_ramp_below _ h1 (lt_of_le_of_ne h2 h)

/-- C188: with six values no constant will do. -/
theorem C188_steady (K : ℝ) : ¬ Steady K ε 6 := by
  intro h
  set d : ℝ := min 1 (1 / (3 * (|K| + 1))) with hd
  have hK : 0 ≤ |K| := abs_nonneg K
  have hd0 : 0 < d := lt_min one_pos (by positivity)
  have hd1 : d ≤ 1 := min_le_left _ _
  have hd2 : d * (3 * (|K| + 1)) ≤ 1 := by
    have := min_le_right (1 : ℝ) (1 / (3 * (|K| + 1)))
    rwa [← hd, le_div_iff₀ (by positivity)] at this
  let ps : List (ℝ × ℝ) := [(0, 0), (1, 1), (2, 2), (3, 3), (4, 4), (2 - d, 2)]
  have e := sinceClear_pushes ps
  obtain ⟨s, t, v, v', hs, ht, hv, hv', hb⟩ := h 64 d (ps.map Op.push) (by norm_num) (by simp [ps]) (by rw [e]; rfl) (by
    rw [e]
    refine ⟨hd0.le, fun q hq => ?_⟩
    simp only [ps, List.mem_cons, List.not_mem_nil, or_false] at hq
    rcases hq with rfl | rfl | rfl | rfl | rfl | rfl <;> simp [hd0.le, abs_of_pos hd0])
  obtain ⟨s', hs', ha⟩ := C188_jump (w := 64) (ε := ε) (by norm_num) (x := 2 - d) (by linarith) (by linarith)
  obtain ⟨t', ht', hb'⟩ := C188_jump (w := 64) (ε := ε) (by norm_num) (x := 2) (by norm_num) le_rfl
  have e1 : firsts (ps.map Op.push) = [0, 1, 2, 3, 4, 2 - d].map Op.push := rfl
  have e2 : seconds (ps.map Op.push) = [0, 1, 2, 3, 4, 2].map Op.push := rfl
  rw [e1] at hs
  rw [e2] at ht
  obtain rfl : s = s' := Option.some.inj (hs.symm.trans hs')
  obtain rfl : t = t' := Option.some.inj (ht.symm.trans ht')
  have k1 := X.fin_inj.1 (Option.some.inj (hv.symm.trans ha))
  have k2 := X.fin_inj.1 (Option.some.inj (hv'.symm.trans hb'))
  rw [if_neg (by linarith)] at k1
  rw [if_pos rfl] at k2
  rw [k1, k2, show (8 / 3 - 2 : ℝ) = 2 / 3 by norm_num, abs_of_pos (by norm_num)] at hb
  nlinarith [le_abs_self K]

/-- C188 is violated. -/
theorem C188_violated (ε : ℝ) : ¬ C188_Statement ε := fun h => by
  obtain ⟨K, hK⟩ := h 6
  exact C188_steady K hK

theorem Quantiles.range {quantiles : List Ratio} (hq : Quantiles quantiles) {i : Nat} (hi : i ≤ quantiles.length + 1) :
    0 ≤ quantileAt quantiles i ∧ quantileAt quantiles i ≤ 1 := by
  have hl : i < (0 :: quantiles.map Ratio.val ++ [1]).length := by simp; omega
  rw [quantileAt, List.getD_eq_getElem _ _ hl]
  have hmem := List.getElem_mem hl
  simp only [List.cons_append, List.mem_cons, List.mem_append, List.mem_map, List.not_mem_nil, or_false] at hmem
  rcases hmem with h | ⟨r, hr, h⟩ | h
  · simp only [List.cons_append] at h ⊢; rw [h]; norm_num
  · simp only [List.cons_append] at h ⊢; rw [← h]; exact ⟨(hq r hr).2.1, (hq r hr).2.2.le⟩
  · simp only [List.cons_append] at h ⊢; rw [h]; norm_num

/-- C188, as many values as there are markers or fewer: every estimate moves by at most as much as the data.
Missing for the full statement: more values, where it is violated, see `C188_steady`. -/
theorem C188_few_partial {quantiles : List Ratio} (hq : Quantiles quantiles) (hL : 2 * quantiles.length + 3 < 2 ^ w)
    (ops : List (Op (ℝ × ℝ))) (hops : ops.length < 2 ^ w) (hn : (sinceClear ops).length ≤ 2 * quantiles.length + 3)
    (hm : Measured δ (sinceClear ops)) :
    ∃ s t : PSquare w (E ε), PSquare.run quantiles (finOps (firsts ops)) = some s ∧ PSquare.run quantiles (finOps (seconds ops)) = some t
      ∧ ∀ i ≤ quantiles.length + 1, ∃ v v' : ℝ, s.get i = some (X.fin v) ∧ t.get i = some (X.fin v') ∧ |v' - v| ≤ δ := by
  obtain ⟨s, hs, -, -, hz, hg⟩ := C35_few (w := w) (ε := ε) hq hL (firsts ops) (by simpa [firsts] using hops)
    (by rw [sinceClear_firsts, List.length_map]; exact hn)
  obtain ⟨t, ht, -, -, hz', hg'⟩ := C35_few (w := w) (ε := ε) hq hL (seconds ops) (by simpa [seconds] using hops)
    (by rw [sinceClear_seconds, List.length_map]; exact hn)
  rw [sinceClear_firsts] at hz hg
  rw [sinceClear_seconds] at hz' hg'
  refine ⟨s, t, hs, ht, fun i hi => ?_⟩
  rcases eq_or_ne (sinceClear ops) [] with h0 | hne
  · exact ⟨0, 0, hz (by simp [h0]) i hi, hz' (by simp [h0]) i hi, by simpa using hm.1⟩
  · refine ⟨_, _, hg (by simpa using hne) i hi, hg' (by simpa using hne) i hi, quantile_error (hq.range hi).1 (hq.range hi).2 hne hm⟩

/-- C188: minimum and maximum, any number of values. -/
theorem C188_extremes {quantiles : List Ratio} (hq : ∀ r ∈ quantiles, 0 < r.den) (hL : 2 * quantiles.length + 3 < 2 ^ w)
    (ops : List (Op (ℝ × ℝ))) (hops : ops.length < 2 ^ w) (hne : sinceClear ops ≠ []) (hm : Measured δ (sinceClear ops)) :
    ∃ s t : PSquare w (E ε), PSquare.run quantiles (finOps (firsts ops)) = some s ∧ PSquare.run quantiles (finOps (seconds ops)) = some t
      ∧ ∀ i, i = 0 ∨ i = quantiles.length + 1 → ∃ v v' : ℝ, s.get i = some (X.fin v) ∧ t.get i = some (X.fin v') ∧ |v' - v| ≤ δ := by
  obtain ⟨s, lo, hi, hs, hlo, hhi, l1, l2⟩ := C36_extremes (w := w) (ε := ε) hq hL (firsts ops) (by simpa [firsts] using hops)
    (by rw [sinceClear_firsts]; simpa using hne)
  obtain ⟨t, lo', hi', ht, hlo', hhi', l1', l2'⟩ := C36_extremes (w := w) (ε := ε) hq hL (seconds ops) (by simpa [seconds] using hops)
    (by rw [sinceClear_seconds]; simpa using hne)
  rw [sinceClear_firsts] at l1 l2
  rw [sinceClear_seconds] at l1' l2'
  have hf : ∀ q ∈ sinceClear ops, q.1 ∈ {x | x ∈ (sinceClear ops).map Prod.fst} := fun q hq => List.mem_map_of_mem hq
  have hs' : ∀ q ∈ sinceClear ops, q.2 ∈ {x | x ∈ (sinceClear ops).map Prod.snd} := fun q hq => List.mem_map_of_mem hq
  refine ⟨s, t, hs, ht, fun i hi => ?_⟩
  rcases hi with rfl | rfl
  · refine ⟨_, _, hlo, hlo', ?_⟩
    obtain ⟨a, ha, ea⟩ := List.mem_map.1 l1.1
    obtain ⟨b, hb, eb⟩ := List.mem_map.1 l1'.1
    have h1 := l1.2 (hf b hb)
    have h2 := l1'.2 (hs' a ha)
    have h3 := abs_le.1 (hm.2 a ha)
    have h4 := abs_le.1 (hm.2 b hb)
    exact abs_le.2 ⟨by linarith, by linarith⟩
  · refine ⟨_, _, hhi, hhi', ?_⟩
    obtain ⟨a, ha, ea⟩ := List.mem_map.1 l2.1
    obtain ⟨b, hb, eb⟩ := List.mem_map.1 l2'.1
    have h1 := l2.2 (hf b hb)
    have h2 := l2'.2 (hs' a ha)
    have h3 := abs_le.1 (hm.2 a ha)
    have h4 := abs_le.1 (hm.2 b hb)
    exact abs_le.2 ⟨by linarith, by linarith⟩

/-- The first six values with the published rule: no marker moves. -/
theorem p2_ramp_published (down : (Nat → ℝ) → (Nat → ℝ) → Nat → ℝ) {x : ℝ} (h1 : 1 ≤ x) (h2 : x ≤ 2) :
    Spec.p2 Spec.p2Far down 5 (fractionAt [median]) ([0, 1, 2, 3, 4] ++ [x])
      = { n := fun i => [1, 2, if x = 2 then 3 else 4, 5, 6].getD i (i + 2), q := fun i => ([0, 1, 2, 3, 4] : List ℝ).getD i 0 } := by
  obtain ⟨f1, f2, f3⟩ := fractionAt_median
  have hsort : Spec.sorted [0, 1, 2, 3, 4] = ([0, 1, 2, 3, 4] : List ℝ) :=
    Spec.sorted_unique (List.Perm.refl _) (by norm_num)
  have h0 : Spec.p2 Spec.p2Far down 5 (fractionAt [median]) [0, 1, 2, 3, 4]
      = { n := fun i => i + 1, q := fun i => ([0, 1, 2, 3, 4] : List ℝ).getD i 0 } := by
    unfold Spec.p2
    simp [hsort]
  have hins : Spec.p2Insert 5 { n := fun i => i + 1, q := fun i => ([0, 1, 2, 3, 4] : List ℝ).getD i 0 } x
      = { n := fun i => [1, 2, if x = 2 then 3 else 4, 5, 6].getD i (i + 2), q := fun i => ([0, 1, 2, 3, 4] : List ℝ).getD i 0 } := by
    have hcell : Spec.p2Cell 5 (fun i => ([0, 1, 2, 3, 4] : List ℝ).getD i 0) x = if x = 2 then 3 else 2 := by
      have c0 : ¬ x < 0 := by linarith
      have c1 : 0 ≤ x := by linarith
      have c2 : 2 ≤ x ↔ x = 2 := ⟨fun h => le_antisymm h2 h, fun h => h.ge⟩
      have c3 : ¬ 3 ≤ x := by linarith
      have c4 : ¬ 4 ≤ x := by linarith
      unfold Spec.p2Cell
      by_cases hx : x = 2 <;> simp [List.range_succ, List.filter, c0, c1, c2, c3, c4, h1, hx]
      norm_num
    unfold Spec.p2Insert
    dsimp only
    rw [hcell]
    congr 1
    · funext i
      by_cases hx : x = 2 <;> rcases i with _ | _ | _ | _ | _ | i <;> simp [hx]
    · funext i
      have : (0 : ℝ) ≤ x := by linarith
      have : x ≤ 4 := by linarith
      rcases i with _ | _ | _ | _ | _ | i <;> simp [*]
  rw [Spec.p2_snoc _ _ _ (by simp), h0]
  unfold Spec.p2Push
  have e : List.range' 1 (5 - 2) = [1, 2, 3] := rfl
  rw [e, hins, List.foldl_cons, List.foldl_cons, List.foldl_cons, List.foldl_nil]
  have a : ∀ i ∈ [1, 2, 3], Spec.p2Adjust Spec.p2Far down (fun i => 1 + (([0, 1, 2, 3, 4] : List ℝ).length : ℝ) * fractionAt [median] i)
      { n := fun i => [1, 2, if x = 2 then 3 else 4, 5, 6].getD i (i + 2), q := fun i => ([0, 1, 2, 3, 4] : List ℝ).getD i 0 } i
      = { n := fun i => [1, 2, if x = 2 then 3 else 4, 5, 6].getD i (i + 2), q := fun i => ([0, 1, 2, 3, 4] : List ℝ).getD i 0 } := by
    intro i hi
    unfold Spec.p2Adjust Spec.p2Far
    simp only [List.mem_cons, List.not_mem_nil, or_false] at hi
    by_cases hx : x = 2 <;> rcases hi with rfl | rfl | rfl <;> norm_num [f1, f2, f3, hx]
  rw [a 1 (by simp), a 2 (by simp), a 3 (by simp)]

/-- C188, the published algorithm: its estimate of the median of 0, 1, 2, 3, 4, x, 5 jumps at x = 2 as well. -/
theorem C188_published (down : (Nat → ℝ) → (Nat → ℝ) → Nat → ℝ) {x : ℝ} (h1 : 1 ≤ x) (h2 : x ≤ 2) :
    (Spec.p2 Spec.p2Far down 5 (fractionAt [median]) (([0, 1, 2, 3, 4] ++ [x]) ++ [5])).q 2 = if x = 2 then 8 / 3 else 2 := by
  obtain ⟨f1, f2, f3⟩ := fractionAt_median
  rw [Spec.p2_snoc _ _ _ (by simp), p2_ramp_published _ h1 h2]
  unfold Spec.p2Push
  have e : List.range' 1 (5 - 2) = [1, 2, 3] := rfl
  have hins : Spec.p2Insert 5 { n := fun i => [1, 2, if x = 2 then 3 else 4, 5, 6].getD i (i + 2), q := fun i => ([0, 1, 2, 3, 4] : List ℝ).getD i 0 } 5
      = { n := fun i => [1, 2, if x = 2 then 3 else 4, 5, 7].getD i (i + 3), q := fun i => ([0, 1, 2, 3, 5] : List ℝ).getD i 0 } := by
    have hcell : Spec.p2Cell 5 (fun i => ([0, 1, 2, 3, 4] : List ℝ).getD i 0) 5 = 4 := by
      unfold Spec.p2Cell
      norm_num
    unfold Spec.p2Insert
    dsimp only
    rw [hcell]
    congr 1
    · funext i
      rcases i with _ | _ | _ | _ | _ | i <;> simp
    · funext i
      rcases i with _ | _ | _ | _ | _ | i <;> norm_num
      omega
  rw [e, hins, List.foldl_cons, List.foldl_cons, List.foldl_cons, List.foldl_nil, (p2Adjust_ne _ _ _ _ (by decide)).1]
  have a1 : Spec.p2Adjust Spec.p2Far down (fun i => 1 + ((([0, 1, 2, 3, 4] ++ [x] : List ℝ)).length : ℝ) * fractionAt [median] i)
      { n := fun i => [1, 2, if x = 2 then 3 else 4, 5, 7].getD i (i + 3), q := fun i => ([0, 1, 2, 3, 5] : List ℝ).getD i 0 } 1
      = { n := fun i => [1, 2, if x = 2 then 3 else 4, 5, 7].getD i (i + 3), q := fun i => ([0, 1, 2, 3, 5] : List ℝ).getD i 0 } := by
    unfold Spec.p2Adjust Spec.p2Far
    by_cases hx : x = 2 <;> norm_num [f1, hx]
  rw [a1]
  unfold Spec.p2Adjust Spec.p2Far
  by_cases hx : x = 2 <;> norm_num [f2, hx, Spec.psquareParabolic]

/-- The conditions of the partial result hold for data that is not constant. -/
example : ∃ s t : PSquare 64 (E ε), PSquare.run [median] (finOps (firsts [.push (1, 2), .push (7, 6), .push (3, 3)])) = some s
    ∧ PSquare.run [median] (finOps (seconds [.push (1, 2), .push (7, 6), .push (3, 3)])) = some t
    ∧ ∀ i ≤ 2, ∃ v v' : ℝ, s.get i = some (X.fin v) ∧ t.get i = some (X.fin v') ∧ |v' - v| ≤ 1 :=
  C188_few_partial (w := 64) (δ := 1) median_ok (by decide) [.push (1, 2), .push (7, 6), .push (3, 3)]
    (show 3 < 2 ^ 64 by decide) (show 3 ≤ 5 by decide) ⟨by norm_num, by
    have : sinceClear [.push (1, 2), .push (7, 6), .push (3, 3)] = [((1 : ℝ), (2 : ℝ)), (7, 6), (3, 3)] := rfl
    rw [this]
    intro q hq
    simp only [List.mem_cons, List.not_mem_nil, or_false] at hq
    rcases hq with rfl | rfl | rfl <;> norm_num⟩

end Verif.Props
