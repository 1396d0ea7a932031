import Verif.Proofs.PSquareSpec
import Verif.Props.PSquare
/-
C71 - C73: the P-square estimator as a whole.
-/
namespace Verif.Props
open Scalar Exact Verif.PSquare

variable {w : Nat} {ε : ℝ}

/-! ### C71 -/

/-- After at least `2 q + 3` values the marker positions and heights are those of the reference algorithm, for the
rule `far` when to move a marker and the linear prediction `down` downwards. -/
def Follows (w : Nat) (ε : ℝ) (far : ℝ → Prop) (down : (Nat → ℝ) → (Nat → ℝ) → Nat → ℝ) : Prop :=
  ∀ (quantiles : List Ratio), Quantiles quantiles → 2 * quantiles.length + 3 < 2 ^ w →
    ∀ ops : List (Op ℝ), ops.length < 2 ^ w → 2 * quantiles.length + 3 ≤ (sinceClear ops).length →
    ∃ s : PSquare w (E ε), PSquare.run quantiles (finOps ops) = some s
      ∧ let m := Spec.p2 far down (2 * quantiles.length + 3) (fractionAt quantiles) (sinceClear ops)
        ∀ i < 2 * quantiles.length + 3,
          s.positions[i]? = some (BitVec.ofNat w (m.n i)) ∧ s.heights[i]? = some (X.fin (m.q i))

/-- C71: after at least `2 q + 3` values the marker positions and heights are those of the published algorithm. -/
def C71_Statement (w : Nat) (ε : ℝ) : Prop := Follows w ε Spec.p2Far Spec.psquareLinearDown

/-- C71: the code runs the algorithm with two changes: a marker moves at any distance from its desired position and
not only from distance 1 on, and the linear prediction downwards is
`q_i + (q_i - q_{i-1}) / (2^w - (n_i - n_{i-1}))`.
Missing for the full statement: the published rule and the published linear prediction downwards, see `C71_violated`
and `C71_linear_violated`. -/
theorem C71_algorithm_partial {quantiles : List Ratio} (hq : ∀ r ∈ quantiles, 0 < r.den)
    (hL : 2 * quantiles.length + 3 < 2 ^ w) (ops : List (Op ℝ)) (hops : ops.length < 2 ^ w)
    (hn : 2 * quantiles.length + 3 ≤ (sinceClear ops).length) :
    ∃ s : PSquare w (E ε), PSquare.run quantiles (finOps ops) = some s
      ∧ let far := fun x : ℝ => 0 < x
        let down := fun (n q : Nat → ℝ) (i : Nat) => q i + (q i - q (i - 1)) / (2 ^ w - (n i - n (i - 1)))
        let m := Spec.p2 far down (2 * quantiles.length + 3) (fractionAt quantiles) (sinceClear ops)
        s.positions.length = 2 * quantiles.length + 3 ∧ s.heights.length = 2 * quantiles.length + 3
        ∧ (∀ i < 2 * quantiles.length + 3,
          s.positions[i]? = some (BitVec.ofNat w (m.n i)) ∧ m.n i < 2 ^ w ∧ s.heights[i]? = some (X.fin (m.q i)))
        ∧ (2 * quantiles.length + 3 < (sinceClear ops).length → ∀ i ≤ quantiles.length + 1,
          s.get i = some (X.fin (m.q (2 * i)))) := by
  have hpl : paramLength (quantiles.map Ratio.val).length = 2 * quantiles.length + 3 := by simp [paramLength]
  have hlen := (sinceClear_length_le ops).trans_lt hops
  obtain ⟨s, p, r, hs, hi, hr, hm⟩ := pushes_spec (ε := ε) (w := w) (quantiles.map Ratio.val) (by rw [hpl]; exact hL)
    (sinceClear ops) hlen (by rw [hpl]; exact hn)
  rw [hpl] at hr hm
  refine ⟨s, ?_, hr.pos_len, hr.ht_len, ?_, ?_⟩
  · rw [run_eq_pushes quantiles hL _ (by simpa [finOps] using hops), map_toScalar hq, sinceClear_finOps]
    exact hs
  · intro i hil
    exact ⟨hr.pos i hil, hm.bound hil, hr.ht i hil⟩
  · intro hlt i hidx
    have h1 := get_many hi (by rw [hpl]; exact hlt) hlen (i := i) (by simpa using hidx)
    have h2 := (hi.rep.ht (2 * i) (by rw [hpl]; omega)).symm.trans (hr.ht (2 * i) (by omega))
    rw [h1, Option.some.inj h2]
    rfl

/-- C71: where the linear prediction downwards plays no role the code runs the published algorithm but for the rule
when to move a marker.
Missing for the full statement: the published rule, see `C71_violated`. -/
theorem C71_no_fallback_partial {quantiles : List Ratio} (hq : ∀ r ∈ quantiles, 0 < r.den)
    (hL : 2 * quantiles.length + 3 < 2 ^ w) (ops : List (Op ℝ)) (hops : ops.length < 2 ^ w)
    (hn : 2 * quantiles.length + 3 ≤ (sinceClear ops).length)
    (hrole : ∀ down, Spec.p2 (fun x => 0 < x) down (2 * quantiles.length + 3) (fractionAt quantiles) (sinceClear ops)
      = Spec.p2 (fun x => 0 < x) Spec.psquareLinearDown (2 * quantiles.length + 3) (fractionAt quantiles) (sinceClear ops)) :
    ∃ s : PSquare w (E ε), PSquare.run quantiles (finOps ops) = some s
      ∧ let m := Spec.p2 (fun x => 0 < x) Spec.psquareLinearDown (2 * quantiles.length + 3) (fractionAt quantiles)
          (sinceClear ops)
        ∀ i < 2 * quantiles.length + 3,
          s.positions[i]? = some (BitVec.ofNat w (m.n i)) ∧ s.heights[i]? = some (X.fin (m.q i)) := by
  obtain ⟨s, hs, -, -, h, -⟩ := C71_algorithm_partial (ε := ε) hq hL ops hops hn
  refine ⟨s, hs, fun i hi => ?_⟩
  have := h i hi
  rw [hrole] at this
  exact ⟨this.1, this.2.2⟩

theorem p2Adjust_ne (far : ℝ → Prop) (down : (Nat → ℝ) → (Nat → ℝ) → Nat → ℝ) (d : Nat → ℝ) (m : Spec.P2) {i j : Nat}
    (h : j ≠ i) : (Spec.p2Adjust far down d m i).q j = m.q j ∧ (Spec.p2Adjust far down d m i).n j = m.n j := by
  unfold Spec.p2Adjust
  dsimp only
  split_ifs <;> simp [Function.update_of_ne h]

theorem fractionAt_median : fractionAt [median] 1 = 1 / 4 ∧ fractionAt [median] 2 = 1 / 2 ∧ fractionAt [median] 3 = 3 / 4 := by
  refine ⟨?_, ?_, ?_⟩ <;> norm_num [fractionAt, quantileAt, median, Ratio.val]

/-- With the rule of the code and the published linear prediction marker 1 moves to height 0. -/
theorem p2_demoDown : (Spec.p2 (fun x => 0 < x) Spec.psquareLinearDown 5 (fractionAt [median]) ([0, 1, 10, 20, 30] ++ [-1])).q 1 = 0 := by
  have hsort : Spec.sorted [0, 1, 10, 20, 30] = ([0, 1, 10, 20, 30] : List ℝ) :=
    Spec.sorted_unique (List.Perm.refl _) (by norm_num)
  rw [Spec.p2_snoc _ _ _ (by simp)]
  have h0 : Spec.p2 (fun x => 0 < x) Spec.psquareLinearDown 5 (fractionAt [median]) [0, 1, 10, 20, 30]
      = { n := fun i => i + 1, q := fun i => ([0, 1, 10, 20, 30] : List ℝ).getD i 0 } := by
    unfold Spec.p2
    simp [hsort]
  rw [h0]
  unfold Spec.p2Push
  have e : List.range' 1 (5 - 2) = [1, 2, 3] := rfl
  rw [e, List.foldl_cons, List.foldl_cons, List.foldl_cons, List.foldl_nil, (p2Adjust_ne _ _ _ _ (by decide)).1,
    (p2Adjust_ne _ _ _ _ (by decide)).1]
  unfold Spec.p2Adjust Spec.p2Insert Spec.p2Cell
  norm_num [fractionAt_median.1, Spec.psquareParabolic, Spec.psquareLinearDown]

/-- C71: also with the rule of the code the published linear prediction downwards is violated: the median after
0, 1, 10, 20, 30, -1. -/
theorem C71_linear_violated (ε : ℝ) : ¬ Follows 64 ε (fun x => 0 < x) Spec.psquareLinearDown := by
  intro hc
  obtain ⟨s, s', h1, h2, -, -, h3, -⟩ := C40_reachable ε
  obtain ⟨t, ht, h4⟩ := hc [median] median_ok (by decide) (demoDown ++ [.push (-1)]) (by decide) (by decide)
  have hst : t = s' := by
    have : (PSquare.run [median] (finOps (demoDown ++ [.push (-1)])) : Option (PSquare 64 (E ε))) = s.push (X.fin (-1)) := by
      rw [PSquare.run] at h1
      rw [finOps, List.map_append, PSquare.run, runOps_append, ← finOps, h1]
      rfl
    rw [ht, h2] at this
    exact Option.some.inj this
  subst hst
  have h5 := (h4 1 (by decide)).2
  rw [h3] at h5
  have h6 := X.fin_inj.1 (Option.some.inj h5)
  have h7 : (Spec.p2 (fun x => 0 < x) Spec.psquareLinearDown (2 * [median].length + 3) (fractionAt [median])
    (sinceClear (demoDown ++ [.push (-1)]))).q 1 = 0 := p2_demoDown
  rw [h7] at h6
  norm_num at h6

/-- 0, 1, 10, 20, 30 and 40 with the rule of the code: marker 3 moves up, nothing moves down. -/
theorem p2_up (down : (Nat → ℝ) → (Nat → ℝ) → Nat → ℝ) :
    Spec.p2 (fun x => 0 < x) down 5 (fractionAt [median]) ([0, 1, 10, 20, 30] ++ [40])
      = { n := fun i => [1, 2, 3, 5, 6].getD i (i + 2), q := fun i => [0, 1, 10, 30, 40].getD i 0 } := by
  have hsort : Spec.sorted [0, 1, 10, 20, 30] = ([0, 1, 10, 20, 30] : List ℝ) :=
    Spec.sorted_unique (List.Perm.refl _) (by norm_num)
  rw [Spec.p2_snoc _ _ _ (by simp)]
  have h0 : Spec.p2 (fun x => 0 < x) down 5 (fractionAt [median]) [0, 1, 10, 20, 30]
      = { n := fun i => i + 1, q := fun i => ([0, 1, 10, 20, 30] : List ℝ).getD i 0 } := by
    unfold Spec.p2
    simp [hsort]
  rw [h0]
  unfold Spec.p2Push
  have e : List.range' 1 (5 - 2) = [1, 2, 3] := rfl
  obtain ⟨f1, f2, f3⟩ := fractionAt_median
  have hins : Spec.p2Insert 5 { n := fun i => i + 1, q := fun i => ([0, 1, 10, 20, 30] : List ℝ).getD i 0 } 40
      = { n := fun i => [1, 2, 3, 4, 6].getD i (i + 2), q := fun i => [0, 1, 10, 20, 40].getD i 0 } := by
    unfold Spec.p2Insert Spec.p2Cell
    norm_num
    constructor
    · funext i
      rcases i with _ | _ | _ | _ | _ | i <;> simp
    · funext i
      rcases i with _ | _ | _ | _ | _ | i <;> norm_num; omega
  rw [e, hins, List.foldl_cons, List.foldl_cons, List.foldl_cons, List.foldl_nil]
  have a1 : Spec.p2Adjust (fun x => 0 < x) down (fun i => 1 + (([0, 1, 10, 20, 30] : List ℝ).length : ℝ) * fractionAt [median] i)
      { n := fun i => [1, 2, 3, 4, 6].getD i (i + 2), q := fun i => [0, 1, 10, 20, 40].getD i 0 } 1
      = { n := fun i => [1, 2, 3, 4, 6].getD i (i + 2), q := fun i => [0, 1, 10, 20, 40].getD i 0 } := by
    unfold Spec.p2Adjust
    norm_num [f1]
  have a2 : Spec.p2Adjust (fun x => 0 < x) down (fun i => 1 + (([0, 1, 10, 20, 30] : List ℝ).length : ℝ) * fractionAt [median] i)
      { n := fun i => [1, 2, 3, 4, 6].getD i (i + 2), q := fun i => [0, 1, 10, 20, 40].getD i 0 } 2
      = { n := fun i => [1, 2, 3, 4, 6].getD i (i + 2), q := fun i => [0, 1, 10, 20, 40].getD i 0 } := by
    unfold Spec.p2Adjust
    norm_num [f2]
  rw [a1, a2]
  unfold Spec.p2Adjust
  norm_num [f3, Spec.psquareParabolic]
  constructor
  · funext i
    rcases i with _ | _ | _ | _ | _ | i <;> simp [Function.update]
  · funext i
    rcases i with _ | _ | _ | _ | _ | i <;> norm_num [Function.update]; omega

/-- The markers of the median after 0, 1, 10, 20, 30, 40. -/
example : ∃ s : PSquare 64 (E ε), PSquare.run [median] (finOps (demoDown ++ [.push 40])) = some s
    ∧ s.positions[3]? = some 5 ∧ s.heights[3]? = some (X.fin (30)) := by
  have e : sinceClear (demoDown ++ [.push 40]) = ([0, 1, 10, 20, 30] ++ [40] : List ℝ) := rfl
  obtain ⟨s, hs, h⟩ := C71_no_fallback_partial (w := 64) (ε := ε) median_ok.den (by decide) (demoDown ++ [.push 40]) (by decide)
    (by decide) (fun down => by rw [e]; exact (p2_up down).trans (p2_up _).symm)
  have h3 := h 3 (by decide)
  have em : Spec.p2 (fun x => 0 < x) Spec.psquareLinearDown (2 * [median].length + 3) (fractionAt [median]) (sinceClear (demoDown ++ [.push 40]))
      = _ := p2_up _
  rw [em] at h3
  exact ⟨s, hs, h3.1, h3.2⟩

/-- With the published rule marker 3 stays at position 4: its desired position is 4.75. -/
theorem p2_stay (down : (Nat → ℝ) → (Nat → ℝ) → Nat → ℝ) :
    (Spec.p2 Spec.p2Far down 5 (fractionAt [median]) ([0, 1, 10, 20, 30] ++ [40])).n 3 = 4 := by
  have hsort : Spec.sorted [0, 1, 10, 20, 30] = ([0, 1, 10, 20, 30] : List ℝ) :=
    Spec.sorted_unique (List.Perm.refl _) (by norm_num)
  rw [Spec.p2_snoc _ _ _ (by simp)]
  have h0 : Spec.p2 Spec.p2Far down 5 (fractionAt [median]) [0, 1, 10, 20, 30]
      = { n := fun i => i + 1, q := fun i => ([0, 1, 10, 20, 30] : List ℝ).getD i 0 } := by
    unfold Spec.p2
    simp [hsort]
  rw [h0]
  unfold Spec.p2Push
  have e : List.range' 1 (5 - 2) = [1, 2, 3] := rfl
  obtain ⟨f1, f2, f3⟩ := fractionAt_median
  have hins : Spec.p2Insert 5 { n := fun i => i + 1, q := fun i => ([0, 1, 10, 20, 30] : List ℝ).getD i 0 } 40
      = { n := fun i => [1, 2, 3, 4, 6].getD i (i + 2), q := fun i => [0, 1, 10, 20, 40].getD i 0 } := by
    unfold Spec.p2Insert Spec.p2Cell
    norm_num
    constructor
    · funext i
      rcases i with _ | _ | _ | _ | _ | i <;> simp
    · funext i
      rcases i with _ | _ | _ | _ | _ | i <;> norm_num; omega
  rw [e, hins, List.foldl_cons, List.foldl_cons, List.foldl_cons, List.foldl_nil]
  have a1 : ∀ j ∈ [1, 2, 3], Spec.p2Adjust Spec.p2Far down
      (fun i => 1 + (([0, 1, 10, 20, 30] : List ℝ).length : ℝ) * fractionAt [median] i)
      { n := fun i => [1, 2, 3, 4, 6].getD i (i + 2), q := fun i => [0, 1, 10, 20, 40].getD i 0 } j
      = { n := fun i => [1, 2, 3, 4, 6].getD i (i + 2), q := fun i => [0, 1, 10, 20, 40].getD i 0 } := by
    intro j hj
    simp only [List.mem_cons, List.not_mem_nil, or_false] at hj
    unfold Spec.p2Adjust Spec.p2Far
    rcases hj with rfl | rfl | rfl <;> norm_num [f1, f2, f3]
  rw [a1 1 (by simp), a1 2 (by simp), a1 3 (by simp)]
  rfl

/-- C71 is violated: the median after 0, 1, 10, 20, 30, 40.  Marker 3 has the desired position 4.75 and moves from 4
to 5, where the published algorithm leaves it. -/
theorem C71_violated (ε : ℝ) : ¬ C71_Statement 64 ε := by
  intro hc
  have e : sinceClear (demoDown ++ [.push 40]) = ([0, 1, 10, 20, 30] ++ [40] : List ℝ) := rfl
  obtain ⟨s, hs, h⟩ := C71_no_fallback_partial (w := 64) (ε := ε) median_ok.den (by decide) (demoDown ++ [.push 40]) (by decide)
    (by decide) (fun down => by rw [e]; exact (p2_up down).trans (p2_up _).symm)
  obtain ⟨t, ht, h'⟩ := hc [median] median_ok (by decide) (demoDown ++ [.push 40]) (by decide) (by decide)
  have hst : t = s := Option.some.inj (ht.symm.trans hs)
  subst hst
  have h3 := (h 3 (by decide)).1
  have h4 := (h' 3 (by decide)).1
  have em : Spec.p2 (fun x => 0 < x) Spec.psquareLinearDown (2 * [median].length + 3) (fractionAt [median])
    (sinceClear (demoDown ++ [.push 40])) = _ := p2_up _
  have en : (Spec.p2 Spec.p2Far Spec.psquareLinearDown (2 * [median].length + 3) (fractionAt [median])
    (sinceClear (demoDown ++ [.push 40]))).n 3 = 4 := p2_stay _
  rw [em] at h3
  rw [en] at h4
  exact absurd (Option.some.inj (h3.symm.trans h4)) (by decide)

/-! ### C72 -/

section affine
variable {a b : ℝ}

/-- The markers with heights `a q + b`. -/
def P2.affine (a b : ℝ) (m : Spec.P2) : Spec.P2 := { n := m.n, q := fun i => a * m.q i + b }

theorem codeDown_affine (n q : Nat → ℝ) (i : Nat) :
    codeDown w n (fun i => a * q i + b) i = a * codeDown w n q i + b := by
  unfold codeDown; ring

theorem p2Adjust_affine (ha : 0 < a) (d : Nat → ℝ) (m : Spec.P2) (i : Nat) :
    Spec.p2Adjust Early (codeDown w) d (P2.affine a b m) i = P2.affine a b (Spec.p2Adjust Early (codeDown w) d m i) := by
  have hp : ∀ s : ℝ, Spec.psquareParabolic s (fun j => m.n j) (fun i => a * m.q i + b) i
      = a * Spec.psquareParabolic s (fun j => m.n j) m.q i + b := by
    intro s; unfold Spec.psquareParabolic; ring
  have hl : Spec.psquareLinearUp (fun j => m.n j) (fun i => a * m.q i + b) i
      = a * Spec.psquareLinearUp (fun j => m.n j) m.q i + b := by
    unfold Spec.psquareLinearUp; ring
  have hlt : ∀ x y : ℝ, a * x + b < a * y + b ↔ x < y := by
    intro x y; rw [add_lt_add_iff_right, mul_lt_mul_iff_right₀ ha]
  have hupd : ∀ v : ℝ, Function.update (fun i => a * m.q i + b) i (a * v + b) = fun j => a * Function.update m.q i v j + b := by
    intro v
    funext j
    by_cases e : j = i
    · subst e; simp
    · rw [Function.update_of_ne e, Function.update_of_ne e]
  unfold Spec.p2Adjust P2.affine
  dsimp only
  rw [hp, hp, hl, codeDown_affine]
  simp only [hlt, ← apply_ite (fun x : ℝ => a * x + b), hupd]
  split_ifs <;> rfl

theorem p2Insert_affine (ha : 0 < a) (L : Nat) (m : Spec.P2) (x : ℝ) :
    Spec.p2Insert L (P2.affine a b m) (a * x + b) = P2.affine a b (Spec.p2Insert L m x) := by
  have hlt : ∀ x y : ℝ, a * x + b < a * y + b ↔ x < y := by
    intro x y; rw [add_lt_add_iff_right, mul_lt_mul_iff_right₀ ha]
  have hle : ∀ x y : ℝ, a * x + b ≤ a * y + b ↔ x ≤ y := by
    intro x y; rw [add_le_add_iff_right, mul_le_mul_iff_right₀ ha]
  have hmono : Monotone fun x : ℝ => a * x + b := fun x y h => (hle x y).2 h
  have hcell : Spec.p2Cell L (fun i => a * m.q i + b) (a * x + b) = Spec.p2Cell L m.q x := by
    unfold Spec.p2Cell
    simp only [hlt, hle]
  unfold Spec.p2Insert P2.affine
  dsimp only
  rw [hcell]
  congr 1
  funext i
  split_ifs
  · exact (hmono.map_min).symm
  · exact (hmono.map_max).symm
  · rfl

/-- The first `L` markers agree. -/
def Agree (L : Nat) (m m' : Spec.P2) : Prop := ∀ j < L, m.n j = m'.n j ∧ m.q j = m'.q j

theorem p2Adjust_early (down : (Nat → ℝ) → (Nat → ℝ) → Nat → ℝ) (d : Nat → ℝ) (m : Spec.P2) (i : Nat) :
    Spec.p2Adjust Early down d m i =
      let n : Nat → ℝ := fun j => m.n j
      let up := Spec.psquareParabolic 1 n m.q i
      let dn := Spec.psquareParabolic (-1) n m.q i
      if m.n i < d i ∧ m.n i + 1 < m.n (i + 1) then
        { n := Function.update m.n i (m.n i + 1)
          q := Function.update m.q i (if m.q (i - 1) < up ∧ up < m.q (i + 1) then up else Spec.psquareLinearUp n m.q i) }
      else if d i < m.n i ∧ m.n (i - 1) + 1 < m.n i then
        { n := Function.update m.n i (m.n i - 1)
          q := Function.update m.q i (if m.q (i - 1) < dn ∧ dn < m.q (i + 1) then dn else down n m.q i) }
      else m := by
  unfold Spec.p2Adjust Early
  dsimp only
  simp only [sub_pos]

theorem Agree.adjust {L : Nat} {m m' : Spec.P2} (h : Agree L m m') (d : Nat → ℝ) {i : Nat} (h1 : 1 ≤ i) (h2 : i + 1 < L) :
    Agree L (Spec.p2Adjust Early (codeDown w) d m i) (Spec.p2Adjust Early (codeDown w) d m' i) := by
  obtain ⟨n0, q0⟩ := h (i - 1) (by omega)
  obtain ⟨n1, q1⟩ := h i (by omega)
  obtain ⟨n2, q2⟩ := h (i + 1) h2
  intro j hj
  by_cases e : j = i
  · subst e
    rw [p2Adjust_early, p2Adjust_early]
    unfold Spec.psquareParabolic Spec.psquareLinearUp codeDown
    dsimp only
    simp only [n0, n1, n2, q0, q1, q2]
    split_ifs <;> simp [n1, q1]
  · rw [(p2Adjust_ne _ _ _ _ e).1, (p2Adjust_ne _ _ _ _ e).2, (p2Adjust_ne _ _ _ _ e).1, (p2Adjust_ne _ _ _ _ e).2]
    exact h j hj

theorem Agree.loop {L : Nat} {m m' : Spec.P2} (h : Agree L m m') (d : Nat → ℝ) (n : Nat) (hn : n + 2 ≤ L) :
    Agree L ((List.range' 1 n).foldl (Spec.p2Adjust Early (codeDown w) d) m)
      ((List.range' 1 n).foldl (Spec.p2Adjust Early (codeDown w) d) m') := by
  induction n with
  | zero => exact h
  | succ n ih =>
    rw [List.range'_1_concat, List.foldl_append, List.foldl_append]
    exact (ih (by omega)).adjust d (by omega) (by omega)

theorem Agree.insert {L : Nat} (hL : 1 ≤ L) {m m' : Spec.P2} (h : Agree L m m') (x : ℝ) :
    Agree L (Spec.p2Insert L m x) (Spec.p2Insert L m' x) := by
  have hcell : Spec.p2Cell L m.q x = Spec.p2Cell L m'.q x := by
    unfold Spec.p2Cell
    rw [(h 0 (by omega)).2, (h (L - 1) (by omega)).2]
    have : (List.range L).filter (fun i => decide (m.q i ≤ x)) = (List.range L).filter (fun i => decide (m'.q i ≤ x)) := by
      apply List.filter_congr
      intro i hi
      rw [(h i (List.mem_range.1 hi)).2]
    rw [this]
  intro j hj
  unfold Spec.p2Insert
  dsimp only
  rw [hcell, (h 0 (by omega)).2, (h (L - 1) (by omega)).2, (h j hj).1, (h j hj).2]
  exact ⟨rfl, rfl⟩

theorem Agree.push {L : Nat} (hL : 2 ≤ L) {m m' : Spec.P2} (h : Agree L m m') (f : Nat → ℝ) (N : Nat) (x : ℝ) :
    Agree L (Spec.p2Push Early (codeDown w) L f N m x) (Spec.p2Push Early (codeDown w) L f N m' x) :=
  (h.insert (by omega) x).loop _ _ (by omega)

theorem p2Push_affine (ha : 0 < a) (L : Nat) (f : Nat → ℝ) (N : Nat) (m : Spec.P2) (x : ℝ) :
    Spec.p2Push Early (codeDown w) L f N (P2.affine a b m) (a * x + b) = P2.affine a b (Spec.p2Push Early (codeDown w) L f N m x) := by
  unfold Spec.p2Push
  rw [p2Insert_affine ha]
  generalize Spec.p2Insert L m x = m
  generalize List.range' 1 (L - 2) = is
  induction is generalizing m with
  | nil => rfl
  | cons i is ih => rw [List.foldl_cons, List.foldl_cons, p2Adjust_affine ha, ih]

theorem sorted_affine (ha : 0 < a) (xs : List ℝ) :
    Spec.sorted (xs.map fun x => a * x + b) = (Spec.sorted xs).map fun x => a * x + b := by
  refine Spec.sorted_unique ((Spec.sorted_perm xs).map _) ?_
  rw [List.pairwise_map]
  exact (Spec.sorted_pairwise xs).imp fun h => by
    have := mul_le_mul_of_nonneg_left h ha.le
    linarith

theorem p2_affine (ha : 0 < a) {L : Nat} (hL : 2 ≤ L) (f : Nat → ℝ) (xs : List ℝ) (hlen : L ≤ xs.length) :
    Agree L (Spec.p2 Early (codeDown w) L f (xs.map fun x => a * x + b)) (P2.affine a b (Spec.p2 Early (codeDown w) L f xs)) := by
  induction xs using List.reverseRecOn with
  | nil => simp at hlen; omega
  | append_singleton xs x ih =>
    rcases Nat.lt_or_ge xs.length L with h | h
    · have hl2 : (xs ++ [x]).length = L := by
        rw [List.length_append, List.length_singleton] at hlen ⊢; omega
      unfold Spec.p2
      rw [List.drop_eq_nil_of_le (by simpa using hl2.le), List.drop_eq_nil_of_le hl2.le,
        List.take_of_length_le (by simpa using hl2.le), List.take_of_length_le hl2.le, sorted_affine ha]
      intro j hj
      refine ⟨rfl, ?_⟩
      have hj' : j < (Spec.sorted (xs ++ [x])).length := by rw [Spec.sorted_length]; omega
      dsimp only [List.foldl_nil, P2.affine]
      rw [List.getD_eq_getElem _ _ (by simpa using hj'), List.getD_eq_getElem _ _ hj', List.getElem_map]
    · rw [List.map_append, List.map_singleton, Spec.p2_snoc _ _ _ (by simpa using h), Spec.p2_snoc _ _ _ h, ← p2Push_affine ha,
        List.length_map]
      exact (ih h).push hL f _ _

theorem quantile_affine (ha : 0 < a) {q : ℝ} (h1 : q ≤ 1) {xs : List ℝ} (hne : xs ≠ []) :
    Spec.quantile q (xs.map fun x => a * x + b) = a * Spec.quantile q xs + b := by
  have hl : 0 < xs.length := List.length_pos_iff.2 hne
  have hl' : (1 : ℝ) ≤ xs.length := by exact_mod_cast hl
  have hr : q * ((xs.length : ℝ) - 1) ≤ ((xs.length - 1 : Nat) : ℝ) := by
    rw [Nat.cast_sub hl, Nat.cast_one]
    nlinarith
  have hc : ⌈q * ((xs.length : ℝ) - 1)⌉₊ < (Spec.sorted xs).length := by
    have := Nat.ceil_le.2 hr
    rw [Spec.sorted_length]; omega
  have hf : ⌊q * ((xs.length : ℝ) - 1)⌋₊ < (Spec.sorted xs).length := (Nat.floor_le_ceil _).trans_lt hc
  unfold Spec.quantile
  dsimp only
  rw [List.length_map, sorted_affine ha, List.getD_eq_getElem _ _ (by simpa using hf), List.getD_eq_getElem _ _ (by simpa using hc),
    List.getD_eq_getElem _ _ hf, List.getD_eq_getElem _ _ hc, List.getElem_map, List.getElem_map]
  ring

end affine

/-- While the sample is not complete the positions are `1, 2, ...`. -/
theorem positions_few {quantiles : List Ratio} (hL : 2 * quantiles.length + 3 < 2 ^ w) (ops : List (Op ℝ))
    (hops : ops.length < 2 ^ w) (hn : (sinceClear ops).length ≤ 2 * quantiles.length + 3) {s : PSquare w (E ε)}
    (hs : PSquare.run quantiles (finOps ops) = some s) :
    s.positions = (List.range (2 * quantiles.length + 3)).map fun i => BitVec.ofNat w (i + 1) := by
  have hlen := (sinceClear_length_le ops).trans_lt hops
  obtain ⟨t, p, g, d, ht, hj⟩ := pushes_inv (w := w) (quantiles.map (Ratio.toScalar : Ratio → E ε)) (by simpa [paramLength] using hL)
    ((sinceClear ops).map X.fin) (by simpa using hlen)
  rw [run_eq_pushes quantiles hL _ (by simpa [finOps] using hops), sinceClear_finOps, ht] at hs
  obtain rfl := Option.some.inj hs
  have hpl : paramLength (quantiles.map (Ratio.toScalar : Ratio → E ε)).length = 2 * quantiles.length + 3 := by simp [paramLength]
  have hrep := hj.rep
  have hfew := (hj.few (by rw [hpl, List.length_map]; exact hn)).1
  rw [hpl] at hrep
  apply List.ext_getElem?
  intro i
  rcases Nat.lt_or_ge i (2 * quantiles.length + 3) with h | h
  · rw [hrep.pos i h, List.getElem?_map, List.getElem?_range h, hfew]
    rfl
  · rw [List.getElem?_eq_none (by rw [hrep.pos_len]; exact h), List.getElem?_eq_none (by simpa using h)]

/-- C72: multiplying all values by `a > 0` and adding `b` does the same to every estimate; the marker positions
do not change. -/
theorem C72_affine {quantiles : List Ratio} (hq : Quantiles quantiles)
    (hL : 2 * quantiles.length + 3 < 2 ^ w) (ops : List (Op ℝ)) (hops : ops.length < 2 ^ w) (hne : sinceClear ops ≠ [])
    {a : ℝ} (ha : 0 < a) (b : ℝ) :
    ∃ (s t : PSquare w (E ε)) (v : Nat → ℝ), PSquare.run quantiles (finOps ops) = some s
      ∧ PSquare.run quantiles (finOps (affine a b ops)) = some t
      ∧ (∀ i ≤ quantiles.length + 1, s.get i = some (X.fin (v i)) ∧ t.get i = some (X.fin (a * v i + b)))
      ∧ t.positions = s.positions := by
  have hops' : (affine a b ops).length < 2 ^ w := by rw [affine, List.length_map]; exact hops
  have hsc : sinceClear (affine a b ops) = (sinceClear ops).map fun x => a * x + b := sinceClear_map _ _
  rcases Nat.lt_or_ge (2 * quantiles.length + 3) (sinceClear ops).length with h | h
  · obtain ⟨s, hs, l1, -, h1, h2⟩ := C71_algorithm_partial (ε := ε) hq.den hL ops hops h.le
    obtain ⟨t, ht, l2, -, h3, h4⟩ := C71_algorithm_partial (ε := ε) hq.den hL (affine a b ops) hops'
      (by rw [hsc, List.length_map]; exact h.le)
    rw [hsc] at h3 h4
    have hag := p2_affine (w := w) (b := b) ha (L := 2 * quantiles.length + 3) (by omega) (fractionAt quantiles) (sinceClear ops) h.le
    refine ⟨s, t, fun i => (Spec.p2 Early (codeDown w) (2 * quantiles.length + 3) (fractionAt quantiles) (sinceClear ops)).q (2 * i),
      hs, ht, fun i hidx => ⟨h2 h i hidx, ?_⟩, ?_⟩
    · rw [h4 (by rw [List.length_map]; exact h) i hidx, Option.some.injEq, X.fin_inj]
      exact (hag (2 * i) (by omega)).2
    · apply List.ext_getElem?
      intro i
      rcases Nat.lt_or_ge i (2 * quantiles.length + 3) with hi | hi
      · rw [(h1 i hi).1, (h3 i hi).1]
        congr 2
        exact (hag i hi).1
      · rw [List.getElem?_eq_none (by omega), List.getElem?_eq_none (by omega)]
  · have h' : (sinceClear (affine a b ops)).length ≤ 2 * quantiles.length + 3 := by rw [hsc, List.length_map]; exact h
    obtain ⟨s, hs, -, -, -, h2⟩ := C35_few (ε := ε) hq hL ops hops h
    obtain ⟨t, ht, -, -, -, h4⟩ := C35_few (ε := ε) hq hL (affine a b ops) hops' h'
    refine ⟨s, t, fun i => Spec.quantile (quantileAt quantiles i) (sinceClear ops), hs, ht, fun i hidx => ⟨h2 hne i hidx, ?_⟩, ?_⟩
    · rw [h4 (by rw [hsc]; simpa using hne) i hidx, hsc]
      have hb : quantileAt quantiles i ≤ 1 := by
        unfold quantileAt
        have hil : i < (0 :: quantiles.map Ratio.val ++ [1]).length := by simp; omega
        rw [List.getD_eq_getElem _ _ hil]
        have hmem := List.getElem_mem hil
        generalize (0 :: quantiles.map Ratio.val ++ [1])[i] = x at hmem
        simp only [List.cons_append, List.mem_cons, List.mem_append, List.mem_map, List.not_mem_nil, or_false] at hmem
        rcases hmem with rfl | ⟨r, hr, rfl⟩ | rfl
        · norm_num
        · exact (hq r hr).2.2.le
        · norm_num
      rw [quantile_affine ha hb hne]
    · rw [positions_few hL ops hops h hs, positions_few hL _ hops' h' ht]

/-- Celsius to Fahrenheit for the median of eight values. -/
example : ∃ (s t : PSquare 64 (E ε)) (v : ℝ), PSquare.run [median] (finOps demoQ7) = some s
    ∧ PSquare.run [median] (finOps (affine (9 / 5) 32 demoQ7)) = some t
    ∧ s.get 1 = some (X.fin v) ∧ t.get 1 = some (X.fin (9 / 5 * v + 32)) := by
  obtain ⟨s, t, v, hs, ht, h, -⟩ := C72_affine (w := 64) (ε := ε) median_ok (by decide) demoQ7 (by decide)
    (by simp [demoQ7, sinceClear]) (a := 9 / 5) (by norm_num) 32
  exact ⟨s, t, v 1, hs, ht, (h 1 (by decide)).1, (h 1 (by decide)).2⟩

/-! ### C73 -/

/-- C73: the order of the first `2 q + 3` values is irrelevant, for the state and so for everything after. -/
theorem C73_order {quantiles : List Ratio} (hq : ∀ r ∈ quantiles, 0 < r.den) (hL : 2 * quantiles.length + 3 < 2 ^ w)
    (pre : List (Op ℝ)) {xs xs' : List ℝ} (hx : xs.Perm xs') (hn : xs.length ≤ 2 * quantiles.length + 3) (post : List (Op ℝ))
    (hpre : (pre ++ .clear :: xs.map Op.push).length < 2 ^ w) :
    (PSquare.run quantiles (finOps (pre ++ .clear :: xs.map Op.push ++ post)) : Option (PSquare w (E ε)))
      = PSquare.run quantiles (finOps (pre ++ .clear :: xs'.map Op.push ++ post)) := by
  have key : (PSquare.run quantiles (finOps (pre ++ .clear :: xs.map Op.push)) : Option (PSquare w (E ε)))
      = PSquare.run quantiles (finOps (pre ++ .clear :: xs'.map Op.push)) := by
    have hpre' : (pre ++ .clear :: xs'.map Op.push).length < 2 ^ w := by
      simpa [hx.length_eq] using hpre
    have e1 : sinceClear (pre ++ .clear :: xs.map Op.push) = xs := by rw [sinceClear_clear_append, sinceClear_pushes]
    have e2 : sinceClear (pre ++ .clear :: xs'.map Op.push) = xs' := by rw [sinceClear_clear_append, sinceClear_pushes]
    obtain ⟨s, p, r, hs, hi⟩ := run_exact (ε := ε) hq hL _ hpre
    obtain ⟨t, p', r', ht, hj⟩ := run_exact (ε := ε) hq hL _ hpre'
    have hp1 := positions_few hL _ hpre (by rw [e1]; exact hn) hs
    have hp2 := positions_few hL _ hpre' (by rw [e2, ← hx.length_eq]; exact hn) ht
    rw [e1] at hi
    rw [e2] at hj
    have hpl : paramLength (quantiles.map Ratio.val).length = 2 * quantiles.length + 3 := by simp [paramLength]
    have hh1 := hi.few (by rw [hpl]; exact hn)
    have hh2 := hj.few (by rw [hpl, ← hx.length_eq]; exact hn)
    have hsort : Spec.sorted xs = Spec.sorted xs' :=
      Spec.sorted_unique ((Spec.sorted_perm xs').trans hx.symm) (Spec.sorted_pairwise xs')
    have hl := hx.length_eq
    rw [hs, ht]
    congr 1
    have hdes : s.desired = t.desired := by
      apply List.ext_getElem?
      intro i
      rcases Nat.lt_or_ge i (paramLength (quantiles.map Ratio.val).length) with h | h
      · rw [hi.rep.des i h, hj.rep.des i h, hl]
      · rw [List.getElem?_eq_none (by rw [hi.rep.des_len]; exact h), List.getElem?_eq_none (by rw [hj.rep.des_len]; exact h)]
    have hdel : s.deltas = t.deltas := by
      apply List.ext_getElem?
      intro i
      rcases Nat.lt_or_ge i (paramLength (quantiles.map Ratio.val).length) with h | h
      · rw [hi.rep.del i h, hj.rep.del i h]
      · rw [List.getElem?_eq_none (by rw [hi.rep.del_len]; exact h), List.getElem?_eq_none (by rw [hj.rep.del_len]; exact h)]
    have hcnt : s.count = t.count := by rw [hi.count, hj.count, hl]
    have hqs : s.qs = t.qs := by rw [hi.qs_eq, hj.qs_eq]
    have hht : s.heights = t.heights := by rw [hh1, hh2, hsort, hl]
    have hpos : s.positions = t.positions := by rw [hp1, hp2]
    cases s
    cases t
    dsimp only at hdes hdel hcnt hqs hht hpos
    rw [hdes, hdel, hcnt, hqs, hht, hpos]
  have hrun : ∀ a b : List (Op ℝ), (PSquare.run quantiles (finOps (a ++ b)) : Option (PSquare w (E ε)))
      = runOps (PSquare.run quantiles (finOps a)) (fun s x => s.bind (PSquare.push · x)) (Option.map PSquare.clear) (finOps b) := by
    intro a b
    rw [finOps, List.map_append]
    exact runOps_append _ _ _ _ _
  rw [hrun _ post, key, ← hrun _ post]

/-- Five values in two orders, then two more. -/
example : (PSquare.run [median] (finOps ([.push 7] ++ .clear :: [3, 1, 2, 5, 4].map Op.push ++ [.push 9, .push 0]))
      : Option (PSquare 64 (E ε)))
    = PSquare.run [median] (finOps ([.push 7] ++ .clear :: [1, 2, 3, 4, 5].map Op.push ++ [.push 9, .push 0])) :=
  C73_order (w := 64) median_ok.den (by decide) [.push 7] 
    (by simpa using (by decide : List.Perm [3, 1, 2, 5, 4] [1, 2, 3, 4, 5]).map (fun n : ℕ => (n : ℝ))) (by decide) _ (by decide)

end Verif.Props
