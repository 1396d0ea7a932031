import Verif.Proofs.PSquareInterp
import Verif.Props.PSquareOrder
/-
C110: the estimates of the P-square estimator in floating point while there are not more than `2 q + 3` values, where they
are interpolated between the values.
-/
namespace Verif.Props
open Scalar Verif.PSquare

variable {w : Nat} {F : Fmt} {p : Nat} {emin : Int}

/-- C110, the claim: with quantiles in ascending order the estimates for few values are finite and in order. -/
def InterpolationInOrder (w : Nat) (F : Fmt) (p : Nat) (emin : Int) : Prop :=
  ∀ (quantiles : List Ratio) (ops : List (Op ℝ)), (∀ r ∈ quantiles, 0 < r.den ∧ 0 < r.val ∧ r.val < 1) →
    (quantiles.Pairwise fun a b => a.val < b.val) → 2 * quantiles.length + 3 < 2 ^ w → ops.length < 2 ^ w →
    F.Data p emin (sinceClear ops) → 1 ≤ (sinceClear ops).length → (sinceClear ops).length ≤ 2 * quantiles.length + 3 →
    OrderedEstimates w F quantiles ops

/-- The state of the estimator after few values. -/
private theorem few_state (quantiles : List Ratio) (hL : 2 * quantiles.length + 3 < 2 ^ w) (ops : List (Op ℝ))
    (hops : ops.length < 2 ^ w) :
    ∃ (s : PSquare w (X F)) (ps : Nat → Nat) (h d : Nat → X F), PSquare.run quantiles (finOps ops) = some s
      ∧ InvF (quantiles.map (Ratio.toScalar : Ratio → X F)) (sinceClear ops) (fun _ => True) s ps h d := by
  have hl : (quantiles.map (Ratio.toScalar : Ratio → X F)).length = quantiles.length := by simp
  have hw := (sinceClear_length_le ops).trans_lt hops
  obtain ⟨s, ps, h, d, hs, hi⟩ := pushes_invF (w := w) (b := (sinceClear ops).length)
    (quantiles.map (Ratio.toScalar : Ratio → X F)) (by rw [hl]; exact hL) (fun _ => True) (fun _ => True)
    (fun _ _ _ _ _ => trivial) (fun _ _ _ _ _ _ _ => trivial) (fun _ _ _ _ _ _ _ => trivial)
    (fun _ _ _ _ _ _ _ _ _ _ _ => trivial) (sinceClear ops) le_rfl hw (fun _ _ => trivial)
  refine ⟨s, ps, h, d, ?_, hi⟩
  rw [run_eq_pushes quantiles hL _ (by simpa [finOps] using hops), sinceClear_finOps, hs]

/-- A ratio between 0 and 1 is converted to the nearest number. -/
theorem ratio_near (hF : F.Binary p emin) {r : Ratio} (h0 : 0 ≤ r.num) (hden : 0 < r.den) (hle : r.num ≤ r.den)
    (hp : r.den ≤ 2 ^ p) (hfit : F.fits (r.den : ℝ)) : (r.toScalar : X F) = X.fin (F.rnd r.val) := by
  have hp1 : 1 ≤ p := by have := hF.digits; omega
  have hd' : (0 : ℝ) < r.den := by exact_mod_cast hden
  have hn' : (0 : ℝ) ≤ r.num := by exact_mod_cast h0
  have hle' : (r.num : ℝ) ≤ r.den := by exact_mod_cast hle
  have e1 : IsRep p emin (r.num : ℝ) := by
    have := isRep_mul (p := p) (emin := emin) (e := 0) (m := r.num) hp1 hF.emin_le (by
      rw [abs_of_nonneg h0]
      have : (r.den : Int) ≤ 2 ^ p := by exact_mod_cast hp
      omega)
    simpa using this
  have e2 : IsRep p emin (r.den : ℝ) := by
    have := isRep_mul (p := p) (emin := emin) (e := 0) (m := (r.den : Int)) hp1 hF.emin_le (by
      rw [abs_of_nonneg (by omega)]; exact_mod_cast hp)
    simpa using this
  unfold Ratio.toScalar Ratio.val
  rw [X.ofInt_eq, X.ofNat_eq, hF.round_exact e1 (hF.fits_between hF.fits_zero hfit hn' hle'), hF.round_exact e2 hfit,
    X.div_fin_of_ne _ hd'.ne']
  unfold X.round
  have h1 : 0 ≤ F.rnd ((r.num : ℝ) / r.den) := hF.rnd_nonneg (by positivity)
  have h2 : F.rnd ((r.num : ℝ) / r.den) ≤ 1 := hF.rnd_le hF.isRep_one (by rw [div_le_one hd']; exact hle')
  rw [if_pos (hF.fits_between hF.fits_zero hF.fits_one h1 h2)]

/-! The second value is not the next one -/

private theorem tie_two : binary64.rnd (1 - 1 / 2 ^ 53 + 1) = 2 := by
  rw [rnd64_tie (2 ^ 53 - 1) (-52) (by norm_num) (by rw [abs_of_pos (by norm_num)]; norm_num)
    (by rw [abs_of_pos (by norm_num)]; norm_num) (by norm_num), if_neg (by decide)]
  norm_num

private theorem three_data : binary64.Data 53 (-1074) ([0, 0, 1] : List ℝ) := by
  have := binary64_data [0, 0, 1] (by decide)
  simpa using this

/-- With the quantiles `(2^53 - 1) / 2^54` and `1/2` and the values 0, 0, 1 the first estimate is nearly 1, the second 0. -/
theorem C110_second_index : ∃ s : PSquare 64 (X binary64),
    PSquare.run [⟨2 ^ 53 - 1, 2 ^ 54⟩, ⟨1, 2⟩] (finOps [.push 0, .push 0, .push 1]) = some s
    ∧ s.get 1 = some (X.fin (1 - 1 / 2 ^ 53)) ∧ s.get 2 = some (X.fin 0) := by
  obtain ⟨s, ps, h, d, hs, hi⟩ := few_state (w := 64) (F := binary64) [⟨2 ^ 53 - 1, 2 ^ 54⟩, ⟨1, 2⟩] (by norm_num)
    [.push 0, .push 0, .push 1] (by norm_num)
  have hxs : sinceClear ([.push 0, .push 0, .push 1] : List (Op ℝ)) = [0, 0, 1] := rfl
  rw [hxs] at hi
  have hsorted : Spec.sorted ([0, 0, 1] : List ℝ) = [0, 0, 1] := by
    simp [Spec.sorted]
  have q0 : (Ratio.toScalar ⟨2 ^ 53 - 1, 2 ^ 54⟩ : X binary64) = X.fin (1 / 2 - 1 / 2 ^ 54) := by
    show ofInt (2 ^ 53 - 1) / ofNat (2 ^ 54) = _
    rw [X.ofInt_eq, round64_int (2 ^ 53 - 1) rfl (by norm_num), X.ofNat_eq, round64 1 54 (by norm_num) (by norm_num)
      (by norm_num) (by norm_num), X.div_fin_of_ne _ (by norm_num), round64 (2 ^ 53 - 1) (-54) (by norm_num) (by norm_num)
      (by norm_num) (by norm_num)]
    norm_num
  have q1 : (Ratio.toScalar ⟨1, 2⟩ : X binary64) = X.fin (1 / 2) := by
    show ofInt 1 / ofNat 2 = _
    rw [X.ofInt_eq, round64_int 1 (by norm_num) (by norm_num), ofNat64 (by norm_num), X.div_fin_of_ne _ (by norm_num),
      round64 1 (-1) (by norm_num) (by norm_num) (by norm_num) (by norm_num)]
    norm_num
  have hd : binary64.Data 53 (-1074) ([0, 0, 1] : List ℝ) := three_data
  have rd : ∀ (r : ℝ) (m e : Int), r = m * 2 ^ e → |m| ≤ 2 ^ 53 → -1074 ≤ e → e ≤ 970 → binary64.rnd r = r := by
    intro r m e hr hm he he'
    rw [hr]
    exact binary64_binary.exact _ (double m e hm he he').1
  -- the smaller quantile
  have r1 : rank binary64 2 (1 / 2 - 1 / 2 ^ 54) = 1 - 1 / 2 ^ 53 := by
    unfold rank
    rw [rd _ (2 ^ 53 - 1) (-53) (by norm_num) (by norm_num) (by norm_num) (by norm_num)]
    norm_num
  have l1 : lower binary64 2 (1 / 2 - 1 / 2 ^ 54) = 0 := by
    unfold lower
    rw [r1, Nat.floor_eq_zero]; norm_num
  have u1 : upper binary64 2 (1 / 2 - 1 / 2 ^ 54) = 2 := by
    unfold upper
    rw [r1, tie_two]; exact Nat.floor_ofNat 2
  -- the median
  have r2 : rank binary64 2 (1 / 2) = 1 := by
    unfold rank
    rw [rd _ 1 0 (by norm_num) (by norm_num) (by norm_num) (by norm_num)]
    norm_num
  have l2 : lower binary64 2 (1 / 2) = 1 := by
    unfold lower
    rw [r2]; exact Nat.floor_one
  have u2 : upper binary64 2 (1 / 2) = 2 := by
    unfold upper
    rw [r2, rd _ 2 0 (by norm_num) (by norm_num) (by norm_num) (by norm_num), show (1 : ℝ) + 1 = 2 by norm_num]
    exact Nat.floor_ofNat 2
  have f3 : binary64.fits ((3 : Nat) : ℝ) := (binary64_int (n := 3) (by norm_num)).2
  refine ⟨s, hs, ?_, ?_⟩
  · rw [get_interpF binary64_nearest (by simp [paramLength]) hi (by simp) (by simp [paramLength]) hd (by norm_num) f3 le_rfl
      (by simp) (q := 1 / 2 - 1 / 2 ^ 54) (by show some (Ratio.toScalar ⟨2 ^ 53 - 1, 2 ^ 54⟩ : X binary64) = _; rw [q0]) (by norm_num) (by norm_num) (by
        rw [show ([0, 0, 1] : List ℝ).length - 1 = 2 from rfl, u1]; decide)]
    rw [show ([0, 0, 1] : List ℝ).length - 1 = 2 from rfl, hsorted]
    unfold interp
    rw [l1, u1, r1]
    have : ⌊(1 : ℝ) - 1 / 2 ^ 53⌋ = 0 := by rw [Int.floor_eq_zero_iff]; norm_num
    rw [this]
    show some (X.fin (binary64.rnd (0 + binary64.rnd ((1 - 1 / 2 ^ 53 - ((0 : Int) : ℝ)) * binary64.rnd (1 - 0))))) = _
    rw [rd (1 - 0) 1 0 (by norm_num) (by norm_num) (by norm_num) (by norm_num),
      rd ((1 - 1 / 2 ^ 53 - ((0 : Int) : ℝ)) * (1 - 0)) (2 ^ 53 - 1) (-53) (by norm_num) (by norm_num) (by norm_num) (by norm_num),
      rd _ (2 ^ 53 - 1) (-53) (by norm_num) (by norm_num) (by norm_num) (by norm_num)]
    norm_num
  · rw [get_interpF binary64_nearest (by simp [paramLength]) hi (by simp) (by simp [paramLength]) hd (by norm_num) f3
      (i := 2) (by norm_num) (by simp) (q := 1 / 2) (by simp [q1]) (by norm_num) (by norm_num) (by
        rw [show ([0, 0, 1] : List ℝ).length - 1 = 2 from rfl, u2]; decide)]
    rw [show ([0, 0, 1] : List ℝ).length - 1 = 2 from rfl, hsorted]
    unfold interp
    rw [l2, u2, r2]
    have : ⌊(1 : ℝ)⌋ = 1 := Int.floor_one
    rw [this]
    show some (X.fin (binary64.rnd (0 + binary64.rnd ((1 - ((1 : Int) : ℝ)) * binary64.rnd (1 - 0))))) = _
    rw [show (1 : ℝ) - ((1 : Int) : ℝ) = 0 by norm_num, zero_mul, binary64_binary.rnd_zero, add_zero, binary64_binary.rnd_zero]

/-- C110 is violated in binary64. -/
theorem C110_violated : ¬ InterpolationInOrder 64 binary64 53 (-1074) := by
  intro h
  obtain ⟨s', e0, e1, e2⟩ := C110_second_index
  obtain ⟨s, v, h1, h2, h3, -⟩ := h [⟨2 ^ 53 - 1, 2 ^ 54⟩, ⟨1, 2⟩] [.push 0, .push 0, .push 1] (by
      simp only [List.mem_cons, List.not_mem_nil, or_false, forall_eq_or_imp, forall_eq, Ratio.val]
      norm_num) (by
      simp [Ratio.val]
      norm_num) (by norm_num) (by norm_num) three_data (by decide) (by decide)
  rw [e0] at h1
  obtain rfl := Option.some.inj h1
  have a1 := h2 1 (by decide)
  have a2 := h2 2 (by decide)
  have a3 := h3 1 (by decide)
  rw [e1] at a1
  rw [e2] at a2
  have b1 := (X.fin_inj.1 (Option.some.inj a1))
  have b2 := (X.fin_inj.1 (Option.some.inj a2))
  rw [← b1, show 1 + 1 = 2 from rfl, ← b2] at a3
  norm_num at a3

/-- It also happens with simple quantiles: 50 values and the quantile 1/49. The rank is nearly 1, the estimate is taken
between the first value and the third. -/
theorem C110_one_49th : lower binary64 49 (binary64.rnd (1 / 49)) = 0 ∧ upper binary64 49 (binary64.rnd (1 / 49)) = 2 := by
  have e0 : binary64.rnd (1 / 49) = (5882252574524729 : Int) * 2 ^ (-58 : Int) :=
    rnd64_near _ _ (by norm_num) (by rw [abs_of_pos (by positivity)]; norm_num) (by rw [abs_of_pos (by positivity)]; norm_num)
      (by rw [abs_lt]; norm_num)
  have e1 : rank binary64 49 (binary64.rnd (1 / 49)) = 1 - 1 / 2 ^ 53 := by
    unfold rank
    rw [e0, rnd64_near (2 ^ 53 - 1) (-53) (by norm_num) (by rw [abs_of_pos (by positivity)]; norm_num)
      (by rw [abs_of_pos (by positivity)]; norm_num) (by rw [abs_lt]; norm_num)]
    norm_num
  unfold lower upper
  rw [e1, tie_two]
  constructor
  · rw [Nat.floor_eq_zero]; norm_num
  · exact Nat.floor_ofNat 2

/-! Otherwise -/

/-- The conditions on a quantile: a ratio in [0, 1] with a denominator that is exact, not too close to 1 after rounding. -/
structure QuantileFits (F : Fmt) (p : Nat) (r : Ratio) : Prop where
  num : 0 ≤ r.num
  den : 0 < r.den
  digits : r.den ≤ 2 ^ p
  fits : F.fits (r.den : ℝ)
  below : r.val ≤ 1 - 2 ^ (4 - (p : Int))

/-- What the estimates are. -/
private theorem few_estimates (h : F.Nearest p emin) (he : emin ≤ -(p : Int)) (hp4 : 4 ≤ p) (quantiles : List Ratio)
    (hq : ∀ r ∈ quantiles, QuantileFits F p r) (hL : 2 * quantiles.length + 3 < 2 ^ w) (ops : List (Op ℝ))
    (hops : ops.length < 2 ^ w) (hd : F.Data p emin (sinceClear ops)) (hn2 : 2 ≤ (sinceClear ops).length)
    (hn : (sinceClear ops).length ≤ 2 * quantiles.length + 3) (hnp : (sinceClear ops).length ≤ 2 ^ p)
    (hnf : F.fits ((sinceClear ops).length : ℝ)) :
    ∃ s : PSquare w (X F), PSquare.run quantiles (finOps ops) = some s
      ∧ (∃ lo hi, s.get 0 = some (X.fin lo) ∧ s.get (quantiles.length + 1) = some (X.fin hi)
        ∧ IsLeast {x | x ∈ sinceClear ops} lo ∧ IsGreatest {x | x ∈ sinceClear ops} hi)
      ∧ ∀ (i : Nat) (hi : i < quantiles.length), 0 ≤ F.rnd (quantiles[i].val)
        ∧ upper F ((sinceClear ops).length - 1) (F.rnd quantiles[i].val) < (sinceClear ops).length
        ∧ s.get (i + 1) = some (X.fin (interp F (fun k => (Spec.sorted (sinceClear ops)).getD k 0) ((sinceClear ops).length - 1)
          (F.rnd quantiles[i].val))) := by
  have hF := h.binary
  have hl : (quantiles.map (Ratio.toScalar : Ratio → X F)).length = quantiles.length := by simp
  obtain ⟨s, ps, hh, d, hs, hi⟩ := few_state (w := w) (F := F) quantiles hL ops hops
  refine ⟨s, hs, ?_, fun i hidx => ?_⟩
  · have := get_extremeF (by rw [hl]; exact hL) ((sinceClear_length_le ops).trans_lt hops) hi
      (by intro e; rw [e] at hn2; simp at hn2)
    rw [hl] at this
    exact this
  · obtain ⟨c1, c2, c3, c4, c5⟩ := hq _ (List.getElem_mem hidx)
    have hd' : (0 : ℝ) < (quantiles[i].den : ℝ) := by exact_mod_cast c2
    have v0 : 0 ≤ quantiles[i].val := div_nonneg (by exact_mod_cast c1) hd'.le
    have hpos : (0 : ℝ) < 2 ^ (4 - (p : Int)) := by positivity
    have v1 : quantiles[i].val ≤ 1 := by linarith
    have hle : quantiles[i].num ≤ quantiles[i].den := by
      have := v1
      unfold Ratio.val at this
      rw [div_le_one hd'] at this
      exact_mod_cast this
    have b0 : 0 ≤ F.rnd quantiles[i].val := hF.rnd_nonneg v0
    have b1 : F.rnd quantiles[i].val ≤ 1 - 2 ^ (4 - (p : Int)) := by
      refine hF.rnd_le ?_ c5
      have e : (1 : ℝ) - 2 ^ (4 - (p : Int)) = ((2 ^ (p - 4) - 1 : Int) : ℝ) * 2 ^ (4 - (p : Int)) := by
        push_cast
        rw [sub_mul, one_mul, ← zpow_natCast, ← zpow_add₀ (by norm_num), Nat.cast_sub hp4]
        norm_num
      rw [e]
      refine isRep_mul (by omega) (by omega) ?_
      have k1 : (1 : Int) ≤ 2 ^ (p - 4) := one_le_pow₀ (by norm_num)
      have k2 : (2 : Int) ^ (p - 4) ≤ 2 ^ p := pow_le_pow_right₀ (by norm_num) (by omega)
      rw [abs_of_nonneg (by omega)]; omega
    have hup := upper_lt h he (m := (sinceClear ops).length - 1) (by omega) b0 b1
    rw [Nat.sub_add_cancel (by omega)] at hup
    refine ⟨b0, hup, ?_⟩
    refine get_interpF h (by rw [hl]; exact hL) hi hn2 (by rw [hl]; exact hn) hd hnp hnf (by omega) (by rw [hl]; omega) ?_ b0
      (by linarith) hup
    rw [Nat.add_sub_cancel, List.getElem?_map, List.getElem?_eq_getElem hidx, Option.map_some,
      ratio_near hF c1 c2 hle c3 c4]

private theorem few_function (h : F.Nearest p emin) (he : emin ≤ -(p : Int)) (hp4 : 4 ≤ p) (quantiles : List Ratio)
    (hq : ∀ r ∈ quantiles, QuantileFits F p r) (hL : 2 * quantiles.length + 3 < 2 ^ w) (ops : List (Op ℝ))
    (hops : ops.length < 2 ^ w) (hd : F.Data p emin (sinceClear ops)) (hn1 : 1 ≤ (sinceClear ops).length)
    (hn : (sinceClear ops).length ≤ 2 * quantiles.length + 3) (hnp : (sinceClear ops).length ≤ 2 ^ p)
    (hnf : F.fits ((sinceClear ops).length : ℝ)) :
    ∃ (s : PSquare w (X F)) (v : Nat → ℝ), PSquare.run quantiles (finOps ops) = some s
      ∧ (∀ i ≤ quantiles.length + 1, s.get i = some (X.fin (v i)))
      ∧ (∀ i ≤ quantiles.length + 1, v 0 ≤ v i ∧ v i ≤ v (quantiles.length + 1))
      ∧ IsLeast {x | x ∈ sinceClear ops} (v 0) ∧ IsGreatest {x | x ∈ sinceClear ops} (v (quantiles.length + 1))
      ∧ ((∀ i ≤ quantiles.length + 1, v i = v 0) ∨ ∀ (i : Nat) (hi : i < quantiles.length), 0 ≤ F.rnd (quantiles[i].val)
        ∧ upper F ((sinceClear ops).length - 1) (F.rnd quantiles[i].val) < (sinceClear ops).length
        ∧ v (i + 1) = interp F (fun k => (Spec.sorted (sinceClear ops)).getD k 0) ((sinceClear ops).length - 1)
          (F.rnd quantiles[i].val)) := by
  have hl : (quantiles.map (Ratio.toScalar : Ratio → X F)).length = quantiles.length := by simp
  rcases hn1.lt_or_eq with hn2 | hn2
  · obtain ⟨s, hs, ⟨lo, hi, g1, g2, g3, g4⟩, hget⟩ := few_estimates h he hp4 quantiles hq hL ops hops hd hn2 hn hnp hnf
    have hS0 := (sorted_least hn1).unique g3
    have hS1 := (sorted_greatest hn1).unique g4
    set S := fun k => (Spec.sorted (sinceClear ops)).getD k 0 with hS
    set v : Nat → ℝ := fun i => if i = 0 then lo else if hi' : i - 1 < quantiles.length then
      interp F S ((sinceClear ops).length - 1) (F.rnd (quantiles[i - 1]'hi').val) else hi with hv
    have v0 : v 0 = lo := by rw [hv]; simp
    have v1 : v (quantiles.length + 1) = hi := by rw [hv]; simp
    have vi : ∀ (i : Nat) (hi' : i < quantiles.length), v (i + 1) = interp F S ((sinceClear ops).length - 1)
        (F.rnd quantiles[i].val) := by
      intro i hi'
      rw [hv]; simp [hi']
    have cases : ∀ i ≤ quantiles.length + 1, i = 0 ∨ i = quantiles.length + 1 ∨ ∃ j, j < quantiles.length ∧ i = j + 1 := by
      intro i hi'
      rcases Nat.eq_zero_or_pos i with h0 | h0
      · exact .inl h0
      · rcases hi'.lt_or_eq with h1 | h1
        · exact .inr (.inr ⟨i - 1, by omega, by omega⟩)
        · exact .inr (.inl h1)
    have hlohi : lo ≤ hi := g3.2 g4.1
    refine ⟨s, v, hs, fun i hi' => ?_, fun i hi' => ?_, by rw [v0]; exact g3, by rw [v1]; exact g4, .inr fun i hi' =>
      ⟨(hget i hi').1, (hget i hi').2.1, vi i hi'⟩⟩
    · rcases cases i hi' with rfl | rfl | ⟨j, hj, rfl⟩
      · rw [v0]; exact g1
      · rw [v1]; exact g2
      · rw [vi j hj]; exact (hget j hj).2.2
    · rw [v0, v1]
      rcases cases i hi' with rfl | rfl | ⟨j, hj, rfl⟩
      · rw [v0]; exact ⟨le_rfl, hlohi⟩
      · rw [v1]; exact ⟨hlohi, le_rfl⟩
      · obtain ⟨c1, c2, -⟩ := hget j hj
        obtain ⟨d1, d2⟩ := interp_within h hd c1 c2
        rw [vi j hj, ← hS0, ← hS1]
        have hlow : lower F ((sinceClear ops).length - 1) (F.rnd quantiles[j].val)
          ≤ upper F ((sinceClear ops).length - 1) (F.rnd quantiles[j].val) := lower_le_upper h.binary _ _
        exact ⟨(Spec.sorted_mono (Nat.zero_le _) (by omega)).trans d1, d2.trans (Spec.sorted_mono (by omega) (by omega))⟩
  · obtain ⟨s, ps, hh, d, hs, hi⟩ := few_state (w := w) (F := F) quantiles hL ops hops
    refine ⟨s, fun _ => (Spec.sorted (sinceClear ops)).getD 0 0, hs, fun i hi' => ?_, fun _ _ => ⟨le_rfl, le_rfl⟩,
      sorted_least hn1, ?_, .inl fun _ _ => rfl⟩
    · exact get_oneF (by rw [hl]; exact hL) hi hn2.symm (by rw [hl]; exact hi')
    · have := sorted_greatest hn1
      rwa [← hn2] at this

/-- C110, within the data: for all quantiles up to `1 - 16 u`, in any order, the estimates for up to `2 q + 3` values are
finite and between the smallest and the largest value. -/
theorem C110_within_partial (h : F.Nearest p emin) (he : emin ≤ -(p : Int)) (hp4 : 4 ≤ p) (quantiles : List Ratio)
    (hq : ∀ r ∈ quantiles, QuantileFits F p r) (hL : 2 * quantiles.length + 3 < 2 ^ w) (ops : List (Op ℝ))
    (hops : ops.length < 2 ^ w) (hd : F.Data p emin (sinceClear ops)) (hn1 : 1 ≤ (sinceClear ops).length)
    (hn : (sinceClear ops).length ≤ 2 * quantiles.length + 3) (hnp : (sinceClear ops).length ≤ 2 ^ p)
    (hnf : F.fits ((sinceClear ops).length : ℝ)) :
    ∃ (s : PSquare w (X F)) (v : Nat → ℝ), PSquare.run quantiles (finOps ops) = some s
      ∧ (∀ i ≤ quantiles.length + 1, s.get i = some (X.fin (v i)))
      ∧ (∀ i ≤ quantiles.length + 1, v 0 ≤ v i ∧ v i ≤ v (quantiles.length + 1))
      ∧ IsLeast {x | x ∈ sinceClear ops} (v 0) ∧ IsGreatest {x | x ∈ sinceClear ops} (v (quantiles.length + 1)) := by
  obtain ⟨s, v, a1, a2, a3, a4, a5, -⟩ := few_function h he hp4 quantiles hq hL ops hops hd hn1 hn hnp hnf
  exact ⟨s, v, a1, a2, a3, a4, a5⟩

/-- C110, in order: with quantiles in ascending order the estimates are ascending, if for each quantile the second index
follows the first. -/
theorem C110_order_partial (h : F.Nearest p emin) (he : emin ≤ -(p : Int)) (hp4 : 4 ≤ p) (quantiles : List Ratio)
    (hq : ∀ r ∈ quantiles, QuantileFits F p r) (ha : quantiles.Pairwise fun a b => a.val ≤ b.val)
    (hL : 2 * quantiles.length + 3 < 2 ^ w) (ops : List (Op ℝ))
    (hops : ops.length < 2 ^ w) (hd : F.Data p emin (sinceClear ops)) (hn1 : 1 ≤ (sinceClear ops).length)
    (hn : (sinceClear ops).length ≤ 2 * quantiles.length + 3) (hnp : (sinceClear ops).length ≤ 2 ^ p)
    (hnf : F.fits ((sinceClear ops).length : ℝ))
    (hj : ∀ r ∈ quantiles, upper F ((sinceClear ops).length - 1) (F.rnd r.val)
      ≤ lower F ((sinceClear ops).length - 1) (F.rnd r.val) + 1) :
    OrderedEstimates w F quantiles ops := by
  obtain ⟨s, v, a1, a2, a3, a4, a5, a6⟩ := few_function h he hp4 quantiles hq hL ops hops hd hn1 hn hnp hnf
  refine ⟨s, v, a1, a2, fun i hi => ?_, a4, a5⟩
  rcases Nat.eq_zero_or_pos i with rfl | hpos
  · exact (a3 1 (by omega)).1
  rcases hi.lt_or_eq with hlt | heq
  · rcases a6 with a6 | a6
    · rw [a6 i (by omega), a6 (i + 1) (by omega)]
    · obtain ⟨b1, -, b3⟩ := a6 (i - 1) (by omega)
      obtain ⟨c1, c2, c3⟩ := a6 i hlt
      rw [Nat.sub_add_cancel hpos] at b3
      rw [b3, c3]
      have hval : (quantiles[i - 1]'(by omega)).val ≤ (quantiles[i]'hlt).val :=
        List.pairwise_iff_getElem.1 ha (i - 1) i (by omega) hlt (by omega)
      exact interp_mono h hd b1 (h.binary.mono hval) (hj _ (List.getElem_mem _)) c2
  · rw [heq]
    exact (a3 quantiles.length (by omega)).2

/-- The second index follows the first for quantiles `a / 2^k` if `n 2^k` has not more than `p` digits, so C110 holds for
quartiles, eighths and so on. -/
theorem C110_binary_fractions_partial (h : F.Nearest p emin) (he : emin ≤ -(p : Int)) (hp4 : 4 ≤ p) (k : Nat)
    (quantiles : List Ratio) (hq : ∀ r ∈ quantiles, 0 ≤ r.num ∧ r.num < r.den ∧ r.den = 2 ^ k)
    (ha : quantiles.Pairwise fun a b => a.val ≤ b.val) (hk : F.fits ((2 : ℝ) ^ k))
    (hL : 2 * quantiles.length + 3 < 2 ^ w) (ops : List (Op ℝ))
    (hops : ops.length < 2 ^ w) (hd : F.Data p emin (sinceClear ops)) (hn1 : 1 ≤ (sinceClear ops).length)
    (hn : (sinceClear ops).length ≤ 2 * quantiles.length + 3) (hnk : 16 * (sinceClear ops).length * 2 ^ k ≤ 2 ^ p)
    (hnf : F.fits ((sinceClear ops).length : ℝ)) :
    OrderedEstimates w F quantiles ops := by
  have hF := h.binary
  have h2k : 16 * 2 ^ k ≤ 2 ^ p := le_trans (Nat.mul_le_mul_right _ (by omega)) hnk
  have hkp : k + 4 ≤ p := by
    rw [show 16 * 2 ^ k = 2 ^ (k + 4) by ring] at h2k
    exact (Nat.pow_le_pow_iff_right (by norm_num)).1 h2k
  have hnp : (sinceClear ops).length ≤ 2 ^ p := by
    have : (sinceClear ops).length * 1 ≤ 16 * (sinceClear ops).length * 2 ^ k :=
      Nat.mul_le_mul (by omega) (Nat.one_le_two_pow)
    omega
  have hval : ∀ r ∈ quantiles, r.val = r.num.toNat * 2 ^ (-(k : Int)) := by
    intro r hr
    obtain ⟨a1, a2, a3⟩ := hq r hr
    have : ((r.num.toNat : Int) : ℝ) = (r.num : ℝ) := by rw [Int.toNat_of_nonneg a1]
    rw [Int.cast_natCast] at this
    unfold Ratio.val
    rw [this, a3, zpow_neg, zpow_natCast]
    push_cast
    rfl
  refine C110_order_partial h he hp4 quantiles ?_ ha hL ops hops hd hn1 hn hnp hnf ?_
  · intro r hr
    obtain ⟨a1, a2, a3⟩ := hq r hr
    refine ⟨a1, by rw [a3]; positivity, by rw [a3]; exact Nat.pow_le_pow_right (by norm_num) (by omega), by
      rw [a3]; push_cast; exact hk, ?_⟩
    have hpos : (0 : ℝ) < 2 ^ (-(k : Int)) := by positivity
    have hnum : (r.num.toNat : ℝ) ≤ 2 ^ k - 1 := by
      have : r.num.toNat + 1 ≤ 2 ^ k := by rw [← a3]; omega
      have : ((r.num.toNat + 1 : Nat) : ℝ) ≤ ((2 ^ k : Nat) : ℝ) := by exact_mod_cast this
      push_cast at this
      linarith
    have hone : (2 : ℝ) ^ k * 2 ^ (-(k : Int)) = 1 := by
      rw [← zpow_natCast, ← zpow_add₀ (by norm_num)]; simp
    have hle : (2 : ℝ) ^ (4 - (p : Int)) ≤ 2 ^ (-(k : Int)) := zpow_le_zpow_right₀ (by norm_num) (by omega)
    rw [hval r hr]
    nlinarith
  · intro r hr
    obtain ⟨a1, a2, a3⟩ := hq r hr
    have hnum : r.num.toNat ≤ 2 ^ k := by rw [← a3]; omega
    have hex : F.rnd r.val = r.num.toNat * 2 ^ (-(k : Int)) := by
      rw [hval r hr]
      refine hF.exact _ (isRep_mul (m := (r.num.toNat : Int)) (by omega) (by omega) ?_)
      rw [abs_of_nonneg (by positivity)]
      exact_mod_cast hnum.trans (Nat.pow_le_pow_right (by norm_num) (by omega))
    rw [hex, upper_dyadic hF (by omega)]
    have : ((sinceClear ops).length - 1) * r.num.toNat ≤ ((sinceClear ops).length - 1) * 2 ^ k := Nat.mul_le_mul_left _ hnum
    have e : ((sinceClear ops).length - 1) * 2 ^ k + 2 ^ k = (sinceClear ops).length * 2 ^ k := by
      rw [← Nat.succ_mul]; congr 1; omega
    have : (sinceClear ops).length * 2 ^ k ≤ 16 * (sinceClear ops).length * 2 ^ k := Nat.mul_le_mul_right _ (by omega)
    omega

/-- Quartiles of seven values in binary64. -/
example : OrderedEstimates 64 binary64 [⟨1, 4⟩, ⟨2, 4⟩, ⟨3, 4⟩] (([3, -1, 2 ^ 50, 7, 0, 5, -2 ^ 52] : List Int).map
    fun n => Op.push (n : ℝ)) := by
  have e : sinceClear ((([3, -1, 2 ^ 50, 7, 0, 5, -2 ^ 52] : List Int).map fun n => Op.push (n : ℝ)))
    = ([3, -1, 2 ^ 50, 7, 0, 5, -2 ^ 52] : List Int).map (Int.cast : Int → ℝ) := rfl
  refine C110_binary_fractions_partial binary64_nearest (by norm_num) (by norm_num) 2 _ (by simp) ?_ ?_ (by decide) _ (by decide)
    ?_ (by rw [e]; decide) (by rw [e]; decide) (by rw [e]; decide) ?_
  · simp [Ratio.val]
    norm_num
  · exact_mod_cast (binary64_int (n := 4) (by norm_num)).2
  · rw [e]
    exact binary64_data _ (by decide)
  · rw [e]
    exact_mod_cast (binary64_int (n := 7) (by norm_num)).2

/-- Thirds of three values. -/
example : ∃ (s : PSquare 64 (X binary64)) (v : Nat → ℝ),
    PSquare.run [⟨2, 3⟩, ⟨1, 3⟩] (finOps [.push 0, .push 10, .push 3]) = some s ∧ (∀ i ≤ 3, s.get i = some (X.fin (v i)))
      ∧ (∀ i ≤ 3, v 0 ≤ v i ∧ v i ≤ v 3) ∧ v 0 = 0 ∧ v 3 = 10 := by
  have e : sinceClear ([.push 0, .push 10, .push 3] : List (Op ℝ)) = [0, 10, 3] := rfl
  obtain ⟨s, v, a1, a2, a3, a4, a5⟩ := C110_within_partial (w := 64) binary64_nearest (by norm_num) (by norm_num)
    [⟨2, 3⟩, ⟨1, 3⟩] (by
      have h3 := (binary64_int (n := 3) (by norm_num)).2
      intro r hr
      simp only [List.mem_cons, List.not_mem_nil, or_false] at hr
      rcases hr with rfl | rfl
      · exact ⟨by norm_num, by norm_num, by norm_num, h3, by norm_num [Ratio.val]⟩
      · exact ⟨by norm_num, by norm_num, by norm_num, h3, by norm_num [Ratio.val]⟩) (by decide)
    [.push 0, .push 10, .push 3] (by decide) (by
      have := binary64_data [0, 10, 3] (by decide)
      rw [e]
      simpa using this) (by rw [e]; simp) (by rw [e]; simp) (by rw [e]; norm_num) (binary64_int (n := 3) (by norm_num)).2
  refine ⟨s, v, a1, a2, a3, ?_, ?_⟩
  · have h1 := a4.1
    have h2 := a4.2 (show (0 : ℝ) ∈ _ by rw [e]; simp)
    rw [e] at h1
    simp only [List.mem_cons, List.not_mem_nil, or_false, Set.mem_ofPred_eq] at h1
    rcases h1 with h1 | h1 | h1 <;> linarith
  · have h1 := a5.1
    have h2 := a5.2 (show (10 : ℝ) ∈ _ by rw [e]; simp)
    rw [e] at h1
    simp only [List.mem_cons, List.not_mem_nil, or_false, Set.mem_ofPred_eq, List.length_cons, List.length_nil] at h1
    rcases h1 with h1 | h1 | h1 <;> simp only [List.length_cons, List.length_nil] at h2 ⊢ <;> norm_num at h1 h2 ⊢ <;> linarith

end Verif.Props
