import Verif.Props.PSquare
import Verif.Proofs.Rounding
/-
C41, C42 in binary64: where rounding makes a difference.
-/
namespace Verif.Props
open Scalar Verif.PSquare

theorem ofNat64 {n : Nat} (h : n ≤ 2 ^ 53) : (ofNat n : X binary64) = X.fin n := by
  have := binary64_int (n := n) (by rw [abs_of_nonneg (by omega)]; exact_mod_cast h)
  push_cast at this
  rw [X.ofNat_eq, binary64_binary.round_exact this.1 this.2]

theorem round64 {r : ℝ} (h : IsRep 53 (-1074) r) (hf : |r| < 2 ^ (1024 : Int)) : (X.round r : X binary64) = X.fin r :=
  binary64_binary.round_exact h hf

/-! ### C41 -/

/-- C41 in binary64: positions up to `2^53` survive the conversion to `double` and back. -/
theorem C41_round_trip_double (s : PSquare 64 (X binary64)) (data : List (SizeT 64 × X binary64)) (h : data.length = s.len)
    (hp : ∀ d ∈ data, d.1.toNat ≤ 2 ^ 53) :
    ∃ s', s.setParameters data = some s' ∧ s'.parameters = data ∧ s'.size = BitVec.ofNat 64 s.len := by
  refine C41_round_trip s data h fun d hd => ?_
  have hd' := hp d hd
  rw [ofSize, ofNat64 hd', PSquare.toSize, X.toIndex_fin, if_pos (by have : (0 : ℝ) ≤ d.1.toNat := Nat.cast_nonneg _; linarith)]
  have hg : (guard (d.1.toNat < 2 ^ 64) : Option Unit) = some () := if_pos d.1.isLt
  simp only [Nat.floor_natCast, Option.bind_eq_bind, Option.bind_some, hg]
  exact congrArg some (BitVec.ofNat_toNat 64 d.1)

example (a b c d e : X binary64) : ∃ s', (PSquare.init [median] : PSquare 64 (X binary64)).setParameters
    [(1, a), (30, b), (400, c), (5000, d), (9007199254740992, e)] = some s'
    ∧ s'.parameters = [(1, a), (30, b), (400, c), (5000, d), (9007199254740992, e)] := by
  obtain ⟨s', h1, h2, -⟩ := C41_round_trip_double (PSquare.init [median])
    [(1, a), (30, b), (400, c), (5000, d), (9007199254740992, e)] rfl (by simp)
  exact ⟨s', h1, h2⟩

/-- `2^53 + 1` converted to `double` is `2^53`. -/
theorem ofNat64_odd : (ofNat (2 ^ 53 + 1) : X binary64) = X.fin (2 ^ 53 : Nat) := by
  have e : binary64.rnd ((2 ^ 53 + 1 : Nat) : ℝ) = ((2 ^ 53 : Nat) : ℝ) := by
    show roundNearest 53 (-1074) _ = _
    rw [roundNearest_eq (x := ((2 ^ 52 : Int) : ℝ) + 1 / 2) 53 (by rw [abs_of_nonneg (Nat.cast_nonneg _)]; norm_num)
      (by rw [abs_of_nonneg (Nat.cast_nonneg _)]; norm_num) (by norm_num) (by norm_num), nearestEven_tie, if_pos (by decide)]
    norm_num
  rw [X.ofNat_eq]
  unfold X.round
  rw [e, if_pos]
  have := (binary64_int (n := 2 ^ 53) (by norm_num)).2
  push_cast at this ⊢
  exact this

/-- Position `2^53 + 1` is read back as `2^53`. -/
theorem C41_position_changed (a b c d e : X binary64) :
    ∃ s', (PSquare.init [median] : PSquare 64 (X binary64)).setParameters
        [(1, a), (2, b), (3, c), (4, d), (9007199254740993, e)] = some s'
      ∧ s'.parameters = [(1, a), (2, b), (3, c), (4, d), (9007199254740992, e)] := by
  have key : ∀ (n : SizeT 64) (k : Nat), k < 2 ^ 64 → (ofSize n : X binary64) = X.fin k → (PSquare.toSize (ofSize n : X binary64) : Option (SizeT 64)) = some (BitVec.ofNat 64 k) := by
    intro n k hk hn
    rw [hn, PSquare.toSize, X.toIndex_fin, if_pos (by have : (0 : ℝ) ≤ k := Nat.cast_nonneg _; linarith)]
    have hg : (guard (k < 2 ^ 64) : Option Unit) = some () := if_pos hk
    simp only [Nat.floor_natCast, Option.bind_eq_bind, Option.bind_some, hg]
    rfl
  have h1 := key 1 1 (by norm_num) (ofNat64 (n := 1) (by norm_num))
  have h2 := key 2 2 (by norm_num) (ofNat64 (n := 2) (by norm_num))
  have h3 := key 3 3 (by norm_num) (ofNat64 (n := 3) (by norm_num))
  have h4 := key 4 4 (by norm_num) (ofNat64 (n := 4) (by norm_num))
  have h5 := key 9007199254740993 (2 ^ 53) (by norm_num) ofNat64_odd
  refine ⟨⟨(PSquare.init [median] : PSquare 64 (X binary64)).qs, 5, [1, 2, 3, 4, 9007199254740992], [a, b, c, d, e],
    [ofSize (1 : SizeT 64), ofSize (2 : SizeT 64), ofSize (3 : SizeT 64), ofSize (4 : SizeT 64), ofSize (9007199254740993 : SizeT 64)],
    (PSquare.init [median] : PSquare 64 (X binary64)).deltas⟩, ?_, rfl⟩
  have hl : (PSquare.init [median] : PSquare 64 (X binary64)).len = 5 := rfl
  have hg : (guard (5 ≤ 5) : Option Unit) = some () := if_pos (le_refl _)
  unfold PSquare.setParameters
  rw [hl]
  show (do
    guard (5 ≤ 5)
    let positions ← List.mapM (PSquare.toSize (w := 64)) [(ofSize (1 : SizeT 64) : X binary64), ofSize (2 : SizeT 64), ofSize (3 : SizeT 64), ofSize (4 : SizeT 64), ofSize (9007199254740993 : SizeT 64)]
    return _) = _
  rw [hg]
  simp only [List.mapM_cons, List.mapM_nil, h1, h2, h3, h4, h5]
  rfl

/-- C41: the parameters read back are those that were set. -/
def C41_Statement (α : Type) [Scalar α] : Prop :=
  ∀ (quantiles : List Ratio) (data : List (SizeT 64 × α)), data.length = 2 * quantiles.length + 3 →
    ∃ s', (PSquare.init quantiles : PSquare 64 α).setParameters data = some s' ∧ s'.parameters = data

/-- C41 is violated in binary64. -/
theorem C41_violated : ¬ C41_Statement (X binary64) := by
  intro h
  obtain ⟨s', h1, h2⟩ := h [median] [(1, X.nan), (2, X.nan), (3, X.nan), (4, X.nan), (9007199254740993, X.nan)] rfl
  obtain ⟨t, h3, h4⟩ := C41_position_changed X.nan X.nan X.nan X.nan X.nan
  obtain rfl := Option.some.inj (h1.symm.trans h3)
  have := congrArg (List.map Prod.fst) (h2.symm.trans h4)
  simp at this

/-! ### C42 -/

/-- The quantile `1 - 2^-53`; the denominator fits `std::intmax_t`. -/
def almostOne : Ratio := ⟨9007199254740991, 9007199254740992⟩

theorem almostOne_lt : (almostOne.num : ℚ) / almostOne.den < 1 := by norm_num [almostOne]

theorem almostOne_toScalar : (almostOne.toScalar : X binary64) = X.fin (1 - 2 ^ (-53 : Int)) := by
  have h1 : (ofInt 9007199254740991 : X binary64) = X.fin 9007199254740991 := ofNat64 (n := 9007199254740991) (by norm_num)
  have h2 : (ofNat 9007199254740992 : X binary64) = X.fin 9007199254740992 := ofNat64 (n := 9007199254740992) (by norm_num)
  show (ofInt 9007199254740991 / ofNat 9007199254740992 : X binary64) = _
  rw [h1, h2, X.div_fin_of_ne _ (by norm_num)]
  have e : (9007199254740991 : ℝ) / 9007199254740992 = 1 - 2 ^ (-53 : Int) := by norm_num
  rw [e]
  refine round64 ⟨9007199254740991, -53, by norm_num, by norm_num, by norm_num⟩ ?_
  rw [abs_of_pos (by norm_num)]
  exact lt_trans (by norm_num : (1 : ℝ) - 2 ^ (-53 : Int) < 2 ^ (0 : Int)) (zpow_lt_zpow_right₀ (by norm_num) (by norm_num))

/-- A quantile below 1, five values, and `get` reads `heights[5]` of an array with
five elements: `rank + 1 = 5 - 2^-51` is rounded to 5. -/
theorem C42_out_of_bounds (a b c d e : X binary64) :
    ∃ s : PSquare 64 (X binary64), PSquare.run [almostOne] [.push a, .push b, .push c, .push d, .push e] = some s
      ∧ s.heights.length = 5 ∧ s.get 1 = none := by
  obtain ⟨s, p, h, des, hs, hi⟩ := pushes_inv (w := 64) ([almostOne].map (Ratio.toScalar : Ratio → X binary64)) (by decide)
    [a, b, c, d, e] (by simp)
  have hl : s.heights.length = 5 := hi.rep.ht_len
  refine ⟨s, by rw [run_eq_pushes _ (by decide) _ (by simp)]; exact hs, hl, ?_⟩
  have hc : s.count = 5 := hi.count
  have hqs : s.qs = [X.fin (1 - 2 ^ (-53 : Int))] := by rw [hi.qs_eq]; simp [almostOne_toScalar]
  have hlen : s.len = 5 := hi.rep.len_eq
  unfold PSquare.get
  rw [PSquare.q, hlen, hc, hqs]
  have hrank : (ofSize (5 - 1 : SizeT 64) * X.fin (1 - 2 ^ (-53 : Int)) : X binary64) = X.fin (4 - 2 ^ (-51 : Int)) := by
    have h4 : (ofSize (5 - 1 : SizeT 64) : X binary64) = X.fin 4 := ofNat64 (n := 4) (by norm_num)
    rw [h4, X.mul_fin, show (4 : ℝ) * (1 - 2 ^ (-53 : Int)) = 4 - 2 ^ (-51 : Int) by norm_num]
    refine round64 ⟨9007199254740991, -51, by norm_num, by norm_num, by norm_num⟩ ?_
    rw [abs_of_pos (by norm_num)]
    exact lt_trans (by norm_num : (4 : ℝ) - 2 ^ (-51 : Int) < 2 ^ (2 : Int)) (zpow_lt_zpow_right₀ (by norm_num) (by norm_num))
  have hnext : (X.fin (4 - 2 ^ (-51 : Int)) + ofNat 1 : X binary64) = X.fin 5 := by
    rw [binary64_binary.ofNat_one, X.add_fin]
    have hr : binary64.rnd (4 - 2 ^ (-51 : Int) + 1) = 5 := by
      show roundNearest 53 (-1074) _ = _
      rw [roundNearest_eq (x := ((5 * 2 ^ 50 - 1 : Int) : ℝ) + 1 / 2) 2 (by rw [abs_of_pos (by norm_num)]; norm_num)
        (by rw [abs_of_pos (by norm_num)]; norm_num) (by norm_num) (by norm_num), nearestEven_tie, if_neg (by decide)]
      norm_num
    have h5 := (binary64_int (n := 5) (by norm_num)).2
    push_cast at h5
    unfold X.round
    rw [hr, if_pos h5]
  have f4 : ⌊(4 : ℝ) - 2 ^ (-51 : Int)⌋₊ = 3 := by
    rw [Nat.floor_eq_iff (by norm_num)]; constructor <;> norm_num
  have f5 : ⌊(5 : ℝ)⌋₊ = 5 := Nat.floor_natCast (R := ℝ) 5
  simp only [List.length_singleton]
  rw [if_neg (by decide), if_neg (by decide), if_pos (by decide), if_neg (by decide), if_neg (by decide)]
  have h5 : s.heights[5]? = none := List.getElem?_eq_none (by rw [hl])
  simp only [Option.bind_eq_bind, Nat.sub_self, List.getElem?_cons_zero, Option.bind_some]
  rw [hrank, hnext, X.toIndex_fin, X.toIndex_fin, if_pos (by norm_num), if_pos (by norm_num), f4, f5]
  simp only [Option.bind_some, h5, Option.bind_none]
  cases s.heights[3]? <;> rfl

/-- C42: every query of an estimator with quantiles in [0, 1) is defined. -/
def C42_Statement (α : Type) [Scalar α] : Prop :=
  ∀ (quantiles : List Ratio), Quantiles quantiles → 2 * quantiles.length + 3 < 2 ^ 64 → ∀ ops : List (Op α), ops.length < 2 ^ 64 →
    ∀ i ≤ quantiles.length + 1, ∃ (s : PSquare 64 α) (v : α), PSquare.run quantiles ops = some s ∧ s.get i = some v

/-- It holds in exact arithmetic ... -/
theorem C42_exact_statement (ε : ℝ) : C42_Statement (Exact.E ε) :=
  fun _ hq hL ops hlen _ hi => C42_get_exact hq hL ops hlen hi

/-- ... but C42 is violated in binary64. -/
theorem C42_violated : ¬ C42_Statement (X binary64) := by
  intro h
  have hq : Quantiles [almostOne] := by
    intro r hr
    rw [List.mem_singleton.1 hr]
    refine ⟨by decide, ?_, ?_⟩ <;> norm_num [almostOne, Ratio.val]
  obtain ⟨s, v, h1, h2⟩ := h [almostOne] hq (by decide) [.push X.nan, .push X.nan, .push X.nan, .push X.nan, .push X.nan]
    (by simp) 1 (by decide)
  obtain ⟨t, h3, -, h4⟩ := C42_out_of_bounds X.nan X.nan X.nan X.nan X.nan
  obtain rfl := Option.some.inj (h1.symm.trans h3)
  rw [h4] at h2
  exact absurd h2 (by simp)

end Verif.Props
