import Verif.Proofs.PSquareOrder
import Verif.Proofs.Double
import Verif.Props.PSquareRounded
/-
C106: the estimates of the P-square estimator in floating point are finite, in order, and between the smallest and the
largest value.
-/
namespace Verif.Props
open Scalar Verif.PSquare

variable {w : Nat} {F : Fmt} {p : Nat} {emin : Int}

/-- The estimates are finite and ascending, the first is the smallest value and the last the largest. -/
def OrderedEstimates (w : Nat) (F : Fmt) (quantiles : List Ratio) (ops : List (Op ℝ)) : Prop :=
  ∃ (s : PSquare w (X F)) (v : Nat → ℝ), PSquare.run quantiles (finOps ops) = some s
    ∧ (∀ i ≤ quantiles.length + 1, s.get i = some (X.fin (v i))) ∧ (∀ i ≤ quantiles.length, v i ≤ v (i + 1))
    ∧ IsLeast {x | x ∈ sinceClear ops} (v 0) ∧ IsGreatest {x | x ∈ sinceClear ops} (v (quantiles.length + 1))

/-- C106, the claim: for all numbers of the format, after more than `2 q + 3` values. -/
def EstimatesInOrder (w : Nat) (F : Fmt) (p : Nat) (emin : Int) : Prop :=
  ∀ (quantiles : List Ratio) (ops : List (Op ℝ)), 2 * quantiles.length + 3 < 2 ^ w → ops.length < 2 ^ w →
    (∀ x ∈ sinceClear ops, IsRep p emin x ∧ F.fits x) → 2 * quantiles.length + 3 < (sinceClear ops).length →
    OrderedEstimates w F quantiles ops

/-- Three times the most negative power of two, twice the largest, and once more the most negative. -/
def farApart : List (Op ℝ) :=
  [.push (-2 ^ 1023), .push (-2 ^ 1023), .push (-2 ^ 1023), .push (2 ^ 1023), .push (2 ^ 1023), .push (-2 ^ 1023)]

private theorem far_eval {M : ℝ} (hMpos : 0 < M) (hM : ¬ binary64.fits (binary64.rnd (M - -M))) :
    ∃ s : PSquare 64 (X binary64), PSquare.run [median] (finOps
      [.push (-M), .push (-M), .push (-M), .push M, .push M, .push (-M)]) = some s ∧ s.get 1 = some X.pinf := by
  have l1 : lt (X.fin (-M) : X binary64) (X.fin (-M)) = false := by rw [X.lt_fin]; simp
  have l2 : lt (X.fin M : X binary64) (X.fin (-M)) = false := by
    rw [X.lt_fin, decide_eq_false_iff_not]; linarith
  have l3 : lt (X.fin M : X binary64) (X.fin M) = false := by rw [X.lt_fin]; simp
  have l4 : lt (X.fin (-M) : X binary64) (X.fin M) = true := by
    rw [X.lt_fin, decide_eq_true_eq]; linarith
  have l5 : le (X.fin M : X binary64) (X.fin (-M)) = false := by
    rw [X.le_fin, decide_eq_false_iff_not]; linarith
  have q0 : (Ratio.toScalar median : X binary64) = X.fin (1 / 2) := by
    show ofInt 1 / ofNat 2 = _
    rw [X.ofInt_eq, round64_int 1 (by norm_num) (by norm_num), ofNat64 (by norm_num), X.div_fin_of_ne _ (by norm_num),
      round64 1 (-1) (by norm_num) (by norm_num) (by norm_num) (by norm_num)]
    norm_num
  have n0 : (ofNat 0 : X binary64) = X.fin 0 := by rw [ofNat64 (by norm_num)]; norm_num
  have n1 : (ofNat 1 : X binary64) = X.fin 1 := by rw [ofNat64 (by norm_num)]; norm_num
  have n2 : (ofNat 2 : X binary64) = X.fin 2 := by rw [ofNat64 (by norm_num)]; norm_num
  have n3 : (ofNat 3 : X binary64) = X.fin 3 := by rw [ofNat64 (by norm_num)]; norm_num
  have n4 : (ofNat 4 : X binary64) = X.fin 4 := by rw [ofNat64 (by norm_num)]; norm_num
  have n5 : (ofNat 5 : X binary64) = X.fin 5 := by rw [ofNat64 (by norm_num)]; norm_num
  -- quarters are exact
  have q4 : ∀ (r : ℝ) (k : Int), r = k / 4 → |k| ≤ 2 ^ 53 → (X.round r : X binary64) = X.fin r := fun r k hr hk =>
    round64 k (-2) (by rw [hr]; norm_num; ring) hk (by norm_num) (by norm_num)
  have hinit : (PSquare.init [median] : PSquare 64 (X binary64))
      = ⟨[X.fin (1 / 2)], 0, [1, 2, 3, 4, 5], [X.fin 0, X.fin 0, X.fin 0, X.fin 0, X.fin 0],
        [X.fin 1, X.fin 2, X.fin 3, X.fin 4, X.fin 5], [X.fin 0, X.fin (1 / 4), X.fin (1 / 2), X.fin (3 / 4), X.fin 1]⟩ := by
    have d1 : ((X.fin 0 + X.fin (1 / 2)) / X.fin 2 : X binary64) = X.fin (1 / 4) := by
      rw [X.add_fin, q4 _ 2 (by norm_num) (by norm_num), X.div_fin_of_ne _ (by norm_num), q4 _ 1 (by norm_num) (by norm_num)]
      norm_num
    have d2 : ((X.fin (1 / 2) + X.fin 1) / X.fin 2 : X binary64) = X.fin (3 / 4) := by
      rw [X.add_fin, q4 _ 6 (by norm_num) (by norm_num), X.div_fin_of_ne _ (by norm_num), q4 _ 3 (by norm_num) (by norm_num)]
      norm_num
    have dd : ∀ (x : ℝ) (k : Int), x = k / 4 → |k| ≤ 4 → (X.fin 1 + X.fin 4 * X.fin x : X binary64) = X.fin (1 + 4 * x) := by
      intro x k hx hk
      have hk' := abs_le.1 hk
      rw [X.mul_fin, q4 _ (4 * k) (by rw [hx]; push_cast; ring) (by rw [abs_le]; constructor <;> omega), X.add_fin,
        q4 _ (4 + 4 * k) (by rw [hx]; push_cast; ring) (by rw [abs_le]; constructor <;> omega)]
    unfold PSquare.init PSquare.initState
    simp only [List.map_cons, List.map_nil, q0, PSquare.deltasFrom, n0, n1, n2, d1, d2, List.length_cons, List.length_nil]
    rw [show 2 * (0 + 1 + 1) = 4 from rfl, n4, dd 0 0 (by norm_num) (by norm_num), dd (1 / 4) 1 (by norm_num) (by norm_num),
      dd (1 / 2) 2 (by norm_num) (by norm_num), dd (3 / 4) 3 (by norm_num) (by norm_num), dd 1 4 (by norm_num) (by norm_num)]
    norm_num [paramLength, List.range_succ]
    exact ⟨⟨rfl, rfl, rfl, rfl, rfl⟩, rfl⟩
  set s0 : PSquare 64 (X binary64) := ⟨[X.fin (1 / 2)], 0, [1, 2, 3, 4, 5], [X.fin 0, X.fin 0, X.fin 0, X.fin 0, X.fin 0],
        [X.fin 1, X.fin 2, X.fin 3, X.fin 4, X.fin 5], [X.fin 0, X.fin (1 / 4), X.fin (1 / 2), X.fin (3 / 4), X.fin 1]⟩ with hs0
  have p1 : s0.push (X.fin (-M)) = some { s0 with count := 1, heights := [X.fin (-M), X.fin 0, X.fin 0, X.fin 0, X.fin 0] } := by
    rfl
  have p2 : PSquare.push { s0 with count := 1, heights := [X.fin (-M), X.fin 0, X.fin 0, X.fin 0, X.fin 0] } (X.fin (-M))
      = some { s0 with count := 2, heights := [X.fin (-M), X.fin (-M), X.fin 0, X.fin 0, X.fin 0] } := by
    simp [PSquare.push, s0, PSquare.len, PSquare.q, paramLength, PSquare.insertAt, l1]
  have p3 : PSquare.push { s0 with count := 2, heights := [X.fin (-M), X.fin (-M), X.fin 0, X.fin 0, X.fin 0] } (X.fin (-M))
      = some { s0 with count := 3, heights := [X.fin (-M), X.fin (-M), X.fin (-M), X.fin 0, X.fin 0] } := by
    simp [PSquare.push, s0, PSquare.len, PSquare.q, paramLength, PSquare.insertAt, l1]
  have p4 : PSquare.push { s0 with count := 3, heights := [X.fin (-M), X.fin (-M), X.fin (-M), X.fin 0, X.fin 0] } (X.fin M)
      = some { s0 with count := 4, heights := [X.fin (-M), X.fin (-M), X.fin (-M), X.fin M, X.fin 0] } := by
    simp [PSquare.push, s0, PSquare.len, PSquare.q, paramLength, PSquare.insertAt, l2]
  have p5 : PSquare.push { s0 with count := 4, heights := [X.fin (-M), X.fin (-M), X.fin (-M), X.fin M, X.fin 0] } (X.fin M)
      = some { s0 with count := 5, heights := [X.fin (-M), X.fin (-M), X.fin (-M), X.fin M, X.fin M] } := by
    simp [PSquare.push, s0, PSquare.len, PSquare.q, paramLength, PSquare.insertAt, l3]
  set s5 : PSquare 64 (X binary64) := { s0 with count := 5, heights := [X.fin (-M), X.fin (-M), X.fin (-M), X.fin M, X.fin M] }
    with hs5
  have hover : (X.round (M - -M) : X binary64) = X.pinf := by
    unfold X.round
    rw [if_neg hM, if_pos (by linarith)]
  have hloc : s5.locate (X.fin (-M)) = some (3, s5.heights) := by
    simp [PSquare.locate, s5, PSquare.len, PSquare.q, paramLength, s0, l1, l5, PSquare.upperBound, l4]
  set s6 : PSquare 64 (X binary64) := ⟨[X.fin (1 / 2)], 5, [1, 2, 3, 5, 6], [X.fin (-M), X.fin (-M), X.fin (-M), X.fin M, X.fin M],
        [X.fin 1, X.fin (9 / 4), X.fin (7 / 2), X.fin (19 / 4), X.fin 6],
        [X.fin 0, X.fin (1 / 4), X.fin (1 / 2), X.fin (3 / 4), X.fin 1]⟩ with hs6
  have hbump : s5.bump 3 = s6 := by
    unfold PSquare.bump
    simp only [s5, s0, s6, List.zipWith_cons_cons, List.zipWith_nil_left]
    rw [X.add_fin, q4 _ 4 (by norm_num) (by norm_num), X.add_fin, q4 _ 9 (by norm_num) (by norm_num),
      X.add_fin, q4 _ 14 (by norm_num) (by norm_num), X.add_fin, q4 _ 19 (by norm_num) (by norm_num),
      X.add_fin, q4 _ 24 (by norm_num) (by norm_num)]
    norm_num
  have sgn : ∀ (a b : ℝ) (k : Int), a - b = k / 4 → |k| ≤ 2 ^ 53 → 0 < k →
      PSquare.signOf (X.fin a - X.fin b : X binary64) = 1 := by
    intro a b k hk hb hk0
    rw [X.sub_fin, q4 _ k hk hb]
    unfold PSquare.signOf
    rw [n0, X.lt_fin, if_pos]
    rw [decide_eq_true_eq, hk]
    have : (0 : ℝ) < k := by exact_mod_cast hk0
    positivity
  have sgn' : PSquare.signOf (X.fin (19 / 4) - X.fin 5 : X binary64) = -1 := by
    rw [X.sub_fin, q4 _ (-1) (by norm_num) (by norm_num)]
    unfold PSquare.signOf
    rw [n0, X.lt_fin, X.lt_fin, if_neg (by norm_num), if_pos (by norm_num)]
  have s1 : (ofSize (2 : SizeT 64) : X binary64) = X.fin 2 := n2
  have s2 : (ofSize (3 : SizeT 64) : X binary64) = X.fin 3 := n3
  have s3 : (ofSize (5 : SizeT 64) : X binary64) = X.fin 5 := n5
  have a1 : s6.adjust 1 = some s6 := by
    simp [PSquare.adjust, s6]
  have i1 : (ofInt 1 : X binary64) = X.fin 1 := by
    rw [X.ofInt_eq, round64_int 1 (by norm_num) (by norm_num)]; norm_num
  have inf1 : (X.pinf / X.fin 2 : X binary64) = X.pinf := by
    show (if (2 : ℝ) < 0 then X.ninf else X.pinf : X binary64) = X.pinf
    norm_num
  have z1 : ∀ r : ℝ, (X.fin r + X.pinf : X binary64) = X.pinf := fun _ => rfl
  have z2 : ∀ r : ℝ, (X.pinf + X.fin r : X binary64) = X.pinf := fun _ => rfl
  have z3 : ∀ r : ℝ, 0 < r → (X.fin r * X.pinf : X binary64) = X.pinf := by
    intro r hr
    show (X.signedInf r : X binary64) = _
    unfold X.signedInf
    rw [if_pos hr]
  have sub1 : (X.fin M - X.fin (-M) : X binary64) = X.pinf := by rw [X.sub_fin, hover]
  have sub2 : (X.fin (-M) - X.fin (-M) : X binary64) = X.fin 0 := binary64_binary.sub_self _
  have third : ∃ r : ℝ, 0 < r ∧ (X.fin 1 / X.fin 3 : X binary64) = X.fin r := by
    rw [X.div_fin_of_ne _ (by norm_num)]
    have h1 := binary64_binary.le_rnd (a := 1 / 4) (b := 1 / 3) (by
      have := double 1 (-2) (by norm_num) (by norm_num) (by norm_num)
      norm_num at this ⊢; exact this.1) (by norm_num)
    have h2 := binary64_binary.rnd_le (a := 1 / 3) (b := 1) binary64_binary.isRep_one (by norm_num)
    refine ⟨binary64.rnd (1 / 3), by linarith, ?_⟩
    unfold X.round
    rw [if_pos (binary64_binary.fits_between binary64_binary.fits_zero binary64_binary.fits_one (by linarith) h2)]
  have par : s6.parabolic 2 1 = some X.pinf := by
    obtain ⟨r, hr, e⟩ := third
    unfold PSquare.parabolic
    rw [show s6.heights[2 - 1]? = some (X.fin (-M)) from rfl, show s6.heights[2]? = some (X.fin (-M)) from rfl,
      show s6.heights[2 + 1]? = some (X.fin M) from rfl, show s6.positions[2 - 1]? = some 2 from rfl,
      show s6.positions[2]? = some 3 from rfl, show s6.positions[2 + 1]? = some 5 from rfl]
    simp only [Option.bind_eq_bind, Option.bind_some, Option.pure_def, sub1, sub2, i1]
    have g1 : (ofSize (5 - 2 : SizeT 64) : X binary64) = X.fin 3 := n3
    have g2 : (ofSize (3 - 2 + BitVec.ofInt 64 1 : SizeT 64) : X binary64) = X.fin 2 := n2
    have g3 : (ofSize (5 - 3 : SizeT 64) : X binary64) = X.fin 2 := n2
    have g4 : (ofSize (5 - 3 - BitVec.ofInt 64 1 : SizeT 64) : X binary64) = X.fin 1 := n1
    have g5 : (ofSize (3 - 2 : SizeT 64) : X binary64) = X.fin 1 := n1
    rw [g1, g2, g3, g4, g5, e, inf1, z3 2 (by norm_num), X.div_fin_of_ne _ (by norm_num),
      q4 _ 0 (by norm_num) (by norm_num), X.mul_fin, q4 _ 0 (by norm_num) (by norm_num), z2, z3 r hr, z1]
    rfl
  have linr : s6.linear 2 1 = some X.pinf := by
    unfold PSquare.linear
    rw [show PSquare.shift 2 1 = 3 from rfl, show s6.heights[2]? = some (X.fin (-M)) from rfl,
      show s6.heights[3]? = some (X.fin M) from rfl, show s6.positions[2]? = some 3 from rfl,
      show s6.positions[3]? = some 5 from rfl]
    simp only [Option.bind_eq_bind, Option.bind_some, Option.pure_def, sub1, i1]
    have g3 : (ofSize (5 - 3 : SizeT 64) : X binary64) = X.fin 2 := n2
    rw [g3, inf1, z3 1 (by norm_num), z1]
    rfl
  set s7 : PSquare 64 (X binary64) := ⟨[X.fin (1 / 2)], 5, [1, 2, 4, 5, 6], [X.fin (-M), X.fin (-M), X.pinf, X.fin M, X.fin M],
        [X.fin 1, X.fin (9 / 4), X.fin (7 / 2), X.fin (19 / 4), X.fin 6],
        [X.fin 0, X.fin (1 / 4), X.fin (1 / 2), X.fin (3 / 4), X.fin 1]⟩ with hs7
  have a2 : s6.adjust 2 = some s7 := by
    have l6 : lt (X.pinf : X binary64) (X.fin M) = false := rfl
    have hsg := sgn (7 / 2) 3 2 (by norm_num) (by norm_num) (by norm_num)
    rw [← s2] at hsg
    unfold PSquare.adjust
    rw [show s6.desired[2]? = some (X.fin (7 / 2)) from rfl, show s6.positions[2]? = some 3 from rfl,
      show s6.positions[2 - 1]? = some 2 from rfl, show s6.positions[2 + 1]? = some 5 from rfl,
      show s6.heights[2 - 1]? = some (X.fin (-M)) from rfl, show s6.heights[2 + 1]? = some (X.fin M) from rfl]
    simp only [Option.bind_eq_bind, Option.bind_some, hsg]
    rw [if_pos (Or.inl ⟨trivial, by decide⟩), par]
    simp only [Option.bind_some, l6, Bool.and_false, Bool.false_eq_true, if_false, linr, Option.pure_def]
    rfl
  have a3 : s7.adjust 3 = some s7 := by
    rw [← s3] at sgn'
    simp [PSquare.adjust, s7]
  have p6 : s5.push (X.fin (-M)) = some { s7 with count := 6 } := by
    have hc : s5.count ≥ BitVec.ofNat 64 s5.len := by
      show (5 : SizeT 64) ≥ BitVec.ofNat 64 5
      decide
    unfold PSquare.push
    rw [if_pos hc, hloc]
    simp only [Option.bind_eq_bind, Option.bind_some]
    show ((List.range' 1 3).foldlM PSquare.adjust (s5.bump 3)).bind _ = _
    rw [hbump]
    simp only [List.range', List.foldlM_cons, List.foldlM_nil, a1, a2, a3, Option.bind_eq_bind, Option.bind_some, Option.pure_def]
    rfl
  refine ⟨{ s7 with count := 6 }, ?_, rfl⟩
  show (((((((some (PSquare.init [median])).bind (PSquare.push · _)).bind (PSquare.push · _)).bind (PSquare.push · _)).bind
    (PSquare.push · _)).bind (PSquare.push · _)).bind (PSquare.push · _)) = _
  rw [hinit, Option.bind_some, p1, Option.bind_some, p2, Option.bind_some, p3, Option.bind_some, p4, Option.bind_some, p5,
    Option.bind_some, p6]

/-- The median of these values is estimated as infinity. -/
theorem C106_infinite : ∃ s : PSquare 64 (X binary64), PSquare.run [median] (finOps farApart) = some s
    ∧ s.get 1 = some X.pinf := by
  have e : binary64.rnd ((2 : ℝ) ^ 1023 - -2 ^ 1023) = 2 ^ (1024 : Int) := by
    rw [show (2 : ℝ) ^ 1023 - -2 ^ 1023 = 2 ^ (1024 : Int) by rw [sub_neg_eq_add, ← two_mul, ← pow_succ']; exact (zpow_natCast _ _).symm]
    exact binary64_binary.exact _ (isRep_zpow (by norm_num) (by norm_num))
  refine far_eval (M := 2 ^ 1023) (by positivity) ?_
  rw [e, binary64_fits, abs_of_pos (by positivity)]; exact lt_irrefl _

/-- C106 is violated in binary64: the median of six finite values is infinite. -/
theorem C106_violated : ¬ EstimatesInOrder 64 binary64 53 (-1074) := by
  intro h
  obtain ⟨s', e1, e2⟩ := C106_infinite
  have hrep : IsRep 53 (-1074) ((2 : ℝ) ^ 1023) ∧ binary64.fits ((2 : ℝ) ^ 1023) := by
    have e : (2 : ℝ) ^ 1023 = 2 ^ (1023 : Int) := (zpow_natCast _ _).symm
    rw [e]
    refine ⟨isRep_zpow (by norm_num) (by norm_num), ?_⟩
    rw [binary64_fits, abs_of_pos (by positivity)]
    exact zpow_lt_zpow_right₀ (by norm_num) (by norm_num)
  obtain ⟨s, v, h1, h2, -⟩ := h [median] farApart (by decide) (by decide) (by
    intro x hx
    have hx' : x ∈ [-(2 : ℝ) ^ 1023, -2 ^ 1023, -2 ^ 1023, 2 ^ 1023, 2 ^ 1023, -2 ^ 1023] := hx
    simp only [List.mem_cons, List.not_mem_nil, or_false] at hx'
    have : x = -2 ^ 1023 ∨ x = 2 ^ 1023 := by tauto
    rcases this with rfl | rfl
    · exact ⟨hrep.1.neg, binary64_binary.fits_neg hrep.2⟩
    · exact hrep) (by decide)
  rw [e1] at h1
  obtain rfl := Option.some.inj h1
  have := h2 1 (by decide)
  rw [e2] at this
  cases this

/-- C106 with rounding to nearest, if nothing overflows: for up to `N` values of absolute value up to `B` where `128 N B`
and `2^w` do not overflow, `N` is small compared to the digits of the format and of the size type, and `1 / N` does not
underflow (`Fits`). -/
theorem C106_order_partial (h : F.Nearest p emin) {N : Nat} {B : ℝ} (hfit : Fits F p emin w N B) (quantiles : List Ratio)
    (hL : 2 * quantiles.length + 3 < 2 ^ w) (ops : List (Op ℝ)) (hops : ops.length < 2 ^ w)
    (hN : (sinceClear ops).length ≤ N) (hx : ∀ x ∈ sinceClear ops, IsRep p emin x ∧ |x| ≤ B)
    (hn : 2 * quantiles.length + 3 < (sinceClear ops).length) : OrderedEstimates w F quantiles ops := by
  have hl : (quantiles.map (Ratio.toScalar : Ratio → X F)).length = quantiles.length := by simp
  have hpl : paramLength quantiles.length = 2 * quantiles.length + 3 := rfl
  have hw := (sinceClear_length_le ops).trans_lt hops
  obtain ⟨s, ps, hs', d, hs, hi⟩ := pushes_invF (w := w) (b := N) (quantiles.map (Ratio.toScalar : Ratio → X F))
    (by rw [hl]; exact hL) (fun x => IsRep p emin x ∧ |x| ≤ B)
    (fun hh => ∃ r : Nat → ℝ, (∀ i, i < paramLength quantiles.length → hh i = X.fin (r i) ∧ IsRep p emin (r i) ∧ |r i| ≤ B)
      ∧ ∀ i, i + 1 < paramLength quantiles.length → r i ≤ r (i + 1))
    (by intro r hh hr ho hh'
        rw [hl] at hr hh' ho
        exact ⟨r, fun i hi => ⟨hh' i hi, hr i hi⟩, ho⟩)
    (by rintro hh x lo hx ⟨r, hr, ho⟩ h0 hlt
        refine ⟨Function.update r 0 x, fun i hi => ?_, fun i hi => ?_⟩
        · by_cases e : i = 0
          · subst e; rw [Function.update_self, Function.update_self]; exact ⟨rfl, hx⟩
          · rw [Function.update_of_ne e, Function.update_of_ne e]; exact hr i hi
        · rw [Function.update_of_ne (show i + 1 ≠ 0 by omega)]
          by_cases e : i = 0
          · subst e
            rw [Function.update_self]
            have := (hr 0 (by omega)).1
            rw [h0, X.fin_inj] at this
            exact hlt.le.trans (this ▸ ho 0 hi)
          · rw [Function.update_of_ne e]; exact ho i hi)
    (by rintro hh x hi' hx ⟨r, hr, ho⟩ h0 hlt
        rw [hl] at h0 ⊢
        refine ⟨Function.update r (paramLength quantiles.length - 1) x, fun i hi => ?_, fun i hi => ?_⟩
        · by_cases e : i = paramLength quantiles.length - 1
          · subst e; rw [Function.update_self, Function.update_self]; exact ⟨rfl, hx⟩
          · rw [Function.update_of_ne e, Function.update_of_ne e]; exact hr i hi
        · rw [Function.update_of_ne (show i ≠ paramLength quantiles.length - 1 by omega)]
          by_cases e : i + 1 = paramLength quantiles.length - 1
          · rw [e, Function.update_self]
            have := (hr (paramLength quantiles.length - 1) (by omega)).1
            rw [h0, X.fin_inj] at this
            have h3 := ho i hi
            rw [e, ← this] at h3
            exact h3.trans hlt
          · rw [Function.update_of_ne e]; exact ho i hi)
    (by rintro q d hh i sign hm hb h1 h2 hmv ⟨r, hr, ho⟩
        rw [hl] at hm h2 hb
        have m1 : q (i - 1) < q i := hm.lt (by omega) (by omega)
        have m2 : q i < q (i + 1) := hm.lt (by omega) (by omega)
        have m3 : q (i + 1) ≤ N := (hm.le (show i + 1 ≤ paramLength quantiles.length - 1 by omega) (by omega)).trans hb
        obtain ⟨e1, e2, e3⟩ := hr (i - 1) (by omega)
        obtain ⟨f1, f2, f3⟩ := hr i (by omega)
        obtain ⟨g1, g2, g3⟩ := hr (i + 1) h2
        have o1 : r (i - 1) ≤ r i := by
          have := ho (i - 1) (by omega)
          rwa [show i - 1 + 1 = i by omega] at this
        obtain ⟨v, v1, v2, v3, v4⟩ := predict_betweenF h hfit (f := q (i + 1) - q i) (b := q i - q (i - 1)) (by omega)
          (by omega) (by omega) hmv.2 f2 g2 o1 (ho i h2) e3 f3 g3
        have hpv : predictAt w q hh i sign = X.fin v := by
          unfold predictAt
          rw [e1, f1, g1, v1]
        refine ⟨Function.update r i v, fun j hj => ?_, fun j hj => ?_⟩
        · by_cases e : j = i
          · subst e
            rw [Function.update_self, Function.update_self, hpv]
            refine ⟨rfl, v2, ?_⟩
            rw [abs_le] at e3 g3 ⊢
            exact ⟨by linarith, by linarith⟩
          · rw [Function.update_of_ne e, Function.update_of_ne e]; exact hr j hj
        · by_cases e : j = i
          · subst e
            rw [Function.update_self, Function.update_of_ne (by omega)]; exact v4
          · rw [Function.update_of_ne e]
            by_cases e' : j + 1 = i
            · subst e'
              rw [Function.update_self]
              exact v3
            · rw [Function.update_of_ne e']; exact ho j hj)
    (sinceClear ops) hN hw hx
  obtain ⟨⟨r, hr, ho⟩, lo, hi', g1, g2, g3, g4⟩ := hi.many (by rw [hl]; omega)
  rw [hl] at g2
  refine ⟨s, fun i => r (2 * i), ?_, fun i hidx => ?_, fun i hidx => ?_, ?_, ?_⟩
  · rw [run_eq_pushes quantiles hL _ (by simpa [finOps] using hops), sinceClear_finOps, hs]
  · rw [get_manyF hi (by rw [hl]; omega) hw (by rw [hl]; exact hidx), (hr (2 * i) (by omega)).1]
  · have a := ho (2 * i) (by omega)
    have b := ho (2 * i + 1) (by omega)
    show r (2 * i) ≤ r (2 * (i + 1))
    rw [show 2 * (i + 1) = 2 * i + 1 + 1 by ring]
    exact a.trans b
  · have := (hr 0 (by omega)).1
    rw [g1, X.fin_inj] at this
    show IsLeast _ (r (2 * 0))
    rw [Nat.mul_zero, ← this]; exact g3
  · have := (hr (paramLength quantiles.length - 1) (by omega)).1
    rw [g2, X.fin_inj] at this
    show IsGreatest _ (r (2 * (quantiles.length + 1)))
    rw [show 2 * (quantiles.length + 1) = paramLength quantiles.length - 1 by omega, ← this]; exact g4

/-- For `double` and a 64-bit size type: up to `2^26` values up to `2^980`. -/
theorem C106_double : Fits binary64 53 (-1074) 64 (2 ^ 26) (2 ^ 980) where
  size := by norm_num
  digits := by norm_num
  small := by
    rw [show ((2 ^ 26 : Nat) : ℝ) = 2 ^ (26 : Int) by norm_num, ← zpow_add₀ (by norm_num)]
    exact zpow_le_zpow_right₀ (by norm_num) (by norm_num)
  count := by
    rw [binary64_fits, abs_of_pos (by positivity), ← zpow_natCast]
    exact zpow_lt_zpow_right₀ (by norm_num) (by norm_num)
  values := by
    rw [binary64_fits, abs_of_pos (by positivity)]
    rw [show ((2 ^ 26 : Nat) : ℝ) = 2 ^ 26 by norm_num, show (128 : ℝ) * 2 ^ 26 * 2 ^ 980 = 2 ^ (1013 : Int) by
      rw [show (128 : ℝ) = 2 ^ 7 by norm_num, ← pow_add, ← pow_add]; exact (zpow_natCast _ _).symm]
    exact zpow_lt_zpow_right₀ (by norm_num) (by norm_num)

/-- For `float` and a 64-bit size type: up to `2^18` values up to `2^100`. -/
theorem C106_float : Fits binary32 24 (-149) 64 (2 ^ 18) (2 ^ 100) where
  size := by norm_num
  digits := by norm_num
  small := by
    rw [show ((2 ^ 18 : Nat) : ℝ) = 2 ^ (18 : Int) by norm_num, ← zpow_add₀ (by norm_num)]
    exact zpow_le_zpow_right₀ (by norm_num) (by norm_num)
  count := by
    rw [binary32_fits, abs_of_pos (by positivity), ← zpow_natCast]
    exact zpow_lt_zpow_right₀ (by norm_num) (by norm_num)
  values := by
    rw [binary32_fits, abs_of_pos (by positivity)]
    rw [show ((2 ^ 18 : Nat) : ℝ) = 2 ^ 18 by norm_num, show (128 : ℝ) * 2 ^ 18 * 2 ^ 100 = 2 ^ (125 : Int) by
      rw [show (128 : ℝ) = 2 ^ 7 by norm_num, ← pow_add, ← pow_add]; exact (zpow_natCast _ _).symm]
    exact zpow_lt_zpow_right₀ (by norm_num) (by norm_num)

/-- Nine values of very different magnitude in binary64, estimated quartiles. -/
example : OrderedEstimates 64 binary64 [⟨1, 4⟩, ⟨1, 2⟩, ⟨3, 4⟩] (([3, -1, 2 ^ 50, 7, 0, 5, -2 ^ 52, 1, 2, 9] : List Int).map
    fun n => Op.push (n : ℝ)) := by
  have e : sinceClear ((([3, -1, 2 ^ 50, 7, 0, 5, -2 ^ 52, 1, 2, 9] : List Int).map fun n => Op.push (n : ℝ)))
    = ([3, -1, 2 ^ 50, 7, 0, 5, -2 ^ 52, 1, 2, 9] : List Int).map (Int.cast : Int → ℝ) := rfl
  refine C106_order_partial binary64_nearest C106_double _ (by decide) _ (by decide) (by rw [e]; simp) ?_ (by rw [e]; decide)
  rw [e]
  intro x hx
  obtain ⟨n, hn, rfl⟩ := List.mem_map.1 hx
  have hb : |n| ≤ 2 ^ 52 := by
    simp only [List.mem_cons, List.not_mem_nil, or_false] at hn
    rcases hn with rfl | rfl | rfl | rfl | rfl | rfl | rfl | rfl | rfl | rfl <;> norm_num
  refine ⟨(binary64_int (by omega)).1, ?_⟩
  have h1 : |(n : ℝ)| ≤ 2 ^ 52 := by exact_mod_cast hb
  exact h1.trans (pow_le_pow_right₀ (by norm_num) (by norm_num))

end Verif.Props
