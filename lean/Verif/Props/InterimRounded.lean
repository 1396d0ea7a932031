import Verif.Props.Rounded
import Verif.Proofs.Interim
import Verif.Proofs.Double
/-
C68, C69: interim filters with rounding.
-/
namespace Verif.Props
open Scalar Verif.Interim
open Verif.Cumulative (Mean Variance)

variable {w W : Nat} {F : Fmt} {p : Nat} {emin : Int}

/-! ### C68 -/

theorem curBlock_replicate {β : Type} (W n : Nat) (c : β) :
    Spec.curBlock W (List.replicate n c) = List.replicate (Spec.curBlock W (List.replicate n c)).length c := by
  refine List.eq_replicate_iff.2 ⟨rfl, fun b hb => ?_⟩
  exact (List.mem_replicate.1 (List.mem_of_mem_drop hb)).2

theorem prevBlock_replicate {β : Type} (W n : Nat) (c : β) :
    Spec.prevBlock W (List.replicate n c) = List.replicate (Spec.prevBlock W (List.replicate n c)).length c := by
  refine List.eq_replicate_iff.2 ⟨rfl, fun b hb => ?_⟩
  unfold Spec.prevBlock at hb
  split_ifs at hb
  · exact absurd hb (by simp)
  · exact (List.mem_replicate.1 (List.mem_of_mem_drop (List.mem_of_mem_take hb))).2

/-- C68: after `n ≥ 1` times the same number the interim mean is this number and the interim variance is 0. -/
def C68_Statement : Prop :=
  ∀ (W : Nat), 1 ≤ W → W * W < 2 ^ 64 → ∀ (ops : List (Op (X binary64))) (c : ℝ) (n : Nat), 1 ≤ n →
    IsRep 53 (-1074) c → binary64.fits c → sinceClear ops = List.replicate n (X.fin c) →
    IMean.mean (Interim.run ops : IMean 64 W (X binary64)) = X.fin c
    ∧ IVariance.variance (Interim.run ops : IVariance 64 W (X binary64)) = X.fin 0

/-- A block of the same number. -/
theorem mean_block (hF : F.Binary p emin) {c : ℝ} (hc : IsRep p emin c) (hf : F.fits c) {n : Nat} (hn : 1 ≤ n) (hw : n < 2 ^ w) :
    (foldB (List.replicate n (X.fin c)) : Mean w (X F)).getMean = X.fin c := by
  have h := (C17_constant (w := w) hF ((List.replicate n (X.fin c)).map Op.push) hc hf (by rw [sinceClear_pushes]) hn hw).1
  rwa [Mean.run_eq, sinceClear_pushes] at h

theorem variance_block (hF : F.Binary p emin) {c : ℝ} (hc : IsRep p emin c) (hf : F.fits c) {n : Nat} (hn : 1 ≤ n) (hw : n < 2 ^ w) :
    (foldB (List.replicate n (X.fin c)) : Variance w (X F)).variance = X.fin 0 := by
  have h := (C17_constant (w := w) hF ((List.replicate n (X.fin c)).map Op.push) hc hf (by rw [sinceClear_pushes]) hn hw).2.2.1
  rwa [Variance.run_eq, sinceClear_pushes] at h

/-- The interim variance, any arithmetic: that of one block, or a weighted average. -/
theorem varianceWith_cases {α σ β : Type} [Scalar α] [Block σ w β] [LawfulBlock σ w β] (hW : 1 ≤ W) (hw : W * W < 2 ^ w) (get : σ → α)
    (ops : List (Op β)) (hne : sinceClear ops ≠ []) :
    let cur := Spec.curBlock W (sinceClear ops)
    let prev := Spec.prevBlock W (sinceClear ops)
    cur ≠ [] ∧ ((Interim.run ops : Interim W σ).varianceWith get = get (foldB cur)
      ∨ prev ≠ [] ∧ (Interim.run ops : Interim W σ).varianceWith get = get (foldB prev)
      ∨ prev ≠ [] ∧ ∃ a b c : Nat, a < 2 ^ w ∧ b < 2 ^ w ∧ 1 ≤ c ∧ (Interim.run ops : Interim W σ).varianceWith get
          = (ofNat a * get (foldB prev) + ofNat b * get (foldB cur)) / ofNat c) := by
  intro cur prev
  have hlc : cur.length ≤ W := Spec.length_curBlock_le hW (sinceClear ops)
  have hWw : W < 2 ^ w := by nlinarith
  have hcne : cur ≠ [] := fun h => hne ((Spec.curBlock_eq_nil hW _).1 h)
  have hc1 := List.length_pos_iff.2 hcne
  refine ⟨hcne, ?_⟩
  rw [run_blocks hW hWw, Interim.varianceWith, passiveEmpty_blocks hW hWw]
  by_cases hn : (sinceClear ops).length ≤ W
  · rw [decide_eq_true hn, if_pos rfl]; exact Or.inl rfl
  · rw [decide_eq_false hn]
    have hpne : prev ≠ [] := fun h => hn ((Spec.prevBlock_eq_nil hW _).1 h)
    simp only [Bool.false_eq_true, if_false]
    refine Or.inr ?_
    rw [size_foldB]
    have h1 : (1 : BitVec w) = BitVec.ofNat w 1 := rfl
    have h2 : (2 : BitVec w) = BitVec.ofNat w 2 := rfl
    have hle : BitVec.ofNat w cur.length ≤ 1 ↔ cur.length ≤ 1 := by
      rw [h1, BitVec.le_def, toNat_ofNat_lt (by omega), toNat_ofNat_lt (by omega)]
    by_cases hs : cur.length ≤ 1
    · exact Or.inl ⟨hpne, if_pos (hle.2 hs)⟩
    · refine Or.inr ⟨hpne, ?_⟩
      rw [if_neg (fun h => hs (hle.1 h))]
      have hb : (W - (cur.length - 1)) * (W - (cur.length - 1)) + 2 * (cur.length - 1) < 2 ^ w := by
        rcases weights_bound (W := W) (s := cur.length - 1) (by omega) with h | h <;> omega
      have hp1 : 1 ≤ (W - (cur.length - 1)) * (W - (cur.length - 1)) := Nat.mul_pos (by omega) (by omega)
      refine ⟨(W - (cur.length - 1)) * (W - (cur.length - 1)), 2 * (cur.length - 1),
        (W - (cur.length - 1)) * (W - (cur.length - 1)) + 2 * (cur.length - 1), by omega, by omega, by omega, ?_⟩
      have e1 : BitVec.ofNat w W - (BitVec.ofNat w cur.length - 1) = BitVec.ofNat w (W - (cur.length - 1)) := by
        rw [ofNat_sub_one (by omega), ofNat_sub (by omega)]
      show (ofSize ((BitVec.ofNat w W - (BitVec.ofNat w cur.length - 1)) * (BitVec.ofNat w W - (BitVec.ofNat w cur.length - 1))) * _
        + ofSize (2 * (BitVec.ofNat w cur.length - 1)) * _)
        / ofSize ((BitVec.ofNat w W - (BitVec.ofNat w cur.length - 1)) * (BitVec.ofNat w W - (BitVec.ofNat w cur.length - 1))
          + 2 * (BitVec.ofNat w cur.length - 1)) = _
      rw [e1, ofNat_sub_one (by omega), h2, ← BitVec.ofNat_mul, ← BitVec.ofNat_mul, ← BitVec.ofNat_add]
      unfold ofSize
      rw [toNat_ofNat_lt hb, toNat_ofNat_lt (by omega), toNat_ofNat_lt (by omega)]

/-- C68, the part that holds: the interim variance of a constant stream is 0, and the mean is exact until the first
block is complete.  Missing: the mean afterwards. -/
theorem C68_constant_partial (hF : F.Binary p emin) (hW : 1 ≤ W) (hw : W * W < 2 ^ w) (hsz : F.fits (F.rnd ((2 ^ w : Nat) : ℝ)))
    (ops : List (Op (X F))) {c : ℝ} {n : Nat} (hc : IsRep p emin c) (hf : F.fits c) (hn : 1 ≤ n)
    (hops : sinceClear ops = List.replicate n (X.fin c)) :
    IVariance.variance (Interim.run ops : IVariance w W (X F)) = X.fin 0
    ∧ (n ≤ W → IMean.mean (Interim.run ops : IMean w W (X F)) = X.fin c) := by
  have hWw : W < 2 ^ w := by nlinarith
  have hlc := Spec.length_curBlock_le hW (sinceClear ops)
  have hlp : (Spec.prevBlock W (sinceClear ops)).length ≤ W := by
    rw [Spec.length_prevBlock hW]; split_ifs <;> omega
  have hne : sinceClear ops ≠ [] := by
    rw [hops]; intro h; have := congrArg List.length h; simp at this; omega
  constructor
  · obtain ⟨hcne, h⟩ := varianceWith_cases (W := W) hW hw (Variance.variance : Variance w (X F) → X F) ops hne
    have v1 : (foldB (Spec.curBlock W (sinceClear ops)) : Variance w (X F)).variance = X.fin 0 := by
      have hl := List.length_pos_iff.2 hcne
      rw [hops] at hl hlc ⊢
      rw [curBlock_replicate]
      exact variance_block hF hc hf hl (by omega)
    have v2 : Spec.prevBlock W (sinceClear ops) ≠ [] →
        (foldB (Spec.prevBlock W (sinceClear ops)) : Variance w (X F)).variance = X.fin 0 := by
      intro hpne
      have hl := List.length_pos_iff.2 hpne
      rw [hops] at hl hlp ⊢
      rw [prevBlock_replicate]
      exact variance_block hF hc hf hl (by omega)
    show (Interim.run ops : IVariance w W (X F)).varianceWith Variance.variance = X.fin 0
    rcases h with h | ⟨hpne, h⟩ | ⟨hpne, a, b, k, ha, hb, hk, h⟩
    · rw [h]; exact v1
    · rw [h]; exact v2 hpne
    · rw [h, v1, v2 hpne]
      obtain ⟨da, ea⟩ := hF.ofSize_fin hsz (BitVec.ofNat w a)
      obtain ⟨db, eb⟩ := hF.ofSize_fin hsz (BitVec.ofNat w b)
      rw [ofSize, toNat_ofNat_lt ha] at ea
      rw [ofSize, toNat_ofNat_lt hb] at eb
      rw [ea, eb, hF.mul_zero, hF.mul_zero, hF.add_zero (isRep_zero _ _) hF.fits_zero, hF.zero_div hk]
  · intro hnW
    have hl : (sinceClear ops).length ≤ W := by rw [hops, List.length_replicate]; exact hnW
    show (Interim.run ops : IMean w W (X F)).meanWith Mean.getMean = X.fin c
    rw [run_blocks hW hWw, Interim.meanWith, passiveEmpty_blocks hW hWw, decide_eq_true hl, if_pos rfl,
      Spec.curBlock_of_le hW hl, hops]
    exact mean_block hF hc hf hn (by omega)

/-- `double`, `W = 2`: the variance of 7, 7, 7, 7, 7 is 0. -/
example : IVariance.variance (Interim.run (.push X.nan :: .clear :: List.replicate 5 (.push (X.fin 7))) : IVariance 64 2 (X binary64))
    = X.fin 0 := by
  have h7 := binary64_int (n := 7) (by norm_num)
  push_cast at h7
  exact (C68_constant_partial binary64_binary (by norm_num) (by norm_num) binary64_size _ (n := 5) h7.1 h7.2 (by norm_num) rfl).1

/-- `(3 x + 2 x) / 5` for `x = 1 + 2^-52`. -/
theorem C68_blend : ((X.fin (1 + 2 ^ (-52 : Int)) * ofNat 3 + X.fin (1 + 2 ^ (-52 : Int)) * ofNat 2) / ofNat 5 : X binary64)
    = X.fin (1 + 2 ^ (-51 : Int)) := by
  rw [ofNat64 (by norm_num), ofNat64 (by norm_num), ofNat64 (by norm_num), X.mul_fin, X.mul_fin]
  have r3 : (X.round ((1 + 2 ^ (-52 : Int)) * (3 : Nat)) : X binary64) = X.fin (3 + 2 ^ (-50 : Int)) := by
    refine round64_of (3 * 2 ^ 51 + 2) (-51) ?_ (by norm_num) (by norm_num) (by norm_num) (by norm_num)
    rw [rnd64_tie (3 * 2 ^ 51 + 1) (-51) (by norm_num) (by rw [abs_of_pos (by norm_num)]; norm_num)
      (by rw [abs_of_pos (by norm_num)]; norm_num) (by norm_num), if_neg (by decide)]
    norm_num
  have r2 : (X.round ((1 + 2 ^ (-52 : Int)) * (2 : Nat)) : X binary64) = X.fin ((1 + 2 ^ (-52 : Int)) * (2 : Nat)) :=
    round64 (2 ^ 52 + 1) (-51) (by norm_num) (by norm_num) (by norm_num) (by norm_num)
  rw [r3, r2, X.add_fin]
  have r5 : (X.round (3 + 2 ^ (-50 : Int) + (1 + 2 ^ (-52 : Int)) * (2 : Nat)) : X binary64) = X.fin (5 + 2 ^ (-49 : Int)) := by
    refine round64_of (5 * 2 ^ 50 + 2) (-50) ?_ (by norm_num) (by norm_num) (by norm_num) (by norm_num)
    rw [rnd64_tie (5 * 2 ^ 50 + 1) (-50) (by norm_num) (by rw [abs_of_pos (by norm_num)]; norm_num)
      (by rw [abs_of_pos (by norm_num)]; norm_num) (by norm_num), if_neg (by decide)]
    norm_num
  rw [r5, X.div_fin_of_ne _ (by norm_num)]
  refine round64_of (2 ^ 52 + 2) (-52) ?_ (by norm_num) (by norm_num) (by norm_num) (by norm_num)
  rw [rnd64_near (2 ^ 52 + 2) (-52) (by norm_num) (by rw [abs_of_pos (by norm_num)]; norm_num)
    (by rw [abs_of_pos (by norm_num)]; norm_num) (by rw [abs_lt]; constructor <;> norm_num)]
  norm_num

/-- Five pushes of `1 + 2^-52` with `W = 4` give the mean `1 + 2^-51`. -/
theorem C68_mean_value :
    IMean.mean (Interim.run (List.replicate 5 (.push (X.fin (1 + 2 ^ (-52 : Int))))) : IMean 64 4 (X binary64))
      = X.fin (1 + 2 ^ (-51 : Int)) := by
  have hx := double (2 ^ 52 + 1) (-52) (by norm_num) (by norm_num) (by norm_num)
  have e : (((2 ^ 52 + 1 : Int) : ℝ)) * 2 ^ (-52 : Int) = 1 + 2 ^ (-52 : Int) := by norm_num
  rw [e] at hx
  have hs : sinceClear (List.replicate 5 (Op.push (X.fin (1 + 2 ^ (-52 : Int)) : X binary64)))
      = List.replicate 5 (X.fin (1 + 2 ^ (-52 : Int))) := rfl
  have m1 := mean_block (w := 64) binary64_binary hx.1 hx.2 (n := 1) (by norm_num) (by norm_num)
  have m4 := mean_block (w := 64) binary64_binary hx.1 hx.2 (n := 4) (by norm_num) (by norm_num)
  show (Interim.run _ : IMean 64 4 (X binary64)).meanWith Mean.getMean = _
  rw [run_blocks (by norm_num) (by norm_num), Interim.meanWith, passiveEmpty_blocks (by norm_num) (by norm_num), hs]
  rw [show decide ((List.replicate 5 (X.fin (1 + 2 ^ (-52 : Int)) : X binary64)).length ≤ 4) = false by simp]
  simp only [Bool.false_eq_true, if_false]
  rw [size_foldB]
  change ((foldB (List.replicate 4 (X.fin (1 + 2 ^ (-52 : Int)))) : Mean 64 (X binary64)).getMean * ofNat 3
    + (foldB (List.replicate 1 (X.fin (1 + 2 ^ (-52 : Int)))) : Mean 64 (X binary64)).getMean * ofNat 2) / ofNat 5 = _
  rw [m1, m4]
  exact C68_blend

/-- C68 is violated. -/
theorem C68_violated : ¬ C68_Statement := by
  intro h
  have hx := double (2 ^ 52 + 1) (-52) (by norm_num) (by norm_num) (by norm_num)
  have e : (((2 ^ 52 + 1 : Int) : ℝ)) * 2 ^ (-52 : Int) = 1 + 2 ^ (-52 : Int) := by norm_num
  rw [e] at hx
  have h1 := (h 4 (by norm_num) (by norm_num) (List.replicate 5 (.push (X.fin (1 + 2 ^ (-52 : Int))))) _ 5 (by norm_num) hx.1 hx.2 rfl).1
  rw [C68_mean_value] at h1
  injection h1 with h1
  norm_num at h1

/-! ### C69 -/

/-- Not negative: NaN, `+inf` or a number that is at least 0. -/
def NotNeg (x : X F) : Prop := x = X.nan ∨ x = X.pinf ∨ ∃ s : ℝ, 0 ≤ s ∧ x = X.fin s

theorem NotNeg.round (hF : F.Binary p emin) {r : ℝ} (h : 0 ≤ r) : NotNeg (X.round r : X F) := by
  rcases hF.round_nonneg h with h | ⟨d, h1, -, -, -, h2⟩
  · exact Or.inr (Or.inl h)
  · exact Or.inr (Or.inr ⟨d, h1, h2⟩)

theorem NotNeg.signedInf {r : ℝ} (h : 0 ≤ r) : NotNeg (X.signedInf r : X F) := by
  unfold X.signedInf
  split_ifs with h1 h2
  · exact Or.inr (Or.inl rfl)
  · exact absurd h (not_le.2 h2)
  · exact Or.inl rfl

theorem NotNeg.ofNat (hF : F.Binary p emin) (n : Nat) : NotNeg (ofNat n : X F) := by
  rw [X.ofNat_eq]; exact NotNeg.round hF (Nat.cast_nonneg n)

theorem NotNeg.add (hF : F.Binary p emin) {x y : X F} (hx : NotNeg x) (hy : NotNeg y) : NotNeg (x + y) := by
  rcases hx with rfl | rfl | ⟨s, hs, rfl⟩ <;> rcases hy with rfl | rfl | ⟨t, ht, rfl⟩
  all_goals first
    | exact Or.inl rfl
    | exact Or.inr (Or.inl rfl)
    | (rw [X.add_fin]; exact NotNeg.round hF (by linarith))

theorem NotNeg.mul (hF : F.Binary p emin) {x y : X F} (hx : NotNeg x) (hy : NotNeg y) : NotNeg (x * y) := by
  rcases hx with rfl | rfl | ⟨s, hs, rfl⟩ <;> rcases hy with rfl | rfl | ⟨t, ht, rfl⟩
  all_goals first
    | exact Or.inl rfl
    | exact Or.inr (Or.inl rfl)
    | exact NotNeg.signedInf hs
    | exact NotNeg.signedInf ht
    | (rw [X.mul_fin]; exact NotNeg.round hF (mul_nonneg hs ht))

theorem NotNeg.div (hF : F.Binary p emin) {x y : X F} (hx : NotNeg x) (hy : NotNeg y) : NotNeg (x / y) := by
  rcases hx with rfl | rfl | ⟨s, hs, rfl⟩ <;> rcases hy with rfl | rfl | ⟨t, ht, rfl⟩
  · exact Or.inl rfl
  · exact Or.inl rfl
  · exact Or.inl rfl
  · exact Or.inl rfl
  · exact Or.inl rfl
  · show NotNeg (if t < 0 then X.ninf else X.pinf)
    rw [if_neg (not_lt.2 ht)]; exact Or.inr (Or.inl rfl)
  · exact Or.inl rfl
  · exact Or.inr (Or.inr ⟨0, le_rfl, rfl⟩)
  · rcases eq_or_ne t 0 with rfl | h
    · rw [X.div_fin_zero]; exact NotNeg.signedInf hs
    · rw [X.div_fin_of_ne _ h]; exact NotNeg.round hF (div_nonneg hs ht)

theorem NotNeg.lt_zero (hF : F.Binary p emin) {x : X F} (h : NotNeg x) : lt x (Scalar.ofNat 0) = false := by
  rw [hF.ofNat_zero]
  rcases h with rfl | rfl | ⟨s, h0, rfl⟩
  · rfl
  · rfl
  · rw [X.lt_fin]; simpa using h0

theorem notNeg_of_data (hF : F.Binary p emin) (xs : List ℝ) (hd : F.Data p emin xs) (hw : xs.length < 2 ^ w) :
    NotNeg (foldB (xs.map X.fin) : Variance w (X F)).variance := by
  obtain ⟨-, hv⟩ := Cumulative.Variance.rounded (w := w) hF xs hd hw
  refine NotNeg.div hF ?_ (NotNeg.ofNat hF _)
  rcases hv with h | ⟨s, h1, -, -, h2⟩
  · exact Or.inr (Or.inl h)
  · exact Or.inr (Or.inr ⟨s, h1, h2⟩)

/-- C69: the interim variance is never negative, if differences of the values do not overflow. -/
theorem C69_nonneg (hF : F.Binary p emin) (hW : 1 ≤ W) (hw : W * W < 2 ^ w) (ops : List (Op ℝ))
    (hd : F.Data p emin (sinceClear ops)) (hne : sinceClear ops ≠ []) :
    lt (IVariance.variance (Interim.run (finOps ops) : IVariance w W (X F))) (ofNat 0) = false := by
  have hWw : W < 2 ^ w := by nlinarith
  have hsub : ∀ l : List ℝ, (∀ x ∈ l, x ∈ sinceClear ops) → F.Data p emin l := fun l hl =>
    ⟨fun x hx => hd.number x (hl x hx), fun x hx y hy => hd.difference x (hl x hx) y (hl y hy)⟩
  have hlc := Spec.length_curBlock_le hW (sinceClear ops)
  have hlp : (Spec.prevBlock W (sinceClear ops)).length ≤ W := by
    rw [Spec.length_prevBlock hW]; split_ifs <;> omega
  have n1 : NotNeg (foldB (Spec.curBlock W (sinceClear (finOps ops))) : Variance w (X F)).variance := by
    rw [sinceClear_finOps, Spec.curBlock_map]
    exact notNeg_of_data hF _ (hsub _ fun x hx => List.mem_of_mem_drop hx) (by omega)
  have n2 : NotNeg (foldB (Spec.prevBlock W (sinceClear (finOps ops))) : Variance w (X F)).variance := by
    rw [sinceClear_finOps, Spec.prevBlock_map]
    refine notNeg_of_data hF _ (hsub _ fun x hx => ?_) (by omega)
    unfold Spec.prevBlock at hx
    split_ifs at hx
    · exact absurd hx (by simp)
    · exact List.mem_of_mem_drop (List.mem_of_mem_take hx)
  refine NotNeg.lt_zero hF ?_
  obtain ⟨-, h⟩ := varianceWith_cases (W := W) hW hw (Variance.variance : Variance w (X F) → X F) (finOps ops)
    (by rw [sinceClear_finOps]; simpa using hne)
  show NotNeg ((Interim.run (finOps ops) : IVariance w W (X F)).varianceWith Variance.variance)
  rcases h with h | ⟨-, h⟩ | ⟨-, a, b, k, -, -, -, h⟩
  · rw [h]; exact n1
  · rw [h]; exact n2
  · rw [h]
    exact NotNeg.div hF (NotNeg.add hF (NotNeg.mul hF (NotNeg.ofNat hF _) n2) (NotNeg.mul hF (NotNeg.ofNat hF _) n1)) (NotNeg.ofNat hF _)

/-- `double`, `W = 2`, values 1, 2, 6, 4, 9 (two complete blocks and a part of the third). -/
example : lt (IVariance.variance (Interim.run (finOps [.push 1, .push 2, .push 6, .push 4, .push 9]) : IVariance 64 2 (X binary64))) (ofNat 0) = false := by
  refine C69_nonneg binary64_binary (by norm_num) (by norm_num) _ ?_ (by simp [sinceClear])
  have := binary64_data [1, 2, 6, 4, 9] (by simp)
  simpa [sinceClear] using this

end Verif.Props
