import Verif.Proofs.Excess
import Verif.Props.Mixed
import Verif.Props.Rounded
/-
C171: the cumulative mean and variance where expressions are evaluated with excess precision.  A history says of every
push which intermediate results are rounded to the value type and whether the product is contracted.
-/
namespace Verif.Props
open Scalar Verif.Excess

variable {w : Nat} {F W : Fmt} {p q : Nat} {emin gmin : Int} {u η u' η' : ℝ}

/-- The values of a history since the last `clear`, without the choices of the compiler. -/
def valuesOf {γ β : Type} (ops : List (Op (γ × β))) : List β := (sinceClear ops).map Prod.snd

/-- A history of calls with finite numbers. -/
def finE {γ : Type} (ops : List (Op (γ × ℝ))) : List (Op (γ × X F)) := ops.map (Op.map fun i => (i.1, X.fin i.2))

theorem sinceClear_finE {γ : Type} (ops : List (Op (γ × ℝ))) :
    sinceClear (finE ops : List (Op (γ × X F))) = (sinceClear ops).map fin1 := sinceClear_map _ _

/-- The evaluation formats of the common targets: `float` in `double` (`FLT_EVAL_METHOD` 1), `float` and `double` in
the 80-bit format (`FLT_EVAL_METHOD` 2), and every format in itself (`FLT_EVAL_METHOD` 0). -/
theorem C171_formats :
    binary32.Eval binary64 24 (-149) 53 (-1074) ∧ binary64.Eval extended80 53 (-1074) 64 (-16445)
      ∧ binary32.Eval extended80 24 (-149) 64 (-16445) ∧ ∀ (F : Fmt) (p : Nat) (emin : Int), F.Binary p emin → F.Eval F p emin p emin := by
  have h80 : extended80.Binary 64 (-16445) := ieee_binary (by norm_num) (by norm_num) (by norm_num)
  refine ⟨⟨binary32_binary, binary64_binary, binary32_wider⟩, ⟨binary64_binary, h80, by norm_num, by norm_num, fun r h => ?_⟩,
    ⟨binary32_binary, h80, by norm_num, by norm_num, fun r h => ?_⟩, fun F p emin h => ⟨h, h, Fmt.Wider.refl _ _ _⟩⟩
  · exact lt_trans h (zpow_lt_zpow_right₀ (by norm_num) (by norm_num))
  · exact lt_trans h (zpow_lt_zpow_right₀ (by norm_num) (by norm_num))

/-- C171: the mean lies within the data. -/
theorem C171_mean_within (h : F.Eval W p emin q gmin) {D : ℝ} (ops : List (Op (MeanSpills × ℝ)))
    (hd : F.Spread p emin D (valuesOf ops)) (hn : valuesOf ops ≠ []) (hw : (valuesOf ops).length < 2 ^ w) :
    ∃ m : ℝ, (Mean.run W (finE ops) : Cumulative.Mean w (X F)).getMean = X.fin m
      ∧ (∃ x ∈ valuesOf ops, x ≤ m) ∧ (∃ y ∈ valuesOf ops, m ≤ y) := by
  rw [Mean.run_eq, sinceClear_finE]
  rw [valuesOf, List.length_map] at hw
  obtain ⟨m, hm⟩ := mean_fold (w := w) h _ hd hw
  exact ⟨m, hm.mean, hm.within hn⟩

/-- C171: the rounding error of the mean of `n` values of size at most `B` is at most that of C61, with the sum of the unit
roundoffs of both formats. -/
theorem C171_mean_error (h : F.Eval W p emin q gmin) (hF : F.Err u η) (hW : W.Err u' η') (hu8 : u + u' + u * u' ≤ 1 / 8) {B D : ℝ}
    (ops : List (Op (MeanSpills × ℝ))) (hd : F.Spread p emin D (valuesOf ops)) (hn : valuesOf ops ≠ [])
    (hw : (valuesOf ops).length < 2 ^ w) (hp : (valuesOf ops).length ≤ 2 ^ p) (hfit : F.fits ((valuesOf ops).length : ℝ))
    (hB : ∀ x ∈ valuesOf ops, |x| ≤ B) :
    ∃ m : ℝ, (Mean.run W (finE ops) : Cumulative.Mean w (X F)).getMean = X.fin m
      ∧ |m - Spec.mean (valuesOf ops)|
        ≤ (((valuesOf ops).length + 1) / 2 + 5) * ((u + u' + u * u') * B)
          + (3 * ((valuesOf ops).length + 1) / 2 + 2) * (η + (1 + u) * η') := by
  have hl : (valuesOf ops).length = (sinceClear ops).length := List.length_map _
  rw [Mean.run_eq, sinceClear_finE]
  have hpos : (0 : ℝ) < (valuesOf ops).length := by exact_mod_cast List.length_pos_iff.2 hn
  rw [hl] at hw hp hfit hpos ⊢
  obtain ⟨m, hm, he⟩ := mean_err (w := w) h hF hW hu8 _ hd hw hp hfit hB
  refine ⟨m, hm.mean, ?_⟩
  refine le_of_mul_le_mul_left (he.trans (le_of_eq ?_)) hpos
  ring

theorem atLeast_div_count (h : F.Eval W p emin q gmin) {x : X F} (hx : Cumulative.NonNeg F p emin x) (b : Bool) (n : SizeT w) :
    lt (X.conv F (X.conv W x / countIn F W b n)) (ofNat 0) = false := by
  have hlt : ∀ y : X W, (y = X.nan ∨ AtLeast 0 y) → lt (X.conv F y) (ofNat 0) = false := by
    rintro y (rfl | hy)
    · rfl
    · rw [h.narrow.ofNat_zero]
      rcases hy.conv h.narrow (isRep_zero _ _) le_rfl with e | ⟨v, hv, e⟩
      · rw [e]; rfl
      · rw [e, X.lt_fin]; simpa using hv
  refine hlt _ ?_
  have hxw : X.conv W x = X.pinf ∨ ∃ s : ℝ, 0 ≤ s ∧ X.conv W x = X.fin s := by
    rcases hx with rfl | ⟨s, h0, hs, hf, rfl⟩
    · exact Or.inl rfl
    · exact Or.inr ⟨s, h0, h.conv_fin hs hf⟩
  rcases Nat.eq_zero_or_pos n.toNat with hn | hn
  · rw [countIn_zero h b hn]
    rcases hxw with e | ⟨s, h0, e⟩
    · rw [e]
      refine Or.inr (Or.inl ?_)
      show (if (0 : ℝ) < 0 then X.ninf else X.pinf : X W) = X.pinf
      rw [if_neg (lt_irrefl _)]
    · rw [e, X.div_fin_zero]
      unfold X.signedInf
      rw [if_neg (not_lt.2 h0 : ¬ s < 0)]
      split_ifs
      · exact Or.inr (Or.inl rfl)
      · exact Or.inl rfl
  · rcases h.count_ge b n (Or.inl rfl) hn with e' | ⟨d, hd, e'⟩
    · rw [e']
      rcases hxw with e | ⟨s, h0, e⟩
      · rw [e]; exact Or.inl rfl
      · rw [e]; exact Or.inr (Or.inr ⟨0, le_rfl, rfl⟩)
    · have hd1 : (1 : ℝ) ≤ d := by exact_mod_cast hd
      rw [e']
      rcases hxw with e | ⟨s, h0, e⟩
      · rw [e]
        refine Or.inr (Or.inl ?_)
        show (if d < 0 then X.ninf else X.pinf : X W) = X.pinf
        rw [if_neg (by linarith)]
      · rw [e, X.div_fin_of_ne _ (by linarith)]
        exact Or.inr (atLeast_round h.wide (isRep_zero _ _) le_rfl (div_nonneg h0 (by linarith)))

/-- C171: neither variance is negative, and the accumulated sum does not decrease with a push. -/
theorem C171_variance_nonneg (h : F.Eval W p emin q gmin) {D : ℝ} (ops : List (Op ((MeanSpills × SumSpills) × ℝ)))
    (hd : F.Spread p emin D (valuesOf ops)) (hw : (valuesOf ops).length < 2 ^ w) (b : Bool) :
    let s : Cumulative.Variance w (X F) := Variance.run W (finE ops)
    lt (Variance.variance W b s) (ofNat 0) = false ∧ lt (Variance.unbiasedVariance W b s) (ofNat 0) = false := by
  intro s
  have hs : s = _ := Variance.run_eq (finE ops)
  rw [sinceClear_finE] at hs
  rw [valuesOf, List.length_map] at hw
  obtain ⟨-, hv⟩ := variance_fold (w := w) h _ hd hw
  rw [← hs] at hv
  exact ⟨atLeast_div_count h hv b _, atLeast_div_count h hv b _⟩

theorem C171_monotone (h : F.Eval W p emin q gmin) {D : ℝ} (ops : List (Op ((MeanSpills × SumSpills) × ℝ)))
    (c : MeanSpills × SumSpills) (x : ℝ) (hd : F.Spread p emin D (valuesOf ops ++ [x])) (hw : (valuesOf ops).length + 1 < 2 ^ w) :
    le (Variance.run W (finE ops) : Cumulative.Variance w (X F)).sumVariance
      (Variance.run W (finE (ops ++ [.push (c, x)])) : Cumulative.Variance w (X F)).sumVariance = true := by
  rw [Variance.run_eq, Variance.run_eq, sinceClear_finE, sinceClear_finE, sinceClear_append_push,
    List.map_append, List.map_singleton, List.foldl_append]
  obtain ⟨⟨m, hm⟩, hv⟩ := variance_fold (w := w) h _ hd.init (by rw [valuesOf, List.length_map] at hw; omega)
  exact (variance_push h hd hw hm hv c).2.2.1

/-- C171: after `n ≥ 1` times the same number `x` the mean is `x` and the sum of the variance is 0, whatever the compiler does. -/
theorem C171_constant (h : F.Eval W p emin q gmin) {x : ℝ} (hx : IsRep p emin x) (hf : F.fits x)
    (ops : List (Op ((MeanSpills × SumSpills) × ℝ))) (hc : ∀ y ∈ valuesOf ops, y = x) (hn : valuesOf ops ≠ [])
    (hw : (valuesOf ops).length < 2 ^ w) :
    let s : Cumulative.Variance w (X F) := Variance.run W (finE ops)
    s.getMean = X.fin x ∧ s.sumVariance = X.fin 0 := by
  intro s
  have hs : s = _ := Variance.run_eq (finE ops)
  rw [sinceClear_finE] at hs
  rw [valuesOf, List.length_map] at hw
  unfold valuesOf at hc hn
  have key : ∀ is : List ((MeanSpills × SumSpills) × ℝ), (∀ y ∈ is.map Prod.snd, y = x) → is.length < 2 ^ w →
      ((is.map fin1).foldl (fun s i => Variance.push W i.1 s i.2) (Cumulative.Variance.init : Cumulative.Variance w (X F))).sumVariance
        = X.fin 0
      ∧ (is ≠ [] → ((is.map fin1).foldl (fun s i => Variance.push W i.1 s i.2)
          (Cumulative.Variance.init : Cumulative.Variance w (X F))).super.mean = X.fin x) := by
    intro is
    induction is using List.reverseRecOn with
    | nil => intro _ _; exact ⟨h.narrow.ofNat_zero, fun h => absurd rfl h⟩
    | append_singleton is i ih =>
      intro hc hw
      rw [List.length_append, List.length_singleton] at hw
      rw [List.map_append, List.map_singleton] at hc
      have hd : F.Spread p emin 0 (is.map Prod.snd ++ [i.2]) := by
        refine ⟨fun y hy => by rw [hc y hy]; exact ⟨hx, hf⟩, isRep_zero _ _, h.narrow.fits_zero, fun y hy z hz => ?_⟩
        rw [hc y hy, hc z hz, sub_self, abs_zero]
      have hi : i.2 = x := hc i.2 (by simp)
      obtain ⟨g1, g2⟩ := ih (fun y hy => hc y (List.mem_append_left _ hy)) (by omega)
      obtain ⟨⟨m, hm⟩, hv⟩ := variance_fold (w := w) h is hd.init (by omega)
      have hmx : m = i.2 ∨ is.map Prod.snd = [] := by
        by_cases h0 : is = []
        · exact Or.inr (by rw [h0]; rfl)
        · have := g2 h0
          rw [hm.mean] at this
          injection this with this
          exact Or.inl (this.trans hi.symm)
      have := (variance_push h hd (by rw [List.length_map]; omega) hm hv i.1).2.2.2 hmx g1
      rw [List.map_append, List.map_singleton, List.foldl_append]
      exact ⟨this.1, fun _ => by rw [← hi]; exact this.2⟩
  obtain ⟨g1, g2⟩ := key _ hc hw
  rw [← hs] at g1 g2
  exact ⟨g2 (fun h0 => hn (by rw [h0]; rfl)), g1⟩

/-- C171: without excess precision the mean is that of Model/Cumulative.lean, for all data including infinities and NaN. -/
theorem C171_same_format (hF : F.Binary p emin) (ops : List (Op (MeanSpills × X F))) (hd : ∀ x ∈ valuesOf ops, X.Number p emin x) :
    (Mean.run F ops : Cumulative.Mean w (X F)) = (valuesOf ops).foldl Cumulative.Mean.push Cumulative.Mean.init := by
  rw [Mean.run_eq]
  unfold valuesOf at *
  suffices h : ∀ is : List (MeanSpills × X F), (∀ x ∈ is.map Prod.snd, X.Number p emin x) →
      is.foldl (fun s i => Mean.push F i.1 s i.2) (Cumulative.Mean.init : Cumulative.Mean w (X F))
        = (is.map Prod.snd).foldl Cumulative.Mean.push Cumulative.Mean.init
      ∧ X.Number p emin (is.foldl (fun s i => Mean.push F i.1 s i.2) (Cumulative.Mean.init : Cumulative.Mean w (X F))).mean from
    (h _ hd).1
  intro is
  induction is using List.reverseRecOn with
  | nil =>
    intro _
    refine ⟨rfl, ?_⟩
    show X.Number p emin (ofNat 0 : X F)
    rw [hF.ofNat_zero]; exact ⟨isRep_zero _ _, hF.fits_zero⟩
  | append_singleton is i ih =>
    intro hd
    rw [List.map_append, List.map_singleton] at hd
    obtain ⟨g1, g2⟩ := ih (fun y hy => hd y (List.mem_append_left _ hy))
    have hi : X.Number p emin i.2 := hd i.2 (by simp)
    rw [List.map_append, List.map_singleton, List.foldl_append, List.foldl_append, List.foldl_cons, List.foldl_nil, List.foldl_cons,
      List.foldl_nil, ← g1]
    set s := is.foldl (fun s i => Mean.push F i.1 s i.2) (Cumulative.Mean.init : Cumulative.Mean w (X F))
    have hcount : countIn F F i.1.count (s.count + 1) = (ofSize (s.count + 1) : X F) := by
      unfold countIn
      rw [X.conv_self hF (by rw [ofSize, X.ofNat_eq]; exact X.number_round hF _)]
      split <;> rfl
    have hsub : ∀ a b : X F, X.Number p emin (a - b) := by
      intro a b
      cases a <;> cases b <;> first | exact X.number_round hF _ | trivial
    have e : (Mean.push F i.1 s i.2).mean = (s.push i.2).mean := by
      show X.conv F (X.spill F i.1.sum (X.conv F s.mean + X.spill F i.1.quot
        (X.spill F i.1.diff (X.conv F i.2 - X.conv F s.mean) / countIn F F i.1.count (s.count + 1))))
        = s.mean + (i.2 - s.mean) / ofSize (s.count + 1)
      rw [hcount, X.conv_self hF g2, X.conv_self hF hi, spill_self hF _ (hsub _ _), spill_self hF _ (X.number_div hF _ _),
        spill_self hF _ (X.number_add hF _ _), X.conv_self hF (X.number_add hF _ _)]
    refine ⟨?_, ?_⟩
    · show Mean.push F i.1 s i.2 = s.push i.2
      have ec : (Mean.push F i.1 s i.2).count = (s.push i.2).count := rfl
      cases h1 : Mean.push F i.1 s i.2; cases h2 : s.push i.2
      rw [h1, h2] at e ec
      simp only at e ec
      rw [e, ec]
    · show X.Number p emin (Mean.push F i.1 s i.2).mean
      rw [e]; exact X.number_add hF _ _

/-- No intermediate result is rounded to the value type. -/
def noSpills : MeanSpills := ⟨false, false, false, false⟩

/-- C171 as determinism: the mean does not depend on the precision of the evaluation. -/
def C171_Same_Statement (F W : Fmt) (p : Nat) (emin : Int) : Prop :=
  ∀ xs : List ℝ, F.Spread p emin (2 ^ (p + 1)) xs →
    (Mean.run W (xs.map fun x => Op.push (noSpills, X.fin x)) : Cumulative.Mean 64 (X F)).getMean
      = (Mean.run F (xs.map fun x => Op.push (noSpills, X.fin x)) : Cumulative.Mean 64 (X F)).getMean

/-- The mean of the `float` values -1 and 16777216 is 8388607.5 where `float` expressions are evaluated in `double`, and 8388607
where they are evaluated in `float`. -/
theorem C171_precision_matters : ¬ C171_Same_Statement binary32 binary64 24 (-149) := by
  intro hs
  have hF := binary32_binary
  have hE := C171_formats.1
  have hf : ∀ r : ℝ, |r| ≤ 2 ^ 25 → binary32.fits r := by
    intro r hr
    rw [binary32_fits]
    exact hr.trans_lt (by norm_num)
  have r1 : IsRep 24 (-149) (-1) := hF.isRep_one.neg
  have r2 : IsRep 24 (-149) (16777216 : ℝ) := by
    have := isRep_two_pow (p := 24) (emin := -149) (n := 24) (by norm_num) (by norm_num)
    norm_num at this; exact this
  have rD : IsRep 24 (-149) ((2 : ℝ) ^ (24 + 1)) := isRep_two_pow (by norm_num) (by norm_num)
  have hd : binary32.Spread 24 (-149) (2 ^ (24 + 1)) ([] ++ [-1] ++ [16777216]) := by
    refine ⟨?_, rD, hf _ (by norm_num), ?_⟩
    · intro x hx
      simp at hx
      rcases hx with rfl | rfl
      · exact ⟨r1, hf _ (by norm_num)⟩
      · exact ⟨r2, hf _ (by norm_num)⟩
    · intro x hx y hy
      simp at hx hy
      rcases hx with rfl | rfl <;> rcases hy with rfl | rfl <;> norm_num
  have key : ∀ {W : Fmt} {q : Nat} {gmin : Int}, binary32.Eval W 24 (-149) q gmin → ∃ m : ℝ,
      (Mean.run W ([-1, 16777216].map fun x => Op.push (noSpills, X.fin x)) : Cumulative.Mean 64 (X binary32)).getMean = X.fin m
        ∧ m = binary32.rnd (W.rnd (-1 + W.rnd (W.rnd 16777217 / 2))) := by
    intro W q gmin hE
    obtain ⟨m1, h1, -⟩ := mean_push hE hd.init (w := 64) (by norm_num) (Cumulative.MeanInv.nil hE.narrow) noSpills
    obtain ⟨m2, h2, -, -, -, -, h6⟩ := mean_push hE hd (w := 64) (by norm_num) h1 noSpills
    refine ⟨m2, h2.mean, ?_⟩
    have hm1 : m1 = -1 := by
      obtain ⟨⟨a, ha, ham⟩, ⟨b, hb, hmb⟩⟩ := h1.within (by simp)
      simp only [List.nil_append, List.mem_singleton] at ha hb
      subst ha; subst hb
      exact le_antisymm hmb ham
    have := h6 2 (by norm_num) (by
      have := countIn_exact hE noSpills.count (w := 64) (n := 2) (by norm_num) (by norm_num) (hf _ (by norm_num))
      simpa using this)
    rw [this, hm1]
    show binary32.rnd (W.rnd (-1 + W.rnd (W.rnd (16777216 - -1) / 2))) = _
    norm_num
  obtain ⟨a, ha, ea⟩ := key hE
  obtain ⟨b, hb, eb⟩ := key (C171_formats.2.2.2 _ _ _ hF)
  have hab : a = b := by
    have := hs [-1, 16777216] hd
    rw [ha, hb] at this
    injection this
  -- in double
  have hW := binary64_binary
  have i64 : ∀ n : Int, |n| ≤ 2 ^ 53 → IsRep 53 (-1074) (n : ℝ) := fun n hn => (binary64_int hn).1
  have half : ∀ (P : Nat) (E n : Int), 1 ≤ P → E ≤ -1 → |n| ≤ 2 ^ P → IsRep P E ((n : ℝ) / 2) := by
    intro P E n h1 h2 h3
    have := isRep_mul (p := P) (emin := E) (m := n) (e := -1) h1 h2 h3
    simpa [div_eq_mul_inv] using this
  have ea' : a = 16777215 / 2 := by
    rw [ea, hW.exact 16777217 (by have := i64 16777217 (by norm_num); push_cast at this; exact this),
      hW.exact (16777217 / 2) (by have := half 53 (-1074) 16777217 (by norm_num) (by norm_num) (by norm_num); push_cast at this; exact this)]
    have e : (-1 + 16777217 / 2 : ℝ) = 16777215 / 2 := by norm_num
    rw [e, hW.exact (16777215 / 2) (by have := half 53 (-1074) 16777215 (by norm_num) (by norm_num) (by norm_num); push_cast at this; exact this),
      hF.exact (16777215 / 2) (by have := half 24 (-149) 16777215 (by norm_num) (by norm_num) (by norm_num); push_cast at this; exact this)]
  have tie : binary32.rnd 16777217 = 16777216 := by
    have h1 : roundNearest 24 (-149) 16777217 = nearestEven (8388608 + 1 / 2) * 2 ^ (24 + 1 - ((24 : Nat) : Int)) :=
      roundNearest_eq (p := 24) (emin := -149) 24 (by norm_num) (by norm_num) (by norm_num) (by norm_num)
    have h2 := nearestEven_tie 8388608
    push_cast at h2
    rw [h2, if_pos (by decide)] at h1
    show roundNearest 24 (-149) 16777217 = _
    rw [h1]; norm_num
  have i32 : ∀ n : Int, |n| < 2 ^ 24 → IsRep 24 (-149) (n : ℝ) := fun n hn => isRep_int (by norm_num) hn
  have eb' : b = 8388607 := by
    have e1 : (16777216 / 2 : ℝ) = 8388608 := by norm_num
    have e2 : (-1 + 8388608 : ℝ) = 8388607 := by norm_num
    have j1 := i32 8388608 (by norm_num)
    have j2 := i32 8388607 (by norm_num)
    push_cast at j1 j2
    rw [eb, tie, e1, hF.exact _ j1, e2, hF.exact _ j2, hF.exact _ j2]
  rw [ea', eb'] at hab
  norm_num at hab

/-- The `float` values 1, 2, 6 evaluated in `double`, with some results rounded to `float`. -/
example : ∃ m : ℝ, (Mean.run binary64 (finE [.push (noSpills, 1), .push (⟨true, true, false, true⟩, 2), .push (noSpills, 6)]) :
    Cumulative.Mean 64 (X binary32)).getMean = X.fin m ∧ 1 ≤ m ∧ m ≤ 6 := by
  have hi : ∀ n : Int, |n| < 2 ^ 24 → IsRep 24 (-149) (n : ℝ) ∧ binary32.fits (n : ℝ) := by
    intro n hn
    refine ⟨isRep_int (by norm_num) hn, ?_⟩
    rw [binary32_fits]
    have : ((|n| : Int) : ℝ) < ((2 ^ 24 : Int) : ℝ) := by exact_mod_cast hn
    rw [Int.cast_abs] at this
    refine this.trans ?_
    norm_num
  have h1 := hi 1 (by norm_num)
  have h2 := hi 2 (by norm_num)
  have h6 := hi 6 (by norm_num)
  push_cast at h1 h2 h6
  obtain ⟨m, hm, ⟨x, hx, hxm⟩, ⟨y, hy, hmy⟩⟩ := C171_mean_within (w := 64) (D := 6) C171_formats.1
    [.push (noSpills, 1), .push (⟨true, true, false, true⟩, 2), .push (noSpills, 6)]
    ⟨by intro x hx; simp [valuesOf, sinceClear] at hx; rcases hx with rfl | rfl | rfl <;> assumption, h6.1, h6.2, by
      intro x hx y hy
      simp [valuesOf, sinceClear] at hx hy
      rcases hx with rfl | rfl | rfl <;> rcases hy with rfl | rfl | rfl <;> norm_num⟩
    (by simp [valuesOf, sinceClear]) (by simp [valuesOf, sinceClear])
  refine ⟨m, hm, ?_, ?_⟩
  · simp [valuesOf, sinceClear] at hx; rcases hx with rfl | rfl | rfl <;> linarith
  · simp [valuesOf, sinceClear] at hy; rcases hy with rfl | rfl | rfl <;> linarith

/-- The `double` value 0.1 (as the nearest `double` number) three times, on the x87. -/
example : let c : MeanSpills × SumSpills := (noSpills, ⟨true, false, false, false, true⟩)
    let s : Cumulative.Variance 64 (X binary64) := Variance.run extended80
      (finE [.push (c, binary64.rnd (1 / 10)), .push (c, binary64.rnd (1 / 10)), .push (c, binary64.rnd (1 / 10))])
    s.getMean = X.fin (binary64.rnd (1 / 10)) ∧ s.sumVariance = X.fin 0 := by
  intro c s
  refine C171_constant C171_formats.2.1 (binary64_binary.rep _) ?_ _ ?_ (by simp [valuesOf, sinceClear]) (by simp [valuesOf, sinceClear])
  · exact binary64_binary.fits_between binary64_binary.fits_zero binary64_binary.fits_one (binary64_binary.rnd_nonneg (by norm_num))
      (binary64_binary.rnd_le binary64_binary.isRep_one (by norm_num))
  · simp [valuesOf, sinceClear]

end Verif.Props
