import Verif.Model.BaseReference
import Verif.Props.CumulativeMoments
import Verif.Props.Decay
/-
C166, C167: calls through a reference to a public base class.
-/
namespace Verif.Props
open Scalar Exact Verif.BaseReference

variable {w : Nat} {ε : ℝ} {α : Type} [Scalar α]

/-! ### C166 -/

/-- C166: the results of the base class of a cumulative kurtosis filter are those of all calls, in any arithmetic. -/
theorem C166_cumulative (ops : List (Bool × Op α)) :
    let s : Cumulative.Kurtosis w α := cumulativeRun ops
    let t : Cumulative.Skewness w α := Cumulative.Skewness.run (ops.map Prod.snd)
    s.size = t.size ∧ s.empty = t.empty ∧ s.getMean = t.getMean ∧ s.unbiasedMean = t.unbiasedMean
      ∧ s.variance = t.variance ∧ s.unbiasedVariance = t.unbiasedVariance ∧ s.skewness = t.skewness
      ∧ s.unbiasedSkewness = t.unbiasedSkewness := by
  intro s t
  have h : s.super = t := by
    show (cumulativeRun ops : Cumulative.Kurtosis w α).super = Cumulative.Skewness.run (ops.map Prod.snd)
    induction ops using List.reverseRecOn with
    | nil => rfl
    | append_singleton ops op ih =>
      unfold cumulativeRun Cumulative.Skewness.run runOps at *
      rw [List.map_append, List.foldl_append, List.foldl_append, ← ih]
      obtain ⟨b, o⟩ := op
      cases b <;> cases o <;> rfl
  refine ⟨?_, ?_, ?_, ?_, ?_, ?_, ?_, ?_⟩
  · exact congrArg Cumulative.Skewness.size h
  · exact congrArg Cumulative.Skewness.empty h
  · exact congrArg Cumulative.Skewness.getMean h
  · exact congrArg Cumulative.Skewness.unbiasedMean h
  · exact congrArg Cumulative.Skewness.variance h
  · exact congrArg Cumulative.Skewness.unbiasedVariance h
  · exact congrArg Cumulative.Skewness.skewness h
  · exact congrArg Cumulative.Skewness.unbiasedSkewness h

/-- C166: the decaying mean is that of all calls, through whatever class they are made; the variance (skewness,
kurtosis) is that of all calls if none is made through a class below it. -/
theorem C166_decay (f g h k : α) (ops : List (Level × Op α)) :
    let s := decayRun f g h k ops
    let calls := ops.map Prod.snd
    s.mean = (Decay.Mean.run f calls).mean
      ∧ ((∀ o ∈ ops, 2 ≤ o.1.rank) → s.variance = (Decay.Variance.run f g calls).variance)
      ∧ ((∀ o ∈ ops, 3 ≤ o.1.rank) → s.skewness = (Decay.Skewness.run f g h calls).skewness)
      ∧ ((∀ o ∈ ops, 4 ≤ o.1.rank) → s.kurtosis = (Decay.Kurtosis.run f g h k calls).kurtosis) := by
  intro s calls
  have h1 : s.super.super.super = Decay.Mean.run f calls := by
    show (decayRun f g h k ops).super.super.super = Decay.Mean.run f (ops.map Prod.snd)
    induction ops using List.reverseRecOn with
    | nil => rfl
    | append_singleton ops op ih =>
      unfold decayRun Decay.Mean.run runOps at *
      rw [List.map_append, List.foldl_append, List.foldl_append, ← ih]
      obtain ⟨b, o⟩ := op
      cases b <;> cases o <;> rfl
  have h2 : (∀ o ∈ ops, 2 ≤ o.1.rank) → s.super.super = Decay.Variance.run f g calls := by
    show (∀ o ∈ ops, 2 ≤ o.1.rank) → (decayRun f g h k ops).super.super = Decay.Variance.run f g (ops.map Prod.snd)
    clear h1 calls
    induction ops using List.reverseRecOn with
    | nil => intro _; rfl
    | append_singleton ops op ih =>
      intro hr
      have hop := hr op (by simp)
      have ih' := ih fun o ho => hr o (by simp [ho])
      unfold decayRun Decay.Variance.run runOps at *
      rw [List.map_append, List.foldl_append, List.foldl_append, ← ih']
      obtain ⟨b, o⟩ := op
      cases b <;> cases o <;> first | rfl | (simp [Level.rank] at hop)
  have h3 : (∀ o ∈ ops, 3 ≤ o.1.rank) → s.super = Decay.Skewness.run f g h calls := by
    show (∀ o ∈ ops, 3 ≤ o.1.rank) → (decayRun f g h k ops).super = Decay.Skewness.run f g h (ops.map Prod.snd)
    clear h1 h2 calls
    induction ops using List.reverseRecOn with
    | nil => intro _; rfl
    | append_singleton ops op ih =>
      intro hr
      have hop := hr op (by simp)
      have ih' := ih fun o ho => hr o (by simp [ho])
      unfold decayRun Decay.Skewness.run runOps at *
      rw [List.map_append, List.foldl_append, List.foldl_append, ← ih']
      obtain ⟨b, o⟩ := op
      cases b <;> cases o <;> first | rfl | (simp [Level.rank] at hop)
  have h4 : (∀ o ∈ ops, 4 ≤ o.1.rank) → s = Decay.Kurtosis.run f g h k calls := by
    show (∀ o ∈ ops, 4 ≤ o.1.rank) → decayRun f g h k ops = Decay.Kurtosis.run f g h k (ops.map Prod.snd)
    clear h1 h2 h3 calls
    induction ops using List.reverseRecOn with
    | nil => intro _; rfl
    | append_singleton ops op ih =>
      intro hr
      have hop := hr op (by simp)
      have ih' := ih fun o ho => hr o (by simp [ho])
      unfold decayRun Decay.Kurtosis.run runOps at *
      rw [List.map_append, List.foldl_append, List.foldl_append, ← ih']
      obtain ⟨b, o⟩ := op
      cases b <;> cases o <;> first | rfl | (simp [Level.rank] at hop)
  exact ⟨congrArg Decay.Mean.mean h1, fun h' => congrArg Decay.Variance.variance (h2 h'),
    fun h' => congrArg Decay.Skewness.skewness (h3 h'), fun h' => congrArg Decay.Kurtosis.kurtosis (h4 h')⟩

/-- The decaying mean of values of which some are pushed through a reference to the mean. -/
example {f : ℝ} (h0 : 0 < f) (h1 : f ≤ 1) (g h k : ℝ) :
    (decayRun (X.fin f) (X.fin g) (X.fin h) (X.fin k)
      [(.kurtosis, .push (X.fin 1)), (.mean, .push (X.fin 2))] : Decay.Kurtosis (E ε)).mean = X.fin (Spec.ewMean f [1, 2]) := by
  have := (C166_decay (X.fin f : E ε) (X.fin g) (X.fin h) (X.fin k) [(.kurtosis, .push (X.fin 1)), (.mean, .push (X.fin 2))]).1
  rw [this]
  exact C25_decay_mean h0 h1 [.push 1, .push 2]

/-! ### C167 -/

/-- Calls with real values. -/
def finCalls {κ : Type} {F : Fmt} (ops : List (κ × Op ℝ)) : List (κ × Op (X F)) := ops.map fun o => (o.1, o.2.map X.fin)

/-- C167: the results of the class of the object are those of all calls, also of those through a base class. -/
def C167_Statement (w : Nat) (ε : ℝ) : Prop :=
  (∀ ops : List (Bool × Op ℝ), (cumulativeRun (finCalls ops) : Cumulative.Kurtosis w (E ε)).kurtosis
      = (Cumulative.Kurtosis.run (finOps (ops.map Prod.snd)) : Cumulative.Kurtosis w (E ε)).kurtosis)
  ∧ ∀ f : ℝ, 0 < f → f ≤ 1 → ∀ ops : List (Level × Op ℝ),
      (decayRun (X.fin f) (X.fin f) (X.fin f) (X.fin f) (finCalls ops) : Decay.Kurtosis (E ε)).variance
        = (Decay.Variance.run (X.fin f) (X.fin f) (finOps (ops.map Prod.snd)) : Decay.Variance (E ε)).variance

/-- Specification of what a kurtosis filter sees: the values since the last clear through any class, and the growth of the
sum of the fourth powers of the deviations by the values pushed through the class of the object since the last clear
through that class. -/
noncomputable def seenStep (d : List ℝ × ℝ) : Bool × Op ℝ → List ℝ × ℝ
  | (true, .push x) => (d.1 ++ [x], d.2 + (Spec.central 4 (d.1 ++ [x]) - Spec.central 4 d.1))
  | (false, .push x) => (d.1 ++ [x], d.2)
  | (true, .clear) => ([], 0)
  | (false, .clear) => ([], d.2)

/-- The pair of `seenStep` after any calls. -/
noncomputable def seen (ops : List (Bool × Op ℝ)) : List ℝ × ℝ := ops.foldl seenStep ([], 0)

theorem seen_append (ops : List (Bool × Op ℝ)) (o : Bool × Op ℝ) : seen (ops ++ [o]) = seenStep (seen ops) o := by
  unfold seen
  rw [List.foldl_append]
  rfl

theorem add_eq_fin {a b : ℝ} {d : E ε} (h : X.fin a + d = X.fin b) (c : ℝ) : X.fin c + d = X.fin (c + (b - a)) := by
  cases d with
  | fin r =>
    rw [Exact.add_fin, X.fin_inj] at h
    rw [Exact.add_fin, X.fin_inj]
    linarith
  | pinf => cases h
  | ninf => cases h
  | nan => cases h

theorem seen_fst (ops : List (Bool × Op ℝ)) : (seen ops).1 = sinceClear (ops.map Prod.snd) := by
  induction ops using List.reverseRecOn with
  | nil => rfl
  | append_singleton ops o ih =>
    rw [List.map_append, List.map_singleton]
    obtain ⟨b, o⟩ := o
    cases o with
    | push x =>
      rw [sinceClear_append_push, ← ih]
      rw [seen_append]
      cases b <;> rfl
    | clear =>
      rw [sinceClear_append_clear]
      rw [seen_append]
      cases b <;> rfl

theorem seen_length (ops : List (Bool × Op ℝ)) : (seen ops).1.length ≤ ops.length := by
  induction ops using List.reverseRecOn with
  | nil => simp [seen]
  | append_singleton ops o ih =>
    rw [seen_append]
    obtain ⟨b, o⟩ := o
    cases o <;> cases b <;> simp [seenStep] <;> exact ih

theorem cumulativeRun_fin (ops : List (Bool × Op ℝ)) (h : ops.length * ops.length < 2 ^ w) :
    (cumulativeRun (finCalls ops) : Cumulative.Kurtosis w (E ε))
      = { super :=
            { super :=
                { super := { mean := X.fin (Spec.mean (seen ops).1), count := BitVec.ofNat w (seen ops).1.length }
                  sumVariance := X.fin (Spec.central 2 (seen ops).1) }
              sumSkewness := X.fin (Spec.central 3 (seen ops).1) }
          sumKurtosis := X.fin (seen ops).2 } := by
  induction ops using List.reverseRecOn with
  | nil => simp [seen, finCalls, cumulativeRun, Cumulative.Kurtosis.init, Cumulative.Skewness.init, Cumulative.Variance.init,
      Cumulative.Mean.init]
  | append_singleton ops o ih =>
    have hl : ops.length * ops.length < 2 ^ w := by
      refine lt_of_le_of_lt (Nat.mul_le_mul ?_ ?_) h <;> simp
    have ih := ih hl
    have hlen : (seen ops).1.length ≤ ops.length := seen_length ops
    have e : (cumulativeRun (finCalls (ops ++ [o])) : Cumulative.Kurtosis w (E ε))
        = cumulativeStep (cumulativeRun (finCalls ops)) (o.1, o.2.map X.fin) := by
      unfold cumulativeRun finCalls
      rw [List.map_append, List.foldl_append]
      rfl
    rw [e, ih]
    rw [seen_append]
    obtain ⟨b, o⟩ := o
    cases o with
    | clear =>
      cases b <;> simp [cumulativeStep, seenStep, Op.map, Cumulative.Kurtosis.clear, Cumulative.Skewness.clear, Cumulative.Variance.clear,
        Cumulative.Mean.clear]
    | push x =>
      have hx : ((seen ops).1 ++ [x]).length ≤ (ops ++ [(b, Op.push x)]).length := by simpa using hlen
      have f1 := Cumulative.Kurtosis.fold (ε := ε) (w := w) (seen ops).1
        (lt_of_le_of_lt (Nat.mul_le_mul hlen hlen) hl)
      have f2 := Cumulative.Kurtosis.fold (ε := ε) (w := w) ((seen ops).1 ++ [x]) (lt_of_le_of_lt (Nat.mul_le_mul hx hx) h)
      rw [List.map_append, List.map_singleton, List.foldl_append, f1] at f2
      have f3 := congrArg Cumulative.Kurtosis.super f2
      have f4 := congrArg Cumulative.Kurtosis.sumKurtosis f2
      cases b with
      | false =>
        simp only [cumulativeStep, seenStep, Op.map]
        rw [Cumulative.Kurtosis.mk.injEq]
        exact ⟨f3, rfl⟩
      | true =>
        simp only [cumulativeStep, seenStep, Op.map]
        rw [Cumulative.Kurtosis.mk.injEq]
        exact ⟨f3, add_eq_fin f4 _⟩

/-- C167: the kurtosis after any calls on a cumulative filter: the fourth moment is the growth by the values pushed
through the class of the object, divided by the variance of all values. -/
theorem C167_value (ops : List (Bool × Op ℝ)) (h : ops.length * ops.length < 2 ^ w)
    (hv : Spec.central 2 (sinceClear (ops.map Prod.snd)) ≠ 0) :
    (cumulativeRun (finCalls ops) : Cumulative.Kurtosis w (E ε)).kurtosis
      = X.fin (if (seen ops).2 < ε then 0
          else (sinceClear (ops.map Prod.snd)).length * (seen ops).2 / Spec.central 2 (sinceClear (ops.map Prod.snd)) ^ 2) := by
  have hlen : (seen ops).1.length < 2 ^ w := lt_of_le_of_lt ((seen_length ops).trans (Nat.le_mul_self _)) h
  rw [cumulativeRun_fin ops h, ← seen_fst] at *
  unfold Cumulative.Kurtosis.kurtosis Cumulative.Kurtosis.size Cumulative.Skewness.size Cumulative.Variance.size Cumulative.Mean.size
  dsimp only
  rw [Exact.eps_eq, Exact.lt_fin, Exact.ofNat_eq, ofSize_exact hlen, Exact.mul_fin, Exact.mul_fin, Exact.div_fin _ (mul_ne_zero hv hv)]
  simp only [decide_eq_true_eq, Nat.cast_zero]
  split_ifs
  · rfl
  · rw [sq]

/-- C167: if no call was made through the base class since the last clear through the class of the object, the kurtosis
is that of all calls.
Missing for the full statement: calls through the base class, see `C167_violated_push` and `C167_violated_clear`; for the
decay filters see `C166_decay`. -/
theorem C167_partial (pre : List (Bool × Op α)) (post : List (Op α)) :
    (cumulativeRun (pre ++ (true, .clear) :: post.map fun o => (true, o)) : Cumulative.Kurtosis w α)
      = Cumulative.Kurtosis.run ((pre ++ (true, .clear) :: post.map fun o => (true, o)).map Prod.snd) := by
  have key : ∀ (post : List (Op α)), (post.map fun o => (true, o)).foldl cumulativeStep Cumulative.Kurtosis.init
      = (Cumulative.Kurtosis.run post : Cumulative.Kurtosis w α) := by
    intro post
    unfold Cumulative.Kurtosis.run runOps
    rw [List.foldl_map]
    congr 1
    funext s o
    cases o <;> rfl
  unfold cumulativeRun
  rw [List.foldl_append, List.foldl_cons]
  show List.foldl cumulativeStep Cumulative.Kurtosis.init _ = _
  rw [key, Cumulative.Kurtosis.run_eq, Cumulative.Kurtosis.run_eq, List.map_append, List.map_cons, sinceClear_clear_append, List.map_map]
  congr 2
  simp [Function.comp_def]

/-- A push through the base class, then a clear and pushes through the class of the object: the kurtosis of the latter. -/
example (hw : 3 ≤ w) (hε : 0 < ε) (hε1 : ε ≤ 1) :
    (cumulativeRun ((false, .push (X.fin 9)) :: (true, .clear) :: [(true, .push (X.fin 0)), (true, .push (X.fin 2))])
      : Cumulative.Kurtosis w (E ε)).kurtosis = X.fin 1 := by
  have h8 : (2 : Nat) ^ 3 ≤ 2 ^ w := Nat.pow_le_pow_right (by norm_num) hw
  have h := C167_partial (w := w) [(false, .push (X.fin 9 : E ε))] [.push (X.fin 0), .push (X.fin 2)]
  simp only [List.map_cons, List.map_nil, List.cons_append, List.nil_append] at h
  rw [h]
  have := (C04_kurtosis (w := w) hε [.push 9, .clear, .push 0, .push 2] (by simp [sinceClear]; omega)).2
    (by simp [sinceClear, Spec.central, Spec.mean]; norm_num; linarith)
  refine this.1.trans ?_
  congr 1
  simp [sinceClear, Spec.kurtosis, Spec.variance, Spec.central, Spec.mean]
  norm_num

/-- C167: the values 0 and 2 pushed through a reference to the base class have kurtosis 0 instead of 1. -/
theorem C167_violated_push (hw : 3 ≤ w) (hε : 0 < ε) (hε1 : ε ≤ 1) :
    (cumulativeRun (finCalls [(false, .push 0), (false, .push 2)]) : Cumulative.Kurtosis w (E ε)).kurtosis = X.fin 0
      ∧ (Cumulative.Kurtosis.run (finOps [.push 0, .push 2]) : Cumulative.Kurtosis w (E ε)).kurtosis = X.fin 1 := by
  have h8 : (2 : Nat) ^ 3 ≤ 2 ^ w := Nat.pow_le_pow_right (by norm_num) hw
  constructor
  · rw [C167_value _ (by simp; omega) (by simp [sinceClear, Spec.central, Spec.mean]; norm_num)]
    rw [if_pos (by simpa [seen, seenStep] using hε)]
  · have := (C04_kurtosis (w := w) hε [.push 0, .push 2] (by simp [sinceClear]; omega)).2
      (by simp [sinceClear, Spec.central, Spec.mean]; norm_num; linarith)
    rw [this.1]
    congr 1
    simp [sinceClear, Spec.kurtosis, Spec.variance, Spec.central, Spec.mean]
    norm_num

/-- C167: a filter cleared through a reference to the base class remembers the fourth moment: after 0 and 2, this clear,
and 5 and 7, the kurtosis is 2 instead of 1. -/
theorem C167_violated_clear (hw : 5 ≤ w) (hε : 0 < ε) (hε1 : ε ≤ 1) :
    (cumulativeRun (finCalls [(true, .push 0), (true, .push 2), (false, .clear), (true, .push 5), (true, .push 7)])
        : Cumulative.Kurtosis w (E ε)).kurtosis = X.fin 2
      ∧ (Cumulative.Kurtosis.run (finOps [.push 0, .push 2, .clear, .push 5, .push 7]) : Cumulative.Kurtosis w (E ε)).kurtosis
        = X.fin 1 := by
  have h8 : (2 : Nat) ^ 5 ≤ 2 ^ w := Nat.pow_le_pow_right (by norm_num) hw
  constructor
  · rw [C167_value _ (by simp; omega) (by simp [sinceClear, Spec.central, Spec.mean]; norm_num)]
    have e : (seen [(true, .push 0), (true, .push 2), (false, .clear), (true, .push 5), (true, .push 7)]).2 = 4 := by
      simp [seen, seenStep, Spec.central, Spec.mean]
      norm_num
    rw [e, if_neg (by linarith)]
    congr 1
    simp [sinceClear, Spec.central, Spec.mean]
    norm_num
  · have := (C04_kurtosis (w := w) hε [.push 0, .push 2, .clear, .push 5, .push 7] (by simp [sinceClear]; omega)).2
      (by simp [sinceClear, Spec.central, Spec.mean]; norm_num; linarith)
    rw [this.1]
    congr 1
    simp [sinceClear, Spec.kurtosis, Spec.variance, Spec.central, Spec.mean]
    norm_num

/-- C167 is violated. -/
theorem C167_violated (hw : 3 ≤ w) (hε : 0 < ε) (hε1 : ε ≤ 1) : ¬ C167_Statement w ε := by
  intro h
  obtain ⟨h1, h2⟩ := C167_violated_push hw hε hε1
  have := h.1 [(false, .push 0), (false, .push 2)]
  rw [h1] at this
  rw [show ([(false, .push 0), (false, .push 2)] : List (Bool × Op ℝ)).map Prod.snd = [.push 0, .push 2] from rfl, h2] at this
  have := X.fin_inj.1 this
  norm_num at this

/-- C167: also for the decaying variance: with factors 1/2 the value 6 pushed through a reference to the mean is missing in
the variance, which stays 0; pushed otherwise it gives 8/3. -/
theorem C167_violated_decay :
    (decayRun (X.fin (1 / 2)) (X.fin (1 / 2)) (X.fin (1 / 2)) (X.fin (1 / 2))
        (finCalls [(.kurtosis, .push 0), (.mean, .push 6)]) : Decay.Kurtosis (E ε)).variance = X.fin 0
      ∧ (Decay.Variance.run (X.fin (1 / 2)) (X.fin (1 / 2)) (finOps [.push 0, .push 6]) : Decay.Variance (E ε)).variance
        = X.fin (8 / 3) := by
  constructor
  · norm_num [decayRun, finCalls, decayStep, Op.map, Decay.Kurtosis.push, Decay.Skewness.push, Decay.Variance.push, Decay.Mean.push,
      Decay.Kurtosis.init, Decay.Skewness.init, Decay.Variance.init, Decay.Mean.init, Decay.Kurtosis.variance, Decay.Skewness.variance,
      Decay.Variance.variance, Decay.Mean.mean, Exact.ofNat_eq, Exact.div_fin]
  · norm_num [Decay.Variance.run, runOps, finOps, Op.map, Decay.Variance.push, Decay.Mean.push,
      Decay.Variance.init, Decay.Mean.init, 
      Decay.Variance.variance, Decay.Mean.mean, Exact.ofNat_eq, Exact.div_fin]

end Verif.Props
