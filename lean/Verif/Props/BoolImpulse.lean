import Verif.Model.BoolImpulse
import Verif.Proofs.Impulse
/-
C137: FIR and IIR filters of `bool`.
-/
namespace Verif.BoolT
open Impulse

/-- The logical convolution: some coefficient that is set meets an input that is set.  `xs` is the input, oldest value
first. -/
def Meets (cs xs : List Bool) : Prop := ∃ i : Nat, cs[i]? = some true ∧ xs.reverse[i]? = some true

theorem step_eq (acc x c : Bool) : ofInt (toInt acc + toInt x * toInt c) = (acc || (x && c)) := by
  cases acc <;> cases x <;> cases c <;> decide

theorem innerProduct_eq (acc : Bool) {l cs : List Bool} (h : l.length ≤ cs.length) :
    innerProduct acc l cs = some (acc || (List.zipWith (· && ·) l cs).any id) := by
  induction l generalizing acc cs with
  | nil => simp [innerProduct]
  | cons x l ih =>
    cases cs with
    | nil => simp at h
    | cons c cs =>
      rw [innerProduct, step_eq, ih _ (by simpa using h)]
      simp [Bool.or_assoc]

theorem innerProduct_none (acc : Bool) {l cs : List Bool} (h : cs.length < l.length) : innerProduct acc l cs = none := by
  induction l generalizing acc cs with
  | nil => simp at h
  | cons x l ih =>
    cases cs with
    | nil => rfl
    | cons c cs => rw [innerProduct]; exact ih _ (by simpa using h)

theorem any_zipWith (l cs : List Bool) :
    (List.zipWith (· && ·) l cs).any id = true ↔ ∃ i : Nat, cs[i]? = some true ∧ l[i]? = some true := by
  induction l generalizing cs with
  | nil => simp
  | cons x l ih =>
    cases cs with
    | nil => simp
    | cons c cs =>
      rw [List.zipWith_cons_cons, List.any_cons, Bool.or_eq_true, ih]
      constructor
      · rintro (h | ⟨i, h1, h2⟩)
        · simp only [id, Bool.and_eq_true] at h
          exact ⟨0, by simp [h.2], by simp [h.1]⟩
        · exact ⟨i + 1, by simpa using h1, by simpa using h2⟩
      · rintro ⟨i, h1, h2⟩
        cases i with
        | zero => left; simp at h1 h2; simp [h1, h2]
        | succ i => right; exact ⟨i, by simpa using h1, by simpa using h2⟩

theorem any_zipWith_take (l cs : List Bool) :
    (List.zipWith (· && ·) (l.take cs.length) cs).any id = true ↔ ∃ i : Nat, cs[i]? = some true ∧ l[i]? = some true := by
  rw [any_zipWith]
  constructor
  · rintro ⟨i, h1, h2⟩
    refine ⟨i, h1, ?_⟩
    rw [List.getElem?_take] at h2
    split at h2
    · exact h2
    · exact absurd h2 (by simp)
  · rintro ⟨i, h1, h2⟩
    refine ⟨i, h1, ?_⟩
    obtain ⟨hi, -⟩ := List.getElem?_eq_some_iff.1 h1
    rw [List.getElem?_take, if_pos hi]
    exact h2

/-- The state of the FIR filter. -/
theorem Finite.run_some {c : Source} (hc : c.array ≠ []) (hl : c.array.length ≤ c.stored.length) (ops : List (Op Bool)) :
    ∃ s, Finite.run c ops = some s ∧ s.coefficients = c.stored
      ∧ s.input = ⟨c.array.length, (sinceClear ops).reverse.take c.array.length⟩ := by
  have hP : 1 ≤ c.array.length := List.length_pos_iff.2 hc
  induction ops using List.reverseRecOn with
  | nil => exact ⟨_, rfl, rfl, by simp [Finite.init, Deque.init]⟩
  | append_singleton ops op ih =>
    obtain ⟨s, hs, h1, h2⟩ := ih
    rw [Finite.run, runOps_append]
    rw [Finite.run] at hs
    rw [hs]
    cases op with
    | push x =>
      rw [sinceClear_append_push]
      have hd := pushFront_take hP (sinceClear ops).reverse x
      have hr := innerProduct_eq false (l := (x :: (sinceClear ops).reverse).take c.array.length) (cs := c.stored)
        ((List.length_take_le _ _).trans hl)
      refine ⟨{ s with
          input := ⟨c.array.length, (x :: (sinceClear ops).reverse).take c.array.length⟩,
          output := false || (List.zipWith (· && ·) ((x :: (sinceClear ops).reverse).take c.array.length) c.stored).any id },
        ?_, h1, ?_⟩
      · show Finite.push s x = _
        rw [Finite.push, h1, h2, hd]
        simp only [hr, Option.map_some]
      · show Deque.mk _ _ = _
        rw [List.reverse_append]; rfl
    | clear =>
      rw [sinceClear_append_clear]
      refine ⟨s.clear, rfl, h1, ?_⟩
      show s.input.clear = _
      rw [h2]; simp [Deque.clear]

theorem Finite.run_push {c : Source} (hc : c.array ≠ []) (hl : c.array.length ≤ c.stored.length) (ops : List (Op Bool)) (x : Bool) :
    ∃ s, Finite.run c (ops ++ [.push x]) = some s
      ∧ s.output = (List.zipWith (· && ·) ((sinceClear (ops ++ [.push x])).reverse.take c.array.length) c.stored).any id := by
  have hP : 1 ≤ c.array.length := List.length_pos_iff.2 hc
  obtain ⟨s, hs, h1, h2⟩ := Finite.run_some hc hl ops
  have hd := pushFront_take hP (sinceClear ops).reverse x
  have hr := innerProduct_eq false (l := (x :: (sinceClear ops).reverse).take c.array.length) (cs := c.stored)
    ((List.length_take_le _ _).trans hl)
  rw [Bool.false_or] at hr
  refine ⟨{ s with
      input := ⟨c.array.length, (x :: (sinceClear ops).reverse).take c.array.length⟩,
      output := (List.zipWith (· && ·) ((x :: (sinceClear ops).reverse).take c.array.length) c.stored).any id }, ?_, ?_⟩
  · rw [Finite.run, runOps_append]
    rw [Finite.run] at hs
    rw [hs]
    show Finite.push s x = _
    rw [Finite.push, h1, h2, hd]
    simp only [hr, Option.map_some]
  · rw [sinceClear_append_push, List.reverse_append]
    rfl

end Verif.BoolT

namespace Verif.Props
open Verif.BoolT Verif.Impulse

/-! ### C137 -/

/-- C137, the claim: after a push the value of a FIR filter of `bool` is the logical convolution, however it was
constructed. -/
def BoolFirConvolution : Prop :=
  ∀ (c : Source) (ops : List (Op Bool)) (x : Bool), c.array ≠ [] →
    ∃ s, BoolT.Finite.run c (ops ++ [.push x]) = some s
      ∧ (s.output = true ↔ Meets c.array (sinceClear (ops ++ [.push x])))

/-- C137 is violated: a filter with the single coefficient `false`, given as a const array, has the value `true` after
`true` was pushed. -/
theorem C137_violated : ¬ BoolFirConvolution := by
  intro h
  obtain ⟨s, h1, h2⟩ := h (.const [false]) [] true (by decide)
  have e : BoolT.Finite.run (.const [false]) ([] ++ [.push true]) = some ⟨⟨1, [true]⟩, true, [true, true]⟩ := rfl
  rw [e] at h1
  rw [← Option.some.inj h1] at h2
  obtain ⟨i, hi, -⟩ := h2.1 rfl
  cases i with
  | zero => simp [Source.array] at hi
  | succ i => simp [Source.array] at hi

/-- What a filter of a const array of one or two coefficients computes: whether one of the last inputs is set, whatever the
coefficients are. -/
theorem C137_const_short (cs : List Bool) (h0 : cs ≠ []) (h2 : cs.length ≤ 2) (ops : List (Op Bool)) (x : Bool) :
    ∃ s, BoolT.Finite.run (.const cs) (ops ++ [.push x]) = some s
      ∧ (s.output = true ↔ true ∈ Spec.lastN cs.length (sinceClear (ops ++ [.push x]))) := by
  obtain ⟨s, h1, hv⟩ := BoolT.Finite.run_push (c := .const cs) h0 (by simpa [Source.array, Source.stored] using h2) ops x
  refine ⟨s, h1, ?_⟩
  rw [hv]
  show (List.zipWith (· && ·) ((sinceClear (ops ++ [.push x])).reverse.take cs.length) [true, true]).any id = true ↔ _
  have key : ∀ l : List Bool, l.length ≤ 2 → ((List.zipWith (· && ·) l [true, true]).any id = true ↔ true ∈ l) := by
    intro l hl
    rcases l with _ | ⟨a, _ | ⟨b, _ | ⟨d, l⟩⟩⟩
    · simp
    · cases a <;> simp
    · cases a <;> cases b <;> simp
    · simp at hl
  rw [key _ ((List.length_take_le _ _).trans h2), List.take_reverse, List.mem_reverse]
  rfl

/-- A const array of three or more coefficients: the third push reads past the end of the stored coefficients. -/
theorem C137_const_undefined (cs : List Bool) (h3 : 3 ≤ cs.length) (a b d : Bool) (ops : List (Op Bool)) :
    BoolT.Finite.run (.const cs) (.push a :: .push b :: .push d :: ops) = none := by
  obtain ⟨p, hp⟩ : ∃ p, cs.length = p + 3 := ⟨cs.length - 3, by omega⟩
  have e1 : BoolT.Finite.push (BoolT.Finite.init (.const cs)) a
      = some ⟨⟨cs.length, [a]⟩, ofInt (toInt false + toInt a * toInt true), [true, true]⟩ := by
    simp [BoolT.Finite.push, BoolT.Finite.init, Deque.init, Deque.pushFront, Deque.full, Source.array, Source.stored, hp,
      BoolT.innerProduct]
  have e2 : ∀ y, ∃ z, BoolT.Finite.push ⟨⟨cs.length, [a]⟩, y, [true, true]⟩ b
      = some ⟨⟨cs.length, [b, a]⟩, z, [true, true]⟩ := by
    intro y
    refine ⟨ofInt (toInt (ofInt (toInt false + toInt b * toInt true)) + toInt a * toInt true), ?_⟩
    simp [BoolT.Finite.push, Deque.pushFront, Deque.full, hp, BoolT.innerProduct]
  have e3 : ∀ z, BoolT.Finite.push ⟨⟨cs.length, [b, a]⟩, z, [true, true]⟩ d = none := by
    intro z
    simp [BoolT.Finite.push, Deque.pushFront, Deque.full, hp, BoolT.innerProduct]
  obtain ⟨z, e2⟩ := e2 (ofInt (toInt false + toInt a * toInt true))
  rw [← List.singleton_append, ← List.singleton_append (l := .push d :: ops), ← List.singleton_append (l := ops), BoolT.Finite.run,
    runOps_append, runOps_append, runOps_append]
  have f1 : runOps (some (BoolT.Finite.init (.const cs))) (fun s x => s.bind (BoolT.Finite.push · x)) (Option.map BoolT.Finite.clear)
      [.push a] = BoolT.Finite.push (BoolT.Finite.init (.const cs)) a := rfl
  rw [f1, e1]
  have f2 : ∀ s : BoolT.Finite, ∀ y, runOps (some s) (fun s x => s.bind (BoolT.Finite.push · x)) (Option.map BoolT.Finite.clear)
      [.push y] = BoolT.Finite.push s y := fun _ _ => rfl
  rw [f2, e2, f2, e3]
  have : ∀ o : List (Op Bool), runOps (none : Option BoolT.Finite) (fun s x => s.bind (BoolT.Finite.push · x))
      (Option.map BoolT.Finite.clear) o = none := by
    intro o
    induction o with
    | nil => rfl
    | cons op o ih => cases op <;> exact ih
  exact this ops

/-- C137 for filters constructed from an array rvalue. -/
theorem C137_rvalue_partial (cs : List Bool) (h0 : cs ≠ []) (ops : List (Op Bool)) (x : Bool) :
    ∃ s, BoolT.Finite.run (.rvalue cs) (ops ++ [.push x]) = some s
      ∧ (s.output = true ↔ Meets cs (sinceClear (ops ++ [.push x]))) := by
  obtain ⟨s, h1, hv⟩ := BoolT.Finite.run_push (c := .rvalue cs) h0 (by simp [Source.array, Source.stored]) ops x
  refine ⟨s, h1, ?_⟩
  rw [hv]
  exact any_zipWith_take _ _

/-- The difference equation of the IIR filter of `bool`: `y` is the exclusive or of the logical convolutions of the inputs
and of the previous outputs. -/
def BoolIIR (as bs xs ys : List Bool) : Prop :=
  ys.length = xs.length ∧ ∀ k, k < xs.length →
    (ys[k]? = some true ↔ ¬ (Meets as (xs.take (k + 1)) ↔ Meets bs (ys.take k)))

theorem ofInt_sub (a b : Bool) : ofInt ((toInt a - toInt b).tdiv (toInt true)) = (a != b) := by
  cases a <;> cases b <;> decide

/-- C137 for IIR filters constructed from array rvalues with the scale `true`. -/
theorem C137_iir_partial (as bs : List Bool) (ha : as ≠ []) (hb : bs ≠ []) (xs : List Bool) :
    ∃ s ys, BoolT.Infinite.run (.rvalue as) (.rvalue bs) true (xs.map .push) = some s ∧ BoolIIR as bs xs ys
      ∧ s.value = ys.getLastD false := by
  have hP : 1 ≤ as.length := List.length_pos_iff.2 ha
  have hQ : 1 ≤ bs.length := List.length_pos_iff.2 hb
  have key : ∃ ys, BoolT.Infinite.run (.rvalue as) (.rvalue bs) true (xs.map .push)
      = some ⟨⟨as.length, xs.reverse.take as.length⟩, as, ⟨bs.length, ys.reverse.take bs.length⟩, true, bs⟩
      ∧ BoolIIR as bs xs ys := by
    induction xs using List.reverseRecOn with
    | nil =>
      refine ⟨[], ?_, rfl, fun k hk => absurd hk (Nat.not_lt_zero k)⟩
      simp [BoolT.Infinite.run, runOps, BoolT.Infinite.init, Source.array, Source.stored, Deque.init]
    | append_singleton xs x ih =>
      obtain ⟨ys, h1, h2, h3⟩ := ih
      have hd := pushFront_take hP xs.reverse x
      have r1 := innerProduct_eq false (l := (x :: xs.reverse).take as.length) (cs := as) (List.length_take_le _ _)
      have r2 := innerProduct_eq false (l := ys.reverse.take bs.length) (cs := bs) (List.length_take_le _ _)
      rw [Bool.false_or] at r1 r2
      set f := (List.zipWith (· && ·) ((x :: xs.reverse).take as.length) as).any id with hf
      set g := (List.zipWith (· && ·) (ys.reverse.take bs.length) bs).any id with hg
      have hff : f = true ↔ Meets as (xs ++ [x]) := by
        rw [hf, any_zipWith_take]; unfold Meets; rw [List.reverse_append]; rfl
      have hgg : g = true ↔ Meets bs ys := by
        rw [hg, any_zipWith_take]; rfl
      have hd2 := pushFront_take hQ ys.reverse (f != g)
      refine ⟨ys ++ [f != g], ?_, by simp [h2], ?_⟩
      · rw [List.map_append, BoolT.Infinite.run, runOps_append]
        rw [BoolT.Infinite.run] at h1
        rw [h1]
        show BoolT.Infinite.push _ x = _
        unfold BoolT.Infinite.push
        simp only [hd, r1, r2, Option.bind_eq_bind, Option.bind_some, toInt, if_true, one_ne_zero, if_false]
        have := ofInt_sub f g
        simp only [toInt, if_true] at this
        simp only [this, hd2]
        simp
      · intro k hk
        rw [List.length_append, List.length_singleton] at hk
        by_cases hk' : k < xs.length
        · rw [List.getElem?_append_left (by omega), List.take_append_of_le_length (by omega),
            List.take_append_of_le_length (by omega)]
          exact h3 k hk'
        · have hk2 : k = xs.length := by omega
          subst hk2
          rw [List.getElem?_append_right (by omega), h2, Nat.sub_self, List.take_of_length_le (by simp),
            ← h2, List.take_append_of_le_length (le_refl _), List.take_length, ← hff, ← hgg]
          cases f <;> cases g <;> simp
  obtain ⟨ys, h1, h2⟩ := key
  refine ⟨_, ys, h1, h2, ?_⟩
  unfold BoolT.Infinite.value
  simp only
  obtain ⟨q, hq⟩ : ∃ q, bs.length = q + 1 := ⟨bs.length - 1, by omega⟩
  rw [hq]
  rcases ys.eq_nil_or_concat with rfl | ⟨l, a, rfl⟩
  · rfl
  · simp

/-- With the scale `false` every push divides by zero. -/
theorem C137_scale_undefined (x : Bool) (s : BoolT.Infinite) (hs : s.outputScale = false) :
    BoolT.Infinite.push s x = none := by
  unfold BoolT.Infinite.push
  simp [hs, toInt]

/-- 1 0 1 as an array rvalue: the value is set iff the current input or the input two steps ago is. -/
example : (BoolT.Finite.run (.rvalue [true, false, true]) [.push true, .push false, .push true, .push false]).map (·.output)
    = some false := rfl

example : (BoolT.Finite.run (.const [true, false]) [.push true, .push false]).map (·.output) = some true := rfl

example : ∃ s, BoolT.Finite.run (.const [true, false]) ([.push true] ++ [.push false]) = some s
    ∧ (s.output = true ↔ true ∈ Spec.lastN 2 [true, false]) :=
  C137_const_short [true, false] (by decide) (by decide) [.push true] false

example : BoolT.Finite.run (.const [true, false, true]) [.push true, .push true, .push false, .clear] = none :=
  C137_const_undefined _ (by decide) _ _ _ _

/-- A toggle: `y[n] = x[n] xor y[n-1]`. -/
example : (BoolT.Infinite.run (.rvalue [true]) (.rvalue [true]) true [.push true, .push false, .push true]).map (·.value)
    = some false := rfl

end Verif.Props
