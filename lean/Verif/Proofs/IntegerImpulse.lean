import Verif.Proofs.IntegerInterim
import Verif.Proofs.Impulse
/-
FIR and IIR filters of integers.
-/
namespace Verif.CInt

/-- The result of an operation is congruent to the exact result. -/
theorem Platform.result_modEq {U : Ty} {z : Int} {r : Val} (h : Platform.result U z = some r) :
    r.ty = U ∧ r.val ≡ z [ZMOD 2 ^ U.bits] := by
  unfold Platform.result at h
  split at h
  · split at h
    · cases h; exact ⟨rfl, rfl⟩
    · cases h
  · cases h; exact ⟨rfl, Ty.conv_modEq _ _⟩

end Verif.CInt

namespace Verif.IntT
open CInt Verif.Integer

variable {P : Platform} {T : Ty}

/-- `acc + x * c` and `a - b` never overflow: the arithmetic is unsigned, or wide enough for all operands of type `T`. -/
def Safe (P : Platform) (T : Ty) : Prop :=
  (P.promote T).signed = false ∨ ∀ a x c, T.Has a → T.Has x → T.Has c →
    (P.promote T).Has (x * c) ∧ (P.promote T).Has (a + x * c) ∧ (P.promote T).Has (x - c) ∧ (P.promote T).lo < x - c

/-- The defined sequence of sums. -/
theorem innerProduct_of_step {R : Int → Prop} {xs cs : List Int} (hlen : xs.length ≤ cs.length) {acc : Int} (h0 : R acc)
    (hstep : ∀ a, R a → ∀ q ∈ List.zip xs cs, ∃ p s, P.mul ⟨T, q.1⟩ ⟨T, q.2⟩ = some p ∧ P.add ⟨T, a⟩ p = some s
      ∧ T.conv s.val = T.conv (a + q.1 * q.2) ∧ R (T.conv s.val)) :
    ∃ v, innerProduct P T acc xs cs = some v ∧ R v ∧ v ≡ acc + (List.zipWith (· * ·) xs cs).sum [ZMOD 2 ^ T.bits] := by
  induction xs generalizing cs acc with
  | nil => exact ⟨acc, by simp [innerProduct], h0, by simp⟩
  | cons x xs ih =>
    cases cs with
    | nil => simp at hlen
    | cons c cs =>
      obtain ⟨p, s, h1, h2, h3, h4⟩ := hstep acc h0 (x, c) (by simp)
      obtain ⟨v, h5, h6, h7⟩ := ih (cs := cs) (by simpa using hlen) h4 (fun a ha q hq => hstep a ha q (by simp [hq]))
      refine ⟨v, ?_, h6, ?_⟩
      · simp only [innerProduct, h1, h2, Option.bind_eq_bind, Option.bind_some]
        exact h5
      · refine h7.trans ?_
        rw [h3, List.zipWith_cons_cons, List.sum_cons, ← add_assoc]
        exact (Ty.conv_modEq T _).add_right _

theorem Safe.step (hT : 1 ≤ T.bits) (hs : Safe P T) {a x c : Int} (ha : T.Has a) (hx : T.Has x) (hc : T.Has c) :
    ∃ p s, P.mul ⟨T, x⟩ ⟨T, c⟩ = some p ∧ P.add ⟨T, a⟩ p = some s ∧ T.conv s.val = T.conv (a + x * c) := by
  have hU := T_le_promote (P := P) hT
  have hx' := Platform.has_promote (P := P) hx
  have hc' := Platform.has_promote (P := P) hc
  have ha' := Platform.has_promote (P := P) ha
  rcases hs with hs | hs
  · have e1 : P.mul ⟨T, x⟩ ⟨T, c⟩ = some ⟨P.promote T, (P.promote T).conv (x * c)⟩ := by
      rw [Platform.mul_eq hU rfl rfl hx' hc', Platform.result_unsigned hs]
    have e2 : P.add ⟨T, a⟩ ⟨P.promote T, (P.promote T).conv (x * c)⟩
        = some ⟨P.promote T, (P.promote T).conv (a + (P.promote T).conv (x * c))⟩ := by
      rw [Platform.add_eq hU rfl (Platform.promote_promote T) ha' (Ty.has_conv hU _), Platform.result_unsigned hs]
    refine ⟨_, _, e1, e2, Ty.conv_congr ?_⟩
    have hdvd : (2 : Int) ^ T.bits ∣ 2 ^ (P.promote T).bits := pow_dvd_pow _ (Platform.promote_bits T).1
    refine ((Ty.conv_modEq _ _).of_dvd hdvd).trans ?_
    exact ((Ty.conv_modEq _ _).of_dvd hdvd).add_left _
  · obtain ⟨h1, h2, -⟩ := hs a x c ha hx hc
    refine ⟨⟨P.promote T, x * c⟩, ⟨P.promote T, a + x * c⟩, ?_, ?_, rfl⟩
    · rw [Platform.mul_eq hU rfl rfl hx' hc', Platform.result_has hU h1]
    · rw [Platform.add_eq hU rfl (Platform.promote_promote T) ha' h1, Platform.result_has hU h2]

/-- The inner product in a safe type is the exact one, converted. -/
theorem Safe.innerProduct (hT : 1 ≤ T.bits) (hs : Safe P T) {xs cs : List Int} (hlen : xs.length ≤ cs.length)
    (hx : ∀ x ∈ xs, T.Has x) (hc : ∀ c ∈ cs, T.Has c) :
    innerProduct P T 0 xs cs = some (T.conv (List.zipWith (· * ·) xs cs).sum) := by
  obtain ⟨v, h1, h2, h3⟩ := innerProduct_of_step (P := P) (T := T) (R := T.Has) hlen T.has_zero (by
    intro a ha q hq
    obtain ⟨p, s, e1, e2, e3⟩ := hs.step hT ha (hx q.1 (List.of_mem_zip hq).1) (hc q.2 (List.of_mem_zip hq).2)
    exact ⟨p, s, e1, e2, e3, Ty.has_conv hT _⟩)
  rw [h1, ← Ty.conv_of_has hT h2, Ty.conv_congr h3, zero_add]

/-- Bounded data in any type. -/
theorem innerProduct_bounded (hT : 1 ≤ T.bits) {M : Int} {xs cs : List Int} (hlen : xs.length ≤ cs.length)
    (hx : ∀ x ∈ xs, T.Has x ∧ |x| ≤ M) (hc : ∀ c ∈ cs, T.Has c) (hM : 0 ≤ M) {acc B : Int} (hacc : T.lo ≤ acc) (hacc' : |acc| ≤ B)
    (hpos : ∀ q ∈ List.zip xs cs, T.signed = true ∨ 0 ≤ q.1 * q.2)
    (hb : B + M * (cs.map abs).sum < T.hi) :
    innerProduct P T acc xs cs = some (acc + (List.zipWith (· * ·) xs cs).sum) := by
  induction xs generalizing cs acc B with
  | nil => simp [innerProduct]
  | cons x xs ih =>
    cases cs with
    | nil => simp at hlen
    | cons c cs =>
      have hU := T_le_promote (P := P) hT
      have hx1 := hx x (by simp)
      have hc1 := hc c (by simp)
      have hs0 : 0 ≤ (cs.map abs).sum := List.sum_nonneg (by
        intro y hy; obtain ⟨z, -, rfl⟩ := List.mem_map.1 hy; exact abs_nonneg z)
      rw [List.map_cons, List.sum_cons, mul_add] at hb
      have hMs : 0 ≤ M * (cs.map abs).sum := mul_nonneg hM hs0
      have hp : |x * c| ≤ M * |c| := by rw [abs_mul]; exact mul_le_mul_of_nonneg_right hx1.2 (abs_nonneg c)
      have hB : 0 ≤ B := (abs_nonneg _).trans hacc'
      have hpc : 0 ≤ M * |c| := mul_nonneg hM (abs_nonneg c)
      have hpp := abs_le.1 hp
      have haa := abs_le.1 hacc'
      have hlo : T.signed = true → T.lo = -T.hi := fun h => by unfold Ty.lo Ty.hi; rw [if_pos h, if_pos h]
      have hlo' : T.lo ≤ x * c ∧ T.lo ≤ acc + x * c := by
        rcases hpos (x, c) (by simp) with h | h
        · rw [hlo h]; omega
        · exact ⟨T.lo_le_zero.trans h, by have : 0 ≤ x * c := h; omega⟩
      have h1 : T.Has (x * c) := ⟨hlo'.1, by omega⟩
      have h2 : T.Has (acc + x * c) := ⟨hlo'.2, by omega⟩
      have h3 : T.Has acc := ⟨hacc, by omega⟩
      have e1 : P.mul ⟨T, x⟩ ⟨T, c⟩ = some ⟨P.promote T, x * c⟩ := by
        rw [Platform.mul_eq hU rfl rfl (Platform.has_promote hx1.1) (Platform.has_promote hc1),
          Platform.result_has hU (Platform.has_promote h1)]
      have e2 : P.add ⟨T, acc⟩ ⟨P.promote T, x * c⟩ = some ⟨P.promote T, acc + x * c⟩ := by
        rw [Platform.add_eq hU rfl (Platform.promote_promote T) (Platform.has_promote h3) (Platform.has_promote h1),
          Platform.result_has hU (Platform.has_promote h2)]
      simp only [innerProduct, e1, e2, Option.bind_eq_bind, Option.bind_some, Ty.conv_of_has hT h2]
      rw [ih (cs := cs) (acc := acc + x * c) (B := B + M * |c|) (by simpa using hlen) (fun y hy => hx y (by simp [hy]))
        (fun d hd => hc d (by simp [hd])) h2.1 (by rw [abs_le]; omega)
        (fun q hq => hpos q (by simp [hq])) (by omega)]
      rw [List.zipWith_cons_cons, List.sum_cons, ← add_assoc]

theorem zipWith_take_int (l cs : List Int) :
    List.zipWith (· * ·) (l.take cs.length) cs = List.zipWith (· * ·) l cs := by
  induction cs generalizing l with
  | nil => simp
  | cons c cs ih => cases l with
    | nil => simp
    | cons x l => simp [ih]

theorem mem_of_sinceClear {β : Type} {ops : List (Op β)} {x : β} (h : x ∈ sinceClear ops) : Op.push x ∈ ops := by
  induction ops using List.reverseRecOn with
  | nil => simp at h
  | append_singleton ops op ih =>
    cases op with
    | push y =>
      rw [sinceClear_append_push] at h
      rcases List.mem_append.1 h with h | h
      · simp [ih h]
      · simp [List.mem_singleton.1 h]
    | clear => rw [sinceClear_append_clear] at h; simp at h

/-- The FIR filter, if the inner products of all windows of the history are defined. -/
theorem Finite.run_of {cs : List Int} (hc : cs ≠ []) {Q : Int → Prop} (g : List Int → Int)
    (hg : ∀ xs : List Int, (∀ x ∈ xs, Q x) → innerProduct P T 0 (xs.take cs.length) cs = some (g xs))
    (ops : List (Op Int)) (hx : ∀ x, Op.push x ∈ ops → Q x) :
    ∃ s : Finite, Finite.run P T cs ops = some s ∧ s.coefficients = cs
      ∧ s.input = ⟨cs.length, (sinceClear ops).reverse.take cs.length⟩
      ∧ (∀ ops' x, ops = ops' ++ [.push x] → s.output = g (sinceClear ops).reverse) := by
  have hP : 1 ≤ cs.length := List.length_pos_iff.2 hc
  induction ops using List.reverseRecOn with
  | nil => exact ⟨_, rfl, rfl, by simp [Finite.init, Impulse.Deque.init, sinceClear], by simp⟩
  | append_singleton ops op ih =>
    obtain ⟨s, hs, h1, h2, -⟩ := ih (fun x h => hx x (by simp [h]))
    rw [Finite.run, runOps_append]
    rw [Finite.run] at hs
    rw [hs]
    cases op with
    | push x =>
      rw [sinceClear_append_push]
      have hd := Impulse.pushFront_take hP (sinceClear ops).reverse x
      have hi := hg (x :: (sinceClear ops).reverse) (by
        intro y hy
        rcases List.mem_cons.1 hy with rfl | hy
        · exact hx y (by simp)
        · exact hx y (by simp [mem_of_sinceClear (List.mem_reverse.1 hy)]))
      refine ⟨{ s with input := s.input.pushFront x, output := g (x :: (sinceClear ops).reverse) }, ?_, h1, ?_, ?_⟩
      · show Finite.push P T s x = _
        unfold Finite.push
        rw [h1, h2, hd]
        simp only [hi, Option.bind_eq_bind, Option.bind_some]
        rfl
      · rw [List.reverse_append]
        show s.input.pushFront x = _
        rw [h2, hd]; rfl
      · intro _ _ _
        rw [List.reverse_append]; rfl
    | clear =>
      rw [sinceClear_append_clear]
      refine ⟨s.clear, rfl, h1, ?_, ?_⟩
      · show s.input.clear = _
        rw [h2]; simp [Impulse.Deque.clear]
      · intro ops' x h
        have := (List.append_inj' h rfl).2
        simp at this

/-- The difference and the quotient in the push of the IIR filter. -/
theorem Safe.quotient (hT : 1 ≤ T.bits) (hs : Safe P T) {f b c : Int} (hf : T.Has f) (hb : T.Has b) (hc : T.Has c) (hc0 : c ≠ 0) :
    P.sub ⟨T, f⟩ ⟨T, b⟩ = some ⟨P.promote T, (P.promote T).conv (f - b)⟩
    ∧ P.div ⟨P.promote T, (P.promote T).conv (f - b)⟩ ⟨T, c⟩
        = some ⟨P.promote T, ((P.promote T).conv (f - b)).tdiv c⟩ := by
  have hU := T_le_promote (P := P) hT
  have hf' := Platform.has_promote (P := P) hf
  have hb' := Platform.has_promote (P := P) hb
  have hc' := Platform.has_promote (P := P) hc
  have hq : (P.promote T).Has (((P.promote T).conv (f - b)).tdiv c) := by
    have hd := Ty.has_conv hU (f - b)
    rcases hs with hs | hs
    · have hlo : (P.promote T).lo = 0 := by unfold Ty.lo; rw [hs]; rfl
      have hc1 : 0 < c := lt_of_le_of_ne (by have := hc'.1; rwa [hlo] at this) (Ne.symm hc0)
      exact tdiv_has (by omega) hd
    · obtain ⟨-, -, h1, h2⟩ := hs 0 f b T.has_zero hf hb
      rw [Ty.conv_of_has hU h1] at hd ⊢
      have habs := Int.natAbs_tdiv_le_natAbs (f - b) c
      cases hsg : (P.promote T).signed
      · have hlo : (P.promote T).lo = 0 := by unfold Ty.lo; rw [hsg]; rfl
        have hc1 : 0 < c := lt_of_le_of_ne (by have := hc'.1; rwa [hlo] at this) (Ne.symm hc0)
        exact tdiv_has (by omega) hd
      · have hlo : (P.promote T).lo = -(P.promote T).hi := by unfold Ty.lo Ty.hi; rw [if_pos hsg, if_pos hsg]
        have := hd.2
        exact ⟨by omega, by omega⟩
  constructor
  · rw [Platform.sub_eq hU rfl rfl hf' hb']
    rcases hs with hs | hs
    · rw [Platform.result_unsigned hs]
    · obtain ⟨-, -, h1, -⟩ := hs 0 f b T.has_zero hf hb
      rw [Platform.result_has hU h1, Ty.conv_of_has hU h1]
  · rw [Platform.div_eq hU (Platform.promote_promote T) rfl (Ty.has_conv hU _) hc' hc0, Platform.result_has hU hq]

/-- One output of the IIR filter. -/
def iirStep (P : Platform) (T : Ty) (as bs : List Int) (c : Int) (xs ys : List Int) : Int :=
  T.conv (((P.promote T).conv (T.conv (List.zipWith (· * ·) xs.reverse as).sum
    - T.conv (List.zipWith (· * ·) ys.reverse bs).sum)).tdiv c)

/-- The IIR filter in a safe type. -/
theorem Infinite.run_safe (hT : 1 ≤ T.bits) (hs : Safe P T) {as bs : List Int} (ha : as ≠ []) (hb : bs ≠ []) {c : Int}
    (hc0 : c ≠ 0) (hc : T.Has c) (hA : ∀ a ∈ as, T.Has a) (hB : ∀ b ∈ bs, T.Has b) (ops : List (Op Int))
    (hx : ∀ x, Op.push x ∈ ops → T.Has x) :
    ∃ (s : Infinite) (ys : List Int), Infinite.run P T as bs c ops = some s
      ∧ ys.length = (sinceClear ops).length ∧ (∀ y ∈ ys, T.Has y)
      ∧ (∀ k < ys.length, ys[k]? = some (iirStep P T as bs c ((sinceClear ops).take (k + 1)) (ys.take k)))
      ∧ s = ⟨⟨as.length, (sinceClear ops).reverse.take as.length⟩, as, ⟨bs.length, ys.reverse.take bs.length⟩, c, bs⟩ := by
  have hP : 1 ≤ as.length := List.length_pos_iff.2 ha
  have hQ : 1 ≤ bs.length := List.length_pos_iff.2 hb
  induction ops using List.reverseRecOn with
  | nil => exact ⟨_, [], rfl, rfl, by simp, by simp, by simp [Infinite.init, Impulse.Deque.init]⟩
  | append_singleton ops op ih =>
    obtain ⟨s, ys, hs', hl, hy, hk, he⟩ := ih (fun x h => hx x (by simp [h]))
    rw [Infinite.run, runOps_append]
    rw [Infinite.run] at hs'
    rw [hs']
    cases op with
    | push x =>
      rw [sinceClear_append_push]
      have hxs : ∀ y ∈ (x :: (sinceClear ops).reverse).take as.length, T.Has y := by
        intro y hy
        rcases List.mem_cons.1 (List.mem_of_mem_take hy) with rfl | hy
        · exact hx y (by simp)
        · exact hx y (by simp [mem_of_sinceClear (List.mem_reverse.1 hy)])
      have hi := hs.innerProduct hT (xs := (x :: (sinceClear ops).reverse).take as.length) (cs := as) (by simp) hxs hA
      have hj := hs.innerProduct hT (xs := ys.reverse.take bs.length) (cs := bs) (by simp)
        (fun y h => hy y (List.mem_reverse.1 (List.mem_of_mem_take h))) hB
      rw [zipWith_take_int] at hi hj
      obtain ⟨q1, q2⟩ := hs.quotient hT (Ty.has_conv hT (List.zipWith (· * ·) (x :: (sinceClear ops).reverse) as).sum)
        (Ty.has_conv hT (List.zipWith (· * ·) ys.reverse bs).sum) hc hc0
      have hd := Impulse.pushFront_take hP (sinceClear ops).reverse x
      have hd2 := Impulse.pushFront_take hQ ys.reverse (iirStep P T as bs c (sinceClear ops ++ [x]) ys)
      refine ⟨_, ys ++ [iirStep P T as bs c (sinceClear ops ++ [x]) ys], ?_, by simp [hl], ?_, ?_, rfl⟩
      · show Infinite.push P T s x = _
        rw [he]
        unfold Infinite.push
        simp only [hd, hi, hj, q1, q2, Option.bind_eq_bind, Option.bind_some]
        have e : T.conv (((P.promote T).conv (T.conv (List.zipWith (· * ·) (x :: (sinceClear ops).reverse) as).sum
            - T.conv (List.zipWith (· * ·) ys.reverse bs).sum)).tdiv c) = iirStep P T as bs c (sinceClear ops ++ [x]) ys := by
          unfold iirStep; rw [List.reverse_append]; rfl
        rw [e, hd2, List.reverse_append, List.reverse_append]
        rfl
      · intro y hy'
        rcases List.mem_append.1 hy' with h | h
        · exact hy y h
        · rw [List.mem_singleton.1 h]; exact Ty.has_conv hT _
      · intro k hk'
        rw [List.length_append, List.length_singleton] at hk'
        rcases Nat.lt_or_ge k ys.length with h | h
        · rw [List.getElem?_append_left h, hk k h, List.take_append_of_le_length (by omega),
            List.take_append_of_le_length (by omega)]
        · have : k = ys.length := by omega
          subst this
          rw [List.getElem?_append_right le_rfl, Nat.sub_self, List.take_append_of_le_length le_rfl, List.take_length, hl,
            List.take_of_length_le (by simp)]
          rfl
    | clear =>
      rw [sinceClear_append_clear]
      refine ⟨_, [], rfl, rfl, by simp, by simp, ?_⟩
      rw [he]
      simp [Infinite.clear, Impulse.Deque.clear]

end Verif.IntT
