import Verif.Proofs.IntegerImpulse
import Verif.Props.IntegerTypes
/-
C116, C117: FIR and IIR filters of integers.
-/
namespace Verif.Props
open CInt IntT

variable {P : Platform} {T : Ty}

/-- The convolution of the coefficients with the inputs, newest input first. -/
def convolution (cs xs : List Int) : Int := (List.zipWith (· * ·) xs.reverse cs).sum

/-- Unsigned types that are not narrower than `int` are safe. -/
theorem safe_unsigned (hs : T.signed = false) (hb : P.intBits ≤ T.bits) : Safe P T := by
  left
  unfold Platform.promote
  rw [if_neg (by omega)]; exact hs

/-- Signed types of at most half the width of `int` are safe, unsigned types of less than half the width. -/
theorem safe_narrow (hT : 1 ≤ T.bits) (hb : if T.signed then 2 * T.bits ≤ P.intBits else 2 * T.bits < P.intBits) : Safe P T := by
  right
  have hlt : T.bits < P.intBits := by split at hb <;> omega
  have hU : P.promote T = P.int := by unfold Platform.promote; rw [if_pos hlt]
  have hi : P.int.hi = 2 ^ (P.intBits - 1) := rfl
  have hl : P.int.lo = -2 ^ (P.intBits - 1) := rfl
  rw [hU]
  intro a x c ha hx hc
  cases hs : T.signed
  · rw [hs] at hb
    have hb : 2 * T.bits < P.intBits := by simpa using hb
    have h0 : T.lo = 0 := by unfold Ty.lo; rw [hs]; rfl
    have h1 : T.hi = 2 ^ T.bits := by unfold Ty.hi; rw [hs]; rfl
    have hp : (2 : Int) ^ T.bits * 2 ^ T.bits ≤ 2 ^ (P.intBits - 1) := by
      rw [← pow_add]; exact pow_le_pow_right₀ (by norm_num) (by omega)
    have hq : (1 : Int) ≤ 2 ^ T.bits := one_le_pow₀ (by norm_num)
    obtain ⟨ha0, ha1⟩ := ha
    obtain ⟨hx0, hx1⟩ := hx
    obtain ⟨hc0, hc1⟩ := hc
    rw [h0] at ha0 hx0 hc0
    rw [h1] at ha1 hx1 hc1
    generalize (2 : Int) ^ T.bits = M at *
    generalize (2 : Int) ^ (P.intBits - 1) = N at *
    have hxc : 0 ≤ x * c := mul_nonneg hx0 hc0
    have hxc2 : x * c ≤ (M - 1) * (M - 1) := mul_le_mul (by omega) (by omega) hc0 (by omega)
    have hMM : (M - 1) * (M - 1) + (M - 1) < M * M := by nlinarith
    have hMN : M ≤ N := by nlinarith
    refine ⟨⟨by rw [hl]; omega, by rw [hi]; omega⟩, ⟨by rw [hl]; omega, by rw [hi]; omega⟩, ⟨by rw [hl]; omega, by rw [hi]; omega⟩,
      by rw [hl]; omega⟩
  · rw [hs] at hb
    have hb : 2 * T.bits ≤ P.intBits := by simpa using hb
    have h0 : T.lo = -2 ^ (T.bits - 1) := by unfold Ty.lo; rw [hs]; rfl
    have h1 : T.hi = 2 ^ (T.bits - 1) := by unfold Ty.hi; rw [hs]; rfl
    have hp : 2 * ((2 : Int) ^ (T.bits - 1) * 2 ^ (T.bits - 1)) ≤ 2 ^ (P.intBits - 1) := by
      rw [← pow_add, ← pow_succ']; exact pow_le_pow_right₀ (by norm_num) (by omega)
    have hq : (1 : Int) ≤ 2 ^ (T.bits - 1) := one_le_pow₀ (by norm_num)
    obtain ⟨ha0, ha1⟩ := ha
    obtain ⟨hx0, hx1⟩ := hx
    obtain ⟨hc0, hc1⟩ := hc
    rw [h0] at ha0 hx0 hc0
    rw [h1] at ha1 hx1 hc1
    generalize (2 : Int) ^ (T.bits - 1) = M at *
    generalize (2 : Int) ^ (P.intBits - 1) = N at *
    have hxc : |x * c| ≤ M * M := by
      rw [abs_mul]
      exact mul_le_mul (by rw [abs_le]; omega) (by rw [abs_le]; omega) (abs_nonneg _) (by omega)
    rw [abs_le] at hxc
    have hMN : M ≤ M * M := by nlinarith
    refine ⟨⟨by rw [hl]; omega, by rw [hi]; omega⟩, ⟨by rw [hl]; omega, ?_⟩, ⟨by rw [hl]; omega, by rw [hi]; omega⟩, ?_⟩
    · rw [hi]; omega
    · rw [hl]; omega

/-! ### C116: FIR -/

/-- C116, the claim: the FIR filter computes the convolution modulo `2^b`. -/
def FirModular (P : Platform) (T : Ty) : Prop :=
  ∀ cs : List Int, cs ≠ [] → (∀ c ∈ cs, T.Has c) → ∀ (ops : List (Op Int)) (x : Int), (∀ y, Op.push y ∈ ops ++ [.push x] → T.Has y) →
    ∃ s, Finite.run P T cs (ops ++ [.push x]) = some s ∧ T.Has s.output
      ∧ s.output ≡ convolution cs (sinceClear (ops ++ [.push x])) [ZMOD 2 ^ T.bits]

/-- C116 for the types whose arithmetic cannot overflow. -/
theorem C116_modular_partial (hT : 1 ≤ T.bits) (hs : Safe P T) : FirModular P T := by
  intro cs hc hC ops x hx
  obtain ⟨s, h1, -, -, h4⟩ := Finite.run_of (P := P) (T := T) hc (Q := T.Has)
    (fun xs => T.conv (List.zipWith (· * ·) xs cs).sum) (by
      intro xs hxs
      rw [hs.innerProduct hT (by simp) (fun x h => hxs x (List.mem_of_mem_take h)) hC, zipWith_take_int]) _ hx
  refine ⟨s, h1, ?_, ?_⟩
  · rw [h4 ops x rfl]; exact Ty.has_conv hT _
  · rw [h4 ops x rfl]; exact Ty.conv_modEq _ _

/-- `uint16_t`: the product 65535 * 65535 overflows `int`. -/
theorem C116_uint16 : (Finite.run lp64 uint16 [65535] [.push 65535]).isNone = true := by decide

/-- C116 is violated for `uint16_t` and for `int`. -/
theorem C116_violated : ¬ FirModular lp64 uint16 ∧ ¬ FirModular lp64 int32 := by
  constructor
  · intro h
    obtain ⟨s, h1, -⟩ := h [65535] (by decide) (by decide) [] 65535 (by intro y hy; simp at hy; subst hy; decide)
    have := C116_uint16
    rw [show ([.push 65535] : List (Op Int)) = [] ++ [.push 65535] from rfl, h1] at this
    cases this
  · intro h
    obtain ⟨s, h1, -⟩ := h [65536] (by decide) (by decide) [] 65536 (by intro y hy; simp at hy; subst hy; decide)
    have : (Finite.run lp64 int32 [65536] [.push 65536]).isNone = true := by decide
    rw [show ([.push 65536] : List (Op Int)) = [] ++ [.push 65536] from rfl, h1] at this
    cases this

/-- In every integer type: exact if the inputs are at most `M` and `M` times the sum of the coefficients is a value of
the type. -/
theorem C116_exact_partial (hT : 1 ≤ T.bits) {M : Int} (hM : 0 ≤ M) {cs : List Int} (hc : cs ≠ []) (hC : ∀ c ∈ cs, T.Has c)
    (hb : M * (cs.map abs).sum < T.hi) (ops : List (Op Int)) (x : Int)
    (hx : ∀ y, Op.push y ∈ ops ++ [.push x] → T.Has y ∧ |y| ≤ M) :
    ∃ s, Finite.run P T cs (ops ++ [.push x]) = some s ∧ s.output = convolution cs (sinceClear (ops ++ [.push x])) := by
  obtain ⟨s, h1, -, -, h4⟩ := Finite.run_of (P := P) (T := T) hc (Q := fun y => T.Has y ∧ |y| ≤ M)
    (fun xs => (List.zipWith (· * ·) xs cs).sum) (by
      intro xs hxs
      rw [innerProduct_bounded (B := 0) hT (by simp) (fun x h => hxs x (List.mem_of_mem_take h)) hC hM T.lo_le_zero (by simp) ?_
        (by simpa using hb), zero_add, zipWith_take_int]
      intro q hq
      cases hsg : T.signed
      · right
        have h0 : T.lo = 0 := by unfold Ty.lo; rw [hsg]; rfl
        have h1 := (hxs q.1 (List.mem_of_mem_take (List.of_mem_zip hq).1)).1.1
        have h2 := (hC q.2 (List.of_mem_zip hq).2).1
        rw [h0] at h1 h2
        exact mul_nonneg h1 h2
      · left; rfl) _ hx
  exact ⟨s, h1, h4 ops x rfl⟩

example : FirModular lp64 uint32 := C116_modular_partial (by decide) (safe_unsigned (by decide) (by decide))
example : FirModular lp64 uint8 := C116_modular_partial (by decide) (safe_narrow (by decide) (by decide))
example : FirModular lp64 ⟨16, true⟩ := C116_modular_partial (by decide) (safe_narrow (by decide) (by decide))
/-- 200 * 2 + 100 * 1 = 500 is 244 in 8 bits. -/
example : (Finite.run lp64 uint8 [1, 2] [.push 200, .push 100]).map Finite.output = some 244 := by decide
example : ∃ s, Finite.run lp64 int32 [1, -2] ([.push 200] ++ [.push 100]) = some s ∧ s.output = -300 :=
  C116_exact_partial (M := 1000) (by decide) (by decide) (by decide) (by decide) (by decide) [.push 200] 100
    (by intro y hy; simp at hy; rcases hy with rfl | rfl <;> decide)

/-! ### C117: IIR -/

/-- The difference equation with a scale of 1, modulo `2^b`. -/
def IsRecurrence (T : Ty) (as bs xs ys : List Int) : Prop :=
  ys.length = xs.length ∧ ∀ k < ys.length, ∃ y, ys[k]? = some y ∧ T.Has y
    ∧ y + convolution bs (ys.take k) ≡ convolution as (xs.take (k + 1)) [ZMOD 2 ^ T.bits]

/-- C117: with a scale of 1 the outputs satisfy the difference equation modulo `2^b`, in every type whose arithmetic cannot
overflow. -/
theorem C117_recurrence (hT : 2 ≤ T.bits) (hs : Safe P T) {as bs : List Int} (ha : as ≠ []) (hb : bs ≠ [])
    (hA : ∀ a ∈ as, T.Has a) (hB : ∀ b ∈ bs, T.Has b) (ops : List (Op Int)) (hx : ∀ x, Op.push x ∈ ops → T.Has x) :
    ∃ (s : Infinite) (ys : List Int), Infinite.run P T as bs 1 ops = some s ∧ IsRecurrence T as bs (sinceClear ops) ys
      ∧ s.value = ys.getLast?.getD 0 := by
  have h1 : T.Has 1 := by
    refine ⟨T.lo_le_zero.trans (by norm_num), ?_⟩
    unfold Ty.hi
    split
    · exact one_lt_pow₀ (by norm_num) (by omega)
    · exact one_lt_pow₀ (by norm_num) (by omega)
  obtain ⟨s, ys, e1, e2, e3, e4, e5⟩ := Infinite.run_safe (P := P) (by omega) hs ha hb one_ne_zero h1 hA hB ops hx
  refine ⟨s, ys, e1, ⟨e2, fun k hk => ?_⟩, ?_⟩
  · refine ⟨_, e4 k hk, Ty.has_conv (by omega) _, ?_⟩
    have hdvd : (2 : Int) ^ T.bits ∣ 2 ^ (P.promote T).bits := pow_dvd_pow _ (Platform.promote_bits T).1
    have key : iirStep P T as bs 1 ((sinceClear ops).take (k + 1)) (ys.take k)
        ≡ convolution as ((sinceClear ops).take (k + 1)) - convolution bs (ys.take k) [ZMOD 2 ^ T.bits] := by
      unfold iirStep
      rw [Int.tdiv_one]
      refine (Ty.conv_modEq _ _).trans (((Ty.conv_modEq _ _).of_dvd hdvd).trans ?_)
      exact (Ty.conv_modEq _ _).sub (Ty.conv_modEq _ _)
    have := key.add_right (convolution bs (ys.take k))
    rwa [sub_add_cancel] at this
  · rw [e5]
    show (ys.reverse.take bs.length).headD 0 = _
    have hQ : 1 ≤ bs.length := List.length_pos_iff.2 hb
    obtain ⟨q, hq⟩ : ∃ q, bs.length = q + 1 := ⟨bs.length - 1, by omega⟩
    rw [hq, List.headD_eq_head?_getD, List.getLast?_eq_head?_reverse]
    cases ys.reverse <;> rfl

/-- With another scale the quotient is truncated: each output times the scale differs from the difference by less than the
scale, in types whose arithmetic is wider. -/
theorem C117_scaled (hT : 1 ≤ T.bits) (hs : Safe P T) {as bs : List Int} (ha : as ≠ []) (hb : bs ≠ [])
    {c : Int} (hc0 : c ≠ 0) (hc : T.Has c) (hA : ∀ a ∈ as, T.Has a) (hB : ∀ b ∈ bs, T.Has b) (ops : List (Op Int))
    (hx : ∀ x, Op.push x ∈ ops → T.Has x) :
    ∃ (s : Infinite) (ys : List Int), Infinite.run P T as bs c ops = some s ∧ ys.length = (sinceClear ops).length
      ∧ s.value = ys.getLast?.getD 0
      ∧ ∀ k < ys.length, ∃ y, ys[k]? = some y
        ∧ (T.Has (convolution as ((sinceClear ops).take (k + 1))) → T.Has (convolution bs (ys.take k)) →
            T.Has (convolution as ((sinceClear ops).take (k + 1)) - convolution bs (ys.take k)) → c ≠ -1 →
            |c * y - (convolution as ((sinceClear ops).take (k + 1)) - convolution bs (ys.take k))| < |c|) := by
  obtain ⟨s, ys, e1, e2, e3, e4, e5⟩ := Infinite.run_safe (P := P) hT hs ha hb hc0 hc hA hB ops hx
  refine ⟨s, ys, e1, e2, ?_, fun k hk => ⟨_, e4 k hk, fun h1 h2 h3 hc1 => ?_⟩⟩
  · rw [e5]
    show (ys.reverse.take bs.length).headD 0 = _
    have hQ : 1 ≤ bs.length := List.length_pos_iff.2 hb
    obtain ⟨q, hq⟩ : ∃ q, bs.length = q + 1 := ⟨bs.length - 1, by omega⟩
    rw [hq, List.headD_eq_head?_getD, List.getLast?_eq_head?_reverse]
    cases ys.reverse <;> rfl
  have hU := T_le_promote (P := P) hT
  unfold iirStep
  unfold convolution at h1 h2 h3 ⊢
  rw [Ty.conv_of_has hT h1, Ty.conv_of_has hT h2, Ty.conv_of_has hU (Platform.has_promote h3)]
  generalize (List.zipWith (· * ·) ((sinceClear ops).take (k + 1)).reverse as).sum
    - (List.zipWith (· * ·) (ys.take k).reverse bs).sum = d at *
  have hq : T.Has (d.tdiv c) := by
    have habs := Int.natAbs_tdiv_le_natAbs d c
    cases hsg : T.signed
    · have hlo : T.lo = 0 := by unfold Ty.lo; rw [hsg]; rfl
      have hc1 : 0 < c := lt_of_le_of_ne (by have := hc.1; rwa [hlo] at this) (Ne.symm hc0)
      exact tdiv_has (by omega) h3
    · have hlo : T.lo = -T.hi := by unfold Ty.lo Ty.hi; rw [if_pos hsg, if_pos hsg]
      have h4 := h3.1
      have h5 := h3.2
      rcases lt_or_ge 0 c with h6 | h6
      · exact tdiv_has (by omega) h3
      · refine ⟨by omega, ?_⟩
        have h7 : 2 * (d.tdiv c).natAbs ≤ d.natAbs := by
          rw [Int.natAbs_tdiv]
          have := Nat.div_mul_le_self d.natAbs c.natAbs
          have h8 : 2 ≤ c.natAbs := by omega
          calc 2 * (d.natAbs / c.natAbs) = d.natAbs / c.natAbs * 2 := by ring
            _ ≤ d.natAbs / c.natAbs * c.natAbs := Nat.mul_le_mul_left _ h8
            _ ≤ _ := this
        have := T.hi_pos
        omega
  rw [Ty.conv_of_has hT hq]
  have h6 := Int.mul_tdiv_add_tmod d c
  have h7 : c * d.tdiv c - d = -(d.tmod c) := by linarith
  rw [h7, abs_neg]
  have h8 : (d.tmod c).natAbs < c.natAbs := by rw [Int.natAbs_tmod]; exact Nat.mod_lt _ (by omega)
  rw [Int.abs_eq_natAbs, Int.abs_eq_natAbs]
  exact_mod_cast h8

/-- A scale of 0 is undefined in every push, for every integer type. -/
theorem C117_zero_scale (as bs : List Int) (ops : List (Op Int)) (x : Int) :
    Infinite.run P T as bs 0 (ops ++ [.push x]) = none := by
  have hdiv : ∀ d, P.div d ⟨T, 0⟩ = none := by
    intro d
    unfold Platform.div
    simp [Ty.conv_zero]
  have hpush : ∀ s x, s.outputScale = 0 → Infinite.push P T s x = none := by
    intro s x h
    unfold Infinite.push
    simp [h, hdiv]
  have hinv : ∀ ops s, Infinite.run P T as bs 0 ops = some s → s.outputScale = 0 := by
    intro ops
    induction ops using List.reverseRecOn with
    | nil => intro s h; cases h; rfl
    | append_singleton ops op ih =>
      intro s h
      rw [Infinite.run, runOps_append] at h
      rw [Infinite.run] at ih
      cases hr : runOps (some (Infinite.init as bs 0)) (fun s x => s.bind (Infinite.push P T · x)) (Option.map Infinite.clear) ops with
      | none => rw [hr] at h; cases op <;> cases h
      | some t =>
        rw [hr] at h
        cases op with
        | clear => cases h; exact ih t hr
        | push y =>
          have h' : Infinite.push P T t y = some s := h
          rw [hpush t y (ih t hr)] at h'
          cases h'
  have hinv' := hinv ops
  rw [Infinite.run] at hinv' ⊢
  rw [runOps_append]
  cases hr : runOps (some (Infinite.init as bs 0)) (fun s x => s.bind (Infinite.push P T · x)) (Option.map Infinite.clear) ops with
  | none => rfl
  | some t => exact hpush t x (hinv' t hr)

example : (Infinite.run lp64 int32 [1] [1] 0 [.push 3]).isNone = true := by decide

example : (Infinite.run lp64 uint8 [1] [255] 1 [.push 100, .push 100, .push 100]).map Infinite.value = some 44 := by decide

example : ∃ (s : Infinite) (ys : List Int), Infinite.run lp64 uint8 [1] [255] 1 [.push 100, .push 100, .push 100] = some s
    ∧ IsRecurrence uint8 [1] [255] [100, 100, 100] ys ∧ s.value = ys.getLast?.getD 0 :=
  C117_recurrence (by decide) (safe_narrow (by decide) (by decide)) (by decide) (by decide) (by decide) (by decide)
    [.push 100, .push 100, .push 100] (by intro y hy; simp at hy; subst hy; decide)

end Verif.Props
