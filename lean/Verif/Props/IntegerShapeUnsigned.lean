import Verif.Props.IntegerVariance
/-
C114: skewness and kurtosis filters of unsigned integers that are not narrower than `int`; `kurtosis()` of signed integers.
-/
namespace Verif.CInt.Platform
variable {P : Platform} {T : Ty}

/-- An unsigned type between `int` and `size_t`. -/
structure Plain (P : Platform) (T : Ty) : Prop where
  unsigned : T.signed = false
  int_le : P.intBits ≤ T.bits
  le_size : T.bits ≤ P.sizeBits
  pos : 1 ≤ T.bits

namespace Plain
variable (h : Plain P T)
include h

theorem promote_eq : P.promote T = T := by
  unfold promote
  rw [if_neg (by have := h.int_le; omega)]

theorem common_self : P.common T T = T := common_eq h.promote_eq h.promote_eq

theorem common_int : P.common P.int T = T := by
  have hi : P.promote P.int = P.int := by unfold promote; rw [if_neg (by simp [int])]
  have hu := h.unsigned
  have hb := h.int_le
  obtain ⟨b, s⟩ := T
  simp only at hu hb
  subst hu
  have hp := h.promote_eq
  unfold common
  rw [hi, hp]
  simp [int]
  omega

theorem common_size : P.common T P.size = P.size :=
  common_size_right (by rw [h.promote_eq]; exact h.le_size) (h.int_le.trans h.le_size)

theorem size_common : P.common P.size T = P.size := by rw [common_comm, h.common_size]

theorem size_int : P.common P.size P.int = P.size :=
  common_size_left (by unfold promote; split <;> exact h.int_le.trans h.le_size) (h.int_le.trans h.le_size)

theorem size_size : P.common P.size P.size = P.size :=
  common_size_left (by unfold promote; split <;> [exact h.int_le.trans h.le_size; exact le_rfl]) (h.int_le.trans h.le_size)

theorem sub_ok {a b : Val} (e : P.common a.ty b.ty = T) : ∃ z, P.sub a b = some ⟨T, z⟩ :=
  ⟨_, by unfold sub; rw [e]; exact result_unsigned h.unsigned _⟩
theorem add_ok {a b : Val} (e : P.common a.ty b.ty = T) : ∃ z, P.add a b = some ⟨T, z⟩ :=
  ⟨_, by unfold add; rw [e]; exact result_unsigned h.unsigned _⟩
theorem mul_ok {a b : Val} (e : P.common a.ty b.ty = T) : ∃ z, P.mul a b = some ⟨T, z⟩ :=
  ⟨_, by unfold mul; rw [e]; exact result_unsigned h.unsigned _⟩
theorem div_ok {a b : Val} (e : P.common a.ty b.ty = T) (h0 : T.conv b.val ≠ 0) : ∃ z, P.div a b = some ⟨T, z⟩ :=
  ⟨_, by unfold div; rw [e]; simp only [if_neg h0]; exact result_unsigned h.unsigned _⟩

end Plain
end Verif.CInt.Platform

namespace Verif.Props
open CInt IntT
open Verif.CInt.Platform (Plain)

variable {P : Platform} {T : Ty}

theorem plain_mean_push (h : Plain P T) (s : Mean) (n : Nat) (hs : s.count = n) (hn : ((n + 1 : Nat) : Int) < T.hi) (x : Int) :
    ∃ s', s.push P T x = some s' ∧ s'.count = (n + 1 : Nat) := by
  have hT : T.Has ((n + 1 : Nat) : Int) := ⟨T.lo_le_zero.trans (by omega), hn⟩
  have hhi : T.hi ≤ 2 ^ P.sizeBits := by
    unfold Ty.hi
    rw [h.unsigned]
    exact pow_le_pow_right₀ (by norm_num) h.le_size
  have hS : P.size.Has ((n + 1 : Nat) : Int) := ⟨by show (0 : Int) ≤ _; omega, lt_of_lt_of_le hn hhi⟩
  have hc : P.size.conv (s.count + 1) = (n + 1 : Nat) := by
    rw [hs, show (n : Int) + 1 = (n + 1 : Nat) by push_cast; rfl, Ty.conv_of_has (h.pos.trans h.le_size) hS]
  have hcT := Ty.conv_of_has h.pos hT
  unfold Mean.push
  simp only [hc]
  obtain ⟨d, e1⟩ := h.sub_ok (a := ⟨T, x⟩) (b := ⟨T, s.mean⟩) h.common_self
  obtain ⟨q, e2⟩ := h.div_ok (a := ⟨T, d⟩) (b := cast T (P.sz (n + 1 : Nat))) h.common_self (by
    show T.conv (T.conv ((n + 1 : Nat) : Int)) ≠ 0
    rw [hcT, hcT]; omega)
  obtain ⟨m, e3⟩ := h.add_ok (a := ⟨T, s.mean⟩) (b := ⟨T, q⟩) h.common_self
  simp only [e1, e2, e3, Option.bind_eq_bind, Option.bind_some]
  exact ⟨_, rfl, rfl⟩

theorem plain_variance_push (h : Plain P T) (s : Variance) (n : Nat) (hs : s.base.count = n) (hn : ((n + 1 : Nat) : Int) < T.hi) (x : Int) :
    ∃ s', s.push P T x = some s' ∧ s'.base.count = (n + 1 : Nat) := by
  obtain ⟨b, e0, hb⟩ := plain_mean_push h s.base n hs hn x
  unfold Variance.push
  obtain ⟨d, e1⟩ := h.sub_ok (a := ⟨T, x⟩) (b := ⟨T, s.base.mean⟩) h.common_self
  obtain ⟨d', e2⟩ := h.sub_ok (a := ⟨T, x⟩) (b := ⟨T, b.mean⟩) h.common_self
  obtain ⟨p, e3⟩ := h.mul_ok (a := ⟨T, d⟩) (b := ⟨T, d'⟩) h.common_self
  obtain ⟨v, e4⟩ := h.add_ok (a := ⟨T, s.variance⟩) (b := ⟨T, p⟩) h.common_self
  simp only [e0, e1, e2, e3, e4, Option.bind_eq_bind, Option.bind_some]
  exact ⟨_, rfl, hb⟩

/-- The divisor `count + 1`. -/
theorem plain_next (h : Plain P T) {n : Nat} (hn : ((n + 1 : Nat) : Int) < T.hi) :
    ∃ k, P.add (P.sz n) (P.lit 1) = some (P.sz k) ∧ P.size.conv k ≠ 0 := by
  have hhi : T.hi ≤ 2 ^ P.sizeBits := by
    unfold Ty.hi
    rw [h.unsigned]
    exact pow_le_pow_right₀ (by norm_num) h.le_size
  have hb : 1 ≤ P.size.bits := h.pos.trans h.le_size
  have e : ∀ k : Nat, (k : Int) ≤ (n + 1 : Nat) → P.size.conv k = k := fun k hk =>
    Ty.conv_of_has hb ⟨by show (0 : Int) ≤ _; omega, lt_of_le_of_lt hk (lt_of_lt_of_le hn hhi)⟩
  have e0 := e n (by omega)
  have e1 := e 1 (by omega)
  have e2 := e (n + 1) le_rfl
  refine ⟨(n + 1 : Nat), ?_, by rw [e2]; omega⟩
  unfold Platform.add
  show Platform.result (P.common P.size P.int) ((P.common P.size P.int).conv (n : Int) + (P.common P.size P.int).conv 1) = _
  rw [h.size_int, Platform.result_unsigned rfl]
  show some (Val.mk P.size (P.size.conv (P.size.conv (n : Int) + P.size.conv 1))) = _
  rw [e0, show P.size.conv 1 = 1 by simpa using e1, show (n : Int) + 1 = (n + 1 : Nat) by push_cast; rfl, e2]
  rfl

theorem plain_skewness_push (h : Plain P T) (s : Skewness) (n : Nat) (hs : s.base.base.count = n) (hn : ((n + 1 : Nat) : Int) < T.hi) (x : Int) :
    ∃ s', s.push P T x = some s' ∧ s'.base.base.count = (n + 1 : Nat) := by
  obtain ⟨b, e0, hb⟩ := plain_variance_push h s.base n hs hn x
  unfold Skewness.push
  rw [hs]
  obtain ⟨d, e1⟩ := h.sub_ok (a := ⟨T, x⟩) (b := ⟨T, s.base.base.mean⟩) h.common_self
  obtain ⟨k, e2, hk⟩ := plain_next h hn
  obtain ⟨q, e3⟩ := Platform.div_size (P := P) (a := ⟨T, d⟩) (b := P.sz k) h.common_size hk
  obtain ⟨a1, e4⟩ := Platform.mul_size (P := P) (a := ⟨T, d⟩) (b := P.sz q) h.common_size
  obtain ⟨n1, e5⟩ := Platform.sub_size (P := P) (a := P.sz k) (b := P.lit 1) h.size_int
  obtain ⟨a2, e6⟩ := Platform.mul_size (P := P) (a := P.sz a1) (b := P.sz n1) h.size_size
  obtain ⟨n2, e7⟩ := Platform.sub_size (P := P) (a := P.sz k) (b := P.lit 2) h.size_int
  obtain ⟨a3, e8⟩ := Platform.mul_size (P := P) (a := P.sz a2) (b := P.sz n2) h.size_size
  obtain ⟨v, e9⟩ := h.mul_ok (a := P.lit 3) (b := ⟨T, s.base.variance⟩) h.common_int
  obtain ⟨a4, e10⟩ := Platform.sub_size (P := P) (a := P.sz a3) (b := ⟨T, v⟩) h.size_common
  obtain ⟨a5, e11⟩ := Platform.mul_size (P := P) (a := P.sz a4) (b := P.sz q) h.size_size
  obtain ⟨a6, e12⟩ := Platform.add_size (P := P) (a := ⟨T, s.skewness⟩) (b := P.sz a5) h.common_size
  simp only [e0, e1, e2, e3, e4, e5, e6, e7, e8, e9, e10, e11, e12, Option.bind_eq_bind, Option.bind_some]
  exact ⟨_, rfl, hb⟩

theorem plain_kurtosis_push (h : Plain P T) (s : Kurtosis) (n : Nat) (hs : s.base.base.base.count = n) (hn : ((n + 1 : Nat) : Int) < T.hi)
    (x : Int) : ∃ s', s.push P T x = some s' ∧ s'.base.base.base.count = (n + 1 : Nat) := by
  obtain ⟨b, e0, hb⟩ := plain_skewness_push h s.base n hs hn x
  unfold Kurtosis.push
  rw [hs]
  obtain ⟨d, e1⟩ := h.sub_ok (a := ⟨T, x⟩) (b := ⟨T, s.base.base.base.mean⟩) h.common_self
  obtain ⟨k, e2, hk⟩ := plain_next h hn
  obtain ⟨q, e3⟩ := Platform.div_size (P := P) (a := ⟨T, d⟩) (b := P.sz k) h.common_size hk
  obtain ⟨a1, e4⟩ := Platform.mul_size (P := P) (a := ⟨T, d⟩) (b := P.sz q) h.common_size
  obtain ⟨n1, e5⟩ := Platform.sub_size (P := P) (a := P.sz k) (b := P.lit 1) h.size_int
  obtain ⟨a2, e6⟩ := Platform.mul_size (P := P) (a := P.sz a1) (b := P.sz n1) h.size_size
  obtain ⟨n3, e7⟩ := Platform.sub_size (P := P) (a := P.sz k) (b := P.lit 3) h.size_int
  obtain ⟨c1, e8⟩ := Platform.mul_size (P := P) (a := P.sz k) (b := P.sz n3) h.size_size
  obtain ⟨c2, e9⟩ := Platform.add_size (P := P) (a := P.sz c1) (b := P.lit 3) h.size_int
  obtain ⟨a3, e10⟩ := Platform.mul_size (P := P) (a := P.sz a2) (b := P.sz c2) h.size_size
  obtain ⟨v, e11⟩ := h.mul_ok (a := cast T (P.lit 6)) (b := ⟨T, s.base.base.variance⟩) h.common_self
  obtain ⟨w, e12⟩ := h.mul_ok (a := cast T (P.lit 4)) (b := ⟨T, s.base.skewness⟩) h.common_self
  obtain ⟨f1, e13⟩ := Platform.add_size (P := P) (a := P.sz a3) (b := ⟨T, v⟩) h.size_common
  obtain ⟨f2, e14⟩ := Platform.mul_size (P := P) (a := P.sz f1) (b := P.sz q) h.size_size
  obtain ⟨f3, e15⟩ := Platform.sub_size (P := P) (a := P.sz f2) (b := ⟨T, w⟩) h.size_common
  obtain ⟨f4, e16⟩ := Platform.mul_size (P := P) (a := P.sz f3) (b := P.sz q) h.size_size
  obtain ⟨f5, e17⟩ := Platform.add_size (P := P) (a := ⟨T, s.kurtosis⟩) (b := P.sz f4) h.common_size
  simp only [e0, e1, e2, e3, e4, e5, e6, e7, e8, e9, e10, e11, e12, e13, e14, e15, e16, e17, Option.bind_eq_bind, Option.bind_some]
  exact ⟨_, rfl, hb⟩

/-- Unsigned types not narrower than `int`: every push of the kurtosis filter is defined, whatever the values. -/
theorem C114_unsigned_pushes (h : Plain P T) (xs : List Int) (hn : (xs.length : Int) < T.hi) :
    ∃ s, Kurtosis.run P T xs = some s ∧ s.base.base.base.count = xs.length := by
  induction xs using List.reverseRecOn with
  | nil => exact ⟨_, rfl, rfl⟩
  | append_singleton xs x ih =>
    rw [List.length_append, List.length_singleton] at hn ⊢
    obtain ⟨s, h1, h2⟩ := ih (by push_cast at hn; omega)
    obtain ⟨s', h3, h4⟩ := plain_kurtosis_push h s _ h2 hn x
    refine ⟨s', ?_, h4⟩
    unfold Kurtosis.run at h1 ⊢
    rw [List.foldlM_append, h1]
    simpa using h3

/-- Unsigned types not narrower than `int`: `kurtosis()` divides by zero exactly if the square of the sum of squares is a
multiple of `2^bits`. -/
theorem C114_unsigned_kurtosis (h : Plain P T) (s : Kurtosis) (hk : 0 ≤ s.kurtosis) :
    s.getKurtosis P T = none ↔ s.base.base.variance ^ 2 % 2 ^ T.bits = 0 := by
  have hu : ∀ z, T.conv z = z % 2 ^ T.bits := fun z => by unfold Ty.conv; rw [h.unsigned]; rfl
  unfold Kurtosis.getKurtosis
  rw [if_neg (by omega)]
  generalize s.base.base.variance = v
  obtain ⟨z, e1⟩ := Platform.mul_size (P := P) (a := P.sz s.base.base.base.count) (b := ⟨T, s.kurtosis⟩) h.size_common
  have e2 : P.mul ⟨T, v⟩ ⟨T, v⟩ = some ⟨T, v ^ 2 % 2 ^ T.bits⟩ := by
    unfold Platform.mul
    show Platform.result (P.common T T) ((P.common T T).conv v * (P.common T T).conv v) = _
    rw [h.common_self, Platform.result_unsigned h.unsigned, hu, hu, ← Int.mul_emod, sq]
  have h0 : 0 ≤ v ^ 2 % 2 ^ T.bits := Int.emod_nonneg _ (by positivity)
  have h1 : v ^ 2 % 2 ^ T.bits < 2 ^ T.bits := Int.emod_lt_of_pos _ (by positivity)
  have e3 : P.size.conv (v ^ 2 % 2 ^ T.bits) = v ^ 2 % 2 ^ T.bits :=
    Ty.conv_of_has (h.pos.trans h.le_size) ⟨h0, lt_of_lt_of_le h1 (pow_le_pow_right₀ (by norm_num) h.le_size)⟩
  generalize v ^ 2 % 2 ^ T.bits = w at *
  simp only [e1, e2, Option.bind_eq_bind, Option.bind_some]
  constructor
  · intro hn
    by_contra hw
    obtain ⟨q, e4⟩ := Platform.div_size (P := P) (a := P.sz z) (b := ⟨T, w⟩) h.size_common (by rw [e3]; exact hw)
    rw [e4] at hn
    cases hn
  · rintro rfl
    unfold Platform.div
    show Option.bind (if (P.common P.size T).conv 0 = 0 then none else _) _ = none
    rw [if_pos (Ty.conv_zero _)]
    rfl

/-- `unsigned int`: `kurtosis()` of 0, 512 divides by zero, although the values differ: the sum of squares is 2^17. -/
theorem C114_unsigned_witness :
    ∃ s, Kurtosis.run lp64 uint32 [0, 512] = some s ∧ s.base.base.variance = 2 ^ 17 ∧ s.getKurtosis lp64 uint32 = none := by
  refine ⟨_, rfl, by decide, by decide⟩

/-- Signed types not narrower than `int`: `kurtosis()` is undefined exactly if the sum of squares is zero or its square
overflows. -/
theorem C114_signed_kurtosis (hs : T.signed = true) (hT : 1 ≤ T.bits) (hi : P.intBits ≤ T.bits) (hTP : T.bits ≤ P.sizeBits) (s : Kurtosis)
    (hk : 0 ≤ s.kurtosis) (hv : T.Has s.base.base.variance) :
    s.getKurtosis P T = none ↔ s.base.base.variance = 0 ∨ ¬ T.Has (s.base.base.variance ^ 2) := by
  have hp : P.promote T = T := by unfold Platform.promote; rw [if_neg (by omega)]
  constructor
  · intro hn
    by_contra hc
    rw [not_or, not_not] at hc
    have h0 : s.base.base.variance ^ 2 < T.hi := hc.2.2
    rw [sq] at h0
    have e2 : P.mul ⟨T, s.base.base.variance⟩ ⟨T, s.base.base.variance⟩ = some ⟨T, s.base.base.variance * s.base.base.variance⟩ := by
      rw [Platform.mul_eq hT hp hp hv hv, Platform.result_has hT (by rw [← sq]; exact hc.2)]
    have hpos : 0 < s.base.base.variance * s.base.base.variance := mul_self_pos.2 hc.1
    have hS : P.size.Has (s.base.base.variance * s.base.base.variance) := by
      refine ⟨hpos.le, lt_of_lt_of_le h0 ?_⟩
      show T.hi ≤ 2 ^ P.sizeBits
      unfold Ty.hi
      rw [hs]
      exact pow_le_pow_right₀ (by norm_num) (by omega)
    have hcm : P.common P.size T = P.size := Platform.common_size_left (by rw [hp]; exact hTP) (hi.trans hTP)
    obtain ⟨z, e1⟩ := Platform.mul_size (P := P) (a := P.sz s.base.base.base.count) (b := ⟨T, s.kurtosis⟩) hcm
    obtain ⟨q, e3⟩ := Platform.div_size (P := P) (a := P.sz z) (b := ⟨T, s.base.base.variance * s.base.base.variance⟩) hcm
      (by rw [Ty.conv_of_has (show 1 ≤ P.size.bits from hT.trans hTP) hS]; exact hpos.ne')
    unfold Kurtosis.getKurtosis at hn
    rw [if_neg (by omega)] at hn
    simp only [e1, e2, e3, Option.bind_eq_bind, Option.bind_some] at hn
    cases hn
  · intro hc
    have hcm : P.common P.size T = P.size := Platform.common_size_left (by rw [hp]; exact hTP) (hi.trans hTP)
    obtain ⟨z, e1⟩ := Platform.mul_size (P := P) (a := P.sz s.base.base.base.count) (b := ⟨T, s.kurtosis⟩) hcm
    unfold Kurtosis.getKurtosis
    rw [if_neg (by omega)]
    rcases hc with h0 | h0
    · rw [h0]
      simp only [e1, Platform.mul_zero_right, Option.bind_eq_bind, Option.bind_some]
      unfold Platform.div
      simp only [Ty.conv_zero, if_true]
      rfl
    · have e2 : P.mul ⟨T, s.base.base.variance⟩ ⟨T, s.base.base.variance⟩ = none := by
        rw [Platform.mul_eq hT hp hp hv hv, Platform.result_overflow hs (by rw [← sq]; exact h0)]
      simp only [e1, e2, Option.bind_eq_bind, Option.bind_some, Option.bind_none]

/-- `int`: the sum of squares of 0, 512 is 2^17, whose square overflows. -/
example : (Kurtosis.run lp64 int32 [0, 512]).map (fun s => (s.base.base.variance, s.getKurtosis lp64 int32)) = some (2 ^ 17, none) := by decide

example : Kurtosis.getKurtosis lp64 int32 ⟨⟨⟨⟨256, 2⟩, 2 ^ 17⟩, 0⟩, 64⟩ = none :=
  (C114_signed_kurtosis rfl (by decide) (by decide) (by decide) _ (by decide) (by decide)).2 (Or.inr (by decide))

theorem plain_uint32 : Plain lp64 uint32 := ⟨rfl, by decide, by decide, by decide⟩

example : ∃ s, Kurtosis.run lp64 uint32 [6, 6, 0] = some s ∧ s.base.base.base.count = (3 : Nat) :=
  C114_unsigned_pushes plain_uint32 _ (by decide)

/-- 0, 4, 4, 0 have the sum of squares 16. -/
example : Kurtosis.getKurtosis lp64 uint32 ⟨⟨⟨⟨2, 4⟩, 16⟩, 0⟩, 64⟩ ≠ none := by
  rw [Ne, C114_unsigned_kurtosis plain_uint32 _ (by decide)]
  decide

end Verif.Props
