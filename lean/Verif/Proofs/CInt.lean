import Verif.Model.CInt
import Mathlib.Tactic.Linarith
import Mathlib.Tactic.NormNum
import Mathlib.Tactic.Ring
import Mathlib.Data.Int.ModEq
import Mathlib.Tactic.Positivity
/-
Laws of the integer arithmetic of C++.
-/
namespace Verif.CInt

namespace Ty

theorem lo_le_zero (t : Ty) : t.lo ≤ 0 := by
  unfold lo; split
  · have : (0 : Int) < 2 ^ (t.bits - 1) := by positivity
    omega
  · exact le_rfl

theorem hi_pos (t : Ty) : 0 < t.hi := by
  unfold hi; split <;> positivity

theorem has_zero (t : Ty) : t.Has 0 := ⟨t.lo_le_zero, t.hi_pos⟩

theorem Has.between {t : Ty} {a b z : Int} (ha : t.Has a) (hb : t.Has b) (h1 : a ≤ z) (h2 : z ≤ b) : t.Has z :=
  ⟨ha.1.trans h1, lt_of_le_of_lt h2 hb.2⟩

theorem conv_of_has {t : Ty} (ht : 1 ≤ t.bits) {z : Int} (h : t.Has z) : t.conv z = z := by
  unfold Has lo hi at h
  unfold conv
  split at h <;> rename_i hs
  · rw [if_pos hs, BitVec.toInt_ofInt]
    have e : (2 : Int) ^ t.bits = 2 * 2 ^ (t.bits - 1) := by
      rw [← pow_succ', Nat.sub_add_cancel ht]
    apply Int.bmod_eq_of_le
    · push_cast; rw [e]; omega
    · push_cast; rw [e]; omega
  · rw [if_neg hs]
    exact Int.emod_eq_of_lt h.1 h.2

theorem has_conv {t : Ty} (ht : 1 ≤ t.bits) (z : Int) : t.Has (t.conv z) := by
  unfold Has lo hi conv
  split
  · rw [BitVec.toInt_ofInt]
    have e : (2 : Int) ^ t.bits = 2 * 2 ^ (t.bits - 1) := by
      rw [← pow_succ', Nat.sub_add_cancel ht]
    have hp : (0 : Int) < 2 ^ (t.bits - 1) := by positivity
    have hp' : 0 < 2 ^ t.bits := by positivity
    have h1 := Int.le_bmod (x := z) (m := 2 ^ t.bits) hp'
    have h2 := Int.bmod_lt (x := z) (m := 2 ^ t.bits) hp'
    push_cast at h1 h2
    rw [e] at h1 h2
    omega
  · exact ⟨Int.emod_nonneg _ (by positivity), Int.emod_lt_of_pos _ (by positivity)⟩

theorem conv_unsigned {t : Ty} (h : t.signed = false) (z : Int) : t.conv z = z % 2 ^ t.bits := by
  unfold conv; rw [h]; rfl

/-- The conversion only depends on the residue. -/
theorem conv_congr {t : Ty} {y z : Int} (h : y ≡ z [ZMOD 2 ^ t.bits]) : t.conv y = t.conv z := by
  unfold conv
  split
  · rw [BitVec.toInt_ofInt, BitVec.toInt_ofInt]
    rw [Int.bmod_def, Int.bmod_def]
    push_cast
    rw [h]
  · exact h

theorem conv_modEq (t : Ty) (z : Int) : t.conv z ≡ z [ZMOD 2 ^ t.bits] := by
  unfold conv
  split
  · rw [BitVec.toInt_ofInt]
    have := Int.bmod_emod (x := z) (m := 2 ^ t.bits)
    push_cast at this
    exact this
  · exact Int.mod_modEq _ _

end Ty

namespace Platform
variable {P : Platform}

theorem promote_bits (t : Ty) : t.bits ≤ (P.promote t).bits ∧ P.intBits ≤ (P.promote t).bits := by
  unfold promote; split <;> simp [int] <;> omega

theorem promote_promote (t : Ty) : P.promote (P.promote t) = P.promote t := by
  have := (promote_bits (P := P) t).2
  generalize P.promote t = u at this
  unfold promote
  rw [if_neg (by omega)]

theorem has_promote {t : Ty} {z : Int} (h : t.Has z) : (P.promote t).Has z := by
  unfold promote
  split
  · rename_i hb
    unfold Ty.Has Ty.lo Ty.hi at h ⊢
    simp only [int, if_true]
    have h1 : (2 : Int) ^ t.bits ≤ 2 ^ (P.intBits - 1) := pow_le_pow_right₀ (by norm_num) (by omega)
    have h2 : (2 : Int) ^ (t.bits - 1) ≤ 2 ^ (P.intBits - 1) := pow_le_pow_right₀ (by norm_num) (by omega)
    have h3 : (0 : Int) < 2 ^ (P.intBits - 1) := by positivity
    split at h <;> rename_i hs
    · omega
    · omega
  · exact h

theorem common_eq {a b U : Ty} (ha : P.promote a = U) (hb : P.promote b = U) : P.common a b = U := by
  unfold common
  rw [ha, hb]
  simp

/-- `size_t` is the common type of `size_t` and a type that is not wider. -/
theorem common_size_right {t : Ty} (ht : (P.promote t).bits ≤ P.sizeBits) (hi : P.intBits ≤ P.sizeBits) :
    P.common t P.size = P.size := by
  unfold common
  have e : P.promote P.size = P.size := by unfold promote; rw [if_neg (by simp [size]; omega)]
  rw [e]
  generalize P.promote t = u at ht
  obtain ⟨b, s⟩ := u
  simp only at ht
  cases s <;> simp [size, ht]

theorem common_comm (a b : Ty) : P.common a b = P.common b a := by
  unfold common
  generalize P.promote a = u
  generalize P.promote b = v
  obtain ⟨b1, s1⟩ := u
  obtain ⟨b2, s2⟩ := v
  cases s1 <;> cases s2 <;> simp [max_comm]

theorem common_size_left {t : Ty} (ht : (P.promote t).bits ≤ P.sizeBits) (hi : P.intBits ≤ P.sizeBits) :
    P.common P.size t = P.size := by
  rw [common_comm, common_size_right ht hi]

theorem result_signed {U : Ty} (hs : U.signed = true) {z : Int} (h : U.Has z) : result U z = some ⟨U, z⟩ := by
  unfold result
  rw [if_pos hs, if_pos h]

theorem result_unsigned {U : Ty} (hs : U.signed = false) (z : Int) : result U z = some ⟨U, U.conv z⟩ := by
  unfold result
  rw [hs]; rfl

/-- In either case a result in range is exact. -/
theorem result_has {U : Ty} (hU : 1 ≤ U.bits) {z : Int} (h : U.Has z) : result U z = some ⟨U, z⟩ := by
  cases hs : U.signed
  · rw [result_unsigned hs, Ty.conv_of_has hU h]
  · exact result_signed hs h

theorem result_overflow {U : Ty} (hs : U.signed = true) {z : Int} (h : ¬ U.Has z) : result U z = none := by
  unfold result
  rw [if_pos hs, if_neg h]

section
variable {U : Ty} (hU : 1 ≤ U.bits) {a b : Val} (ha : P.promote a.ty = U) (hb : P.promote b.ty = U)
  (hav : U.Has a.val) (hbv : U.Has b.val)
include hU ha hb hav hbv

theorem sub_eq : P.sub a b = result U (a.val - b.val) := by
  unfold sub
  simp only [common_eq ha hb, Ty.conv_of_has hU hav, Ty.conv_of_has hU hbv]

theorem add_eq : P.add a b = result U (a.val + b.val) := by
  unfold add
  simp only [common_eq ha hb, Ty.conv_of_has hU hav, Ty.conv_of_has hU hbv]

theorem mul_eq : P.mul a b = result U (a.val * b.val) := by
  unfold mul
  simp only [common_eq ha hb, Ty.conv_of_has hU hav, Ty.conv_of_has hU hbv]

theorem div_eq (h0 : b.val ≠ 0) : P.div a b = result U (a.val.tdiv b.val) := by
  unfold div
  simp only [common_eq ha hb, Ty.conv_of_has hU hav, Ty.conv_of_has hU hbv, if_neg h0]

omit hav in
theorem div_zero (h0 : b.val = 0) : P.div a b = none := by
  unfold div
  simp only [common_eq ha hb, Ty.conv_of_has hU hbv, if_pos h0]

end
end Platform
end Verif.CInt
