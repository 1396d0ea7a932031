import Verif.Props.IntegerShapeUnsigned
import Verif.Props.IntegerPairs
/-
C113, C134: variance and covariance of unsigned integers that are not narrower than `int` are always defined.
-/
namespace Verif.Props
open CInt IntT
open Verif.CInt.Platform (Plain)

variable {P : Platform} {T : Ty}

/-- The divisor `T(count)`. -/
theorem plain_count (h : Plain P T) {n : Nat} (h1 : 1 ≤ n) (hn : (n : Int) < T.hi) : T.conv (T.conv n) ≠ 0 := by
  have hT : T.Has (n : Int) := ⟨T.lo_le_zero.trans (by omega), hn⟩
  rw [Ty.conv_of_has h.pos hT, Ty.conv_of_has h.pos hT]
  omega

/-- C113: in unsigned types not narrower than `int` no push and no `variance()` is undefined, whatever the values. -/
theorem C113_unsigned_defined (h : Plain P T) (xs : List Int) (hn : (xs.length : Int) < T.hi) :
    ∃ s, Variance.run P T xs = some s ∧ s.base.count = xs.length ∧ (xs ≠ [] → ∃ v, s.getVariance P T = some v) := by
  have key : ∃ s, Variance.run P T xs = some s ∧ s.base.count = xs.length := by
    induction xs using List.reverseRecOn with
    | nil => exact ⟨_, rfl, rfl⟩
    | append_singleton xs x ih =>
      rw [List.length_append, List.length_singleton] at hn ⊢
      obtain ⟨s, h1, h2⟩ := ih (by push_cast at hn; omega)
      obtain ⟨s', h3, h4⟩ := plain_variance_push h s _ h2 hn x
      refine ⟨s', ?_, h4⟩
      rw [Variance.run_snoc h1, h3]
  obtain ⟨s, h1, h2⟩ := key
  refine ⟨s, h1, h2, fun hne => ?_⟩
  unfold Variance.getVariance
  rw [h2]
  obtain ⟨q, e⟩ := h.div_ok (a := ⟨T, s.variance⟩) (b := cast T (P.sz (xs.length : Int))) h.common_self
    (plain_count h (List.length_pos_iff.2 hne) hn)
  simp only [e, Option.bind_eq_bind, Option.bind_some]
  exact ⟨_, rfl⟩

theorem plain_comoment_push (h : Plain P T) (s : Comoment) (n : Nat) (hx : s.xCenter.count = n) (hy : s.yCenter.count = n)
    (hn : ((n + 1 : Nat) : Int) < T.hi) (p : Int × Int) :
    ∃ s', s.push P T p = some s' ∧ s'.xCenter.count = (n + 1 : Nat) ∧ s'.yCenter.count = (n + 1 : Nat) := by
  obtain ⟨xc, e0, hb⟩ := plain_mean_push h s.xCenter n hx hn p.1
  obtain ⟨yc, e0', hb'⟩ := plain_mean_push h s.yCenter n hy hn p.2
  unfold Comoment.push
  obtain ⟨d, e1⟩ := h.sub_ok (a := ⟨T, p.1⟩) (b := ⟨T, xc.mean⟩) h.common_self
  obtain ⟨d', e2⟩ := h.sub_ok (a := ⟨T, p.2⟩) (b := ⟨T, s.yCenter.mean⟩) h.common_self
  obtain ⟨q, e3⟩ := h.mul_ok (a := ⟨T, d⟩) (b := ⟨T, d'⟩) h.common_self
  obtain ⟨v, e4⟩ := h.add_ok (a := ⟨T, s.center⟩) (b := ⟨T, q⟩) h.common_self
  simp only [e0, e0', e1, e2, e3, e4, Option.bind_eq_bind, Option.bind_some]
  exact ⟨_, rfl, hb, hb'⟩

/-- C134: in unsigned types not narrower than `int` no push of a pair is undefined, whatever the values. -/
theorem C134_unsigned_defined (h : Plain P T) (ps : List (Int × Int)) (hn : (ps.length : Int) < T.hi) :
    ∃ s, Comoment.run P T ps = some s ∧ s.xCenter.count = ps.length ∧ s.yCenter.count = ps.length := by
  induction ps using List.reverseRecOn with
  | nil => exact ⟨_, rfl, rfl, rfl⟩
  | append_singleton ps p ih =>
    rw [List.length_append, List.length_singleton] at hn ⊢
    obtain ⟨s, h1, h2, h2'⟩ := ih (by push_cast at hn; omega)
    obtain ⟨s', h3, h4⟩ := plain_comoment_push h s _ h2 h2' hn p
    refine ⟨s', ?_, h4⟩
    rw [comoment_run_snoc h1, h3]

/-- `unsigned int`, also after a descent. -/
example : ∃ s, Variance.run lp64 uint32 [3, 0, 4294967295] = some s ∧ s.base.count = (3 : Nat)
    ∧ ([3, 0, 4294967295] ≠ ([] : List Int) → ∃ v, s.getVariance lp64 uint32 = some v) :=
  C113_unsigned_defined plain_uint32 _ (by decide)

example : ∃ s, Comoment.run lp64 uint32 [(1, 2), (4, 1)] = some s ∧ s.xCenter.count = (2 : Nat) ∧ s.yCenter.count = (2 : Nat) :=
  C134_unsigned_defined plain_uint32 _ (by decide)

end Verif.Props
