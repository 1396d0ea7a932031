import Verif.Props.IntegerUnsignedDefined
import Verif.Proofs.IntegerInterim
/-
C115, C133: interim and window mean of unsigned integers that are not narrower than `int` are always defined.
-/
namespace Verif.Props
open CInt IntT
open Verif.CInt.Platform (Plain)

variable {P : Platform} {T : Ty}

theorem plain_interim_run (h : Plain P T) {W : Nat} (hW : 1 ≤ W) (hh : (W : Int) < T.hi) (xs : List Int) :
    ∃ s, IMean.run P T W xs = some s ∧ ∃ a : Nat, s.active.count = a ∧ a ≤ W := by
  induction xs using List.reverseRecOn with
  | nil => exact ⟨_, rfl, 0, rfl, by omega⟩
  | append_singleton xs x ih =>
    obtain ⟨s, h1, a, h2, h3⟩ := ih
    rw [IMean.run_snoc h1]
    unfold IMean.push
    by_cases hc : s.active.count ≥ W
    · simp only [if_pos hc]
      obtain ⟨m, e, hm⟩ := plain_mean_push h Mean.init 0 rfl (by push_cast at hh ⊢; omega) x
      simp only [e, Option.bind_eq_bind, Option.bind_some]
      exact ⟨_, rfl, 1, hm, hW⟩
    · simp only [if_neg hc]
      obtain ⟨m, e, hm⟩ := plain_mean_push h s.active a h2 (by rw [h2] at hc; push_cast; omega) x
      simp only [e, Option.bind_eq_bind, Option.bind_some]
      exact ⟨_, rfl, a + 1, hm, by rw [h2] at hc; omega⟩

/-- C115: in unsigned types not narrower than `int` that hold `2 W`, no push and no `mean()` of the interim filter is
undefined, whatever the values and however many. -/
theorem C115_unsigned_defined (h : Plain P T) {W : Nat} (hW : 1 ≤ W) (hh : 2 * (W : Int) < T.hi) (xs : List Int) :
    ∃ s m, IMean.run P T W xs = some s ∧ s.mean P T W = some m := by
  obtain ⟨s, h1, a, h2, h3⟩ := plain_interim_run h hW (by omega) xs
  suffices hm : ∃ m, s.mean P T W = some m by
    obtain ⟨m, hm⟩ := hm
    exact ⟨s, m, h1, hm⟩
  unfold IMean.mean
  split
  · exact ⟨_, rfl⟩
  rw [h2]
  have hhi : T.hi ≤ 2 ^ P.sizeBits := by
    unfold Ty.hi
    rw [h.unsigned]
    exact pow_le_pow_right₀ (by norm_num) h.le_size
  have hb : 1 ≤ P.size.bits := h.pos.trans h.le_size
  have e : ∀ k : Nat, k ≤ 2 * W → P.size.conv k = k := fun k hk =>
    Ty.conv_of_has hb ⟨by show (0 : Int) ≤ _; omega, lt_of_le_of_lt (by omega) (lt_of_lt_of_le hh hhi)⟩
  have en : P.add (P.sz W) (P.sz a) = some (P.sz (W + a : Nat)) := by
    unfold Platform.add
    show Platform.result (P.common P.size P.size) ((P.common P.size P.size).conv (W : Int) + (P.common P.size P.size).conv (a : Int)) = _
    rw [h.size_size, Platform.result_unsigned rfl, e W (by omega), e a (by omega),
      show (W : Int) + a = (W + a : Nat) by push_cast; rfl, e (W + a) (by omega)]
    rfl
  obtain ⟨d, e1⟩ := Platform.sub_size (P := P) (a := P.sz W) (b := P.sz a) h.size_size
  obtain ⟨p, e2⟩ := Platform.mul_size (P := P) (a := ⟨T, s.passive.mean⟩) (b := P.sz d) h.common_size
  obtain ⟨t, e3⟩ := Platform.mul_size (P := P) (a := P.lit 2) (b := P.sz a)
    (by rw [Platform.common_comm]; exact h.size_int)
  obtain ⟨q, e4⟩ := Platform.mul_size (P := P) (a := ⟨T, s.active.mean⟩) (b := P.sz t) h.common_size
  obtain ⟨u, e5⟩ := Platform.add_size (P := P) (a := P.sz p) (b := P.sz q) h.size_size
  have hne := plain_count h (n := W + a) (by omega) (by push_cast; omega)
  have hTW : T.conv ((W + a : Nat) : Int) = (W + a : Nat) :=
    Ty.conv_of_has h.pos ⟨T.lo_le_zero.trans (by omega), by push_cast; omega⟩
  obtain ⟨r, e6⟩ := Platform.div_size (P := P) (a := P.sz u) (b := cast T (P.sz (W + a : Nat))) h.size_common
    (by
      show P.size.conv (T.conv ((W + a : Nat) : Int)) ≠ 0
      rw [hTW, e _ (by omega)]
      omega)
  simp only [e1, e2, e3, e4, e5, en, e6, Option.bind_eq_bind, Option.bind_some]
  exact ⟨_, rfl⟩

/-- `unsigned int`, blocks of two values, descending data. -/
example : ∃ s m, IMean.run lp64 uint32 2 [9, 8, 7, 0] = some s ∧ s.mean lp64 uint32 2 = some m :=
  C115_unsigned_defined plain_uint32 (by norm_num) (by decide) _

/-- C133: in unsigned types not narrower than `int` that hold `N`, no push to the window mean is undefined, whatever the
values and however many. -/
theorem C133_unsigned_defined (h : Plain P T) {N : Nat} (hN : 1 ≤ N) (hh : (N : Int) < T.hi) (xs : List Int) :
    ∃ s, WMean.run P T N xs = some s ∧ s.window.length ≤ N := by
  induction xs using List.reverseRecOn with
  | nil => exact ⟨_, rfl, by simp [WMean.init]⟩
  | append_singleton xs x ih =>
    obtain ⟨s, h1, h2⟩ := ih
    have hr : WMean.run P T N (xs ++ [x]) = s.push P T N x := by
      unfold WMean.run at h1 ⊢
      rw [List.foldlM_append, h1]
      simp
    rw [hr]
    unfold WMean.push
    split
    · rename_i hl
      obtain ⟨f, ws, hw⟩ : ∃ f ws, s.window = f :: ws := List.exists_cons_of_length_pos (by omega)
      obtain ⟨d, e1⟩ := h.sub_ok (a := ⟨T, x⟩) (b := ⟨T, f⟩) h.common_self
      obtain ⟨q, e2⟩ := h.div_ok (a := ⟨T, d⟩) (b := cast T (P.sz (s.window.length : Int))) h.common_self
        (plain_count h (by omega) (by omega))
      obtain ⟨m, e3⟩ := h.add_ok (a := ⟨T, s.mean⟩) (b := ⟨T, q⟩) h.common_self
      rw [hw] at e2 h2 ⊢
      simp only [List.head?_cons, e1, e2, e3, Option.bind_eq_bind, Option.bind_some]
      exact ⟨_, rfl, by simpa using h2⟩
    · rename_i hl
      have hn : ((s.window.length + 1 : Nat) : Int) < T.hi := by omega
      have hhi : T.hi ≤ 2 ^ P.sizeBits := by
        unfold Ty.hi
        rw [h.unsigned]
        exact pow_le_pow_right₀ (by norm_num) h.le_size
      have e : ∀ k : Nat, k ≤ s.window.length + 1 → P.size.conv k = k := fun k hk =>
        Ty.conv_of_has (h.pos.trans h.le_size) ⟨by show (0 : Int) ≤ _; omega, lt_of_le_of_lt (by omega) (lt_of_lt_of_le hn hhi)⟩
      have en : P.add (P.sz s.window.length) (P.lit 1) = some (P.sz (s.window.length + 1 : Nat)) := by
        unfold Platform.add
        show Platform.result (P.common P.size P.int) ((P.common P.size P.int).conv (s.window.length : Int) + (P.common P.size P.int).conv ((1 : Nat) : Int)) = _
        rw [h.size_int, Platform.result_unsigned rfl, e s.window.length (by omega), e 1 (by omega),
          show (s.window.length : Int) + (1 : Nat) = (s.window.length + 1 : Nat) by push_cast; rfl, e _ le_rfl]
        rfl
      obtain ⟨d, e1⟩ := h.sub_ok (a := ⟨T, x⟩) (b := ⟨T, s.mean⟩) h.common_self
      obtain ⟨q, e2⟩ := h.div_ok (a := ⟨T, d⟩) (b := cast T (P.sz (s.window.length + 1 : Nat))) h.common_self
        (plain_count h (by omega) hn)
      obtain ⟨m, e3⟩ := h.add_ok (a := ⟨T, s.mean⟩) (b := ⟨T, q⟩) h.common_self
      simp only [en, e1, e2, e3, Option.bind_eq_bind, Option.bind_some]
      exact ⟨_, rfl, by simp; omega⟩

example : ∃ s, WMean.run lp64 uint32 2 [9, 8, 7, 0] = some s ∧ s.window.length ≤ 2 :=
  C133_unsigned_defined plain_uint32 (by norm_num) (by decide) _

end Verif.Props
