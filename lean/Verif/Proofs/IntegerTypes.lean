import Verif.Proofs.CInt
import Verif.Model.IntegerTypes
import Verif.Props.Integer
import Mathlib.Algebra.BigOperators.Group.List.Basic
import Mathlib.Algebra.Order.BigOperators.Group.List
/-
The filters for integer value types.
-/
namespace Verif.IntT
open CInt Verif.Integer

variable {P : Platform} {T : Ty}

theorem T_le_promote (hT : 1 ≤ T.bits) : 1 ≤ (P.promote T).bits := hT.trans (Platform.promote_bits T).1

/-- A difference divided by a positive number lies between 0 and the difference. -/
theorem tdiv_has {U : Ty} {d n : Int} (hn : 1 ≤ n) (h : U.Has d) : U.Has (d.tdiv n) := by
  have ht := tdiv_between (m := 0) (x := d) hn
  simp only [sub_zero, zero_add] at ht
  rcases le_total 0 d with h0 | h0
  · exact U.has_zero.between h (ht.1 h0).1 (ht.1 h0).2
  · exact h.between U.has_zero (ht.2 h0).1 (ht.2 h0).2

theorem size_conv_succ {n : Nat} (hw : n + 1 < 2 ^ P.sizeBits) : P.size.conv ((n : Int) + 1) = (n : Int) + 1 := by
  rw [Ty.conv_unsigned rfl]
  refine Int.emod_eq_of_lt (by omega) ?_
  show (n : Int) + 1 < 2 ^ P.sizeBits
  exact_mod_cast hw

namespace Mean

/-- One update without overflow, in any integer type. -/
theorem push_exact (hT : 1 ≤ T.bits) {m x : Int} {n : Nat} (hm : T.Has m) (hx : T.Has x) (hn : ((n + 1 : Nat) : Int) < T.hi)
    (hw : n + 1 < 2 ^ P.sizeBits) (hd : (P.promote T).Has (x - m)) :
    push P T ⟨m, n⟩ x = some ⟨m + (x - m).tdiv (n + 1 : Nat), (n + 1 : Nat)⟩ := by
  have hU := T_le_promote (P := P) hT
  have hn1 : (1 : Int) ≤ ((n + 1 : Nat) : Int) := by omega
  have hnT : T.Has ((n + 1 : Nat) : Int) := ⟨T.lo_le_zero.trans (by omega), hn⟩
  have hb : T.Has (m + (x - m).tdiv (n + 1 : Nat)) := by
    have ht := tdiv_between (m := m) (x := x) hn1
    rcases le_total m x with h0 | h0
    · exact hm.between hx (ht.1 h0).1 (ht.1 h0).2
    · exact hx.between hm (ht.2 h0).1 (ht.2 h0).2
  have e1 : P.sub ⟨T, x⟩ ⟨T, m⟩ = some ⟨P.promote T, x - m⟩ := by
    rw [Platform.sub_eq hU rfl rfl (Platform.has_promote hx) (Platform.has_promote hm), Platform.result_has hU hd]
  have e2 : P.div ⟨P.promote T, x - m⟩ (cast T (P.sz ((n + 1 : Nat) : Int))) = some ⟨P.promote T, (x - m).tdiv (n + 1 : Nat)⟩ := by
    have ec : cast T (P.sz ((n + 1 : Nat) : Int)) = ⟨T, ((n + 1 : Nat) : Int)⟩ := by
      show (⟨T, T.conv ((n + 1 : Nat) : Int)⟩ : Val) = _
      rw [Ty.conv_of_has hT hnT]
    rw [ec, Platform.div_eq hU (Platform.promote_promote T) rfl hd (Platform.has_promote hnT) (by show ((n + 1 : Nat) : Int) ≠ 0; omega),
      Platform.result_has hU (tdiv_has hn1 hd)]
  have e3 : P.add ⟨T, m⟩ ⟨P.promote T, (x - m).tdiv (n + 1 : Nat)⟩ = some ⟨P.promote T, m + (x - m).tdiv (n + 1 : Nat)⟩ := by
    rw [Platform.add_eq hU rfl (Platform.promote_promote T) (Platform.has_promote hm) (tdiv_has hn1 hd),
      Platform.result_has hU (Platform.has_promote hb)]
  unfold push
  have ec : P.size.conv (((n : Nat) : Int) + 1) = ((n + 1 : Nat) : Int) := by rw [size_conv_succ hw]; push_cast; rfl
  simp only [ec, e1, e2, e3, Option.bind_eq_bind, Option.bind_some, Ty.conv_of_has hT hb]
  rfl

theorem run_snoc {xs : List Int} {s : Mean} (hs : run P T xs = some s) (x : Int) : run P T (xs ++ [x]) = push P T s x := by
  unfold run at hs ⊢
  rw [List.foldlM_append, hs]
  simp

/-- Distance from the true mean. -/
theorem step_error {m x S : Int} {n : Nat} (h : 2 * |(n : Int) * m - S| ≤ n * (n - 1)) :
    2 * |((n + 1 : Nat) : Int) * (m + (x - m).tdiv (n + 1 : Nat)) - (S + x)| ≤ ((n + 1 : Nat) : Int) * (((n + 1 : Nat) : Int) - 1) := by
  have hd := Int.mul_tdiv_add_tmod (x - m) ((n + 1 : Nat) : Int)
  have hr : |(x - m).tmod ((n + 1 : Nat) : Int)| ≤ n := by
    have h1 := Int.tmod_lt_of_pos (x - m) (b := ((n + 1 : Nat) : Int)) (by omega)
    have h2 := Int.lt_tmod_of_pos (x - m) (b := ((n + 1 : Nat) : Int)) (by omega)
    rw [abs_le]; omega
  generalize (x - m).tdiv ((n + 1 : Nat) : Int) = q at hd ⊢
  generalize (x - m).tmod ((n + 1 : Nat) : Int) = r at hd hr
  have e : ((n + 1 : Nat) : Int) * (m + q) - (S + x) = (n * m - S) - r := by
    push_cast at hd ⊢
    linarith
  rw [e]
  have := abs_sub (n * m - S) r
  push_cast
  nlinarith

/-- Data within `lo` and `hi` whose distance is a value of the promoted type. -/
theorem run_within (hT : 1 ≤ T.bits) (hs : (P.promote T).signed = true) {lo hi : Int} (hlo : T.Has lo) (hhi : T.Has hi)
    (hd : hi - lo < (P.promote T).hi) (xs : List Int) (hne : xs ≠ []) (hx : ∀ x ∈ xs, lo ≤ x ∧ x ≤ hi)
    (hn : (xs.length : Int) < T.hi) (hw : xs.length < 2 ^ P.sizeBits) :
    ∃ m, run P T xs = some ⟨m, xs.length⟩ ∧ lo ≤ m ∧ m ≤ hi
      ∧ 2 * |(xs.length : Int) * m - xs.sum| ≤ xs.length * (xs.length - 1) := by
  induction xs using List.reverseRecOn with
  | nil => exact absurd rfl hne
  | append_singleton xs x ih =>
    have hl : (xs ++ [x]).length = xs.length + 1 := by simp
    have hsum : (xs ++ [x]).sum = xs.sum + x := by simp
    rw [hl] at hn hw
    have hxx := hx x (by simp)
    rw [hl, hsum]
    rcases eq_or_ne xs [] with rfl | hne'
    · have hxT := hlo.between hhi hxx.1 hxx.2
      have := push_exact (P := P) (T := T) hT (m := 0) (x := x) (n := 0) T.has_zero hxT (by simpa using hn) (by simpa using hw)
        (by rw [sub_zero]; exact Platform.has_promote hxT)
      refine ⟨x, ?_, hxx.1, hxx.2, ?_⟩
      · rw [run_snoc (s := ⟨0, (0 : Nat)⟩) rfl, this]
        simp
      · simp
    · obtain ⟨m, h1, h2, h3, h4⟩ := ih hne' (fun y hy => hx y (by simp [hy])) (by push_cast at hn; omega) (by omega)
      have hdd : (P.promote T).Has (x - m) := by
        have hlo' : (P.promote T).lo = -(P.promote T).hi := by
          unfold Ty.lo Ty.hi; rw [if_pos hs, if_pos hs]
        exact ⟨by omega, by omega⟩
      have ht := tdiv_between (m := m) (x := x) (n := ((xs.length + 1 : Nat) : Int)) (by omega)
      refine ⟨m + (x - m).tdiv (xs.length + 1 : Nat), ?_, ?_, ?_, step_error h4⟩
      · rw [run_snoc h1, push_exact hT (hlo.between hhi h2 h3) (hlo.between hhi hxx.1 hxx.2) hn hw hdd]
      · rcases le_total m x with h0 | h0
        · exact h2.trans (ht.1 h0).1
        · exact hxx.1.trans (ht.2 h0).1
      · rcases le_total m x with h0 | h0
        · exact (ht.1 h0).2.trans hxx.2
        · exact (ht.2 h0).2.trans h3

/-- Ascending data, in any integer type. -/
theorem run_ascending (hT : 1 ≤ T.bits) (hp : T.signed = false) (xs : List Int) (hne : xs ≠ []) (hx : ∀ x ∈ xs, T.Has x)
    (ha : xs.Pairwise (· ≤ ·)) (hn : (xs.length : Int) < T.hi) (hw : xs.length < 2 ^ P.sizeBits) :
    ∃ m, run P T xs = some ⟨m, xs.length⟩ ∧ (∀ x ∈ xs.head?, x ≤ m) ∧ (∀ x ∈ xs.getLast?, m ≤ x)
      ∧ 2 * |(xs.length : Int) * m - xs.sum| ≤ xs.length * (xs.length - 1) := by
  induction xs using List.reverseRecOn with
  | nil => exact absurd rfl hne
  | append_singleton xs x ih =>
    have hl : (xs ++ [x]).length = xs.length + 1 := by simp
    have hsum : (xs ++ [x]).sum = xs.sum + x := by simp
    rw [hl] at hn hw
    have hxx := hx x (by simp)
    rw [hl, hsum]
    rcases eq_or_ne xs [] with rfl | hne'
    · have := push_exact (P := P) (T := T) hT (m := 0) (x := x) (n := 0) T.has_zero hxx (by simpa using hn) (by simpa using hw)
        (by rw [sub_zero]; exact Platform.has_promote hxx)
      refine ⟨x, ?_, ?_, ?_, ?_⟩
      · rw [run_snoc (s := ⟨0, (0 : Nat)⟩) rfl, this]
        simp
      · simp
      · simp
      · simp
    · rw [List.pairwise_append] at ha
      obtain ⟨m, h1, h2, h3, h4⟩ := ih hne' (fun y hy => hx y (by simp [hy])) ha.1 (by push_cast at hn; omega) (by omega)
      have hlast := h3 _ (List.getLast?_eq_some_getLast hne')
      have hmx : m ≤ x := hlast.trans (ha.2.2 _ (List.getLast_mem hne') x (by simp))
      have hhead := h2 _ (List.head?_eq_some_head hne')
      have hm0 := hx _ (List.mem_append_left [x] (List.head_mem hne'))
      have hmT : T.Has m := hm0.between hxx hhead hmx
      have hlo : T.lo = 0 := by unfold Ty.lo; rw [hp]; rfl
      have hdd : (P.promote T).Has (x - m) := by
        refine Platform.has_promote ⟨by omega, ?_⟩
        have := hmT.1
        have := hxx.2
        omega
      have ht := (tdiv_between (m := m) (x := x) (n := ((xs.length + 1 : Nat) : Int)) (by omega)).1 hmx
      refine ⟨m + (x - m).tdiv (xs.length + 1 : Nat), ?_, ?_, ?_, step_error h4⟩
      · rw [run_snoc h1, push_exact hT hmT hxx hn hw hdd]
      · intro y hy
        rw [List.head?_append_of_ne_nil _ hne'] at hy
        exact (h2 y hy).trans ht.1
      · intro y hy
        simp only [List.getLast?_append, List.getLast?_singleton, Option.some_or, Option.mem_def, Option.some.injEq] at hy
        rw [← hy]; exact ht.2

end Mean
end Verif.IntT
