import Verif.Proofs.IntegerConstant
/-
The interim mean of integers.
-/
namespace Verif.CInt.Platform
variable {P : Platform}

/-- Operations in `size_t`. -/
theorem sub_sz {a b : Val} (h : P.common a.ty b.ty = P.size) : P.sub a b = some (P.sz ((a.val - b.val) % 2 ^ P.sizeBits)) := by
  unfold sub; rw [h]
  simp only [result_unsigned (show P.size.signed = false from rfl), Ty.conv_unsigned (show P.size.signed = false from rfl)]
  show some (P.sz ((a.val % 2 ^ P.sizeBits - b.val % 2 ^ P.sizeBits) % 2 ^ P.sizeBits)) = _
  rw [← Int.sub_emod]

theorem add_sz {a b : Val} (h : P.common a.ty b.ty = P.size) : P.add a b = some (P.sz ((a.val + b.val) % 2 ^ P.sizeBits)) := by
  unfold add; rw [h]
  simp only [result_unsigned (show P.size.signed = false from rfl), Ty.conv_unsigned (show P.size.signed = false from rfl)]
  show some (P.sz ((a.val % 2 ^ P.sizeBits + b.val % 2 ^ P.sizeBits) % 2 ^ P.sizeBits)) = _
  rw [← Int.add_emod]

theorem mul_sz {a b : Val} (h : P.common a.ty b.ty = P.size) : P.mul a b = some (P.sz ((a.val * b.val) % 2 ^ P.sizeBits)) := by
  unfold mul; rw [h]
  simp only [result_unsigned (show P.size.signed = false from rfl), Ty.conv_unsigned (show P.size.signed = false from rfl)]
  show some (P.sz ((a.val % 2 ^ P.sizeBits * (b.val % 2 ^ P.sizeBits)) % 2 ^ P.sizeBits)) = _
  rw [← Int.mul_emod]

/-- Division of a non-negative number by a positive number in `size_t`. -/
theorem div_sz {a b : Val} (h : P.common a.ty b.ty = P.size) (ha : 0 ≤ a.val ∧ a.val < 2 ^ P.sizeBits)
    (hb : 0 < b.val ∧ b.val < 2 ^ P.sizeBits) : P.div a b = some (P.sz (a.val / b.val)) := by
  unfold div; rw [h]
  simp only [result_unsigned (show P.size.signed = false from rfl), Ty.conv_unsigned (show P.size.signed = false from rfl)]
  show (if b.val % 2 ^ P.sizeBits = 0 then none
    else some (P.sz ((a.val % 2 ^ P.sizeBits).tdiv (b.val % 2 ^ P.sizeBits) % 2 ^ P.sizeBits))) = _
  rw [Int.emod_eq_of_lt ha.1 ha.2, Int.emod_eq_of_lt hb.1.le hb.2, if_neg hb.1.ne', Int.tdiv_eq_ediv_of_nonneg ha.1,
    Int.emod_eq_of_lt (Int.ediv_nonneg ha.1 hb.1.le) (lt_of_le_of_lt (Int.ediv_le_self _ ha.1) ha.2)]

end Verif.CInt.Platform

namespace Verif.IntT
open CInt Verif.Integer

variable {P : Platform} {T : Ty}

theorem Ty_hi_le (h : T.bits ≤ P.sizeBits) : T.hi ≤ 2 ^ P.sizeBits := by
  unfold Ty.hi
  split
  · exact pow_le_pow_right₀ (by norm_num) (by omega)
  · exact pow_le_pow_right₀ (by norm_num) h

namespace IMean

/-- The combined mean: the weighted sum modulo `2^w`, divided by the sum of the weights. -/
theorem mean_eq (hT : 1 ≤ T.bits) (hP : P.intBits ≤ P.sizeBits) (hTP : T.bits ≤ P.sizeBits) (a b : Int) {W k : Nat}
    (hW : 1 ≤ W) (hk : k ≤ W) (hn : 2 * (W : Int) < T.hi) :
    mean P T W ⟨⟨b, k⟩, ⟨a, W⟩⟩ = some (T.conv ((a * (W - k) + b * (2 * k)) % 2 ^ P.sizeBits / (W + k))) := by
  have hUs : (P.promote T).bits ≤ P.sizeBits := by unfold Platform.promote; split <;> assumption
  have cT := Platform.common_size_right hUs hP
  have cT' := Platform.common_size_left hUs hP
  have cs : P.common P.size P.size = P.size :=
    Platform.common_size_right (by unfold Platform.promote; rw [if_neg (by show ¬ P.sizeBits < _; omega)]; exact le_rfl) hP
  have ci : P.common P.int P.size = P.size := by rw [Platform.common_comm]; exact common_size_lit hP
  have h2 := Ty_hi_le hTP
  have hpos : (0 : Int) < 2 ^ P.sizeBits := by positivity
  have e1 := Platform.sub_sz (P := P) (a := P.sz W) (b := P.sz k) cs
  have e2 := Platform.mul_sz (P := P) (a := ⟨T, a⟩) (b := P.sz (((W : Int) - k) % 2 ^ P.sizeBits)) cT
  have e3 := Platform.mul_sz (P := P) (a := P.lit 2) (b := P.sz k) ci
  have e4 := Platform.mul_sz (P := P) (a := ⟨T, b⟩) (b := P.sz ((2 * (k : Int)) % 2 ^ P.sizeBits)) cT
  have e5 := Platform.add_sz (P := P) (a := P.sz ((a * (((W : Int) - k) % 2 ^ P.sizeBits)) % 2 ^ P.sizeBits))
    (b := P.sz ((b * ((2 * (k : Int)) % 2 ^ P.sizeBits)) % 2 ^ P.sizeBits)) cs
  have e6 := Platform.add_sz (P := P) (a := P.sz W) (b := P.sz k) cs
  have hwk : (((W : Int) + k) % 2 ^ P.sizeBits) = W + k := Int.emod_eq_of_lt (by omega) (by omega)
  have hnT : T.conv ((W : Int) + k) = W + k := Ty.conv_of_has hT ⟨T.lo_le_zero.trans (by omega), by omega⟩
  have hS : ((a * (((W : Int) - k) % 2 ^ P.sizeBits)) % 2 ^ P.sizeBits
      + (b * ((2 * (k : Int)) % 2 ^ P.sizeBits)) % 2 ^ P.sizeBits) % 2 ^ P.sizeBits
      = (a * (W - k) + b * (2 * k)) % 2 ^ P.sizeBits := by
    rw [Int.emod_eq_of_lt (a := (W : Int) - k) (by omega) (by omega), Int.emod_eq_of_lt (a := 2 * (k : Int)) (by omega) (by omega),
      ← Int.add_emod]
  have e7 := Platform.div_sz (P := P) (a := P.sz ((a * (W - k) + b * (2 * k)) % 2 ^ P.sizeBits)) (b := ⟨T, (W : Int) + k⟩) cT'
    ⟨Int.emod_nonneg _ hpos.ne', Int.emod_lt_of_pos _ hpos⟩ ⟨by show (0 : Int) < W + k; omega, by show (W : Int) + k < _; omega⟩
  unfold mean
  rw [if_neg (by show ¬ (W : Int) = 0; omega)]
  simp only [Platform.sz, Platform.lit] at e1 e2 e3 e4 e5 e6 e7
  simp only [Platform.sz, Platform.lit, e1, e2, e3, e4, e5, e6, hS, hwk, CInt.cast, hnT, e7, Option.bind_eq_bind, Option.bind_some]
  rfl

theorem run_snoc {W : Nat} {xs : List Int} {s : IMean} (hs : run P T W xs = some s) (x : Int) :
    run P T W (xs ++ [x]) = push P T W s x := by
  unfold run at hs ⊢
  rw [List.foldlM_append, hs]
  simp

/-- One update of a mean within the data, or of a new mean. -/
theorem push_within (hT : 1 ≤ T.bits) (hs : (P.promote T).signed = true) {lo hi x m : Int} {n : Nat} (hlo : T.Has lo)
    (hhi : T.Has hi) (hd : hi - lo < (P.promote T).hi) (hx : lo ≤ x ∧ x ≤ hi) (hm : n = 0 ∧ m = 0 ∨ lo ≤ m ∧ m ≤ hi)
    (hn : ((n + 1 : Nat) : Int) < T.hi) (hw : n + 1 < 2 ^ P.sizeBits) :
    ∃ m', Mean.push P T ⟨m, n⟩ x = some ⟨m', (n + 1 : Nat)⟩ ∧ lo ≤ m' ∧ m' ≤ hi := by
  have hxT := hlo.between hhi hx.1 hx.2
  rcases hm with ⟨rfl, rfl⟩ | hm
  · have := Mean.push_exact (P := P) (T := T) hT (m := 0) (x := x) (n := 0) T.has_zero hxT hn hw
      (by rw [sub_zero]; exact Platform.has_promote hxT)
    exact ⟨x, by rw [this]; simp, hx⟩
  · have hdd : (P.promote T).Has (x - m) := by
      have hlo' : (P.promote T).lo = -(P.promote T).hi := by unfold Ty.lo Ty.hi; rw [if_pos hs, if_pos hs]
      exact ⟨by omega, by omega⟩
    have ht := tdiv_between (m := m) (x := x) (n := ((n + 1 : Nat) : Int)) (by omega)
    refine ⟨_, Mean.push_exact hT (hlo.between hhi hm.1 hm.2) hxT hn hw hdd, ?_, ?_⟩
    · rcases le_total m x with h0 | h0
      · exact hm.1.trans (ht.1 h0).1
      · exact hx.1.trans (ht.2 h0).1
    · rcases le_total m x with h0 | h0
      · exact (ht.1 h0).2.trans hx.2
      · exact (ht.2 h0).2.trans hm.2

/-- The two means lie within the data. -/
theorem run_within (hT : 1 ≤ T.bits) (hTP : T.bits ≤ P.sizeBits) (hs : (P.promote T).signed = true) {lo hi : Int} (hlo : T.Has lo)
    (hhi : T.Has hi) (hd : hi - lo < (P.promote T).hi) {W : Nat} (hW : 1 ≤ W) (hn : (W : Int) < T.hi) (xs : List Int)
    (hne : xs ≠ []) (hx : ∀ x ∈ xs, lo ≤ x ∧ x ≤ hi) :
    ∃ (s : IMean) (k : Nat), run P T W xs = some s ∧ s.active.count = k ∧ 1 ≤ k ∧ k ≤ W ∧ lo ≤ s.active.mean ∧ s.active.mean ≤ hi
      ∧ (s.passive = Mean.init ∨ s.passive.count = W ∧ lo ≤ s.passive.mean ∧ s.passive.mean ≤ hi) := by
  have h2 := Ty_hi_le hTP
  have hw : ∀ k : Nat, (k : Int) < T.hi → k < 2 ^ P.sizeBits := by
    intro k hk
    have : (k : Int) < ((2 ^ P.sizeBits : Nat) : Int) := by push_cast; exact hk.trans_le h2
    exact_mod_cast this
  induction xs using List.reverseRecOn with
  | nil => exact absurd rfl hne
  | append_singleton xs x ih =>
    have hxx := hx x (by simp)
    rcases eq_or_ne xs [] with rfl | hne'
    · obtain ⟨m', h1, h3⟩ := push_within (P := P) hT hs hlo hhi hd hxx (Or.inl ⟨rfl, rfl⟩) (n := 0) (by push_cast; omega)
        (hw _ (by push_cast; omega))
      refine ⟨⟨⟨m', (0 + 1 : Nat)⟩, Mean.init⟩, 1, ?_, rfl, le_rfl, hW, h3.1, h3.2, Or.inl rfl⟩
      rw [run_snoc (s := init) rfl]
      unfold push
      have hc : ¬ ((init.active.count : Int) ≥ W) := by show ¬ ((0 : Int) ≥ W); omega
      simp only [if_neg hc]
      show (Mean.push P T ⟨0, (0 : Nat)⟩ x).bind _ = _
      rw [h1]; rfl
    · obtain ⟨s, k, h1, h3, h4, h5, h6, h7, h8⟩ := ih hne' (fun y hy => hx y (by simp [hy]))
      rw [run_snoc h1]
      unfold push
      by_cases hc : s.active.count ≥ (W : Int)
      · obtain ⟨m', h9, h10⟩ := push_within (P := P) hT hs hlo hhi hd hxx (Or.inl ⟨rfl, rfl⟩) (n := 0) (by push_cast; omega)
          (hw _ (by push_cast; omega))
        refine ⟨⟨⟨m', (0 + 1 : Nat)⟩, s.active⟩, 1, ?_, rfl, le_rfl, hW, h10.1, h10.2, Or.inr ⟨?_, h6, h7⟩⟩
        · simp only [if_pos hc]
          show (Mean.push P T ⟨0, (0 : Nat)⟩ x).bind _ = _
          rw [h9]; rfl
        · show s.active.count = W; omega
      · obtain ⟨m', h9, h10⟩ := push_within (P := P) hT hs hlo hhi hd hxx (Or.inr ⟨h6, h7⟩) (n := k) (by push_cast; omega)
          (hw _ (by push_cast; omega))
        refine ⟨⟨⟨m', (k + 1 : Nat)⟩, s.passive⟩, k + 1, ?_, rfl, by omega, by omega, h10.1, h10.2, h8⟩
        simp only [if_neg hc]
        have e : s.active = ⟨s.active.mean, (k : Nat)⟩ := by rw [← h3]
        rw [e]
        show (Mean.push P T ⟨s.active.mean, (k : Nat)⟩ x).bind _ = _
        rw [h9]; rfl

end IMean
end Verif.IntT
