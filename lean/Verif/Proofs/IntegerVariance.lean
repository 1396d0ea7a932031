import Verif.Proofs.IntegerTypes
/-
Variance, skewness and kurtosis for integer value types.
-/
namespace Verif.IntT
open CInt Verif.Integer

variable {P : Platform} {T : Ty}

/-- The distances of a value from the old and the new mean have the same sign. -/
theorem diff_mul_bounds {m x M : Int} {n : Nat} (h1 : |x - m| ≤ M) :
    0 ≤ (x - m) * (x - (m + (x - m).tdiv (n + 1 : Nat))) ∧ (x - m) * (x - (m + (x - m).tdiv (n + 1 : Nat))) ≤ M ^ 2
      ∧ |x - (m + (x - m).tdiv (n + 1 : Nat))| ≤ M := by
  have ht := tdiv_between (m := m) (x := x) (n := ((n + 1 : Nat) : Int)) (by omega)
  generalize m + (x - m).tdiv (n + 1 : Nat) = m' at ht
  have hM : 0 ≤ M := (abs_nonneg _).trans h1
  rw [abs_le] at h1
  rcases le_total m x with h0 | h0
  · have := ht.1 h0
    refine ⟨mul_nonneg (by omega) (by omega), ?_, by rw [abs_le]; omega⟩
    rw [pow_two]; exact mul_le_mul (by omega) (by omega) (by omega) hM
  · have := ht.2 h0
    refine ⟨mul_nonneg_of_nonpos_of_nonpos (by omega) (by omega), ?_, by rw [abs_le]; omega⟩
    rw [pow_two, show (x - m) * (x - m') = (m - x) * (m' - x) by ring]
    exact mul_le_mul (by omega) (by omega) (by omega) hM

namespace Variance

theorem run_snoc {xs : List Int} {s : Variance} (hs : run P T xs = some s) (x : Int) :
    run P T (xs ++ [x]) = push P T s x := by
  unfold run at hs ⊢
  rw [List.foldlM_append, hs]
  simp

/-- One update without overflow. -/
theorem push_exact (hT : 1 ≤ T.bits) {m x v : Int} {n : Nat} (hm : T.Has m) (hx : T.Has x) (hv : T.Has v)
    (hn : ((n + 1 : Nat) : Int) < T.hi) (hw : n + 1 < 2 ^ P.sizeBits) (hd : (P.promote T).Has (x - m))
    (hd' : (P.promote T).Has (x - (m + (x - m).tdiv (n + 1 : Nat))))
    (hp : (P.promote T).Has ((x - m) * (x - (m + (x - m).tdiv (n + 1 : Nat)))))
    (hs : T.Has (v + (x - m) * (x - (m + (x - m).tdiv (n + 1 : Nat))))) :
    push P T ⟨⟨m, n⟩, v⟩ x = some ⟨⟨m + (x - m).tdiv (n + 1 : Nat), (n + 1 : Nat)⟩,
      v + (x - m) * (x - (m + (x - m).tdiv (n + 1 : Nat)))⟩ := by
  have hU := T_le_promote (P := P) hT
  have hb : T.Has (m + (x - m).tdiv (n + 1 : Nat)) := by
    have ht := tdiv_between (m := m) (x := x) (n := ((n + 1 : Nat) : Int)) (by omega)
    rcases le_total m x with h0 | h0
    · exact hm.between hx (ht.1 h0).1 (ht.1 h0).2
    · exact hx.between hm (ht.2 h0).1 (ht.2 h0).2
  have e1 : P.sub ⟨T, x⟩ ⟨T, m⟩ = some ⟨P.promote T, x - m⟩ := by
    rw [Platform.sub_eq hU rfl rfl (Platform.has_promote hx) (Platform.has_promote hm), Platform.result_has hU hd]
  have e2 := Mean.push_exact (P := P) hT hm hx hn hw hd
  generalize m + (x - m).tdiv (n + 1 : Nat) = m' at *
  have e3 : P.sub ⟨T, x⟩ ⟨T, m'⟩ = some ⟨P.promote T, x - m'⟩ := by
    rw [Platform.sub_eq hU rfl rfl (Platform.has_promote hx) (Platform.has_promote hb), Platform.result_has hU hd']
  have e4 : P.mul ⟨P.promote T, x - m⟩ ⟨P.promote T, x - m'⟩ = some ⟨P.promote T, (x - m) * (x - m')⟩ := by
    rw [Platform.mul_eq hU (Platform.promote_promote T) (Platform.promote_promote T) hd hd', Platform.result_has hU hp]
  have e5 : P.add ⟨T, v⟩ ⟨P.promote T, (x - m) * (x - m')⟩ = some ⟨P.promote T, v + (x - m) * (x - m')⟩ := by
    rw [Platform.add_eq hU rfl (Platform.promote_promote T) (Platform.has_promote hv) hp,
      Platform.result_has hU (Platform.has_promote hs)]
  unfold push
  simp only [e1, e2, e3, e4, e5, Option.bind_eq_bind, Option.bind_some, Ty.conv_of_has hT hs]
  rfl

/-- The sum of squares stays between 0 and `(n - 1) (hi - lo)^2`. -/
theorem run_within (hT : 1 ≤ T.bits) (hs : (P.promote T).signed = true) {lo hi : Int} (hlo : T.Has lo) (hhi : T.Has hi)
    (xs : List Int) (hne : xs ≠ []) (hx : ∀ x ∈ xs, lo ≤ x ∧ x ≤ hi) (hn : (xs.length : Int) < T.hi)
    (hw : xs.length < 2 ^ P.sizeBits) (hM : (xs.length : Int) * (hi - lo) ^ 2 < T.hi) :
    ∃ m v, run P T xs = some ⟨⟨m, xs.length⟩, v⟩ ∧ lo ≤ m ∧ m ≤ hi ∧ 0 ≤ v ∧ v ≤ (xs.length - 1) * (hi - lo) ^ 2 := by
  have hUlo : (P.promote T).lo = -(P.promote T).hi := by
    unfold Ty.lo Ty.hi; rw [if_pos hs, if_pos hs]
  have hUhi : T.hi ≤ (P.promote T).hi := by
    have : T.Has (T.hi - 1) := ⟨T.lo_le_zero.trans (by have := T.hi_pos; omega), by omega⟩
    have := (Platform.has_promote (P := P) this).2
    omega
  induction xs using List.reverseRecOn with
  | nil => exact absurd rfl hne
  | append_singleton xs x ih =>
    have hl : (xs ++ [x]).length = xs.length + 1 := by simp
    rw [hl] at hn hw hM
    have hxx := hx x (by simp)
    have hM0 : 0 ≤ hi - lo := by omega
    have hM1 : hi - lo ≤ (hi - lo) ^ 2 := by nlinarith
    have hM2 : (hi - lo) ^ 2 < T.hi := by
      push_cast at hM
      have : 0 ≤ (xs.length : Int) * (hi - lo) ^ 2 := by positivity
      linarith
    have hM3 : (xs.length : Int) * (hi - lo) ^ 2 < T.hi := by
      push_cast at hM
      have : 0 ≤ (hi - lo) ^ 2 := by positivity
      linarith
    rw [hl]
    rcases eq_or_ne xs [] with rfl | hne'
    · have hxT := hlo.between hhi hxx.1 hxx.2
      have e : x - (0 + (x - 0).tdiv (0 + 1 : Nat)) = 0 := by simp
      have := push_exact (P := P) (T := T) hT (m := 0) (x := x) (v := 0) (n := 0) T.has_zero hxT T.has_zero (by simpa using hn)
        (by simpa using hw) (by rw [sub_zero]; exact Platform.has_promote hxT) (by rw [e]; exact Ty.has_zero _)
        (by rw [e, mul_zero]; exact Ty.has_zero _) (by rw [e, mul_zero]; exact Ty.has_zero _)
      refine ⟨x, 0, ?_, hxx.1, hxx.2, le_rfl, by simp⟩
      rw [run_snoc (s := ⟨⟨0, (0 : Nat)⟩, 0⟩) rfl, this, e]
      simp
    · obtain ⟨m, v, h1, h2, h3, h4, h5⟩ := ih hne' (fun y hy => hx y (by simp [hy])) (by push_cast at hn; omega) (by omega) hM3
      have hd : |x - m| ≤ hi - lo := by rw [abs_le]; omega
      obtain ⟨b1, b2, b3⟩ := diff_mul_bounds (n := xs.length) hd
      have ht := tdiv_between (m := m) (x := x) (n := ((xs.length + 1 : Nat) : Int)) (by omega)
      have hv : v + (x - m) * (x - (m + (x - m).tdiv (xs.length + 1 : Nat))) ≤ xs.length * (hi - lo) ^ 2 := by
        linarith
      have hlen : 1 ≤ xs.length := List.length_pos_iff.2 hne'
      have hvT : T.Has v := ⟨T.lo_le_zero.trans h4, by
        have : ((xs.length : Int) - 1) * (hi - lo) ^ 2 ≤ xs.length * (hi - lo) ^ 2 :=
          mul_le_mul_of_nonneg_right (by omega) (by positivity)
        linarith⟩
      rw [abs_le] at hd b3
      refine ⟨m + (x - m).tdiv (xs.length + 1 : Nat), _, ?_, ?_, ?_, add_nonneg h4 b1, by
        rw [show ((xs.length + 1 : Nat) : Int) - 1 = xs.length by omega]; exact hv⟩
      · rw [run_snoc h1, push_exact hT (hlo.between hhi h2 h3) (hlo.between hhi hxx.1 hxx.2) hvT hn hw ⟨by omega, by omega⟩
          ⟨by omega, by omega⟩ ⟨(Ty.lo_le_zero _).trans b1, by linarith⟩ ⟨T.lo_le_zero.trans (add_nonneg h4 b1), by linarith⟩]
      · rcases le_total m x with h0 | h0
        · exact h2.trans (ht.1 h0).1
        · exact hxx.1.trans (ht.2 h0).1
      · rcases le_total m x with h0 | h0
        · exact (ht.1 h0).2.trans hxx.2
        · exact (ht.2 h0).2.trans h3

/-- Division by a count. -/
theorem div_count (hT : 1 ≤ T.bits) {v : Int} {n : Nat} (hv : T.Has v) (hn1 : 1 ≤ n) (hn : (n : Int) < T.hi) :
    (P.div ⟨T, v⟩ (cast T (P.sz n))).map (fun r => T.conv r.val) = some (v.tdiv n) := by
  have hU := T_le_promote (P := P) hT
  have hnT : T.Has (n : Int) := ⟨T.lo_le_zero.trans (by omega), hn⟩
  have ec : cast T (P.sz (n : Int)) = ⟨T, (n : Int)⟩ := by
    show (⟨T, T.conv (n : Int)⟩ : Val) = _
    rw [Ty.conv_of_has hT hnT]
  have hq := tdiv_has (U := T) (d := v) (n := (n : Int)) (by omega) hv
  rw [ec, Platform.div_eq hU rfl rfl (Platform.has_promote hv) (Platform.has_promote hnT) (by show (n : Int) ≠ 0; omega),
    Platform.result_has hU (Platform.has_promote hq), Option.map_some, Ty.conv_of_has hT hq]

/-- `size_t` minus one. -/
theorem size_pred (hi : P.intBits ≤ P.sizeBits) (hw1 : 2 ≤ P.sizeBits) {n : Nat} (h1 : 1 ≤ n) (hw : n < 2 ^ P.sizeBits) :
    P.sub (P.sz n) (P.lit 1) = some (P.sz ((n - 1 : Nat) : Int)) := by
  have hc : P.common P.size P.int = P.size := Platform.common_size_left (by
    unfold Platform.promote; rw [if_neg (by simp [Platform.int])]; exact hi) hi
  have hb : 1 ≤ P.size.bits := by show 1 ≤ P.sizeBits; omega
  have hs : ∀ k : Nat, k < 2 ^ P.sizeBits → P.size.Has (k : Int) := by
    intro k hk
    refine ⟨by show (0 : Int) ≤ _; omega, ?_⟩
    show (k : Int) < 2 ^ P.sizeBits
    exact_mod_cast hk
  have h2 : 1 < 2 ^ P.sizeBits := one_lt_pow₀ (by norm_num) (by omega)
  have c2 : P.size.conv 1 = 1 := Ty.conv_of_has hb (hs 1 h2)
  unfold Platform.sub
  show Platform.result (P.common P.size P.int) ((P.common P.size P.int).conv n - (P.common P.size P.int).conv 1) = _
  rw [hc, Ty.conv_of_has hb (hs n hw), c2]
  have e : (n : Int) - 1 = ((n - 1 : Nat) : Int) := by omega
  rw [e, Platform.result_has hb (hs _ (by omega))]
  rfl

end Variance
end Verif.IntT
