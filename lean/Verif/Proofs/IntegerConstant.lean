import Verif.Proofs.IntegerVariance
/-
Skewness and kurtosis filters of equal integers.
-/
namespace Verif.CInt

theorem Ty.conv_zero (t : Ty) : t.conv 0 = 0 := by
  unfold conv; split <;> simp

namespace Platform
variable {P : Platform}

theorem result_zero (t : Ty) : result t 0 = some ⟨t, 0⟩ := by
  unfold result
  split
  · rw [if_pos t.has_zero]
  · rw [Ty.conv_zero]

theorem mul_zero_left {t : Ty} {b : Val} : P.mul ⟨t, 0⟩ b = some ⟨P.common t b.ty, 0⟩ := by
  simp only [mul, Ty.conv_zero, zero_mul, result_zero]

theorem mul_zero_right {t : Ty} {a : Val} : P.mul a ⟨t, 0⟩ = some ⟨P.common a.ty t, 0⟩ := by
  simp only [mul, Ty.conv_zero, mul_zero, result_zero]

theorem sub_zeros {t u : Ty} : P.sub ⟨t, 0⟩ ⟨u, 0⟩ = some ⟨P.common t u, 0⟩ := by
  simp only [sub, Ty.conv_zero, sub_zero, result_zero]

theorem add_zeros {t u : Ty} : P.add ⟨t, 0⟩ ⟨u, 0⟩ = some ⟨P.common t u, 0⟩ := by
  simp only [add, Ty.conv_zero, add_zero, result_zero]

theorem sub_self {t : Ty} {x : Int} (ht : 1 ≤ t.bits) (h : t.Has x) : P.sub ⟨t, x⟩ ⟨t, x⟩ = some ⟨P.promote t, 0⟩ := by
  rw [sub_eq (ht.trans (promote_bits t).1) rfl rfl (has_promote h) (has_promote h), _root_.sub_self, result_zero]

theorem div_zero_left {t : Ty} {b : Val} (h : (P.common t b.ty).conv b.val ≠ 0) :
    P.div ⟨t, 0⟩ b = some ⟨P.common t b.ty, 0⟩ := by
  simp only [div, if_neg h, Ty.conv_zero, Int.zero_tdiv, result_zero]

/-- Arithmetic in `size_t` is defined. -/
theorem sub_size {a b : Val} (h : P.common a.ty b.ty = P.size) : ∃ z, P.sub a b = some (P.sz z) :=
  ⟨_, by unfold sub; rw [h]; exact result_unsigned rfl _⟩
theorem add_size {a b : Val} (h : P.common a.ty b.ty = P.size) : ∃ z, P.add a b = some (P.sz z) :=
  ⟨_, by unfold add; rw [h]; exact result_unsigned rfl _⟩
theorem mul_size {a b : Val} (h : P.common a.ty b.ty = P.size) : ∃ z, P.mul a b = some (P.sz z) :=
  ⟨_, by unfold mul; rw [h]; exact result_unsigned rfl _⟩
theorem div_size {a b : Val} (h : P.common a.ty b.ty = P.size) (h0 : P.size.conv b.val ≠ 0) :
    ∃ z, P.div a b = some (P.sz z) :=
  ⟨_, by unfold div; rw [h]; simp only [if_neg h0]; exact result_unsigned rfl _⟩

end Platform
end Verif.CInt

namespace Verif.IntT
open CInt

variable {P : Platform} {T : Ty}

theorem common_size_lit (hP : P.intBits ≤ P.sizeBits) : P.common P.size P.int = P.size :=
  Platform.common_size_left (by unfold Platform.promote; rw [if_neg (by simp [Platform.int])]; exact hP) hP

theorem add_count (hP : P.intBits ≤ P.sizeBits) (hw1 : 1 ≤ P.sizeBits) {n : Nat} (hw : n + 1 < 2 ^ P.sizeBits) :
    P.add (P.sz n) (P.lit 1) = some (P.sz ((n + 1 : Nat) : Int)) := by
  have hs : ∀ k : Nat, k < 2 ^ P.sizeBits → P.size.Has (k : Int) := by
    intro k hk
    refine ⟨by show (0 : Int) ≤ _; omega, ?_⟩
    show (k : Int) < 2 ^ P.sizeBits
    exact_mod_cast hk
  have hb : 1 ≤ P.size.bits := hw1
  unfold Platform.add
  show Platform.result (P.common P.size P.int) ((P.common P.size P.int).conv n + (P.common P.size P.int).conv ((1 : Nat) : Int)) = _
  rw [common_size_lit hP, Ty.conv_of_has hb (hs n (by omega)), Ty.conv_of_has hb (hs 1 (by omega)), ← Nat.cast_add,
    Platform.result_has hb (hs _ hw)]
  rfl

/-- The variance filter of equal values, one step. -/
theorem Variance.push_const (hT : 1 ≤ T.bits) {c : Int} (hc : T.Has c) {n : Nat} (hn : ((n + 1 : Nat) : Int) < T.hi)
    (hw : n + 1 < 2 ^ P.sizeBits) :
    Variance.push P T ⟨⟨if n = 0 then 0 else c, n⟩, 0⟩ c = some ⟨⟨c, (n + 1 : Nat)⟩, 0⟩ := by
  rcases Nat.eq_zero_or_pos n with rfl | h
  · have e : c - (0 + (c - 0).tdiv (0 + 1 : Nat)) = 0 := by simp
    have := Variance.push_exact (P := P) (T := T) hT (m := 0) (x := c) (v := 0) (n := 0) T.has_zero hc T.has_zero hn hw
      (by rw [sub_zero]; exact Platform.has_promote hc) (by rw [e]; exact Ty.has_zero _)
      (by rw [e, mul_zero]; exact Ty.has_zero _) (by rw [e, mul_zero]; exact Ty.has_zero _)
    rw [if_pos rfl, this, e]
    simp
  · have := Variance.push_exact (P := P) (T := T) hT (m := c) (x := c) (v := 0) (n := n) hc hc T.has_zero hn hw
      (by rw [sub_self]; exact Ty.has_zero _) (by simp [Ty.has_zero])
      (by simp [Ty.has_zero]) (by simp [Ty.has_zero])
    rw [if_neg (by omega), this]
    simp

/-- The skewness filter of equal values, one step. -/
theorem Skewness.push_const (hT : 1 ≤ T.bits) (hP : P.intBits ≤ P.sizeBits) (hTP : T.bits ≤ P.sizeBits) {c : Int}
    (hc : T.Has c) {n : Nat} (hn : ((n + 1 : Nat) : Int) < T.hi) (hw : n + 1 < 2 ^ P.sizeBits) :
    Skewness.push P T ⟨⟨⟨if n = 0 then 0 else c, n⟩, 0⟩, 0⟩ c = some ⟨⟨⟨c, (n + 1 : Nat)⟩, 0⟩, 0⟩ := by
  have hw1 : 1 ≤ P.sizeBits := hT.trans hTP
  have hU : (P.promote T).bits ≤ P.sizeBits := by unfold Platform.promote; split <;> assumption
  have hUU : (P.promote (P.promote T)).bits ≤ P.sizeBits := by rw [Platform.promote_promote]; exact hU
  have cU : P.common (P.promote T) P.size = P.size := Platform.common_size_right hUU hP
  have cn := common_size_lit hP
  have hn0 : P.size.conv ((n + 1 : Nat) : Int) ≠ 0 := by
    rw [Ty.conv_of_has (show 1 ≤ P.size.bits from hw1) ⟨by show (0 : Int) ≤ _; omega, by
      show ((n + 1 : Nat) : Int) < 2 ^ P.sizeBits; exact_mod_cast hw⟩]
    omega
  have e1 := add_count hP hw1 hw
  have eV := Variance.push_const (P := P) hT hc hn hw
  obtain ⟨z2, e2⟩ := Platform.sub_size (P := P) (a := P.sz ((n + 1 : Nat) : Int)) (b := P.lit 2) cn
  rcases Nat.eq_zero_or_pos n with rfl | h
  · have e3 : P.sub ⟨T, c⟩ ⟨T, 0⟩ = some ⟨P.promote T, c⟩ := by
      rw [Platform.sub_eq (T_le_promote hT) rfl rfl (Platform.has_promote hc) (Ty.has_zero _), sub_zero,
        Platform.result_has (T_le_promote hT) (Platform.has_promote hc)]
    obtain ⟨z4, e4⟩ := Platform.div_size (P := P) (a := ⟨P.promote T, c⟩) (b := P.sz ((0 + 1 : Nat) : Int)) cU hn0
    obtain ⟨z5, e5⟩ := Platform.mul_size (P := P) (a := ⟨P.promote T, c⟩) (b := P.sz z4) cU
    have e6 : P.sub (P.sz ((0 + 1 : Nat) : Int)) (P.lit 1) = some ⟨P.size, 0⟩ := by
      unfold Platform.sub
      show Platform.result (P.common P.size P.int) ((P.common P.size P.int).conv 1 - (P.common P.size P.int).conv 1) = _
      rw [sub_self, cn, Platform.result_zero]
    rw [if_pos rfl] at eV
    unfold Skewness.push
    simp only [if_pos, e1, e2, e3, e4, e5, e6, eV, Platform.mul_zero_right, Platform.mul_zero_left, Platform.sub_zeros,
      Platform.add_zeros, Option.bind_eq_bind, Option.bind_some, Ty.conv_zero]
    rfl
  · obtain ⟨z6, e6⟩ := Platform.sub_size (P := P) (a := P.sz ((n + 1 : Nat) : Int)) (b := P.lit 1) cn
    have e3 := Platform.sub_self (P := P) hT hc
    have e4 : P.div ⟨P.promote T, 0⟩ (P.sz ((n + 1 : Nat) : Int)) = some ⟨P.size, 0⟩ := by
      have := Platform.div_zero_left (P := P) (t := P.promote T) (b := P.sz ((n + 1 : Nat) : Int))
        (by show (P.common (P.promote T) P.size).conv _ ≠ 0; rw [cU]; exact hn0)
      rw [this]; show some (⟨P.common (P.promote T) P.size, 0⟩ : Val) = _; rw [cU]
    have hn' : n ≠ 0 := by omega
    rw [if_neg hn'] at eV
    unfold Skewness.push
    simp only [if_neg hn', e1, e2, e3, e4, e6, eV, Platform.mul_zero_right, Platform.mul_zero_left, Platform.sub_zeros,
      Platform.add_zeros, Option.bind_eq_bind, Option.bind_some, Ty.conv_zero]
    rfl

/-- The kurtosis filter of equal values, one step. -/
theorem Kurtosis.push_const (hT : 1 ≤ T.bits) (hP : P.intBits ≤ P.sizeBits) (hTP : T.bits ≤ P.sizeBits) {c : Int}
    (hc : T.Has c) {n : Nat} (hn : ((n + 1 : Nat) : Int) < T.hi) (hw : n + 1 < 2 ^ P.sizeBits) :
    Kurtosis.push P T ⟨⟨⟨⟨if n = 0 then 0 else c, n⟩, 0⟩, 0⟩, 0⟩ c = some ⟨⟨⟨⟨c, (n + 1 : Nat)⟩, 0⟩, 0⟩, 0⟩ := by
  have hw1 : 1 ≤ P.sizeBits := hT.trans hTP
  have hU : (P.promote T).bits ≤ P.sizeBits := by unfold Platform.promote; split <;> assumption
  have hUU : (P.promote (P.promote T)).bits ≤ P.sizeBits := by rw [Platform.promote_promote]; exact hU
  have cU : P.common (P.promote T) P.size = P.size := Platform.common_size_right hUU hP
  have cn := common_size_lit hP
  have cs : P.common P.size P.size = P.size :=
    Platform.common_size_right (by unfold Platform.promote; rw [if_neg (by show ¬ P.sizeBits < _; omega)]; exact le_rfl) hP
  have hn0 : P.size.conv ((n + 1 : Nat) : Int) ≠ 0 := by
    rw [Ty.conv_of_has (show 1 ≤ P.size.bits from hw1) ⟨by show (0 : Int) ≤ _; omega, by
      show ((n + 1 : Nat) : Int) < 2 ^ P.sizeBits; exact_mod_cast hw⟩]
    omega
  have e1 := add_count hP hw1 hw
  have eV := Skewness.push_const (P := P) hT hP hTP hc hn hw
  obtain ⟨z2, e2⟩ := Platform.sub_size (P := P) (a := P.sz ((n + 1 : Nat) : Int)) (b := P.lit 3) cn
  obtain ⟨z7, e7⟩ := Platform.mul_size (P := P) (a := P.sz ((n + 1 : Nat) : Int)) (b := P.sz z2) cs
  obtain ⟨z8, e8⟩ := Platform.add_size (P := P) (a := P.sz z7) (b := P.lit 3) cn
  rcases Nat.eq_zero_or_pos n with rfl | h
  · have e3 : P.sub ⟨T, c⟩ ⟨T, 0⟩ = some ⟨P.promote T, c⟩ := by
      rw [Platform.sub_eq (T_le_promote hT) rfl rfl (Platform.has_promote hc) (Ty.has_zero _), sub_zero,
        Platform.result_has (T_le_promote hT) (Platform.has_promote hc)]
    obtain ⟨z4, e4⟩ := Platform.div_size (P := P) (a := ⟨P.promote T, c⟩) (b := P.sz ((0 + 1 : Nat) : Int)) cU hn0
    obtain ⟨z5, e5⟩ := Platform.mul_size (P := P) (a := ⟨P.promote T, c⟩) (b := P.sz z4) cU
    have e6 : P.sub (P.sz ((0 + 1 : Nat) : Int)) (P.lit 1) = some ⟨P.size, 0⟩ := by
      unfold Platform.sub
      show Platform.result (P.common P.size P.int) ((P.common P.size P.int).conv 1 - (P.common P.size P.int).conv 1) = _
      rw [sub_self, cn, Platform.result_zero]
    rw [if_pos rfl] at eV
    unfold Kurtosis.push
    simp only [if_pos, e1, e2, e3, e4, e5, e6, e7, e8, eV, Platform.mul_zero_right, Platform.mul_zero_left, Platform.sub_zeros,
      Platform.add_zeros, Option.bind_eq_bind, Option.bind_some, Ty.conv_zero]
    rfl
  · obtain ⟨z6, e6⟩ := Platform.sub_size (P := P) (a := P.sz ((n + 1 : Nat) : Int)) (b := P.lit 1) cn
    have e3 := Platform.sub_self (P := P) hT hc
    have e4 : P.div ⟨P.promote T, 0⟩ (P.sz ((n + 1 : Nat) : Int)) = some ⟨P.size, 0⟩ := by
      have := Platform.div_zero_left (P := P) (t := P.promote T) (b := P.sz ((n + 1 : Nat) : Int))
        (by show (P.common (P.promote T) P.size).conv _ ≠ 0; rw [cU]; exact hn0)
      rw [this]; show some (⟨P.common (P.promote T) P.size, 0⟩ : Val) = _; rw [cU]
    have hn' : n ≠ 0 := by omega
    rw [if_neg hn'] at eV
    unfold Kurtosis.push
    simp only [if_neg hn', e1, e2, e3, e4, e6, e7, e8, eV, Platform.mul_zero_right, Platform.mul_zero_left, Platform.sub_zeros,
      Platform.add_zeros, Option.bind_eq_bind, Option.bind_some, Ty.conv_zero]
    rfl

/-- The kurtosis filter of `n + 1` equal values. -/
theorem Kurtosis.run_const (hT : 1 ≤ T.bits) (hP : P.intBits ≤ P.sizeBits) (hTP : T.bits ≤ P.sizeBits) {c : Int}
    (hc : T.Has c) (n : Nat) (hn : (n : Int) < T.hi) (hw : n < 2 ^ P.sizeBits) :
    Kurtosis.run P T (List.replicate n c) = some ⟨⟨⟨⟨if n = 0 then 0 else c, n⟩, 0⟩, 0⟩, 0⟩ := by
  induction n with
  | zero => rfl
  | succ n ih =>
    have := ih (by push_cast at hn; omega) (by omega)
    unfold Kurtosis.run at this ⊢
    rw [List.replicate_succ', List.foldlM_append, this]
    simp only [List.foldlM_cons, List.foldlM_nil, Option.bind_eq_bind, Option.bind_some,
      Kurtosis.push_const hT hP hTP hc hn hw]
    simp

/-- The skewness filter of `n + 1` equal values. -/
theorem Skewness.run_const (hT : 1 ≤ T.bits) (hP : P.intBits ≤ P.sizeBits) (hTP : T.bits ≤ P.sizeBits) {c : Int}
    (hc : T.Has c) (n : Nat) (hn : (n : Int) < T.hi) (hw : n < 2 ^ P.sizeBits) :
    Skewness.run P T (List.replicate n c) = some ⟨⟨⟨if n = 0 then 0 else c, n⟩, 0⟩, 0⟩ := by
  induction n with
  | zero => rfl
  | succ n ih =>
    have := ih (by push_cast at hn; omega) (by omega)
    unfold Skewness.run at this ⊢
    rw [List.replicate_succ', List.foldlM_append, this]
    simp only [List.foldlM_cons, List.foldlM_nil, Option.bind_eq_bind, Option.bind_some,
      Skewness.push_const hT hP hTP hc hn hw]
    simp

end Verif.IntT
