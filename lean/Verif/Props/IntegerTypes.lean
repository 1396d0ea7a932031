import Verif.Proofs.IntegerTypes
/-
C111, C112: means of integers, for every signed and unsigned integer type.
-/
namespace Verif.Props
open CInt IntT

variable {P : Platform} {T : Ty}

/-- 32-bit `int`, 64-bit `size_t`. -/
def lp64 : Platform := ⟨32, 64⟩
def int32 : Ty := ⟨32, true⟩
def uint32 : Ty := ⟨32, false⟩
def uint16 : Ty := ⟨16, false⟩
def uint8 : Ty := ⟨8, false⟩

/-! ### C111: distance from the true mean -/

/-- C111, the claim: the mean of `n` integers differs from the true mean by at most 1. -/
def IntMeanAccurate (P : Platform) (T : Ty) : Prop :=
  ∀ xs : List Int, xs ≠ [] → (∀ x ∈ xs, T.Has x) → (xs.length : Int) < T.hi → xs.length < 2 ^ P.sizeBits →
    ∃ s, Mean.run P T xs = some s ∧ |(xs.length : Int) * s.mean - xs.sum| ≤ xs.length

/-- The mean of 0, 1, 2, ..., n - 1 is computed as 0. -/
theorem C111_ramp (hT : 1 ≤ T.bits) (n : Nat) (hn : (n : Int) < T.hi) (hw : n < 2 ^ P.sizeBits) :
    Mean.run P T ((List.range n).map Int.ofNat) = some ⟨0, n⟩ := by
  induction n with
  | zero => rfl
  | succ n ih =>
    rw [List.range_succ, List.map_append, List.map_singleton,
      Mean.run_snoc (ih (by push_cast at hn; omega) (by omega))]
    have hx : T.Has (n : Int) := ⟨T.lo_le_zero.trans (by omega), by push_cast at hn; omega⟩
    have := Mean.push_exact (P := P) hT T.has_zero hx hn hw (by rw [sub_zero]; exact Platform.has_promote hx)
    rw [Int.ofNat_eq_natCast, this, sub_zero, zero_add,
      Int.tdiv_eq_zero_of_lt (by omega) (by push_cast; omega)]

/-- C111 is violated in every type of more than 4 bits. -/
theorem C111_violated (hT : 5 ≤ T.bits) (hw : 3 ≤ P.sizeBits) : ¬ IntMeanAccurate P T := by
  intro h
  have hhi : (16 : Int) ≤ T.hi := by
    unfold Ty.hi
    split
    · calc (16 : Int) = 2 ^ 4 := by norm_num
        _ ≤ 2 ^ (T.bits - 1) := pow_le_pow_right₀ (by norm_num) (by omega)
    · calc (16 : Int) = 2 ^ 4 := by norm_num
        _ ≤ 2 ^ T.bits := pow_le_pow_right₀ (by norm_num) (by omega)
  have hw' : 2 ^ 3 ≤ 2 ^ P.sizeBits := Nat.pow_le_pow_right (by norm_num) hw
  obtain ⟨s, h1, h2⟩ := h ((List.range 4).map Int.ofNat) (by decide) (by
    intro x hx
    have : ∀ y ∈ (List.range 4).map Int.ofNat, 0 ≤ y ∧ y < 16 := by decide
    exact ⟨T.lo_le_zero.trans (this x hx).1, (this x hx).2.trans_le hhi⟩) (by simp; omega) (by simp; omega)
  rw [C111_ramp (by omega) 4 (by norm_num; omega) (by omega)] at h1
  rw [← Option.some.inj h1] at h2
  revert h2
  decide

/-- C111, the part that holds: `n` times the mean differs from the sum by at most `n (n - 1) / 2`, in every type whose
arithmetic is signed and wide enough for the differences. By `C111_ramp` the bound is attained. -/
theorem C111_bound_partial (hT : 1 ≤ T.bits) (hs : (P.promote T).signed = true) {lo hi : Int} (hlo : T.Has lo) (hhi : T.Has hi)
    (hd : hi - lo < (P.promote T).hi) (xs : List Int) (hne : xs ≠ []) (hx : ∀ x ∈ xs, lo ≤ x ∧ x ≤ hi)
    (hn : (xs.length : Int) < T.hi) (hw : xs.length < 2 ^ P.sizeBits) :
    ∃ s, Mean.run P T xs = some s ∧ 2 * |(xs.length : Int) * s.mean - xs.sum| ≤ xs.length * (xs.length - 1) := by
  obtain ⟨m, h1, -, -, h4⟩ := Mean.run_within hT hs hlo hhi hd xs hne hx hn hw
  exact ⟨_, h1, h4⟩

/-- The mean of 1, 2, 4, 10 is computed as 4, the true mean is 17/4. -/
example : Mean.run lp64 int32 [1, 2, 4, 10] = some ⟨4, 4⟩ := by decide

example : ∃ s, Mean.run lp64 int32 [1, 2, 4, 10] = some s ∧ 2 * |4 * s.mean - 17| ≤ 4 * (4 - 1) := by
  have h := C111_bound_partial (P := lp64) (T := int32) (lo := 1) (hi := 10) (by decide) (by decide) (by decide) (by decide) (by decide)
    [1, 2, 4, 10] (by decide) (by decide) (by decide) (by decide)
  simpa using h

example : Mean.run lp64 int32 [0, 1, 2, 3, 4, 5, 6, 7, 8, 9] = some ⟨0, 10⟩ := by decide

/-! ### C112: unsigned types -/

/-- C112, the claim: the mean of unsigned integers lies within the data. -/
def UnsignedMeanWithin (P : Platform) (T : Ty) : Prop :=
  ∀ (xs : List Int) (lo hi : Int), xs ≠ [] → (∀ x ∈ xs, T.Has x ∧ lo ≤ x ∧ x ≤ hi) → (xs.length : Int) < T.hi →
    xs.length < 2 ^ P.sizeBits → ∃ s, Mean.run P T xs = some s ∧ lo ≤ s.mean ∧ s.mean ≤ hi

/-- In an unsigned type that is not narrower than `int`, a value below the mean is added as if it were `2^b` larger, and
the mean leaves the data. -/
theorem C112_descent (hs : T.signed = false) (hT : P.intBits ≤ T.bits) (hb : 1 ≤ T.bits) {m x hi : Int} {n : Nat} (hn : 1 ≤ n)
    (hx : 0 ≤ x) (hxm : x < m) (hm : m ≤ hi) (hw : n + 1 < 2 ^ P.sizeBits) (hbig : (n + 2 : Int) * (hi + 1) ≤ 2 ^ T.bits) :
    ∃ s, Mean.push P T ⟨m, n⟩ x = some s ∧ hi < s.mean := by
  have hU : P.promote T = T := by unfold Platform.promote; rw [if_neg (by omega)]
  have hlo : T.lo = 0 := by unfold Ty.lo; rw [hs]; rfl
  have hhi : T.hi = 2 ^ T.bits := by unfold Ty.hi; rw [hs]; rfl
  have hn2 : (n : Int) + 1 < 2 ^ T.bits := by nlinarith
  have hhiT : hi < 2 ^ T.bits := by nlinarith
  have hmT : T.Has m := ⟨by omega, by omega⟩
  have hxT : T.Has x := ⟨by omega, by omega⟩
  have hnT : T.Has ((n + 1 : Nat) : Int) := ⟨by rw [hlo]; omega, by rw [hhi]; push_cast; exact hn2⟩
  have hd : T.conv (x - m) = x - m + 2 ^ T.bits := by
    rw [Ty.conv_unsigned hs, ← Int.add_emod_right]
    exact Int.emod_eq_of_lt (by omega) (by omega)
  set d := x - m + 2 ^ T.bits with hdd
  have hdT : T.Has d := ⟨by omega, by omega⟩
  have hn1 : (1 : Int) ≤ ((n + 1 : Nat) : Int) := by omega
  have e0 : P.promote (P.promote T) = T := by rw [hU, hU]
  have e1 : P.sub ⟨T, x⟩ ⟨T, m⟩ = some ⟨T, d⟩ := by
    rw [Platform.sub_eq hb hU hU hxT hmT, Platform.result_unsigned hs, hd]
  set q := d.tdiv ((n + 1 : Nat) : Int) with hq
  have hqT : T.Has q := tdiv_has hn1 hdT
  have hqe : q = d / ((n + 1 : Nat) : Int) := Int.tdiv_eq_ediv_of_nonneg (by omega)
  have hq1 : hi + 1 ≤ q := by
    rw [hqe, Int.le_ediv_iff_mul_le (by omega)]
    push_cast
    nlinarith
  have hq2 : m + q < 2 ^ T.bits := by
    have : q * 2 ≤ d := by
      rw [hqe]
      have h1 := Int.ediv_mul_le d (b := ((n + 1 : Nat) : Int)) (by omega)
      have h2 : 0 ≤ d / ((n + 1 : Nat) : Int) := Int.ediv_nonneg (by omega) (by omega)
      have h3 : (2 : Int) ≤ ((n + 1 : Nat) : Int) := by omega
      nlinarith
    have : 2 * (hi + 1) ≤ 2 ^ T.bits := by
      have : (0 : Int) ≤ n * (hi + 1) := mul_nonneg (by omega) (by omega)
      linarith
    omega
  have e2 : P.div ⟨T, d⟩ (cast T (P.sz ((n + 1 : Nat) : Int))) = some ⟨T, q⟩ := by
    have ec : cast T (P.sz ((n + 1 : Nat) : Int)) = ⟨T, ((n + 1 : Nat) : Int)⟩ := by
      show (⟨T, T.conv ((n + 1 : Nat) : Int)⟩ : Val) = _
      rw [Ty.conv_of_has hb hnT]
    rw [ec, Platform.div_eq hb hU hU hdT hnT (by show ((n + 1 : Nat) : Int) ≠ 0; omega), Platform.result_has hb hqT]
  have hsum : T.Has (m + q) := ⟨by omega, by omega⟩
  have e3 : P.add ⟨T, m⟩ ⟨T, q⟩ = some ⟨T, m + q⟩ := by
    rw [Platform.add_eq hb hU hU hmT hqT, Platform.result_has hb hsum]
  refine ⟨⟨m + q, (n + 1 : Nat)⟩, ?_, by show hi < m + q; omega⟩
  unfold Mean.push
  have ec : P.size.conv (((n : Nat) : Int) + 1) = ((n + 1 : Nat) : Int) := by rw [size_conv_succ hw]; push_cast; rfl
  simp only [ec, e1, e2, e3, Option.bind_eq_bind, Option.bind_some, Ty.conv_of_has hb hsum]
  rfl

/-- The mean of 2 and 0 as `unsigned int` is 2147483649. -/
theorem C112_two_values : Mean.run lp64 uint32 [2, 0] = some ⟨2147483649, 2⟩ := by decide

/-- C112 is violated for `unsigned int`. -/
theorem C112_violated : ¬ UnsignedMeanWithin lp64 uint32 := by
  intro h
  obtain ⟨s, h1, h2, h3⟩ := h [2, 0] 0 2 (by decide) (by decide) (by decide) (by decide)
  rw [C112_two_values] at h1
  rw [← Option.some.inj h1] at h3
  revert h3
  decide

/-- C112 for unsigned types narrower than `int`, whose arithmetic is signed. -/
theorem C112_narrow_partial (hT : 1 ≤ T.bits) (hb : T.bits < P.intBits) (hs : T.signed = false) (xs : List Int) (lo hi : Int)
    (hne : xs ≠ []) (hx : ∀ x ∈ xs, T.Has x ∧ lo ≤ x ∧ x ≤ hi) (hlo : T.Has lo) (hhi : T.Has hi) (hn : (xs.length : Int) < T.hi)
    (hw : xs.length < 2 ^ P.sizeBits) : ∃ s, Mean.run P T xs = some s ∧ lo ≤ s.mean ∧ s.mean ≤ hi := by
  have hU : P.promote T = P.int := by unfold Platform.promote; rw [if_pos hb]
  obtain ⟨m, h1, h2, h3, -⟩ := Mean.run_within (P := P) hT (by rw [hU]; rfl) hlo hhi (by
    have h0 : T.lo = 0 := by unfold Ty.lo; rw [hs]; rfl
    have := hlo.1
    have := (Platform.has_promote (P := P) hhi).2
    omega) xs hne (fun x h => (hx x h).2) hn hw
  exact ⟨_, h1, h2, h3⟩

/-- C112 for ascending data, in every unsigned type. -/
theorem C112_ascending_partial (hT : 1 ≤ T.bits) (hs : T.signed = false) (xs : List Int) (lo hi : Int) (hne : xs ≠ [])
    (hx : ∀ x ∈ xs, T.Has x ∧ lo ≤ x ∧ x ≤ hi) (ha : xs.Pairwise (· ≤ ·)) (hn : (xs.length : Int) < T.hi)
    (hw : xs.length < 2 ^ P.sizeBits) : ∃ s, Mean.run P T xs = some s ∧ lo ≤ s.mean ∧ s.mean ≤ hi := by
  obtain ⟨m, h1, h2, h3, -⟩ := Mean.run_ascending (P := P) hT hs xs hne (fun x h => (hx x h).1) ha hn hw
  refine ⟨_, h1, ?_, ?_⟩
  · exact (hx _ (List.head_mem hne)).2.1.trans (h2 _ (List.head?_eq_some_head hne))
  · exact (h3 _ (List.getLast?_eq_some_getLast hne)).trans (hx _ (List.getLast_mem hne)).2.2

example : ∃ s, Mean.push lp64 uint32 ⟨7, 3⟩ 5 = some s ∧ 10 < s.mean :=
  C112_descent (by decide) (by decide) (by decide) (by decide) (by decide) (by decide) (by decide) (by decide) (by decide)

example : Mean.run lp64 uint8 [200, 100, 50, 250] = some ⟨150, 4⟩ := by decide

example : ∃ s, Mean.run lp64 uint8 [200, 100, 50, 250] = some s ∧ 50 ≤ s.mean ∧ s.mean ≤ 250 :=
  C112_narrow_partial (by decide) (by decide) (by decide) _ _ _ (by decide) (by decide) (by decide) (by decide) (by decide) (by decide)

example : ∃ s, Mean.run lp64 uint32 [1, 5, 5, 9] = some s ∧ 1 ≤ s.mean ∧ s.mean ≤ 9 :=
  C112_ascending_partial (by decide) (by decide) _ _ _ (by decide) (by decide) (by decide) (by decide) (by decide)

end Verif.Props
