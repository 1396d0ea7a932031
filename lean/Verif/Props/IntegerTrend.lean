import Verif.Model.IntegerTrend
import Verif.Proofs.IntegerConstant
import Verif.Props.IntegerTypes
/-
C136: the trend of integers, for every signed and unsigned integer type.
-/
namespace Verif.IntT
open CInt

variable {P : Platform} {T : Ty}

namespace Trend

theorem run_snoc {xs : List Int} {s : Trend} (hs : run P T xs = some s) (x : Int) :
    run P T (xs ++ [x]) = push P T s x := by
  unfold run at hs ⊢
  rw [List.foldlM_append, hs]
  simp

theorem push_eq {s : Trend} {x : Int} {c g : Mean} (hc : s.center.push P T x = some c) (hg : s.grand.push P T c.mean = some g) :
    push P T s x = some ⟨c, g⟩ := by
  unfold push
  simp only [hc, hg, Option.bind_eq_bind, Option.bind_some]
  rfl

/-- Operations of operands that promote to the type `U` are exact modulo `2^b` for every `b` up to the width of `U`. -/
theorem result_modEq {U : Ty} {b : Nat} (hb : b ≤ U.bits) {z : Int} {r : Val} (h : Platform.result U z = some r) :
    r.ty = U ∧ r.val ≡ z [ZMOD 2 ^ b] := by
  unfold Platform.result at h
  split at h
  · split at h
    · rw [← Option.some.inj h]; exact ⟨rfl, rfl⟩
    · exact absurd h (by simp)
  · rw [← Option.some.inj h]
    exact ⟨rfl, (Ty.conv_modEq U z).of_dvd (pow_dvd_pow 2 hb)⟩

theorem conv_modEq_of_le {U : Ty} {b : Nat} (hb : b ≤ U.bits) (z : Int) : U.conv z ≡ z [ZMOD 2 ^ b] :=
  (Ty.conv_modEq U z).of_dvd (pow_dvd_pow 2 hb)

/-- The value, whenever it is defined, is `3 m - 2 g` modulo `2^b`. -/
theorem value_modEq {s : Trend} {v : Int} (h : s.value P T = some v) :
    v ≡ 3 * s.center.mean - 2 * s.grand.mean [ZMOD 2 ^ T.bits] := by
  unfold value at h
  simp only [Option.bind_eq_bind, Option.bind_eq_some_iff] at h
  obtain ⟨d, hd, t, ht, r, hr, hv⟩ := h
  have hU := (Platform.promote_bits (P := P) T).1
  have c1 : P.common T T = P.promote T := Platform.common_eq rfl rfl
  unfold Platform.sub at hd
  simp only [c1] at hd
  have hd1 := result_modEq hU hd
  unfold Platform.mul at ht
  have c2 : P.common (cast T (P.lit 2)).ty d.ty = P.promote T := by
    rw [hd1.1]; exact Platform.common_eq rfl (Platform.promote_promote T)
  simp only [c2] at ht
  have ht1 := result_modEq hU ht
  unfold Platform.add at hr
  have c3 : P.common T t.ty = P.promote T := by
    rw [ht1.1]; exact Platform.common_eq rfl (Platform.promote_promote T)
  simp only [c3] at hr
  have hr1 := result_modEq hU hr
  have ev : v = T.conv r.val := (Option.some.inj hv).symm
  rw [ev]
  have k1 := conv_modEq_of_le (U := P.promote T) hU
  have k2 : (cast T (P.lit 2)).val ≡ 2 [ZMOD 2 ^ T.bits] := Ty.conv_modEq T 2
  calc T.conv r.val ≡ r.val [ZMOD 2 ^ T.bits] := Ty.conv_modEq T _
    _ ≡ _ [ZMOD 2 ^ T.bits] := hr1.2
    _ ≡ s.center.mean + t.val [ZMOD 2 ^ T.bits] := (k1 _).add (k1 _)
    _ ≡ s.center.mean + 2 * (s.center.mean - s.grand.mean) [ZMOD 2 ^ T.bits] := by
        refine Int.ModEq.rfl.add (ht1.2.trans ?_)
        exact ((k1 _).trans k2).mul ((k1 _).trans (hd1.2.trans ((k1 _).sub (k1 _))))
    _ ≡ 3 * s.center.mean - 2 * s.grand.mean [ZMOD 2 ^ T.bits] := by
        rw [show s.center.mean + 2 * (s.center.mean - s.grand.mean) = 3 * s.center.mean - 2 * s.grand.mean by ring]

/-- The value without overflow. -/
theorem value_exact (hT : 1 ≤ T.bits) {m g a b : Int} (hm : T.Has m) (hg : T.Has g) (h2 : T.Has 2)
    (hd1 : (P.promote T).Has (m - g)) (hd2 : (P.promote T).Has (2 * (m - g)))
    (hv : T.Has (m + 2 * (m - g))) : value P T ⟨⟨m, a⟩, ⟨g, b⟩⟩ = some (m + 2 * (m - g)) := by
  have hU := T_le_promote (P := P) hT
  have e1 : P.sub ⟨T, m⟩ ⟨T, g⟩ = some ⟨P.promote T, m - g⟩ := by
    rw [Platform.sub_eq hU rfl rfl (Platform.has_promote hm) (Platform.has_promote hg), Platform.result_has hU hd1]
  have ec : cast T (P.lit 2) = ⟨T, 2⟩ := by
    show (⟨T, T.conv 2⟩ : Val) = _
    rw [Ty.conv_of_has hT h2]
  have e2 : P.mul (cast T (P.lit 2)) ⟨P.promote T, m - g⟩ = some ⟨P.promote T, 2 * (m - g)⟩ := by
    rw [ec, Platform.mul_eq hU rfl (Platform.promote_promote T) (Platform.has_promote h2) hd1, Platform.result_has hU hd2]
  have e3 : P.add ⟨T, m⟩ ⟨P.promote T, 2 * (m - g)⟩ = some ⟨P.promote T, m + 2 * (m - g)⟩ := by
    rw [Platform.add_eq hU rfl (Platform.promote_promote T) (Platform.has_promote hm) hd2,
      Platform.result_has hU (Platform.has_promote hv)]
  unfold value
  simp only [e1, e2, e3, Option.bind_eq_bind, Option.bind_some, Ty.conv_of_has hT hv]
  rfl

/-- Equal means: the value is the mean, in every type. -/
theorem value_equal (hT : 1 ≤ T.bits) {m a b : Int} (hm : T.Has m) : value P T ⟨⟨m, a⟩, ⟨m, b⟩⟩ = some m := by
  have hU := T_le_promote (P := P) hT
  have e1 := Platform.sub_self (P := P) hT hm
  have e2 : P.mul (cast T (P.lit 2)) ⟨P.promote T, 0⟩ = some ⟨P.promote T, 0⟩ := by
    rw [Platform.mul_zero_right]
    show some (⟨P.common T (P.promote T), 0⟩ : Val) = _
    rw [Platform.common_eq rfl (Platform.promote_promote T)]
  have e3 : P.add ⟨T, m⟩ ⟨P.promote T, 0⟩ = some ⟨P.promote T, m⟩ := by
    rw [Platform.add_eq hU rfl (Platform.promote_promote T) (Platform.has_promote hm) (Ty.has_zero _), add_zero,
      Platform.result_has hU (Platform.has_promote hm)]
  unfold value
  simp only [e1, e2, e3, Option.bind_eq_bind, Option.bind_some, Ty.conv_of_has hT hm]
  rfl

end Trend
end Verif.IntT

namespace Verif.Props
open CInt IntT
open Verif.Integer (tdiv_between)

variable {P : Platform} {T : Ty}

/-! ### C136 -/

/-- C136, the claim: for a linear series of integers `a, a + b, a + 2 b, ...` the trend is the last value. -/
def IntTrendLinear (P : Platform) (T : Ty) : Prop :=
  ∀ (a b : Int) (n : Nat), 1 ≤ n → (∀ i < n, T.Has (a + b * i)) → (n : Int) < T.hi → n < 2 ^ P.sizeBits →
    ∃ s, Trend.run P T ((List.range n).map fun i => a + b * Int.ofNat i) = some s
      ∧ s.value P T = some (a + b * (n - 1))

/-- The trend of 0, 1, ..., n - 1 is 0. -/
theorem C136_ramp (hT : 1 ≤ T.bits) (n : Nat) (hn : (n : Int) < T.hi) (hw : n < 2 ^ P.sizeBits) :
    ∃ s, Trend.run P T ((List.range n).map Int.ofNat) = some s ∧ s.value P T = some 0 := by
  refine ⟨⟨⟨0, n⟩, ⟨0, n⟩⟩, ?_, Trend.value_equal hT T.has_zero⟩
  induction n with
  | zero => rfl
  | succ n ih =>
    rw [List.range_succ, List.map_append, List.map_singleton,
      Trend.run_snoc (ih (by push_cast at hn; omega) (by omega))]
    have hx : T.Has (n : Int) := ⟨T.lo_le_zero.trans (by omega), by push_cast at hn; omega⟩
    have h1 := Mean.push_exact (P := P) hT T.has_zero hx hn hw (by rw [sub_zero]; exact Platform.has_promote hx)
    rw [sub_zero, zero_add, Int.tdiv_eq_zero_of_lt (by omega) (by push_cast; omega)] at h1
    have h2 := Mean.push_exact (P := P) hT T.has_zero T.has_zero hn hw (by rw [sub_zero]; exact Ty.has_zero _)
    rw [sub_zero, zero_add, Int.zero_tdiv] at h2
    exact Trend.push_eq (s := ⟨⟨0, n⟩, ⟨0, n⟩⟩) h1 h2

/-- C136 is violated in every integer type of three bits or more. -/
theorem C136_violated (hT : 3 ≤ T.bits) (hw : 2 ≤ P.sizeBits) : ¬ IntTrendLinear P T := by
  intro h
  have hhi : (4 : Int) ≤ T.hi := by
    unfold Ty.hi
    split
    · calc (4 : Int) = 2 ^ 2 := by norm_num
        _ ≤ 2 ^ (T.bits - 1) := pow_le_pow_right₀ (by norm_num) (by omega)
    · calc (4 : Int) = 2 ^ 2 := by norm_num
        _ ≤ 2 ^ T.bits := pow_le_pow_right₀ (by norm_num) (by omega)
  have hw' : 2 ^ 2 ≤ 2 ^ P.sizeBits := Nat.pow_le_pow_right (by norm_num) hw
  obtain ⟨s, h1, h2⟩ := h 0 1 3 (by norm_num) (fun i hi => ⟨T.lo_le_zero.trans (by omega), by omega⟩) (by norm_num; omega) (by omega)
  obtain ⟨s', h1', h2'⟩ := C136_ramp (P := P) (T := T) (by omega) 3 (by norm_num; omega) (by omega)
  have e : ((List.range 3).map fun i => (0 : Int) + 1 * Int.ofNat i) = (List.range 3).map Int.ofNat := by decide
  rw [e, h1'] at h1
  rw [← Option.some.inj h1, h2'] at h2
  revert h2
  decide

/-- Equal values: the trend is the value, in every type. -/
theorem C136_constant (hT : 1 ≤ T.bits) {c : Int} (hc : T.Has c) (n : Nat) (hn1 : 1 ≤ n) (hn : (n : Int) < T.hi)
    (hw : n < 2 ^ P.sizeBits) :
    ∃ s, Trend.run P T (List.replicate n c) = some s ∧ s.value P T = some c := by
  refine ⟨⟨⟨c, n⟩, ⟨c, n⟩⟩, ?_, Trend.value_equal hT hc⟩
  induction n with
  | zero => omega
  | succ n ih =>
    rw [List.replicate_succ']
    rcases Nat.eq_zero_or_pos n with rfl | h0
    · rw [Trend.run_snoc (s := ⟨⟨0, (0 : Nat)⟩, ⟨0, (0 : Nat)⟩⟩) rfl]
      have h1 := Mean.push_exact (P := P) (n := 0) hT T.has_zero hc hn hw (by rw [sub_zero]; exact Platform.has_promote hc)
      have e : (0 : Int) + (c - 0).tdiv ((0 + 1 : Nat) : Int) = c := by simp
      rw [e] at h1
      exact Trend.push_eq (s := ⟨⟨0, (0 : Nat)⟩, ⟨0, (0 : Nat)⟩⟩) h1 h1
    · rw [Trend.run_snoc (ih h0 (by push_cast at hn; omega) (by omega))]
      have h1 := Mean.push_exact (P := P) (n := n) hT hc hc hn hw (by rw [sub_self]; exact Ty.has_zero _)
      rw [sub_self, Int.zero_tdiv, add_zero] at h1
      exact Trend.push_eq (s := ⟨⟨c, n⟩, ⟨c, n⟩⟩) h1 h1

/-- Whenever the value is defined, it is `3 m - 2 g` modulo `2^b`, where `m` is the computed mean and `g` the computed
mean of the running means; in particular it is right modulo `2^b` for unsigned types although `m - g` wraps. -/
theorem C136_modular {s : Trend} {v : Int} (h : s.value P T = some v) :
    v ≡ 3 * s.center.mean - 2 * s.grand.mean [ZMOD 2 ^ T.bits] := Trend.value_modEq h

/-- For unsigned types that are not narrower than `int` the value is always defined. -/
theorem C136_unsigned_defined (hs : T.signed = false) (hb : P.intBits ≤ T.bits) (s : Trend) :
    ∃ v, s.value P T = some v := by
  have hU : P.promote T = T := by unfold Platform.promote; rw [if_neg (by omega)]
  have c1 : P.common T T = T := Platform.common_eq hU hU
  unfold Trend.value Platform.sub Platform.mul Platform.add
  simp only [c1, Platform.result_unsigned hs, Option.bind_eq_bind, Option.bind_some, CInt.cast]
  exact ⟨_, rfl⟩

/-- The state after data between `lo` and `hi`, for signed arithmetic: both means lie between `lo` and `hi`. -/
theorem C136_means_within (hT : 1 ≤ T.bits) (hs : (P.promote T).signed = true) {lo hi : Int} (hlo : T.Has lo) (hhi : T.Has hi)
    (hd : hi - lo < (P.promote T).hi) (xs : List Int) (hne : xs ≠ []) (hx : ∀ x ∈ xs, lo ≤ x ∧ x ≤ hi)
    (hn : (xs.length : Int) < T.hi) (hw : xs.length < 2 ^ P.sizeBits) :
    ∃ m g, Trend.run P T xs = some ⟨⟨m, xs.length⟩, ⟨g, xs.length⟩⟩ ∧ lo ≤ m ∧ m ≤ hi ∧ lo ≤ g ∧ g ≤ hi := by
  have hlo' : (P.promote T).lo = -(P.promote T).hi := by
    unfold Ty.lo Ty.hi; rw [if_pos hs, if_pos hs]
  have step : ∀ (n : Nat) (m x : Int), ((n + 1 : Nat) : Int) < T.hi → n + 1 < 2 ^ P.sizeBits → lo ≤ m ∧ m ≤ hi → lo ≤ x ∧ x ≤ hi →
      ∃ m', Mean.push P T ⟨m, n⟩ x = some ⟨m', (n + 1 : Nat)⟩ ∧ lo ≤ m' ∧ m' ≤ hi := by
    intro n m x hn hw hm hx
    refine ⟨_, Mean.push_exact hT (hlo.between hhi hm.1 hm.2) (hlo.between hhi hx.1 hx.2) hn hw ⟨by omega, by omega⟩, ?_⟩
    have ht := tdiv_between (m := m) (x := x) (n := ((n + 1 : Nat) : Int)) (by omega)
    rcases le_total m x with h0 | h0
    · exact ⟨hm.1.trans (ht.1 h0).1, (ht.1 h0).2.trans hx.2⟩
    · exact ⟨hx.1.trans (ht.2 h0).1, (ht.2 h0).2.trans hm.2⟩
  have first : ∀ x : Int, ((0 + 1 : Nat) : Int) < T.hi → 0 + 1 < 2 ^ P.sizeBits → lo ≤ x ∧ x ≤ hi →
      Mean.push P T ⟨0, (0 : Nat)⟩ x = some ⟨x, (0 + 1 : Nat)⟩ := by
    intro x hn hw hx
    have hxT := hlo.between hhi hx.1 hx.2
    have := Mean.push_exact (P := P) (n := 0) hT T.has_zero hxT hn hw (by rw [sub_zero]; exact Platform.has_promote hxT)
    rw [this]; simp
  induction xs using List.reverseRecOn with
  | nil => exact absurd rfl hne
  | append_singleton xs x ih =>
    have hl : (xs ++ [x]).length = xs.length + 1 := by simp
    rw [hl] at hn hw
    have hxx := hx x (by simp)
    rw [hl]
    rcases eq_or_ne xs [] with rfl | hne'
    · have h1 := first x hn hw hxx
      refine ⟨x, x, ?_, hxx.1, hxx.2, hxx.1, hxx.2⟩
      rw [Trend.run_snoc (s := ⟨⟨0, (0 : Nat)⟩, ⟨0, (0 : Nat)⟩⟩) rfl]
      exact Trend.push_eq (s := ⟨⟨0, (0 : Nat)⟩, ⟨0, (0 : Nat)⟩⟩) h1 h1
    · obtain ⟨m, g, h1, h2, h3, h4, h5⟩ := ih hne' (fun y hy => hx y (by simp [hy])) (by push_cast at hn; omega) (by omega)
      obtain ⟨m', k1, k2, k3⟩ := step xs.length m x hn hw ⟨h2, h3⟩ hxx
      obtain ⟨g', k4, k5, k6⟩ := step xs.length g m' hn hw ⟨h4, h5⟩ ⟨k2, k3⟩
      refine ⟨m', g', ?_, k2, k3, k5, k6⟩
      rw [Trend.run_snoc h1]
      exact Trend.push_eq (s := ⟨⟨m, _⟩, ⟨g, _⟩⟩) k1 k4

/-- C136, the part that holds for signed arithmetic: if `3 lo - 2 hi` and `3 hi - 2 lo` are values of the type, the trend of
data between `lo` and `hi` is defined and lies between these two. -/
theorem C136_within_partial (hT : 1 ≤ T.bits) (hs : (P.promote T).signed = true) (h2 : T.Has 2) {lo hi : Int}
    (hlo : T.Has (3 * lo - 2 * hi)) (hhi : T.Has (3 * hi - 2 * lo)) (hd : 2 * (hi - lo) < (P.promote T).hi)
    (xs : List Int) (hne : xs ≠ []) (hx : ∀ x ∈ xs, lo ≤ x ∧ x ≤ hi)
    (hn : (xs.length : Int) < T.hi) (hw : xs.length < 2 ^ P.sizeBits) :
    ∃ s v, Trend.run P T xs = some s ∧ s.value P T = some v ∧ 3 * lo - 2 * hi ≤ v ∧ v ≤ 3 * hi - 2 * lo := by
  have hlh : lo ≤ hi := by
    have := hx _ (List.head_mem hne)
    omega
  have hlo1 : T.Has lo := hlo.between hhi (by omega) (by omega)
  have hhi1 : T.Has hi := hlo.between hhi (by omega) (by omega)
  have hlo' : (P.promote T).lo = -(P.promote T).hi := by
    unfold Ty.lo Ty.hi; rw [if_pos hs, if_pos hs]
  obtain ⟨m, g, h1, a1, a2, a3, a4⟩ := C136_means_within hT hs hlo1 hhi1 (by omega) xs hne hx hn hw
  refine ⟨_, _, h1, Trend.value_exact hT (hlo1.between hhi1 a1 a2) (hlo1.between hhi1 a3 a4) h2
    ⟨by omega, by omega⟩ ⟨by omega, by omega⟩ (hlo.between hhi (by omega) (by omega)), by omega, by omega⟩

theorem head_le_getLast {xs : List Int} (h : xs.Pairwise (· ≤ ·)) (hne : xs ≠ []) : xs.head hne ≤ xs.getLast hne := by
  cases xs with
  | nil => exact absurd rfl hne
  | cons x xs =>
    rcases eq_or_ne xs [] with rfl | h'
    · simp
    · rw [List.head_cons, List.getLast_cons h']
      exact List.rel_of_pairwise_cons h (List.getLast_mem h')

/-- C136, ascending data, in every signed or unsigned integer type: the trend lies between the mean and
`3 last - 2 first`, and the mean between the first and the last value. -/
theorem C136_ascending_partial (hT : 1 ≤ T.bits) (h2 : T.Has 2) (xs : List Int) (hne : xs ≠ [])
    (hx : ∀ x ∈ xs, T.Has x) (ha : xs.Pairwise (· ≤ ·))
    (hfit : T.Has (3 * xs.getLast hne - 2 * xs.head hne)) (hd : (P.promote T).Has (2 * (xs.getLast hne - xs.head hne)))
    (hn : (xs.length : Int) < T.hi) (hw : xs.length < 2 ^ P.sizeBits) :
    ∃ s v, Trend.run P T xs = some s ∧ s.value P T = some v ∧ xs.head hne ≤ s.center.mean ∧ s.center.mean ≤ xs.getLast hne
      ∧ s.center.mean ≤ v ∧ v ≤ 3 * xs.getLast hne - 2 * xs.head hne := by
  have key : ∀ ys : List Int, ∀ hy : ys ≠ [], (∀ x ∈ ys, T.Has x) → ys.Pairwise (· ≤ ·) →
      (P.promote T).Has (ys.getLast hy - ys.head hy) → (ys.length : Int) < T.hi → ys.length < 2 ^ P.sizeBits →
      ∃ m g, Trend.run P T ys = some ⟨⟨m, ys.length⟩, ⟨g, ys.length⟩⟩ ∧ ys.head hy ≤ g ∧ g ≤ m ∧ m ≤ ys.getLast hy := by
    intro ys
    induction ys using List.reverseRecOn with
    | nil => intro hy; exact absurd rfl hy
    | append_singleton ys x ih =>
      intro hy hT' hp hd hn hw
      have hl : (ys ++ [x]).length = ys.length + 1 := by simp
      rw [hl] at hn hw
      have hxx := hT' x (by simp)
      rw [hl]
      rcases eq_or_ne ys [] with rfl | hne'
      · have h1 := Mean.push_exact (P := P) (n := 0) hT T.has_zero hxx hn hw (by rw [sub_zero]; exact Platform.has_promote hxx)
        have e : (0 : Int) + (x - 0).tdiv ((0 + 1 : Nat) : Int) = x := by simp
        rw [e] at h1
        refine ⟨x, x, ?_, by simp, le_rfl, by simp⟩
        rw [Trend.run_snoc (s := ⟨⟨0, (0 : Nat)⟩, ⟨0, (0 : Nat)⟩⟩) rfl]
        exact Trend.push_eq (s := ⟨⟨0, (0 : Nat)⟩, ⟨0, (0 : Nat)⟩⟩) h1 h1
      · rw [List.pairwise_append] at hp
        have hlx : ys.getLast hne' ≤ x := hp.2.2 _ (List.getLast_mem hne') x (by simp)
        have hh : (ys ++ [x]).head hy = ys.head hne' := List.head_append_of_ne_nil hne'
        have hg : (ys ++ [x]).getLast hy = x := by simp
        rw [hh, hg] at hd ⊢
        have hhl := head_le_getLast hp.1 hne'
        have h0 := Ty.has_zero (P.promote T)
        obtain ⟨m, g, h1, k1, k2, k3⟩ := ih hne' (fun y hy => hT' y (by simp [hy])) hp.1
          (h0.between hd (by omega) (by omega)) (by push_cast at hn; omega) (by omega)
        have hH := hT' (ys.head hne') (by simp)
        have hmT : T.Has m := hH.between hxx (by omega) (by omega)
        have hgT : T.Has g := hH.between hxx (by omega) (by omega)
        have p1 := Mean.push_exact (P := P) hT hmT hxx hn hw (h0.between hd (by omega) (by omega))
        have t1 := (tdiv_between (m := m) (x := x) (n := ((ys.length + 1 : Nat) : Int)) (by omega)).1 (by omega)
        set m' := m + (x - m).tdiv ((ys.length + 1 : Nat) : Int) with hm'
        have p2 := Mean.push_exact (P := P) hT hgT (hH.between hxx (z := m') (by omega) (by omega)) hn hw
          (h0.between hd (by omega) (by omega))
        have t2 := (tdiv_between (m := g) (x := m') (n := ((ys.length + 1 : Nat) : Int)) (by omega)).1 (by omega)
        refine ⟨m', g + (m' - g).tdiv ((ys.length + 1 : Nat) : Int), ?_, by omega, by omega, by omega⟩
        rw [Trend.run_snoc h1]
        exact Trend.push_eq (s := ⟨⟨m, _⟩, ⟨g, _⟩⟩) p1 p2
  have hH := hx _ (List.head_mem hne)
  have hL := hx _ (List.getLast_mem hne)
  have h0 := Ty.has_zero (P.promote T)
  have hhl := head_le_getLast ha hne
  obtain ⟨m, g, h1, k1, k2, k3⟩ := key xs hne hx ha (h0.between hd (by omega) (by omega)) hn hw
  refine ⟨_, _, h1, Trend.value_exact hT (hH.between hL (by omega) (by omega)) (hH.between hL (by omega) (by omega)) h2
    (h0.between hd (by omega) (by omega)) (h0.between hd (by omega) (by omega))
    (hH.between hfit (by omega) (by omega)), ?_, ?_, ?_, ?_⟩ <;> first | omega | (dsimp only; omega)

/-- 0, 10, 20, 30: the trend is 30 in exact arithmetic, and 33 as `int`. -/
example : (Trend.run lp64 int32 [0, 10, 20, 30]).bind (Trend.value lp64 int32) = some 33 := by decide

example : (Trend.run lp64 int32 [0, 1, 2, 3, 4]).bind (Trend.value lp64 int32) = some 0 := by decide

/-- 6, 0 as `unsigned int`: the mean is 2147483651, the trend 1 (0 in exact arithmetic). -/
example : (Trend.run lp64 uint32 [6, 0]).bind (Trend.value lp64 uint32) = some 1 := by decide

example : ∃ s v, Trend.run lp64 int32 [3, -4, 5] = some s ∧ s.value lp64 int32 = some v ∧ 3 * (-4) - 2 * 5 ≤ v ∧ v ≤ 3 * 5 - 2 * (-4) :=
  C136_within_partial (by decide) (by decide) (by decide) (by decide) (by decide) (by decide) _ (by decide) (by decide) (by decide) (by decide)

example : ∃ s v, Trend.run lp64 uint32 [1, 5, 9] = some s ∧ s.value lp64 uint32 = some v ∧ 1 ≤ s.center.mean ∧ s.center.mean ≤ 9
    ∧ s.center.mean ≤ v ∧ v ≤ 3 * 9 - 2 * 1 :=
  C136_ascending_partial (by decide) (by decide) [1, 5, 9] (by decide) (by decide) (by decide) (by decide) (by decide) (by decide) (by decide)

example : ∃ s, Trend.run lp64 uint8 (List.replicate 7 200) = some s ∧ s.value lp64 uint8 = some 200 :=
  C136_constant (by decide) (by decide) 7 (by decide) (by decide) (by decide)

end Verif.Props
