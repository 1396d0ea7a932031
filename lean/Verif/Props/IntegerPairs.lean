import Verif.Props.IntegerVariance
/-
C134, C135: covariance and bias-corrected estimates of integers, for every integer type.
-/
namespace Verif.Props
open CInt IntT
open Verif.Integer (tdiv_between)

variable {P : Platform} {T : Ty}

/-! ### C134: covariance of integers -/

/-- C134, the claim: the covariance of integers is defined and at most the product of the ranges of the data. -/
def IntCovarianceWithin (P : Platform) (T : Ty) : Prop :=
  ∀ (ps : List (Int × Int)) (xlo xhi ylo yhi : Int), ps ≠ [] →
    (∀ p ∈ ps, T.Has p.1 ∧ T.Has p.2 ∧ xlo ≤ p.1 ∧ p.1 ≤ xhi ∧ ylo ≤ p.2 ∧ p.2 ≤ yhi) →
    (ps.length : Int) < T.hi → ps.length < 2 ^ P.sizeBits →
    ∃ s v, Comoment.run P T ps = some s ∧ s.variance P T = some v ∧ |v| ≤ (xhi - xlo) * (yhi - ylo)

theorem comoment_run_snoc {ps : List (Int × Int)} {s : Comoment} (hs : Comoment.run P T ps = some s) (p : Int × Int) :
    Comoment.run P T (ps ++ [p]) = Comoment.push P T s p := by
  unfold Comoment.run at hs ⊢
  rw [List.foldlM_append, hs]
  simp

/-- One update without overflow. -/
theorem comoment_push_exact (hT : 1 ≤ T.bits) {mx my x y c : Int} {n : Nat} (hmx : T.Has mx) (hmy : T.Has my) (hx : T.Has x)
    (hy : T.Has y) (hc : T.Has c) (hn : ((n + 1 : Nat) : Int) < T.hi) (hw : n + 1 < 2 ^ P.sizeBits)
    (hdx : (P.promote T).Has (x - mx)) (hdx' : (P.promote T).Has (x - (mx + (x - mx).tdiv (n + 1 : Nat))))
    (hdy : (P.promote T).Has (y - my))
    (hp : (P.promote T).Has ((x - (mx + (x - mx).tdiv (n + 1 : Nat))) * (y - my)))
    (hs : T.Has (c + (x - (mx + (x - mx).tdiv (n + 1 : Nat))) * (y - my))) :
    Comoment.push P T ⟨⟨mx, n⟩, ⟨my, n⟩, c⟩ (x, y) = some ⟨⟨mx + (x - mx).tdiv (n + 1 : Nat), (n + 1 : Nat)⟩,
      ⟨my + (y - my).tdiv (n + 1 : Nat), (n + 1 : Nat)⟩, c + (x - (mx + (x - mx).tdiv (n + 1 : Nat))) * (y - my)⟩ := by
  have hU := T_le_promote (P := P) hT
  have hb : T.Has (mx + (x - mx).tdiv (n + 1 : Nat)) := by
    have ht := tdiv_between (m := mx) (x := x) (n := ((n + 1 : Nat) : Int)) (by omega)
    rcases le_total mx x with h0 | h0
    · exact hmx.between hx (ht.1 h0).1 (ht.1 h0).2
    · exact hx.between hmx (ht.2 h0).1 (ht.2 h0).2
  have e1 := Mean.push_exact (P := P) hT hmx hx hn hw hdx
  have e2 := Mean.push_exact (P := P) hT hmy hy hn hw hdy
  generalize mx + (x - mx).tdiv (n + 1 : Nat) = m' at *
  have e3 : P.sub ⟨T, x⟩ ⟨T, m'⟩ = some ⟨P.promote T, x - m'⟩ := by
    rw [Platform.sub_eq hU rfl rfl (Platform.has_promote hx) (Platform.has_promote hb), Platform.result_has hU hdx']
  have e4 : P.sub ⟨T, y⟩ ⟨T, my⟩ = some ⟨P.promote T, y - my⟩ := by
    rw [Platform.sub_eq hU rfl rfl (Platform.has_promote hy) (Platform.has_promote hmy), Platform.result_has hU hdy]
  have e5 : P.mul ⟨P.promote T, x - m'⟩ ⟨P.promote T, y - my⟩ = some ⟨P.promote T, (x - m') * (y - my)⟩ := by
    rw [Platform.mul_eq hU (Platform.promote_promote T) (Platform.promote_promote T) hdx' hdy, Platform.result_has hU hp]
  have e6 : P.add ⟨T, c⟩ ⟨P.promote T, (x - m') * (y - my)⟩ = some ⟨P.promote T, c + (x - m') * (y - my)⟩ := by
    rw [Platform.add_eq hU rfl (Platform.promote_promote T) (Platform.has_promote hc) hp,
      Platform.result_has hU (Platform.has_promote hs)]
  unfold Comoment.push
  simp only [e1, e2, e3, e4, e5, e6, Option.bind_eq_bind, Option.bind_some, Ty.conv_of_has hT hs]
  rfl

/-- The sum of products stays within `(n - 1)` times the product of the ranges. -/
theorem comoment_run_within (hT : 1 ≤ T.bits) (hs : T.signed = true) {xlo xhi ylo yhi : Int}
    (hxlo : T.Has xlo) (hxhi : T.Has xhi) (hylo : T.Has ylo) (hyhi : T.Has yhi)
    (ps : List (Int × Int)) (hne : ps ≠ []) (hx : ∀ p ∈ ps, xlo ≤ p.1 ∧ p.1 ≤ xhi ∧ ylo ≤ p.2 ∧ p.2 ≤ yhi)
    (hn : (ps.length : Int) < T.hi) (hw : ps.length < 2 ^ P.sizeBits) (hX : xhi - xlo < (P.promote T).hi)
    (hY : yhi - ylo < (P.promote T).hi) (hM : (ps.length : Int) * ((xhi - xlo) * (yhi - ylo)) < T.hi) :
    ∃ mx my c, Comoment.run P T ps = some ⟨⟨mx, ps.length⟩, ⟨my, ps.length⟩, c⟩ ∧ xlo ≤ mx ∧ mx ≤ xhi ∧ ylo ≤ my ∧ my ≤ yhi
      ∧ |c| ≤ (ps.length - 1) * ((xhi - xlo) * (yhi - ylo)) := by
  have hTlo : T.lo = -T.hi := by unfold Ty.lo Ty.hi; rw [if_pos hs, if_pos hs]
  have hUs : (P.promote T).signed = true := by unfold Platform.promote; split <;> [rfl; exact hs]
  have hUlo : (P.promote T).lo = -(P.promote T).hi := by
    unfold Ty.lo Ty.hi; rw [if_pos hUs, if_pos hUs]
  have hUhi : T.hi ≤ (P.promote T).hi := by
    have : T.Has (T.hi - 1) := ⟨T.lo_le_zero.trans (by have := T.hi_pos; omega), by omega⟩
    have := (Platform.has_promote (P := P) this).2
    omega
  induction ps using List.reverseRecOn with
  | nil => exact absurd rfl hne
  | append_singleton ps p ih =>
    obtain ⟨x, y⟩ := p
    have hl : (ps ++ [(x, y)]).length = ps.length + 1 := by simp
    rw [hl] at hn hw hM
    obtain ⟨hx1, hx2, hy1, hy2⟩ := hx (x, y) (by simp)
    simp only at hx1 hx2 hy1 hy2
    have hxT := hxlo.between hxhi hx1 hx2
    have hyT := hylo.between hyhi hy1 hy2
    have hR0 : 0 ≤ (xhi - xlo) * (yhi - ylo) := mul_nonneg (by omega) (by omega)
    generalize hR : (xhi - xlo) * (yhi - ylo) = R at *
    have hR2 : R < T.hi := by
      push_cast at hM
      have : 0 ≤ (ps.length : Int) * R := by positivity
      linarith
    have hM3 : (ps.length : Int) * R < T.hi := by
      push_cast at hM
      linarith
    rw [hl]
    rcases eq_or_ne ps [] with rfl | hne'
    · have e : x - (0 + (x - 0).tdiv (0 + 1 : Nat)) = 0 := by simp
      have := comoment_push_exact (P := P) (T := T) hT (mx := 0) (my := 0) (x := x) (y := y) (c := 0) (n := 0) T.has_zero T.has_zero
        hxT hyT T.has_zero (by simpa using hn) (by simpa using hw) (by rw [sub_zero]; exact Platform.has_promote hxT)
        (by rw [e]; exact Ty.has_zero _) (by rw [sub_zero]; exact Platform.has_promote hyT)
        (by rw [e, zero_mul]; exact Ty.has_zero _) (by rw [e, zero_mul]; exact Ty.has_zero _)
      refine ⟨x, y, 0, ?_, hx1, hx2, hy1, hy2, by simp⟩
      rw [comoment_run_snoc (s := ⟨⟨0, (0 : Nat)⟩, ⟨0, (0 : Nat)⟩, 0⟩) rfl, this, e]
      simp
    · obtain ⟨mx, my, c, h1, h2, h3, h4, h5, h6⟩ := ih hne' (fun q hq => hx q (by simp [hq])) (by push_cast at hn; omega)
        (by omega) hM3
      have ht := tdiv_between (m := mx) (x := x) (n := ((ps.length + 1 : Nat) : Int)) (by omega)
      have ht2 := tdiv_between (m := my) (x := y) (n := ((ps.length + 1 : Nat) : Int)) (by omega)
      have hm' : xlo ≤ mx + (x - mx).tdiv (ps.length + 1 : Nat) ∧ mx + (x - mx).tdiv (ps.length + 1 : Nat) ≤ xhi := by
        rcases le_total mx x with h0 | h0
        · exact ⟨h2.trans (ht.1 h0).1, (ht.1 h0).2.trans hx2⟩
        · exact ⟨hx1.trans (ht.2 h0).1, (ht.2 h0).2.trans h3⟩
      have hn' : ylo ≤ my + (y - my).tdiv (ps.length + 1 : Nat) ∧ my + (y - my).tdiv (ps.length + 1 : Nat) ≤ yhi := by
        rcases le_total my y with h0 | h0
        · exact ⟨h4.trans (ht2.1 h0).1, (ht2.1 h0).2.trans hy2⟩
        · exact ⟨hy1.trans (ht2.2 h0).1, (ht2.2 h0).2.trans h5⟩
      have hprod : |(x - (mx + (x - mx).tdiv (ps.length + 1 : Nat))) * (y - my)| ≤ R := by
        rw [abs_mul, ← hR]
        exact mul_le_mul (by rw [abs_le]; omega) (by rw [abs_le]; omega) (abs_nonneg _) (by omega)
      have hc : |c + (x - (mx + (x - mx).tdiv (ps.length + 1 : Nat))) * (y - my)| ≤ ps.length * R := by
        refine (abs_add_le _ _).trans ?_
        linarith
      have hcT : |c| < T.hi := by
        refine lt_of_le_of_lt h6 (lt_of_le_of_lt ?_ hM3)
        exact mul_le_mul_of_nonneg_right (by omega) hR0
      have hb : ∀ z : Int, |z| < T.hi → T.Has z := fun z hz => by
        rw [abs_lt] at hz; exact ⟨by omega, hz.2⟩
      refine ⟨_, _, _, ?_, hm'.1, hm'.2, hn'.1, hn'.2, by
        rw [show ((ps.length + 1 : Nat) : Int) - 1 = ps.length by omega]; exact hc⟩
      rw [comoment_run_snoc h1, comoment_push_exact hT (hxlo.between hxhi h2 h3) (hylo.between hyhi h4 h5) hxT hyT (hb c hcT) hn hw
        ⟨by omega, by omega⟩ ⟨by omega, by omega⟩ ⟨by omega, by omega⟩
        (Platform.has_promote (hb _ (lt_of_le_of_lt hprod hR2))) (hb _ (lt_of_le_of_lt hc hM3))]

/-- Division by a count in `size_t`. -/
theorem comoment_quotient (hP : P.intBits ≤ P.sizeBits) (hTP : T.bits ≤ P.sizeBits) {c : Int} {n : Nat} (h1 : 1 ≤ n)
    (hw : n < 2 ^ P.sizeBits) : P.div ⟨T, c⟩ (P.sz n) = some (P.sz ((c % 2 ^ P.sizeBits) / n)) := by
  have hU : (P.promote T).bits ≤ P.sizeBits := by unfold Platform.promote; split <;> assumption
  have hb : 1 ≤ P.size.bits := by
    show 1 ≤ P.sizeBits
    by_contra hc
    have : 2 ^ P.sizeBits ≤ 2 ^ 0 := Nat.pow_le_pow_right (by norm_num) (by omega)
    omega
  have hnT : P.size.Has (n : Int) := ⟨by show (0 : Int) ≤ _; omega, by show (n : Int) < 2 ^ P.sizeBits; exact_mod_cast hw⟩
  have h0 : 0 ≤ c % 2 ^ P.sizeBits := Int.emod_nonneg _ (by positivity)
  have h2 : c % 2 ^ P.sizeBits < 2 ^ P.sizeBits := Int.emod_lt_of_pos _ (by positivity)
  have hr : P.size.Has ((c % 2 ^ P.sizeBits) / n) :=
    P.size.has_zero.between (b := c % 2 ^ P.sizeBits) ⟨h0, h2⟩ (Int.ediv_nonneg h0 (by omega)) (Int.ediv_le_self _ h0)
  unfold Platform.div
  show (if (P.common T P.size).conv n = 0 then none
    else Platform.result (P.common T P.size) (((P.common T P.size).conv c).tdiv ((P.common T P.size).conv n))) = _
  rw [Platform.common_size_right hU hP, Ty.conv_of_has hb hnT, if_neg (by omega), Ty.conv_unsigned rfl]
  show Platform.result P.size ((c % 2 ^ P.sizeBits).tdiv n) = _
  rw [Int.tdiv_eq_ediv_of_nonneg h0, Platform.result_has hb hr]
  rfl

/-- C134, what `variance()` returns: for a co-moment that is negative the quotient of `2^w` plus the co-moment. -/
theorem C134_quotient (hP : P.intBits ≤ P.sizeBits) (hTP : T.bits ≤ P.sizeBits) (s : Comoment) {n : Nat}
    (hc : s.xCenter.count = n) (h1 : 1 ≤ n) (hw : n < 2 ^ P.sizeBits) :
    s.variance P T = some (T.conv ((s.center % 2 ^ P.sizeBits) / n))
    ∧ (2 ≤ n → s.unbiasedVariance P T = some (T.conv ((s.center % 2 ^ P.sizeBits) / (n - 1 : Nat)))) := by
  constructor
  · unfold Comoment.variance
    rw [if_pos (by rw [hc]; omega), hc, comoment_quotient hP hTP h1 hw]
    rfl
  · intro h2
    have hp : 2 ≤ P.sizeBits := by
      by_contra hc
      have : 2 ^ P.sizeBits ≤ 2 ^ 1 := Nat.pow_le_pow_right (by norm_num) (by omega)
      omega
    unfold Comoment.unbiasedVariance
    rw [if_pos (by rw [hc]; omega), hc]
    simp only [Variance.size_pred hP hp h1 hw, comoment_quotient hP hTP (show 1 ≤ n - 1 by omega) (show n - 1 < 2 ^ P.sizeBits by omega),
      Option.bind_eq_bind, Option.bind_some]
    rfl

/-- C134, the part that holds: signed types, `n` times the product of the ranges fits in the type: the co-moment is defined
and within `(n - 1)` times the product, and the covariance is its truncated quotient unless it is negative.
Missing: negative co-moments (violated), larger data, unsigned types (ascending pairs: `C134_ascending_partial`). -/
theorem C134_within_partial (hT : 1 ≤ T.bits) (hs : T.signed = true) (hP : P.intBits ≤ P.sizeBits) (hTP : T.bits ≤ P.sizeBits)
    {xlo xhi ylo yhi : Int} (hxlo : T.Has xlo) (hxhi : T.Has xhi) (hylo : T.Has ylo) (hyhi : T.Has yhi)
    (ps : List (Int × Int)) (hne : ps ≠ []) (hx : ∀ p ∈ ps, xlo ≤ p.1 ∧ p.1 ≤ xhi ∧ ylo ≤ p.2 ∧ p.2 ≤ yhi)
    (hn : (ps.length : Int) < T.hi) (hw : ps.length < 2 ^ P.sizeBits) (hX : xhi - xlo < (P.promote T).hi)
    (hY : yhi - ylo < (P.promote T).hi) (hM : (ps.length : Int) * ((xhi - xlo) * (yhi - ylo)) < T.hi) :
    ∃ s, Comoment.run P T ps = some s ∧ |s.center| ≤ (ps.length - 1) * ((xhi - xlo) * (yhi - ylo))
      ∧ (0 ≤ s.center → s.variance P T = some (s.center / ps.length) ∧ s.center / ps.length ≤ (xhi - xlo) * (yhi - ylo))
      ∧ (s.center < 0 → s.variance P T = some (T.conv ((2 ^ P.sizeBits + s.center) / ps.length))) := by
  obtain ⟨mx, my, c, h1, -, -, -, -, h6⟩ := comoment_run_within (P := P) hT hs hxlo hxhi hylo hyhi ps hne hx hn hw hX hY hM
  have hlen : 1 ≤ ps.length := List.length_pos_iff.2 hne
  obtain ⟨p, hp⟩ := List.exists_mem_of_ne_nil ps hne
  have hpp := hx p hp
  have hR0 : 0 ≤ (xhi - xlo) * (yhi - ylo) := mul_nonneg (by omega) (by omega)
  have hq := (C134_quotient (P := P) (T := T) hP hTP ⟨⟨mx, ps.length⟩, ⟨my, ps.length⟩, c⟩ rfl hlen hw).1
  simp only at hq
  generalize (xhi - xlo) * (yhi - ylo) = R at *
  have hcR : |c| ≤ ps.length * R := by linarith
  have hhi : T.hi ≤ 2 ^ P.sizeBits := by
    unfold Ty.hi
    rw [if_pos hs]
    exact pow_le_pow_right₀ (by norm_num) (by omega)
  rw [abs_le] at hcR
  refine ⟨_, h1, h6, fun h0 => ?_, fun h0 => ?_⟩
  · simp only at h0 ⊢
    have hle : c / (ps.length : Int) ≤ c := Int.ediv_le_self _ h0
    have h0' : 0 ≤ c / (ps.length : Int) := Int.ediv_nonneg h0 (by omega)
    rw [hq, Int.emod_eq_of_lt h0 (by omega), Ty.conv_of_has hT ⟨T.lo_le_zero.trans h0', by omega⟩]
    exact ⟨rfl, Int.ediv_le_of_le_mul (by omega) (by rw [mul_comm]; exact hcR.2)⟩
  · simp only at h0 ⊢
    have : c % 2 ^ P.sizeBits = 2 ^ P.sizeBits + c := by
      rw [← Int.add_emod_left]
      exact Int.emod_eq_of_lt (by omega) (by omega)
    rw [hq, this]

/-- The covariance of (0, 0), (0, 0), (3, -3) as `int` is 1431655763. -/
theorem C134_negative :
    (Comoment.run lp64 int32 [(0, 0), (0, 0), (3, -3)]).bind (Comoment.variance lp64 int32) = some 1431655763 := by decide

/-- C134 is violated for `int`. -/
theorem C134_violated : ¬ IntCovarianceWithin lp64 int32 := by
  intro h
  obtain ⟨s, v, h1, h2, h3⟩ := h [(0, 0), (0, 0), (3, -3)] 0 3 (-3) 0 (by decide) (by decide) (by decide) (by decide)
  have := C134_negative
  rw [h1, Option.bind_some, h2] at this
  rw [Option.some.inj this] at h3
  revert h3; decide

/-- The truncated means make the co-moment depend on the order of the arguments: -1 for (0, 1), (2, 0), (1, 3) and -2 for
the exchanged pairs (the true value is -1). -/
theorem C134_asymmetric :
    (Comoment.run lp64 int32 [(0, 1), (2, 0), (1, 3)]).map Comoment.center = some (-1)
    ∧ (Comoment.run lp64 int32 [(1, 0), (0, 2), (3, 1)]).map Comoment.center = some (-2) := by decide

theorem cint_mul_comm (a b : Val) : P.mul a b = P.mul b a := by
  unfold Platform.mul
  simp only [Platform.common_comm a.ty b.ty, mul_comm]

/-- The co-moment of a variable with itself is the sum of squares of the variance filter, for every integer type and all data
(also in being undefined). -/
theorem C134_self (xs : List Int) :
    Comoment.run P T (xs.map fun x => (x, x)) = (Variance.run P T xs).map fun s => ⟨s.base, s.base, s.variance⟩ := by
  induction xs using List.reverseRecOn with
  | nil => rfl
  | append_singleton xs x ih =>
    rw [List.map_append]
    unfold Comoment.run Variance.run at ih ⊢
    rw [List.foldlM_append, List.foldlM_append, ih]
    cases List.foldlM (Variance.push P T) Variance.init xs with
    | none => rfl
    | some s =>
      simp only [Option.map_some, Option.bind_eq_bind, Option.bind_some, List.map_singleton, List.foldlM_cons, List.foldlM_nil]
      unfold Comoment.push Variance.push
      simp only [Option.bind_eq_bind]
      cases hb : s.base.push P T x with
      | none =>
        cases P.sub ⟨T, x⟩ ⟨T, s.base.mean⟩ <;> rfl
      | some b =>
        simp only [Option.bind_some]
        cases h1 : P.sub ⟨T, x⟩ ⟨T, s.base.mean⟩ with
        | none => cases P.sub ⟨T, x⟩ ⟨T, b.mean⟩ <;> rfl
        | some d =>
          cases h2 : P.sub ⟨T, x⟩ ⟨T, b.mean⟩ with
          | none => rfl
          | some d' =>
            simp only [Option.bind_some]
            rw [cint_mul_comm d' d]
            cases P.mul d d' with
            | none => rfl
            | some z =>
              simp only [Option.bind_some]
              cases P.add ⟨T, s.variance⟩ z <;> rfl

example : ∃ s, Comoment.run lp64 int32 [(1, 2), (4, -5), (9, 9)] = some s ∧ |s.center| ≤ (3 - 1) * ((9 - 1) * (9 - -5))
    ∧ (0 ≤ s.center → s.variance lp64 int32 = some (s.center / 3) ∧ s.center / 3 ≤ (9 - 1) * (9 - -5))
    ∧ (s.center < 0 → s.variance lp64 int32 = some (int32.conv ((2 ^ 64 + s.center) / 3))) :=
  C134_within_partial (by decide) (by decide) (by decide) (by decide) (by decide) (by decide) (by decide) (by decide) _
    (by decide) (by decide) (by decide) (by decide) (by decide) (by decide) (by decide)

example : Comoment.run lp64 int8 [(3, 3), (20, 20)] = (Variance.run lp64 int8 [3, 20]).map fun s => ⟨s.base, s.base, s.variance⟩ :=
  C134_self [3, 20]

/-! ### C135: bias-corrected estimates of integers -/

/-- C135, the claim: for four values or more `unbiased_kurtosis()` differs by at most 1 from the bias-corrected value that belongs
to the value `K` of `kurtosis()`. -/
def IntUnbiasedKurtosis (P : Platform) (T : Ty) : Prop :=
  ∀ (xs : List Int) (s : Kurtosis) (K r : Int), (∀ x ∈ xs, T.Has x) → 4 ≤ xs.length → (xs.length : Int) ^ 2 < T.hi →
    xs.length < 2 ^ P.sizeBits → Kurtosis.run P T xs = some s → s.getKurtosis P T = some K → s.unbiasedKurtosis P T = some r →
    |(r : ℚ) - (3 + ((xs.length : ℚ) - 1) * (((xs.length : ℚ) + 1) * K - 3 * ((xs.length : ℚ) - 1))
      / (((xs.length : ℚ) - 2) * ((xs.length : ℚ) - 3)))| ≤ 1

/-- Natural numbers as values of `size_t`. -/
theorem size_has {n : Nat} (hw : n < 2 ^ P.sizeBits) : P.size.Has (n : Int) :=
  ⟨by show (0 : Int) ≤ _; omega, by show (n : Int) < 2 ^ P.sizeBits; exact_mod_cast hw⟩

theorem size_sub_lit (hP : P.intBits ≤ P.sizeBits) (hw1 : 1 ≤ P.sizeBits) {n k : Nat} (hk : k ≤ n) (hw : n < 2 ^ P.sizeBits) :
    P.sub (P.sz n) (P.lit k) = some (P.sz ((n - k : Nat) : Int)) := by
  have hb : 1 ≤ P.size.bits := hw1
  unfold Platform.sub
  show Platform.result (P.common P.size P.int) ((P.common P.size P.int).conv n - (P.common P.size P.int).conv k) = _
  rw [common_size_lit hP, Ty.conv_of_has hb (size_has hw), Ty.conv_of_has hb (size_has (by omega))]
  have e : (n : Int) - k = ((n - k : Nat) : Int) := by omega
  rw [e, Platform.result_has hb (size_has (by omega))]
  rfl

/-- C135: from five values on, `unbiased_kurtosis()` is 3, whatever the data are: the factor (n - 1) / ((n - 2) (n - 3)) is
truncated to 0.  For every integer type that can hold (n - 2) (n - 3). -/
theorem C135_always_three (hT : 3 ≤ T.bits) (hP : P.intBits ≤ P.sizeBits) (hTP : T.bits ≤ P.sizeBits) (hi : 3 ≤ P.intBits)
    (s : Kurtosis) {n : Nat} {K : Int} (hc : s.base.base.base.count = n) (h5 : 5 ≤ n) (hw : n < 2 ^ P.sizeBits)
    (hd : ((n : Int) - 2) * (n - 3) < T.hi) (h0 : 0 ≤ s.kurtosis) (hK : s.getKurtosis P T = some K) :
    s.unbiasedKurtosis P T = some 3 := by
  have hw1 : 1 ≤ P.sizeBits := by omega
  have hb : 1 ≤ P.size.bits := hw1
  have hU : (P.promote T).bits ≤ P.sizeBits := by unfold Platform.promote; split <;> assumption
  have hTb : 1 ≤ T.bits := by omega
  have hThi : T.hi ≤ 2 ^ P.sizeBits := by
    unfold Ty.hi
    split
    · exact pow_le_pow_right₀ (by norm_num) (by omega)
    · exact pow_le_pow_right₀ (by norm_num) hTP
  have h3T : T.Has 3 := by
    refine ⟨T.lo_le_zero.trans (by norm_num), ?_⟩
    unfold Ty.hi
    split
    · exact lt_of_lt_of_le (by norm_num) (pow_le_pow_right₀ (by norm_num : (1 : Int) ≤ 2) (by omega : 2 ≤ T.bits - 1))
    · exact lt_of_lt_of_le (by norm_num) (pow_le_pow_right₀ (by norm_num : (1 : Int) ≤ 2) (by omega : 2 ≤ T.bits))
  have hcl : ∀ t : Ty, (P.promote t).bits ≤ P.sizeBits → P.common P.size t = P.size := fun t h => Platform.common_size_left h hP
  have hcr : ∀ t : Ty, (P.promote t).bits ≤ P.sizeBits → P.common t P.size = P.size := fun t h => Platform.common_size_right h hP
  have hss : (P.promote P.size).bits ≤ P.sizeBits := by
    unfold Platform.promote; split
    · exact hP
    · exact le_rfl
  have e1 := size_sub_lit (P := P) hP hw1 (n := n) (k := 1) (by omega) hw
  have e2 := size_sub_lit (P := P) hP hw1 (n := n) (k := 2) (by omega) hw
  have e3 := size_sub_lit (P := P) hP hw1 (n := n) (k := 3) (by omega) hw
  have hdn : (((n - 2) * (n - 3) : Nat) : Int) = ((n : Int) - 2) * (n - 3) := by
    push_cast [Nat.cast_sub (by omega : 2 ≤ n), Nat.cast_sub (by omega : 3 ≤ n)]; ring
  have hdw : (n - 2) * (n - 3) < 2 ^ P.sizeBits := by
    have : (((n - 2) * (n - 3) : Nat) : Int) < 2 ^ P.sizeBits := by rw [hdn]; omega
    exact_mod_cast this
  have e4 : P.mul (P.sz ((n - 2 : Nat) : Int)) (P.sz ((n - 3 : Nat) : Int)) = some (P.sz (((n - 2) * (n - 3) : Nat) : Int)) := by
    unfold Platform.mul
    show Platform.result (P.common P.size P.size) ((P.common P.size P.size).conv ((n - 2 : Nat) : Int) * (P.common P.size P.size).conv ((n - 3 : Nat) : Int)) = _
    rw [hcl _ hss, Ty.conv_of_has hb (size_has (by omega)), Ty.conv_of_has hb (size_has (by omega)), ← Nat.cast_mul,
      Platform.result_has hb (size_has hdw)]
    rfl
  have e5 : P.div (P.sz ((n - 1 : Nat) : Int)) (cast T (P.sz (((n - 2) * (n - 3) : Nat) : Int))) = some (P.sz 0) := by
    have ec : cast T (P.sz (((n - 2) * (n - 3) : Nat) : Int)) = ⟨T, (((n - 2) * (n - 3) : Nat) : Int)⟩ := by
      show (⟨T, T.conv (((n - 2) * (n - 3) : Nat) : Int)⟩ : Val) = _
      rw [Ty.conv_of_has hTb ⟨T.lo_le_zero.trans (by omega), by rw [hdn]; exact hd⟩]
    rw [ec]
    unfold Platform.div
    show (if (P.common P.size T).conv (((n - 2) * (n - 3) : Nat) : Int) = 0 then none else Platform.result (P.common P.size T)
      (((P.common P.size T).conv ((n - 1 : Nat) : Int)).tdiv ((P.common P.size T).conv (((n - 2) * (n - 3) : Nat) : Int)))) = _
    obtain ⟨k, rfl⟩ : ∃ k, n = k + 5 := ⟨n - 5, by omega⟩
    have hlt : k + 5 - 1 < (k + 5 - 2) * (k + 5 - 3) := by
      rw [show k + 5 - 2 = k + 3 by omega, show k + 5 - 3 = k + 2 by omega, show k + 5 - 1 = k + 4 by omega]
      nlinarith
    rw [hcl _ hU, Ty.conv_of_has hb (size_has hdw), Ty.conv_of_has hb (size_has (by omega)), if_neg (by omega),
      Int.tdiv_eq_zero_of_lt (by omega) (by exact_mod_cast hlt), Platform.result_zero]
    rfl
  have e6 : ∃ z, P.add (P.sz n) (P.lit 1) = some (P.sz z) := Platform.add_size (common_size_lit hP)
  obtain ⟨z6, e6⟩ := e6
  obtain ⟨z7, e7⟩ : ∃ z, P.mul (P.sz z6) ⟨T, K⟩ = some (P.sz z) := Platform.mul_size (hcl _ hU)
  obtain ⟨z8, e8⟩ : ∃ z, P.mul (cast T (P.lit 3)) (P.sz ((n - 1 : Nat) : Int)) = some (P.sz z) := Platform.mul_size (hcr _ hU)
  obtain ⟨z9, e9⟩ : ∃ z, P.sub (P.sz z7) (P.sz z8) = some (P.sz z) := Platform.sub_size (hcl _ hss)
  have e10 : P.mul (P.sz 0) (P.sz z9) = some (P.sz 0) := by
    rw [Platform.sz, Platform.mul_zero_left]
    show some (⟨P.common P.size P.size, 0⟩ : Val) = _
    rw [hcl _ hss]
  have e11 : P.add (cast T (P.lit 3)) (P.sz 0) = some (P.sz 3) := by
    unfold Platform.add
    show Platform.result (P.common T P.size) ((P.common T P.size).conv (T.conv 3) + (P.common T P.size).conv 0) = _
    have h3s : P.size.Has 3 := ⟨by show (0 : Int) ≤ 3; norm_num, lt_of_lt_of_le h3T.2 hThi⟩
    rw [hcr _ hU, Ty.conv_of_has hTb h3T, Ty.conv_of_has hb h3s, Ty.conv_zero, add_zero, Platform.result_has hb h3s]
    rfl
  unfold Kurtosis.unbiasedKurtosis
  have hl : ∀ k : Nat, P.lit (k : Int) = P.lit k := fun _ => rfl
  simp only [hc, hK, Nat.cast_one, Nat.cast_ofNat] at e1 e2 e3 ⊢
  rw [if_neg (by show ¬ (n : Int) < 4; omega), if_neg (by omega)]
  simp only [e1, e2, e3, e4, e5, e6, e7, e8, e9, e10, e11, Option.bind_eq_bind, Option.bind_some]
  show some (T.conv 3) = _
  rw [Ty.conv_of_has hTb h3T]

/-- 0, 0, 0, 0, 10: `kurtosis()` is 3, the bias-corrected value is 7, `unbiased_kurtosis()` is 3. -/
theorem C135_violated : ¬ IntUnbiasedKurtosis lp64 int32 := by
  intro h
  have := h [0, 0, 0, 0, 10] ⟨⟨⟨⟨2, 5⟩, 80⟩, 480⟩, 4160⟩ 3 3 (by decide) (by decide) (by decide) (by decide)
    (by decide) (by decide) (by decide)
  norm_num [abs_le] at this

/-- C135, the part that holds: the result is exact when `kurtosis()` is 3 (n - 1) / (n + 1), since the correction is 0 then.
Missing: all other data. -/
theorem C135_normal_partial (hT : 3 ≤ T.bits) (hP : P.intBits ≤ P.sizeBits) (hTP : T.bits ≤ P.sizeBits) (hi : 3 ≤ P.intBits)
    (s : Kurtosis) {n : Nat} {K : Int} (hc : s.base.base.base.count = n) (h5 : 5 ≤ n) (hw : n < 2 ^ P.sizeBits)
    (hd : ((n : Int) - 2) * (n - 3) < T.hi) (h0 : 0 ≤ s.kurtosis) (hK : s.getKurtosis P T = some K)
    (h3 : ((n : Int) + 1) * K = 3 * (n - 1)) :
    ∃ r : Int, s.unbiasedKurtosis P T = some r ∧ (r : ℚ) = 3 + ((n : ℚ) - 1) * (((n : ℚ) + 1) * K - 3 * ((n : ℚ) - 1))
      / (((n : ℚ) - 2) * ((n : ℚ) - 3)) := by
  refine ⟨3, C135_always_three hT hP hTP hi s hc h5 hw hd h0 hK, ?_⟩
  have : ((n : ℚ) + 1) * K - 3 * ((n : ℚ) - 1) = 0 := by
    have : ((n : ℚ) + 1) * K = 3 * ((n : ℚ) - 1) := by exact_mod_cast h3
    linarith
  rw [this]
  norm_num

/-- For two values `unbiased_skewness()` divides by `T(2 - 2)`: undefined unless the sum of cubes is negative. -/
theorem C135_skewness_two (hi : P.intBits ≤ P.sizeBits) (hw : 2 ≤ P.sizeBits) (s : Skewness) (hc : s.base.base.count = 2)
    (h0 : 0 ≤ s.skewness) : s.unbiasedSkewness P T = none := by
  have h2 : 2 < 2 ^ P.sizeBits := lt_of_lt_of_le (by norm_num) (Nat.pow_le_pow_right (by norm_num) hw)
  have e1 := size_sub_lit (P := P) hi (by omega) (n := 2) (k := 1) (by omega) h2
  have e2 := size_sub_lit (P := P) hi (by omega) (n := 2) (k := 2) (by omega) h2
  have hss : (P.promote P.size).bits ≤ P.sizeBits := by
    unfold Platform.promote; split
    · exact hi
    · exact le_rfl
  obtain ⟨z, e3⟩ : ∃ z, P.mul (P.sz ((2 : Nat) : Int)) (P.sz ((2 - 1 : Nat) : Int)) = some (P.sz z) :=
    Platform.mul_size (Platform.common_size_left hss hi)
  have e0 : ((0 : Int) : ℝ) = 0 := Int.cast_zero
  have r : (X.round 0 : Dbl) = X.fin 0 := binary64_binary.round_exact (isRep_zero _ _) binary64_binary.fits_zero
  unfold Skewness.unbiasedSkewness
  simp only [hc, Nat.cast_one, Nat.cast_ofNat] at e1 e2 e3 ⊢
  rw [if_neg (by show ¬ (2 : Int) < 2; omega), if_neg (by omega)]
  cases s.getSkewness T with
  | none => rfl
  | some k =>
    simp only [e1, e2, e3, Option.bind_eq_bind, Option.bind_some]
    have ec : (cast T (P.sz ((2 - 2 : Nat) : Int))).val = 0 := by
      show T.conv 0 = 0
      exact Ty.conv_zero T
    rw [ec, X.ofInt_eq 0, e0, r]
    generalize (Scalar.ofInt k * Scalar.sqrt (Scalar.ofInt (P.sz z).val) : Dbl) = a
    rcases a with a | _ | _ | _
    · rcases lt_trichotomy a 0 with ha | ha | ha
      · show ofDouble T (X.div (X.fin a) (X.fin 0)) = none
        simp [X.div, X.signedInf, ha, ha.not_gt, ofDouble]
      · subst ha; rw [X.zero_div_zero]; rfl
      · show ofDouble T (X.div (X.fin a) (X.fin 0)) = none
        simp [X.div, X.signedInf, ha, ofDouble]
    · show ofDouble T (X.div X.pinf (X.fin 0)) = none
      simp [X.div, ofDouble]
    · show ofDouble T (X.div X.ninf (X.fin 0)) = none
      simp [X.div, ofDouble]
    · rfl

/-- `unbiased_mean()`: the mean times n / (n - 1), computed in `size_t`. -/
theorem C135_unbiased_mean (hT : 1 ≤ T.bits) (hP : P.intBits ≤ P.sizeBits) (hTP : T.bits ≤ P.sizeBits) (m : Int) {n : Nat}
    (h2 : 2 ≤ n) (hn : (n : Int) < T.hi) (hw : n < 2 ^ P.sizeBits) :
    Mean.unbiasedMean P T ⟨m, n⟩ = some (T.conv ((m * n % 2 ^ P.sizeBits) / (n - 1 : Nat))) := by
  have hw1 : 1 ≤ P.sizeBits := hT.trans hTP
  have hb : 1 ≤ P.size.bits := hw1
  have hU : (P.promote T).bits ≤ P.sizeBits := by unfold Platform.promote; split <;> assumption
  have e1 : P.mul ⟨T, m⟩ (P.sz n) = some (P.sz (m * n % 2 ^ P.sizeBits)) := by
    unfold Platform.mul
    show Platform.result (P.common T P.size) ((P.common T P.size).conv m * (P.common T P.size).conv n) = _
    rw [Platform.common_size_right hU hP, Platform.result_unsigned rfl, Ty.conv_unsigned rfl, Ty.conv_unsigned rfl, Ty.conv_unsigned rfl]
    show some (P.sz ((m % 2 ^ P.sizeBits * (n % 2 ^ P.sizeBits)) % 2 ^ P.sizeBits)) = _
    rw [← Int.mul_emod]
  have e2 := size_sub_lit (P := P) hP hw1 (n := n) (k := 1) (by omega) hw
  have hnT : T.Has ((n - 1 : Nat) : Int) := ⟨T.lo_le_zero.trans (by omega), by omega⟩
  have h0 : 0 ≤ m * n % 2 ^ P.sizeBits := Int.emod_nonneg _ (by positivity)
  have h1 : m * n % 2 ^ P.sizeBits < 2 ^ P.sizeBits := Int.emod_lt_of_pos _ (by positivity)
  have hr : P.size.Has ((m * n % 2 ^ P.sizeBits) / (n - 1 : Nat)) :=
    P.size.has_zero.between (b := m * n % 2 ^ P.sizeBits) ⟨h0, h1⟩ (Int.ediv_nonneg h0 (by omega)) (Int.ediv_le_self _ h0)
  have e3 : P.div (P.sz (m * n % 2 ^ P.sizeBits)) (cast T (P.sz ((n - 1 : Nat) : Int)))
      = some (P.sz ((m * n % 2 ^ P.sizeBits) / (n - 1 : Nat))) := by
    unfold Platform.div
    show (if (P.common P.size T).conv (T.conv ((n - 1 : Nat) : Int)) = 0 then none else Platform.result (P.common P.size T)
      (((P.common P.size T).conv (m * n % 2 ^ P.sizeBits)).tdiv ((P.common P.size T).conv (T.conv ((n - 1 : Nat) : Int))))) = _
    rw [Platform.common_size_left hU hP, Ty.conv_of_has hT hnT, Ty.conv_of_has hb (size_has (by omega)), if_neg (by omega),
      Ty.conv_of_has hb ⟨h0, h1⟩, Int.tdiv_eq_ediv_of_nonneg h0, Platform.result_has hb hr]
    rfl
  unfold Mean.unbiasedMean
  simp only [Nat.cast_one] at e2
  simp only [e1, e2, e3, Option.bind_eq_bind, Option.bind_some]
  rfl

/-- For means that are not negative and small enough this is the truncated quotient; for -6, -6, -6, -6 the result is
1431655757 (C24). -/
theorem C135_unbiased_mean_nonneg (hT : 1 ≤ T.bits) (hP : P.intBits ≤ P.sizeBits) (hTP : T.bits ≤ P.sizeBits) {m : Int} {n : Nat}
    (h2 : 2 ≤ n) (hn : (n : Int) < T.hi) (hw : n < 2 ^ P.sizeBits) (h0 : 0 ≤ m) (hm : 2 * m < T.hi) (hp : m * n < 2 ^ P.sizeBits) :
    Mean.unbiasedMean P T ⟨m, n⟩ = some (m * n / (n - 1)) := by
  have e : ((n - 1 : Nat) : Int) = (n : Int) - 1 := by omega
  have hle : m * n / ((n : Int) - 1) ≤ 2 * m := by
    refine Int.ediv_le_of_le_mul (by omega) ?_
    nlinarith
  rw [C135_unbiased_mean hT hP hTP m h2 hn hw, Int.emod_eq_of_lt (by positivity) hp, e,
    Ty.conv_of_has hT ⟨T.lo_le_zero.trans (Int.ediv_nonneg (by positivity) (by omega)), by omega⟩]

example : (Kurtosis.run lp64 int32 [0, 0, 0, 0, 10]).bind (Kurtosis.unbiasedKurtosis lp64 int32) = some 3 := by decide

example : Kurtosis.unbiasedKurtosis lp64 int32 ⟨⟨⟨⟨2, 8⟩, 224⟩, 2688⟩, 38528⟩ = some 3 :=
  C135_always_three (n := 8) (K := 6) (by decide) (by decide) (by decide) (by decide) _ rfl (by decide) (by decide) (by decide)
    (by decide) (by decide)

example : ∃ r : Int, Kurtosis.unbiasedKurtosis lp64 int32 ⟨⟨⟨⟨0, 5⟩, 10⟩, 0⟩, 45⟩ = some r
    ∧ (r : ℚ) = 3 + (((5 : ℕ) : ℚ) - 1) * ((((5 : ℕ) : ℚ) + 1) * (2 : ℤ) - 3 * (((5 : ℕ) : ℚ) - 1)) / ((((5 : ℕ) : ℚ) - 2) * (((5 : ℕ) : ℚ) - 3)) :=
  C135_normal_partial (by decide) (by decide) (by decide) (by decide) _ rfl (by decide) (by decide) (by decide) (by decide) (by decide)
    (by decide)

example : Skewness.unbiasedSkewness lp64 int32 ⟨⟨⟨1, 2⟩, 2⟩, 5⟩ = none := C135_skewness_two (by decide) (by decide) _ rfl (by decide)

example : Mean.unbiasedMean lp64 int32 ⟨-6, 4⟩ = some 1431655757 := by decide
example : Mean.unbiasedMean lp64 int32 ⟨7, 4⟩ = some (7 * 4 / (4 - 1)) :=
  C135_unbiased_mean_nonneg (n := 4) (by decide) (by decide) (by decide) (by decide) (by decide) (by decide) (by decide) (by decide) (by decide)

end Verif.Props
