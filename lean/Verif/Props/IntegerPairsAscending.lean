import Verif.Props.IntegerPairs
/-
C113, C134: variance and covariance of ascending unsigned integers.
-/
namespace Verif.Props
open CInt IntT
open Verif.Integer (tdiv_between)

variable {P : Platform} {T : Ty}

/-- Both coordinates do not descend. -/
def AscendingPairs (ps : List (Int × Int)) : Prop := ps.Pairwise fun p q => p.1 ≤ q.1 ∧ p.2 ≤ q.2

theorem comoment_run_ascending (hT : 1 ≤ T.bits) (hs : T.signed = false) {xlo xhi ylo yhi : Int}
    (hxlo : T.Has xlo) (hxhi : T.Has xhi) (hylo : T.Has ylo) (hyhi : T.Has yhi)
    (ps : List (Int × Int)) (hne : ps ≠ []) (hx : ∀ p ∈ ps, xlo ≤ p.1 ∧ p.1 ≤ xhi ∧ ylo ≤ p.2 ∧ p.2 ≤ yhi) (ha : AscendingPairs ps)
    (hn : (ps.length : Int) < T.hi) (hw : ps.length < 2 ^ P.sizeBits) (hM : (ps.length : Int) * ((xhi - xlo) * (yhi - ylo)) < T.hi) :
    ∃ mx my c, Comoment.run P T ps = some ⟨⟨mx, ps.length⟩, ⟨my, ps.length⟩, c⟩ ∧ xlo ≤ mx ∧ ylo ≤ my
      ∧ (∀ q : Int × Int, (∀ p ∈ ps, p.1 ≤ q.1 ∧ p.2 ≤ q.2) → mx ≤ q.1 ∧ my ≤ q.2)
      ∧ 0 ≤ c ∧ c ≤ (ps.length - 1) * ((xhi - xlo) * (yhi - ylo)) := by
  have hTlo : T.lo = 0 := by unfold Ty.lo; rw [hs]; rfl
  have hx0 : 0 ≤ xlo := by have := hxlo.1; omega
  have hy0 : 0 ≤ ylo := by have := hylo.1; omega
  have hxh := hxhi.2
  have hyh := hyhi.2
  induction ps using List.reverseRecOn with
  | nil => exact absurd rfl hne
  | append_singleton ps p ih =>
    obtain ⟨x, y⟩ := p
    have hl : (ps ++ [(x, y)]).length = ps.length + 1 := by simp
    rw [hl] at hn hw hM
    obtain ⟨hx1, hx2, hy1, hy2⟩ := hx (x, y) (by simp)
    simp only at hx1 hx2 hy1 hy2
    have hxT := hxlo.between hxhi hx1 hx2
    have hyT := hylo.between hyhi hy1 hy2
    have hR0 : 0 ≤ (xhi - xlo) * (yhi - ylo) := mul_nonneg (by omega) (by omega)
    generalize hR : (xhi - xlo) * (yhi - ylo) = R at *
    have hR2 : R < T.hi := by
      push_cast at hM
      have : 0 ≤ (ps.length : Int) * R := by positivity
      linarith
    have hM3 : (ps.length : Int) * R < T.hi := by
      push_cast at hM
      linarith
    rw [hl]
    rcases eq_or_ne ps [] with rfl | hne'
    · have e : x - (0 + (x - 0).tdiv (0 + 1 : Nat)) = 0 := by simp
      have := comoment_push_exact (P := P) (T := T) hT (mx := 0) (my := 0) (x := x) (y := y) (c := 0) (n := 0) T.has_zero T.has_zero
        hxT hyT T.has_zero (by simpa using hn) (by simpa using hw) (by rw [sub_zero]; exact Platform.has_promote hxT)
        (by rw [e]; exact Ty.has_zero _) (by rw [sub_zero]; exact Platform.has_promote hyT)
        (by rw [e, zero_mul]; exact Ty.has_zero _) (by rw [e, zero_mul]; exact Ty.has_zero _)
      refine ⟨x, y, 0, ?_, hx1, hy1, fun q hq => hq (x, y) (by simp), le_rfl, by simp⟩
      rw [comoment_run_snoc (s := ⟨⟨0, (0 : Nat)⟩, ⟨0, (0 : Nat)⟩, 0⟩) rfl, this, e]
      simp
    · rw [AscendingPairs, List.pairwise_append] at ha
      obtain ⟨mx, my, c, h1, h2, h4, h35, h6, h7⟩ := ih hne' (fun q hq => hx q (by simp [hq])) ha.1 (by push_cast at hn; omega)
        (by omega) hM3
      obtain ⟨h3, h5⟩ := h35 (x, y) (fun p hp => ha.2.2 p hp _ (by simp))
      simp only at h3 h5
      have ht := (tdiv_between (m := mx) (x := x) (n := ((ps.length + 1 : Nat) : Int)) (by omega)).1 h3
      have ht2 := (tdiv_between (m := my) (x := y) (n := ((ps.length + 1 : Nat) : Int)) (by omega)).1 h5
      have hp0 : 0 ≤ (x - (mx + (x - mx).tdiv (ps.length + 1 : Nat))) * (y - my) := mul_nonneg (by omega) (by omega)
      have hp1 : (x - (mx + (x - mx).tdiv (ps.length + 1 : Nat))) * (y - my) ≤ R := by
        rw [← hR]
        exact mul_le_mul (by omega) (by omega) (by omega) (by omega)
      have hb : ∀ z : Int, 0 ≤ z → z < T.hi → T.Has z := fun z h0 hz => ⟨by omega, hz⟩
      have hc1 : c + (x - (mx + (x - mx).tdiv (ps.length + 1 : Nat))) * (y - my) ≤ ps.length * R := by linarith
      have hcl : c < T.hi := by linarith
      refine ⟨_, _, _, ?_, h2.trans ht.1, h4.trans ht2.1, fun q hq => ?_, add_nonneg h6 hp0, by
        rw [show ((ps.length + 1 : Nat) : Int) - 1 = ps.length by omega]; exact hc1⟩
      · rw [comoment_run_snoc h1, comoment_push_exact hT (hb mx (by omega) (by omega)) (hb my (by omega) (by omega)) hxT hyT (hb c h6 hcl) hn hw
          (Platform.has_promote (hb _ (by omega) (by omega))) (Platform.has_promote (hb _ (by omega) (by omega)))
          (Platform.has_promote (hb _ (by omega) (by omega))) (Platform.has_promote (hb _ hp0 (by omega)))
          (hb _ (add_nonneg h6 hp0) (by omega))]
      · have := hq (x, y) (by simp)
        exact ⟨ht.2.trans this.1, ht2.2.trans this.2⟩

/-- C134 for ascending pairs in every unsigned type: the covariance is defined and within the product of the ranges. -/
theorem C134_ascending_partial (hT : 1 ≤ T.bits) (hs : T.signed = false) (hP : P.intBits ≤ P.sizeBits) (hTP : T.bits ≤ P.sizeBits)
    {xlo xhi ylo yhi : Int} (hxlo : T.Has xlo) (hxhi : T.Has xhi) (hylo : T.Has ylo) (hyhi : T.Has yhi)
    (ps : List (Int × Int)) (hne : ps ≠ []) (hx : ∀ p ∈ ps, xlo ≤ p.1 ∧ p.1 ≤ xhi ∧ ylo ≤ p.2 ∧ p.2 ≤ yhi) (ha : AscendingPairs ps)
    (hn : (ps.length : Int) < T.hi) (hw : ps.length < 2 ^ P.sizeBits) (hM : (ps.length : Int) * ((xhi - xlo) * (yhi - ylo)) < T.hi) :
    ∃ s v, Comoment.run P T ps = some s ∧ s.variance P T = some v ∧ v = s.center / ps.length ∧ 0 ≤ v ∧ v ≤ (xhi - xlo) * (yhi - ylo) := by
  obtain ⟨mx, my, c, h1, -, -, -, h6, h7⟩ := comoment_run_ascending (P := P) hT hs hxlo hxhi hylo hyhi ps hne hx ha hn hw hM
  have hlen : 1 ≤ ps.length := List.length_pos_iff.2 hne
  obtain ⟨p, hp⟩ := List.exists_mem_of_ne_nil ps hne
  have hpp := hx p hp
  have hR0 : 0 ≤ (xhi - xlo) * (yhi - ylo) := mul_nonneg (by omega) (by omega)
  have hq := (C134_quotient (P := P) (T := T) hP hTP ⟨⟨mx, ps.length⟩, ⟨my, ps.length⟩, c⟩ rfl hlen hw).1
  simp only at hq
  generalize (xhi - xlo) * (yhi - ylo) = R at *
  have hcR : c ≤ ps.length * R := by linarith
  have hhi : T.hi ≤ 2 ^ P.sizeBits := by
    unfold Ty.hi
    rw [hs]
    exact pow_le_pow_right₀ (by norm_num) hTP
  have hle : c / (ps.length : Int) ≤ c := Int.ediv_le_self _ h6
  have h0' : 0 ≤ c / (ps.length : Int) := Int.ediv_nonneg h6 (by omega)
  refine ⟨_, _, h1, hq, ?_, ?_⟩
  · rw [Int.emod_eq_of_lt h6 (by omega), Ty.conv_of_has hT ⟨T.lo_le_zero.trans h0', by omega⟩]
  · rw [Int.emod_eq_of_lt h6 (by omega), Ty.conv_of_has hT ⟨T.lo_le_zero.trans h0', by omega⟩]
    exact ⟨h0', Int.ediv_le_of_le_mul (by omega) (by rw [mul_comm]; exact hcR)⟩

/-- `unsigned int`: (1, 2), (4, 2), (7, 9). -/
example : ∃ s v, Comoment.run lp64 uint32 [(1, 2), (4, 2), (7, 9)] = some s ∧ s.variance lp64 uint32 = some v ∧ v = s.center / (3 : Nat)
    ∧ 0 ≤ v ∧ v ≤ (7 - 1) * (9 - 2) :=
  C134_ascending_partial (by decide) (by decide) (by decide) (by decide) (by decide) (by decide) (by decide) (by decide) _ (by decide)
    (by decide) (by unfold AscendingPairs; decide) (by decide) (by decide) (by decide)

/-- The same filter after a descent of one coordinate: (1, 2), (4, 1) have the covariance 2147483647. -/
example : (Comoment.run lp64 uint32 [(1, 2), (4, 1)]).bind (Comoment.variance lp64 uint32) = some 2147483647 := by decide

/-- C113 for ascending data in every unsigned type: if `n (hi - lo)^2` fits in the type, both variances are defined and
within `[0, (hi - lo)^2]`. -/
theorem C113_ascending_partial (hT : 1 ≤ T.bits) (hs : T.signed = false) (hP : P.intBits ≤ P.sizeBits)
    {lo hi : Int} (hlo : T.Has lo) (hhi : T.Has hi) (xs : List Int) (hne : xs ≠ []) (hx : ∀ x ∈ xs, lo ≤ x ∧ x ≤ hi)
    (ha : xs.Pairwise (· ≤ ·)) (hn : (xs.length : Int) < T.hi) (hw : xs.length < 2 ^ P.sizeBits) (hM : (xs.length : Int) * (hi - lo) ^ 2 < T.hi) :
    ∃ s, Variance.run P T xs = some s
      ∧ (∃ v, s.getVariance P T = some v ∧ 0 ≤ v ∧ v ≤ (hi - lo) ^ 2)
      ∧ (2 ≤ xs.length → ∃ v, s.unbiasedVariance P T = some v ∧ 0 ≤ v ∧ v ≤ (hi - lo) ^ 2) := by
  have hl : (xs.map fun x => (x, x)).length = xs.length := List.length_map _
  obtain ⟨mx, my, v, h1, -, -, -, h4, h5⟩ := comoment_run_ascending (P := P) hT hs hlo hhi hlo hhi (xs.map fun x => (x, x)) (by simpa using hne)
    (by
      intro p hp
      obtain ⟨x, hxm, rfl⟩ := List.mem_map.1 hp
      exact ⟨(hx x hxm).1, (hx x hxm).2, (hx x hxm).1, (hx x hxm).2⟩)
    (List.pairwise_map.2 (ha.imp fun h => ⟨h, h⟩)) (by rwa [hl]) (by rwa [hl]) (by rw [hl, ← sq]; exact hM)
  rw [hl, ← sq] at h5
  rw [hl, C134_self, Option.map_eq_some_iff] at h1
  obtain ⟨s, hrun, hs1⟩ := h1
  obtain ⟨b, sv⟩ := s
  simp only [Comoment.mk.injEq] at hs1
  obtain ⟨rfl, -, rfl⟩ := hs1
  have hlen : 1 ≤ xs.length := List.length_pos_iff.2 hne
  have hsq : 0 ≤ (hi - lo) ^ 2 := by positivity
  have hv : T.Has sv := ⟨T.lo_le_zero.trans h4, by
    have : ((xs.length : Int) - 1) * (hi - lo) ^ 2 ≤ xs.length * (hi - lo) ^ 2 :=
      mul_le_mul_of_nonneg_right (by omega) hsq
    linarith⟩
  have hq : ∀ k : Nat, 1 ≤ k → (xs.length : Int) - 1 ≤ k → 0 ≤ sv.tdiv k ∧ sv.tdiv k ≤ (hi - lo) ^ 2 := by
    intro k hk hk'
    rw [Int.tdiv_eq_ediv_of_nonneg h4]
    refine ⟨Int.ediv_nonneg h4 (by omega), ?_⟩
    refine Int.ediv_le_of_le_mul (by omega) ?_
    rw [mul_comm]
    exact h5.trans (mul_le_mul_of_nonneg_right hk' hsq)
  refine ⟨_, hrun, ⟨sv.tdiv xs.length, ?_, hq _ hlen (by omega)⟩, fun h2 => ⟨sv.tdiv (xs.length - 1 : Nat), ?_, hq _ (by omega) (by omega)⟩⟩
  · have := Variance.div_count (P := P) hT hv hlen hn
    rw [Option.map_eq_bind] at this
    exact this
  · have hp : 2 ≤ P.sizeBits := by
      by_contra hc
      have : 2 ^ P.sizeBits ≤ 2 ^ 1 := Nat.pow_le_pow_right (by norm_num) (by omega)
      omega
    have := Variance.div_count (P := P) hT (n := xs.length - 1) hv (by omega) (by omega)
    rw [Option.map_eq_bind] at this
    unfold Variance.unbiasedVariance
    rw [Variance.size_pred hP hp hlen hw]
    exact this

/-- `unsigned int`: 1, 5, 5, 9. -/
example : ∃ s, Variance.run lp64 uint32 [1, 5, 5, 9] = some s
    ∧ (∃ v, s.getVariance lp64 uint32 = some v ∧ 0 ≤ v ∧ v ≤ (9 - 1) ^ 2)
    ∧ (2 ≤ 4 → ∃ v, s.unbiasedVariance lp64 uint32 = some v ∧ 0 ≤ v ∧ v ≤ (9 - 1) ^ 2) :=
  C113_ascending_partial (by decide) (by decide) (by decide) (by decide) (by decide) _ (by decide) (by decide) (by decide) (by decide)
    (by decide) (by decide)

end Verif.Props
