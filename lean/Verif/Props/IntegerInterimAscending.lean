import Verif.Props.IntegerInterim
/-
C115: the interim mean of ascending unsigned integers.
-/
namespace Verif.Props
open CInt IntT
open Verif.Integer (tdiv_between)

variable {P : Platform} {T : Ty}

/-- A push of a value that is not below the mean. -/
theorem push_ascending (hT : 1 ≤ T.bits) (hs : T.signed = false) {lo hi m x : Int} {n : Nat} (hlo : T.Has lo) (hhi : T.Has hi)
    (hx : lo ≤ x ∧ x ≤ hi) (hm : m = 0 ∧ n = 0 ∨ lo ≤ m ∧ m ≤ x) (hn : ((n + 1 : Nat) : Int) < T.hi) (hw : n + 1 < 2 ^ P.sizeBits) :
    ∃ m', Mean.push P T ⟨m, n⟩ x = some ⟨m', (n + 1 : Nat)⟩ ∧ lo ≤ m' ∧ m' ≤ x := by
  have hTlo : T.lo = 0 := by unfold Ty.lo; rw [hs]; rfl
  have hl := hlo.1
  have hh := hhi.2
  have hb : ∀ z : Int, 0 ≤ z → z < T.hi → T.Has z := fun z h0 hz => ⟨by omega, hz⟩
  rcases hm with ⟨rfl, rfl⟩ | ⟨h1, h2⟩
  · refine ⟨_, Mean.push_exact hT T.has_zero (hb x (by omega) (by omega)) hn hw (Platform.has_promote (hb _ (by omega) (by omega))), ?_⟩
    simp only [sub_zero, zero_add, Nat.cast_one, Int.tdiv_one]
    exact ⟨hx.1, le_rfl⟩
  · refine ⟨_, Mean.push_exact hT (hb m (by omega) (by omega)) (hb x (by omega) (by omega)) hn hw (Platform.has_promote (hb _ (by omega) (by omega))), ?_⟩
    have := (tdiv_between (m := m) (x := x) (n := ((n + 1 : Nat) : Int)) (by omega)).1 h2
    exact ⟨h1.trans this.1, this.2⟩

/-- The two means lie within the data. -/
theorem interim_run_ascending (hT : 1 ≤ T.bits) (hTP : T.bits ≤ P.sizeBits) (hs : T.signed = false) {lo hi : Int} (hlo : T.Has lo)
    (hhi : T.Has hi) {W : Nat} (hW : 1 ≤ W) (hn : (W : Int) < T.hi) (xs : List Int)
    (hne : xs ≠ []) (hx : ∀ x ∈ xs, lo ≤ x ∧ x ≤ hi) (ha : xs.Pairwise (· ≤ ·)) :
    ∃ (s : IMean) (k : Nat), IMean.run P T W xs = some s ∧ s.active.count = k ∧ 1 ≤ k ∧ k ≤ W ∧ lo ≤ s.active.mean
      ∧ (∀ q, (∀ x ∈ xs, x ≤ q) → s.active.mean ≤ q)
      ∧ (s.passive = Mean.init ∨ s.passive.count = W ∧ lo ≤ s.passive.mean ∧ s.passive.mean ≤ hi) := by
  have h2 := IntT.Ty_hi_le hTP
  have hw : ∀ k : Nat, (k : Int) < T.hi → k < 2 ^ P.sizeBits := by
    intro k hk
    have : (k : Int) < ((2 ^ P.sizeBits : Nat) : Int) := by push_cast; exact hk.trans_le h2
    exact_mod_cast this
  induction xs using List.reverseRecOn with
  | nil => exact absurd rfl hne
  | append_singleton xs x ih =>
    have hxx := hx x (by simp)
    have hq : ∀ q, (∀ y ∈ xs ++ [x], y ≤ q) → x ≤ q := fun q h => h x (by simp)
    rcases eq_or_ne xs [] with rfl | hne'
    · obtain ⟨m', h1, h3⟩ := push_ascending (P := P) hT hs hlo hhi hxx (Or.inl ⟨rfl, rfl⟩) (n := 0) (by push_cast; omega)
        (hw _ (by push_cast; omega))
      refine ⟨⟨⟨m', (0 + 1 : Nat)⟩, Mean.init⟩, 1, ?_, rfl, le_rfl, hW, h3.1, fun q h => h3.2.trans (hq q h), Or.inl rfl⟩
      rw [IMean.run_snoc (s := IMean.init) rfl]
      unfold IMean.push
      have hc : ¬ ((IMean.init.active.count : Int) ≥ W) := by show ¬ ((0 : Int) ≥ W); omega
      simp only [if_neg hc]
      show (Mean.push P T ⟨0, (0 : Nat)⟩ x).bind _ = _
      rw [h1]; rfl
    · rw [List.pairwise_append] at ha
      obtain ⟨s, k, h1, h3, h4, h5, h6, h7, h8⟩ := ih hne' (fun y hy => hx y (by simp [hy])) ha.1
      rw [IMean.run_snoc h1]
      unfold IMean.push
      by_cases hc : s.active.count ≥ (W : Int)
      · obtain ⟨m', h9, h10⟩ := push_ascending (P := P) hT hs hlo hhi hxx (Or.inl ⟨rfl, rfl⟩) (n := 0) (by push_cast; omega)
          (hw _ (by push_cast; omega))
        refine ⟨⟨⟨m', (0 + 1 : Nat)⟩, s.active⟩, 1, ?_, rfl, le_rfl, hW, h10.1, fun q h => h10.2.trans (hq q h),
          Or.inr ⟨?_, h6, h7 hi fun y hy => (hx y (by simp [hy])).2⟩⟩
        · simp only [if_pos hc]
          show (Mean.push P T ⟨0, (0 : Nat)⟩ x).bind _ = _
          rw [h9]; rfl
        · show s.active.count = W; omega
      · obtain ⟨m', h9, h10⟩ := push_ascending (P := P) hT hs hlo hhi hxx (Or.inr ⟨h6, h7 x fun y hy => ha.2.2 y hy x (by simp)⟩) (n := k)
          (by push_cast; omega) (hw _ (by push_cast; omega))
        refine ⟨⟨⟨m', (k + 1 : Nat)⟩, s.passive⟩, k + 1, ?_, rfl, by omega, by omega, h10.1, fun q h => h10.2.trans (hq q h), h8⟩
        simp only [if_neg hc]
        have e : s.active = ⟨s.active.mean, (k : Nat)⟩ := by rw [← h3]
        rw [e]
        show (Mean.push P T ⟨s.active.mean, (k : Nat)⟩ x).bind _ = _
        rw [h9]; rfl

/-- C115 for ascending data in every unsigned type whose weighted sums do not reach `2^w`. -/
theorem C115_ascending_partial (hT : 1 ≤ T.bits) (hP : P.intBits ≤ P.sizeBits) (hTP : T.bits ≤ P.sizeBits)
    (hs : T.signed = false) {W : Nat} {lo hi : Int} (hW : 1 ≤ W) (hn : 2 * (W : Int) < T.hi)
    (hlo : T.Has lo) (hhi : T.Has hi) (hb : 2 * (W : Int) * hi < 2 ^ P.sizeBits) (xs : List Int) (hne : xs ≠ [])
    (hx : ∀ x ∈ xs, lo ≤ x ∧ x ≤ hi) (ha : xs.Pairwise (· ≤ ·)) :
    ∃ s m, IMean.run P T W xs = some s ∧ s.mean P T W = some m ∧ lo ≤ m ∧ m ≤ hi := by
  have h0 : 0 ≤ lo := by
    have hTlo : T.lo = 0 := by unfold Ty.lo; rw [hs]; rfl
    have := hlo.1
    omega
  obtain ⟨s, k, h1, h2, h3, h4, h5, h6, h7⟩ := interim_run_ascending hT hTP hs hlo hhi hW (by omega) xs hne hx ha
  have h6 := h6 hi fun x h => (hx x h).2
  rcases h7 with h7 | ⟨h7, h8, h9⟩
  · refine ⟨s, s.active.mean, h1, ?_, h5, h6⟩
    unfold IMean.mean
    rw [h7]
    exact if_pos rfl
  · have e : s = ⟨⟨s.active.mean, (k : Nat)⟩, ⟨s.passive.mean, (W : Nat)⟩⟩ := by rw [← h2, ← h7]
    generalize s.active.mean = b at *
    generalize s.passive.mean = a at *
    have hSl : lo * (W + k) ≤ a * (W - k) + b * (2 * k) := by nlinarith
    have hSh : a * (W - k) + b * (2 * k) ≤ hi * (W + k) := by nlinarith
    have hS0 : 0 ≤ a * ((W : Int) - k) + b * (2 * k) := le_trans (by positivity) hSl
    have hS1 : a * ((W : Int) - k) + b * (2 * k) < 2 ^ P.sizeBits := by
      have : hi * ((W : Int) + k) ≤ 2 * W * hi := by nlinarith
      omega
    have hm : lo ≤ (a * ((W : Int) - k) + b * (2 * k)) / (W + k) ∧ (a * ((W : Int) - k) + b * (2 * k)) / (W + k) ≤ hi :=
      ⟨(Int.le_ediv_iff_mul_le (by omega)).2 hSl, Int.ediv_le_of_le_mul (by omega) hSh⟩
    refine ⟨s, _, h1, ?_, hm⟩
    rw [e, IMean.mean_eq hT hP hTP a b hW h4 hn, Int.emod_eq_of_lt hS0 hS1,
      Ty.conv_of_has hT (hlo.between hhi hm.1 hm.2)]

/-- `unsigned int`, blocks of 2: 4, 8, 8, 10, 15. -/
example : ∃ s m, IMean.run lp64 uint32 2 [4, 8, 8, 10, 15] = some s ∧ s.mean lp64 uint32 2 = some m ∧ 4 ≤ m ∧ m ≤ 15 :=
  C115_ascending_partial (by decide) (by decide) (by decide) (by decide) (by decide) (by decide) (by decide) (by decide) (by decide)
    _ (by decide) (by decide) (by decide)

end Verif.Props
