import Verif.Proofs.IntegerInterim
import Verif.Props.IntegerTypes
/-
C115: the interim mean of integers.
-/
namespace Verif.Props
open CInt IntT

variable {P : Platform} {T : Ty}

/-- C115, the claim: the interim mean of integers is defined and lies within the data. -/
def IntInterimWithin (P : Platform) (T : Ty) : Prop :=
  ∀ (W : Nat) (lo hi : Int), 1 ≤ W → 2 * (W : Int) < T.hi → T.Has lo → T.Has hi → hi - lo < (P.promote T).hi →
    ∀ xs : List Int, xs ≠ [] → (∀ x ∈ xs, lo ≤ x ∧ x ≤ hi) →
      ∃ s m, IMean.run P T W xs = some s ∧ s.mean P T W = some m ∧ lo ≤ m ∧ m ≤ hi

/-- The interim mean of three times -6 with a window of 2 is 1431655759. -/
theorem C115_negative :
    (IMean.run lp64 int32 2 [-6, -6, -6]).bind (IMean.mean lp64 int32 2) = some 1431655759 := by decide

/-- C115 is violated for `int`. -/
theorem C115_violated : ¬ IntInterimWithin lp64 int32 := by
  intro h
  obtain ⟨s, m, h1, h2, -, h4⟩ := h 2 (-6) (-6) (by decide) (by decide) (by decide) (by decide) (by decide)
    [-6, -6, -6] (by decide) (by decide)
  have := C115_negative
  rw [h1, Option.bind_some, h2] at this
  rw [Option.some.inj this] at h4
  revert h4; decide

/-- A negative weighted sum `S` is divided as `2^w + S`: for every type and all means. -/
theorem C115_wraps (hT : 1 ≤ T.bits) (hP : P.intBits ≤ P.sizeBits) (hTP : T.bits ≤ P.sizeBits) (a b : Int) {W k : Nat}
    (hW : 1 ≤ W) (hk : k ≤ W) (hn : 2 * (W : Int) < T.hi) (h0 : a * (W - k) + b * (2 * k) < 0)
    (h1 : -2 ^ P.sizeBits ≤ a * (W - k) + b * (2 * k)) :
    IMean.mean P T W ⟨⟨b, k⟩, ⟨a, W⟩⟩ = some (T.conv ((2 ^ P.sizeBits + (a * (W - k) + b * (2 * k))) / (W + k))) := by
  rw [IMean.mean_eq hT hP hTP a b hW hk hn]
  have : (a * ((W : Int) - k) + b * (2 * k)) % 2 ^ P.sizeBits = 2 ^ P.sizeBits + (a * (W - k) + b * (2 * k)) := by
    rw [← Int.add_emod_left]
    exact Int.emod_eq_of_lt (by omega) (by omega)
  rw [this]

/-- C115, the part that holds: data that are not negative and whose weighted sums do not reach `2^w`, in every type with
signed arithmetic.  Missing: negative data (violated), data in unsigned types that are not
narrower than `int` (C112) and not ascending (`C115_ascending_partial`). -/
theorem C115_within_partial (hT : 1 ≤ T.bits) (hP : P.intBits ≤ P.sizeBits) (hTP : T.bits ≤ P.sizeBits)
    (hs : (P.promote T).signed = true) {W : Nat} {lo hi : Int} (hW : 1 ≤ W) (hn : 2 * (W : Int) < T.hi) (h0 : 0 ≤ lo)
    (hlo : T.Has lo) (hhi : T.Has hi) (hb : 2 * (W : Int) * hi < 2 ^ P.sizeBits) (xs : List Int) (hne : xs ≠ [])
    (hx : ∀ x ∈ xs, lo ≤ x ∧ x ≤ hi) :
    ∃ s m, IMean.run P T W xs = some s ∧ s.mean P T W = some m ∧ lo ≤ m ∧ m ≤ hi := by
  obtain ⟨s, k, h1, h2, h3, h4, h5, h6, h7⟩ := IMean.run_within hT hTP hs hlo hhi (by
    have := (Platform.has_promote (P := P) hhi).2; omega) hW (by omega) xs hne hx
  rcases h7 with h7 | ⟨h7, h8, h9⟩
  · refine ⟨s, s.active.mean, h1, ?_, h5, h6⟩
    unfold IMean.mean
    rw [h7]
    exact if_pos rfl
  · have e : s = ⟨⟨s.active.mean, (k : Nat)⟩, ⟨s.passive.mean, (W : Nat)⟩⟩ := by rw [← h2, ← h7]
    generalize s.active.mean = b at *
    generalize s.passive.mean = a at *
    have hSl : lo * (W + k) ≤ a * (W - k) + b * (2 * k) := by nlinarith
    have hSh : a * (W - k) + b * (2 * k) ≤ hi * (W + k) := by nlinarith
    have hS0 : 0 ≤ a * ((W : Int) - k) + b * (2 * k) := le_trans (by positivity) hSl
    have hS1 : a * ((W : Int) - k) + b * (2 * k) < 2 ^ P.sizeBits := by
      have : hi * ((W : Int) + k) ≤ 2 * W * hi := by nlinarith
      omega
    have hm : lo ≤ (a * ((W : Int) - k) + b * (2 * k)) / (W + k) ∧ (a * ((W : Int) - k) + b * (2 * k)) / (W + k) ≤ hi :=
      ⟨(Int.le_ediv_iff_mul_le (by omega)).2 hSl, Int.ediv_le_of_le_mul (by omega) hSh⟩
    refine ⟨s, _, h1, ?_, hm⟩
    rw [e, IMean.mean_eq hT hP hTP a b hW h4 hn, Int.emod_eq_of_lt hS0 hS1,
      Ty.conv_of_has hT (hlo.between hhi hm.1 hm.2)]

example : IMean.mean lp64 int32 2 ⟨⟨-6, 1⟩, ⟨-6, 2⟩⟩ = some (int32.conv ((2 ^ 64 + (-6 * (2 - 1) + -6 * (2 * 1))) / (2 + 1))) :=
  C115_wraps (P := lp64) (T := int32) (W := 2) (k := 1) (by decide) (by decide) (by decide) (-6) (-6) (by decide) (by decide)
    (by decide) (by decide) (by decide)

example : (IMean.run lp64 int32 2 [4, 8, 10]).bind (IMean.mean lp64 int32 2) = some 8 := by decide

example : ∃ s m, IMean.run lp64 int32 2 [4, 8, 10] = some s ∧ s.mean lp64 int32 2 = some m ∧ 4 ≤ m ∧ m ≤ 10 :=
  C115_within_partial (by decide) (by decide) (by decide) (by decide) (by decide) (by decide) (by decide) (by decide) (by decide)
    (by decide) _ (by decide) (by decide)

end Verif.Props
