import Verif.Model.Integer
import Verif.Proofs.History
import Mathlib.Tactic.Linarith
import Mathlib.Tactic.NormNum
import Mathlib.Tactic.Ring
/-
C23, C24: integer value types.
-/
namespace Verif.Integer

theorem wrapS_of_inRange {b : Nat} (hb : 1 ≤ b) {z : Int} (h : InRange b z) : wrapS b z = z := by
  unfold wrapS
  obtain ⟨b, rfl⟩ : ∃ c, b = c + 1 := ⟨b - 1, by omega⟩
  unfold InRange at h
  rw [Nat.add_sub_cancel] at h
  rw [BitVec.toInt_ofInt]
  have e : (2 : Int) ^ (b + 1) = 2 * 2 ^ b := by ring
  apply Int.bmod_eq_of_le
  · push_cast; rw [e]; omega
  · push_cast; rw [e]; omega

theorem checked_of_inRange {b : Nat} {z : Int} (h : InRange b z) : checked b z = some z := if_pos h

theorem inRange_mono {b c : Nat} (h : b ≤ c) {z : Int} (hz : InRange b z) : InRange c z := by
  have h1 : (2 : Int) ^ (b - 1) ≤ 2 ^ (c - 1) := pow_le_pow_right₀ (by norm_num) (by omega)
  exact ⟨by linarith [hz.1], by linarith [hz.2]⟩

/-- `m + (x - m) / n` lies between `m` and `x`. -/
theorem tdiv_between {m x n : Int} (hn : 1 ≤ n) :
    (m ≤ x → m ≤ m + (x - m).tdiv n ∧ m + (x - m).tdiv n ≤ x)
      ∧ (x ≤ m → x ≤ m + (x - m).tdiv n ∧ m + (x - m).tdiv n ≤ m) := by
  constructor
  · intro h
    have h0 : 0 ≤ x - m := by omega
    rw [Int.tdiv_eq_ediv_of_nonneg h0]
    have h1 : 0 ≤ (x - m) / n := Int.ediv_nonneg h0 (by omega)
    have h2 : (x - m) / n ≤ x - m := Int.ediv_le_self _ h0
    omega
  · intro h
    have h0 : 0 ≤ m - x := by omega
    have e : (x - m).tdiv n = -((m - x) / n) := by
      rw [← Int.tdiv_eq_ediv_of_nonneg h0, ← Int.neg_tdiv, neg_sub]
    rw [e]
    have h1 : 0 ≤ (m - x) / n := Int.ediv_nonneg h0 (by omega)
    have h2 : (m - x) / n ≤ m - x := Int.ediv_le_self _ h0
    omega

/-- One update of the running mean with divisor `n >= 1`. -/
theorem mean_step {b ib : Nat} (hb : 1 ≤ b) {lo hi m x : Int} (n : Int)
    (hlo : InRange b lo) (hhi : InRange b hi) (hd : hi - lo < 2 ^ (promoted b ib - 1))
    (hm : lo ≤ m ∧ m ≤ hi) (hx : lo ≤ x ∧ x ≤ hi) (hn : 1 ≤ n) (hnr : InRange b n) :
    checked (promoted b ib) (x - m) = some (x - m)
      ∧ divS (promoted b ib) (x - m) (wrapS b n) = some ((x - m).tdiv n)
      ∧ checked (promoted b ib) (m + (x - m).tdiv n) = some (m + (x - m).tdiv n)
      ∧ wrapS b (m + (x - m).tdiv n) = m + (x - m).tdiv n
      ∧ lo ≤ m + (x - m).tdiv n ∧ m + (x - m).tdiv n ≤ hi := by
  have hp : b ≤ promoted b ib := le_max_left _ _
  have ht := tdiv_between (m := m) (x := x) hn
  have hbt : lo ≤ m + (x - m).tdiv n ∧ m + (x - m).tdiv n ≤ hi := by
    rcases le_total m x with h | h
    · have := ht.1 h; omega
    · have := ht.2 h; omega
  have hr : InRange b (m + (x - m).tdiv n) := ⟨by have := hlo.1; omega, by have := hhi.2; omega⟩
  have hdr : InRange (promoted b ib) (x - m) := ⟨by omega, by omega⟩
  have hqr : InRange (promoted b ib) ((x - m).tdiv n) := by
    rcases le_total m x with h | h
    · have := ht.1 h; exact ⟨by omega, by omega⟩
    · have := ht.2 h; exact ⟨by omega, by omega⟩
  refine ⟨checked_of_inRange hdr, ?_, checked_of_inRange (inRange_mono hp hr), wrapS_of_inRange hb hr, hbt⟩
  rw [wrapS_of_inRange hb hnr, divS, if_neg (by omega), checked_of_inRange hqr]

/-- The first value replaces the mean 0. -/
theorem mean_first {b ib : Nat} (hb : 1 ≤ b) {x : Int} (hx : InRange b x) (h1 : InRange b 1) :
    checked (promoted b ib) (x - 0) = some x ∧ divS (promoted b ib) x (wrapS b 1) = some x
      ∧ checked (promoted b ib) (0 + x) = some x ∧ wrapS b x = x := by
  have hp := inRange_mono (le_max_left b ib) hx
  refine ⟨by rw [sub_zero]; exact checked_of_inRange hp, ?_, by rw [zero_add]; exact checked_of_inRange hp,
    wrapS_of_inRange hb hx⟩
  rw [wrapS_of_inRange hb h1, divS, if_neg (by norm_num), Int.tdiv_one]
  exact checked_of_inRange hp

theorem Mean.push_eq {w b ib : Nat} {s : Mean w} {x d q m : Int} {n : Nat} (hn : n < 2 ^ w)
    (hc : s.count + 1 = BitVec.ofNat w n) (h1 : checked (promoted b ib) (x - s.mean) = some d)
    (h2 : divS (promoted b ib) d (wrapS b n) = some q)
    (h3 : checked (promoted b ib) (s.mean + q) = some m) :
    Mean.push b ib s x = some { mean := wrapS b m, count := BitVec.ofNat w n } := by
  unfold Mean.push
  simp only [hc, toNat_ofNat_lt hn, h1, h2, h3, Option.bind_eq_bind, Option.bind_some]
  rfl

theorem WMean.push_eq_grow {b ib N : Nat} {s : WMean} {x d q m : Int} (hN : s.window.length ≠ N)
    (h1 : checked (promoted b ib) (x - s.mean) = some d)
    (h2 : divS (promoted b ib) d (wrapS b (s.window.length + 1 : Nat)) = some q)
    (h3 : checked (promoted b ib) (s.mean + q) = some m) :
    WMean.push b ib N s x = some { mean := wrapS b m, window := s.window ++ [x] } := by
  unfold WMean.push
  push_cast at h2
  simp only [if_neg hN, h1, h2, h3, Option.bind_eq_bind, Option.bind_some]
  rfl

theorem WMean.push_eq_slide {b ib N : Nat} {s : WMean} {x f d q m : Int} {t : List Int}
    (hN : s.window.length = N) (hf : s.window = f :: t)
    (h1 : checked (promoted b ib) (x - f) = some d)
    (h2 : divS (promoted b ib) d (wrapS b N) = some q)
    (h3 : checked (promoted b ib) (s.mean + q) = some m) :
    WMean.push b ib N s x = some { mean := wrapS b m, window := t ++ [x] } := by
  unfold WMean.push
  have hd : s.window.head? = some f := by rw [hf]; rfl
  have ht : s.window.tail = t := by rw [hf]; rfl
  simp only [hd, ht, hN, h1, h2, h3, Option.bind_eq_bind, Option.bind_some]
  rfl

theorem run_snoc {w b ib : Nat} {xs : List Int} {s : Mean w} (hs : Mean.run b ib xs = some s) (x : Int) :
    Mean.run b ib (xs ++ [x]) = (Mean.push b ib s x : Option (Mean w)) := by
  unfold Mean.run at hs ⊢
  rw [List.foldlM_append, hs]
  simp

theorem wrun_snoc {b ib N : Nat} {xs : List Int} {s : WMean} (hs : WMean.run b ib N xs = some s) (x : Int) :
    WMean.run b ib N (xs ++ [x]) = WMean.push b ib N s x := by
  unfold WMean.run at hs ⊢
  rw [List.foldlM_append, hs]
  simp

end Verif.Integer

namespace Verif.Props
open Verif.Integer

/-! ### C23 -/

/-- C23 (full statement for the cumulative mean, false): no undefined behaviour, and the mean stays within
the data. -/
def IntMeanWithin (w b ib : Nat) : Prop :=
  ∀ (xs : List Int) (lo hi : Int), xs ≠ [] → (∀ x ∈ xs, InRange b x ∧ lo ≤ x ∧ x ≤ hi) → xs.length < 2 ^ w →
    ∃ s : Mean w, Mean.run b ib xs = some s ∧ lo ≤ s.mean ∧ s.mean ≤ hi

/-- C23 (full statement for the window mean, false). -/
def IntWindowMeanWithin (b ib : Nat) : Prop :=
  ∀ (N : Nat) (xs : List Int) (lo hi : Int), 1 ≤ N → xs ≠ [] → (∀ x ∈ xs, InRange b x ∧ lo ≤ x ∧ x ≤ hi) →
    ∃ s : WMean, WMean.run b ib N xs = some s ∧ lo ≤ s.mean ∧ s.mean ≤ hi

theorem mean_run_partial {w b ib : Nat} (hb : 1 ≤ b) {lo hi : Int} (hlo : InRange b lo) (hhi : InRange b hi)
    (hd : hi - lo < 2 ^ (promoted b ib - 1)) (xs : List Int) (hx : ∀ x ∈ xs, lo ≤ x ∧ x ≤ hi)
    (hn : (xs.length : Int) < 2 ^ (b - 1)) (hw : xs.length < 2 ^ w) :
    ∃ s : Mean w, Mean.run b ib xs = some s ∧ s.count = BitVec.ofNat w xs.length
      ∧ (xs ≠ [] → lo ≤ s.mean ∧ s.mean ≤ hi) ∧ (xs = [] → s.mean = 0) := by
  induction xs using List.reverseRecOn with
  | nil => exact ⟨Mean.init, rfl, rfl, by simp, fun _ => rfl⟩
  | append_singleton xs x ih =>
    rw [List.length_append, List.length_singleton] at hn hw
    push_cast at hn
    obtain ⟨s, hs, hc, h1, h2⟩ := ih (fun y hy => hx y (by simp [hy])) (by omega) (by omega)
    have hxx := hx x (by simp)
    have hcount : s.count + 1 = BitVec.ofNat w (xs.length + 1) := by rw [hc, ← ofNat_add_one]
    have hlen : (xs ++ [x]).length = xs.length + 1 := by simp
    rw [run_snoc hs, hlen]
    by_cases h : xs = []
    · have hm0 := h2 h
      have hr : InRange b x := ⟨by have := hlo.1; omega, by have := hhi.2; omega⟩
      have h1r : InRange b 1 := ⟨by omega, by omega⟩
      obtain ⟨a1, a2, a3, a4⟩ := mean_first (ib := ib) hb hr h1r
      have hl1 : ((xs.length + 1 : Nat) : Int) = 1 := by simp [h]
      rw [Mean.push_eq hw hcount (d := x) (q := x) (m := x) (by rw [hm0]; exact a1) (by rw [hl1]; exact a2)
        (by rw [hm0]; exact a3), a4]
      exact ⟨_, rfl, rfl, fun _ => hxx, fun h => by simp at h⟩
    · have hm := h1 h
      have hnr : InRange b ((xs.length + 1 : Nat) : Int) :=
        ⟨by push_cast; omega, by push_cast; omega⟩
      obtain ⟨a1, a2, a3, a4, a5⟩ := mean_step hb (ib := ib) ((xs.length + 1 : Nat) : Int) hlo hhi hd hm hxx
        (by push_cast; omega) hnr
      rw [Mean.push_eq hw hcount a1 a2 a3, a4]
      exact ⟨_, rfl, rfl, fun _ => a5, fun h => by simp at h⟩

theorem window_run_partial {b ib N : Nat} (hb : 1 ≤ b) {lo hi : Int} (hlo : InRange b lo) (hhi : InRange b hi)
    (hd : hi - lo < 2 ^ (promoted b ib - 1)) (xs : List Int) (hx : ∀ x ∈ xs, lo ≤ x ∧ x ≤ hi)
    (hn : (xs.length : Int) < 2 ^ (b - 1)) (hN : xs.length ≤ N) :
    ∃ s : WMean, WMean.run b ib N xs = some s ∧ s.window = xs
      ∧ (xs ≠ [] → lo ≤ s.mean ∧ s.mean ≤ hi) ∧ (xs = [] → s.mean = 0) := by
  induction xs using List.reverseRecOn with
  | nil => exact ⟨WMean.init, rfl, rfl, by simp, fun _ => rfl⟩
  | append_singleton xs x ih =>
    rw [List.length_append, List.length_singleton] at hn hN
    push_cast at hn
    obtain ⟨s, hs, hc, h1, h2⟩ := ih (fun y hy => hx y (by simp [hy])) (by omega) (by omega)
    have hxx := hx x (by simp)
    have hlen : s.window.length ≠ N := by rw [hc]; omega
    rw [wrun_snoc hs]
    by_cases h : xs = []
    · have hm0 := h2 h
      have hr : InRange b x := ⟨by have := hlo.1; omega, by have := hhi.2; omega⟩
      have h1r : InRange b 1 := ⟨by omega, by omega⟩
      obtain ⟨a1, a2, a3, a4⟩ := mean_first (ib := ib) hb hr h1r
      have hl1 : ((s.window.length + 1 : Nat) : Int) = 1 := by simp [hc, h]
      rw [WMean.push_eq_grow hlen (d := x) (q := x) (m := x) (by rw [hm0]; exact a1) (by rw [hl1]; exact a2)
        (by rw [hm0]; exact a3), a4, hc]
      exact ⟨_, rfl, rfl, fun _ => hxx, fun h => by simp at h⟩
    · have hm := h1 h
      have hnr : InRange b ((xs.length + 1 : Nat) : Int) :=
        ⟨by push_cast; omega, by push_cast; omega⟩
      obtain ⟨a1, a2, a3, a4, a5⟩ := mean_step hb (ib := ib) ((xs.length + 1 : Nat) : Int) hlo hhi hd hm hxx
        (by push_cast; omega) hnr
      rw [WMean.push_eq_grow hlen a1 (by rw [hc]; exact a2) a3, a4, hc]
      exact ⟨_, rfl, rfl, fun _ => a5, fun h => by simp at h⟩

/-- C23 (partial): fewer than `2^(b-1)` values whose range does not overflow the promoted type: no
undefined behaviour, and the cumulative mean stays within the data. Missing: more values than the value
type can count, ranges that overflow, windows that have been filled. -/
theorem C23_mean_partial {w b ib : Nat} (hb : 1 ≤ b) {lo hi : Int} (hlo : InRange b lo) (hhi : InRange b hi)
    (hd : hi - lo < 2 ^ (promoted b ib - 1)) (xs : List Int) (h0 : xs ≠ [])
    (hx : ∀ x ∈ xs, lo ≤ x ∧ x ≤ hi) (hn : (xs.length : Int) < 2 ^ (b - 1)) (hw : xs.length < 2 ^ w) :
    ∃ s : Mean w, Mean.run b ib xs = some s ∧ lo ≤ s.mean ∧ s.mean ≤ hi := by
  obtain ⟨s, hs, -, h1, -⟩ := mean_run_partial (w := w) hb hlo hhi hd xs hx hn hw
  exact ⟨s, hs, h1 h0⟩

/-- C23 (partial): a window that has not been overfilled behaves like the cumulative mean. -/
theorem C23_window_partial {b ib N : Nat} (hb : 1 ≤ b) {lo hi : Int} (hlo : InRange b lo) (hhi : InRange b hi)
    (hd : hi - lo < 2 ^ (promoted b ib - 1)) (xs : List Int) (h0 : xs ≠ [])
    (hx : ∀ x ∈ xs, lo ≤ x ∧ x ≤ hi) (hn : (xs.length : Int) < 2 ^ (b - 1)) (hN : xs.length ≤ N) :
    ∃ s : WMean, WMean.run b ib N xs = some s ∧ lo ≤ s.mean ∧ s.mean ≤ hi := by
  obtain ⟨s, hs, -, h1, -⟩ := window_run_partial (ib := ib) (N := N) hb hlo hhi hd xs hx hn hN
  exact ⟨s, hs, h1 h0⟩

theorem run_count {w b ib : Nat} (l : List Int) (s : Mean w) (hs : Mean.run b ib l = some s) :
    s.count = BitVec.ofNat w l.length := by
  induction l using List.reverseRecOn generalizing s with
  | nil =>
    simp only [Mean.run, List.foldlM_nil, Option.pure_def, Option.some.injEq] at hs
    rw [← hs]; rfl
  | append_singleton l x ih =>
    cases ht : (Mean.run b ib l : Option (Mean w)) with
    | none =>
      unfold Mean.run at hs ht
      rw [List.foldlM_append, ht] at hs
      simp at hs
    | some t =>
      rw [run_snoc ht] at hs
      have e := ih t ht
      simp only [Mean.push, Option.bind_eq_bind, Option.bind_eq_some_iff, Option.pure_def,
        Option.some.injEq] at hs
      obtain ⟨_, _, _, _, _, _, hs⟩ := hs
      rw [← hs]
      simp only [e, List.length_append, List.length_singleton]
      rw [ofNat_add_one]

/-- Pushing `2^b` values divides by zero, whatever the values are: `value_type(count)` is 0. -/
theorem C23_count_division_by_zero {w b : Nat} (ib : Nat) (hbw : b < w) (xs : List Int)
    (h : 2 ^ b ≤ xs.length) : (Mean.run b ib xs : Option (Mean w)) = none := by
  have h2 := Nat.two_pow_pos b
  have hz : ∀ l : List Int, l.length + 1 = 2 ^ b → ∀ x, (Mean.run b ib (l ++ [x]) : Option (Mean w)) = none := by
    intro l hl x
    cases hs : (Mean.run b ib l : Option (Mean w)) with
    | none =>
      unfold Mean.run at hs ⊢
      rw [List.foldlM_append, hs]; rfl
    | some s =>
      have e := run_count l s hs
      have hc1 : (s.count + 1).toNat = 2 ^ b := by
        rw [e, ofNat_add_one, hl, toNat_ofNat_lt (Nat.pow_lt_pow_right (by norm_num) hbw)]
      have hw0 : wrapS b ((2 ^ b : Nat) : Int) = 0 := by
        rw [wrapS, BitVec.toInt_ofInt, Int.bmod_self]
      rw [run_snoc hs, Mean.push]
      simp only [hc1, hw0, divS]
      cases checked (promoted b ib) (x - s.mean) <;> rfl
  have h1 : 2 ^ b - 1 < xs.length := by omega
  have hsplit : xs = (xs.take (2 ^ b - 1) ++ [xs[2 ^ b - 1]]) ++ xs.drop (2 ^ b) := by
    rw [← List.take_succ_eq_append_getElem h1, show 2 ^ b - 1 + 1 = 2 ^ b by omega, List.take_append_drop]
  have h3 := hz (xs.take (2 ^ b - 1)) (by rw [List.length_take]; omega) (xs[2 ^ b - 1])
  rw [hsplit]
  unfold Mean.run at h3 ⊢
  rw [List.foldlM_append, h3]; rfl

/-- C23 is violated by the cumulative mean for every value type narrower than `size_t`. -/
theorem C23_mean_violated {w b : Nat} (ib : Nat) (hbw : b < w) : ¬ IntMeanWithin w b ib := by
  intro h
  obtain ⟨s, hs, -⟩ := h (List.replicate (2 ^ b) 0) 0 0 (by simp) (by
    intro x hx
    rw [List.eq_of_mem_replicate hx]
    exact ⟨⟨by simp, by positivity⟩, le_refl _, le_refl _⟩)
    (by rw [List.length_replicate]; exact Nat.pow_lt_pow_right (by norm_num) hbw)
  rw [C23_count_division_by_zero ib hbw _ (by simp)] at hs
  exact absurd hs (by simp)

/-- Without undefined behaviour the mean leaves the data, too: `int8_t`, 127 times -100 and then 127 gives
-101, because `value_type(128)` is -128. -/
theorem C23_mean_leaves_data : ∃ s : Mean 64,
    Mean.run 8 32 (List.replicate 127 (-100) ++ [127]) = some s ∧ s.mean = -101 := by
  obtain ⟨s, hs, hc, h1, -⟩ := mean_run_partial (w := 64) (b := 8) (ib := 32) (lo := -100) (hi := -100)
    (by norm_num) (by decide) (by decide) (by decide) (List.replicate 127 (-100))
    (fun x hx => by rw [List.eq_of_mem_replicate hx]; exact ⟨le_refl _, le_refl _⟩) (by simp)
    (by simp)
  have hm := h1 (by simp)
  have hm' : s.mean = -100 := by omega
  refine ⟨⟨-101, 128⟩, ?_, rfl⟩
  rw [run_snoc hs, Mean.push_eq (n := 128) (d := 227) (q := -1) (m := -101) (by norm_num)
    (by rw [hc]; simp) (by rw [hm']; decide) (by decide) (by rw [hm']; decide)]
  congr 1

/-- The mean of a window drifts without bound: the values of the endless stream 0 0 (1 0 2 0 0 0)* lie in
[0, 2], yet after `k` periods the mean of a window of two values is `-k`, until it reaches the smallest
value of the type. -/
theorem C23_window_drift {b ib : Nat} (hb : 3 ≤ b) (k : Nat) (hk : (k : Int) ≤ 2 ^ (b - 1)) :
    WMean.run b ib 2 ([0, 0] ++ (List.replicate k [1, 0, 2, 0, 0, 0]).flatten)
      = some ⟨[0, 0], -(k : Int)⟩ := by
  have hp : b ≤ promoted b ib := le_max_left _ _
  have h4 : (4 : Int) ≤ 2 ^ (b - 1) := by
    have : (2 : Int) ^ 2 ≤ 2 ^ (b - 1) := pow_le_pow_right₀ (by norm_num) (by omega)
    linarith
  have small : ∀ z : Int, -4 ≤ z → z < 4 → InRange b z := fun z h1 h2 => ⟨by linarith, by linarith⟩
  have csmall : ∀ z : Int, -4 ≤ z → z < 4 → checked (promoted b ib) z = some z :=
    fun z h1 h2 => checked_of_inRange (inRange_mono hp (small z h1 h2))
  have w2 : wrapS b ((2 : Nat) : Int) = 2 := wrapS_of_inRange (by omega) (small 2 (by norm_num) (by norm_num))
  have w1 : wrapS b ((1 : Nat) : Int) = 1 := wrapS_of_inRange (by omega) (small 1 (by norm_num) (by norm_num))
  have dv : ∀ z : Int, -4 ≤ z → z < 4 → divS (promoted b ib) z (wrapS b ((2 : Nat) : Int)) = some (z.tdiv 2) := by
    intro z h1 h2
    rw [w2, divS, if_neg (by norm_num)]
    have : -4 ≤ z.tdiv 2 ∧ z.tdiv 2 < 4 := by
      have hz : z = -4 ∨ z = -3 ∨ z = -2 ∨ z = -1 ∨ z = 0 ∨ z = 1 ∨ z = 2 ∨ z = 3 := by omega
      rcases hz with rfl | rfl | rfl | rfl | rfl | rfl | rfl | rfl <;> decide
    exact csmall _ this.1 this.2
  have w0 : wrapS b 0 = 0 := wrapS_of_inRange (by omega) (small 0 (by norm_num) (by norm_num))
  -- one push into a full window of two small values
  have step : ∀ (m f g x : Int), -2 ≤ x - f → x - f ≤ 2 → InRange b m → InRange b (m + (x - f).tdiv 2) →
      WMean.push b ib 2 ⟨[f, g], m⟩ x = some ⟨[g, x], m + (x - f).tdiv 2⟩ := by
    intro m f g x h1 h2 hm hm'
    rw [WMean.push_eq_slide (N := 2) (s := ⟨[f, g], m⟩) rfl rfl (csmall _ (by omega) (by omega))
      (dv _ (by omega) (by omega)) (checked_of_inRange (inRange_mono hp hm')), wrapS_of_inRange (by omega) hm']
    rfl
  induction k with
  | zero =>
    have e1 : WMean.push b ib 2 WMean.init 0 = some ⟨[0], 0⟩ := by
      rw [WMean.push_eq_grow (s := WMean.init) (by simp [WMean.init]) (d := 0) (q := 0) (m := 0)
        (csmall 0 (by norm_num) (by norm_num))
        (by simp only [WMean.init, List.length_nil, zero_add, w1]; exact csmall 0 (by norm_num) (by norm_num))
        (csmall 0 (by norm_num) (by norm_num)), w0]
      rfl
    have e2 : WMean.push b ib 2 ⟨[0], 0⟩ 0 = some ⟨[0, 0], 0⟩ := by
      rw [WMean.push_eq_grow (s := ⟨[0], 0⟩) (by simp) (d := 0) (q := 0) (m := 0)
        (csmall 0 (by norm_num) (by norm_num))
        (by simpa using dv 0 (by norm_num) (by norm_num))
        (csmall 0 (by norm_num) (by norm_num)), w0]
      rfl
    simp [WMean.run, e1, e2]
  | succ k ih =>
    push_cast at hk
    have hs := ih (by omega)
    have hm : InRange b (-(k : Int)) := ⟨by omega, by omega⟩
    have hm1 : InRange b (-(k : Int) + -1) := ⟨by omega, by omega⟩
    rw [List.replicate_succ', List.flatten_append, ← List.append_assoc]
    unfold WMean.run at hs ⊢
    rw [List.foldlM_append, hs]
    have t1 : Int.tdiv (1 - 0) 2 = 0 := by decide
    have t2 : Int.tdiv (0 - 0) 2 = 0 := by decide
    have t3 : Int.tdiv (2 - 1) 2 = 0 := by decide
    have t4 : Int.tdiv (0 - 2) 2 = -1 := by decide
    have s1 := step (-(k : Int)) 0 0 1 (by norm_num) (by norm_num) hm (by rw [t1, add_zero]; exact hm)
    have s2 := step (-(k : Int)) 0 1 0 (by norm_num) (by norm_num) hm (by rw [t2, add_zero]; exact hm)
    have s3 := step (-(k : Int)) 1 0 2 (by norm_num) (by norm_num) hm (by rw [t3, add_zero]; exact hm)
    have s4 := step (-(k : Int)) 0 2 0 (by norm_num) (by norm_num) hm (by rw [t2, add_zero]; exact hm)
    have s5 := step (-(k : Int)) 2 0 0 (by norm_num) (by norm_num) hm (by rw [t4]; exact hm1)
    have s6 := step (-(k : Int) + -1) 0 0 0 (by norm_num) (by norm_num) hm1 (by rw [t2, add_zero]; exact hm1)
    rw [t1, add_zero] at s1
    rw [t2, add_zero] at s2 s4 s6
    rw [t3, add_zero] at s3
    rw [t4] at s5
    simp only [List.flatten_cons, List.flatten_nil, List.append_nil, List.foldlM_cons, List.foldlM_nil,
      Option.bind_eq_bind, Option.bind_some, s1, s2, s3, s4, s5, s6, Option.pure_def, Option.some.injEq,
      WMean.mk.injEq, true_and]
    push_cast; ring

/-- C23 is violated by the window mean. -/
theorem C23_window_violated {b : Nat} (ib : Nat) (hb : 3 ≤ b) : ¬ IntWindowMeanWithin b ib := by
  intro h
  have h4 : (4 : Int) ≤ 2 ^ (b - 1) := by
    have : (2 : Int) ^ 2 ≤ 2 ^ (b - 1) := pow_le_pow_right₀ (by norm_num) (by omega)
    linarith
  have small : ∀ z : Int, -4 ≤ z → z < 4 → InRange b z := fun z h1 h2 => ⟨by linarith, by linarith⟩
  obtain ⟨s, hs, h1, -⟩ := h 2 ([0, 0] ++ (List.replicate 1 [1, 0, 2, 0, 0, 0]).flatten) 0 2 (by norm_num)
    (by simp) (by
      intro x hx
      simp at hx
      rcases hx with rfl | rfl | rfl | rfl | rfl <;> exact ⟨small _ (by norm_num) (by norm_num), by norm_num, by norm_num⟩)
  rw [C23_window_drift hb 1 (by push_cast; linarith)] at hs
  rw [← Option.some.inj hs] at h1
  exact absurd h1 (by norm_num)

/-- `int8_t` values 7, -3, 100 pushed to the cumulative mean. -/
example : ∃ s : Mean 64, Mean.run 8 32 [7, -3, 100] = some s ∧ -3 ≤ s.mean ∧ s.mean ≤ 100 :=
  C23_mean_partial (by norm_num) (by decide) (by decide) (by decide) [7, -3, 100] (by simp)
    (by intro x hx; simp at hx; rcases hx with rfl | rfl | rfl <;> norm_num) (by norm_num) (by norm_num)

example : ∃ s, WMean.run 8 32 3 [7, -3, 100] = some s ∧ -3 ≤ s.mean ∧ s.mean ≤ 100 :=
  C23_window_partial (by norm_num) (by decide) (by decide) (by decide) [7, -3, 100] (by simp)
    (by intro x hx; simp at hx; rcases hx with rfl | rfl | rfl <;> norm_num) (by norm_num) (by norm_num)

/-! ### C24 -/

/-- C24 (full statement, false): `variance()` is the truncated quotient of the co-moment by the number of
pairs. -/
def IntCovarianceQuotient (w b ib : Nat) : Prop :=
  ∀ (xs : List (Int × Int)) (s : Comoment w), Comoment.run b ib xs = some s → 0 < s.xCenter.count.toNat →
    s.variance b = s.center.tdiv s.xCenter.count.toNat

/-- C24 is violated: `covariance<int>` of (0, 0), (0, 0), (3, -3) with 32-bit `int` and 64-bit `size_t`. -/
theorem C24_covariance_violated : ¬ IntCovarianceQuotient 64 32 32 := by
  intro h
  have h1 := h [(0, 0), (0, 0), (3, -3)] ⟨⟨1, 3⟩, ⟨-1, 3⟩, -6⟩ rfl (by decide)
  exact absurd h1 (by decide)

/-- C24 (partial): correct when the co-moment is not negative. Missing: negative co-moments. -/
theorem C24_covariance_partial {w b : Nat} (hb : 1 ≤ b) (hbw : b ≤ w) (s : Comoment w) (hr : InRange b s.center)
    (h0 : 0 ≤ s.center) :
    (0 < s.xCenter.count.toNat → s.variance b = s.center.tdiv s.xCenter.count.toNat)
      ∧ (1 < s.xCenter.count.toNat →
          s.unbiasedVariance b = s.center.tdiv (s.xCenter.count.toNat - 1 : Int)) := by
  obtain ⟨c, hc⟩ := Int.eq_ofNat_of_zero_le h0
  have hcr : c < 2 ^ w := by
    have h1 := hr.2
    rw [hc] at h1
    have h2 : (2 : Int) ^ (b - 1) ≤ 2 ^ w := pow_le_pow_right₀ (by norm_num) (by omega)
    have h3 : (c : Int) < 2 ^ w := lt_of_lt_of_le h1 h2
    exact_mod_cast h3
  have hq : ∀ d : Nat, wrapS b ((c / d : Nat) : Int) = ((c : Int).tdiv d) := by
    intro d
    rw [Int.tdiv_eq_ediv_of_nonneg (by omega), ← Int.natCast_ediv]
    apply wrapS_of_inRange hb
    refine ⟨?_, ?_⟩
    · have : (0 : Int) ≤ ((c / d : Nat) : Int) := by positivity
      have h2 : (0 : Int) ≤ 2 ^ (b - 1) := by positivity
      linarith
    · have h1 := hr.2
      rw [hc] at h1
      have : ((c / d : Nat) : Int) ≤ c := by exact_mod_cast Nat.div_le_self c d
      exact lt_of_le_of_lt this h1
  have hbv : (BitVec.ofInt w s.center).toNat = c := by
    rw [hc]
    simpa using Nat.mod_eq_of_lt hcr
  refine ⟨fun h => ?_, fun h => ?_⟩
  · rw [Comoment.variance, if_pos (by simpa [BitVec.lt_def] using h), BitVec.toNat_udiv, hbv, hq, hc]
  · have hlt : 1 < 2 ^ w := lt_of_lt_of_le h (Nat.le_of_lt s.xCenter.count.isLt)
    have h1 : (1 : BitVec w).toNat = 1 := by
      simp [BitVec.toNat_ofNat, Nat.mod_eq_of_lt hlt]
    have hsub : (s.xCenter.count - 1).toNat = s.xCenter.count.toNat - 1 := by
      rw [BitVec.toNat_sub_of_le (by rw [BitVec.le_def, h1]; omega), h1]
    rw [Comoment.unbiasedVariance, if_pos (by rw [gt_iff_lt, BitVec.lt_def, h1]; exact h), BitVec.toNat_udiv,
      hbv, hsub, hq, hc]
    push_cast [Nat.le_of_lt h]
    rfl

/-- What is returned instead for a negative co-moment: `2^w` is added before dividing. -/
theorem C24_negative {w b : Nat} (s : Comoment w) (h0 : s.center < 0) (hw : -(2 : Int) ^ w ≤ s.center)
    (hn : 0 < s.xCenter.count.toNat) :
    s.variance b = wrapS b ((2 ^ w + s.center) / s.xCenter.count.toNat) := by
  have hbv : ((BitVec.ofInt w s.center).toNat : Int) = 2 ^ w + s.center := by
    rw [BitVec.toNat_ofInt, Int.toNat_of_nonneg (Int.emod_nonneg _ (by positivity))]
    push_cast
    rw [← Int.add_emod_right]
    rw [Int.emod_eq_of_lt (by linarith) (by linarith)]
    ring
  rw [Comoment.variance, if_pos (by simpa [BitVec.lt_def] using hn), BitVec.toNat_udiv, Int.natCast_ediv, hbv]

/-- The same conversion makes `unbiased_mean()` wrong for negative values: the mean of -6, -6, -6, -6
comes out as 1431655757 (32-bit `int`, 64-bit `size_t`) instead of -8. -/
theorem C24_unbiased_mean_violated : ∃ s : Mean 64, Mean.run 32 32 [-6, -6, -6, -6] = some s
    ∧ s.mean = -6 ∧ s.unbiasedMean 32 = some 1431655757 := by
  refine ⟨⟨-6, 4⟩, rfl, rfl, by decide⟩

example : (⟨⟨1, 3⟩, ⟨1, 3⟩, 7⟩ : Comoment 64).variance 32 = 2 := by
  have h := (C24_covariance_partial (w := 64) (b := 32) (by norm_num) (by norm_num) ⟨⟨1, 3⟩, ⟨1, 3⟩, 7⟩
    (by decide) (by decide)).1 (by decide)
  rw [h]; decide

end Verif.Props
