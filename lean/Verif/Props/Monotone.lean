import Verif.Proofs.Monotone
import Verif.Proofs.Double
import Verif.Props.CumulativeMoments
import Verif.Props.Window
import Verif.Props.Decay
import Verif.Props.Interim
import Verif.Model.Impulse
/-
C94: larger data do not give a smaller mean.
-/
namespace Verif.Props
open Scalar Exact

variable {w N W : Nat} {ε : ℝ} {F : Fmt} {p : Nat} {emin : Int}

/-- Two lists of the same length; each value of the first is at most the value of the second in its place. -/
abbrev AtMost (xs ys : List ℝ) : Prop := List.Forall₂ (· ≤ ·) xs ys

/-! ### The statement with rounding, and its violation -/

/-- C94 as stated, for the cumulative mean in a format `F`. -/
def C94_Statement (F : Fmt) (p : Nat) (emin : Int) (w : Nat) : Prop :=
  ∀ xs ys : List ℝ, F.Data p emin xs → F.Data p emin ys → xs.length < 2 ^ w → AtMost xs ys →
    le (Cumulative.Mean.run (xs.map fun x => .push (X.fin x)) : Cumulative.Mean w (X F)).getMean
      (Cumulative.Mean.run (ys.map fun y => .push (X.fin y)) : Cumulative.Mean w (X F)).getMean = true

open Cumulative in
/-- The mean of two numbers as the code computes it. -/
theorem mean_pair {a b : ℝ} (hF : F.Binary p emin) (ha : IsRep p emin a) (hf : F.fits a) (hw : 2 < 2 ^ w) :
    (Mean.run ([a, b].map fun x => .push (X.fin x)) : Mean w (X F)).getMean
      = X.fin a + (X.fin b - X.fin a) / ofNat 2 := by
  have h1 : ((0 : SizeT w) + 1).toNat = 1 := by
    rw [show (0 : SizeT w) + 1 = BitVec.ofNat w 1 by simp, toNat_ofNat_lt (by omega)]
  have h2 : ((0 : SizeT w) + 1 + 1).toNat = 2 := by
    rw [show (0 : SizeT w) + 1 + 1 = BitVec.ofNat w 2 by
      rw [show (2 : Nat) = 1 + 1 from rfl, BitVec.ofNat_add]; simp, toNat_ofNat_lt hw]
  show (ofNat 0 + (X.fin a - ofNat 0) / ofSize ((0 : SizeT w) + 1))
    + (X.fin b - (ofNat 0 + (X.fin a - ofNat 0) / ofSize ((0 : SizeT w) + 1))) / ofSize ((0 : SizeT w) + 1 + 1) = _
  rw [ofSize, ofSize, h1, h2, hF.ofNat_zero, hF.sub_zero ha hf, hF.div_one ha hf, hF.zero_add ha hf]

/-- The mean of 0.75 and 2^53 + 2 is computed as 2^52 + 2, ... -/
theorem C94_smaller : (Cumulative.Mean.run ([3 / 4, 2 ^ 53 + 2].map fun x : ℝ => .push (X.fin x))
    : Cumulative.Mean 64 (X binary64)).getMean = X.fin (2 ^ 52 + 2) := by
  have ha := double 3 (-2) (by norm_num) (by norm_num) (by norm_num)
  rw [show ((3 : Int) : ℝ) * 2 ^ (-2 : Int) = 3 / 4 by norm_num] at ha
  rw [mean_pair binary64_binary ha.1 ha.2 (by norm_num), X.sub_fin]
  have r1 : (X.round (2 ^ 53 + 2 - 3 / 4 : ℝ) : X binary64) = X.fin (2 ^ 53 + 2) := by
    refine round64_of (2 ^ 52 + 1) 1 ?_ (by norm_num) (by norm_num) (by norm_num) (by norm_num)
    rw [rnd64_near (2 ^ 52 + 1) 1 (by norm_num) (by rw [abs_of_pos (by norm_num)]; norm_num)
      (by rw [abs_of_pos (by norm_num)]; norm_num) (by rw [abs_lt]; constructor <;> norm_num)]
    norm_num
  rw [r1, ofNat64 (by norm_num), X.div_fin_of_ne _ (by norm_num)]
  have r2 : (X.round ((2 ^ 53 + 2 : ℝ) / (2 : Nat)) : X binary64) = X.fin ((2 ^ 53 + 2 : ℝ) / (2 : Nat)) :=
    round64 (2 ^ 52 + 1) 0 (by norm_num) (by norm_num) (by norm_num) (by norm_num)
  rw [r2, X.add_fin]
  refine round64_of (2 ^ 52 + 2) 0 ?_ (by norm_num) (by norm_num) (by norm_num) (by norm_num)
  rw [rnd64_near (2 ^ 52 + 2) 0 (by norm_num) (by rw [abs_of_pos (by norm_num)]; norm_num)
    (by rw [abs_of_pos (by norm_num)]; norm_num) (by rw [abs_lt]; constructor <;> norm_num)]
  norm_num

/-- ... that of 1 and 2^53 + 2 as 2^52 + 1. -/
theorem C94_larger : (Cumulative.Mean.run ([1, 2 ^ 53 + 2].map fun x : ℝ => .push (X.fin x))
    : Cumulative.Mean 64 (X binary64)).getMean = X.fin (2 ^ 52 + 1) := by
  rw [mean_pair binary64_binary binary64_binary.isRep_one binary64_binary.fits_one (by norm_num), X.sub_fin]
  have r1 : (X.round (2 ^ 53 + 2 - 1 : ℝ) : X binary64) = X.fin (2 ^ 53) := by
    refine round64_of (2 ^ 52) 1 ?_ (by norm_num) (by norm_num) (by norm_num) (by norm_num)
    rw [rnd64_tie (2 ^ 52) 1 (by norm_num) (by rw [abs_of_pos (by norm_num)]; norm_num)
      (by rw [abs_of_pos (by norm_num)]; norm_num) (by norm_num), if_pos (by decide)]
    norm_num
  rw [r1, ofNat64 (by norm_num), X.div_fin_of_ne _ (by norm_num)]
  have r2 : (X.round ((2 ^ 53 : ℝ) / (2 : Nat)) : X binary64) = X.fin ((2 ^ 53 : ℝ) / (2 : Nat)) :=
    round64 (2 ^ 52) 0 (by norm_num) (by norm_num) (by norm_num) (by norm_num)
  rw [r2, X.add_fin]
  exact (round64 (2 ^ 52 + 1) 0 (by norm_num) (by norm_num) (by norm_num) (by norm_num)).trans
    (by norm_num)

/-- C94 is violated in double precision: making the first value larger (0.75 to 1) makes the mean smaller. -/
theorem C94_violated : ¬ C94_Statement binary64 53 (-1074) 64 := by
  intro h
  have hb := double (2 ^ 52 + 1) 1 (by norm_num) (by norm_num) (by norm_num)
  rw [show ((2 ^ 52 + 1 : Int) : ℝ) * 2 ^ (1 : Int) = 2 ^ 53 + 2 by norm_num] at hb
  have ha := double 3 (-2) (by norm_num) (by norm_num) (by norm_num)
  rw [show ((3 : Int) : ℝ) * 2 ^ (-2 : Int) = 3 / 4 by norm_num] at ha
  have hd : ∀ a : ℝ, IsRep 53 (-1074) a → binary64.fits a → 0 ≤ a → a ≤ 2 ^ 53 + 2 →
      binary64.Data 53 (-1074) [a, 2 ^ 53 + 2] := by
    intro a h1 h2 h3 h4
    refine ⟨fun x hx => ?_, fun x hx y hy => ?_⟩
    · rcases List.mem_cons.1 hx with rfl | hx
      · exact ⟨h1, h2⟩
      · rw [List.mem_singleton.1 hx]; exact hb
    · have hr : ∀ z ∈ [a, 2 ^ 53 + 2], 0 ≤ z ∧ z ≤ 2 ^ 53 + 2 := by
        intro z hz
        rcases List.mem_cons.1 hz with rfl | hz
        · exact ⟨h3, h4⟩
        · rw [List.mem_singleton.1 hz]; exact ⟨by norm_num, le_rfl⟩
      have hx' := hr x hx
      have hy' := hr y hy
      exact binary64_binary.fits_between (a := -(2 ^ 53 + 2)) (c := 2 ^ 53 + 2)
        (binary64_binary.fits_neg hb.2) hb.2 (binary64_binary.le_rnd hb.1.neg (by linarith))
        (binary64_binary.rnd_le hb.1 (by linarith))
  have := h [3 / 4, 2 ^ 53 + 2] [1, 2 ^ 53 + 2] (hd _ ha.1 ha.2 (by norm_num) (by norm_num))
    (hd _ binary64_binary.isRep_one binary64_binary.fits_one (by norm_num) (by norm_num)) (by norm_num)
    (.cons (by norm_num) (.cons le_rfl .nil))
  rw [C94_smaller, C94_larger, X.le_iff] at this
  simp only [X.Le] at this
  norm_num at this

/-! ### The last value -/

/-- A count other than 0 is a positive number if counts do not overflow. -/
theorem ofSize_pos (hF : F.Binary p emin) (hw : F.fits (F.rnd ((2 ^ w : Nat) : ℝ))) {n : SizeT w} (h0 : n ≠ 0) :
    ∃ d : ℝ, 0 < d ∧ (ofSize n : X F) = X.fin d := by
  have h1 : 1 ≤ n.toNat := Nat.one_le_iff_ne_zero.2 fun h => h0 (BitVec.eq_of_toNat_eq (by simpa using h))
  obtain ⟨d, hd⟩ := hF.ofSize_fin hw n
  rcases hF.ofNat_one_le h1 with e | ⟨d', h', e⟩
  · rw [ofSize, e] at hd; cases hd
  · exact ⟨d', by linarith, e⟩

/-- One step of the mean. -/
theorem step_mono (hF : F.Binary p emin) {x y : X F} (h : X.Le x y) (m c : ℝ) {d : ℝ} (hd : 0 < d) :
    X.Le (X.fin m + (x - X.fin c) / X.fin d) (X.fin m + (y - X.fin c) / X.fin d) :=
  X.fin_add_le_add hF (X.div_le_div_fin hF (X.sub_le_sub_fin hF h c) hd) m

open Cumulative in
/-- C94 for the last value, cumulative mean: in every binary format and rounding direction, from every state
whose mean is a number (and whose counter does not wrap), the mean does not decrease when the pushed value
increases.  The values may be infinite.
Missing for the full statement: earlier values, for which it is false, see `C94_violated`. -/
theorem C94_cumulative_partial (hF : F.Binary p emin) (hw : F.fits (F.rnd ((2 ^ w : Nat) : ℝ))) (s : Mean w (X F))
    {m : ℝ} (hm : s.mean = X.fin m) (hc : s.count + 1 ≠ 0) {x y : X F} (h : le x y = true) :
    le (s.push x).getMean (s.push y).getMean = true := by
  rw [X.le_iff] at h ⊢
  obtain ⟨d, hd, e⟩ := ofSize_pos hF hw hc
  show X.Le (s.mean + (x - s.mean) / ofSize (s.count + 1)) (s.mean + (y - s.mean) / ofSize (s.count + 1))
  rw [hm, e]
  exact step_mono hF h m m hd

/-- From the mean 1 of two values: pushing 5 or +inf. -/
example : le ((⟨X.fin 1, 2⟩ : Cumulative.Mean 64 (X binary64)).push (X.fin 5)).getMean
    ((⟨X.fin 1, 2⟩ : Cumulative.Mean 64 (X binary64)).push X.pinf).getMean = true :=
  C94_cumulative_partial binary64_binary binary64_size _ rfl (by decide) rfl

open Window in
/-- C94 for the last value, window mean: also when a value is evicted. -/
theorem C94_window_partial (hF : F.Binary p emin) (hN : F.fits (F.rnd ((N + 1 : Nat) : ℝ))) (s : Mean N (X F))
    {m : ℝ} (hm : s.mean = X.fin m) (hs : s.size ≤ N) (hfin : ∀ v ∈ s.window.items, ∃ r, v = X.fin r)
    {x y : X F} (h : le x y = true) {s1 s2 : Mean N (X F)} (h1 : s.push x = some s1) (h2 : s.push y = some s2) :
    le s1.getMean s2.getMean = true := by
  rw [X.le_iff] at h ⊢
  have pos : ∀ n : Nat, 1 ≤ n → n ≤ N + 1 → ∃ d : ℝ, 0 < d ∧ (ofNat n : X F) = X.fin d := by
    intro n hn hn'
    have h1n : (1 : ℝ) ≤ n := by exact_mod_cast hn
    have hf : F.fits (F.rnd (n : ℝ)) := hF.fits_between hF.fits_zero hN
      (hF.rnd_nonneg (by linarith)) (hF.mono (by exact_mod_cast hn'))
    refine ⟨F.rnd n, lt_of_lt_of_le one_pos (hF.le_rnd hF.isRep_one h1n), ?_⟩
    rw [X.ofNat_eq]; unfold X.round; rw [if_pos hf]
  unfold Mean.push at h1 h2
  by_cases hf : s.full = true
  · rw [if_pos hf] at h1 h2
    cases hfr : s.window.front with
    | none => rw [hfr] at h1; cases h1
    | some a =>
      rw [hfr] at h1 h2
      simp only [Option.some.injEq] at h1 h2
      subst h1 h2
      have hmem : a ∈ s.window.items := List.mem_of_mem_head? hfr
      obtain ⟨r, rfl⟩ := hfin a hmem
      obtain ⟨d, hd, e⟩ := pos s.size (List.length_pos_of_mem hmem) (by omega)
      show X.Le (s.mean + (x - X.fin r) / ofNat s.size) (s.mean + (y - X.fin r) / ofNat s.size)
      rw [hm, e]
      exact step_mono hF h m r hd
  · rw [if_neg hf] at h1 h2
    simp only [Option.some.injEq] at h1 h2
    subst h1 h2
    obtain ⟨d, hd, e⟩ := pos (s.size + 1) (by omega) (by omega)
    show X.Le (s.mean + (x - s.mean) / ofNat (s.size + 1)) (s.mean + (y - s.mean) / ofNat (s.size + 1))
    rw [hm, e]
    exact step_mono hF h m m hd

/-- The window [1, 2] is full, so the 1 is evicted. -/
example (s1 s2 : Window.Mean 2 (X binary64))
    (h1 : (⟨⟨[X.fin 1, X.fin 2]⟩, X.fin (3 / 2)⟩ : Window.Mean 2 (X binary64)).push (X.fin 5) = some s1)
    (h2 : (⟨⟨[X.fin 1, X.fin 2]⟩, X.fin (3 / 2)⟩ : Window.Mean 2 (X binary64)).push (X.fin 6) = some s2) :
    le s1.getMean s2.getMean = true := by
  have h3 := binary64_int (n := 3) (by norm_num)
  refine C94_window_partial binary64_binary ?_ _ rfl (by decide) ?_ ?_ h1 h2
  · have e : ((2 + 1 : Nat) : ℝ) = ((3 : Int) : ℝ) := by norm_num
    rw [e, binary64_binary.exact _ h3.1]; exact h3.2
  · intro v hv
    have : v = X.fin 1 ∨ v = X.fin 2 := by simpa using hv
    rcases this with rfl | rfl <;> exact ⟨_, rfl⟩
  · rw [X.le_iff]; simp only [X.Le]; norm_num

open Decay in
/-- The normalization of the decaying mean stays between 0 and 2 in every format. -/
theorem decay_norm (hF : F.Binary p emin) {f : ℝ} (h0 : 0 < f) (h1 : f ≤ 1) (ops : List (Op (X F))) :
    (Mean.run (X.fin f) ops : Mean (X F)).meanFactor = X.fin f
    ∧ ∃ n : ℝ, (Mean.run (X.fin f) ops : Mean (X F)).normalization = X.fin n ∧ 0 ≤ n ∧ n ≤ 2 ∧ IsRep p emin n := by
  induction ops using List.reverseRecOn with
  | nil => exact ⟨rfl, 0, hF.ofNat_zero, le_rfl, by norm_num, isRep_zero _ _⟩
  | append_singleton ops op ih =>
    obtain ⟨hf, n, hn, hn0, hn2, hr⟩ := ih
    cases op with
    | clear =>
      rw [Mean.run, runOps_append]
      exact ⟨hf, 0, hF.ofNat_zero, le_rfl, by norm_num, isRep_zero _ _⟩
    | push x =>
      rw [Mean.run, runOps_append]
      refine ⟨hf, ?_⟩
      show ∃ n', (Mean.run (X.fin f) ops : Mean (X F)).normalization
        + (Mean.run (X.fin f) ops : Mean (X F)).meanFactor
          * (ofNat 1 - (Mean.run (X.fin f) ops : Mean (X F)).normalization) = X.fin n' ∧ _
      rw [hf, hn, hF.ofNat_one, X.sub_fin]
      have rone := hF.isRep_one
      have d1 : -1 ≤ F.rnd (1 - n) := hF.le_rnd rone.neg (by linarith)
      have d2 : F.rnd (1 - n) ≤ 1 := hF.rnd_le rone (by linarith)
      have rd : ∀ r : ℝ, -1 ≤ F.rnd r → F.rnd r ≤ 1 → (X.round r : X F) = X.fin (F.rnd r) := by
        intro r a b
        unfold X.round
        rw [if_pos (hF.fits_between (hF.fits_neg hF.fits_one) hF.fits_one a b)]
      rw [rd _ d1 d2, X.mul_fin]
      have key : (-n ≤ F.rnd (f * F.rnd (1 - n)) ∧ F.rnd (f * F.rnd (1 - n)) ≤ 2 - n)
          ∧ -1 ≤ F.rnd (f * F.rnd (1 - n)) ∧ F.rnd (f * F.rnd (1 - n)) ≤ 1 := by
        rcases le_total n 1 with hn1 | hn1
        · have a0 : 0 ≤ F.rnd (1 - n) := hF.rnd_nonneg (by linarith)
          have a1 : 0 ≤ F.rnd (f * F.rnd (1 - n)) := hF.rnd_nonneg (mul_nonneg h0.le a0)
          have a2 : F.rnd (f * F.rnd (1 - n)) ≤ 1 := hF.rnd_le rone (by nlinarith)
          exact ⟨⟨by linarith, by linarith⟩, by linarith, a2⟩
        · have a0 : F.rnd (1 - n) ≤ 0 := hF.rnd_nonpos (by linarith)
          have a1 : F.rnd (f * F.rnd (1 - n)) ≤ 0 := hF.rnd_nonpos (mul_nonpos_of_nonneg_of_nonpos h0.le a0)
          have a2 : -1 ≤ F.rnd (f * F.rnd (1 - n)) := hF.le_rnd rone.neg (by nlinarith)
          exact ⟨⟨by linarith, by linarith⟩, a2, by linarith⟩
      rw [rd _ key.2.1 key.2.2, X.add_fin]
      have b0 : 0 ≤ F.rnd (n + F.rnd (f * F.rnd (1 - n))) := hF.rnd_nonneg (by linarith [key.1.1])
      have b2 : F.rnd (n + F.rnd (f * F.rnd (1 - n))) ≤ 2 := hF.rnd_le hF.isRep_two (by linarith [key.1.2])
      refine ⟨_, ?_, b0, b2, hF.rep _⟩
      unfold X.round
      rw [if_pos (hF.fits_between hF.fits_zero hF.fits_two b0 b2)]

open Decay in
/-- C94 for the last value, decaying mean. -/
theorem C94_decay_partial (hF : F.Binary p emin) {f : ℝ} (h0 : 0 < f) (h1 : f ≤ 1) (ops : List (Op (X F)))
    {m : ℝ} (hm : (Mean.run (X.fin f) ops : Mean (X F)).sumMean = X.fin m) {x y : X F} (h : le x y = true) :
    le (Mean.run (X.fin f) (ops ++ [.push x]) : Mean (X F)).mean
      (Mean.run (X.fin f) (ops ++ [.push y]) : Mean (X F)).mean = true := by
  rw [X.le_iff] at h ⊢
  have hrun : ∀ z, (Mean.run (X.fin f) (ops ++ [.push z]) : Mean (X F)) = (Mean.run (X.fin f) ops).push z :=
    fun z => by rw [Mean.run, runOps_append]; rfl
  obtain ⟨hf, -⟩ := decay_norm hF h0 h1 ops
  obtain ⟨-, n, hn, -⟩ := decay_norm hF h0 h1 (ops ++ [.push x])
  have hn' : (Mean.run (X.fin f) (ops ++ [.push y]) : Mean (X F)).normalization = X.fin n := by
    rw [← hn, hrun, hrun]; rfl
  unfold Mean.mean
  rw [hn, hn', hF.ofNat_zero, X.lt_fin]
  by_cases hp : 0 < n
  · rw [if_pos (by simpa using hp), if_pos (by simpa using hp)]
    refine X.div_le_div_fin hF ?_ hp
    rw [hrun, hrun]
    show X.Le ((Mean.run (X.fin f) ops).sumMean + (Mean.run (X.fin f) ops).meanFactor * (x - (Mean.run (X.fin f) ops).sumMean))
      ((Mean.run (X.fin f) ops).sumMean + (Mean.run (X.fin f) ops).meanFactor * (y - (Mean.run (X.fin f) ops).sumMean))
    rw [hm, hf]
    exact X.fin_add_le_add hF (X.fin_mul_le_mul hF (X.sub_le_sub_fin hF h m) h0) m
  · rw [if_neg (by simpa using hp), if_neg (by simpa using hp)]
    exact le_refl (0 : ℝ)

/-- A new filter: the sum is 0. -/
example : le (Decay.Mean.run (X.fin (1 / 4)) ([] ++ [.push (X.fin 3)]) : Decay.Mean (X binary64)).mean
    (Decay.Mean.run (X.fin (1 / 4)) ([] ++ [.push X.pinf]) : Decay.Mean (X binary64)).mean = true :=
  C94_decay_partial binary64_binary (by norm_num) (by norm_num) [] binary64_binary.ofNat_zero rfl

open Interim Cumulative in
/-- The blend of the interim mean in the mean of the current block. -/
theorem blend_mono (hF : F.Binary p emin) (hw : F.fits (F.rnd ((2 ^ w : Nat) : ℝ))) (a b : Mean w (X F)) (P : Mean w (X F))
    (hsz : a.count = b.count) (h2 : 2 * a.count ≠ 0) (hW : BitVec.ofNat w W + a.count ≠ 0) {q : ℝ}
    (hq : P.mean * ofSize (BitVec.ofNat w W - a.count) = X.fin q) (h : X.Le a.mean b.mean) :
    X.Le (IMean.mean (⟨a, P⟩ : IMean w W (X F))) (IMean.mean (⟨b, P⟩ : IMean w W (X F))) := by
  show X.Le (Interim.meanWith Mean.getMean ⟨a, P⟩) (Interim.meanWith Mean.getMean ⟨b, P⟩)
  unfold Interim.meanWith
  show X.Le (if (P.count == 0) = true then a.mean else
      (P.mean * ofSize (BitVec.ofNat w W - a.count) + a.mean * ofSize (2 * a.count)) / ofSize (BitVec.ofNat w W + a.count))
    (if (P.count == 0) = true then b.mean else
      (P.mean * ofSize (BitVec.ofNat w W - b.count) + b.mean * ofSize (2 * b.count)) / ofSize (BitVec.ofNat w W + b.count))
  rw [← hsz, hq]
  obtain ⟨d, hd, e⟩ := ofSize_pos hF hw h2
  obtain ⟨d', hd', e'⟩ := ofSize_pos hF hw hW
  split_ifs
  · exact h
  · rw [e, e']
    exact X.div_le_div_fin hF (X.fin_add_le_add hF (X.mul_le_mul_fin hF h hd) q) hd'

open Interim Cumulative in
/-- C94 for the last value, interim mean: from every state in which the mean of the current block is a
number, if the weighted contributions of the blocks do not overflow. -/
theorem C94_interim_partial (hF : F.Binary p emin) (hw : F.fits (F.rnd ((2 ^ w : Nat) : ℝ))) (hW1 : 1 ≤ W)
    (hW : 2 * W < 2 ^ w) (s : IMean w W (X F)) {m : ℝ} (hm : s.active.mean = X.fin m)
    (hq : ∀ n : SizeT w, n.toNat ≤ W →
      (∃ q : ℝ, s.passive.mean * ofSize n = X.fin q) ∧ ∃ q : ℝ, s.active.mean * ofSize n = X.fin q)
    {x y : X F} (h : le x y = true) : le (IMean.mean (s.push x)) (IMean.mean (s.push y)) = true := by
  rw [X.le_iff]
  have ne : ∀ n : SizeT w, n.toNat ≠ 0 → n ≠ 0 := fun n h h' => h (by rw [h']; rfl)
  have key : ∀ (a P : Mean w (X F)) (m : ℝ), a.mean = X.fin m → a.count.toNat < W →
      (∀ n : SizeT w, n.toNat ≤ W → ∃ q : ℝ, P.mean * ofSize n = X.fin q) →
      X.Le (IMean.mean (⟨a.push x, P⟩ : IMean w W (X F))) (IMean.mean (⟨a.push y, P⟩ : IMean w W (X F))) := by
    intro a P m ha hc hP
    have t1 : (a.count + 1).toNat = a.count.toNat + 1 := by
      rw [BitVec.toNat_add, show (1 : SizeT w).toNat = 1 from by simp [Nat.mod_eq_of_lt (show 1 < 2 ^ w by omega)]]
      exact Nat.mod_eq_of_lt (by omega)
    have t2 : (2 * (a.count + 1)).toNat = 2 * (a.count.toNat + 1) := by
      rw [BitVec.toNat_mul, t1]
      rw [show (2 : SizeT w).toNat = 2 from by simp [Nat.mod_eq_of_lt (show 2 < 2 ^ w by omega)]]
      exact Nat.mod_eq_of_lt (by omega)
    have t3 : (BitVec.ofNat w W + (a.count + 1)).toNat = W + (a.count.toNat + 1) := by
      rw [BitVec.toNat_add, t1, toNat_ofNat_lt (by omega)]
      exact Nat.mod_eq_of_lt (by omega)
    obtain ⟨q, hq⟩ := hP (BitVec.ofNat w W - (a.count + 1)) (by
      rw [BitVec.toNat_sub_of_le (by rw [BitVec.le_def, t1, toNat_ofNat_lt (by omega)]; omega),
        toNat_ofNat_lt (by omega)]
      omega)
    refine blend_mono hF hw (a.push x) (a.push y) P rfl (ne _ ?_) (ne _ ?_) hq ?_
    · show (2 * (a.count + 1)).toNat ≠ 0; omega
    · show (BitVec.ofNat w W + (a.count + 1)).toNat ≠ 0; omega
    · rw [← X.le_iff]
      exact C94_cumulative_partial hF hw a ha (ne _ (by omega)) h
  unfold Interim.push
  by_cases hf : Block.size s.active ≥ BitVec.ofNat w W
  · simp only [if_pos hf]
    exact key (Mean.clear s.passive) s.active 0 hF.ofNat_zero (by show (0 : SizeT w).toNat < W; simp; omega)
      (fun n hn => (hq n hn).2)
  · simp only [if_neg hf]
    refine key s.active s.passive m hm ?_ (fun n hn => (hq n hn).1)
    have : ¬ BitVec.ofNat w W ≤ s.active.count := hf
    rw [BitVec.le_def, toNat_ofNat_lt (by omega)] at this
    omega

/-- The blocks have the mean 0. -/
example (c : SizeT 64) : le (Interim.IMean.mean
      ((⟨⟨X.fin 0, c⟩, ⟨X.fin 0, 3⟩⟩ : Interim.IMean 64 3 (X binary64)).push (X.fin 5)))
    (Interim.IMean.mean ((⟨⟨X.fin 0, c⟩, ⟨X.fin 0, 3⟩⟩ : Interim.IMean 64 3 (X binary64)).push X.pinf)) = true := by
  refine C94_interim_partial (m := 0) binary64_binary binary64_size (by norm_num) (by norm_num) _ rfl ?_ rfl
  intro n _
  obtain ⟨d, e⟩ := binary64_binary.ofSize_fin binary64_size n
  rw [e]
  exact ⟨⟨0, binary64_binary.zero_mul d⟩, ⟨0, binary64_binary.zero_mul d⟩⟩

open Impulse in
/-- The rest of an inner product. -/
theorem innerProduct_mono (hF : F.Binary p emin) (xs : List (X F)) :
    ∀ (cs : List (X F)) (a b : X F), X.Le a b →
      (∀ q ∈ List.zip xs cs, ∃ r : ℝ, q.1 * q.2 = X.fin r) → ∀ u v : X F,
      innerProduct a xs cs = some u → innerProduct b xs cs = some v → X.Le u v := by
  induction xs with
  | nil => intro cs a b h _ u v hu hv; cases hu; cases hv; exact h
  | cons x xs ih =>
    intro cs a b h hz u v hu hv
    cases cs with
    | nil => cases hu
    | cons c cs =>
      obtain ⟨r, hr⟩ := hz (x, c) (by simp)
      simp only at hr
      rw [innerProduct, hr] at hu hv
      exact ih cs _ _ (X.add_le_add_fin hF h r) (fun q hq => hz q (by simp [hq])) u v hu hv

open Impulse in
theorem innerProduct_head (hF : F.Binary p emin) {c : ℝ} (hc : 0 < c) {x y : X F} (h : X.Le x y) (xs cs : List (X F))
    (hz : ∀ q ∈ List.zip xs cs, ∃ r : ℝ, q.1 * q.2 = X.fin r) {u v : X F}
    (hu : innerProduct (ofNat 0) (x :: xs) (X.fin c :: cs) = some u)
    (hv : innerProduct (ofNat 0) (y :: xs) (X.fin c :: cs) = some v) : X.Le u v := by
  rw [innerProduct, hF.ofNat_zero] at hu hv
  exact innerProduct_mono hF xs cs _ _ (X.fin_add_le_add hF (X.mul_le_mul_fin hF h hc) 0) hz u v hu hv

theorem pushFront_items (d : Impulse.Deque (X F)) : ∃ rest, ∀ x, (d.pushFront x).items = x :: rest := by
  unfold Impulse.Deque.pushFront
  by_cases h : d.full = true
  · exact ⟨d.items.dropLast, fun x => by simp [h]⟩
  · exact ⟨d.items, fun x => by simp [h]⟩

open Impulse in
/-- C94 for the last value, FIR filter with a positive first coefficient, from every state in which the products
of the other inputs and coefficients do not overflow. -/
theorem C94_fir_partial (hF : F.Binary p emin) (s : Impulse.Finite (X F)) {c : ℝ} {cs : List (X F)} (hc : 0 < c)
    (hs : s.coefficients = X.fin c :: cs) (hz : ∀ u ∈ s.input.items, ∀ v ∈ cs, ∃ r : ℝ, u * v = X.fin r)
    {x y : X F} (h : le x y = true) {s1 s2 : Impulse.Finite (X F)} (h1 : s.push x = some s1) (h2 : s.push y = some s2) :
    le s1.value s2.value = true := by
  rw [X.le_iff] at h ⊢
  unfold Impulse.Finite.push at h1 h2
  rw [hs] at h1 h2
  have hitems : ∃ rest, (∀ x, (s.input.pushFront x).items = x :: rest) ∧ ∀ u ∈ rest, u ∈ s.input.items := by
    unfold Deque.pushFront
    by_cases h : s.input.full = true
    · exact ⟨s.input.items.dropLast, fun x => by simp [h], fun u => List.mem_of_mem_dropLast⟩
    · exact ⟨s.input.items, fun x => by simp [h], fun u => id⟩
  obtain ⟨rest, hr, hmem⟩ := hitems
  simp only [hr, Option.map_eq_some_iff] at h1 h2
  obtain ⟨u, hu, rfl⟩ := h1
  obtain ⟨v, hv, rfl⟩ := h2
  refine innerProduct_head hF hc h rest cs (fun q hq => ?_) hu hv
  exact hz _ (hmem _ (List.of_mem_zip hq).1) _ (List.of_mem_zip hq).2

example (s1 s2 : Impulse.Finite (X binary64))
    (h1 : (Impulse.Finite.init [X.fin 2, X.fin (-3)] : Impulse.Finite (X binary64)).push (X.fin 5) = some s1)
    (h2 : (Impulse.Finite.init [X.fin 2, X.fin (-3)] : Impulse.Finite (X binary64)).push X.pinf = some s2) :
    le s1.value s2.value = true :=
  C94_fir_partial binary64_binary _ (c := 2) (by norm_num) rfl
    (by simp [Impulse.Finite.init, Impulse.Deque.init]) rfl h1 h2

open Impulse in
/-- C94 for the last value, IIR filter with positive first coefficient and scale, if the feedback is a number. -/
theorem C94_iir_partial (hF : F.Binary p emin) (s : Impulse.Infinite (X F)) {a c g : ℝ} {as : List (X F)} (ha : 0 < a)
    (hs : s.inputCoefficients = X.fin a :: as) (hc : 0 < c) (hsc : s.outputScale = X.fin c)
    (hz : ∀ u ∈ s.inputWindow.items, ∀ v ∈ as, ∃ r : ℝ, u * v = X.fin r)
    (hg : innerProduct (ofNat 0) s.outputWindow.items s.outputCoefficients = some (X.fin g))
    {x y : X F} (h : le x y = true) {s1 s2 : Impulse.Infinite (X F)} (h1 : s.push x = some s1) (h2 : s.push y = some s2) :
    le s1.value s2.value = true := by
  rw [X.le_iff] at h ⊢
  unfold Impulse.Infinite.push at h1 h2
  have hitems : ∃ rest, (∀ x, (s.inputWindow.pushFront x).items = x :: rest) ∧ ∀ u ∈ rest, u ∈ s.inputWindow.items := by
    unfold Deque.pushFront
    by_cases h : s.inputWindow.full = true
    · exact ⟨s.inputWindow.items.dropLast, fun x => by simp [h], fun u => List.mem_of_mem_dropLast⟩
    · exact ⟨s.inputWindow.items, fun x => by simp [h], fun u => id⟩
  obtain ⟨rest, hr, hmem⟩ := hitems
  obtain ⟨orest, hor⟩ := pushFront_items s.outputWindow
  rw [hs, hg, hsc] at h1 h2
  simp only [hr, Option.bind_eq_bind, Option.bind_eq_some_iff, Option.pure_def, Option.some.injEq,
    exists_eq_left'] at h1 h2
  obtain ⟨u, hu, rfl⟩ := h1
  obtain ⟨v, hv, rfl⟩ := h2
  have huv := innerProduct_head hF ha h rest as (fun q hq =>
    hz _ (hmem _ (List.of_mem_zip hq).1) _ (List.of_mem_zip hq).2) hu hv
  simp only [Impulse.Infinite.value, hor]
  exact X.div_le_div_fin hF (X.sub_le_sub_fin hF huv g) hc

example (s1 s2 : Impulse.Infinite (X binary64))
    (h1 : (Impulse.Infinite.init [X.fin 2, X.fin (-3)] [X.fin 1] (X.fin 4) : Impulse.Infinite (X binary64)).push
      (X.fin 5) = some s1)
    (h2 : (Impulse.Infinite.init [X.fin 2, X.fin (-3)] [X.fin 1] (X.fin 4) : Impulse.Infinite (X binary64)).push
      X.pinf = some s2) : le s1.value s2.value = true :=
  C94_iir_partial (c := 4) (g := 0) binary64_binary _ (a := 2) (by norm_num) rfl (by norm_num) rfl
    (by simp [Impulse.Infinite.init, Impulse.Deque.init])
    (by rw [← binary64_binary.ofNat_zero]; rfl) rfl h1 h2

/-! ### Exact arithmetic: every value -/

theorem AtMost.mean {xs ys : List ℝ} (h : AtMost xs ys) : Spec.mean xs ≤ Spec.mean ys := by
  unfold Spec.mean
  rw [h.length_eq]
  exact div_le_div_of_nonneg_right h.sum_le_sum (Nat.cast_nonneg _)

theorem AtMost.getD {xs ys : List ℝ} (h : AtMost xs ys) (i : Nat) : xs.getD i 0 ≤ ys.getD i 0 := by
  induction h generalizing i with
  | nil => simp
  | cons h _ ih =>
    cases i with
    | zero => simpa using h
    | succ i => simpa using ih i

theorem AtMost.ewMean {f : ℝ} (h0 : 0 < f) (h1 : f ≤ 1) {xs ys : List ℝ} (h : AtMost xs ys) :
    Spec.ewMean f xs ≤ Spec.ewMean f ys := by
  unfold Spec.ewMean
  rw [← h.length_eq]
  refine div_le_div_of_nonneg_right ?_ ?_
  · unfold Spec.ewSum
    rw [← h.length_eq]
    refine List.sum_le_sum fun i _ => mul_le_mul_of_nonneg_left (h.getD i) ?_
    exact mul_nonneg h0.le (pow_nonneg (by linarith) _)
  · have := pow_le_one₀ (n := xs.length) (by linarith : (0 : ℝ) ≤ 1 - f) (by linarith)
    linarith

theorem AtMost.interimMean (hW : 1 ≤ W) {xs ys : List ℝ} (h : AtMost xs ys) :
    Spec_interimMean W xs ≤ Spec_interimMean W ys := by
  have hc : AtMost (Spec.curBlock W xs) (Spec.curBlock W ys) := by
    unfold Spec.curBlock; rw [← h.length_eq]; exact List.forall₂_drop _ h
  have hp : AtMost (Spec.prevBlock W xs) (Spec.prevBlock W ys) := by
    unfold Spec.prevBlock; rw [← h.length_eq]
    split_ifs
    · exact .nil
    · exact List.forall₂_take _ (List.forall₂_drop _ h)
  have hlen : ((Spec.curBlock W xs).length : ℝ) ≤ W := by exact_mod_cast Spec.length_curBlock_le hW xs
  have hW0 : (0 : ℝ) < W := by exact_mod_cast hW
  have hn0 : (0 : ℝ) ≤ (Spec.curBlock W xs).length := Nat.cast_nonneg _
  unfold Spec_interimMean
  simp only
  rw [← h.length_eq, ← hc.length_eq]
  split_ifs
  · exact h.mean
  · unfold Spec.blend
    refine div_le_div_of_nonneg_right (add_le_add ?_ ?_) (by linarith)
    · exact mul_le_mul_of_nonneg_left hp.mean (by linarith)
    · exact mul_le_mul_of_nonneg_left hc.mean (by linarith)

/-- C94 in exact arithmetic: for every change of the data upwards, at any places, none of the four means
decreases. -/
theorem C94_exact_partial (hN : 1 ≤ N) (hW : 1 ≤ W) (hw : 2 * W < 2 ^ w) {f : ℝ} (h0 : 0 < f) (h1 : f ≤ 1)
    (ops ops' : List (Op ℝ)) (hn : (sinceClear ops).length < 2 ^ w) (h : AtMost (sinceClear ops) (sinceClear ops')) :
    le (Cumulative.Mean.run (finOps ops) : Cumulative.Mean w (E ε)).getMean
        (Cumulative.Mean.run (finOps ops') : Cumulative.Mean w (E ε)).getMean = true
    ∧ (∃ s s' : Window.Mean N (E ε), Window.Mean.run (finOps ops) = some s ∧ Window.Mean.run (finOps ops') = some s'
        ∧ le s.getMean s'.getMean = true)
    ∧ le (Decay.Mean.run (X.fin f) (finOps ops) : Decay.Mean (E ε)).mean
        (Decay.Mean.run (X.fin f) (finOps ops') : Decay.Mean (E ε)).mean = true
    ∧ le (Interim.IMean.mean (Interim.Interim.run (finOps ops) : Interim.IMean w W (E ε)))
        (Interim.IMean.mean (Interim.Interim.run (finOps ops') : Interim.IMean w W (E ε))) = true := by
  simp only [X.le_iff]
  refine ⟨?_, ?_, ?_, ?_⟩
  · rw [(C01_mean ops hn).1, (C01_mean ops' (by rwa [← h.length_eq])).1]
    exact h.mean
  · refine ⟨_, _, Window.Mean.run_fin hN ops, Window.Mean.run_fin hN ops', ?_⟩
    have hl : AtMost (Spec.lastN N (sinceClear ops)) (Spec.lastN N (sinceClear ops')) := by
      unfold Spec.lastN; rw [← h.length_eq]; exact List.forall₂_drop _ h
    exact hl.mean
  · rw [C25_decay_mean h0 h1, C25_decay_mean h0 h1]
    exact h.ewMean h0 h1
  · rw [(C29_interim_mean hW hw ops).1, (C29_interim_mean hW hw ops').1]
    exact h.interimMean hW

example : AtMost [1, 2, 3] [1, 5, 3] := .cons le_rfl (.cons (by norm_num) (.cons le_rfl .nil))

end Verif.Props
