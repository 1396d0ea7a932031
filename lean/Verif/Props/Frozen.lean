import Verif.Proofs.Frozen
import Verif.Props.Rounded
/-
C120: new data move the mean.
-/
namespace Verif.Props
open Scalar Cumulative

variable {F : Fmt} {p : Nat} {emin : Int} {w : Nat}

/-- The claim: a value that exceeds the mean, by at least the magnitude of the mean, makes the mean larger. -/
def NewDataMove (F : Fmt) (p : Nat) (emin : Int) (w : Nat) : Prop :=
  ∀ (ops : List (Op ℝ)) (x m : ℝ), F.Data p emin (sinceClear ops ++ [x]) → (sinceClear ops).length + 1 < 2 ^ w →
    (Mean.run (finOps ops) : Mean w (X F)).getMean = X.fin m → m < x → m + |m| ≤ x →
    ∃ m', (Mean.run (finOps (ops ++ [.push x])) : Mean w (X F)).getMean = X.fin m' ∧ m < m'

theorem run_pushes (ops : List (Op ℝ)) (ys : List ℝ) : (Mean.run (finOps (ops ++ ys.map .push)) : Mean w (X F))
    = (ys.map X.fin).foldl Mean.push (Mean.run (finOps ops)) := by
  induction ys using List.reverseRecOn with
  | nil => simp
  | append_singleton ys y ih =>
    rw [List.map_append, List.map_append, List.foldl_append, ← ih, ← List.append_assoc]
    unfold Mean.run finOps
    rw [List.map_append (l₁ := ops ++ _), runOps_append]
    rfl

/-- What is known of a mean after a history. -/
theorem mean_inv (hF : F.Binary p emin) (ops : List (Op ℝ)) (hd : F.Data p emin (sinceClear ops))
    (hw : (sinceClear ops).length < 2 ^ w) {m : ℝ} (hm : (Mean.run (finOps ops) : Mean w (X F)).getMean = X.fin m) :
    MeanInv F p emin w (sinceClear ops) (Mean.run (finOps ops)) m := by
  obtain ⟨m', h⟩ := Mean.rounded (w := w) hF _ hd hw
  rw [Mean.run_eq, sinceClear_finOps] at hm ⊢
  have e : m' = m := X.fin_inj.1 (h.mean.symm.trans hm)
  exact e ▸ h

/-- After `2^(p+2) - 1` values or more, values whose distance to the mean is at most the magnitude of the mean do not change
it, however many there are. -/
theorem C120_frozen (hF : F.Nearest p emin) (ops : List (Op ℝ)) (ys : List ℝ) {m : ℝ} (hd : F.Data p emin (sinceClear ops))
    (hm : (Mean.run (finOps ops) : Mean w (X F)).getMean = X.fin m)
    (hbig : (2 : ℝ) ^ (emin + 2 * p + 2) ≤ |m|) (hn : 2 ^ (p + 2) ≤ (sinceClear ops).length + 1)
    (hw : (sinceClear ops).length + ys.length < 2 ^ w) (hy : ∀ y ∈ ys, |y - m| ≤ |m|) :
    (Mean.run (finOps (ops ++ ys.map .push)) : Mean w (X F)).getMean = X.fin m := by
  have hI := mean_inv (w := w) hF.binary ops hd (by omega) hm
  have hc : (Mean.run (finOps ops) : Mean w (X F)).count.toNat = (sinceClear ops).length := by
    rw [hI.count, BitVec.toNat_ofNat, Nat.mod_eq_of_lt (by omega)]
  rw [run_pushes]
  exact Mean.frozen_fold hF hI.rep hI.fits hbig ys hy _ hm (by rw [hc]; exact hn) (by rw [hc]; exact hw)

theorem data32 (ns : List Int) (h : ∀ n ∈ ns, 0 ≤ n ∧ n ≤ 2) : binary32.Data 24 (-149) (ns.map Int.cast) where
  number x hx := by
    obtain ⟨n, hn, rfl⟩ := List.mem_map.1 hx
    have := h n hn
    refine ⟨isRep_int (by norm_num) (abs_lt.2 ⟨by omega, by omega⟩), binary32_binary.fits_abs _ 2 ?_ binary32_binary.fits_two⟩
    rw [abs_of_nonneg (by exact_mod_cast this.1), abs_of_pos (by norm_num)]
    exact_mod_cast this.2
  difference x hx y hy := by
    obtain ⟨a, ha, rfl⟩ := List.mem_map.1 hx
    obtain ⟨b, hb, rfl⟩ := List.mem_map.1 hy
    have h1 := h a ha
    have h2 := h b hb
    rw [← Int.cast_sub, binary32_binary.exact _ (isRep_int (by norm_num) (abs_lt.2 ⟨by omega, by omega⟩))]
    refine binary32_binary.fits_abs _ 2 ?_ binary32_binary.fits_two
    rw [abs_of_pos (by norm_num : (0 : ℝ) < 2)]
    rw [← Int.cast_abs]
    exact_mod_cast abs_le.2 ⟨by omega, by omega⟩

/-- A history of `n` ones. -/
def ones (n : Nat) : List (Op ℝ) := (List.replicate n 1).map .push

theorem sinceClear_ones (n : Nat) : sinceClear (ones n) = List.replicate n 1 := sinceClear_pushes _

theorem ones_mean {n : Nat} (hn : 1 ≤ n) (hw : n < 2 ^ 64) :
    (Mean.run (finOps (ones n)) : Mean 64 (X binary32)).getMean = X.fin 1 := by
  refine (C17_constant binary32_binary _ (n := n) binary32_binary.isRep_one binary32_binary.fits_one ?_ hn hw).1
  rw [sinceClear_finOps, sinceClear_ones, List.map_replicate]

/-- `float`: after `2^26` ones the mean stays 1, whatever values between 0 and 2 follow. -/
theorem C120_float {n : Nat} (hn : 2 ^ 26 ≤ n) (ys : List ℝ) (hw : n + ys.length < 2 ^ 64) (hy : ∀ y ∈ ys, 0 ≤ y ∧ y ≤ 2) :
    (Mean.run (finOps (ones n ++ ys.map .push)) : Mean 64 (X binary32)).getMean = X.fin 1 := by
  have hlen : (sinceClear (ones n)).length = n := by rw [sinceClear_ones, List.length_replicate]
  refine C120_frozen binary32_nearest (ones n) ys ?_ (ones_mean (by omega) (by omega)) ?_ ?_ ?_ ?_
  · rw [sinceClear_ones]
    have := data32 (List.replicate n 1) (fun k hk => by rw [List.eq_of_mem_replicate hk]; norm_num)
    rwa [List.map_replicate, Int.cast_one] at this
  · rw [abs_one, ← zpow_zero (2 : ℝ)]
    exact zpow_le_zpow_right₀ (by norm_num) (by norm_num)
  · rw [hlen]; omega
  · rw [hlen]; exact hw
  · intro y h
    have := hy y h
    rw [abs_one, abs_le]; constructor <;> linarith

/-- `2^26` ones followed by `2^40` zeros: the mean of the data is less than `1 / 16384`, the filter reports 1. -/
theorem C120_zeros : (Mean.run (finOps (ones (2 ^ 26) ++ (List.replicate (2 ^ 40) (0 : ℝ)).map .push)) : Mean 64 (X binary32)).getMean = X.fin 1
    ∧ Spec.mean (List.replicate (2 ^ 26) 1 ++ List.replicate (2 ^ 40) 0) < 1 / 16384 := by
  constructor
  · refine C120_float (le_refl _) _ (by rw [List.length_replicate]; norm_num) ?_
    intro y hy
    rw [List.eq_of_mem_replicate hy]; norm_num
  · unfold Spec.mean
    rw [List.sum_append, List.sum_replicate, List.sum_replicate, List.length_append, List.length_replicate, List.length_replicate]
    norm_num

/-- C120 fails for `float`: after `2^26` ones a 2 does not change the mean. -/
theorem C120_violated : ¬ NewDataMove binary32 24 (-149) 64 := by
  intro h
  have hs := sinceClear_ones (2 ^ 26)
  obtain ⟨m', h1, h2⟩ := h (ones (2 ^ 26)) 2 1 (by
      rw [hs]
      have := data32 (List.replicate (2 ^ 26) 1 ++ [2]) (fun k hk => by
        rcases List.mem_append.1 hk with hk | hk
        · rw [List.eq_of_mem_replicate hk]; norm_num
        · rw [List.mem_singleton.1 hk]; norm_num)
      rwa [List.map_append, List.map_replicate, List.map_singleton, Int.cast_one, Int.cast_ofNat] at this)
    (by rw [hs, List.length_replicate]; norm_num) (ones_mean (by norm_num) (by norm_num)) (by norm_num) (by norm_num)
  have h3 := C120_float (le_refl (2 ^ 26)) [2] (by norm_num) (by intro y hy; rw [List.mem_singleton.1 hy]; norm_num)
  have h4 : X.fin 1 = X.fin m' := h3.symm.trans h1
  rw [X.fin_inj.1 h4] at h2
  exact lt_irrefl _ h2

/-- C120, what holds: the `n`-th value moves the mean `m` if it exceeds it by more than `4 n (u |m| + 3 η)`, where `u` is the
relative and `η` the absolute error of the format. -/
theorem C120_moves_partial (hF : F.Binary p emin) {u η : ℝ} (hE : F.Err u η) (hp : η ≤ 3 / 4) (hsize : F.fits (F.rnd ((2 ^ w : Nat) : ℝ)))
    (ops : List (Op ℝ)) {x m : ℝ}
    (hd : F.Data p emin (sinceClear ops ++ [x])) (hne : sinceClear ops ≠ []) (hw : (sinceClear ops).length + 1 < 2 ^ w)
    (hm : (Mean.run (finOps ops) : Mean w (X F)).getMean = X.fin m)
    (hfar : 4 * ((sinceClear ops).length + 1) * (u * |m| + 3 * η) < x - m) :
    ∃ m', (Mean.run (finOps (ops ++ [.push x])) : Mean w (X F)).getMean = X.fin m' ∧ m < m' := by
  have hI := mean_inv (w := w) hF ops hd.init (by omega) hm
  have hx := hd.number x (by simp)
  have hlen : 1 ≤ (sinceClear ops).length := List.length_pos_iff.2 hne
  have hdm : F.fits (F.rnd (x - m)) := by
    obtain ⟨⟨a, ha, ha'⟩, ⟨b, hb, hb'⟩⟩ := hI.within hne
    exact hd.fits_sub hF ⟨⟨a, by simp [ha], ha'⟩, ⟨b, by simp [hb], hb'⟩⟩ (by simp)
  set n := (sinceClear ops).length + 1 with hn
  have hc : (ofSize ((Mean.run (finOps ops) : Mean w (X F)).count + 1) : X F) = ofNat n := by
    rw [hI.count, ofNat_add_one, ofSize, toNat_ofNat_lt hw]
  have hN : (ofNat n : X F) = X.fin (F.rnd n) := by
    rw [X.ofNat_eq]; unfold X.round
    rw [if_pos]
    refine hF.fits_between hF.fits_zero hsize (hF.rnd_nonneg (Nat.cast_nonneg _)) (hF.mono ?_)
    exact_mod_cast hw.le
  have hn2 : (2 : ℝ) ≤ n := by exact_mod_cast (by omega : 2 ≤ n)
  have hN2 : 2 ≤ F.rnd n := hF.le_rnd hF.isRep_two hn2
  have hNle : F.rnd n ≤ 2 * n := by
    have := (abs_le.1 (hE.err n)).2
    rw [abs_of_nonneg (by linarith : (0 : ℝ) ≤ n)] at this
    have := hE.u_le
    nlinarith
  have e : (Mean.run (finOps (ops ++ [.push x])) : Mean w (X F)).getMean
      = X.fin m + (X.fin x - X.fin m) / X.fin (F.rnd n) := by
    have := run_pushes (w := w) (F := F) ops [x]
    rw [List.map_singleton, List.map_singleton, List.foldl_cons, List.foldl_nil] at this
    rw [this]
    show (Mean.run (finOps ops) : Mean w (X F)).mean + (X.fin x - (Mean.run (finOps ops) : Mean w (X F)).mean)
      / ofSize ((Mean.run (finOps ops) : Mean w (X F)).count + 1) = _
    rw [hI.mean, hc, hN]
  rw [e]
  refine hF.moves hE hI.rep hI.fits hx.1 hx.2 hdm (n := n) (by linarith) hN2 hNle ?_
  rw [hn]; push_cast; exact hfar

/-- `double`: after 1, 1 the value 4 moves the mean. -/
example : ∃ m', (Mean.run (finOps [.push 1, .push 1, .push 4]) : Mean 64 (X binary64)).getMean = X.fin m' ∧ 1 < m' := by
  have h1 : (Mean.run (finOps [.push 1, .push 1]) : Mean 64 (X binary64)).getMean = X.fin 1 :=
    (C17_constant binary64_binary _ (n := 2) binary64_binary.isRep_one binary64_binary.fits_one rfl (by norm_num) (by norm_num)).1
  refine C120_moves_partial binary64_binary binary64_nearest.err ?_ binary64_size [.push 1, .push 1] ?_ ?_ ?_ h1 ?_
  · exact (zpow_le_zpow_right₀ (by norm_num : (1 : ℝ) ≤ 2) (show (-1074 - 1 : Int) ≤ -1 by norm_num)).trans (by norm_num)
  · have := binary64_data [1, 1, 4] (by decide)
    simpa [sinceClear] using this
  · simp [sinceClear]
  · simp [sinceClear]
  · simp only [sinceClear, List.foldl_cons, List.foldl_nil, List.nil_append, List.cons_append, List.length_cons, List.length_nil, abs_one]
    have h3 : ((2 : ℝ) ^ 1075)⁻¹ ≤ 1 / 128 := by
      rw [one_div]
      exact inv_anti₀ (by norm_num) ((by norm_num : (128 : ℝ) ≤ 2 ^ 7).trans (pow_le_pow_right₀ (by norm_num) (by norm_num)))
    norm_num
    linarith

end Verif.Props
