import Verif.Proofs.PSquareOrder
/-
A running mean of many values stops moving.
-/
namespace Verif
open Scalar Cumulative

variable {F : Fmt} {p : Nat} {emin : Int} {w : Nat}

theorem IsRep.abs {r : ℝ} (h : IsRep p emin r) : IsRep p emin |r| := by
  rcases abs_cases r with ⟨e, _⟩ | ⟨e, _⟩ <;> rw [e]
  · exact h
  · exact h.neg

/-- A large number of the format is a multiple of a power of two. -/
theorem IsRep.multiple {r : ℝ} (h : IsRep p emin r) {k : Int} (hk : 2 ^ (k - 1) ≤ |r|) : ∃ a : Int, r = a * 2 ^ (k - p) := by
  obtain ⟨m, e, rfl, hm, he⟩ := h
  have hlt : |(m : ℝ) * 2 ^ e| < 2 ^ ((p : Int) + e) := by
    rw [abs_mul, abs_of_pos (show (0 : ℝ) < 2 ^ e by positivity), zpow_add₀ (by norm_num), zpow_natCast]
    have : (|m| : ℝ) < 2 ^ p := by exact_mod_cast hm
    gcongr
  have h1 : k - 1 < (p : Int) + e := (zpow_lt_zpow_iff_right₀ (by norm_num : (1 : ℝ) < 2)).1 (hk.trans_lt hlt)
  refine ⟨m * 2 ^ (e - (k - p)).toNat, ?_⟩
  push_cast
  rw [mul_assoc, ← zpow_natCast, ← zpow_add₀ (by norm_num)]
  congr 2
  omega

/-- Different numbers of the format differ by more than `|m| / 2^(p+1)`. -/
theorem IsRep.gap {m y : ℝ} (hp : 1 ≤ p) (hm : IsRep p emin m) (hy : IsRep p emin y) (h0 : m ≠ 0)
    (h : |y - m| ≤ |m| / 2 ^ (p + 1)) : y = m := by
  have hpos : 0 < |m| := abs_pos.2 h0
  set k := Int.log 2 |m| with hkdef
  have hk1 : (2 : ℝ) ^ k ≤ |m| := by
    have := Int.zpow_log_le_self (b := 2) (by norm_num) hpos
    push_cast at this; exact this
  have hk2 : |m| < (2 : ℝ) ^ (k + 1) := by
    have := Int.lt_zpow_succ_log_self (b := 2) (by norm_num) |m|
    push_cast at this; exact this
  have hh : |y - m| < 2 ^ (k - p) := by
    refine h.trans_lt ?_
    rw [div_lt_iff₀ (by positivity)]
    have : (2 : ℝ) ^ (k - p) * 2 ^ (p + 1) = 2 ^ (k + 1) := by
      rw [← zpow_natCast, ← zpow_add₀ (by norm_num)]; congr 1; push_cast; ring
    rw [this]; exact hk2
  have hhalf : (2 : ℝ) ^ k = 2 * 2 ^ (k - 1) := by
    have := zpow_add₀ (show (2 : ℝ) ≠ 0 by norm_num) 1 (k - 1)
    rw [show 1 + (k - 1) = k by ring, zpow_one] at this; exact this
  have hple : (2 : ℝ) ^ (k - p) ≤ 2 ^ (k - 1) := zpow_le_zpow_right₀ (by norm_num) (by omega)
  have hy1 : (2 : ℝ) ^ (k - 1) ≤ |y| := by
    have := abs_sub_abs_le_abs_sub m y
    rw [abs_sub_comm] at this
    linarith
  have hm1 : (2 : ℝ) ^ (k - 1) ≤ |m| := by
    have : (0 : ℝ) < 2 ^ (k - 1) := by positivity
    linarith
  obtain ⟨a, ha⟩ := hy.multiple hy1
  obtain ⟨b, hb⟩ := hm.multiple hm1
  have hpk : (0 : ℝ) < 2 ^ (k - p) := by positivity
  have hab : |((a - b : Int) : ℝ)| < 1 := by
    rw [ha, hb, ← sub_mul, abs_mul, abs_of_pos hpk] at hh
    have := (mul_lt_iff_lt_one_left hpk).1 hh
    push_cast; exact this
  have : a - b = 0 := Int.abs_lt_one_iff.1 (by exact_mod_cast hab)
  rw [ha, hb, show a = b by omega]

/-- Dividing a number that is not tiny by a power of two gives a number of the format. -/
theorem IsRep.scale {m : ℝ} (hm : IsRep p emin m) {j : Nat} (h0 : (2 : ℝ) ^ (emin + p + j) ≤ |m|) : IsRep p emin (m / 2 ^ j) := by
  obtain ⟨a, e, rfl, ha, he⟩ := hm
  have hlt : |(a : ℝ) * 2 ^ e| < 2 ^ ((p : Int) + e) := by
    rw [abs_mul, abs_of_pos (show (0 : ℝ) < 2 ^ e by positivity), zpow_add₀ (by norm_num), zpow_natCast]
    have : (|a| : ℝ) < 2 ^ p := by exact_mod_cast ha
    gcongr
  have h1 := (zpow_lt_zpow_iff_right₀ (by norm_num : (1 : ℝ) < 2)).1 (h0.trans_lt hlt)
  refine ⟨a, e - j, ?_, ha, by omega⟩
  rw [zpow_sub₀ (by norm_num), zpow_natCast, mul_div_assoc]

/-- The update of the mean by a value at a distance of at most `|m|`, with a divisor of at least `2^(p+2)`. -/
theorem Fmt.Nearest.frozen (h : F.Nearest p emin) {m x : ℝ} (hm : IsRep p emin m) (hf : F.fits m)
    (h0 : (2 : ℝ) ^ (emin + 2 * p + 2) ≤ |m|) (hx : |x - m| ≤ |m|) {d : X F}
    (hd : d = X.pinf ∨ ∃ n : ℝ, 2 ^ (p + 2) ≤ n ∧ d = X.fin n) :
    (X.fin m + (X.fin x - X.fin m) / d : X F) = X.fin m := by
  have hB := h.binary
  have hp : 1 ≤ p := by have := hB.digits; omega
  have hmpos : 0 < |m| := lt_of_lt_of_le (by positivity) h0
  have hm0 : m ≠ 0 := abs_pos.1 hmpos
  have hfa : F.fits |m| := hB.fits_abs _ m (by rw [abs_abs]) hf
  have habs : ∀ {r b : ℝ}, IsRep p emin b → |r| ≤ b → |F.rnd r| ≤ b := by
    intro r b hb hr
    have := abs_le.1 hr
    refine abs_le.2 ⟨hB.le_rnd hb.neg this.1, hB.rnd_le hb this.2⟩
  have hδ : |F.rnd (x - m)| ≤ |m| := habs hm.abs hx
  have hδf : F.fits (F.rnd (x - m)) := hB.fits_abs _ m hδ hf
  have e : (X.fin x - X.fin m : X F) = X.fin (F.rnd (x - m)) := by
    rw [X.sub_fin]; unfold X.round; rw [if_pos hδf]
  rw [e]
  rcases hd with rfl | ⟨n, hn, rfl⟩
  · have : (X.fin (F.rnd (x - m)) / X.pinf : X F) = X.fin 0 := rfl
    rw [this, X.add_fin, add_zero, hB.round_exact hm hf]
  · have hn0 : (0 : ℝ) < n := lt_of_lt_of_le (by positivity) hn
    have hs : IsRep p emin (|m| / 2 ^ (p + 2)) := by
      apply hm.abs.scale
      rw [abs_abs]
      refine le_trans (zpow_le_zpow_right₀ (by norm_num) ?_) h0
      push_cast; omega
    have hq : |F.rnd (x - m) / n| ≤ |m| / 2 ^ (p + 2) := by
      rw [abs_div, abs_of_pos hn0]
      exact div_le_div₀ (abs_nonneg _) hδ (by positivity) hn
    have hq2 := habs hs hq
    have hsm : |m| / 2 ^ (p + 2) ≤ |m| := div_le_self (abs_nonneg _) (one_le_pow₀ (by norm_num))
    have hqf : F.fits (F.rnd (F.rnd (x - m) / n)) := hB.fits_abs _ m (hq2.trans hsm) hf
    have e2 : (X.fin (F.rnd (x - m)) / X.fin n : X F) = X.fin (F.rnd (F.rnd (x - m) / n)) := by
      rw [X.div_fin_of_ne _ hn0.ne']; unfold X.round; rw [if_pos hqf]
    rw [e2, X.add_fin]
    set q := F.rnd (F.rnd (x - m) / n)
    have hr : F.rnd (m + q) = m := by
      apply IsRep.gap hp hm (hB.rep _) hm0
      have h1 := h.nearest (m + q) m hm
      have h2 : |m - (m + q)| = |q| := by rw [show m - (m + q) = -q by ring, abs_neg]
      rw [h2] at h1
      have h3 : |F.rnd (m + q) - m| ≤ |F.rnd (m + q) - (m + q)| + |q| := by
        have := abs_add_le (F.rnd (m + q) - (m + q)) q
        rwa [show F.rnd (m + q) - (m + q) + q = F.rnd (m + q) - m by ring] at this
      have h4 : |m| / 2 ^ (p + 1) = 2 * (|m| / 2 ^ (p + 2)) := by
        rw [pow_succ (2 : ℝ) (p + 1)]; field_simp
      rw [h4]; linarith
    unfold X.round
    rw [hr, if_pos hf]

/-- A count of at least `2^(p+2)` as divisor. -/
theorem Fmt.Binary.ofNat_large (h : F.Binary p emin) {n j : Nat} (hn : 2 ^ j ≤ n) :
    (Scalar.ofNat n : X F) = X.pinf ∨ ∃ d : ℝ, 2 ^ j ≤ d ∧ (Scalar.ofNat n : X F) = X.fin d := by
  have h2 : (2 : ℝ) ^ j ≤ n := by exact_mod_cast hn
  have hr : IsRep p emin ((2 : ℝ) ^ j) := by
    have := isRep_zpow (p := p) (emin := emin) (k := j) (by have := h.digits; omega) (by have := h.emin_le; omega)
    rwa [zpow_natCast] at this
  rw [X.ofNat_eq]
  unfold X.round
  split_ifs with a b
  · exact Or.inr ⟨_, h.le_rnd hr h2, rfl⟩
  · exact Or.inl rfl
  · exact absurd (lt_of_lt_of_le (by positivity) h2) b

/-- The mean of the filter is frozen. -/
theorem Cumulative.Mean.frozen (h : F.Nearest p emin) {s : Mean w (X F)} {m x : ℝ} (hs : s.mean = X.fin m) (hm : IsRep p emin m)
    (hf : F.fits m) (h0 : (2 : ℝ) ^ (emin + 2 * p + 2) ≤ |m|) (hx : |x - m| ≤ |m|) (hn : 2 ^ (p + 2) ≤ s.count.toNat + 1)
    (hw : s.count.toNat + 1 < 2 ^ w) :
    (s.push (X.fin x)).mean = X.fin m ∧ (s.push (X.fin x)).count.toNat = s.count.toNat + 1 := by
  have hc : (s.count + 1).toNat = s.count.toNat + 1 := by
    rw [BitVec.toNat_add]
    have : (1 : SizeT w).toNat = 1 := by
      show (BitVec.ofNat w 1).toNat = 1
      rw [BitVec.toNat_ofNat]
      apply Nat.mod_eq_of_lt
      omega
    rw [this, Nat.mod_eq_of_lt hw]
  refine ⟨?_, hc⟩
  show s.mean + (X.fin x - s.mean) / ofSize (s.count + 1) = X.fin m
  rw [hs]
  apply h.frozen hm hf h0 hx
  rw [ofSize, hc]
  exact h.binary.ofNat_large hn

theorem Cumulative.Mean.frozen_fold (h : F.Nearest p emin) {m : ℝ} (hm : IsRep p emin m)
    (hf : F.fits m) (h0 : (2 : ℝ) ^ (emin + 2 * p + 2) ≤ |m|) (xs : List ℝ) (hx : ∀ x ∈ xs, |x - m| ≤ |m|) (s : Mean w (X F))
    (hs : s.mean = X.fin m) (hn : 2 ^ (p + 2) ≤ s.count.toNat + 1) (hw : s.count.toNat + xs.length < 2 ^ w) :
    ((xs.map X.fin).foldl Mean.push s).mean = X.fin m := by
  induction xs generalizing s with
  | nil => exact hs
  | cons x xs ih =>
    rw [List.length_cons] at hw
    obtain ⟨h1, h2⟩ := Mean.frozen h hs hm hf h0 (hx x (by simp)) hn (by omega)
    rw [List.map_cons, List.foldl_cons]
    exact ih (fun y hy => hx y (by simp [hy])) _ h1 (by omega) (by omega)

/-- A value that is far enough above the mean moves it up. -/
theorem Fmt.Binary.moves (hB : F.Binary p emin) {u η : ℝ} (hE : F.Err u η) {m x : ℝ} (hm : IsRep p emin m) (hmf : F.fits m)
    (hx : IsRep p emin x) (hxf : F.fits x) (hd : F.fits (F.rnd (x - m))) {n : ℝ} {N : ℝ} (hn : 1 ≤ n) (hN2 : 2 ≤ N)
    (hN : N ≤ 2 * n) (hfar : 4 * n * (u * |m| + 3 * η) < x - m) :
    ∃ m', (X.fin m + (X.fin x - X.fin m) / X.fin N : X F) = X.fin m' ∧ m < m' := by
  obtain ⟨m', h1, -, hf', -⟩ := hB.mean_step hm hmf hx hxf hd (d := X.fin N) (Or.inr ⟨N, hN2, rfl⟩)
  refine ⟨m', h1, ?_⟩
  have hmx : m ≤ x := by
    have : 0 ≤ 4 * n * (u * |m| + 3 * η) := by
      have := hE.u_nonneg; have := hE.eta_nonneg; positivity
    linarith
  have e : (X.fin x - X.fin m : X F) = X.fin (F.rnd (x - m)) := by
    rw [X.sub_fin]; unfold X.round; rw [if_pos hd]
  have hδ0 : 0 ≤ F.rnd (x - m) := hB.rnd_nonneg (by linarith)
  have hN0 : 0 < N := by linarith
  have hq : F.fits (F.rnd (F.rnd (x - m) / N)) :=
    hB.fits_between hB.fits_zero hd (hB.rnd_nonneg (by positivity)) (hB.rnd_le (hB.rep _) (div_le_self hδ0 (by linarith)))
  have e2 : (X.fin (F.rnd (x - m)) / X.fin N : X F) = X.fin (F.rnd (F.rnd (x - m) / N)) := by
    rw [X.div_fin_of_ne _ hN0.ne']; unfold X.round; rw [if_pos hq]
  rw [e, e2, X.add_fin] at h1
  have hm' : m' = F.rnd (m + F.rnd (F.rnd (x - m) / N)) := by
    unfold X.round at h1
    split_ifs at h1 with a
    exact (X.fin_inj.1 h1).symm
  have hη := hE.eta_nonneg
  have hu0 := hE.u_nonneg
  have hu := hE.u_le
  have s1 : 7 / 8 * (x - m) - η ≤ F.rnd (x - m) := by
    have := (abs_le.1 (hE.err (x - m))).1
    rw [abs_of_nonneg (by linarith : 0 ≤ x - m)] at this
    nlinarith
  set δ := F.rnd (x - m) with hδ
  have hq0 : 0 ≤ δ / N := by positivity
  have s2 : 7 / 8 * (δ / N) - η ≤ F.rnd (δ / N) := by
    have := (abs_le.1 (hE.err (δ / N))).1
    rw [abs_of_nonneg hq0] at this
    nlinarith
  have s3 : δ / (2 * n) ≤ δ / N := div_le_div_of_nonneg_left hδ0 hN0 hN
  set q := F.rnd (δ / N) with hqdef
  have hqq : 0 ≤ q := hB.rnd_nonneg hq0
  have s4 : m + q - (u * (|m| + q) + η) ≤ m' := by
    have := (abs_le.1 (hE.err (m + q))).1
    rw [← hm'] at this
    have h5 : |m + q| ≤ |m| + q := (abs_add_le m q).trans (by rw [abs_of_nonneg hqq])
    have := mul_le_mul_of_nonneg_left h5 hu0
    linarith
  have s5 : 7 / 8 * q - (u * |m| + η) ≤ m' - m := by nlinarith
  -- δ / (2 n) is large
  have s6 : 7 / 4 * (u * |m| + 3 * η) - η / 2 < δ / (2 * n) := by
    rw [lt_div_iff₀ (by linarith)]
    have a1 : η ≤ η * n := by nlinarith
    nlinarith
  have hum : 0 ≤ u * |m| := mul_nonneg hu0 (abs_nonneg m)
  nlinarith

end Verif
