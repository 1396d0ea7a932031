import Verif.Props.PSquareFloat
/-
C149: a wrong median.
-/
namespace Verif.Props
open Scalar Verif.PSquare

variable {p : Nat} {emin emax : Int} {w : Nat}

/-- IEEE 754 formats that are large enough. -/
structure Large (p : Nat) (emin emax : Int) (w : Nat) : Prop where
  digits : 4 ≤ p
  small : emin ≤ -2
  large : (p : Int) + 3 ≤ emax
  size : (w : Int) + 1 ≤ emax
  count : p + 5 ≤ w

theorem Large.nearest (h : Large p emin emax w) : (Fmt.ieee p emin emax).Nearest p emin :=
  ieee_nearest (by have := h.digits; omega) (by have := h.small; omega) (by have := h.large; omega)

theorem Large.fits (h : Large p emin emax w) : (Fmt.ieee p emin emax).fits (2 ^ (p + 2)) := by
  show |(2 : ℝ) ^ (p + 2)| < 2 ^ emax
  rw [abs_of_pos (by positivity), ← zpow_natCast]
  refine zpow_lt_zpow_right₀ (by norm_num) ?_
  have := h.large
  push_cast; omega

theorem two_zpow_double (k : Int) : (2 : ℝ) ^ (k + 1) = 2 * 2 ^ k := by rw [zpow_add_one₀ (by norm_num)]; ring

/-- Half a unit of the last digit of a number below `2^k`. -/
theorem ieee_err_below {r : ℝ} (h0 : 0 < r) {k : Int} (hk : r < 2 ^ k) (he : emin ≤ k - p) :
    |(Fmt.ieee p emin emax).rnd r - r| ≤ 2 ^ (k - p) / 2 := by
  have h1 := roundNearest_err (p := p) (emin := emin) r
  have h2 : lastDigit p emin r ≤ k - p := by
    have : Int.log 2 |r| < k := by
      rw [← Int.lt_zpow_iff_log_lt (by norm_num) (by positivity), abs_of_pos h0]; exact_mod_cast hk
    unfold lastDigit
    exact max_le (by omega) he
  have h3 : (2 : ℝ) ^ lastDigit p emin r ≤ 2 ^ (k - p) := zpow_le_zpow_right₀ (by norm_num) h2
  show |roundNearest p emin r - r| ≤ _
  linarith

/-- The number at which the desired position of marker `j + 1` stops. -/
def stop (p j : Nat) : Nat := 2 ^ (p - 2 + j)

theorem stop_mono {p j k : Nat} (h : j < k) : stop p j + 1 ≤ stop p k := by
  unfold stop
  exact Nat.pow_lt_pow_right (by norm_num) (by omega)

theorem stop_rep (h : Large p emin emax w) (j : Nat) : IsRep p emin (stop p j : ℝ) := by
  have := isRep_natpow h.nearest.binary (p - 2 + j)
  unfold stop; push_cast; exact this

/-- Adding a quarter, a half, three quarters to `2^(p-2)`, `2^(p-1)`, `2^p`. -/
theorem stop_stuck (h : Large p emin emax w) {j : Nat} (hj : j < 3) :
    (Fmt.ieee p emin emax).rnd (stop p j + ((j : ℝ) + 1) / 4) ≤ stop p j := by
  have hp := h.digits
  have hs := h.small
  have hr := stop_rep h j
  have hB := h.nearest.binary
  have hlow : (stop p j : ℝ) ≤ (Fmt.ieee p emin emax).rnd (stop p j + ((j : ℝ) + 1) / 4) :=
    hB.le_rnd hr (by have : (0 : ℝ) ≤ j := Nat.cast_nonneg j; linarith)
  have hstop : (stop p j : ℝ) = 2 ^ ((p : Int) - 2 + j) := by
    unfold stop; push_cast; rw [← zpow_natCast]; congr 1; push_cast [Nat.cast_sub (show 2 ≤ p by omega)]; ring
  have hbig : (4 : ℝ) ≤ stop p j := by
    have : 2 ^ 2 ≤ stop p j := Nat.pow_le_pow_right (by norm_num) (by omega)
    exact_mod_cast this
  have hj3 : (j : ℝ) + 1 ≤ 3 := by exact_mod_cast (by omega : j + 1 ≤ 3)
  have hj0 : (0 : ℝ) ≤ j := Nat.cast_nonneg j
  -- in units of the last digit: `m` plus at most one half, with `m` even
  have hunit : (2 : ℝ) ^ ((p : Int) - 2 + j + 1 - (p : Int)) = 2 ^ j / 2 := by
    rw [show (p : Int) - 2 + j + 1 - (p : Int) = (j : Int) - 1 by ring, zpow_sub₀ (by norm_num), zpow_natCast, zpow_one]
  have key := roundNearest_eq (p := p) (emin := emin) (r := (stop p j : ℝ) + ((j : ℝ) + 1) / 4) ((p : Int) - 2 + j)
    (by rw [abs_of_nonneg (by linarith), ← hstop]; linarith)
    (by rw [abs_of_nonneg (by linarith), two_zpow_double, ← hstop]; linarith)
    (by omega) (x := ((2 ^ (p - 1) : Int) : ℝ) + ((j : ℝ) + 1) / 4 / (2 ^ j / 2))
    (by
      rw [hunit, add_mul, div_mul_cancel₀ _ (by positivity)]
      congr 1
      unfold stop
      push_cast
      rw [mul_div_assoc', ← pow_add, show p - 1 + j = p - 2 + j + 1 by omega, pow_succ]
      ring)
  have hround : nearestEven (((2 ^ (p - 1) : Int) : ℝ) + ((j : ℝ) + 1) / 4 / (2 ^ j / 2)) ≤ 2 ^ (p - 1) := by
    have hle : ((2 ^ (p - 1) : Int) : ℝ) + ((j : ℝ) + 1) / 4 / (2 ^ j / 2) ≤ ((2 ^ (p - 1) : Int) : ℝ) + 1 / 2 := by
      have : j = 0 ∨ j = 1 ∨ j = 2 := by omega
      rcases this with rfl | rfl | rfl <;> norm_num
    refine (nearestEven_mono hle).trans ?_
    rw [nearestEven_tie, if_pos]
    exact (Int.even_pow.2 ⟨by decide, by omega⟩)
  show roundNearest p emin _ ≤ _
  rw [key, hunit]
  have hround' : (nearestEven (((2 ^ (p - 1) : Int) : ℝ) + ((j : ℝ) + 1) / 4 / (2 ^ j / 2)) : ℝ) ≤ 2 ^ (p - 1) := by
    exact_mod_cast hround
  have h2j : (0 : ℝ) ≤ 2 ^ j / 2 := by positivity
  refine (mul_le_mul_of_nonneg_right hround' h2j).trans (le_of_eq ?_)
  unfold stop
  push_cast
  rw [mul_div_assoc', ← pow_add, show p - 1 + j = p - 2 + j + 1 by omega, pow_succ]
  ring

/-- Below that number the desired position grows by at least one eighth. -/
theorem stop_grow (h : Large p emin emax w) {j : Nat} (hj : j < 3) {D : ℝ} (h1 : 1 ≤ D) (h2 : D + ((j : ℝ) + 1) / 4 < stop p j) :
    D + 1 / 8 ≤ (Fmt.ieee p emin emax).rnd (D + ((j : ℝ) + 1) / 4) := by
  have hp := h.digits
  have hs := h.small
  have hj0 : (0 : ℝ) ≤ j := Nat.cast_nonneg j
  have hstop : (stop p j : ℝ) = 2 ^ ((p : Int) - 2 + j) := by
    unfold stop; push_cast; rw [← zpow_natCast]; congr 1; push_cast [Nat.cast_sub (show 2 ≤ p by omega)]; ring
  have he := ieee_err_below (p := p) (emin := emin) (emax := emax) (r := D + ((j : ℝ) + 1) / 4) (by linarith)
    (k := (p : Int) - 2 + j) (by rw [← hstop]; exact h2) (by omega)
  rw [show (p : Int) - 2 + j - p = (j : Int) - 2 by ring, abs_le] at he
  have := he.1
  have hj' : j = 0 ∨ j = 1 ∨ j = 2 := by omega
  rcases hj' with rfl | rfl | rfl <;> norm_num at this ⊢ <;> linarith

/-! ### The desired positions of the median -/

theorem delta_median (h : Large p emin emax w) {j : Nat} (hj : j < 3) :
    deltaF (Fmt.ieee p emin emax) [median] (j + 1) = ((j : ℝ) + 1) / 4 := by
  have hB := h.nearest.binary
  have hp := h.digits
  have hs := h.small
  obtain ⟨q0, q1, q2⟩ := quantileAt_median
  have hrep : ∀ m : Int, |m| ≤ 6 → IsRep p emin ((m : ℝ) / 4) := by
    intro m hm
    have h16 : (2 : Int) ^ 4 ≤ 2 ^ p := pow_le_pow_right₀ (by norm_num) hp
    have := isRep_mul (p := p) (emin := emin) (m := m) (e := -2) (by omega) (by omega) (by omega)
    convert this using 1
    norm_num; ring
  have r2 : (Fmt.ieee p emin emax).rnd (1 / 2) = 1 / 2 := hB.exact _ (by have := hrep 2 (by decide); norm_num at this ⊢; exact this)
  have r4 : (Fmt.ieee p emin emax).rnd (1 / 4) = 1 / 4 := hB.exact _ (by have := hrep 1 (by decide); norm_num at this ⊢; exact this)
  have r3 : (Fmt.ieee p emin emax).rnd (3 / 4) = 3 / 4 := hB.exact _ (by have := hrep 3 (by decide); norm_num at this ⊢; exact this)
  have r6 : (Fmt.ieee p emin emax).rnd (3 / 2) = 3 / 2 := hB.exact _ (by have := hrep 6 (by decide); norm_num at this ⊢; exact this)
  have r1 : (Fmt.ieee p emin emax).rnd 1 = 1 := hB.exact _ hB.isRep_one
  have r0 := hB.rnd_zero
  have hj' : j = 0 ∨ j = 1 ∨ j = 2 := by omega
  rcases hj' with rfl | rfl | rfl
  · norm_num [deltaF, q0, q1, r0, r2, r4]
  · norm_num [deltaF, q1, r2]
  · norm_num [deltaF, q1, q2, r1, r2, r3, r6]

theorem des_median (h : Large p emin emax w) {j : Nat} (hj : j < 3) (k : Nat) :
    desF (Fmt.ieee p emin emax) [median] (j + 1) k ≤ stop p j
    ∧ (desF (Fmt.ieee p emin emax) [median] (j + 1) k = stop p j
      ∨ 1 + (k : ℝ) / 8 ≤ desF (Fmt.ieee p emin emax) [median] (j + 1) k) := by
  have hB := h.nearest.binary
  have hq := median_float (p := p) (by have := h.digits; omega)
  have hδ := delta_median h hj
  have hj0 : (0 : ℝ) ≤ j := Nat.cast_nonneg j
  induction k with
  | zero =>
    have h1 := one_le_des hB hq (j + 1) 0
    refine ⟨?_, Or.inr (by norm_num; exact h1)⟩
    show (Fmt.ieee p emin emax).rnd _ ≤ _
    rw [hδ]
    have h2 : ((2 : ℝ) * (([median] : List Ratio).length + 1)) * (((j : ℝ) + 1) / 4) = (j : ℝ) + 1 := by norm_num; ring
    rw [h2]
    have hnat : IsRep p emin ((j : ℝ) + 1) := by
      have h16 : 2 ^ 4 ≤ 2 ^ p := Nat.pow_le_pow_right (by norm_num) h.digits
      have := nat_rep hB (n := j + 1) (by omega)
      push_cast at this; exact this
    rw [hB.exact _ hnat]
    refine hB.rnd_le (stop_rep h j) ?_
    have : 2 + j ≤ stop p j := by
      have hp := h.digits
      have h4 : 2 ^ (2 + j) ≤ stop p j := Nat.pow_le_pow_right (by norm_num) (by omega)
      have : 2 + j < 2 ^ (2 + j) := Nat.lt_two_pow_self
      omega
    have : ((2 + j : Nat) : ℝ) ≤ stop p j := by exact_mod_cast this
    push_cast at this; linarith
  | succ k ih =>
    obtain ⟨i1, i2⟩ := ih
    have hstep : desF (Fmt.ieee p emin emax) [median] (j + 1) (k + 1)
        = (Fmt.ieee p emin emax).rnd (desF (Fmt.ieee p emin emax) [median] (j + 1) k + ((j : ℝ) + 1) / 4) := by
      show (Fmt.ieee p emin emax).rnd _ = _
      rw [hδ]
    have hle : desF (Fmt.ieee p emin emax) [median] (j + 1) (k + 1) ≤ stop p j := by
      rw [hstep]
      exact (hB.mono (by linarith)).trans (stop_stuck h hj)
    refine ⟨hle, ?_⟩
    rcases le_or_gt (stop p j : ℝ) (desF (Fmt.ieee p emin emax) [median] (j + 1) k + ((j : ℝ) + 1) / 4) with h3 | h3
    · left
      refine le_antisymm hle ?_
      rw [hstep]
      exact hB.le_rnd (stop_rep h j) h3
    · right
      have h4 := stop_grow h hj (one_le_des hB hq (j + 1) k) h3
      rw [← hstep] at h4
      rcases i2 with i2 | i2
      · rw [i2] at h3; linarith
      · push_cast; linarith

theorem des_median_stop (h : Large p emin emax w) {j : Nat} (hj : j < 3) {k : Nat} (hk : 8 * stop p j ≤ k) :
    desF (Fmt.ieee p emin emax) [median] (j + 1) k = stop p j := by
  obtain ⟨h1, h2⟩ := des_median h hj k
  rcases h2 with h2 | h2
  · exact h2
  · have : (8 : ℝ) * stop p j ≤ k := by exact_mod_cast hk
    linarith

/-! ### The markers -/

/-- The computed sign compares the position with the desired position. -/
theorem stuck_sign (h : Large p emin emax w) {j : Nat} (hj : j < 3) {b : Nat} (hb : b ≤ stop p j) (k : Nat) :
    SignIs (desF (Fmt.ieee p emin emax) [median] (j + 1) k - b)
      (PSquare.signOf (X.fin (desF (Fmt.ieee p emin emax) [median] (j + 1) k) - ofNat b : X (Fmt.ieee p emin emax))) := by
  have hB := h.nearest.binary
  have hp := h.digits
  have hq := median_float (p := p) (by omega)
  have hbp : b ≤ 2 ^ p := hb.trans (Nat.pow_le_pow_right (by norm_num) (by omega))
  have hfp := fits_natpow hB h.fits (show p ≤ p + 2 by omega)
  have hbr : (b : ℝ) ≤ 2 ^ p := by exact_mod_cast hbp
  rw [hB.ofNat_fin hbp (hB.fits_between hB.fits_zero hfp (Nat.cast_nonneg _) hbr)]
  refine hB.signOf_sub (des_rep hB _ _ _) (nat_rep hB hbp) (isRep_natpow hB p) hfp ?_
  have d1 := one_le_des hB hq (j + 1) k
  have d2 := (des_median h hj k).1
  have d3 : (stop p j : ℝ) ≤ 2 ^ p := by
    have : stop p j ≤ 2 ^ p := Nat.pow_le_pow_right (by norm_num) (by omega)
    exact_mod_cast this
  have d4 : (0 : ℝ) ≤ b := Nat.cast_nonneg b
  exact abs_le.2 ⟨by linarith, by linarith⟩

theorem stuck_step (h : Large p emin emax w) {j : Nat} (hj : j < 3) {a b c b' : Nat} (hb : b ≤ stop p j) (k : Nat)
    (ha : AdjustedBy a b c b' (PSquare.signOf (X.fin (desF (Fmt.ieee p emin emax) [median] (j + 1) k) - ofNat b : X (Fmt.ieee p emin emax)))) :
    b' ≤ stop p j
    ∧ (8 * stop p j ≤ k → (b < stop p j → c ≠ b + 1) → b' = stop p j ∨ b' = b + 1)
    ∧ (8 * stop p j ≤ k → b = stop p j → b' = b) := by
  have hs := stuck_sign h hj hb k
  have hd := (des_median h hj k).1
  have hd8 := fun hk => des_median_stop h hj (k := k) hk
  unfold AdjustedBy at ha
  rcases hs with ⟨h1, h2⟩ | ⟨h1, h2⟩ | ⟨h1, h2⟩
  · rw [h2] at ha
    have hlt : b < stop p j := by
      have : (b : ℝ) < stop p j := by linarith
      exact_mod_cast this
    have : b' = b + 1 ∨ b' = b ∧ c = b + 1 := by
      rcases ha with ha | ha | ha | ha | ha
      · exact Or.inl ha.2
      · exact Or.inr ha.2
      all_goals exact absurd ha.1 (by decide)
    refine ⟨by omega, fun _ hc => ?_, by omega⟩
    have := hc hlt
    omega
  · rw [h2] at ha
    have : b' = b := by
      rcases ha with ha | ha | ha | ha | ha
      · exact absurd ha.1 (by decide)
      · exact absurd ha.1 (by decide)
      · exact ha.2
      all_goals exact absurd ha.1 (by decide)
    refine ⟨by omega, fun hk _ => Or.inl ?_, fun _ _ => this⟩
    rw [hd8 hk] at h1
    have : (b : ℝ) = stop p j := by linarith
    have : b = stop p j := by exact_mod_cast this
    omega
  · rw [h2] at ha
    have : b' ≤ b := by
      rcases ha with ha | ha | ha | ha | ha
      · exact absurd ha.1 (by decide)
      · exact absurd ha.1 (by decide)
      · exact absurd ha.1 (by decide)
      · omega
      · omega
    have hno : 8 * stop p j ≤ k → False := by
      intro hk
      rw [hd8 hk] at h1
      have : (stop p j : ℝ) < b := by linarith
      have : stop p j < b := by exact_mod_cast this
      omega
    exact ⟨by omega, fun hk => (hno hk).elim, fun hk => (hno hk).elim⟩

/-- The heights after equal values. -/
theorem zeros_heights (h : Large p emin emax w) {n : Nat} (hn : n < 2 ^ w) (h5 : 5 ≤ n) {s : PSquare w (X (Fmt.ieee p emin emax))}
    (hs : pushes w ([median].map Ratio.toScalar) (List.replicate n (X.fin 0)) = some s) :
    ∀ i < 5, s.heights[i]? = some (X.fin 0) := by
  have hF := h.nearest.binary
  have hc : IsRep p emin (0 : ℝ) ∧ (Fmt.ieee p emin emax).fits 0 := ⟨by have := hF.rep 0; rwa [hF.rnd_zero] at this, hF.fits_zero⟩
  obtain ⟨s2, ps, h2, d, hs2, hi⟩ := pushes_invF (w := w) (F := Fmt.ieee p emin emax) (b := n) ([median].map Ratio.toScalar)
    (by show 5 < 2 ^ w
        have := Nat.pow_le_pow_right (show 0 < 2 by norm_num) (show 3 ≤ w by have := h.count; omega)
        omega)
    (fun x => x = 0) (fun h => ∀ i, i < 5 → h i = X.fin 0)
    (by intro r h hr _ hh i hi
        rw [hh i hi, hr i hi])
    (by intro h x lo hx hJ _ _ i hi
        by_cases h0 : i = 0
        · rw [h0, Function.update_self, hx]
        · rw [Function.update_of_ne h0, hJ i hi])
    (by intro h x hi' hx hJ _ _ i hi
        by_cases h0 : i = 4
        · subst h0
          show Function.update h 4 _ 4 = _
          rw [Function.update_self, hx]
        · show Function.update h 4 _ i = _
          rw [Function.update_of_ne h0, hJ i hi])
    (by intro p d h i sign hm _ h1 h2 hmv hJ j hj
        by_cases h0 : j = i
        · rw [h0, Function.update_self]
          exact predictAt_const hF hc hm h1 h2 (hmv.2.imp And.left And.left) hJ
        · rw [Function.update_of_ne h0, hJ j hj])
    (List.replicate n 0) (by simp) (by simpa using hn) (by intro x hx; exact List.eq_of_mem_replicate hx)
  rw [List.map_replicate, hs] at hs2
  obtain rfl := Option.some.inj hs2
  intro i hi5
  rw [hi.inv.rep.ht i hi5, (hi.many (by rw [List.length_replicate]; exact h5)).1 i hi5]

/-- When the markers have reached their stops. -/
def reach (p : Nat) : Nat → Nat
  | 0 => 8 * stop p 2 + stop p 2 + stop p 1
  | 1 => 8 * stop p 2 + stop p 2
  | _ => 8 * stop p 2

/-- After zeros only: no marker exceeds its stop, and each climbs to it as soon as its upper neighbour is there. -/
theorem zeros_state (h : Large p emin emax w) (m : Nat) (hn : m + 5 < 2 ^ w) :
    ∃ (s : PSquare w (X (Fmt.ieee p emin emax))) (ps : Nat → Nat) (ht : Nat → X (Fmt.ieee p emin emax)),
      pushes w ([median].map Ratio.toScalar) (List.replicate (m + 5) (X.fin 0)) = some s
      ∧ FloatState (Fmt.ieee p emin emax) [median] (m + 5) s ps ht ∧ (∀ i < 5, ht i = X.fin 0)
      ∧ ∀ j < 3, ps (j + 1) ≤ stop p j ∧ (reach p j ≤ m → ps (j + 1) = stop p j ∨ m - reach p j ≤ ps (j + 1)) := by
  have hF := h.nearest
  have hB := hF.binary
  have hq := median_float (p := p) (by have := h.digits; omega)
  have hp := h.digits
  induction m with
  | zero =>
    obtain ⟨s, ht, hs, hst⟩ := float_base (w := w) hB (fits_natpow hB h.fits (by omega)) hq (by simpa using hn)
      (List.replicate (0 + 5) (X.fin 0)) (by simp)
    rw [List.length_replicate] at hst
    refine ⟨s, _, ht, hs, hst, fun i hi => ?_, fun j hj => ⟨?_, fun hr => Or.inr (by omega)⟩⟩
    · have e1 := hst.rep.ht i hi
      rw [zeros_heights h hn (by omega) hs i hi] at e1
      exact (Option.some.inj e1).symm
    · show j + 1 + 1 ≤ _
      have h4 : 2 ^ (2 + j) ≤ stop p j := Nat.pow_le_pow_right (by norm_num) (by omega)
      have : 2 + j < 2 ^ (2 + j) := Nat.lt_two_pow_self
      omega
  | succ m ih =>
    obtain ⟨s, ps, ht, hs, hst, hz, hb⟩ := ih (by omega)
    obtain ⟨k, h1, s', ps', h', a1, a2, a3, a4, a5, a6, a7, a8, -, -, -, a9⟩ :=
      float_push hF h.fits hq (n := m + 5) (by simp) (by omega) hst (X.fin 0)
    have hz0 := hz 0 (by omega)
    have hz4 := hz 4 (by omega)
    have hk : k = 4 := by
      rcases a4 with ⟨h5, -, -⟩ | ⟨-, -, h6, -⟩ | ⟨-, h6, -⟩
      · rw [hz0, X.lt_fin] at h5; simp at h5
      · exact h6
      · change le (ht 4) _ = _ at h6
        rw [hz4, X.le_fin] at h6; simp at h6
    subst hk
    have hpush : pushes w ([median].map Ratio.toScalar) (List.replicate (m + 1 + 5) (X.fin 0)) = some s' := by
      rw [show m + 1 + 5 = m + 5 + 1 by omega, List.replicate_succ', pushes_snoc, hs]
      exact a5
    have hst' : FloatState (Fmt.ieee p emin emax) [median] (m + 1 + 5) s' ps' h' := by
      rw [show m + 1 + 5 = m + 5 + 1 by omega]; exact a6
    refine ⟨s', ps', h', hpush, hst', fun i hi => ?_, ?_⟩
    · have e1 := hst'.rep.ht i hi
      rw [zeros_heights h hn (by omega) hpush i hi] at e1
      exact (Option.some.inj e1).symm
    · intro j hj
      obtain ⟨b1, b2⟩ := hb j hj
      have hadj := a9 (j + 1) (by omega) (by simp; omega)
      have ebump : bumped 4 ps (j + 1) = ps (j + 1) := by unfold bumped; rw [if_neg (by omega)]
      rw [ebump] at hadj
      obtain ⟨c1, c2, -⟩ := stuck_step h hj b1 _ hadj
      refine ⟨c1, fun hr => ?_⟩
      have hkk : m + 5 + 1 - (2 * ([median] : List Ratio).length + 3) = m + 1 := by simp
      rw [hkk] at c2
      have s01 : stop p 0 ≤ stop p 2 := Nat.pow_le_pow_right (by norm_num) (by omega)
      have s12 : stop p 1 ≤ stop p 2 := Nat.pow_le_pow_right (by norm_num) (by omega)
      rcases Nat.lt_or_ge m (reach p j) with hlt | hge
      · exact Or.inr (by omega)
      have hstop : 8 * stop p j ≤ m + 1 := by
        have hj' : j = 0 ∨ j = 1 ∨ j = 2 := by omega
        rcases hj' with rfl | rfl | rfl <;> simp only [reach] at hge <;> omega
      have hblock : ps (j + 1) < stop p j → bumped 4 ps (j + 1 + 1) ≠ ps (j + 1) + 1 := by
        intro hl
        have hj' : j = 0 ∨ j = 1 ∨ j = 2 := by omega
        rcases hj' with rfl | rfl | rfl
        · have := (hb 1 (by omega)).2 (by simp only [reach] at hge ⊢; omega)
          have hm := stop_mono (p := p) (show 0 < 1 by omega)
          have : ps 2 = stop p 1 := by
            rcases this with h7 | h7
            · exact h7
            · have := (hb 1 (by omega)).1
              simp only [reach] at hge h7
              change ps 2 ≤ _ at this
              change _ ≤ ps 2 at h7
              omega
          show (if 4 ≤ 2 then ps 2 + 1 else ps 2) ≠ _
          rw [if_neg (by omega), this]; omega
        · have := (hb 2 (by omega)).2 (by simp only [reach] at hge ⊢; omega)
          have hm := stop_mono (p := p) (show 1 < 2 by omega)
          have : ps 3 = stop p 2 := by
            rcases this with h7 | h7
            · exact h7
            · have := (hb 2 (by omega)).1
              simp only [reach] at hge h7
              change ps 3 ≤ _ at this
              change _ ≤ ps 3 at h7
              omega
          show (if 4 ≤ 3 then ps 3 + 1 else ps 3) ≠ _
          rw [if_neg (by omega), this]; omega
        · have := hst.mono.step 3 (by simp)
          show (if 4 ≤ 4 then ps 4 + 1 else ps 4) ≠ _
          rw [if_pos (le_refl _)]
          change ps 3 < ps 4 at this
          change _ ≠ ps 3 + 1
          omega
      rcases c2 hstop hblock with h7 | h7
      · exact Or.inl h7
      · rcases b2 hge with h8 | h8
        · left; omega
        · right; omega

/-- From then on ascending values move nothing. -/
theorem rise_state (h : Large p emin emax w) {n : Nat} (hn : n = 2 ^ (p + 4)) (ys : List ℝ) (hy : ys.Pairwise (· ≤ ·))
    (hy0 : ∀ y ∈ ys, 0 ≤ y) (hw : n + ys.length < 2 ^ w) :
    ∃ (s : PSquare w (X (Fmt.ieee p emin emax))) (ps : Nat → Nat) (ht : Nat → X (Fmt.ieee p emin emax)) (z : ℝ),
      pushes w ([median].map Ratio.toScalar) (List.replicate n (X.fin 0) ++ ys.map X.fin) = some s
      ∧ FloatState (Fmt.ieee p emin emax) [median] (n + ys.length) s ps ht ∧ (∀ i < 4, ht i = X.fin 0)
      ∧ ht 4 = X.fin z ∧ (z = 0 ∨ z ∈ ys) ∧ ∀ j < 3, ps (j + 1) = stop p j := by
  have hF := h.nearest
  have hB := hF.binary
  have hp := h.digits
  have hq := median_float (p := p) (by omega)
  have e4 : 2 ^ (p + 4) = 16 * 2 ^ p := by rw [pow_add]; ring
  have s2 : stop p 2 = 2 ^ p := by unfold stop; congr 1; omega
  have s1 : stop p 1 ≤ 2 ^ p := Nat.pow_le_pow_right (by norm_num) (by omega)
  have s0 : stop p 0 ≤ 2 ^ p := Nat.pow_le_pow_right (by norm_num) (by omega)
  have h16 : 2 ^ 4 ≤ 2 ^ p := Nat.pow_le_pow_right (by norm_num) hp
  induction ys using List.reverseRecOn with
  | nil =>
    obtain ⟨s, ps, ht, a1, a2, a3, a4⟩ := zeros_state h (n - 5) (by simp at hw; omega)
    rw [show n - 5 + 5 = n by omega] at a1 a2
    refine ⟨s, ps, ht, 0, by simpa using a1, by simpa using a2, fun i hi => a3 i (by omega), a3 4 (by omega), Or.inl rfl, ?_⟩
    intro j hj
    obtain ⟨b1, b2⟩ := a4 j hj
    have : reach p j + stop p j ≤ n - 5 := by
      have hj' : j = 0 ∨ j = 1 ∨ j = 2 := by omega
      rcases hj' with rfl | rfl | rfl <;> simp only [reach] <;> omega
    rcases b2 (by omega) with b3 | b3 <;> omega
  | append_singleton ys y ih =>
    have hlen : (ys ++ [y]).length = ys.length + 1 := by simp
    rw [hlen] at hw ⊢
    rw [List.pairwise_append] at hy
    obtain ⟨s, ps, ht, z, a1, a2, a3, a4, a5, a6⟩ := ih hy.1 (fun x hx => hy0 x (by simp [hx])) (by omega)
    obtain ⟨k, h1, s', ps', h', -, -, -, c4, c5, c6, c7, -, c10, c11, c8, c9⟩ :=
      float_push hF h.fits hq (n := n + ys.length) (by simp; omega) (by omega) a2 (X.fin y)
    have hy' : 0 ≤ y := hy0 y (by simp)
    have hzy : z ≤ y := by
      rcases a5 with rfl | a5
      · exact hy'
      · exact hy.2.2 z a5 y (by simp)
    have hk : k = 4 ∧ h1 = Function.update ht 4 (X.fin y) := by
      rcases c4 with ⟨h5, -, -⟩ | ⟨-, -, h6, h7⟩ | ⟨-, h6, -⟩
      · rw [a3 0 (by omega), X.lt_fin] at h5
        simp at h5; linarith
      · exact ⟨h6, h7⟩
      · change le (ht 4) _ = _ at h6
        rw [a4, X.le_fin] at h6; simp at h6; linarith
    obtain ⟨rfl, rfl⟩ := hk
    have hpos : ∀ j < 3, ps' (j + 1) = ps (j + 1) := by
      intro j hj
      have hadj := c9 (j + 1) (by omega) (by simp; omega)
      have ebump : bumped 4 ps (j + 1) = ps (j + 1) := by unfold bumped; rw [if_neg (by omega)]
      rw [ebump] at hadj
      have hkk : n + ys.length + 1 - (2 * ([median] : List Ratio).length + 3) = n + ys.length - 4 := by simp
      rw [hkk] at hadj
      refine (stuck_step h hj (a6 j hj).le _ hadj).2.2 ?_ (a6 j hj)
      have hj' : j = 0 ∨ j = 1 ∨ j = 2 := by omega
      rcases hj' with rfl | rfl | rfl <;> omega
    refine ⟨s', ps', h', y, ?_, by rw [← Nat.add_assoc]; exact c6, ?_, ?_, Or.inr (by simp), fun j hj => by rw [hpos j hj, a6 j hj]⟩
    · rw [List.map_append, ← List.append_assoc]
      show pushes w _ (_ ++ [X.fin y]) = _
      rw [pushes_snoc, a1]; exact c5
    · intro i hi
      rcases Nat.eq_zero_or_pos i with rfl | hi0
      · rw [c11, Function.update_of_ne (by omega), a3 0 (by omega)]
      · obtain ⟨j, rfl⟩ : ∃ j, i = j + 1 := ⟨i - 1, by omega⟩
        have ebump : bumped 4 ps (j + 1) = ps (j + 1) := by unfold bumped; rw [if_neg (by omega)]
        rw [c8 (j + 1) (by rw [ebump, hpos j (by omega)]), Function.update_of_ne (by omega), a3 _ hi]
    · show h' 4 = _
      change h' 4 = Function.update ht 4 _ 4 at c10
      rw [c10, Function.update_self]

/-- C149: a wrong median.  After `2^(p+4)` zeros, ascending values no longer change the estimate of the median: however
many there are (up to the largest `size_t`), it stays 0. -/
theorem C149_estimate (h : Large p emin emax w) (ys : List ℝ) (hy : ys.Pairwise (· ≤ ·)) (hy0 : ∀ y ∈ ys, 0 ≤ y)
    (hw : 2 ^ (p + 4) + ys.length < 2 ^ w) :
    ∃ s : PSquare w (X (Fmt.ieee p emin emax)),
      PSquare.run [median] (finOps ((List.replicate (2 ^ (p + 4)) 0 ++ ys).map Op.push)) = some s
        ∧ s.get 1 = some (X.fin 0) := by
  obtain ⟨s, ps, ht, z, a1, a2, a3, -, -, -⟩ := rise_state h rfl ys hy hy0 hw
  have hw5 : 5 < 2 ^ w := by
    have := Nat.pow_le_pow_right (show 0 < 2 by norm_num) (show 3 ≤ w by have := h.count; omega)
    omega
  have h16 : 2 ^ 4 ≤ 2 ^ (p + 4) := Nat.pow_le_pow_right (by norm_num) (by omega)
  refine ⟨s, ?_, ?_⟩
  · rw [run_eq_pushes [median] hw5 _ (by simpa [finOps] using hw), sinceClear_finOps, sinceClear_pushes, List.map_append,
      List.map_replicate, a1]
  · have hl : s.len = 5 := a2.rep.len_eq
    have hq : s.q = 1 := by unfold PSquare.len paramLength at hl; omega
    unfold PSquare.get
    rw [hq, if_neg (by omega), hl, a2.count, if_pos (by rw [gt_iff hw hw5]; omega), a2.rep.ht 2 (by simp), a3 2 (by omega)]

theorem binary32_large : Large 24 (-149) 128 64 := ⟨by norm_num, by norm_num, by norm_num, by norm_num, by norm_num⟩
theorem binary64_large : Large 53 (-1074) 1024 64 := ⟨by norm_num, by norm_num, by norm_num, by norm_num, by norm_num⟩

theorem zeros_then_ones (h : Large p emin emax w) {n m : Nat} (hn : n = 2 ^ (p + 4)) (hw : n + m < 2 ^ w) :
    ∃ s : PSquare w (X (Fmt.ieee p emin emax)),
      PSquare.run [median] (finOps ((List.replicate n (0 : ℝ) ++ List.replicate m 1).map Op.push)) = some s
        ∧ s.get 1 = some (X.fin 0) := by
  subst hn
  exact C149_estimate h _ (by simp [List.pairwise_replicate])
    (by intro y hy; rw [List.eq_of_mem_replicate hy]; norm_num) (by rw [List.length_replicate]; exact hw)

theorem Large.fits_size (h : Large p emin emax w) : (Fmt.ieee p emin emax).fits ((Fmt.ieee p emin emax).rnd ((2 ^ w : Nat) : ℝ)) := by
  have hB := h.nearest.binary
  rw [hB.exact _ (by have := isRep_natpow hB w; push_cast; exact this)]
  show |((2 ^ w : Nat) : ℝ)| < 2 ^ emax
  rw [abs_of_nonneg (Nat.cast_nonneg _)]
  push_cast
  rw [← zpow_natCast]
  refine zpow_lt_zpow_right₀ (by norm_num) ?_
  have := h.size
  omega

example : ¬ C149_Statement binary32 24 64 :=
  C149_violated binary32_large.nearest binary32_large.fits binary32_large.fits_size (by norm_num)

example : ¬ C149_Statement binary64 53 64 :=
  C149_violated binary64_large.nearest binary64_large.fits binary64_large.fits_size (by norm_num)

/-- With `double` and a million values the drift is below one thousandth. -/
example (xs : List ℝ) (hx : xs.length = 1000000) :
    ∃ (s : PSquare 64 (X binary64)) (n : Nat → Nat), PSquare.run [median] (finOps (xs.map Op.push)) = some s
      ∧ s.positions[2]? = some (BitVec.ofNat 64 (n 2)) ∧ |(n 2 : ℝ) - 500000.5| ≤ 4.001 := by
  have hs : sinceClear (xs.map Op.push) = xs := sinceClear_pushes xs
  obtain ⟨s, n, h1, h2⟩ := C149_partial (w := 64) binary64_large.nearest binary64_large.fits (median_float (by norm_num))
    (by simp) (xs.map Op.push) (by simp [hx]) (by rw [hs, hx]; simp) (by rw [hs, hx]; norm_num)
  obtain ⟨a1, -, a2, a3⟩ := h2 2 (by simp)
  rw [hs, hx, fractionAt_median.2.1] at a2 a3
  refine ⟨s, n, h1, a1, ?_⟩
  have hη : (2 : ℝ) ^ ((-1074 : Int) - 1) ≤ 2 ^ (-53 : Int) := zpow_le_zpow_right₀ (by norm_num) (by norm_num)
  have hd : 2 * ((1000000 : Nat) : ℝ) ^ 2 * (2 ^ (-((53 : Nat) : Int)) + 2 ^ ((-1074 : Int) - 1)) ≤ 1 / 1000 := by
    push_cast
    have : (2 : ℝ) ^ (-53 : Int) = 1 / 9007199254740992 := by norm_num
    rw [this] at hη ⊢
    linarith
  push_cast [List.length_singleton] at a2 a3 hd
  rw [abs_le]
  constructor <;> linarith

/-- With `float`: 2^28 zeros, then a thousand times as many ones; the estimate of the median is 0. -/
example : ∃ s : PSquare 64 (X binary32),
    PSquare.run [median] (finOps ((List.replicate (2 ^ 28) (0 : ℝ) ++ List.replicate (2 ^ 38) 1).map Op.push)) = some s
      ∧ s.get 1 = some (X.fin 0) :=
  zeros_then_ones binary32_large (by norm_num) (by norm_num)

/-- With `double`: 2^57 zeros, then 63 times as many ones. -/
example : ∃ s : PSquare 64 (X binary64),
    PSquare.run [median] (finOps ((List.replicate (2 ^ 57) (0 : ℝ) ++ List.replicate (63 * 2 ^ 57) 1).map Op.push)) = some s
      ∧ s.get 1 = some (X.fin 0) :=
  zeros_then_ones binary64_large (by norm_num) (by norm_num)

end Verif.Props
