import Verif.Proofs.PSquarePositions
/-
The P-square algorithm for evenly spaced data: every height is the value at the position of its marker.
-/
namespace Verif.PSquare
open Spec

/-- The `L` markers lie on the line `lo + b (n - 1)`. -/
def OnLine (L : Nat) (lo b : ℝ) (m : P2) : Prop := ∀ i < L, m.q i = lo + b * ((m.n i : ℝ) - 1)

/-- Data that are evenly spaced with distance `b` from `lo` on, whenever there are at least `L` of them: the first `L`
values in any order, then always the next one above or below. -/
inductive Spread (L : Nat) (b : ℝ) : ℝ → List ℝ → Prop
  | start {lo : ℝ} {xs : List ℝ} (h : xs.Perm ((List.range L).map fun i : ℕ => lo + b * i)) : Spread L b lo xs
  | up {lo : ℝ} {xs : List ℝ} (h : Spread L b lo xs) : Spread L b lo (xs ++ [lo + b * xs.length])
  | low {lo : ℝ} {xs : List ℝ} (h : Spread L b lo xs) : Spread L b (lo - b) (xs ++ [lo - b])

variable {down : (Nat → ℝ) → (Nat → ℝ) → Nat → ℝ}

theorem Spread.length_ge {L : Nat} {b lo : ℝ} {xs : List ℝ} (h : Spread L b lo xs) : L ≤ xs.length := by
  induction h with
  | start h => rw [h.length_eq]; simp
  | up _ ih => simp; omega
  | low _ ih => simp; omega

theorem Spread.perm {L : Nat} {b lo : ℝ} {xs : List ℝ} (h : Spread L b lo xs) :
    xs.Perm ((List.range xs.length).map fun i : ℕ => lo + b * i) := by
  induction h with
  | start h => rw [h.length_eq]; simpa using h
  | up _ ih =>
    rw [List.length_append, List.length_singleton, List.range_succ, List.map_append, List.map_singleton]
    exact ih.append_right _
  | @low lo xs _ ih =>
    rw [List.length_append, List.length_singleton, List.range_succ_eq_map, List.map_cons, List.map_map]
    refine (List.perm_append_singleton _ _).trans ?_
    rw [Nat.cast_zero, mul_zero, add_zero]
    refine List.Perm.cons _ (ih.trans (List.Perm.of_eq ?_))
    refine List.map_congr_left fun i _ => ?_
    simp only [Function.comp_apply, Nat.succ_eq_add_one]
    push_cast
    ring

theorem sorted_even {b lo : ℝ} (hb : 0 ≤ b) {xs : List ℝ} {n : Nat} (h : xs.Perm ((List.range n).map fun i : ℕ => lo + b * i)) :
    sorted xs = (List.range n).map fun i : ℕ => lo + b * i := by
  refine sorted_unique h.symm ?_
  rw [List.pairwise_map]
  refine List.Pairwise.imp ?_ List.pairwise_lt_range
  intro i j hij
  have : (i : ℝ) ≤ j := by exact_mod_cast hij.le
  nlinarith

/-- The parabolic prediction on a line. -/
theorem parabolic_line {n : Nat → ℝ} {q : Nat → ℝ} {lo b d : ℝ} {i : Nat} (h0 : q (i - 1) = lo + b * (n (i - 1) - 1))
    (h1 : q i = lo + b * (n i - 1)) (h2 : q (i + 1) = lo + b * (n (i + 1) - 1)) (l1 : n (i - 1) < n i)
    (l2 : n i < n (i + 1)) : psquareParabolic d n q i = lo + b * (n i + d - 1) := by
  unfold psquareParabolic
  rw [h0, h1, h2]
  have a : n (i + 1) - n i ≠ 0 := by linarith
  have c : n i - n (i - 1) ≠ 0 := by linarith
  have e : n (i + 1) - n (i - 1) ≠ 0 := by linarith
  have e1 : (n i - n (i - 1) + d) * (lo + b * (n (i + 1) - 1) - (lo + b * (n i - 1))) / (n (i + 1) - n i)
      = (n i - n (i - 1) + d) * b := by
    rw [div_eq_iff a]; ring
  have e2 : (n (i + 1) - n i - d) * (lo + b * (n i - 1) - (lo + b * (n (i - 1) - 1))) / (n i - n (i - 1))
      = (n (i + 1) - n i - d) * b := by
    rw [div_eq_iff c]; ring
  rw [e1, e2]
  field_simp
  ring

theorem OnLine.adjust {L : Nat} {lo b : ℝ} (hb : 0 < b) {m : P2} (h : OnLine L lo b m)
    (hm : ∀ i, i + 1 < L → m.n i < m.n (i + 1)) (d : Nat → ℝ) {i : Nat} (h1 : 1 ≤ i) (h2 : i + 1 < L) :
    OnLine L lo b (p2Adjust Early down d m i) := by
  have l1 : m.n (i - 1) < m.n i := by
    have := hm (i - 1) (by omega)
    rwa [show i - 1 + 1 = i by omega] at this
  have l2 := hm i h2
  have q0 := h (i - 1) (by omega)
  have q1 := h i (by omega)
  have q2 := h (i + 1) h2
  have l1' : ((m.n (i - 1) : ℕ) : ℝ) < m.n i := by exact_mod_cast l1
  have l2' : ((m.n i : ℕ) : ℝ) < m.n (i + 1) := by exact_mod_cast l2
  have hp : ∀ s : ℝ, psquareParabolic s (fun j => (m.n j : ℝ)) m.q i = lo + b * ((m.n i : ℝ) + s - 1) :=
    fun s => parabolic_line q0 q1 q2 l1' l2'
  intro j hj
  unfold p2Adjust Early
  dsimp only
  rw [hp, hp]
  by_cases a : 0 < d i - m.n i ∧ m.n i + 1 < m.n (i + 1)
  · rw [if_pos a]
    dsimp only
    have a2 : ((m.n i : ℕ) : ℝ) + 1 < m.n (i + 1) := by exact_mod_cast a.2
    rw [if_pos ⟨by rw [q0]; nlinarith, by rw [q2]; nlinarith⟩]
    by_cases e : j = i
    · subst e; rw [Function.update_self, Function.update_self]; push_cast; ring
    · rw [Function.update_of_ne e, Function.update_of_ne e]; exact h j hj
  · rw [if_neg a]
    by_cases c : 0 < m.n i - d i ∧ m.n (i - 1) + 1 < m.n i
    · rw [if_pos c]
      dsimp only
      have c2 : ((m.n (i - 1) : ℕ) : ℝ) + 1 < m.n i := by exact_mod_cast c.2
      rw [if_pos ⟨by rw [q0]; nlinarith, by rw [q2]; nlinarith⟩]
      by_cases e : j = i
      · subst e
        rw [Function.update_self, Function.update_self, Nat.cast_sub (by omega)]
        push_cast; ring
      · rw [Function.update_of_ne e, Function.update_of_ne e]; exact h j hj
    · rw [if_neg c]; exact h j hj

theorem OnLine.loop {L : Nat} {lo b : ℝ} (hb : 0 < b) {m : P2} (h : OnLine L lo b m)
    (hm : ∀ i, i + 1 < L → m.n i < m.n (i + 1)) (d : Nat → ℝ) (k : Nat) (hk : k + 2 ≤ L) :
    OnLine L lo b ((List.range' 1 k).foldl (p2Adjust Early down d) m) := by
  induction k with
  | zero => exact h
  | succ k ih =>
    rw [List.range'_1_concat, List.foldl_append, List.foldl_cons, List.foldl_nil]
    exact (ih (by omega)).adjust hb (p2_loop hm k (by omega)).2.1 d (by omega) (by omega)

theorem OnLine.above {L : Nat} (hL : 3 ≤ L) {lo b : ℝ} (hb : 0 < b) {m : P2} (h : OnLine L lo b m) {f : Nat → ℝ} {N : Nat}
    (hN : Near L f N m.n) : OnLine L lo b (p2Push Early down L f N m (lo + b * N)) := by
  have hlast := h (L - 1) (by omega)
  have hfirst := h 0 (by omega)
  rw [hN.last] at hlast
  rw [hN.first] at hfirst
  have hNr : (0 : ℝ) ≤ N := Nat.cast_nonneg N
  have hcell : p2Cell L m.q (lo + b * N) = L - 1 := by
    unfold p2Cell
    rw [if_neg (by rw [hfirst]; push_cast; nlinarith), if_pos (by rw [hlast]; nlinarith)]
  unfold p2Push
  refine OnLine.loop hb ?_ (p2Insert_pos hL _ hN.mono).2.2.2 _ _ (by omega)
  intro i hi
  unfold p2Insert
  rw [hcell]
  dsimp only
  by_cases e0 : i = 0
  · subst e0
    rw [if_pos rfl, if_neg (by omega), min_eq_left (by rw [hfirst]; push_cast; nlinarith)]
    exact h 0 hi
  rw [if_neg e0]
  by_cases e1 : i = L - 1
  · rw [if_pos e1, if_pos (by omega), e1, hN.last, max_eq_right (by rw [hlast]; nlinarith)]
    push_cast; ring
  · rw [if_neg e1, if_neg (by omega)]
    exact h i hi

theorem OnLine.below {L : Nat} (hL : 3 ≤ L) {lo b : ℝ} (hb : 0 < b) {m : P2} (h : OnLine L lo b m) {f : Nat → ℝ} {N : Nat}
    (hN : Near L f N m.n) (hN1 : 1 ≤ N) : OnLine L (lo - b) b (p2Push Early down L f N m (lo - b)) := by
  have hlast := h (L - 1) (by omega)
  have hfirst := h 0 (by omega)
  rw [hN.last] at hlast
  rw [hN.first] at hfirst
  have hNr : (1 : ℝ) ≤ N := by exact_mod_cast hN1
  have hcell : p2Cell L m.q (lo - b) = 1 := by
    unfold p2Cell
    rw [if_pos (by rw [hfirst]; push_cast; nlinarith)]
  unfold p2Push
  refine OnLine.loop hb ?_ (p2Insert_pos hL _ hN.mono).2.2.2 _ _ (by omega)
  intro i hi
  unfold p2Insert
  rw [hcell]
  dsimp only
  by_cases e0 : i = 0
  · subst e0
    rw [if_pos rfl, if_neg (by omega), hN.first, min_eq_right (by rw [hfirst]; push_cast; nlinarith)]
    push_cast; ring
  rw [if_neg e0, if_pos (show 1 ≤ i by omega)]
  by_cases e1 : i = L - 1
  · rw [if_pos e1, e1, hN.last, max_eq_left (by rw [hlast]; nlinarith), hlast]
    push_cast; ring
  · rw [if_neg e1, h i hi]
    push_cast; ring

theorem p2_even {L : Nat} (hL : 3 ≤ L) {f : Nat → ℝ} (hf : Fractions L f) {lo b : ℝ} (hb : 0 < b) {xs : List ℝ}
    (h : Spread L b lo xs) : OnLine L lo b (p2 Early down L f xs) := by
  induction h with
  | @start lo xs h =>
    have hlen : xs.length = L := by rw [h.length_eq]; simp
    intro i hi
    unfold p2
    rw [List.drop_of_length_le hlen.le, List.take_of_length_le hlen.le, sorted_even hb.le h]
    simp [List.getD, hi]
  | @up lo xs h ih =>
    rw [p2_snoc _ _ _ h.length_ge]
    exact ih.above hL hb (p2_near hL hf xs h.length_ge).1
  | @low lo xs h ih =>
    have := h.length_ge
    rw [p2_snoc _ _ _ h.length_ge]
    exact ih.below hL hb (p2_near hL hf xs h.length_ge).1 (by omega)

end Verif.PSquare
