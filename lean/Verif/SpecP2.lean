import Verif.Spec
/-
Specification of the whole P-square algorithm (Jain and Chlamtac, 1985; several quantiles: Raatikainen, 1987)
over the real numbers.  This file does not import the model.
-/
namespace Verif.Spec

/-- The markers of the algorithm: positions `n` and heights `q`. -/
structure P2 where
  n : Nat → Nat
  q : Nat → ℝ

/-- When a marker at distance `x` behind its desired position moves, as published: from distance 1 on. -/
def p2Far (x : ℝ) : Prop := 1 ≤ x

open Classical in
/-- Adjustment of marker `i` with desired positions `d`.  It moves by one towards its desired position if the
distance is `far` and the neighbour on that side leaves room; the published `far` is `p2Far`.  `down` is the
linear prediction for a move downwards; the published one is `psquareLinearDown`. -/
noncomputable def p2Adjust (far : ℝ → Prop) (down : (Nat → ℝ) → (Nat → ℝ) → Nat → ℝ) (d : Nat → ℝ) (m : P2)
    (i : Nat) : P2 :=
  let n : Nat → ℝ := fun j => m.n j
  let up := psquareParabolic 1 n m.q i
  let dn := psquareParabolic (-1) n m.q i
  if far (d i - m.n i) ∧ m.n i + 1 < m.n (i + 1) then
    { n := Function.update m.n i (m.n i + 1)
      q := Function.update m.q i (if m.q (i - 1) < up ∧ up < m.q (i + 1) then up else psquareLinearUp n m.q i) }
  else if far (m.n i - d i) ∧ m.n (i - 1) + 1 < m.n i then
    { n := Function.update m.n i (m.n i - 1)
      q := Function.update m.q i (if m.q (i - 1) < dn ∧ dn < m.q (i + 1) then dn else down n m.q i) }
  else m

/-- The cell of `x` among `L` markers: markers from this one on lie above `x`; the extreme markers are
first extended to `x`. -/
noncomputable def p2Cell (L : Nat) (q : Nat → ℝ) (x : ℝ) : Nat :=
  if x < q 0 then 1 else if q (L - 1) ≤ x then L - 1 else ((List.range L).filter fun i => q i ≤ x).length

/-- The markers after `x` has been counted, before the adjustments. -/
noncomputable def p2Insert (L : Nat) (m : P2) (x : ℝ) : P2 where
  n i := if p2Cell L m.q x ≤ i then m.n i + 1 else m.n i
  q i := if i = 0 then min (m.q 0) x else if i = L - 1 then max (m.q (L - 1)) x else m.q i

/-- One more value after `N` values: marker `i` has the desired position `1 + N f_i`, and the inner markers
are adjusted from left to right. -/
noncomputable def p2Push (far : ℝ → Prop) (down : (Nat → ℝ) → (Nat → ℝ) → Nat → ℝ) (L : Nat) (f : Nat → ℝ) (N : Nat)
    (m : P2) (x : ℝ) : P2 :=
  (List.range' 1 (L - 2)).foldl (p2Adjust far down fun i => 1 + N * f i) (p2Insert L m x)

/-- The algorithm with `L` markers for the fractions `f`: it starts with the first `L` values in ascending
order at the positions `1, ..., L`. -/
noncomputable def p2 (far : ℝ → Prop) (down : (Nat → ℝ) → (Nat → ℝ) → Nat → ℝ) (L : Nat) (f : Nat → ℝ) (xs : List ℝ) : P2 :=
  ((xs.drop L).foldl (fun s x => (s.1 + 1, p2Push far down L f s.1 s.2 x))
    (L, { n := fun i => i + 1, q := fun i => (sorted (xs.take L)).getD i 0 })).2

end Verif.Spec
