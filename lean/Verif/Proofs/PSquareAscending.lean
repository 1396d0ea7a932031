import Verif.Proofs.PSquarePositions
/-
The P-square algorithm with the rule of the code for the median of ascending data.
-/
namespace Verif.PSquare
open Spec Exact

variable {w : Nat}

/-- The heights of the `L` markers ascend. -/
def Asc (L : Nat) (q : Nat → ℝ) : Prop := ∀ i, i + 1 < L → q i ≤ q (i + 1)

theorem parabolic_eq_para {sign : Int} (hs : sign = 1 ∨ sign = -1) {p : Nat → Nat} (h : Nat → ℝ) {i : Nat}
    (m1 : p (i - 1) < p i) (m2 : p i < p (i + 1)) :
    (para sign (p (i + 1) - p i) (p i - p (i - 1)) (X.fin (h (i - 1))) (X.fin (h i)) (X.fin (h (i + 1))) : E 0)
      = X.fin (psquareParabolic sign (fun j => p j) h i) := by
  have c1 : ((p (i + 1) - p i : Nat) : ℝ) = (p (i + 1) : ℝ) - p i := Nat.cast_sub m2.le
  have c2 : ((p i - p (i - 1) : Nat) : ℝ) = (p i : ℝ) - p (i - 1) := Nat.cast_sub m1.le
  rw [para_exact (by omega) (by omega) hs, paraR, psquareParabolic, c1, c2]
  congr 1
  rw [mul_div_assoc, mul_div_assoc, sub_add_sub_cancel]

/-- The new height of a marker lies between its neighbours. -/
theorem p2Adjust_between {d : Nat → ℝ} {m : P2} {i : Nat} (m1 : m.n (i - 1) < m.n i) (m2 : m.n i < m.n (i + 1))
    (hw : m.n i - m.n (i - 1) < 2 ^ w) (q1 : m.q (i - 1) ≤ m.q i) (q2 : m.q i ≤ m.q (i + 1)) :
    m.q (i - 1) ≤ (p2Adjust Early (codeDown w) d m i).q i ∧ (p2Adjust Early (codeDown w) d m i).q i ≤ m.q (i + 1) := by
  obtain ⟨p, h⟩ := m
  dsimp only at m1 m2 hw q1 q2 ⊢
  have c1 : ((p (i + 1) - p i : Nat) : ℝ) = (p (i + 1) : ℝ) - p i := Nat.cast_sub m2.le
  have e : ((2 ^ w - (p i - p (i - 1)) : Nat) : ℝ) = 2 ^ w - ((p i : ℝ) - p (i - 1)) := by
    rw [Nat.cast_sub (by omega), Nat.cast_sub m1.le]; push_cast; ring
  unfold p2Adjust Early
  dsimp only
  by_cases a : 0 < d i - p i ∧ p i + 1 < p (i + 1)
  · rw [if_pos a]
    dsimp only
    rw [Function.update_self]
    obtain ⟨v, hv, b1, b2⟩ := predict_between (ε := 0) (w := w) (sign := 1) (f := p (i + 1) - p i) (b := p i - p (i - 1)) (by omega)
      (by omega) hw (Or.inl ⟨rfl, by omega⟩) q1 q2
    unfold predict at hv
    rw [parabolic_eq_para (Or.inl rfl) h m1 m2, Exact.lt_fin, Exact.lt_fin, lin_up_exact (by omega), c1] at hv
    simp only [Bool.and_eq_true, decide_eq_true_eq, Int.cast_one] at hv
    unfold psquareLinearUp
    split_ifs at hv ⊢ <;> (have hv' := X.fin_inj.1 hv; rw [hv']; exact ⟨b1, b2⟩)
  · rw [if_neg a]
    by_cases c : 0 < p i - d i ∧ p (i - 1) + 1 < p i
    · rw [if_pos c]
      dsimp only
      rw [Function.update_self]
      obtain ⟨v, hv, b1, b2⟩ := predict_between (ε := 0) (w := w) (sign := -1) (f := p (i + 1) - p i) (b := p i - p (i - 1))
        (by omega) (by omega) hw (Or.inr ⟨rfl, by omega⟩) q1 q2
      unfold predict at hv
      rw [parabolic_eq_para (Or.inr rfl) h m1 m2, Exact.lt_fin, Exact.lt_fin, lin_down_exact (by omega), e] at hv
      simp only [Bool.and_eq_true, decide_eq_true_eq, Int.cast_neg, Int.cast_one] at hv
      unfold codeDown
      split_ifs at hv ⊢ <;> (have hv' := X.fin_inj.1 hv; rw [hv']; exact ⟨b1, b2⟩)
    · rw [if_neg c]
      exact ⟨q1, q2⟩

theorem p2Adjust_q_other (d : Nat → ℝ) (m : P2) {i j : Nat} (h : j ≠ i) : (p2Adjust Early (codeDown w) d m i).q j = m.q j := by
  unfold p2Adjust
  dsimp only
  split_ifs <;> simp [Function.update_of_ne h]

theorem Asc.adjust {L : Nat} {d : Nat → ℝ} {m : P2} (h : Asc L m.q) {i : Nat} (h1 : 1 ≤ i) (h2 : i + 1 < L)
    (m1 : m.n (i - 1) < m.n i) (m2 : m.n i < m.n (i + 1)) (hw : m.n i - m.n (i - 1) < 2 ^ w) :
    Asc L (p2Adjust Early (codeDown w) d m i).q := by
  have q1 := h (i - 1) (by omega)
  rw [show i - 1 + 1 = i by omega] at q1
  obtain ⟨b1, b2⟩ := p2Adjust_between (w := w) (d := d) m1 m2 hw q1 (h i h2)
  intro j hj
  by_cases e : j = i
  · subst e
    rw [p2Adjust_q_other d m (show j + 1 ≠ j by omega)]
    exact b2
  · by_cases e' : j + 1 = i
    · subst e'
      rw [p2Adjust_q_other d m e]
      exact b1
    · rw [p2Adjust_q_other d m e, p2Adjust_q_other d m e']
      exact h j hj

/-- What an adjustment does that does not move the marker down: it takes no height away, and a move up takes the marker
part of the way to its neighbour. -/
theorem p2Adjust_up {d : Nat → ℝ} {m : P2} {i N : Nat} (h0 : 1 ≤ m.n (i - 1)) (m1 : m.n (i - 1) < m.n i) (m2 : m.n i < m.n (i + 1))
    (m3 : m.n (i + 1) ≤ N) (q0 : 0 ≤ m.q i) (q1 : m.q (i - 1) ≤ m.q i) (q2 : m.q i ≤ m.q (i + 1)) (he : (m.n i : ℝ) ≤ d i) :
    m.q i ≤ (p2Adjust Early (codeDown w) d m i).q i
      ∧ m.n i ≤ (p2Adjust Early (codeDown w) d m i).n i
      ∧ (m.n i < (p2Adjust Early (codeDown w) d m i).n i →
          m.q (i + 1) / (N : ℝ) ^ 2 ≤ (p2Adjust Early (codeDown w) d m i).q i) := by
  unfold p2Adjust Early
  dsimp only
  by_cases a : 0 < d i - m.n i ∧ m.n i + 1 < m.n (i + 1)
  · rw [if_pos a]
    dsimp only
    rw [Function.update_self, Function.update_self]
    have r1 : (m.n (i - 1) : ℝ) + 1 ≤ m.n i := by exact_mod_cast m1
    have r2 : (m.n i : ℝ) + 1 ≤ m.n (i + 1) := by exact_mod_cast m2
    have r3 : (m.n (i + 1) : ℝ) ≤ N := by exact_mod_cast m3
    have r0 : (1 : ℝ) ≤ m.n (i - 1) := by exact_mod_cast h0
    set f : ℝ := m.n (i + 1) - m.n i with hf
    set b : ℝ := m.n i - m.n (i - 1) with hb
    have hf1 : 1 ≤ f := by rw [hf]; linarith
    have hb1 : 1 ≤ b := by rw [hb]; linarith
    have ht : (m.n (i + 1) : ℝ) - m.n (i - 1) = f + b := by rw [hf, hb]; ring
    have htN : f + b ≤ N := by rw [← ht]; linarith
    have hfN : f ≤ N := by linarith
    have hN1 : (1 : ℝ) ≤ N := by linarith
    set Δ := m.q (i + 1) - m.q i with hΔ
    have hΔ0 : 0 ≤ Δ := by rw [hΔ]; linarith
    have key : ∀ c : ℝ, 1 ≤ c → c ≤ (N : ℝ) ^ 2 → m.q (i + 1) / (N : ℝ) ^ 2 ≤ m.q i + Δ / c := by
      intro c hc1 hc2
      have hc0 : 0 < c := by linarith
      calc m.q (i + 1) / (N : ℝ) ^ 2 ≤ m.q (i + 1) / c := div_le_div_of_nonneg_left (by linarith) hc0 hc2
        _ = m.q i / c + Δ / c := by rw [hΔ]; ring
        _ ≤ m.q i + Δ / c := by linarith [div_le_self q0 hc1]
    have kpar : m.q i + Δ / ((f + b) * f) ≤ psquareParabolic 1 (fun j => (m.n j : ℝ)) m.q i := by
      unfold psquareParabolic
      rw [ht, ← hf, ← hb, ← hΔ]
      have t1 : Δ / ((f + b) * f) ≤ 1 / (f + b) * ((b + 1) * Δ / f) := by
        have : 1 / (f + b) * ((b + 1) * Δ / f) = (b + 1) * (Δ / ((f + b) * f)) := by
          field_simp
        rw [this]
        have : 0 ≤ Δ / ((f + b) * f) := by positivity
        nlinarith
      have t2 : 0 ≤ 1 / (f + b) * ((f - 1) * (m.q i - m.q (i - 1)) / b) := by
        have : 0 ≤ f - 1 := by linarith
        have : 0 ≤ m.q i - m.q (i - 1) := by linarith
        positivity
      rw [mul_add]
      linarith
    have hres : m.q i ≤ (if m.q (i - 1) < psquareParabolic 1 (fun j => (m.n j : ℝ)) m.q i
          ∧ psquareParabolic 1 (fun j => (m.n j : ℝ)) m.q i < m.q (i + 1) then psquareParabolic 1 (fun j => (m.n j : ℝ)) m.q i
          else psquareLinearUp (fun j => (m.n j : ℝ)) m.q i)
        ∧ m.q (i + 1) / (N : ℝ) ^ 2 ≤ (if m.q (i - 1) < psquareParabolic 1 (fun j => (m.n j : ℝ)) m.q i
          ∧ psquareParabolic 1 (fun j => (m.n j : ℝ)) m.q i < m.q (i + 1) then psquareParabolic 1 (fun j => (m.n j : ℝ)) m.q i
          else psquareLinearUp (fun j => (m.n j : ℝ)) m.q i) := by
      split_ifs
      · refine ⟨?_, ?_⟩
        · have : 0 ≤ Δ / ((f + b) * f) := by positivity
          linarith
        · exact (key _ (by nlinarith) (by nlinarith)).trans kpar
      · unfold psquareLinearUp
        rw [← hf, ← hΔ]
        refine ⟨?_, key f hf1 (by nlinarith)⟩
        have : 0 ≤ Δ / f := by positivity
        linarith
    exact ⟨hres.1, by omega, fun _ => hres.2⟩
  · rw [if_neg a, if_neg (fun c => by linarith [c.1])]
    exact ⟨le_rfl, le_rfl, fun h => absurd h (lt_irrefl _)⟩

/-- The values `x 0, ..., x (N - 1)`. -/
def firsts (x : Nat → ℝ) (N : Nat) : List ℝ := (List.range N).map x

theorem firsts_succ (x : Nat → ℝ) (N : Nat) : firsts x (N + 1) = firsts x N ++ [x N] := by
  unfold firsts
  rw [List.range_succ, List.map_append, List.map_singleton]

@[simp] theorem firsts_length (x : Nat → ℝ) (N : Nat) : (firsts x N).length = N := by simp [firsts]

/-- The fractions of the five markers for the median. -/
structure ForMedian (f : Nat → ℝ) : Prop where
  fractions : Fractions 5 f
  two : f 2 = 1 / 2
  three : f 3 = 3 / 4

/-- The markers after `x 0, ..., x (N - 1)`. -/
noncomputable def after (w : Nat) (f : Nat → ℝ) (x : Nat → ℝ) (N : Nat) : P2 := p2 Early (codeDown w) 5 f (firsts x N)

/-- Heights ascend from `x 0` to the last value, and the markers 2 and 3 are not far ahead. -/
structure Rising (x : Nat → ℝ) (N : Nat) (m : P2) : Prop where
  asc : Asc 5 m.q
  low : m.q 0 = x 0
  high : m.q 4 = x (N - 1)
  two : 2 * m.n 2 ≤ N + 2
  three : 4 * m.n 3 ≤ 3 * N + 4

/-- One more value that is not below the last one. -/
theorem rising_push {f : Nat → ℝ} (hf : ForMedian f) {x : Nat → ℝ} (hx0 : 0 ≤ x 0) {N : Nat} (hN : 5 ≤ N) (hNw : N + 1 < 2 ^ w)
    {m : P2} (hnear : Near 5 f N m.n) (h : Rising x N m) (hlast : x (N - 1) ≤ x N) :
    let m' := p2Push Early (codeDown w) 5 f N m (x N)
    Rising x (N + 1) m' ∧ m.n 2 ≤ m'.n 2 ∧ m.n 3 ≤ m'.n 3 ∧ m.q 2 ≤ m'.q 2 ∧ m.q 3 ≤ m'.q 3
      ∧ (m.n 3 < m'.n 3 → x N / ((N : ℝ) + 1) ^ 2 ≤ m'.q 3)
      ∧ (m.n 2 < m'.n 2 → m.q 3 / ((N : ℝ) + 1) ^ 2 ≤ m'.q 2) := by
  have a0 := h.asc 0 (by omega)
  have a1 := h.asc 1 (by omega)
  have a2 := h.asc 2 (by omega)
  have a3 := h.asc 3 (by omega)
  norm_num at a0 a1 a2 a3
  have n0 := hnear.mono 0 (by omega)
  have n1 := hnear.mono 1 (by omega)
  have n2 := hnear.mono 2 (by omega)
  have n3 := hnear.mono 3 (by omega)
  norm_num at n0 n1 n2 n3
  have nf := hnear.first
  have nl : m.n 4 = N := hnear.last
  have h2 := h.two
  have h3 := h.three
  have hlow := h.low
  have hhigh := h.high
  have hcell : p2Cell 5 m.q (x N) = 4 := by
    unfold p2Cell
    rw [if_neg (by linarith), if_pos (by norm_num; linarith)]
  set mi := p2Insert 5 m (x N) with hmi
  have i0 : mi.n 0 = m.n 0 := by simp [hmi, p2Insert, hcell]
  have i1 : mi.n 1 = m.n 1 := by simp [hmi, p2Insert, hcell]
  have i2 : mi.n 2 = m.n 2 := by simp [hmi, p2Insert, hcell]
  have i3 : mi.n 3 = m.n 3 := by simp [hmi, p2Insert, hcell]
  have i4 : mi.n 4 = N + 1 := by simp [hmi, p2Insert, hcell, nl]
  have j0 : mi.q 0 = x 0 := by simp [hmi, p2Insert, hlow]; linarith
  have j1 : mi.q 1 = m.q 1 := by simp [hmi, p2Insert]
  have j2 : mi.q 2 = m.q 2 := by simp [hmi, p2Insert]
  have j3 : mi.q 3 = m.q 3 := by simp [hmi, p2Insert]
  have j4 : mi.q 4 = x N := by simp [hmi, p2Insert, hhigh, hlast]
  clear_value mi
  set d : Nat → ℝ := fun i => 1 + N * f i with hd
  have hasci : Asc 5 mi.q := by
    intro i hi
    have : i = 0 ∨ i = 1 ∨ i = 2 ∨ i = 3 := by omega
    rcases this with rfl | rfl | rfl | rfl <;> norm_num [j0, j1, j2, j3, j4] <;> linarith
  have hpush : p2Push Early (codeDown w) 5 f N m (x N)
      = p2Adjust Early (codeDown w) d (p2Adjust Early (codeDown w) d (p2Adjust Early (codeDown w) d mi 1) 2) 3 := by
    unfold p2Push
    have e : List.range' 1 (5 - 2) = [1, 2, 3] := rfl
    rw [e, List.foldl_cons, List.foldl_cons, List.foldl_cons, List.foldl_nil, hmi]
  intro m'
  -- marker 1
  obtain ⟨-, u1, u2⟩ := p2Adjust_pos (down := codeDown w) (d := d) (m := mi) (i := 1) (by norm_num; omega) (by norm_num; omega)
  have asc1 : Asc 5 (p2Adjust Early (codeDown w) d mi 1).q := hasci.adjust (by omega) (by omega) (by norm_num; omega) (by norm_num; omega)
    (by norm_num; omega)
  have o1 : ∀ j, j ≠ 1 → (p2Adjust Early (codeDown w) d mi 1).n j = mi.n j := fun j hj => p2Adjust_other d mi hj
  have p1 : ∀ j, j ≠ 1 → (p2Adjust Early (codeDown w) d mi 1).q j = mi.q j := fun j hj => p2Adjust_q_other d mi hj
  norm_num at u1 u2
  set ma := p2Adjust Early (codeDown w) d mi 1 with hma
  clear_value ma
  rw [i0] at u1
  rw [i2] at u2
  have na2 := (o1 2 (by omega)).trans i2
  have na3 := (o1 3 (by omega)).trans i3
  have na4 := (o1 4 (by omega)).trans i4
  have na0 := (o1 0 (by omega)).trans i0
  have qa2 := (p1 2 (by omega)).trans j2
  have qa3 := (p1 3 (by omega)).trans j3
  have qa4 := (p1 4 (by omega)).trans j4
  have qa0 := (p1 0 (by omega)).trans j0
  -- marker 2
  have c0 := asc1 0 (by omega)
  have c1 := asc1 1 (by omega)
  have c2 := asc1 2 (by omega)
  have c3 := asc1 3 (by omega)
  norm_num at c0 c1 c2 c3
  have dist2 : (m.n 2 : ℝ) ≤ d 2 := by
    have : (2 * (m.n 2 : ℝ)) ≤ N + 2 := by exact_mod_cast h2
    rw [hd]; dsimp only; rw [hf.two]; linarith
  obtain ⟨v1, v2, v3⟩ := p2Adjust_up (w := w) (d := d) (m := ma) (i := 2) (N := N + 1) (by norm_num; omega) (by norm_num; omega)
    (by norm_num; omega) (by norm_num; omega) (by linarith) (by norm_num; linarith) (by norm_num; linarith) (by rw [na2]; exact dist2)
  obtain ⟨w0, w1, w2⟩ := p2Adjust_pos (down := codeDown w) (d := d) (m := ma) (i := 2) (by norm_num; omega) (by norm_num; omega)
  have asc2 : Asc 5 (p2Adjust Early (codeDown w) d ma 2).q := asc1.adjust (by omega) (by omega) (by norm_num; omega) (by norm_num; omega)
    (by norm_num; omega)
  have o2 : ∀ j, j ≠ 2 → (p2Adjust Early (codeDown w) d ma 2).n j = ma.n j := fun j hj => p2Adjust_other d ma hj
  have p2' : ∀ j, j ≠ 2 → (p2Adjust Early (codeDown w) d ma 2).q j = ma.q j := fun j hj => p2Adjust_q_other d ma hj
  norm_num at v1 v2 v3 w0 w1 w2
  set mb := p2Adjust Early (codeDown w) d ma 2 with hmb
  clear_value mb
  have nb3 := (o2 3 (by omega)).trans na3
  have nb4 := (o2 4 (by omega)).trans na4
  have nb0 := (o2 0 (by omega)).trans na0
  have nb1 := o2 1 (by omega)
  have qb3 := (p2' 3 (by omega)).trans qa3
  have qb4 := (p2' 4 (by omega)).trans qa4
  have qb0 := (p2' 0 (by omega)).trans qa0
  rw [qa2] at v1
  rw [na2] at v2 v3 w0
  rw [qa3] at v3
  rw [na3] at w2
  have tb : 2 * mb.n 2 ≤ N + 3 := by
    rcases w0 with ⟨e1, e2⟩ | ⟨e1, -⟩ | ⟨e1, -⟩ | ⟨e1, -⟩ | ⟨e1, -⟩
    · -- a move up starts at least half a position behind
      rw [hd] at e2; dsimp only at e2; rw [hf.two] at e2
      have : 2 * (m.n 2 : ℝ) < N + 2 := by linarith
      have : 2 * m.n 2 < N + 2 := by exact_mod_cast this
      omega
    all_goals omega
  -- marker 3
  have g0 := asc2 0 (by omega)
  have g1 := asc2 1 (by omega)
  have g2 := asc2 2 (by omega)
  have g3 := asc2 3 (by omega)
  norm_num at g0 g1 g2 g3
  have dist3 : (m.n 3 : ℝ) ≤ d 3 := by
    have : (4 * (m.n 3 : ℝ)) ≤ 3 * N + 4 := by exact_mod_cast h3
    rw [hd]; dsimp only; rw [hf.three]; linarith
  obtain ⟨x1, x2, x3⟩ := p2Adjust_up (w := w) (d := d) (m := mb) (i := 3) (N := N + 1) (by norm_num; omega) (by norm_num; omega)
    (by norm_num; omega) (by norm_num; omega) (by linarith) (by norm_num; linarith) (by norm_num; linarith) (by rw [nb3]; exact dist3)
  obtain ⟨y0, y1, y2⟩ := p2Adjust_pos (down := codeDown w) (d := d) (m := mb) (i := 3) (by norm_num; omega) (by norm_num; omega)
  have asc3 : Asc 5 (p2Adjust Early (codeDown w) d mb 3).q := asc2.adjust (by omega) (by omega) (by norm_num; omega) (by norm_num; omega)
    (by norm_num; omega)
  have o3 : ∀ j, j ≠ 3 → (p2Adjust Early (codeDown w) d mb 3).n j = mb.n j := fun j hj => p2Adjust_other d mb hj
  have p3 : ∀ j, j ≠ 3 → (p2Adjust Early (codeDown w) d mb 3).q j = mb.q j := fun j hj => p2Adjust_q_other d mb hj
  have hm' : m' = p2Adjust Early (codeDown w) d mb 3 := hpush
  rw [← hm'] at x1 x2 x3 y0 asc3 o3 p3
  norm_num at x1 x2 x3 y0
  rw [qb3] at x1
  rw [nb3] at x2 x3 y0
  rw [qb4] at x3
  have tc : 4 * m'.n 3 ≤ 3 * (N + 1) + 4 := by
    rcases y0 with ⟨e1, e2⟩ | ⟨e1, -⟩ | ⟨e1, -⟩ | ⟨e1, -⟩ | ⟨e1, -⟩
    · rw [hd] at e2; dsimp only at e2; rw [hf.three] at e2
      have : 4 * (m.n 3 : ℝ) < 3 * N + 4 := by linarith
      have : 4 * m.n 3 < 3 * N + 4 := by exact_mod_cast this
      omega
    all_goals omega
  refine ⟨⟨asc3, (p3 0 (by omega)).trans qb0, ?_, ?_, tc⟩, ?_, x2, ?_, x1, x3, ?_⟩
  · rw [p3 4 (by omega), qb4]; simp
  · rw [o3 2 (by omega)]; omega
  · rw [o3 2 (by omega)]; exact v2
  · rw [p3 2 (by omega)]; exact v1
  · rw [o3 2 (by omega), p3 2 (by omega)]; exact v3

theorem within {n : Nat → Nat} {q : Nat → ℝ} {B : ℝ} {k : Nat}
    (h : ∀ j < k, n j ≤ n (j + 1) ∧ q j ≤ q (j + 1) ∧ (n j < n (j + 1) → B ≤ q (j + 1))) (hlt : n 0 < n k) : B ≤ q k := by
  induction k with
  | zero => exact absurd hlt (lt_irrefl _)
  | succ k ih =>
    obtain ⟨h1, h2, h3⟩ := h k (by omega)
    rcases Nat.lt_or_ge (n 0) (n k) with h4 | h4
    · exact (ih (fun j hj => h j (by omega)) h4).trans h2
    · exact h3 (by omega)

section
variable {f : Nat → ℝ} (hf : ForMedian f) {x : Nat → ℝ} (hx : Monotone x) (hx0 : 0 ≤ x 0)
include hf hx hx0

theorem rising_after {N : Nat} (hN : 5 ≤ N) (hw : N < 2 ^ w) : Rising x N (after w f x N) := by
  induction N, hN using Nat.le_induction with
  | base =>
    have hs : sorted (firsts x 5) = firsts x 5 := by
      refine sorted_unique (List.Perm.refl _) ?_
      unfold firsts
      rw [List.pairwise_map]
      exact List.Pairwise.imp (fun h => hx h.le) List.pairwise_lt_range
    have e : after w f x 5 = { n := fun i => i + 1, q := fun i => (firsts x 5).getD i 0 } := by
      unfold after p2
      rw [List.drop_eq_nil_of_le (by simp), List.take_of_length_le (by simp), hs]
      rfl
    have e2 : firsts x 5 = [x 0, x 1, x 2, x 3, x 4] := rfl
    rw [e, e2]
    refine ⟨?_, rfl, rfl, by norm_num, by norm_num⟩
    intro i hi
    have : i = 0 ∨ i = 1 ∨ i = 2 ∨ i = 3 := by omega
    rcases this with rfl | rfl | rfl | rfl <;> exact hx (by norm_num)
  | succ N hN ih =>
    have hr := ih (by omega)
    have hn := (p2_near (down := codeDown w) (by omega) hf.fractions (firsts x N) (by simpa using hN)).1
    rw [firsts_length] at hn
    have := (rising_push (w := w) hf hx0 hN hw hn hr (hx (by omega))).1
    unfold after
    rw [firsts_succ, p2_snoc _ _ _ (by simpa using hN), firsts_length]
    exact this

theorem after_step {N : Nat} (hN : 5 ≤ N) (hw : N + 1 < 2 ^ w) :
    (after w f x N).n 2 ≤ (after w f x (N + 1)).n 2 ∧ (after w f x N).n 3 ≤ (after w f x (N + 1)).n 3
      ∧ (after w f x N).q 2 ≤ (after w f x (N + 1)).q 2 ∧ (after w f x N).q 3 ≤ (after w f x (N + 1)).q 3
      ∧ ((after w f x N).n 3 < (after w f x (N + 1)).n 3 → x N / ((N : ℝ) + 1) ^ 2 ≤ (after w f x (N + 1)).q 3)
      ∧ ((after w f x N).n 2 < (after w f x (N + 1)).n 2 →
          (after w f x N).q 3 / ((N : ℝ) + 1) ^ 2 ≤ (after w f x (N + 1)).q 2) := by
  have hr := rising_after (w := w) hf hx hx0 hN (by omega)
  have hn := (p2_near (down := codeDown w) (by omega) hf.fractions (firsts x N) (by simpa using hN)).1
  rw [firsts_length] at hn
  have := (rising_push (w := w) hf hx0 hN hw hn hr (hx (by omega))).2
  have e : after w f x (N + 1) = p2Push Early (codeDown w) 5 f N (after w f x N) (x N) := by
    unfold after
    rw [firsts_succ, p2_snoc _ _ _ (by simpa using hN), firsts_length]
  rw [e]
  exact this

/-- Marker 3 is at least a fraction `1 / N ^ 2` of the value four before the last. -/
theorem after_three {N : Nat} (hN : 5 ≤ N) (hw : N + 4 < 2 ^ w) : x N / ((N : ℝ) + 4) ^ 2 ≤ (after w f x (N + 4)).q 3 := by
  refine within (n := fun j => (after w f x (N + j)).n 3) (q := fun j => (after w f x (N + j)).q 3) (k := 4) (fun j hj => ?_) ?_
  · obtain ⟨-, h1, -, h2, h3, -⟩ := after_step (w := w) hf hx hx0 (N := N + j) (by omega) (by omega)
    refine ⟨h1, h2, fun h => le_trans ?_ (h3 h)⟩
    have hxj : x N ≤ x (N + j) := hx (by omega)
    have hx1 : 0 ≤ x N := hx0.trans (hx (Nat.zero_le _))
    have hj4 : ((N + j : ℕ) : ℝ) + 1 ≤ (N : ℝ) + 4 := by
      have : N + j + 1 ≤ N + 4 := by omega
      exact_mod_cast this
    have hp : (0 : ℝ) < ((N + j : ℕ) : ℝ) + 1 := by positivity
    exact div_le_div₀ (hx1.trans hxj) hxj (by positivity) (by gcongr)
  · have hr := (rising_after (w := w) hf hx hx0 (N := N) hN (by omega)).three
    have hn := (p2_near (down := codeDown w) (by omega) hf.fractions (firsts x (N + 4)) (by rw [firsts_length]; omega)).1.behind 3 (by omega)
    rw [firsts_length, hf.three] at hn
    have hb : 3 * (N : ℝ) + 5 ≤ 4 * ((after w f x (N + 4)).n 3 : ℝ) := by
      unfold after
      push_cast at hn
      linarith
    have hb' : 3 * N + 5 ≤ 4 * (after w f x (N + 4)).n 3 := by exact_mod_cast hb
    rw [Nat.add_zero]
    omega

/-- Marker 2 is at least a fraction `1 / N ^ 4` of the value 14 before the last. -/
theorem after_two {N : Nat} (hN : 5 ≤ N) (hw : N + 14 < 2 ^ w) : x N / ((N : ℝ) + 14) ^ 4 ≤ (after w f x (N + 14)).q 2 := by
  have hx1 : 0 ≤ x N := hx0.trans (hx (Nat.zero_le _))
  have h3 : ∀ j ≤ 10, x N / ((N : ℝ) + 14) ^ 2 ≤ (after w f x (N + 4 + j)).q 3 := by
    intro j hj
    induction j with
    | zero =>
      refine le_trans ?_ (after_three hf hx hx0 hN (by omega))
      gcongr
      norm_num
    | succ j ih =>
      exact (ih (by omega)).trans (after_step (w := w) hf hx hx0 (N := N + 4 + j) (by omega) (by omega)).2.2.2.1
  have e : N + 14 = N + 4 + 10 := by omega
  rw [e]
  refine within (n := fun j => (after w f x (N + 4 + j)).n 2) (q := fun j => (after w f x (N + 4 + j)).q 2) (k := 10) (fun j hj => ?_) ?_
  · obtain ⟨h1, -, h2, -, -, h4⟩ := after_step (w := w) hf hx hx0 (N := N + 4 + j) (by omega) (by omega)
    refine ⟨h1, h2, fun h => le_trans ?_ (h4 h)⟩
    have hq := h3 j (by omega)
    have hj4 : ((N + 4 + j : ℕ) : ℝ) + 1 ≤ (N : ℝ) + 14 := by
      have : N + 4 + j + 1 ≤ N + 14 := by omega
      exact_mod_cast this
    have hp : (0 : ℝ) < ((N + 4 + j : ℕ) : ℝ) + 1 := by positivity
    calc x N / ((N : ℝ) + 14) ^ 4 = x N / ((N : ℝ) + 14) ^ 2 / ((N : ℝ) + 14) ^ 2 := by rw [div_div, ← pow_add]
      _ ≤ _ := div_le_div₀ (le_trans (by positivity) hq) hq (by positivity) (by gcongr)
  · have hr := (rising_after (w := w) hf hx hx0 (N := N + 4) (by omega) (by omega)).two
    have hn := (p2_near (down := codeDown w) (by omega) hf.fractions (firsts x (N + 4 + 10)) (by rw [firsts_length]; omega)).1.behind 2 (by omega)
    rw [firsts_length, hf.two] at hn
    have hb : (N : ℝ) + 7 ≤ 2 * ((after w f x (N + 4 + 10)).n 2 : ℝ) := by
      unfold after
      push_cast at hn
      linarith
    have hb' : N + 7 ≤ 2 * (after w f x (N + 4 + 10)).n 2 := by exact_mod_cast hb
    rw [Nat.add_zero]
    omega

end

end Verif.PSquare
