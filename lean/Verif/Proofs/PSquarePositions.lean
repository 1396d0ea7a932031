import Verif.Proofs.PSquareSpec
/-
The marker positions of the P-square algorithm with the rule of the code stay near the desired positions.
-/
namespace Verif.PSquare
open Spec

/-- What one adjustment of marker `j` does to its position `b`: `a` is the position of the neighbour below (already
adjusted), `c` that of the neighbour above, `e` the distance behind the desired position, `b'` the new position. -/
def Adjusted (a b c b' : Nat) (e : ℝ) : Prop :=
  (b' = b + 1 ∧ 0 < e) ∨ (b' = b ∧ 0 < e ∧ c = b + 1) ∨ (b' = b ∧ e = 0) ∨ (b' + 1 = b ∧ e < 0)
    ∨ (b' = b ∧ e < 0 ∧ b = a + 1)

variable {down : (Nat → ℝ) → (Nat → ℝ) → Nat → ℝ}

theorem p2Adjust_other (d : Nat → ℝ) (m : P2) {i j : Nat} (h : j ≠ i) : (p2Adjust Early down d m i).n j = m.n j := by
  unfold p2Adjust
  dsimp only
  split_ifs <;> simp [Function.update_of_ne h]

theorem p2Adjust_pos {d : Nat → ℝ} {m : P2} {i : Nat} (h1 : m.n (i - 1) < m.n i) (h2 : m.n i < m.n (i + 1)) :
    Adjusted (m.n (i - 1)) (m.n i) (m.n (i + 1)) ((p2Adjust Early down d m i).n i) (d i - m.n i)
      ∧ m.n (i - 1) < (p2Adjust Early down d m i).n i ∧ (p2Adjust Early down d m i).n i < m.n (i + 1) := by
  unfold p2Adjust Early
  dsimp only
  by_cases a : 0 < d i - m.n i ∧ m.n i + 1 < m.n (i + 1)
  · rw [if_pos a]
    dsimp only
    rw [Function.update_self]
    exact ⟨Or.inl ⟨rfl, a.1⟩, by omega, by omega⟩
  · rw [if_neg a]
    by_cases b : 0 < m.n i - d i ∧ m.n (i - 1) + 1 < m.n i
    · rw [if_pos b]
      dsimp only
      rw [Function.update_self]
      exact ⟨Or.inr (Or.inr (Or.inr (Or.inl ⟨by omega, by linarith [b.1]⟩))), by omega, by omega⟩
    · rw [if_neg b]
      refine ⟨?_, h1, h2⟩
      rcases lt_trichotomy 0 (d i - m.n i) with h | h | h
      · exact Or.inr (Or.inl ⟨rfl, h, by by_contra hc; exact a ⟨h, by omega⟩⟩)
      · exact Or.inr (Or.inr (Or.inl ⟨rfl, h.symm⟩))
      · exact Or.inr (Or.inr (Or.inr (Or.inr ⟨rfl, h, by by_contra hc; exact b ⟨by linarith, by omega⟩⟩)))

/-- The adjustment of the markers `1, ..., k`. -/
theorem p2_loop {L : Nat} {d : Nat → ℝ} {m : P2} (hm : ∀ i, i + 1 < L → m.n i < m.n (i + 1)) (k : Nat) (hk : k + 2 ≤ L) :
    let m' := (List.range' 1 k).foldl (p2Adjust Early down d) m
    (∀ j, j = 0 ∨ k < j → m'.n j = m.n j) ∧ (∀ i, i + 1 < L → m'.n i < m'.n (i + 1))
      ∧ ∀ j, 1 ≤ j → j ≤ k → Adjusted (m'.n (j - 1)) (m.n j) (m.n (j + 1)) (m'.n j) (d j - m.n j) := by
  induction k with
  | zero => exact ⟨fun j _ => rfl, hm, fun j h1 h2 => by omega⟩
  | succ k ih =>
    obtain ⟨a, b, c⟩ := ih (by omega)
    intro m'
    have e : m' = p2Adjust Early down d ((List.range' 1 k).foldl (p2Adjust Early down d) m) (k + 1) := by
      show (List.range' 1 (k + 1)).foldl _ m = _
      rw [List.range'_1_concat, List.foldl_append, List.foldl_cons, List.foldl_nil, Nat.add_comm 1 k]
    generalize hmk : (List.range' 1 k).foldl (p2Adjust Early down d) m = mk at *
    rw [e]
    obtain ⟨p, q, r⟩ := p2Adjust_pos (down := down) (d := d) (m := mk) (i := k + 1) (b k (by omega)) (b (k + 1) (by omega))
    refine ⟨fun j hj => ?_, fun i hi => ?_, fun j h1 h2 => ?_⟩
    · rw [p2Adjust_other _ _ (by omega)]
      exact a j (by omega)
    · by_cases e1 : i = k + 1
      · subst e1
        rw [p2Adjust_other _ _ (show k + 1 + 1 ≠ k + 1 by omega)]
        exact r
      · by_cases e2 : i + 1 = k + 1
        · have : i = k := by omega
          subst this
          rw [p2Adjust_other _ _ (show i ≠ i + 1 by omega)]
          exact q
        · rw [p2Adjust_other _ _ e1, p2Adjust_other _ _ e2]
          exact b i hi
    · by_cases e1 : j = k + 1
      · subst e1
        rw [p2Adjust_other _ _ (show k + 1 - 1 ≠ k + 1 by omega)]
        rw [a (k + 1) (Or.inr (by omega)), a (k + 1 + 1) (Or.inr (by omega))] at p
        exact p
      · rw [p2Adjust_other _ _ e1, p2Adjust_other _ _ (by omega)]
        exact c j h1 (by omega)

theorem p2Cell_bounds {L : Nat} (hL : 3 ≤ L) (q : Nat → ℝ) (x : ℝ) : 1 ≤ p2Cell L q x ∧ p2Cell L q x ≤ L - 1 := by
  unfold p2Cell
  split_ifs with h1 h2
  · omega
  · omega
  · constructor
    · apply List.length_pos_of_mem (a := 0)
      simp only [List.mem_filter, List.mem_range, decide_eq_true_eq]
      exact ⟨by omega, not_lt.1 h1⟩
    · have h3 : ((List.range L).filter fun i => decide (q i ≤ x)).length < (List.range L).length := by
        apply List.length_filter_lt_length_iff_exists.2
        exact ⟨L - 1, by simp; omega, by simpa using h2⟩
      rw [List.length_range] at h3
      omega

/-- Counting one more value. -/
theorem p2Insert_pos {L : Nat} (hL : 3 ≤ L) {m : P2} (x : ℝ) (hm : ∀ i, i + 1 < L → m.n i < m.n (i + 1)) :
    (p2Insert L m x).n 0 = m.n 0 ∧ (p2Insert L m x).n (L - 1) = m.n (L - 1) + 1
      ∧ (∀ i, (p2Insert L m x).n i = m.n i ∨ (p2Insert L m x).n i = m.n i + 1)
      ∧ ∀ i, i + 1 < L → (p2Insert L m x).n i < (p2Insert L m x).n (i + 1) := by
  obtain ⟨h1, h2⟩ := p2Cell_bounds hL m.q x
  unfold p2Insert
  dsimp only
  refine ⟨by rw [if_neg (by omega)], by rw [if_pos (by omega)], fun i => ?_, fun i hi => ?_⟩
  · split_ifs
    · exact Or.inr rfl
    · exact Or.inl rfl
  · have := hm i hi
    split_ifs <;> omega

/-- The positions after `N` values. -/
structure Near (L : Nat) (f : Nat → ℝ) (N : Nat) (n : Nat → Nat) : Prop where
  first : n 0 = 1
  last : n (L - 1) = N
  mono : ∀ i, i + 1 < L → n i < n (i + 1)
  behind : ∀ i < L, 1 + ((N : ℝ) - 1) * f i - n i ≤ 2 * ((L : ℝ) - 1 - i)
  ahead : ∀ i < L, (n i : ℝ) - (1 + ((N : ℝ) - 1) * f i) ≤ i

/-- The fractions of the markers. -/
structure Fractions (L : Nat) (f : Nat → ℝ) : Prop where
  zero : f 0 = 0
  one : f (L - 1) = 1
  mono : ∀ i, i + 1 < L → f i ≤ f (i + 1)

theorem Fractions.nonneg {L : Nat} {f : Nat → ℝ} (h : Fractions L f) : ∀ i < L, 0 ≤ f i := by
  intro i
  induction i with
  | zero => intro _; rw [h.zero]
  | succ i ih => intro hi; exact (ih (by omega)).trans (h.mono i hi)

theorem Fractions.le_one {L : Nat} {f : Nat → ℝ} (h : Fractions L f) : ∀ i < L, f i ≤ 1 := by
  have : ∀ k, k + 1 ≤ L → f (L - 1 - k) ≤ 1 := by
    intro k
    induction k with
    | zero => intro _; rw [Nat.sub_zero, h.one]
    | succ k ih =>
      intro hk
      have := h.mono (L - 1 - (k + 1)) (by omega)
      rw [show L - 1 - (k + 1) + 1 = L - 1 - k by omega] at this
      exact this.trans (ih (by omega))
  intro i hi
  have := this (L - 1 - i) (by omega)
  rwa [show L - 1 - (L - 1 - i) = i by omega] at this

theorem Near.init {L : Nat} (hL : 3 ≤ L) {f : Nat → ℝ} (hf : Fractions L f) : Near L f L fun i => i + 1 := by
  refine ⟨rfl, by omega, fun i _ => by omega, fun i hi => ?_, fun i hi => ?_⟩
  · have h1 := hf.le_one i hi
    have h2 : (i : ℝ) + 1 ≤ L := by exact_mod_cast hi
    have h3 : (3 : ℝ) ≤ L := by exact_mod_cast hL
    push_cast
    nlinarith
  · have h1 := hf.nonneg i hi
    have h3 : (3 : ℝ) ≤ L := by exact_mod_cast hL
    push_cast
    nlinarith

/-- What one more value does to the distances `e_i = D_i - n_i` of the inner markers. -/
theorem p2Push_near {L : Nat} (hL : 3 ≤ L) {f : Nat → ℝ} (hf : Fractions L f) {N : Nat} (hN : 0 < N) {m : P2}
    (h : Near L f N m.n) (x : ℝ) :
    Near L f (N + 1) (p2Push Early down L f N m x).n := by
  unfold p2Push
  obtain ⟨a1, a2, a3, a4⟩ := p2Insert_pos hL x h.mono
  generalize p2Insert L m x = k at *
  obtain ⟨b1, b2, b3⟩ := p2_loop (down := down) (d := fun i => 1 + N * f i) a4 (L - 2) (by omega)
  generalize (List.range' 1 (L - 2)).foldl (p2Adjust Early down fun i => 1 + N * f i) k = m' at *
  have hNr : (0 : ℝ) < N := by exact_mod_cast hN
  have hc : ((N + 1 : Nat) : ℝ) - 1 = N := by push_cast; ring
  have hlast : m'.n (L - 1) = N + 1 := by rw [b1 _ (Or.inr (by omega)), a2, h.last]
  have hzero : m'.n 0 = 1 := by rw [b1 _ (Or.inl rfl), a1, h.first]
  have hLr : ((L - 1 : Nat) : ℝ) = L - 1 := by rw [Nat.cast_sub (by omega)]; norm_num
  have ins : ∀ i, (m.n i : ℝ) ≤ k.n i ∧ (k.n i : ℝ) ≤ m.n i + 1 := by
    intro i
    rcases a3 i with e | e <;> rw [e] <;> push_cast <;> constructor <;> linarith
  refine ⟨hzero, hlast, b2, ?_, ?_⟩
  · intro i hi
    rw [hc]
    by_cases e0 : i = 0
    · subst e0
      rw [hzero, hf.zero]
      have : (3 : ℝ) ≤ L := by exact_mod_cast hL
      push_cast; linarith
    by_cases e1 : i = L - 1
    · rw [e1, hlast, hf.one, hLr]; push_cast; linarith
    have h1 := h.behind i hi
    have h2 := h.behind (i + 1) (by omega)
    have i1 := ins i
    have i2 := ins (i + 1)
    have f1 := hf.le_one i hi
    have f2 := hf.le_one (i + 1) (by omega)
    have f3 := mul_le_mul_of_nonneg_left (hf.mono i (by omega)) hNr.le
    have hiL : (i : ℝ) + 2 ≤ L := by exact_mod_cast (by omega : i + 2 ≤ L)
    push_cast at h2
    rcases b3 i (by omega) (by omega) with ⟨q, e⟩ | ⟨q, e, c⟩ | ⟨q, e⟩ | ⟨q, e⟩ | ⟨q, e, -⟩
    · rw [q]; push_cast; linarith
    · have c' : (k.n (i + 1) : ℝ) = k.n i + 1 := by exact_mod_cast c
      rw [q]; linarith
    · rw [q]; linarith
    · have q' : (m'.n i : ℝ) + 1 = k.n i := by exact_mod_cast q
      linarith
    · rw [q]; linarith
  · intro i
    induction i with
    | zero => intro _; rw [hzero, hf.zero]; push_cast; linarith
    | succ i ih =>
      intro hi
      rw [hc] at ih ⊢
      by_cases e1 : i + 1 = L - 1
      · rw [e1, hlast, hf.one]; push_cast; rw [hLr]
        have : (3 : ℝ) ≤ L := by exact_mod_cast hL
        linarith
      have h1 := h.ahead (i + 1) hi
      have i1 := ins (i + 1)
      have f1 := hf.nonneg (i + 1) hi
      have f3 := mul_le_mul_of_nonneg_left (hf.mono i (by omega)) hNr.le
      have ih' := ih (by omega)
      have hi0 : (0 : ℝ) ≤ i := Nat.cast_nonneg i
      push_cast at h1 ⊢
      rcases b3 (i + 1) (by omega) (by omega) with ⟨q, e⟩ | ⟨q, e, -⟩ | ⟨q, e⟩ | ⟨q, e⟩ | ⟨q, e, c⟩
      · rw [q]; push_cast; linarith
      · rw [q]; linarith
      · rw [q]; linarith
      · have q' : (m'.n (i + 1) : ℝ) + 1 = k.n (i + 1) := by exact_mod_cast q
        linarith
      · have c' : (k.n (i + 1) : ℝ) = m'.n i + 1 := by exact_mod_cast c
        rw [q]; linarith

/-- The distances shrink until they are less than 1. -/
def Settled (L : Nat) (f : Nat → ℝ) (g : ℝ) (N : Nat) (n : Nat → Nat) : Prop :=
  ∀ i < L, (1 + ((N : ℝ) - 1) * f i - n i < 1 ∨ 1 + ((N : ℝ) - 1) * f i - n i + g * N ≤ 4 * L + 1)
    ∧ ((n i : ℝ) - (1 + ((N : ℝ) - 1) * f i) < 1 ∨ (n i : ℝ) - (1 + ((N : ℝ) - 1) * f i) + g * N ≤ 4 * L + 1)

theorem gap_le_one {L : Nat} (hL : 3 ≤ L) {f : Nat → ℝ} (hf : Fractions L f) {g : ℝ}
    (hg : ∀ i, i + 1 < L → g ≤ f (i + 1) - f i) : g ≤ 1 := by
  have h1 := hg 0 (by omega)
  have h2 := hf.le_one 1 (by omega)
  rw [hf.zero] at h1
  linarith

/-- As long as there are few values. -/
theorem Near.settled {L : Nat} {f : Nat → ℝ} {g : ℝ} {N : Nat} {n : Nat → Nat} (h : Near L f N n)
    (hN : g * N ≤ 2 * L + 2) : Settled L f g N n := by
  intro i hi
  have h1 := h.behind i hi
  have h2 := h.ahead i hi
  have h3 : (i : ℝ) + 1 ≤ L := by exact_mod_cast hi
  have h4 : (0 : ℝ) ≤ i := Nat.cast_nonneg i
  exact ⟨Or.inr (by linarith), Or.inr (by linarith)⟩

theorem p2Push_settled {L : Nat} (hL : 3 ≤ L) {f : Nat → ℝ} (hf : Fractions L f) {g : ℝ}
    (hg : ∀ i, i + 1 < L → g ≤ f (i + 1) - f i) {N : Nat} (hN : 0 < N) {m : P2}
    (h : Near L f N m.n) (hs : Settled L f g N m.n) (x : ℝ) :
    Settled L f g (N + 1) (p2Push Early down L f N m x).n := by
  have hnear := p2Push_near (down := down) hL hf hN h x
  have hg1 := gap_le_one hL hf hg
  rcases le_or_gt (g * N) (2 * L + 1) with hsmall | hbig
  · refine hnear.settled ?_
    push_cast
    linarith
  revert hnear
  unfold p2Push
  obtain ⟨a1, a2, a3, a4⟩ := p2Insert_pos hL x h.mono
  generalize p2Insert L m x = k at *
  obtain ⟨b1, b2, b3⟩ := p2_loop (down := down) (d := fun i => 1 + N * f i) a4 (L - 2) (by omega)
  generalize (List.range' 1 (L - 2)).foldl (p2Adjust Early down fun i => 1 + N * f i) k = m' at *
  intro hnear
  have hNr : (0 : ℝ) < N := by exact_mod_cast hN
  have hc : ((N + 1 : Nat) : ℝ) - 1 = N := by push_cast; ring
  have hLr : ((L - 1 : Nat) : ℝ) = L - 1 := by rw [Nat.cast_sub (by omega)]; norm_num
  have ins : ∀ i, (m.n i : ℝ) ≤ k.n i ∧ (k.n i : ℝ) ≤ m.n i + 1 := by
    intro i
    rcases a3 i with e | e <;> rw [e] <;> push_cast <;> constructor <;> linarith
  intro i hi
  rw [hc]
  by_cases e0 : i = 0
  · subst e0
    rw [hnear.first, hf.zero]
    exact ⟨Or.inl (by norm_num), Or.inl (by norm_num)⟩
  by_cases e1 : i = L - 1
  · rw [e1, hnear.last, hf.one]
    exact ⟨Or.inl (by push_cast; linarith), Or.inl (by push_cast; linarith)⟩
  have h1 := h.behind (i + 1) (by omega)
  have h2 := hnear.ahead (i - 1) (by omega)
  rw [hc] at h2
  have i1 := ins i
  have i2 := ins (i + 1)
  have f0 := hf.nonneg (i - 1) (by omega)
  have f1 := hf.le_one i hi
  have f3 := hf.nonneg i hi
  have f2 := hf.le_one (i + 1) (by omega)
  have g1 := hg i (by omega)
  have g2 := hg (i - 1) (by omega)
  rw [show i - 1 + 1 = i by omega] at g2
  have g3 := mul_le_mul_of_nonneg_left g1 hNr.le
  have g4 := mul_le_mul_of_nonneg_left g2 hNr.le
  have hi0 : ((i - 1 : Nat) : ℝ) = i - 1 := by rw [Nat.cast_sub (by omega)]; norm_num
  have hiL : (i : ℝ) + 2 ≤ L := by exact_mod_cast (by omega : i + 2 ≤ L)
  have hi1 : (1 : ℝ) ≤ i := by exact_mod_cast (by omega : 1 ≤ i)
  rw [hi0] at h2
  push_cast at h1 ⊢
  obtain ⟨s1, s2⟩ := hs i hi
  rcases b3 i (by omega) (by omega) with ⟨q, e⟩ | ⟨q, e, c⟩ | ⟨q, e⟩ | ⟨q, e⟩ | ⟨q, e, c⟩
  · rw [q]
    push_cast
    refine ⟨?_, Or.inl (by linarith)⟩
    rcases s1 with s | s
    · exact Or.inl (by linarith)
    · exact Or.inr (by linarith)
  · exfalso
    have c' : (k.n (i + 1) : ℝ) = k.n i + 1 := by exact_mod_cast c
    linarith
  · rw [q]
    exact ⟨Or.inl (by linarith), Or.inl (by linarith)⟩
  · have q' : (m'.n i : ℝ) + 1 = k.n i := by exact_mod_cast q
    refine ⟨Or.inl (by linarith), ?_⟩
    rcases s2 with s | s
    · exact Or.inl (by linarith)
    · exact Or.inr (by linarith)
  · exfalso
    have c' : (k.n i : ℝ) = m'.n (i - 1) + 1 := by exact_mod_cast c
    linarith

/-- The positions of the algorithm after at least `L` values. -/
theorem p2_near {L : Nat} (hL : 3 ≤ L) {f : Nat → ℝ} (hf : Fractions L f) (xs : List ℝ) (hn : L ≤ xs.length) :
    Near L f xs.length (p2 Early down L f xs).n
      ∧ ∀ g : ℝ, (∀ i, i + 1 < L → g ≤ f (i + 1) - f i) → Settled L f g xs.length (p2 Early down L f xs).n := by
  induction xs using List.reverseRecOn with
  | nil => simp at hn; omega
  | append_singleton xs x ih =>
    have hlen : (xs ++ [x]).length = xs.length + 1 := by simp
    rcases Nat.lt_or_ge xs.length L with h | h
    · have e : (p2 Early down L f (xs ++ [x])).n = fun i => i + 1 := by
        unfold p2
        rw [List.drop_of_length_le (by omega)]
        rfl
      have e2 : (xs ++ [x]).length = L := by omega
      rw [e, e2]
      refine ⟨Near.init hL hf, fun g hg => (Near.init hL hf).settled ?_⟩
      have := gap_le_one hL hf hg
      have : (3 : ℝ) ≤ L := by exact_mod_cast hL
      nlinarith
    · rw [p2_snoc _ _ _ h, hlen]
      obtain ⟨i1, i2⟩ := ih h
      exact ⟨p2Push_near hL hf (by omega) i1 x, fun g hg => p2Push_settled hL hf hg (by omega) i1 (i2 g hg) x⟩

end Verif.PSquare
