import Verif.Proofs.PSquare
import Mathlib.Tactic.Linarith
import Mathlib.Data.Real.Basic
/-
What one push does to the positions of the P-square markers, in any arithmetic.
-/
namespace Verif.PSquare
open Scalar

variable {w : Nat} {α : Type} [Scalar α]

/-! ### The cell of a value -/

theorem upperBound_pos (hs : List α) (x h0 : α) (h : hs[0]? = some h0) (hlt : lt x h0 = false) :
    ∀ (fuel len : Nat), len ≤ fuel → 0 < len → len ≤ hs.length → ∀ k, PSquare.upperBound hs x fuel 0 len = some k → 1 ≤ k := by
  intro fuel
  induction fuel with
  | zero => intro len h1 h2; omega
  | succ fuel ih =>
    intro len h1 h2 h3 k hk
    cases len with
    | zero => omega
    | succ len =>
      unfold PSquare.upperBound at hk
      dsimp only at hk
      have hin : 0 + (len + 1) / 2 < hs.length := by omega
      rw [List.getElem?_eq_getElem hin] at hk
      dsimp only at hk
      split_ifs at hk with hc
      · rcases Nat.eq_zero_or_pos ((len + 1) / 2) with e | e
        · exfalso
          have : hs[0 + (len + 1) / 2] = h0 := by
            have e2 : hs[0 + (len + 1) / 2]? = some h0 := by rw [e]; exact h
            rw [List.getElem?_eq_getElem hin] at e2
            exact Option.some.inj e2
          rw [this, hlt] at hc
          exact Bool.false_ne_true hc
        · exact ih _ (by omega) e (by omega) k hk
      · obtain ⟨k', hk', h4, -⟩ := upperBound_range hs x fuel (0 + (len + 1) / 2 + 1) (len + 1 - (len + 1) / 2 - 1) (by omega) (by omega)
        rw [hk'] at hk
        have := Option.some.inj hk
        omega

theorem upperBound_lt (hs : List α) (x : α) :
    ∀ (fuel first len : Nat) (hl : α), hs[first + len - 1]? = some hl → lt x hl = true → len ≤ fuel → 0 < len →
      first + len ≤ hs.length → ∀ k, PSquare.upperBound hs x fuel first len = some k → k < first + len := by
  intro fuel
  induction fuel with
  | zero => intro first len hl _ _ h1 h2; omega
  | succ fuel ih =>
    intro first len hl h hlt h1 h2 h3 k hk
    cases len with
    | zero => omega
    | succ len =>
      unfold PSquare.upperBound at hk
      dsimp only at hk
      have hin : first + (len + 1) / 2 < hs.length := by omega
      rw [List.getElem?_eq_getElem hin] at hk
      dsimp only at hk
      split_ifs at hk with hc
      · obtain ⟨k', hk', -, h4⟩ := upperBound_range hs x fuel first ((len + 1) / 2) (by omega) (by omega)
        rw [hk'] at hk
        have := Option.some.inj hk
        omega
      · rcases Nat.eq_zero_or_pos (len + 1 - (len + 1) / 2 - 1) with e | e
        · exfalso
          have e2 : hs[first + (len + 1) / 2]? = some hl := by
            rw [← h]; congr 1; omega
          rw [List.getElem?_eq_getElem hin] at e2
          rw [Option.some.inj e2] at hc
          exact hc hlt
        · have := ih (first + (len + 1) / 2 + 1) (len + 1 - (len + 1) / 2 - 1) hl
            (by rw [← h]; congr 1; omega) hlt (by omega) e (by omega) k hk
          omega

/-! ### The adjustment loop -/

/-- What one adjustment does to the position `b` of a marker: `a` is the position of the neighbour below (already
adjusted), `c` that of the neighbour above, `sg` the sign computed at psquare.ipp:114, `b'` the new position. -/
def AdjustedBy (a b c b' : Nat) (sg : Int) : Prop :=
  (sg = 1 ∧ b' = b + 1) ∨ (sg = 1 ∧ b' = b ∧ c = b + 1) ∨ (sg = 0 ∧ b' = b) ∨ (sg = -1 ∧ b' + 1 = b)
    ∨ (sg = -1 ∧ b' = b ∧ b = a + 1)

theorem signOf_cases (x : α) : PSquare.signOf x = 1 ∨ PSquare.signOf x = 0 ∨ PSquare.signOf x = -1 := by
  unfold PSquare.signOf; split_ifs <;> simp

theorem adjust_steps {L : Nat} (hw1 : 1 < 2 ^ w) {d δ : Nat → α} {s : PSquare w α} {p : Nat → Nat} {h : Nat → α}
    (hr : Rep L s p h d δ) (hm : Mono w L p) (n : Nat) (hn : n + 2 ≤ L) :
    ∃ s' p' h', (List.range' 1 n).foldlM PSquare.adjust s = some s' ∧ s'.count = s.count ∧ s'.qs = s.qs
      ∧ Rep L s' p' h' d δ ∧ Mono w L p' ∧ (∀ j, j = 0 ∨ n < j → p' j = p j ∧ h' j = h j)
      ∧ (∀ j, p' j = p j → h' j = h j)
      ∧ ∀ j, 1 ≤ j → j ≤ n → AdjustedBy (p' (j - 1)) (p j) (p (j + 1)) (p' j) (PSquare.signOf (d j - ofNat (p j))) := by
  induction n with
  | zero => exact ⟨s, p, h, rfl, rfl, rfl, hr, hm, fun j _ => ⟨rfl, rfl⟩, fun j _ => rfl, fun j h1 h2 => by omega⟩
  | succ n ih =>
    obtain ⟨s', p', h', hf, hcnt, hqs, hr', hm', hrest, hsame, hadj⟩ := ih (by omega)
    rw [List.range'_1_concat, List.foldlM_append, hf]
    simp only [List.foldlM_cons, List.foldlM_nil, Option.bind_eq_bind, Option.bind_some, Option.pure_def]
    have e1 := (hrest (1 + n) (Or.inr (by omega))).1
    have e2 := (hrest (1 + n + 1) (Or.inr (by omega))).1
    have m1 := hm'.step n (by omega)
    have m2 := hm'.step (1 + n) (by omega)
    rw [Nat.add_comm n 1] at m1
    rcases adjust_eq (i := 1 + n) hr' hm' (by omega) (by omega) hw1 with
      ⟨sign, s'', hmv, ha, hc2, hq2, hr2⟩ | ⟨hno, ha⟩
    · rw [ha]
      refine ⟨s'', _, _, rfl, hc2.trans hcnt, hq2.trans hqs, hr2, hm'.move (by omega) (by omega) hmv, ?_, ?_, ?_⟩
      · intro j hjn
        have e : j ≠ 1 + n := by omega
        rw [Function.update_of_ne e, Function.update_of_ne e]
        exact hrest j (by omega)
      · intro j hj
        by_cases e : j = 1 + n
        · subst e
          exfalso
          rw [Function.update_self, e1] at hj
          rw [e1] at m1
          rcases hmv.2 with ⟨rfl, -⟩ | ⟨rfl, -⟩ <;> omega
        · rw [Function.update_of_ne e] at hj ⊢
          exact hsame j hj
      · intro j h1 h2
        by_cases e : j = 1 + n
        · subst e
          rw [Function.update_self, Function.update_of_ne (by omega)]
          obtain ⟨hsg, hc⟩ := hmv
          rw [e1] at hsg hc m1 ⊢
          rw [hsg]
          rcases hc with ⟨rfl, h3⟩ | ⟨rfl, h3⟩
          · exact Or.inl ⟨rfl, by omega⟩
          · exact Or.inr (Or.inr (Or.inr (Or.inl ⟨rfl, by omega⟩)))
        · rw [Function.update_of_ne e, Function.update_of_ne (by omega)]
          exact hadj j h1 (by omega)
    · rw [ha]
      refine ⟨s', p', h', rfl, hcnt, hqs, hr', hm', fun j hj => hrest j (by omega), hsame, ?_⟩
      intro j h1 h2
      by_cases e : j = 1 + n
      · subst e
        have hno1 := hno 1
        have hno2 := hno (-1)
        unfold Moves at hno1 hno2
        rw [e1, e2] at hno1
        rw [e1] at hno2
        rw [e1] at m1 m2
        rw [e2] at m2
        rw [e1]
        rw [show 1 + n - 1 = n by omega] at hno2 ⊢
        rcases signOf_cases (d (1 + n) - ofNat (p (1 + n))) with hs | hs | hs
        · exact Or.inr (Or.inl ⟨hs, rfl, by
            by_contra hc; exact hno1 ⟨hs, Or.inl ⟨rfl, by omega⟩⟩⟩)
        · exact Or.inr (Or.inr (Or.inl ⟨hs, rfl⟩))
        · exact Or.inr (Or.inr (Or.inr (Or.inr ⟨hs, rfl, by
            by_contra hc; exact hno2 ⟨hs, Or.inr ⟨rfl, by omega⟩⟩⟩)))
      · exact hadj j h1 (by omega)

/-- psquare.ipp:83-130 and 143: the positions after a push to a full estimator. -/
theorem push_steps {L n : Nat} (hL : 3 ≤ L) (hLn : L ≤ n) (hn : n + 1 < 2 ^ w) {s : PSquare w α} {p : Nat → Nat}
    {h d δ : Nat → α} (hr : Rep L s p h d δ) (hm : Mono w L p) (hp : p (L - 1) ≤ n)
    (hc : s.count = BitVec.ofNat w n) (x : α) :
    ∃ (k : Nat) (h1 : Nat → α) (s' : PSquare w α) (p' : Nat → Nat) (h' : Nat → α), 1 ≤ k ∧ k ≤ L
      ∧ (lt x (h (L - 1)) = true ∨ le (h (L - 1)) x = true → k ≤ L - 1)
      ∧ ((lt x (h 0) = true ∧ k = 1 ∧ h1 = Function.update h 0 x)
        ∨ (lt x (h 0) = false ∧ le (h (L - 1)) x = true ∧ k = L - 1 ∧ h1 = Function.update h (L - 1) x)
        ∨ (lt x (h 0) = false ∧ le (h (L - 1)) x = false ∧ h1 = h))
      ∧ s.push x = some s' ∧ s'.count = BitVec.ofNat w (n + 1) ∧ s'.qs = s.qs
      ∧ Rep L s' p' h' (fun i => d i + δ i) δ ∧ Mono w L p'
      ∧ p' 0 = p 0 ∧ p' (L - 1) = bumped k p (L - 1) ∧ h' 0 = h1 0 ∧ h' (L - 1) = h1 (L - 1)
      ∧ (∀ j, p' j = bumped k p j → h' j = h1 j)
      ∧ ∀ j, 1 ≤ j → j + 1 < L →
        AdjustedBy (p' (j - 1)) (bumped k p j) (bumped k p (j + 1)) (p' j) (PSquare.signOf (d j + δ j - ofNat (bumped k p j))) := by
  obtain ⟨k, h1, hs, hloc, hk, hr1, hcase⟩ := locate_eq hr (by omega) x
  have hr2 := bump_rep hr1 k
  have hm2 : Mono w L (bumped k p) := hm.bump k (by omega)
  obtain ⟨s', p', h', hf, hcnt, hqs, hr', hm', hrest, hsame, hadj⟩ := adjust_steps (by omega) hr2 hm2 (L - 2) (by omega)
  have e0 := hrest 0 (Or.inl rfl)
  have e1 := hrest (L - 1) (Or.inr (by omega))
  have hge : s.count ≥ BitVec.ofNat w s.len := by
    rw [hc, hr.len_eq]; exact (ge_iff (by omega) (by omega)).2 hLn
  have hk1 : 1 ≤ k := by
    rcases hcase with ⟨-, h2, -⟩ | ⟨-, -, h2, -⟩ | ⟨h2, -, -, h3⟩
    · omega
    · omega
    · exact upperBound_pos s.heights x (h 0) (hr.ht 0 (by omega)) h2 _ _ (le_refl _) (by rw [hr.ht_len]; omega) (le_refl _) k h3
  refine ⟨k, h1, { s' with count := s'.count + 1 }, p', h', hk1, hk, ?_, ?_, ?_, ?_, hqs, ?_, hm', ?_, e1.1, e0.2, e1.2, hsame, ?_⟩
  · intro hx
    rcases hcase with ⟨-, h2, -⟩ | ⟨-, -, h2, -⟩ | ⟨-, h2, -, h3⟩
    · omega
    · omega
    · rcases hx with hx | hx
      · have := upperBound_lt s.heights x _ 0 s.heights.length (h (L - 1))
          (by rw [hr.ht_len, Nat.zero_add]; exact hr.ht (L - 1) (by omega)) hx (le_refl _) (by rw [hr.ht_len]; omega) (by omega) k h3
        rw [hr.ht_len] at this
        omega
      · rw [hx] at h2; exact absurd h2 (by decide)
  · rcases hcase with h2 | h2 | ⟨h2, h3, h4, -⟩
    · exact Or.inl h2
    · exact Or.inr (Or.inl h2)
    · exact Or.inr (Or.inr ⟨h2, h3, h4⟩)
  · unfold PSquare.push
    rw [if_pos hge, hloc]
    simp only [Option.bind_eq_bind, Option.bind_some]
    rw [show s.len - 2 = L - 2 by rw [hr.len_eq], hf]
    rfl
  · show s'.count + 1 = _
    rw [hcnt]
    show s.count + 1 = _
    rw [hc, ofNat_add_one]
  · exact ⟨hr'.len_eq, hr'.pos_len, hr'.pos, hr'.ht_len, hr'.ht, hr'.des_len, hr'.des, hr'.del_len, hr'.del⟩
  · rw [e0.1]; unfold bumped; rw [if_neg (by omega)]
  · intro j h2 h3
    exact hadj j h2 (by omega)

/-! ### Positions that follow given desired positions -/

/-- The positions after `N` values are near the desired positions `D`. -/
structure Follow (L : Nat) (D : Nat → ℝ) (N : Nat) (n : Nat → Nat) : Prop where
  first : n 0 = 1
  last : n (L - 1) = N
  behind : ∀ i < L, D i - n i ≤ 2 * ((L : ℝ) - 1 - i)
  ahead : ∀ i < L, (n i : ℝ) - D i ≤ i

/-- The sign of a distance. -/
def SignIs (e : ℝ) (sg : Int) : Prop := (0 < e ∧ sg = 1) ∨ (e = 0 ∧ sg = 0) ∨ (e < 0 ∧ sg = -1)

theorem Follow.step {L N k : Nat} (hL : 3 ≤ L) {D D' : Nat → ℝ} {n n' : Nat → Nat} (h : Follow L D N n)
    (hk1 : 1 ≤ k) (hk2 : k ≤ L - 1) (hD : ∀ i < L, D i ≤ D' i ∧ D' i ≤ D i + 1) (hmono : ∀ i, i + 1 < L → D' i ≤ D' (i + 1))
    (hD0 : D' 0 = 1) (hD1 : D' (L - 1) = N + 1) (h0 : n' 0 = n 0) (h1 : n' (L - 1) = bumped k n (L - 1))
    (hadj : ∀ j, 1 ≤ j → j + 1 < L → ∃ sg, SignIs (D' j - bumped k n j) sg
      ∧ AdjustedBy (n' (j - 1)) (bumped k n j) (bumped k n (j + 1)) (n' j) sg) :
    Follow L D' (N + 1) n' := by
  have hlast : n' (L - 1) = N + 1 := by rw [h1, bumped, if_pos hk2, h.last]
  have hzero : n' 0 = 1 := by rw [h0, h.first]
  have hLr : ((L - 1 : Nat) : ℝ) = L - 1 := by rw [Nat.cast_sub (by omega)]; norm_num
  have hL3 : (3 : ℝ) ≤ L := by exact_mod_cast hL
  have ins : ∀ i, (n i : ℝ) ≤ bumped k n i ∧ (bumped k n i : ℝ) ≤ n i + 1 := by
    intro i
    unfold bumped
    split_ifs <;> push_cast <;> constructor <;> linarith
  refine ⟨hzero, hlast, ?_, ?_⟩
  · intro i hi
    by_cases e0 : i = 0
    · subst e0
      rw [hzero, hD0]
      push_cast; linarith
    by_cases e1 : i = L - 1
    · rw [e1, hlast, hD1, hLr]; push_cast; linarith
    have b1 := h.behind i hi
    have b2 := h.behind (i + 1) (by omega)
    have i1 := ins i
    have i2 := ins (i + 1)
    have f1 := hD i hi
    have f2 := hD (i + 1) (by omega)
    have f3 := hmono i (by omega)
    have hiL : (i : ℝ) + 2 ≤ L := by exact_mod_cast (by omega : i + 2 ≤ L)
    push_cast at b2
    obtain ⟨sg, hs, ha⟩ := hadj i (by omega) (by omega)
    rcases ha with ⟨rfl, q⟩ | ⟨rfl, q, c⟩ | ⟨rfl, q⟩ | ⟨rfl, q⟩ | ⟨rfl, q, -⟩
    · rw [q]; push_cast; linarith
    · have c' : (bumped k n (i + 1) : ℝ) = bumped k n i + 1 := by exact_mod_cast c
      rw [q]; linarith
    · rcases hs with ⟨-, e⟩ | ⟨e, -⟩ | ⟨-, e⟩
      · omega
      · rw [q]; linarith
      · omega
    · rcases hs with ⟨-, e⟩ | ⟨-, e⟩ | ⟨e, -⟩
      · omega
      · omega
      · have q' : (n' i : ℝ) + 1 = bumped k n i := by exact_mod_cast q
        linarith
    · rcases hs with ⟨-, e⟩ | ⟨-, e⟩ | ⟨e, -⟩
      · omega
      · omega
      · rw [q]; linarith
  · intro i
    induction i with
    | zero => intro _; rw [hzero, hD0]; push_cast; linarith
    | succ i ih =>
      intro hi
      by_cases e1 : i + 1 = L - 1
      · rw [e1, hlast, hD1]; push_cast; rw [hLr]
        linarith
      have b1 := h.ahead (i + 1) hi
      have i1 := ins (i + 1)
      have f1 := hD (i + 1) hi
      have f3 := hmono i (by omega)
      have ih' := ih (by omega)
      have hi0 : (0 : ℝ) ≤ i := Nat.cast_nonneg i
      push_cast at b1 ⊢
      obtain ⟨sg, hs, ha⟩ := hadj (i + 1) (by omega) (by omega)
      rcases ha with ⟨rfl, q⟩ | ⟨rfl, q, -⟩ | ⟨rfl, q⟩ | ⟨rfl, q⟩ | ⟨rfl, q, c⟩
      · rcases hs with ⟨e, -⟩ | ⟨-, e⟩ | ⟨-, e⟩
        · rw [q]; push_cast; linarith
        · omega
        · omega
      · rcases hs with ⟨e, -⟩ | ⟨-, e⟩ | ⟨-, e⟩
        · rw [q]; linarith
        · omega
        · omega
      · rcases hs with ⟨-, e⟩ | ⟨e, -⟩ | ⟨-, e⟩
        · omega
        · rw [q]; linarith
        · omega
      · have q' : (n' (i + 1) : ℝ) + 1 = bumped k n (i + 1) := by exact_mod_cast q
        linarith
      · have c' : (bumped k n (i + 1) : ℝ) = n' i + 1 := by exact_mod_cast c
        rw [q]; linarith

/-- Positions do not exceed a bound above which every marker is told to move down. -/
theorem bounded_step {L M k : Nat} {n n' : Nat → Nat} (h : ∀ i, i + 1 < L → n i ≤ M + i) (h0 : n' 0 = n 0)
    (hadj : ∀ j, 1 ≤ j → j + 1 < L → ∃ sg, (M < bumped k n j → sg = -1) ∧ (M ≤ bumped k n j → sg ≠ 1)
      ∧ AdjustedBy (n' (j - 1)) (bumped k n j) (bumped k n (j + 1)) (n' j) sg) :
    ∀ i, i + 1 < L → n' i ≤ M + i := by
  intro i
  induction i with
  | zero => intro h1; rw [h0]; exact h 0 h1
  | succ i ih =>
    intro hi
    have b := h (i + 1) hi
    have ih' := ih (by omega)
    have hb : bumped k n (i + 1) ≤ n (i + 1) + 1 := by unfold bumped; split_ifs <;> omega
    obtain ⟨sg, h1, h2, ha⟩ := hadj (i + 1) (by omega) (by omega)
    rw [Nat.add_sub_cancel] at ha
    unfold AdjustedBy at ha
    omega

end Verif.PSquare
