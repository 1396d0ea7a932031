import Verif.SpecP2
import Verif.Proofs.PSquareGet
/-
The P-square estimator in exact arithmetic runs the algorithm `Spec.p2` with the linear prediction downwards as
the code computes it, and with the rule of the code when to move a marker.
-/
namespace Verif.PSquare
open Scalar Exact

variable {w : Nat} {ε : ℝ}

/-- The linear prediction downwards of psquare.ipp:229-239: the difference of the positions wraps. -/
noncomputable def codeDown (w : Nat) (n q : Nat → ℝ) (i : Nat) : ℝ :=
  q i + (q i - q (i - 1)) / (2 ^ w - (n i - n (i - 1)))

/-- The rule of psquare.ipp:113-116: a marker moves at any distance from its desired position. -/
def Early (x : ℝ) : Prop := 0 < x

theorem update_fin (h : Nat → ℝ) (i : Nat) (v : ℝ) :
    (Function.update (fun j => X.fin (h j)) i (X.fin v) : Nat → E ε) = fun j => X.fin (Function.update h i v j) := by
  funext j
  by_cases e : j = i
  · subst e; simp
  · rw [Function.update_of_ne e, Function.update_of_ne e]

/-- One adjustment. -/
theorem adjust_spec (hw : 1 < 2 ^ w) {L : Nat} {s : PSquare w (E ε)} {m : Spec.P2} {d : Nat → ℝ} {δ : Nat → E ε}
    (hr0 : Rep L s m.n (fun i => X.fin (m.q i)) (fun i => X.fin (d i)) δ) (hm : Mono w L m.n) {i : Nat}
    (h1 : 1 ≤ i) (h2 : i + 1 < L) :
    ∃ s', s.adjust i = some s' ∧ s'.count = s.count ∧ s'.qs = s.qs
      ∧ Rep L s' (Spec.p2Adjust Early (codeDown w) d m i).n (fun j => X.fin ((Spec.p2Adjust Early (codeDown w) d m i).q j))
        (fun i => X.fin (d i)) δ
      ∧ Mono w L (Spec.p2Adjust Early (codeDown w) d m i).n := by
  obtain ⟨p, h⟩ := m
  dsimp only at hr0 hm ⊢
  have m1 : p (i - 1) < p i := hm.lt (by omega) (by omega)
  have m2 : p i < p (i + 1) := hm.lt (by omega) (by omega)
  have m3 : p (i + 1) < 2 ^ w := hm.bound h2
  have c1 : ((p (i + 1) - p i : Nat) : ℝ) = (p (i + 1) : ℝ) - p i := Nat.cast_sub m2.le
  have c2 : ((p i - p (i - 1) : Nat) : ℝ) = (p i : ℝ) - p (i - 1) := Nat.cast_sub m1.le
  have hdev : (X.fin (d i) - ofNat (p i) : E ε) = X.fin (d i - p i) := by rw [Exact.ofNat_eq, Exact.sub_fin]
  have hsg : PSquare.signOf (X.fin (d i) - ofNat (p i) : E ε) = if (p i : ℝ) < d i then 1 else if d i < p i then -1 else 0 := by
    rw [hdev, PSquare.signOf, Exact.ofNat_eq, Exact.lt_fin, Exact.lt_fin]
    simp only [Nat.cast_zero, sub_pos, sub_neg, decide_eq_true_eq]
  have hpara : ∀ sign : Int, sign = 1 ∨ sign = -1 →
      (para sign (p (i + 1) - p i) (p i - p (i - 1)) (X.fin (h (i - 1))) (X.fin (h i)) (X.fin (h (i + 1))) : E ε)
        = X.fin (Spec.psquareParabolic sign (fun j => p j) h i) := by
    intro sign hs
    rw [para_exact (by omega) (by omega) hs, paraR, Spec.psquareParabolic, c1, c2]
    congr 1
    rw [mul_div_assoc, mul_div_assoc, sub_add_sub_cancel]
  have e : ((2 ^ w - (p i - p (i - 1)) : Nat) : ℝ) = 2 ^ w - ((p i : ℝ) - p (i - 1)) := by
    rw [Nat.cast_sub (by omega), Nat.cast_sub m1.le]; push_cast; ring
  rcases adjust_eq hr0 hm h1 h2 hw with ⟨sign, s', hmv, ha, hcnt, hqs, hr⟩ | ⟨hno, ha⟩
  · refine ⟨s', ha, hcnt, hqs, ?_⟩
    have hmono := hm.move h1 h2 hmv
    obtain ⟨hs1, hs2⟩ := hmv
    rw [hsg] at hs1
    unfold Spec.p2Adjust Early
    rcases hs2 with ⟨rfl, hgap⟩ | ⟨rfl, hgap⟩
    · have hlt : (p i : ℝ) < d i := by
        by_contra hc; rw [if_neg hc] at hs1; split_ifs at hs1; omega
      dsimp only
      rw [if_pos ⟨sub_pos.2 hlt, by omega⟩]
      have e : ((p i : Int) + 1).toNat = p i + 1 := by omega
      rw [e] at hr hmono
      refine ⟨?_, hmono⟩
      rw [← update_fin]
      convert hr using 2
      unfold predictAt predict
      rw [hpara 1 (Or.inl rfl), Exact.lt_fin, Exact.lt_fin, lin_up_exact (by omega), c1]
      simp only [Bool.and_eq_true, decide_eq_true_eq, Int.cast_one]
      split_ifs <;> rfl
    · have hlt : d i < (p i : ℝ) := by
        by_contra hc; rw [if_neg hc] at hs1; split_ifs at hs1
      dsimp only
      rw [if_neg (fun hc => absurd (sub_pos.1 hc.1) (not_lt.2 hlt.le)), if_pos ⟨sub_pos.2 hlt, by omega⟩]
      have e' : ((p i : Int) + -1).toNat = p i - 1 := by omega
      rw [e'] at hr hmono
      refine ⟨?_, hmono⟩
      rw [← update_fin]
      convert hr using 2
      unfold predictAt predict
      rw [hpara (-1) (Or.inr rfl), Exact.lt_fin, Exact.lt_fin, lin_down_exact (by omega), e]
      simp only [Bool.and_eq_true, decide_eq_true_eq, Int.cast_neg, Int.cast_one]
      split_ifs <;> rfl
  · have n1 := hno 1
    have n2 := hno (-1)
    unfold Moves at n1 n2
    rw [hsg] at n1 n2
    refine ⟨s, ha, rfl, rfl, ?_⟩
    unfold Spec.p2Adjust Early
    dsimp only
    rw [if_neg, if_neg]
    · exact ⟨hr0, hm⟩
    · rintro ⟨a, b⟩
      rw [sub_pos] at a
      exact n2 ⟨by rw [if_neg (not_lt.2 a.le), if_pos a], Or.inr ⟨rfl, by omega⟩⟩
    · rintro ⟨a, b⟩
      rw [sub_pos] at a
      exact n1 ⟨by rw [if_pos a], Or.inl ⟨rfl, by omega⟩⟩

/-- The adjustment of the inner markers. -/
theorem adjust_loop_spec (hw : 1 < 2 ^ w) {L : Nat} {d : Nat → ℝ} {δ : Nat → E ε} {s : PSquare w (E ε)} {m : Spec.P2}
    (hr : Rep L s m.n (fun i => X.fin (m.q i)) (fun i => X.fin (d i)) δ) (hm : Mono w L m.n) (n : Nat) (hn : n + 2 ≤ L) :
    ∃ s', (List.range' 1 n).foldlM PSquare.adjust s = some s' ∧ s'.count = s.count ∧ s'.qs = s.qs
      ∧ Rep L s' ((List.range' 1 n).foldl (Spec.p2Adjust Early (codeDown w) d) m).n
          (fun j => X.fin (((List.range' 1 n).foldl (Spec.p2Adjust Early (codeDown w) d) m).q j)) (fun i => X.fin (d i)) δ
      ∧ Mono w L ((List.range' 1 n).foldl (Spec.p2Adjust Early (codeDown w) d) m).n := by
  induction n with
  | zero => exact ⟨s, rfl, rfl, rfl, hr, hm⟩
  | succ n ih =>
    obtain ⟨s', hf, hcnt, hqs, hr', hm'⟩ := ih (by omega)
    rw [List.range'_1_concat, List.foldlM_append, List.foldl_append, hf]
    simp only [List.foldlM_cons, List.foldlM_nil, List.foldl_cons, List.foldl_nil, Option.bind_eq_bind, Option.bind_some,
      Option.pure_def]
    obtain ⟨s'', ha, hc2, hq2, hr2, hm2⟩ := adjust_spec hw hr' hm' (i := 1 + n) (by omega) (by omega)
    exact ⟨s'', by rw [ha]; rfl, hc2.trans hcnt, hq2.trans hqs, hr2, hm2⟩

theorem filter_range_length {P : Nat → Prop} [DecidablePred P] {L m : Nat} (hm : m ≤ L) (h : ∀ i, i < L → (P i ↔ i < m)) :
    ((List.range L).filter fun i => P i).length = m := by
  have e : (List.range L).filter (fun i => decide (P i)) = (List.range L).filter (fun i => decide (i < m)) := by
    apply List.filter_congr
    intro i hi
    exact decide_eq_decide.2 (h i (List.mem_range.1 hi))
  rw [e]
  have : (List.range L).filter (fun i => decide (i < m)) = List.range m := by
    obtain ⟨k, rfl⟩ := Nat.exists_eq_add_of_le hm
    rw [List.range_add, List.filter_append, List.filter_eq_self.2, List.filter_eq_nil_iff.2, List.append_nil]
    · intro i hi
      obtain ⟨j, _, rfl⟩ := List.mem_map.1 hi
      simp
    · intro i hi
      simpa using hi
  rw [this, List.length_range]

/-- Finding the cell. -/
theorem locate_spec {L : Nat} (hL : 3 ≤ L) {s : PSquare w (E ε)} {m : Spec.P2} {d δ : Nat → E ε}
    (hr : Rep L s m.n (fun i => X.fin (m.q i)) d δ) (hsort : ∀ i, i + 1 < L → m.q i ≤ m.q (i + 1)) (x : ℝ) :
    ∃ hs, s.locate (X.fin x) = some (Spec.p2Cell L m.q x, hs)
      ∧ Rep L { s with heights := hs } m.n (fun i => X.fin ((Spec.p2Insert L m x).q i)) d δ := by
  obtain ⟨k, h1, hs, hloc, hk, hr1, hcase⟩ := locate_eq hr (by omega) (X.fin x)
  have hmm : m.q 0 ≤ m.q (L - 1) := sorted_of_step hsort (by omega) (by omega)
  simp only [Exact.lt_fin, Exact.le_fin, decide_eq_true_eq, decide_eq_false_iff_not] at hcase
  have key : k = Spec.p2Cell L m.q x ∧ h1 = fun i => X.fin ((Spec.p2Insert L m x).q i) := by
    unfold Spec.p2Cell Spec.p2Insert
    dsimp only
    rcases hcase with ⟨c, rfl, rfl⟩ | ⟨c1, c2, rfl, rfl⟩ | ⟨c1, c2, rfl, hub⟩
    · refine ⟨by rw [if_pos c], ?_⟩
      rw [update_fin]
      funext i
      congr 1
      by_cases e : i = 0
      · subst e; rw [Function.update_self, if_pos rfl, min_eq_right c.le]
      · rw [Function.update_of_ne e, if_neg e]
        split_ifs with e2
        · rw [e2, max_eq_left (by linarith)]
        · rfl
    · refine ⟨by rw [if_neg c1, if_pos c2], ?_⟩
      rw [update_fin]
      funext i
      congr 1
      by_cases e : i = L - 1
      · subst e; rw [Function.update_self, if_neg (by omega), if_pos rfl, max_eq_right c2]
      · rw [Function.update_of_ne e]
        split_ifs with e2
        · rw [e2, min_eq_left (by linarith)]
        · rfl
    · refine ⟨?_, ?_⟩
      · rw [if_neg c1, if_neg c2]
        have hex : ∃ i, x < m.q i ∧ i < L := ⟨L - 1, not_le.1 c2, by omega⟩
        classical
        let j := Nat.find hex
        have hj : x < m.q j ∧ j < L := Nat.find_spec hex
        have hlt : ∀ i, i < j → m.q i ≤ x := by
          intro i him
          by_contra hcon
          exact Nat.find_min hex him ⟨not_le.1 hcon, him.trans hj.2⟩
        have hpart : ∀ (i : Nat) (hi' : i < s.heights.length), lt (X.fin x : E ε) s.heights[i] = true ↔ j ≤ i := by
          intro i hi'
          have hiL : i < L := by rw [hr.ht_len] at hi'; exact hi'
          have e : s.heights[i] = X.fin (m.q i) := by
            have := hr.ht i hiL
            rw [List.getElem?_eq_getElem hi'] at this
            exact Option.some.inj this
          rw [e, Exact.lt_fin, decide_eq_true_eq]
          constructor
          · intro h
            by_contra hcon
            exact absurd (hlt i (by omega)) (not_le.2 h)
          · intro hle
            exact hj.1.trans_le (sorted_of_step hsort hle hiL)
        have hmk := upperBound_partition s.heights (X.fin x : E ε) hpart s.heights.length 0 s.heights.length (le_refl _)
          (by omega) (by omega) (by rw [hr.ht_len]; omega)
        rw [hmk] at hub
        obtain rfl : j = k := Option.some.inj hub
        symm
        refine filter_range_length hj.2.le ?_
        intro i hi
        constructor
        · intro h
          by_contra hcon
          exact absurd (hj.1.trans_le (sorted_of_step hsort (not_lt.1 hcon) hi)) (not_lt.2 h)
        · intro h
          exact hlt i h
      · funext i
        congr 1
        split_ifs with e1 e2
        · rw [e1, min_eq_left (not_lt.1 c1)]
        · rw [e2, max_eq_left (not_le.1 c2).le]
        · rfl
  rw [key.1] at hloc
  rw [key.2] at hr1
  exact ⟨hs, hloc, hr1⟩

/-- Pushing to a complete estimator. -/
theorem push_spec {L N : Nat} (hL : 3 ≤ L) (hLN : L ≤ N) (hN : N + 1 < 2 ^ w) {s : PSquare w (E ε)} {m : Spec.P2}
    {f : Nat → ℝ}
    (hr : Rep L s m.n (fun i => X.fin (m.q i)) (fun i => X.fin (1 + (N - 1) * f i)) (fun i => X.fin (f i)))
    (hm : Mono w L m.n) (hp : m.n (L - 1) ≤ N) (hsort : ∀ i, i + 1 < L → m.q i ≤ m.q (i + 1))
    (hc : s.count = BitVec.ofNat w N) (x : ℝ) :
    ∃ s', s.push (X.fin x) = some s'
      ∧ Rep L s' (Spec.p2Push Early (codeDown w) L f N m x).n (fun i => X.fin ((Spec.p2Push Early (codeDown w) L f N m x).q i))
          (fun i => X.fin (1 + (((N + 1 : Nat) : ℝ) - 1) * f i)) (fun i => X.fin (f i))
      ∧ Mono w L (Spec.p2Push Early (codeDown w) L f N m x).n := by
  obtain ⟨hs, hloc, hr1⟩ := locate_spec hL hr hsort x
  have hr2 := bump_rep hr1 (Spec.p2Cell L m.q x)
  have hm2 : Mono w L (bumped (Spec.p2Cell L m.q x) m.n) := hm.bump _ (by omega)
  have hd : (fun i => X.fin (1 + (N - 1) * f i) + X.fin (f i) : Nat → E ε)
      = fun i => X.fin (1 + (N : ℝ) * f i) := by
    funext i
    rw [Exact.add_fin]
    congr 1
    ring
  rw [hd] at hr2
  have hd' : (fun i => X.fin (1 + (((N + 1 : Nat) : ℝ) - 1) * f i) : Nat → E ε) = fun i => X.fin (1 + (N : ℝ) * f i) := by
    funext i
    push_cast
    congr 1
    ring
  rw [hd']
  have hn : bumped (Spec.p2Cell L m.q x) m.n = (Spec.p2Insert L m x).n := rfl
  rw [hn] at hr2 hm2
  obtain ⟨s', hf, hcnt, hqs, hr', hm'⟩ := adjust_loop_spec (by omega) hr2 hm2 (L - 2) (by omega)
  have hge : s.count ≥ BitVec.ofNat w s.len := by
    rw [hc, hr.len_eq]; exact (ge_iff (by omega) (by omega)).2 hLN
  refine ⟨{ s' with count := s'.count + 1 }, ?_, ?_, hm'⟩
  · unfold PSquare.push
    rw [if_pos hge, hloc]
    simp only [Option.bind_eq_bind, Option.bind_some]
    rw [show s.len - 2 = L - 2 by rw [hr.len_eq], hf]
    rfl
  · exact ⟨hr'.len_eq, hr'.pos_len, hr'.pos, hr'.ht_len, hr'.ht, hr'.des_len, hr'.des, hr'.del_len, hr'.del⟩

end Verif.PSquare

namespace Verif.Spec

theorem p2_fst (far : ℝ → Prop) (down : (Nat → ℝ) → (Nat → ℝ) → Nat → ℝ) (L : Nat) (f : Nat → ℝ) (ys : List ℝ) (N : Nat) (m : P2) :
    (ys.foldl (fun s x => (s.1 + 1, p2Push far down L f s.1 s.2 x)) (N, m)).1 = N + ys.length := by
  induction ys generalizing N m with
  | nil => rfl
  | cons y ys ih => rw [List.foldl_cons, ih]; simp; omega

theorem p2_snoc (far : ℝ → Prop) (down : (Nat → ℝ) → (Nat → ℝ) → Nat → ℝ) {L : Nat} (f : Nat → ℝ)
    {xs : List ℝ} (h : L ≤ xs.length) (x : ℝ) :
    p2 far down L f (xs ++ [x]) = p2Push far down L f xs.length (p2 far down L f xs) x := by
  unfold p2
  rw [List.drop_append_of_le_length h, List.take_append_of_le_length h, List.foldl_append]
  show p2Push far down L f _ _ x = _
  rw [p2_fst, List.length_drop]
  congr 1
  omega

end Verif.Spec

namespace Verif.PSquare
open Scalar Exact
variable {w : Nat} {ε : ℝ}

/-- The markers of a complete estimator. -/
theorem pushes_spec (qs : List ℝ) (hL : paramLength qs.length < 2 ^ w) (xs : List ℝ) (hn : xs.length < 2 ^ w)
    (hf : paramLength qs.length ≤ xs.length) :
    ∃ s p r, pushes w (qs.map X.fin : List (E ε)) (xs.map X.fin) = some s ∧ InvE qs xs s p r
      ∧ Rep (paramLength qs.length) s (Spec.p2 Early (codeDown w) (paramLength qs.length) (markerR qs) xs).n
          (fun i => X.fin ((Spec.p2 Early (codeDown w) (paramLength qs.length) (markerR qs) xs).q i))
          (fun i => X.fin (1 + ((xs.length : ℝ) - 1) * markerR qs i)) (fun i => X.fin (markerR qs i))
      ∧ Mono w (paramLength qs.length) (Spec.p2 Early (codeDown w) (paramLength qs.length) (markerR qs) xs).n := by
  set L := paramLength qs.length with hLdef
  have hL3 : 3 ≤ L := by rw [hLdef]; unfold paramLength; omega
  induction xs using List.reverseRecOn with
  | nil => simp at hf; omega
  | append_singleton xs x ih =>
    have hlen : (xs ++ [x]).length = xs.length + 1 := by simp
    obtain ⟨s', p', r', hs', hi'⟩ := pushes_exact (ε := ε) (w := w) qs hL (xs ++ [x]) hn
    refine ⟨s', p', r', hs', hi', ?_⟩
    rcases Nat.lt_or_ge xs.length L with h | h
    · -- the sample has just been completed
      have hl2 : (xs ++ [x]).length = L := by omega
      obtain ⟨t, p, g, d, ht, hj⟩ := pushes_inv (w := w) (qs.map X.fin : List (E ε)) (by simpa using hL) ((xs ++ [x]).map X.fin)
        (by simpa using hn)
      obtain rfl : s' = t := Option.some.inj (hs'.symm.trans ht)
      have hpl : paramLength (qs.map (X.fin (F := Fmt.exact ε))).length = L := by rw [List.length_map]
      have hfew := hj.few (by rw [hpl, List.length_map]; omega)
      have hspec : Spec.p2 Early (codeDown w) L (markerR qs) (xs ++ [x])
          = { n := fun i => i + 1, q := fun i => (Spec.sorted (xs ++ [x])).getD i 0 } := by
        unfold Spec.p2
        rw [List.drop_eq_nil_of_le (by omega), List.take_of_length_le (by omega)]
        rfl
      rw [hspec]
      have hrep := hj.rep
      rw [hpl] at hrep
      have hmono := hj.mono
      rw [hpl] at hmono
      have hfun : p = fun i => i + 1 := funext hfew.1
      rw [hfun] at hrep hmono
      refine ⟨⟨hrep.len_eq, hrep.pos_len, hrep.pos, hrep.ht_len, ?_, hrep.des_len, ?_, hrep.del_len, ?_⟩, hmono⟩
      · intro i hi
        exact hi'.height_few (by omega) (by omega)
      · intro i hi
        have h1 := hi'.rep.des i hi
        rw [h1, ← hLdef, max_eq_left (by exact_mod_cast hl2.ge)]
      · exact hi'.rep.del
    · obtain ⟨s, p, r, hs, hi, hr, hm⟩ := ih (by omega) h
      obtain ⟨hsort, -, -⟩ := hi.many h
      set m := Spec.p2 Early (codeDown w) L (markerR qs) xs with hmdef
      have hq : ∀ i, i < L → m.q i = r i := by
        intro i hi2
        have := (hr.ht i hi2).symm.trans (hi.rep.ht i hi2)
        exact X.fin_inj.1 (Option.some.inj this)
      have hpl : m.n (L - 1) = p (L - 1) := by
        have := (hr.pos (L - 1) (by omega)).symm.trans (hi.rep.pos (L - 1) (by omega))
        have := congrArg BitVec.toNat (Option.some.inj this)
        rwa [BitVec.toNat_ofNat, BitVec.toNat_ofNat, Nat.mod_eq_of_lt hm.last, Nat.mod_eq_of_lt hi.mono.last] at this
      have hsort' : ∀ i, i + 1 < L → m.q i ≤ m.q (i + 1) := by
        intro i hi2
        rw [hq i (by omega), hq (i + 1) hi2]
        exact hsort i hi2
      obtain ⟨s2, hp2, hr2, hm2⟩ := push_spec hL3 h (by omega) hr hm (by rw [hpl, hi.last]; omega) hsort' hi.count x
      rw [List.map_append, List.map_singleton, pushes_snoc, hs, Option.bind_some, hp2] at hs'
      obtain rfl : s2 = s' := Option.some.inj hs'
      rw [Spec.p2_snoc _ _ _ h, hlen]
      exact ⟨hr2, hm2⟩

end Verif.PSquare
