import Verif.Proofs.PSquareGet
import Verif.Proofs.Rounding
/-
P-square estimator in any format: the sample in ascending order, and the extreme markers.
-/
namespace Verif.PSquare
open Scalar

variable {w : Nat} {F : Fmt}

/-- Inserting into the sorted sample gives the sorted sample: comparisons are exact in every format. -/
theorem insertAt_sortedF (x : ℝ) (xs : List ℝ) (z : X F) (rest : List (X F)) :
    PSquare.insertAt (X.fin x) xs.length ((Spec.sorted xs).map X.fin ++ z :: rest)
      = some ((Spec.sorted (xs ++ [x])).map X.fin ++ rest) := by
  obtain ⟨a, b, h1, h2, h3, h4⟩ := insertAt_split (X.fin x : X F) ((Spec.sorted xs).map X.fin) z rest
  rw [List.length_map, Spec.sorted_length] at h2
  rw [h2]
  obtain ⟨a', b', hab, rfl, rfl⟩ := List.map_eq_append_iff.1 h1
  have hsrt := Spec.sorted_pairwise xs
  have : Spec.sorted (xs ++ [x]) = a' ++ x :: b' := by
    apply Spec.sorted_unique
    · refine List.perm_middle.trans ?_
      rw [← hab]
      exact ((Spec.sorted_perm xs).cons x).trans (List.perm_append_comm (l₁ := [x]))
    · rw [hab, List.pairwise_append] at hsrt
      obtain ⟨s1, s2, s3⟩ := hsrt
      have hb : ∀ y ∈ b', x < y := by
        intro y hy
        have := h3 (X.fin y) (List.mem_map_of_mem hy)
        rwa [X.lt_fin, decide_eq_true_eq] at this
      have ha : ∀ y ∈ a', y ≤ x := by
        intro y hy
        have hne : a' ≠ [] := List.ne_nil_of_mem hy
        have hl := h4 (X.fin (a'.getLast hne)) (by rw [List.getLast?_map, List.getLast?_eq_some_getLast hne]; rfl)
        have hl' : a'.getLast hne ≤ x := by
          rw [X.lt_fin, decide_eq_false_iff_not] at hl
          exact not_lt.1 hl
        refine le_trans ?_ hl'
        rcases List.mem_iff_getElem.1 hy with ⟨i, hi, rfl⟩
        rw [List.getLast_eq_getElem]
        rcases Nat.lt_or_ge i (a'.length - 1) with hlt | hge
        · exact List.pairwise_iff_getElem.1 s1 i _ hi (by omega) hlt
        · have : i = a'.length - 1 := by omega
          subst this; exact le_refl _
      rw [List.pairwise_append]
      refine ⟨s1, List.pairwise_cons.2 ⟨fun y hy => (hb y hy).le, s2⟩, ?_⟩
      intro u hu v hv
      rcases List.mem_cons.1 hv with rfl | hv
      · exact ha u hu
      · exact (ha u hu).trans (hb v hv).le
  rw [this]
  simp

/-- State after pushing the finite numbers `xs`, for a predicate `J` on the heights of a complete estimator. -/
structure InvF (qs : List (X F)) (xs : List ℝ) (J : (Nat → X F) → Prop) (s : PSquare w (X F)) (p : Nat → Nat)
    (h d : Nat → X F) : Prop where
  inv : Inv qs xs.length s p h d
  few : xs.length ≤ paramLength qs.length →
    s.heights = (Spec.sorted xs).map X.fin ++ List.replicate (paramLength qs.length - xs.length) (ofNat 0)
  many : paramLength qs.length ≤ xs.length → J h ∧ ∃ lo hi, h 0 = X.fin lo ∧ h (paramLength qs.length - 1) = X.fin hi
    ∧ IsLeast {x | x ∈ xs} lo ∧ IsGreatest {x | x ∈ xs} hi

theorem InvF.height_few {qs : List (X F)} {xs : List ℝ} {J : (Nat → X F) → Prop} {s : PSquare w (X F)} {p : Nat → Nat}
    {h d : Nat → X F} (hi : InvF qs xs J s p h d) (hn : xs.length ≤ paramLength qs.length) {i : Nat}
    (h : i < xs.length) : s.heights[i]? = some (X.fin ((Spec.sorted xs).getD i 0)) := by
  have hc2 : i < (Spec.sorted xs).length := by simpa using h
  rw [hi.few hn, List.getElem?_append_left (by simpa using h), List.getElem?_map, List.getElem?_eq_getElem hc2,
    List.getD_eq_getElem _ _ hc2]
  rfl

/-- The invariant holds for every sequence of finite numbers with a property `V` if `J` holds for complete samples and is
kept when a marker is set to a new extreme value and when a marker is adjusted. -/
theorem pushes_invF (qs : List (X F)) (hL : paramLength qs.length < 2 ^ w) (V : ℝ → Prop) (J : (Nat → X F) → Prop)
    {b : Nat} (J0 : ∀ (r : Nat → ℝ) (h : Nat → X F), (∀ i, i < paramLength qs.length → V (r i)) →
      (∀ i, i + 1 < paramLength qs.length → r i ≤ r (i + 1)) →
      (∀ i, i < paramLength qs.length → h i = X.fin (r i)) → J h)
    (Jlo : ∀ (h : Nat → X F) (x lo : ℝ), V x → J h → h 0 = X.fin lo → x < lo → J (Function.update h 0 (X.fin x)))
    (Jhi : ∀ (h : Nat → X F) (x hi : ℝ), V x → J h → h (paramLength qs.length - 1) = X.fin hi → hi ≤ x →
      J (Function.update h (paramLength qs.length - 1) (X.fin x)))
    (Jadj : ∀ (p : Nat → Nat) (d h : Nat → X F) (i : Nat) (sign : Int), Mono w (paramLength qs.length) p →
      p (paramLength qs.length - 1) ≤ b → 1 ≤ i → i + 1 < paramLength qs.length → Moves p d i sign → J h → J (Function.update h i (predictAt w p h i sign)))
    (xs : List ℝ) (hb : xs.length ≤ b) (hn : xs.length < 2 ^ w) (hV : ∀ x ∈ xs, V x) :
    ∃ s p h d, pushes w qs (xs.map X.fin) = some s ∧ InvF qs xs J s p h d := by
  set L := paramLength qs.length with hLdef
  have hL3 : 3 ≤ L := by rw [hLdef]; unfold paramLength; omega
  induction xs using List.reverseRecOn with
  | nil =>
    obtain ⟨p, h, d, hi⟩ := init_inv (w := w) qs hL
    refine ⟨_, p, h, d, rfl, hi, ?_, ?_⟩
    · intro _
      have : Spec.sorted [] = [] := rfl
      rw [this]
      simp [PSquare.initState]
    · intro hle
      simp only [List.length_nil] at hle
      omega
  | append_singleton xs x ih =>
    have hlen : (xs ++ [x]).length = xs.length + 1 := by simp
    rw [hlen] at hn hb
    obtain ⟨s, p, h, d, hs, hi⟩ := ih (by omega) (by omega) (fun y hy => hV y (List.mem_append_left _ hy))
    have hVx : V x := hV x (by simp)
    rw [List.map_append, List.map_singleton, pushes_snoc, hs, Option.bind_some]
    rcases Nat.lt_or_ge xs.length L with hf | hf
    · obtain ⟨s', h', h1, h2, h4, h5, h6⟩ := push_few hf hL hi.inv.rep hi.inv.count (X.fin x)
      have hh : s'.heights = (Spec.sorted (xs ++ [x])).map X.fin ++ List.replicate (L - (xs ++ [x]).length) (ofNat 0) := by
        have hrep : List.replicate (L - xs.length) (ofNat 0 : X F)
            = ofNat 0 :: List.replicate (L - (xs ++ [x]).length) (ofNat 0) := by
          rw [hlen, ← List.replicate_succ]
          congr 1; omega
        rw [hi.few hf.le, ← hLdef, hrep, insertAt_sortedF] at h6
        exact (Option.some.inj h6).symm
      have hlast := hi.inv.last
      refine ⟨s', p, h', d, h1, ⟨h5, hi.inv.mono, by rw [h2, hlen], h4.trans hi.inv.qs_eq, fun _ => hi.inv.few hf.le, ?_⟩,
        fun _ => hh, ?_⟩
      · rw [hlen]; rw [← hLdef] at hlast ⊢; omega
      · intro hle
        have hlen2 : (xs ++ [x]).length = L := by omega
        have hget : ∀ i, i < L → h' i = X.fin ((Spec.sorted (xs ++ [x])).getD i 0) := by
          intro i hi'
          have hc2 : i < (Spec.sorted (xs ++ [x])).length := by rw [Spec.sorted_length]; omega
          have e := h5.ht i hi'
          rw [hh, List.getElem?_append_left (by simpa using hc2), List.getElem?_map, List.getElem?_eq_getElem hc2] at e
          rw [List.getD_eq_getElem _ _ hc2]
          exact (Option.some.inj e).symm
        refine ⟨J0 (fun i => (Spec.sorted (xs ++ [x])).getD i 0) h' ?_ (fun i hi' => Spec.sorted_mono (by omega) (by omega)) hget,
          _, _, hget 0 (by omega), hget (L - 1) (by omega), sorted_least (by simp), ?_⟩
        · intro i hi'
          have hc2 : i < (Spec.sorted (xs ++ [x])).length := by rw [Spec.sorted_length]; omega
          rw [List.getD_eq_getElem _ _ hc2]
          exact hV _ ((Spec.sorted_perm _).mem_iff.1 (List.getElem_mem hc2))
        · rw [← hlen2]; exact sorted_greatest (by simp)
    · obtain ⟨hJ, lo, hi', hlo, hhi, hleast, hgreat⟩ := hi.many hf
      have hlast := hi.inv.last
      obtain ⟨k, h1, hk, hcase, hpush⟩ := push_full hL3 hf hn hi.inv.rep hi.inv.mono (by rw [← hLdef] at hlast; omega)
        hi.inv.count (X.fin x)
      have hle : lo ≤ hi' := hleast.2 hgreat.1
      rw [← hLdef] at hhi
      have key : J h1 ∧ h1 0 = X.fin (if x < lo then x else lo) ∧ h1 (L - 1) = X.fin (if hi' ≤ x then x else hi') := by
        rw [hlo, hhi, X.lt_fin, X.le_fin] at hcase
        simp only [decide_eq_true_eq, decide_eq_false_iff_not] at hcase
        rcases hcase with ⟨c, -, rfl⟩ | ⟨c1, c2, -, rfl⟩ | ⟨c1, c2, rfl, -⟩
        · refine ⟨Jlo h x lo hVx hJ hlo c, ?_, ?_⟩
          · rw [Function.update_self, if_pos c]
          · rw [Function.update_of_ne (by omega), hhi, if_neg (by linarith)]
        · refine ⟨Jhi h x hi' hVx hJ hhi c2, ?_, ?_⟩
          · rw [Function.update_of_ne (by omega), hlo, if_neg c1]
          · rw [Function.update_self, if_pos c2]
        · exact ⟨hJ, by rw [hlo, if_neg c1], by rw [hhi, if_neg c2]⟩
      obtain ⟨hj1, hl1, hu1⟩ := key
      obtain ⟨s', p', h', e1, e2, e3, e4, e5, e6, e7, -, -, -, e11, e12⟩ := hpush J hj1
        (fun p h i sign m c => Jadj p _ h i sign m (c.trans hb))
      refine ⟨s', p', h', _, e1, ⟨e4, e5, by rw [e2, hlen], e3.trans hi.inv.qs_eq, fun hle => ?_, ?_⟩, ?_, ?_⟩
      · rw [hlen] at hle; omega
      · rw [hlen, ← hLdef]; omega
      · intro hle; rw [hlen] at hle; omega
      · intro _
        refine ⟨e7, _, _, e11.trans hl1, e12.trans hu1, ?_, ?_⟩
        · exact least_snoc hleast
        · exact greatest_snoc hgreat

section
variable {qs : List (X F)} {xs : List ℝ} {J : (Nat → X F) → Prop} {s : PSquare w (X F)} {p : Nat → Nat} {h d : Nat → X F}

theorem get_manyF (hi : InvF qs xs J s p h d) (hn : paramLength qs.length < xs.length) (hw : xs.length < 2 ^ w) {i : Nat}
    (hidx : i ≤ qs.length + 1) : s.get i = some (h (2 * i)) := by
  have hpl : paramLength qs.length = 2 * qs.length + 3 := rfl
  unfold PSquare.get
  rw [PSquare.q, hi.inv.qs_eq, if_neg (by omega), hi.inv.rep.len_eq, hi.inv.count,
    if_pos (by rw [gt_iff (by omega) (by omega)]; exact hn), hi.inv.rep.ht (2 * i) (by omega)]

theorem get_extremeF (hL : paramLength qs.length < 2 ^ w) (hw : xs.length < 2 ^ w) (hi : InvF qs xs J s p h d)
    (hne : xs ≠ []) :
    ∃ lo hi', s.get 0 = some (X.fin lo) ∧ s.get (qs.length + 1) = some (X.fin hi') ∧ IsLeast {x | x ∈ xs} lo
      ∧ IsGreatest {x | x ∈ xs} hi' := by
  have hlen : 1 ≤ xs.length := List.length_pos_iff.2 hne
  have hpl : paramLength qs.length = 2 * qs.length + 3 := rfl
  rcases Nat.lt_or_ge (paramLength qs.length) xs.length with hc | hc
  · obtain ⟨-, lo, hi', h1, h2, h3, h4⟩ := hi.many hc.le
    have e : 2 * (qs.length + 1) = paramLength qs.length - 1 := by omega
    exact ⟨lo, hi', (get_manyF hi hc hw (by omega)).trans (by rw [Nat.mul_zero, h1]),
      (get_manyF hi hc hw (le_refl _)).trans (by rw [e, h2]), h3, h4⟩
  · refine ⟨(Spec.sorted xs).getD 0 0, (Spec.sorted xs).getD (xs.length - 1) 0, ?_, ?_, sorted_least hlen, sorted_greatest hlen⟩
    all_goals
      have hone : (1 : SizeT w) = BitVec.ofNat w 1 := rfl
      have hzero : (0 : SizeT w) = BitVec.ofNat w 0 := rfl
      unfold PSquare.get
      rw [PSquare.q, hi.inv.qs_eq, if_neg (by omega), hi.inv.rep.len_eq, hi.inv.count,
        if_neg (by rw [gt_iff (by omega) (by omega)]; omega), ofNat_sub_one hlen, toNat_ofNat_lt (by omega)]
      by_cases h1 : 1 < xs.length
      · rw [if_pos (by rw [hone, gt_iff (by omega) (by omega)]; exact h1)]
        first
        | rw [if_pos rfl, hi.height_few hc (by omega)]
        | rw [if_neg (by omega), if_pos (by omega), hi.height_few hc (by omega)]
      · have hx1 : xs.length = 1 := by omega
        rw [if_neg (by rw [hone, gt_iff (by omega) (by omega)]; exact h1),
          if_pos (by rw [hzero, gt_iff (by omega) (by omega)]; exact hlen), hi.height_few hc (by omega)]
        try rw [hx1]
end

/-- A marker between equal markers stays where it is. -/
theorem predictAt_const {pr : Nat} {emin : Int} (hF : F.Binary pr emin) {c : ℝ} (hc : IsRep pr emin c ∧ F.fits c) {L : Nat}
    {p : Nat → Nat} (hm : Mono w L p) {h : Nat → X F} {i : Nat} {sign : Int} (h1 : 1 ≤ i) (hiL : i + 1 < L) (hsign : sign = 1 ∨ sign = -1)
    (hh : ∀ j, j < L → h j = X.fin c) : predictAt w p h i sign = X.fin c := by
  have a1 : p i < p (i + 1) := hm.lt (by omega) hiL
  have a2 : p (i + 1) < 2 ^ w := hm.bound hiL
  unfold predictAt predict lin
  rw [hh (i - 1) (by omega), hh i (by omega), hh (i + 1) hiL]
  rw [if_neg]
  · rw [hF.sub_self, hF.zero_div (by omega), hF.zero_div (by omega)]
    have e1 : (ofInt 1 : X F) = X.fin 1 := by
      rw [X.ofInt_eq, Int.cast_one]; exact hF.round_exact hF.isRep_one hF.fits_one
    have e2 : (ofInt (-1) : X F) = X.fin (-1) := by
      rw [X.ofInt_eq, Int.cast_neg, Int.cast_one]
      exact hF.round_exact hF.isRep_one.neg (hF.fits_neg hF.fits_one)
    rcases hsign with rfl | rfl
    · rw [if_pos rfl, e1, hF.mul_zero, hF.add_zero hc.1 hc.2]
    · rw [if_neg (by decide), e2, hF.mul_zero, hF.add_zero hc.1 hc.2]
  · generalize para sign (p (i + 1) - p i) (p i - p (i - 1)) (X.fin c) (X.fin c) (X.fin c) = v
    cases v with
    | fin r => rw [X.lt_fin, X.lt_fin]; simp only [Bool.and_eq_true, decide_eq_true_eq, not_and, not_lt]; exact fun h => h.le
    | pinf => intro h'; simp [Scalar.lt, X.lt] at h'
    | ninf => intro h'; simp [Scalar.lt, X.lt] at h'
    | nan => intro h'; simp [Scalar.lt, X.lt] at h'

end Verif.PSquare
