import Verif.Props.ReservoirLaw
/-
C93: exactly which sizes work.
C105: the size of the sample after any number of pushes.
-/
namespace Verif.Props
open Verif.Reservoir Reservoir

variable {w : Nat} {β : Type}

/-- Sizes that work: the state of a reservoir whose threshold is not below its size. -/
private structure Filled (N : SizeT w) (s : Reservoir w β) : Prop where
  size_eq : s.sampleSize = N
  threshold_eq : s.threshold = 4 * N
  enough : min s.sampleCount.toNat N.toNat ≤ s.samples.length

private theorem Filled.push {N : SizeT w} (h0 : N ≠ 0) (h4 : N ≤ 4 * N) {s : Reservoir w β} (hs : Filled N s)
    (x : β) {d : Draw w} (hd : d.Valid) : ∃ r, s.push x d = some r ∧ Filled N r.1 := by
  obtain ⟨a, b, c⟩ := hs
  have hN : 1 ≤ N.toNat := by
    rcases Nat.eq_zero_or_pos N.toNat with h | h
    · exact absurd (BitVec.eq_of_toNat_eq (by simpa using h)) h0
    · exact h
  have hn1 : (N - 1).toNat = N.toNat - 1 := by
    have h1 : (1 : BitVec w).toNat ≤ 1 := by
      show (BitVec.ofNat w 1).toNat ≤ 1
      rw [BitVec.toNat_ofNat]; exact Nat.mod_le _ _
    have h2 : (1 : BitVec w).toNat = 1 := by
      show (BitVec.ofNat w 1).toNat = 1
      rw [BitVec.toNat_ofNat]
      exact Nat.mod_eq_of_lt (lt_of_le_of_lt hN N.isLt)
    rw [BitVec.toNat_sub_of_le (by rw [BitVec.le_def, h2]; exact hN), h2]
  have hsucc : ∀ c : SizeT w, (c + 1).toNat ≤ c.toNat + 1 := by
    intro c
    rw [BitVec.toNat_add]
    refine (Nat.mod_le _ _).trans ?_
    have h1 : (1 : BitVec w).toNat ≤ 1 := by
      show (BitVec.ofNat w 1).toNat ≤ 1
      rw [BitVec.toNat_ofNat]; exact Nat.mod_le _ _
    omega
  have hassign : ∀ i : SizeT w, N.toNat ≤ s.samples.length → i.toNat < N.toNat →
      Reservoir.assign s.samples i x = some (s.samples.set i.toNat x) := by
    intro i h1 h2
    unfold Reservoir.assign
    rw [if_pos (by omega)]
  unfold Reservoir.push
  by_cases ht : s.sampleCount ≥ s.threshold
  · have hlen : N.toNat ≤ s.samples.length := by
      have : N.toNat ≤ s.sampleCount.toNat := by
        rw [b] at ht
        exact (BitVec.le_def.1 h4).trans (BitVec.le_def.1 ht)
      omega
    rw [if_pos ht]
    by_cases hk : s.skipCount = 0
    · rw [if_pos hk]
      have hu : (d.uniform (s.sampleSize - 1)).toNat < N.toNat := by
        have := BitVec.le_def.1 (hd (s.sampleSize - 1))
        rw [a, hn1] at this
        rw [a]; omega
      simp only [hassign _ hlen hu]
      exact ⟨_, rfl, a, b, by simp only [List.length_set]; omega⟩
    · rw [if_neg hk]
      exact ⟨_, rfl, a, b, by show min _ _ ≤ s.samples.length; omega⟩
  · rw [if_neg ht]
    by_cases hc : s.sampleCount ≥ s.sampleSize
    · have hlen : N.toNat ≤ s.samples.length := by
        rw [a] at hc
        have := BitVec.le_def.1 hc
        omega
      rw [if_pos hc]
      by_cases hi : d.uniform s.sampleCount < s.sampleSize
      · simp only [hi, if_true]
        rw [hassign _ hlen (by rw [a] at hi; exact BitVec.lt_def.1 hi)]
        exact ⟨_, rfl, a, b, by simp only [List.length_set]; omega⟩
      · simp only [hi, if_false]
        exact ⟨_, rfl, a, b, by show min _ _ ≤ s.samples.length; omega⟩
    · rw [if_neg hc]
      refine ⟨_, rfl, a, b, ?_⟩
      show min (s.sampleCount + 1).toNat N.toNat ≤ (s.samples ++ [x]).length
      have h1 := hsucc s.sampleCount
      have h2 : s.sampleCount.toNat < N.toNat := by
        rw [a] at hc
        have := mt BitVec.le_def.2 hc
        omega
      rw [List.length_append, List.length_singleton]
      omega

/-- C93: the sizes for which no history of calls, with any random numbers, has undefined behaviour, are exactly
those that are not zero and whose quadruple, computed in size_t, is not smaller than the size.  No bound on the
number of calls: also when the count wraps. -/
theorem C93_sizes (N : SizeT w) (x : β) :
    (∀ ops : List (Op (β × Draw w)), (∀ p, .push p ∈ ops → p.2.Valid) → (Reservoir.run N ops).isSome)
      ↔ N ≠ 0 ∧ N ≤ 4 * N := by
  constructor
  · intro h
    refine ⟨?_, ?_⟩
    · rintro rfl
      have := h [.push (x, ⟨fun hi => hi, 0⟩)] (by
        intro p hp
        rw [List.mem_singleton] at hp
        cases hp
        exact fun hi => BitVec.le_refl _)
      rw [C93_first_push 0 (by simp)] at this
      simp at this
    · by_contra hlt
      have hlt : (4 * N).toNat < N.toNat := by
        have := mt BitVec.le_def.2 hlt
        omega
      let d : Draw w := ⟨fun hi => hi, 0⟩
      have hd : d.Valid := fun hi => BitVec.le_refl _
      have fill : ∀ n, n ≤ (4 * N).toNat → Reservoir.run N (List.replicate n (.push (x, d)))
          = some { sampleSize := N, threshold := 4 * N, sampleCount := BitVec.ofNat w n, skipCount := 0,
                   samples := List.replicate n x } := by
        intro n
        induction n with
        | zero => intro _; rfl
        | succ n ih =>
          intro hn
          have hw : n < 2 ^ w := by have := (4 * N).isLt; omega
          rw [List.replicate_succ']
          unfold Reservoir.run
          rw [runOps_append]
          have := ih (by omega)
          unfold Reservoir.run at this
          rw [this]
          show Option.map Prod.fst (Reservoir.push _ x d) = _
          unfold Reservoir.push
          have g1 : ¬ (BitVec.ofNat w n ≥ 4 * N) := by
            intro hc
            have := BitVec.le_def.1 hc
            rw [BitVec.toNat_ofNat, Nat.mod_eq_of_lt hw] at this
            omega
          have g2 : ¬ (BitVec.ofNat w n ≥ N) := by
            intro hc
            have := BitVec.le_def.1 hc
            rw [BitVec.toNat_ofNat, Nat.mod_eq_of_lt hw] at this
            omega
          simp only [if_neg g1, if_neg g2]
          simp only [Option.map_some]
          rw [ofNat_add_one, List.replicate_succ']
      have hbad : Reservoir.run N (List.replicate ((4 * N).toNat + 1) (.push (x, d))) = none := by
        rw [List.replicate_succ']
        unfold Reservoir.run
        rw [runOps_append]
        have := fill _ (Nat.le_refl _)
        unfold Reservoir.run at this
        rw [this]
        show Option.map Prod.fst (Reservoir.push _ x d) = _
        unfold Reservoir.push
        have g : BitVec.ofNat w (4 * N).toNat = 4 * N := by rw [BitVec.ofNat_toNat, BitVec.setWidth_eq]
        simp only [g, ge_iff_le, BitVec.le_refl, if_true]
        have hn1 : (N - 1).toNat = N.toNat - 1 := by
          have h2 : (1 : BitVec w).toNat = 1 := by
            show (BitVec.ofNat w 1).toNat = 1
            rw [BitVec.toNat_ofNat]
            exact Nat.mod_eq_of_lt (lt_of_le_of_lt (by omega) N.isLt)
          rw [BitVec.toNat_sub_of_le (by rw [BitVec.le_def, h2]; omega), h2]
        have : Reservoir.assign (List.replicate (4 * N).toNat x) (d.uniform (N - 1)) x = none := by
          unfold Reservoir.assign
          rw [if_neg]
          rw [List.length_replicate]
          show ¬ (N - 1).toNat < _
          omega
        rw [this]
        rfl
      have := h (List.replicate ((4 * N).toNat + 1) (.push (x, d))) (by
        intro p hp
        have := List.eq_of_mem_replicate hp
        cases this
        exact hd)
      rw [hbad] at this
      simp at this
  · rintro ⟨h0, h4⟩ ops hv
    have : ∀ (ops : List (Op (β × Draw w))), (∀ p, .push p ∈ ops → p.2.Valid) → ∀ s : Reservoir w β, Filled N s →
        (runOps (some s) (fun s x => s.bind fun s => (s.push x.1 x.2).map Prod.fst)
          (Option.map Reservoir.clear) ops).isSome := by
      intro ops
      induction ops with
      | nil => intro _ s _; rfl
      | cons o ops ih =>
        intro hv s hs
        cases o with
        | clear =>
          exact ih (fun p hp => hv p (by simp [hp])) s.clear
            ⟨hs.1, hs.2, by show min (0 : SizeT w).toNat _ ≤ _; simp⟩
        | push p =>
          obtain ⟨r, hr, hi⟩ := hs.push h0 h4 p.1 (hv p (by simp))
          have := ih (fun p hp => hv p (by simp [hp])) r.1 hi
          show (runOps ((s.push p.1 p.2).map Prod.fst) _ _ ops).isSome
          rw [hr]
          exact this
    exact this ops hv _ ⟨rfl, rfl, by show min (0 : SizeT w).toNat _ ≤ _; simp⟩

/-- 2^62 + 1 fails although its quadruple is not 0; 2^63 - 1 works although its quadruple wraps. -/
example : ¬ (∀ ops : List (Op (Nat × Draw 64)), (∀ p, .push p ∈ ops → p.2.Valid) →
    (Reservoir.run (BitVec.ofNat 64 (2 ^ 62 + 1)) ops).isSome) := by
  rw [C93_sizes _ 0]; decide
example : ∀ ops : List (Op (Nat × Draw 64)), (∀ p, .push p ∈ ops → p.2.Valid) →
    (Reservoir.run (BitVec.ofNat 64 (2 ^ 63 - 1)) ops).isSome := by
  rw [C93_sizes _ 0]; decide

/-! ### C105 -/

/-- C105 as stated: a reservoir of size `N` never holds more than `N` elements. -/
def ReservoirBounded (w : Nat) : Prop :=
  ∀ (N : Nat) (xs : List (Nat × Draw w)) (s : Reservoir w Nat), 1 ≤ N → 4 * N < 2 ^ w → (∀ x ∈ xs, x.2.Valid) →
    Reservoir.run (BitVec.ofNat w N) (xs.map .push) = some s → s.size ≤ N

/-- C105: the exact number of elements after any number of pushes.  The count wraps after 2^w pushes and the
reservoir then appends `N` more elements. -/
theorem C105_size {N : Nat} (hN : 1 ≤ N) (h4 : 4 * N < 2 ^ w) (xs : List (β × Draw w)) (hv : ∀ x ∈ xs, x.2.Valid) :
    ∃ s : Reservoir w β, Reservoir.run (BitVec.ofNat w N) (xs.map .push) = some s
      ∧ s.count = BitVec.ofNat w xs.length
      ∧ s.size = xs.length / 2 ^ w * N + min (xs.length % 2 ^ w) N := by
  have hN2 : (BitVec.ofNat w N).toNat = N := toNat_ofNat_lt (by omega)
  have h4eq : 4 * BitVec.ofNat w N = BitVec.ofNat w (4 * N) := (inv_init (w := w) (β := β) N).threshold_eq
  have h42 : (4 * BitVec.ofNat w N).toNat = 4 * N := by rw [h4eq, toNat_ofNat_lt h4]
  have h0 : BitVec.ofNat w N ≠ 0 := by
    intro h
    have := congrArg BitVec.toNat h
    rw [hN2] at this
    simp at this
    omega
  have hle : BitVec.ofNat w N ≤ 4 * BitVec.ofNat w N := by rw [BitVec.le_def, hN2, h42]; omega
  have key : ∃ s : Reservoir w β, pushes N xs = some s ∧ Filled (BitVec.ofNat w N) s
      ∧ s.sampleCount = BitVec.ofNat w xs.length
      ∧ s.samples.length = xs.length / 2 ^ w * N + min (xs.length % 2 ^ w) N := by
    induction xs using List.reverseRecOn with
    | nil => exact ⟨_, rfl, ⟨rfl, rfl, by show min (0 : SizeT w).toNat _ ≤ _; simp⟩, rfl, by simp [Reservoir.init]⟩
    | append_singleton xs x ih =>
      obtain ⟨s, hs, hf, hc, hl⟩ := ih (fun y hy => hv y (by simp [hy]))
      obtain ⟨r, hr, hf'⟩ := hf.push h0 hle x.1 (hv x (by simp))
      have hcn : s.sampleCount.toNat = xs.length % 2 ^ w := by rw [hc, BitVec.toNat_ofNat]
      have hlt : xs.length % 2 ^ w < 2 ^ w := Nat.mod_lt _ (by positivity)
      have hdm : 2 ^ w * (xs.length / 2 ^ w) + xs.length % 2 ^ w = xs.length := Nat.div_add_mod _ _
      refine ⟨r.1, by rw [pushes_snoc, hs]; simp [hr], hf', ?_, ?_⟩
      · have : r.1.sampleCount = s.sampleCount + 1 := by
          unfold Reservoir.push at hr
          split_ifs at hr
          · obtain ⟨l, -, e⟩ := Option.map_eq_some_iff.1 hr
            rw [← e]
          · cases hr; rfl
          · simp only at hr
            split_ifs at hr
            · obtain ⟨l, -, e⟩ := Option.map_eq_some_iff.1 hr
              rw [← e]
            · cases hr; rfl
          · cases hr; rfl
        rw [this, hc, ofNat_add_one, List.length_append, List.length_singleton]
      · have hstep : r.1.samples.length = s.samples.length + (if xs.length % 2 ^ w < N then 1 else 0) := by
          have g4 : s.sampleCount ≥ s.threshold ↔ 4 * N ≤ xs.length % 2 ^ w := by
            rw [hf.threshold_eq, ge_iff_le, BitVec.le_def, h42, hcn]
          have g1 : s.sampleCount ≥ s.sampleSize ↔ N ≤ xs.length % 2 ^ w := by
            rw [hf.size_eq, ge_iff_le, BitVec.le_def, hN2, hcn]
          have hset : ∀ (i : SizeT w) (l : List β), Reservoir.assign s.samples i x.1 = some l →
              l.length = s.samples.length := by
            intro i l h
            unfold Reservoir.assign at h
            split_ifs at h
            cases h
            simp
          unfold Reservoir.push at hr
          by_cases a4 : 4 * N ≤ xs.length % 2 ^ w
          · rw [if_pos (g4.2 a4)] at hr
            rw [if_neg (by omega)]
            split_ifs at hr
            · obtain ⟨l, hl', e⟩ := Option.map_eq_some_iff.1 hr
              rw [← e]; exact hset _ _ hl'
            · cases hr; rfl
          · rw [if_neg (mt g4.1 a4)] at hr
            by_cases a1 : N ≤ xs.length % 2 ^ w
            · rw [if_pos (g1.2 a1)] at hr
              rw [if_neg (by omega)]
              simp only at hr
              split_ifs at hr
              · obtain ⟨l, hl', e⟩ := Option.map_eq_some_iff.1 hr
                rw [← e]; exact hset _ _ hl'
              · cases hr; rfl
            · rw [if_neg (mt g1.1 a1)] at hr
              rw [if_pos (by omega)]
              cases hr
              simp
        rw [hstep, hl, List.length_append, List.length_singleton]
        by_cases hw : xs.length % 2 ^ w + 1 = 2 ^ w
        · have e1 : xs.length + 1 = 2 ^ w * (xs.length / 2 ^ w + 1) := by rw [Nat.mul_add]; omega
          rw [e1, Nat.mul_div_cancel_left _ (by positivity), Nat.mul_mod_right, if_neg (by omega),
            Nat.add_mul, Nat.one_mul, Nat.zero_min]
          omega
        · have e1 : xs.length + 1 = 2 ^ w * (xs.length / 2 ^ w) + (xs.length % 2 ^ w + 1) := by omega
          obtain ⟨e2, e3⟩ := (Nat.div_mod_unique (a := xs.length + 1) (b := 2 ^ w) (by positivity)).2
            ⟨by rw [e1]; exact Nat.add_comm _ _, (by omega : xs.length % 2 ^ w + 1 < 2 ^ w)⟩
          rw [e2, e3]
          split_ifs <;> omega
  obtain ⟨s, hs, -, hc, hl⟩ := key
  exact ⟨s, hs, hc, hl⟩

/-- C105 is violated for every size_t: after 2^w + 1 pushes the sample of a reservoir of size 1 has two
elements. -/
theorem C105_violated (hw : 3 ≤ w) : ¬ ReservoirBounded w := by
  intro h
  have hp : 2 ^ 3 ≤ 2 ^ w := Nat.pow_le_pow_right (by norm_num) hw
  obtain ⟨s, hs, -, hl⟩ := C105_size (w := w) (N := 1) (Nat.le_refl _) (by omega)
    (List.replicate (2 ^ w + 1) (5, lowDraw)) (by
      intro x hx
      rw [List.eq_of_mem_replicate hx]; exact lowDraw_valid)
  have := h 1 _ s (Nat.le_refl _) (by omega) (by
      intro x hx
      rw [List.eq_of_mem_replicate hx]; exact lowDraw_valid) hs
  rw [hl, List.length_replicate, Nat.add_div_left _ (by positivity), Nat.add_mod_left,
    Nat.mod_eq_of_lt (by omega), Nat.div_eq_of_lt (by omega)] at this
  omega

/-- C105 up to 2^w pushes.
Missing for the full statement: more pushes, for which it is false, see `C105_size`. -/
theorem C105_bounded_partial {N : Nat} (hN : 1 ≤ N) (h4 : 4 * N < 2 ^ w) (xs : List (β × Draw w))
    (hv : ∀ x ∈ xs, x.2.Valid) (hn : xs.length ≤ 2 ^ w) :
    ∃ s : Reservoir w β, Reservoir.run (BitVec.ofNat w N) (xs.map .push) = some s ∧ s.size = min xs.length N := by
  obtain ⟨s, hs, -, hl⟩ := C105_size hN h4 xs hv
  refine ⟨s, hs, ?_⟩
  rw [hl]
  rcases Nat.lt_or_ge xs.length (2 ^ w) with h | h
  · rw [Nat.div_eq_of_lt h, Nat.mod_eq_of_lt h]; omega
  · have e : xs.length = 2 ^ w := by omega
    rw [e, Nat.div_self (by positivity), Nat.mod_self]; omega

/-- With an 8-bit count (small enough to run): 300 pushes to a reservoir of size 3 give 6 elements. -/
example : ∃ s : Reservoir 8 Nat, Reservoir.run (BitVec.ofNat 8 3) ((List.replicate 300 (7, highDraw)).map .push) = some s
    ∧ s.count = 44 ∧ s.size = 6 := by
  obtain ⟨s, h1, h2, h3⟩ := C105_size (w := 8) (N := 3) (β := Nat) (by norm_num) (by norm_num)
    (List.replicate 300 (7, highDraw)) (by
      intro x hx
      rw [List.eq_of_mem_replicate hx]; exact highDraw_valid)
  refine ⟨s, h1, by rw [h2, List.length_replicate]; decide, by rw [h3, List.length_replicate]; decide⟩

end Verif.Props
