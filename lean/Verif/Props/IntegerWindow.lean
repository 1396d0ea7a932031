import Verif.Proofs.IntegerConstant
import Verif.Props.IntegerVariance
import Verif.Props.Window
/-
C133: the window mean of integers, for every integer type.
-/
namespace Verif.Props
open CInt IntT

variable {P : Platform} {T : Ty}

/-- C133, the claim: the window mean of integers is defined and lies within the values in the window. -/
def IntWindowWithin (P : Platform) (T : Ty) : Prop :=
  ∀ (N : Nat) (xs : List Int) (lo hi : Int), 1 ≤ N → (N : Int) < T.hi → N < 2 ^ P.sizeBits → xs ≠ [] → (∀ x ∈ xs, T.Has x) →
    (∀ x ∈ Spec.lastN N xs, lo ≤ x ∧ x ≤ hi) → ∃ s, WMean.run P T N xs = some s ∧ lo ≤ s.mean ∧ s.mean ≤ hi

theorem wmean_run_snoc {N : Nat} {xs : List Int} {s : WMean} (hs : WMean.run P T N xs = some s) (x : Int) :
    WMean.run P T N (xs ++ [x]) = WMean.push P T N s x := by
  unfold WMean.run at hs ⊢
  rw [List.foldlM_append, hs]
  simp

/-- A full window without overflow. -/
theorem wmean_slide (hT : 1 ≤ T.bits) {N : Nat} {m x f : Int} {t : List Int} (hN : t.length + 1 = N) (hNT : (N : Int) < T.hi)
    (hm : T.Has m) (hx : T.Has x) (hf : T.Has f) (hd : (P.promote T).Has (x - f)) (hr : T.Has (m + (x - f).tdiv N)) :
    WMean.push P T N ⟨f :: t, m⟩ x = some ⟨t ++ [x], m + (x - f).tdiv N⟩ := by
  have hU := T_le_promote (P := P) hT
  have hn1 : (1 : Int) ≤ (N : Int) := by omega
  have hnT : T.Has (N : Int) := ⟨T.lo_le_zero.trans (by omega), hNT⟩
  have e1 : P.sub ⟨T, x⟩ ⟨T, f⟩ = some ⟨P.promote T, x - f⟩ := by
    rw [Platform.sub_eq hU rfl rfl (Platform.has_promote hx) (Platform.has_promote hf), Platform.result_has hU hd]
  have ec : cast T (P.sz (N : Int)) = ⟨T, (N : Int)⟩ := by
    show (⟨T, T.conv (N : Int)⟩ : Val) = _
    rw [Ty.conv_of_has hT hnT]
  have e2 : P.div ⟨P.promote T, x - f⟩ ⟨T, (N : Int)⟩ = some ⟨P.promote T, (x - f).tdiv N⟩ := by
    rw [Platform.div_eq hU (Platform.promote_promote T) rfl hd (Platform.has_promote hnT) (by show (N : Int) ≠ 0; omega),
      Platform.result_has hU (tdiv_has hn1 hd)]
  have e3 : P.add ⟨T, m⟩ ⟨P.promote T, (x - f).tdiv N⟩ = some ⟨P.promote T, m + (x - f).tdiv N⟩ := by
    rw [Platform.add_eq hU rfl (Platform.promote_promote T) (Platform.has_promote hm) (tdiv_has hn1 hd),
      Platform.result_has hU (Platform.has_promote hr)]
  have hl : (f :: t).length = N := by simpa using hN
  unfold WMean.push
  simp only [hl, if_true, List.head?_cons, ec, e1, e2, e3, Option.bind_eq_bind, Option.bind_some, Ty.conv_of_has hT hr, List.tail_cons]
  rfl

/-- A window that is not full behaves like the cumulative mean. -/
theorem wmean_grow (hP : P.intBits ≤ P.sizeBits) (hw1 : 1 ≤ P.sizeBits) {N : Nat} {l : List Int} {m x : Int}
    (hN : l.length ≠ N) (hw : l.length + 1 < 2 ^ P.sizeBits) :
    WMean.push P T N ⟨l, m⟩ x = (Mean.push P T ⟨m, l.length⟩ x).map fun s => ⟨l ++ [x], s.mean⟩ := by
  have ec : P.size.conv ((l.length : Int) + 1) = ((l.length + 1 : Nat) : Int) := by rw [size_conv_succ hw]; push_cast; rfl
  unfold WMean.push Mean.push
  simp only [if_neg hN, add_count hP hw1 hw, ec, Option.bind_eq_bind, Option.bind_some]
  cases P.sub ⟨T, x⟩ ⟨T, m⟩ with
  | none => rfl
  | some d =>
    simp only [Option.bind_some]
    cases P.div d (cast T (P.sz ((l.length + 1 : Nat) : Int))) with
    | none => rfl
    | some q =>
      simp only [Option.bind_some]
      cases P.add ⟨T, m⟩ q <;> rfl

/-- C133: up to `N` values the window mean is the cumulative mean (also in being undefined), for every integer type. -/
theorem C133_not_overfilled (hP : P.intBits ≤ P.sizeBits) (hw1 : 1 ≤ P.sizeBits) {N : Nat} (xs : List Int) (hN : xs.length ≤ N)
    (hw : xs.length < 2 ^ P.sizeBits) :
    WMean.run P T N xs = (Mean.run P T xs).map fun s => ⟨xs, s.mean⟩ := by
  have hcount : ∀ (l : List Int) (s : Mean), l.length < 2 ^ P.sizeBits → Mean.run P T l = some s → s.count = l.length := by
    intro l
    induction l using List.reverseRecOn with
    | nil => intro s _ h; cases h; rfl
    | append_singleton l x ih =>
      intro s hl h
      have hl1 : l.length + 1 < 2 ^ P.sizeBits := by simpa using hl
      unfold Mean.run at h ih
      rw [List.foldlM_append] at h
      cases hr : List.foldlM (Mean.push P T) Mean.init l with
      | none => rw [hr] at h; cases h
      | some t =>
        rw [hr] at h
        have hc := ih t (by omega) hr
        simp only [Option.bind_eq_bind, Option.bind_some, List.foldlM_cons, List.foldlM_nil] at h
        unfold Mean.push at h
        simp only [Option.bind_eq_bind, Option.bind_eq_some_iff] at h
        obtain ⟨s', ⟨d, -, q, -, m, -, h4⟩, h5⟩ := h
        cases h5
        cases h4
        show P.size.conv (t.count + 1) = _
        rw [hc, size_conv_succ hl1]
        simp
  induction xs using List.reverseRecOn with
  | nil => rfl
  | append_singleton xs x ih =>
    have hl : (xs ++ [x]).length = xs.length + 1 := by simp
    rw [hl] at hN hw
    have ih := ih (by omega) (by omega)
    cases hr : Mean.run P T xs with
    | none =>
      rw [hr] at ih
      unfold Mean.run at hr ⊢
      unfold WMean.run at ih ⊢
      rw [List.foldlM_append, List.foldlM_append, ih, hr]
      rfl
    | some s =>
      rw [hr] at ih
      rw [wmean_run_snoc ih, Mean.run_snoc hr, wmean_grow hP hw1 (by omega) hw, ← hcount xs s (by omega) hr]

/-- C133: a window of one value holds that value. -/
theorem C133_one_partial (hT : 2 ≤ T.bits) (hP : P.intBits ≤ P.sizeBits) (hw : 2 ≤ P.sizeBits) (xs : List Int)
    (hx : ∀ x ∈ xs, T.Has x) (hd : ∀ x ∈ xs, ∀ y ∈ xs, (P.promote T).Has (x - y)) :
    ∃ s, WMean.run P T 1 xs = some s ∧ s.window = Spec.lastN 1 xs ∧ s.mean = xs.getLast?.getD 0 := by
  have h1 : (1 : Int) < T.hi := by
    unfold Ty.hi
    split
    · exact one_lt_pow₀ (by norm_num) (by omega)
    · exact one_lt_pow₀ (by norm_num) (by omega)
  have h2 : 1 < 2 ^ P.sizeBits := one_lt_pow₀ (by norm_num) (by omega)
  induction xs using List.reverseRecOn with
  | nil => exact ⟨_, rfl, rfl, rfl⟩
  | append_singleton xs x ih =>
    have hxx := hx x (by simp)
    rcases eq_or_ne xs [] with rfl | hne
    · have := Mean.push_exact (P := P) (T := T) (by omega) (m := 0) (x := x) (n := 0) T.has_zero hxx (by simpa using h1)
        (by simpa using h2) (by rw [sub_zero]; exact Platform.has_promote hxx)
      refine ⟨⟨[x], x⟩, ?_, rfl, rfl⟩
      rw [C133_not_overfilled hP (by omega) _ (by simp) (by simpa using h2), Mean.run_snoc (s := ⟨0, (0 : Nat)⟩) rfl, this]
      simp
    · obtain ⟨s, e1, e2, e3⟩ := ih (fun y hy => hx y (by simp [hy])) (fun y hy z hz => hd y (by simp [hy]) z (by simp [hz]))
      obtain ⟨f, hf⟩ : ∃ f, xs.getLast? = some f := ⟨_, List.getLast?_eq_some_getLast hne⟩
      have hfm : f ∈ xs := List.mem_of_getLast? hf
      have hw1 : s.window = [f] := by
        rw [e2]
        obtain ⟨ys, rfl⟩ := List.getLast?_eq_some_iff.1 hf
        simp [Spec.lastN]
      have hm : s.mean = f := by rw [e3, hf]; rfl
      have es : s = ⟨[f], f⟩ := by cases s; simp_all
      rw [es] at e1
      refine ⟨⟨[x], x⟩, ?_, ?_, ?_⟩
      · rw [wmean_run_snoc e1, wmean_slide (N := 1) (t := []) (by omega) rfl (by exact_mod_cast h1) (hx f (by simp [hfm])) hxx (hx f (by simp [hfm]))
          (hd x (by simp) f (by simp [hfm])) (by simpa using hxx)]
        simp
      · simp [Spec.lastN]
      · simp

/-- C133: ascending data, in every integer type whose differences fit: the mean lies between the first value of all
and the last, and `n` times the mean is at most the sum of the window.  Missing for the claim: the mean can lie below
the window (`C133_slow_ramp`). -/
theorem C133_ascending_partial (hT : 1 ≤ T.bits) (hP : P.intBits ≤ P.sizeBits) {N : Nat} (hN : 1 ≤ N)
    (hNT : (N : Int) < T.hi) (hw : N < 2 ^ P.sizeBits) (xs : List Int) (hne : xs ≠ []) (hx : ∀ x ∈ xs, T.Has x)
    (ha : xs.Pairwise (· ≤ ·)) (hd : ∀ x ∈ xs, ∀ y ∈ xs, x ≤ y → (P.promote T).Has (y - x)) :
    ∃ s, WMean.run P T N xs = some s ∧ s.window = Spec.lastN N xs ∧ (∀ x ∈ xs.head?, x ≤ s.mean)
      ∧ (∀ x ∈ xs.getLast?, s.mean ≤ x) ∧ (s.window.length : Int) * s.mean ≤ s.window.sum := by
  have hw1 : 1 ≤ P.sizeBits := by
    by_contra hc
    have : 2 ^ P.sizeBits ≤ 2 ^ 0 := Nat.pow_le_pow_right (by norm_num) (by omega)
    omega
  induction xs using List.reverseRecOn with
  | nil => exact absurd rfl hne
  | append_singleton xs x ih =>
    have hxx := hx x (by simp)
    rcases eq_or_ne xs [] with rfl | hne'
    · have := Mean.push_exact (P := P) (T := T) hT (m := 0) (x := x) (n := 0) T.has_zero hxx
        (by simp only [zero_add, Nat.cast_one]; omega) (by omega) (by rw [sub_zero]; exact Platform.has_promote hxx)
      refine ⟨⟨[x], x⟩, ?_, ?_, ?_, ?_, ?_⟩
      · rw [C133_not_overfilled hP hw1 _ (by simpa using hN) (by simp; omega), Mean.run_snoc (s := ⟨0, (0 : Nat)⟩) rfl, this]
        simp
      · rw [Spec.lastN]; simp [Nat.sub_eq_zero_of_le hN]
      · simp
      · simp
      · simp
    · rw [List.pairwise_append] at ha
      obtain ⟨s, h1, h2, h3, h4, h5⟩ := ih hne' (fun y hy => hx y (by simp [hy])) ha.1
        (fun y hy z hz => hd y (by simp [hy]) z (by simp [hz]))
      obtain ⟨l, m⟩ := s
      simp only at h2 h3 h4 h5
      have hlast := h4 _ (List.getLast?_eq_some_getLast hne')
      have hmx : m ≤ x := hlast.trans (ha.2.2 _ (List.getLast_mem hne') x (by simp))
      have hhead := h3 _ (List.head?_eq_some_head hne')
      have hm0 := hx _ (List.mem_append_left [x] (List.head_mem hne'))
      have hmT : T.Has m := hm0.between hxx hhead hmx
      have hheadx : xs.head hne' ≤ x := ha.2.2 _ (List.head_mem hne') x (by simp)
      have hdx := hd (xs.head hne') (by simp) x (by simp) hheadx
      have hll : l.length = min N xs.length := by rw [h2, Spec.length_lastN]
      have hpos : 1 ≤ xs.length := List.length_pos_iff.2 hne'
      by_cases hf : l.length = N
      · -- the window is full
        obtain ⟨f, t, rfl⟩ : ∃ f t, l = f :: t := by
          cases l with
          | nil => simp at hf; omega
          | cons f t => exact ⟨f, t, rfl⟩
        have hfx : f ∈ xs := by
          have : f ∈ Spec.lastN N xs := by rw [← h2]; simp
          exact List.mem_of_mem_drop this
        have hfle : f ≤ x := ha.2.2 f hfx x (by simp)
        have hq0 : 0 ≤ (x - f).tdiv N := Int.tdiv_nonneg (by omega) (by omega)
        have hq1 : N * (x - f).tdiv N ≤ x - f := by
          rw [Int.tdiv_eq_ediv_of_nonneg (by omega)]; exact Int.mul_ediv_self_le (by omega)
        have hsum : (N : Int) * (m + (x - f).tdiv N) ≤ (t ++ [x]).sum := by
          rw [hf] at h5
          simp only [List.sum_cons] at h5
          rw [List.sum_append, List.sum_singleton, mul_add]
          linarith
        have hle : m + (x - f).tdiv N ≤ x := by
          have hb : ∀ u : List Int, (∀ y ∈ u, y ≤ x) → u.sum ≤ u.length * x := by
            intro u
            induction u with
            | nil => intro _; simp
            | cons y u ih =>
              intro hu
              have := ih (fun z hz => hu z (by simp [hz]))
              have := hu y (by simp)
              rw [List.sum_cons, List.length_cons]
              push_cast; linarith
          have h6 := hb (t ++ [x]) (by
            intro y hy
            rcases List.mem_append.1 hy with hy | hy
            · have : y ∈ Spec.lastN N xs := by rw [← h2]; simp [hy]
              exact ha.2.2 y (List.mem_of_mem_drop this) x (by simp)
            · simp at hy; omega)
          have hl' : ((t ++ [x]).length : Int) = N := by rw [← hf]; simp
          rw [hl'] at h6
          exact le_of_mul_le_mul_left (hsum.trans h6) (by omega)
        refine ⟨⟨t ++ [x], m + (x - f).tdiv N⟩, ?_, ?_, ?_, ?_, ?_⟩
        · rw [wmean_run_snoc h1, wmean_slide hT (by simpa using hf) hNT hmT hxx (hx f (by simp [hfx]))
            (hd f (by simp [hfx]) x (by simp) hfle) (hmT.between hxx (by omega) hle)]
        · have : Spec.lastN N (xs ++ [x]) = (Spec.lastN N xs).tail ++ [x] := by
            have hlen : N ≤ xs.length := by omega
            unfold Spec.lastN
            rw [List.length_append, List.length_singleton, List.tail_drop,
              show xs.length + 1 - N = xs.length - N + 1 by omega, List.drop_append_of_le_length (by omega)]
          rw [this, ← h2]; rfl
        · intro y hy
          rw [List.head?_append_of_ne_nil _ hne'] at hy
          exact (h3 y hy).trans (by simpa using hq0)
        · intro y hy
          simp only [List.getLast?_append, List.getLast?_singleton, Option.some_or, Option.mem_def, Option.some.injEq] at hy
          rw [← hy]; exact hle
        · have hl' : ((t ++ [x]).length : Int) = N := by rw [← hf]; simp
          simp only [hl']
          exact hsum
      · -- the window grows
        have hlt : l.length < N := by omega
        have hlx : l = xs := by
          rw [h2, Spec.lastN, Nat.sub_eq_zero_of_le (by omega), List.drop_zero]
        subst hlx
        have hdd : (P.promote T).Has (x - m) := by
          refine ⟨(Ty.lo_le_zero _).trans (by omega), ?_⟩
          have := hdx.2
          omega
        have ht := (Verif.Integer.tdiv_between (m := m) (x := x) (n := ((l.length + 1 : Nat) : Int)) (by omega)).1 hmx
        have hq1 : ((l.length + 1 : Nat) : Int) * (x - m).tdiv (l.length + 1 : Nat) ≤ x - m := by
          rw [Int.tdiv_eq_ediv_of_nonneg (by omega)]; exact Int.mul_ediv_self_le (by omega)
        refine ⟨⟨l ++ [x], m + (x - m).tdiv (l.length + 1 : Nat)⟩, ?_, ?_, ?_, ?_, ?_⟩
        · rw [wmean_run_snoc h1, wmean_grow hP hw1 (by omega) (by omega),
            Mean.push_exact hT hmT hxx (by push_cast; omega) (by omega) hdd]
          rfl
        · rw [Spec.lastN, Nat.sub_eq_zero_of_le (by simp; omega), List.drop_zero]
        · intro y hy
          rw [List.head?_append_of_ne_nil _ hne'] at hy
          exact (h3 y hy).trans ht.1
        · intro y hy
          simp only [List.getLast?_append, List.getLast?_singleton, Option.some_or, Option.mem_def, Option.some.injEq] at hy
          rw [← hy]; exact ht.2
        · simp only [List.length_append, List.length_singleton, List.sum_append, List.sum_singleton]
          rw [mul_add]
          push_cast at hq1 ⊢
          linarith

/-- The values 0, 0, 1, 1, 2, 2, ... of a slow ramp: the differences across the window are smaller than its size and are
truncated to 0, so the mean stays 0 for ever while the window moves away, in every integer type. -/
theorem C133_slow_ramp (hT : 1 ≤ T.bits) (hP : P.intBits ≤ P.sizeBits) {N : Nat} (hN : 2 ≤ N) (hNT : (N : Int) < T.hi)
    (hw : N < 2 ^ P.sizeBits) (n : Nat) (hn : (n : Int) < 2 * T.hi) :
    WMean.run P T N ((List.range n).map fun k : Nat => ((k / 2 : Nat) : Int))
      = some ⟨Spec.lastN N ((List.range n).map fun k : Nat => ((k / 2 : Nat) : Int)), 0⟩ := by
  have hw1 : 1 ≤ P.sizeBits := by
    by_contra hc
    have : 2 ^ P.sizeBits ≤ 2 ^ 0 := Nat.pow_le_pow_right (by norm_num) (by omega)
    omega
  have hhas : ∀ k : Nat, (k : Int) < T.hi → T.Has (k : Int) := fun k hk => ⟨T.lo_le_zero.trans (by omega), hk⟩
  induction n with
  | zero => simp [WMean.run, WMean.init, Spec.lastN]
  | succ n ih =>
    have ih := ih (by push_cast at hn; omega)
    have hx : T.Has ((n / 2 : Nat) : Int) := hhas _ (by push_cast at hn ⊢; omega)
    rw [List.range_succ, List.map_append, List.map_singleton, wmean_run_snoc ih]
    generalize hl : (List.range n).map (fun k : Nat => ((k / 2 : Nat) : Int)) = l at ih ⊢
    have hll : l.length = n := by rw [← hl]; simp
    by_cases hf : N ≤ n
    · have hget : n - N < l.length := by omega
      have e0 : Spec.lastN N l = l[n - N] :: l.drop (n - N + 1) := by
        rw [Spec.lastN, hll, List.drop_eq_getElem_cons hget]
      have e1 : l[n - N] = (((n - N) / 2 : Nat) : Int) := by
        subst hl; simp
      have hq : (((n / 2 : Nat) : Int) - (((n - N) / 2 : Nat) : Int)).tdiv N = 0 :=
        Int.tdiv_eq_zero_of_lt (by omega) (by omega)
      have hfT : T.Has (((n - N) / 2 : Nat) : Int) := T.has_zero.between hx (by omega) (by omega)
      rw [e0, e1, wmean_slide hT (by simp [hll]; omega) hNT T.has_zero hx hfT
        (Platform.has_promote (T.has_zero.between hx (by omega) (by omega))) (by rw [hq]; exact T.has_zero), hq, add_zero]
      congr 2
      rw [Spec.lastN, List.length_append, List.length_singleton, hll, List.drop_append_of_le_length (by omega)]
      congr 2; omega
    · have e0 : Spec.lastN N l = l := by rw [Spec.lastN, Nat.sub_eq_zero_of_le (by omega), List.drop_zero]
      have e1 : Spec.lastN N (l ++ [((n / 2 : Nat) : Int)]) = l ++ [((n / 2 : Nat) : Int)] := by
        rw [Spec.lastN, Nat.sub_eq_zero_of_le (by simp; omega), List.drop_zero]
      have hq : (((n / 2 : Nat) : Int) - 0).tdiv (n + 1 : Nat) = 0 := Int.tdiv_eq_zero_of_lt (by omega) (by push_cast; omega)
      rw [e0, e1, wmean_grow hP hw1 (by omega) (by omega), hll,
        Mean.push_exact hT T.has_zero hx (by push_cast; omega) (by omega) (by rw [sub_zero]; exact Platform.has_promote hx), hq]
      rfl

/-- C133 is violated in every integer type of at least three bits: the mean of the window 1, 1 is 0 after 0, 0, 1, 1. -/
theorem C133_violated (hT : 3 ≤ T.bits) (hP : P.intBits ≤ P.sizeBits) (hw : 2 ≤ P.sizeBits) : ¬ IntWindowWithin P T := by
  intro h
  have h2 : (2 : Int) < T.hi := by
    unfold Ty.hi
    split
    · exact lt_of_lt_of_le (by norm_num) (pow_le_pow_right₀ (by norm_num : (1 : Int) ≤ 2) (by omega : 2 ≤ T.bits - 1))
    · exact lt_of_lt_of_le (by norm_num) (pow_le_pow_right₀ (by norm_num : (1 : Int) ≤ 2) (by omega : 2 ≤ T.bits))
  have h2w : 2 < 2 ^ P.sizeBits := lt_of_lt_of_le (by norm_num) (Nat.pow_le_pow_right (by norm_num) hw)
  have e := C133_slow_ramp (P := P) (T := T) (by omega) hP (N := 2) le_rfl h2 h2w 4 (by push_cast; omega)
  have hd : (List.range 4).map (fun k : Nat => ((k / 2 : Nat) : Int)) = [0, 0, 1, 1] := by decide
  rw [hd] at e
  obtain ⟨s, h1, h3, -⟩ := h 2 [0, 0, 1, 1] 1 1 (by norm_num) h2 h2w (by simp)
    (fun x hx => T.has_zero.between (b := 2) ⟨T.lo_le_zero.trans (by norm_num), h2⟩ (by simp at hx; omega) (by simp at hx; omega))
    (by decide)
  rw [e] at h1
  cases h1
  exact absurd h3 (by norm_num)

/-- Unsigned: after 2, 2, 0 the mean of the window 2, 0 is 2147483649. -/
theorem C133_unsigned : WMean.run lp64 uint32 2 [2, 2, 0] = some ⟨[2, 0], 2147483649⟩ := by decide

example : WMean.run lp64 int32 3 [0, 0, 1, 1, 2, 2, 3, 3, 4, 4] = some ⟨[3, 4, 4], 0⟩ :=
  C133_slow_ramp (P := lp64) (T := int32) (by decide) (by decide) (N := 3) (by decide) (by decide) (by decide) 10 (by decide)

example : ∃ s, WMean.run lp64 uint32 3 [1, 5, 9, 20, 30] = some s ∧ s.window = [9, 20, 30] ∧ (∀ x ∈ [1, 5, 9, 20, 30].head?, x ≤ s.mean)
    ∧ (∀ x ∈ [1, 5, 9, 20, 30].getLast?, s.mean ≤ x) ∧ (s.window.length : Int) * s.mean ≤ s.window.sum :=
  C133_ascending_partial (by decide) (by decide) (by decide) (by decide) (by decide) _ (by decide) (by decide) (by decide) (by decide)

example : WMean.run lp64 uint32 3 [1, 5, 9, 20, 30] = some ⟨[9, 20, 30], 19⟩ := by decide

example : ∃ s, WMean.run lp64 uint8 1 [200, 3, 90] = some s ∧ s.window = [90] ∧ s.mean = 90 :=
  C133_one_partial (by decide) (by decide) (by decide) _ (by decide) (by decide)

example : WMean.run lp64 int32 5 [4, -9, 6] = (Mean.run lp64 int32 [4, -9, 6]).map fun s => ⟨[4, -9, 6], s.mean⟩ :=
  C133_not_overfilled (by decide) (by decide) _ (by decide) (by decide)

end Verif.Props
