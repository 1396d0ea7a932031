import Verif.Proofs.CircularSpan
import Mathlib.Tactic.FinCases
/-
C92: the constructor over an array that already holds elements.
C55: circular_span and a bounded double-ended queue (`Spec.dequeStep`, `Spec.dequeRun`).
-/
namespace Verif.Props
open Verif.CircularSpan

variable {w : Nat} {β : Type}

/-- The observers of a span agree with a queue. -/
def SpanShows (s : Span w β) (q : List β) : Prop :=
  s.size.toNat = q.length ∧ (s.empty = true ↔ q = []) ∧ s.front = q.head? ∧ s.back = q.getLast?
    ∧ s.contents = some q

theorem shows_of_rep {cap : Nat} (hc : 1 ≤ cap) (hw : 2 * cap < 2 ^ w) {s : Span w β} {q : List β}
    (h : Rep cap s q) : SpanShows s q :=
  ⟨h.size_eq, empty_iff hc hw h, front_eq hc hw h, back_eq hc hw h, contents_eq hc hw h⟩

/-- C55 as stated is false: with capacity 3, push_front overwrites the element that is in the span, and
front() shows an element that was never pushed. -/
theorem C55_violated :
    ¬ ∀ (w : Nat) (storage : List Nat) (ops : List (SpanOp Nat)) (q : List Nat),
      1 ≤ storage.length → 2 * storage.length < 2 ^ w → Spec.dequeRun storage.length ops = some q →
        ∃ s : Span w Nat, Span.run storage ops = some s ∧ SpanShows s q := by
  intro h
  obtain ⟨s, hs, -, -, hf, -⟩ := h 64 [7, 8, 9] [.pushBack 1, .pushFront 0]
    [0, 1] (by decide) (by decide) rfl
  have e : ((Span.run [7, 8, 9] [.pushBack 1, .pushFront 0]
      : Option (Span 64 Nat)).bind Span.front) = s.front := by rw [hs]; rfl
  rw [hf] at e
  revert e
  decide

/-- The witness: the queue holds 0, 1; the span shows 9, 0 (9 is the initial content of the array). -/
example : (Span.run [7, 8, 9] [.pushBack 1, .pushFront 0]
    : Option (Span 64 Nat)).map (fun s => (s.size, s.front, s.back, s.contents))
    = some (2, some 9, some 0, some [9, 0]) := by decide

/-- C55: iteration after a single push_front to a new span is wrong for every capacity of which the double
does not divide 2^w - that is every capacity that is not a power of two. -/
theorem C55_every_other_capacity (storage : List β) (x : β) (hc : 1 ≤ storage.length)
    (hw : 2 * storage.length < 2 ^ w) (hd : ¬ 2 * storage.length ∣ 2 ^ w) :
    Spec.dequeRun storage.length [.pushFront x] = some [x]
      ∧ ∀ s : Span w β, Span.run storage [.pushFront x] = some s → s.contents ≠ some [x] := by
  refine ⟨?_, ?_⟩
  · simp only [Spec.dequeRun, List.foldlM_cons, List.foldlM_nil, Spec.dequeStep, List.length_nil]
    rw [if_neg (show ¬ 0 = storage.length by omega)]; rfl
  intro s hs hcont
  have hs' : (Span.init storage : Span w β).pushFront x = some s := by
    have : Span.run storage [.pushFront x] = (Span.init storage : Span w β).pushFront x := by
      unfold Span.run
      simp only [List.foldlM_cons, List.foldlM_nil, Span.step]
      cases (Span.init storage : Span w β).pushFront x <;> rfl
    rw [← this]; exact hs
  have hcap : (Span.init storage : Span w β).capacity = BitVec.ofNat w storage.length := rfl
  have hfull : ¬ (Span.init storage : Span w β).full = true := by
    rw [Span.full, beq_iff_eq]
    intro e
    have := congrArg BitVec.toNat e
    rw [hcap, toNat_ofNat_lt (by omega)] at this
    simp [Span.init] at this
    omega
  -- the members after push_front
  have hm : s.next = 0 ∧ s.size = 1 ∧ s.capacity = BitVec.ofNat w storage.length := by
    unfold Span.pushFront at hs'
    rw [if_neg hfull] at hs'
    simp only [Option.bind_eq_bind, Option.bind_some] at hs'
    obtain ⟨i, -, hs'⟩ := Option.bind_eq_some_iff.1 hs'
    rw [write_eq hc hw (s := { (Span.init storage : Span w β) with size := (Span.init storage : Span w β).size + 1 })
      hcap rfl] at hs'
    obtain rfl := Option.some.inj hs'
    exact ⟨rfl, by simp [Span.init], rfl⟩
  obtain ⟨hn, hsz, hcap'⟩ := hm
  obtain ⟨b, hb, hbn⟩ := vindex_eq hc hw hcap' (s.next - s.size)
  obtain ⟨e, he, hen⟩ := vindex_eq hc hw hcap' s.next
  unfold Span.contents Span.begin' Span.end' at hcont
  rw [hb, he] at hcont
  simp only [Option.bind_eq_bind, Option.bind_some] at hcont
  rw [two_cap hc hw hcap'] at hcont
  obtain ⟨f, hf⟩ : ∃ f, 2 * storage.length = f + 1 + 1 := ⟨2 * storage.length - 2, by omega⟩
  rw [hf] at hcont
  unfold Span.iterate at hcont
  split_ifs at hcont with h1
  · simp at hcont
  simp only [Option.bind_eq_bind] at hcont
  obtain ⟨y, -, hcont⟩ := Option.bind_eq_some_iff.1 hcont
  obtain ⟨nx, hnx, hcont⟩ := Option.bind_eq_some_iff.1 hcont
  obtain ⟨rest, hrest, hcont⟩ := Option.bind_eq_some_iff.1 hcont
  have hnil : rest = [] := by
    have := Option.some.inj hcont
    exact (List.cons.inj this).2
  rw [hnil] at hrest
  -- so the second iterator value is end()
  have hstop : nx = e := by
    by_contra hne
    unfold Span.iterate at hrest
    rw [if_neg hne] at hrest
    simp only [Option.bind_eq_bind] at hrest
    obtain ⟨y, -, hrest⟩ := Option.bind_eq_some_iff.1 hrest
    obtain ⟨_, _, hrest⟩ := Option.bind_eq_some_iff.1 hrest
    obtain ⟨_, _, hrest⟩ := Option.bind_eq_some_iff.1 hrest
    simp at hrest
  apply hd
  have h1w : 1 < 2 ^ w := by omega
  have hmax : (s.next - s.size).toNat = 2 ^ w - 1 := by
    have h0 : (0 : SizeT w).toNat = 0 := by simp
    rw [hn, hsz, BitVec.toNat_sub, one_toNat hc hw, h0, Nat.add_zero]
    exact Nat.mod_eq_of_lt (by omega)
  rw [hmax] at hbn
  obtain ⟨nx', hnx', hnxn⟩ := vindex_eq hc hw hcap' (b + 1)
  obtain rfl : nx' = nx := Option.some.inj (hnx'.symm.trans hnx)
  have hblt : b.toNat < 2 * storage.length := by rw [hbn]; exact Nat.mod_lt _ (by omega)
  have hb1 : (b + 1).toNat = b.toNat + 1 := by
    rw [BitVec.toNat_add, one_toNat hc hw, Nat.mod_eq_of_lt (by omega)]
  rw [hb1, hbn, Nat.mod_add_mod, show 2 ^ w - 1 + 1 = 2 ^ w by omega, hstop, hen, hn] at hnxn
  apply Nat.dvd_of_mod_eq_zero
  simpa using hnxn.symm

example : Spec.dequeRun 3 [SpanOp.pushFront 5] = some [5]
    ∧ ∀ s : Span 64 Nat, Span.run [7, 8, 9] [.pushFront 5] = some s → s.contents ≠ some [5] :=
  C55_every_other_capacity (w := 64) [7, 8, 9] 5 (by decide) (by decide) (by decide)
/-- Iteration visits three elements of a span of size one. -/
example : (Span.run [7, 8, 9] [.pushFront 5] : Option (Span 64 Nat)).map (fun s => (s.size, s.contents))
    = some (1, some [5, 8, 9]) := by decide

/-- C55 for capacities whose double divides 2^w (powers of two, 2^k with k + 1 < w): after every sequence
of calls allowed by the preconditions the span shows the queue; a call that is not allowed in the queue
(pop of an empty one) is not allowed in the span either.
Missing for the full statement: the other capacities, see `C55_violated` and `C55_every_other_capacity`. -/
theorem C55_deque_partial {k : Nat} (hk : k + 1 < w) (storage : List β) (hs : storage.length = 2 ^ k)
    (ops : List (SpanOp β)) :
    (∀ q, Spec.dequeRun (2 ^ k) ops = some q → ∃ s : Span w β, Span.run storage ops = some s ∧ SpanShows s q)
      ∧ (Spec.dequeRun (2 ^ k) ops = none → (Span.run storage ops : Option (Span w β)) = none) := by
  have hc : 1 ≤ 2 ^ k := Nat.one_le_two_pow
  have e : 2 * 2 ^ k = 2 ^ (k + 1) := by rw [pow_succ]; ring
  have hw : 2 * 2 ^ k < 2 ^ w := by rw [e]; exact Nat.pow_lt_pow_right (by omega) hk
  have hd : 2 * 2 ^ k ∣ 2 ^ w := by rw [e]; exact pow_dvd_pow 2 hk.le
  have h := run_rep hc hw hs ops (Or.inl hd)
  refine ⟨fun q hq => ?_, h.2⟩
  obtain ⟨s, h1, h2⟩ := h.1 q hq
  exact ⟨s, h1, shows_of_rep hc hw h2⟩

/-- Wrap-around at both ends of a span of four. -/
example : Spec.dequeRun 4 [.pushFront 1, .pushFront 2, .pushBack 3, .pushFront 4, .pushFront 5, .popBack]
    = some [5, 4, 2] := by decide
example : ∃ s : Span 64 Nat, Span.run [0, 0, 0, 0]
      [.pushFront 1, .pushFront 2, .pushBack 3, .pushFront 4, .pushFront 5, .popBack] = some s
    ∧ SpanShows s [5, 4, 2] :=
  (C55_deque_partial (w := 64) (k := 2) (by decide) [0, 0, 0, 0] rfl _).1 _ (by decide)

/-- C55 for every capacity, for histories without push_front.
Missing for the full statement: push_front, see `C55_violated`. -/
theorem C55_queue_partial (storage : List β) (hc : 1 ≤ storage.length) (hw : 2 * storage.length < 2 ^ w)
    (ops : List (SpanOp β)) (hop : ∀ op ∈ ops, ∀ x, op ≠ .pushFront x) :
    (∀ q, Spec.dequeRun storage.length ops = some q →
        ∃ s : Span w β, Span.run storage ops = some s ∧ SpanShows s q)
      ∧ (Spec.dequeRun storage.length ops = none → (Span.run storage ops : Option (Span w β)) = none) := by
  have h := run_rep hc hw rfl ops (Or.inr hop)
  refine ⟨fun q hq => ?_, h.2⟩
  obtain ⟨s, h1, h2⟩ := h.1 q hq
  exact ⟨s, h1, shows_of_rep hc hw h2⟩

example : Spec.dequeRun 3 [SpanOp.pushBack 1, .pushBack 2, .pushBack 3, .pushBack 4, .popFront]
    = some [3, 4] := by decide
example : ∃ s : Span 64 Nat, Span.run [0, 0, 0]
      [.pushBack 1, .pushBack 2, .pushBack 3, .pushBack 4, .popFront] = some s ∧ SpanShows s [3, 4] :=
  (C55_queue_partial (w := 64) [0, 0, 0] (by decide) (by decide) _ (by
    intro op h x; fin_cases h <;> simp)).1 _ (by decide)
/-- An empty queue cannot be popped. -/
example : (Span.run [0, 0, 0] [.pushBack 1, .popFront, .popBack] : Option (Span 64 Nat)) = none :=
  (C55_queue_partial (w := 64) [0, 0, 0] (by decide) (by decide) _ (by
    intro op h x; fin_cases h <;> simp)).2 (by decide)

/-! ### C92: a span over an array that already holds elements -/

/-- The `length` elements of an array that start at index `start`, continuing at index 0 after the last
one. -/
def cyclicSlice (storage : List β) (start length : Nat) : List β := (storage.rotate start).take length

/-- C92 as stated: the span shows the `length` elements that start at `first`. -/
def PrefilledShows (w : Nat) (β : Type) : Prop :=
  ∀ (storage : List β) (first length : Nat), 1 ≤ storage.length → 2 * storage.length < 2 ^ w →
    first < storage.length → length ≤ storage.length →
    SpanShows (Span.initAt storage first length : Span w β) (cyclicSlice storage first length)

/-- C92 is violated: of [10, 11, 12, 13], the two elements from index 2 on are 12 and 13; the span shows
the two before, 10 and 11. -/
theorem C92_violated : ¬ PrefilledShows 64 Nat := by
  intro h
  have := (h [10, 11, 12, 13] 2 2 (by decide) (by decide) (by decide) (by decide)).2.2.2.2
  revert this
  decide

example : (Span.initAt [10, 11, 12, 13] 2 2 : Span 64 Nat).contents = some [10, 11]
    ∧ cyclicSlice [10, 11, 12, 13] 2 2 = [12, 13] := by decide

theorem rep_initAt {storage : List β} {first length : Nat} (hc : 1 ≤ storage.length)
    (hw : 2 * storage.length < 2 ^ w) (hf : first ≤ storage.length) (hl : length ≤ storage.length)
    (hd : 2 * storage.length ∣ 2 ^ w ∨ length ≤ first) :
    Rep storage.length (Span.initAt storage first length : Span w β)
      (cyclicSlice storage (first + (storage.length - length)) length) := by
  have hlen : (cyclicSlice storage (first + (storage.length - length)) length).length = length := by
    unfold cyclicSlice
    rw [List.length_take, List.length_rotate]; omega
  have hnext : (Span.initAt storage first length : Span w β).next.toNat = first :=
    toNat_ofNat_lt (by omega)
  refine ⟨rfl, rfl, ?_, by omega, by rw [hnext]; omega, by rw [hnext, hlen]; exact hd, ?_⟩
  · rw [hlen]; exact toNat_ofNat_lt (by omega)
  intro j hj
  rw [hlen] at hj
  have hp : pos storage.length (Span.initAt storage first length : Span w β).next.toNat
        (cyclicSlice storage (first + (storage.length - length)) length).length j
      = (j + (first + (storage.length - length))) % storage.length := by
    rw [hnext, hlen]
    have e : (pos storage.length first length j : Int)
        = ((j + (first + (storage.length - length)) : Nat) : Int) % storage.length := by
      rw [pos_cast hc]
      push_cast [hl]
      rw [show (j : Int) + (first + (storage.length - length)) = (first - length + j) + storage.length by ring,
        Int.add_emod_right]
    exact_mod_cast e
  rw [hp]
  unfold cyclicSlice
  rw [List.getElem?_take_of_lt hj, List.getElem?_rotate (by omega)]
  rfl

/-- C92, what the constructor does: the span shows the `length` elements that come before `first`.  The
size is as requested.  Capacities that are powers of two, or `length <= first`; otherwise the subtraction
wraps.
Missing for the full statement: the elements that start at `first`, see `C92_violated`. -/
theorem C92_preceding_partial (storage : List β) (first length : Nat) (hc : 1 ≤ storage.length)
    (hw : 2 * storage.length < 2 ^ w) (hf : first < storage.length) (hl : length ≤ storage.length)
    (hd : 2 * storage.length ∣ 2 ^ w ∨ length ≤ first) :
    SpanShows (Span.initAt storage first length : Span w β)
      (cyclicSlice storage (first + (storage.length - length)) length) :=
  shows_of_rep hc hw (rep_initAt hc hw hf.le hl hd)

example : SpanShows (Span.initAt [10, 11, 12, 13] 1 3 : Span 64 Nat) [12, 13, 10] :=
  C92_preceding_partial (w := 64) [10, 11, 12, 13] 1 3 (by decide) (by decide) (by decide) (by decide)
    (Or.inl (by decide))

/-- C92: if the array holds different elements and the span does not fill it, then the front of the span is
never the element at `first`. -/
theorem C92_never_first (storage : List β) (hn : storage.Nodup) (first length : Nat)
    (hw : 2 * storage.length < 2 ^ w) (hf : first < storage.length) (h0 : 1 ≤ length)
    (hl : length < storage.length) (hd : 2 * storage.length ∣ 2 ^ w ∨ length ≤ first) :
    (Span.initAt storage first length : Span w β).front ≠ storage[first]? := by
  have hc : 1 ≤ storage.length := by omega
  have h := (C92_preceding_partial storage first length hc hw hf hl.le hd).2.2.1
  rw [h, List.head?_eq_getElem?]
  unfold cyclicSlice
  rw [List.getElem?_take_of_lt (by omega), List.getElem?_rotate (by omega), Nat.zero_add]
  intro e
  have hlt : (first + (storage.length - length)) % storage.length < storage.length := Nat.mod_lt _ (by omega)
  have := (List.getElem?_inj hlt hn).1 e
  rcases Nat.lt_or_ge (first + (storage.length - length)) storage.length with hh | hh
  · rw [Nat.mod_eq_of_lt hh] at this; omega
  · rw [Nat.mod_eq_sub_mod hh, Nat.mod_eq_of_lt (by omega)] at this; omega

example : (Span.initAt [10, 11, 12, 13] 2 2 : Span 64 Nat).front ≠ some 12 :=
  C92_never_first (w := 64) [10, 11, 12, 13] (by decide) 2 2 (by decide) (by decide) (by decide) (by decide)
    (Or.inl (by decide))

/-- C92 holds for a span that fills an array whose length is a power of two. -/
theorem C92_full_partial {k : Nat} (hk : k + 1 < w) (storage : List β) (hs : storage.length = 2 ^ k)
    (first : Nat) (hf : first < storage.length) :
    SpanShows (Span.initAt storage first storage.length : Span w β)
      (cyclicSlice storage first storage.length) := by
  have e : 2 * 2 ^ k = 2 ^ (k + 1) := by rw [pow_succ]; ring
  have h := C92_preceding_partial (w := w) storage first storage.length (by rw [hs]; exact Nat.one_le_two_pow)
    (by rw [hs, e]; exact Nat.pow_lt_pow_right (by omega) hk) hf le_rfl
    (Or.inl (by rw [hs, e]; exact pow_dvd_pow 2 hk.le))
  simpa using h

example : SpanShows (Span.initAt [10, 11, 12, 13] 2 4 : Span 64 Nat) [12, 13, 10, 11] :=
  C92_full_partial (w := 64) (k := 2) (by decide) [10, 11, 12, 13] rfl 2 (by decide)
/-- With an array of three the subtraction wraps: iteration over a span of size three visits five. -/
example : (Span.initAt [11, 12, 13] 1 3 : Span 64 Nat).contents = some [13, 11, 12, 13, 11] := by decide

/-- C92: the calls on a span that was constructed over elements act on these elements as on a queue
(capacities that are powers of two). -/
theorem C92_calls {k : Nat} (hk : k + 1 < w) (storage : List β) (hs : storage.length = 2 ^ k)
    (first length : Nat) (hf : first < storage.length) (hl : length ≤ storage.length)
    (ops : List (SpanOp β)) (q : List β)
    (hq : ops.foldlM (Spec.dequeStep (2 ^ k)) (cyclicSlice storage (first + (storage.length - length)) length)
      = some q) :
    ∃ s : Span w β, ops.foldlM Span.step (Span.initAt storage first length) = some s ∧ SpanShows s q := by
  have e : 2 * 2 ^ k = 2 ^ (k + 1) := by rw [pow_succ]; ring
  have hc : 1 ≤ 2 ^ k := Nat.one_le_two_pow
  have hw : 2 * 2 ^ k < 2 ^ w := by rw [e]; exact Nat.pow_lt_pow_right (by omega) hk
  have hd : 2 * 2 ^ k ∣ 2 ^ w := by rw [e]; exact pow_dvd_pow 2 hk.le
  have h0 := rep_initAt (w := w) (by rw [hs]; exact hc) (by rw [hs]; exact hw) hf.le hl
    (Or.inl (by rw [hs]; exact hd))
  have key : ∀ (ops : List (SpanOp β)) (s : Span w β) (q0 q : List β), Rep (2 ^ k) s q0 →
      ops.foldlM (Spec.dequeStep (2 ^ k)) q0 = some q →
      ∃ s', ops.foldlM Span.step s = some s' ∧ Rep (2 ^ k) s' q := by
    intro ops
    induction ops with
    | nil =>
      intro s q0 q hr hq
      obtain rfl : q0 = q := by simpa using hq
      exact ⟨s, rfl, hr⟩
    | cons op ops ih =>
      intro s q0 q hr hq
      rw [List.foldlM_cons] at hq
      obtain ⟨q1, h1, h2⟩ := Option.bind_eq_some_iff.1 hq
      obtain ⟨s1, hs1, hr1⟩ := (step_rep hc hw hr op (Or.inl hd)).1 q1 h1
      obtain ⟨s', hs', hr'⟩ := ih s1 q1 q hr1 h2
      exact ⟨s', by rw [List.foldlM_cons, hs1]; exact hs', hr'⟩
  obtain ⟨s, h1, h2⟩ := key ops _ _ q (by rw [← hs]; exact h0) hq
  exact ⟨s, h1, shows_of_rep hc hw h2⟩

example : ∃ s : Span 64 Nat, [SpanOp.pushBack 5, .popFront].foldlM Span.step
    (Span.initAt [10, 11, 12, 13] 2 2) = some s ∧ SpanShows s [11, 5] :=
  C92_calls (w := 64) (k := 2) (by decide) [10, 11, 12, 13] rfl 2 2 (by decide) (by decide) _ _ (by decide)

end Verif.Props
