import Verif.Proofs.History
import Verif.Model.CircularSpan
import Mathlib.Data.Int.ModEq
import Mathlib.Tactic.Ring
import Mathlib.Tactic.Linarith
/-
circular_span refines a bounded double-ended queue when no index wraps modulo 2^w, or when the wrap is
harmless.
-/
namespace Verif.Spec

/-- A double-ended queue of at most `cap` elements; pushing to a full queue drops the element at the
opposite end; removing from an empty queue is not allowed. -/
def dequeStep {β : Type} (cap : Nat) (q : List β) : CircularSpan.SpanOp β → Option (List β)
  | .pushBack x => some (if q.length = cap then q.tail ++ [x] else q ++ [x])
  | .pushFront x => some (if q.length = cap then x :: q.dropLast else x :: q)
  | .popBack => if q = [] then none else some q.dropLast
  | .popFront => if q = [] then none else some q.tail
  | .clear => some []
  | .assign xs => some (xs.drop (xs.length - cap))

/-- The queue after a list of calls. -/
def dequeRun {β : Type} (cap : Nat) (ops : List (CircularSpan.SpanOp β)) : Option (List β) :=
  ops.foldlM (dequeStep cap) []

end Verif.Spec

set_option linter.unusedSectionVars false

namespace Verif.CircularSpan
variable {w : Nat} {β : Type}

/-- Wrapping subtraction is harmless modulo `m` if `m` divides `2^w` or there is no wrap. -/
theorem sub_mod {x y : SizeT w} {m : Nat} (h : m ∣ 2 ^ w ∨ y.toNat ≤ x.toNat) :
    ((x - y).toNat : Int) % m = ((x.toNat : Int) - y.toNat) % m := by
  by_cases hle : y.toNat ≤ x.toNat
  · rw [BitVec.toNat_sub_of_le (by rw [BitVec.le_def]; exact hle)]
    push_cast [hle]; rfl
  · have hd : m ∣ 2 ^ w := by
      rcases h with h | h
      · exact h
      · exact absurd h hle
    have hx := x.isLt
    have hy := y.isLt
    have e : (x - y).toNat = 2 ^ w - y.toNat + x.toNat := by
      rw [BitVec.toNat_sub, Nat.mod_eq_of_lt (by omega)]
    rw [e]
    push_cast [hy.le]
    obtain ⟨c, hc⟩ := hd
    have hc' : (2 : Int) ^ w = m * c := by exact_mod_cast hc
    rw [hc', show (m : Int) * c - y.toNat + x.toNat = (x.toNat : Int) - y.toNat + m * c by ring,
      Int.add_mul_emod_self_left]

/-- Index of element `j` when the next write position is `n` and there are `len` elements. -/
def pos (cap n len j : Nat) : Nat := (((n : Int) - len + j) % cap).toNat

theorem pos_lt {cap : Nat} (hc : 1 ≤ cap) (n len j : Nat) : pos cap n len j < cap := by
  unfold pos
  have h1 := Int.emod_lt_of_pos ((n : Int) - len + j) (show (0 : Int) < cap by omega)
  have h2 := Int.emod_nonneg ((n : Int) - len + j) (show (cap : Int) ≠ 0 by omega)
  omega

theorem pos_cast {cap : Nat} (hc : 1 ≤ cap) (n len j : Nat) :
    (pos cap n len j : Int) = ((n : Int) - len + j) % cap :=
  Int.toNat_of_nonneg (Int.emod_nonneg _ (by omega))

theorem pos_congr {cap n len j n' len' j' : Nat}
    (h : (cap : Int) ∣ ((n : Int) - len + j) - ((n' : Int) - len' + j')) :
    pos cap n len j = pos cap n' len' j' := by
  unfold pos
  congr 1
  exact Int.emod_eq_emod_iff_emod_sub_eq_zero.2 (Int.emod_eq_zero_of_dvd h)

/-- Two different offsets less than `cap` apart have different indices. -/
theorem pos_ne {cap n len j j' : Nat} (hc : 1 ≤ cap) (h : j < j') (hlt : j' - j < cap) :
    pos cap n len j ≠ pos cap n len j' := by
  intro e
  have e' : ((n : Int) - len + j') % cap = ((n : Int) - len + j) % cap := by
    rw [← pos_cast hc, ← pos_cast hc, e]
  have hd := Int.dvd_of_emod_eq_zero (Int.emod_eq_emod_iff_emod_sub_eq_zero.1 e')
  have hd' : (cap : Int) ∣ (j' - j : Nat) := by
    have : ((n : Int) - len + j') - ((n : Int) - len + j) = ((j' - j : Nat) : Int) := by
      push_cast [h.le]; ring
    rwa [this] at hd
  have := Nat.le_of_dvd (by omega) (Int.natCast_dvd_natCast.1 hd')
  omega

/-- Representation invariant. -/
structure Rep (cap : Nat) (s : Span w β) (q : List β) : Prop where
  data_len : s.data.length = cap
  capacity_eq : s.capacity = BitVec.ofNat w cap
  size_eq : s.size.toNat = q.length
  len_le : q.length ≤ cap
  next_le : s.next.toNat ≤ 2 * cap
  safe : 2 * cap ∣ 2 ^ w ∨ q.length ≤ s.next.toNat
  elems : ∀ j : Nat, j < q.length → s.data[pos cap s.next.toNat q.length j]? = q[j]?

section
variable {cap : Nat} (hc : 1 ≤ cap) (hw : 2 * cap < 2 ^ w) {s : Span w β} {q : List β}
include hc hw

theorem Rep.capacity_toNat (h : Rep cap s q) : s.capacity.toNat = cap := by
  rw [h.capacity_eq, toNat_ofNat_lt (by omega)]

theorem index_eq (hcap : s.capacity = BitVec.ofNat w cap) (p : SizeT w) :
    ∃ i : SizeT w, s.index p = some i ∧ i.toNat = p.toNat % cap := by
  refine ⟨p % s.capacity, ?_, ?_⟩
  · unfold Span.index
    rw [if_neg]
    intro h
    have := congrArg BitVec.toNat h
    rw [hcap, toNat_ofNat_lt (by omega)] at this
    simp at this
    omega
  · rw [BitVec.toNat_umod, hcap, toNat_ofNat_lt (by omega)]

theorem two_cap (hcap : s.capacity = BitVec.ofNat w cap) : (2 * s.capacity).toNat = 2 * cap := by
  have h2 : (2 : BitVec w).toNat = 2 := by
    have : 2 < 2 ^ w := by omega
    simp [BitVec.toNat_ofNat, Nat.mod_eq_of_lt this]
  rw [BitVec.toNat_mul, h2, hcap, toNat_ofNat_lt (by omega), Nat.mod_eq_of_lt hw]

theorem vindex_eq (hcap : s.capacity = BitVec.ofNat w cap) (p : SizeT w) :
    ∃ i : SizeT w, s.vindex p = some i ∧ i.toNat = p.toNat % (2 * cap) := by
  have h2 := two_cap hc hw hcap
  refine ⟨p % (2 * s.capacity), ?_, ?_⟩
  · unfold Span.vindex
    rw [if_neg]
    intro h
    rw [h] at h2
    simp at h2
    omega
  · rw [BitVec.toNat_umod, h2]

theorem one_toNat : (1 : BitVec w).toNat = 1 := by
  have : 1 < 2 ^ w := by omega
  simp [BitVec.toNat_ofNat, Nat.mod_eq_of_lt this]

theorem empty_iff (h : Rep cap s q) : s.empty = true ↔ q = [] := by
  unfold Span.empty
  rw [beq_iff_eq, ← List.length_eq_zero_iff, ← h.size_eq]
  constructor
  · intro e; rw [e]; simp
  · intro e; exact BitVec.eq_of_toNat_eq (by simpa using e)

theorem full_iff (h : Rep cap s q) : s.full = true ↔ q.length = cap := by
  unfold Span.full
  rw [beq_iff_eq, ← h.size_eq]
  constructor
  · intro e; rw [e, h.capacity_toNat hc hw]
  · intro e; exact BitVec.eq_of_toNat_eq (by rw [e, h.capacity_toNat hc hw])

theorem read_eq (h : Rep cap s q) {p : SizeT w} {j : Nat} (hj : j < q.length)
    (hp : ((p.toNat : Int)) % cap = ((s.next.toNat : Int) - q.length + j) % cap) :
    s.read p = q[j]? := by
  obtain ⟨i, hi, hin⟩ := index_eq hc hw h.capacity_eq p
  unfold Span.read
  rw [hi]
  show s.data[i.toNat]? = _
  rw [← h.elems j hj]
  congr 1
  have : ((i.toNat : Nat) : Int) = pos cap s.next.toNat q.length j := by
    rw [pos_cast hc, hin]; push_cast; exact hp
  exact_mod_cast this

theorem cap_dvd (h : Rep cap s q) : cap ∣ 2 ^ w ∨ q.length ≤ s.next.toNat := by
  rcases h.safe with h | h
  · exact Or.inl ((Nat.dvd_mul_left cap 2).trans h)
  · exact Or.inr h

theorem front_eq (h : Rep cap s q) : s.front = q.head? := by
  unfold Span.front
  by_cases hq : q = []
  · rw [if_pos ((empty_iff hc hw h).2 hq), hq]; rfl
  · rw [if_neg (fun e => hq ((empty_iff hc hw h).1 e))]
    have hl : 0 < q.length := List.length_pos_iff.2 hq
    rw [read_eq hc hw h hl, List.head?_eq_getElem?]
    rw [sub_mod (by rw [h.size_eq]; exact cap_dvd hc hw h), h.size_eq]
    simp

theorem back_eq (h : Rep cap s q) : s.back = q.getLast? := by
  unfold Span.back
  by_cases hq : q = []
  · rw [if_pos ((empty_iff hc hw h).2 hq), hq]; rfl
  · rw [if_neg (fun e => hq ((empty_iff hc hw h).1 e))]
    have hl : 0 < q.length := List.length_pos_iff.2 hq
    rw [read_eq hc hw h (j := q.length - 1) (by omega), List.getLast?_eq_getElem?]
    have hs : cap ∣ 2 ^ w ∨ (1 : BitVec w).toNat ≤ s.next.toNat := by
      rw [one_toNat hc hw]
      rcases cap_dvd hc hw h with h | h
      · exact Or.inl h
      · exact Or.inr (by omega)
    rw [sub_mod hs, one_toNat hc hw]
    congr 1
    push_cast [hl]; ring

theorem rep_init {storage : List β} (hs : storage.length = cap) : Rep cap (Span.init storage : Span w β) [] := by
  refine ⟨hs, by simp [Span.init, hs], by simp [Span.init], by simp, by simp [Span.init],
    Or.inr (by simp), fun j hj => by simp at hj⟩

theorem rep_clear (h : Rep cap s q) : Rep cap s.clear [] :=
  ⟨h.data_len, h.capacity_eq, by simp [Span.clear], by simp, by simp [Span.clear],
    Or.inr (by simp), fun j hj => by simp at hj⟩

theorem write_eq (hcap : s.capacity = BitVec.ofNat w cap) (hd : s.data.length = cap) (p : SizeT w) (x : β) :
    s.write p x = some { s with data := s.data.set (p.toNat % cap) x } := by
  obtain ⟨i, hi, hin⟩ := index_eq hc hw hcap p
  unfold Span.write
  rw [hi]
  simp only [Option.bind_eq_bind, Option.bind_some]
  rw [if_pos (by rw [hin, hd]; exact Nat.mod_lt _ (by omega)), hin]

theorem popFront_rep (h : Rep cap s q) (hq : q ≠ []) :
    ∃ s', s.popFront = some s' ∧ Rep cap s' q.tail := by
  have hl : 0 < q.length := List.length_pos_iff.2 hq
  have hs1 : (s.size - 1).toNat = q.tail.length := by
    rw [BitVec.toNat_sub_of_le (by rw [BitVec.le_def, one_toNat hc hw, h.size_eq]; omega), one_toNat hc hw,
      h.size_eq, List.length_tail]
  refine ⟨{ s with size := s.size - 1 }, ?_, ?_⟩
  · unfold Span.popFront
    rw [if_neg (fun e => hq ((empty_iff hc hw h).1 e))]
  · have hlen := h.len_le
    refine ⟨h.data_len, h.capacity_eq, hs1, by rw [List.length_tail]; omega, h.next_le, ?_, ?_⟩
    · rcases h.safe with hh | hh
      · exact Or.inl hh
      · exact Or.inr (by simp only [List.length_tail]; omega)
    · intro j hj
      rw [List.length_tail] at hj ⊢
      have := h.elems (j + 1) (by omega)
      rw [List.getElem?_tail, ← this]
      congr 1
      apply pos_congr
      push_cast [hl]
      exact ⟨0, by ring⟩

theorem popBack_rep (h : Rep cap s q) (hq : q ≠ []) :
    ∃ s', s.popBack = some s' ∧ Rep cap s' q.dropLast := by
  have hl : 0 < q.length := List.length_pos_iff.2 hq
  have hs1 : (s.size - 1).toNat = q.dropLast.length := by
    rw [BitVec.toNat_sub_of_le (by rw [BitVec.le_def, one_toNat hc hw, h.size_eq]; omega), one_toNat hc hw,
      h.size_eq, List.length_dropLast]
  obtain ⟨i, hi, hin⟩ := index_eq hc hw h.capacity_eq (s.next - 1)
  have hilt : i.toNat < cap := by rw [hin]; exact Nat.mod_lt _ (by omega)
  have hnext : (s.capacity + i).toNat = cap + i.toNat := by
    rw [BitVec.toNat_add, h.capacity_toNat hc hw, Nat.mod_eq_of_lt (by omega)]
  have hs : cap ∣ 2 ^ w ∨ (1 : BitVec w).toNat ≤ s.next.toNat := by
    rw [one_toNat hc hw]
    rcases cap_dvd hc hw h with h | h
    · exact Or.inl h
    · exact Or.inr (by omega)
  have himod : (cap : Int) ∣ (i.toNat : Int) - ((s.next.toNat : Int) - 1) := by
    have e := sub_mod hs
    rw [one_toNat hc hw] at e
    have e2 : (i.toNat : Int) = ((s.next - 1).toNat : Int) % cap := by rw [hin]; push_cast; rfl
    rw [e] at e2
    rw [e2]
    have := Int.emod_add_mul_ediv ((s.next.toNat : Int) - (1 : Nat)) cap
    refine ⟨-(((s.next.toNat : Int) - (1 : Nat)) / cap), ?_⟩
    push_cast at this ⊢
    linarith
  refine ⟨{ s with next := s.capacity + i, size := s.size - 1 }, ?_, ?_⟩
  · unfold Span.popBack
    rw [if_neg (fun e => hq ((empty_iff hc hw h).1 e)), hi]
    rfl
  · have hlen := h.len_le
    refine ⟨h.data_len, h.capacity_eq, hs1, by rw [List.length_dropLast]; omega, ?_, ?_, ?_⟩
    · simp only [hnext]; omega
    · exact Or.inr (by simp only [hnext, List.length_dropLast]; omega)
    · intro j hj
      rw [List.length_dropLast] at hj ⊢
      have := h.elems j (by omega)
      rw [List.getElem?_dropLast, if_pos hj, ← this]
      congr 1
      apply pos_congr
      simp only [hnext]
      push_cast [hl]
      obtain ⟨c, hc'⟩ := himod
      exact ⟨1 + c, by linarith⟩

theorem pushBack_rep (h : Rep cap s q) (x : β) :
    ∃ s', s.pushBack x = some s' ∧ Rep cap s' (if q.length = cap then q.tail ++ [x] else q ++ [x]) := by
  have hwr := write_eq hc hw h.capacity_eq h.data_len s.next x
  obtain ⟨i, hi, hin⟩ := index_eq hc hw (s := { s with data := s.data.set (s.next.toNat % cap) x })
    h.capacity_eq s.next
  have hilt : i.toNat < cap := by rw [hin]; exact Nat.mod_lt _ (by omega)
  have hnext : (s.capacity + i + 1).toNat = cap + i.toNat + 1 := by
    rw [BitVec.toNat_add, BitVec.toNat_add, h.capacity_toNat hc hw, one_toNat hc hw,
      Nat.mod_eq_of_lt (a := cap + i.toNat) (by omega), Nat.mod_eq_of_lt (by omega)]
  have himod : (cap : Int) ∣ (i.toNat : Int) - s.next.toNat := by
    rw [hin]
    have := Int.emod_add_mul_ediv (s.next.toNat : Int) cap
    exact ⟨-((s.next.toNat : Int) / cap), by push_cast; linarith⟩
  have hpn : s.next.toNat % cap = pos cap s.next.toNat q.length q.length := by
    have : ((s.next.toNat % cap : Nat) : Int) = pos cap s.next.toNat q.length q.length := by
      rw [pos_cast hc]; push_cast; congr 1; ring
    exact_mod_cast this
  have hlen := h.len_le
  by_cases hf : q.length = cap
  · -- full
    have hfull : s.full = true := (full_iff hc hw h).2 hf
    refine ⟨{ s with data := s.data.set (s.next.toNat % cap) x, next := s.capacity + i + 1 }, ?_, ?_⟩
    · unfold Span.pushBack
      rw [hwr]
      simp only [Option.bind_eq_bind, Option.bind_some, hi, Option.pure_def]
      exact congrArg some (if_pos hfull)
    · rw [if_pos hf]
      have hl' : (q.tail ++ [x]).length = cap := by simp; omega
      refine ⟨by simpa using h.data_len, h.capacity_eq, by rw [hl', ← hf]; exact h.size_eq, by rw [hl'],
        by simp only [hnext]; omega, Or.inr (by simp only [hnext, hl']; omega), ?_⟩
      intro j hj
      rw [hl'] at hj
      rw [hl']
      simp only [hnext]
      by_cases hjl : j < cap - 1
      · have e1 : pos cap (cap + i.toNat + 1) cap j = pos cap s.next.toNat q.length (j + 1) := by
          apply pos_congr
          obtain ⟨c, hc'⟩ := himod
          rw [hf]
          exact ⟨1 + c, by push_cast; linarith⟩
        rw [e1, List.getElem?_set_ne, h.elems (j + 1) (by omega),
          List.getElem?_append_left (by rw [List.length_tail]; omega), List.getElem?_tail]
        rw [hpn]
        exact (pos_ne hc (by omega) (by omega)).symm
      · have hj' : j = cap - 1 := by omega
        have e1 : pos cap (cap + i.toNat + 1) cap j = s.next.toNat % cap := by
          rw [hpn]
          apply pos_congr
          obtain ⟨c, hc'⟩ := himod
          exact ⟨1 + c, by rw [hj']; push_cast [hc]; linarith⟩
        rw [e1, List.getElem?_set_self (by rw [h.data_len]; exact Nat.mod_lt _ (by omega)),
          List.getElem?_append_right (by rw [List.length_tail]; omega)]
        simp [hj', hf]
  · have hfull : ¬ s.full = true := fun e => hf ((full_iff hc hw h).1 e)
    have hs1 : (s.size + 1).toNat = q.length + 1 := by
      rw [BitVec.toNat_add, one_toNat hc hw, h.size_eq, Nat.mod_eq_of_lt (by omega)]
    refine ⟨{ s with data := s.data.set (s.next.toNat % cap) x, next := s.capacity + i + 1, size := s.size + 1 },
      ?_, ?_⟩
    · unfold Span.pushBack
      rw [hwr]
      simp only [Option.bind_eq_bind, Option.bind_some, hi, Option.pure_def]
      exact congrArg some (if_neg hfull)
    · rw [if_neg hf]
      have hl' : (q ++ [x]).length = q.length + 1 := by simp
      refine ⟨by simpa using h.data_len, h.capacity_eq, by rw [hl']; exact hs1, by rw [hl']; omega,
        by simp only [hnext]; omega, Or.inr (by simp only [hnext, hl']; omega), ?_⟩
      intro j hj
      rw [hl'] at hj ⊢
      simp only [hnext]
      have e1 : pos cap (cap + i.toNat + 1) (q.length + 1) j = pos cap s.next.toNat q.length j := by
        apply pos_congr
        obtain ⟨c, hc'⟩ := himod
        exact ⟨1 + c, by push_cast; linarith⟩
      rw [e1]
      by_cases hjl : j < q.length
      · rw [List.getElem?_set_ne, h.elems j hjl, List.getElem?_append_left hjl]
        rw [hpn]
        exact (pos_ne hc hjl (by omega)).symm
      · have hj' : j = q.length := by omega
        rw [hj', ← hpn, List.getElem?_set_self (by rw [h.data_len]; exact Nat.mod_lt _ (by omega)),
          List.getElem?_append_right (le_refl _)]
        simp

theorem pushFront_rep (hdvd : 2 * cap ∣ 2 ^ w) (h : Rep cap s q) (x : β) :
    ∃ s', s.pushFront x = some s' ∧ Rep cap s' (if q.length = cap then x :: q.dropLast else x :: q) := by
  have hcd : cap ∣ 2 ^ w := (Nat.dvd_mul_left cap 2).trans hdvd
  have hlen := h.len_le
  have hmod : ∀ n : Nat, (cap : Int) ∣ ((n % cap : Nat) : Int) - n := by
    intro n
    have := Int.emod_add_mul_ediv (n : Int) cap
    exact ⟨-((n : Int) / cap), by push_cast; linarith⟩
  -- index of the written slot
  have hslot : ∀ (i sz : SizeT w) (n len : Nat), (cap : Int) ∣ (i.toNat : Int) - n → sz.toNat = len →
      (i - sz).toNat % cap = pos cap n len 0 := by
    intro i sz n len hd hl
    have e : (((i - sz).toNat % cap : Nat) : Int) = pos cap n len 0 := by
      rw [pos_cast hc]
      push_cast
      rw [sub_mod (Or.inl hcd), hl]
      apply Int.emod_eq_emod_iff_emod_sub_eq_zero.2
      apply Int.emod_eq_zero_of_dvd
      obtain ⟨c, hc'⟩ := hd
      exact ⟨c, by linarith⟩
    exact_mod_cast e
  by_cases hf : q.length = cap
  · have hfull : s.full = true := (full_iff hc hw h).2 hf
    obtain ⟨i, hi, hin⟩ := index_eq hc hw h.capacity_eq s.next
    have hilt : i.toNat < cap := by rw [hin]; exact Nat.mod_lt _ (by omega)
    have hnext : (s.capacity + i - 1).toNat = cap + i.toNat - 1 := by
      have e : (s.capacity + i).toNat = cap + i.toNat := by
        rw [BitVec.toNat_add, h.capacity_toNat hc hw, Nat.mod_eq_of_lt (by omega)]
      rw [BitVec.toNat_sub_of_le (by rw [BitVec.le_def, one_toNat hc hw, e]; omega), e, one_toNat hc hw]
    obtain ⟨i2, hi2, hin2⟩ := index_eq hc hw (s := { s with next := s.capacity + i - 1 }) h.capacity_eq
      (s.capacity + i - 1)
    have hwr := write_eq hc hw (s := { s with next := s.capacity + i - 1 }) h.capacity_eq h.data_len
      (i2 - s.size) x
    have hsl := hslot i2 s.size (cap + i.toNat - 1) cap (by rw [hin2, hnext]; exact hmod _)
      (by rw [h.size_eq, hf])
    refine ⟨{ s with next := s.capacity + i - 1, data := s.data.set (pos cap (cap + i.toNat - 1) cap 0) x },
      ?_, ?_⟩
    · unfold Span.pushFront
      rw [if_pos hfull, hi]
      simp only [Option.bind_eq_bind, Option.bind_some, hi2]
      rw [hwr, hsl]
    · rw [if_pos hf]
      have hl' : (x :: q.dropLast).length = cap := by simp; omega
      refine ⟨by simpa using h.data_len, h.capacity_eq, by rw [hl', ← hf]; exact h.size_eq, by rw [hl'],
        by simp only [hnext]; omega, Or.inl hdvd, ?_⟩
      intro j hj
      rw [hl'] at hj
      rw [hl']
      simp only [hnext]
      cases j with
      | zero =>
        rw [List.getElem?_set_self (by rw [h.data_len]; exact pos_lt hc _ _ _)]; rfl
      | succ j =>
        have e1 : pos cap (cap + i.toNat - 1) cap (j + 1) = pos cap s.next.toNat q.length j := by
          apply pos_congr
          obtain ⟨c, hc'⟩ := hmod s.next.toNat
          rw [← hin] at hc'
          rw [hf]
          refine ⟨1 + c, ?_⟩
          push_cast [show 1 ≤ cap + i.toNat by omega]
          linarith
        rw [List.getElem?_set_ne (pos_ne hc (by omega) (by omega)), e1, h.elems j (by omega),
          List.getElem?_cons_succ, List.getElem?_dropLast, if_pos (by omega)]
  · have hfull : ¬ s.full = true := fun e => hf ((full_iff hc hw h).1 e)
    have hs1 : (s.size + 1).toNat = q.length + 1 := by
      rw [BitVec.toNat_add, one_toNat hc hw, h.size_eq, Nat.mod_eq_of_lt (by omega)]
    obtain ⟨i2, hi2, hin2⟩ := index_eq hc hw (s := { s with size := s.size + 1 }) h.capacity_eq s.next
    have hwr := write_eq hc hw (s := { s with size := s.size + 1 }) h.capacity_eq h.data_len
      (i2 - (s.size + 1)) x
    have hsl := hslot i2 (s.size + 1) s.next.toNat (q.length + 1) (by rw [hin2]; exact hmod _) hs1
    refine ⟨{ s with size := s.size + 1, data := s.data.set (pos cap s.next.toNat (q.length + 1) 0) x },
      ?_, ?_⟩
    · unfold Span.pushFront
      rw [if_neg hfull]
      simp only [Option.bind_eq_bind, Option.bind_some, hi2]
      rw [hwr, hsl]
    · rw [if_neg hf]
      have hl' : (x :: q).length = q.length + 1 := by simp
      refine ⟨by simpa using h.data_len, h.capacity_eq, by rw [hl']; exact hs1, by rw [hl']; omega,
        h.next_le, Or.inl hdvd, ?_⟩
      intro j hj
      rw [hl'] at hj ⊢
      cases j with
      | zero =>
        rw [List.getElem?_set_self (by rw [h.data_len]; exact pos_lt hc _ _ _)]; rfl
      | succ j =>
        have e1 : pos cap s.next.toNat (q.length + 1) (j + 1) = pos cap s.next.toNat q.length j := by
          apply pos_congr
          exact ⟨0, by push_cast; ring⟩
        rw [List.getElem?_set_ne (pos_ne hc (by omega) (by omega)), e1, h.elems j (by omega),
          List.getElem?_cons_succ]

theorem assign_rep (h : Rep cap s q) (xs : List β) :
    ∃ s', s.assign xs = some s' ∧ Rep cap s' (xs.drop (xs.length - cap)) := by
  unfold Span.assign
  induction xs using List.reverseRecOn with
  | nil => exact ⟨_, rfl, by simpa using rep_clear hc hw h⟩
  | append_singleton xs x ih =>
    obtain ⟨s', hs', hr⟩ := ih
    obtain ⟨s'', hs'', hr'⟩ := pushBack_rep hc hw hr x
    refine ⟨s'', ?_, ?_⟩
    · rw [List.foldlM_append, hs']
      simp [hs'']
    · convert hr' using 1
      rw [List.length_drop, List.length_append, List.length_singleton]
      split_ifs with hl
      · rw [List.drop_append_of_le_length (by omega), List.tail_drop,
          show xs.length + 1 - cap = xs.length - cap + 1 by omega]
      · rw [show xs.length + 1 - cap = 0 by omega, show xs.length - cap = 0 by omega]
        simp

/-- Iteration visits the elements in order. -/
theorem iterate_eq (h : Rep cap s q) {e : SizeT w} (he : e.toNat = s.next.toNat % (2 * cap)) :
    ∀ (n t fuel : Nat) (cur : SizeT w), t + n = q.length → n ≤ fuel →
      (cur.toNat : Int) = ((s.next.toNat : Int) - q.length + t) % (2 * cap : Nat) →
      s.iterate e fuel cur = some (q.drop t) := by
  have hlen := h.len_le
  have he' : (e.toNat : Int) = (s.next.toNat : Int) % (2 * cap : Nat) := by rw [he]; push_cast; rfl
  intro n
  induction n with
  | zero =>
    intro t fuel cur ht _ hcur
    have : cur = e := by
      apply BitVec.eq_of_toNat_eq
      have : (cur.toNat : Int) = e.toNat := by
        rw [hcur, he']; congr 1; rw [← ht]; push_cast; ring
      exact_mod_cast this
    rw [List.drop_eq_nil_of_le (by omega)]
    cases fuel <;> simp [Span.iterate, this]
  | succ n ih =>
    intro t fuel cur ht hfuel hcur
    obtain ⟨fuel, rfl⟩ : ∃ f, fuel = f + 1 := ⟨fuel - 1, by omega⟩
    have htl : t < q.length := by omega
    have hne : cur ≠ e := by
      intro e'
      have e2 : ((s.next.toNat : Int)) % (2 * cap : Nat) = ((s.next.toNat : Int) - q.length + t) % (2 * cap : Nat) := by
        rw [← he', ← hcur, e']
      have hd := Int.dvd_of_emod_eq_zero (Int.emod_eq_emod_iff_emod_sub_eq_zero.1 e2)
      have e3 : (s.next.toNat : Int) - ((s.next.toNat : Int) - q.length + t) = ((q.length - t : Nat) : Int) := by
        push_cast [htl.le]; ring
      rw [e3] at hd
      have := Nat.le_of_dvd (by omega) (Int.natCast_dvd_natCast.1 hd)
      omega
    have hcurlt : cur.toNat < 2 * cap := by
      have := Int.emod_lt_of_pos ((s.next.toNat : Int) - q.length + t) (show (0 : Int) < (2 * cap : Nat) by omega)
      rw [← hcur] at this
      exact_mod_cast this
    have hread : s.read cur = q[t]? := by
      apply read_eq hc hw h htl
      rw [hcur]
      exact Int.emod_emod_of_dvd _ ⟨2, by push_cast; ring⟩
    obtain ⟨nx, hnx, hnxn⟩ := vindex_eq hc hw h.capacity_eq (cur + 1)
    have hc1 : (cur + 1).toNat = cur.toNat + 1 := by
      rw [BitVec.toNat_add, one_toNat hc hw, Nat.mod_eq_of_lt (by omega)]
    have hnx' : (nx.toNat : Int) = ((s.next.toNat : Int) - q.length + (t + 1 : Nat)) % (2 * cap : Nat) := by
      rw [hnxn, hc1]
      push_cast
      rw [hcur]
      push_cast
      rw [Int.emod_add_emod]
      congr 1
      ring
    unfold Span.iterate
    rw [if_neg hne, hread, List.getElem?_eq_getElem htl]
    simp only [Option.bind_eq_bind, Option.bind_some, hnx]
    rw [ih (t + 1) fuel nx (by omega) (by omega) hnx']
    simp

theorem contents_eq (h : Rep cap s q) : s.contents = some q := by
  obtain ⟨b, hb, hbn⟩ := vindex_eq hc hw h.capacity_eq (s.next - s.size)
  obtain ⟨e, he, hen⟩ := vindex_eq hc hw h.capacity_eq s.next
  have hlen := h.len_le
  unfold Span.contents Span.begin' Span.end'
  rw [hb, he]
  simp only [Option.bind_eq_bind, Option.bind_some]
  rw [iterate_eq hc hw h hen q.length 0 _ b (by omega) (by rw [two_cap hc hw h.capacity_eq]; omega)]
  · simp
  · rw [hbn]
    push_cast
    have := sub_mod (x := s.next) (y := s.size) (m := 2 * cap) (by rw [h.size_eq]; exact h.safe)
    push_cast at this
    rw [this, h.size_eq]
    simp

theorem step_rep (h : Rep cap s q) (op : SpanOp β)
    (hop : 2 * cap ∣ 2 ^ w ∨ ∀ x, op ≠ .pushFront x) :
    (∀ q', Spec.dequeStep cap q op = some q' → ∃ s', s.step op = some s' ∧ Rep cap s' q')
      ∧ (Spec.dequeStep cap q op = none → s.step op = none) := by
  cases op with
  | pushBack x =>
    refine ⟨fun q' hq' => ?_, fun h => by simp [Spec.dequeStep] at h⟩
    obtain rfl := Option.some.inj hq'
    exact pushBack_rep hc hw h x
  | pushFront x =>
    refine ⟨fun q' hq' => ?_, fun h => by simp [Spec.dequeStep] at h⟩
    obtain rfl := Option.some.inj hq'
    rcases hop with hop | hop
    · exact pushFront_rep hc hw hop h x
    · exact absurd rfl (hop x)
  | popBack =>
    by_cases hq : q = []
    · refine ⟨fun q' hq' => by simp [Spec.dequeStep, hq] at hq', fun _ => ?_⟩
      show s.popBack = none
      rw [Span.popBack, if_pos ((empty_iff hc hw h).2 hq)]
    · refine ⟨fun q' hq' => ?_, fun h => by simp [Spec.dequeStep, hq] at h⟩
      simp only [Spec.dequeStep, hq, if_false] at hq'
      obtain rfl := Option.some.inj hq'
      exact popBack_rep hc hw h hq
  | popFront =>
    by_cases hq : q = []
    · refine ⟨fun q' hq' => by simp [Spec.dequeStep, hq] at hq', fun _ => ?_⟩
      show s.popFront = none
      rw [Span.popFront, if_pos ((empty_iff hc hw h).2 hq)]
    · refine ⟨fun q' hq' => ?_, fun h => by simp [Spec.dequeStep, hq] at h⟩
      simp only [Spec.dequeStep, hq, if_false] at hq'
      obtain rfl := Option.some.inj hq'
      exact popFront_rep hc hw h hq
  | clear =>
    refine ⟨fun q' hq' => ?_, fun h => by simp [Spec.dequeStep] at h⟩
    obtain rfl := Option.some.inj hq'
    exact ⟨_, rfl, rep_clear hc hw h⟩
  | assign xs =>
    refine ⟨fun q' hq' => ?_, fun h => by simp [Spec.dequeStep] at h⟩
    obtain rfl := Option.some.inj hq'
    exact assign_rep hc hw h xs

theorem run_rep {storage : List β} (hs : storage.length = cap) (ops : List (SpanOp β))
    (hop : 2 * cap ∣ 2 ^ w ∨ ∀ op ∈ ops, ∀ x, op ≠ .pushFront x) :
    (∀ q, Spec.dequeRun cap ops = some q → ∃ s : Span w β, Span.run storage ops = some s ∧ Rep cap s q)
      ∧ (Spec.dequeRun cap ops = none → (Span.run storage ops : Option (Span w β)) = none) := by
  induction ops using List.reverseRecOn with
  | nil =>
    refine ⟨fun q hq => ?_, fun h => by simp [Spec.dequeRun] at h⟩
    obtain rfl : [] = q := by simpa [Spec.dequeRun] using hq
    exact ⟨_, rfl, rep_init hc hw hs⟩
  | append_singleton ops op ih =>
    obtain ⟨ih1, ih2⟩ := ih (by
      rcases hop with h | h
      · exact Or.inl h
      · exact Or.inr fun o ho => h o (by simp [ho]))
    have hop' : 2 * cap ∣ 2 ^ w ∨ ∀ x, op ≠ .pushFront x := by
      rcases hop with h | h
      · exact Or.inl h
      · exact Or.inr (h op (by simp))
    unfold Spec.dequeRun Span.run at *
    simp only [List.foldlM_append, List.foldlM_cons, List.foldlM_nil, Option.bind_eq_bind, Option.pure_def] at *
    cases hq0 : ops.foldlM (Spec.dequeStep cap) [] with
    | none =>
      rw [ih2 hq0]
      simp
    | some q0 =>
      obtain ⟨s, hs0, hr⟩ := ih1 q0 hq0
      rw [hs0]
      simp only [Option.bind_some]
      have hst := step_rep hc hw hr op hop'
      have e : ∀ {γ : Type} (o : Option γ), (o.bind fun a => some a) = o := fun o => by cases o <;> rfl
      rw [e, e]
      exact ⟨fun q hq => hst.1 q hq, fun h => hst.2 h⟩

end
end Verif.CircularSpan
