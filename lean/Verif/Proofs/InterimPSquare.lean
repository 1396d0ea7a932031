import Verif.Model.InterimPSquare
import Verif.Proofs.PSquare
import Verif.Proofs.Interim
/-
The interim quantile estimator: which values the two estimators hold, any arithmetic.
-/
namespace Verif.InterimPSquare
open Scalar Verif.PSquare

variable {w : Nat} {α : Type}

/-- The other member. -/
def Slot.other : Slot → Slot
  | .first => .second
  | .second => .first

@[simp] theorem Slot.other_other (k : Slot) : k.other.other = k := by cases k <;> rfl
theorem Slot.other_ne (k : Slot) : k.other ≠ k := by cases k <;> decide

theorem Obj.slot_setSlot (o : Obj w α) (k : Slot) (p : PSquare w α) : (o.setSlot k p).slot k = p := by cases k <;> rfl
theorem Obj.slot_setSlot_other (o : Obj w α) (k : Slot) (p : PSquare w α) :
    (o.setSlot k p).slot k.other = o.slot k.other := by cases k <;> rfl
theorem Obj.slot_setSlot_other' (o : Obj w α) (k : Slot) (p : PSquare w α) :
    (o.setSlot k.other p).slot k = o.slot k := by cases k <;> rfl
@[simp] theorem Obj.active_setSlot (o : Obj w α) (k : Slot) (p : PSquare w α) : (o.setSlot k p).active = o.active := by
  cases k <;> rfl
@[simp] theorem Obj.inactive_setSlot (o : Obj w α) (k : Slot) (p : PSquare w α) : (o.setSlot k p).inactive = o.inactive := by
  cases k <;> rfl

namespace Mem
variable {m : Mem w α} {a b : Nat}

@[simp] theorem set_self (m : Mem w α) (a : Nat) (o : Option (Obj w α)) : m.set a o a = o := if_pos rfl
theorem set_ne (m : Mem w α) (o : Option (Obj w α)) (h : b ≠ a) : m.set a o b = m b := if_neg h
@[simp] theorem set_set (m : Mem w α) (a : Nat) (o o' : Option (Obj w α)) : (m.set a o).set a o' = m.set a o' := by
  funext b; unfold set; split_ifs <;> rfl
theorem set_eq (h : m a = o) : m.set a o = m := by
  funext b; unfold set; split_ifs with e
  · rw [e, h]
  · rfl
theorem load_set (o : Obj w α) (k : Slot) : load (m.set a (some o)) ⟨a, k⟩ = some (o.slot k) := by
  simp [load]
theorem store_set (o : Obj w α) (k : Slot) (p : PSquare w α) :
    store (m.set a (some o)) ⟨a, k⟩ p = some (m.set a (some (o.setSlot k p))) := by
  simp [store]
end Mem

variable [Scalar α]

/-- What the object at `a` holds after the values `xs`: `H` is half the window. -/
structure InvI (qs : List α) (H a : Nat) (xs : List α) (o : Obj w α) (k : Slot) : Prop where
  active : o.active = ⟨a, k⟩
  cur : pushes w qs (Spec.curBlock H xs) = some (o.slot k)
  few : xs.length ≤ H → k = .first ∧ o.inactive = none ∧ o.second = PSquare.initState qs
  many : H < xs.length → o.inactive = some ⟨a, k.other⟩ ∧ pushes w qs (Spec.prevBlock H xs) = some (o.slot k.other)

variable {qs : List α} {H a : Nat}

theorem pushes_count (hL : paramLength qs.length < 2 ^ w) {xs : List α} (hn : xs.length < 2 ^ w) {s : PSquare w α}
    (hs : pushes w qs xs = some s) : s.count = BitVec.ofNat w xs.length ∧ s.qs = qs := by
  obtain ⟨s', p, h, d, hs', hi⟩ := pushes_inv (w := w) qs hL xs hn
  obtain rfl : s = s' := Option.some.inj (hs.symm.trans hs')
  exact ⟨hi.count, hi.qs_eq⟩

theorem half_eq {W : Nat} (hw : 2 < 2 ^ w) (hW : W < 2 ^ w) : (BitVec.ofNat w W / 2 : SizeT w) = BitVec.ofNat w (W / 2) := by
  apply BitVec.eq_of_toNat_eq
  have h2 : (2 : SizeT w).toNat = 2 := toNat_ofNat_lt hw
  rw [BitVec.toNat_udiv, h2, toNat_ofNat_lt hW, toNat_ofNat_lt (by omega)]

theorem push_invI {W : Nat} (hL : paramLength qs.length < 2 ^ w) (hH : 1 ≤ W / 2) (hW : W < 2 ^ w) {xs : List α}
    {o : Obj w α} {k : Slot} (hi : InvI qs (W / 2) a xs o k) (x : α) :
    ∃ o' k', (∀ m : Mem w α, (m.set a (some o)).push W a x = some (m.set a (some o'))) ∧ InvI qs (W / 2) a (xs ++ [x]) o' k' := by
  have hw2 : 2 < 2 ^ w := by unfold paramLength at hL; omega
  have hcl := Spec.length_curBlock_le hH xs
  obtain ⟨hcnt, hqs⟩ := pushes_count hL (by omega) hi.cur
  obtain ⟨hb1, hb2⟩ := Spec.blocks_snoc hH xs x
  have hge : ((o.slot k).size ≥ BitVec.ofNat w W / 2) ↔ (Spec.curBlock (W / 2) xs).length = W / 2 := by
    rw [PSquare.size, hcnt, half_eq hw2 hW, ge_iff (by omega) (by omega)]; omega
  have hpush : ∀ (ys : List α) (s : PSquare w α), ys.length < W / 2 → pushes w qs ys = some s →
      ∃ s', s.push x = some s' ∧ pushes w qs (ys ++ [x]) = some s' := by
    intro ys s hl hs
    obtain ⟨s', p, h, d, hs', hinv⟩ := pushes_inv (w := w) qs hL ys (by omega)
    obtain rfl : s = s' := Option.some.inj (hs.symm.trans hs')
    obtain ⟨s2, p', h', d', hp, -⟩ := push_inv hL (by omega) hinv x
    exact ⟨s2, hp, by rw [pushes_snoc, hs]; exact hp⟩
  by_cases hfull : (Spec.curBlock (W / 2) xs).length = W / 2
  · have hge' := hge.2 hfull
    rw [if_pos hfull] at hb1 hb2
    have hne : xs ≠ [] := by
      rintro rfl
      rw [Spec.curBlock_of_le hH (by simp)] at hfull
      simp at hfull; omega
    have hlen : W / 2 ≤ xs.length := by
      by_contra hc
      rw [Spec.curBlock_of_le hH (by omega)] at hfull; omega
    have hinit : pushes w qs ([] : List α) = some (PSquare.initState qs) := rfl
    obtain ⟨s', hp1, hp2⟩ := hpush [] _ (by show 0 < W / 2; omega) hinit
    by_cases hfew : xs.length ≤ W / 2
    · obtain ⟨rfl, hin, hsec⟩ := hi.few hfew
      have e : Obj.slot (w := w) (α := α) ⟨o.first, o.second, ⟨a, .second⟩, some ⟨a, .first⟩⟩ .second
          = PSquare.initState qs := hsec
      refine ⟨Obj.setSlot ⟨o.first, o.second, ⟨a, .second⟩, some ⟨a, .first⟩⟩ .second s', .second, fun m => ?_, ?_, ?_, ?_, ?_⟩
      · unfold Mem.push Mem.swapWindows
        simp only [Mem.set_self, Option.bind_eq_bind, Option.bind_some, hi.active, Mem.load_set]
        rw [if_pos hge']
        simp only [hin, Option.pure_def, Option.bind_some, Mem.set_set, Mem.set_self, Mem.load_set]
        rw [e, hp1]
        simp only [Option.bind_some, Mem.store_set]
      · rfl
      · rw [hb1]; exact hp2
      · intro hc; rw [List.length_append, List.length_singleton] at hc; omega
      · intro _; exact ⟨rfl, by rw [hb2]; exact hi.cur⟩
    · obtain ⟨hin, hprev⟩ := hi.many (by omega)
      obtain ⟨-, hqs2⟩ := pushes_count hL (by rw [Spec.length_prevBlock hH, if_neg hfew]; omega) hprev
      have e : Obj.slot (w := w) (α := α) ⟨(o.setSlot k.other (o.slot k.other).clear).first,
          (o.setSlot k.other (o.slot k.other).clear).second, ⟨a, k.other⟩, some ⟨a, k⟩⟩ k.other
            = PSquare.initState qs := by
        have : ∀ (o' : Obj w α) p i, Obj.slot ⟨o'.first, o'.second, p, i⟩ k.other = o'.slot k.other := by
          intros; cases k <;> rfl
        rw [this, Obj.slot_setSlot, PSquare.clear, hqs2]
      refine ⟨Obj.setSlot ⟨(o.setSlot k.other (o.slot k.other).clear).first,
          (o.setSlot k.other (o.slot k.other).clear).second, ⟨a, k.other⟩, some ⟨a, k⟩⟩ k.other s', k.other, fun m => ?_, ?_, ?_, ?_, ?_⟩
      · unfold Mem.push Mem.swapWindows
        simp only [Mem.set_self, Option.bind_eq_bind, Option.bind_some, hi.active, Mem.load_set]
        rw [if_pos hge']
        simp only [hin, Mem.load_set, Option.bind_some, Mem.store_set, Mem.set_self, Option.pure_def, Mem.set_set,
          Obj.active_setSlot, hi.active]
        rw [e, hp1]
        rfl
      · rw [Obj.active_setSlot]
      · rw [hb1, Obj.slot_setSlot]; exact hp2
      · intro hc; rw [List.length_append, List.length_singleton] at hc; omega
      · intro _
        rw [Slot.other_other, Obj.inactive_setSlot, hb2]
        refine ⟨rfl, ?_⟩
        rw [hi.cur]
        cases k <;> rfl
  · have hge' := fun hc => hfull (hge.1 hc)
    rw [if_neg hfull] at hb1 hb2
    obtain ⟨s', hp1, hp2⟩ := hpush _ _ (by omega) hi.cur
    have hnot : ¬ xs.length = W / 2 := by
      intro hc; rw [Spec.curBlock_of_le hH (by omega)] at hfull; exact hfull hc
    refine ⟨o.setSlot k s', k, fun m => ?_, ?_, ?_, ?_, ?_⟩
    · unfold Mem.push Mem.swapWindows
      simp only [Mem.set_self, Option.bind_eq_bind, Option.bind_some, hi.active, Mem.load_set]
      rw [if_neg hge']
      simp only [Option.pure_def, Option.bind_some, Mem.set_self, hi.active, Mem.load_set]
      rw [hp1]
      simp only [Option.bind_some, Mem.store_set]
    · rw [Obj.active_setSlot, hi.active]
    · rw [hb1, Obj.slot_setSlot]; exact hp2
    · intro hc
      rw [List.length_append, List.length_singleton] at hc
      obtain ⟨rfl, h2, h3⟩ := hi.few (by omega)
      exact ⟨rfl, by rw [Obj.inactive_setSlot]; exact h2, h3⟩
    · intro hc
      rw [List.length_append, List.length_singleton] at hc
      obtain ⟨h2, h3⟩ := hi.many (by omega)
      exact ⟨by rw [Obj.inactive_setSlot]; exact h2, by rw [hb2, Obj.slot_setSlot_other]; exact h3⟩

theorem init_invI (qs : List α) {H : Nat} (_hH : 1 ≤ H) (a : Nat) :
    InvI qs H a [] ({ first := PSquare.initState qs, second := PSquare.initState qs, active := ⟨a, .first⟩, inactive := none } : Obj w α) .first :=
  ⟨rfl, by simp [Spec.curBlock]; rfl, fun _ => ⟨rfl, rfl, rfl⟩, fun h => by simp at h⟩

theorem slots_qs (hL : paramLength qs.length < 2 ^ w) (hH : 1 ≤ H) (hHw : H < 2 ^ w) {xs : List α} {o : Obj w α} {k : Slot} (hi : InvI qs H a xs o k) :
    o.first.qs = qs ∧ o.second.qs = qs := by
  have hcl := Spec.length_curBlock_le hH xs
  obtain ⟨-, h1⟩ := pushes_count hL (by omega) hi.cur
  rcases Nat.lt_or_ge H xs.length with h | h
  · obtain ⟨-, h3⟩ := hi.many h
    obtain ⟨-, h4⟩ := pushes_count hL (by rw [Spec.length_prevBlock hH]; split_ifs <;> omega) h3
    cases k
    · exact ⟨h1, h4⟩
    · exact ⟨h4, h1⟩
  · obtain ⟨rfl, -, h3⟩ := hi.few h
    exact ⟨h1, by rw [h3]; rfl⟩

/-- A history of calls on the object at `a`, starting with values `ys` already pushed. -/
theorem run_invI {W : Nat} (hL : paramLength qs.length < 2 ^ w) (hH : 1 ≤ W / 2) (hW : W < 2 ^ w) {ys : List α}
    {o : Obj w α} {k : Slot} (hi : InvI qs (W / 2) a ys o k) (ops : List (Op α)) :
    ∃ o' k', (∀ m : Mem w α, (m.set a (some o)).run W a ops = some (m.set a (some o')))
      ∧ InvI qs (W / 2) a (sinceClear (ys.map Op.push ++ ops)) o' k' := by
  induction ops using List.reverseRecOn with
  | nil => exact ⟨o, k, fun _ => rfl, by rw [List.append_nil, sinceClear_pushes]; exact hi⟩
  | append_singleton ops op ih =>
    obtain ⟨o', k', h1, h2⟩ := ih
    unfold Mem.run at h1 ⊢
    cases op with
    | push x =>
      obtain ⟨o2, k2, h3, h4⟩ := push_invI hL hH hW h2 x
      exact ⟨o2, k2, fun m => by rw [runOps_append, h1]; exact h3 m, by rw [← List.append_assoc, sinceClear_append_push]; exact h4⟩
    | clear =>
      obtain ⟨q1, q2⟩ := slots_qs hL hH (by omega) h2
      refine ⟨⟨o'.first.clear, o'.second.clear, ⟨a, .first⟩, none⟩, .first,
        fun m => by rw [runOps_append, h1]; simp [runOps, Mem.clear], ?_⟩
      rw [← List.append_assoc, sinceClear_append_clear, PSquare.clear, PSquare.clear, q1, q2]
      exact init_invI qs hH a

/-- `get` in terms of the two half windows. -/
theorem get_invI {W : Nat} (hL : paramLength qs.length < 2 ^ w) (hH : 1 ≤ W / 2) (hW : W < 2 ^ w) {m : Mem w α} {xs : List α}
    {o : Obj w α} {k : Slot} (hi : InvI qs (W / 2) a xs o k) (i : Nat) :
    (m.set a (some o)).get W a i =
      if xs.length ≤ W / 2 then (pushes w qs xs).bind (·.get i)
      else do
        let p ← (pushes w qs (Spec.prevBlock (W / 2) xs)).bind (·.get i)
        let c ← (pushes w qs (Spec.curBlock (W / 2) xs)).bind (·.get i)
        return (p * ofNat (W / 2 - (Spec.curBlock (W / 2) xs).length) + c * ofNat (2 * (Spec.curBlock (W / 2) xs).length))
          / ofNat (W / 2 + (Spec.curBlock (W / 2) xs).length) := by
  have hw2 : 2 < 2 ^ w := by unfold paramLength at hL; omega
  have hcl := Spec.length_curBlock_le hH xs
  obtain ⟨hcnt, -⟩ := pushes_count hL (by omega) hi.cur
  unfold Mem.get
  simp only [Mem.set_self, Option.bind_eq_bind, Option.bind_some, hi.active, Mem.load_set]
  by_cases hfew : xs.length ≤ W / 2
  · obtain ⟨rfl, hin, -⟩ := hi.few hfew
    rw [hin, if_pos hfew]
    have := hi.cur
    rw [Spec.curBlock_of_le hH hfew] at this
    rw [this]; rfl
  · obtain ⟨hin, hprev⟩ := hi.many (by omega)
    rw [hin, if_neg hfew]
    simp only [Mem.load_set, Option.bind_some, hprev, hi.cur]
    have h2 : (2 : SizeT w) = BitVec.ofNat w 2 := rfl
    rw [PSquare.size, hcnt, half_eq hw2 hW, ofNat_sub hcl, h2, ← BitVec.ofNat_mul, ← BitVec.ofNat_add,
      ofSize_ofNat (by omega), ofSize_ofNat (by omega), ofSize_ofNat (by omega)]

theorem empty_invI {W : Nat} (hL : paramLength qs.length < 2 ^ w) (hH : 1 ≤ W / 2) (hW : W < 2 ^ w) {m : Mem w α} {xs : List α}
    {o : Obj w α} {k : Slot} (hi : InvI qs (W / 2) a xs o k) :
    (m.set a (some o)).empty a = some (decide (xs.length = 0)) := by
  have hcl := Spec.length_curBlock_le hH xs
  obtain ⟨hcnt, -⟩ := pushes_count hL (by omega) hi.cur
  have he : (o.slot k).empty = decide (xs.length = 0) := by
    rw [PSquare.empty, hcnt, ofNat_beq_zero (by omega)]
    refine decide_eq_decide.2 ?_
    rw [List.length_eq_zero_iff, List.length_eq_zero_iff]; exact Spec.curBlock_eq_nil hH xs
  unfold Mem.empty
  simp only [Mem.set_self, Option.bind_eq_bind, Option.bind_some, hi.active, Mem.load_set, he]
  by_cases h0 : xs.length = 0
  · obtain ⟨-, hin, -⟩ := hi.few (by omega)
    simp [h0, hin]
  · simp [h0]

end Verif.InterimPSquare
