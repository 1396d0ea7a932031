import Verif.Props.PSquare
import Verif.Proofs.InterimPSquare
/-
C43, C44: the interim quantile estimator.

`W` is the window, `W / 2` the length of the two half windows.  Objects live at addresses in a memory `m`.
-/
namespace Verif.Props
open Scalar Exact Verif.PSquare Verif.InterimPSquare

variable {w : Nat} {ε : ℝ}

section any
variable {α : Type} [Scalar α]

/-- The `i`-th result of a new P-square estimator after the values `xs`. -/
def estimate (w : Nat) (quantiles : List Ratio) (xs : List α) (i : Nat) : Option α :=
  (PSquare.run quantiles (xs.map Op.push) : Option (PSquare w α)).bind (·.get i)

theorem estimate_eq (quantiles : List Ratio) (hL : 2 * quantiles.length + 3 < 2 ^ w) (xs : List α) (h : xs.length < 2 ^ w) (i : Nat) :
    estimate w quantiles xs i = (pushes w (quantiles.map Ratio.toScalar) xs).bind (·.get i) := by
  rw [estimate, run_eq_pushes quantiles hL _ (by simpa using h), sinceClear_pushes]

/-- The state of memory after constructing an object at `a` and calling `ops` on it. -/
def interim (quantiles : List Ratio) (W : Nat) (m : Mem w α) (a : Nat) (ops : List (Op α)) : Option (Mem w α) :=
  (m.construct quantiles a).run W a ops

theorem interim_inv {quantiles : List Ratio} (hL : 2 * quantiles.length + 3 < 2 ^ w) {W : Nat} (hW : 2 ≤ W) (hWw : W < 2 ^ w)
    (m : Mem w α) (a : Nat) (ops : List (Op α)) :
    ∃ o k, interim quantiles W m a ops = some (m.set a (some o))
      ∧ InvI (quantiles.map Ratio.toScalar) (W / 2) a (sinceClear ops) o k := by
  have hL' : paramLength (quantiles.map (Ratio.toScalar : Ratio → α)).length < 2 ^ w := by simpa [paramLength] using hL
  obtain ⟨o, k, h1, h2⟩ := run_invI hL' (by omega) hWw (init_invI (quantiles.map (Ratio.toScalar : Ratio → α))
    (show 1 ≤ W / 2 by omega) a) ops
  exact ⟨o, k, h1 m, h2⟩

/-- C43, any arithmetic: no call uses an invalid pointer or changes another object; while at most half a window
of values has been pushed `get<i>()` is the P-square estimate of all values, afterwards the weighted average
of the estimates of the previous full half window and the current one.  Values before `clear()` do not count. -/
theorem C43_interim {quantiles : List Ratio} (hL : 2 * quantiles.length + 3 < 2 ^ w) {W : Nat} (hW : 2 ≤ W) (hWw : W < 2 ^ w)
    (m : Mem w α) (a : Nat) (ops : List (Op α)) :
    ∃ m', interim quantiles W m a ops = some m' ∧ (∀ b, b ≠ a → m' b = m b)
      ∧ m'.empty a = some (decide ((sinceClear ops).length = 0))
      ∧ ∀ i, m'.get W a i =
          let xs := sinceClear ops
          let H := W / 2
          let s := (Spec.curBlock H xs).length
          if xs.length ≤ H then estimate w quantiles xs i
          else do
            let p ← estimate w quantiles (Spec.prevBlock H xs) i
            let c ← estimate w quantiles (Spec.curBlock H xs) i
            return (p * ofNat (H - s) + c * ofNat (2 * s)) / ofNat (H + s) := by
  have hL' : paramLength (quantiles.map (Ratio.toScalar : Ratio → α)).length < 2 ^ w := by simpa [paramLength] using hL
  obtain ⟨o, k, h1, h2⟩ := interim_inv hL hW hWw m a ops
  refine ⟨_, h1, fun b hb => Mem.set_ne m _ hb, empty_invI hL' (by omega) hWw h2, fun i => ?_⟩
  rw [get_invI hL' (by omega) hWw h2]
  dsimp only
  have hcl := Spec.length_curBlock_le (show 1 ≤ W / 2 by omega) (sinceClear ops)
  have hpl := Spec.length_prevBlock (show 1 ≤ W / 2 by omega) (sinceClear ops)
  split_ifs with hc
  · rw [estimate_eq quantiles hL _ (by omega)]
  · rw [if_neg hc] at hpl
    rw [estimate_eq quantiles hL _ (by omega), estimate_eq quantiles hL _ (by omega)]

/-- C43: `value<Q>()` is `get<i>()` for the index of `Q`, if the quantiles are given in ascending order (otherwise see C39). -/
theorem C43_value {quantiles : List Ratio} (hd : ∀ r ∈ quantiles, 0 < r.den ∧ 0 < r.val ∧ r.val < 1)
    (hasc : quantiles.Pairwise fun a b => a.val < b.val) (W : Nat) (m : Mem w α) (a : Nat) {i : Nat} (hi : i < quantiles.length) :
    m.value quantiles W a quantiles[i] = m.get W a (i + 1) := by
  rw [Mem.value, findIdx_ascending hd hasc hi]

/-- C43, clear: after `clear()` the estimator gives the same results as a new one, any arithmetic. -/
theorem C43_clear {quantiles : List Ratio} (hL : 2 * quantiles.length + 3 < 2 ^ w) {W : Nat} (hW : 2 ≤ W) (hWw : W < 2 ^ w)
    (m : Mem w α) (a : Nat) (pre post : List (Op α)) :
    ∃ m1 m2, interim quantiles W m a (pre ++ .clear :: post) = some m1 ∧ interim quantiles W m a post = some m2
      ∧ m1.empty a = m2.empty a ∧ ∀ i, m1.get W a i = m2.get W a i := by
  obtain ⟨m1, h1, -, h2, h3⟩ := C43_interim hL hW hWw m a (pre ++ .clear :: post)
  obtain ⟨m2, k1, -, k2, k3⟩ := C43_interim hL hW hWw m a post
  rw [sinceClear_clear_append] at h2 h3
  exact ⟨m1, m2, h1, k1, h2.trans k2.symm, fun i => (h3 i).trans (k3 i).symm⟩

end any

theorem estimate_fin {quantiles : List Ratio} (hq : Quantiles quantiles) (hL : 2 * quantiles.length + 3 < 2 ^ w)
    {xs : List ℝ} (hn : xs.length < 2 ^ w) (hne : xs ≠ []) {i : Nat} (hi : i ≤ quantiles.length + 1) :
    ∃ v : ℝ, estimate w quantiles (xs.map X.fin : List (E ε)) i = some (X.fin v)
      ∧ ∀ lo hi, (∀ x ∈ xs, lo ≤ x ∧ x ≤ hi) → lo ≤ v ∧ v ≤ hi := by
  have hsc : sinceClear (xs.map Op.push) = xs := sinceClear_pushes xs
  have key := fun (lo hi : ℝ) (h : ∀ x ∈ xs, lo ≤ x ∧ x ≤ hi) => C37_within (w := w) (ε := ε) hq hL (xs.map Op.push)
    (by simpa using hn) (by rw [hsc]; exact hne) (lo := lo) (hi := hi) (by rw [hsc]; exact h) ‹i ≤ _›
  have hl : 0 < xs.length := List.length_pos_iff.2 hne
  have e : finOps (xs.map Op.push) = (xs.map X.fin : List (E ε)).map Op.push := by simp [finOps, Op.map]
  obtain ⟨s, v, hs, hg, -⟩ := key _ _ fun x hx => ⟨(sorted_least hl).2 hx, (sorted_greatest hl).2 hx⟩
  refine ⟨v, ?_, fun lo hi h => ?_⟩
  · rw [estimate, ← e, hs]; exact hg
  · obtain ⟨s', v', hs', hg', hb⟩ := key lo hi h
    obtain rfl : s = s' := Option.some.inj (hs.symm.trans hs')
    obtain rfl : v = v' := X.fin_inj.1 (Option.some.inj (hg.symm.trans hg'))
    exact hb

/-- C43, exact arithmetic: for a non-empty estimator and quantiles in [0, 1) the result is a number: the
estimate `c` of the current half window while it is the only one, otherwise the average with weights
`W/2 - s : 2 s` of the estimate `p` of the previous one and `c`; it lies within the data of the two half
windows. -/
theorem C43_exact {quantiles : List Ratio} (hq : Quantiles quantiles) (hL : 2 * quantiles.length + 3 < 2 ^ w) {W : Nat}
    (hW : 2 ≤ W) (hWw : W < 2 ^ w) (m : Mem w (E ε)) (a : Nat) (ops : List (Op ℝ)) (hne : sinceClear ops ≠ []) {i : Nat}
    (hi : i ≤ quantiles.length + 1) :
    ∃ (m' : Mem w (E ε)) (v : ℝ), interim quantiles W m a (finOps ops) = some m' ∧ m'.get W a i = some (X.fin v)
      ∧ (let xs := sinceClear ops
         let H := W / 2
         let s := (Spec.curBlock H xs).length
         (xs.length ≤ H → estimate w quantiles (xs.map X.fin : List (E ε)) i = some (X.fin v))
         ∧ (H < xs.length → ∃ p c : ℝ,
            estimate w quantiles ((Spec.prevBlock H xs).map X.fin : List (E ε)) i = some (X.fin p)
            ∧ estimate w quantiles ((Spec.curBlock H xs).map X.fin : List (E ε)) i = some (X.fin c)
            ∧ v = Spec.blend (H - s) (2 * s) p c)
         ∧ ∀ lo hi, (∀ x ∈ Spec.prevBlock H xs ++ Spec.curBlock H xs, lo ≤ x ∧ x ≤ hi) → lo ≤ v ∧ v ≤ hi) := by
  have hH : 1 ≤ W / 2 := by omega
  obtain ⟨m', h1, -, -, h2⟩ := C43_interim (α := E ε) hL hW hWw m a (finOps ops)
  have hg := h2 i
  dsimp only at hg ⊢
  rw [sinceClear_finOps, List.length_map, Spec.curBlock_map, Spec.prevBlock_map, List.length_map] at hg
  have hcl := Spec.length_curBlock_le hH (sinceClear ops)
  have hpl := Spec.length_prevBlock hH (sinceClear ops)
  have hcne : Spec.curBlock (W / 2) (sinceClear ops) ≠ [] := fun h => hne ((Spec.curBlock_eq_nil hH _).1 h)
  have hc0 : 0 < (Spec.curBlock (W / 2) (sinceClear ops)).length := List.length_pos_iff.2 hcne
  obtain ⟨c, hc, hcb⟩ := estimate_fin (ε := ε) hq hL (xs := Spec.curBlock (W / 2) (sinceClear ops)) (by omega) hcne hi
  by_cases hn : (sinceClear ops).length ≤ W / 2
  · rw [if_pos hn] at hg
    have e := Spec.curBlock_of_le hH hn
    have ep := (Spec.prevBlock_eq_nil hH _).2 hn
    rw [e] at hc hcb
    refine ⟨m', c, h1, hg.trans hc, fun _ => hc, fun h => absurd h (by omega), fun lo hi h => ?_⟩
    rw [ep, e, List.nil_append] at h
    exact hcb lo hi h
  · rw [if_neg hn] at hg hpl
    have hpne : Spec.prevBlock (W / 2) (sinceClear ops) ≠ [] := fun h => hn ((Spec.prevBlock_eq_nil hH _).1 h)
    obtain ⟨p, hp, hpb⟩ := estimate_fin (ε := ε) hq hL (xs := Spec.prevBlock (W / 2) (sinceClear ops)) (by omega) hpne hi
    rw [hp, hc] at hg
    generalize hs : (Spec.curBlock (W / 2) (sinceClear ops)).length = s at *
    have hs0 : (0 : ℝ) < s := by exact_mod_cast hc0
    have hsH : (s : ℝ) ≤ ((W / 2 : Nat) : ℝ) := by exact_mod_cast hcl
    have hden : ((W / 2 + s : Nat) : ℝ) ≠ 0 := by exact_mod_cast (by omega : W / 2 + s ≠ 0)
    refine ⟨m', Spec.blend (((W / 2 : Nat) : ℝ) - s) (2 * s) p c, h1, hg.trans ?_, fun h => absurd h hn,
      fun _ => ⟨p, c, hp, hc, rfl⟩, fun lo hi h => ?_⟩
    · simp only [Option.bind_eq_bind, Option.bind_some, Option.pure_def, Exact.ofNat_eq, Exact.mul_fin, Exact.add_fin]
      rw [Exact.div_fin _ hden]
      congr 2
      rw [Spec.blend, Nat.cast_sub hcl]
      push_cast
      congr 1 <;> ring
    · exact Spec.blend_mem (by linarith) (by linarith) (by linarith)
        (hpb lo hi fun x hx => h x (List.mem_append_left _ hx)) (hcb lo hi fun x hx => h x (List.mem_append_right _ hx))

/-- The first eight values of `demoQ7` in a window of four: half windows 5, -2 and 12, 6. -/
example (m : Mem 64 (E ε)) : ∃ (m' : Mem 64 (E ε)) (v : ℝ), interim [median] 4 m 0 (finOps demoQ7) = some m'
    ∧ m'.get 4 0 1 = some (X.fin v) ∧ -2 ≤ v ∧ v ≤ 12 := by
  obtain ⟨m', v, h1, h2, -, -, h3⟩ := C43_exact (w := 64) median_ok (by decide) (W := 4) (by decide) (by decide) m 0 demoQ7
    (by simp [demoQ7, sinceClear]) (i := 1) (by decide)
  refine ⟨m', v, h1, h2, h3 _ _ ?_⟩
  show ∀ x ∈ [5, -2, 12, (6 : ℝ)], -2 ≤ x ∧ x ≤ 12
  norm_num

/-! ### C44 -/

section any
variable {α : Type} [Scalar α]

/-- C44: directly after the copy both objects give the same results, any arithmetic. -/
theorem C44_same_results (m : Mem w α) (src dst W : Nat) (o : Obj w α) (h : m src = some o) (hne : src ≠ dst) :
    ∃ m', m.copy dst src = some m' ∧ m' src = some o ∧ (∀ i, m'.get W dst i = m'.get W src i) ∧ m'.empty dst = m'.empty src := by
  refine ⟨m.set dst (some o), by simp [Mem.copy, h], by rw [Mem.set_ne _ _ hne, h], fun i => ?_, ?_⟩
  · unfold Mem.get
    rw [Mem.set_self, Mem.set_ne _ _ hne, h]
  · unfold Mem.empty
    rw [Mem.set_self, Mem.set_ne _ _ hne, h]

/-- C44: what happens instead.  Unless the current half window is full, pushing to the copy changes the
original exactly as pushing to the original would, and leaves the members of the copy as they are. -/
theorem C44_push_changes_original {quantiles : List Ratio} (hL : 2 * quantiles.length + 3 < 2 ^ w) {W : Nat} (hW : 2 ≤ W)
    (hWw : W < 2 ^ w) (m : Mem w α) (src dst : Nat) (hne : src ≠ dst) (ops : List (Op α))
    (hroom : (Spec.curBlock (W / 2) (sinceClear ops)).length < W / 2) (x : α) :
    ∃ m1 m2 m3 mx, interim quantiles W m src ops = some m1 ∧ m1.copy dst src = some m2 ∧ m2.push W dst x = some m3
      ∧ interim quantiles W m src (ops ++ [.push x]) = some mx
      ∧ m3 src = mx src ∧ (∀ i, m3.get W src i = mx.get W src i) ∧ m3 dst = m1 src := by
  have hL' : paramLength (quantiles.map (Ratio.toScalar : Ratio → α)).length < 2 ^ w := by simpa [paramLength] using hL
  have hw2 : 2 < 2 ^ w := by omega
  obtain ⟨o, k, h1, hi⟩ := interim_inv hL hW hWw m src ops
  obtain ⟨hcnt, -⟩ := pushes_count hL' (by omega) hi.cur
  obtain ⟨s', p, h, d, hs', hinv⟩ := pushes_inv (w := w) _ hL' (Spec.curBlock (W / 2) (sinceClear ops)) (by omega)
  obtain ⟨s2, p', h', d', hp, -⟩ := push_inv hL' (by omega) hinv x
  have e : o.slot k = s' := Option.some.inj (hi.cur.symm.trans hs')
  rw [← e] at hp
  have hge : ¬ ((o.slot k).size ≥ BitVec.ofNat w W / 2) := by
    rw [PSquare.size, hcnt, half_eq hw2 hWw, ge_iff (by omega) (by omega)]; omega
  have hnext : interim quantiles W m src (ops ++ [.push x]) = some (m.set src (some (o.setSlot k s2))) := by
    have : interim quantiles W m src (ops ++ [.push x]) = (interim quantiles W m src ops).bind (Mem.push W · src x) := by
      unfold interim Mem.run
      rw [runOps_append]; rfl
    rw [this, h1, Option.bind_some]
    unfold Mem.push Mem.swapWindows
    simp only [Mem.set_self, Option.bind_eq_bind, Option.bind_some, hi.active, Mem.load_set, if_neg hge, Option.pure_def, hp,
      Mem.store_set]
  refine ⟨_, (m.set src (some o)).set dst (some o), ((m.set src (some o)).set dst (some o)).set src (some (o.setSlot k s2)),
    _, h1, by simp [Mem.copy], ?_, hnext, by simp, fun i => ?_, ?_⟩
  · have hsrc : ((m.set src (some o)).set dst (some o)) src = some o := by
      rw [Mem.set_ne _ _ hne, Mem.set_self]
    have hload : Mem.load ((m.set src (some o)).set dst (some o)) ⟨src, k⟩ = some (o.slot k) := by
      unfold Mem.load; rw [hsrc]; rfl
    unfold Mem.push Mem.swapWindows
    simp only [Mem.set_self, Option.bind_eq_bind, Option.bind_some, hi.active, hload, if_neg hge, Option.pure_def, hp]
    unfold Mem.store
    rw [hsrc]; rfl
  · obtain ⟨o', k', h1', hi'⟩ := interim_inv hL hW hWw m src (ops ++ [.push x])
    have heq := congrFun (Option.some.inj (hnext.symm.trans h1')) src
    rw [Mem.set_self, Mem.set_self, Option.some.injEq] at heq
    rw [heq, get_invI hL' (by omega) hWw hi', get_invI hL' (by omega) hWw hi']
  · rw [Mem.set_ne _ _ (Ne.symm hne), Mem.set_self, Mem.set_self]

/-- C44: after the original is destroyed every use of the copy is undefined behaviour, for every history of the
original. -/
theorem C44_dangling {quantiles : List Ratio} (hL : 2 * quantiles.length + 3 < 2 ^ w) {W : Nat} (hW : 2 ≤ W)
    (hWw : W < 2 ^ w) (m : Mem w α) (src dst : Nat) (hne : src ≠ dst) (ops : List (Op α)) (x : α) (i : Nat) :
    ∃ m1 m2, interim quantiles W m src ops = some m1 ∧ m1.copy dst src = some m2
      ∧ (m2.destroy src).push W dst x = none ∧ (m2.destroy src).get W dst i = none ∧ (m2.destroy src).empty dst = none := by
  obtain ⟨o, k, h1, hi⟩ := interim_inv hL hW hWw m src ops
  refine ⟨_, (m.set src (some o)).set dst (some o), h1, by simp [Mem.copy], ?_⟩
  have hdst : (((m.set src (some o)).set dst (some o)).destroy src) dst = some o := by
    unfold Mem.destroy; rw [Mem.set_ne _ _ (Ne.symm hne), Mem.set_self]
  have hload : Mem.load (((m.set src (some o)).set dst (some o)).destroy src) ⟨src, k⟩ = none := by
    unfold Mem.load Mem.destroy; simp
  refine ⟨?_, ?_, ?_⟩
  · unfold Mem.push Mem.swapWindows
    simp only [hdst, Option.bind_eq_bind, Option.bind_some, hi.active, hload, Option.bind_none]
  · unfold Mem.get
    simp only [hdst, Option.bind_eq_bind, Option.bind_some, hi.active, hload, Option.bind_none]
  · unfold Mem.empty
    simp only [hdst, Option.bind_eq_bind, Option.bind_some, hi.active, hload, Option.bind_none]

/-- C44 for a copy that is cleared first, any arithmetic: from then on it is independent of the original (which
keeps its state) and behaves like a new object.
Missing for the full statement: copies that are not cleared, see `C44_violated`. -/
theorem C44_clear_partial {quantiles : List Ratio} (hL : 2 * quantiles.length + 3 < 2 ^ w) {W : Nat} (hW : 2 ≤ W)
    (hWw : W < 2 ^ w) (m : Mem w α) (src dst : Nat) (hne : src ≠ dst) (ops ops' : List (Op α)) :
    ∃ m1 m2 m3 m4, interim quantiles W m src ops = some m1 ∧ m1.copy dst src = some m2 ∧ m2.clear dst = some m3
      ∧ m3.run W dst ops' = some m4 ∧ m4 src = m1 src
      ∧ ∃ mx, interim quantiles W m dst ops' = some mx ∧ m4 dst = mx dst := by
  have hL' : paramLength (quantiles.map (Ratio.toScalar : Ratio → α)).length < 2 ^ w := by simpa [paramLength] using hL
  obtain ⟨o, k, h1, hi⟩ := interim_inv hL hW hWw m src ops
  obtain ⟨q1, q2⟩ := slots_qs hL' (show 1 ≤ W / 2 by omega) (by omega) hi
  let o0 : Obj w α := ⟨PSquare.initState (quantiles.map Ratio.toScalar), PSquare.initState (quantiles.map Ratio.toScalar), ⟨dst, .first⟩, none⟩
  have hinit := init_invI (w := w) (quantiles.map (Ratio.toScalar : Ratio → α)) (show 1 ≤ W / 2 by omega) dst
  obtain ⟨o', k', f, -⟩ := run_invI hL' (by omega) hWw hinit ops'
  refine ⟨_, (m.set src (some o)).set dst (some o), (m.set src (some o)).set dst (some o0),
    (m.set src (some o)).set dst (some o'), h1, by simp [Mem.copy], ?_, f _, ?_, _, f m, ?_⟩
  · unfold Mem.clear
    rw [Mem.set_self]
    simp only [Option.map_some, Mem.set_set, PSquare.clear, q1, q2]; rfl
  · rw [Mem.set_ne _ _ hne]
  · rw [Mem.set_self, Mem.set_self]

end any

/-- The values 1, 5. -/
def demo15 : List (Op ℝ) := [.push 1, .push 5]

theorem median_1 (ε : ℝ) : estimate 64 [median] ([X.fin 1] : List (E ε)) 1 = some (X.fin 1) := by
  obtain ⟨s, h, -, -, -, hg⟩ := C35_few (w := 64) (ε := ε) median_ok (by decide) [.push 1] (by decide) (by decide)
  have e : (finOps [.push 1] : List (Op (E ε))) = [X.fin 1].map Op.push := rfl
  rw [estimate, ← e, h, Option.bind_some, hg (by simp [sinceClear]) 1 (by decide)]
  have : Spec.sorted (sinceClear [Op.push (1 : ℝ)]) = [1] := rfl
  rw [Spec.quantile, this]
  simp [sinceClear]

theorem median_15 (ε : ℝ) : estimate 64 [median] ([X.fin 1, X.fin 5] : List (E ε)) 1 = some (X.fin 3) := by
  obtain ⟨s, h, -, -, -, hg⟩ := C35_few (w := 64) (ε := ε) median_ok (by decide) demo15 (by decide) (by decide)
  have e : (finOps demo15 : List (Op (E ε))) = [X.fin 1, X.fin 5].map Op.push := rfl
  rw [estimate, ← e, h, Option.bind_some, hg (by simp [demo15, sinceClear]) 1 (by decide)]
  have hs : Spec.sorted (sinceClear demo15) = [1, 5] := Spec.sorted_unique (by exact List.Perm.refl _) (by norm_num)
  have hlen : ((sinceClear demo15).length : ℝ) = 2 := by norm_num [demo15, sinceClear]
  have f : ⌊(1 / 2 : ℝ)⌋₊ = 0 := by rw [Nat.floor_eq_zero]; norm_num
  have c : ⌈(1 / 2 : ℝ)⌉₊ = 1 := by rw [Nat.ceil_eq_iff (by norm_num)]; norm_num
  have hq : quantileAt [median] 1 = 1 / 2 := by simp [quantileAt, median, Ratio.val]
  rw [hq, Spec.quantile, hlen, show (1 / 2 : ℝ) * (2 - 1) = 1 / 2 by norm_num, f, c, hs]
  norm_num

/-- A violation of C44.  A median estimator (window 4) holds the value 1; after copying it and pushing 5 to
the copy, the median of the original is 3. -/
theorem C44_witness (ε : ℝ) (m : Mem 64 (E ε)) :
    ∃ m1 m2 m3, interim [median] 4 m 0 [.push (X.fin 1)] = some m1 ∧ m1.copy 1 0 = some m2
      ∧ m2.push 4 1 (X.fin 5) = some m3
      ∧ m1.get 4 0 1 = some (X.fin 1) ∧ m3.get 4 0 1 = some (X.fin 3) := by
  obtain ⟨m1, m2, m3, mx, h1, h2, h3, h4, -, h5, -⟩ := C44_push_changes_original (w := 64) (α := E ε) (quantiles := [median])
    (by decide) (W := 4) (by decide) (by decide) m 0 1 (by decide) [.push (X.fin 1)] (by simp [sinceClear, Spec.curBlock]) (X.fin 5)
  refine ⟨m1, m2, m3, h1, h2, h3, ?_, ?_⟩
  · obtain ⟨m', k1, -, -, k2⟩ := C43_interim (w := 64) (α := E ε) (quantiles := [median]) (by decide) (W := 4) (by decide)
      (by decide) m 0 [.push (X.fin 1)]
    obtain rfl : m1 = m' := Option.some.inj (h1.symm.trans k1)
    rw [k2 1]
    exact median_1 ε
  · obtain ⟨m', k1, -, -, k2⟩ := C43_interim (w := 64) (α := E ε) (quantiles := [median]) (by decide) (W := 4) (by decide)
      (by decide) m 0 ([.push (X.fin 1)] ++ [.push (X.fin 5)])
    obtain rfl : mx = m' := Option.some.inj (h4.symm.trans k1)
    rw [h5 1, k2 1]
    exact median_15 ε

/-- C44: pushing to a copy does not change the results of the original. -/
def C44_Statement (w : Nat) (ε : ℝ) : Prop :=
  ∀ (quantiles : List Ratio) (W : Nat) (m m1 m2 m3 : Mem w (E ε)) (src dst : Nat) (ops : List (Op (E ε))) (x : E ε),
    2 ≤ W → src ≠ dst → interim quantiles W m src ops = some m1 → m1.copy dst src = some m2 → m2.push W dst x = some m3 →
    ∀ i, m3.get W src i = m1.get W src i

/-- C44 is violated. -/
theorem C44_violated (ε : ℝ) : ¬ C44_Statement 64 ε := by
  intro h
  obtain ⟨m1, m2, m3, h1, h2, h3, h4, h5⟩ := C44_witness ε (fun _ => none)
  have h6 := h [median] 4 _ m1 m2 m3 0 1 _ _ (by decide) (by decide) h1 h2 h3 1
  rw [h4, h5, Option.some.injEq, X.fin_inj] at h6
  norm_num at h6

example (m : Mem 64 (E ε)) := C44_dangling (w := 64) (quantiles := [median]) (by decide) (W := 4) (by decide) (by decide) m 0 1
  (by decide) [.push (X.fin 1)] (X.fin 5) 1
example (m : Mem 64 (E ε)) := C44_clear_partial (w := 64) (quantiles := [median]) (by decide) (W := 4) (by decide) (by decide) m
  0 1 (by decide) [.push (X.fin 1)] [.push (X.fin 5)]
example (m : Mem 64 (E ε)) := C43_clear (w := 64) (quantiles := [median]) (by decide) (W := 4) (by decide) (by decide) m
  0 [.push (X.fin 1)] [.push (X.fin 5)]
end Verif.Props
