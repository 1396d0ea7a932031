import Verif.Proofs.Cumulative
import Verif.Proofs.Window
import Verif.Model.Interim
/-
The interim filters hold the filters of the two most recent blocks, in any arithmetic.
-/
namespace Verif.Spec
variable {β : Type}

theorem length_curBlock {W : Nat} (_hW : 1 ≤ W) (xs : List β) :
    (curBlock W xs).length = if xs = [] then 0 else (xs.length - 1) % W + 1 := by
  rw [curBlock, List.length_drop]
  split_ifs with h
  · simp [h]
  · have := List.length_pos_iff.2 h
    have := Nat.div_add_mod' (xs.length - 1) W
    omega

theorem length_curBlock_le {W : Nat} (hW : 1 ≤ W) (xs : List β) : (curBlock W xs).length ≤ W := by
  rw [length_curBlock hW]
  split_ifs
  · omega
  · have := Nat.mod_lt (xs.length - 1) hW
    omega

theorem curBlock_eq_nil {W : Nat} (hW : 1 ≤ W) (xs : List β) : curBlock W xs = [] ↔ xs = [] := by
  rw [← List.length_eq_zero_iff, length_curBlock hW]
  split_ifs with h <;> simp [h]

theorem length_prevBlock {W : Nat} (hW : 1 ≤ W) (xs : List β) :
    (prevBlock W xs).length = if xs.length ≤ W then 0 else W := by
  rw [prevBlock]
  by_cases hq : (xs.length - 1) / W = 0
  · rw [if_pos hq]
    have := (Nat.div_eq_zero_iff_lt hW).1 hq
    rw [if_pos (by omega)]; rfl
  · rw [if_neg hq, if_neg]
    · have h1 := Nat.div_add_mod' (xs.length - 1) W
      rw [List.length_take, List.length_drop]
      obtain ⟨q, hq'⟩ : ∃ q, (xs.length - 1) / W = q + 1 := ⟨_, (Nat.succ_pred_eq_of_ne_zero hq).symm⟩
      rw [hq'] at h1 ⊢
      rw [Nat.add_sub_cancel]
      rw [Nat.add_mul, one_mul] at h1
      omega
    · intro hle
      apply hq
      rw [Nat.div_eq_zero_iff_lt hW]
      omega

theorem prevBlock_eq_nil {W : Nat} (hW : 1 ≤ W) (xs : List β) :
    prevBlock W xs = [] ↔ xs.length ≤ W := by
  rw [← List.length_eq_zero_iff, length_prevBlock hW]
  split_ifs with h
  · simp [h]
  · simp only [h, iff_false]; omega

theorem curBlock_of_le {W : Nat} (hW : 1 ≤ W) {xs : List β} (h : xs.length ≤ W) :
    curBlock W xs = xs := by
  rw [curBlock, (Nat.div_eq_zero_iff_lt hW).2 (by omega)]
  simp

/-- The two blocks are the end of the list. -/
theorem blocks_suffix {W : Nat} (hW : 1 ≤ W) (xs : List β) :
    prevBlock W xs ++ curBlock W xs
      = lastN ((prevBlock W xs).length + (curBlock W xs).length) xs := by
  by_cases hq : (xs.length - 1) / W = 0
  · have hle : xs.length ≤ W := by
      have := (Nat.div_eq_zero_iff_lt hW).1 hq
      omega
    rw [(prevBlock_eq_nil hW xs).2 hle, curBlock_of_le hW hle]
    simp [lastN]
  · have h1 := Nat.div_add_mod' (xs.length - 1) W
    obtain ⟨q, hq'⟩ : ∃ q, (xs.length - 1) / W = q + 1 := ⟨_, (Nat.succ_pred_eq_of_ne_zero hq).symm⟩
    have hlen : ¬ xs.length ≤ W := by
      intro hle
      exact hq ((Nat.div_eq_zero_iff_lt hW).2 (by omega))
    have hne : xs ≠ [] := by rintro rfl; simp at hlen
    rw [length_prevBlock hW, if_neg hlen, length_curBlock hW, if_neg hne, prevBlock, if_neg hq, curBlock,
      lastN]
    rw [hq'] at h1 ⊢
    rw [Nat.add_sub_cancel, show (q + 1) * W = q * W + W by ring, ← List.drop_drop,
      List.take_append_drop]
    congr 1
    rw [Nat.add_mul, one_mul] at h1
    omega

theorem blocks_snoc {W : Nat} (hW : 1 ≤ W) (xs : List β) (x : β) :
    curBlock W (xs ++ [x])
        = (if (curBlock W xs).length = W then [x] else curBlock W xs ++ [x])
    ∧ prevBlock W (xs ++ [x])
        = (if (curBlock W xs).length = W then curBlock W xs else prevBlock W xs) := by
  by_cases hne : xs = []
  · subst hne
    have h0 : (curBlock W ([] : List β)).length ≠ W := by simp [curBlock]; omega
    rw [if_neg h0, if_neg h0]
    simp [curBlock, prevBlock]
  · obtain ⟨m, hm⟩ : ∃ m, xs.length = m + 1 :=
      ⟨_, (Nat.succ_pred_eq_of_pos (List.length_pos_iff.2 hne)).symm⟩
    have hl := length_curBlock hW xs
    rw [if_neg hne, hm, Nat.add_sub_cancel] at hl
    have h1 := Nat.div_add_mod' m W
    by_cases hfull : (curBlock W xs).length = W
    · rw [if_pos hfull, if_pos hfull]
      have hdiv : W ∣ m + 1 := by
        rw [Nat.dvd_iff_mod_eq_zero, Nat.add_mod]
        rcases Nat.lt_or_ge 1 W with h | h
        · rw [Nat.mod_eq_of_lt h, show m % W + 1 = W by omega, Nat.mod_self]
        · have : W = 1 := by omega
          subst this; simp [Nat.mod_one]
      have hq : (m + 1) / W = m / W + 1 := by rw [Nat.succ_div, if_pos hdiv]
      have hlen : (m / W + 1) * W = m + 1 := by rw [Nat.add_mul]; omega
      constructor
      · rw [curBlock, List.length_append, hm]
        simp only [List.length_singleton, Nat.add_sub_cancel]
        rw [hq, hlen, List.drop_append_of_le_length (by omega), List.drop_of_length_le (by omega)]
        rfl
      · rw [prevBlock, List.length_append, hm]
        simp only [List.length_singleton, Nat.add_sub_cancel]
        rw [hq, if_neg (Nat.succ_ne_zero _), Nat.add_sub_cancel,
          List.drop_append_of_le_length (by rw [hm]; omega)]
        have hc : curBlock W xs = xs.drop (m / W * W) := by rw [curBlock, hm, Nat.add_sub_cancel]
        rw [← hc, List.take_append_of_le_length (by omega), List.take_of_length_le (by omega)]
    · rw [if_neg hfull, if_neg hfull]
      have hlt : m % W + 1 < W := by
        have := Nat.mod_lt m hW
        omega
      have hq : (m + 1) / W = m / W := by
        rw [Nat.succ_div, if_neg, add_zero]
        rw [Nat.dvd_iff_mod_eq_zero, Nat.add_mod, Nat.mod_eq_of_lt (show 1 < W by omega),
          Nat.mod_eq_of_lt hlt]
        omega
      constructor
      · rw [curBlock, List.length_append, curBlock, hm]
        simp only [List.length_singleton, Nat.add_sub_cancel]
        rw [hq, List.drop_append_of_le_length (by rw [hm]; omega)]
      · rw [prevBlock, List.length_append, prevBlock, hm]
        simp only [List.length_singleton, Nat.add_sub_cancel]
        rw [hq]
        by_cases hq0 : m / W = 0
        · rw [if_pos hq0, if_pos hq0]
        · rw [if_neg hq0, if_neg hq0]
          obtain ⟨q, hq'⟩ : ∃ q, m / W = q + 1 := ⟨_, (Nat.succ_pred_eq_of_ne_zero hq0).symm⟩
          rw [hq'] at h1 ⊢
          rw [Nat.add_mul, one_mul] at h1
          rw [Nat.add_sub_cancel, List.drop_append_of_le_length (by rw [hm]; omega),
            List.take_append_of_le_length (by rw [List.length_drop, hm]; omega)]

theorem curBlock_map {γ : Type} (W : Nat) (f : β → γ) (xs : List β) :
    curBlock W (xs.map f) = (curBlock W xs).map f := by simp [curBlock, List.map_drop]

theorem prevBlock_map {γ : Type} (W : Nat) (f : β → γ) (xs : List β) :
    prevBlock W (xs.map f) = (prevBlock W xs).map f := by
  unfold prevBlock
  rw [List.length_map]
  split_ifs <;> simp [List.map_drop, List.map_take]

theorem drop_lastN (k m : Nat) (xs : List β) (h : xs.length ≤ k + m) :
    xs.drop k = (lastN m xs).drop (k - (xs.length - m)) := by
  rw [lastN, List.drop_drop]
  by_cases hk : xs.length - m ≤ k
  · congr 1; omega
  · omega

/-- The blocks are determined by the number of values and the last `2 W` of them. -/
theorem blocks_recent {W : Nat} (hW : 1 ≤ W) {xs ys : List β} (hl : xs.length = ys.length)
    (h : lastN (2 * W) xs = lastN (2 * W) ys) :
    curBlock W xs = curBlock W ys ∧ prevBlock W xs = prevBlock W ys := by
  have h1 := Nat.div_add_mod' (xs.length - 1) W
  have h2 := Nat.mod_lt (xs.length - 1) hW
  constructor
  · rw [curBlock, curBlock, drop_lastN _ (2 * W) xs (by omega), ← hl,
      drop_lastN _ (2 * W) ys (by omega), h, hl]
  · rw [prevBlock, prevBlock, ← hl]
    by_cases hq : (xs.length - 1) / W = 0
    · rw [if_pos hq, if_pos hq]
    · obtain ⟨q, hq'⟩ : ∃ q, (xs.length - 1) / W = q + 1 :=
        ⟨_, (Nat.succ_pred_eq_of_ne_zero hq).symm⟩
      rw [if_neg hq, if_neg hq]
      rw [hq'] at h1 ⊢
      rw [Nat.add_mul, one_mul] at h1
      rw [Nat.add_sub_cancel, drop_lastN _ (2 * W) xs (by omega), drop_lastN _ (2 * W) ys (by omega), h,
        hl]

theorem blend_mem {p q a b lo hi : ℝ} (hp : 0 ≤ p) (hq : 0 ≤ q) (hpq : 0 < p + q)
    (ha : lo ≤ a ∧ a ≤ hi) (hb : lo ≤ b ∧ b ≤ hi) : lo ≤ blend p q a b ∧ blend p q a b ≤ hi := by
  rw [blend, le_div_iff₀ hpq, div_le_iff₀ hpq]
  constructor <;> nlinarith [ha.1, ha.2, hb.1, hb.2]

theorem mean_bounds {lo hi : ℝ} {xs : List ℝ} (hne : xs ≠ []) (h : ∀ x ∈ xs, lo ≤ x ∧ x ≤ hi) :
    lo ≤ Spec.mean xs ∧ Spec.mean xs ≤ hi := by
  have hp : (0 : ℝ) < xs.length := by exact_mod_cast List.length_pos_iff.2 hne
  rw [Spec.mean, le_div_iff₀ hp, div_le_iff₀ hp]
  constructor
  · have := List.card_nsmul_le_sum xs lo (fun x hx => (h x hx).1)
    rw [nsmul_eq_mul] at this; linarith
  · have := List.sum_le_card_nsmul xs hi (fun x hx => (h x hx).2)
    rw [nsmul_eq_mul] at this; linarith

end Verif.Spec

namespace Verif.Interim
open Scalar Exact
open Verif.Cumulative (Mean Variance Skewness Kurtosis Comoment)

/-- What is used of the cumulative filters. -/
class LawfulBlock (σ : Type) (w : outParam Nat) (β : outParam Type) [Block σ w β] : Prop where
  clear_eq : ∀ s : σ, Block.clear s = (Block.init : σ)
  size_init : Block.size (Block.init : σ) = (0 : SizeT w)
  size_push : ∀ (s : σ) (x : β), Block.size (Block.push s x) = Block.size s + 1

variable {w W : Nat} {α : Type} [Scalar α]

instance : LawfulBlock (Mean w α) w α := ⟨fun _ => rfl, rfl, fun _ _ => rfl⟩
instance : LawfulBlock (Variance w α) w α := ⟨fun _ => rfl, rfl, fun _ _ => rfl⟩
instance : LawfulBlock (Skewness w α) w α := ⟨fun _ => rfl, rfl, fun _ _ => rfl⟩
instance : LawfulBlock (Kurtosis w α) w α := ⟨fun _ => rfl, rfl, fun _ _ => rfl⟩
instance : LawfulBlock (Comoment w α) w (α × α) := ⟨fun _ => rfl, rfl, fun _ _ => rfl⟩

section
variable {σ β : Type} [Block σ w β] [LawfulBlock σ w β]

/-- The filter of a block. -/
def foldB (l : List β) : σ := l.foldl Block.push Block.init

theorem size_foldB (l : List β) : Block.size (foldB l : σ) = BitVec.ofNat w l.length := by
  unfold foldB
  induction l using List.reverseRecOn with
  | nil => exact LawfulBlock.size_init
  | append_singleton l x ih =>
    rw [List.foldl_append, List.foldl_cons, List.foldl_nil, LawfulBlock.size_push, ih, ofNat_add_one,
      List.length_append, List.length_singleton]

omit [LawfulBlock σ w β] in
theorem foldB_snoc (l : List β) (x : β) : (foldB (l ++ [x]) : σ) = Block.push (foldB l) x := by
  simp [foldB]

theorem run_blocks (hW : 1 ≤ W) (hw : W < 2 ^ w) (ops : List (Op β)) :
    (Interim.run ops : Interim W σ)
      = { active := foldB (Spec.curBlock W (sinceClear ops))
          passive := foldB (Spec.prevBlock W (sinceClear ops)) } := by
  have hr := runOps_eq (Interim.init : Interim W σ) Interim.push Interim.clear
    (fun s => by simp [Interim.clear, Interim.init, LawfulBlock.clear_eq]) ops
  rw [Interim.run, hr]
  induction (sinceClear ops) using List.reverseRecOn with
  | nil => simp [Interim.init, foldB, Spec.curBlock, Spec.prevBlock]
  | append_singleton xs x ih =>
    rw [List.foldl_append, ih, List.foldl_cons, List.foldl_nil]
    obtain ⟨hc, hp⟩ := Spec.blocks_snoc hW xs x
    have hlen := Spec.length_curBlock_le hW xs
    rw [hc, hp]
    simp only [Interim.push, size_foldB]
    have hiff : (BitVec.ofNat w (Spec.curBlock W xs).length ≥ BitVec.ofNat w W)
        ↔ (Spec.curBlock W xs).length = W := by
      rw [ge_iff_le, BitVec.le_def, toNat_ofNat_lt hw, toNat_ofNat_lt (by omega)]
      omega
    by_cases hf : (Spec.curBlock W xs).length = W
    · rw [if_pos (hiff.2 hf), if_pos hf, if_pos hf, LawfulBlock.clear_eq]
      rfl
    · rw [if_neg (fun h => hf (hiff.1 h)), if_neg hf, if_neg hf, foldB_snoc]

theorem passiveEmpty_blocks (hW : 1 ≤ W) (hw : W < 2 ^ w) (xs : List β) (a : σ) :
    ({ active := a, passive := foldB (Spec.prevBlock W xs) } : Interim W σ).passiveEmpty
      = decide (xs.length ≤ W) := by
  rw [Interim.passiveEmpty, size_foldB, ofNat_beq_zero, Spec.length_prevBlock hW]
  · congr 1
    split_ifs with h
    · simp [h]
    · simp only [h, eq_iff_iff, iff_false]; omega
  · rw [Spec.length_prevBlock hW]; split_ifs <;> omega


variable {ε : ℝ} {γ : Type}

theorem meanWith_blocks (hW : 1 ≤ W) (hw : 2 * W < 2 ^ w) (e : γ → β) (getMean : σ → E ε)
    (m : List γ → ℝ)
    (hget : ∀ l : List γ, l.length ≤ W → getMean (foldB (l.map e)) = X.fin (m l))
    (ops : List (Op γ)) :
    let xs := sinceClear ops
    let s : ℝ := (Spec.curBlock W xs).length
    (Interim.run (ops.map (Op.map e)) : Interim W σ).meanWith getMean
      = X.fin (if xs.length ≤ W then m xs
          else Spec.blend (W - s) (2 * s) (m (Spec.prevBlock W xs)) (m (Spec.curBlock W xs))) := by
  intro xs s
  have hlc := Spec.length_curBlock_le hW xs
  rw [run_blocks hW (by omega), sinceClear_map, Interim.meanWith, passiveEmpty_blocks hW (by omega),
    List.length_map]
  by_cases hn : xs.length ≤ W
  · rw [decide_eq_true hn, if_pos rfl, if_pos hn, Spec.curBlock_map, hget _ hlc,
      Spec.curBlock_of_le hW hn]
  · rw [decide_eq_false hn, if_neg hn]
    have hlp : (Spec.prevBlock W xs).length ≤ W := by
      rw [Spec.length_prevBlock hW, if_neg hn]
    simp only [Bool.false_eq_true, if_false]
    have h2 : (2 : BitVec w) = BitVec.ofNat w 2 := rfl
    have hlc' : (Spec.curBlock W (sinceClear ops)).length ≤ W := hlc
    rw [size_foldB, Spec.curBlock_map, Spec.prevBlock_map, hget _ hlc, hget _ hlp, List.length_map,
      ofNat_sub hlc, h2, ← BitVec.ofNat_mul, ← BitVec.ofNat_add, ofSize_exact (by omega),
      ofSize_exact (by omega), ofSize_exact (by omega), mul_fin, mul_fin, add_fin]
    have hp : ((W + (Spec.curBlock W xs).length : ℕ) : ℝ) ≠ 0 := by
      have : 0 < W + (Spec.curBlock W xs).length := by omega
      exact_mod_cast this.ne'
    rw [div_fin _ hp, X.fin_inj, Spec.blend]
    push_cast [hlc]
    congr 1
    · simp only [s]; ring
    · simp only [s]; ring

/-- The weights of the variance fit into `size_t`. -/
theorem weights_bound {W s : Nat} (h : s < W) : (W - s) * (W - s) + 2 * s ≤ W * W ∨ W ≤ 1 := by
  obtain ⟨t, ht⟩ : ∃ t, W = s + t + 1 := ⟨W - s - 1, by omega⟩
  rcases Nat.lt_or_ge 1 W with hW | hW
  · left
    have : W - s = t + 1 := by omega
    rw [this, ht]
    have : 1 ≤ s + t := by omega
    nlinarith
  · right; exact hW

theorem varianceWith_blocks (hW : 1 ≤ W) (hw : W * W < 2 ^ w) (e : γ → β) (get : σ → E ε)
    (v : List γ → ℝ)
    (hget : ∀ l : List γ, l ≠ [] → l.length ≤ W → get (foldB (l.map e)) = X.fin (v l))
    (ops : List (Op γ)) (hne : sinceClear ops ≠ []) :
    let xs := sinceClear ops
    let s : ℝ := (Spec.curBlock W xs).length
    (Interim.run (ops.map (Op.map e)) : Interim W σ).varianceWith get
      = X.fin (if xs.length ≤ W then v xs
          else Spec.blend ((W - (s - 1)) ^ 2) (2 * (s - 1))
            (v (Spec.prevBlock W xs)) (v (Spec.curBlock W xs))) := by
  intro xs s
  have hlc := Spec.length_curBlock_le hW xs
  have hWw : W < 2 ^ w := by nlinarith
  have hcne : Spec.curBlock W xs ≠ [] := fun h => hne ((Spec.curBlock_eq_nil hW xs).1 h)
  have hc1 := List.length_pos_iff.2 hcne
  rw [run_blocks hW hWw, sinceClear_map, Interim.varianceWith, passiveEmpty_blocks hW hWw,
    List.length_map]
  by_cases hn : xs.length ≤ W
  · rw [decide_eq_true hn, if_pos rfl, if_pos hn, Spec.curBlock_map, hget _ hcne hlc,
      Spec.curBlock_of_le hW hn]
  · rw [decide_eq_false hn, if_neg hn]
    have hlp : (Spec.prevBlock W xs).length ≤ W := by
      rw [Spec.length_prevBlock hW, if_neg hn]
    have hpne : Spec.prevBlock W xs ≠ [] := fun h => hn ((Spec.prevBlock_eq_nil hW xs).1 h)
    simp only [Bool.false_eq_true, if_false]
    rw [size_foldB, Spec.curBlock_map, Spec.prevBlock_map, hget _ hcne hlc, hget _ hpne hlp,
      List.length_map]
    have h1 : (1 : BitVec w) = BitVec.ofNat w 1 := rfl
    have h2 : (2 : BitVec w) = BitVec.ofNat w 2 := rfl
    have hle : BitVec.ofNat w (Spec.curBlock W xs).length ≤ 1 ↔ (Spec.curBlock W xs).length ≤ 1 := by
      rw [h1, BitVec.le_def, toNat_ofNat_lt (by omega), toNat_ofNat_lt (by omega)]
    by_cases hs : (Spec.curBlock W xs).length ≤ 1
    · have hs1 : s = 1 := by
        have : (Spec.curBlock W xs).length = 1 := by omega
        simp only [s, this, Nat.cast_one]
      have hWr : (W : ℝ) ≠ 0 := by
        have : W ≠ 0 := by omega
        exact_mod_cast this
      rw [if_pos (hle.2 hs), hs1, Spec.blend]
      congr 1
      field_simp
      ring
    · rw [if_neg (fun h => hs (hle.1 h))]
      set c := (Spec.curBlock W xs).length with hc
      have hb : (W - (c - 1)) * (W - (c - 1)) + 2 * (c - 1) < 2 ^ w := by
        rcases weights_bound (W := W) (s := c - 1) (by omega) with h | h <;> omega
      have hp1 : 1 ≤ (W - (c - 1)) * (W - (c - 1)) := Nat.mul_pos (by omega) (by omega)
      rw [ofNat_sub_one (by omega), ofNat_sub (by omega), h2, ← BitVec.ofNat_mul, ← BitVec.ofNat_mul,
        ← BitVec.ofNat_add, ofSize_exact (by omega), ofSize_exact (by omega), ofSize_exact hb, mul_fin,
        mul_fin, add_fin]
      have hp : (((W - (c - 1)) * (W - (c - 1)) + 2 * (c - 1) : ℕ) : ℝ) ≠ 0 := by
        have : 0 < (W - (c - 1)) * (W - (c - 1)) + 2 * (c - 1) := by omega
        exact_mod_cast this.ne'
      have e1 : ((W - (c - 1) : ℕ) : ℝ) = (W : ℝ) - (s - 1) := by
        rw [Nat.cast_sub (by omega), Nat.cast_sub (by omega), Nat.cast_one]
      have e2 : ((c - 1 : ℕ) : ℝ) = s - 1 := by rw [Nat.cast_sub (by omega), Nat.cast_one]
      rw [div_fin _ hp, X.fin_inj, Spec.blend, Nat.cast_add, Nat.cast_mul, Nat.cast_mul, e1, e2, ← pow_two,
        Nat.cast_ofNat]

theorem blendWith_blocks (hW : 1 ≤ W) (hw : 2 * W < 2 ^ w) (e : γ → β) (get : σ → E ε)
    (v : List γ → ℝ)
    (hget : ∀ l : List γ, l ≠ [] → l.length ≤ W → get (foldB (l.map e)) = X.fin (v l))
    (ops : List (Op γ)) (hne : sinceClear ops ≠ []) :
    let xs := sinceClear ops
    let s : ℝ := (Spec.curBlock W xs).length
    (Interim.run (ops.map (Op.map e)) : Interim W σ).blendWith get
      = X.fin (if xs.length ≤ W then v xs
          else Spec.blend (W - (s - 1)) (2 * (s - 1))
            (v (Spec.prevBlock W xs)) (v (Spec.curBlock W xs))) := by
  intro xs s
  have hlc := Spec.length_curBlock_le hW xs
  have hWw : W < 2 ^ w := by omega
  have hcne : Spec.curBlock W xs ≠ [] := fun h => hne ((Spec.curBlock_eq_nil hW xs).1 h)
  have hc1 := List.length_pos_iff.2 hcne
  rw [run_blocks hW hWw, sinceClear_map, Interim.blendWith, passiveEmpty_blocks hW hWw,
    List.length_map]
  by_cases hn : xs.length ≤ W
  · rw [decide_eq_true hn, if_pos rfl, if_pos hn, Spec.curBlock_map, hget _ hcne hlc,
      Spec.curBlock_of_le hW hn]
  · rw [decide_eq_false hn, if_neg hn]
    have hlp : (Spec.prevBlock W xs).length ≤ W := by
      rw [Spec.length_prevBlock hW, if_neg hn]
    have hpne : Spec.prevBlock W xs ≠ [] := fun h => hn ((Spec.prevBlock_eq_nil hW xs).1 h)
    simp only [Bool.false_eq_true, if_false]
    rw [size_foldB, Spec.curBlock_map, Spec.prevBlock_map, hget _ hcne hlc, hget _ hpne hlp,
      List.length_map]
    have h1 : (1 : BitVec w) = BitVec.ofNat w 1 := rfl
    have h2 : (2 : BitVec w) = BitVec.ofNat w 2 := rfl
    have hle : BitVec.ofNat w (Spec.curBlock W xs).length ≤ 1 ↔ (Spec.curBlock W xs).length ≤ 1 := by
      rw [h1, BitVec.le_def, toNat_ofNat_lt (by omega), toNat_ofNat_lt (by omega)]
    by_cases hs : (Spec.curBlock W xs).length ≤ 1
    · have hs1 : s = 1 := by
        have : (Spec.curBlock W xs).length = 1 := by omega
        simp only [s, this, Nat.cast_one]
      have hWr : (W : ℝ) ≠ 0 := by
        have : W ≠ 0 := by omega
        exact_mod_cast this
      rw [if_pos (hle.2 hs), hs1, Spec.blend]
      rw [sub_self, mul_zero, zero_mul, add_zero, add_zero, sub_zero, mul_div_cancel_left₀ _ hWr]
    · rw [if_neg (fun h => hs (hle.1 h))]
      set c := (Spec.curBlock W xs).length with hc
      have hb : (W - (c - 1)) + 2 * (c - 1) < 2 ^ w := by omega
      rw [ofNat_sub_one (by omega), ofNat_sub (by omega), h2, ← BitVec.ofNat_mul,
        ← BitVec.ofNat_add, ofSize_exact (by omega), ofSize_exact (by omega), ofSize_exact hb, mul_fin,
        mul_fin, add_fin]
      have hp : (((W - (c - 1)) + 2 * (c - 1) : ℕ) : ℝ) ≠ 0 := by
        have : 0 < (W - (c - 1)) + 2 * (c - 1) := by omega
        exact_mod_cast this.ne'
      have e1 : ((W - (c - 1) : ℕ) : ℝ) = (W : ℝ) - (s - 1) := by
        rw [Nat.cast_sub (by omega), Nat.cast_sub (by omega), Nat.cast_one]
      have e2 : ((c - 1 : ℕ) : ℝ) = s - 1 := by rw [Nat.cast_sub (by omega), Nat.cast_one]
      rw [div_fin _ hp, X.fin_inj, Spec.blend, Nat.cast_add, Nat.cast_mul, e1, e2, Nat.cast_ofNat]

end
end Verif.Interim
