import Verif.Proofs.Interim
import Verif.Props.CumulativeMoments
import Verif.Props.CumulativePairs
/-
C28 - C34: the interim filters.

The theorems about all interim filters at once are stated for a cumulative filter type `σ`; the instances
of `Block`/`LawfulBlock` are the five cumulative filters mean, variance, skewness, kurtosis, covariance.
-/
namespace Verif.Props
open Scalar Exact Verif.Interim
open Verif.Cumulative (Mean Variance Skewness Kurtosis Comoment)

variable {w W : Nat} {ε : ℝ}

/-! ### The blocks of the specification -/

/-- What `prevBlock` and `curBlock` are: they end the list; the current block has 1 to `W` values and
completes the number of values to a multiple of `W`, the previous one is empty if there are at most `W`
values and has exactly `W` values otherwise. -/
theorem blocks_spec {β : Type} (hW : 1 ≤ W) (xs : List β) :
    (∃ older : List β, xs = older ++ Spec.prevBlock W xs ++ Spec.curBlock W xs ∧ W ∣ older.length)
    ∧ (Spec.curBlock W xs).length ≤ W
    ∧ (xs ≠ [] → Spec.curBlock W xs ≠ [])
    ∧ (xs.length ≤ W → Spec.prevBlock W xs = [] ∧ Spec.curBlock W xs = xs)
    ∧ (W < xs.length → (Spec.prevBlock W xs).length = W) := by
  refine ⟨⟨xs.take (xs.length - ((Spec.prevBlock W xs).length + (Spec.curBlock W xs).length)), ?_, ?_⟩,
    Spec.length_curBlock_le hW xs, fun h h' => h ((Spec.curBlock_eq_nil hW xs).1 h'),
    fun h => ⟨(Spec.prevBlock_eq_nil hW xs).2 h, Spec.curBlock_of_le hW h⟩,
    fun h => by rw [Spec.length_prevBlock hW, if_neg (by omega)]⟩
  · rw [List.append_assoc, Spec.blocks_suffix hW, Spec.lastN, List.take_append_drop]
  · rw [List.length_take, Spec.length_prevBlock hW, Spec.length_curBlock hW]
    have h1 := Nat.div_add_mod' (xs.length - 1) W
    split_ifs with h2 h3 h3
    · simp [h3]
    · have h4 := List.length_pos_iff.2 h3
      have : (xs.length - 1) % W = xs.length - 1 := Nat.mod_eq_of_lt (by omega)
      rw [this]
      have : xs.length - (0 + (xs.length - 1 + 1)) = 0 := by omega
      rw [this]; simp
    · simp [h3]
    · have hq : 1 ≤ (xs.length - 1) / W := by
        rw [Nat.one_le_div_iff (by omega)]; omega
      obtain ⟨q, hq'⟩ : ∃ q, (xs.length - 1) / W = q + 1 := ⟨_, (Nat.succ_pred_eq_of_pos hq).symm⟩
      rw [hq', Nat.add_mul, one_mul] at h1
      have h5 := List.length_pos_iff.2 h3
      have : min (xs.length - (W + ((xs.length - 1) % W + 1))) xs.length = q * W := by omega
      rw [this]
      exact Nat.dvd_mul_left _ _

/-! ### C28 -/

section
variable {σ β : Type} [Block σ w β] [LawfulBlock σ w β]

/-- C28, any arithmetic, all five filters. -/
theorem C28_bookkeeping (hW : 1 ≤ W) (hw : W < 2 ^ w) (ops : List (Op β)) :
    let s : Interim W σ := Interim.run ops
    let n := (sinceClear ops).length
    s.size = BitVec.ofNat w (min W n)
    ∧ s.capacity = BitVec.ofNat w W
    ∧ (s.full = true ↔ W ≤ n) ∧ (s.coFull = true ↔ W ≤ n)
    ∧ (s.empty = true ↔ n = 0) := by
  intro s n
  have hs : s = _ := run_blocks hW hw ops
  have hsize : s.size = BitVec.ofNat w (min W n) := by
    rw [hs, Interim.size, passiveEmpty_blocks hW hw]
    by_cases hn : n ≤ W
    · rw [decide_eq_true hn, if_pos rfl, size_foldB, Spec.curBlock_of_le hW hn, min_eq_right hn]
    · rw [decide_eq_false hn, min_eq_left (by omega)]; rfl
  refine ⟨hsize, rfl, ?_, ?_, ?_⟩
  · rw [hs, Interim.full, passiveEmpty_blocks hW hw, size_foldB]
    have hl := Spec.length_curBlock_le hW (sinceClear ops)
    simp only [Bool.or_eq_true, beq_iff_eq, Bool.not_eq_true', decide_eq_false_iff_not]
    rw [ofNat_inj (by omega) hw]
    by_cases hn : n ≤ W
    · rw [Spec.curBlock_of_le hW hn]
      constructor
      · rintro (h | h)
        · exact h.ge
        · exact absurd hn h
      · intro h; left; exact le_antisymm hn h
    · exact ⟨fun _ => by omega, fun _ => Or.inr hn⟩
  · rw [Interim.coFull, hsize, beq_iff_eq, ofNat_inj (by omega) hw]; omega
  · rw [Interim.empty, hsize, ofNat_beq_zero (by omega), decide_eq_true_eq]; omega

/-- C28, any arithmetic: `clear()` makes a filter indistinguishable from a new one. -/
theorem C28_clear (pre post : List (Op β)) :
    (Interim.run (pre ++ .clear :: post) : Interim W σ) = Interim.run post := by
  have hr := runOps_eq (Interim.init : Interim W σ) Interim.push Interim.clear
    (fun s => by simp [Interim.clear, Interim.init, LawfulBlock.clear_eq])
  rw [Interim.run, Interim.run, hr, hr, sinceClear_clear_append]

/-- C29 - C31: values older than the last `2 W` have no influence on the state, in any arithmetic. -/
theorem C29_recent (hW : 1 ≤ W) (hw : W < 2 ^ w) (ops ops' : List (Op β))
    (hl : (sinceClear ops).length = (sinceClear ops').length)
    (h : Spec.lastN (2 * W) (sinceClear ops) = Spec.lastN (2 * W) (sinceClear ops')) :
    (Interim.run ops : Interim W σ) = Interim.run ops' := by
  obtain ⟨h1, h2⟩ := Spec.blocks_recent hW hl h
  rw [run_blocks hW hw, run_blocks hW hw, h1, h2]
end

/-- C28 and the first part of C29 for each of the five filters, in any arithmetic. -/
theorem C28_filters {α : Type} [Scalar α] (hW : 1 ≤ W) (hw : W < 2 ^ w) :
    let Good (σ β : Type) [Block σ w β] : Prop :=
      (∀ ops : List (Op β), (Interim.run ops : Interim W σ).size = BitVec.ofNat w (min W (sinceClear ops).length)
        ∧ ((Interim.run ops : Interim W σ).full = true ↔ W ≤ (sinceClear ops).length)
        ∧ ((Interim.run ops : Interim W σ).coFull = true ↔ W ≤ (sinceClear ops).length)
        ∧ ((Interim.run ops : Interim W σ).empty = true ↔ sinceClear ops = []))
      ∧ (∀ pre post : List (Op β), (Interim.run (pre ++ .clear :: post) : Interim W σ) = Interim.run post)
      ∧ ∀ ops ops' : List (Op β), (sinceClear ops).length = (sinceClear ops').length →
          Spec.lastN (2 * W) (sinceClear ops) = Spec.lastN (2 * W) (sinceClear ops') → (Interim.run ops : Interim W σ) = Interim.run ops'
    Good (Mean w α) α ∧ Good (Variance w α) α ∧ Good (Skewness w α) α ∧ Good (Kurtosis w α) α ∧ Good (Comoment w α) (α × α) := by
  intro Good
  have key : ∀ (σ β : Type) [Block σ w β] [LawfulBlock σ w β], Good σ β := by
    intro σ β _ _
    refine ⟨fun ops => ?_, C28_clear, fun ops ops' => C29_recent hW hw ops ops'⟩
    obtain ⟨h1, -, h2, h3, h4⟩ := C28_bookkeeping (σ := σ) hW hw ops
    exact ⟨h1, h2, h3, h4.trans List.length_eq_zero_iff⟩
  exact ⟨key _ _, key _ _, key _ _, key _ _, key _ _⟩

/-- The bookkeeping of the covariance filter after three pushes with window 2. -/
example : (Interim.run [.push (X.fin 1, X.fin 1), .push (X.fin 2, X.fin 2), .push (X.nan, X.pinf)]
      : IComoment 64 2 (E ε)).size = 2#64 :=
  (C28_bookkeeping (by norm_num) (by norm_num) _).1

example : (Interim.run [.push (X.nan), .push (X.fin 1), .push (X.fin 2), .push (X.fin 3), .push (X.fin 4)]
      : IKurtosis 64 2 (E ε))
    = Interim.run [.push (X.pinf), .push (X.fin 1), .push (X.fin 2), .push (X.fin 3), .push (X.fin 4)] :=
  C29_recent (by norm_num) (by norm_num) _ _ rfl rfl

/-! ### The cumulative filters of a block -/

section
variable {α : Type} [Scalar α]

theorem variance_foldB_super (l : List α) : (foldB l : Variance w α).super = foldB l := by
  induction l using List.reverseRecOn with
  | nil => rfl
  | append_singleton l x ih => rw [foldB_snoc, foldB_snoc, ← ih]; rfl

theorem skewness_foldB_super (l : List α) : (foldB l : Skewness w α).super = foldB l := by
  induction l using List.reverseRecOn with
  | nil => rfl
  | append_singleton l x ih => rw [foldB_snoc, foldB_snoc, ← ih]; rfl

theorem kurtosis_foldB_super (l : List α) : (foldB l : Kurtosis w α).super = foldB l := by
  induction l using List.reverseRecOn with
  | nil => rfl
  | append_singleton l x ih => rw [foldB_snoc, foldB_snoc, ← ih]; rfl
end

theorem mean_foldB (l : List ℝ) (h : l.length < 2 ^ w) :
    (foldB (l.map X.fin) : Mean w (E ε)).getMean = X.fin (Spec.mean l) := by
  have := Mean.fold (ε := ε) l h
  rw [foldB]
  show (List.foldl Mean.push Mean.init _).getMean = _
  rw [this]; rfl

theorem variance_run_foldB (l : List ℝ) :
    (Variance.run (finOps (l.map Op.push)) : Variance w (E ε)) = foldB (l.map X.fin) := by
  rw [Variance.run_eq, sinceClear_finOps, sinceClear_pushes]; rfl

theorem skewness_run_foldB (l : List ℝ) :
    (Skewness.run (finOps (l.map Op.push)) : Skewness w (E ε)) = foldB (l.map X.fin) := by
  rw [Skewness.run_eq, sinceClear_finOps, sinceClear_pushes]; rfl

theorem kurtosis_run_foldB (l : List ℝ) :
    (Kurtosis.run (finOps (l.map Op.push)) : Kurtosis w (E ε)) = foldB (l.map X.fin) := by
  rw [Kurtosis.run_eq, sinceClear_finOps, sinceClear_pushes]; rfl

theorem variance_foldB (l : List ℝ) (hne : l ≠ []) (h : l.length < 2 ^ w) :
    (foldB (l.map X.fin) : Variance w (E ε)).variance = X.fin (Spec.variance l) := by
  rw [← variance_run_foldB]
  have := (C02_variance (ε := ε) (l.map Op.push) (by rwa [sinceClear_pushes])).1
    (by rw [sinceClear_pushes]; exact List.length_pos_iff.2 hne)
  rw [sinceClear_pushes] at this
  exact this.1

theorem comoment_foldB (l : List (ℝ × ℝ)) (hne : l ≠ []) (h : l.length < 2 ^ w) :
    (foldB (l.map fun p => (X.fin p.1, X.fin p.2)) : Comoment w (E ε)).variance
      = X.fin (Spec.covariance l) := by
  have hr : (Comoment.run (finOps2 (l.map Op.push)) : Comoment w (E ε))
      = foldB (l.map fun p => (X.fin p.1, X.fin p.2)) := by
    rw [Comoment.run_eq, sinceClear_finOps2, sinceClear_pushes]; rfl
  rw [← hr]
  have := (C09_covariance (ε := ε) (l.map Op.push) (by rwa [sinceClear_pushes])).2.2.1
    (by rw [sinceClear_pushes]; exact List.length_pos_iff.2 hne)
  rw [sinceClear_pushes] at this
  exact this

/-! ### C29 -/

/-- The value of the interim mean. -/
noncomputable def Spec_interimMean (W : ℕ) (xs : List ℝ) : ℝ :=
  let s : ℝ := (Spec.curBlock W xs).length
  if xs.length ≤ W then Spec.mean xs
  else Spec.blend (W - s) (2 * s) (Spec.mean (Spec.prevBlock W xs)) (Spec.mean (Spec.curBlock W xs))

/-- C29: the blend, for all four moment filters. -/
theorem C29_interim_mean (hW : 1 ≤ W) (hw : 2 * W < 2 ^ w) (ops : List (Op ℝ)) :
    IMean.mean (Interim.run (finOps ops) : IMean w W (E ε)) = X.fin (Spec_interimMean W (sinceClear ops))
    ∧ IVariance.mean (Interim.run (finOps ops) : IVariance w W (E ε))
        = X.fin (Spec_interimMean W (sinceClear ops))
    ∧ ISkewness.mean (Interim.run (finOps ops) : ISkewness w W (E ε))
        = X.fin (Spec_interimMean W (sinceClear ops))
    ∧ IKurtosis.mean (Interim.run (finOps ops) : IKurtosis w W (E ε))
        = X.fin (Spec_interimMean W (sinceClear ops)) := by
  have hm : ∀ l : List ℝ, l.length ≤ W →
      (foldB (l.map X.fin) : Mean w (E ε)).getMean = X.fin (Spec.mean l) :=
    fun l hl => mean_foldB l (by omega)
  have hv : ∀ l : List ℝ, l.length ≤ W →
      (foldB (l.map X.fin) : Variance w (E ε)).getMean = X.fin (Spec.mean l) := by
    intro l hl
    rw [Variance.getMean, variance_foldB_super]; exact hm l hl
  have hs : ∀ l : List ℝ, l.length ≤ W →
      (foldB (l.map X.fin) : Skewness w (E ε)).getMean = X.fin (Spec.mean l) := by
    intro l hl
    rw [Skewness.getMean, skewness_foldB_super]; exact hv l hl
  have hk : ∀ l : List ℝ, l.length ≤ W →
      (foldB (l.map X.fin) : Kurtosis w (E ε)).getMean = X.fin (Spec.mean l) := by
    intro l hl
    rw [Kurtosis.getMean, kurtosis_foldB_super]; exact hs l hl
  exact ⟨meanWith_blocks hW hw _ _ _ hm ops, meanWith_blocks hW hw _ _ _ hv ops,
    meanWith_blocks hW hw _ _ _ hs ops, meanWith_blocks hW hw _ _ _ hk ops⟩

/-- C29: the value lies within the data of the two blocks, and is the mean of the last `W` values when the
number of values is a multiple of `W`. -/
theorem C29_interim_mean_laws (hW : 1 ≤ W) (xs : List ℝ) (hne : xs ≠ []) :
    (∀ lo hi : ℝ, (∀ x ∈ Spec.prevBlock W xs ++ Spec.curBlock W xs, lo ≤ x ∧ x ≤ hi) →
      lo ≤ Spec_interimMean W xs ∧ Spec_interimMean W xs ≤ hi)
    ∧ (W ∣ xs.length → Spec_interimMean W xs = Spec.mean (Spec.lastN W xs)) := by
  have hcne : Spec.curBlock W xs ≠ [] := fun h => hne ((Spec.curBlock_eq_nil hW xs).1 h)
  have hc0 : (0 : ℝ) < (Spec.curBlock W xs).length := by exact_mod_cast List.length_pos_iff.2 hcne
  have hcW : ((Spec.curBlock W xs).length : ℝ) ≤ W := by exact_mod_cast Spec.length_curBlock_le hW xs
  constructor
  · intro lo hi h
    have hc := Spec.mean_bounds hcne (fun x hx => h x (List.mem_append_right _ hx))
    rw [Spec_interimMean]
    by_cases hn : xs.length ≤ W
    · rw [if_pos hn]
      rwa [Spec.curBlock_of_le hW hn] at hc
    · have hpne : Spec.prevBlock W xs ≠ [] := fun h => hn ((Spec.prevBlock_eq_nil hW xs).1 h)
      rw [if_neg hn]
      exact Spec.blend_mem (by linarith) (by linarith) (by linarith)
        (Spec.mean_bounds hpne (fun x hx => h x (List.mem_append_left _ hx))) hc
  · rintro ⟨k, hk⟩
    have hk0 : k ≠ 0 := by
      rintro rfl
      rw [mul_zero] at hk
      exact hne (List.length_eq_zero_iff.1 hk)
    obtain ⟨j, rfl⟩ := Nat.exists_eq_succ_of_ne_zero hk0
    have hdiv : (xs.length - 1) / W * W = xs.length - W := by
      have : (xs.length - 1) / W = j := by
        rw [Nat.div_eq_of_lt_le]
        · rw [hk, Nat.mul_comm, Nat.mul_succ]; omega
        · rw [hk, Nat.mul_comm W]
          have : 0 < (j + 1) * W := Nat.mul_pos (by omega) (by omega)
          show (j + 1) * W - 1 < (j + 1) * W
          omega
      rw [this, hk, Nat.mul_succ, Nat.add_sub_cancel, Nat.mul_comm]
    have hcur : Spec.curBlock W xs = Spec.lastN W xs := by
      rw [Spec.curBlock, hdiv, Spec.lastN]
    have hlen : (Spec.curBlock W xs).length = W := by
      rw [hcur, Spec.length_lastN, hk]
      exact min_eq_left (Nat.le_mul_of_pos_right _ (by omega))
    rw [Spec_interimMean]
    by_cases hn : xs.length ≤ W
    · rw [if_pos hn, Spec.lastN, show xs.length - W = 0 by omega, List.drop_zero]
    · have hW0 : (W : ℝ) ≠ 0 := by
        have : W ≠ 0 := by omega
        exact_mod_cast this
      rw [if_neg hn, hlen, sub_self, Spec.blend, zero_mul, zero_add, zero_add, hcur,
        mul_div_cancel_left₀ _ (by simpa using hW0)]

/-- Window 2, values 1, 3, 8: blocks (1,3) and (8): (1*2 + 2*8)/3. -/
example : IMean.mean (Interim.run (finOps [.push 5, .clear, .push 1, .push 3, .push 8]) : IMean 64 2 (E ε))
    = X.fin 6 := by
  refine (C29_interim_mean (by norm_num) (by norm_num) _).1.trans ?_
  have e : sinceClear [.push 5, .clear, .push 1, .push 3, .push 8] = ([1, 3, 8] : List ℝ) := rfl
  have e1 : Spec.prevBlock 2 ([1, 3, 8] : List ℝ) = [1, 3] := by simp [Spec.prevBlock]
  have e2 : Spec.curBlock 2 ([1, 3, 8] : List ℝ) = [8] := by simp [Spec.curBlock]
  rw [e, Spec_interimMean, e1, e2, if_neg (by simp), X.fin_inj]
  simp [Spec.blend, Spec.mean]; norm_num

/-! ### C30 -/

/-- The value of the interim variance and covariance: weights `(W-s+1)²  :  2(s-1)`. -/
noncomputable def Spec_interimVariance {β : Type} (W : ℕ) (v : List β → ℝ) (xs : List β) : ℝ :=
  let s : ℝ := (Spec.curBlock W xs).length
  if xs.length ≤ W then v xs
  else Spec.blend ((W - (s - 1)) ^ 2) (2 * (s - 1)) (v (Spec.prevBlock W xs)) (v (Spec.curBlock W xs))

/-- C30: variance, for the three filters that offer it. -/
theorem C30_interim_variance (hW : 1 ≤ W) (hw : W * W < 2 ^ w) (ops : List (Op ℝ))
    (hne : sinceClear ops ≠ []) :
    IVariance.variance (Interim.run (finOps ops) : IVariance w W (E ε))
      = X.fin (Spec_interimVariance W Spec.variance (sinceClear ops))
    ∧ ISkewness.variance (Interim.run (finOps ops) : ISkewness w W (E ε))
        = X.fin (Spec_interimVariance W Spec.variance (sinceClear ops))
    ∧ IKurtosis.variance (Interim.run (finOps ops) : IKurtosis w W (E ε))
        = X.fin (Spec_interimVariance W Spec.variance (sinceClear ops)) := by
  have hWw : W < 2 ^ w := by nlinarith
  have hv : ∀ l : List ℝ, l ≠ [] → l.length ≤ W →
      (foldB (l.map X.fin) : Variance w (E ε)).variance = X.fin (Spec.variance l) :=
    fun l hl hlen => variance_foldB l hl (by omega)
  have hs : ∀ l : List ℝ, l ≠ [] → l.length ≤ W →
      (foldB (l.map X.fin) : Skewness w (E ε)).variance = X.fin (Spec.variance l) := by
    intro l hl hlen
    rw [Skewness.variance, skewness_foldB_super]; exact hv l hl hlen
  have hk : ∀ l : List ℝ, l ≠ [] → l.length ≤ W →
      (foldB (l.map X.fin) : Kurtosis w (E ε)).variance = X.fin (Spec.variance l) := by
    intro l hl hlen
    rw [Kurtosis.variance, kurtosis_foldB_super]; exact hs l hl hlen
  exact ⟨varianceWith_blocks hW hw _ _ _ hv ops hne, varianceWith_blocks hW hw _ _ _ hs ops hne,
    varianceWith_blocks hW hw _ _ _ hk ops hne⟩

/-- C30: the blend is convex: it lies between the variances of the two blocks, and is not negative. -/
theorem C30_interim_variance_convex {β : Type} (hW : 1 ≤ W) (v : List β → ℝ) (xs : List β) (hne : xs ≠ []) :
    (xs.length ≤ W → Spec_interimVariance W v xs = v xs)
    ∧ (W < xs.length → ∀ lo hi : ℝ,
        lo ≤ v (Spec.prevBlock W xs) ∧ v (Spec.prevBlock W xs) ≤ hi →
        lo ≤ v (Spec.curBlock W xs) ∧ v (Spec.curBlock W xs) ≤ hi →
        lo ≤ Spec_interimVariance W v xs ∧ Spec_interimVariance W v xs ≤ hi)
    ∧ ((∀ l, 0 ≤ v l) → 0 ≤ Spec_interimVariance W v xs) := by
  have hcne : Spec.curBlock W xs ≠ [] := fun h => hne ((Spec.curBlock_eq_nil hW xs).1 h)
  have hc1 : (1 : ℝ) ≤ (Spec.curBlock W xs).length := by exact_mod_cast List.length_pos_iff.2 hcne
  have hcW : ((Spec.curBlock W xs).length : ℝ) ≤ W := by exact_mod_cast Spec.length_curBlock_le hW xs
  have hpos : (0 : ℝ) < (W - ((Spec.curBlock W xs).length - 1)) ^ 2 := by
    apply pow_pos; linarith
  refine ⟨fun h => by rw [Spec_interimVariance, if_pos h], ?_, ?_⟩
  · intro h lo hi hp hc
    rw [Spec_interimVariance, if_neg (by omega)]
    exact Spec.blend_mem hpos.le (by linarith) (by linarith) hp hc
  · intro h
    rw [Spec_interimVariance]
    split_ifs
    · exact h _
    · rw [Spec.blend]
      have h1 := mul_nonneg hpos.le (h (Spec.prevBlock W xs))
      have h2 := mul_nonneg (show (0 : ℝ) ≤ 2 * ((Spec.curBlock W xs).length - 1) by linarith)
        (h (Spec.curBlock W xs))
      exact div_nonneg (by linarith) (by linarith)

theorem variance_nonneg (l : List ℝ) : 0 ≤ Spec.variance l :=
  div_nonneg (Spec.central_two_nonneg l) (Nat.cast_nonneg _)

example : IVariance.variance (Interim.run (finOps [.push 1, .push 3, .push 8, .push 8]) : IVariance 64 2 (E ε))
    = X.fin (1 / 3) := by
  have e : sinceClear [.push 1, .push 3, .push 8, .push 8] = ([1, 3, 8, 8] : List ℝ) := rfl
  refine (C30_interim_variance (by norm_num) (by norm_num) _ (by rw [e]; simp)).1.trans ?_
  have e1 : Spec.prevBlock 2 ([1, 3, 8, 8] : List ℝ) = [1, 3] := by simp [Spec.prevBlock]
  have e2 : Spec.curBlock 2 ([1, 3, 8, 8] : List ℝ) = [8, 8] := by simp [Spec.curBlock]
  rw [e, Spec_interimVariance, e1, e2, if_neg (by simp), X.fin_inj]
  simp [Spec.blend, Spec.variance, Spec.central, Spec.mean]; norm_num

/-- C30: skewness.  While at most `W` values have been pushed it is the skewness of the cumulative filter
(any arithmetic); afterwards a weighted average of the cumulative skewness of the two blocks. -/
theorem C30_interim_skewness (hε : 0 < ε) (hW : 1 ≤ W) (hw : 2 * W < 2 ^ w) (ops : List (Op ℝ))
    (hne : sinceClear ops ≠ []) :
    let s : ISkewness w W (E ε) := Interim.run (finOps ops)
    let xs := sinceClear ops
    let cumulative (l : List ℝ) : E ε := (Skewness.run (finOps (l.map Op.push)) : Skewness w (E ε)).skewness
    let k : ℝ := (Spec.curBlock W xs).length
    (xs.length ≤ W → s.skewness = cumulative xs)
    ∧ (W < xs.length → ∃ a b : ℝ, cumulative (Spec.prevBlock W xs) = X.fin a
        ∧ cumulative (Spec.curBlock W xs) = X.fin b
        ∧ s.skewness = X.fin (Spec.blend (W - (k - 1)) (2 * (k - 1)) a b)
        ∧ 0 < W - (k - 1) ∧ 0 ≤ 2 * (k - 1)) := by
  intro s xs cumulative k
  have hcne : Spec.curBlock W xs ≠ [] := fun h => hne ((Spec.curBlock_eq_nil hW xs).1 h)
  have hc1 : (1 : ℝ) ≤ (Spec.curBlock W xs).length := by exact_mod_cast List.length_pos_iff.2 hcne
  have hcW : ((Spec.curBlock W xs).length : ℝ) ≤ W := by exact_mod_cast Spec.length_curBlock_le hW xs
  have hg : ∀ l : List ℝ, l.length ≤ W →
      (foldB (l.map X.fin) : Skewness w (E ε)).skewness
        = X.fin (if Spec.central 3 l < ε then 0 else Spec.skewness l) := by
    intro l hl
    have := skewness_result (w := w) hε (l.map Op.push) (by rw [sinceClear_pushes]; omega)
    rw [skewness_run_foldB, sinceClear_pushes] at this
    exact this
  have hb := blendWith_blocks hW hw X.fin Skewness.skewness _ (fun l _ hl => hg l hl) ops hne
  have hb' : s.skewness = _ := hb
  constructor
  · intro hn
    rw [hb', if_pos hn]
    simp only [cumulative]
    rw [skewness_run_foldB, hg _ hn]
  · intro hn
    refine ⟨if Spec.central 3 (Spec.prevBlock W xs) < ε then 0 else Spec.skewness (Spec.prevBlock W xs),
      if Spec.central 3 (Spec.curBlock W xs) < ε then 0 else Spec.skewness (Spec.curBlock W xs),
      ?_, ?_, ?_, by linarith, by linarith⟩
    · exact (congrArg _ (skewness_run_foldB _)).trans
        (hg _ (by rw [Spec.length_prevBlock hW, if_neg (by omega)]))
    · exact (congrArg _ (skewness_run_foldB _)).trans (hg _ (Spec.length_curBlock_le hW _))
    · rw [hb', if_neg (Nat.not_le.2 hn)]

/-- C30: `skewness()` of the kurtosis filter is that of the skewness filter. -/
theorem C30_kurtosis_skewness (hε : 0 < ε) (hW : 1 ≤ W) (hw : 2 * W < 2 ^ w) (ops : List (Op ℝ)) (hne : sinceClear ops ≠ []) :
    IKurtosis.skewness (Interim.run (finOps ops) : IKurtosis w W (E ε))
      = ISkewness.skewness (Interim.run (finOps ops) : ISkewness w W (E ε)) := by
  have hg : ∀ l : List ℝ, l.length ≤ W →
      (foldB (l.map X.fin) : Skewness w (E ε)).skewness
        = X.fin (if Spec.central 3 l < ε then 0 else Spec.skewness l) := by
    intro l hl
    have := skewness_result (w := w) hε (l.map Op.push) (by rw [sinceClear_pushes]; omega)
    rw [skewness_run_foldB, sinceClear_pushes] at this
    exact this
  have hk : ∀ l : List ℝ, l.length ≤ W →
      (foldB (l.map X.fin) : Kurtosis w (E ε)).skewness
        = X.fin (if Spec.central 3 l < ε then 0 else Spec.skewness l) := by
    intro l hl
    rw [Kurtosis.skewness, kurtosis_foldB_super]; exact hg l hl
  exact (blendWith_blocks hW hw X.fin Kurtosis.skewness _ (fun l _ hl => hk l hl) ops hne).trans
    (blendWith_blocks hW hw X.fin Skewness.skewness _ (fun l _ hl => hg l hl) ops hne).symm

/-- C30: kurtosis. -/
theorem C30_interim_kurtosis (hε : 0 < ε) (hW : 1 ≤ W) (hw : W * W < 2 ^ w) (hw2 : 2 * W < 2 ^ w)
    (ops : List (Op ℝ)) (hne : sinceClear ops ≠ []) :
    let s : IKurtosis w W (E ε) := Interim.run (finOps ops)
    let xs := sinceClear ops
    let cumulative (l : List ℝ) : E ε := (Kurtosis.run (finOps (l.map Op.push)) : Kurtosis w (E ε)).kurtosis
    let k : ℝ := (Spec.curBlock W xs).length
    (xs.length ≤ W → s.kurtosis = cumulative xs)
    ∧ (W < xs.length → ∃ a b : ℝ, cumulative (Spec.prevBlock W xs) = X.fin a
        ∧ cumulative (Spec.curBlock W xs) = X.fin b
        ∧ s.kurtosis = X.fin (Spec.blend (W - (k - 1)) (2 * (k - 1)) a b)
        ∧ 0 < W - (k - 1) ∧ 0 ≤ 2 * (k - 1)) := by
  intro s xs cumulative k
  have hcne : Spec.curBlock W xs ≠ [] := fun h => hne ((Spec.curBlock_eq_nil hW xs).1 h)
  have hc1 : (1 : ℝ) ≤ (Spec.curBlock W xs).length := by exact_mod_cast List.length_pos_iff.2 hcne
  have hcW : ((Spec.curBlock W xs).length : ℝ) ≤ W := by exact_mod_cast Spec.length_curBlock_le hW xs
  have hg : ∀ l : List ℝ, l.length ≤ W →
      (foldB (l.map X.fin) : Kurtosis w (E ε)).kurtosis
        = X.fin (if Spec.central 4 l < ε then 0 else Spec.kurtosis l) := by
    intro l hl
    have := C04_kurtosis (w := w) hε (l.map Op.push)
      (by rw [sinceClear_pushes]; exact lt_of_le_of_lt (Nat.mul_le_mul hl hl) hw)
    rw [kurtosis_run_foldB, sinceClear_pushes] at this
    split_ifs with h4
    · exact this.1 h4
    · exact (this.2 (not_lt.1 h4)).1
  have hb := blendWith_blocks hW hw2 X.fin Kurtosis.kurtosis _ (fun l _ hl => hg l hl) ops hne
  have hb' : s.kurtosis = _ := hb
  constructor
  · intro hn
    rw [hb', if_pos hn]
    simp only [cumulative]
    rw [kurtosis_run_foldB, hg _ hn]
  · intro hn
    refine ⟨if Spec.central 4 (Spec.prevBlock W xs) < ε then 0 else Spec.kurtosis (Spec.prevBlock W xs),
      if Spec.central 4 (Spec.curBlock W xs) < ε then 0 else Spec.kurtosis (Spec.curBlock W xs),
      ?_, ?_, ?_, by linarith, by linarith⟩
    · exact (congrArg _ (kurtosis_run_foldB _)).trans
        (hg _ (by rw [Spec.length_prevBlock hW, if_neg (by omega)]))
    · exact (congrArg _ (kurtosis_run_foldB _)).trans (hg _ (Spec.length_curBlock_le hW _))
    · rw [hb', if_neg (Nat.not_le.2 hn)]

/-! ### C31 -/

/-- C31: covariance. -/
theorem C31_interim_covariance (hW : 1 ≤ W) (hw : W * W < 2 ^ w) (ops : List (Op (ℝ × ℝ)))
    (hne : sinceClear ops ≠ []) :
    IComoment.variance (Interim.run (finOps2 ops) : IComoment w W (E ε))
      = X.fin (Spec_interimVariance W Spec.covariance (sinceClear ops)) := by
  have hWw : W < 2 ^ w := by nlinarith
  exact varianceWith_blocks hW hw _ _ _ (fun l hl hlen => comoment_foldB l hl (by omega)) ops hne

example : IComoment.variance (Interim.run (finOps2 [.push (0, 1), .push (2, -3), .push (0, 0), .push (2, 2)]) : IComoment 64 2 (E ε)) = X.fin 0 := by
  have e : sinceClear [.push (0, 1), .push (2, -3), .push (0, 0), .push (2, 2)]
      = ([(0, 1), (2, -3), (0, 0), (2, 2)] : List (ℝ × ℝ)) := rfl
  refine (C31_interim_covariance (by norm_num) (by norm_num) _ (by rw [e]; simp)).trans ?_
  have e1 : Spec.prevBlock 2 ([(0, 1), (2, -3), (0, 0), (2, 2)] : List (ℝ × ℝ)) = [(0, 1), (2, -3)] := by
    simp [Spec.prevBlock]
  have e2 : Spec.curBlock 2 ([(0, 1), (2, -3), (0, 0), (2, 2)] : List (ℝ × ℝ)) = [(0, 0), (2, 2)] := by
    simp [Spec.curBlock]
  rw [e, Spec_interimVariance, e1, e2, if_neg (by simp), X.fin_inj]
  simp [Spec.blend, Spec.covariance, Spec.cosum, Spec.mean]; norm_num

/-! ### C32 -/

/-- C32 for the variance, as stated. -/
def C32_Statement (w W : ℕ) (ε : ℝ) : Prop :=
  ∀ ops : List (Op ℝ), sinceClear ops ≠ [] → W ∣ (sinceClear ops).length →
    IVariance.variance (Interim.run (finOps ops) : IVariance w W (E ε))
      = X.fin (Spec.variance (Spec.lastN W (sinceClear ops)))

/-- The blend at the end of a block. -/
theorem interimVariance_full {β : Type} (hW : 1 ≤ W) (v : List β → ℝ) (xs : List β) (hne : xs ≠ [])
    (hd : W ∣ xs.length) :
    Spec.curBlock W xs = Spec.lastN W xs ∧
    Spec_interimVariance W v xs = if xs.length ≤ W then v xs
      else Spec.blend 1 (2 * (W - 1)) (v (Spec.prevBlock W xs)) (v (Spec.lastN W xs)) := by
  obtain ⟨k, hk⟩ := hd
  have hk0 : k ≠ 0 := by
    rintro rfl
    rw [mul_zero] at hk
    exact hne (List.length_eq_zero_iff.1 hk)
  obtain ⟨j, rfl⟩ := Nat.exists_eq_succ_of_ne_zero hk0
  have hdiv : (xs.length - 1) / W * W = xs.length - W := by
    have : (xs.length - 1) / W = j := by
      rw [Nat.div_eq_of_lt_le]
      · rw [hk, Nat.mul_comm, Nat.mul_succ]; omega
      · rw [hk, Nat.mul_comm W]
        have : 0 < (j + 1) * W := Nat.mul_pos (by omega) (by omega)
        show (j + 1) * W - 1 < (j + 1) * W
        omega
    rw [this, hk, Nat.mul_succ, Nat.add_sub_cancel, Nat.mul_comm]
  have hcur : Spec.curBlock W xs = Spec.lastN W xs := by
    rw [Spec.curBlock, hdiv, Spec.lastN]
  have hlen : (Spec.curBlock W xs).length = W := by
    rw [hcur, Spec.length_lastN, hk]
    exact min_eq_left (Nat.le_mul_of_pos_right _ (by omega))
  refine ⟨hcur, ?_⟩
  rw [Spec_interimVariance, hlen, hcur]
  congr 2
  ring

/-- C32 is violated for every window size allowed: `2W - 1` zeros followed by 1. -/
theorem C32_exact_violated (hW : 2 ≤ W) (hw : W * W < 2 ^ w) : ¬ C32_Statement w W ε := by
  intro h
  set xs : List ℝ := List.replicate W 0 ++ (List.replicate (W - 1) 0 ++ [1]) with hxs
  have hlen : xs.length = 2 * W := by simp [hxs]; omega
  have hne : xs ≠ [] := by intro e; rw [e] at hlen; simp at hlen; omega
  have hlast : Spec.lastN W xs = List.replicate (W - 1) 0 ++ [1] := by
    rw [Spec.lastN, hlen, hxs, show 2 * W - W = (List.replicate W (0 : ℝ)).length by simp; omega,
      List.drop_left]
  have h1 := h (xs.map Op.push) (by rwa [sinceClear_pushes]) (by rw [sinceClear_pushes, hlen]; simp)
  have hv := (C30_interim_variance (ε := ε) (by omega) hw (xs.map Op.push)
    (by rwa [sinceClear_pushes])).1
  rw [hv, X.fin_inj, sinceClear_pushes] at h1
  have hf := (interimVariance_full (W := W) (by omega) Spec.variance xs hne (by rw [hlen]; simp)).2
  rw [if_neg (by omega)] at hf
  have hprev : Spec.prevBlock W xs = List.replicate W 0 := by
    have hq : (xs.length - 1) / W = 1 := by
      rw [hlen, Nat.div_eq_of_lt_le] <;> omega
    rw [Spec.prevBlock, hq, if_neg (by norm_num), Nat.sub_self, Nat.zero_mul, List.drop_zero, hxs]
    rw [List.take_append_of_le_length (by simp), List.take_of_length_le (by simp)]
  have hvp : Spec.variance (List.replicate W (0 : ℝ)) = 0 := by
    rw [Spec.variance, (Spec.central_two_eq_zero _).2, zero_div]
    intro x hx y hy
    rw [List.eq_of_mem_replicate hx, List.eq_of_mem_replicate hy]
  have hvc : 0 < Spec.variance (List.replicate (W - 1) (0 : ℝ) ++ [1]) := by
    apply div_pos
    · apply lt_of_le_of_ne (Spec.central_two_nonneg _)
      intro h0
      have := (Spec.central_two_eq_zero _).1 h0.symm 0
        (by simp; omega) 1 (by simp)
      norm_num at this
    · simp
      have : (0 : ℝ) ≤ ((W - 1 : ℕ) : ℝ) := by positivity
      linarith
  rw [hf, hprev, hvp, hlast, Spec.blend, mul_zero, zero_add] at h1
  have hW2 : (2 : ℝ) ≤ W := by exact_mod_cast hW
  rw [div_eq_iff (by linarith)] at h1
  nlinarith

/-- C32, the part that holds: exact at the end of the first block; later the result differs from the exact
variance of the last block by at most `1/(2W-1)` of the difference of the variances of the two blocks.
Missing: equality (violated). -/
theorem C32_exact_partial (hW : 1 ≤ W) (hw : W * W < 2 ^ w) (ops : List (Op ℝ))
    (hne : sinceClear ops ≠ []) (hd : W ∣ (sinceClear ops).length) :
    let xs := sinceClear ops
    ∃ v : ℝ, IVariance.variance (Interim.run (finOps ops) : IVariance w W (E ε)) = X.fin v
      ∧ (xs.length = W → v = Spec.variance xs)
      ∧ (W < xs.length →
          v - Spec.variance (Spec.lastN W xs)
            = (Spec.variance (Spec.prevBlock W xs) - Spec.variance (Spec.lastN W xs)) / (2 * W - 1)) := by
  intro xs
  refine ⟨_, (C30_interim_variance hW hw ops hne).1, ?_, ?_⟩
  · intro h
    exact (C30_interim_variance_convex hW Spec.variance xs hne).1 h.le
  · intro h
    have hf := (interimVariance_full (W := W) hW Spec.variance xs hne hd).2
    rw [if_neg (by omega)] at hf
    have hW1 : (1 : ℝ) ≤ W := by exact_mod_cast hW
    rw [hf, Spec.blend, show (1 : ℝ) + 2 * (W - 1) = 2 * W - 1 by ring]
    have : (2 * W - 1 : ℝ) ≠ 0 := by linarith
    field_simp
    ring

example : ∃ v : ℝ, IVariance.variance (Interim.run (finOps [.push 1, .push 3]) : IVariance 64 2 (E ε)) = X.fin v
    ∧ v = Spec.variance [1, 3] := by
  have e : sinceClear [.push 1, .push 3] = ([1, 3] : List ℝ) := rfl
  obtain ⟨v, h, h1, _⟩ := C32_exact_partial (w := 64) (W := 2) (ε := ε) (by norm_num) (by norm_num)
    [.push 1, .push 3] (by rw [e]; simp) (by rw [e]; simp)
  exact ⟨v, h, h1 rfl⟩

/-- C32 for the covariance, as stated. -/
def C32_CovarianceStatement (w W : ℕ) (ε : ℝ) : Prop :=
  ∀ ops : List (Op (ℝ × ℝ)), sinceClear ops ≠ [] → W ∣ (sinceClear ops).length →
    IComoment.variance (Interim.run (finOps2 ops) : IComoment w W (E ε))
      = X.fin (Spec.covariance (Spec.lastN W (sinceClear ops)))

/-- C32 for the covariance, the part that holds: exact at the end of the first block; later the result differs from the exact
covariance of the last block by `1/(2W-1)` of the difference of the covariances of the two blocks. -/
theorem C32_covariance_partial (hW : 1 ≤ W) (hw : W * W < 2 ^ w) (ops : List (Op (ℝ × ℝ)))
    (hne : sinceClear ops ≠ []) (hd : W ∣ (sinceClear ops).length) :
    let xs := sinceClear ops
    ∃ v : ℝ, IComoment.variance (Interim.run (finOps2 ops) : IComoment w W (E ε)) = X.fin v
      ∧ (xs.length = W → v = Spec.covariance xs)
      ∧ (W < xs.length →
          v - Spec.covariance (Spec.lastN W xs)
            = (Spec.covariance (Spec.prevBlock W xs) - Spec.covariance (Spec.lastN W xs)) / (2 * W - 1)) := by
  intro xs
  refine ⟨_, C31_interim_covariance hW hw ops hne, ?_, ?_⟩
  · intro h
    exact (C30_interim_variance_convex hW Spec.covariance xs hne).1 h.le
  · intro h
    have hf := (interimVariance_full (W := W) hW Spec.covariance xs hne hd).2
    rw [if_neg (by omega)] at hf
    have hW1 : (1 : ℝ) ≤ W := by exact_mod_cast hW
    rw [hf, Spec.blend, show (1 : ℝ) + 2 * (W - 1) = 2 * W - 1 by ring]
    have : (2 * W - 1 : ℝ) ≠ 0 := by linarith
    field_simp
    ring

/-- The covariance of pairs with equal coordinates is the variance. -/
theorem covariance_diag (l : List ℝ) : Spec.covariance (l.map fun x => (x, x)) = Spec.variance l := by
  have hm : Spec.xsOf (l.map fun x => (x, x)) = l ∧ Spec.ysOf (l.map fun x => (x, x)) = l := by
    constructor <;> simp [Spec.xsOf, Spec.ysOf, Function.comp_def]
  rw [Spec.covariance, Spec.cosum, hm.1, hm.2, Spec.variance, Spec.central, List.map_map, List.length_map]
  congr 2
  refine List.map_congr_left fun x _ => ?_
  simp [sq]

/-- C32 is violated by the covariance for every window size allowed: the data of `C32_exact_violated` in both coordinates. -/
theorem C32_covariance_violated (hW : 2 ≤ W) (hw : W * W < 2 ^ w) : ¬ C32_CovarianceStatement w W ε := by
  intro h
  refine C32_exact_violated (ε := ε) hW hw fun ops hne hd => ?_
  set d : ℝ → ℝ × ℝ := fun x => (x, x) with hdd
  have h1 := h (((sinceClear ops).map d).map Op.push) (by rw [sinceClear_pushes]; simpa using hne)
    (by rw [sinceClear_pushes, List.length_map]; exact hd)
  rw [C31_interim_covariance (by omega) hw _ (by rw [sinceClear_pushes]; simpa using hne), sinceClear_pushes, X.fin_inj] at h1
  rw [(C30_interim_variance (by omega) hw ops hne).1, X.fin_inj]
  have e : ∀ l : List ℝ, Spec.covariance (l.map d) = Spec.variance l := covariance_diag
  rw [Spec_interimVariance, Spec.prevBlock_map, Spec.curBlock_map, List.length_map, List.length_map, e, e, e, Spec.lastN,
    List.length_map, ← List.map_drop, e] at h1
  exact h1

example : ¬ C32_CovarianceStatement 64 2 ε := C32_covariance_violated (by norm_num) (by norm_num)

/-! ### C33 -/

/-- C33, as stated. -/
def C33_Statement (w W : ℕ) (ε : ℝ) : Prop :=
  ∀ (pre post : List (Op (ℝ × ℝ))) (x : ℝ),
    (Regression.run (finOps2 (pre ++ .clear :: post)) : Regression w W (E ε)).at' (X.fin x)
      = (Regression.run (finOps2 post) : Regression w W (E ε)).at' (X.fin x)

section
variable {α : Type} [Scalar α]

/-- Calls seen by the three members: `y_moment` misses the calls of `clear`. -/
theorem regression_run (ops : List (Op (α × α))) :
    (Regression.run ops : Regression w W α).covariance = Interim.run ops
    ∧ (Regression.run ops : Regression w W α).xMoment = Interim.run (ops.map (Op.map Prod.fst))
    ∧ (Regression.run ops : Regression w W α).yMoment
        = Interim.run ((ops.filterMap fun
            | .push p => some p
            | .clear => none).map (fun p => Op.push p.2)) := by
  induction ops using List.reverseRecOn with
  | nil => exact ⟨rfl, rfl, rfl⟩
  | append_singleton ops op ih =>
    have e : (Regression.run (ops ++ [op]) : Regression w W α)
        = runOps (Regression.run ops) Regression.push Regression.clear [op] := by
      rw [Regression.run, runOps_append]; rfl
    rw [e]
    cases op with
    | push p =>
      refine ⟨?_, ?_, ?_⟩
      · show Interim.push (Regression.covariance _) p = _
        rw [ih.1, Interim.run, Interim.run, runOps_append]; rfl
      · show Interim.push (Regression.xMoment _) p.1 = _
        rw [ih.2.1, List.map_append, Interim.run, Interim.run, runOps_append]; rfl
      · show Interim.push (Regression.yMoment _) p.2 = _
        rw [ih.2.2, List.filterMap_append, List.map_append, Interim.run, Interim.run, runOps_append]; rfl
    | clear =>
      refine ⟨?_, ?_, ?_⟩
      · show Interim.clear (Regression.covariance _) = _
        rw [ih.1, Interim.run, Interim.run, runOps_append]; rfl
      · show Interim.clear (Regression.xMoment _) = _
        rw [ih.2.1, List.map_append, Interim.run, Interim.run, runOps_append]; rfl
      · show Regression.yMoment (Regression.run ops) = _
        rw [ih.2.2, List.filterMap_append]
        simp

/-- C33, the part that holds, in any arithmetic: `slope()` and `size()` after `clear()` are those of a new
filter.  Missing: `at()`, which uses the mean of all y values, also those from before `clear()`
(violated). -/
theorem C33_clear_partial (pre post : List (Op (α × α))) :
    (Regression.run (pre ++ .clear :: post) : Regression w W α).slope
      = (Regression.run post : Regression w W α).slope
    ∧ (Regression.run (pre ++ .clear :: post) : Regression w W α).size
      = (Regression.run post : Regression w W α).size := by
  obtain ⟨h1, h2, _⟩ := regression_run (w := w) (W := W) (pre ++ .clear :: post)
  obtain ⟨h3, h4, _⟩ := regression_run (w := w) (W := W) post
  have c1 : (Regression.run (pre ++ .clear :: post) : Regression w W α).covariance
      = (Regression.run post : Regression w W α).covariance := by
    rw [h1, h3, C28_clear]
  have c2 : (Regression.run (pre ++ .clear :: post) : Regression w W α).xMoment
      = (Regression.run post : Regression w W α).xMoment := by
    rw [h2, h4, List.map_append, List.map_cons]
    exact C28_clear _ _
  constructor
  · simp only [Regression.slope, c1, c2]
  · simp only [Regression.size, c1]
end

/-- C33 is violated for every window: push (0,1), clear, push (0,3); a new filter gives 3, this one 2. -/
theorem C33_clear_violated (hW : 2 ≤ W) (hw : W * W < 2 ^ w) : ¬ C33_Statement w W ε := by
  intro h
  have hWw : 2 * W < 2 ^ w := lt_of_le_of_lt (Nat.mul_le_mul_right W hW) hw
  have key : ∀ ys : List ℝ, ys.length ≤ W → ∀ s : Regression w W (E ε), s.slope = X.fin 0 →
      s.xMoment.mean = X.fin 0 → s.yMoment = Interim.run (finOps (ys.map Op.push)) →
      s.at' (X.fin 0) = X.fin (Spec.mean ys) := by
    intro ys hl s hs hx hy
    have hm := (C29_interim_mean (w := w) (W := W) (ε := ε) (by omega) hWw (ys.map Op.push)).1
    rw [sinceClear_pushes, Spec_interimMean, if_pos hl] at hm
    rw [Regression.at', hs, hx, hy, hm, sub_fin, mul_fin, sub_fin, X.fin_inj]
    ring
  have common : ∀ s : Regression w W (E ε), s.xMoment = Interim.run (finOps [.push 0]) →
      s.xMoment.mean = X.fin 0 ∧ s.slope = X.fin 0 := by
    intro s hs
    have e : sinceClear [.push 0] = ([0] : List ℝ) := rfl
    have hm := (C29_interim_mean (w := w) (W := W) (ε := ε) (by omega) hWw [.push 0]).2.1
    have hv := (C30_interim_variance (w := w) (W := W) (ε := ε) (by omega) hw [.push 0]
      (by rw [e]; simp)).1
    have hl : ([0] : List ℝ).length ≤ W := by simp; omega
    rw [e, Spec_interimMean, if_pos hl] at hm
    rw [e, Spec_interimVariance, if_pos hl] at hv
    have hm0 : Spec.mean ([0] : List ℝ) = 0 := by simp [Spec.mean]
    have hv0 : Spec.variance ([0] : List ℝ) = 0 := by simp [Spec.variance, Spec.central, Spec.mean]
    rw [hm0] at hm
    rw [hv0] at hv
    rw [← hs] at hm hv
    refine ⟨hm, ?_⟩
    rw [Regression.slope]
    simp only [hv, Exact.ofNat_eq, beq_fin, Nat.cast_zero, decide_true, if_true]
  have h' := h [.push (0, 1)] [.push (0, 3)] 0
  obtain ⟨_, x1, y1⟩ := regression_run (w := w) (W := W)
    (finOps2 ([.push (0, 1)] ++ .clear :: [.push (0, 3)]) : List (Op (E ε × E ε)))
  obtain ⟨_, x2, y2⟩ := regression_run (w := w) (W := W)
    (finOps2 [.push (0, 3)] : List (Op (E ε × E ε)))
  have x1' : (Regression.run (finOps2 ([.push (0, 1)] ++ .clear :: [.push (0, 3)]))
      : Regression w W (E ε)).xMoment = Interim.run (finOps [.push 0]) := by
    rw [x1]
    exact C28_clear [.push (X.fin 0)] [.push (X.fin 0)]
  obtain ⟨m1, s1⟩ := common _ x1'
  obtain ⟨m2, s2⟩ := common _ x2
  have r1 := key [1, 3] (by simpa using hW) _ s1 m1 y1
  have r2 := key [3] (by simp; omega) _ s2 m2 y2
  rw [r1, r2, X.fin_inj] at h'
  simp [Spec.mean] at h'
  norm_num at h'

/-! ### C34 -/

/-- C34, any arithmetic: before the first window is exhausted the results are those of the cumulative
regression (which is least squares by C12). -/
theorem C34_interim_regression {α : Type} [Scalar α] (hW : 1 ≤ W) (hw : W < 2 ^ w) (ps : List (α × α))
    (hl : ps.length ≤ W) :
    let s : Regression w W α := Regression.run (ps.map Op.push)
    let c : Cumulative.Regression w α := Cumulative.Regression.run (ps.map Op.push)
    s.slope = c.slope ∧ ∀ x : α, s.at' x = c.at' x := by
  intro s c
  obtain ⟨h1, h2, h3⟩ := regression_run (w := w) (W := W) (ps.map Op.push)
  have hc : c = _ := (Cumulative.Regression.run_eq _).trans
    ((congrArg _ (sinceClear_pushes ps)).trans (Cumulative.Regression.fold_any ps))
  have e1 : s.covariance.variance = c.co.variance := by
    show (Regression.covariance _).varianceWith _ = _
    rw [h1, run_blocks hW hw, sinceClear_pushes, Interim.varianceWith, passiveEmpty_blocks hW hw,
      decide_eq_true hl, if_pos rfl, Spec.curBlock_of_le hW hl, hc]
    rfl
  have ex : (ps.map Op.push).map (Op.map Prod.fst) = (ps.map Prod.fst).map (Op.push (β := α)) := by
    simp [Op.map, Function.comp_def]
  have hlx : (ps.map Prod.fst).length ≤ W := by simpa using hl
  have e2 : s.xMoment.variance = c.x.variance := by
    show (Regression.xMoment _).varianceWith _ = _
    rw [h2, ex, run_blocks hW hw, sinceClear_pushes, Interim.varianceWith, passiveEmpty_blocks hW hw,
      decide_eq_true hlx, if_pos rfl, Spec.curBlock_of_le hW hlx, hc]
    rfl
  have e3 : s.xMoment.mean = c.x.getMean := by
    show (Regression.xMoment _).meanWith _ = _
    rw [h2, ex, run_blocks hW hw, sinceClear_pushes, Interim.meanWith, passiveEmpty_blocks hW hw,
      decide_eq_true hlx, if_pos rfl, Spec.curBlock_of_le hW hlx, hc]
    rfl
  have ey : ((ps.map Op.push).filterMap fun
      | .push p => some p
      | .clear => none).map (fun p : α × α => Op.push p.2) = (ps.map Prod.snd).map Op.push := by
    rw [List.filterMap_map]
    simp [Function.comp_def]
  have hly : (ps.map Prod.snd).length ≤ W := by simpa using hl
  have e4 : s.yMoment.mean = c.y.getMean := by
    show (Regression.yMoment _).meanWith _ = _
    rw [h3, ey, run_blocks hW hw, sinceClear_pushes, Interim.meanWith, passiveEmpty_blocks hW hw,
      decide_eq_true hly, if_pos rfl, Spec.curBlock_of_le hW hly, hc]
    show _ = (Variance.super (foldB (ps.map Prod.snd))).getMean
    rw [variance_foldB_super]
  have hsl : s.slope = c.slope := by
    simp only [Regression.slope, Cumulative.Regression.slope, e1, e2]
  refine ⟨hsl, fun x => ?_⟩
  simp only [Regression.at', Cumulative.Regression.at', hsl, e3, e4]

/-- C34: without `clear()` the three members always hold the same numbers of values, in the active and in
the passive filter. -/
theorem C34_switch_together {α : Type} [Scalar α] (hW : 1 ≤ W) (hw : W < 2 ^ w) (ps : List (α × α)) :
    let s : Regression w W α := Regression.run (ps.map Op.push)
    Block.size s.covariance.active = Block.size s.xMoment.active
    ∧ Block.size s.covariance.active = Block.size s.yMoment.active
    ∧ Block.size s.covariance.passive = Block.size s.xMoment.passive
    ∧ Block.size s.covariance.passive = Block.size s.yMoment.passive := by
  intro s
  obtain ⟨h1, h2, h3⟩ := regression_run (w := w) (W := W) (ps.map Op.push)
  have ex : (ps.map Op.push).map (Op.map Prod.fst) = (ps.map Prod.fst).map (Op.push (β := α)) := by
    simp [Op.map, Function.comp_def]
  have ey : ((ps.map Op.push).filterMap fun
      | .push p => some p
      | .clear => none).map (fun p : α × α => Op.push p.2) = (ps.map Prod.snd).map Op.push := by
    rw [List.filterMap_map]
    simp [Function.comp_def]
  show Block.size (Regression.covariance _).active = Block.size (Regression.xMoment _).active
    ∧ Block.size (Regression.covariance _).active = Block.size (Regression.yMoment _).active
    ∧ Block.size (Regression.covariance _).passive = Block.size (Regression.xMoment _).passive
    ∧ Block.size (Regression.covariance _).passive = Block.size (Regression.yMoment _).passive
  rw [h1, h2, h3, ex, ey, run_blocks hW hw, run_blocks hW hw, run_blocks hW hw, sinceClear_pushes,
    sinceClear_pushes, sinceClear_pushes, Spec.curBlock_map, Spec.prevBlock_map, Spec.curBlock_map,
    Spec.prevBlock_map]
  simp only [size_foldB, List.length_map, and_self]

/-- Three points on a line with window 4. -/
example : (Regression.run (([(0, 1), (1, 3), (3, 7)] : List (ℝ × ℝ)).map
      fun p => Op.push (X.fin p.1, X.fin p.2)) : Regression 64 4 (E ε)).slope = X.fin 2 := by
  have h := (C34_interim_regression (w := 64) (W := 4) (by norm_num) (by norm_num)
    (([(0, 1), (1, 3), (3, 7)] : List (ℝ × ℝ)).map fun p => ((X.fin p.1, X.fin p.2) : E ε × E ε))
    (by simp)).1
  rw [List.map_map] at h
  refine h.trans ?_
  exact (C13_exact_line (ε := ε) (w := 64)
    [.push (0, 1), .push (1, 3), .push (3, 7)] 2 1 (by simp [sinceClear]) (by
      intro p hp
      have e : sinceClear [.push (0, 1), .push (1, 3), .push (3, 7)]
        = ([(0, 1), (1, 3), (3, 7)] : List (ℝ × ℝ)) := rfl
      rw [e] at hp
      simp at hp
      rcases hp with rfl | rfl | rfl <;> norm_num) ⟨(0, 1), by
      have e : sinceClear [.push (0, 1), .push (1, 3), .push (3, 7)]
        = ([(0, 1), (1, 3), (3, 7)] : List (ℝ × ℝ)) := rfl
      rw [e]; simp, (1, 3), by
      have e : sinceClear [.push (0, 1), .push (1, 3), .push (3, 7)]
        = ([(0, 1), (1, 3), (3, 7)] : List (ℝ × ℝ)) := rfl
      rw [e]; simp, by norm_num⟩).1

end Verif.Props
