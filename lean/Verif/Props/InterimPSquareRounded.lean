import Verif.Props.InterimPSquare
import Verif.Props.InterimRounded
import Verif.Props.InterimError
import Verif.Props.PSquareOrder
import Verif.Props.PSquareInterp
import Verif.Props.PSquareRounded
/-
C157: the interim quantile estimator with rounding.
-/
namespace Verif.Props
open Scalar Verif.PSquare Verif.InterimPSquare

variable {w W : Nat} {F : Fmt} {p : Nat} {emin : Int} {u η : ℝ}

/-- The results of the interim estimator at address `a` are the numbers `v 0`, ..., `v (q + 1)`. -/
def InterimResults (quantiles : List Ratio) (W : Nat) (m : Mem w (X F)) (a : Nat) (ops : List (Op ℝ)) (v : Nat → ℝ) : Prop :=
  ∃ m', interim quantiles W m a (finOps ops) = some m' ∧ ∀ i ≤ quantiles.length + 1, m'.get W a i = some (X.fin (v i))

/-- C157 in binary64, any quartiles and a window of up to `2^26` values of size up to `2^500`: the results are finite, ascending and
between the bounds of the data. -/
def C157_Statement : Prop :=
  ∀ (quantiles : List Ratio), (∀ r ∈ quantiles, 0 ≤ r.num ∧ r.num < r.den ∧ r.den = 4) →
    (quantiles.Pairwise fun a b => a.val ≤ b.val) → quantiles.length ≤ 3 → ∀ W : Nat, 2 ≤ W → W ≤ 2 ^ 26 →
    ∀ (m : Mem 64 (X binary64)) (a : Nat) (ops : List (Op ℝ)), sinceClear ops ≠ [] →
    (∀ x ∈ sinceClear ops, IsRep 53 (-1074) x ∧ |x| ≤ 2 ^ 500) →
    ∃ v, InterimResults quantiles W m a ops v ∧ (∀ i ≤ quantiles.length, v i ≤ v (i + 1))
      ∧ ∀ lo hi, (∀ x ∈ sinceClear ops, lo ≤ x ∧ x ≤ hi) → ∀ i ≤ quantiles.length + 1, lo ≤ v i ∧ v i ≤ hi

/-- The weighted average of the two half windows in exact arithmetic; `f` is the estimate from one half window. -/
noncomputable def Spec_interimEstimate (W : Nat) (f : List ℝ → ℝ) (xs : List ℝ) : ℝ :=
  if xs.length ≤ W / 2 then f xs
  else ((W / 2 - (Spec.curBlock (W / 2) xs).length : Nat) * f (Spec.prevBlock (W / 2) xs) + (2 * (Spec.curBlock (W / 2) xs).length : Nat) * f (Spec.curBlock (W / 2) xs))
    / (W / 2 + (Spec.curBlock (W / 2) xs).length : Nat)

theorem estimate_of_ordered {quantiles : List Ratio} {l : List ℝ} {s : PSquare w (X F)} {x : X F} {i : Nat}
    (h : PSquare.run quantiles (finOps (l.map Op.push)) = some s) (hx : s.get i = some x) :
    estimate w quantiles (l.map X.fin : List (X F)) i = some x := by
  have e : finOps (l.map Op.push) = ((l.map X.fin : List (X F)).map Op.push) := by simp [finOps, Op.map, List.map_map]
  rw [estimate, ← e, h]
  exact hx

/-- What the interim estimator returns, for results `f i l` of the half windows `l`. -/
theorem interim_get {quantiles : List Ratio} (hL : 2 * quantiles.length + 3 < 2 ^ w) (hW : 2 ≤ W) (hWw : W < 2 ^ w)
    (m : Mem w (X F)) (a : Nat) (ops : List (Op ℝ)) (hne : sinceClear ops ≠ []) (f : Nat → List ℝ → ℝ)
    (hf : ∀ l : List ℝ, l ≠ [] → l.length ≤ W / 2 → (∀ x ∈ l, x ∈ sinceClear ops) →
      ∀ i ≤ quantiles.length + 1, estimate w quantiles (l.map X.fin : List (X F)) i = some (X.fin (f i l))) :
    ∃ m', interim quantiles W m a (finOps ops) = some m' ∧ ∀ i ≤ quantiles.length + 1,
      m'.get W a i = some (
        if (sinceClear ops).length ≤ W / 2 then X.fin (f i (sinceClear ops))
        else (X.fin (f i (Spec.prevBlock (W / 2) (sinceClear ops))) * ofNat (W / 2 - (Spec.curBlock (W / 2) (sinceClear ops)).length)
          + X.fin (f i (Spec.curBlock (W / 2) (sinceClear ops))) * ofNat (2 * (Spec.curBlock (W / 2) (sinceClear ops)).length))
          / ofNat (W / 2 + (Spec.curBlock (W / 2) (sinceClear ops)).length)) := by
  have hH : 1 ≤ W / 2 := by omega
  obtain ⟨m', h1, -, -, h4⟩ := C43_interim (α := X F) hL hW hWw m a (finOps ops)
  refine ⟨m', h1, fun i hi => ?_⟩
  rw [h4 i, sinceClear_finOps]
  dsimp only
  rw [Spec.curBlock_map, Spec.prevBlock_map, List.length_map, List.length_map]
  split_ifs with hc
  · exact hf _ hne hc (fun x hx => hx) i hi
  · have hc1 : Spec.curBlock (W / 2) (sinceClear ops) ≠ [] := fun h => hne ((Spec.curBlock_eq_nil hH _).1 h)
    have hp1 : Spec.prevBlock (W / 2) (sinceClear ops) ≠ [] := fun h => hc ((Spec.prevBlock_eq_nil hH _).1 h)
    have hp2 : (Spec.prevBlock (W / 2) (sinceClear ops)).length ≤ W / 2 := by
      rw [Spec.length_prevBlock hH]; (split_ifs; omega)
    rw [hf _ hp1 hp2 (fun x hx => Interim.mem_prevBlock hx) i hi,
      hf _ hc1 (Spec.length_curBlock_le hH _) (fun x hx => List.mem_of_mem_drop hx) i hi]
    rfl

theorem round_eq_fin {x d : ℝ} (h : (X.round x : X F) = X.fin d) : d = F.rnd x := by
  unfold X.round at h
  split_ifs at h
  exact (X.fin.inj h).symm

/-- A finite weighted average is the rounded one. -/
theorem blend_form {a P b Q T r : ℝ} (hT : 0 < T) (h : ((X.fin a * X.fin P + X.fin b * X.fin Q) / X.fin T : X F) = X.fin r) :
    r = F.rnd (F.rnd (F.rnd (a * P) + F.rnd (b * Q)) / T) := by
  rw [X.mul_fin, X.mul_fin] at h
  have inf : ∀ z : X F, (z = X.pinf ∨ z = X.ninf ∨ z = X.nan) → (z / X.fin T : X F) ≠ X.fin r := by
    rintro z (rfl | rfl | rfl) h
    · change (if T < 0 then X.ninf else X.pinf) = X.fin r at h
      rw [if_neg (not_lt.2 hT.le)] at h; cases h
    · change (if T < 0 then X.pinf else X.ninf) = X.fin r at h
      rw [if_neg (not_lt.2 hT.le)] at h; cases h
    · cases h
  have cases' : ∀ z : ℝ, (X.round z : X F) = X.fin (F.rnd z) ∨ (X.round z : X F) = X.pinf ∨ (X.round z : X F) = X.ninf := by
    intro z; unfold X.round; split_ifs <;> simp
  rcases cases' (a * P) with h1 | h1 | h1 <;> rcases cases' (b * Q) with h2 | h2 | h2 <;> rw [h1, h2] at h
  · rw [X.add_fin] at h
    rcases cases' (F.rnd (a * P) + F.rnd (b * Q)) with h3 | h3 | h3 <;> rw [h3] at h
    · rw [X.div_fin_of_ne _ hT.ne'] at h
      exact round_eq_fin h
    · exact absurd h (inf _ (by simp))
    · exact absurd h (inf _ (by simp))
  · exact absurd h (inf _ (Or.inl rfl))
  · exact absurd h (inf _ (Or.inr (Or.inl rfl)))
  · exact absurd h (inf _ (Or.inl rfl))
  · exact absurd h (inf _ (Or.inl rfl))
  · exact absurd h (inf _ (Or.inr (Or.inr rfl)))
  · exact absurd h (inf _ (Or.inr (Or.inl rfl)))
  · exact absurd h (inf _ (Or.inr (Or.inr rfl)))
  · exact absurd h (inf _ (Or.inr (Or.inl rfl)))

/-- C157, what holds: if the estimates of each half window are in order (C106, C110), the results are finite and ascending, and at
most `12 u M` from the weighted averages of the estimates, so at most this much outside the data. -/
theorem C157_order_partial {quantiles : List Ratio} (hF : F.Binary p emin) (hE : F.Err u η) (hL : 2 * quantiles.length + 3 < 2 ^ w)
    (hW : 2 ≤ W) (hWw : W < 2 ^ w) (hWp : W ≤ 2 ^ p) (hWf : F.fits (W : ℝ)) {M K : ℝ} (hM0 : 0 ≤ M) (hη : η ≤ u * M)
    (hK : IsRep p emin K) (hKf : F.fits K) (hMK : 3 * W * M ≤ K) (m : Mem w (X F)) (a : Nat) (ops : List (Op ℝ))
    (hne : sinceClear ops ≠ []) (hM : ∀ x ∈ sinceClear ops, |x| ≤ M)
    (hblock : ∀ l : List ℝ, l ≠ [] → l.length ≤ W / 2 → (∀ x ∈ l, x ∈ sinceClear ops) → OrderedEstimates w F quantiles (l.map Op.push)) :
    ∃ (v : Nat → ℝ) (f : Nat → List ℝ → ℝ), InterimResults quantiles W m a ops v ∧ (∀ i ≤ quantiles.length, v i ≤ v (i + 1))
      ∧ (∀ l : List ℝ, l ≠ [] → l.length ≤ W / 2 → (∀ x ∈ l, x ∈ sinceClear ops) → ∀ i ≤ quantiles.length + 1,
        estimate w quantiles (l.map X.fin : List (X F)) i = some (X.fin (f i l)))
      ∧ (∀ i ≤ quantiles.length + 1, |v i - Spec_interimEstimate W (f i) (sinceClear ops)| ≤ 12 * (u * M))
      ∧ ∀ lo hi, (∀ x ∈ sinceClear ops, lo ≤ x ∧ x ≤ hi) → ∀ i ≤ quantiles.length + 1, lo - 12 * (u * M) ≤ v i ∧ v i ≤ hi + 12 * (u * M) := by
  have hH : 1 ≤ W / 2 := by omega
  have huM := mul_nonneg hE.u_nonneg hM0
  -- the estimates of the half windows
  have hex : ∀ l : List ℝ, ∃ g : Nat → ℝ, l ≠ [] → l.length ≤ W / 2 → (∀ x ∈ l, x ∈ sinceClear ops) →
      (∀ i ≤ quantiles.length + 1, estimate w quantiles (l.map X.fin : List (X F)) i = some (X.fin (g i)))
      ∧ (∀ i ≤ quantiles.length, g i ≤ g (i + 1)) ∧ g 0 ∈ l ∧ g (quantiles.length + 1) ∈ l := by
    intro l
    by_cases h : l ≠ [] ∧ l.length ≤ W / 2 ∧ ∀ x ∈ l, x ∈ sinceClear ops
    · obtain ⟨s, g, g1, g2, g3, g4, g5⟩ := hblock l h.1 h.2.1 h.2.2
      rw [sinceClear_pushes] at g4 g5
      exact ⟨g, fun _ _ _ => ⟨fun i hi => estimate_of_ordered g1 (g2 i hi), g3, g4.1, g5.1⟩⟩
    · exact ⟨fun _ => 0, fun h1 h2 h3 => absurd ⟨h1, h2, h3⟩ h⟩
  choose g hg using hex
  have hmono : ∀ l : List ℝ, l ≠ [] → l.length ≤ W / 2 → (∀ x ∈ l, x ∈ sinceClear ops) → ∀ i j, i ≤ j → j ≤ quantiles.length + 1 →
      g l i ≤ g l j := by
    intro l h1 h2 h3 i j hij hj
    obtain ⟨-, ho, -⟩ := hg l h1 h2 h3
    induction j with
    | zero => rw [Nat.le_zero.1 hij]
    | succ j ih =>
      rcases hij.lt_or_eq with h | h
      · exact (ih (by omega) (by omega)).trans (ho j (by omega))
      · rw [h]
  have hin : ∀ l : List ℝ, l ≠ [] → l.length ≤ W / 2 → (∀ x ∈ l, x ∈ sinceClear ops) → ∀ lo hi,
      (∀ x ∈ sinceClear ops, lo ≤ x ∧ x ≤ hi) → ∀ i ≤ quantiles.length + 1, lo ≤ g l i ∧ g l i ≤ hi := by
    intro l h1 h2 h3 lo hi hb i hi'
    obtain ⟨-, -, m1, m2⟩ := hg l h1 h2 h3
    exact ⟨(hb _ (h3 _ m1)).1.trans (hmono l h1 h2 h3 0 i (Nat.zero_le _) hi'), (hmono l h1 h2 h3 i _ hi' le_rfl).trans (hb _ (h3 _ m2)).2⟩
  have habs : ∀ l : List ℝ, l ≠ [] → l.length ≤ W / 2 → (∀ x ∈ l, x ∈ sinceClear ops) → ∀ i ≤ quantiles.length + 1, |g l i| ≤ M := by
    intro l h1 h2 h3 i hi
    exact abs_le.2 (hin l h1 h2 h3 (-M) M (fun x hx => abs_le.1 (hM x hx)) i hi)
  obtain ⟨m', r1, r2⟩ := interim_get hL hW hWw m a ops hne (fun i l => g l i) fun l h1 h2 h3 => (hg l h1 h2 h3).1
  by_cases hc : (sinceClear ops).length ≤ W / 2
  · refine ⟨g (sinceClear ops), fun i l => g l i, ⟨m', r1, fun i hi => by rw [r2 i hi, if_pos hc]⟩, fun i hi =>
      (hg _ hne hc fun x hx => hx).2.1 i hi, fun l h1 h2 h3 => (hg l h1 h2 h3).1, fun i hi => ?_, fun lo hi hb i hi' => ?_⟩
    · rw [Spec_interimEstimate, if_pos hc, sub_self, abs_zero]; linarith
    · obtain ⟨b1, b2⟩ := hin _ hne hc (fun x hx => hx) lo hi hb i hi'
      exact ⟨by linarith, by linarith⟩
  set cur := Spec.curBlock (W / 2) (sinceClear ops) with hcur
  set prev := Spec.prevBlock (W / 2) (sinceClear ops) with hprev
  have hc1 : cur ≠ [] := fun h => hne ((Spec.curBlock_eq_nil hH _).1 h)
  have hp1 : prev ≠ [] := fun h => hc ((Spec.prevBlock_eq_nil hH _).1 h)
  have hc2 : cur.length ≤ W / 2 := Spec.length_curBlock_le hH _
  have hp2 : prev.length ≤ W / 2 := by rw [hprev, Spec.length_prevBlock hH]; (split_ifs; omega)
  have hc3 : ∀ x ∈ cur, x ∈ sinceClear ops := fun x hx => List.mem_of_mem_drop hx
  have hp3 : ∀ x ∈ prev, x ∈ sinceClear ops := fun x hx => Interim.mem_prevBlock hx
  have hsum : W / 2 + cur.length = (W / 2 - cur.length) + 2 * cur.length := by omega
  -- the rounded average is monotone
  have ofn : ∀ n : Nat, n ≤ W → (ofNat n : X F) = X.fin n := fun n hn => hF.ofNat_small hn hWp hWf
  have hpos : (0 : ℝ) < (W / 2 + cur.length : Nat) := by exact_mod_cast (show 0 < W / 2 + cur.length by omega)
  have key : ∀ i ≤ quantiles.length + 1, ∃ r : ℝ,
      ((X.fin (g prev i) * ofNat (W / 2 - cur.length) + X.fin (g cur i) * ofNat (2 * cur.length)) / ofNat (W / 2 + cur.length) : X F) = X.fin r
      ∧ |r - Spec.blend (W / 2 - cur.length : Nat) (2 * cur.length : Nat) (g prev i) (g cur i)| ≤ 12 * (u * M) := by
    intro i hi
    have hb := Interim.blend_err hF hE (N := W) (P := W / 2 - cur.length) (Q := 2 * cur.length) (by omega) hWp hWf (by omega)
      (M := M) (K := K) (e := 0) (x := g prev i) (y := g cur i) (a := g prev i) (b := g cur i)
      hM0 hη hK hKf hMK hM0 (habs _ hp1 hp2 hp3 i hi) (habs _ hc1 hc2 hc3 i hi) (by simp) (by simp)
    rw [zero_add, ← hsum] at hb
    exact hb
  have hex2 : ∀ i, ∃ r : ℝ, i ≤ quantiles.length + 1 →
      ((X.fin (g prev i) * ofNat (W / 2 - cur.length) + X.fin (g cur i) * ofNat (2 * cur.length)) / ofNat (W / 2 + cur.length) : X F) = X.fin r
      ∧ |r - Spec.blend (W / 2 - cur.length : Nat) (2 * cur.length : Nat) (g prev i) (g cur i)| ≤ 12 * (u * M) := by
    intro i
    by_cases h : i ≤ quantiles.length + 1
    · obtain ⟨r, hr⟩ := key i h; exact ⟨r, fun _ => hr⟩
    · exact ⟨0, fun h' => absurd h' h⟩
  choose v hv using hex2
  refine ⟨v, fun i l => g l i, ⟨m', r1, fun i hi => ?_⟩, fun i hi => ?_, fun l h1 h2 h3 => (hg l h1 h2 h3).1, fun i hi => ?_, fun lo hi hb i hi' => ?_⟩
  · rw [r2 i hi, if_neg hc]
    exact congrArg some (hv i hi).1
  · have form : ∀ j ≤ quantiles.length + 1, v j = F.rnd (F.rnd (F.rnd (g prev j * (W / 2 - cur.length : Nat)) + F.rnd (g cur j * (2 * cur.length : Nat)))
        / (W / 2 + cur.length : Nat)) := by
      intro j hj
      have h := (hv j hj).1
      rw [ofn _ (by omega), ofn _ (by omega), ofn _ (by omega)] at h
      exact blend_form hpos h
    rw [form i (by omega), form (i + 1) (by omega)]
    refine hF.mono (div_le_div_of_nonneg_right (hF.mono (add_le_add (hF.mono ?_) (hF.mono ?_))) hpos.le)
    · exact mul_le_mul_of_nonneg_right (hmono _ hp1 hp2 hp3 i (i + 1) (by omega) (by omega)) (Nat.cast_nonneg _)
    · exact mul_le_mul_of_nonneg_right (hmono _ hc1 hc2 hc3 i (i + 1) (by omega) (by omega)) (Nat.cast_nonneg _)
  · have := (hv i hi).2
    rw [Spec_interimEstimate, if_neg hc, hsum, Nat.cast_add]
    exact this
  · have h1 := abs_le.1 (hv i hi').2
    obtain ⟨a1, a2⟩ := hin _ hp1 hp2 hp3 lo hi hb i hi'
    obtain ⟨b1, b2⟩ := hin _ hc1 hc2 hc3 lo hi hb i hi'
    have hP0 : (0 : ℝ) ≤ (W / 2 - cur.length : Nat) := Nat.cast_nonneg _
    have hQ0 : (0 : ℝ) ≤ (2 * cur.length : Nat) := Nat.cast_nonneg _
    have hPQ : (0 : ℝ) < (W / 2 - cur.length : Nat) + (2 * cur.length : Nat) := by rw [← Nat.cast_add, ← hsum]; exact hpos
    have l1 : lo ≤ Spec.blend (W / 2 - cur.length : Nat) (2 * cur.length : Nat) (g prev i) (g cur i) := by
      rw [Spec.blend, le_div_iff₀ hPQ]; nlinarith only [mul_le_mul_of_nonneg_left a1 hP0, mul_le_mul_of_nonneg_left b1 hQ0]
    have l2 : Spec.blend (W / 2 - cur.length : Nat) (2 * cur.length : Nat) (g prev i) (g cur i) ≤ hi := by
      rw [Spec.blend, div_le_iff₀ hPQ]; nlinarith only [mul_le_mul_of_nonneg_left a2 hP0, mul_le_mul_of_nonneg_left b2 hQ0]
    exact ⟨by linarith only [h1.1, l1], by linarith only [h1.2, l2]⟩

/-- Each half window is estimated in order, in binary64: quantiles in steps of `1 / 2^k`, up to `2^26` values of size up to `2^980`. -/
theorem blocks_double (k : Nat) (hk1 : k ≤ 40) (quantiles : List Ratio) (hq : ∀ r ∈ quantiles, 0 ≤ r.num ∧ r.num < r.den ∧ r.den = 2 ^ k)
    (ha : quantiles.Pairwise fun a b => a.val ≤ b.val) (hk : 16 * (2 * quantiles.length + 3) * 2 ^ k ≤ 2 ^ 53) (l : List ℝ) (hne : l ≠ [])
    (hlen : l.length ≤ 2 ^ 26) (hx : ∀ x ∈ l, IsRep 53 (-1074) x ∧ |x| ≤ 2 ^ 980) : OrderedEstimates 64 binary64 quantiles (l.map Op.push) := by
  have hs := sinceClear_pushes l
  have hL : 2 * quantiles.length + 3 < 2 ^ 64 := by
    have : 1 * (2 * quantiles.length + 3) ≤ 16 * (2 * quantiles.length + 3) * 2 ^ k := by
      nlinarith [Nat.one_le_two_pow (n := k)]
    have : (2 : Nat) ^ 53 < 2 ^ 64 := by norm_num
    omega
  have h26 : (2 : Nat) ^ 26 < 2 ^ 64 := by norm_num
  by_cases hn : 2 * quantiles.length + 3 < l.length
  · exact C106_order_partial binary64_nearest C106_double quantiles hL _ (by rw [List.length_map]; omega) (by rw [hs]; exact hlen)
      (by rw [hs]; exact hx) (by rw [hs]; exact hn)
  · have big : ∀ r : ℝ, |r| ≤ 2 ^ 1000 → binary64.fits r := by
      intro r hr
      rw [binary64_fits]
      refine lt_of_le_of_lt hr ?_
      rw [← zpow_natCast]
      exact zpow_lt_zpow_right₀ (by norm_num) (by norm_num)
    have le1000 : (2 : ℝ) ^ 981 ≤ 2 ^ 1000 := pow_le_pow_right₀ (by norm_num) (by norm_num)
    have le980 : (2 : ℝ) ^ 980 ≤ 2 ^ 1000 := pow_le_pow_right₀ (by norm_num) (by norm_num)
    have d981 : (2 : ℝ) ^ 981 = 2 ^ 980 + 2 ^ 980 := by rw [pow_succ]; ring
    have p980 : (0 : ℝ) < 2 ^ 980 := by positivity
    refine C110_binary_fractions_partial binary64_nearest (by norm_num) (by norm_num) k quantiles hq ha ?_ hL _ (by rw [List.length_map]; omega) ?_
      (by rw [hs]; exact List.length_pos_iff.2 hne) (by rw [hs]; omega) ?_ ?_
    · refine big _ ?_
      rw [abs_of_pos (by positivity)]
      exact pow_le_pow_right₀ (by norm_num) (by omega)
    · rw [hs]
      refine ⟨fun x hx' => ⟨(hx x hx').1, big _ ((hx x hx').2.trans le980)⟩, fun x hx' y hy => ?_⟩
      have h1 := abs_le.1 (hx x hx').2
      have h2 := abs_le.1 (hx y hy).2
      have rep : IsRep 53 (-1074) ((2 : ℝ) ^ 981) := by
        rw [← zpow_natCast]; exact isRep_zpow (by norm_num) (by norm_num)
      have := (binary64_binary.round_le (r := x - y) rep (big _ (by rw [abs_of_pos (by positivity)]; exact le1000))
        (abs_le.2 ⟨by rw [d981]; linarith only [h1.1, h2.2], by rw [d981]; linarith only [h1.2, h2.1]⟩)).2
      exact big _ (this.trans le1000)
    · rw [hs]
      exact le_trans (Nat.mul_le_mul_right _ (Nat.mul_le_mul_left _ (by omega))) hk
    · rw [hs]
      refine big _ ?_
      rw [abs_of_nonneg (Nat.cast_nonneg _)]
      have : ((l.length : Nat) : ℝ) ≤ ((2 ^ 26 : Nat) : ℝ) := by exact_mod_cast hlen
      rw [Nat.cast_pow, Nat.cast_ofNat] at this
      exact this.trans (pow_le_pow_right₀ (by norm_num) (by norm_num : 26 ≤ 1000))

/-- C157 in binary64, what holds: finite, ascending, and outside the data by at most `12 * 2^-53` of their size. -/
theorem C157_double_partial (k : Nat) (hk1 : k ≤ 40) (quantiles : List Ratio) (hq : ∀ r ∈ quantiles, 0 ≤ r.num ∧ r.num < r.den ∧ r.den = 2 ^ k)
    (ha : quantiles.Pairwise fun a b => a.val ≤ b.val) (hk : 16 * (2 * quantiles.length + 3) * 2 ^ k ≤ 2 ^ 53) (hW : 2 ≤ W) (hW2 : W ≤ 2 ^ 26)
    {M : ℝ} (hM1 : 2 ^ (-1022 : Int) ≤ M) (hM2 : M ≤ 2 ^ 900) (m : Mem 64 (X binary64)) (a : Nat) (ops : List (Op ℝ)) (hne : sinceClear ops ≠ [])
    (hx : ∀ x ∈ sinceClear ops, IsRep 53 (-1074) x ∧ |x| ≤ M) :
    ∃ v, InterimResults quantiles W m a ops v ∧ (∀ i ≤ quantiles.length, v i ≤ v (i + 1))
      ∧ ∀ lo hi, (∀ x ∈ sinceClear ops, lo ≤ x ∧ x ≤ hi) → ∀ i ≤ quantiles.length + 1, lo - 12 * (2 ^ (-53 : Int) * M) ≤ v i ∧ v i ≤ hi + 12 * (2 ^ (-53 : Int) * M) := by
  have hL : 2 * quantiles.length + 3 < 2 ^ 64 := by
    have : 1 * (2 * quantiles.length + 3) ≤ 16 * (2 * quantiles.length + 3) * 2 ^ k := by
      nlinarith [Nat.one_le_two_pow (n := k)]
    have : (2 : Nat) ^ 53 < 2 ^ 64 := by norm_num
    omega
  have hM0 : 0 ≤ M := le_trans (by positivity) hM1
  have rep : IsRep 53 (-1074) ((2 : ℝ) ^ 1000) := by
    rw [← zpow_natCast]; exact isRep_zpow (by norm_num) (by norm_num)
  have fit : binary64.fits ((2 : ℝ) ^ 1000) := by
    rw [binary64_fits, abs_of_pos (by positivity), ← zpow_natCast]
    exact zpow_lt_zpow_right₀ (by norm_num) (by norm_num)
  have hWr : (W : ℝ) ≤ 2 ^ 26 := by exact_mod_cast hW2
  obtain ⟨v, -, h1, h2, -, -, h5⟩ := C157_order_partial (W := W) (M := M) (K := 2 ^ 1000) binary64_binary binary64_err hL hW (lt_of_le_of_lt hW2 (by norm_num))
    (hW2.trans (by norm_num)) (by
      rw [binary64_fits, abs_of_nonneg (Nat.cast_nonneg _)]
      refine lt_of_le_of_lt hWr ?_
      rw [← zpow_natCast]
      exact zpow_lt_zpow_right₀ (by norm_num) (by norm_num)) hM0 (by
      calc (2 : ℝ) ^ (-1075 : Int) = 2 ^ (-53 : Int) * 2 ^ (-1022 : Int) := by rw [← zpow_add₀ (by norm_num)]; norm_num
        _ ≤ _ := mul_le_mul_of_nonneg_left hM1 (by positivity)) rep fit (by
      calc 3 * (W : ℝ) * M ≤ (2 ^ 2 * 2 ^ 26) * 2 ^ 900 := mul_le_mul (by linarith) hM2 hM0 (by positivity)
        _ = 2 ^ 928 := by rw [← pow_add, ← pow_add]
        _ ≤ 2 ^ 1000 := pow_le_pow_right₀ (by norm_num) (by norm_num)) m a ops hne (fun x hx' => (hx x hx').2)
    (fun l l1 l2 l3 => blocks_double k hk1 quantiles hq ha hk l l1 (by omega) fun x hx' => ⟨(hx x (l3 x hx')).1,
      ((hx x (l3 x hx')).2.trans hM2).trans (pow_le_pow_right₀ (by norm_num) (by norm_num))⟩)
  exact ⟨v, h1, h2, h5⟩

/-- C157, constant streams: exact for numbers whose product with the window length is a number of the format. -/
theorem C157_constant_partial {quantiles : List Ratio} (hF : F.Binary p emin) (hL : 2 * quantiles.length + 3 < 2 ^ w)
    (hW : 2 ≤ W) (hWw : W < 2 ^ w) (hWp : W ≤ 2 ^ p) (hWf : F.fits (W : ℝ)) {c : ℝ} {n e : Int} (hc : c = n * 2 ^ e) (he : emin ≤ e)
    (hn : |n| * W ≤ 2 ^ p) (hcf : F.fits (c * W)) (m : Mem w (X F)) (a : Nat) (ops : List (Op ℝ)) (hne : sinceClear ops ≠ [])
    (hconst : ∀ x ∈ sinceClear ops, x = c)
    (hblock : ∀ l : List ℝ, l ≠ [] → l.length ≤ W / 2 → (∀ x ∈ l, x ∈ sinceClear ops) → OrderedEstimates w F quantiles (l.map Op.push)) :
    InterimResults quantiles W m a ops fun _ => c := by
  have hH : 1 ≤ W / 2 := by omega
  obtain ⟨m', r1, r2⟩ := interim_get (F := F) hL hW hWw m a ops hne (fun _ _ => c) (by
    intro l h1 h2 h3 i hi
    obtain ⟨s, g, g1, g2, g3, g4, g5⟩ := hblock l h1 h2 h3
    rw [sinceClear_pushes] at g4 g5
    have lo : g 0 = c := hconst _ (h3 _ g4.1)
    have hi' : g (quantiles.length + 1) = c := hconst _ (h3 _ g5.1)
    have up : ∀ j, j ≤ quantiles.length + 1 → g 0 ≤ g j := by
      intro j
      induction j with
      | zero => intro _; exact le_rfl
      | succ j ih => intro hj; exact (ih (by omega)).trans (g3 j (by omega))
    have down : ∀ j, j ≤ quantiles.length + 1 → g (quantiles.length + 1 - j) ≤ g (quantiles.length + 1) := by
      intro j
      induction j with
      | zero => intro _; exact le_rfl
      | succ j ih =>
        intro hj
        have := g3 (quantiles.length + 1 - (j + 1)) (by omega)
        rw [show quantiles.length + 1 - (j + 1) + 1 = quantiles.length + 1 - j by omega] at this
        exact this.trans (ih (by omega))
    have h : g i = c := by
      have a1 := up i hi
      have a2 := down (quantiles.length + 1 - i) (by omega)
      rw [show quantiles.length + 1 - (quantiles.length + 1 - i) = i by omega] at a2
      rw [lo] at a1; rw [hi'] at a2
      exact le_antisymm a2 a1
    rw [estimate_of_ordered g1 (g2 i hi), h])
  refine ⟨m', r1, fun i hi => ?_⟩
  rw [r2 i hi]
  split_ifs with hl
  · rfl
  · have hcl := Spec.length_curBlock_le hH (sinceClear ops)
    set s := (Spec.curBlock (W / 2) (sinceClear ops)).length
    have ex : ∀ k : Nat, k ≤ W → (X.round (c * k) : X F) = X.fin (c * k) := by
      intro k hk
      have hk' : |n * k| ≤ 2 ^ p := by
        rw [abs_mul, Nat.abs_cast]
        refine le_trans (mul_le_mul_of_nonneg_left ?_ (abs_nonneg n)) hn
        exact_mod_cast hk
      refine hF.round_exact (by
        rw [hc, show (n : ℝ) * 2 ^ e * k = ((n * k : Int) : ℝ) * 2 ^ e by push_cast; ring]
        exact isRep_mul (by have := hF.digits; omega) he hk') ?_
      refine hF.fits_abs _ _ ?_ hcf
      rw [abs_mul, abs_mul, Nat.abs_cast, Nat.abs_cast]
      exact mul_le_mul_of_nonneg_left (by exact_mod_cast hk) (abs_nonneg c)
    rw [hF.ofNat_small (show W / 2 - s ≤ W by omega) hWp hWf, hF.ofNat_small (show 2 * s ≤ W by omega) hWp hWf,
      hF.ofNat_small (show W / 2 + s ≤ W by omega) hWp hWf, X.mul_fin, X.mul_fin, ex _ (by omega), ex _ (by omega), X.add_fin, ← mul_add, ← Nat.cast_add,
      show W / 2 - s + 2 * s = W / 2 + s by omega, ex _ (by omega), X.div_fin_of_ne _ (by exact_mod_cast (show W / 2 + s ≠ 0 by omega)),
      mul_div_assoc, div_self (by exact_mod_cast (show W / 2 + s ≠ 0 by omega))]
    have := ex 1 (by omega)
    rw [Nat.cast_one] at this
    rw [this, mul_one]

/-- Five times `1 + 2^-52`, two half windows of four: the smallest value is reported as `1 + 2^-51`. -/
theorem C157_minimum (m : Mem 64 (X binary64)) (a : Nat) :
    ∃ m', interim [⟨2, 4⟩] 8 m a (finOps (List.replicate 5 (.push (1 + 2 ^ (-52 : Int))))) = some m'
      ∧ m'.get 8 a 0 = some (X.fin (1 + 2 ^ (-51 : Int))) := by
  have hmin : ∀ n : Nat, 1 ≤ n → n ≤ 4 → estimate 64 [⟨2, 4⟩] (List.replicate n (X.fin (1 + 2 ^ (-52 : Int)) : X binary64)) 0
      = some (X.fin (1 + 2 ^ (-52 : Int))) := by
    intro n h1 h4
    obtain ⟨s, lo, hi, e1, e2, -, e4, -⟩ := C74_extremes (w := 64) (F := binary64) [⟨2, 4⟩] (by decide)
      ((List.replicate n (1 + 2 ^ (-52 : Int) : ℝ)).map Op.push) (by rw [List.length_map, List.length_replicate]; omega)
      (by rw [sinceClear_pushes]; intro h; have := congrArg List.length h; simp at this; omega)
    rw [sinceClear_pushes] at e4
    have : lo = 1 + 2 ^ (-52 : Int) := (List.mem_replicate.1 e4.1).2
    rw [this] at e2
    have := estimate_of_ordered e1 e2
    rwa [List.map_replicate] at this
  obtain ⟨m', h1, -, -, h4⟩ := C43_interim (α := X binary64) (w := 64) (quantiles := [⟨2, 4⟩]) (W := 8) (by decide) (by norm_num) (by norm_num) m a
    (finOps (List.replicate 5 (.push (1 + 2 ^ (-52 : Int)))))
  refine ⟨m', h1, ?_⟩
  rw [h4 0]
  change (do
    let p ← estimate 64 [⟨2, 4⟩] (List.replicate 4 (X.fin (1 + 2 ^ (-52 : Int)) : X binary64)) 0
    let c ← estimate 64 [⟨2, 4⟩] (List.replicate 1 (X.fin (1 + 2 ^ (-52 : Int)) : X binary64)) 0
    return (p * ofNat 3 + c * ofNat 2) / ofNat 5) = _
  rw [hmin 4 (by norm_num) le_rfl, hmin 1 le_rfl (by norm_num)]
  exact congrArg some C68_blend

/-- C157 is violated. -/
theorem C157_violated : ¬ C157_Statement := by
  intro h
  have hx := double (2 ^ 52 + 1) (-52) (by norm_num) (by norm_num) (by norm_num)
  have e : (((2 ^ 52 + 1 : Int) : ℝ)) * 2 ^ (-52 : Int) = 1 + 2 ^ (-52 : Int) := by norm_num
  rw [e] at hx
  have hs : sinceClear (List.replicate 5 (Op.push (1 + 2 ^ (-52 : Int) : ℝ))) = List.replicate 5 (1 + 2 ^ (-52 : Int)) := rfl
  obtain ⟨v, ⟨m1, r1, r2⟩, -, h3⟩ := h [⟨2, 4⟩] (by simp) (by simp) (by simp) 8 (by norm_num) (by norm_num) (fun _ => none) 0
    (List.replicate 5 (.push (1 + 2 ^ (-52 : Int)))) (by rw [hs]; simp) (by
      rw [hs]
      intro x hx'
      rw [(List.mem_replicate.1 hx').2]
      refine ⟨hx.1, le_trans ?_ (pow_le_pow_right₀ (by norm_num : (1 : ℝ) ≤ 2) (by norm_num : 1 ≤ 500))⟩
      rw [abs_of_pos (by positivity)]; norm_num)
  obtain ⟨m2, s1, s2⟩ := C157_minimum (fun _ => none) 0
  have hm : m1 = m2 := Option.some.inj (r1.symm.trans s1)
  have h0 := (r2 0 (by simp)).symm
  rw [hm, s2] at h0
  have h0' := X.fin.inj (Option.some.inj h0)
  have := (h3 0 (1 + 2 ^ (-52 : Int)) (by
    rw [hs]
    intro x hx'
    rw [(List.mem_replicate.1 hx').2]
    exact ⟨by positivity, le_rfl⟩) 0 (by simp)).2
  rw [h0'] at this
  norm_num at this

/-- Quartiles of ten values in binary64 with a window of eight. -/
example : ∃ v, InterimResults (F := binary64) (w := 64) [⟨1, 4⟩, ⟨2, 4⟩, ⟨3, 4⟩] 8 (fun _ => none) 0
      (([3, -1, 50, 7, 0, 5, -52, 1, 2, 9] : List Int).map fun n => Op.push (n : ℝ)) v ∧ (∀ i ≤ 3, v i ≤ v (i + 1))
      ∧ ∀ lo hi, (∀ x ∈ sinceClear (([3, -1, 50, 7, 0, 5, -52, 1, 2, 9] : List Int).map fun n => Op.push (n : ℝ)), lo ≤ x ∧ x ≤ hi) →
        ∀ i ≤ 4, lo - 12 * (2 ^ (-53 : Int) * 64) ≤ v i ∧ v i ≤ hi + 12 * (2 ^ (-53 : Int) * 64) := by
  have e : sinceClear ((([3, -1, 50, 7, 0, 5, -52, 1, 2, 9] : List Int).map fun n => Op.push (n : ℝ)))
    = ([3, -1, 50, 7, 0, 5, -52, 1, 2, 9] : List Int).map (Int.cast : Int → ℝ) := rfl
  refine C157_double_partial 2 (by norm_num) [⟨1, 4⟩, ⟨2, 4⟩, ⟨3, 4⟩] (by simp) (by simp [Ratio.val]; norm_num) (by norm_num) (by norm_num) (by norm_num)
    (le_trans (zpow_le_zpow_right₀ (by norm_num) (by norm_num : (-1022 : Int) ≤ 0)) (by norm_num))
    (le_trans (by norm_num : (64 : ℝ) ≤ 2 ^ 10) (pow_le_pow_right₀ (by norm_num) (by norm_num))) _ _ _ (by rw [e]; simp) ?_
  rw [e]
  intro x hx
  obtain ⟨n, hn, rfl⟩ := List.mem_map.1 hx
  have hb : |n| ≤ 64 := by
    simp only [List.mem_cons, List.not_mem_nil, or_false] at hn
    rcases hn with rfl | rfl | rfl | rfl | rfl | rfl | rfl | rfl | rfl | rfl <;> norm_num
  exact ⟨(binary64_int (n := n) (hb.trans (by norm_num))).1, by exact_mod_cast hb⟩

/-- Eleven times 7 with a window of eight. -/
example : InterimResults (F := binary64) (w := 64) [⟨2, 4⟩] 8 (fun _ => none) 0 (List.replicate 11 (.push 7)) fun _ => 7 := by
  have h7 : IsRep 53 (-1074) (7 : ℝ) := ⟨7, 0, by norm_num, by norm_num, by norm_num⟩
  have hs : sinceClear (List.replicate 11 (Op.push (7 : ℝ))) = List.replicate 11 7 := rfl
  refine C157_constant_partial (n := 7) (e := 0) binary64_binary (by decide) (by norm_num) (by norm_num) (by norm_num) ?_ (by norm_num) (by norm_num)
    (by norm_num) ?_ _ _ _ (by rw [hs]; simp) (by rw [hs]; intro x hx; exact (List.mem_replicate.1 hx).2) ?_
  · have := (binary64_int (n := 8) (by norm_num)).2; exact_mod_cast this
  · have := (binary64_int (n := 56) (by norm_num)).2; norm_num at this ⊢; exact this
  · intro l h1 h2 h3
    refine blocks_double 2 (by norm_num) _ (by simp) (by simp) (by norm_num) l h1 (le_trans h2 (by norm_num)) fun x hx => ?_
    have : x = 7 := by have := h3 x hx; rw [hs] at this; exact (List.mem_replicate.1 this).2
    rw [this]
    refine ⟨h7, le_trans (by norm_num : |(7 : ℝ)| ≤ 2 ^ 3) (pow_le_pow_right₀ (by norm_num) (by norm_num))⟩

end Verif.Props
