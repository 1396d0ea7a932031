import Verif.Proofs.ErrorBound
import Verif.Proofs.Window
/-
The window mean with rounding.
-/
namespace Verif
open Scalar

variable {F : Fmt} {p : Nat} {emin : Int} {u η : ℝ}

/-- Results up to a number of the format do not overflow. -/
theorem Fmt.Binary.round_le (hF : F.Binary p emin) {K r : ℝ} (hK : IsRep p emin K) (hKf : F.fits K) (h : |r| ≤ K) :
    (X.round r : X F) = X.fin (F.rnd r) ∧ |F.rnd r| ≤ K := by
  have h' := abs_le.1 h
  have hr : |F.rnd r| ≤ K := abs_le.2 ⟨hF.le_rnd hK.neg h'.1, hF.rnd_le hK h'.2⟩
  refine ⟨?_, hr⟩
  unfold X.round
  rw [if_pos (hF.fits_abs _ K (hr.trans (le_abs_self K)) hKf)]

/-- Integers up to `2^p` are numbers of the format. -/
theorem Fmt.Binary.ofNat_fin (hF : F.Binary p emin) {n : Nat} (hp : n ≤ 2 ^ p) (hfit : F.fits (n : ℝ)) :
    (ofNat n : X F) = X.fin n := by
  rw [X.ofNat_eq]
  refine hF.round_exact ?_ hfit
  have := isRep_mul (p := p) (emin := emin) (m := (n : Int)) (e := 0) (by have := hF.digits; omega) hF.emin_le
    (by rw [abs_of_nonneg (by positivity)]; exact_mod_cast hp)
  simpa using this

theorem Fmt.Err.abs_le (h : F.Err u η) (r : ℝ) : |F.rnd r| ≤ (1 + u) * |r| + η := by
  have h1 := h.err r
  have h2 := abs_add_le (F.rnd r - r) r
  rw [sub_add_cancel] at h2
  linarith

/-- The update of a mean does not overflow. -/
theorem Fmt.Err.update (hF : F.Binary p emin) (hE : F.Err u η) {B K m x y n : ℝ} (hK : IsRep p emin K) (hKf : F.fits K)
    (hBK : 8 * B ≤ K) (hη : 5 * η ≤ B) (hm : |m| ≤ 2 * B) (hxy : |x - y| ≤ 4 * B) (hn : 1 ≤ n) :
    (X.fin m + (X.fin x - X.fin y) / X.fin n : X F) = X.fin (F.rnd (m + F.rnd (1 / n * F.rnd (x - y)))) := by
  have hu := hE.u_nonneg
  have hu8 := hE.u_le
  have hB : 0 ≤ B := by have := hE.eta_nonneg; linarith
  obtain ⟨h1, h1'⟩ := hF.round_le (F := F) hK hKf (show |x - y| ≤ K by linarith)
  rw [X.sub_fin, h1, X.div_fin_of_ne _ (by linarith)]
  have e : F.rnd (x - y) / n = 1 / n * F.rnd (x - y) := by ring
  rw [e]
  have hn' : 1 / n ≤ 1 := by rw [div_le_one (by linarith)]; exact hn
  have hn0 : 0 ≤ 1 / n := by positivity
  have hd : |F.rnd (x - y)| ≤ 19 / 4 * B := by
    refine (hE.abs_le _).trans ?_
    have : (1 + u) * |x - y| ≤ (1 + 1 / 8) * (4 * B) := mul_le_mul (by linarith) hxy (abs_nonneg _) (by norm_num)
    linarith
  have hq : |1 / n * F.rnd (x - y)| ≤ 19 / 4 * B := by
    rw [abs_mul, abs_of_nonneg hn0]
    exact (mul_le_of_le_one_left (abs_nonneg _) hn').trans hd
  obtain ⟨h2, -⟩ := hF.round_le (F := F) hK hKf (show |1 / n * F.rnd (x - y)| ≤ K by linarith)
  rw [h2, X.add_fin]
  refine (hF.round_le hK hKf ?_).1
  refine (abs_add_le _ _).trans ?_
  have : |F.rnd (1 / n * F.rnd (x - y))| ≤ 6 * B := by
    refine (hE.abs_le _).trans ?_
    have : (1 + u) * |1 / n * F.rnd (x - y)| ≤ (1 + 1 / 8) * (19 / 4 * B) :=
      mul_le_mul (by linarith) hq (abs_nonneg _) (by norm_num)
    linarith
  linarith

namespace Window
variable {w N : Nat}

/-- Until the window is full the filter does the same operations as the cumulative filter. -/
theorem Variance.until_full {α : Type} [Scalar α] (xs : List α) (hN : xs.length ≤ N) (hw : xs.length < 2 ^ w) :
    xs.foldl (fun s x => s.bind (Variance.push · x)) (some (Variance.init : Variance N α))
      = some { super := { window := ⟨xs⟩, mean := (xs.foldl Cumulative.Variance.push (Cumulative.Variance.init (w := w))).super.mean }
               sumVariance := (xs.foldl Cumulative.Variance.push (Cumulative.Variance.init (w := w))).sumVariance }
    ∧ (xs.foldl Cumulative.Variance.push (Cumulative.Variance.init (w := w))).super.count = BitVec.ofNat w xs.length := by
  induction xs using List.reverseRecOn with
  | nil => exact ⟨rfl, rfl⟩
  | append_singleton xs x ih =>
    rw [List.length_append, List.length_singleton] at hN hw
    obtain ⟨h1, h2⟩ := ih (by omega) (by omega)
    rw [List.foldl_append, List.foldl_append, h1]
    set c := xs.foldl Cumulative.Variance.push (Cumulative.Variance.init (w := w)) with hc
    have hcount : c.super.count + 1 = BitVec.ofNat w (xs.length + 1) := by rw [h2, ofNat_add_one]
    have hof : (ofSize (c.super.count + 1) : α) = ofNat (xs.length + 1) := by
      rw [hcount, ofSize, toNat_ofNat_lt hw]
    refine ⟨?_, ?_⟩
    · have hf : ((⟨xs⟩ : Ring N α).full) = false := by
        simp only [Ring.full, beq_eq_false_iff_ne]; omega
      show Variance.push _ x = _
      unfold Variance.push
      rw [if_neg (by simp [Mean.full, hf])]
      show some _ = some _
      simp only [Variance.size, Mean.size, Ring.size, Ring.pushBack, hf, Variance.delta, Mean.getMean, List.foldl_cons,
        List.foldl_nil, Cumulative.Variance.push, Cumulative.Mean.push, Cumulative.Mean.getMean, hof]
      rfl
    · show c.super.count + 1 = _
      rw [hcount]; simp

theorem Mean.until_full {α : Type} [Scalar α] (xs : List α) (hN : xs.length ≤ N) (hw : xs.length < 2 ^ w) :
    xs.foldl (fun s x => s.bind (Mean.push · x)) (some (Mean.init : Mean N α))
      = some { window := ⟨xs⟩, mean := (xs.foldl Cumulative.Mean.push (Cumulative.Mean.init (w := w))).mean }
    ∧ (xs.foldl Cumulative.Mean.push (Cumulative.Mean.init (w := w))).count = BitVec.ofNat w xs.length := by
  induction xs using List.reverseRecOn with
  | nil => exact ⟨rfl, rfl⟩
  | append_singleton xs x ih =>
    rw [List.length_append, List.length_singleton] at hN hw
    obtain ⟨h1, h2⟩ := ih (by omega) (by omega)
    rw [List.foldl_append, List.foldl_append, h1]
    set c := xs.foldl Cumulative.Mean.push (Cumulative.Mean.init (w := w)) with hc
    have hcount : c.count + 1 = BitVec.ofNat w (xs.length + 1) := by rw [h2, ofNat_add_one]
    have hof : (ofSize (c.count + 1) : α) = ofNat (xs.length + 1) := by
      rw [hcount, ofSize, toNat_ofNat_lt hw]
    refine ⟨?_, ?_⟩
    · have hf : ((⟨xs⟩ : Ring N α).full) = false := by
        simp only [Ring.full, beq_eq_false_iff_ne]; omega
      show Mean.push _ x = _
      unfold Mean.push
      rw [if_neg (by simp [Mean.full, hf])]
      show some _ = some _
      simp only [Mean.size, Ring.size, Ring.pushBack, hf, List.foldl_cons,
        List.foldl_nil, Cumulative.Mean.push, hof]
      rfl
    · show c.count + 1 = _
      rw [hcount]; simp

theorem abs_sum_le {B : ℝ} {l : List ℝ} (h : ∀ y ∈ l, |y| ≤ B) : |l.sum| ≤ l.length * B := by
  induction l with
  | nil => simp
  | cons a l ih =>
    rw [List.sum_cons, List.length_cons]
    refine (abs_add_le _ _).trans ?_
    have := ih (fun y hy => h y (List.mem_cons_of_mem _ hy))
    have := h a (by simp)
    push_cast; linarith

theorem abs_mean_le {B : ℝ} (hB0 : 0 ≤ B) {l : List ℝ} (h : ∀ y ∈ l, |y| ≤ B) : |Spec.mean l| ≤ B := by
  unfold Spec.mean
  rcases eq_or_ne l [] with h' | h'
  · simp [h', hB0]
  · have hpos : (0 : ℝ) < l.length := by exact_mod_cast List.length_pos_iff.2 h'
    rw [abs_div, abs_of_pos hpos, div_le_iff₀ hpos]
    have := abs_sum_le h
    linarith

/-- After `t` pushes the error is at most `t` times a constant. -/
theorem Mean.drift (hF : F.Binary p emin) (hE : F.Err u η) (hN : 1 ≤ N) (hp : N ≤ 2 ^ p) (hfit : F.fits (N : ℝ))
    {B K : ℝ} (hK : IsRep p emin K) (hKf : F.fits K) (hBK : 8 * B ≤ K) (xs : List ℝ) (hB : ∀ x ∈ xs, |x| ≤ B)
    (ht : xs.length * (12 * (u * B) + 5 * η) ≤ B) :
    ∃ m, (xs.map X.fin).foldl (fun s x => s.bind (Mean.push · x)) (some (Mean.init : Mean N (X F)))
        = some { window := ⟨(Spec.lastN N xs).map X.fin⟩, mean := X.fin m }
      ∧ |m - Spec.mean (Spec.lastN N xs)| ≤ xs.length * (12 * (u * B) + 5 * η) := by
  induction xs using List.reverseRecOn with
  | nil =>
    refine ⟨0, ?_, by simp [Spec.mean, Spec.lastN]⟩
    show some Mean.init = _
    simp only [Mean.init, Ring.init, hF.ofNat_zero, Spec.lastN, List.drop_nil, List.map_nil]
  | append_singleton xs x ih =>
    have hxB : |x| ≤ B := hB x (by simp)
    have hB0 : 0 ≤ B := (abs_nonneg _).trans hxB
    have hu := hE.u_nonneg
    have he := hE.eta_nonneg
    have huB := mul_nonneg hu hB0
    rw [List.length_append, List.length_singleton] at ht ⊢
    push_cast at ht ⊢
    have hη : 5 * η ≤ B := by
      have : 0 ≤ (xs.length : ℝ) * (12 * (u * B) + 5 * η) := by positivity
      linarith
    have hBxs : ∀ y ∈ xs, |y| ≤ B := fun y hy => hB y (List.mem_append_left _ hy)
    obtain ⟨m, hm, hem⟩ := ih hBxs (by linarith)
    set c := 12 * (u * B) + 5 * η with hc
    have hc0 : 0 ≤ c := by positivity
    have hl : ∀ y ∈ Spec.lastN N xs, |y| ≤ B := fun y hy => hBxs y (List.mem_of_mem_drop hy)
    have hmean : |Spec.mean (Spec.lastN N xs)| ≤ B := abs_mean_le hB0 hl
    have hm2 : |m| ≤ 2 * B := by
      have := abs_add_le (m - Spec.mean (Spec.lastN N xs)) (Spec.mean (Spec.lastN N xs))
      rw [sub_add_cancel] at this
      linarith
    rw [List.map_append, List.foldl_append, hm]
    have hpb := pushBack_map (N := N) (X.fin : ℝ → X F) (Spec.lastN N xs) x
    rw [← Spec.lastN_snoc hN] at hpb
    have hlen : (Spec.lastN N xs).length ≤ N := by rw [Spec.length_lastN]; omega
    show ∃ m', Mean.push _ (X.fin x) = _ ∧ _
    unfold Mean.push
    by_cases hfull : (Spec.lastN N xs).length = N
    · -- the window is full
      obtain ⟨f, t, hft⟩ : ∃ f t, Spec.lastN N xs = f :: t := by
        cases hh : Spec.lastN N xs with
        | nil => rw [hh] at hfull; simp at hfull; omega
        | cons f t => exact ⟨f, t, rfl⟩
      have hf : (⟨(Spec.lastN N xs).map X.fin⟩ : Ring N (X F)).full = true := by
        simp [Ring.full, hfull]
      have hfB : |f| ≤ B := hl f (by rw [hft]; simp)
      rw [if_pos (by exact hf)]
      have hfr : (⟨(Spec.lastN N xs).map X.fin⟩ : Ring N (X F)).front = some (X.fin f) := by
        simp [Ring.front, hft]
      simp only [hfr, Mean.size, Ring.size, List.length_map, hfull, hF.ofNat_fin hp hfit, hpb]
      have hn1 : (1 : ℝ) ≤ N := by exact_mod_cast hN
      have hxf : |x - f| ≤ 2 * B := by have := abs_sub x f; linarith
      rw [hE.update hF hK hKf hBK hη hm2 (by linarith) hn1]
      refine ⟨_, rfl, ?_⟩
      have hslide : Spec.mean (Spec.lastN N (xs ++ [x])) = Spec.mean (Spec.lastN N xs) + 1 / N * (x - f) := by
        rw [Spec.lastN_snoc hN, Spec.slide, if_pos hfull, hft, List.tail_cons, Spec.mean_slide, ← hft, hfull]; ring
      have hM : |m + 1 / N * (x - f)| ≤ 2 * B := by
        have h1 : |Spec.mean (Spec.lastN N (xs ++ [x]))| ≤ B :=
          abs_mean_le hB0 fun y hy => hB y (List.mem_of_mem_drop hy)
        have e : m + 1 / N * (x - f) = (m - Spec.mean (Spec.lastN N xs)) + Spec.mean (Spec.lastN N (xs ++ [x])) := by
          rw [hslide]; ring
        rw [e]
        refine (abs_add_le _ _).trans ?_
        linarith
      have hstep := hE.step_le (m := m) (x := x) (y := f) (t := 1 / N) (B := 2 * B) (by positivity) (by linarith) hM
      have ht1 : (1 : ℝ) / N ≤ 1 := by rw [div_le_one (by linarith)]; exact hn1
      have hs2 : (1 : ℝ) / N * (5 * (u * (2 * B)) + 2 * η) ≤ 5 * (u * (2 * B)) + 2 * η :=
        mul_le_of_le_one_left (by positivity) ht1
      rw [hslide]
      set r := F.rnd (m + F.rnd (1 / N * F.rnd (x - f)))
      have e : r - (Spec.mean (Spec.lastN N xs) + 1 / N * (x - f))
          = (r - (m + 1 / N * (x - f))) + (m - Spec.mean (Spec.lastN N xs)) := by ring
      rw [e]
      refine (abs_add_le _ _).trans ?_
      linarith
    · -- the window is not full
      have hf : (⟨(Spec.lastN N xs).map X.fin⟩ : Ring N (X F)).full = false := by
        simp [Ring.full, hfull]
      rw [if_neg (by simp [Mean.full, hf])]
      set n := (Spec.lastN N xs).length with hn
      have hnN : n + 1 ≤ N := by omega
      have hfn : F.fits ((n + 1 : Nat) : ℝ) := by
        refine hF.fits_abs _ _ ?_ hfit
        rw [Nat.abs_cast, Nat.abs_cast]; exact_mod_cast hnN
      simp only [Mean.size, Ring.size, List.length_map, ← hn, hF.ofNat_fin (hnN.trans hp) hfn, hpb]
      have hn1 : (1 : ℝ) ≤ ((n + 1 : Nat) : ℝ) := by exact_mod_cast Nat.le_add_left 1 n
      have hxm : |x - m| ≤ 3 * B := by have := abs_sub x m; linarith
      rw [hE.update hF hK hKf hBK hη hm2 (by linarith) hn1]
      refine ⟨_, rfl, ?_⟩
      have hμ := Cumulative.spec_mean_append (Spec.lastN N xs) x
      have hsl : Spec.lastN N (xs ++ [x]) = Spec.lastN N xs ++ [x] := by
        rw [Spec.lastN_snoc hN, Spec.slide, if_neg hfull]
      rw [← hsl, ← hn] at hμ
      set μ := Spec.mean (Spec.lastN N xs)
      set μ' := Spec.mean (Spec.lastN N (xs ++ [x]))
      have hpos : (0 : ℝ) < (n : ℝ) + 1 := by positivity
      push_cast
      have ht1 : (1 : ℝ) / (n + 1) ≤ 1 := by
        rw [div_le_one hpos]; push_cast at hn1; exact hn1
      have ht0 : 0 ≤ (1 : ℝ) / (n + 1) := by positivity
      have hμ' : μ' = (1 - 1 / (n + 1)) * μ + 1 / (n + 1) * x := by
        have : μ' = (n * μ + x) / (n + 1) := by rw [← hμ]; field_simp
        rw [this]; field_simp; ring
      have eM : m + 1 / ((n : ℝ) + 1) * (x - m) = (1 - 1 / (n + 1)) * (m - μ) + μ' := by
        rw [hμ']; ring
      have hfrac : |(1 - 1 / ((n : ℝ) + 1)) * (m - μ)| ≤ |m - μ| := by
        rw [abs_mul, abs_of_nonneg (by linarith)]
        exact mul_le_of_le_one_left (abs_nonneg _) (by linarith)
      have hM : |m + 1 / ((n : ℝ) + 1) * (x - m)| ≤ 2 * B := by
        have h1 : |μ'| ≤ B := abs_mean_le hB0 fun y hy => hB y (List.mem_of_mem_drop hy)
        rw [eM]
        refine (abs_add_le _ _).trans ?_
        linarith
      have hstep := hE.step_le (m := m) (x := x) (y := m) (t := 1 / ((n : ℝ) + 1)) (B := 2 * B) ht0 (by linarith) hM
      have hs2 : (1 : ℝ) / (n + 1) * (5 * (u * (2 * B)) + 2 * η) ≤ 5 * (u * (2 * B)) + 2 * η :=
        mul_le_of_le_one_left (by positivity) ht1
      set r := F.rnd (m + F.rnd (1 / ((n : ℝ) + 1) * F.rnd (x - m)))
      have e : r - μ' = (r - (m + 1 / ((n : ℝ) + 1) * (x - m))) + (1 - 1 / (n + 1)) * (m - μ) := by
        rw [eM]; ring
      rw [e]
      refine (abs_add_le _ _).trans ?_
      linarith

end Window
end Verif
