import Verif.Model.Window
import Verif.Proofs.History
import Verif.Proofs.PairLemmas
/-
Run lemmas for the window filters: the state after a history of finite values, in exact arithmetic.
-/
namespace Verif.Spec

/-- Contents of a window of at most `N` elements after `x` arrives. -/
def slide {β : Type} (N : Nat) (l : List β) (x : β) : List β :=
  if l.length = N then l.tail ++ [x] else l ++ [x]

theorem lastN_of_le {β : Type} {n : Nat} {xs : List β} (h : xs.length ≤ n) : lastN n xs = xs := by
  simp [lastN, Nat.sub_eq_zero_of_le h]

theorem length_lastN {β : Type} (n : Nat) (xs : List β) : (lastN n xs).length = min n xs.length := by
  simp [lastN]; omega

theorem lastN_snoc {β : Type} {n : Nat} (hn : 1 ≤ n) (xs : List β) (x : β) :
    lastN n (xs ++ [x]) = slide n (lastN n xs) x := by
  unfold slide
  rw [length_lastN]
  by_cases h : n ≤ xs.length
  · rw [if_pos (by omega), lastN, lastN, List.tail_drop, List.length_append, List.length_singleton,
      show xs.length + 1 - n = xs.length - n + 1 by omega, List.drop_append_of_le_length (by omega)]
  · rw [if_neg (by omega), lastN_of_le (by simp; omega), lastN_of_le (by omega)]

theorem lastN_map {β γ : Type} (f : β → γ) (n : Nat) (xs : List β) :
    lastN n (xs.map f) = (lastN n xs).map f := by
  simp [lastN, List.map_drop]

theorem length_slide {β : Type} {N : Nat} (hN : 1 ≤ N) {l : List β} (h : l.length ≤ N) (x : β) :
    (slide N l x).length ≤ N := by
  unfold slide
  split_ifs with hc
  · simp; omega
  · simp; omega

/-- `Σ (x - m)² = Σ x² - n m²`. -/
theorem central_two_eq (xs : List ℝ) :
    central 2 xs = (xs.map (· ^ 2)).sum - xs.length * mean xs ^ 2 := by
  have h := about_two_shift 0 (mean xs) xs
  rw [zero_add, ← central_eq_about, about_one, sum_eq_mean_mul] at h
  have e : about 2 0 xs = (xs.map (· ^ 2)).sum := by simp [about]
  rw [h, e]; ring

theorem cosum_eq (ps : List (ℝ × ℝ)) :
    cosum ps = (ps.map fun p => p.1 * p.2).sum
      - (xsOf ps).sum * (ysOf ps).sum / ps.length := by
  have h := coabout_shift 0 0 (mean (xsOf ps)) (mean (ysOf ps)) ps
  rw [zero_add, zero_add, ← cosum_eq_coabout, about_one, about_one] at h
  have e : coabout 0 0 ps = (ps.map fun p => p.1 * p.2).sum := by simp [coabout]
  rw [h, e]
  rcases eq_or_ne ps [] with rfl | hne
  · simp
  · have hl := length_ne_zero hne
    simp only [mean, length_xsOf, length_ysOf]
    field_simp
    ring

theorem mean_slide (f : ℝ) (t : List ℝ) (x : ℝ) :
    mean (t ++ [x]) = mean (f :: t) + (x - f) / (f :: t).length := by
  have h : ((t.length : ℝ) + 1) ≠ 0 := by positivity
  simp only [mean, List.sum_append, List.sum_cons, List.sum_nil, List.length_append, List.length_cons,
    List.length_nil]
  push_cast
  field_simp
  ring

theorem central_slide (f : ℝ) (t : List ℝ) (x : ℝ) :
    central 2 (t ++ [x]) = central 2 (f :: t)
      + (x - mean (f :: t)) * (x - mean (t ++ [x]))
      - (f - mean (f :: t)) * (f - mean (t ++ [x])) := by
  have h : ((t.length : ℝ) + 1) ≠ 0 := by positivity
  rw [central_two_eq, central_two_eq, mean_slide f]
  simp only [List.map_append, List.map_cons, List.map_nil, List.sum_append, List.sum_cons,
    List.sum_nil, List.length_append, List.length_cons, List.length_nil]
  generalize mean (f :: t) = m
  push_cast
  field_simp
  ring

end Verif.Spec

namespace Verif.Window
open Scalar Exact Spec

variable {N : Nat} {ε : ℝ}

theorem Ring.pushBack_eq {β : Type} (r : Ring N β) (x : β) :
    (r.pushBack x).items = slide N r.items x := by
  simp [Ring.pushBack, Ring.full, slide]

/-! ### Invariant in any arithmetic: no undefined behaviour, and the ring holds the last `N` values -/

section any
variable {α : Type} [Scalar α]

theorem Mean.push_some (hN : 1 ≤ N) (s : Mean N α) (x : α) :
    ∃ s', s.push x = some s' ∧ s'.window.items = slide N s.window.items x := by
  unfold Mean.push
  by_cases hf : s.full = true
  · rw [if_pos hf]
    have hlen : s.window.items.length = N := by
      simpa [Mean.full, Ring.full] using hf
    cases hit : s.window.items with
    | nil => rw [hit] at hlen; simp at hlen; omega
    | cons f t =>
      simp only [Ring.front, hit, List.head?_cons]
      exact ⟨_, rfl, by rw [← hit]; exact Ring.pushBack_eq _ _⟩
  · rw [if_neg hf]
    exact ⟨_, rfl, Ring.pushBack_eq _ _⟩

theorem Variance.push_some (hN : 1 ≤ N) (s : Variance N α) (x : α) :
    ∃ s', s.push x = some s' ∧ s'.super.window.items = slide N s.super.window.items x := by
  unfold Variance.push
  by_cases hf : s.super.full = true
  · simp only [if_pos hf]
    have hlen : s.super.window.items.length = N := by
      simpa [Mean.full, Ring.full] using hf
    cases hit : s.super.window.items with
    | nil => rw [hit] at hlen; simp at hlen; omega
    | cons f t =>
      simp only [Ring.front, hit, List.head?_cons]
      exact ⟨_, rfl, by rw [← hit]; exact Ring.pushBack_eq _ _⟩
  · simp only [if_neg hf]
    exact ⟨_, rfl, Ring.pushBack_eq _ _⟩

theorem Comoment.push_some (hN : 1 ≤ N) (s : Comoment N α) (x : α × α) :
    ∃ s', s.push x = some s' ∧ s'.window.items = slide N s.window.items x := by
  unfold Comoment.push
  by_cases hf : s.window.full = true
  · simp only [if_pos hf]
    have hlen : s.window.items.length = N := by
      simpa [Ring.full] using hf
    cases hit : s.window.items with
    | nil => rw [hit] at hlen; simp at hlen; omega
    | cons f t =>
      simp only [Ring.front, hit, List.head?_cons]
      exact ⟨_, rfl, by rw [← hit]; exact Ring.pushBack_eq _ _⟩
  · simp only [if_neg hf]
    exact ⟨_, rfl, Ring.pushBack_eq _ _⟩

end any

/-- Generic: histories of a filter whose `push` may be undefined, but is not, and whose `clear` restores
the initial state. -/
theorem run_option {σ β : Type} (init : σ) (push : σ → β → Option σ) (clear : σ → σ)
    (hp : ∀ s x, ∃ s', push s x = some s') (hc : ∀ s, clear s = init) (ops : List (Op β)) :
    runOps (some init) (fun s x => s.bind (push · x)) (Option.map clear) ops
      = (sinceClear ops).foldl (fun s x => s.bind (push · x)) (some init) := by
  refine (runOps_eq_inv (fun s => ∃ t, s = some t) (some init)
    (fun s x => s.bind (push · x)) (Option.map clear) ⟨init, rfl⟩ ?_ ?_ ops).1
  · rintro s x ⟨t, rfl⟩
    exact hp t x
  · rintro s ⟨t, rfl⟩
    simp [hc]

/-- Generic: the state is a function of the window contents. -/
theorem fold_window {σ β : Type} (hN : 1 ≤ N) (of : List β → σ) (init : σ) (push : σ → β → Option σ)
    (h0 : init = of []) (hp : ∀ l x, l.length ≤ N → push (of l) x = some (of (slide N l x)))
    (xs : List β) :
    xs.foldl (fun s x => s.bind (push · x)) (some init) = some (of (lastN N xs)) := by
  induction xs using List.reverseRecOn with
  | nil => simp [h0, lastN]
  | append_singleton xs x ih =>
    rw [List.foldl_append, ih, List.foldl_cons, List.foldl_nil, lastN_snoc hN]
    exact hp _ _ (by rw [length_lastN]; omega)

/-- The mean filter with window contents `l`. -/
noncomputable def Mean.of (l : List ℝ) : Mean N (E ε) :=
  { window := ⟨l.map X.fin⟩, mean := X.fin (Spec.mean l) }

/-- The variance filter with window contents `l`. -/
noncomputable def Variance.of (l : List ℝ) : Variance N (E ε) :=
  { super := Mean.of l, sumVariance := X.fin (central 2 l) }

/-- The covariance filter with window contents `l`. -/
noncomputable def Comoment.of (l : List (ℝ × ℝ)) : Comoment N (E ε) :=
  { window := ⟨l.map fun p => (X.fin p.1, X.fin p.2)⟩
    sumX := X.fin (xsOf l).sum
    sumY := X.fin (ysOf l).sum
    sumXY := X.fin (l.map fun p => p.1 * p.2).sum }

theorem slide_map {β γ : Type} (f : β → γ) (l : List β) (x : β) :
    slide N (l.map f) (f x) = (slide N l x).map f := by
  unfold slide
  split_ifs with h1 h2 h2 <;> simp_all

theorem pushBack_map {β γ : Type} (f : β → γ) (l : List β) (x : β) :
    (⟨l.map f⟩ : Ring N γ).pushBack (f x) = ⟨(slide N l x).map f⟩ := by
  have := Ring.pushBack_eq (⟨l.map f⟩ : Ring N γ) (f x)
  rw [← slide_map]
  exact congrArg Ring.mk this

theorem Variance.push_of (hN : 1 ≤ N) (l : List ℝ) (x : ℝ) :
    (Variance.of l : Variance N (E ε)).push (X.fin x) = some (Variance.of (slide N l x)) := by
  unfold Variance.push
  by_cases hlen : l.length = N
  · have hf : (Variance.of l : Variance N (E ε)).super.full = true := by
      simp [Variance.of, Mean.of, Mean.full, Ring.full, hlen]
    simp only [if_pos hf]
    obtain ⟨f, t, rfl⟩ : ∃ f t, l = f :: t := by
      cases l with
      | nil => simp at hlen; omega
      | cons f t => exact ⟨f, t, rfl⟩
    have hfr : (Variance.of (f :: t) : Variance N (E ε)).super.window.front = some (X.fin f) := by
      simp [Variance.of, Mean.of, Ring.front]
    have hp : ((f :: t).length : ℝ) ≠ 0 := length_ne_zero (by simp)
    rw [hfr]
    simp only [Variance.of, Mean.of, Variance.size, Mean.size, Ring.size, List.length_map, sub_fin,
      pushBack_map, Mean.getMean, Exact.ofNat_eq]
    rw [div_fin _ hp]
    simp only [Variance.delta, add_fin, sub_fin, mul_fin, ← mean_slide]
    rw [← central_slide]
    simp [slide, hlen]
  · have hf : ¬ (Variance.of l : Variance N (E ε)).super.full = true := by
      simp [Variance.of, Mean.of, Mean.full, Ring.full, hlen]
    have hp : ((l.length + 1 : Nat) : ℝ) ≠ 0 := by positivity
    simp only [if_neg hf]
    simp only [Variance.of, Mean.of, Variance.size, Mean.size, Ring.size, List.length_map, sub_fin,
      pushBack_map, Mean.getMean, Exact.ofNat_eq]
    rw [div_fin _ hp]
    have e : Spec.mean l + (x - Spec.mean l) / ((l.length + 1 : Nat) : ℝ) = Spec.mean (l ++ [x]) := by
      rw [mean_snoc]; push_cast; rfl
    simp only [Variance.delta, add_fin, sub_fin, mul_fin, e]
    rw [← central_two_snoc]
    simp [slide, hlen]

theorem Mean.push_of (hN : 1 ≤ N) (l : List ℝ) (x : ℝ) :
    (Mean.of l : Mean N (E ε)).push (X.fin x) = some (Mean.of (slide N l x)) := by
  have h := Variance.push_of (ε := ε) hN l x
  unfold Variance.push at h
  unfold Mean.push
  by_cases hf : (Mean.of l : Mean N (E ε)).full = true
  · have hf' : (Variance.of l : Variance N (E ε)).super.full = true := hf
    rw [if_pos hf]
    simp only [if_pos hf'] at h
    have hw : (Variance.of l : Variance N (E ε)).super.window = (Mean.of l : Mean N (E ε)).window := rfl
    rw [hw] at h
    cases hfr : (Mean.of l : Mean N (E ε)).window.front with
    | none => rw [hfr] at h; simp at h
    | some f =>
      rw [hfr] at h
      simp only [Option.some.injEq] at h ⊢
      exact congrArg Variance.super h
  · have hf' : ¬ (Variance.of l : Variance N (E ε)).super.full = true := hf
    rw [if_neg hf]
    simp only [if_neg hf', Option.some.injEq] at h ⊢
    exact congrArg Variance.super h

theorem Comoment.push_of (hN : 1 ≤ N) (l : List (ℝ × ℝ)) (p : ℝ × ℝ) :
    (Comoment.of l : Comoment N (E ε)).push (X.fin p.1, X.fin p.2)
      = some (Comoment.of (slide N l p)) := by
  have hpb := pushBack_map (N := N) (fun p : ℝ × ℝ => ((X.fin p.1, X.fin p.2) : E ε × E ε)) l p
  unfold Comoment.push
  by_cases hlen : l.length = N
  · have hf : (Comoment.of l : Comoment N (E ε)).window.full = true := by
      simp [Comoment.of, Ring.full, hlen]
    simp only [if_pos hf]
    obtain ⟨f, t, rfl⟩ : ∃ f t, l = f :: t := by
      cases l with
      | nil => simp at hlen; omega
      | cons f t => exact ⟨f, t, rfl⟩
    have hfr : (Comoment.of (f :: t) : Comoment N (E ε)).window.front
        = some (X.fin f.1, X.fin f.2) := by
      simp [Comoment.of, Ring.front]
    rw [hfr]
    have hs : slide N (f :: t) p = t ++ [p] := by simp [slide, hlen]
    rw [hs] at hpb ⊢
    simp only [Comoment.of, hpb, sub_fin, mul_fin, add_fin, Option.some.injEq, Comoment.mk.injEq,
      X.fin_inj, true_and]
    refine ⟨?_, ?_, ?_⟩
    · simp; ring
    · simp; ring
    · simp; ring
  · have hf : ¬ (Comoment.of l : Comoment N (E ε)).window.full = true := by
      simp [Comoment.of, Ring.full, hlen]
    simp only [if_neg hf]
    have hs : slide N l p = l ++ [p] := by simp [slide, hlen]
    rw [hs] at hpb ⊢
    simp only [Comoment.of, hpb, mul_fin, add_fin, Option.some.injEq, Comoment.mk.injEq,
      X.fin_inj, true_and]
    refine ⟨?_, ?_, ?_⟩
    · simp
    · simp
    · simp

theorem foldl_map_option {σ β γ : Type} (f : β → γ) (push : σ → γ → Option σ) (init : Option σ)
    (xs : List β) :
    (xs.map f).foldl (fun s x => s.bind (push · x)) init
      = xs.foldl (fun s x => s.bind (push · (f x))) init := by
  rw [List.foldl_map]

theorem Regression.push_some {α} [Scalar α] (hN : 1 ≤ N) (s : Regression N α) (p : α × α) :
    ∃ s', s.push p = some s' := by
  obtain ⟨c, hc, _⟩ := Comoment.push_some hN s.covariance p
  obtain ⟨v, hv, _⟩ := Variance.push_some hN s.xMoment p.1
  exact ⟨_, by simp only [Regression.push, hc, hv]; rfl⟩

theorem Mean.run_eq {α} [Scalar α] (hN : 1 ≤ N) (ops : List (Op (α))) :
    (Mean.run ops : Option (Mean N α))
      = (sinceClear ops).foldl (fun s x => s.bind (Mean.push · x)) (some Mean.init) :=
  run_option Mean.init Mean.push Mean.clear
    (fun s x => (Mean.push_some hN s x).imp fun _ h => h.1) (fun _ => rfl) ops

theorem Variance.run_eq {α} [Scalar α] (hN : 1 ≤ N) (ops : List (Op (α))) :
    (Variance.run ops : Option (Variance N α))
      = (sinceClear ops).foldl (fun s x => s.bind (Variance.push · x)) (some Variance.init) :=
  run_option Variance.init Variance.push Variance.clear
    (fun s x => (Variance.push_some hN s x).imp fun _ h => h.1) (fun _ => rfl) ops

theorem Comoment.run_eq {α} [Scalar α] (hN : 1 ≤ N) (ops : List (Op (α × α))) :
    (Comoment.run ops : Option (Comoment N α))
      = (sinceClear ops).foldl (fun s x => s.bind (Comoment.push · x)) (some Comoment.init) :=
  run_option Comoment.init Comoment.push Comoment.clear
    (fun s x => (Comoment.push_some hN s x).imp fun _ h => h.1) (fun _ => rfl) ops

theorem Regression.run_eq {α} [Scalar α] (hN : 1 ≤ N) (ops : List (Op (α × α))) :
    (Regression.run ops : Option (Regression N α))
      = (sinceClear ops).foldl (fun s x => s.bind (Regression.push · x)) (some Regression.init) :=
  run_option Regression.init Regression.push Regression.clear
    (Regression.push_some hN) (fun _ => rfl) ops

theorem Mean.run_fin (hN : 1 ≤ N) (ops : List (Op ℝ)) :
    (Mean.run (finOps ops) : Option (Mean N (E ε))) = some (Mean.of (lastN N (sinceClear ops))) := by
  rw [Mean.run_eq hN, sinceClear_finOps, foldl_map_option]
  exact fold_window hN Mean.of Mean.init (fun s x => s.push (X.fin x))
    (by simp [Mean.of, Mean.init, Ring.init]) (fun l x _ => Mean.push_of hN l x) _

theorem Variance.run_fin (hN : 1 ≤ N) (ops : List (Op ℝ)) :
    (Variance.run (finOps ops) : Option (Variance N (E ε)))
      = some (Variance.of (lastN N (sinceClear ops))) := by
  rw [Variance.run_eq hN, sinceClear_finOps, foldl_map_option]
  exact fold_window hN Variance.of Variance.init (fun s x => s.push (X.fin x))
    (by simp [Variance.of, Variance.init, Mean.of, Mean.init, Ring.init])
    (fun l x _ => Variance.push_of hN l x) _

theorem Comoment.run_fin (hN : 1 ≤ N) (ops : List (Op (ℝ × ℝ))) :
    (Comoment.run (finOps2 ops) : Option (Comoment N (E ε)))
      = some (Comoment.of (lastN N (sinceClear ops))) := by
  rw [Comoment.run_eq hN, sinceClear_finOps2, foldl_map_option]
  exact fold_window hN Comoment.of Comoment.init (fun s p => s.push (X.fin p.1, X.fin p.2))
    (by simp [Comoment.of, Comoment.init, Ring.init]) (fun l p _ => Comoment.push_of hN l p) _

/-- The regression filter with window contents `l`. -/
noncomputable def Regression.of (l : List (ℝ × ℝ)) : Regression N (E ε) :=
  { covariance := Comoment.of l, xMoment := Variance.of (xsOf l) }

theorem Regression.run_fin (hN : 1 ≤ N) (ops : List (Op (ℝ × ℝ))) :
    (Regression.run (finOps2 ops) : Option (Regression N (E ε)))
      = some (Regression.of (lastN N (sinceClear ops))) := by
  rw [Regression.run_eq hN, sinceClear_finOps2, foldl_map_option]
  refine fold_window hN Regression.of Regression.init (fun s p => s.push (X.fin p.1, X.fin p.2))
    (by simp [Regression.of, Regression.init, Comoment.of, Comoment.init, Variance.of, Variance.init,
      Mean.of, Mean.init, Ring.init]) ?_ _
  intro l p _
  have h1 := Comoment.push_of (ε := ε) hN l p
  have h2 := Variance.push_of (ε := ε) hN (xsOf l) p.1
  have e : slide N (xsOf l) p.1 = xsOf (slide N l p) := slide_map Prod.fst l p
  rw [e] at h2
  simp only [Regression.push, Regression.of, h1, h2]

/-! ### Window contents in any arithmetic -/

/-- Generic: if the contents of the ring follow `slide`, they are the last `N` values. -/
theorem fold_items {σ β : Type} (hN : 1 ≤ N) (items : σ → List β) (init : σ)
    (push : σ → β → Option σ) (h0 : items init = [])
    (hp : ∀ s x, ∃ s', push s x = some s' ∧ items s' = slide N (items s) x) (xs : List β) :
    ∃ s, xs.foldl (fun s x => s.bind (push · x)) (some init) = some s
      ∧ items s = lastN N xs := by
  induction xs using List.reverseRecOn with
  | nil => exact ⟨init, rfl, by simp [h0, lastN]⟩
  | append_singleton xs x ih =>
    obtain ⟨s, hs, hi⟩ := ih
    obtain ⟨s', hs', hi'⟩ := hp s x
    refine ⟨s', ?_, by rw [hi', hi, lastN_snoc hN]⟩
    rw [List.foldl_append, hs]
    exact hs'

theorem Mean.run_items {α} [Scalar α] (hN : 1 ≤ N) (ops : List (Op α)) :
    ∃ s : Mean N α, Mean.run ops = some s ∧ s.window.items = lastN N (sinceClear ops) := by
  rw [Mean.run_eq hN]
  exact fold_items hN (fun s : Mean N α => s.window.items) _ _ rfl (Mean.push_some hN) _

theorem Variance.run_items {α} [Scalar α] (hN : 1 ≤ N) (ops : List (Op α)) :
    ∃ s : Variance N α, Variance.run ops = some s
      ∧ s.super.window.items = lastN N (sinceClear ops) := by
  rw [Variance.run_eq hN]
  exact fold_items hN (fun s : Variance N α => s.super.window.items) _ _ rfl
    (Variance.push_some hN) _

theorem Comoment.run_items {α} [Scalar α] (hN : 1 ≤ N) (ops : List (Op (α × α))) :
    ∃ s : Comoment N α, Comoment.run ops = some s ∧ s.window.items = lastN N (sinceClear ops) := by
  rw [Comoment.run_eq hN]
  exact fold_items hN (fun s : Comoment N α => s.window.items) _ _ rfl (Comoment.push_some hN) _

theorem Regression.run_items {α} [Scalar α] (hN : 1 ≤ N) (ops : List (Op (α × α))) :
    ∃ s : Regression N α, Regression.run ops = some s
      ∧ s.covariance.window.items = lastN N (sinceClear ops) := by
  rw [Regression.run_eq hN]
  refine fold_items hN (fun s : Regression N α => s.covariance.window.items) _ _ rfl ?_ _
  intro s p
  obtain ⟨c, hc, hi⟩ := Comoment.push_some hN s.covariance p
  obtain ⟨v, hv, _⟩ := Variance.push_some hN s.xMoment p.1
  exact ⟨⟨c, v⟩, by simp only [Regression.push, hc, hv], hi⟩

theorem Variance.run_super {α} [Scalar α] (hN : 1 ≤ N) (ops : List (Op α)) :
    (Variance.run ops : Option (Variance N α)).map Variance.super = Mean.run ops := by
  rw [Variance.run_eq hN, Mean.run_eq hN]
  induction sinceClear ops using List.reverseRecOn with
  | nil => rfl
  | append_singleton xs x ih =>
    rw [List.foldl_append, List.foldl_append, ← ih]
    obtain ⟨s, hs, _⟩ := fold_items hN (fun s : Variance N α => s.super.window.items)
      Variance.init _ rfl (Variance.push_some hN) xs
    rw [hs]
    simp only [List.foldl_cons, List.foldl_nil, Option.bind_some, Option.map_some, Variance.push,
      Mean.push]
    by_cases hf : s.super.full = true
    · simp only [if_pos hf]
      cases s.super.window.front <;> rfl
    · simp only [if_neg hf]; rfl

end Verif.Window
