import Verif.Proofs.CovarianceError
/-
The window variance and covariance with rounding.
-/
namespace Verif
open Scalar

variable {F : Fmt} {p : Nat} {emin : Int} {u η : ℝ}

/-- The difference of a value and a computed mean. -/
theorem Fmt.Err.diff (hF : F.Binary p emin) (hE : F.Err u η) {B K D x μ m : ℝ} (hK : IsRep p emin K) (hKf : F.fits K)
    (hBK : 3 * B ≤ K) (hη : η ≤ u * B) (hx : |x| ≤ B) (hμ : |μ| ≤ B) (hm : |m - μ| ≤ D) (hD : D ≤ B) :
    (X.fin x - X.fin m : X F) = X.fin (F.rnd (x - m)) ∧ |F.rnd (x - m) - (x - μ)| ≤ D + 4 * (u * B)
      ∧ |F.rnd (x - m)| ≤ 7 / 2 * B ∧ |x - μ| ≤ 2 * B := by
  have hB0 : 0 ≤ B := (abs_nonneg _).trans hx
  have hu := hE.u_nonneg
  have hxμ : |x - μ| ≤ 2 * B := (abs_sub x μ).trans (by linarith)
  have hxm : |x - m| ≤ 3 * B := by
    have e : x - m = (x - μ) - (m - μ) := by ring
    rw [e]
    exact (abs_sub _ _).trans (by linarith)
  obtain ⟨r1, -⟩ := hF.round_le (F := F) hK hKf (hxm.trans hBK)
  have h1 := hE.err (x - m)
  have h2 := mul_le_mul_of_nonneg_left hxm hu
  have h4 : u * B ≤ 1 / 8 * B := mul_le_mul_of_nonneg_right hE.u_le hB0
  refine ⟨by rw [X.sub_fin, r1], ?_, ?_, hxμ⟩
  · have e : F.rnd (x - m) - (x - μ) = (F.rnd (x - m) - (x - m)) - (m - μ) := by ring
    rw [e]
    exact (abs_sub _ _).trans (by linarith)
  · have h3 := hE.abs_le (x - m)
    linarith

/-- The product of two differences. -/
theorem Fmt.Err.prod (hF : F.Binary p emin) (hE : F.Err u η) {B K D α β a b : ℝ} (hK : IsRep p emin K) (hKf : F.fits K)
    (hBK : 14 * (B * B) ≤ K) (hB0 : 0 ≤ B) (hD0 : 0 ≤ D) (hηB : η ≤ u * (B * B))
    (ha : |a - α| ≤ D + 4 * (u * B)) (ha' : |a| ≤ 7 / 2 * B) (hα : |α| ≤ 2 * B)
    (hb : |b - β| ≤ D + 4 * (u * B)) (hb' : |b| ≤ 7 / 2 * B) :
    (X.fin a * X.fin b : X F) = X.fin (F.rnd (a * b)) ∧ |F.rnd (a * b) - α * β| ≤ 6 * (B * D) + 36 * (u * (B * B))
      ∧ |F.rnd (a * b)| ≤ 14 * (B * B) := by
  have hu := hE.u_nonneg
  have hBB := mul_nonneg hB0 hB0
  have hBD := mul_nonneg hB0 hD0
  have huBB := mul_nonneg hu hBB
  have hab : |a * b| ≤ 49 / 4 * (B * B) := by
    rw [abs_mul]
    have := mul_le_mul ha' hb' (abs_nonneg _) (by positivity)
    linarith
  have hpr : |a * b - α * β| ≤ 11 / 2 * (B * D) + 22 * (u * (B * B)) := by
    have e : a * b - α * β = (a - α) * b + α * (b - β) := by ring
    rw [e]
    refine (abs_add_le _ _).trans ?_
    rw [abs_mul, abs_mul]
    have h1 := mul_le_mul ha hb' (abs_nonneg _) (by positivity)
    have h2 := mul_le_mul hα hb (abs_nonneg _) (by positivity)
    linarith
  have h3 := hE.err (a * b)
  have h4 := hE.abs_le (a * b)
  have h5 := mul_le_mul_of_nonneg_left hab hu
  have h6 : u * (B * B) ≤ 1 / 8 * (B * B) := mul_le_mul_of_nonneg_right hE.u_le hBB
  obtain ⟨r1, -⟩ := hF.round_le (F := F) hK hKf (r := a * b) (by linarith)
  refine ⟨by rw [X.mul_fin, r1], ?_, by linarith⟩
  have e : F.rnd (a * b) - α * β = (F.rnd (a * b) - a * b) + (a * b - α * β) := by ring
  rw [e]
  exact (abs_add_le _ _).trans (by linarith)

namespace Window
variable {N : Nat}

theorem Variance.push_delta (hF : F.Binary p emin) (hE : F.Err u η) {B K D x μ μ' m m' : ℝ} (hK : IsRep p emin K) (hKf : F.fits K)
    (hBK : 3 * B ≤ K) (hBBK : 14 * (B * B) ≤ K) (hη : η ≤ u * B) (hηB : η ≤ u * (B * B)) (hx : |x| ≤ B)
    (hμ : |μ| ≤ B) (hμ' : |μ'| ≤ B) (hm : |m - μ| ≤ D) (hm' : |m' - μ'| ≤ D) (hD : D ≤ B) :
    ∃ r, (Variance.delta (X.fin m') (X.fin x) (X.fin m) : X F) = X.fin r
      ∧ |r - (x - μ) * (x - μ')| ≤ 6 * (B * D) + 36 * (u * (B * B)) ∧ |r| ≤ 14 * (B * B) := by
  have hB0 : 0 ≤ B := (abs_nonneg _).trans hx
  obtain ⟨a1, a2, a3, a4⟩ := hE.diff hF hK hKf hBK hη hx hμ hm hD
  obtain ⟨b1, b2, b3, b4⟩ := hE.diff hF hK hKf hBK hη hx hμ' hm' hD
  obtain ⟨c1, c2, c3⟩ := hE.prod hF hK hKf hBBK hB0 ((abs_nonneg _).trans hm) hηB a2 a3 a4 b2 b3
  exact ⟨_, by rw [Variance.delta, a1, b1, c1], c2, c3⟩

/-- One addition to a sum of at most `M` in size, where the exact sum is at most `M / 2`. -/
theorem sum_step (hF : F.Binary p emin) (hE : F.Err u η) {K M s d : ℝ} (hK : IsRep p emin K) (hKf : F.fits K)
    (hM : M ≤ K) (hη : η ≤ u * M) (h : |s + d| ≤ M) :
    (X.fin s + X.fin d : X F) = X.fin (F.rnd (s + d)) ∧ |F.rnd (s + d) - (s + d)| ≤ 2 * (u * M) := by
  obtain ⟨r1, -⟩ := hF.round_le (F := F) hK hKf (h.trans hM)
  have h1 := hE.err (s + d)
  have h2 := mul_le_mul_of_nonneg_left h hE.u_nonneg
  exact ⟨by rw [X.add_fin, r1], by linarith⟩

theorem diff_step (hF : F.Binary p emin) (hE : F.Err u η) {K M s d : ℝ} (hK : IsRep p emin K) (hKf : F.fits K)
    (hM : M ≤ K) (hη : η ≤ u * M) (h : |s - d| ≤ M) :
    (X.fin s - X.fin d : X F) = X.fin (F.rnd (s - d)) ∧ |F.rnd (s - d) - (s - d)| ≤ 2 * (u * M) := by
  obtain ⟨r1, -⟩ := hF.round_le (F := F) hK hKf (h.trans hM)
  have h1 := hE.err (s - d)
  have h2 := mul_le_mul_of_nonneg_left h hE.u_nonneg
  exact ⟨by rw [X.sub_fin, r1], by linarith⟩

theorem Variance.fold_super {α : Type} [Scalar α] (xs : List α) :
    (xs.foldl (fun s x => s.bind (Variance.push · x)) (some (Variance.init : Variance N α))).map Variance.super
      = xs.foldl (fun s x => s.bind (Mean.push · x)) (some (Mean.init : Mean N α)) := by
  induction xs using List.reverseRecOn with
  | nil => rfl
  | append_singleton xs x ih =>
    rw [List.foldl_append, List.foldl_append, ← ih]
    cases h : xs.foldl (fun s x => s.bind (Variance.push · x)) (some (Variance.init : Variance N α)) with
    | none => rfl
    | some s =>
      show (Variance.push s x).map Variance.super = Mean.push s.super x
      unfold Variance.push Mean.push
      split_ifs
      · cases s.super.window.front <;> rfl
      · rfl

/-- The bound of the error of the sum of squares after `t` values. -/
noncomputable def varErr (u B : ℝ) (N t : Nat) : ℝ := 204 * (t * (t + N)) * (u * (B * B))

/-- Adding the contribution of a new value and subtracting the one of an old value. -/
theorem Variance.sum_slide (hF : F.Binary p emin) (hE : F.Err u η) {K M b V S d1 d2 e1 e2 c E : ℝ} (hK : IsRep p emin K) (hKf : F.fits K)
    (hM : 34 * M ≤ K) (hη : η ≤ u * M) (hbM : b ≤ M) (hV : |V| ≤ M) (hE' : |S - V| ≤ E) (hEM : E ≤ M)
    (h1 : |d1 - e1| ≤ c) (h1' : |d1| ≤ 14 * b) (h2 : |d2 - e2| ≤ c) (h2' : |d2| ≤ 14 * b) :
    ∃ S', (X.fin S + X.fin d1 - X.fin d2 : X F) = X.fin S' ∧ |S' - (V + e1 - e2)| ≤ E + 2 * c + 100 * (u * M) := by
  have hu := hE.u_nonneg
  have hM0 : 0 ≤ M := (abs_nonneg _).trans hV
  have huM := mul_nonneg hu hM0
  have hS : |S| ≤ 2 * M := by
    have := abs_add_le (S - V) V
    rw [sub_add_cancel] at this
    linarith
  have hs1 : |S + d1| ≤ 16 * M := (abs_add_le _ _).trans (by linarith)
  obtain ⟨r1, q1⟩ := sum_step hF hE hK hKf (M := 16 * M) (by linarith) (by linarith) hs1
  have h8 : u * M ≤ 1 / 8 * M := mul_le_mul_of_nonneg_right hE.u_le hM0
  have hr : |F.rnd (S + d1)| ≤ 20 * M := by
    have := abs_add_le (F.rnd (S + d1) - (S + d1)) (S + d1)
    rw [sub_add_cancel] at this
    linarith
  have hs2 : |F.rnd (S + d1) - d2| ≤ 34 * M := (abs_sub _ _).trans (by linarith)
  obtain ⟨r2, q2⟩ := diff_step hF hE hK hKf (M := 34 * M) hM (by linarith) hs2
  refine ⟨_, by rw [r1, r2], ?_⟩
  set R := F.rnd (S + d1)
  set R' := F.rnd (R - d2)
  have e : R' - (V + e1 - e2) = (R' - (R - d2)) + (R - (S + d1)) + (S - V) + (d1 - e1) + -(d2 - e2) := by ring
  rw [e]
  refine (abs_add_le _ _).trans ?_
  rw [abs_neg]
  refine (add_le_add_left ((abs_add_le _ _).trans (add_le_add_left ((abs_add_three _ _ _)) _)) _).trans ?_
  linarith

theorem Variance.sum_grow (hF : F.Binary p emin) (hE : F.Err u η) {K M b V S d1 e1 c E : ℝ} (hK : IsRep p emin K) (hKf : F.fits K)
    (hM : 34 * M ≤ K) (hη : η ≤ u * M) (hbM : b ≤ M) (hV : |V| ≤ M) (hE' : |S - V| ≤ E) (hEM : E ≤ M)
    (h1 : |d1 - e1| ≤ c) (h1' : |d1| ≤ 14 * b) :
    ∃ S', (X.fin S + X.fin d1 : X F) = X.fin S' ∧ |S' - (V + e1)| ≤ E + 2 * c + 100 * (u * M) := by
  have hu := hE.u_nonneg
  have hM0 : 0 ≤ M := (abs_nonneg _).trans hV
  have hc0 : 0 ≤ c := (abs_nonneg _).trans h1
  have huM := mul_nonneg hu hM0
  have hS : |S| ≤ 2 * M := by
    have := abs_add_le (S - V) V
    rw [sub_add_cancel] at this
    linarith
  have hs1 : |S + d1| ≤ 16 * M := (abs_add_le _ _).trans (by linarith)
  obtain ⟨r1, q1⟩ := sum_step hF hE hK hKf (M := 16 * M) (by linarith) (by linarith) hs1
  refine ⟨_, r1, ?_⟩
  set R := F.rnd (S + d1)
  have e : R - (V + e1) = (R - (S + d1)) + (S - V) + (d1 - e1) := by ring
  rw [e]
  refine (abs_add_three _ _ _).trans ?_
  linarith

theorem Variance.drift (hF : F.Binary p emin) (hE : F.Err u η) (hN : 1 ≤ N) (hp : N ≤ 2 ^ p) (hfit : F.fits (N : ℝ))
    {B K : ℝ} (hB0 : 0 ≤ B) (hK : IsRep p emin K) (hKf : F.fits K) (hBK : 8 * B ≤ K) (hBBK : 34 * (N * (B * B)) ≤ K)
    (hη : η ≤ u * B) (hηB : η ≤ u * (B * B)) (xs : List ℝ) (hB : ∀ x ∈ xs, |x| ≤ B)
    (hT : 204 * (xs.length * (xs.length + N)) * u ≤ N) :
    ∃ m S : ℝ, (xs.map X.fin).foldl (fun s x => s.bind (Variance.push · x)) (some (Variance.init : Variance N (X F)))
        = some { super := { window := ⟨(Spec.lastN N xs).map X.fin⟩, mean := X.fin m }, sumVariance := X.fin S }
      ∧ |m - Spec.mean (Spec.lastN N xs)| ≤ 17 * xs.length * (u * B)
      ∧ |S - Spec.central 2 (Spec.lastN N xs)| ≤ varErr u B N xs.length := by
  have hu := hE.u_nonneg
  have hBB := mul_nonneg hB0 hB0
  have huB := mul_nonneg hu hB0
  have huBB := mul_nonneg hu hBB
  have hN1 : (1 : ℝ) ≤ N := by exact_mod_cast hN
  -- the drift of the mean
  have hdrift : ∀ n : ℝ, 0 ≤ n → 204 * (n * (n + N)) * u ≤ N → n * (12 * (u * B) + 5 * η) ≤ 17 * n * (u * B)
      ∧ 17 * n * (u * B) ≤ B := by
    intro n hn h
    have h1 : n * (12 * (u * B) + 5 * η) ≤ n * (17 * (u * B)) := mul_le_mul_of_nonneg_left (by linarith) hn
    have h2 : 204 * n * u ≤ 1 := by
      have h3 : 0 ≤ n * n * u := by positivity
      have h4 : 204 * n * u * N ≤ 1 * N := by linarith
      exact le_of_mul_le_mul_right h4 (by linarith)
    have h5 := mul_le_mul_of_nonneg_right h2 hB0
    have h6 : 0 ≤ n * (u * B) := by positivity
    exact ⟨by linarith, by linarith⟩
  induction xs using List.reverseRecOn with
  | nil =>
    refine ⟨0, 0, ?_, by simp [Spec.mean, Spec.lastN], by simp [Spec.lastN, varErr]⟩
    show some Variance.init = _
    simp only [Variance.init, Mean.init, Ring.init, hF.ofNat_zero, Spec.lastN, List.drop_nil, List.map_nil]
  | append_singleton xs x ih =>
    have hBxs : ∀ y ∈ xs, |y| ≤ B := fun y hy => hB y (List.mem_append_left _ hy)
    have hxB : |x| ≤ B := hB x (by simp)
    have hT0 := hT
    rw [List.length_append, List.length_singleton] at hT
    push_cast at hT
    set t : ℝ := ((xs.length : ℕ) : ℝ) with ht
    have ht0 : 0 ≤ t := Nat.cast_nonneg _
    have hNu : 0 ≤ (N : ℝ) * u := by positivity
    have htu : 0 ≤ t * u := by positivity
    obtain ⟨m, S, hfold, hm, hS⟩ := ih hBxs (by linarith)
    obtain ⟨d1, d2⟩ := hdrift _ (by positivity) hT
    obtain ⟨d3, d4⟩ := hdrift _ ht0 (by linarith)
    obtain ⟨m', hm', he'⟩ := Mean.drift hF hE hN hp hfit hK hKf hBK (xs ++ [x]) hB (by
      rw [List.length_append, List.length_singleton]; push_cast; rw [← ht]; linarith)
    have hsup := Variance.fold_super (N := N) (((xs ++ [x]).map X.fin : List (X F)))
    rw [hm'] at hsup
    rw [List.map_append, List.foldl_append, hfold] at hsup ⊢
    set l := Spec.lastN N xs with hl
    set l' := Spec.lastN N (xs ++ [x]) with hl'
    have hslide : l' = Spec.slide N l x := Spec.lastN_snoc hN xs x
    have hlB : ∀ y ∈ l, |y| ≤ B := fun y hy => hBxs y (List.mem_of_mem_drop hy)
    have hl'B : ∀ y ∈ l', |y| ≤ B := fun y hy => hB y (List.mem_of_mem_drop hy)
    have hlen : l.length ≤ N := by rw [Spec.length_lastN]; omega
    have hμ := abs_mean_le hB0 hlB
    have hμ' := abs_mean_le hB0 hl'B
    have hV : |Spec.central 2 l| ≤ N * (B * B) := by
      rw [abs_of_nonneg (Spec.central_two_nonneg l)]
      refine (Spec.central_two_le l hlB).trans ?_
      rw [pow_two]
      exact mul_le_mul_of_nonneg_right (by exact_mod_cast hlen) hBB
    have hNBB : B * B ≤ N * (B * B) := le_mul_of_one_le_left hBB hN1
    have hηM : η ≤ u * (N * (B * B)) := hηB.trans (mul_le_mul_of_nonneg_left hNBB hu)
    have hD : |m - Spec.mean l| ≤ 17 * (t + 1) * (u * B) := hm.trans (by linarith)
    have hD' : |m' - Spec.mean l'| ≤ 17 * (t + 1) * (u * B) := by
      rw [List.length_append, List.length_singleton] at he'
      push_cast at he'
      exact he'.trans d1
    have hEM : varErr u B N xs.length ≤ N * (B * B) := by
      unfold varErr
      rw [← ht]
      have h3 : 204 * (t * (t + N)) * u ≤ N := by linarith
      have := mul_le_mul_of_nonneg_right h3 hBB
      linarith
    have hstep : varErr u B N xs.length + 2 * (6 * (B * (17 * (t + 1) * (u * B))) + 36 * (u * (B * B))) + 100 * (u * (N * (B * B)))
        ≤ varErr u B N (xs ++ [x]).length := by
      unfold varErr
      rw [List.length_append, List.length_singleton]
      push_cast
      rw [← ht]
      have h3 : 0 ≤ t * (u * (B * B)) := by positivity
      have h4 : u * (B * B) ≤ N * (u * (B * B)) := le_mul_of_one_le_left huBB hN1
      linarith
    have hpb := pushBack_map (N := N) (X.fin : ℝ → X F) l x
    rw [← hslide] at hpb
    have hm17 : |m' - Spec.mean l'| ≤ 17 * ((xs ++ [x]).length : ℕ) * (u * B) := by
      rw [List.length_append, List.length_singleton]; push_cast; exact hD'
    show ∃ m S, Variance.push _ (X.fin x) = _ ∧ _
    change (Variance.push _ (X.fin x)).map _ = _ at hsup
    by_cases hfull : l.length = N
    · obtain ⟨f, tl, hft⟩ : ∃ f tl, l = f :: tl := by
        cases hh : l with
        | nil => rw [hh] at hfull; simp at hfull; omega
        | cons f t => exact ⟨f, t, rfl⟩
      have hfB : |f| ≤ B := hlB f (by rw [hft]; simp)
      have hf : (⟨l.map X.fin⟩ : Ring N (X F)).full = true := by simp [Ring.full, hfull]
      have hfr : (⟨l.map X.fin⟩ : Ring N (X F)).front = some (X.fin f) := by simp [Ring.front, hft]
      unfold Variance.push at hsup ⊢
      simp only [Mean.full, hf, if_true, hfr, Option.map_some, Option.some.injEq] at hsup
      have hmm := congrArg Mean.mean hsup
      simp only at hmm
      simp only [Mean.full, hf, if_true, hfr, hmm, Mean.getMean]
      obtain ⟨a, a1, a2, a3⟩ := Variance.push_delta (m := m) (m' := m') hF hE hK hKf (by linarith) (by linarith) hη hηB hxB hμ hμ' hD hD' d2
      obtain ⟨b, b1, b2, b3⟩ := Variance.push_delta (m := m) (m' := m') hF hE hK hKf (by linarith) (by linarith) hη hηB hfB hμ hμ' hD hD' d2
      obtain ⟨S', s1, s2⟩ := Variance.sum_slide hF hE hK hKf hBBK hηM hNBB hV hS hEM a2 a3 b2 b3
      refine ⟨m', S', by rw [hpb, a1, b1, s1], hm17, ?_⟩
      have hc := Spec.central_slide f tl x
      have hl2 : l' = tl ++ [x] := by rw [hslide, Spec.slide, if_pos hfull, hft]; rfl
      rw [← hft, ← hl2] at hc
      rw [hc]
      exact s2.trans hstep
    · have hf : (⟨l.map X.fin⟩ : Ring N (X F)).full = false := by simp [Ring.full, hfull]
      unfold Variance.push at hsup ⊢
      simp only [Mean.full, hf, Option.map_some, Option.some.injEq, Bool.false_eq_true, if_false] at hsup
      have hmm := congrArg Mean.mean hsup
      simp only at hmm
      simp only [Mean.full, hf, Bool.false_eq_true, if_false, hmm, Mean.getMean]
      obtain ⟨a, a1, a2, a3⟩ := Variance.push_delta (m := m) (m' := m') hF hE hK hKf (by linarith) (by linarith) hη hηB hxB hμ hμ' hD hD' d2
      obtain ⟨S', s1, s2⟩ := Variance.sum_grow hF hE hK hKf hBBK hηM hNBB hV hS hEM a2 a3
      refine ⟨m', S', by rw [hpb, a1, s1], hm17, ?_⟩
      have hl2 : l' = l ++ [x] := by rw [hslide, Spec.slide, if_neg hfull]
      have hc := Spec.central_two_snoc l x
      rw [← hl2] at hc
      rw [hc]
      exact s2.trans hstep

/-! ### Covariance -/

/-- One step of a running sum: `d` is the computed increment, `e` the exact one. -/
theorem running_sum (hF : F.Binary p emin) (hE : F.Err u η) {K Q s T e d E n : ℝ} (hK : IsRep p emin K) (hKf : F.fits K)
    (hQ : 0 ≤ Q) (hn : 1 ≤ n) (hQK : 3 * (n * Q) ≤ K) (hη : η ≤ u * Q) (hd : |d - e| ≤ 8 * (u * Q)) (hs : |s - T| ≤ E)
    (hEQ : E ≤ n * Q) (hT : |T + e| ≤ n * Q) :
    (X.fin s + X.fin d : X F) = X.fin (F.rnd (s + d)) ∧ |F.rnd (s + d) - (T + e)| ≤ E + 12 * (n * (u * Q)) := by
  have hu := hE.u_nonneg
  have h8 : u * Q ≤ 1 / 8 * Q := mul_le_mul_of_nonneg_right hE.u_le hQ
  have hnQ : Q ≤ n * Q := le_mul_of_one_le_left hQ hn
  have huQ := mul_nonneg hu hQ
  have hnuQ : u * Q ≤ n * (u * Q) := le_mul_of_one_le_left huQ hn
  have e1 : |s + d - (T + e)| ≤ E + 8 * (u * Q) := by
    have e1 : s + d - (T + e) = (s - T) + (d - e) := by ring
    rw [e1]; exact (abs_add_le _ _).trans (by linarith)
  have h1 : |s + d| ≤ 3 * (n * Q) := by
    have := abs_add_le (s + d - (T + e)) (T + e)
    rw [sub_add_cancel] at this
    linarith
  obtain ⟨r1, -⟩ := hF.round_le (F := F) hK hKf (h1.trans hQK)
  refine ⟨by rw [X.add_fin, r1], ?_⟩
  have h2 := hE.err (s + d)
  have h3 := mul_le_mul_of_nonneg_left h1 hu
  have e2 : F.rnd (s + d) - (T + e) = (F.rnd (s + d) - (s + d)) + (s + d - (T + e)) := by ring
  rw [e2]
  exact (abs_add_le _ _).trans (by linarith)

/-- The increment of the sum of the coordinates. -/
theorem incr_sub (hF : F.Binary p emin) (hE : F.Err u η) {K Q x f : ℝ} (hK : IsRep p emin K) (hKf : F.fits K)
    (hQK : 3 * Q ≤ K) (hη : η ≤ u * Q) (hx : |x| ≤ Q) (hf : |f| ≤ Q) :
    (X.fin x - X.fin f : X F) = X.fin (F.rnd (x - f)) ∧ |F.rnd (x - f) - (x - f)| ≤ 8 * (u * Q) := by
  have hQ : 0 ≤ Q := (abs_nonneg _).trans hx
  have hu := hE.u_nonneg
  have h1 : |x - f| ≤ 2 * Q := (abs_sub x f).trans (by linarith)
  obtain ⟨r1, -⟩ := hF.round_le (F := F) hK hKf (r := x - f) (by linarith)
  have h2 := hE.err (x - f)
  have h3 := mul_le_mul_of_nonneg_left h1 hu
  have huQ := mul_nonneg hu hQ
  exact ⟨by rw [X.sub_fin, r1], by linarith⟩

/-- A product of coordinates. -/
theorem incr_mul (hF : F.Binary p emin) (hE : F.Err u η) {K A B x y : ℝ} (hK : IsRep p emin K) (hKf : F.fits K)
    (hQK : 3 * (A * B) ≤ K) (hη : η ≤ u * (A * B)) (hx : |x| ≤ A) (hy : |y| ≤ B) :
    (X.fin x * X.fin y : X F) = X.fin (F.rnd (x * y)) ∧ |F.rnd (x * y) - x * y| ≤ 2 * (u * (A * B))
      ∧ |F.rnd (x * y)| ≤ 5 / 4 * (A * B) := by
  have hA : 0 ≤ A := (abs_nonneg _).trans hx
  have hB : 0 ≤ B := (abs_nonneg _).trans hy
  have hAB := mul_nonneg hA hB
  have hu := hE.u_nonneg
  have h1 : |x * y| ≤ A * B := by rw [abs_mul]; exact mul_le_mul hx hy (abs_nonneg _) hA
  obtain ⟨r1, -⟩ := hF.round_le (F := F) hK hKf (r := x * y) (by linarith)
  have h2 := hE.err (x * y)
  have h3 := mul_le_mul_of_nonneg_left h1 hu
  have h4 : u * (A * B) ≤ 1 / 8 * (A * B) := mul_le_mul_of_nonneg_right hE.u_le hAB
  have h5 := hE.abs_le (x * y)
  exact ⟨by rw [X.mul_fin, r1], by linarith, by linarith⟩

theorem incr_prods (hF : F.Binary p emin) (hE : F.Err u η) {K A B x y f g : ℝ} (hK : IsRep p emin K) (hKf : F.fits K)
    (hQK : 3 * (A * B) ≤ K) (hη : η ≤ u * (A * B)) (hx : |x| ≤ A) (hy : |y| ≤ B) (hf : |f| ≤ A) (hg : |g| ≤ B) :
    ∃ d, (X.fin x * X.fin y - X.fin f * X.fin g : X F) = X.fin d ∧ |d - (x * y - f * g)| ≤ 8 * (u * (A * B)) := by
  have hA : 0 ≤ A := (abs_nonneg _).trans hx
  have hB : 0 ≤ B := (abs_nonneg _).trans hy
  have hu := hE.u_nonneg
  have huAB := mul_nonneg hu (mul_nonneg hA hB)
  obtain ⟨a1, a2, a3⟩ := incr_mul hF hE hK hKf hQK hη hx hy
  obtain ⟨b1, b2, b3⟩ := incr_mul hF hE hK hKf hQK hη hf hg
  set a := F.rnd (x * y)
  set b := F.rnd (f * g)
  have h1 : |a - b| ≤ 5 / 2 * (A * B) := (abs_sub a b).trans (by linarith)
  obtain ⟨r1, -⟩ := hF.round_le (F := F) hK hKf (r := a - b) (by linarith [mul_nonneg hA hB])
  refine ⟨_, by rw [a1, b1, X.sub_fin, r1], ?_⟩
  have h2 := hE.err (a - b)
  have h3 := mul_le_mul_of_nonneg_left h1 hu
  have e : F.rnd (a - b) - (x * y - f * g) = (F.rnd (a - b) - (a - b)) + (a - x * y) + -(b - f * g) := by ring
  rw [e]
  refine (abs_add_three _ _ _).trans ?_
  rw [abs_neg]
  linarith

/-- The sums after a sequence of pairs. -/
theorem Comoment.drift (hF : F.Binary p emin) (hE : F.Err u η) (hN : 1 ≤ N)
    {A B K : ℝ} (hA0 : 0 ≤ A) (hB0 : 0 ≤ B) (hK : IsRep p emin K) (hKf : F.fits K) (hAK : 3 * (N * A) ≤ K) (hBK : 3 * (N * B) ≤ K)
    (hABK : 3 * (N * (A * B)) ≤ K) (hηA : η ≤ u * A) (hηB : η ≤ u * B) (hηAB : η ≤ u * (A * B)) (ps : List (ℝ × ℝ))
    (hA : ∀ q ∈ ps, |q.1| ≤ A) (hB : ∀ q ∈ ps, |q.2| ≤ B) (hT : 12 * ps.length * u ≤ 1) :
    ∃ sx sy sxy : ℝ, (ps.map fun q => (X.fin q.1, X.fin q.2)).foldl (fun s x => s.bind (Comoment.push · x))
        (some (Comoment.init : Comoment N (X F)))
        = some { window := ⟨(Spec.lastN N ps).map fun q => (X.fin q.1, X.fin q.2)⟩, sumX := X.fin sx, sumY := X.fin sy, sumXY := X.fin sxy }
      ∧ |sx - (Spec.xsOf (Spec.lastN N ps)).sum| ≤ 12 * ps.length * ((Spec.lastN N ps).length * (u * A))
      ∧ |sy - (Spec.ysOf (Spec.lastN N ps)).sum| ≤ 12 * ps.length * ((Spec.lastN N ps).length * (u * B))
      ∧ |sxy - ((Spec.lastN N ps).map fun q => q.1 * q.2).sum| ≤ 12 * ps.length * ((Spec.lastN N ps).length * (u * (A * B))) := by
  have hu := hE.u_nonneg
  have hAB := mul_nonneg hA0 hB0
  have hN1 : (1 : ℝ) ≤ N := by exact_mod_cast hN
  induction ps using List.reverseRecOn with
  | nil =>
    refine ⟨0, 0, 0, ?_, by simp [Spec.lastN], by simp [Spec.lastN], by simp [Spec.lastN]⟩
    show some Comoment.init = _
    simp only [Comoment.init, Ring.init, hF.ofNat_zero, Spec.lastN, List.drop_nil, List.map_nil]
  | append_singleton ps q ih =>
    have hAps : ∀ r ∈ ps, |r.1| ≤ A := fun r hr => hA r (List.mem_append_left _ hr)
    have hBps : ∀ r ∈ ps, |r.2| ≤ B := fun r hr => hB r (List.mem_append_left _ hr)
    have hqA : |q.1| ≤ A := hA q (by simp)
    have hqB : |q.2| ≤ B := hB q (by simp)
    rw [List.length_append, List.length_singleton] at hT ⊢
    push_cast at hT ⊢
    obtain ⟨sx, sy, sxy, hfold, hx, hy, hxy⟩ := ih hAps hBps (by linarith)
    set t : ℝ := ((ps.length : ℕ) : ℝ) with ht
    have ht0 : 0 ≤ t := Nat.cast_nonneg _
    rw [List.map_append, List.foldl_append, hfold]
    set l := Spec.lastN N ps with hl
    set l' := Spec.lastN N (ps ++ [q]) with hl'
    have hslide : l' = Spec.slide N l q := Spec.lastN_snoc hN ps q
    have hlA : ∀ y ∈ l, |y.1| ≤ A := fun y hy => hAps y (List.mem_of_mem_drop hy)
    have hlB : ∀ y ∈ l, |y.2| ≤ B := fun y hy => hBps y (List.mem_of_mem_drop hy)
    have hl'A : ∀ y ∈ Spec.xsOf l', |y| ≤ A := by
      intro y hy; obtain ⟨r, hr, rfl⟩ := List.mem_map.1 hy; exact hA r (List.mem_of_mem_drop hr)
    have hl'B : ∀ y ∈ Spec.ysOf l', |y| ≤ B := by
      intro y hy; obtain ⟨r, hr, rfl⟩ := List.mem_map.1 hy; exact hB r (List.mem_of_mem_drop hr)
    have hl'AB : ∀ y ∈ l'.map (fun q => q.1 * q.2), |y| ≤ A * B := by
      intro y hy; obtain ⟨r, hr, rfl⟩ := List.mem_map.1 hy
      rw [abs_mul]
      exact mul_le_mul (hA r (List.mem_of_mem_drop hr)) (hB r (List.mem_of_mem_drop hr)) (abs_nonneg _) hA0
    have bx := abs_sum_le hl'A
    have by' := abs_sum_le hl'B
    have bxy := abs_sum_le hl'AB
    rw [Spec.length_xsOf] at bx
    rw [Spec.length_ysOf] at by'
    rw [List.length_map] at bxy
    have hlen : l.length ≤ N := by rw [Spec.length_lastN]; omega
    have hlen' : l'.length ≤ N := by rw [hslide]; exact Spec.length_slide hN hlen q
    have hge : l.length ≤ l'.length := by
      rw [Spec.length_lastN, Spec.length_lastN, List.length_append]; omega
    have h1' : 1 ≤ l'.length := by
      rw [Spec.length_lastN, List.length_append, List.length_singleton]; omega
    set n : ℝ := ((l.length : ℕ) : ℝ) with hn
    set n' : ℝ := ((l'.length : ℕ) : ℝ) with hn'
    have hn0 : 0 ≤ n := Nat.cast_nonneg _
    have hnn : n ≤ n' := by rw [hn, hn']; exact_mod_cast hge
    have hn1 : 1 ≤ n' := by rw [hn']; exact_mod_cast h1'
    have hnN : n' ≤ N := by rw [hn']; exact_mod_cast hlen'
    -- facts for a bound `Q`
    have key : ∀ Q, 0 ≤ Q → 12 * t * (n * (u * Q)) ≤ 12 * t * (n' * (u * Q)) ∧ 12 * t * (n' * (u * Q)) ≤ n' * Q
        ∧ 12 * t * (n' * (u * Q)) + 12 * (n' * (u * Q)) = 12 * (t + 1) * (n' * (u * Q)) ∧ n' * Q ≤ N * Q ∧ Q ≤ N * Q := by
      intro Q hQ
      refine ⟨?_, ?_, by ring, mul_le_mul_of_nonneg_right hnN hQ, le_mul_of_one_le_left hQ hN1⟩
      · exact mul_le_mul_of_nonneg_left (mul_le_mul_of_nonneg_right hnn (by positivity)) (by positivity)
      · have h0 : 12 * t * u ≤ 1 := by linarith
        have := mul_le_mul_of_nonneg_right h0 (show 0 ≤ n' * Q by positivity)
        linarith
    obtain ⟨a1, a2, a3, a4, a5⟩ := key A hA0
    obtain ⟨b1, b2, b3, b4, b5⟩ := key B hB0
    obtain ⟨c1, c2, c3, c4, c5⟩ := key (A * B) hAB
    have hpb := pushBack_map (N := N) (fun q : ℝ × ℝ => ((X.fin q.1, X.fin q.2) : X F × X F)) l q
    rw [← hslide] at hpb
    show ∃ sx sy sxy, Comoment.push _ (X.fin q.1, X.fin q.2) = _ ∧ _
    by_cases hfull : l.length = N
    · obtain ⟨f, tl, hft⟩ : ∃ f tl, l = f :: tl := by
        cases hh : l with
        | nil => rw [hh] at hfull; simp at hfull; omega
        | cons f t => exact ⟨f, t, rfl⟩
      have hfA : |f.1| ≤ A := hlA f (by rw [hft]; simp)
      have hfB : |f.2| ≤ B := hlB f (by rw [hft]; simp)
      have hf : (⟨l.map fun q => (X.fin q.1, X.fin q.2)⟩ : Ring N (X F × X F)).full = true := by simp [Ring.full, hfull]
      have hfr : (⟨l.map fun q => (X.fin q.1, X.fin q.2)⟩ : Ring N (X F × X F)).front = some (X.fin f.1, X.fin f.2) := by
        simp [Ring.front, hft]
      have hl2 : l' = tl ++ [q] := by rw [hslide, Spec.slide, if_pos hfull, hft]; rfl
      have ex : (Spec.xsOf l').sum = (Spec.xsOf l).sum + (q.1 - f.1) := by
        rw [hl2, hft]; simp [Spec.xsOf]; ring
      have ey : (Spec.ysOf l').sum = (Spec.ysOf l).sum + (q.2 - f.2) := by
        rw [hl2, hft]; simp [Spec.ysOf]; ring
      have exy : (l'.map fun q => q.1 * q.2).sum = (l.map fun q => q.1 * q.2).sum + (q.1 * q.2 - f.1 * f.2) := by
        rw [hl2, hft]; simp; ring
      obtain ⟨i1, i2⟩ := incr_sub hF hE hK hKf (by linarith) hηA hqA hfA
      obtain ⟨j1, j2⟩ := incr_sub hF hE hK hKf (by linarith) hηB hqB hfB
      obtain ⟨d, k1, k2⟩ := incr_prods hF hE hK hKf (by linarith) hηAB hqA hqB hfA hfB
      rw [ex] at bx
      rw [ey] at by'
      rw [exy] at bxy
      obtain ⟨u1, u2⟩ := running_sum hF hE hK hKf hA0 hn1 (by linarith) hηA i2 (hx.trans a1) a2 bx
      obtain ⟨v1, v2⟩ := running_sum hF hE hK hKf hB0 hn1 (by linarith) hηB j2 (hy.trans b1) b2 by'
      obtain ⟨w1, w2⟩ := running_sum hF hE hK hKf hAB hn1 (by linarith) hηAB k2 (hxy.trans c1) c2 bxy
      refine ⟨F.rnd (sx + F.rnd (q.1 - f.1)), F.rnd (sy + F.rnd (q.2 - f.2)), F.rnd (sxy + d), ?_, ?_, ?_, ?_⟩
      · unfold Comoment.push
        simp only [hf, if_true, hfr, i1, j1, k1, u1, v1, w1, hpb]
      · rw [ex, ← a3]; exact u2
      · rw [ey, ← b3]; exact v2
      · rw [exy, ← c3]; exact w2
    · have hf : (⟨l.map fun q => (X.fin q.1, X.fin q.2)⟩ : Ring N (X F × X F)).full = false := by simp [Ring.full, hfull]
      have hl2 : l' = l ++ [q] := by rw [hslide, Spec.slide, if_neg hfull]
      have ex : (Spec.xsOf l').sum = (Spec.xsOf l).sum + q.1 := by rw [hl2]; simp [Spec.xsOf]
      have ey : (Spec.ysOf l').sum = (Spec.ysOf l).sum + q.2 := by rw [hl2]; simp [Spec.ysOf]
      have exy : (l'.map fun q => q.1 * q.2).sum = (l.map fun q => q.1 * q.2).sum + q.1 * q.2 := by rw [hl2]; simp
      obtain ⟨k1, k2, -⟩ := incr_mul hF hE hK hKf (by linarith) hηAB hqA hqB
      rw [ex] at bx
      rw [ey] at by'
      rw [exy] at bxy
      have hz : ∀ Q, 0 ≤ Q → 0 ≤ 8 * (u * Q) := fun Q hQ => by positivity
      obtain ⟨u1, u2⟩ := running_sum (d := q.1) hF hE hK hKf hA0 hn1 (by linarith) hηA (by simpa using hz A hA0) (hx.trans a1) a2 bx
      obtain ⟨v1, v2⟩ := running_sum (d := q.2) hF hE hK hKf hB0 hn1 (by linarith) hηB (by simpa using hz B hB0) (hy.trans b1) b2 by'
      obtain ⟨w1, w2⟩ := running_sum hF hE hK hKf hAB hn1 (by linarith) hηAB (k2.trans (by linarith [hz _ hAB])) (hxy.trans c1) c2 bxy
      refine ⟨F.rnd (sx + q.1), F.rnd (sy + q.2), F.rnd (sxy + F.rnd (q.1 * q.2)), ?_, ?_, ?_, ?_⟩
      · unfold Comoment.push
        simp only [hf, Bool.false_eq_true, if_false, k1, u1, v1, w1, hpb]
      · rw [ex, ← a3]; exact u2
      · rw [ey, ← b3]; exact v2
      · rw [exy, ← c3]; exact w2

/-- The covariance from the three sums. -/
theorem cov_of_sums (hF : F.Binary p emin) (hE : F.Err u η) {A B K t n sx sy sxy SX SY SXY : ℝ} (hA0 : 0 ≤ A) (hB0 : 0 ≤ B)
    (hK : IsRep p emin K) (hKf : F.fits K) (hn : 1 ≤ n) (ht0 : 0 ≤ t) (hABK : 8 * (n * (n * (A * B))) ≤ K)
    (hηAB : η ≤ u * (A * B)) (hT : 12 * t * u ≤ 1)
    (hx : |sx - SX| ≤ 12 * t * (n * (u * A))) (hy : |sy - SY| ≤ 12 * t * (n * (u * B)))
    (hxy : |sxy - SXY| ≤ 12 * t * (n * (u * (A * B))))
    (bx : |SX| ≤ n * A) (by' : |SY| ≤ n * B) (bxy : |SXY| ≤ n * (A * B)) (bc : |SXY - SX * SY / n| ≤ n * (A * B)) :
    ∃ c, ((X.fin sxy - X.fin sx * X.fin sy / X.fin n) / X.fin n : X F) = X.fin c
      ∧ |c - (SXY - SX * SY / n) / n| ≤ (48 * t + 29) * (u * (A * B)) := by
  have hu := hE.u_nonneg
  have hu8 := hE.u_le
  have hAB := mul_nonneg hA0 hB0
  set P := A * B with hP
  have huP := mul_nonneg hu hAB
  have hn0 : 0 < n := by linarith
  have u8P : u * P ≤ 1 / 8 * P := mul_le_mul_of_nonneg_right hu8 hAB
  have hnP : P ≤ n * P := le_mul_of_one_le_left hAB hn
  have hnP0 : 0 ≤ n * P := by positivity
  have hnnP : n * P ≤ n * (n * P) := le_mul_of_one_le_left hnP0 hn
  have hnuP : u * P ≤ n * (u * P) := le_mul_of_one_le_left huP hn
  have hnuP0 : 0 ≤ n * (u * P) := by positivity
  have hnnuP : n * (u * P) ≤ n * (n * (u * P)) := le_mul_of_one_le_left hnuP0 hn
  have small : ∀ Q, 0 ≤ Q → 12 * t * (n * (u * Q)) ≤ n * Q := by
    intro Q hQ
    have := mul_le_mul_of_nonneg_right hT (show 0 ≤ n * Q by positivity)
    linarith
  have hsx : |sx| ≤ 2 * (n * A) := by
    have := abs_add_le (sx - SX) SX
    rw [sub_add_cancel] at this
    linarith [small A hA0]
  have hsy : |sy| ≤ 2 * (n * B) := by
    have := abs_add_le (sy - SY) SY
    rw [sub_add_cancel] at this
    linarith [small B hB0]
  have hsxy : |sxy| ≤ 2 * (n * P) := by
    have := abs_add_le (sxy - SXY) SXY
    rw [sub_add_cancel] at this
    linarith [small P hAB]
  -- the product
  have g0 : |sx * sy| ≤ 4 * (n * (n * P)) := by
    rw [abs_mul]
    refine (mul_le_mul hsx hsy (abs_nonneg _) (by positivity)).trans (le_of_eq ?_)
    rw [hP]; ring
  have g1 : |sx * sy - SX * SY| ≤ 36 * (t * (n * (n * (u * P)))) := by
    have e : sx * sy - SX * SY = (sx - SX) * sy + SX * (sy - SY) := by ring
    rw [e]
    refine (abs_add_le _ _).trans ?_
    rw [abs_mul, abs_mul]
    refine (add_le_add (mul_le_mul hx hsy (abs_nonneg _) (by positivity)) (mul_le_mul bx hy (abs_nonneg _) (by positivity))).trans (le_of_eq ?_)
    rw [hP]; ring
  obtain ⟨r1, -⟩ := hF.round_le (F := F) hK hKf (r := sx * sy) (by linarith)
  have q1 := hE.err (sx * sy)
  have q1' := hE.abs_le (sx * sy)
  have q1u := mul_le_mul_of_nonneg_left g0 hu
  have q8 : u * (n * (n * P)) ≤ 1 / 8 * (n * (n * P)) := mul_le_mul_of_nonneg_right hu8 (by positivity)
  have cm : u * (n * (n * P)) = n * (n * (u * P)) := by ring
  set g := F.rnd (sx * sy)
  have g2 : |g - SX * SY| ≤ n * (n * ((36 * t + 5) * (u * P))) := by
    have e : g - SX * SY = (g - sx * sy) + (sx * sy - SX * SY) := by ring
    rw [e]
    refine (abs_add_le _ _).trans ?_
    linarith
  have g3 : |g| ≤ n * (5 * (n * P)) := by linarith
  -- the quotient
  have k0 : |g / n| ≤ 5 * (n * P) := by
    rw [abs_div, abs_of_pos hn0, div_le_iff₀ hn0]; linarith
  have k1 : |g / n - SX * SY / n| ≤ n * ((36 * t + 5) * (u * P)) := by
    rw [← sub_div, abs_div, abs_of_pos hn0, div_le_iff₀ hn0]; linarith
  obtain ⟨r2, -⟩ := hF.round_le (F := F) hK hKf (r := g / n) (by linarith)
  have q2 := hE.err (g / n)
  have q2' := hE.abs_le (g / n)
  have q2u := mul_le_mul_of_nonneg_left k0 hu
  have cm2 : u * (n * P) = n * (u * P) := by ring
  have q82 : u * (n * P) ≤ 1 / 8 * (n * P) := mul_le_mul_of_nonneg_right hu8 hnP0
  set h := F.rnd (g / n)
  have k2 : |h - SX * SY / n| ≤ n * ((36 * t + 11) * (u * P)) := by
    have e : h - SX * SY / n = (h - g / n) + (g / n - SX * SY / n) := by ring
    rw [e]
    refine (abs_add_le _ _).trans ?_
    linarith
  have k3 : |h| ≤ 6 * (n * P) := by linarith
  -- the difference
  have l0 : |sxy - h| ≤ 8 * (n * P) := (abs_sub sxy h).trans (by linarith)
  have l1 : |sxy - h - (SXY - SX * SY / n)| ≤ n * ((48 * t + 11) * (u * P)) := by
    have e : sxy - h - (SXY - SX * SY / n) = (sxy - SXY) - (h - SX * SY / n) := by ring
    rw [e]
    refine (abs_sub _ _).trans ?_
    linarith
  obtain ⟨r3, -⟩ := hF.round_le (F := F) hK hKf (r := sxy - h) (by linarith)
  have q3 := hE.err (sxy - h)
  have q3u := mul_le_mul_of_nonneg_left l0 hu
  set c := F.rnd (sxy - h)
  set C := SXY - SX * SY / n
  have l2 : |c - C| ≤ n * ((48 * t + 20) * (u * P)) := by
    have e : c - C = (c - (sxy - h)) + (sxy - h - C) := by ring
    rw [e]
    refine (abs_add_le _ _).trans ?_
    linarith
  -- the final quotient
  have m1 : |c / n - C / n| ≤ (48 * t + 20) * (u * P) := by
    rw [← sub_div, abs_div, abs_of_pos hn0, div_le_iff₀ hn0]; linarith
  have m2 : |C / n| ≤ P := by
    rw [abs_div, abs_of_pos hn0, div_le_iff₀ hn0]; linarith
  have m3 : |c / n| ≤ 15 / 2 * P := by
    have := abs_add_le (c / n - C / n) (C / n)
    rw [sub_add_cancel] at this
    have h4 := mul_le_mul_of_nonneg_right hT hAB
    linarith
  obtain ⟨r4, -⟩ := hF.round_le (F := F) hK hKf (r := c / n) (by linarith)
  have q4 := hE.err (c / n)
  have q4u := mul_le_mul_of_nonneg_left m3 hu
  refine ⟨F.rnd (c / n), ?_, ?_⟩
  · rw [X.mul_fin, r1, X.div_fin_of_ne _ hn0.ne', r2, X.sub_fin, r3, X.div_fin_of_ne _ hn0.ne', r4]
  · have e : F.rnd (c / n) - C / n = (F.rnd (c / n) - c / n) + (c / n - C / n) := by ring
    rw [e]
    refine (abs_add_le _ _).trans ?_
    linarith

end Window
end Verif
