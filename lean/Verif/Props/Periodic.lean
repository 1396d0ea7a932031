import Verif.Model.Contracted
import Verif.Proofs.SqrtSquare
import Verif.Props.IntegerData
/-
C156: data that repeat with the period of the window, in floating point, with and without fused multiply-add.
-/
namespace Verif.Props
open Scalar Window

variable {F : Fmt} {p : Nat} {emin : Int} {W N : Nat}

/-- The history, followed by `k` repetitions of the list. -/
def repeated {β : Type} (ops : List (Op β)) (l : List β) (k : Nat) : List (Op β) := ops ++ (List.replicate k l).flatten.map .push

theorem sinceClear_append_pushes {β : Type} (ops : List (Op β)) (l : List β) : sinceClear (ops ++ l.map .push) = sinceClear ops ++ l := by
  induction l using List.reverseRecOn with
  | nil => simp
  | append_singleton l x ih =>
    rw [List.map_append, ← List.append_assoc, List.map_singleton, sinceClear_append_push, ih, List.append_assoc]

/-- A state machine that rotates a list returns to the same state. -/
theorem fold_period {σ β : Type} {N : Nat} (P : β → Prop) (mk : List β → σ) (step : σ → β → Option σ)
    (h : ∀ f t, P f → (f :: t).length = N → step (mk (f :: t)) f = some (mk (t ++ [f]))) (l : List β) (hP : ∀ x ∈ l, P x)
    (hl : l.length = N) (k : Nat) :
    (List.replicate k l).flatten.foldl (fun s x => s.bind (step · x)) (some (mk l)) = some (mk l) := by
  have rot : ∀ (a b : List β), (∀ x ∈ a, P x) → (a ++ b).length = N →
      a.foldl (fun s x => s.bind (step · x)) (some (mk (a ++ b))) = some (mk (b ++ a)) := by
    intro a
    induction a with
    | nil => intro b _ _; simp
    | cons f a ih =>
      intro b hP hb
      rw [List.foldl_cons, List.cons_append]
      show List.foldl _ (step (mk (f :: (a ++ b))) f) a = _
      rw [h f (a ++ b) (hP f List.mem_cons_self) hb, List.append_assoc,
        ih (b ++ [f]) (fun x hx => hP x (List.mem_cons_of_mem _ hx)) (by simp at hb ⊢; omega)]
      simp
  induction k with
  | zero => simp
  | succ k ih =>
    have := rot l [] hP (by simpa using hl)
    rw [List.append_nil, List.nil_append] at this
    rw [List.replicate_succ, List.flatten_cons, List.foldl_append, this, ih]

/-- Adding zero to the result of an addition does not change it. -/
theorem add_add_zero (hF : F.Binary p emin) (a b : X F) : a + b + X.fin 0 = a + b := by
  have hr : ∀ r : ℝ, (X.round r + X.fin 0 : X F) = X.round r := by
    intro r
    unfold X.round
    split_ifs with h1 h2
    · rw [X.add_fin, add_zero]
      exact hF.round_exact (hF.rep r) h1
    · rfl
    · rfl
  cases a <;> cases b <;> first | exact hr _ | rfl

theorem sub_self_fin (hF : F.Binary p emin) (x : ℝ) : (X.fin x - X.fin x : X F) = X.fin 0 := by
  rw [X.sub_fin, sub_self]
  have := hF.ofNat_zero
  rw [X.ofNat_eq] at this
  simpa using this

theorem zero_div_fin (hF : F.Binary p emin) {y : ℝ} (hy : y ≠ 0) : (X.fin 0 / X.fin y : X F) = X.fin 0 := by
  rw [X.div_fin_of_ne _ hy, zero_div]
  have := hF.ofNat_zero
  rw [X.ofNat_eq] at this
  simpa using this

/-! ### Window mean -/

/-- C156, window mean: repeating the contents of the window any number of times returns to the same state, bit for bit. -/
theorem C156_mean_partial (hF : F.Binary p emin) (hN : 1 ≤ N) (hNp : N ≤ 2 ^ p) (hNf : F.fits (N : ℝ)) (ops : List (Op ℝ))
    (hfull : N ≤ (sinceClear ops).length) (k : Nat) :
    (Mean.run (finOps (repeated ops (Spec.lastN N (sinceClear ops)) k)) : Option (Mean N (X F))) = Mean.run (finOps ops) := by
  have key : ∀ xs : List ℝ, xs ≠ [] → ∃ a b : X F, xs.foldl (fun s x => s.bind (Mean.push · (X.fin x))) (some (Mean.init : Mean N (X F)))
      = some { mean := a + b, window := ⟨(Spec.lastN N xs).map X.fin⟩ } := by
    intro xs
    induction xs using List.reverseRecOn with
    | nil => simp
    | append_singleton xs x ih =>
      intro _
      obtain ⟨a, ha⟩ : ∃ a : X F, xs.foldl (fun s x => s.bind (Mean.push · (X.fin x))) (some (Mean.init : Mean N (X F)))
          = some { mean := a, window := ⟨(Spec.lastN N xs).map X.fin⟩ } := by
        by_cases h : xs = []
        · subst h; exact ⟨ofNat 0, by simp [Mean.init, Ring.init, Spec.lastN]⟩
        · obtain ⟨a, b, h⟩ := ih h; exact ⟨_, h⟩
      rw [List.foldl_append, ha, Spec.lastN_snoc hN, ← pushBack_map (N := N) (X.fin : ℝ → X F)]
      set l := Spec.lastN N xs
      simp only [List.foldl_cons, List.foldl_nil, Option.bind_some, Mean.push]
      by_cases hf : l.length = N
      · obtain ⟨f, t, hft⟩ : ∃ f t, l = f :: t := by
          cases hl : l with
          | nil => rw [hl] at hf; simp at hf; omega
          | cons f t => exact ⟨f, t, rfl⟩
        rw [if_pos (by simp [Mean.full, Ring.full, hf])]
        simp only [hft, Ring.front, List.map_cons, List.head?_cons]
        exact ⟨_, _, rfl⟩
      · rw [if_neg (by simp [Mean.full, Ring.full, hf])]
        exact ⟨_, _, rfl⟩
  have hne : sinceClear ops ≠ [] := by intro h; rw [h] at hfull; simp at hfull; omega
  obtain ⟨a, b, h⟩ := key _ hne
  have hlen : (Spec.lastN N (sinceClear ops)).length = N := by rw [Spec.length_lastN]; omega
  rw [Mean.run_eq hN, Mean.run_eq hN, sinceClear_finOps, sinceClear_finOps, foldl_map_option, foldl_map_option, repeated,
    sinceClear_append_pushes, List.foldl_append, h]
  have hn : (ofNat N : X F) = X.fin (N : ℝ) := hF.ofNat_fin hNp hNf
  have hN0 : (N : ℝ) ≠ 0 := by positivity
  refine fold_period (fun _ => True) (fun l : List ℝ => ({ mean := a + b, window := ⟨l.map X.fin⟩ } : Mean N (X F)))
    (fun s x => s.push (X.fin x)) ?_ _ (fun _ _ => trivial) hlen k
  intro f t _ hft
  have hp := pushBack_map (N := N) (X.fin : ℝ → X F) (f :: t) f
  simp only [Spec.slide, if_pos hft, List.tail_cons] at hp
  have hs : (({ mean := a + b, window := ⟨(f :: t).map X.fin⟩ } : Mean N (X F))).size = N := by simpa [Mean.size, Ring.size] using hft
  simp only [Mean.push]
  rw [if_pos (by simpa [Mean.full, Ring.full] using hft), hs, hp]
  simp only [Ring.front, List.map_cons, List.head?_cons]
  rw [sub_self_fin hF, hn, zero_div_fin hF hN0, add_add_zero hF]

/-! ### Window covariance -/

/-- C156, window covariance without fused multiply-add: the same. -/
theorem C156_covariance_partial (hF : F.Binary p emin) (hW : 1 ≤ W) (ops : List (Op (ℝ × ℝ))) (hfull : W ≤ (sinceClear ops).length)
    (hfit : ∀ q ∈ Spec.lastN W (sinceClear ops), F.fits (F.rnd (q.1 * q.2))) (k : Nat) :
    (Comoment.run (finOps2 (repeated ops (Spec.lastN W (sinceClear ops)) k)) : Option (Comoment W (X F))) = Comoment.run (finOps2 ops) := by
  have key : ∀ xs : List (ℝ × ℝ), xs ≠ [] → ∃ a b c d e f : X F,
      xs.foldl (fun s x => s.bind (Comoment.push · (X.fin x.1, X.fin x.2))) (some (Comoment.init : Comoment W (X F)))
      = some { sumX := a + b, sumY := c + d, sumXY := e + f, window := ⟨(Spec.lastN W xs).map fun q => (X.fin q.1, X.fin q.2)⟩ } := by
    intro xs
    induction xs using List.reverseRecOn with
    | nil => simp
    | append_singleton xs x ih =>
      intro _
      obtain ⟨a, b, c, ha⟩ : ∃ a b c : X F,
          xs.foldl (fun s x => s.bind (Comoment.push · (X.fin x.1, X.fin x.2))) (some (Comoment.init : Comoment W (X F)))
          = some { sumX := a, sumY := b, sumXY := c, window := ⟨(Spec.lastN W xs).map fun q => (X.fin q.1, X.fin q.2)⟩ } := by
        by_cases h : xs = []
        · subst h; exact ⟨ofNat 0, ofNat 0, ofNat 0, by simp [Comoment.init, Ring.init, Spec.lastN]⟩
        · obtain ⟨a, b, c, d, e, f, h⟩ := ih h; exact ⟨_, _, _, h⟩
      rw [List.foldl_append, ha, Spec.lastN_snoc hW, ← pushBack_map (N := W) (fun q : ℝ × ℝ => ((X.fin q.1, X.fin q.2) : X F × X F))]
      set l := Spec.lastN W xs
      simp only [List.foldl_cons, List.foldl_nil, Option.bind_some, Comoment.push]
      by_cases hf : l.length = W
      · obtain ⟨f, t, hft⟩ : ∃ f t, l = f :: t := by
          cases hl : l with
          | nil => rw [hl] at hf; simp at hf; omega
          | cons f t => exact ⟨f, t, rfl⟩
        rw [if_pos (by simp [Ring.full, hf])]
        simp only [hft, Ring.front, List.map_cons, List.head?_cons]
        exact ⟨_, _, _, _, _, _, rfl⟩
      · rw [if_neg (by simp [Ring.full, hf])]
        exact ⟨_, _, _, _, _, _, rfl⟩
  have hne : sinceClear ops ≠ [] := by intro h; rw [h] at hfull; simp at hfull; omega
  obtain ⟨a, b, c, d, e, g, h⟩ := key _ hne
  have hlen : (Spec.lastN W (sinceClear ops)).length = W := by rw [Spec.length_lastN]; omega
  rw [Comoment.run_eq hW, Comoment.run_eq hW, sinceClear_finOps2, sinceClear_finOps2, foldl_map_option, foldl_map_option, repeated,
    sinceClear_append_pushes, List.foldl_append, h]
  refine fold_period (fun q : ℝ × ℝ => F.fits (F.rnd (q.1 * q.2)))
    (fun l : List (ℝ × ℝ) => (⟨⟨l.map fun q => (X.fin q.1, X.fin q.2)⟩, a + b, c + d, e + g⟩ : Comoment W (X F)))
    (fun s x => s.push (X.fin x.1, X.fin x.2)) ?_ _ hfit hlen k
  intro f t hq hft
  have hp := pushBack_map (N := W) (fun q : ℝ × ℝ => ((X.fin q.1, X.fin q.2) : X F × X F)) (f :: t) f
  simp only [Spec.slide, if_pos hft, List.tail_cons] at hp
  simp only [Comoment.push]
  rw [if_pos (by simpa [Ring.full] using hft), hp]
  simp only [Ring.front, List.map_cons, List.head?_cons]
  rw [sub_self_fin hF, sub_self_fin hF, X.mul_fin, X.round, if_pos hq, sub_self_fin hF, add_add_zero hF, add_add_zero hF, add_add_zero hF]

/-! ### Window variance -/

/-- C156 for the window variance in binary64. -/
def C156_Statement : Prop :=
  ∀ (N : Nat), 1 ≤ N → N ≤ 2 ^ 53 → ∀ (ops : List (Op ℝ)), N ≤ (sinceClear ops).length → (∀ x ∈ sinceClear ops, IsRep 53 (-1074) x ∧ |x| ≤ 2 ^ 500) → ∀ k : Nat,
    (Variance.run (finOps (repeated ops (Spec.lastN N (sinceClear ops)) k)) : Option (Variance N (X binary64))).map Variance.variance
      = (Variance.run (finOps ops) : Option (Variance N (X binary64))).map Variance.variance

namespace Periodic

/-- 20 + 2^-22 -/
noncomputable def a : ℝ := 83886081 / 2 ^ 22
/-- 9 + 3 * 2^-23 -/
noncomputable def b : ℝ := 75497475 / 2 ^ 23

/-- The state with the window `l` and the sum `n * 2^-43`. -/
noncomputable def st (l : List ℝ) (n : Int) : Variance 4 (X binary64) :=
  { super := { mean := X.fin 0, window := ⟨l.map X.fin⟩ }, sumVariance := X.fin (n / 2 ^ 43) }

/-- Rounding in the binade of 1024. -/
theorem hi {r x : ℝ} {m : Int} (h1 : 2 ^ 53 ≤ x * 2) (h2 : x * 2 < 2 ^ 54) (hr : r = x / 2 ^ 42) (hm : nearestEven x = m)
    (hm0 : 0 ≤ m) (hm' : m ≤ 2 ^ 53) : (X.round r : X binary64) = X.fin (m / 2 ^ 42) := by
  have hx : 0 < x := by linarith
  have e : (2 : ℝ) ^ ((10 : Int) + 1 - ((53 : Nat) : Int)) = 1 / 2 ^ 42 := by norm_num
  have ha : |r| = x / 2 ^ 42 := by rw [hr, abs_of_pos (by positivity)]
  have h : binary64.rnd r = m / 2 ^ 42 := by
    show roundNearest 53 (-1074) _ = _
    rw [roundNearest_eq (x := x) 10 (by rw [ha, le_div_iff₀ (by positivity)]; norm_num; linarith)
      (by rw [ha, div_lt_iff₀ (by positivity)]; norm_num; linarith) (by norm_num) (by rw [e, hr]; ring), hm, e]
    ring
  exact round64_of m (-42) h (by rw [zpow_neg]; norm_num; ring) (by rw [abs_of_nonneg hm0]; exact hm') (by norm_num) (by norm_num)

/-- Rounding in the binade of 512. -/
theorem lo {r x : ℝ} {m : Int} (h1 : 2 ^ 52 ≤ x) (h2 : x < 2 ^ 53) (hr : r = x / 2 ^ 43) (hm : nearestEven x = m)
    (hm0 : 0 ≤ m) (hm' : m ≤ 2 ^ 53) : (X.round r : X binary64) = X.fin (m / 2 ^ 43) := by
  have hx : 0 < x := by linarith
  have e : (2 : ℝ) ^ ((9 : Int) + 1 - ((53 : Nat) : Int)) = 1 / 2 ^ 43 := by norm_num
  have ha : |r| = x / 2 ^ 43 := by rw [hr, abs_of_pos (by positivity)]
  have h : binary64.rnd r = m / 2 ^ 43 := by
    show roundNearest 53 (-1074) _ = _
    rw [roundNearest_eq (x := x) 9 (by rw [ha, le_div_iff₀ (by positivity)]; norm_num; linarith)
      (by rw [ha, div_lt_iff₀ (by positivity)]; norm_num; linarith) (by norm_num) (by rw [e, hr]; ring), hm, e]
    ring
  exact round64_of m (-43) h (by rw [zpow_neg]; norm_num; ring) (by rw [abs_of_nonneg hm0]; exact hm') (by norm_num) (by norm_num)

/-- Adding and subtracting `a^2`. -/
theorem addA {n : Int} (h1 : 8461841768382468 ≤ n) (h2 : n ≤ 2 ^ 53 - 2) :
    (X.fin (n / 2 ^ 43) + X.fin (a * a) - X.fin (a * a) : X binary64) = X.fin ((if Even n then n else n + 1 : Int) / 2 ^ 43) := by
  have h1' : (8461841768382468 : ℝ) ≤ n := by exact_mod_cast h1
  have h2' : (n : ℝ) ≤ 2 ^ 53 - 2 := by exact_mod_cast h2
  rw [X.add_fin]
  rcases Int.even_or_odd n with he | ho
  · obtain ⟨j, hj⟩ := he
    have hjr : (n : ℝ) = j + j := by exact_mod_cast hj
    rw [if_pos ⟨j, hj⟩, hi (x := (n + 400 * 2 ^ 43 + 40 * 2 ^ 21 + 1 / 2) / 2) (m := j + (400 * 2 ^ 42 + 40 * 2 ^ 20)) (by norm_num; linarith)
      (by norm_num; linarith) (by unfold a; ring_nf) (nearestEven_of_near (by rw [hjr]; push_cast; rw [abs_lt]; constructor <;> linarith))
      (by omega) (by omega), X.sub_fin,
      lo (x := ((n - 1 : Int) : ℝ) + 1 / 2) (m := n) (by push_cast; linarith) (by push_cast; linarith) (by unfold a; push_cast; rw [hjr]; ring)
        (by rw [nearestEven_tie, if_neg (by rw [Int.not_even_iff_odd]; exact ⟨j - 1, by omega⟩)]; omega) (by omega) (by omega)]
  · obtain ⟨j, hj⟩ := ho
    have hjr : (n : ℝ) = 2 * j + 1 := by exact_mod_cast hj
    have hne : ¬ Even n := by rw [Int.not_even_iff_odd]; exact ⟨j, hj⟩
    rw [if_neg hne, hi (x := (n + 400 * 2 ^ 43 + 40 * 2 ^ 21 + 1 / 2) / 2) (m := j + (400 * 2 ^ 42 + 40 * 2 ^ 20) + 1) (by norm_num; linarith)
      (by norm_num; linarith) (by unfold a; ring_nf) (nearestEven_of_near (by rw [hjr]; push_cast; rw [abs_lt]; constructor <;> linarith))
      (by omega) (by omega), X.sub_fin,
      lo (x := (n : ℝ) + 1 / 2) (m := n + 1) (by linarith) (by linarith) (by unfold a; push_cast; rw [hjr]; ring)
        (by rw [nearestEven_tie, if_neg hne]) (by omega) (by omega)]

/-- Adding and subtracting `b^2`. -/
theorem addB {n : Int} (h1 : 8461841768382468 ≤ n) (h2 : n ≤ 2 ^ 53 - 2) :
    (X.fin (n / 2 ^ 43) + X.fin (b * b) - X.fin (b * b) : X binary64) = X.fin ((if Even n then n + 1 else n : Int) / 2 ^ 43) := by
  have h1' : (8461841768382468 : ℝ) ≤ n := by exact_mod_cast h1
  have h2' : (n : ℝ) ≤ 2 ^ 53 - 2 := by exact_mod_cast h2
  rw [X.add_fin]
  rcases Int.even_or_odd n with he | ho
  · obtain ⟨j, hj⟩ := he
    have hjr : (n : ℝ) = j + j := by exact_mod_cast hj
    rw [if_pos ⟨j, hj⟩, hi (x := (n + 81 * 2 ^ 43 + 54 * 2 ^ 20 + 9 / 8) / 2) (m := j + (81 * 2 ^ 42 + 27 * 2 ^ 20) + 1) (by norm_num; linarith)
      (by norm_num; linarith) (by unfold b; ring_nf) (nearestEven_of_near (by rw [hjr]; push_cast; rw [abs_lt]; constructor <;> linarith))
      (by omega) (by omega), X.sub_fin,
      lo (x := (n : ℝ) + 7 / 8) (m := n + 1) (by linarith) (by linarith) (by unfold b; push_cast; rw [hjr]; ring)
        (nearestEven_of_near (by push_cast; rw [abs_lt]; constructor <;> linarith)) (by omega) (by omega)]
  · obtain ⟨j, hj⟩ := ho
    have hjr : (n : ℝ) = 2 * j + 1 := by exact_mod_cast hj
    have hne : ¬ Even n := by rw [Int.not_even_iff_odd]; exact ⟨j, hj⟩
    rw [if_neg hne, hi (x := (n + 81 * 2 ^ 43 + 54 * 2 ^ 20 + 9 / 8) / 2) (m := j + (81 * 2 ^ 42 + 27 * 2 ^ 20) + 1) (by norm_num; linarith)
      (by norm_num; linarith) (by unfold b; ring_nf) (nearestEven_of_near (by rw [hjr]; push_cast; rw [abs_lt]; constructor <;> linarith))
      (by omega) (by omega), X.sub_fin,
      lo (x := (n : ℝ) - 1 / 8) (m := n) (by linarith) (by linarith) (by unfold b; push_cast; rw [hjr]; ring)
        (nearestEven_of_near (by rw [abs_lt]; constructor <;> linarith)) (by omega) (by omega)]

theorem four : (ofNat 4 : X binary64) = X.fin 4 := by simpa using ofNat64 (n := 4) (by norm_num)

/-- The window is full, its mean is 0, and the oldest value comes again. -/
theorem push_same {x : ℝ} {y z w : ℝ} {n n' : Int} (hxx : (X.round (x * x) : X binary64) = X.fin (x * x)) (hx : (X.round x : X binary64) = X.fin x)
    (h : (X.fin (n / 2 ^ 43) + X.fin (x * x) - X.fin (x * x) : X binary64) = X.fin (n' / 2 ^ 43)) :
    (st [x, y, z, w] n).push (X.fin x) = some (st [y, z, w, x] n') := by
  have e1 : (X.fin 0 + (X.fin x - X.fin x) / ofNat 4 : X binary64) = X.fin 0 := by
    rw [four, sub_self_fin binary64_binary, zero_div_fin binary64_binary (by norm_num)]
    have := sub_self_fin binary64_binary 0
    rw [X.sub_fin] at this
    rw [X.add_fin]; simpa using this
  have e2 : Variance.delta (X.fin 0 : X binary64) (X.fin x) (X.fin 0) = X.fin (x * x) := by
    rw [Variance.delta, X.sub_fin, sub_zero, hx, X.mul_fin, hxx]
  show some (Variance.mk (Mean.mk _ (X.fin 0 + (X.fin x - X.fin x) / ofNat 4)) (X.fin (n / 2 ^ 43)
    + Variance.delta (X.fin 0 + (X.fin x - X.fin x) / ofNat 4) (X.fin x) (X.fin 0)
    - Variance.delta (X.fin 0 + (X.fin x - X.fin x) / ofNat 4) (X.fin x) (X.fin 0))) = _
  rw [e1, e2, h]
  rfl

theorem ra : (X.round a : X binary64) = X.fin a := round64 83886081 (-22) (by unfold a; norm_num) (by norm_num) (by norm_num) (by norm_num)
theorem rb : (X.round b : X binary64) = X.fin b := round64 75497475 (-23) (by unfold b; norm_num) (by norm_num) (by norm_num) (by norm_num)
theorem ra' : (X.round (-a) : X binary64) = X.fin (-a) :=
  round64 (-83886081) (-22) (by unfold a; norm_num) (by norm_num) (by norm_num) (by norm_num)
theorem rb' : (X.round (-b) : X binary64) = X.fin (-b) :=
  round64 (-75497475) (-23) (by unfold b; norm_num) (by norm_num) (by norm_num) (by norm_num)
theorem raa : (X.round (a * a) : X binary64) = X.fin (a * a) :=
  round64 (83886081 * 83886081) (-44) (by unfold a; norm_num) (by norm_num) (by norm_num) (by norm_num)
theorem rbb : (X.round (b * b) : X binary64) = X.fin (b * b) :=
  round64 (75497475 * 75497475) (-46) (by unfold b; norm_num) (by norm_num) (by norm_num) (by norm_num)

/-- One period. -/
theorem period {n : Int} (h1 : 8461841768382468 ≤ n) (h2 : n ≤ 2 ^ 53 - 4) :
    [a, -a, b, -b].foldl (fun s x => s.bind (Variance.push · (X.fin x))) (some (st [a, -a, b, -b] n))
      = some (st [a, -a, b, -b] (if Even n then n + 1 else n + 2)) := by
  have na : -a * -a = a * a := by ring
  have nb : -b * -b = b * b := by ring
  set n1 : Int := if Even n then n else n + 1 with hn1
  have e1 : Even n1 := by
    rw [hn1]; split_ifs with h
    · exact h
    · exact (Int.not_even_iff_odd.1 h).add_one
  have b1 : n ≤ n1 ∧ n1 ≤ n + 1 := by rw [hn1]; split_ifs <;> omega
  have p1 := push_same (y := -a) (z := b) (w := -b) raa ra (addA h1 (by omega))
  have p2 := push_same (x := -a) (y := b) (z := -b) (w := a) (n := n1) (by rw [na]; exact raa) ra' (by rw [na]; exact addA (by omega) (by omega))
  rw [if_pos e1] at p2
  have p3 := push_same (x := b) (y := -b) (z := a) (w := -a) (n := n1) rbb rb (addB (by omega) (by omega))
  rw [if_pos e1] at p3
  have p4 := push_same (x := -b) (y := a) (z := -a) (w := b) (n := n1 + 1) (by rw [nb]; exact rbb) rb' (by rw [nb]; exact addB (by omega) (by omega))
  rw [if_neg (by rw [Int.not_even_iff_odd]; exact e1.add_one)] at p4
  simp only [List.foldl_cons, List.foldl_nil, Option.bind_some]
  rw [p1, Option.bind_some, p2, Option.bind_some, p3, Option.bind_some, p4, hn1]
  congr 2
  split_ifs <;> ring

theorem two : (ofNat 2 : X binary64) = X.fin 2 := by simpa using ofNat64 (n := 2) (by norm_num)
theorem three : (ofNat 3 : X binary64) = X.fin 3 := by simpa using ofNat64 (n := 3) (by norm_num)

theorem push_more {l : List ℝ} {m m' x s s' : ℝ} (hl : l.length < 4)
    (h1 : (X.fin m + (X.fin x - X.fin m) / ofNat (l.length + 1) : X binary64) = X.fin m')
    (h2 : (X.fin s + (X.fin x - X.fin m) * (X.fin x - X.fin m') : X binary64) = X.fin s') :
    (Variance.mk ⟨⟨l.map X.fin⟩, X.fin m⟩ (X.fin s) : Variance 4 (X binary64)).push (X.fin x)
      = some ⟨⟨⟨(l ++ [x]).map X.fin⟩, X.fin m'⟩, X.fin s'⟩ := by
  have hp := pushBack_map (N := 4) (X.fin : ℝ → X binary64) l x
  rw [Spec.slide, if_neg (by omega)] at hp
  simp only [Variance.push, Mean.full, Ring.full, List.length_map]
  rw [if_neg (by simp; omega)]
  have hs : Variance.size (Variance.mk ⟨⟨l.map X.fin⟩, X.fin m⟩ (X.fin s) : Variance 4 (X binary64)) = l.length := by
    simp [Variance.size, Mean.size, Ring.size]
  simp only [hs, hp, h1, Variance.delta, Mean.getMean, h2]

/-- The first four values. -/
theorem first : [a, -a, b, -b].foldl (fun s x => s.bind (Variance.push · (X.fin x))) (some Variance.init)
    = some (st [a, -a, b, -b] 8461841768382468) := by
  have z : (X.round 0 : X binary64) = X.fin 0 := round64_int 0 (by simp) (by norm_num)
  have q1 := push_more (l := []) (m := 0) (m' := a) (x := a) (s := 0) (s' := 0) (by simp)
    (by
      have := binary64_binary.ofNat_one
      simp only [List.length_nil, zero_add]
      rw [this, X.sub_fin, sub_zero, ra, X.div_fin_of_ne _ one_ne_zero, div_one, ra, X.add_fin, zero_add, ra])
    (by rw [X.sub_fin, sub_zero, ra, X.sub_fin, sub_self, z, X.mul_fin, mul_zero, z, X.add_fin, add_zero, z])
  have q2 := push_more (l := [a]) (m := a) (m' := 0) (x := -a) (s := 0) (s' := 2 * (a * a)) (by simp)
    (by
      simp only [List.length_cons, List.length_nil, zero_add, Nat.reduceAdd]
      rw [two, X.sub_fin, round64 (-83886081) (-21) (by unfold a; norm_num) (by norm_num) (by norm_num) (by norm_num),
        X.div_fin_of_ne _ two_ne_zero, show (-a - a) / 2 = -a by ring, ra', X.add_fin, add_neg_cancel, z])
    (by
      rw [X.sub_fin, round64 (-83886081) (-21) (by unfold a; norm_num) (by norm_num) (by norm_num) (by norm_num), X.sub_fin, sub_zero, ra',
        X.mul_fin, show (-a - a) * -a = 2 * (a * a) by ring,
        round64 (83886081 * 83886081) (-43) (by unfold a; norm_num) (by norm_num) (by norm_num) (by norm_num), X.add_fin, zero_add,
        round64 (83886081 * 83886081) (-43) (by unfold a; norm_num) (by norm_num) (by norm_num) (by norm_num)])
  have r3 : (X.round (b / 3) : X binary64) = X.fin (b / 3) :=
    round64 25165825 (-23) (by unfold b; norm_num) (by norm_num) (by norm_num) (by norm_num)
  have q3 := push_more (l := [a, -a]) (m := 0) (m' := b / 3) (x := b) (s := 2 * (a * a)) (s' := (7511863646486530 : Int) / 2 ^ 43) (by simp)
    (by
      simp only [List.length_cons, List.length_nil, zero_add, Nat.reduceAdd]
      rw [three, X.sub_fin, sub_zero, rb, X.div_fin_of_ne _ three_ne_zero, r3, X.add_fin, zero_add, r3])
    (by
      rw [X.sub_fin, sub_zero, rb, X.sub_fin, round64 50331650 (-23) (by unfold b; norm_num) (by norm_num) (by norm_num) (by norm_num),
        X.mul_fin, round64 (75497475 * 25165825) (-45) (by unfold b; norm_num) (by norm_num) (by norm_num) (by norm_num), X.add_fin]
      exact lo (x := 83886081 * 83886081 + 75497475 * 25165825 / 4) (by norm_num) (by norm_num) (by unfold a b; norm_num)
        (nearestEven_of_near (by norm_num)) (by norm_num) (by norm_num))
  have q4 := push_more (l := [a, -a, b]) (m := b / 3) (m' := 0) (x := -b) (s := (7511863646486530 : Int) / 2 ^ 43)
    (s' := (8461841768382468 : Int) / 2 ^ 43) (by simp)
    (by
      simp only [List.length_cons, List.length_nil, zero_add, Nat.reduceAdd]
      rw [four, X.sub_fin, round64 (-25165825) (-21) (by unfold b; norm_num) (by norm_num) (by norm_num) (by norm_num),
        X.div_fin_of_ne _ four_ne_zero, round64 (-25165825) (-23) (by unfold b; norm_num) (by norm_num) (by norm_num) (by norm_num),
        X.add_fin, show b / 3 + (-b - b / 3) / 4 = 0 by ring, z])
    (by
      rw [X.sub_fin, round64 (-25165825) (-21) (by unfold b; norm_num) (by norm_num) (by norm_num) (by norm_num), X.sub_fin, sub_zero, rb',
        X.mul_fin, round64 (75497475 * 25165825) (-44) (by unfold b; norm_num) (by norm_num) (by norm_num) (by norm_num), X.add_fin]
      exact lo (x := ((8461841768382467 : Int) : ℝ) + 1 / 2) (by norm_num) (by norm_num) (by unfold b; norm_num)
        (by rw [nearestEven_tie, if_neg (by decide)]; norm_num) (by norm_num) (by norm_num))
  have i : (Variance.init : Variance 4 (X binary64)) = ⟨⟨⟨([] : List ℝ).map X.fin⟩, X.fin 0⟩, X.fin 0⟩ := by
    simp [Variance.init, Mean.init, Ring.init, binary64_binary.ofNat_zero]
  simp only [List.foldl_cons, List.foldl_nil, Option.bind_some]
  rw [i, q1, Option.bind_some]
  simp only [List.nil_append]
  rw [q2, Option.bind_some]
  simp only [List.cons_append, List.nil_append]
  rw [q3, Option.bind_some]
  simp only [List.cons_append, List.nil_append]
  rw [q4]
  rfl

/-- The state after `k + 1` further periods. -/
theorem periods (k : Nat) (hk : k ≤ 272678743179259) :
    (List.replicate (k + 1) [a, -a, b, -b]).flatten.foldl (fun s x => s.bind (Variance.push · (X.fin x)))
      (some (st [a, -a, b, -b] 8461841768382468)) = some (st [a, -a, b, -b] (8461841768382469 + 2 * k)) := by
  induction k with
  | zero =>
    have := period (n := 8461841768382468) (by norm_num) (by norm_num)
    rw [if_pos (by decide)] at this
    simpa using this
  | succ k ih =>
    rw [List.replicate_succ', List.flatten_append, List.foldl_append, ih (by omega)]
    have := period (n := 8461841768382469 + 2 * k) (by omega) (by omega)
    rw [if_neg (by rw [Int.not_even_iff_odd]; exact ⟨4230920884191234 + k, by ring⟩)] at this
    simp only [List.flatten_cons, List.flatten_nil, List.append_nil]
    rw [this]
    congr 2

theorem variance_st (l : List ℝ) (hl : l.length = 4) {n : Int} (h0 : 0 ≤ n) (h : n ≤ 2 ^ 53) : (st l n).variance = X.fin (n / 2 ^ 45) := by
  have hs : (st l n).size = 4 := by simpa [st, Variance.size, Mean.size, Ring.size] using hl
  have r : (X.round ((n : ℝ) / 2 ^ 43 / 4) : X binary64) = X.fin ((n : ℝ) / 2 ^ 43 / 4) :=
    round64 n (-45) (by rw [zpow_neg]; norm_num; ring) (by rw [abs_of_nonneg h0]; exact h) (by norm_num) (by norm_num)
  have hn : (0 : ℝ) ≤ n := by exact_mod_cast h0
  unfold Variance.variance
  simp only [hs]
  rw [if_pos (by norm_num), four, binary64_binary.ofNat_zero]
  show Scalar.max (X.fin 0) (X.fin ((n : ℝ) / 2 ^ 43) / X.fin 4) = _
  rw [X.div_fin_of_ne _ four_ne_zero, r]
  unfold Scalar.max
  split_ifs with hlt
  · congr 1; ring
  · rw [X.lt_fin, decide_eq_true_eq] at hlt
    congr 1
    have : (n : ℝ) / 2 ^ 43 / 4 ≤ 0 := not_lt.1 hlt
    have h5 : (0 : ℝ) ≤ n / 2 ^ 43 / 4 := by positivity
    have h6 : (n : ℝ) / 2 ^ 45 = n / 2 ^ 43 / 4 := by ring
    rw [h6]; exact le_antisymm h5 this

end Periodic

/-- C156, window variance: the window of four values `a, -a, b, -b`, repeated `k + 2` times in all. Its sum of squares grows
by `2^-42` in each repetition. -/
theorem C156_variance_drift (k : Nat) (hk : k ≤ 272678743179259) :
    ∃ s : Variance 4 (X binary64), Variance.run (finOps (repeated ([Periodic.a, -Periodic.a, Periodic.b, -Periodic.b].map .push)
        [Periodic.a, -Periodic.a, Periodic.b, -Periodic.b] (k + 1))) = some s
      ∧ s.super.window.items = [Periodic.a, -Periodic.a, Periodic.b, -Periodic.b].map X.fin
      ∧ s.sumVariance = X.fin ((8461841768382469 + 2 * k) / 2 ^ 43) := by
  refine ⟨Periodic.st [Periodic.a, -Periodic.a, Periodic.b, -Periodic.b] (8461841768382469 + 2 * k), ?_, rfl, ?_⟩
  · rw [Variance.run_eq (by norm_num), sinceClear_finOps, foldl_map_option, repeated, sinceClear_append_pushes, sinceClear_pushes,
      List.foldl_append, Periodic.first, Periodic.periods k hk]
  · simp [Periodic.st]

theorem C156_violated : ¬ C156_Statement := by
  intro h
  have h1 := h 4 (by norm_num) (by norm_num) ([Periodic.a, -Periodic.a, Periodic.b, -Periodic.b].map .push)
    (by rw [sinceClear_pushes]; simp) (by
      rw [sinceClear_pushes]
      intro x hx
      simp only [List.mem_cons, List.not_mem_nil, or_false] at hx
      have ha : IsRep 53 (-1074) Periodic.a := ⟨83886081, -22, by unfold Periodic.a; norm_num, by norm_num, by norm_num⟩
      have ha' : IsRep 53 (-1074) (-Periodic.a) := ⟨-83886081, -22, by unfold Periodic.a; norm_num, by norm_num, by norm_num⟩
      have hb : IsRep 53 (-1074) Periodic.b := ⟨75497475, -23, by unfold Periodic.b; norm_num, by norm_num, by norm_num⟩
      have hb' : IsRep 53 (-1074) (-Periodic.b) := ⟨-75497475, -23, by unfold Periodic.b; norm_num, by norm_num, by norm_num⟩
      have ba : |Periodic.a| ≤ 2 ^ 500 := by unfold Periodic.a; rw [abs_of_pos (by norm_num)]; exact le_trans (b := (2 : ℝ) ^ 10) (by norm_num) (pow_le_pow_right₀ (by norm_num) (by norm_num))
      have bb : |Periodic.b| ≤ 2 ^ 500 := by unfold Periodic.b; rw [abs_of_pos (by norm_num)]; exact le_trans (b := (2 : ℝ) ^ 10) (by norm_num) (pow_le_pow_right₀ (by norm_num) (by norm_num))
      rcases hx with rfl | rfl | rfl | rfl
      exacts [⟨ha, ba⟩, ⟨ha', by rwa [abs_neg]⟩, ⟨hb, bb⟩, ⟨hb', by rwa [abs_neg]⟩]) 1
  have e : Spec.lastN 4 [Periodic.a, -Periodic.a, Periodic.b, -Periodic.b] = [Periodic.a, -Periodic.a, Periodic.b, -Periodic.b] := by
    simp [Spec.lastN]
  have h2 := Periodic.periods 0 (by norm_num)
  rw [Variance.run_eq (by norm_num), Variance.run_eq (by norm_num), sinceClear_finOps, sinceClear_finOps, foldl_map_option, foldl_map_option,
    repeated, sinceClear_append_pushes, sinceClear_pushes, List.foldl_append, e, Periodic.first, h2] at h1
  simp only [Option.map_some, Option.some.injEq] at h1
  rw [Periodic.variance_st _ (by simp) (by norm_num) (by norm_num), Periodic.variance_st _ (by simp) (by norm_num) (by norm_num)] at h1
  have := X.fin.inj h1
  norm_num at this

/-- The same filter after a long time: the variance of a window with the variance 240.5 is reported as (nearly) 256. -/
theorem C156_wrong : ∃ (k : Nat) (s : Variance 4 (X binary64)) (v : ℝ),
    Variance.run (finOps (repeated ([Periodic.a, -Periodic.a, Periodic.b, -Periodic.b].map .push)
        [Periodic.a, -Periodic.a, Periodic.b, -Periodic.b] k)) = some s
      ∧ s.super.window.items = [Periodic.a, -Periodic.a, Periodic.b, -Periodic.b].map X.fin
      ∧ s.variance = X.fin v ∧ 255.9 ≤ v ∧ Spec.variance [Periodic.a, -Periodic.a, Periodic.b, -Periodic.b] ≤ 240.6 := by
  refine ⟨272678743179259 + 1, Periodic.st [Periodic.a, -Periodic.a, Periodic.b, -Periodic.b] (8461841768382469 + 2 * (272678743179259 : Nat)), _,
    ?_, rfl, Periodic.variance_st _ (by simp) (by norm_num) (by norm_num), by norm_num, ?_⟩
  · rw [Variance.run_eq (by norm_num), sinceClear_finOps, foldl_map_option, repeated, sinceClear_append_pushes, sinceClear_pushes,
      List.foldl_append, Periodic.first, Periodic.periods _ le_rfl]
  · simp only [Spec.variance, Spec.central, Spec.mean, Periodic.a, Periodic.b]
    norm_num

/-! ### Fused multiply-add -/

open Contracted (Fusion mulSubMul addMul WindowComoment.push WindowComoment.run)

/-- The operations with finite numbers, each with its contraction. -/
def finW {F : Fmt} (ops : List (Op ((Fusion × Bool) × (ℝ × ℝ)))) : List (Op ((Fusion × Bool) × (X F × X F))) :=
  ops.map fun
    | .push i => .push (i.1, (X.fin i.2.1, X.fin i.2.2))
    | .clear => .clear

/-- The operations without the contractions. -/
def plain (ops : List (Op ((Fusion × Bool) × (ℝ × ℝ)))) : List (Op (ℝ × ℝ)) :=
  ops.map fun
    | .push i => .push i.2
    | .clear => .clear

theorem mulSubMul_exact (m : Fusion) {a b c d : ℝ} (h1 : (X.round (a * b) : X F) = X.fin (a * b)) (h2 : (X.round (c * d) : X F) = X.fin (c * d)) :
    mulSubMul m (X.fin a) (X.fin b) (X.fin c) (X.fin d) = (X.fin a * X.fin b - X.fin c * X.fin d : X F) := by
  cases m with
  | none => rfl
  | left =>
    show X.fma (X.fin a) (X.fin b) (X.neg (X.fin c * X.fin d)) = _
    rw [X.mul_fin, X.mul_fin, h1, h2, X.sub_fin]
    show X.round (a * b + -(c * d)) = _
    rw [sub_eq_add_neg]
  | right =>
    show X.fma (X.neg (X.fin c)) (X.fin d) (X.fin a * X.fin b) = _
    rw [X.mul_fin, X.mul_fin, h1, h2, X.sub_fin]
    show X.round (-c * d + a * b) = _
    congr 1; ring

theorem addMul_exact (m : Bool) (s : X F) {a b : ℝ} (h1 : (X.round (a * b) : X F) = X.fin (a * b)) :
    addMul m s (X.fin a) (X.fin b) = s + X.fin a * X.fin b := by
  cases m with
  | false => rfl
  | true =>
    show X.fma (X.fin a) (X.fin b) s = _
    rw [X.mul_fin, h1]
    cases s with
    | fin s => show X.round (a * b + s) = X.round (s + a * b); rw [add_comm]
    | _ => rfl

/-- C156 with fused multiply-add: if the products need no rounding, contraction makes no difference, however the compiler
chooses. -/
theorem C156_contracted_exact_partial (ops : List (Op ((Fusion × Bool) × (ℝ × ℝ))))
    (h : ∀ i, Op.push i ∈ ops → (X.round (i.2.1 * i.2.2) : X F) = X.fin (i.2.1 * i.2.2)) :
    (WindowComoment.run (finW ops) : Option (Comoment W (X F))) = Comoment.run (finOps2 (plain ops)) := by
  have key : (WindowComoment.run (finW ops) : Option (Comoment W (X F))) = Comoment.run (finOps2 (plain ops))
      ∧ ∀ s, (WindowComoment.run (finW ops) : Option (Comoment W (X F))) = some s →
        ∀ q ∈ s.window.items, ∃ a b : ℝ, q = (X.fin a, X.fin b) ∧ (X.round (a * b) : X F) = X.fin (a * b) := by
    induction ops using List.reverseRecOn with
    | nil =>
      refine ⟨rfl, fun s hs q hq => ?_⟩
      have : some (Comoment.init : Comoment W (X F)) = some s := hs
      rw [← Option.some.inj this] at hq
      simp [Comoment.init, Ring.init] at hq
    | append_singleton ops o ih =>
      obtain ⟨ih1, ih2⟩ := ih fun i hi => h i (by simp [hi])
      cases o with
      | clear =>
        have e1 : (WindowComoment.run (finW (ops ++ [.clear])) : Option (Comoment W (X F))) = (WindowComoment.run (finW ops)).map Comoment.clear := by
          simp [WindowComoment.run, runOps, finW]
        have e2 : (Comoment.run (finOps2 (plain (ops ++ [.clear]))) : Option (Comoment W (X F))) = (Comoment.run (finOps2 (plain ops))).map Comoment.clear := by
          simp [Comoment.run, runOps, finOps2, plain, Op.map]
        refine ⟨by rw [e1, e2, ih1], fun s hs q hq => ?_⟩
        rw [e1] at hs
        obtain ⟨t, -, rfl⟩ := Option.map_eq_some_iff.1 hs
        simp [Comoment.clear, Ring.clear] at hq
      | push i =>
        have e1 : (WindowComoment.run (finW (ops ++ [.push i])) : Option (Comoment W (X F)))
            = (WindowComoment.run (finW ops)).bind (WindowComoment.push · (i.1, (X.fin i.2.1, X.fin i.2.2))) := by
          simp [WindowComoment.run, runOps, finW]
        have e2 : (Comoment.run (finOps2 (plain (ops ++ [.push i]))) : Option (Comoment W (X F)))
            = (Comoment.run (finOps2 (plain ops))).bind (Comoment.push · (X.fin i.2.1, X.fin i.2.2)) := by
          simp [Comoment.run, runOps, finOps2, plain, Op.map]
        have hi := h i (by simp)
        rw [e1, e2, ← ih1]
        cases hr : (WindowComoment.run (finW ops) : Option (Comoment W (X F))) with
        | none => exact ⟨rfl, fun s hs => by simp at hs⟩
        | some t =>
          have hw := ih2 t hr
          simp only [Option.bind_some]
          have hpush : WindowComoment.push t (i.1, (X.fin i.2.1, X.fin i.2.2)) = t.push (X.fin i.2.1, X.fin i.2.2) := by
            unfold WindowComoment.push Comoment.push
            simp only
            split_ifs with hf
            · cases hfr : t.window.front with
              | none => rfl
              | some q =>
                obtain ⟨a, b, rfl, hab⟩ := hw q (List.mem_of_mem_head? hfr)
                simp only [mulSubMul_exact i.1.1 hi hab]
            · rw [addMul_exact _ _ hi]
          refine ⟨hpush, fun s hs q hq => ?_⟩
          rw [hpush] at hs
          have hwin : s.window = t.window.pushBack (X.fin i.2.1, X.fin i.2.2) := by
            unfold Comoment.push at hs
            simp only at hs
            split_ifs at hs with hf
            · cases hfr : t.window.front with
              | none => rw [hfr] at hs; simp at hs
              | some q => rw [hfr] at hs; simp only [Option.some.injEq] at hs; rw [← hs]
            · simp only [Option.some.injEq] at hs; rw [← hs]
          rw [hwin, Ring.pushBack_eq, Spec.slide] at hq
          split_ifs at hq
          · rcases List.mem_append.1 hq with hq | hq
            · exact hw q (List.mem_of_mem_tail hq)
            · exact ⟨_, _, List.mem_singleton.1 hq, hi⟩
          · rcases List.mem_append.1 hq with hq | hq
            · exact hw q hq
            · exact ⟨_, _, List.mem_singleton.1 hq, hi⟩
  exact key.1

/-- The same contraction in every call. -/
def withC (c : Fusion × Bool) (ops : List (Op (ℝ × ℝ))) : List (Op ((Fusion × Bool) × (ℝ × ℝ))) :=
  ops.map fun
    | .push q => .push (c, q)
    | .clear => .clear

/-- C156 for the window covariance in binary64, whatever the compiler does with the products. -/
def C156_ContractedStatement : Prop :=
  ∀ (c : Fusion × Bool) (W : Nat), 1 ≤ W → ∀ (ops : List (Op (ℝ × ℝ))), W ≤ (sinceClear ops).length →
    (∀ q ∈ sinceClear ops, (IsRep 53 (-1074) q.1 ∧ |q.1| ≤ 2 ^ 500) ∧ (IsRep 53 (-1074) q.2 ∧ |q.2| ≤ 2 ^ 500)) → ∀ k : Nat,
    (WindowComoment.run (finW (withC c (repeated ops (Spec.lastN W (sinceClear ops)) k))) : Option (Comoment W (X binary64))).map Comoment.variance
      = (WindowComoment.run (finW (withC c ops)) : Option (Comoment W (X binary64))).map Comoment.variance

namespace Periodic

/-- 1 + 2^-30 -/
noncomputable def x : ℝ := 1073741825 / 2 ^ 30
/-- 1 + 2^-29, the product `x * x` rounded -/
noncomputable def y : ℝ := 536870913 / 2 ^ 29

theorem rxx : (X.round (x * x) : X binary64) = X.fin y := by
  refine round64_of 536870913 (-29) ?_ (by unfold y; norm_num) (by norm_num) (by norm_num) (by norm_num)
  rw [rnd64_near (r := x * x) (536870913 * 2 ^ 23) (-52) (by norm_num) (by unfold x; norm_num) (by unfold x; norm_num) (by unfold x; norm_num)]
  unfold y; norm_num
theorem rx : (X.round x : X binary64) = X.fin x := round64 1073741825 (-30) (by unfold x; norm_num) (by norm_num) (by norm_num) (by norm_num)
theorem ry : (X.round y : X binary64) = X.fin y := round64 536870913 (-29) (by unfold y; norm_num) (by norm_num) (by norm_num) (by norm_num)
theorem ry' : (X.round (-y) : X binary64) = X.fin (-y) :=
  round64 (-536870913) (-29) (by unfold y; norm_num) (by norm_num) (by norm_num) (by norm_num)
theorem r0 : (X.round 0 : X binary64) = X.fin 0 := round64_int 0 (by simp) (by norm_num)

/-- The state with the window `l` and `sum.xy` equal to `k * 2^-60`. -/
noncomputable def ct (l : List (ℝ × ℝ)) (k : Nat) : Comoment 2 (X binary64) :=
  { window := ⟨l.map fun q => (X.fin q.1, X.fin q.2)⟩, sumX := X.fin (x - y), sumY := X.fin (x + 1), sumXY := X.fin (k / 2 ^ 60) }

theorem rd : (X.round (x - y) : X binary64) = X.fin (x - y) :=
  round64 (-1) (-30) (by unfold x y; norm_num) (by norm_num) (by norm_num) (by norm_num)
theorem rs : (X.round (x + 1) : X binary64) = X.fin (x + 1) :=
  round64 2147483649 (-30) (by unfold x; norm_num) (by norm_num) (by norm_num) (by norm_num)
theorem rk {k : Nat} (hk : k ≤ 2 ^ 53) : (X.round ((k : ℝ) / 2 ^ 60) : X binary64) = X.fin ((k : ℝ) / 2 ^ 60) :=
  round64 k (-60) (by rw [zpow_neg]; norm_num; ring) (by rw [abs_of_nonneg (by positivity)]; exact_mod_cast hk) (by norm_num) (by norm_num)

theorem left (a b c d : X binary64) : mulSubMul Fusion.left a b c d = X.fma a b (X.neg (c * d)) := rfl

theorem ct1 {k : Nat} (hk : k + 1 ≤ 2 ^ 53) :
    WindowComoment.push (ct [(x, x), (-y, 1)] k) ((Fusion.left, true), (X.fin x, X.fin x)) = some (ct [(-y, 1), (x, x)] (k + 1)) := by
  have e1 : mulSubMul Fusion.left (X.fin x) (X.fin x) (X.fin x) (X.fin x) = (X.fin (1 / 2 ^ 60) : X binary64) := by
    rw [left, X.mul_fin, rxx]
    show X.round (x * x + -y) = _
    exact (round64 1 (-60) (by unfold x y; norm_num) (by norm_num) (by norm_num) (by norm_num)).trans (by congr 1; unfold x y; norm_num)
  have e2 : (X.fin ((k : ℝ) / 2 ^ 60) + X.fin (1 / 2 ^ 60) : X binary64) = X.fin (((k + 1 : Nat) : ℝ) / 2 ^ 60) := by
    rw [X.add_fin, show (k : ℝ) / 2 ^ 60 + 1 / 2 ^ 60 = ((k + 1 : Nat) : ℝ) / 2 ^ 60 by push_cast; ring, rk hk]
  show some (Comoment.mk _ (X.fin (x - y) + (X.fin x - X.fin x)) (X.fin (x + 1) + (X.fin x - X.fin x))
    (X.fin ((k : ℝ) / 2 ^ 60) + mulSubMul Fusion.left (X.fin x) (X.fin x) (X.fin x) (X.fin x))) = _
  rw [e1, e2, sub_self_fin binary64_binary, X.add_fin, add_zero, rd, X.add_fin, add_zero, rs]
  rfl

theorem ct2 {k : Nat} (hk : k ≤ 2 ^ 53) :
    WindowComoment.push (ct [(-y, 1), (x, x)] k) ((Fusion.left, true), (X.fin (-y), X.fin 1)) = some (ct [(x, x), (-y, 1)] k) := by
  have e1 : mulSubMul Fusion.left (X.fin (-y)) (X.fin 1) (X.fin (-y)) (X.fin 1) = (X.fin 0 : X binary64) := by
    rw [left, X.mul_fin, mul_one, ry']
    show X.round (-y * 1 + - -y) = _
    rw [show -y * 1 + - -y = 0 by ring, r0]
  show some (Comoment.mk _ (X.fin (x - y) + (X.fin (-y) - X.fin (-y))) (X.fin (x + 1) + (X.fin 1 - X.fin 1))
    (X.fin ((k : ℝ) / 2 ^ 60) + mulSubMul Fusion.left (X.fin (-y)) (X.fin 1) (X.fin (-y)) (X.fin 1))) = _
  rw [e1, sub_self_fin binary64_binary, sub_self_fin binary64_binary, X.add_fin, add_zero, rd, X.add_fin, add_zero, rs, X.add_fin, add_zero, rk hk]
  rfl

theorem cfirst : WindowComoment.run (finW (withC (Fusion.left, true) ([(x, x), (-y, 1)].map .push))) = some (ct [(x, x), (-y, 1)] 0) := by
  have z : (ofNat 0 : X binary64) = X.fin 0 := binary64_binary.ofNat_zero
  have e0 : (ofNat 0 + X.fin x : X binary64) = X.fin x := by rw [z, X.add_fin, zero_add, rx]
  have e1 : (X.fin x + X.fin (-y) : X binary64) = X.fin (x - y) := by rw [X.add_fin, ← sub_eq_add_neg, rd]
  have e2 : (X.fin x + X.fin 1 : X binary64) = X.fin (x + 1) := by rw [X.add_fin, rs]
  have e3 : addMul true (ofNat 0) (X.fin x) (X.fin x) = (X.fin y : X binary64) := by
    rw [z]
    show X.round (x * x + 0) = _
    rw [add_zero, rxx]
  have e4 : addMul true (X.fin y) (X.fin (-y)) (X.fin 1) = (X.fin ((0 : Nat) / 2 ^ 60) : X binary64) := by
    show X.round (-y * 1 + y) = _
    rw [show -y * 1 + y = 0 by ring, r0]
    simp
  show some (Comoment.mk _ (ofNat 0 + X.fin x + X.fin (-y)) (ofNat 0 + X.fin x + X.fin 1)
    (addMul true (addMul true (ofNat 0) (X.fin x) (X.fin x)) (X.fin (-y)) (X.fin 1))) = _
  rw [e0, e1, e2, e3, e4]
  rfl

theorem withC_repeated (c : Fusion × Bool) (ops : List (Op (ℝ × ℝ))) (a b : ℝ × ℝ) (k : Nat) :
    withC c (repeated ops [a, b] (k + 1)) = withC c (repeated ops [a, b] k) ++ [.push (c, a), .push (c, b)] := by
  simp [withC, repeated, List.replicate_succ']

theorem crun (k : Nat) (hk : k ≤ 2 ^ 53) :
    WindowComoment.run (finW (withC (Fusion.left, true) (repeated ([(x, x), (-y, 1)].map .push) [(x, x), (-y, 1)] k)))
      = some (ct [(x, x), (-y, 1)] k) := by
  induction k with
  | zero => rw [← cfirst]; simp [repeated]
  | succ k ih =>
    rw [withC_repeated]
    have e : ∀ l : List (Op ((Fusion × Bool) × (ℝ × ℝ))), (WindowComoment.run (finW (l ++ [.push ((Fusion.left, true), (x, x)), .push ((Fusion.left, true), (-y, 1))]))
        : Option (Comoment 2 (X binary64))) = ((WindowComoment.run (finW l)).bind (WindowComoment.push · ((Fusion.left, true), (X.fin x, X.fin x)))).bind
          (WindowComoment.push · ((Fusion.left, true), (X.fin (-y), X.fin 1))) := by
      intro l
      simp [WindowComoment.run, runOps, finW]
    rw [e, ih (by omega), Option.bind_some, ct1 hk, Option.bind_some, ct2 hk]

end Periodic

/-- C156 with fused multiply-add, window covariance: two pairs, repeated. `sum.xy` grows by `2^-60` in each repetition. -/
theorem C156_contracted_drift (k : Nat) (hk : k ≤ 2 ^ 53) :
    ∃ s : Comoment 2 (X binary64), WindowComoment.run (finW (withC (Fusion.left, true)
        (repeated ([(Periodic.x, Periodic.x), (-Periodic.y, 1)].map .push) [(Periodic.x, Periodic.x), (-Periodic.y, 1)] k))) = some s
      ∧ s.window.items = [(X.fin Periodic.x, X.fin Periodic.x), (X.fin (-Periodic.y), X.fin 1)]
      ∧ s.sumXY = X.fin (k / 2 ^ 60) :=
  ⟨_, Periodic.crun k hk, rfl, rfl⟩

theorem C156_contracted_violated : ¬ C156_ContractedStatement := by
  intro h
  have h1 := h (Fusion.left, true) 2 (by norm_num) ([(Periodic.x, Periodic.x), (-Periodic.y, 1)].map .push) (by rw [sinceClear_pushes]; simp) (by
    rw [sinceClear_pushes]
    intro q hq
    simp only [List.mem_cons, List.not_mem_nil, or_false] at hq
    have hx : IsRep 53 (-1074) Periodic.x := ⟨1073741825, -30, by unfold Periodic.x; norm_num, by norm_num, by norm_num⟩
    have hy : IsRep 53 (-1074) (-Periodic.y) := ⟨-536870913, -29, by unfold Periodic.y; norm_num, by norm_num, by norm_num⟩
    have h1 : IsRep 53 (-1074) (1 : ℝ) := ⟨1, 0, by norm_num, by norm_num, by norm_num⟩
    have big : (2 : ℝ) ^ 10 ≤ 2 ^ 500 := pow_le_pow_right₀ (by norm_num) (by norm_num)
    have bx : |Periodic.x| ≤ 2 ^ 500 := by unfold Periodic.x; rw [abs_of_pos (by norm_num)]; exact le_trans (by norm_num) big
    have by' : |-Periodic.y| ≤ 2 ^ 500 := by unfold Periodic.y; rw [abs_neg, abs_of_pos (by norm_num)]; exact le_trans (by norm_num) big
    have b1 : |(1 : ℝ)| ≤ 2 ^ 500 := by rw [abs_one]; exact le_trans (by norm_num) big
    rcases hq with rfl | rfl
    exacts [⟨⟨hx, bx⟩, hx, bx⟩, ⟨⟨hy, by'⟩, h1, b1⟩]) 1
  have e : Spec.lastN 2 [(Periodic.x, Periodic.x), (-Periodic.y, 1)] = [(Periodic.x, Periodic.x), (-Periodic.y, 1)] := by simp [Spec.lastN]
  rw [sinceClear_pushes, e, Periodic.crun 1 (by norm_num), Periodic.cfirst] at h1
  simp only [Option.map_some, Option.some.injEq] at h1
  have hv : ∀ k : Nat, k ≤ 1 → (Periodic.ct [(Periodic.x, Periodic.x), (-Periodic.y, 1)] k).variance = X.fin ((2 * k + 2 ^ 31 + 1) / 2 ^ 62) := by
    intro k hk
    have hs : (Periodic.ct [(Periodic.x, Periodic.x), (-Periodic.y, 1)] k).size = 2 := rfl
    have hk' : ((k : Int) : ℝ) = k := by push_cast; rfl
    rw [Comoment.variance, if_pos (by rw [hs]; norm_num), Comoment.cosum, hs, Periodic.two]
    show (X.fin ((k : ℝ) / 2 ^ 60) - X.fin (Periodic.x - Periodic.y) * X.fin (Periodic.x + 1) / X.fin 2) / X.fin 2 = _
    have ep : (Periodic.x - Periodic.y) * (Periodic.x + 1) = -2147483649 / 2 ^ 60 := by unfold Periodic.x Periodic.y; norm_num
    rw [X.mul_fin, ep, round64 (-2147483649) (-60) (by norm_num) (by norm_num) (by norm_num) (by norm_num), X.div_fin_of_ne _ two_ne_zero,
      round64 (-2147483649) (-61) (by norm_num) (by norm_num) (by norm_num) (by norm_num), X.sub_fin,
      round64 (2 * k + 2147483649) (-61) (by push_cast; rw [zpow_neg]; norm_num; ring) (by rw [abs_of_nonneg (by positivity)]; omega) (by norm_num) (by norm_num),
      X.div_fin_of_ne _ two_ne_zero,
      round64 (2 * k + 2147483649) (-62) (by push_cast; rw [zpow_neg]; norm_num; ring) (by rw [abs_of_nonneg (by positivity)]; omega) (by norm_num) (by norm_num)]
    congr 1
    ring
  rw [hv 1 le_rfl, hv 0 (by norm_num)] at h1
  have := X.fin.inj h1
  norm_num at this

/-! ### Cases -/

example : (Mean.run (finOps (repeated ([1, 5, 3].map .push) [5, 3] 7)) : Option (Mean 2 (X binary64))) = Mean.run (finOps ([1, 5, 3].map .push)) := by
  have := C156_mean_partial binary64_binary (N := 2) (by norm_num) (by norm_num)
    (by have := (binary64_int (n := 2) (by norm_num)).2; exact_mod_cast this) ([1, 5, 3].map .push) (by rw [sinceClear_pushes]; simp) 7
  rw [sinceClear_pushes] at this
  simpa [Spec.lastN] using this

end Verif.Props
