import Verif.Proofs.Grid
import Verif.Proofs.ErrorBound
import Verif.Props.FilterError
import Verif.Proofs.SqrtSquare
import Verif.Props.Window
/-
C155: integer data (whole multiples of a power of two) in the window and impulse filters, in floating point.
-/
namespace Verif.Props
open Scalar Window Exact

variable {F : Fmt} {p : Nat} {emin : Int} {u η ε : ℝ} {W N : Nat}

/-! ### Window covariance -/

/-- The covariance filter with window contents `l` and exact sums. -/
noncomputable def comomentOf (W : Nat) (F : Fmt) (l : List (ℝ × ℝ)) : Comoment W (X F) :=
  { window := ⟨l.map fun q => (X.fin q.1, X.fin q.2)⟩
    sumX := X.fin (Spec.xsOf l).sum
    sumY := X.fin (Spec.ysOf l).sum
    sumXY := X.fin (l.map fun q => q.1 * q.2).sum }

/-- The data are whole multiples of `2^e` and `2^e'`, at most `A` and `B` of them, and the sums over a window need no
rounding. -/
structure IntegerPairs (F : Fmt) (p : Nat) (emin : Int) (W : Nat) (e e' : Int) (A B : Nat) (ps : List (ℝ × ℝ)) : Prop where
  xs : ∀ q ∈ ps, Grid e A q.1
  ys : ∀ q ∈ ps, Grid e' B q.2
  sumX : (W + 1) * A < 2 ^ p
  sumY : (W + 1) * B < 2 ^ p
  sumXY : (W + 1) * (A * B) < 2 ^ p
  minX : emin ≤ e
  minY : emin ≤ e'
  minXY : emin ≤ e + e'
  maxX : F.fits (2 ^ p * (2 : ℝ) ^ e)
  maxY : F.fits (2 ^ p * (2 : ℝ) ^ e')
  maxXY : F.fits (2 ^ p * (2 : ℝ) ^ (e + e'))

theorem slide_sum {B : Nat} {e : Int} (hW : 1 ≤ W) (hF : F.Binary p emin) (hp : (W + 1) * B < 2 ^ p) (he : emin ≤ e)
    (hf : F.fits (2 ^ p * (2 : ℝ) ^ e)) {f : ℝ} {t : List ℝ} {x : ℝ} (h : ∀ y ∈ f :: t, Grid e B y) (hx : Grid e B x)
    (hl : (f :: t).length ≤ W) :
    (X.fin (f :: t).sum + (X.fin x - X.fin f) : X F) = X.fin (t ++ [x]).sum := by
  have g1 : Grid e ((W + 1) * B) (x - f) := (hx.sub (h f List.mem_cons_self)).mono (by nlinarith)
  have h' : ∀ y ∈ t ++ [x], Grid e B y := by
    intro y hy
    rcases List.mem_append.1 hy with hy | hy
    · exact h y (List.mem_cons_of_mem _ hy)
    · rw [List.mem_singleton.1 hy]; exact hx
  have g2 : Grid e ((W + 1) * B) (t ++ [x]).sum := (Grid.sum h').mono (Nat.mul_le_mul_right _ (by simp at hl ⊢; omega))
  have e1 : (f :: t).sum + (x - f) = (t ++ [x]).sum := by simp; ring
  rw [X.sub_fin, g1.round hF hp he hf, X.add_fin, e1, g2.round hF hp he hf]

theorem append_sum {B : Nat} {e : Int} (hF : F.Binary p emin) (hp : (W + 1) * B < 2 ^ p) (he : emin ≤ e)
    (hf : F.fits (2 ^ p * (2 : ℝ) ^ e)) {l : List ℝ} {x : ℝ} (h : ∀ y ∈ l, Grid e B y) (hx : Grid e B x)
    (hl : l.length ≤ W) :
    (X.fin l.sum + X.fin x : X F) = X.fin (l ++ [x]).sum := by
  have h' : ∀ y ∈ l ++ [x], Grid e B y := by
    intro y hy
    rcases List.mem_append.1 hy with hy | hy
    · exact h y hy
    · rw [List.mem_singleton.1 hy]; exact hx
  have g2 : Grid e ((W + 1) * B) (l ++ [x]).sum := (Grid.sum h').mono (Nat.mul_le_mul_right _ (by simp; omega))
  rw [X.add_fin, show l.sum + x = (l ++ [x]).sum by simp, g2.round hF hp he hf]

/-- One push keeps the sums exact. -/
theorem comoment_push_of (hF : F.Binary p emin) (hW : 1 ≤ W) {e e' : Int} {A B : Nat} {l : List (ℝ × ℝ)} {q : ℝ × ℝ}
    (h : IntegerPairs F p emin W e e' A B (l ++ [q])) (hl : l.length ≤ W) :
    (comomentOf W F l).push (X.fin q.1, X.fin q.2) = some (comomentOf W F (Spec.slide W l q)) := by
  have hpb := pushBack_map (N := W) (fun q : ℝ × ℝ => ((X.fin q.1, X.fin q.2) : X F × X F)) l q
  have hq1 : Grid e A q.1 := h.xs q (by simp)
  have hq2 : Grid e' B q.2 := h.ys q (by simp)
  have hl1 : ∀ y ∈ l.map Prod.fst, Grid e A y := by
    intro y hy; obtain ⟨r, hr, rfl⟩ := List.mem_map.1 hy; exact h.xs r (by simp [hr])
  have hl2 : ∀ y ∈ l.map Prod.snd, Grid e' B y := by
    intro y hy; obtain ⟨r, hr, rfl⟩ := List.mem_map.1 hy; exact h.ys r (by simp [hr])
  have hl3 : ∀ y ∈ l.map (fun q => q.1 * q.2), Grid (e + e') (A * B) y := by
    intro y hy; obtain ⟨r, hr, rfl⟩ := List.mem_map.1 hy; exact (h.xs r (by simp [hr])).mul (h.ys r (by simp [hr]))
  have hAB : A * B < 2 ^ p := lt_of_le_of_lt (Nat.le_mul_of_pos_left _ (by omega)) h.sumXY
  have hmul : ∀ r : ℝ × ℝ, r ∈ l ++ [q] → (X.fin r.1 * X.fin r.2 : X F) = X.fin (r.1 * r.2) := fun r hr => by
    rw [X.mul_fin, ((h.xs r hr).mul (h.ys r hr)).round hF hAB h.minXY h.maxXY]
  unfold Comoment.push
  by_cases hlen : l.length = W
  · have hfull : (comomentOf W F l).window.full = true := by simp [comomentOf, Ring.full, hlen]
    simp only [if_pos hfull]
    obtain ⟨f, t, rfl⟩ : ∃ f t, l = f :: t := by
      cases l with
      | nil => simp at hlen; omega
      | cons f t => exact ⟨f, t, rfl⟩
    have hfr : (comomentOf W F (f :: t)).window.front = some (X.fin f.1, X.fin f.2) := by simp [comomentOf, Ring.front]
    rw [hfr]
    have hs : Spec.slide W (f :: t) q = t ++ [q] := by simp [Spec.slide, hlen]
    rw [hs] at hpb ⊢
    have a1 := slide_sum hW hF h.sumX h.minX h.maxX hl1 hq1 (by simp; simpa using hl)
    have a2 := slide_sum hW hF h.sumY h.minY h.maxY hl2 hq2 (by simp; simpa using hl)
    have a3 := slide_sum hW hF h.sumXY h.minXY h.maxXY hl3 (hq1.mul hq2) (by simp; simpa using hl)
    simp only [comomentOf, hpb, hmul q (by simp), hmul f (by simp), Option.some.injEq, Comoment.mk.injEq, true_and]
    simp only [Spec.xsOf, Spec.ysOf, List.map_append, List.map_cons, List.map_nil]
    exact ⟨a1, a2, a3⟩
  · have hfull : ¬ (comomentOf W F l).window.full = true := by simp [comomentOf, Ring.full, hlen]
    simp only [if_neg hfull]
    have hs : Spec.slide W l q = l ++ [q] := by simp [Spec.slide, hlen]
    rw [hs] at hpb ⊢
    have a1 := append_sum hF h.sumX h.minX h.maxX hl1 hq1 (by simpa using hl)
    have a2 := append_sum hF h.sumY h.minY h.maxY hl2 hq2 (by simpa using hl)
    have a3 := append_sum hF h.sumXY h.minXY h.maxXY hl3 (hq1.mul hq2) (by simpa using hl)
    simp only [comomentOf, hpb, hmul q (by simp), Option.some.injEq, Comoment.mk.injEq, true_and]
    simp only [Spec.xsOf, Spec.ysOf, List.map_append, List.map_cons, List.map_nil]
    exact ⟨a1, a2, a3⟩

/-- C155, window covariance: after any history the sums are exact. -/
theorem C155_sums_partial (hF : F.Binary p emin) (hW : 1 ≤ W) {e e' : Int} {A B : Nat} (ops : List (Op (ℝ × ℝ)))
    (h : IntegerPairs F p emin W e e' A B (sinceClear ops)) :
    ∃ s : Comoment W (X F), Comoment.run (finOps2 ops) = some s
      ∧ s.window.items = (Spec.lastN W (sinceClear ops)).map (fun q => (X.fin q.1, X.fin q.2))
      ∧ s.sumX = X.fin (Spec.xsOf (Spec.lastN W (sinceClear ops))).sum
      ∧ s.sumY = X.fin (Spec.ysOf (Spec.lastN W (sinceClear ops))).sum
      ∧ s.sumXY = X.fin ((Spec.lastN W (sinceClear ops)).map fun q => q.1 * q.2).sum := by
  refine ⟨comomentOf W F (Spec.lastN W (sinceClear ops)), ?_, rfl, rfl, rfl, rfl⟩
  rw [Comoment.run_eq hW, sinceClear_finOps2, foldl_map_option]
  generalize sinceClear ops = ps at h
  induction ps using List.reverseRecOn with
  | nil => simp [comomentOf, Comoment.init, Ring.init, Spec.lastN, hF.ofNat_zero, Spec.xsOf, Spec.ysOf]
  | append_singleton ps q ih =>
    have h' : IntegerPairs F p emin W e e' A B ps :=
      { h with xs := fun r hr => h.xs r (by simp [hr]), ys := fun r hr => h.ys r (by simp [hr]) }
    rw [List.foldl_append, ih h', List.foldl_cons, List.foldl_nil, Spec.lastN_snoc hW]
    refine comoment_push_of hF hW (l := Spec.lastN W ps) (q := q)
      { h with xs := fun r hr => h.xs r ?_, ys := fun r hr => h.ys r ?_ } (by rw [Spec.length_lastN]; omega)
    all_goals
      rcases List.mem_append.1 hr with hr | hr
      · exact List.mem_append_left _ (List.mem_of_mem_drop hr)
      · exact List.mem_append_right _ hr

/-- C155, window covariance: everything older than the window is forgotten, bit for bit. -/
theorem C155_forget_partial (hF : F.Binary p emin) (hW : 1 ≤ W) {e e' e₂ e₂' : Int} {A B A₂ B₂ : Nat} (ops ops' : List (Op (ℝ × ℝ)))
    (h : IntegerPairs F p emin W e e' A B (sinceClear ops)) (h' : IntegerPairs F p emin W e₂ e₂' A₂ B₂ (sinceClear ops'))
    (hl : Spec.lastN W (sinceClear ops) = Spec.lastN W (sinceClear ops')) :
    ∃ s : Comoment W (X F), Comoment.run (finOps2 ops) = some s ∧ Comoment.run (finOps2 ops') = some s := by
  obtain ⟨⟨⟨a⟩, b, c, d⟩, h1, h2, h3, h4, h5⟩ := C155_sums_partial hF hW ops h
  obtain ⟨⟨⟨a'⟩, b', c', d'⟩, h1', h2', h3', h4', h5'⟩ := C155_sums_partial hF hW ops' h'
  simp only at h2 h3 h4 h5 h2' h3' h4' h5'
  refine ⟨_, h1, ?_⟩
  rw [h1', h2, h3, h4, h5, h2', h3', h4', h5', hl]

theorem fits_finer (hF : F.Binary p emin) {e d : Int} (hd : d ≤ e) (h : F.fits (2 ^ p * (2 : ℝ) ^ e)) : F.fits (2 ^ p * (2 : ℝ) ^ d) := by
  refine hF.fits_abs _ _ ?_ h
  rw [abs_of_pos (by positivity), abs_of_pos (by positivity)]
  exact mul_le_mul_of_nonneg_left (zpow_le_zpow_right₀ (by norm_num) hd) (by positivity)

/-- C155, window covariance: if the number of pairs in the window is a power of two, the covariance is exact. -/
theorem C155_covariance_exact_partial (hF : F.Binary p emin) (hW : 1 ≤ W) (hWp : W ≤ 2 ^ p) (hWf : F.fits (W : ℝ)) {e e' : Int}
    {A B k : Nat} (ops : List (Op (ℝ × ℝ))) (h : IntegerPairs F p emin W e e' A B (sinceClear ops))
    (hk : (Spec.lastN W (sinceClear ops)).length = 2 ^ k) (hp : 2 * (W * W * (A * B)) < 2 ^ p) (hmin : emin ≤ e + e' - k - k) :
    ∃ s : Comoment W (X F), Comoment.run (finOps2 ops) = some s
      ∧ s.variance = X.fin (Spec.covariance (Spec.lastN W (sinceClear ops))) := by
  obtain ⟨s, h1, h2, h3, h4, h5⟩ := C155_sums_partial hF hW ops h
  refine ⟨s, h1, ?_⟩
  have hsub : ∀ q ∈ Spec.lastN W (sinceClear ops), q ∈ sinceClear ops := fun q hq => List.mem_of_mem_drop hq
  have hlen : (Spec.lastN W (sinceClear ops)).length ≤ W := by rw [Spec.length_lastN]; omega
  set l := Spec.lastN W (sinceClear ops) with hl
  have hsize : s.size = 2 ^ k := by
    show s.window.items.length = _
    rw [h2, List.length_map, hk]
  have hkW : 2 ^ k ≤ W := by rw [← hk]; exact hlen
  have hcast : ((2 ^ k : Nat) : ℝ) = 2 ^ k := by push_cast; rfl
  have hn : (ofNat (2 ^ k) : X F) = X.fin (2 ^ k) := by
    rw [hF.ofNat_fin (hkW.trans hWp) (hF.fits_abs _ _ ?_ hWf), hcast]
    rw [Nat.abs_cast, Nat.abs_cast]; exact_mod_cast hkW
  have g1 : Grid e (W * A) (Spec.xsOf l).sum := by
    refine (Grid.sum (B := A) fun y hy => ?_).mono (Nat.mul_le_mul_right _ (by rw [Spec.length_xsOf]; exact hlen))
    obtain ⟨r, hr, rfl⟩ := List.mem_map.1 hy; exact h.xs r (hsub r hr)
  have g2 : Grid e' (W * B) (Spec.ysOf l).sum := by
    refine (Grid.sum (B := B) fun y hy => ?_).mono (Nat.mul_le_mul_right _ (by rw [Spec.length_ysOf]; exact hlen))
    obtain ⟨r, hr, rfl⟩ := List.mem_map.1 hy; exact h.ys r (hsub r hr)
  have g3 : Grid (e + e') (W * (A * B)) (l.map fun q => q.1 * q.2).sum := by
    refine (Grid.sum (B := A * B) fun y hy => ?_).mono (Nat.mul_le_mul_right _ (by rw [List.length_map]; exact hlen))
    obtain ⟨r, hr, rfl⟩ := List.mem_map.1 hy; exact (h.xs r (hsub r hr)).mul (h.ys r (hsub r hr))
  have b1 : W * A * (W * B) = W * W * (A * B) := by ring
  have g4 := g1.mul g2
  rw [b1] at g4
  have g5 := g4.div_two k
  have g6 := ((g3.refine_two k).mono (B := W * W * (A * B)) (by rw [mul_assoc]; exact Nat.mul_le_mul_right _ hkW)).sub g5
  have g7 := g6.div_two k
  have hk0 : (0 : Int) ≤ k := by positivity
  have f1 := fits_finer hF (d := e + e' - k) (by omega) h.maxXY
  have f2 := fits_finer hF (d := e + e' - k - k) (by omega) h.maxXY
  have hne : ((2 : ℝ) ^ k) ≠ 0 := by positivity
  rw [Comoment.variance, if_pos (by rw [hsize]; positivity), Comoment.cosum, h3, h4, h5, hsize, hn, X.mul_fin,
    g4.round hF (by omega) h.minXY h.maxXY, X.div_fin_of_ne _ hne, g5.round hF (by omega) (by omega) f1, X.sub_fin,
    g6.round hF (by omega) (by omega) f1, X.div_fin_of_ne _ hne, g7.round hF (by omega) hmin f2, Spec.covariance, Spec.cosum_eq, hk, hcast]

/-- The covariance computed from exact sums. -/
theorem cov_quotient (hF : F.Binary p emin) (hE : F.Err u η) (hu : u ≤ 1 / 4) {a b S n Q K w : ℝ} (hQ : 0 ≤ Q) (hn1 : 1 ≤ n) (hnw : n ≤ w)
    (hab : |a * b| ≤ n * n * Q) (hS : |S| ≤ n * Q) (hη : η ≤ u * Q) (hK : IsRep p emin K) (hKf : F.fits K) (hQK : 5 * (w * w * Q) ≤ K) :
    ∃ c : ℝ, ((X.fin S - X.fin a * X.fin b / X.fin n) / X.fin n : X F) = X.fin c
      ∧ |c - (S - a * b / n) / n| ≤ 14 * (u * Q) := by
  have hu0 := hE.u_nonneg
  have hn0 : 0 < n := by linarith
  have hnQ : Q ≤ n * Q := le_mul_of_one_le_left hQ hn1
  have hnnQ : n * Q ≤ n * n * Q := by rw [mul_assoc]; exact le_mul_of_one_le_left (by linarith) hn1
  have hwQ : n * n * Q ≤ w * w * Q := mul_le_mul_of_nonneg_right (mul_le_mul hnw hnw hn0.le (by linarith)) hQ
  set U := u * Q with hU
  have hU0 : 0 ≤ U := mul_nonneg hu0 hQ
  have hUQ : U ≤ Q / 4 := by rw [hU]; nlinarith
  have hnU : U ≤ n * U := le_mul_of_one_le_left hU0 hn1
  have hnUQ : n * U ≤ n * Q / 4 := by have := mul_le_mul_of_nonneg_left hUQ hn0.le; linarith
  have huU : u * U ≤ U / 4 := by nlinarith
  have hunU : u * (n * U) ≤ n * U / 4 := by have := mul_le_mul_of_nonneg_right hu (show 0 ≤ n * U by positivity); linarith
  -- the product
  have e1 := hE.err (a * b)
  set P := F.rnd (a * b)
  have e1' : |P - a * b| ≤ n * (n * U) + U := by
    have := mul_le_mul_of_nonneg_left hab hu0
    have e : u * (n * n * Q) = n * (n * U) := by rw [hU]; ring
    linarith
  have d1 : |P / n - a * b / n| ≤ n * U + U := by
    rw [← sub_div, abs_div, abs_of_pos hn0, div_le_iff₀ hn0]
    nlinarith
  have q0 : |a * b / n| ≤ n * Q := by
    rw [abs_div, abs_of_pos hn0, div_le_iff₀ hn0]; linarith
  have d1' : |P / n| ≤ n * Q + (n * U + U) := by
    have := abs_add_le (a * b / n) (P / n - a * b / n)
    rw [add_sub_cancel] at this; linarith
  -- the quotient
  have e2 := hE.err (P / n)
  set q := F.rnd (P / n)
  have huQ : u * (n * Q) = n * U := by rw [hU]; ring
  have e2' : |q - P / n| ≤ n * U + (n * U + U) / 4 + U := by
    have := mul_le_mul_of_nonneg_left d1' hu0
    rw [mul_add, mul_add, huQ] at this
    linarith
  have d2 : |q - a * b / n| ≤ 9 / 2 * (n * U) := by
    have := abs_add_le (q - P / n) (P / n - a * b / n)
    rw [sub_add_sub_cancel] at this; linarith
  have hD : |S - a * b / n| ≤ 2 * (n * Q) := by
    have := abs_sub S (a * b / n); linarith
  have d2' : |(S - q) - (S - a * b / n)| ≤ 9 / 2 * (n * U) := by
    rw [show (S - q) - (S - a * b / n) = -(q - a * b / n) by ring, abs_neg]; exact d2
  have d3 : |S - q| ≤ 2 * (n * Q) + 9 / 2 * (n * U) := by
    have := abs_add_le (S - a * b / n) ((S - q) - (S - a * b / n))
    rw [add_sub_cancel] at this; linarith
  -- the difference
  have e3 := hE.err (S - q)
  set d := F.rnd (S - q)
  have e3' : |d - (S - q)| ≤ 33 / 8 * (n * U) := by
    have := mul_le_mul_of_nonneg_left d3 hu0
    have e : u * (2 * (n * Q) + 9 / 2 * (n * U)) = 2 * (u * (n * Q)) + 9 / 2 * (u * (n * U)) := by ring
    rw [e, huQ] at this
    linarith
  have d4 : |d - (S - a * b / n)| ≤ 69 / 8 * (n * U) := by
    have := abs_add_le (d - (S - q)) ((S - q) - (S - a * b / n))
    rw [sub_add_sub_cancel] at this; linarith
  have d5 : |d / n - (S - a * b / n) / n| ≤ 69 / 8 * U := by
    rw [← sub_div, abs_div, abs_of_pos hn0, div_le_iff₀ hn0]; linarith
  have q1 : |(S - a * b / n) / n| ≤ 2 * Q := by
    rw [abs_div, abs_of_pos hn0, div_le_iff₀ hn0]; linarith
  have d6 : |d / n| ≤ 2 * Q + 69 / 8 * U := by
    have := abs_add_le ((S - a * b / n) / n) (d / n - (S - a * b / n) / n)
    rw [add_sub_cancel] at this; linarith
  have e4 := hE.err (d / n)
  refine ⟨F.rnd (d / n), ?_, ?_⟩
  · rw [X.mul_fin, round_within hF hK hKf (by linarith), X.div_fin_of_ne _ hn0.ne', round_within hF hK hKf (by linarith), X.sub_fin,
      round_within hF hK hKf (by linarith), X.div_fin_of_ne _ hn0.ne', round_within hF hK hKf (by linarith)]
  · have h1 := mul_le_mul_of_nonneg_left d6 hu0
    have e : u * (2 * Q + 69 / 8 * U) = 2 * U + 69 / 8 * (u * U) := by rw [hU]; ring
    rw [e] at h1
    have := abs_add_le (F.rnd (d / n) - d / n) (d / n - (S - a * b / n) / n)
    rw [sub_add_sub_cancel] at this
    linarith

/-- C155, window covariance: for every number of pairs, the error does not depend on the number of pushes. -/
theorem C155_covariance_error_partial (hF : F.Binary p emin) (hE : F.Err u η) (hu : u ≤ 1 / 4) (hW : 1 ≤ W) (hWp : W ≤ 2 ^ p)
    (hWf : F.fits (W : ℝ)) {e e' : Int} {A B : Nat} (ops : List (Op (ℝ × ℝ))) (hne : sinceClear ops ≠ [])
    (h : IntegerPairs F p emin W e e' A B (sinceClear ops)) {Q K : ℝ} (hQ : Q = A * B * (2 : ℝ) ^ (e + e')) (hη : η ≤ u * Q)
    (hK : IsRep p emin K) (hKf : F.fits K) (hQK : 5 * (W * W * Q) ≤ K) :
    ∃ (s : Comoment W (X F)) (c : ℝ), Comoment.run (finOps2 ops) = some s ∧ s.variance = X.fin c
      ∧ |c - Spec.covariance (Spec.lastN W (sinceClear ops))| ≤ 14 * (u * Q) := by
  obtain ⟨s, h1, h2, h3, h4, h5⟩ := C155_sums_partial hF hW ops h
  have hsub : ∀ q ∈ Spec.lastN W (sinceClear ops), q ∈ sinceClear ops := fun q hq => List.mem_of_mem_drop hq
  have hlen : (Spec.lastN W (sinceClear ops)).length ≤ W := by rw [Spec.length_lastN]; omega
  have hpos : 1 ≤ (Spec.lastN W (sinceClear ops)).length := by
    rw [Spec.length_lastN]; have := List.length_pos_iff.2 hne; omega
  set l := Spec.lastN W (sinceClear ops) with hl
  have hsize : s.size = l.length := by
    show s.window.items.length = _
    rw [h2, List.length_map]
  have hn : (ofNat l.length : X F) = X.fin (l.length : ℝ) := by
    refine hF.ofNat_fin (hlen.trans hWp) (hF.fits_abs _ _ ?_ hWf)
    rw [Nat.abs_cast, Nat.abs_cast]; exact_mod_cast hlen
  have b1 : |(Spec.xsOf l).sum| ≤ l.length * (A * (2 : ℝ) ^ e) := by
    refine (Grid.sum (B := A) (e := e) fun y hy => ?_).abs_le.trans (le_of_eq ?_)
    · obtain ⟨r, hr, rfl⟩ := List.mem_map.1 hy; exact h.xs r (hsub r hr)
    · rw [Spec.length_xsOf]; push_cast; ring
  have b2 : |(Spec.ysOf l).sum| ≤ l.length * (B * (2 : ℝ) ^ e') := by
    refine (Grid.sum (B := B) (e := e') fun y hy => ?_).abs_le.trans (le_of_eq ?_)
    · obtain ⟨r, hr, rfl⟩ := List.mem_map.1 hy; exact h.ys r (hsub r hr)
    · rw [Spec.length_ysOf]; push_cast; ring
  have b3 : |(l.map fun q => q.1 * q.2).sum| ≤ l.length * Q := by
    refine (Grid.sum (B := A * B) (e := e + e') fun y hy => ?_).abs_le.trans (le_of_eq ?_)
    · obtain ⟨r, hr, rfl⟩ := List.mem_map.1 hy; exact (h.xs r (hsub r hr)).mul (h.ys r (hsub r hr))
    · rw [List.length_map, hQ]; push_cast; ring
  have hn1 : (1 : ℝ) ≤ l.length := by exact_mod_cast hpos
  have hnW : (l.length : ℝ) ≤ W := by exact_mod_cast hlen
  have hQ0 : 0 ≤ Q := by rw [hQ]; positivity
  have hcov : Spec.covariance l = ((l.map fun q => q.1 * q.2).sum - (Spec.xsOf l).sum * (Spec.ysOf l).sum / l.length) / l.length := by
    rw [Spec.covariance, Spec.cosum_eq]
  have hvar : s.variance = (X.fin (l.map fun q => q.1 * q.2).sum - X.fin (Spec.xsOf l).sum * X.fin (Spec.ysOf l).sum / X.fin (l.length : ℝ))
      / X.fin (l.length : ℝ) := by
    rw [Comoment.variance, if_pos (by rw [hsize]; omega), Comoment.cosum, h3, h4, h5, hsize, hn]
  have hab : |(Spec.xsOf l).sum * (Spec.ysOf l).sum| ≤ l.length * l.length * Q := by
    rw [abs_mul, hQ, zpow_add₀ (by norm_num)]
    refine (mul_le_mul b1 b2 (abs_nonneg _) (by positivity)).trans (le_of_eq ?_)
    ring
  obtain ⟨c, h6, h7⟩ := cov_quotient hF hE hu hQ0 hn1 hnW hab b3 hη hK hKf hQK
  exact ⟨s, c, h1, by rw [hvar, h6], by rw [hcov]; exact h7⟩

theorem fits_53 : binary64.fits (2 ^ 53 * (2 : ℝ) ^ (0 : Int)) := by
  rw [zpow_zero, mul_one]
  have := (binary64_int (n := 2 ^ 53) (by norm_num)).2
  exact_mod_cast this

/-- 16 bit samples, windows up to 1023 pairs, binary64. -/
theorem samples (hW : W ≤ 1023) (ps : List (ℝ × ℝ)) (h : ∀ q ∈ ps, ∃ a b : Int, q = (↑a, ↑b) ∧ |a| ≤ 32768 ∧ |b| ≤ 32768) :
    IntegerPairs binary64 53 (-1074) W 0 0 32768 32768 ps where
  xs q hq := by obtain ⟨a, b, rfl, ha, -⟩ := h q hq; exact Grid.int a (by exact_mod_cast ha)
  ys q hq := by obtain ⟨a, b, rfl, -, hb⟩ := h q hq; exact Grid.int b (by exact_mod_cast hb)
  sumX := by omega
  sumY := by omega
  sumXY := by omega
  minX := by norm_num
  minY := by norm_num
  minXY := by norm_num
  maxX := fits_53
  maxY := fits_53
  maxXY := by rw [add_zero]; exact fits_53

example : ∃ s : Comoment 2 (X binary64),
    Comoment.run (finOps2 [.push (7, 1), .push (5, -5), .push (1, 2), .push (4, 8)]) = some s ∧ s.variance = X.fin (9 / 2) := by
  obtain ⟨s, h1, h2⟩ := C155_covariance_exact_partial (k := 1) binary64_binary (W := 2) (by norm_num) (by norm_num)
    (by have := (binary64_int (n := 2) (by norm_num)).2; exact_mod_cast this) [.push (7, 1), .push (5, -5), .push (1, 2), .push (4, 8)]
    (samples (by norm_num) _ (by
      intro q hq
      simp only [sinceClear, List.foldl_cons, List.foldl_nil, List.nil_append, List.cons_append, List.mem_cons, List.not_mem_nil, or_false] at hq
      rcases hq with rfl | rfl | rfl | rfl
      exacts [⟨7, 1, by norm_num⟩, ⟨5, -5, by norm_num⟩, ⟨1, 2, by norm_num⟩, ⟨4, 8, by norm_num⟩]))
    (by simp [sinceClear, Spec.lastN]) (by norm_num) (by norm_num)
  refine ⟨s, h1, h2.trans ?_⟩
  congr 1
  simp [sinceClear, Spec.lastN, Spec.covariance, Spec.cosum_eq, Spec.xsOf, Spec.ysOf]
  norm_num

/-! ### Window mean and variance -/

/-- C155 for the window mean in binary64, with data 0 and 1 only. -/
def C155_Statement : Prop :=
  ∀ (N : Nat), 1 ≤ N → ∀ ops ops' : List (Op ℝ), (∀ x ∈ sinceClear ops, x = 0 ∨ x = 1) → (∀ x ∈ sinceClear ops', x = 0 ∨ x = 1) →
    Spec.lastN N (sinceClear ops) = Spec.lastN N (sinceClear ops') →
    ∃ s s' : Mean N (X binary64), Mean.run (finOps ops) = some s ∧ Mean.run (finOps ops') = some s' ∧ s.getMean = s'.getMean

/-- The filter with window contents `l` and exact results. -/
noncomputable def varianceOf (N : Nat) (F : Fmt) (l : List ℝ) : Variance N (X F) :=
  { super := { window := ⟨l.map X.fin⟩, mean := X.fin (Spec.mean l) }, sumVariance := X.fin (Spec.central 2 l) }

/-- The data are whole multiples of `2^e`, at most `B` of them. -/
structure IntegerValues (F : Fmt) (p : Nat) (emin : Int) (e : Int) (B : Nat) (xs : List ℝ) : Prop where
  xs : ∀ x ∈ xs, Grid e B x
  lin : 4 * B < 2 ^ p
  sq : 40 * (B * B) < 2 ^ p
  minL : emin ≤ e - 1
  minQ : emin ≤ (e - 1) + (e - 1)
  maxL : F.fits (2 ^ p * (2 : ℝ) ^ e)
  maxQ : F.fits (2 ^ p * (2 : ℝ) ^ (e + e))

theorem variance_push_of (hF : F.Binary p emin) (h1 : 1 ≤ N) (h2 : N ≤ 2) {e : Int} {B : Nat} {l : List ℝ} {x : ℝ}
    (h : IntegerValues F p emin e B (l ++ [x])) (hl : l.length ≤ N) :
    (varianceOf N F l).push (X.fin x) = some (varianceOf N F (Spec.slide N l x)) := by
  have one : (ofNat 1 : X F) = X.fin 1 := hF.ofNat_one
  have two : (ofNat 2 : X F) = X.fin 2 := by
    have := hF.ofNat_fin (n := 2) (by
      calc 2 = 2 ^ 1 := rfl
        _ ≤ 2 ^ p := Nat.pow_le_pow_right (by norm_num) (by have := hF.digits; omega)) (by exact_mod_cast hF.fits_two)
    simpa using this
  have fL := fits_finer hF (d := e - 1) (by omega) h.maxL
  have fQ := fits_finer hF (d := (e - 1) + (e - 1)) (by omega) h.maxQ
  have g : ∀ y ∈ l ++ [x], Grid (e - 1) (2 * B) y := fun y hy => by simpa using (h.xs y hy).refine_two 1
  have rL : ∀ {C : Nat} {y : ℝ}, Grid (e - 1) C y → C ≤ 4 * B → (X.round y : X F) = X.fin y := fun hy hC =>
    hy.round hF (lt_of_le_of_lt hC h.lin) h.minL fL
  have rQ : ∀ {C : Nat} {y : ℝ}, Grid ((e - 1) + (e - 1)) C y → C ≤ 40 * (B * B) → (X.round y : X F) = X.fin y := fun hy hC =>
    hy.round hF (lt_of_le_of_lt hC h.sq) h.minQ fQ
  have z : (X.round 0 : X F) = X.fin 0 := rL (Grid.zero (B := 0)) (by omega)
  have gx : Grid (e - 1) (2 * B) x := g x (by simp)
  match l, hl with
  | [], _ =>
    have e1 : Spec.slide N [] x = [x] := by
      unfold Spec.slide; split_ifs <;> rfl
    have hpb := pushBack_map (N := N) (X.fin : ℝ → X F) [] x
    rw [e1] at hpb ⊢
    have hf : ¬ (varianceOf N F []).super.full = true := by simp [varianceOf, Mean.full, Ring.full]; omega
    have rx : (X.round x : X F) = X.fin x := rL gx (by omega)
    simp only [Variance.push, if_neg hf]
    simp only [varianceOf, Variance.size, Mean.size, Ring.size, List.map_nil, List.length_nil, zero_add, Mean.getMean, Variance.delta,
      Spec.mean, Spec.central, List.sum_nil, Nat.cast_zero, div_zero, one] at hpb ⊢
    rw [hpb, X.sub_fin x 0, sub_zero, rx, X.div_fin_of_ne _ one_ne_zero, div_one, rx, X.add_fin, zero_add, rx, X.sub_fin x x, sub_self, z,
      X.mul_fin, mul_zero, z, X.add_fin, zero_add, z]
    simp
  | [a], _ =>
    have ga : Grid (e - 1) (2 * B) a := g a (by simp)
    have gxa := gx.sub ga
    have ra : (X.round a : X F) = X.fin a := rL ga (by omega)
    have rx : (X.round x : X F) = X.fin x := rL gx (by omega)
    have rxa : (X.round (x - a) : X F) = X.fin (x - a) := rL gxa (by omega)
    have hpb := pushBack_map (N := N) (X.fin : ℝ → X F) [a] x
    obtain rfl | rfl : N = 1 ∨ N = 2 := by omega
    · have e1 : Spec.slide 1 [a] x = [x] := by simp [Spec.slide]
      rw [e1] at hpb ⊢
      have rax : (X.round (a - x) : X F) = X.fin (a - x) := rL (ga.sub gx) (by omega)
      simp only [List.map_cons, List.map_nil] at hpb
      simp only [Variance.push, varianceOf, Mean.full, Ring.full, Ring.front, Variance.size, Mean.size, Ring.size, List.map_cons, List.map_nil,
        List.length_cons, List.length_nil, zero_add, Mean.getMean, Variance.delta, Spec.mean, Spec.central, List.sum_cons, List.sum_nil,
        Nat.cast_one, div_one, add_zero, sub_self, List.head?_cons, one, hpb, beq_self_eq_true, if_true]
      rw [X.sub_fin x a, rxa, X.div_fin_of_ne _ one_ne_zero, div_one, rxa, X.add_fin, add_sub_cancel, rx, X.sub_fin x x, sub_self, z, X.mul_fin,
        mul_zero, z, X.sub_fin a a, sub_self, z, X.sub_fin a x, rax, X.mul_fin, zero_mul, z, zero_pow (by norm_num), X.add_fin, add_zero, z,
        X.sub_fin, sub_zero, z]
    · have e1 : Spec.slide 2 [a] x = [a, x] := by simp [Spec.slide]
      rw [e1] at hpb ⊢
      have gd : Grid (e - 1) (2 * B) ((x - a) / 2) := by
        have := ((h.xs x (by simp)).sub (h.xs a (by simp))).div_two 1
        simpa using this.mono (by omega : B + B ≤ 2 * B)
      have gm : Grid (e - 1) (2 * B) ((a + x) / 2) := by
        have := ((h.xs a (by simp)).add (h.xs x (by simp))).div_two 1
        simpa using this.mono (by omega : B + B ≤ 2 * B)
      have q1 := gxa.mul (gx.sub gm)
      have em : a + (x - a) / 2 = (a + x) / 2 := by ring
      have hm : Spec.mean [a, x] = (a + x) / 2 := by simp [Spec.mean]
      have hc : Spec.central 2 [a, x] = (x - a) * (x - (a + x) / 2) := by
        rw [Spec.central, hm]; simp; ring
      have hm1 : Spec.mean [a] = a := by simp [Spec.mean]
      have hc1 : Spec.central 2 [a] = 0 := by rw [Spec.central, hm1]; simp
      have rq : (X.round ((x - a) * (x - (a + x) / 2)) : X F) = X.fin ((x - a) * (x - (a + x) / 2)) := rQ q1 (by nlinarith)
      simp only [List.map_cons, List.map_nil] at hpb
      simp only [Variance.push, varianceOf, hm, hc, hm1, hc1, Mean.full, Ring.full, Variance.size, Mean.size, Ring.size, List.map_cons,
        List.map_nil, List.length_cons, List.length_nil, zero_add, Mean.getMean, Variance.delta, hpb, Nat.reduceAdd, two]
      rw [if_neg (by decide)]
      rw [X.sub_fin x a, rxa, X.div_fin_of_ne _ two_ne_zero, rL gd (by omega), X.add_fin, em, rL gm (by omega), X.sub_fin x ((a + x) / 2),
        rL (gx.sub gm) (by omega), X.mul_fin, rq, X.add_fin, zero_add, rq]
  | [a, b], hl =>
    obtain rfl : N = 2 := by simp at hl; omega
    have ga : Grid (e - 1) (2 * B) a := g a (by simp)
    have gb : Grid (e - 1) (2 * B) b := g b (by simp)
    have hpb := pushBack_map (N := 2) (X.fin : ℝ → X F) [a, b] x
    have e1 : Spec.slide 2 [a, b] x = [b, x] := by simp [Spec.slide]
    rw [e1] at hpb ⊢
    have gd : Grid (e - 1) (2 * B) ((x - a) / 2) := by
      have := ((h.xs x (by simp)).sub (h.xs a (by simp))).div_two 1
      simpa using this.mono (by omega : B + B ≤ 2 * B)
    have gm : ∀ y z : ℝ, y ∈ [a, b] ++ [x] → z ∈ [a, b] ++ [x] → Grid (e - 1) (2 * B) ((y + z) / 2) := fun y z hy hz => by
      have := ((h.xs y hy).add (h.xs z hz)).div_two 1
      simpa using this.mono (by omega : B + B ≤ 2 * B)
    have g0 := gm a b (by simp) (by simp)
    have g1 := gm b x (by simp) (by simp)
    have q0 : Grid ((e - 1) + (e - 1)) (8 * (B * B)) ((a - b) * ((a - b) / 2)) := by
      have w1 : Grid (e - 1) (2 * (B + B)) (a - b) := by simpa using ((h.xs a (by simp)).sub (h.xs b (by simp))).refine_two 1
      have w2 : Grid (e - 1) (B + B) ((a - b) / 2) := by simpa using ((h.xs a (by simp)).sub (h.xs b (by simp))).div_two 1
      exact (w1.mul w2).mono (by nlinarith)
    have q1 := (gx.sub g0).mul (gx.sub g1)
    have q2 := (ga.sub g0).mul (ga.sub g1)
    have hm : ∀ y z : ℝ, Spec.mean [y, z] = (y + z) / 2 := fun y z => by simp [Spec.mean]
    have hc : ∀ y z : ℝ, Spec.central 2 [y, z] = (y - z) * ((y - z) / 2) := fun y z => by
      rw [Spec.central, hm]; simp; ring
    have em : (a + b) / 2 + (x - a) / 2 = (b + x) / 2 := by ring
    have ef : (a - b) * ((a - b) / 2) + (x - (a + b) / 2) * (x - (b + x) / 2) - (a - (a + b) / 2) * (a - (b + x) / 2)
        = (b - x) * ((b - x) / 2) := by ring
    have bs : 4 * B * (4 * B) = 16 * (B * B) := by ring
    have b4 : 2 * B + 2 * B = 4 * B := by ring
    rw [b4, bs] at q1 q2
    simp only [List.map_cons, List.map_nil] at hpb
    simp only [Variance.push, varianceOf, hm, hc, Mean.full, Ring.full, Ring.front, Variance.size, Mean.size, Ring.size, List.map_cons,
      List.map_nil, List.length_cons, List.length_nil, zero_add, Mean.getMean, Variance.delta, hpb, Nat.reduceAdd, two, List.head?_cons,
      beq_self_eq_true, if_true]
    rw [X.sub_fin x a, rL (gx.sub ga) (by omega), X.div_fin_of_ne _ two_ne_zero, rL gd (by omega), X.add_fin, em, rL g1 (by omega),
      X.sub_fin x, rL (gx.sub g0) (by omega), X.sub_fin x, rL (gx.sub g1) (by omega), X.mul_fin, rQ q1 (by omega), X.sub_fin a,
      rL (ga.sub g0) (by omega), X.sub_fin a, rL (ga.sub g1) (by omega), X.mul_fin, rQ q2 (by omega), X.add_fin, rQ (q0.add q1) (by omega),
      X.sub_fin, rQ ((q0.add q1).sub q2) (by omega), ef]
  | _ :: _ :: _ :: _, hl => exact absurd hl (by simp; omega)

/-- C155, windows of one or two values: mean and sum of squares are exact after any history. -/
theorem C155_small_windows_partial (hF : F.Binary p emin) (h1 : 1 ≤ N) (h2 : N ≤ 2) {e : Int} {B : Nat} (ops : List (Op ℝ))
    (h : IntegerValues F p emin e B (sinceClear ops)) :
    ∃ s : Variance N (X F), Variance.run (finOps ops) = some s
      ∧ s.super.window.items = (Spec.lastN N (sinceClear ops)).map X.fin
      ∧ s.getMean = X.fin (Spec.mean (Spec.lastN N (sinceClear ops)))
      ∧ s.sumVariance = X.fin (Spec.central 2 (Spec.lastN N (sinceClear ops))) := by
  refine ⟨varianceOf N F (Spec.lastN N (sinceClear ops)), ?_, rfl, rfl, rfl⟩
  rw [Variance.run_eq h1, sinceClear_finOps, foldl_map_option]
  generalize sinceClear ops = xs at h
  induction xs using List.reverseRecOn with
  | nil => simp [varianceOf, Variance.init, Mean.init, Ring.init, Spec.lastN, hF.ofNat_zero, Spec.mean, Spec.central]
  | append_singleton xs x ih =>
    have h' : IntegerValues F p emin e B xs := { h with xs := fun r hr => h.xs r (by simp [hr]) }
    rw [List.foldl_append, ih h', List.foldl_cons, List.foldl_nil, Spec.lastN_snoc h1]
    refine variance_push_of hF h1 h2 (l := Spec.lastN N xs) (x := x)
      { h with xs := fun r hr => h.xs r ?_ } (by rw [Spec.length_lastN]; omega)
    rcases List.mem_append.1 hr with hr | hr
    · exact List.mem_append_left _ (List.mem_of_mem_drop hr)
    · exact List.mem_append_right _ hr

example : ∃ s : Variance 2 (X binary64), Variance.run (finOps [.push 7, .push 2, .push 5]) = some s ∧ s.getMean = X.fin (7 / 2)
    ∧ s.sumVariance = X.fin (9 / 2) := by
  obtain ⟨s, h1, -, h2, h3⟩ := C155_small_windows_partial (N := 2) (e := 0) (B := 7) binary64_binary (by norm_num) le_rfl
    [.push 7, .push 2, .push 5]
    { xs := by
        intro x hx
        simp only [sinceClear, List.foldl_cons, List.foldl_nil, List.nil_append, List.cons_append, List.mem_cons, List.not_mem_nil, or_false] at hx
        rcases hx with rfl | rfl | rfl
        exacts [by exact_mod_cast Grid.int 7 (by norm_num), by exact_mod_cast Grid.int 2 (by norm_num), by exact_mod_cast Grid.int 5 (by norm_num)]
      lin := by norm_num
      sq := by norm_num
      minL := by norm_num
      minQ := by norm_num
      maxL := fits_53
      maxQ := by rw [add_zero]; exact fits_53 }
  refine ⟨s, h1, h2.trans ?_, h3.trans ?_⟩
  · congr 1; simp [sinceClear, Spec.lastN, Spec.mean]; norm_num
  · congr 1; simp [sinceClear, Spec.lastN, Spec.mean, Spec.central]; norm_num

/-! ### A window of three values -/

private theorem third : (X.round (-1 / 3) : X binary64) = X.fin (-6004799503160661 / 2 ^ 54) := by
  have h : binary64.rnd (-1 / 3) = -6004799503160661 / 2 ^ 54 := by
    show roundNearest 53 (-1074) _ = _
    rw [roundNearest_eq (x := -(2 ^ 54 / 3)) (-2) (by rw [abs_of_neg (by norm_num)]; norm_num) (by rw [abs_of_neg (by norm_num)]; norm_num)
      (by norm_num) (by norm_num), nearestEven_of_near (m := -6004799503160661) (by rw [abs_lt]; constructor <;> norm_num)]
    norm_num
  exact round64_of (-6004799503160661) (-54) h (by norm_num) (by norm_num) (by norm_num) (by norm_num)

private theorem sixth : (X.round (-1 / 2 / 3) : X binary64) = X.fin (-6004799503160661 / 2 ^ 55) := by
  have h : binary64.rnd (-1 / 2 / 3) = -6004799503160661 / 2 ^ 55 := by
    show roundNearest 53 (-1074) _ = _
    rw [roundNearest_eq (x := -(2 ^ 54 / 3)) (-3) (by rw [abs_of_neg (by norm_num)]; norm_num) (by rw [abs_of_neg (by norm_num)]; norm_num)
      (by norm_num) (by norm_num), nearestEven_of_near (m := -6004799503160661) (by rw [abs_lt]; constructor <;> norm_num)]
    norm_num
  exact round64_of (-6004799503160661) (-55) h (by norm_num) (by norm_num) (by norm_num) (by norm_num)

private theorem tie : (X.round (1 / 2 + -6004799503160661 / 2 ^ 55) : X binary64) = X.fin (6004799503160662 / 2 ^ 54) := by
  have h : binary64.rnd (1 / 2 + -6004799503160661 / 2 ^ 55) = 6004799503160662 / 2 ^ 54 := by
    show roundNearest 53 (-1074) _ = _
    rw [roundNearest_eq (x := ((6004799503160661 : Int) : ℝ) + 1 / 2) (-2) (by rw [abs_of_pos (by norm_num)]; norm_num)
      (by rw [abs_of_pos (by norm_num)]; norm_num) (by norm_num) (by norm_num), nearestEven_tie, if_neg (by decide)]
    norm_num
  exact round64_of 6004799503160662 (-54) h (by norm_num) (by norm_num) (by norm_num) (by norm_num)

/-- A window of three values after 1, 0, 0, 0: the mean of 0, 0, 0 is `2^-54`. -/
theorem C155_three : ∃ s : Mean 3 (X binary64), Mean.run (finOps [.push 1, .push 0, .push 0, .push 0]) = some s
    ∧ s.getMean = X.fin (1 / 2 ^ 54) := by
  have r : ∀ {x : ℝ} (m : Int), x = m → |m| ≤ 2 ^ 53 → (X.round x : X binary64) = X.fin x := fun m h1 h2 => round64_int m h1 h2
  have o0 : (ofNat 0 : X binary64) = X.fin 0 := binary64_binary.ofNat_zero
  have o1 : (ofNat 1 : X binary64) = X.fin 1 := binary64_binary.ofNat_one
  have o2 : (ofNat 2 : X binary64) = X.fin 2 := by simpa using ofNat64 (n := 2) (by norm_num)
  have o3 : (ofNat 3 : X binary64) = X.fin 3 := by simpa using ofNat64 (n := 3) (by norm_num)
  have z : (X.round 0 : X binary64) = X.fin 0 := r 0 (by simp) (by norm_num)
  have p1 : (X.round 1 : X binary64) = X.fin 1 := r 1 (by simp) (by norm_num)
  have m1 : (X.round (-1) : X binary64) = X.fin (-1) := r (-1) (by simp) (by norm_num)
  have mh : (X.round (-1 / 2) : X binary64) = X.fin (-1 / 2) :=
    round64 (-1) (-1) (by norm_num) (by norm_num) (by norm_num) (by norm_num)
  have h2 : (X.round (1 / 2) : X binary64) = X.fin (1 / 2) :=
    round64 1 (-1) (by norm_num) (by norm_num) (by norm_num) (by norm_num)
  have last : (X.round (1 / 2 ^ 54) : X binary64) = X.fin (1 / 2 ^ 54) :=
    round64 1 (-54) (by norm_num) (by norm_num) (by norm_num) (by norm_num)
  refine ⟨_, rfl, ?_⟩
  show (((ofNat 0 + (X.fin 1 - ofNat 0) / ofNat 1) + (X.fin 0 - (ofNat 0 + (X.fin 1 - ofNat 0) / ofNat 1)) / ofNat 2)
      + (X.fin 0 - ((ofNat 0 + (X.fin 1 - ofNat 0) / ofNat 1) + (X.fin 0 - (ofNat 0 + (X.fin 1 - ofNat 0) / ofNat 1)) / ofNat 2)) / ofNat 3)
      + (X.fin 0 - X.fin 1) / ofNat 3 = X.fin (1 / 2 ^ 54)
  have s1 : (ofNat 0 + (X.fin 1 - ofNat 0) / ofNat 1 : X binary64) = X.fin 1 := by
    rw [o0, o1, X.sub_fin, sub_zero, p1, X.div_fin_of_ne _ one_ne_zero, div_one, p1, X.add_fin, zero_add, p1]
  have s2 : (X.fin 1 + (X.fin 0 - X.fin 1) / ofNat 2 : X binary64) = X.fin (1 / 2) := by
    rw [o2, X.sub_fin, zero_sub, m1, X.div_fin_of_ne _ two_ne_zero, mh, X.add_fin, show (1 : ℝ) + -1 / 2 = 1 / 2 by norm_num, h2]
  have s3 : (X.fin (1 / 2) + (X.fin 0 - X.fin (1 / 2)) / ofNat 3 : X binary64) = X.fin (6004799503160662 / 2 ^ 54) := by
    rw [o3, X.sub_fin, show (0 : ℝ) - 1 / 2 = -1 / 2 by norm_num, mh, X.div_fin_of_ne _ three_ne_zero, sixth, X.add_fin, tie]
  rw [s1, s2, s3, o3, X.sub_fin, zero_sub, m1, X.div_fin_of_ne _ three_ne_zero, third, X.add_fin,
    show (6004799503160662 / 2 ^ 54 + -6004799503160661 / 2 ^ 54 : ℝ) = 1 / 2 ^ 54 by norm_num, last]

/-- The same window in a new filter has the mean 0. -/
theorem C155_zeros : ∃ s : Mean 3 (X binary64), Mean.run (finOps [.push 0, .push 0, .push 0]) = some s ∧ s.getMean = X.fin 0 := by
  have o0 : (ofNat 0 : X binary64) = X.fin 0 := binary64_binary.ofNat_zero
  have o : ∀ n : Nat, n ≤ 2 ^ 53 → (ofNat n : X binary64) = X.fin n := fun n h => ofNat64 h
  have z : (X.round 0 : X binary64) = X.fin 0 := round64_int 0 (by simp) (by norm_num)
  have st : ∀ n : Nat, n + 1 ≤ 2 ^ 53 → (X.fin 0 + (X.fin 0 - X.fin 0) / ofNat (n + 1) : X binary64) = X.fin 0 := fun n h => by
    have : ((n + 1 : Nat) : ℝ) ≠ 0 := by positivity
    rw [o _ h, X.sub_fin, sub_zero, z, X.div_fin_of_ne _ this, zero_div, z, X.add_fin, zero_add, z]
  refine ⟨_, rfl, ?_⟩
  show (((ofNat 0 + (X.fin 0 - ofNat 0) / ofNat (0 + 1)) + (X.fin 0 - (ofNat 0 + (X.fin 0 - ofNat 0) / ofNat (0 + 1))) / ofNat (1 + 1))
      + (X.fin 0 - ((ofNat 0 + (X.fin 0 - ofNat 0) / ofNat (0 + 1)) + (X.fin 0 - (ofNat 0 + (X.fin 0 - ofNat 0) / ofNat (0 + 1))) / ofNat (1 + 1)))
        / ofNat (2 + 1)) = X.fin 0
  rw [o0, st 0 (by norm_num), st 1 (by norm_num), st 2 (by norm_num)]

theorem C155_violated : ¬ C155_Statement := by
  intro h
  obtain ⟨s, s', h1, h2, h3⟩ := h 3 (by norm_num) [.push 1, .push 0, .push 0, .push 0] [.push 0, .push 0, .push 0]
    (by intro x hx; simp [sinceClear] at hx; tauto) (by intro x hx; simp [sinceClear] at hx; tauto) (by simp [sinceClear, Spec.lastN])
  obtain ⟨t, h4, h5⟩ := C155_three
  obtain ⟨t', h6, h7⟩ := C155_zeros
  rw [h1, Option.some.injEq] at h4
  rw [h2, Option.some.injEq] at h6
  rw [h4, h6, h5, h7, X.fin_inj] at h3
  norm_num at h3

/-! ### Impulse filters -/

theorem innerProduct_grid (hF : F.Binary p emin) {e e' : Int} {A B : Nat} (hmin : emin ≤ e + e') (hf : F.fits (2 ^ p * (2 : ℝ) ^ (e + e')))
    {l cs : List ℝ} (hl : l.length ≤ cs.length) (hx : ∀ x ∈ l, Grid e A x) (hc : ∀ c ∈ cs, Grid e' B c) :
    ∀ {D : Nat} {a : ℝ}, Grid (e + e') D a → D + l.length * (A * B) < 2 ^ p →
      Impulse.innerProduct (X.fin a : X F) (l.map X.fin) (cs.map X.fin) = some (X.fin (a + (List.zipWith (· * ·) l cs).sum)) := by
  induction l generalizing cs with
  | nil => intro D a _ _; simp [Impulse.innerProduct]
  | cons x l ih =>
    cases cs with
    | nil => simp at hl
    | cons c cs =>
      intro D a ha hD
      rw [List.length_cons, Nat.add_mul, one_mul] at hD
      have g1 := (hx x List.mem_cons_self).mul (hc c List.mem_cons_self)
      have g2 := ha.add g1
      simp only [List.map_cons, Impulse.innerProduct]
      rw [X.mul_fin, g1.round hF (by omega) hmin hf, X.add_fin, g2.round hF (by omega) hmin hf,
        ih (by simpa using hl) (fun y hy => hx y (List.mem_cons_of_mem _ hy)) (fun y hy => hc y (List.mem_cons_of_mem _ hy)) g2 (by omega)]
      simp [add_assoc]

theorem inner_newest_grid (hF : F.Binary p emin) {e e' : Int} {A B : Nat} (hmin : emin ≤ e + e') (hf : F.fits (2 ^ p * (2 : ℝ) ^ (e + e')))
    (cs xs : List ℝ) (hx : ∀ x ∈ xs, Grid e A x) (hc : ∀ c ∈ cs, Grid e' B c) (hp : cs.length * (A * B) < 2 ^ p) :
    Impulse.innerProduct (ofNat 0 : X F) ((xs.reverse.take cs.length).map X.fin) (cs.map X.fin) = some (X.fin (Spec.fir cs xs)) := by
  rw [hF.ofNat_zero, innerProduct_grid (D := 0) hF hmin hf (by simp) (fun x h => hx x (List.mem_reverse.1 (List.mem_of_mem_take h))) hc
    Grid.zero (lt_of_le_of_lt (by rw [zero_add]; exact Nat.mul_le_mul_right _ (by simp)) hp), Impulse.zipWith_take, Spec.fir_eq, zero_add]

/-- C155, FIR filter: the value is exactly the convolution. -/
theorem C155_fir_partial (hF : F.Binary p emin) {e e' : Int} {A B : Nat} (cs : List ℝ) (hcs : cs ≠ []) (ops : List (Op ℝ)) (x : ℝ)
    (hx : ∀ y ∈ sinceClear (ops ++ [.push x]), Grid e A y) (hc : ∀ c ∈ cs, Grid e' B c) (hp : cs.length * (A * B) < 2 ^ p)
    (hmin : emin ≤ e + e') (hf : F.fits (2 ^ p * (2 : ℝ) ^ (e + e'))) :
    ∃ s : Impulse.Finite (X F), Impulse.Finite.run (cs.map X.fin) (finOps (ops ++ [.push x])) = some s
      ∧ s.value = X.fin (Spec.fir cs (sinceClear (ops ++ [.push x]))) := by
  obtain ⟨s, hs, h⟩ := fir_push (F := F) cs hcs ops x
  rw [inner_newest_grid hF hmin hf cs _ hx hc hp, Option.some.injEq] at h
  exact ⟨s, hs, h.symm⟩

/-- C155, IIR filter with integer coefficients and scale 1: as long as the exact outputs are bounded, the computed ones
are equal to them. -/
theorem C155_iir_partial (hF : F.Binary p emin) {e : Int} {A B R S : Nat} {as bs : List ℝ} (ha : as ≠ []) (hb : bs ≠ [])
    (has : ∀ a ∈ as, Grid 0 R a) (hbs : ∀ b ∈ bs, Grid 0 S b) (ops : List (Op ℝ)) (ys : List ℝ)
    (hx : ∀ x ∈ sinceClear ops, Grid e A x) (hys : Spec.IsIIR as bs 1 (sinceClear ops) ys) (hy : ∀ y ∈ ys, |y| ≤ B * (2 : ℝ) ^ e)
    (hp : as.length * (A * R) + bs.length * (B * S) < 2 ^ p) (hB : B < 2 ^ p) (hmin : emin ≤ e) (hf : F.fits (2 ^ p * (2 : ℝ) ^ e)) :
    ∃ s : Impulse.Infinite (X F), Impulse.Infinite.run (as.map X.fin) (bs.map X.fin) (X.fin 1) (finOps ops) = some s
      ∧ s.value = X.fin (ys.getLastD 0) := by
  have hP : 1 ≤ as.length := List.length_pos_iff.2 ha
  have hQ : 1 ≤ bs.length := List.length_pos_iff.2 hb
  have hf0 : F.fits (2 ^ p * (2 : ℝ) ^ (e + 0)) := by rwa [add_zero]
  have hm0 : emin ≤ e + 0 := by omega
  have key : ∀ (xs ys : List ℝ), (∀ x ∈ xs, Grid e A x) → Spec.IsIIR as bs 1 xs ys → (∀ y ∈ ys, |y| ≤ B * (2 : ℝ) ^ e) →
      (∀ y ∈ ys, Grid e B y) ∧ (xs.map X.fin).foldl (fun s x => s.bind (Impulse.Infinite.push · x))
          (some (Impulse.Infinite.init (as.map X.fin) (bs.map X.fin) (X.fin 1)))
        = some { inputWindow := ⟨as.length, (xs.reverse.take as.length).map X.fin⟩
                 inputCoefficients := as.map X.fin
                 outputWindow := ⟨bs.length, (ys.reverse.take bs.length).map X.fin⟩
                 outputScale := (X.fin 1 : X F)
                 outputCoefficients := bs.map X.fin } := by
    intro xs
    induction xs using List.reverseRecOn with
    | nil =>
      intro ys _ h _
      obtain rfl := List.length_eq_zero_iff.1 h.1
      exact ⟨by simp, by simp [Impulse.Infinite.init, Impulse.Deque.init]⟩
    | append_singleton xs x ih =>
      intro ys hx h hyB
      obtain ⟨zs, z, rfl⟩ : ∃ zs z, ys = zs ++ [z] := by
        rcases List.eq_nil_or_concat ys with h0 | ⟨zs, z, h0⟩
        · have := h.1; rw [h0] at this; simp at this
        · exact ⟨zs, z, by simpa using h0⟩
      have hlen : zs.length = xs.length := by have := h.1; simpa using this
      have hz : Spec.IsIIR as bs 1 xs zs := by
        refine ⟨hlen, fun k hk => ?_⟩
        have := h.2 k (by simp; omega)
        rwa [List.getD_append _ _ _ _ (by omega), List.take_append_of_le_length (by omega), List.take_append_of_le_length (by omega)] at this
      obtain ⟨hg, hst⟩ := ih zs (fun y hy => hx y (by simp [hy])) hz fun y hy => hyB y (by simp [hy])
      have hzv : z = Spec.fir as (xs ++ [x]) - Spec.fir bs zs := by
        have := h.2 xs.length (by simp)
        rw [List.take_of_length_le (by simp), ← hlen, List.take_left' rfl, List.getD_append_right _ _ _ _ le_rfl] at this
        simpa using this
      have i1 := inner_newest_grid hF hm0 hf0 as (xs ++ [x]) hx has (by omega)
      have i2 := inner_newest_grid hF hm0 hf0 bs zs hg hbs (by omega)
      have fg : ∀ (cs l : List ℝ) {C D : Nat}, (∀ y ∈ l, Grid e C y) → (∀ c ∈ cs, Grid 0 D c) →
          Grid e (cs.length * (C * D)) (Spec.fir cs l) := by
        intro cs l C D h1 h2
        rw [Spec.fir_eq]
        have h1' : ∀ y ∈ l.reverse, Grid e C y := fun y hy => h1 y (List.mem_reverse.1 hy)
        refine (Grid.sum (B := C * D) (e := e) ?_).mono (Nat.mul_le_mul_right _ (by rw [List.length_zipWith]; omega))
        intro y hy
        rw [List.mem_iff_getElem] at hy
        obtain ⟨i, hi, rfl⟩ := hy
        rw [List.getElem_zipWith]
        have := (h1' _ (List.getElem_mem (by rw [List.length_zipWith] at hi; omega : i < l.reverse.length))).mul
          (h2 _ (List.getElem_mem (by rw [List.length_zipWith] at hi; omega : i < cs.length)))
        rwa [add_zero] at this
      have gz : Grid e (as.length * (A * R) + bs.length * (B * S)) z := by
        rw [hzv]; exact (fg as _ hx has).sub (fg bs _ hg hbs)
      have gzB : Grid e B z := by
        obtain ⟨m, hm1, hm2⟩ := gz
        refine ⟨m, hm1, ?_⟩
        have h0 := hyB z (by simp)
        have hpos : (0 : ℝ) < 2 ^ e := by positivity
        rw [hm1, abs_mul, abs_of_pos hpos, mul_le_mul_iff_left₀ hpos, ← Int.cast_abs] at h0
        exact_mod_cast h0
      have rz : (X.round z : X F) = X.fin z := gzB.round hF hB hmin hf
      refine ⟨fun y hy => ?_, ?_⟩
      · rcases List.mem_append.1 hy with hy | hy
        · exact hg y hy
        · rw [List.mem_singleton.1 hy]; exact gzB
      · have hd := Impulse.pushFront_take (P := as.length) hP (xs.reverse.map (X.fin : ℝ → X F)) (X.fin x)
        have hd2 := fun z => Impulse.pushFront_take (P := bs.length) hQ (zs.reverse.map (X.fin : ℝ → X F)) z
        simp only [← List.map_cons, ← List.map_take] at hd hd2
        rw [List.map_append, List.foldl_append, hst]
        show Impulse.Infinite.push _ (X.fin x) = _
        rw [List.reverse_append, List.reverse_singleton, List.singleton_append] at i1
        simp only [Impulse.Infinite.push, hd, i1, i2, Option.bind_eq_bind, Option.bind_some, hd2]
        rw [X.sub_fin, ← hzv, rz, X.div_fin_of_ne _ one_ne_zero, div_one, rz]
        simp [List.map_take]
  obtain ⟨-, h⟩ := key (sinceClear ops) ys hx hys hy
  rw [← sinceClear_finOps, ← (Impulse.Infinite.run_eq (by simpa using ha) (by simpa using hb) _ _).1] at h
  refine ⟨_, h, ?_⟩
  obtain ⟨q, hq⟩ : ∃ q, bs.length = q + 1 := ⟨bs.length - 1, by omega⟩
  rcases List.eq_nil_or_concat ys with rfl | ⟨l, y, rfl⟩
  · simp [Impulse.Infinite.value, hF.ofNat_zero]
  · simp [Impulse.Infinite.value, hq]

/-! ### The moving sum -/

theorem zip_delay (l : List ℝ) (k : Nat) : (List.zipWith (· * ·) l (List.replicate k 0 ++ [-1])).sum = -l.getD k 0 := by
  induction k generalizing l with
  | zero => cases l <;> simp
  | succ k ih =>
    cases l with
    | nil => simp
    | cons x l => rw [List.replicate_succ, List.cons_append, List.zipWith_cons_cons, List.sum_cons, ih, mul_zero, zero_add, List.getD_cons_succ]

/-- The exact solution of `y_n = x_n - x_{n-N} + y_{n-1}`. -/
theorem movingSum_isIIR (hN : 1 ≤ N) (xs : List ℝ) :
    ∃ ys, Spec.IsIIR (1 :: (List.replicate (N - 1) 0 ++ [-1])) [-1] 1 xs ys ∧ ys.getLastD 0 = (Spec.lastN N xs).sum
      ∧ ∀ y ∈ ys, ∃ l : List ℝ, (∀ x ∈ l, x ∈ xs) ∧ l.length ≤ N ∧ y = l.sum := by
  induction xs using List.reverseRecOn with
  | nil => exact ⟨[], Spec.isIIR_nil _ _ _, by simp [Spec.lastN], by simp⟩
  | append_singleton xs x ih =>
    obtain ⟨ys, h1, h2, h3⟩ := ih
    have hv : (Spec.fir (1 :: (List.replicate (N - 1) 0 ++ [-1])) (xs ++ [x]) - Spec.fir [-1] ys) / 1 = (Spec.lastN N (xs ++ [x])).sum := by
      have e1 : Spec.fir (1 :: (List.replicate (N - 1) 0 ++ [-1])) (xs ++ [x]) = x - xs.reverse.getD (N - 1) 0 := by
        rw [Spec.fir_eq, List.reverse_append, List.reverse_singleton, List.singleton_append, List.zipWith_cons_cons, List.sum_cons, zip_delay]
        ring
      have e2 : Spec.fir [-1] ys = -ys.getLastD 0 := by
        rw [Spec.fir_eq]
        rcases List.eq_nil_or_concat ys with rfl | ⟨l, y, rfl⟩ <;> simp
      rw [e1, e2, h2, div_one, Spec.lastN_snoc hN]
      rcases Nat.lt_or_ge xs.length N with h | h
      · rw [List.getD_eq_default _ _ (by simp; omega), Spec.lastN_of_le h.le]
        simp only [Spec.slide, if_neg (by omega : ¬ xs.length = N)]
        simp; ring
      · have hl : (Spec.lastN N xs).length = N := by rw [Spec.length_lastN]; omega
        simp only [Spec.slide, if_pos hl]
        obtain ⟨f, t, hft⟩ : ∃ f t, Spec.lastN N xs = f :: t := by
          cases hc : Spec.lastN N xs with
          | nil => rw [hc] at hl; simp at hl; omega
          | cons f t => exact ⟨f, t, rfl⟩
        have hf : xs.reverse.getD (N - 1) 0 = f := by
          rw [List.getD_eq_getElem _ _ (by simp; omega), List.getElem_reverse]
          have : (Spec.lastN N xs)[0]'(by omega) = f := by simp [hft]
          rw [← this]
          simp only [Spec.lastN, List.getElem_drop]
          congr 1
          omega
        rw [hf, hft]
        simp; ring
    refine ⟨ys ++ [(Spec.lastN N (xs ++ [x])).sum], ?_, by simp, ?_⟩
    · rw [← hv]; exact Spec.isIIR_snoc one_ne_zero h1 x
    · intro y hy
      rcases List.mem_append.1 hy with hy | hy
      · obtain ⟨l, h4, h5, h6⟩ := h3 y hy
        exact ⟨l, fun x hx => by simp [h4 x hx], h5, h6⟩
      · exact ⟨Spec.lastN N (xs ++ [x]), fun y hy => List.mem_of_mem_drop hy, by rw [Spec.length_lastN]; omega, List.mem_singleton.1 hy⟩

/-- C155, the moving sum as an IIR filter: exact after any number of integers, although the filter is not stable. -/
theorem C155_moving_sum (hF : F.Binary p emin) (hN : 1 ≤ N) {e : Int} {A : Nat} (ops : List (Op ℝ))
    (hx : ∀ x ∈ sinceClear ops, Grid e A x) (hp : (2 * N + 1) * A < 2 ^ p) (hmin : emin ≤ e) (hf : F.fits (2 ^ p * (2 : ℝ) ^ e)) :
    ∃ s : Impulse.Infinite (X F),
      Impulse.Infinite.run ((1 :: (List.replicate (N - 1) 0 ++ [-1])).map X.fin) [X.fin (-1)] (X.fin 1) (finOps ops) = some s
      ∧ s.value = X.fin (Spec.lastN N (sinceClear ops)).sum := by
  obtain ⟨ys, h1, h2, h3⟩ := movingSum_isIIR hN (sinceClear ops)
  obtain ⟨s, h4, h5⟩ := C155_iir_partial (R := 1) (S := 1) (A := A) (B := N * A) hF (by simp) (by simp) (bs := [-1])
    (fun a ha => by
      simp only [List.mem_cons, List.mem_append, List.mem_replicate, List.not_mem_nil, or_false] at ha
      rcases ha with rfl | ⟨-, rfl⟩ | rfl
      · simpa using Grid.int (B := 1) 1 (by norm_num)
      · exact Grid.zero
      · simpa using Grid.int (B := 1) (-1) (by norm_num))
    (fun b hb => by
      rw [List.mem_singleton.1 hb]
      simpa using Grid.int (B := 1) (-1) (by norm_num)) ops ys hx h1
    (fun y hy => by
      obtain ⟨l, h6, h7, rfl⟩ := h3 y hy
      exact ((Grid.sum fun x hl => hx x (h6 x hl)).mono (Nat.mul_le_mul_right _ h7)).abs_le)
    (by
      simp only [List.length_cons, List.length_append, List.length_replicate, List.length_nil]
      rw [show N - 1 + (0 + 1) + 1 = N + 1 by omega]
      nlinarith) (by nlinarith) hmin hf
  exact ⟨s, h4, by rw [h5, h2]⟩

/-- The sum of the last three of any number of 16 bit samples in binary64. -/
example (ns : List Int) (h : ∀ n ∈ ns, |n| ≤ 32768) :
    ∃ s : Impulse.Infinite (X binary64),
      Impulse.Infinite.run ([1, 0, 0, -1].map X.fin) [X.fin (-1)] (X.fin 1) (finOps (ns.map fun n : Int => .push (n : ℝ))) = some s
      ∧ s.value = X.fin (Spec.lastN 3 (ns.map Int.cast)).sum := by
  have e : sinceClear (ns.map fun n : Int => Op.push (n : ℝ)) = ns.map Int.cast := by
    have := sinceClear_pushes (ns.map (Int.cast : Int → ℝ))
    rw [List.map_map] at this
    exact this
  have := C155_moving_sum (N := 3) (A := 32768) binary64_binary (by norm_num) (ns.map fun n : Int => Op.push (n : ℝ)) (e := 0) (by
    rw [e]
    intro x hx
    obtain ⟨n, hn, rfl⟩ := List.mem_map.1 hx
    exact Grid.int n (by exact_mod_cast h n hn)) (by norm_num) (by norm_num) fits_53
  rwa [e] at this

example : ∃ s : Impulse.Finite (X binary64), Impulse.Finite.run ([1, -2].map X.fin) (finOps ([.push 3] ++ [.push 5])) = some s
    ∧ s.value = X.fin (-1) := by
  obtain ⟨s, h1, h2⟩ := C155_fir_partial (e := 0) (e' := 0) (A := 5) (B := 2) binary64_binary [1, -2] (by simp) [.push 3] 5
    (by
      intro x hx
      simp only [sinceClear, List.foldl_cons, List.foldl_nil, List.nil_append, List.cons_append, List.mem_cons,
        List.not_mem_nil, or_false] at hx
      rcases hx with rfl | rfl
      exacts [by exact_mod_cast Grid.int 3 (by norm_num), by exact_mod_cast Grid.int 5 (by norm_num)])
    (by
      intro x hx
      simp only [List.mem_cons, List.not_mem_nil, or_false] at hx
      rcases hx with rfl | rfl
      exacts [by exact_mod_cast Grid.int 1 (by norm_num), by exact_mod_cast Grid.int (-2) (by norm_num)])
    (by norm_num) (by norm_num) (by rw [add_zero]; exact fits_53)
  refine ⟨s, h1, h2.trans ?_⟩
  congr 1
  simp [sinceClear, Spec.fir_eq]
  norm_num

end Verif.Props
