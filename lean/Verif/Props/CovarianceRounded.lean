import Verif.Props.Rounded
import Verif.Proofs.Window
import Verif.Proofs.Double
/-
C66, C67: covariance with rounding.
-/
namespace Verif.Props
open Scalar

variable {w : Nat} {F : Fmt} {p : Nat} {emin : Int}

/-- The x-coordinates of a list of pairs are the same, or the y-coordinates are. -/
def ConstantCoordinate (ps : List (ℝ × ℝ)) : Prop :=
  (∃ c, ∀ q ∈ ps, q.1 = c) ∨ (∃ c, ∀ q ∈ ps, q.2 = c)

/-! ### C66 -/

theorem within_const {m c : ℝ} {xs : List ℝ} (h : Cumulative.Within m xs) (hc : ∀ x ∈ xs, x = c) : m = c := by
  obtain ⟨⟨a, ha, h1⟩, ⟨b, hb, h2⟩⟩ := h
  rw [hc a ha] at h1
  rw [hc b hb] at h2
  exact le_antisymm h2 h1

theorem comoment_const (hF : F.Binary p emin) (ps : List (ℝ × ℝ)) (hx : F.Data p emin (Spec.xsOf ps))
    (hy : F.Data p emin (Spec.ysOf ps)) (hw : ps.length < 2 ^ w) (hc : ConstantCoordinate ps) :
    ((ps.map fun q => (X.fin q.1, X.fin q.2)).foldl Cumulative.Comoment.push (Cumulative.Comoment.init : Cumulative.Comoment w (X F))).center
      = X.fin 0 := by
  induction ps using List.reverseRecOn with
  | nil => exact hF.ofNat_zero
  | append_singleton ps q ih =>
    have ex : Spec.xsOf (ps ++ [q]) = Spec.xsOf ps ++ [q.1] := by simp [Spec.xsOf]
    have ey : Spec.ysOf (ps ++ [q]) = Spec.ysOf ps ++ [q.2] := by simp [Spec.ysOf]
    rw [ex] at hx
    rw [ey] at hy
    rw [List.length_append, List.length_singleton] at hw
    have hc' : ConstantCoordinate ps := by
      rcases hc with ⟨c, h⟩ | ⟨c, h⟩
      · exact Or.inl ⟨c, fun r hr => h r (List.mem_append_left _ hr)⟩
      · exact Or.inr ⟨c, fun r hr => h r (List.mem_append_left _ hr)⟩
    have ih := ih hx.init hy.init (by omega) hc'
    have hcen := Cumulative.Comoment.fold_centers (w := w) (ps.map fun q => ((X.fin q.1, X.fin q.2) : X F × X F))
    have m1 : ((ps.map fun q => ((X.fin q.1, X.fin q.2) : X F × X F)).map Prod.fst) = (Spec.xsOf ps).map X.fin := by
      simp [Spec.xsOf, Function.comp_def]
    have m2 : ((ps.map fun q => ((X.fin q.1, X.fin q.2) : X F × X F)).map Prod.snd) = (Spec.ysOf ps).map X.fin := by
      simp [Spec.ysOf, Function.comp_def]
    rw [m1, m2] at hcen
    have lx : (Spec.xsOf ps).length = ps.length := by simp [Spec.xsOf]
    have ly : (Spec.ysOf ps).length = ps.length := by simp [Spec.ysOf]
    obtain ⟨mx, hmx⟩ := Cumulative.Mean.rounded (w := w) hF _ hx.init (by omega)
    obtain ⟨my, hmy⟩ := Cumulative.Mean.rounded (w := w) hF _ hy.init (by omega)
    rw [← hcen.1] at hmx
    rw [← hcen.2] at hmy
    rw [List.map_append, List.map_singleton, List.foldl_append]
    set st := (ps.map fun q => ((X.fin q.1, X.fin q.2) : X F × X F)).foldl Cumulative.Comoment.push
      (Cumulative.Comoment.init : Cumulative.Comoment w (X F))
    obtain ⟨mx', hmx', -, hdx, -, -, h0⟩ := hmx.push hF hx (by omega)
    obtain ⟨my', hmy', hdy, -⟩ := hmy.push hF hy (by omega)
    show st.center + (X.fin q.1 - (st.xCenter.push (X.fin q.1)).mean) * (X.fin q.2 - st.yCenter.mean) = X.fin 0
    rw [hmx'.mean, hmy.mean, hdx, hdy, ih]
    have z : F.rnd (q.1 - mx') = 0 ∨ F.rnd (q.2 - my) = 0 := by
      rcases hc with ⟨c, h⟩ | ⟨c, h⟩
      · refine Or.inl ?_
        have hq : q.1 = c := h q (by simp)
        have hin : ∀ x ∈ Spec.xsOf ps ++ [q.1], x = c := by
          rw [← ex]
          intro x hx
          obtain ⟨r, hr, rfl⟩ := List.mem_map.1 hx
          exact h r hr
        rw [within_const (hmx'.within (by simp)) hin, hq, sub_self, hF.rnd_zero]
      · rcases eq_or_ne ps [] with hp | hp
        · refine Or.inl ?_
          rw [h0 (by rw [hp]; rfl), sub_self, hF.rnd_zero]
        · refine Or.inr ?_
          have hq : q.2 = c := h q (by simp)
          have hin : ∀ x ∈ Spec.ysOf ps, x = c := by
            intro x hx
            obtain ⟨r, hr, rfl⟩ := List.mem_map.1 hx
            exact h r (List.mem_append_left _ hr)
          rw [within_const (hmy.within (by simpa [Spec.ysOf] using hp)) hin, hq, sub_self, hF.rnd_zero]
    rcases z with z | z
    · rw [z, hF.zero_mul, hF.add_zero (isRep_zero _ _) hF.fits_zero]
    · rw [z, hF.mul_zero, hF.add_zero (isRep_zero _ _) hF.fits_zero]

/-- C66, cumulative filter: if one coordinate is constant, the covariance is exactly 0.  The window filter
violates C66. -/
theorem C66_constant_partial (hF : F.Binary p emin) (ops : List (Op (ℝ × ℝ))) (hx : F.Data p emin (Spec.xsOf (sinceClear ops)))
    (hy : F.Data p emin (Spec.ysOf (sinceClear ops))) (hw : (sinceClear ops).length < 2 ^ w)
    (hc : ConstantCoordinate (sinceClear ops)) :
    (Cumulative.Comoment.run (finOps2 ops) : Cumulative.Comoment w (X F)).variance = X.fin 0
    ∧ (Cumulative.Comoment.run (finOps2 ops) : Cumulative.Comoment w (X F)).unbiasedVariance = X.fin 0 := by
  rw [Cumulative.Comoment.run_eq, sinceClear_finOps2]
  have h1 := comoment_const (w := w) hF _ hx hy hw hc
  unfold Cumulative.Comoment.variance Cumulative.Comoment.unbiasedVariance
  rw [h1, hF.ofNat_zero]
  generalize ((sinceClear ops).map fun q => ((X.fin q.1, X.fin q.2) : X F × X F)).foldl Cumulative.Comoment.push
      (Cumulative.Comoment.init : Cumulative.Comoment w (X F)) = st
  constructor
  · split_ifs with h
    · refine hF.zero_div ?_
      rw [gt_iff_lt, BitVec.lt_def] at h
      simp at h; omega
    · rfl
  · split_ifs with h
    · refine hF.zero_div ?_
      rw [gt_iff_lt, BitVec.lt_def] at h
      by_contra hc
      have h3 : (st.size - 1).toNat = 0 := by omega
      have h4 : st.size - 1 = 0 := BitVec.eq_of_toNat_eq (by rw [h3]; simp)
      have h5 : st.size = 1 := by
        have := congrArg (· + 1) h4
        simpa using this
      rw [h5] at h
      exact absurd h (lt_irrefl _)
    · rfl

/-- `double`: x = 5, 5, 5 and y = 1, 2, 6. -/
example : (Cumulative.Comoment.run (finOps2 [.push (5, 1), .push (5, 2), .push (5, 6)]) : Cumulative.Comoment 64 (X binary64)).variance
    = X.fin 0 := by
  refine (C66_constant_partial binary64_binary _ ?_ ?_ (by simp [sinceClear]) (Or.inl ⟨5, ?_⟩)).1
  · have := binary64_data [5, 5, 5] (by simp)
    simpa [sinceClear, Spec.xsOf] using this
  · have := binary64_data [1, 2, 6] (by simp)
    simpa [sinceClear, Spec.ysOf] using this
  · simp [sinceClear]

/-- C66 for the window filter. -/
def C66_WindowStatement : Prop :=
  ∀ (N : Nat), 1 ≤ N → ∀ ops : List (Op (ℝ × ℝ)), binary64.Data 53 (-1074) (Spec.xsOf (sinceClear ops)) →
    binary64.Data 53 (-1074) (Spec.ysOf (sinceClear ops)) → ConstantCoordinate (Spec.lastN N (sinceClear ops)) →
    ∃ s : Window.Comoment N (X binary64), Window.Comoment.run (finOps2 ops) = some s ∧ s.variance = X.fin 0

/-- Two pairs in a window of 2. -/
theorem window_two {x1 y1 x2 y2 : X F} (N : Nat) (hN : 2 ≤ N) :
    (Window.Comoment.run [.push (x1, y1), .push (x2, y2)] : Option (Window.Comoment N (X F)))
      = some { window := ⟨[(x1, y1), (x2, y2)]⟩
               sumX := ofNat 0 + x1 + x2, sumY := ofNat 0 + y1 + y2, sumXY := ofNat 0 + x1 * y1 + x2 * y2 } := by
  have f0 : (⟨[]⟩ : Window.Ring N (X F × X F)).full = false := by
    simp only [Window.Ring.full, List.length_nil, beq_eq_false_iff_ne]; omega
  have f1 : (⟨[(x1, y1)]⟩ : Window.Ring N (X F × X F)).full = false := by
    simp only [Window.Ring.full, List.length_cons, List.length_nil, beq_eq_false_iff_ne]; omega
  have s1 : (Window.Comoment.init : Window.Comoment N (X F)).push (x1, y1)
      = some { window := ⟨[(x1, y1)]⟩, sumX := ofNat 0 + x1, sumY := ofNat 0 + y1, sumXY := ofNat 0 + x1 * y1 } := by
    simp [Window.Comoment.push, Window.Comoment.init, Window.Ring.init, Window.Ring.pushBack, f0]
  show ((Window.Comoment.init : Window.Comoment N (X F)).push (x1, y1)).bind (Window.Comoment.push · (x2, y2)) = _
  rw [s1]
  simp [Window.Comoment.push, Window.Ring.pushBack, f1]

theorem double_data {xs : List ℝ} (h : ∀ x ∈ xs, ∃ n : Int, x = n ∧ |n| ≤ 2 ^ 52) : binary64.Data 53 (-1074) xs := by
  have : ∃ ns : List Int, xs = ns.map Int.cast ∧ ∀ n ∈ ns, |n| ≤ 2 ^ 52 := by
    induction xs with
    | nil => exact ⟨[], rfl, by simp⟩
    | cons x xs ih =>
      obtain ⟨n, h1, h2⟩ := h x (by simp)
      obtain ⟨ns, h3, h4⟩ := ih (fun y hy => h y (List.mem_cons_of_mem _ hy))
      refine ⟨n :: ns, by rw [h1, h3]; rfl, ?_⟩
      intro k hk
      rcases List.mem_cons.1 hk with rfl | hk
      · exact h2
      · exact h4 k hk
  obtain ⟨ns, rfl, h2⟩ := this
  exact binary64_data ns h2

/-- With x = 2^27+1 (twice) and y = 2^27+1, 2 the window covariance is -2. -/
theorem C66_window_value :
    ∃ s : Window.Comoment 2 (X binary64),
      Window.Comoment.run (finOps2 [.push (2 ^ 27 + 1, 2 ^ 27 + 1), .push (2 ^ 27 + 1, 2)]) = some s ∧ s.variance = X.fin (-2) := by
  refine ⟨_, window_two 2 le_rfl, ?_⟩
  have sx : (ofNat 0 + X.fin (2 ^ 27 + 1) + X.fin (2 ^ 27 + 1) : X binary64) = X.fin (2 ^ 28 + 2) := by
    rw [ofNat64 (by norm_num), X.add_fin, round64_int (2 ^ 27 + 1) (by norm_num) (by norm_num), X.add_fin,
      round64_int (2 ^ 28 + 2) (by norm_num) (by norm_num)]
    norm_num
  have sy : (ofNat 0 + X.fin (2 ^ 27 + 1) + X.fin 2 : X binary64) = X.fin (2 ^ 27 + 3) := by
    rw [ofNat64 (by norm_num), X.add_fin, round64_int (2 ^ 27 + 1) (by norm_num) (by norm_num), X.add_fin,
      round64_int (2 ^ 27 + 3) (by norm_num) (by norm_num)]
    norm_num
  have sq : (X.fin (2 ^ 27 + 1) * X.fin (2 ^ 27 + 1) : X binary64) = X.fin (2 ^ 54 + 2 ^ 28) := by
    rw [X.mul_fin]
    refine round64_of (2 ^ 52 + 2 ^ 26) 2 ?_ (by norm_num) (by norm_num) (by norm_num) (by norm_num)
    rw [rnd64_near (2 ^ 52 + 2 ^ 26) 2 (by norm_num) (by rw [abs_of_pos (by norm_num)]; norm_num)
      (by rw [abs_of_pos (by norm_num)]; norm_num) (by rw [abs_lt]; constructor <;> norm_num)]
    norm_num
  have sxy : (ofNat 0 + X.fin (2 ^ 27 + 1) * X.fin (2 ^ 27 + 1) + X.fin (2 ^ 27 + 1) * X.fin 2 : X binary64)
      = X.fin (2 ^ 54 + 2 ^ 29) := by
    rw [sq, ofNat64 (by norm_num), X.add_fin,
      round64 (2 ^ 52 + 2 ^ 26) 2 (by norm_num) (by norm_num) (by norm_num) (by norm_num), X.mul_fin,
      round64_int (2 ^ 28 + 2) (by norm_num) (by norm_num), X.add_fin]
    refine round64_of (2 ^ 52 + 2 ^ 27) 2 ?_ (by norm_num) (by norm_num) (by norm_num) (by norm_num)
    rw [rnd64_tie (2 ^ 52 + 2 ^ 27) 2 (by norm_num) (by rw [abs_of_pos (by norm_num)]; norm_num)
      (by rw [abs_of_pos (by norm_num)]; norm_num) (by norm_num), if_pos (by decide)]
    norm_num
  have spr : (X.fin (2 ^ 28 + 2) * X.fin (2 ^ 27 + 3) : X binary64) = X.fin (2 ^ 55 + 2 ^ 30 + 8) := by
    rw [X.mul_fin]
    refine round64_of (2 ^ 52 + 2 ^ 27 + 1) 3 ?_ (by norm_num) (by norm_num) (by norm_num) (by norm_num)
    rw [rnd64_near (2 ^ 52 + 2 ^ 27 + 1) 3 (by norm_num) (by rw [abs_of_pos (by norm_num)]; norm_num)
      (by rw [abs_of_pos (by norm_num)]; norm_num) (by rw [abs_lt]; constructor <;> norm_num)]
    norm_num
  rw [sx, sy, sxy]
  show (X.fin (2 ^ 54 + 2 ^ 29) - X.fin (2 ^ 28 + 2) * X.fin (2 ^ 27 + 3) / ofNat 2) / ofNat 2 = X.fin (-2)
  rw [spr, ofNat64 (by norm_num), X.div_fin_of_ne _ (by norm_num),
    round64 (2 ^ 52 + 2 ^ 27 + 1) 2 (by norm_num) (by norm_num) (by norm_num) (by norm_num), X.sub_fin,
    round64_int (-4) (by norm_num) (by norm_num), X.div_fin_of_ne _ (by norm_num), round64_int (-2) (by norm_num) (by norm_num)]
  norm_num

/-- C66 is violated by the window filter. -/
theorem C66_window_violated : ¬ C66_WindowStatement := by
  intro h
  obtain ⟨s, h1, h2⟩ := C66_window_value
  obtain ⟨t, h3, h4⟩ := h 2 (by norm_num) [.push (2 ^ 27 + 1, 2 ^ 27 + 1), .push (2 ^ 27 + 1, 2)]
    (double_data (by
      intro x hx
      have : x = 2 ^ 27 + 1 := by simpa [sinceClear, Spec.xsOf] using hx
      exact ⟨2 ^ 27 + 1, by rw [this]; norm_num, by norm_num⟩))
    (double_data (by
      intro x hx
      have : x = 2 ^ 27 + 1 ∨ x = 2 := by simpa [sinceClear, Spec.ysOf] using hx
      rcases this with h | h
      · exact ⟨2 ^ 27 + 1, by rw [h]; norm_num, by norm_num⟩
      · exact ⟨2, by rw [h]; norm_num, by norm_num⟩))
    (Or.inl ⟨2 ^ 27 + 1, by simp [sinceClear, Spec.lastN]⟩)
  rw [h1] at h3
  injection h3 with h3
  rw [← h3, h2] at h4
  injection h4 with h4
  norm_num at h4

/-! ### C67 -/

/-- Multiplication does not depend on the order. -/
theorem X.mul_comm (a b : X F) : a * b = b * a := by
  cases a <;> cases b <;> first | rfl | exact congrArg X.round (_root_.mul_comm _ _)

theorem comoment_self {α : Type} [Scalar α] (hcomm : ∀ a b : α, a * b = b * a) (xs : List α) :
    ((xs.map fun x => (x, x)).foldl Cumulative.Comoment.push (Cumulative.Comoment.init : Cumulative.Comoment w α)).xCenter
      = (xs.foldl Cumulative.Variance.push Cumulative.Variance.init).super
    ∧ ((xs.map fun x => (x, x)).foldl Cumulative.Comoment.push (Cumulative.Comoment.init : Cumulative.Comoment w α)).yCenter
      = (xs.foldl Cumulative.Variance.push Cumulative.Variance.init).super
    ∧ ((xs.map fun x => (x, x)).foldl Cumulative.Comoment.push (Cumulative.Comoment.init : Cumulative.Comoment w α)).center
      = (xs.foldl Cumulative.Variance.push (Cumulative.Variance.init : Cumulative.Variance w α)).sumVariance := by
  induction xs using List.reverseRecOn with
  | nil => exact ⟨rfl, rfl, rfl⟩
  | append_singleton xs x ih =>
    obtain ⟨h1, h2, h3⟩ := ih
    rw [List.map_append, List.map_singleton, List.foldl_append, List.foldl_append]
    set c := (xs.map fun x => (x, x)).foldl Cumulative.Comoment.push (Cumulative.Comoment.init : Cumulative.Comoment w α)
    set v := xs.foldl Cumulative.Variance.push (Cumulative.Variance.init : Cumulative.Variance w α)
    refine ⟨?_, ?_, ?_⟩
    · show c.xCenter.push x = v.super.push x
      rw [h1]
    · show c.yCenter.push x = v.super.push x
      rw [h2]
    · show c.center + (x - (c.xCenter.push x).mean) * (x - c.yCenter.mean)
        = v.sumVariance + (x - v.super.mean) * (x - (v.super.push x).mean)
      rw [h1, h2, h3, hcomm]

/-- The history of a variable paired with itself. -/
def selfOps {β : Type} (ops : List (Op β)) : List (Op (β × β)) := ops.map (Op.map fun x => (x, x))

theorem cumulative_self {α : Type} [Scalar α] (hcomm : ∀ a b : α, a * b = b * a) (ops : List (Op α)) :
    (Cumulative.Comoment.run (selfOps ops) : Cumulative.Comoment w α).size = (Cumulative.Variance.run ops : Cumulative.Variance w α).size
    ∧ (0 < (Cumulative.Variance.run ops : Cumulative.Variance w α).size →
      (Cumulative.Comoment.run (selfOps ops) : Cumulative.Comoment w α).variance = (Cumulative.Variance.run ops : Cumulative.Variance w α).variance)
    ∧ (1 < (Cumulative.Variance.run ops : Cumulative.Variance w α).size →
      (Cumulative.Comoment.run (selfOps ops) : Cumulative.Comoment w α).unbiasedVariance
        = (Cumulative.Variance.run ops : Cumulative.Variance w α).unbiasedVariance) := by
  rw [Cumulative.Comoment.run_eq, Cumulative.Variance.run_eq]
  have e : sinceClear (selfOps ops) = (sinceClear ops).map fun x => (x, x) := sinceClear_map _ _
  rw [e]
  obtain ⟨h1, h2, h3⟩ := comoment_self (w := w) hcomm (sinceClear ops)
  set c := ((sinceClear ops).map fun x => (x, x)).foldl Cumulative.Comoment.push (Cumulative.Comoment.init : Cumulative.Comoment w α)
  set v := (sinceClear ops).foldl Cumulative.Variance.push (Cumulative.Variance.init : Cumulative.Variance w α)
  have hs : c.size = v.size := by
    show c.xCenter.count = v.super.count
    rw [h1]
  refine ⟨hs, ?_, ?_⟩
  · intro h
    unfold Cumulative.Comoment.variance
    rw [hs, if_pos h, h3]; rfl
  · intro h
    unfold Cumulative.Comoment.unbiasedVariance
    rw [hs, if_pos h, h3]; rfl

/-- C67, cumulative filter, any format and any input: the covariance of a variable with itself is bit for bit the
variance.  The window filter violates C67. -/
theorem C67_self_partial (ops : List (Op (X F))) :
    (Cumulative.Comoment.run (selfOps ops) : Cumulative.Comoment w (X F)).size = (Cumulative.Variance.run ops : Cumulative.Variance w (X F)).size
    ∧ (0 < (Cumulative.Variance.run ops : Cumulative.Variance w (X F)).size →
      (Cumulative.Comoment.run (selfOps ops) : Cumulative.Comoment w (X F)).variance
        = (Cumulative.Variance.run ops : Cumulative.Variance w (X F)).variance)
    ∧ (1 < (Cumulative.Variance.run ops : Cumulative.Variance w (X F)).size →
      (Cumulative.Comoment.run (selfOps ops) : Cumulative.Comoment w (X F)).unbiasedVariance
        = (Cumulative.Variance.run ops : Cumulative.Variance w (X F)).unbiasedVariance) :=
  cumulative_self X.mul_comm ops

/-- `double` values 1, 2, 6. -/
example : (Cumulative.Comoment.run (selfOps [.push X.nan, .clear, .push (X.fin 1), .push (X.fin 2), .push (X.fin 6)])
      : Cumulative.Comoment 64 (X binary64)).variance
    = (Cumulative.Variance.run [.push X.nan, .clear, .push (X.fin 1), .push (X.fin 2), .push (X.fin 6)] : Cumulative.Variance 64 (X binary64)).variance :=
  (C67_self_partial _).2.1 (by show (0 : BitVec 64) < 3; decide)

/-- C67, cumulative filter: the covariance of a variable with itself is not negative. -/
theorem C67_nonneg_partial (hF : F.Binary p emin) (ops : List (Op ℝ)) (hd : F.Data p emin (sinceClear ops))
    (hw : (sinceClear ops).length < 2 ^ w) :
    lt (Cumulative.Comoment.run (selfOps (finOps ops)) : Cumulative.Comoment w (X F)).variance (ofNat 0) = false
    ∧ lt (Cumulative.Comoment.run (selfOps (finOps ops)) : Cumulative.Comoment w (X F)).unbiasedVariance (ofNat 0) = false := by
  obtain ⟨h1, h2, h3⟩ := C67_self_partial (w := w) (F := F) (finOps ops)
  obtain ⟨⟨h4, h5⟩, -⟩ := C16_nonneg_partial (w := w) hF ops hd hw
  have z : lt (ofNat 0 : X F) (ofNat 0) = false := by rw [hF.ofNat_zero, X.lt_fin]; simp
  constructor
  · by_cases h : 0 < (Cumulative.Variance.run (finOps ops) : Cumulative.Variance w (X F)).size
    · rw [h2 h]; exact h4
    · unfold Cumulative.Comoment.variance
      rw [h1, if_neg h]; exact z
  · by_cases h : 1 < (Cumulative.Variance.run (finOps ops) : Cumulative.Variance w (X F)).size
    · rw [h3 h]; exact h5
    · unfold Cumulative.Comoment.unbiasedVariance
      rw [h1, if_neg h]; exact z

/-- `double` values 1, 2, 6. -/
example : lt (Cumulative.Comoment.run (selfOps (finOps [.push 1, .push 2, .push 6])) : Cumulative.Comoment 64 (X binary64)).variance (ofNat 0)
    = false := by
  refine (C67_nonneg_partial binary64_binary _ ?_ (by simp [sinceClear])).1
  have := binary64_data [1, 2, 6] (by simp)
  simpa [sinceClear] using this

/-- C67 for the window filter: the covariance of a variable with itself is not negative. -/
def C67_WindowStatement : Prop :=
  ∀ (N : Nat), 1 ≤ N → ∀ ops : List (Op ℝ), binary64.Data 53 (-1074) (sinceClear ops) →
    ∃ s : Window.Comoment N (X binary64), Window.Comoment.run (finOps2 (selfOps ops)) = some s
      ∧ lt s.variance (ofNat 0) = false

/-- The window covariance of 2^27+1, 2^27+2 with itself is -4. -/
theorem C67_window_value :
    ∃ s : Window.Comoment 2 (X binary64),
      Window.Comoment.run (finOps2 (selfOps [.push (2 ^ 27 + 1), .push (2 ^ 27 + 2)])) = some s ∧ s.variance = X.fin (-4) := by
  refine ⟨_, window_two 2 le_rfl, ?_⟩
  have sx : (ofNat 0 + X.fin (2 ^ 27 + 1) + X.fin (2 ^ 27 + 2) : X binary64) = X.fin (2 ^ 28 + 3) := by
    rw [ofNat64 (by norm_num), X.add_fin, round64_int (2 ^ 27 + 1) (by norm_num) (by norm_num), X.add_fin,
      round64_int (2 ^ 28 + 3) (by norm_num) (by norm_num)]
    norm_num
  have sq : (X.fin (2 ^ 27 + 1) * X.fin (2 ^ 27 + 1) : X binary64) = X.fin (2 ^ 54 + 2 ^ 28) := by
    rw [X.mul_fin]
    refine round64_of (2 ^ 52 + 2 ^ 26) 2 ?_ (by norm_num) (by norm_num) (by norm_num) (by norm_num)
    rw [rnd64_near (2 ^ 52 + 2 ^ 26) 2 (by norm_num) (by rw [abs_of_pos (by norm_num)]; norm_num)
      (by rw [abs_of_pos (by norm_num)]; norm_num) (by rw [abs_lt]; constructor <;> norm_num)]
    norm_num
  have sxx : (ofNat 0 + X.fin (2 ^ 27 + 1) * X.fin (2 ^ 27 + 1) + X.fin (2 ^ 27 + 2) * X.fin (2 ^ 27 + 2) : X binary64)
      = X.fin (2 ^ 55 + 3 * 2 ^ 28) := by
    rw [sq, ofNat64 (by norm_num), X.add_fin,
      round64 (2 ^ 52 + 2 ^ 26) 2 (by norm_num) (by norm_num) (by norm_num) (by norm_num), X.mul_fin,
      round64 (2 ^ 52 + 2 ^ 27 + 1) 2 (by norm_num) (by norm_num) (by norm_num) (by norm_num), X.add_fin]
    refine round64_of (2 ^ 52 + 3 * 2 ^ 25) 3 ?_ (by norm_num) (by norm_num) (by norm_num) (by norm_num)
    rw [rnd64_tie (2 ^ 52 + 3 * 2 ^ 25) 3 (by norm_num) (by rw [abs_of_pos (by norm_num)]; norm_num)
      (by rw [abs_of_pos (by norm_num)]; norm_num) (by norm_num), if_pos (by decide)]
    norm_num
  have spr : (X.fin (2 ^ 28 + 3) * X.fin (2 ^ 28 + 3) : X binary64) = X.fin (2 ^ 56 + 6 * 2 ^ 28 + 16) := by
    rw [X.mul_fin]
    refine round64_of (2 ^ 52 + 6 * 2 ^ 24 + 1) 4 ?_ (by norm_num) (by norm_num) (by norm_num) (by norm_num)
    rw [rnd64_near (2 ^ 52 + 6 * 2 ^ 24 + 1) 4 (by norm_num) (by rw [abs_of_pos (by norm_num)]; norm_num)
      (by rw [abs_of_pos (by norm_num)]; norm_num) (by rw [abs_lt]; constructor <;> norm_num)]
    norm_num
  rw [sx, sxx]
  show (X.fin (2 ^ 55 + 3 * 2 ^ 28) - X.fin (2 ^ 28 + 3) * X.fin (2 ^ 28 + 3) / ofNat 2) / ofNat 2 = X.fin (-4)
  rw [spr, ofNat64 (by norm_num), X.div_fin_of_ne _ (by norm_num),
    round64 (2 ^ 52 + 6 * 2 ^ 24 + 1) 3 (by norm_num) (by norm_num) (by norm_num) (by norm_num), X.sub_fin,
    round64_int (-8) (by norm_num) (by norm_num), X.div_fin_of_ne _ (by norm_num), round64_int (-4) (by norm_num) (by norm_num)]
  norm_num

/-- C67 is violated by the window filter. -/
theorem C67_window_violated : ¬ C67_WindowStatement := by
  intro h
  obtain ⟨s, h1, h2⟩ := C67_window_value
  obtain ⟨t, h3, h4⟩ := h 2 (by norm_num) [.push (2 ^ 27 + 1), .push (2 ^ 27 + 2)]
    (double_data (by
      intro x hx
      have : x = 2 ^ 27 + 1 ∨ x = 2 ^ 27 + 2 := by simpa [sinceClear] using hx
      rcases this with h | h
      · exact ⟨2 ^ 27 + 1, by rw [h]; norm_num, by norm_num⟩
      · exact ⟨2 ^ 27 + 2, by rw [h]; norm_num, by norm_num⟩))
  rw [h1] at h3
  injection h3 with h3
  rw [← h3, h2, ofNat64 (by norm_num), X.lt_fin] at h4
  norm_num at h4

end Verif.Props
