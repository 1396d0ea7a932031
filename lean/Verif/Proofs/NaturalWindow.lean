import Verif.Proofs.Natural
import Verif.Model.InterimPSquare
import Verif.Model.Misc
/-
Naturality (see Verif/Proofs/Natural.lean) of the window, interim, impulse and quantile filters.
-/
namespace Verif
open Scalar

variable {α β : Type} [Scalar α] [Scalar β]

/-! ### Window filters -/
namespace Window
variable {N : Nat}

/-- Apply a map to the elements. -/
def Ring.map {γ δ : Type} (f : γ → δ) (r : Ring N γ) : Ring N δ := ⟨r.items.map f⟩

theorem Ring.map_pushBack {γ δ : Type} (f : γ → δ) (r : Ring N γ) (x : γ) : (r.pushBack x).map f = (r.map f).pushBack (f x) := by
  unfold Ring.pushBack Ring.map Ring.full
  simp only [List.length_map]
  split_ifs <;> simp
theorem Ring.map_full {γ δ : Type} (f : γ → δ) (r : Ring N γ) : (r.map f).full = r.full := by simp [Ring.map, Ring.full]
theorem Ring.map_size {γ δ : Type} (f : γ → δ) (r : Ring N γ) : (r.map f).size = r.size := by simp [Ring.map, Ring.size]
theorem Ring.map_front {γ δ : Type} (f : γ → δ) (r : Ring N γ) : (r.map f).front = r.front.map f := by
  simp [Ring.map, Ring.front]

/-- Apply a map to all numbers of the state. -/
def Mean.map (φ : α → β) (s : Mean N α) : Mean N β := { window := s.window.map φ, mean := φ s.mean }
/-- Apply a map to all numbers of the state. -/
def Variance.map (φ : α → β) (s : Variance N α) : Variance N β := { super := s.super.map φ, sumVariance := φ s.sumVariance }
/-- Apply a map to all numbers of the state. -/
def Comoment.map (φ : α → β) (s : Comoment N α) : Comoment N β :=
  { window := s.window.map (Prod.map φ φ), sumX := φ s.sumX, sumY := φ s.sumY, sumXY := φ s.sumXY }
/-- Apply a map to all numbers of the state. -/
def Regression.map (φ : α → β) (s : Regression N α) : Regression N β :=
  { covariance := s.covariance.map φ, xMoment := s.xMoment.map φ }

variable {φ : α → β} {good : α → Prop} (H : Hom φ good)
include H

theorem Mean.map_init : (Mean.init : Mean N α).map φ = Mean.init := by
  simp [Mean.map, Mean.init, H.ofNat, Ring.map, Ring.init]
theorem Mean.map_clear (s : Mean N α) : s.clear.map φ = (s.map φ).clear := by
  simp [Mean.map, Mean.clear, H.ofNat, Ring.map, Ring.clear]
theorem Mean.map_push (s : Mean N α) (x : α) : (s.push x).map (Mean.map φ) = (s.map φ).push (φ x) := by
  unfold Mean.push Mean.full Mean.size
  simp only [Mean.map, Ring.map_full, Ring.map_front, Ring.map_size]
  split_ifs with h
  · cases s.window.front with
    | none => rfl
    | some f => simp only [Option.map_some, H.add, H.sub, H.divNat, Ring.map_pushBack, Mean.map]
  · simp only [Option.map_some, H.add, H.sub, H.divNat, Ring.map_pushBack, Mean.map]
theorem Mean.map_run (ops : List (Op α)) :
    (Mean.run ops : Option (Mean N α)).map (Mean.map φ) = Mean.run (ops.map (Op.map φ)) :=
  runOps_natural_option _ φ (Mean.map_init H) (Mean.map_push H) (Mean.map_clear H) ops

theorem Variance.map_init : (Variance.init : Variance N α).map φ = Variance.init := by
  simp [Variance.map, Variance.init, H.ofNat, Mean.map_init H]
theorem Variance.map_clear (s : Variance N α) : s.clear.map φ = (s.map φ).clear := by
  simp [Variance.map, Variance.clear, H.ofNat, Mean.map_clear H]
theorem Variance.map_push (s : Variance N α) (x : α) : (s.push x).map (Variance.map φ) = (s.map φ).push (φ x) := by
  unfold Variance.push Mean.full Variance.size Mean.size Variance.delta Mean.getMean
  simp only [Variance.map, Mean.map, Ring.map_full, Ring.map_front, Ring.map_size]
  split_ifs with h
  · cases s.super.window.front with
    | none => rfl
    | some f => simp only [Option.map_some, H.add, H.sub, H.mul, H.divNat, Ring.map_pushBack, Variance.map, Mean.map]
  · simp only [Option.map_some, H.add, H.sub, H.mul, H.divNat, Ring.map_pushBack, Variance.map, Mean.map]
theorem Variance.map_variance (s : Variance N α) : φ s.variance = (s.map φ).variance := by
  unfold Variance.variance
  rw [show (s.map φ).size = s.size from Ring.map_size _ _]
  dsimp only
  split_ifs
  · rw [H.max, H.ofNat, H.divNat]
    rfl
  · exact H.ofNat 0
theorem Variance.map_unbiasedVariance (s : Variance N α) : φ s.unbiasedVariance = (s.map φ).unbiasedVariance := by
  unfold Variance.unbiasedVariance
  rw [show (s.map φ).size = s.size from Ring.map_size _ _]
  dsimp only
  split_ifs
  · rw [H.max, H.ofNat, H.divNat]
    rfl
  · exact H.ofNat 0
theorem Variance.map_run (ops : List (Op α)) :
    (Variance.run ops : Option (Variance N α)).map (Variance.map φ) = Variance.run (ops.map (Op.map φ)) :=
  runOps_natural_option _ φ (Variance.map_init H) (Variance.map_push H) (Variance.map_clear H) ops

theorem Comoment.map_init : (Comoment.init : Comoment N α).map φ = Comoment.init := by
  simp [Comoment.map, Comoment.init, H.ofNat, Ring.map, Ring.init]
theorem Comoment.map_clear (s : Comoment N α) : s.clear.map φ = (s.map φ).clear := by
  simp [Comoment.map, Comoment.clear, H.ofNat, Ring.map, Ring.clear]
theorem Comoment.map_push (s : Comoment N α) (x : α × α) :
    (s.push x).map (Comoment.map φ) = (s.map φ).push (Prod.map φ φ x) := by
  unfold Comoment.push
  simp only [Comoment.map, Ring.map_full, Ring.map_front]
  split_ifs with h
  · cases s.window.front with
    | none => rfl
    | some f => simp only [Option.map_some, H.add, H.sub, H.mul, Ring.map_pushBack, Prod.map_fst, Prod.map_snd, Comoment.map, Prod.map_apply]
  · simp only [Option.map_some, H.add, H.mul, Ring.map_pushBack, Prod.map_fst, Prod.map_snd, Comoment.map, Prod.map_apply]
theorem Comoment.map_cosum (s : Comoment N α) : φ s.cosum = (s.map φ).cosum := by
  unfold Comoment.cosum
  rw [show (s.map φ).size = s.size from Ring.map_size _ _, H.sub, H.divNat, H.mul]
  rfl
theorem Comoment.map_variance (s : Comoment N α) : φ s.variance = (s.map φ).variance := by
  unfold Comoment.variance
  rw [show (s.map φ).size = s.size from Ring.map_size _ _, ← Comoment.map_cosum H]
  split_ifs
  · exact H.divNat _ _
  · exact H.ofNat 0
theorem Comoment.map_unbiasedVariance (s : Comoment N α) : φ s.unbiasedVariance = (s.map φ).unbiasedVariance := by
  unfold Comoment.unbiasedVariance
  rw [show (s.map φ).size = s.size from Ring.map_size _ _, ← Comoment.map_cosum H]
  split_ifs
  · exact H.divNat _ _
  · exact H.ofNat 0
theorem Comoment.map_run (ops : List (Op (α × α))) :
    (Comoment.run ops : Option (Comoment N α)).map (Comoment.map φ) = Comoment.run (ops.map (Op.map (Prod.map φ φ))) :=
  runOps_natural_option _ _ (Comoment.map_init H) (Comoment.map_push H) (Comoment.map_clear H) ops

theorem Regression.map_push (s : Regression N α) (x : α × α) :
    (s.push x).map (Regression.map φ) = (s.map φ).push (Prod.map φ φ x) := by
  unfold Regression.push
  show _ = match (s.covariance.map φ).push (Prod.map φ φ x), (s.xMoment.map φ).push (φ x.1) with
    | some c, some x => some ({ covariance := c, xMoment := x } : Regression N β)
    | _, _ => none
  rw [← Comoment.map_push H, ← Variance.map_push H]
  cases s.covariance.push x with
  | none => rfl
  | some c =>
    cases s.xMoment.push x.1 with
    | none => rfl
    | some v => rfl
theorem Regression.map_run (ops : List (Op (α × α))) :
    (Regression.run ops : Option (Regression N α)).map (Regression.map φ) = Regression.run (ops.map (Op.map (Prod.map φ φ))) :=
  runOps_natural_option _ _ (by simp only [Regression.map, Regression.init, Comoment.map_init H, Variance.map_init H])
    (Regression.map_push H)
    (fun s => by simp only [Regression.map, Regression.clear, Comoment.map_clear H, Variance.map_clear H]) ops
theorem Regression.map_slope (s : Regression N α) : φ s.slope = (s.map φ).slope := by
  unfold Regression.slope
  show _ = if Scalar.beq (s.xMoment.map φ).variance (ofNat 0) then ofNat 0
    else (s.covariance.map φ).variance / (s.xMoment.map φ).variance
  rw [← Variance.map_variance H, H.beq_zero, ← Comoment.map_variance H]
  dsimp only
  split_ifs with h
  · exact H.ofNat 0
  · exact H.div _ _ (H.good_ne _ (by simpa using h))
theorem Regression.map_at (s : Regression N α) (x : α) : φ (s.at' x) = (s.map φ).at' (φ x) := by
  unfold Regression.at'
  dsimp only
  rw [← Regression.map_slope H, show (s.map φ).covariance.size = s.covariance.size from Ring.map_size _ _]
  simp only [H.sub, H.mul, H.divNat]
  rfl

end Window

/-! ### Interim filters -/
namespace Interim
variable {w W : Nat}

set_option linter.dupNamespace false in
/-- Apply a map to both filters. -/
def Interim.map {σ τ : Type} (m : σ → τ) (s : Interim W σ) : Interim W τ := { active := m s.active, passive := m s.passive }

section
variable {σ τ γ δ : Type} [Block σ w γ] [Block τ w δ] {m : σ → τ} {f : γ → δ}

/-- A map between cumulative filters that respects the calls. -/
structure BlockHom (m : σ → τ) (f : γ → δ) : Prop where
  init : m Block.init = Block.init
  push : ∀ s x, m (Block.push s x) = Block.push (m s) (f x)
  clear : ∀ s, m (Block.clear s) = Block.clear (m s)
  size : ∀ s, Block.size (m s) = Block.size s

variable (B : BlockHom m f)
include B

theorem map_push (s : Interim W σ) (x : γ) : (s.push x).map m = (s.map m).push (f x) := by
  unfold Interim.push
  simp only [Interim.map, B.size, B.push]
  split_ifs <;> simp [B.clear]
theorem map_clear (s : Interim W σ) : s.clear.map m = (s.map m).clear := by
  simp only [Interim.map, Interim.clear, B.clear]
theorem map_run (ops : List (Op γ)) : (Interim.run ops : Interim W σ).map m = Interim.run (ops.map (Op.map f)) :=
  runOps_natural _ f (by simp only [Interim.map, Interim.init, B.init]) (map_push B) (map_clear B) ops
theorem map_passiveEmpty (s : Interim W σ) : (s.map m).passiveEmpty = s.passiveEmpty := by
  simp only [Interim.passiveEmpty, Interim.map, B.size]

variable {φ : α → β} {good : α → Prop} (H : Hom φ good) {g : σ → α} {g' : τ → β} (hg : ∀ s, φ (g s) = g' (m s))
include H hg

theorem map_meanWith (s : Interim W σ) : φ (s.meanWith g) = (s.map m).meanWith g' := by
  unfold Interim.meanWith
  rw [map_passiveEmpty B]
  simp only [Interim.map, B.size]
  split_ifs
  · exact hg _
  · simp only [H.divSize, H.add, H.mul, H.ofSize, hg]
theorem map_varianceWith (s : Interim W σ) : φ (s.varianceWith g) = (s.map m).varianceWith g' := by
  unfold Interim.varianceWith
  rw [map_passiveEmpty B]
  simp only [Interim.map, B.size]
  split_ifs
  · exact hg _
  · exact hg _
  · simp only [H.divSize, H.add, H.mul, H.ofSize, hg]
theorem map_blendWith (s : Interim W σ) : φ (s.blendWith g) = (s.map m).blendWith g' := by
  unfold Interim.blendWith
  rw [map_passiveEmpty B]
  simp only [Interim.map, B.size]
  split_ifs
  · exact hg _
  · exact hg _
  · simp only [H.divSize, H.add, H.mul, H.ofSize, hg]
end

variable {φ : α → β} {good : α → Prop} (H : Hom φ good)
include H

theorem meanHom : BlockHom (Cumulative.Mean.map φ : Cumulative.Mean w α → Cumulative.Mean w β) φ :=
  ⟨Cumulative.Mean.map_init H, Cumulative.Mean.map_push H, Cumulative.Mean.map_clear H, fun _ => rfl⟩
theorem varianceHom : BlockHom (Cumulative.Variance.map φ : Cumulative.Variance w α → Cumulative.Variance w β) φ :=
  ⟨Cumulative.Variance.map_init H, Cumulative.Variance.map_push H, Cumulative.Variance.map_clear H, fun _ => rfl⟩
theorem skewnessHom : BlockHom (Cumulative.Skewness.map φ : Cumulative.Skewness w α → Cumulative.Skewness w β) φ :=
  ⟨Cumulative.Skewness.map_init H, Cumulative.Skewness.map_push H, Cumulative.Skewness.map_clear H, fun _ => rfl⟩
theorem kurtosisHom : BlockHom (Cumulative.Kurtosis.map φ : Cumulative.Kurtosis w α → Cumulative.Kurtosis w β) φ :=
  ⟨Cumulative.Kurtosis.map_init H, Cumulative.Kurtosis.map_push H, Cumulative.Kurtosis.map_clear H, fun _ => rfl⟩
theorem comomentHom :
    BlockHom (Cumulative.Comoment.map φ : Cumulative.Comoment w α → Cumulative.Comoment w β) (Prod.map φ φ) :=
  ⟨Cumulative.Comoment.map_init H, Cumulative.Comoment.map_push H, Cumulative.Comoment.map_clear H, fun _ => rfl⟩

set_option linter.unusedSectionVars false in
/-- Apply a map to all numbers of the state. -/
def Regression.map (φ : α → β) (s : Regression w W α) : Regression w W β :=
  { covariance := Interim.map (Cumulative.Comoment.map φ) s.covariance, xMoment := Interim.map (Cumulative.Variance.map φ) s.xMoment
    yMoment := Interim.map (Cumulative.Mean.map φ) s.yMoment }

theorem Regression.map_run (ops : List (Op (α × α))) :
    (Regression.run ops : Regression w W α).map φ = Regression.run (ops.map (Op.map (Prod.map φ φ))) := by
  refine runOps_natural _ _ ?_ ?_ ?_ ops
  · simp only [Regression.map, Regression.init, Interim.map, Interim.init, Block.init, Cumulative.Comoment.map_init H,
      Cumulative.Variance.map_init H, Cumulative.Mean.map_init H]
  · intro s x
    simp only [Regression.map, Regression.push, map_push (comomentHom H), map_push (varianceHom H), map_push (meanHom H)]
    rfl
  · intro s
    simp only [Regression.map, Regression.clear, map_clear (comomentHom H), map_clear (varianceHom H)]
theorem Regression.map_slope (s : Regression w W α) : φ s.slope = (s.map φ).slope := by
  unfold Regression.slope IVariance.variance IComoment.variance
  show _ = if Scalar.beq (Interim.varianceWith Cumulative.Variance.variance (Interim.map (Cumulative.Variance.map φ) s.xMoment))
      (ofNat 0) then ofNat 0
    else Interim.varianceWith Cumulative.Comoment.variance (Interim.map (Cumulative.Comoment.map φ) s.covariance)
      / Interim.varianceWith Cumulative.Variance.variance (Interim.map (Cumulative.Variance.map φ) s.xMoment)
  rw [← map_varianceWith (varianceHom H) H (Cumulative.Variance.map_variance H), H.beq_zero,
    ← map_varianceWith (comomentHom H) H (Cumulative.Comoment.map_variance H)]
  dsimp only
  split_ifs with h
  · exact H.ofNat 0
  · exact H.div _ _ (H.good_ne _ (by simpa using h))
theorem Regression.map_at (s : Regression w W α) (x : α) : φ (s.at' x) = (s.map φ).at' (φ x) := by
  unfold Regression.at'
  rw [← Regression.map_slope H, H.sub, H.mul, H.sub]
  unfold IMean.mean IVariance.mean
  rw [map_meanWith (meanHom H) H (Cumulative.Mean.map_getMean H),
    map_meanWith (varianceHom H) H (g := Cumulative.Variance.getMean) (g' := Cumulative.Variance.getMean) fun _ => rfl]
  rfl

end Interim

/-! ### Impulse filters -/
namespace Impulse

/-- Apply a map to the elements. -/
def Deque.map {γ δ : Type} (f : γ → δ) (d : Deque γ) : Deque δ := ⟨d.capacity, d.items.map f⟩
theorem Deque.map_pushFront {γ δ : Type} (f : γ → δ) (d : Deque γ) (x : γ) :
    (d.pushFront x).map f = (d.map f).pushFront (f x) := by
  unfold Deque.pushFront Deque.map Deque.full
  simp only [List.length_map]
  split_ifs <;> simp
/-- Apply a map to all numbers of the state. -/
def Finite.map (φ : α → β) (s : Finite α) : Finite β :=
  { input := s.input.map φ, output := φ s.output, coefficients := s.coefficients.map φ }
/-- Apply a map to all numbers of the state. -/
def Infinite.map (φ : α → β) (s : Infinite α) : Infinite β :=
  { inputWindow := s.inputWindow.map φ, inputCoefficients := s.inputCoefficients.map φ
    outputWindow := s.outputWindow.map φ, outputScale := φ s.outputScale, outputCoefficients := s.outputCoefficients.map φ }

variable {φ : α → β} {good : α → Prop} (H : Hom φ good)
include H

theorem map_innerProduct (acc : α) (xs cs : List α) :
    (innerProduct acc xs cs).map φ = innerProduct (φ acc) (xs.map φ) (cs.map φ) := by
  induction xs generalizing acc cs with
  | nil => rfl
  | cons x xs ih =>
    cases cs with
    | nil => rfl
    | cons c cs =>
      simp only [innerProduct, List.map_cons]
      rw [ih, H.add, H.mul]
theorem Finite.map_run (cs : List α) (ops : List (Op α)) :
    (Finite.run cs ops).map (Finite.map φ) = Finite.run (cs.map φ) (ops.map (Op.map φ)) := by
  refine runOps_natural_option _ φ ?_ ?_ ?_ ops
  · simp [Finite.map, Finite.init, H.ofNat, Deque.map, Deque.init]
  · intro s x
    unfold Finite.push
    simp only [Finite.map]
    have h := map_innerProduct H (ofNat 0) (s.input.pushFront x).items s.coefficients
    rw [H.ofNat] at h
    rw [← Deque.map_pushFront]
    simp only [Deque.map] at *
    rw [← h]
    cases innerProduct (ofNat 0) (s.input.pushFront x).items s.coefficients <;> rfl
  · intro s
    simp [Finite.map, Finite.clear, Deque.map, Deque.clear]
theorem Infinite.map_run (as bs : List α) (c : α) (hc : good c) (ops : List (Op α)) :
    (Infinite.run as bs c ops).map (Infinite.map φ) = Infinite.run (as.map φ) (bs.map φ) (φ c) (ops.map (Op.map φ)) := by
  have key : (Infinite.run as bs c ops).map (Infinite.map φ) = Infinite.run (as.map φ) (bs.map φ) (φ c) (ops.map (Op.map φ))
      ∧ ∀ s, Infinite.run as bs c ops = some s → s.outputScale = c := by
    induction ops using List.reverseRecOn with
    | nil =>
      refine ⟨by simp [Infinite.run, runOps, Infinite.map, Infinite.init, Deque.map, Deque.init], ?_⟩
      intro s hs
      injection hs with hs
      rw [← hs]
      rfl
    | append_singleton ops o ih =>
      obtain ⟨ih, ih'⟩ := ih
      unfold Infinite.run runOps at *
      rw [List.map_append, List.foldl_append, List.foldl_append, ← ih]
      generalize List.foldl _ (some (Infinite.init as bs c)) ops = t at ih' ⊢
      cases t with
      | none => cases o <;> simp [Op.map]
      | some t =>
        have ht := ih' t rfl
        cases o with
        | clear =>
          refine ⟨by simp [Op.map, Infinite.map, Infinite.clear, Deque.map, Deque.clear], ?_⟩
          intro s hs
          injection hs with hs
          rw [← hs]
          exact ht
        | push x =>
          have h1 := map_innerProduct H (ofNat 0) (t.inputWindow.pushFront x).items t.inputCoefficients
          have h2 := map_innerProduct H (ofNat 0) t.outputWindow.items t.outputCoefficients
          rw [H.ofNat] at h1 h2
          simp only [List.map_cons, List.map_nil, List.foldl_cons, List.foldl_nil, Op.map, Option.map_some, Option.bind_some]
          unfold Infinite.push
          simp only [Infinite.map, Option.bind_eq_bind, Option.pure_def]
          rw [← Deque.map_pushFront]
          rw [show (Deque.map φ (t.inputWindow.pushFront x)).items = (t.inputWindow.pushFront x).items.map φ from rfl, ← h1,
            show (Deque.map φ t.outputWindow).items = t.outputWindow.items.map φ from rfl, ← h2]
          cases innerProduct (ofNat 0) (t.inputWindow.pushFront x).items t.inputCoefficients with
          | none => simp
          | some a =>
            cases innerProduct (ofNat 0) t.outputWindow.items t.outputCoefficients with
            | none => simp
            | some b =>
              constructor
              · simp only [Option.bind_some, Option.map_some, ← H.sub]
                rw [← H.div _ _ (by rw [ht]; exact hc), ← Deque.map_pushFront]
                rfl
              · intro s hs
                injection hs with hs
                rw [← hs]
                exact ht
  exact key.1
theorem Infinite.map_value (s : Infinite α) : φ s.value = (s.map φ).value := by
  unfold Infinite.value
  simp only [Infinite.map, Deque.map]
  cases s.outputWindow.items with
  | nil => exact H.ofNat 0
  | cons y ys => rfl

end Impulse

/-! ### Quantiles -/
namespace PSquare
variable {w : Nat}

set_option linter.dupNamespace false in
/-- Apply a map to all numbers of the state. -/
def PSquare.map (φ : α → β) (s : PSquare w α) : PSquare w β :=
  { qs := s.qs.map φ, count := s.count, positions := s.positions, heights := s.heights.map φ, desired := s.desired.map φ
    deltas := s.deltas.map φ }

variable {φ : α → β} {good : α → Prop} (H : Hom φ good)
include H

theorem natural_toScalar (r : Ratio) : φ (r.toScalar : α) = r.toScalar := by
  unfold Ratio.toScalar
  rw [H.divNat, H.ofInt]
theorem map_deltasFrom (p : α) (qs : List α) :
    (PSquare.deltasFrom p qs).map φ = PSquare.deltasFrom (φ p) (qs.map φ) := by
  induction qs generalizing p with
  | nil => simp only [PSquare.deltasFrom, List.map_cons, List.map_nil, H.divNat, H.add, H.ofNat]
  | cons q qs ih => simp only [PSquare.deltasFrom, List.map_cons, H.divNat, H.add, ih]
theorem map_initState (qs : List α) : (PSquare.initState qs : PSquare w α).map φ = PSquare.initState (qs.map φ) := by
  simp only [PSquare.initState, PSquare.map, List.map_cons, map_deltasFrom H, H.ofNat, List.map_replicate, List.length_map,
    H.add, H.mul]
  congr 2
  rw [← H.ofNat 0, ← map_deltasFrom H, List.map_map, List.map_map]
  simp [Function.comp_def, H.add, H.mul, H.ofNat]
theorem map_init (rs : List Ratio) : (PSquare.init rs : PSquare w α).map φ = PSquare.init rs := by
  unfold PSquare.init
  rw [map_initState H, List.map_map]
  congr 2
  funext r
  exact natural_toScalar H r
theorem map_clear (s : PSquare w α) : s.clear.map φ = (s.map φ).clear := map_initState H s.qs

set_option linter.unusedSectionVars false in
theorem map_len (s : PSquare w α) : (s.map φ).len = s.len := by simp [PSquare.len, PSquare.q, PSquare.map]
set_option linter.unusedSectionVars false in
theorem map_q (s : PSquare w α) : (s.map φ).q = s.q := by simp [PSquare.q, PSquare.map]

theorem map_linear (s : PSquare w α) (i : Nat) (sign : Int) : (s.linear i sign).map φ = (s.map φ).linear i sign := by
  unfold PSquare.linear
  rw [map_len H]
  simp only [PSquare.map, List.getElem?_map]
  cases hg : (guard (0 < i ∧ i < s.len ∧ (sign = 1 ∨ sign = -1)) : Option Unit) with
  | none => rfl
  | some _ =>
    cases s.heights[i]? with
    | none => rfl
    | some a =>
      cases s.heights[PSquare.shift i sign]? with
      | none => rfl
      | some b =>
        cases s.positions[i]? with
        | none => rfl
        | some c =>
          cases s.positions[PSquare.shift i sign]? with
          | none => rfl
          | some d =>
            simp only [Option.bind_eq_bind, Option.bind_some, Option.map_some, Option.pure_def, H.add, H.mul, H.sub, H.ofInt, H.divSize]

theorem map_parabolic (s : PSquare w α) (i : Nat) (sign : Int) : (s.parabolic i sign).map φ = (s.map φ).parabolic i sign := by
  unfold PSquare.parabolic
  rw [map_len H]
  simp only [PSquare.map, List.getElem?_map]
  cases hg : (guard (0 < i ∧ i < s.len ∧ (sign = 1 ∨ sign = -1)) : Option Unit) with
  | none => rfl
  | some _ =>
    cases s.heights[i - 1]? with
    | none => rfl
    | some a =>
      cases s.heights[i]? with
      | none => rfl
      | some b =>
        cases s.heights[i + 1]? with
        | none => rfl
        | some c =>
          cases s.positions[i - 1]? with
          | none => rfl
          | some d =>
            cases s.positions[i]? with
            | none => rfl
            | some e =>
              cases s.positions[i + 1]? with
              | none => rfl
              | some f =>
                simp only [Option.bind_eq_bind, Option.bind_some, Option.map_some]
                cases hg : (guard (d ≤ e ∧ e ≤ f) : Option Unit) with
                | none => rfl
                | some _ =>
                  simp only [Option.bind_some, Option.map_some, Option.pure_def, H.add, H.mul, H.sub, H.ofInt, H.divSize, H.ofSize]

theorem map_signOf (a : α) : PSquare.signOf (φ a) = PSquare.signOf a := by
  unfold PSquare.signOf
  rw [H.pos_iff, H.neg_iff]

theorem map_adjust (s : PSquare w α) (i : Nat) : (s.adjust i).map (PSquare.map φ) = (s.map φ).adjust i := by
  unfold PSquare.adjust
  rw [show (s.map φ).desired = s.desired.map φ from rfl, show (s.map φ).positions = s.positions from rfl,
    show (s.map φ).heights = s.heights.map φ from rfl]
  simp only [List.getElem?_map, ← map_parabolic H, ← map_linear H]
  cases s.desired[i]? with
  | none => rfl
  | some d =>
    cases s.positions[i]? with
    | none => rfl
    | some p =>
      cases s.positions[i - 1]? with
      | none => rfl
      | some pp =>
        cases s.positions[i + 1]? with
        | none => rfl
        | some pn =>
          simp only [Option.bind_eq_bind, Option.bind_some, Option.map_some, ← H.ofSize, ← H.sub, map_signOf H, Option.pure_def]
          split_ifs with hc
          · cases s.parabolic i (PSquare.signOf (d - ofSize p)) with
            | none => rfl
            | some h =>
              cases s.heights[i - 1]? with
              | none => rfl
              | some hp =>
                cases s.heights[i + 1]? with
                | none => rfl
                | some hn =>
                  simp only [Option.bind_some, Option.map_some, H.lt]
                  split_ifs with hb
                  · simp [PSquare.map, List.map_set]
                  · cases s.linear i (PSquare.signOf (d - ofSize p)) with
                    | none => rfl
                    | some l => simp [PSquare.map, List.map_set]
          · rfl

theorem map_upperBound (hs : List α) (x : α) (fuel first len : Nat) :
    PSquare.upperBound (hs.map φ) (φ x) fuel first len = PSquare.upperBound hs x fuel first len := by
  induction fuel generalizing first len with
  | zero => cases len <;> rfl
  | succ fuel ih =>
    cases len with
    | zero => rfl
    | succ len =>
      simp only [PSquare.upperBound, List.getElem?_map]
      cases hs[first + (len + 1) / 2]? with
      | none => rfl
      | some h =>
        simp only [Option.map_some, H.lt, ih]

theorem map_locate (s : PSquare w α) (x : α) :
    (s.locate x).map (Prod.map id (List.map φ)) = (s.map φ).locate (φ x) := by
  unfold PSquare.locate
  rw [map_len H, show (s.map φ).heights = s.heights.map φ from rfl]
  simp only [List.getElem?_map, List.length_map, map_upperBound H]
  cases s.heights[0]? with
  | none => rfl
  | some a =>
    cases s.heights[s.len - 1]? with
    | none => rfl
    | some b =>
      simp only [Option.bind_eq_bind, Option.bind_some, Option.map_some, H.lt, H.le, Option.pure_def]
      split_ifs
      · simp [List.map_set]
      · simp [List.map_set]
      · cases PSquare.upperBound s.heights x s.heights.length 0 s.heights.length <;> rfl

theorem map_bump (s : PSquare w α) (k : Nat) : (s.bump k).map φ = (s.map φ).bump k := by
  simp only [PSquare.bump, PSquare.map, List.map_zipWith, List.zipWith_map, H.add]

theorem map_insertAt (x : α) (k : Nat) (hs : List α) :
    (PSquare.insertAt x k hs).map (List.map φ) = PSquare.insertAt (φ x) k (hs.map φ) := by
  induction k generalizing hs with
  | zero =>
    simp only [PSquare.insertAt, List.length_map]
    split_ifs <;> simp [List.map_set]
  | succ k ih =>
    simp only [PSquare.insertAt, List.length_map, List.getElem?_map]
    cases hs[k]? with
    | none => rfl
    | some h =>
      simp only [Option.map_some, H.lt]
      split_ifs
      · rw [ih, List.map_set]
      · rfl
      · simp [List.map_set]
      · rfl

theorem map_foldlM (is : List Nat) (s : PSquare w α) :
    (is.foldlM PSquare.adjust s).map (PSquare.map φ) = is.foldlM PSquare.adjust (s.map φ) := by
  induction is generalizing s with
  | nil => rfl
  | cons i is ih =>
    rw [List.foldlM_cons, List.foldlM_cons, ← map_adjust H]
    cases s.adjust i with
    | none => rfl
    | some t => exact ih t

theorem map_push (s : PSquare w α) (x : α) : (s.push x).map (PSquare.map φ) = (s.map φ).push (φ x) := by
  unfold PSquare.push
  rw [map_len H, show (s.map φ).count = s.count from rfl, ← map_locate H, show (s.map φ).heights = s.heights.map φ from rfl,
    ← map_insertAt H]
  simp only [Option.bind_eq_bind, Option.pure_def]
  split_ifs
  · cases s.locate x with
    | none => rfl
    | some kh =>
      obtain ⟨k, hs⟩ := kh
      simp only [Option.bind_some, Option.map_some, Prod.map_apply, id]
      have e : ({ s with heights := hs }.bump k).map φ = (⟨(s.map φ).qs, s.count, (s.map φ).positions, hs.map φ, (s.map φ).desired, (s.map φ).deltas⟩ : PSquare w β).bump k :=
        map_bump H _ k
      rw [← e, ← map_foldlM H]
      cases List.foldlM PSquare.adjust ({ s with heights := hs }.bump k) (List.range' 1 (s.len - 2)) <;> rfl
  · cases PSquare.insertAt x s.count.toNat s.heights <;> rfl

theorem map_run (rs : List Ratio) (ops : List (Op α)) :
    (PSquare.run rs ops : Option (PSquare w α)).map (PSquare.map φ) = PSquare.run rs (ops.map (Op.map φ)) :=
  runOps_natural_option _ φ (map_init H rs) (map_push H) (map_clear H) ops

theorem map_get (s : PSquare w α) (k : Nat) : (s.get k).map φ = (s.map φ).get k := by
  unfold PSquare.get
  rw [map_len H, map_q H, show (s.map φ).count = s.count from rfl, show (s.map φ).heights = s.heights.map φ from rfl,
    show (s.map φ).qs = s.qs.map φ from rfl]
  simp only [List.getElem?_map]
  split_ifs
  · rfl
  · rfl
  · rfl
  · rfl
  · cases s.qs[k - 1]? with
    | none => rfl
    | some q =>
      simp only [Option.bind_eq_bind, Option.bind_some, Option.map_some, Option.pure_def, ← H.ofSize, ← H.ofNat, ← H.mul, ← H.add, H.toIndex]
      cases toIndex (ofSize (s.count - 1) * q) with
      | none => rfl
      | some i =>
        cases toIndex (ofSize (s.count - 1) * q + ofNat 1) with
        | none => rfl
        | some j =>
          simp only [Option.bind_some]
          cases s.heights[i]? with
          | none => rfl
          | some a =>
            cases s.heights[j]? with
            | none => rfl
            | some b => simp only [Option.bind_some, Option.map_some, H.add, H.mul, H.sub, H.floor]
  · rfl
  · simp [H.ofNat]

theorem map_value (rs : List Ratio) (s : PSquare w α) (r : Ratio) :
    (PSquare.value rs s r).map φ = PSquare.value rs (s.map φ) r := map_get H s _

end PSquare

/-! ### Interim quantiles -/
namespace InterimPSquare
variable {w : Nat}

/-- Apply a map to all numbers of an object. -/
def Obj.map (φ : α → β) (o : Obj w α) : Obj w β :=
  { first := o.first.map φ, second := o.second.map φ, active := o.active, inactive := o.inactive }
/-- Apply a map to all numbers in the memory. -/
def Mem.map (φ : α → β) (m : Mem w α) : Mem w β := fun a => (m a).map (Obj.map φ)

omit [Scalar α] [Scalar β] in
theorem Mem.map_set (φ : α → β) (m : Mem w α) (a : Nat) (o : Option (Obj w α)) :
    (m.set a o).map φ = (m.map φ).set a (o.map (Obj.map φ)) := by
  funext b
  unfold Mem.map Mem.set
  split_ifs <;> rfl
omit [Scalar α] [Scalar β] in
theorem Mem.map_load (φ : α → β) (m : Mem w α) (p : Ptr) : (m.load p).map (PSquare.PSquare.map φ) = (m.map φ).load p := by
  unfold Mem.load Mem.map
  cases m p.addr with
  | none => rfl
  | some o => cases h : p.slot <;> simp [Obj.slot, Obj.map]
omit [Scalar α] [Scalar β] in
theorem Mem.map_store (φ : α → β) (m : Mem w α) (p : Ptr) (v : PSquare.PSquare w α) :
    (m.store p v).map (Mem.map φ) = (m.map φ).store p (v.map φ) := by
  unfold Mem.store
  rw [show m.map φ p.addr = (m p.addr).map (Obj.map φ) from rfl]
  cases m p.addr with
  | none => rfl
  | some o =>
    simp only [Option.map_some, Mem.map_set]
    cases h : p.slot <;> rfl

variable {φ : α → β} {good : α → Prop} (H : Hom φ good)
include H

theorem Mem.map_construct (rs : List PSquare.Ratio) (m : Mem w α) (a : Nat) :
    (Mem.construct rs m a).map φ = Mem.construct rs (m.map φ) a := by
  unfold Mem.construct
  rw [Mem.map_set]
  simp only [Option.map_some, Obj.map, PSquare.map_init H]
theorem Mem.map_clear (m : Mem w α) (a : Nat) : (m.clear a).map (Mem.map φ) = (m.map φ).clear a := by
  unfold Mem.clear
  rw [show m.map φ a = (m a).map (Obj.map φ) from rfl]
  cases m a with
  | none => rfl
  | some o =>
    simp only [Option.map_some, Mem.map_set]
    simp only [Obj.map, PSquare.map_clear H]
theorem Mem.map_swapWindows (W : Nat) (m : Mem w α) (a : Nat) :
    (m.swapWindows W a).map (Mem.map φ) = (m.map φ).swapWindows W a := by
  unfold Mem.swapWindows
  rw [show m.map φ a = (m a).map (Obj.map φ) from rfl]
  simp only [← Mem.map_load]
  cases m a with
  | none => rfl
  | some o =>
    simp only [Option.bind_eq_bind, Option.bind_some, Option.map_some, Option.pure_def, show (o.map φ).active = o.active from rfl,
      show (o.map φ).inactive = o.inactive from rfl]
    cases m.load o.active with
    | none => rfl
    | some act =>
      simp only [Option.bind_some, Option.map_some, show (act.map φ).size = act.size from rfl]
      split_ifs
      · cases o.inactive with
        | none => simp only [Option.map_some, Mem.map_set]; rfl
        | some i =>
          simp only
          cases m.load i with
          | none => rfl
          | some ina =>
            simp only [Option.bind_some, Option.map_some, ← PSquare.map_clear H, ← Mem.map_store]
            cases m.store i ina.clear with
            | none => rfl
            | some m' =>
              simp only [Option.bind_some, Option.map_some]
              rw [show m'.map φ a = (m' a).map (Obj.map φ) from rfl]
              cases m' a with
              | none => rfl
              | some o' => simp only [Option.bind_some, Option.map_some, Mem.map_set]; rfl
      · rfl
theorem Mem.map_push (W : Nat) (m : Mem w α) (a : Nat) (x : α) :
    (m.push W a x).map (Mem.map φ) = (m.map φ).push W a (φ x) := by
  unfold Mem.push
  rw [← Mem.map_swapWindows H]
  cases m.swapWindows W a with
  | none => rfl
  | some m =>
    simp only [Option.bind_eq_bind, Option.bind_some, Option.map_some]
    rw [show m.map φ a = (m a).map (Obj.map φ) from rfl]
    cases m a with
    | none => rfl
    | some o =>
      simp only [Option.bind_some, Option.map_some, ← Mem.map_load, show (o.map φ).active = o.active from rfl]
      cases m.load o.active with
      | none => rfl
      | some act =>
        simp only [Option.bind_some, Option.map_some, ← PSquare.map_push H]
        cases act.push x with
        | none => rfl
        | some act => exact Mem.map_store φ m _ _
theorem Mem.map_get (W : Nat) (m : Mem w α) (a k : Nat) : (m.get W a k).map φ = (m.map φ).get W a k := by
  unfold Mem.get
  rw [show m.map φ a = (m a).map (Obj.map φ) from rfl]
  simp only [← Mem.map_load]
  cases m a with
  | none => rfl
  | some o =>
    simp only [Option.bind_eq_bind, Option.bind_some, Option.map_some, Option.pure_def, show (o.map φ).active = o.active from rfl,
      show (o.map φ).inactive = o.inactive from rfl]
    cases m.load o.active with
    | none => rfl
    | some act =>
      simp only [Option.bind_some, Option.map_some, show (act.map φ).size = act.size from rfl]
      cases o.inactive with
      | none => exact PSquare.map_get H act k
      | some i =>
        simp only
        cases m.load i with
        | none => rfl
        | some ina =>
          simp only [Option.bind_some, Option.map_some, ← PSquare.map_get H]
          cases ina.get k with
          | none => rfl
          | some gi =>
            cases act.get k with
            | none => rfl
            | some ga => simp only [Option.bind_some, Option.map_some, H.divSize, H.add, H.mul, H.ofSize]
theorem Mem.map_run (W : Nat) (m : Mem w α) (a : Nat) (ops : List (Op α)) :
    (m.run W a ops).map (Mem.map φ) = (m.map φ).run W a (ops.map (Op.map φ)) := by
  refine runOps_natural (Option.map (Mem.map φ)) φ rfl ?_ ?_ ops
  · intro s x
    cases s with
    | none => rfl
    | some s => exact Mem.map_push H W s a x
  · intro s
    cases s with
    | none => rfl
    | some s => exact Mem.map_clear H s a

end InterimPSquare
end Verif
