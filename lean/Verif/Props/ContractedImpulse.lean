import Verif.Model.ContractedImpulse
import Verif.Props.IIRError
import Verif.Props.IntegerData
import Verif.Proofs.Contracted
import Verif.Proofs.Negation
/-
C161, C162: the FIR and IIR filters compiled with contracted floating-point expressions (fused multiply-add).  A history
says of every product of every push whether it is contracted.
-/
namespace Verif.Props
open Scalar Impulse Exact Verif.Contracted

variable {F : Fmt} {p : Nat} {emin : Int} {u η ε : ℝ}

/-- The data points of a history since the last `clear`. -/
def pushed {κ β : Type} (ops : List (Op (κ × β))) : List β := (sinceClear ops).map Prod.snd

/-- A history of calls with finite numbers. -/
def finK {κ : Type} (ops : List (Op (κ × ℝ))) : List (Op (κ × X F)) := ops.map (Op.map fun i => (i.1, X.fin i.2))

/-- The history without the choices of the compiler. -/
def withoutChoices {κ β : Type} (ops : List (Op (κ × β))) : List (Op β) := ops.map (Op.map Prod.snd)

theorem pushed_eq {κ β : Type} (ops : List (Op (κ × β))) : sinceClear (withoutChoices ops) = pushed ops := sinceClear_map _ _

theorem sinceClear_finK {κ : Type} (ops : List (Op (κ × ℝ))) :
    sinceClear (finK ops : List (Op (κ × X F))) = (sinceClear ops).map fun i => (i.1, X.fin i.2) := sinceClear_map _ _

theorem pushed_finK {κ : Type} (ops : List (Op (κ × ℝ))) :
    pushed (finK ops : List (Op (κ × X F))) = (pushed ops).map X.fin := by
  rw [pushed, sinceClear_finK, pushed, List.map_map, List.map_map]; rfl

theorem pushed_push {κ β : Type} (ops : List (Op (κ × β))) (i : κ × β) : pushed (ops ++ [.push i]) = pushed ops ++ [i.2] := by
  rw [pushed, sinceClear_append_push, List.map_append]; rfl

theorem pushed_clear {κ β : Type} (ops : List (Op (κ × β))) : pushed (ops ++ [.clear]) = [] := by
  rw [pushed, sinceClear_append_clear]; rfl

/-! ### The inner product -/

theorem fused_none {α : Type} [Fused α] (acc : α) (l cs : List α) :
    Contracted.innerProduct (fun _ => false) acc l cs = Impulse.innerProduct acc l cs := by
  induction l generalizing acc cs with
  | nil => rfl
  | cons x l ih =>
    cases cs with
    | nil => rfl
    | cons c cs => exact ih _ _

theorem fused_some {α : Type} [Fused α] (fl : Nat → Bool) (acc : α) {l cs : List α} (h : l.length ≤ cs.length) :
    ∃ r, Contracted.innerProduct fl acc l cs = some r := by
  induction l generalizing acc cs fl with
  | nil => exact ⟨acc, by simp [Contracted.innerProduct]⟩
  | cons x l ih =>
    cases cs with
    | nil => simp at h
    | cons c cs => exact ih _ _ (by simpa using h)

theorem fused_nonfin {fl : Nat → Bool} {acc : X F} (h : ∀ a, acc ≠ X.fin a) {l cs : List (X F)} {r : ℝ} :
    Contracted.innerProduct fl acc l cs ≠ some (X.fin r) := by
  induction l generalizing acc cs fl with
  | nil => simpa [Contracted.innerProduct] using h r
  | cons x l ih =>
    cases cs with
    | nil => simp [Contracted.innerProduct]
    | cons c cs =>
      refine ih fun a => ?_
      rw [addMul]
      split_ifs
      · have key : ∀ z : X F, acc.add z ≠ X.fin a := by
          intro z
          cases acc with
          | fin b => exact absurd rfl (h b)
          | pinf => cases z <;> (intro h; cases h)
          | ninf => cases z <;> (intro h; cases h)
          | nan => cases z <;> (intro h; cases h)
        cases x <;> cases c <;> first | exact key _ | skip
        cases acc with
        | fin b => exact absurd rfl (h b)
        | pinf => intro h; cases h
        | ninf => intro h; cases h
        | nan => intro h; cases h
      · generalize x * c = y
        cases acc with
        | fin b => exact absurd rfl (h b)
        | pinf => cases y <;> (intro h; cases h)
        | ninf => cases y <;> (intro h; cases h)
        | nan => cases y <;> (intro h; cases h)

/-- The product as it enters the sum. -/
noncomputable def fusedProduct (F : Fmt) (b : Bool) (t : ℝ) : ℝ := if b then t else F.rnd t

theorem fusedProduct_err (hE : F.Err u η) (b : Bool) (t : ℝ) : |fusedProduct F b t - t| ≤ u * |t| + η := by
  rw [fusedProduct]
  split_ifs
  · rw [sub_self, abs_zero]
    have := hE.u_nonneg
    have := hE.eta_nonneg
    positivity
  · exact hE.err t

theorem addMul_eq_fin {b : Bool} {a x c r : ℝ} (h : (addMul b (X.fin a) (X.fin x) (X.fin c) : X F) = X.fin r) :
    r = F.rnd (a + fusedProduct F b (x * c)) := by
  cases b
  · exact X.fin_inj.1 ((X.mul_fin_fin (F := F) (v := a) (a := x) (b := c) rfl ⟨r, h⟩).symm.trans h).symm |>.symm ▸ rfl
  · have := X.round_fin (F := F) h
    rw [this, add_comm]; rfl

theorem fused_err_of_fin (hE : F.Err u η) {l cs : List ℝ} :
    ∀ {fl : Nat → Bool} {k : Nat} {a s T r : ℝ}, |s| ≤ T → |a - s| ≤ Spec_dotError u η k T →
      Contracted.innerProduct fl (X.fin a : X F) (l.map X.fin) (cs.map X.fin) = some (X.fin r) →
      |r - (s + (List.zipWith (· * ·) l cs).sum)|
          ≤ Spec_dotError u η (k + l.length) (T + (List.zipWith (fun x c => |x * c|) l cs).sum) := by
  induction l generalizing cs with
  | nil =>
    intro fl k a s T r _ ha h
    simp only [List.map_nil, Contracted.innerProduct, Option.some.injEq, X.fin_inj] at h
    subst h
    simpa using ha
  | cons x l ih =>
    cases cs with
    | nil => simp [Contracted.innerProduct]
    | cons c cs =>
      intro fl k a s T r hs ha h
      simp only [List.zipWith_cons_cons, List.sum_cons, List.length_cons]
      simp only [List.map_cons, Contracted.innerProduct] at h
      obtain ⟨v, hv⟩ : ∃ v, (addMul (fl 0) (X.fin a) (X.fin x) (X.fin c) : X F) = X.fin v := by
        by_contra hc
        push Not at hc
        exact fused_nonfin hc h
      rw [hv, addMul_eq_fin hv] at h
      obtain ⟨h1, -⟩ := dot_step hE.u_nonneg hE.eta_nonneg hs ha (fusedProduct_err hE (fl 0) (x * c))
        (hE.err (a + fusedProduct F (fl 0) (x * c)))
      have := ih ((abs_add_le s (x * c)).trans (add_le_add hs le_rfl)) h1 h
      rw [show k + 1 + l.length = k + (l.length + 1) by omega, add_assoc T, add_assoc s] at this
      exact this

theorem addMul_within (hF : F.Binary p emin) {K : ℝ} (hK : IsRep p emin K) (hKf : F.fits K) (b : Bool) {a x c : ℝ}
    (h1 : |x * c| ≤ K) (h2 : |a + fusedProduct F b (x * c)| ≤ K) :
    (addMul b (X.fin a) (X.fin x) (X.fin c) : X F) = X.fin (F.rnd (a + fusedProduct F b (x * c))) := by
  rw [addMul_fin]
  cases b
  · rw [if_neg (by simp), round_within hF hK hKf h1, X.add_fin]
    exact round_within hF hK hKf h2
  · rw [if_pos rfl, add_comm]
    exact round_within hF hK hKf h2

/-- The inner product does not overflow. -/
theorem fused_fin (hF : F.Binary p emin) (hE : F.Err u η) {K : ℝ} (hK : IsRep p emin K) (hKf : F.fits K)
    {l cs : List ℝ} (hl : l.length ≤ cs.length) :
    ∀ {fl : Nat → Bool} {k : Nat} {a s T : ℝ}, |s| ≤ T → |a - s| ≤ Spec_dotError u η k T →
      (T + (List.zipWith (fun x c => |x * c|) l cs).sum)
        + Spec_dotError u η (k + l.length) (T + (List.zipWith (fun x c => |x * c|) l cs).sum) ≤ K →
      ∃ r : ℝ, Contracted.innerProduct fl (X.fin a : X F) (l.map X.fin) (cs.map X.fin) = some (X.fin r) := by
  have hu := hE.u_nonneg
  have he := hE.eta_nonneg
  induction l generalizing cs with
  | nil =>
    intro fl k a s T _ ha _
    exact ⟨a, by simp [Contracted.innerProduct]⟩
  | cons x l ih =>
    cases cs with
    | nil => simp at hl
    | cons c cs =>
      intro fl k a s T hs ha hfit
      have hN := zipAbs_nonneg l cs
      simp only [List.zipWith_cons_cons, List.sum_cons, List.length_cons] at hfit ⊢
      set N := (List.zipWith (fun x c => |x * c|) l cs).sum
      have hT0 : 0 ≤ T := (abs_nonneg _).trans hs
      have ht0 := abs_nonneg (x * c)
      have pw : ∀ m : Nat, (1 : ℝ) ≤ (1 + u) ^ m := fun m => one_le_pow₀ (by linarith)
      have hmono : (T + |x * c|) + Spec_dotError u η (k + 1) (T + |x * c|)
          ≤ (T + (|x * c| + N)) + Spec_dotError u η (k + (l.length + 1)) (T + (|x * c| + N)) := by
        refine add_le_add (by linarith) ((dotError_mono hu he (m := k + (l.length + 1)) (by omega) (by linarith)).trans ?_)
        exact add_le_add (mul_le_mul_of_nonneg_left (by linarith) (by linarith [pw (k + (l.length + 1) + 1)])) le_rfl
      have hxcK : |x * c| ≤ K := by
        have h0 : 0 ≤ Spec_dotError u η (k + 1) (T + |x * c|) := by
          have := mul_nonneg (show (0:ℝ) ≤ (1 + u) ^ (k + 1 + 1) - 1 by linarith [pw (k + 1 + 1)]) (show 0 ≤ T + |x * c| by linarith)
          rw [Spec_dotError]
          positivity
        linarith
      obtain ⟨h1, h2⟩ := dot_step hu he hs ha (fusedProduct_err hE (fl 0) (x * c)) (hE.err (a + fusedProduct F (fl 0) (x * c)))
      obtain ⟨r, hr⟩ := ih (cs := cs) (by simpa using hl) (fl := fun k => fl (k + 1)) (k := k + 1)
        ((abs_add_le s (x * c)).trans (add_le_add hs le_rfl)) h1
        (by rw [show k + 1 + l.length = k + (l.length + 1) by omega, add_assoc T]; exact hfit)
      refine ⟨r, ?_⟩
      simp only [List.map_cons, Contracted.innerProduct]
      rw [addMul_within hF hK hKf _ hxcK (h2.trans (hmono.trans hfit))]
      exact hr

theorem fused_newest_err (hF : F.Binary p emin) (hE : F.Err u η) (fl : Nat → Bool) (cs xs : List ℝ) {y : ℝ}
    (h : Contracted.innerProduct fl (ofNat 0 : X F) ((xs.reverse.take cs.length).map X.fin) (cs.map X.fin) = some (X.fin y)) :
    |y - Spec.fir cs xs| ≤ Spec_dotError u η (min cs.length xs.length) (Spec_firAbs cs xs) := by
  rw [hF.ofNat_zero] at h
  have := fused_err_of_fin (k := 0) (s := 0) (T := 0) hE (by simp) (by simp [Spec_dotError]) h
  rw [zipWith_take, zipWith_take_abs] at this
  simpa [Spec.fir_eq, Spec_firAbs] using this

theorem fused_newest_fin (hF : F.Binary p emin) (hE : F.Err u η) {K : ℝ} (hK : IsRep p emin K) (hKf : F.fits K) (fl : Nat → Bool)
    (cs xs : List ℝ) {n : Nat} (hn : min cs.length xs.length ≤ n) {T : ℝ} (hT : Spec_firAbs cs xs ≤ T)
    (hfit : T + Spec_dotError u η n T ≤ K) :
    ∃ r : ℝ, Contracted.innerProduct fl (ofNat 0 : X F) ((xs.reverse.take cs.length).map X.fin) (cs.map X.fin) = some (X.fin r)
      ∧ |r - Spec.fir cs xs| ≤ Spec_dotError u η n T := by
  have n1 : 0 ≤ Spec_firAbs cs xs := zipAbs_nonneg _ _
  have hu := hE.u_nonneg
  have he := hE.eta_nonneg
  have hm : ∀ m ≤ n, Spec_dotError u η m (Spec_firAbs cs xs) ≤ Spec_dotError u η n T := by
    intro m hm
    refine (dotError_mono hu he hm n1).trans (add_le_add ?_ le_rfl)
    exact mul_le_mul_of_nonneg_left hT (by linarith [one_le_pow₀ (M₀ := ℝ) (n := n + 1) (show 1 ≤ 1 + u by linarith)])
  obtain ⟨r, hr⟩ := fused_fin (fl := fl) (k := 0) (a := 0) (s := 0) (T := 0) hF hE hK hKf
    (l := xs.reverse.take cs.length) (cs := cs) (by simp) (by simp) (by simp [Spec_dotError])
    (by rw [zipWith_take_abs, zero_add]; exact (add_le_add hT (hm _ (by simpa using hn))).trans hfit)
  have hr' : Contracted.innerProduct fl (ofNat 0 : X F) ((xs.reverse.take cs.length).map X.fin) (cs.map X.fin) = some (X.fin r) := by
    rw [hF.ofNat_zero]; exact hr
  exact ⟨r, hr', (fused_newest_err hF hE fl cs xs hr').trans (hm _ hn)⟩

/-! ### C161, FIR filter -/

/-- The state of the contracted FIR filter in any arithmetic. -/
theorem fusedFinite_some {α : Type} [Fused α] {cs : List α} (hc : cs ≠ []) (ops : List (Op ((Nat → Bool) × α))) :
    ∃ s : Impulse.Finite α, Contracted.Finite.run cs ops = some s ∧ s.coefficients = cs
      ∧ s.input = ⟨cs.length, (pushed ops).reverse.take cs.length⟩ := by
  have hP : 1 ≤ cs.length := List.length_pos_iff.2 hc
  induction ops using List.reverseRecOn with
  | nil => exact ⟨_, rfl, rfl, by simp [Impulse.Finite.init, Deque.init, pushed, sinceClear]⟩
  | append_singleton ops op ih =>
    obtain ⟨s, hs, h1, h2⟩ := ih
    rw [Contracted.Finite.run, runOps_append]
    rw [Contracted.Finite.run] at hs
    rw [hs]
    cases op with
    | push i =>
      rw [pushed_push]
      have hd := pushFront_take hP (pushed ops).reverse i.2
      obtain ⟨r, hr⟩ := fused_some i.1 (ofNat 0 : α) (l := (i.2 :: (pushed ops).reverse).take cs.length) (cs := cs) (by simp)
      refine ⟨{ s with input := s.input.pushFront i.2, output := r }, ?_, h1, ?_⟩
      · show Contracted.Finite.push s i = _
        rw [Contracted.Finite.push, h1, h2, hd]
        simp only [hr, Option.map_some]
      · rw [List.reverse_append]
        show s.input.pushFront i.2 = _
        rw [h2, hd]; rfl
    | clear =>
      rw [pushed_clear]
      refine ⟨s.clear, rfl, h1, ?_⟩
      show s.input.clear = _
      rw [h2]; simp [Deque.clear]

theorem fusedFinite_push (cs : List ℝ) (hc : cs ≠ []) (ops : List (Op ((Nat → Bool) × ℝ))) (i : (Nat → Bool) × ℝ) :
    ∃ s : Impulse.Finite (X F), Contracted.Finite.run (cs.map X.fin) (finK (ops ++ [.push i])) = some s
      ∧ Contracted.innerProduct i.1 (ofNat 0 : X F) (((pushed (ops ++ [.push i])).reverse.take cs.length).map X.fin) (cs.map X.fin)
          = some s.value := by
  have hP : 1 ≤ cs.length := List.length_pos_iff.2 hc
  have hc' : (cs.map (X.fin : ℝ → X F)) ≠ [] := by simpa using hc
  obtain ⟨s, hs, h1, h2⟩ := fusedFinite_some hc' (finK ops : List (Op ((Nat → Bool) × X F)))
  rw [pushed_finK, List.length_map] at h2
  have hd := pushFront_take (P := cs.length) hP ((pushed ops).map (X.fin : ℝ → X F)).reverse (X.fin i.2)
  have e : (X.fin i.2 :: ((pushed ops).map (X.fin : ℝ → X F)).reverse).take cs.length
      = ((pushed (ops ++ [.push i])).reverse.take cs.length).map X.fin := by
    rw [pushed_push, List.reverse_append, List.map_take, List.map_append]
    simp
  obtain ⟨r, hr⟩ := fused_some i.1 (ofNat 0 : X F)
    (l := ((pushed (ops ++ [.push i])).reverse.take cs.length).map X.fin) (cs := cs.map X.fin) (by simp)
  refine ⟨{ s with input := s.input.pushFront (X.fin i.2), output := r }, ?_, hr⟩
  rw [finK, List.map_append, Contracted.Finite.run, runOps_append]
  rw [Contracted.Finite.run, finK] at hs
  rw [hs]
  show Contracted.Finite.push s (i.1, X.fin i.2) = _
  rw [Contracted.Finite.push, h1, h2, hd]
  simp only [e, hr, Option.map_some]

/-- C161: with no contraction this is the filter of the other properties. -/
theorem C161_fir_plain {α : Type} [Fused α] (cs : List α) (ops : List (Op α)) :
    Contracted.Finite.run cs (ops.map (Op.map fun x => ((fun _ => false), x))) = Impulse.Finite.run cs ops := by
  induction ops using List.reverseRecOn with
  | nil => rfl
  | append_singleton ops op ih =>
    rw [Contracted.Finite.run, Impulse.Finite.run] at ih ⊢
    rw [List.map_append, runOps_append, runOps_append, ih]
    cases op with
    | push x =>
      show Option.bind _ _ = Option.bind _ _
      congr 1
      funext s
      show Contracted.Finite.push s _ = _
      rw [Contracted.Finite.push, fused_none, Impulse.Finite.push]
    | clear => rfl

/-- C161, FIR filter: the error bound holds whichever products are contracted. -/
theorem C161_fir (hF : F.Binary p emin) (hE : F.Err u η) (cs : List ℝ) (hc : cs ≠ []) (ops : List (Op ((Nat → Bool) × ℝ)))
    (i : (Nat → Bool) × ℝ) {s : Impulse.Finite (X F)}
    (hs : Contracted.Finite.run (cs.map X.fin) (finK (ops ++ [.push i])) = some s) {y : ℝ} (hy : s.value = X.fin y) :
    |y - Spec.fir cs (pushed (ops ++ [.push i]))|
      ≤ Spec_dotError u η (min cs.length (pushed (ops ++ [.push i])).length) (Spec_firAbs cs (pushed (ops ++ [.push i]))) := by
  obtain ⟨s', hs', h⟩ := fusedFinite_push (F := F) cs hc ops i
  rw [hs, Option.some.injEq] at hs'
  rw [← hs', hy] at h
  exact fused_newest_err hF hE i.1 cs _ h

/-- C161, FIR filter: no overflow whichever products are contracted. -/
theorem C161_fir_finite (hF : F.Binary p emin) (hE : F.Err u η) {K : ℝ} (hK : IsRep p emin K) (hKf : F.fits K)
    (cs : List ℝ) (hc : cs ≠ []) (ops : List (Op ((Nat → Bool) × ℝ))) (i : (Nat → Bool) × ℝ)
    (hfit : Spec_firAbs cs (pushed (ops ++ [.push i]))
      + Spec_dotError u η (min cs.length (pushed (ops ++ [.push i])).length) (Spec_firAbs cs (pushed (ops ++ [.push i]))) ≤ K) :
    ∃ (s : Impulse.Finite (X F)) (y : ℝ), Contracted.Finite.run (cs.map X.fin) (finK (ops ++ [.push i])) = some s
      ∧ s.value = X.fin y := by
  obtain ⟨s, hs, h⟩ := fusedFinite_push (F := F) cs hc ops i
  obtain ⟨r, hr, -⟩ := fused_newest_fin hF hE hK hKf i.1 cs (pushed (ops ++ [.push i])) le_rfl le_rfl hfit
  rw [hr, Option.some.injEq] at h
  exact ⟨s, r, hs, h.symm⟩

/-- `double`, coefficients 2 and 1, only the second product of the last push contracted. -/
example : ∃ (s : Impulse.Finite (X binary64)) (y : ℝ),
    Contracted.Finite.run [X.fin 2, X.fin 1] (finK [.push (fun _ => true, 100), .clear, .push (fun _ => false, 1), .push ((· == 1), 5)]) = some s
      ∧ s.value = X.fin y
      ∧ |y - 11| ≤ ((1 + 2 ^ (-53 : Int)) ^ 3 - 1) * 11 + 4 * (1 + 2 ^ (-53 : Int)) ^ 2 * 2 ^ (-1075 : Int) := by
  have hsc : pushed ([.push (fun _ => true, 100), .clear, .push (fun _ => false, 1)] ++ [.push ((· == 1), 5)]
      : List (Op ((Nat → Bool) × ℝ))) = [1, 5] := rfl
  have hK := binary64_int (n := 100) (by norm_num)
  push_cast at hK
  have hη : (2 : ℝ) ^ (-1075 : Int) ≤ 2 ^ (0 : Int) := zpow_le_zpow_right₀ (by norm_num) (by norm_num)
  have e : Spec_firAbs [2, 1] [1, 5] = 11 := by norm_num [Spec_firAbs]
  have e2 : Spec.fir [2, 1] [1, 5] = 11 := by norm_num [Spec.fir_eq]
  obtain ⟨s, y, h1, h2⟩ := C161_fir_finite binary64_binary binary64_err hK.1 hK.2 [2, 1] (by simp)
    [.push (fun _ => true, 100), .clear, .push (fun _ => false, 1)] ((· == 1), 5) (by
      rw [hsc, e]
      simp only [Spec_dotError, List.length_cons, List.length_nil]
      norm_num at hη ⊢
      linarith)
  have h3 := C161_fir binary64_binary binary64_err [2, 1] (by simp) _ _ h1 h2
  rw [hsc, e, e2] at h3
  refine ⟨s, y, h1, h2, h3.trans (le_of_eq ?_)⟩
  norm_num [Spec_dotError]

theorem fused_grid (hF : F.Binary p emin) {e e' : Int} {A B : Nat} (hmin : emin ≤ e + e') (hf : F.fits (2 ^ p * (2 : ℝ) ^ (e + e')))
    {l cs : List ℝ} (hl : l.length ≤ cs.length) (hx : ∀ x ∈ l, Grid e A x) (hc : ∀ c ∈ cs, Grid e' B c) :
    ∀ {fl : Nat → Bool} {D : Nat} {a : ℝ}, Grid (e + e') D a → D + l.length * (A * B) < 2 ^ p →
      Contracted.innerProduct fl (X.fin a : X F) (l.map X.fin) (cs.map X.fin) = some (X.fin (a + (List.zipWith (· * ·) l cs).sum)) := by
  induction l generalizing cs with
  | nil => intro fl D a _ _; simp [Contracted.innerProduct]
  | cons x l ih =>
    cases cs with
    | nil => simp at hl
    | cons c cs =>
      intro fl D a ha hD
      rw [List.length_cons, Nat.add_mul, one_mul] at hD
      have g1 := (hx x List.mem_cons_self).mul (hc c List.mem_cons_self)
      have g2 := ha.add g1
      simp only [List.map_cons, Contracted.innerProduct]
      rw [addMul_fin, g1.round hF (by omega) hmin hf, X.add_fin, add_comm (x * c), g2.round hF (by omega) hmin hf, ite_self,
        ih (by simpa using hl) (fun y hy => hx y (List.mem_cons_of_mem _ hy)) (fun y hy => hc y (List.mem_cons_of_mem _ hy)) g2 (by omega)]
      simp [add_assoc]

/-- C161, FIR filter with data and coefficients on a grid (integers, for example): the value is exactly the convolution
whichever products are contracted. -/
theorem C161_fir_integers (hF : F.Binary p emin) {e e' : Int} {A B : Nat} (cs : List ℝ) (hcs : cs ≠ [])
    (ops : List (Op ((Nat → Bool) × ℝ))) (i : (Nat → Bool) × ℝ) (hx : ∀ y ∈ pushed (ops ++ [.push i]), Grid e A y)
    (hc : ∀ c ∈ cs, Grid e' B c) (hp : cs.length * (A * B) < 2 ^ p)
    (hmin : emin ≤ e + e') (hf : F.fits (2 ^ p * (2 : ℝ) ^ (e + e'))) :
    ∃ s : Impulse.Finite (X F), Contracted.Finite.run (cs.map X.fin) (finK (ops ++ [.push i])) = some s
      ∧ s.value = X.fin (Spec.fir cs (pushed (ops ++ [.push i]))) := by
  obtain ⟨s, hs, h⟩ := fusedFinite_push (F := F) cs hcs ops i
  rw [hF.ofNat_zero, fused_grid (D := 0) hF hmin hf (by simp) (fun x h => hx x (List.mem_reverse.1 (List.mem_of_mem_take h))) hc
    Grid.zero (lt_of_le_of_lt (by rw [zero_add]; exact Nat.mul_le_mul_right _ (by simp)) hp), Impulse.zipWith_take, zero_add,
    ← Spec.fir_eq, Option.some.injEq] at h
  exact ⟨s, hs, h.symm⟩

example : ∃ s : Impulse.Finite (X binary64),
    Contracted.Finite.run ([1, -2].map X.fin) (finK ([.push ((fun _ => true), 3)] ++ [.push ((fun _ => true), 5)])) = some s
    ∧ s.value = X.fin (-1) := by
  obtain ⟨s, h1, h2⟩ := C161_fir_integers (e := 0) (e' := 0) (A := 5) (B := 2) binary64_binary [1, -2] (by simp)
    [.push ((fun _ => true), 3)] ((fun _ => true), 5)
    (by
      intro x hx
      simp only [pushed, sinceClear, List.foldl_cons, List.foldl_nil, List.nil_append, List.cons_append, List.map_cons, List.map_nil,
        List.mem_cons, List.not_mem_nil, or_false] at hx
      rcases hx with rfl | rfl
      exacts [by exact_mod_cast Grid.int 3 (by norm_num), by exact_mod_cast Grid.int 5 (by norm_num)])
    (by
      intro x hx
      simp only [List.mem_cons, List.not_mem_nil, or_false] at hx
      rcases hx with rfl | rfl
      exacts [by exact_mod_cast Grid.int 1 (by norm_num), by exact_mod_cast Grid.int (-2) (by norm_num)])
    (by norm_num) (by norm_num) (by rw [add_zero]; exact fits_53)
  refine ⟨s, h1, h2.trans ?_⟩
  congr 1
  simp [pushed, sinceClear, Spec.fir_eq]
  norm_num

/-! ### C161, IIR filter -/

/-- The state of the contracted IIR filter in any arithmetic. -/
theorem fusedInfinite_eq {α : Type} [Fused α] {as bs : List α} (ha : as ≠ []) (hb : bs ≠ []) (c : α)
    (ops : List (Op (((Nat → Bool) × (Nat → Bool)) × α))) :
    Contracted.Infinite.run as bs c ops
        = (sinceClear ops).foldl (fun s x => s.bind (Contracted.Infinite.push · x)) (some (Impulse.Infinite.init as bs c))
    ∧ ∃ s : Impulse.Infinite α, Contracted.Infinite.run as bs c ops = some s
      ∧ s.inputCoefficients = as ∧ s.outputCoefficients = bs ∧ s.outputScale = c
      ∧ s.inputWindow = ⟨as.length, (pushed ops).reverse.take as.length⟩
      ∧ ∃ ys : List α, ys.length = (pushed ops).length
        ∧ s.outputWindow = ⟨bs.length, ys.reverse.take bs.length⟩ := by
  have hP : 1 ≤ as.length := List.length_pos_iff.2 ha
  have hQ : 1 ≤ bs.length := List.length_pos_iff.2 hb
  induction ops using List.reverseRecOn with
  | nil => exact ⟨rfl, _, rfl, rfl, rfl, rfl, by simp [Impulse.Infinite.init, Deque.init, pushed, sinceClear],
      [], rfl, by simp [Impulse.Infinite.init, Deque.init]⟩
  | append_singleton ops op ih =>
    obtain ⟨he, s, hs, h1, h2, h3, h4, ys, hl, h5⟩ := ih
    rw [hs] at he
    rw [Contracted.Infinite.run, runOps_append]
    rw [Contracted.Infinite.run] at hs
    rw [hs]
    cases op with
    | push x =>
      rw [sinceClear_append_push, List.foldl_append, ← he, pushed_push]
      refine ⟨rfl, ?_⟩
      have hd := pushFront_take hP (pushed ops).reverse x.2
      obtain ⟨r, hr⟩ := fused_some x.1.1 (ofNat 0 : α)
        (l := (x.2 :: (pushed ops).reverse).take as.length) (cs := as) (by simp)
      obtain ⟨q, hq⟩ := fused_some x.1.2 (ofNat 0 : α)
        (l := ys.reverse.take bs.length) (cs := bs) (by simp)
      have hd2 := pushFront_take hQ ys.reverse ((r - q) / c)
      refine ⟨{ s with inputWindow := ⟨as.length, (x.2 :: (pushed ops).reverse).take as.length⟩
                       outputWindow := ⟨bs.length, (((r - q) / c) :: ys.reverse).take bs.length⟩ },
        ?_, h1, h2, h3, ?_, ys ++ [(r - q) / c], by simp [hl], by simp⟩
      · show Contracted.Infinite.push s x = _
        rw [Contracted.Infinite.push, h1, h2, h3, h4, h5, hd]
        simp only [hr, hq, hd2, Option.bind_eq_bind, Option.bind_some]
        rfl
      · simp
    | clear =>
      rw [sinceClear_append_clear, pushed_clear]
      have hcl : s.clear = Impulse.Infinite.init as bs c := by
        obtain ⟨a1, a2, a3, a4, a5⟩ := s
        simp only at h1 h2 h3 h4 h5
        subst h1 h2 h3 h4 h5
        rfl
      refine ⟨?_, _, rfl, ?_⟩
      · show some s.clear = _
        rw [hcl]; rfl
      · rw [hcl]
        exact ⟨rfl, rfl, rfl, by simp [Impulse.Infinite.init, Deque.init], [], rfl, by simp [Impulse.Infinite.init, Deque.init]⟩

/-- C161: with no contraction this is the filter of the other properties. -/
theorem C161_iir_plain {α : Type} [Fused α] (as bs : List α) (c : α) (ops : List (Op α)) :
    Contracted.Infinite.run as bs c (ops.map (Op.map fun x => (((fun _ => false), (fun _ => false)), x))) = Impulse.Infinite.run as bs c ops := by
  induction ops using List.reverseRecOn with
  | nil => rfl
  | append_singleton ops op ih =>
    rw [Contracted.Infinite.run, Impulse.Infinite.run] at ih ⊢
    rw [List.map_append, runOps_append, runOps_append, ih]
    cases op with
    | push x =>
      show Option.bind _ _ = Option.bind _ _
      congr 1
      funext s
      show Contracted.Infinite.push s _ = _
      rw [Contracted.Infinite.push, fused_none, fused_none, Impulse.Infinite.push]
    | clear => rfl

/-- C161, IIR filter: a stable filter keeps the bound on its values and on its error, whichever products are contracted. -/
theorem C161_iir (hF : F.Binary p emin) (hE : F.Err u η) {K : ℝ} (hK : IsRep p emin K) (hKf : F.fits K)
    {as bs : List ℝ} (ha : as ≠ []) (hb : bs ≠ []) {c B : ℝ} (hB0 : 0 ≤ B)
    (hst : (1 + Spec_iirRel u (max as.length bs.length)) * (bs.map abs).sum < |c|)
    (hcM : |c| * Spec_iirBound u η as bs c B ≤ K) (hMK : Spec_iirBound u η as bs c B ≤ K)
    (ops : List (Op (((Nat → Bool) × (Nat → Bool)) × ℝ))) (hx : ∀ x ∈ pushed ops, |x| ≤ B) :
    ∃ (s : Impulse.Infinite (X F)) (t : Impulse.Infinite (E ε)) (y z : ℝ),
      Contracted.Infinite.run (as.map X.fin) (bs.map X.fin) (X.fin c) (finK ops) = some s ∧ s.value = X.fin y
      ∧ Impulse.Infinite.run (as.map X.fin) (bs.map X.fin) (X.fin c) (finOps (withoutChoices ops)) = some t ∧ t.value = X.fin z
      ∧ |y| ≤ Spec_iirBound u η as bs c B ∧ |y - z| ≤ Spec_iirDrift u η as bs c B := by
  have hP : 1 ≤ as.length := List.length_pos_iff.2 ha
  have hQ : 1 ≤ bs.length := List.length_pos_iff.2 hb
  have hb0 := sum_abs_nonneg bs
  have ha0 := sum_abs_nonneg as
  have hu := hE.u_nonneg
  have he := hE.eta_nonneg
  have hrel : 0 ≤ Spec_iirRel u (max as.length bs.length) := by
    rw [Spec_iirRel]
    linarith [one_le_pow₀ (M₀ := ℝ) (n := max as.length bs.length + 3) (show 1 ≤ 1 + u by linarith)]
  have hc : c ≠ 0 := by rintro rfl; rw [abs_zero] at hst; nlinarith
  obtain ⟨ys, zs, hl, hz, hs, hyM, hyD⟩ := iir_stable_core hE (Prod.snd : ((Nat → Bool) × (Nat → Bool)) × ℝ → ℝ)
    (fun is ys => (is.map fun i => (i.1, X.fin i.2)).foldl (fun s x => s.bind (Contracted.Infinite.push · x))
          (some (Impulse.Infinite.init (as.map X.fin) (bs.map X.fin) (X.fin c)))
        = some { inputWindow := ⟨as.length, (((is.map Prod.snd).reverse).take as.length).map X.fin⟩
                 inputCoefficients := as.map X.fin
                 outputWindow := ⟨bs.length, (ys.reverse.take bs.length).map X.fin⟩
                 outputScale := (X.fin c : X F)
                 outputCoefficients := bs.map X.fin }) hB0 hst (by simp [Impulse.Infinite.init, Deque.init])
    (by
      intro is i ys hs S T hS hT hM
      have hfa : |Spec.fir as ((is ++ [i]).map Prod.snd)| ≤ S := (by rw [Spec.fir_eq]; exact abs_zip_le _ _ : _ ≤ Spec_firAbs as _).trans hS
      have hfb : |Spec.fir bs ys| ≤ T := (by rw [Spec.fir_eq]; exact abs_zip_le _ _ : _ ≤ Spec_firAbs bs ys).trans hT
      obtain ⟨r1, r2⟩ := iir_range hu he ((abs_nonneg _).trans hfa) ((abs_nonneg _).trans hfb) (hM.trans hcM)
      obtain ⟨a, h1, ha2⟩ := fused_newest_fin hF hE hK hKf i.1.1 as _ ((min_le_left _ _).trans (le_max_left _ _)) hS r1
      obtain ⟨b, h2, hb2⟩ := fused_newest_fin hF hE hK hKf i.1.2 bs ys ((min_le_left _ _).trans (le_max_right _ _)) hT r2
      obtain ⟨y, h3, h4, h5⟩ := iir_div_fin hF hE hK hKf hc hfa hfb ha2 hb2 hM hcM hMK
      have hd := pushFront_take (P := as.length) hP ((is.map Prod.snd).reverse.map (X.fin : ℝ → X F)) (X.fin i.2)
      have hd2' := fun z => pushFront_take (P := bs.length) hQ (ys.reverse.map (X.fin : ℝ → X F)) z
      simp only [← List.map_cons, ← List.map_take] at hd hd2'
      refine ⟨y, ?_, h4, h5⟩
      rw [List.map_append, List.foldl_append, hs]
      show Contracted.Infinite.push _ (i.1, X.fin i.2) = _
      rw [List.map_append, List.map_singleton, List.reverse_append, List.reverse_singleton, List.singleton_append] at h1
      simp only [Contracted.Infinite.push, hd, h1, h2, Option.bind_eq_bind, Option.bind_some, hd2']
      rw [h3]
      simp [List.map_take]) (sinceClear ops) (fun i hi => hx _ (List.mem_map_of_mem hi))
  obtain ⟨t, zs', ht, hz', -, hv⟩ := C52_iir (ε := ε) ha hb hc (withoutChoices ops)
  rw [pushed_eq] at hz'
  obtain rfl := Spec.isIIR_unique hc hz hz'
  rw [← sinceClear_finK, ← (fusedInfinite_eq (by simpa using ha) (by simpa using hb) _ _).1] at hs
  have hlz := hz.1
  rw [List.length_map] at hlz
  obtain ⟨q, hq⟩ : ∃ q, bs.length = q + 1 := ⟨bs.length - 1, by omega⟩
  have hab0 : 0 ≤ Spec_iirAbs u η (max as.length bs.length) c := by rw [Spec_iirAbs]; positivity
  have hM0 : 0 ≤ Spec_iirBound u η as bs c B := div_nonneg (by positivity) (by linarith)
  refine ⟨_, t, ys.getLastD 0, zs.getLastD 0, hs, ?_, ht, hv, ?_⟩
  · rcases List.eq_nil_or_concat ys with rfl | ⟨l, y, rfl⟩
    · simp [Impulse.Infinite.value, hF.ofNat_zero]
    · simp [Impulse.Infinite.value, hq]
  · rcases List.eq_nil_or_concat ys with rfl | ⟨l, y, rfl⟩
    · obtain rfl : zs = [] := List.length_eq_zero_iff.1 (by rw [hlz, ← hl]; rfl)
      refine ⟨by simpa using hM0, ?_⟩
      simp only [List.getLastD_nil, sub_self, abs_zero]
      exact div_nonneg (by positivity) (by nlinarith)
    · rcases List.eq_nil_or_concat zs with rfl | ⟨l', z, rfl⟩
      · rw [← hl] at hlz; simp at hlz
      · simp only [List.concat_eq_append] at *
        rw [List.getLastD_concat, List.getLastD_concat]
        refine ⟨hyM y (by simp), ?_⟩
        have hll : l.length = l'.length := by rw [← hl] at hlz; simp at hlz; omega
        exact hyD (y - z) (by
          rw [List.zipWith_append hll]
          simp; right; ring)

/-- The filter `y_n = x_n + y_{n-1} / 2` with at most 1000 as input, contracted anyhow: the error is at most `2^-38`,
for ever. -/
example (ops : List (Op (((Nat → Bool) × (Nat → Bool)) × ℝ))) (hx : ∀ x ∈ pushed ops, |x| ≤ 1000) :
    ∃ (s : Impulse.Infinite (X binary64)) (t : Impulse.Infinite (E 0)) (y z : ℝ),
      Contracted.Infinite.run [X.fin 1] [X.fin (-1 / 2)] (X.fin 1) (finK ops) = some s ∧ s.value = X.fin y
      ∧ Impulse.Infinite.run [X.fin 1] [X.fin (-1 / 2)] (X.fin 1) (finOps (withoutChoices ops)) = some t ∧ t.value = X.fin z
      ∧ |y| ≤ 2001 ∧ |y - z| ≤ 2 ^ (-38 : Int) := by
  have hη : (2 : ℝ) ^ (-1075 : Int) ≤ 2 ^ (-100 : Int) := zpow_le_zpow_right₀ (by norm_num) (by norm_num)
  have hη0 : (0 : ℝ) ≤ 2 ^ (-1075 : Int) := by positivity
  have hK := binary64_int (n := 10000) (by norm_num)
  have hab : |(-1 / 2 : ℝ)| = 1 / 2 := by rw [abs_of_neg] <;> norm_num
  have hrel : Spec_iirRel (2 ^ (-53 : Int)) 1 ≤ 2 ^ (-50 : Int) := by norm_num [Spec_iirRel]
  have hrel0 : 0 ≤ Spec_iirRel (2 ^ (-53 : Int)) 1 := by norm_num [Spec_iirRel]
  have habs : Spec_iirAbs (2 ^ (-53 : Int)) (2 ^ (-1075 : Int)) 1 1 ≤ 2 ^ (-90 : Int) := by
    rw [Spec_iirAbs]
    refine (mul_le_mul_of_nonneg_left hη (by positivity)).trans ?_
    norm_num
  have hM : Spec_iirBound (2 ^ (-53 : Int)) (2 ^ (-1075 : Int)) [1] [-1 / 2] 1 1000 ≤ 2001 := by
    simp only [Spec_iirBound, List.length_cons, List.length_nil, List.map_cons, List.map_nil, List.sum_cons, List.sum_nil]
    rw [show Max.max (0 + 1) (0 + 1) = 1 from rfl, hab]
    generalize Spec_iirRel _ 1 = r at *
    generalize Spec_iirAbs _ _ 1 1 = a at *
    norm_num at hrel habs ⊢
    rw [div_le_iff₀ (by linarith)]
    linarith
  have hD : Spec_iirDrift (2 ^ (-53 : Int)) (2 ^ (-1075 : Int)) [1] [-1 / 2] 1 1000 ≤ 2 ^ (-38 : Int) := by
    rw [Spec_iirDrift]
    generalize Spec_iirBound _ _ [1] [-1 / 2] 1 1000 = m at *
    simp only [List.length_cons, List.length_nil, List.map_cons, List.map_nil, List.sum_cons, List.sum_nil]
    rw [show Max.max (0 + 1) (0 + 1) = 1 from rfl, hab]
    generalize Spec_iirRel _ 1 = r at *
    generalize Spec_iirAbs _ _ 1 1 = a at *
    norm_num at hrel habs ⊢
    rw [div_le_iff₀ (by norm_num)]
    have := mul_le_mul_of_nonneg_left (show 1000 + m * (1 / 2) ≤ 2001 by linarith) hrel0
    linarith
  obtain ⟨s, t, y, z, h1, h2, h3, h4, h5, h6⟩ := C161_iir (ε := 0) binary64_binary binary64_err hK.1 hK.2
    (as := [1]) (bs := [-1 / 2]) (by simp) (by simp) (c := 1) (B := 1000) (by norm_num)
    (by
      simp only [List.length_cons, List.length_nil, List.map_cons, List.map_nil, List.sum_cons, List.sum_nil, hab]
      rw [show Max.max (0 + 1) (0 + 1) = 1 from rfl]
      generalize Spec_iirRel _ 1 = r at *
      norm_num at hrel ⊢
      linarith)
    (by rw [abs_one, one_mul]; push_cast; linarith) (by push_cast; linarith) ops hx
  exact ⟨s, t, y, z, h1, h2, h3, h4, h5.trans hM, h6.trans hD⟩

/-! ### C162 -/

/-- C162 as stated, for `double`: the differencing filter with coefficients `c, -c` returns 0 if the last two values are
equal, whichever products are contracted. -/
def C162_Statement : Prop :=
  ∀ (c x : ℝ), |x * c| ≤ 2 ^ 53 → IsRep 53 (-1074) c → IsRep 53 (-1074) x → ∀ (ops : List (Op ((Nat → Bool) × ℝ))) (f g : Nat → Bool),
    ∃ s : Impulse.Finite (X binary64),
      Contracted.Finite.run [X.fin c, X.fin (-c)] (finK (ops ++ [.push (f, x)] ++ [.push (g, x)])) = some s ∧ s.value = X.fin 0

/-- C162: the value of the differencing filter after two equal values.  It depends on the contraction of the second
product of the last push only. -/
theorem C162_value (hF : F.Binary p emin) (hS : F.Odd) {K : ℝ} (hK : IsRep p emin K) (hKf : F.fits K) {c x : ℝ} (hxc : |x * c| ≤ K)
    (ops : List (Op ((Nat → Bool) × ℝ))) (f g : Nat → Bool) :
    ∃ s : Impulse.Finite (X F),
      Contracted.Finite.run [X.fin c, X.fin (-c)] (finK (ops ++ [.push (f, x)] ++ [.push (g, x)])) = some s
      ∧ s.value = if g 1 then X.round (F.rnd (x * c) - x * c) else X.fin 0 := by
  obtain ⟨s, hs, h⟩ := fusedFinite_push (F := F) [c, -c] (by simp) (ops ++ [.push (f, x)]) (g, x)
  refine ⟨s, hs, ?_⟩
  rw [pushed_push, pushed_push, List.reverse_append, List.reverse_append] at h
  simp only [List.reverse_singleton, List.singleton_append, List.length_cons, List.length_nil, zero_add, List.take_succ_cons,
    List.take_zero, List.map_cons, List.map_nil, Contracted.innerProduct, Option.some.injEq] at h
  rw [← h, hF.ofNat_zero]
  have e0 : (addMul (g 0) (X.fin 0) (X.fin x) (X.fin c) : X F) = X.fin (F.rnd (x * c)) := by
    rw [addMul_fin, add_zero, round_within hF hK hKf hxc, hF.zero_add (hF.rep _) (hF.fits_between (hF.fits_neg hKf) hKf
      (hF.le_rnd hK.neg (abs_le.1 hxc).1) (hF.rnd_le hK (abs_le.1 hxc).2)), ite_self]
  rw [e0, addMul_fin]
  split_ifs
  · congr 1; ring
  · rw [show x * -c = -(x * c) by ring, round_within hF hK hKf (by rwa [abs_neg]), hS.rnd_neg, X.add_fin, add_neg_cancel,
      hF.round_exact (isRep_zero _ _) hF.fits_zero]

/-- C162 is violated: coefficients `±(1 + 2^-52)` and the value `1 + 2^-52` twice give `-2^-104`. -/
theorem C162_violated_value :
    ∃ s : Impulse.Finite (X binary64),
      Contracted.Finite.run [X.fin (1 + 2 ^ (-52 : Int)), X.fin (-(1 + 2 ^ (-52 : Int)))]
        (finK [.push (fun _ => true, 1 + 2 ^ (-52 : Int)), .push (fun _ => true, 1 + 2 ^ (-52 : Int))]) = some s
      ∧ s.value = X.fin (-2 ^ (-104 : Int)) := by
  have hK := binary64_int (n := 100) (by norm_num)
  obtain ⟨s, h1, h2⟩ := C162_value binary64_binary (ieee_odd _ _ _) hK.1 hK.2 (c := 1 + 2 ^ (-52 : Int)) (x := 1 + 2 ^ (-52 : Int))
    (by rw [abs_of_pos (by positivity)]; norm_num) [] (fun _ => true) (fun _ => true)
  refine ⟨s, h1, h2.trans ?_⟩
  have hr : binary64.rnd ((1 + 2 ^ (-52 : Int)) * (1 + 2 ^ (-52 : Int))) = ((2 ^ 52 + 2 : Int) : ℝ) * 2 ^ (-52 : Int) :=
    rnd64_near _ _ (by norm_num) (by rw [abs_of_pos (by positivity)]; norm_num) (by rw [abs_of_pos (by positivity)]; norm_num)
      (by rw [abs_lt]; constructor <;> norm_num)
  rw [if_pos rfl, hr, show ((2 ^ 52 + 2 : Int) : ℝ) * 2 ^ (-52 : Int) - (1 + 2 ^ (-52 : Int)) * (1 + 2 ^ (-52 : Int))
    = ((-1 : Int) : ℝ) * 2 ^ (-104 : Int) by norm_num]
  have := double (-1) (-104) (by norm_num) (by norm_num) (by norm_num)
  rw [binary64_binary.round_exact this.1 this.2]
  congr 1
  norm_num

theorem C162_violated : ¬ C162_Statement := by
  intro h
  have hd := double (2 ^ 52 + 1) (-52) (by norm_num) (by norm_num) (by norm_num)
  have e : ((2 ^ 52 + 1 : Int) : ℝ) * 2 ^ (-52 : Int) = 1 + 2 ^ (-52 : Int) := by norm_num
  rw [e] at hd
  obtain ⟨s, h1, h2⟩ := h (1 + 2 ^ (-52 : Int)) (1 + 2 ^ (-52 : Int)) (by rw [abs_of_pos (by positivity)]; norm_num) hd.1 hd.1 []
    (fun _ => true) (fun _ => true)
  obtain ⟨t, h3, h4⟩ := C162_violated_value
  rw [List.nil_append, List.singleton_append, h3, Option.some.injEq] at h1
  rw [← h1, h4, X.fin_inj] at h2
  norm_num at h2

/-- C162, the part that holds: the value is 0 if the second product of the last push is not contracted or if `x * c` is a
number of the format; otherwise it is a rounding error of the product. -/
theorem C162_difference_partial (hF : F.Binary p emin) (hS : F.Odd) (hE : F.Err u η) {K : ℝ} (hK : IsRep p emin K) (hKf : F.fits K)
    {c x : ℝ} (hxc : |x * c| ≤ K) (ops : List (Op ((Nat → Bool) × ℝ))) (f g : Nat → Bool) (hu : u * |x * c| + η ≤ K) :
    ∃ (s : Impulse.Finite (X F)) (y : ℝ),
      Contracted.Finite.run [X.fin c, X.fin (-c)] (finK (ops ++ [.push (f, x)] ++ [.push (g, x)])) = some s ∧ s.value = X.fin y
      ∧ (g 1 = false ∨ IsRep p emin (x * c) → y = 0) ∧ |y| ≤ (1 + u) * (u * |x * c| + η) + η := by
  have hu0 := hE.u_nonneg
  have he0 := hE.eta_nonneg
  obtain ⟨s, h1, h2⟩ := C162_value hF hS hK hKf hxc ops f g
  have h3 := hE.err (x * c)
  have h4 := hE.err (F.rnd (x * c) - x * c)
  rw [round_within hF hK hKf (h3.trans hu)] at h2
  refine ⟨s, if g 1 then F.rnd (F.rnd (x * c) - x * c) else 0, h1, by rw [h2]; split_ifs <;> rfl, ?_, ?_⟩
  · rintro (h | h)
    · rw [if_neg (by simp [h])]
    · rw [hF.exact _ h, sub_self, hF.rnd_zero, ite_self]
  · split_ifs
    · have h5 := abs_add_le (F.rnd (x * c) - x * c) (F.rnd (F.rnd (x * c) - x * c) - (F.rnd (x * c) - x * c))
      rw [add_sub_cancel] at h5
      nlinarith
    · rw [abs_zero]; positivity

/-- Not contracted, the filter of the example is exact. -/
example : ∃ (s : Impulse.Finite (X binary64)) (y : ℝ),
    Contracted.Finite.run [X.fin (1 + 2 ^ (-52 : Int)), X.fin (-(1 + 2 ^ (-52 : Int)))]
      (finK ([.push (fun _ => true, 7)] ++ [.push (fun _ => true, 1 + 2 ^ (-52 : Int))] ++ [.push ((· == 0), 1 + 2 ^ (-52 : Int))])) = some s
      ∧ s.value = X.fin y ∧ y = 0 := by
  have hη : (2 : ℝ) ^ (-1075 : Int) ≤ 2 ^ (0 : Int) := zpow_le_zpow_right₀ (by norm_num) (by norm_num)
  have hK := binary64_int (n := 100) (by norm_num)
  obtain ⟨s, y, h1, h2, h3, -⟩ := C162_difference_partial binary64_binary (ieee_odd _ _ _) binary64_err hK.1 hK.2
    (c := 1 + 2 ^ (-52 : Int)) (x := 1 + 2 ^ (-52 : Int))
    (by rw [abs_of_pos (by positivity)]; norm_num) [.push (fun _ => true, 7)] (fun _ => true) (· == 0)
    (by rw [abs_of_pos (by positivity)]; norm_num at hη ⊢; linarith)
  exact ⟨s, y, h1, h2, h3 (Or.inl rfl)⟩

end Verif.Props
